import Verif.Proof.TokioView
import Verif.Proof.SmolView
/-! # Histories of either network as sequences of `VStep` -/

namespace Mqrstt

/-- a sequence of steps with all its observations -/
inductive VRun (fl : Flavor) (v : View) : List Obs → View → Prop where
  | nil : VRun fl v [] v
  | snoc {tr o w w'} (h : VRun fl v tr w) (hs : VStep fl w o w') : VRun fl v (tr ++ o) w'

/-- a new network -/
def View.init (o : Options) (now : Nat) : View := ⟨o.sys, o.keepAlive, true, now, none, false, false, now⟩

theorem Tokio.vrun (o : Options) (t : Nat) (ops : List TokioOp) :
    VRun .tokio (View.init o t) ((Tokio.new o t).runOps ops).2 ((Tokio.new o t).runOps ops).1.view :=
  history_induct Tokio.step (fun s tr => VRun .tokio (View.init o t) tr s.view) .nil
    (fun _ _ _ _ _ h hs => h.snoc (Tokio.step_vstep hs)) ops

theorem Tokio.vrun_from (s : Tokio) (ops : List TokioOp) : VRun .tokio s.view (s.runOps ops).2 (s.runOps ops).1.view :=
  history_induct Tokio.step (fun s' tr => VRun .tokio s.view tr s'.view) .nil
    (fun _ _ _ _ _ h hs => h.snoc (Tokio.step_vstep hs)) ops

theorem Smol.vrun_from (s : Smol) (hg : s.Good) (ops : List SmolOp) :
    VRun .smol s.view (s.runOps ops).2 (s.runOps ops).1.view :=
  (history_induct Smol.step (fun s' tr => VRun .smol s.view tr s'.view ∧ s'.Good) ⟨.nil, hg⟩
    (fun _ _ _ _ _ h hs => ⟨h.1.snoc (Smol.step_vstep h.2 hs).1, (Smol.step_vstep h.2 hs).2⟩) ops).1

theorem Smol.vrun_good (checks : Bool) (o : Options) (t : Nat) (ops : List SmolOp) :
    VRun .smol (View.init o t) ((Smol.new checks o t).runOps ops).2 ((Smol.new checks o t).runOps ops).1.view ∧
      ((Smol.new checks o t).runOps ops).1.Good :=
  history_induct Smol.step (fun s tr => VRun .smol (View.init o t) tr s.view ∧ s.Good)
    ⟨.nil, rfl, by simp [Smol.new]⟩
    (fun _ _ _ _ _ h hs => ⟨h.1.snoc (Smol.step_vstep h.2 hs).1, (Smol.step_vstep h.2 hs).2⟩) ops

theorem Smol.vrun (checks : Bool) (o : Options) (t : Nat) (ops : List SmolOp) :
    VRun .smol (View.init o t) ((Smol.new checks o t).runOps ops).2 ((Smol.new checks o t).runOps ops).1.view :=
  (Smol.vrun_good checks o t ops).1

namespace VRun

theorem trans {fl u v w a b} (h1 : VRun fl u a v) (h2 : VRun fl v b w) : VRun fl u (a ++ b) w := by
  induction h2 with
  | nil => simpa using h1
  | snoc _ hs ih => rw [← List.append_assoc]; exact ih.snoc hs

/-- an invariant -/
theorem induct {fl v tr w} (h : VRun fl v tr w) (P : List Obs → View → Prop) (h0 : P [] v)
    (hs : ∀ tr w o w', VRun fl v tr w → P tr w → VStep fl w o w' → P (tr ++ o) w') : P tr w := by
  induction h with
  | nil => exact h0
  | snoc h1 h2 ih => exact hs _ _ _ _ h1 ih h2

/-- every observation was made in one of the steps -/
theorem split {fl v0 tr v} (h : VRun fl v0 tr v) {pre post : List Obs} {x : Obs} (e : tr = pre ++ x :: post) :
    ∃ v1 v2 tr1 o1 o2 tr2, VRun fl v0 tr1 v1 ∧ VStep fl v1 (o1 ++ x :: o2) v2 ∧ VRun fl v2 tr2 v ∧
      pre = tr1 ++ o1 ∧ post = o2 ++ tr2 := by
  induction h generalizing post with
  | nil => simp at e
  | @snoc tr o w w' h1 hs ih =>
    rcases List.append_eq_append_iff.1 e with ⟨a, ha, hb⟩ | ⟨a, ha, hb⟩
    · exact ⟨w, w', tr, a, post, [], h1, hb ▸ hs, .nil, ha, by simp⟩
    · cases a with
      | nil =>
        simp only [List.nil_append] at hb
        exact ⟨w, w', tr, [], post, [], h1, by rw [← hb] at hs; exact hs, .nil, by simpa using ha.symm, by simp⟩
      | cons y a =>
        simp only [List.cons_append, List.cons.injEq] at hb
        obtain ⟨rfl, rfl⟩ := hb
        obtain ⟨v1, v2, tr1, o1, o2, tr2, g1, g2, g3, g4, g5⟩ := ih ha
        exact ⟨v1, v2, tr1, o1, o2, tr2 ++ o, g1, g2, g3.snoc hs, g4, by rw [g5]; simp⟩

end VRun
end Mqrstt
