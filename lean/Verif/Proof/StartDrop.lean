import Verif.Proof.KeepAliveDrop
/-!
# When `run` starts, in histories with dropped futures (C36)
-/

namespace Mqrstt
namespace StartDrop
open Mqrstt.Spec _root_.Spec KeepAliveDrop

theorem start_step {fl v1 v2 o1 o2} (h2 : VStep fl v1 (o1 ++ .started :: o2) v2) : o1 = [] ∧ v1.live = true := by
  have : AllPos (fun o1 x _ => x = .started → o1 = [] ∧ v1.live = true) (o1 ++ .started :: o2) := by
    generalize o1 ++ Obs.started :: o2 = ob at h2
    cases h2
    case start => simpa
    case accepted => rename_i reply shown _ _ _; cases shown <;> cases reply <;> simp [shownObs, wrotes]
    case acceptedFail => rename_i shown _ _ _ _ _; cases shown <;> simp [shownObs]
    case connectFailed ho => rcases ho with rfl | ⟨_, _, _, rfl⟩ <;> simp
    case established => simp; exact allPos_wrotes (by simp) (by simp)
    case establishFail => simp; exact allPos_wrotes (by simp) (by simp)
    all_goals simp
  exact this _ _ _ rfl rfl

theorem none_step {fl v1 v2 o1 o2} (h2 : VStep fl v1 (o1 ++ .ended (.error .noNetwork) :: o2) v2) : o1 = [] ∧ v1.live = false := by
  have : AllPos (fun o1 x _ => x = .ended (.error .noNetwork) → o1 = [] ∧ v1.live = false)
      (o1 ++ .ended (.error .noNetwork) :: o2) := by
    generalize o1 ++ Obs.ended (.error .noNetwork) :: o2 = ob at h2
    cases h2
    case noNetwork => simpa
    case accepted => rename_i reply shown _ _ _; cases shown <;> cases reply <;> simp [shownObs, wrotes]
    case acceptedFail he _ => rename_i shown _ _ _ _; cases shown <;> simp [shownObs, he.1]
    case readPingFail he => simp [he.1]
    case outFail he _ => simp [he.1]
    case connectFailed ho => rcases ho with rfl | ⟨_, _, _, rfl⟩ <;> simp
    case established => simp; exact allPos_wrotes (by simp) (by simp)
    case establishFail => simp; exact allPos_wrotes (by simp) (by simp)
    all_goals simp [*]
  exact this _ _ _ rfl rfl

/-- the state knows whether there is a connection, and `run` has always found out -/
structure Ups (v : View) (tr : List Obs) : Prop where
  up : v.live = isUp tr
  started : ∀ pre post, tr = pre ++ Obs.started :: post → isUp pre = true
  none : ∀ pre post, tr = pre ++ Obs.ended (.error .noNetwork) :: post → isUp pre = false

theorem Ups.init (o : Options) (t : Nat) : Ups (View.init o t) [] := ⟨rfl, by simp, by simp⟩

theorem Ups.vstep {fl v w tr ob} (h : Ups v tr) (hs : VStep fl v ob w) : Ups w (tr ++ ob) where
  up := by rw [isUp_append, ← h.up]; exact hs.up.1
  started pre post e := by
    rcases split e with ⟨post', e⟩ | ⟨o1, rfl, rfl⟩
    · exact h.started _ _ e
    · obtain ⟨rfl, hl⟩ := start_step hs
      rw [List.append_nil, ← h.up]
      exact hl
  none pre post e := by
    rcases split e with ⟨post', e⟩ | ⟨o1, rfl, rfl⟩
    · exact h.none _ _ e
    · obtain ⟨rfl, hl⟩ := none_step hs
      rw [List.append_nil, ← h.up]
      exact hl

theorem Ups.other {v w tr ob} (h : Ups v tr) (hl : w.live = ob.foldl upStep v.live) (h1 : Obs.started ∉ ob)
    (h2 : Obs.ended (.error .noNetwork) ∉ ob) : Ups w (tr ++ ob) where
  up := by rw [isUp_append, ← h.up]; exact hl
  started pre post e := by
    rcases split e with ⟨post', e⟩ | ⟨o1, rfl, rfl⟩
    · exact h.started _ _ e
    · exact absurd (by simp) h1
  none pre post e := by
    rcases split e with ⟨post', e⟩ | ⟨o1, rfl, rfl⟩
    · exact h.none _ _ e
    · exact absurd (by simp) h2

theorem outward_up (l : List Obs) (s : Bool) : l.foldl upStep s = (outward l).foldl upStep s := by
  induction l generalizing s with
  | nil => rfl
  | cons x l ih =>
    rw [List.foldl_cons, ih]
    by_cases hx : outward [x] = []
    · have : upStep s x = s := by
        cases x <;> first | rfl | (simp [outward] at hx; done)
      rw [this, show x :: l = [x] ++ l from rfl, outward_append, hx, List.nil_append]
    · have : outward [x] = [x] := by
        revert hx
        unfold outward
        rw [List.filter_cons]
        split <;> simp
      rw [show x :: l = [x] ++ l from rfl, outward_append, this]
      rfl

theorem OnlyRead.up {ob : List Obs} (h : OnlyRead ob) (s : Bool) : ob.foldl upStep s = s := by
  obtain ⟨seen, rfl, h⟩ := h
  rw [List.foldl_append]
  have : seen.foldl upStep s = s := by
    induction seen with
    | nil => rfl
    | cons x seen ih =>
      have : upStep s x = s := by
        obtain ⟨p, rfl | rfl⟩ := h x (by simp) <;> rfl
      rw [List.foldl_cons, this]
      exact ih fun x hx => h x (by simp [hx])
  rw [this]
  rfl

theorem OnlyRead.no_start {ob : List Obs} (h : OnlyRead ob) : Obs.started ∉ ob := by
  obtain ⟨seen, rfl, h⟩ := h
  intro hm
  rcases List.mem_append.1 hm with hm | hm
  · obtain ⟨p, e | e⟩ := h _ hm <;> cases e
  · simp at hm

/-! ## tokio -/

theorem tk_live {s s' : TokioWire} {b : TokioBranch} {d : DropAt} {lost : Nat} {T : Times} {ob : List Obs}
    (h : s.drop b d lost T = some (s', ob)) : s'.net.network.isSome = s.net.network.isSome := by
  unfold TokioWire.drop TokioWire.dropRead TokioWire.dropOutgoing TokioWire.dropTimer at h
  simp only [TokioWire.cut] at h
  split at h
  · rename_i hl
    split at h
    · repeat' split at h
      all_goals first
        | (cases h; done)
        | (cases h; simp [hl])
    · cases h
  · cases h

theorem tk_ended {s s' : Tokio} {i : TokioConnect} {d : ConnectDropAt} {ob : List Obs} {e : End} (h : s.dropConnect i d = some (s', ob)) :
    Obs.ended e ∉ ob := by
  simp only [Tokio.dropConnect] at h
  repeat' split at h
  all_goals first
    | (cases h; done)
    | (cases h; simp; done)
    | (cases h; split <;> simp; done)
    | (cases h
       intro hm
       simp only [List.mem_append, List.mem_cons, List.not_mem_nil, or_false, reduceCtorEq, false_or] at hm
       obtain ⟨p, e⟩ := Tokio.writePackets_wrote _ _ _ _ _ hm
       cases e)

theorem tokio (o : Options) (t : Nat) (ops : List TokioWireOp) :
    Ups ((TokioWire.new o t).runOps ops).1.net.view ((TokioWire.new o t).runOps ops).2 := by
  refine history_induct TokioWire.step (fun s tr => Ups s.net.view tr) (s := TokioWire.new o t) (Ups.init o t) ?_ ops
  intro s tr op s' ob h1 hs
  cases op with
  | op op =>
    simp only [TokioWire.step] at hs
    split at hs
    · rename_i hn
      cases hs
      exact h1.vstep (Tokio.step_vstep hn)
    · cases hs
  | drop b d lost T =>
    have hs : s.drop b d lost T = some (s', ob) := hs
    obtain ⟨-, hob⟩ := tk_cut hs
    exact h1.other ((tk_live hs).trans (OnlyRead.up hob _).symm) (OnlyRead.no_start hob) (hob.no_end _)
  | dropConnect i d =>
    obtain ⟨i', obs', -, hn', -, hsame, -⟩ := TokioWire.dropConnect_failed hs
    simp only [TokioWire.step] at hs
    split at hs
    · rename_i hd
      cases hs
      refine h1.other ?_ (tk_started hd) (tk_ended hd)
      rw [outward_up, ← hsame.outward, ← outward_up]
      exact (Tokio.step_vstep hn').up.1
    · cases hs

/-! ## smol -/

theorem sm_live {s s' : SmolWire} {b : SmolBranch} {d : DropAt} {T : Times} {ob : List Obs}
    (h : s.drop b d T = some (s', ob)) : s'.net.network.isSome = s.net.network.isSome := by
  unfold SmolWire.drop SmolWire.dropRead SmolWire.dropOutgoing SmolWire.dropTimer at h
  simp only [SmolWire.cut] at h
  split at h
  · rename_i hl
    split at h
    · repeat' split at h
      all_goals first
        | (cases h; done)
        | (cases h; simp [hl])
    · cases h
  · cases h

theorem sm_ended {s s' : Smol} {i : SmolConnect} {d : ConnectDropAt} {ob : List Obs} {e : End} (h : s.dropConnect i d = some (s', ob)) :
    Obs.ended e ∉ ob := by
  simp only [Smol.dropConnect] at h
  repeat' split at h
  all_goals first
    | (cases h; done)
    | (cases h; simp; done)
    | (cases h; split <;> simp; done)
    | (cases h
       intro hm
       simp only [List.mem_append, List.mem_cons, List.not_mem_nil, or_false, reduceCtorEq, false_or] at hm
       obtain ⟨p, e⟩ := Tokio.writePackets_wrote _ _ _ _ _ hm
       cases e)

theorem smol (k : Bool) (o : Options) (t : Nat) (ops : List SmolWireOp) :
    Ups ((SmolWire.new k o t).runOps ops).1.net.view ((SmolWire.new k o t).runOps ops).2 := by
  have := history_induct SmolWire.step (fun s tr => s.net.Good ∧ Ups s.net.view tr) (s := SmolWire.new k o t)
    ⟨⟨rfl, by simp [SmolWire.new, Smol.new]⟩, Ups.init o t⟩ ?_ ops
  · exact this.2
  rintro s tr op s' ob ⟨hg, h1⟩ hs
  cases op with
  | op op =>
    simp only [SmolWire.step] at hs
    split at hs
    · rename_i hn
      cases hs
      obtain ⟨hv, hg'⟩ := Smol.step_vstep hg hn
      exact ⟨hg', h1.vstep hv⟩
    · cases hs
  | drop b d T =>
    have hs : s.drop b d T = some (s', ob) := hs
    obtain ⟨-, hob⟩ := sm_cut hs
    exact ⟨(SmolWire.drop_facts hs).good hg,
      h1.other ((sm_live hs).trans (OnlyRead.up hob _).symm) (OnlyRead.no_start hob) (hob.no_end _)⟩
  | dropConnect i d =>
    obtain ⟨i', obs', -, hn', -, hsame, -⟩ := SmolWire.dropConnect_failed hs
    simp only [SmolWire.step] at hs
    split at hs
    · rename_i hd
      cases hs
      obtain ⟨hv, hg'⟩ := Smol.step_vstep hg hn'
      refine ⟨hg', h1.other ?_ (sm_started hd) (sm_ended hd)⟩
      rw [outward_up, ← hsame.outward, ← outward_up]
      exact hv.up.1
    · cases hs

end StartDrop
end Mqrstt
