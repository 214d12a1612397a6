import Verif.Proof.KeepAlive
import Verif.Proof.ConnectsDrop
/-!
# Keep-alive in histories with dropped futures (C40, C43)
-/

namespace Mqrstt
namespace KeepAliveDrop
open Mqrstt.Spec _root_.Spec

/-- what the proofs of C40 and C43 know of the state -/
structure Timed (configured : Nat) (v : View) (tr : List Obs) : Prop where
  users : v.sys.Users
  ka : v.ka = Spec.ka configured tr
  clock : Mqrstt.Clock v
  acts : Acts v (activity tr)
  waits : Waits v (unanswered tr)
  pos : v.live = true → v.perform = true → v.keepAlive ≠ 0

theorem pos_step {fl v ob w} (hs : VStep fl v ob w) (ih : v.live = true → v.perform = true → v.keepAlive ≠ 0) :
    w.live = true → w.perform = true → w.keepAlive ≠ 0 := by
  cases hs
  case established =>
    intro _ hp
    simp only [View.afterConnAck] at hp ⊢
    intro h0
    simp [h0] at hp
  case establishFail =>
    intro _ hp
    simp only [View.afterConnAck] at hp ⊢
    intro h0
    simp [h0] at hp
  case establishErr =>
    intro _ hp
    simp only [View.afterConnAck] at hp ⊢
    intro h0
    simp [h0] at hp
  case establishPanic => simp
  all_goals first | exact ih | simp [View.finish]

theorem Timed.init (o : Options) (t : Nat) : Timed o.keepAlive (View.init o t) [] :=
  ⟨.init o, rfl, ⟨Nat.le_refl _, by simp [View.init]⟩, ⟨rfl, by simp [View.init]⟩, ⟨fun _ => rfl, fun _ => rfl⟩, by simp [View.init]⟩

theorem Timed.vstep {k fl v w tr ob} (h : Timed k v tr) (hs : VStep fl v ob w) : Timed k w (tr ++ ob) where
  users := ConnectsDrop.VStep.users hs h.users
  ka := by rw [ka_append, ← h.ka]; exact hs.ka
  clock := (hs.clock h.clock).1
  acts := by rw [activity_append]; exact hs.acts h.clock h.acts
  waits := by rw [unanswered_append]; exact hs.waits h.users h.waits
  pos := pos_step hs h.pos

/-! ## `run` is dropped -/

/-- only reading and delivering is observed before the drop -/
def OnlyRead (ob : List Obs) : Prop := ∃ seen, ob = seen ++ [.cancelled] ∧ ∀ x ∈ seen, ∃ p, x = .read p ∨ x = .delivered p

/-- how the state looks after `run` has been dropped -/
structure Cut (v w : View) : Prop where
  was : v.running = true
  is : w.running = false
  keepAlive : w.keepAlive = v.keepAlive
  perform : w.perform = v.perform
  last : w.lastAction = v.lastAction
  now : v.now ≤ w.now
  await : w.await = none ∨ w.await = v.await
  live : w.live = true → v.live = true

theorem seen_ka {seen : List Obs} (h : ∀ x ∈ seen, ∃ p, x = .read p ∨ x = .delivered p) {s : Ka} (hs : s.running = true) :
    seen.foldl kaStep s = s := by
  induction seen with
  | nil => rfl
  | cons x seen ih =>
    have : kaStep s x = s := by
      obtain ⟨p, rfl | rfl⟩ := h x (by simp)
      · exact kaStep_running hs p
      · rfl
    rw [List.foldl_cons, this]
    exact ih fun x hx => h x (by simp [hx])

theorem seen_act {seen : List Obs} (h : ∀ x ∈ seen, ∃ p, x = .read p ∨ x = .delivered p) (s : Activity) :
    seen.foldl actStep s = s := by
  induction seen with
  | nil => rfl
  | cons x seen ih =>
    have : actStep s x = s := by
      obtain ⟨p, rfl | rfl⟩ := h x (by simp) <;> rfl
    rw [List.foldl_cons, this]
    exact ih fun x hx => h x (by simp [hx])

theorem Timed.cut {k v w tr ob} (h : Timed k v tr) (hc : Cut v w) (hob : OnlyRead ob) (hu : w.sys.Users) : Timed k w (tr ++ ob) := by
  obtain ⟨seen, rfl, hseen⟩ := hob
  refine ⟨hu, ?_, ⟨?_, ?_⟩, ?_, ?_, ?_⟩
  · rw [ka_append, ← h.ka, List.foldl_append, seen_ka hseen hc.was]
    simp [View.ka, kaStep, hc.is, hc.keepAlive, hc.perform]
  · rw [hc.last]; exact Nat.le_trans h.clock.action hc.now
  · intro t ht
    rcases hc.await with e | e
    · rw [e] at ht; cases ht
    · exact Nat.le_trans (h.clock.await t (e ▸ ht)) hc.now
  · rw [activity_append, List.foldl_append, seen_act hseen]
    exact ⟨hc.is.symm, fun hl => by rw [hc.last]; exact h.acts.last (hc.live hl)⟩
  · rw [unanswered_append, List.foldl_append]
    exact ⟨fun _ => rfl, fun _ => rfl⟩
  · intro hl hp
    rw [hc.keepAlive]
    exact h.pos (hc.live hl) (hc.perform ▸ hp)

/-! ## `connect` is dropped -/

theorem mem_outward {l : List Obs} : Obs.started ∈ outward l ↔ Obs.started ∈ l := by simp [outward]

theorem outward_append (a b : List Obs) : outward (a ++ b) = outward a ++ outward b := by simp [outward]

theorem outward_ka {l : List Obs} (h : Obs.started ∉ l) {s : Ka} (hs : s.running = false) :
    l.foldl kaStep s = (outward l).foldl kaStep s := by
  induction l generalizing s with
  | nil => rfl
  | cons x l ih =>
    simp only [List.mem_cons, not_or] at h
    have hk : (kaStep s x).running = false := by
      unfold kaStep
      split <;> try split
      all_goals first | exact hs | rfl | exact absurd rfl h.1
    rw [List.foldl_cons, ih h.2 hk]
    by_cases hx : outward [x] = []
    · have : kaStep s x = s := by
        cases x <;> first | rfl | (simp [outward] at hx; done) | simp [kaStep, ← hs]
      rw [this, show x :: l = [x] ++ l from rfl, outward_append, hx, List.nil_append]
    · have : outward [x] = [x] := by
        revert hx
        unfold outward
        rw [List.filter_cons]
        split <;> simp
      rw [show x :: l = [x] ++ l from rfl, outward_append, this]
      rfl

theorem outward_act {l : List Obs} (h : Obs.started ∉ l) {s : Activity} (hs : s.running = false) :
    l.foldl actStep s = (outward l).foldl actStep s := by
  induction l generalizing s with
  | nil => rfl
  | cons x l ih =>
    simp only [List.mem_cons, not_or] at h
    have hk : (actStep s x).running = false := by
      unfold actStep
      split <;> try split
      all_goals first | exact hs | rfl | exact absurd rfl h.1
    rw [List.foldl_cons, ih h.2 hk]
    by_cases hx : outward [x] = []
    · have : actStep s x = s := by
        cases x <;> first | rfl | (simp [outward] at hx; done) | simp [actStep, ← hs]
      rw [this, show x :: l = [x] ++ l from rfl, outward_append, hx, List.nil_append]
    · have : outward [x] = [x] := by
        revert hx
        unfold outward
        rw [List.filter_cons]
        split <;> simp
      rw [show x :: l = [x] ++ l from rfl, outward_append, this]
      rfl

theorem no_ping {l : List Obs} (h : ∀ a b, Obs.wrote .pingReq a b ∉ l) : l.foldl pingStep false = false := by
  induction l with
  | nil => rfl
  | cons x l ih =>
    simp only [List.mem_cons, not_or] at h
    have : pingStep false x = false := by
      unfold pingStep
      split <;> first | rfl | exact absurd rfl (h _ _).1
    rw [List.foldl_cons, this]
    exact ih fun a b => (h a b).2

theorem ping_outward {l : List Obs} {a b : Nat} : Obs.wrote .pingReq a b ∈ outward l ↔ Obs.wrote .pingReq a b ∈ l := by
  simp [outward]

theorem idle_no_ping {fl v ob w} (hu : v.sys.Users) (hs : VStep fl v ob w) (hr : v.running = false) (a b : Nat) :
    Obs.wrote .pingReq a b ∉ ob := by
  intro hm
  obtain ⟨o1, o2, rfl⟩ := List.append_of_mem hm
  have := (pingReq_step hu hs).2.1
  rw [hr] at this
  cases this

theorem Timed.attempt {k fl v w tr ob ob'} (h : Timed k v tr) (hs : VStep fl v ob' w) (hsame : outward ob' = outward ob)
    (hr : v.running = false) (hst : Obs.started ∉ ob) : Timed k w (tr ++ ob) := by
  have hst' : Obs.started ∉ ob' := fun hm => hst (mem_outward.1 (hsame ▸ mem_outward.2 hm))
  have h' := h.vstep hs
  have hu : unanswered tr = false := h.waits.idle hr
  refine ⟨h'.users, ?_, h'.clock, ?_, ?_, h'.pos⟩
  · rw [h'.ka, ka_append, ka_append, ← h.ka, outward_ka hst' hr, outward_ka hst hr, hsame]
  · have ha : (activity tr).running = false := h.acts.running.trans hr
    have := h'.acts
    rwa [activity_append, outward_act hst' ha, hsame, ← outward_act hst ha, ← activity_append] at this
  · have : unanswered (tr ++ ob) = false := by
      rw [unanswered_append, hu]
      exact no_ping fun a b hm => idle_no_ping h.users hs hr a b (ping_outward.1 (hsame ▸ ping_outward.2 hm))
    rw [this]
    exact ⟨fun _ => rfl, fun _ => rfl⟩

/-! ## a PINGREQ -/

/-- what C40 says of the history before a PINGREQ written at `a` -/
def Due (k : Nat) (pre : List Obs) (a : Nat) : Prop :=
  isRunning pre = true ∧ (ka k pre).on = true ∧ (ka k pre).interval ≠ 0 ∧ unanswered pre = false ∧
    lastActivity pre + (ka k pre).interval ≤ a

theorem split {tr ob pre post : List Obs} {x : Obs} (h : tr ++ ob = pre ++ x :: post) :
    (∃ post', tr = pre ++ x :: post') ∨ ∃ o1, pre = tr ++ o1 ∧ ob = o1 ++ x :: post := by
  rcases List.append_eq_append_iff.1 h with ⟨a, h1, h2⟩ | ⟨a, h1, h2⟩
  · exact .inr ⟨a, h1, h2⟩
  · cases a with
    | nil => exact .inr ⟨[], by simpa using h1.symm, by simpa using h2.symm⟩
    | cons y a =>
      simp only [List.cons_append, List.cons.injEq] at h2
      obtain ⟨rfl, h2⟩ := h2
      exact .inl ⟨a, h1⟩

theorem Timed.due {k fl v w tr ob pre post a b} (h : Timed k v tr) (hrun : v.running = isRunning tr) (hs : VStep fl v ob w)
    (ih : ∀ pre post a b, tr = pre ++ .wrote .pingReq a b :: post → Due k pre a)
    (e : tr ++ ob = pre ++ .wrote .pingReq a b :: post) : Due k pre a := by
  rcases split e with ⟨post', e⟩ | ⟨o1, rfl, rfl⟩
  · exact ih _ _ _ _ e
  · obtain ⟨rfl, hr, hl, hw, hp, hd⟩ := pingReq_step h.users hs
    rw [List.append_nil]
    unfold Due
    rw [← h.ka]
    refine ⟨hrun.symm.trans hr, hp, h.pos hl hp, h.waits.await hw, ?_⟩
    have := h.acts.last hl
    have : lastActivity tr ≤ v.lastAction := this
    simp only [View.ka]
    omega

theorem not_due {k : Nat} {tr ob pre post : List Obs} {a b : Nat}
    (ih : ∀ pre post a b, tr = pre ++ .wrote .pingReq a b :: post → Due k pre a) (hn : ∀ a b, Obs.wrote .pingReq a b ∉ ob)
    (e : tr ++ ob = pre ++ .wrote .pingReq a b :: post) : Due k pre a := by
  rcases split e with ⟨post', e⟩ | ⟨o1, rfl, rfl⟩
  · exact ih _ _ _ _ e
  · exact absurd (by simp) (hn a b)

theorem OnlyRead.no_ping {ob : List Obs} (h : OnlyRead ob) (a b : Nat) : Obs.wrote .pingReq a b ∉ ob := by
  obtain ⟨seen, rfl, h⟩ := h
  intro hm
  rcases List.mem_append.1 hm with hm | hm
  · obtain ⟨p, e | e⟩ := h _ hm <;> cases e
  · simp at hm

theorem Timed.idle {k v tr} (h : Timed k v tr) : v.running = isRunning tr := by
  have : ∀ (l : List Obs) (s : Ka), (l.foldl kaStep s).running = l.foldl runStep s.running := by
    intro l
    induction l with
    | nil => intro s; rfl
    | cons x l ih =>
      intro s
      rw [List.foldl_cons, List.foldl_cons, ih]
      congr 1
      unfold kaStep runStep
      split <;> first | rfl | (split <;> rfl) | grind
  have h1 := congrArg Ka.running h.ka
  exact h1.trans (this _ _)

/-! ## tokio -/

theorem tk_cut {s s' : TokioWire} {b : TokioBranch} {d : DropAt} {lost : Nat} {T : Times} {ob : List Obs}
    (h : s.drop b d lost T = some (s', ob)) : Cut s.net.view s'.net.view ∧ OnlyRead ob := by
  unfold TokioWire.drop TokioWire.dropRead TokioWire.dropOutgoing TokioWire.dropTimer at h
  simp only [TokioWire.cut] at h
  split at h
  · rename_i aw c hr hl
    split at h
    · rename_i hT
      simp only [Bool.and_eq_true] at hT
      have hT := Times.le hT.1
      have hnow : s.net.now ≤ T.second := by omega
      repeat' split at h
      all_goals first
        | (cases h; done)
        | (cases h
           refine ⟨⟨by simp [Tokio.view, hr], rfl, rfl, rfl, rfl, hnow, .inl rfl, fun _ => by simp [Tokio.view, hl]⟩, ?_⟩
           first
             | exact ⟨[], rfl, by simp⟩
             | exact ⟨[_], rfl, by simp⟩
             | exact ⟨_, rfl, by simp⟩)
    · cases h
  · cases h

theorem tk_started {s s' : Tokio} {i : TokioConnect} {d : ConnectDropAt} {ob : List Obs} (h : s.dropConnect i d = some (s', ob)) :
    Obs.started ∉ ob := by
  simp only [Tokio.dropConnect] at h
  repeat' split at h
  all_goals first
    | (cases h; done)
    | (cases h; simp; done)
    | (cases h; split <;> simp; done)
    | (cases h
       intro hm
       simp only [List.mem_append, List.mem_cons, List.not_mem_nil, or_false, reduceCtorEq, false_or] at hm
       obtain ⟨p, e⟩ := Tokio.writePackets_wrote _ _ _ _ _ hm
       cases e)

theorem tokio (o : Options) (t : Nat) (ops : List TokioWireOp) :
    Timed o.keepAlive ((TokioWire.new o t).runOps ops).1.net.view ((TokioWire.new o t).runOps ops).2 ∧
    ∀ pre post a b, ((TokioWire.new o t).runOps ops).2 = pre ++ .wrote .pingReq a b :: post → Due o.keepAlive pre a := by
  refine history_induct TokioWire.step (fun s tr => Timed o.keepAlive s.net.view tr ∧
    ∀ pre post a b, tr = pre ++ .wrote .pingReq a b :: post → Due o.keepAlive pre a) (s := TokioWire.new o t)
    ⟨Timed.init o t, by simp⟩ ?_ ops
  rintro s tr op s' ob ⟨h1, h2⟩ hs
  cases op with
  | op op =>
    simp only [TokioWire.step] at hs
    split at hs
    · rename_i hn
      cases hs
      have hv := Tokio.step_vstep hn
      exact ⟨h1.vstep hv, fun pre post a b e => h1.due h1.idle hv h2 e⟩
    · cases hs
  | drop b d lost T =>
    have hs : s.drop b d lost T = some (s', ob) := hs
    obtain ⟨hc, hob⟩ := tk_cut hs
    exact ⟨h1.cut hc hob (ConnectsDrop.Quietly.users (TokioWire.drop_facts hs).sys h1.users), fun pre post a b e => not_due h2 hob.no_ping e⟩
  | dropConnect i d =>
    obtain ⟨i', obs', -, hn', -, hsame, -⟩ := TokioWire.dropConnect_failed hs
    simp only [TokioWire.step] at hs
    split at hs
    · rename_i hd
      cases hs
      have hr : s.net.view.running = false := by simp [Tokio.view, Tokio.dropConnect_idle hd]
      have hv := Tokio.step_vstep hn'
      refine ⟨h1.attempt hv hsame.outward hr (tk_started hd), fun pre post a b e => not_due h2 ?_ e⟩
      exact fun a b hm => idle_no_ping h1.users hv hr a b (ping_outward.1 (hsame.outward ▸ ping_outward.2 hm))
    · cases hs

/-! ## smol -/

theorem sm_cut {s s' : SmolWire} {b : SmolBranch} {d : DropAt} {T : Times} {ob : List Obs}
    (h : s.drop b d T = some (s', ob)) : Cut s.net.view s'.net.view ∧ OnlyRead ob := by
  unfold SmolWire.drop SmolWire.dropRead SmolWire.dropOutgoing SmolWire.dropTimer at h
  simp only [SmolWire.cut] at h
  split at h
  · rename_i c hl
    split at h
    · rename_i hT
      simp only [Bool.and_eq_true] at hT
      have hr := hT.2
      have hT := Times.le hT.1.1
      have hnow : s.net.now ≤ T.second := by omega
      repeat' split at h
      all_goals first
        | (cases h; done)
        | (cases h
           refine ⟨⟨hr, rfl, rfl, rfl, rfl, hnow, by first | exact .inl rfl | exact .inr rfl, fun _ => by simp [Smol.view, hl]⟩, ?_⟩
           first
             | exact ⟨[], rfl, by simp⟩
             | exact ⟨[_], rfl, by simp⟩
             | exact ⟨_, rfl, by simp⟩)
    · cases h
  · cases h

theorem sm_started {s s' : Smol} {i : SmolConnect} {d : ConnectDropAt} {ob : List Obs} (h : s.dropConnect i d = some (s', ob)) :
    Obs.started ∉ ob := by
  simp only [Smol.dropConnect] at h
  repeat' split at h
  all_goals first
    | (cases h; done)
    | (cases h; simp; done)
    | (cases h; split <;> simp; done)

theorem smol (k : Bool) (o : Options) (t : Nat) (ops : List SmolWireOp) :
    Timed o.keepAlive ((SmolWire.new k o t).runOps ops).1.net.view ((SmolWire.new k o t).runOps ops).2 ∧
    ∀ pre post a b, ((SmolWire.new k o t).runOps ops).2 = pre ++ .wrote .pingReq a b :: post → Due o.keepAlive pre a := by
  have := history_induct SmolWire.step (fun s tr => s.net.Good ∧ Timed o.keepAlive s.net.view tr ∧
    ∀ pre post a b, tr = pre ++ .wrote .pingReq a b :: post → Due o.keepAlive pre a) (s := SmolWire.new k o t)
    ⟨⟨rfl, by simp [SmolWire.new, Smol.new]⟩, Timed.init o t, by simp⟩ ?_ ops
  · exact this.2
  rintro s tr op s' ob ⟨hg, h1, h2⟩ hs
  cases op with
  | op op =>
    simp only [SmolWire.step] at hs
    split at hs
    · rename_i hn
      cases hs
      obtain ⟨hv, hg'⟩ := Smol.step_vstep hg hn
      exact ⟨hg', h1.vstep hv, fun pre post a b e => h1.due h1.idle hv h2 e⟩
    · cases hs
  | drop b d T =>
    have hs : s.drop b d T = some (s', ob) := hs
    obtain ⟨hc, hob⟩ := sm_cut hs
    have hf := SmolWire.drop_facts hs
    exact ⟨hf.good hg, h1.cut hc hob (ConnectsDrop.Quietly.users hf.sys h1.users), fun pre post a b e => not_due h2 hob.no_ping e⟩
  | dropConnect i d =>
    obtain ⟨i', obs', -, hn', -, hsame, -⟩ := SmolWire.dropConnect_failed hs
    simp only [SmolWire.step] at hs
    split at hs
    · rename_i hd
      cases hs
      have hr : s.net.view.running = false := Smol.dropConnect_idle hd
      obtain ⟨hv, hg'⟩ := Smol.step_vstep hg hn'
      refine ⟨hg', h1.attempt hv hsame.outward hr (sm_started hd), fun pre post a b e => not_due h2 ?_ e⟩
      exact fun a b hm => idle_no_ping h1.users hv hr a b (ping_outward.1 (hsame.outward ▸ ping_outward.2 hm))
    · cases hs

/-! ## timeouts (tokio) -/

theorem stays_idle {l : List Obs} (h : Obs.started ∉ l) {s : Ka} (hs : s.running = false) : (l.foldl kaStep s).running = false := by
  induction l generalizing s with
  | nil => exact hs
  | cons x l ih =>
    simp only [List.mem_cons, not_or] at h
    refine ih h.2 ?_
    unfold kaStep
    split <;> try split
    all_goals first | exact hs | rfl | exact absurd rfl h.1

theorem not_justified {k : Nat} {tr ob pre post : List Obs}
    (ih : ∀ pre post, tr = pre ++ .ended (.status .keepAliveTimeout) :: post → TimeoutJustified k pre)
    (hn : Obs.ended (.status .keepAliveTimeout) ∉ ob)
    (e : tr ++ ob = pre ++ .ended (.status .keepAliveTimeout) :: post) : TimeoutJustified k pre := by
  rcases split e with ⟨post', e⟩ | ⟨o1, rfl, rfl⟩
  · exact ih _ _ e
  · exact absurd (by simp) hn

theorem Timed.justified {k v w tr ob pre post} (h : Timed k v tr) (hw : Waiting tr v) (hs : VStep .tokio v ob w)
    (ih : ∀ pre post, tr = pre ++ .ended (.status .keepAliveTimeout) :: post → TimeoutJustified k pre)
    (e : tr ++ ob = pre ++ .ended (.status .keepAliveTimeout) :: post) : TimeoutJustified k pre := by
  rcases split e with ⟨post', e⟩ | ⟨o1, rfl, rfl⟩
  · exact ih _ _ e
  · obtain ⟨c, d, rfl, hr, ht⟩ := timeout_step hs
    have hka : Spec.ka k (tr ++ [.wrote keepAliveDisconnect c d]) = v.ka := by
      rw [ka_append, ← h.ka]; rfl
    rcases ht with ⟨t, ht, hd⟩ | ⟨hf, -⟩
    · obtain ⟨-, p1, p2, a, b, rfl, h3, h4⟩ := hw t ht
      refine ⟨p1, p2, a, b, c, d, by simp, h3, ?_⟩
      rw [hka]
      simp only [View.ka]
      omega
    · cases hf

theorem idle_no_timeout {fl v ob w} (hs : VStep fl v ob w) (hr : v.running = false) : Obs.ended (.status .keepAliveTimeout) ∉ ob := by
  intro hm
  obtain ⟨o1, o2, rfl⟩ := List.append_of_mem hm
  obtain ⟨-, -, -, h, -⟩ := timeout_step hs
  rw [hr] at h
  cases h

theorem ended_outward {l : List Obs} {e : End} : Obs.ended e ∈ outward l ↔ Obs.ended e ∈ l := by simp [outward]

theorem OnlyRead.no_end {ob : List Obs} (h : OnlyRead ob) (e : End) : Obs.ended e ∉ ob := by
  obtain ⟨seen, rfl, h⟩ := h
  intro hm
  rcases List.mem_append.1 hm with hm | hm
  · obtain ⟨p, e | e⟩ := h _ hm <;> cases e
  · simp at hm

theorem tokio_timeouts (o : Options) (t : Nat) (ops : List TokioWireOp) (pre post : List Obs)
    (e : ((TokioWire.new o t).runOps ops).2 = pre ++ .ended (.status .keepAliveTimeout) :: post) : TimeoutJustified o.keepAlive pre := by
  have := history_induct TokioWire.step (fun s tr => Timed o.keepAlive s.net.view tr ∧ Waiting tr s.net.view ∧
    ∀ pre post, tr = pre ++ Obs.ended (.status .keepAliveTimeout) :: post → TimeoutJustified o.keepAlive pre) (s := TokioWire.new o t)
    ⟨Timed.init o t, ⟨fun _ h => Option.some_ne_none _ h.symm |>.elim, by simp⟩⟩ ?_ ops
  · exact this.2.2 pre post e
  rintro s tr op s' ob ⟨h1, h2, h3⟩ hs
  cases op with
  | op op =>
    simp only [TokioWire.step] at hs
    split at hs
    · rename_i hn
      cases hs
      have hv := Tokio.step_vstep hn
      exact ⟨h1.vstep hv, hv.waiting (.inl rfl) h2, fun pre post e => h1.justified h2 hv h3 e⟩
    · cases hs
  | drop b d lost T =>
    have hs : s.drop b d lost T = some (s', ob) := hs
    obtain ⟨hc, hob⟩ := tk_cut hs
    refine ⟨h1.cut hc hob (ConnectsDrop.Quietly.users (TokioWire.drop_facts hs).sys h1.users), fun t ht => ?_,
      fun pre post e => not_justified h3 (hob.no_end _) e⟩
    have : s'.net.run.isSome = false := hc.is
    rw [Option.isSome_eq_false_iff, Option.isNone_iff_eq_none] at this
    simp [Tokio.view, this] at ht
  | dropConnect i d =>
    obtain ⟨i', obs', -, hn', -, hsame, -⟩ := TokioWire.dropConnect_failed hs
    simp only [TokioWire.step] at hs
    split at hs
    · rename_i hd
      cases hs
      have hr : s.net.view.running = false := by simp [Tokio.view, Tokio.dropConnect_idle hd]
      have hv := Tokio.step_vstep hn'
      have h1' := h1.attempt hv hsame.outward hr (tk_started hd)
      refine ⟨h1', fun t ht => ?_, fun pre post e => not_justified h3 ?_ e⟩
      · have hw := (hv.waiting (.inl rfl) h2 t ht).1
        have := congrArg Ka.running h1'.ka
        rw [ka_append, ← h1.ka, stays_idle (tk_started hd) hr] at this
        exact Bool.noConfusion (hw.symm.trans this)
      · exact fun hm => idle_no_timeout hv hr (ended_outward.1 (hsame.outward ▸ ended_outward.2 hm))
    · cases hs

end KeepAliveDrop
end Mqrstt
