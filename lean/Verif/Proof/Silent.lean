import Verif.Proof.KeepAlive
import Verif.Proof.Progress
/-! # An unanswered PINGREQ stays due (C89) -/

namespace Mqrstt
open Mqrstt.Spec

/-- a PINGREQ written not after `n` is unanswered -/
structure Hung (v : View) (n : Nat) : Prop where
  running : v.running = true
  await : ∃ t, v.await = some t ∧ t ≤ n

theorem VStep.hung {fl v o w n} (h : VStep fl v o w) (ho : ∀ x ∈ o, endsWait x = false) (hn : Hung v n) : Hung w n := by
  obtain ⟨hr, t, ht, hle⟩ := hn
  cases h
  case pingReq hw _ _ => rw [hw] at ht; cases ht
  case quiet => exact ⟨hr, t, ht, hle⟩
  case client => exact ⟨hr, t, ht, hle⟩
  case wait => exact ⟨hr, t, ht, hle⟩
  case accepted => exact ⟨hr, t, ht, hle⟩
  case outOk => exact ⟨hr, t, ht, hle⟩
  all_goals first
    | (simp_all; done)
    | (simp [endsWait] at ho; done)
    | (rename_i e _ _ _ _; exact absurd (ho (.ended (.error e)) (by simp)) (by simp [endsWait]))

theorem VRun.hung {fl v tr w n} (h : VRun fl v tr w) (hn : Hung v n) : (∀ x ∈ tr, endsWait x = false) → Hung w n := by
  refine h.induct (fun tr w => (∀ x ∈ tr, endsWait x = false) → Hung w n) (fun _ => hn) ?_
  intro tr w o w' _ ih hs hw
  exact hs.hung (fun x hx => hw x (by simp [hx])) (ih fun x hx => hw x (by simp [hx]))

theorem VRun.is_hung {fl o t tr v} (h : VRun fl (View.init o t) tr v) (hu : unanswered tr = true) : Hung v v.now := by
  have hw := h.waits
  have hc := h.clock
  refine ⟨?_, ?_⟩
  · cases hr : v.running with
    | true => rfl
    | false => rw [hw.idle hr] at hu; cases hu
  · cases ha : v.await with
    | none => rw [hw.await ha] at hu; cases hu
    | some t => exact ⟨t, rfl, hc.await t ha⟩

theorem Tokio.timeout_due {s : Tokio} {n : Nat} {T : Times} (hl : s.network.isSome = true)
    (ha : s.sys.alive = true) (hT : T.ok s.now = true) (hs : Hung s.view n) (hdue : n + s.options.keepAlive ≤ T.fire) :
    ∃ s', s.step (.turn .timer 0 true T) =
        some (s', [.wrote keepAliveDisconnect T.fire T.first, .ended (.status .keepAliveTimeout)]) := by
  obtain ⟨c, hc⟩ := Option.isSome_iff_exists.1 hl
  obtain ⟨-, t, ht, hle⟩ := hs
  have hr : s.run = some (some t) := by
    cases h : s.run with
    | none => simp [Tokio.view, h] at ht
    | some a => simp only [Tokio.view, h, Option.join_some] at ht; rw [ht]
  have hle := Times.le hT
  have hw2 : writePacket keepAliveDisconnect true = .ok () := rfl
  have hover : ∀ s2 : Tokio, s2.options = s.options → s2.sleepOver (some t) T = true := by
    intro s2 e1
    simp only [sleepOver, deadline, e1, decide_eq_true_eq]
    omega
  simp only [step, turn, hr, hc, hT, ha, Bool.and_self, if_true, canLose_zero, onTimer]
  rw [if_pos]
  · simp only [hw2]
    exact ⟨_, rfl⟩
  · apply hover
    rfl

theorem Smol.timeout_due {s : Smol} {n : Nat} {T : Times} (hl : s.network.isSome = true)
    (ha : s.sys.alive = true) (hp : s.perform = true) (hT : T.ok s.now = true) (hs : Hung s.view n)
    (hdue : n + s.keepAlive ≤ T.fire) :
    ∃ s', s.step (.turn .timer true T) =
        some (s', [.wrote keepAliveDisconnect T.fire T.first, .ended (.status .keepAliveTimeout)]) := by
  obtain ⟨c, hc⟩ := Option.isSome_iff_exists.1 hl
  obtain ⟨hr, t, ht, hle⟩ := hs
  have ht' : s.await = some t := ht
  have hr' : s.running = true := hr
  have hle := Times.le hT
  have hw2 : writePacket keepAliveDisconnect true = .ok () := rfl
  simp only [step, turn, hr', hc, hT, ha, Bool.and_self, if_true, onTimer]
  rw [if_pos]
  · simp [ht', hw2, finish]
  · simp only [sleepOver, sleep, hp, ht', decide_eq_true_eq, Bool.true_eq_false, if_false]; omega


/-- only a run with keep-alive on waits for a PINGRESP -/
def Pinged (v : View) (u : Bool) : Prop := u = true → v.perform = true

theorem VStep.pinged {fl v o w} {u : Bool} (hu : v.sys.Users) (h : VStep fl v o w) (hw : Waits v u) (hp : Pinged v u) :
    Pinged w (o.foldl pingStep u) := by
  have hw' := h.waits hu hw
  cases h
  case client => rw [List.foldl_cons, user_pingStep]; exact hp
  case drop => rw [List.foldl_cons, user_pingStep]; exact hp
  case pingReq _ hp _ => exact fun _ => hp
  case accepted T p sys reply shown hR hf hs =>
    rw [List.foldl_append, shownObs_ping hf]
    have : (wrotes T reply.toList).foldl pingStep u = u := by
      apply wrotes_ping
      intro q hq
      have := Sys.step_answer hs
      rintro rfl
      cases this <;> simp at hq
    rw [this]
    exact hp
  case outOk hR hs hd =>
    simp only [List.foldl_cons, List.foldl_nil, fromUser_pingStep (written_fromUser hu hs (.inl rfl))]
    exact hp
  all_goals first
    | exact hp
    | (intro h; rw [hw'.idle ‹v.running = false›] at h; cases h)
    | (intro h; rw [hw'.idle rfl] at h; cases h)
    | (intro h; cases h)

theorem VRun.pinged {fl o t tr v} (h : VRun fl (View.init o t) tr v) : Pinged v (unanswered tr) := by
  refine h.induct (fun tr v => Pinged v (unanswered tr)) (fun h => by cases h) ?_
  intro tr w o w' hr ih hs
  rw [unanswered_append]
  exact hs.pinged hr.users hr.waits ih

theorem unanswered_stays {o : List Obs} (h : ∀ x ∈ o, endsWait x = false) : o.foldl pingStep true = true := by
  induction o with
  | nil => rfl
  | cons x o ih =>
    have hx := h x (by simp)
    have e : pingStep true x = true := by
      unfold pingStep
      split <;> first | rfl | (simp [endsWait] at hx)
    rw [List.foldl_cons, e]
    exact ih fun y hy => h y (by simp [hy])

theorem Tokio.timer_early {s : Tokio} {io : Bool} {n : Nat} {T : Times} (hr : s.run = some none)
    (h : T.fire < s.lastAction + s.options.keepAlive) : s.step (.turn .timer n io T) = none := by
  have hover : ∀ s2 : Tokio, s2.options = s.options → s2.lastAction = s.lastAction → s2.sleepOver none T = false := by
    intro s2 e1 e2
    simp only [sleepOver, deadline, e1, e2, decide_eq_false_iff_not]
    omega
  simp only [step, turn, onTimer, hr]
  split
  · rename_i await c e _
    cases e
    split
    · split
      · rw [if_neg]
        apply Bool.eq_false_iff.1
        apply hover <;> rfl
      · rfl
    · rfl
  · rfl

end Mqrstt
