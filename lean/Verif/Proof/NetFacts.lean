import Verif.Spec.Network
import Verif.Proof.Run
import Verif.Proof.Shapes
import Verif.Props.Client
/-! # What the steps of a network do to the session, and what is in the queue -/

namespace Mqrstt
open Spec Props

/-! ## the queue holds only packets of client calls -/

def Sys.Users (s : Sys) : Prop := ∀ p, p ∈ s.pending ∨ p ∈ s.queue → p.fromUser

theorem Sys.Users.init (o : Options) : o.sys.Users := by
  intro p hp
  simp [Options.sys, Sys.init] at hp

theorem Sys.Users.step {s s' : Sys} {op : Op} {e : Event} (hu : s.Users) (h : s.step op = some (s', e)) : s'.Users := by
  by_cases hop : (∃ k, op = .submit k) ∨ ∃ q, op = .call q
  · rcases hop with ⟨k, rfl⟩ | ⟨q, rfl⟩
    · simp only [Sys.step] at h
      split at h
      · simp at h
      · rename_i p hp
        have hmem : p ∈ s.pending := List.mem_of_getElem? hp
        split at h
        · split at h
          · simp only [Option.some.injEq, Prod.mk.injEq] at h
            obtain ⟨rfl, -⟩ := h
            intro x hx
            simp only [List.mem_append, List.mem_singleton] at hx
            rcases hx with hx | hx | rfl
            · exact hu x (.inl (List.mem_of_mem_eraseIdx hx))
            · exact hu x (.inr hx)
            · exact hu x (.inl hmem)
          · simp at h
        · simp only [Option.some.injEq, Prod.mk.injEq] at h
          obtain ⟨rfl, -⟩ := h
          intro x hx
          rcases hx with hx | hx
          · exact hu x (.inl (List.mem_of_mem_eraseIdx hx))
          · exact hu x (.inr hx)
    · rcases call_cases h with ⟨t, id', ht, hw⟩ | ⟨rfl, rfl, _⟩
      · have htq : t.queue = s.queue ∧ t.pending = s.pending := by
          cases ht <;> (rename_i ht; subst ht; exact ⟨rfl, rfl⟩)
        obtain ⟨p', hp, hc | ⟨rfl, x, rfl, _⟩⟩ := callWith_cases hw
        · obtain ⟨rfl, rfl, _⟩ := hc
          intro x hx
          simp only [htq, List.mem_append, List.mem_singleton] at hx
          rcases hx with (hx | rfl) | hx
          · exact hu x (.inl hx)
          · exact Request.packet_fromUser hp
          · exact hu x (.inr hx)
        · intro x hx
          rw [htq.1, htq.2] at hx
          exact hu x hx
      · exact hu
  · have h' := C49_nothing_else s s' op e h
    simp only [not_or, not_exists] at hop
    have h1 := h'.1 hop.1
    have h2 := h'.2 hop.2
    intro p hp
    rcases hp with hp | hp
    · exact hu p (.inl (h2.subset hp))
    · rcases h1 with h1 | ⟨q, h1⟩
      · exact hu p (.inr (h1 ▸ hp))
      · exact hu p (.inr (by rw [h1]; exact List.mem_cons_of_mem _ hp))

/-! ## alive -/

theorem Sys.step_alive {s s' : Sys} {op : Op} {e : Event} (h : s.step op = some (s', e)) (ha : s'.alive = true) :
    s.alive = true := by
  cases op with
  | call q =>
    rcases call_cases h with ⟨t, id', ht, hw⟩ | ⟨rfl, rfl, _⟩
    · have htq : t.alive = s.alive := by
        cases ht <;> (rename_i ht; subst ht; rfl)
      obtain ⟨p', hp, hc | ⟨rfl, x, rfl, _⟩⟩ := callWith_cases hw
      · obtain ⟨rfl, rfl, _⟩ := hc
        exact htq ▸ ha
      · exact htq ▸ ha
    · exact ha
  | submit k =>
    simp only [Sys.step] at h
    repeat' split at h
    all_goals simp only [Option.some.injEq, Prod.mk.injEq, reduceCtorEq] at h
    all_goals
      obtain ⟨rfl, -⟩ := h
      exact ha
  | abandon k =>
    simp only [Sys.step] at h
    repeat' split at h
    all_goals simp only [Option.some.injEq, Prod.mk.injEq, reduceCtorEq] at h
    all_goals
      obtain ⟨rfl, -⟩ := h
      exact ha
  | dropClients =>
    simp only [Sys.step, Option.some.injEq, Prod.mk.injEq] at h
    obtain ⟨rfl, -⟩ := h
    exact ha
  | dropNetwork =>
    simp only [Sys.step] at h
    split at h
    · assumption
    · simp at h
  | write ok =>
    simp only [Sys.step] at h
    split at h
    · assumption
    · simp at h
  | receive p =>
    simp only [Sys.step] at h
    split at h
    · assumption
    · simp at h
  | connAck c =>
    simp only [Sys.step] at h
    split at h
    · assumption
    · simp at h

/-! ## events of the clients -/

def Event.ofClient : Event → Bool
  | .called .. | .rejected .. | .submitted _ | .refused _ | .abandoned _ | .clientsDropped => true
  | _ => false

theorem Sys.step_ofClient {s s' : Sys} {op : Op} {e : Event} (hc : op.ofClient = true) (h : s.step op = some (s', e)) :
    e.ofClient = true := by
  cases op with
  | call q =>
    rcases call_cases h with ⟨t, id', ht, hw⟩ | ⟨rfl, rfl, _⟩
    · obtain ⟨p', hp, hc | ⟨rfl, x, rfl, _⟩⟩ := callWith_cases hw
      · obtain ⟨rfl, rfl, _⟩ := hc; rfl
      · rfl
    · rfl
  | submit k =>
    simp only [Sys.step] at h
    repeat' split at h
    all_goals simp only [Option.some.injEq, Prod.mk.injEq, reduceCtorEq] at h
    all_goals
      obtain ⟨-, rfl⟩ := h
      rfl
  | abandon k =>
    simp only [Sys.step] at h
    repeat' split at h
    all_goals simp only [Option.some.injEq, Prod.mk.injEq, reduceCtorEq] at h
    all_goals
      obtain ⟨-, rfl⟩ := h
      rfl
  | dropClients =>
    simp only [Sys.step, Option.some.injEq, Prod.mk.injEq] at h
    obtain ⟨-, rfl⟩ := h
    rfl
  | _ => simp [Op.ofClient] at hc

theorem Sys.step_drop {s s' : Sys} {e : Event} (h : s.step .dropNetwork = some (s', e)) :
    e = .networkDropped ∧ s' = s.die ∧ s.alive = true := by
  simp only [Sys.step] at h
  split at h
  · simp only [Option.some.injEq, Prod.mk.injEq] at h
    exact ⟨h.2.symm, h.1.symm, by assumption⟩
  · simp at h

theorem Sys.step_panicked_alive {s s' : Sys} {op : Op} (h : s.step op = some (s', .panicked)) : s'.alive = false := by
  cases op with
  | call q =>
    have := Sys.step_ofClient (op := .call q) rfl h; simp [Event.ofClient] at this
  | submit k => have := Sys.step_ofClient (op := .submit k) rfl h; simp [Event.ofClient] at this
  | abandon k => have := Sys.step_ofClient (op := .abandon k) rfl h; simp [Event.ofClient] at this
  | dropClients => have := Sys.step_ofClient (op := .dropClients) rfl h; simp [Event.ofClient] at this
  | dropNetwork => have := (Sys.step_drop h).1; simp at this
  | write ok =>
    simp only [Sys.step] at h
    repeat' split at h
    all_goals simp only [Option.some.injEq, Prod.mk.injEq, reduceCtorEq, and_false] at h
    obtain ⟨rfl, -⟩ := h
    rfl
  | receive p =>
    simp only [Sys.step] at h
    repeat' split at h
    all_goals simp only [Option.some.injEq, Prod.mk.injEq, reduceCtorEq, and_false] at h
    obtain ⟨rfl, -⟩ := h
    rfl
  | connAck c =>
    simp only [Sys.step] at h
    repeat' split at h
    all_goals simp only [Option.some.injEq, Prod.mk.injEq, reduceCtorEq, and_false] at h
    obtain ⟨rfl, -⟩ := h
    rfl

/-- steps that are not panics and not drops leave the network in existence -/
theorem Sys.step_stays_alive {s s' : Sys} {op : Op} {e : Event} (h : s.step op = some (s', e)) (ha : s.alive = true)
    (he : e ≠ .panicked) (he' : e ≠ .networkDropped) : s'.alive = true := by
  cases op with
  | call q =>
    rcases call_cases h with ⟨t, id', ht, hw⟩ | ⟨rfl, rfl, _⟩
    · have htq : t.alive = s.alive := by
        cases ht <;> (rename_i ht; subst ht; rfl)
      obtain ⟨p', hp, hc | ⟨rfl, x, rfl, _⟩⟩ := callWith_cases hw
      · obtain ⟨rfl, rfl, _⟩ := hc
        exact htq.trans ha
      · exact htq.trans ha
    · exact ha
  | submit k =>
    simp only [Sys.step] at h
    repeat' split at h
    all_goals simp only [Option.some.injEq, Prod.mk.injEq, reduceCtorEq] at h
    all_goals
      obtain ⟨rfl, -⟩ := h
      exact ha
  | abandon k =>
    simp only [Sys.step] at h
    repeat' split at h
    all_goals simp only [Option.some.injEq, Prod.mk.injEq, reduceCtorEq] at h
    all_goals
      obtain ⟨rfl, -⟩ := h
      exact ha
  | dropClients =>
    simp only [Sys.step, Option.some.injEq, Prod.mk.injEq] at h
    obtain ⟨rfl, -⟩ := h
    exact ha
  | dropNetwork => exact absurd (Sys.step_drop h).1 he'
  | write ok =>
    simp only [Sys.step] at h
    repeat' split at h
    all_goals simp only [Option.some.injEq, Prod.mk.injEq, reduceCtorEq] at h
    all_goals
      obtain ⟨rfl, rfl⟩ := h
      first | exact ha | exact absurd rfl he
  | receive p =>
    simp only [Sys.step] at h
    repeat' split at h
    all_goals simp only [Option.some.injEq, Prod.mk.injEq, reduceCtorEq] at h
    all_goals
      obtain ⟨rfl, rfl⟩ := h
      first | exact ha | exact absurd rfl he
  | connAck c =>
    simp only [Sys.step] at h
    repeat' split at h
    all_goals simp only [Option.some.injEq, Prod.mk.injEq, reduceCtorEq] at h
    all_goals
      obtain ⟨rfl, rfl⟩ := h
      first | exact ha | exact absurd rfl he

/-- a step of a network is at most one step of the session -/
inductive SysStep (s : Sys) (o : List Obs) (s' : Sys) : Prop where
  | same (h : s' = s)
  | step {op e} (h : s.step op = some (s', e))

theorem VStep.sysStep {fl v o w} (h : VStep fl v o w) : SysStep v.sys o w.sys := by
  cases h
  case crashed h => exact .step (op := .dropNetwork) (by simp [Sys.step, View.finish, h.alive]; rfl)
  case connectCrashed ha _ => exact .step (op := .dropNetwork) (by simp [Sys.step, ha]; rfl)
  all_goals first | exact .same rfl | exact .step ‹Sys.step _ _ = _›

theorem VRun.users {fl o t tr v} (h : VRun fl (View.init o t) tr v) : v.sys.Users := by
  refine h.induct (fun _ v => v.sys.Users) (Sys.Users.init o) ?_
  intro _ w _ w' _ hu hs
  rcases hs.sysStep with h | h
  · rw [h]; exact hu
  · exact hu.step h

/-! ## running and live are visible -/

theorem isUp_append (a b : List Obs) : isUp (a ++ b) = b.foldl upStep (isUp a) := by simp [isUp]
theorem isRunning_append (a b : List Obs) : isRunning (a ++ b) = b.foldl runStep (isRunning a) := by simp [isRunning]

theorem wrotes_up (T : Times) (ps : List Packet) (b : Bool) : (wrotes T ps).foldl upStep b = b := by
  induction ps with
  | nil => rfl
  | cons p ps ih => exact ih

theorem wrotes_run (T : Times) (ps : List Packet) (b : Bool) : (wrotes T ps).foldl runStep b = b := by
  induction ps with
  | nil => rfl
  | cons p ps ih => exact ih

theorem shownObs_up (p : Packet) (s b : Bool) : (shownObs p s).foldl upStep b = b := by
  cases s <;> rfl

theorem shownObs_run (p : Packet) (s b : Bool) : (shownObs p s).foldl runStep b = b := by
  cases s <;> rfl

theorem user_up {e : Event} (h : e.ofClient = true) (b : Bool) : upStep b (.user e) = b := by
  cases e <;> first | rfl | simp [Event.ofClient] at h

theorem VStep.up {fl v o w} (h : VStep fl v o w) : w.live = o.foldl upStep v.live ∧ w.running = o.foldl runStep v.running := by
  cases h
  case client hc hs => exact ⟨(user_up (Sys.step_ofClient hc hs) _).symm, rfl⟩
  case drop hs => rw [(Sys.step_drop hs).1]; exact ⟨rfl, rfl⟩
  case connectFailed ho => rcases ho with rfl | ⟨_, _, _, rfl⟩ <;> exact ⟨rfl, rfl⟩
  all_goals simp_all [List.foldl_append, wrotes_up, wrotes_run, shownObs_up, shownObs_run, upStep, runStep, View.finish, View.afterConnAck]

theorem VRun.up {fl o t tr v} (h : VRun fl (View.init o t) tr v) : v.live = isUp tr ∧ v.running = isRunning tr := by
  refine h.induct (fun tr v => v.live = isUp tr ∧ v.running = isRunning tr) ⟨rfl, rfl⟩ ?_
  intro tr w o w' _ ih hs
  rw [isUp_append, isRunning_append, ← ih.1, ← ih.2]
  exact hs.up

end Mqrstt
