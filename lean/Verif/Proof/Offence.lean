import Verif.Model.Tokio
import Verif.Model.Smol
/-!
# A packet that the session refuses ends the turn that has read it
-/

namespace Mqrstt

theorem Tokio.finish_obs (s : Tokio) (obs : List Obs) (e : End) : (s.finish obs e).2 = obs ++ [.ended e] := rfl

theorem Tokio.onOutgoing_reads_nothing {s s' : Tokio} {io : Bool} {T : Times} {obs : List Obs} (p : Packet)
    (h : s.onOutgoing io T = some (s', obs)) : .read p ∉ obs := by
  unfold Tokio.onOutgoing at h
  repeat' split at h
  all_goals simp [Tokio.finish] at h
  all_goals
    obtain ⟨-, rfl⟩ := h
    simp

theorem Tokio.onTimer_reads_nothing {s s' : Tokio} {a : Option Nat} {io : Bool} {T : Times} {obs : List Obs} (p : Packet)
    (h : s.onTimer a io T = some (s', obs)) : .read p ∉ obs := by
  unfold Tokio.onTimer at h
  repeat' split at h
  all_goals simp [Tokio.finish] at h
  all_goals
    obtain ⟨-, rfl⟩ := h
    simp

theorem Tokio.onPacket_reads {s s' : Tokio} {q : Packet} {io : Bool} {T : Times} {obs : List Obs} (p : Packet)
    (h : s.onPacket q io T = some (s', obs)) (hp : .read p ∈ obs) : p = q := by
  unfold Tokio.onPacket at h
  repeat' split at h
  all_goals simp [Tokio.finish] at h
  all_goals
    obtain ⟨-, rfl⟩ := h
    revert hp
    repeat' split
    all_goals simp

theorem Smol.onOutgoing_reads_nothing {s s' : Smol} {io : Bool} {T : Times} {obs : List Obs} (p : Packet)
    (h : s.onOutgoing io T = some (s', obs)) : .read p ∉ obs := by
  unfold Smol.onOutgoing at h
  repeat' split at h
  all_goals simp [Smol.finish] at h
  all_goals
    obtain ⟨-, rfl⟩ := h
    simp

theorem Smol.onTimer_reads_nothing {s s' : Smol} {io : Bool} {T : Times} {obs : List Obs} (p : Packet)
    (h : s.onTimer io T = some (s', obs)) : .read p ∉ obs := by
  unfold Smol.onTimer at h
  repeat' split at h
  all_goals simp [Smol.finish] at h
  all_goals
    obtain ⟨-, rfl⟩ := h
    simp

theorem Smol.onPacket_reads {s s' : Smol} {q : Packet} {io : Bool} {T : Times} {obs : List Obs} (p : Packet)
    (h : s.onPacket q io T = some (s', obs)) (hp : .read p ∈ obs) : p = q := by
  unfold Smol.onPacket at h
  repeat' split at h
  all_goals simp [Smol.finish, Smol.flushOutgoing] at h
  all_goals
    first
    | obtain ⟨-, rfl⟩ := h
    | skip
  all_goals
    revert hp
    repeat' split at h
    all_goals
      first
      | (simp at h; obtain ⟨-, rfl⟩ := h)
      | skip
      repeat' split
      all_goals simp

/-- the packet is refused: the turn that reads it ends `run` with the error, and the session is what the refusal made of it -/
theorem Tokio.turn_refused {s s' : Tokio} {b : TokioBranch} {lost : Nat} {io : Bool} {T : Times} {obs : List Obs} {p : Packet}
    {sys : Sys} {e : HErr} (h : s.turn b lost io T = some (s', obs)) (hp : .read p ∈ obs) (h1 : p ≠ .pingResp)
    (h2 : ∀ d, p ≠ .disconnect d) (hs : s.sys.step (.receive p) = some (sys, .receivedError p e)) :
    obs = [.read p, .ended (.error (.handler e))] ∧ s'.network = none ∧ s'.run = none ∧ s'.sys = sys := by
  unfold Tokio.turn at h
  split at h
  · split at h
    · cases b with
      | read =>
        simp only [Tokio.onRead] at h
        split at h
        · rename_i q rest _
          obtain rfl := Tokio.onPacket_reads p h hp
          unfold Tokio.onPacket at h
          split at h
          · exact absurd rfl h1
          · exact absurd rfl (h2 _)
          · simp only [hs, Tokio.finish, Option.some.injEq, Prod.mk.injEq] at h
            obtain ⟨rfl, rfl⟩ := h
            simp
        all_goals
          first
          | (simp only [Tokio.finish, Option.some.injEq, Prod.mk.injEq] at h; obtain ⟨-, rfl⟩ := h; simp at hp)
          | (split at h
             · simp only [Tokio.finish, Option.some.injEq, Prod.mk.injEq] at h; obtain ⟨-, rfl⟩ := h; simp at hp
             · cases h)
      | readError =>
        simp only [Tokio.finish, Option.some.injEq, Prod.mk.injEq] at h
        obtain ⟨-, rfl⟩ := h
        simp at hp
      | outgoing =>
        simp only at h
        split at h
        · exact absurd hp (Tokio.onOutgoing_reads_nothing p h)
        · cases h
      | timer =>
        simp only at h
        split at h
        · exact absurd hp (Tokio.onTimer_reads_nothing p h)
        · cases h
    · cases h
  · cases h

theorem Smol.turn_refused {s s' : Smol} {b : SmolBranch} {io : Bool} {T : Times} {obs : List Obs} {p : Packet}
    {sys : Sys} {e : HErr} (h : s.turn b io T = some (s', obs)) (hp : .read p ∈ obs) (h1 : p ≠ .pingResp)
    (h2 : ∀ d, p ≠ .disconnect d) (hs : s.sys.step (.receive p) = some (sys, .receivedError p e)) :
    obs = [.read p, .ended (.error (.handler e))] ∧ s'.network = none ∧ s'.running = false ∧ s'.outgoing = [] ∧ s'.sys = sys := by
  unfold Smol.turn at h
  split at h
  · split at h
    · cases b with
      | read chunk =>
        simp only [Smol.onRead] at h
        split at h
        · simp only [Smol.finish, Option.some.injEq, Prod.mk.injEq] at h
          obtain ⟨-, rfl⟩ := h
          simp at hp
        split at h
        · cases h
        split at h
        · rename_i q rest _
          obtain rfl := Smol.onPacket_reads p h hp
          unfold Smol.onPacket at h
          split at h
          · exact absurd rfl h1
          · exact absurd rfl (h2 _)
          · simp only [hs, Smol.finish, Option.some.injEq, Prod.mk.injEq] at h
            obtain ⟨rfl, rfl⟩ := h
            simp
        all_goals
          simp only [Smol.finish, Option.some.injEq, Prod.mk.injEq] at h
          obtain ⟨-, rfl⟩ := h
          simp at hp
      | readError =>
        simp only [Smol.finish, Option.some.injEq, Prod.mk.injEq] at h
        obtain ⟨-, rfl⟩ := h
        simp at hp
      | outgoing => exact absurd hp (Smol.onOutgoing_reads_nothing p h)
      | timer => exact absurd hp (Smol.onTimer_reads_nothing p h)
    · cases h
  · cases h

/-- a turn needs the session to be alive -/
theorem Tokio.turn_alive {s : Tokio} {b : TokioBranch} {lost : Nat} {io : Bool} {T : Times} {x : Tokio × List Obs}
    (h : s.turn b lost io T = some x) : s.sys.alive = true := by
  unfold Tokio.turn at h
  split at h
  · split at h
    · rename_i hc
      exact (Bool.and_eq_true _ _ ▸ hc).2
    · cases h
  · cases h

theorem Smol.turn_alive {s : Smol} {b : SmolBranch} {io : Bool} {T : Times} {x : Smol × List Obs}
    (h : s.turn b io T = some x) : s.sys.alive = true := by
  unfold Smol.turn at h
  split at h
  · split at h
    · rename_i hc
      simp only [Bool.and_eq_true] at hc
      exact hc.1.2
    · cases h
  · cases h

end Mqrstt
