import Verif.Model.Clock
import Verif.Props.KeepAlive
import Verif.Props.Options
import Verif.Props.Connecting
/-!
# Keep-alive intervals and the end of the clock (C81)
-/

namespace Mqrstt.Props
open Mqrstt Mqrstt.Spec _root_.Spec

/-- no interval is longer than the configured one or a server's -/
theorem ka_interval_le (configured : Nat) (hc : configured ≤ 65535 * 1000000000) (tr : List Obs) :
    (ka configured tr).interval ≤ 65535 * 1000000000 := by
  suffices h : ∀ (tr : List Obs) (k : Ka), k.interval ≤ 65535 * 1000000000 → (tr.foldl kaStep k).interval ≤ 65535 * 1000000000 from
    h tr _ hc
  intro tr
  induction tr with
  | nil => exact fun _ h => h
  | cons x tr ih =>
    intro k hk
    refine ih _ ?_
    cases x <;> try exact hk
    case read p =>
      cases p <;> try exact hk
      case connAck c =>
        simp only [kaStep]
        split
        · exact hk
        · cases hs : c.serverKeepAlive with
          | none => exact hk
          | some n =>
            have := n.toNat_lt
            simp only [Option.map_some, Option.getD_some]
            omega

theorem keepAlive_le (id : Str) (calls : List Setter) (hk : keepAliveSeconds calls ≤ 65535) :
    (Options.build id calls).keepAlive ≤ 65535 * 1000000000 := by
  rw [(configured id calls).keepAlive]
  omega

/-- **C81 (partial).** With a keep-alive interval of at most 65,535 s configured, the longest one MQTT knows, no turn of `run` panics in
computing its timer, after any history, as long as the clock has 65,535 s left. Missing: longer intervals. -/
theorem C81_timer_partial (id : Str) (calls : List Setter) (hk : keepAliveSeconds calls ≤ 65535) (t latest : Nat) :
    (∀ ops await, (tokio (Options.build id calls) t ops).run = some await →
      (tokio (Options.build id calls) t ops).now + 65535 * 1000000000 ≤ latest →
      (tokio (Options.build id calls) t ops).sleepComputed latest await = true) ∧
    (∀ checks ops, (smol checks (Options.build id calls) t ops).now + 65535 * 1000000000 ≤ latest →
      (smol checks (Options.build id calls) t ops).sleepComputed latest = true) := by
  constructor
  · intro ops await hr hl
    have hc := (Tokio.vrun (Options.build id calls) t ops).clock
    have hi := (C43_interval_in_force_tokio (Options.build id calls) t ops).1
    have hb := ka_interval_le _ (keepAlive_le id calls hk) (tokioTrace (Options.build id calls) t ops)
    rw [← hi] at hb
    have h1 : (tokio (Options.build id calls) t ops).lastAction ≤ (tokio (Options.build id calls) t ops).now := hc.action
    cases await with
    | none =>
      simp only [Tokio.sleepComputed, addInstant]
      rw [if_pos (by omega)]
      rfl
    | some a =>
      have h2 : a ≤ (tokio (Options.build id calls) t ops).now :=
        hc.await a (by change (tokio (Options.build id calls) t ops).run.join = some a; rw [hr]; rfl)
      simp only [Tokio.sleepComputed, addInstant]
      rw [if_pos (by omega)]
      rfl
  · intro checks ops hl
    have hc := (Smol.vrun checks (Options.build id calls) t ops).clock
    have hi := (C43_interval_in_force_smol checks (Options.build id calls) t ops).1
    have hb := ka_interval_le _ (keepAlive_le id calls hk) (smolTrace checks (Options.build id calls) t ops)
    rw [← hi] at hb
    have h1 : (smol checks (Options.build id calls) t ops).lastAction ≤ (smol checks (Options.build id calls) t ops).now := hc.action
    unfold Smol.sleepComputed
    split
    · rfl
    · cases ha : (smol checks (Options.build id calls) t ops).await with
      | none =>
        simp only [addInstant]
        rw [if_pos (by omega)]
        rfl
      | some a =>
        have h2 : a ≤ (smol checks (Options.build id calls) t ops).now := hc.await a ha
        simp only [addInstant]
        rw [if_pos (by omega)]
        rfl

/-- `Duration::MAX`: 2⁶⁴ - 1 s and 999,999,999 ns -/
def durationMax : Nat := (2 ^ 64 - 1) * 1000000000 + 999999999

/-- "never ping", or so one might think -/
def neverPing : List Setter := [.keepAlive durationMax, .receiveMax 4, .sendMax 4]

/-- after an hour's keep-alive nothing panics; the clock of the example ends 200,000 s after it began -/
example : keepAliveSeconds [.keepAlive (fromSecs 3600), .receiveMax 4, .sendMax 4] ≤ 65535 ∧
    let s := tokio (Options.build ⟨[97], by decide⟩ [.keepAlive (fromSecs 3600), .receiveMax 4, .sendMax 4]) 0 tokioUp
    s.run = some none ∧ s.now + 65535 * 1000000000 ≤ fromSecs 200000 ∧ s.sleepComputed (fromSecs 200000) none = true :=
  ⟨by decide, rfl, by decide, rfl⟩

/-- **C81 is violated.** With the interval `Duration::MAX` and a server that does not name another one, `run` panics at once,
with both networks, on every platform whose clock ends less than 2⁶⁴ - 1 s after it began (on Linux it is 2⁶³ s). -/
theorem C81_timer_violated (latest : Nat) (h : latest < (2 ^ 64 - 1) * 1000000000) :
    (tokio (Options.build ⟨[97], by decide⟩ neverPing) 0 tokioUp).run = some none ∧
    (tokio (Options.build ⟨[97], by decide⟩ neverPing) 0 tokioUp).sleepComputed latest none = false ∧
    (smol true (Options.build ⟨[97], by decide⟩ neverPing) 0 smolUp).running = true ∧
    (smol true (Options.build ⟨[97], by decide⟩ neverPing) 0 smolUp).sleepComputed latest = false := by
  have k1 : (tokio (Options.build ⟨[97], by decide⟩ neverPing) 0 tokioUp).options.keepAlive = (2 ^ 64 - 1) * 1000000000 := rfl
  have k2 : (smol true (Options.build ⟨[97], by decide⟩ neverPing) 0 smolUp).keepAlive = (2 ^ 64 - 1) * 1000000000 := rfl
  have p2 : (smol true (Options.build ⟨[97], by decide⟩ neverPing) 0 smolUp).perform = true := rfl
  have w2 : (smol true (Options.build ⟨[97], by decide⟩ neverPing) 0 smolUp).await = none := rfl
  refine ⟨rfl, ?_, rfl, ?_⟩
  · simp only [Tokio.sleepComputed, addInstant, k1]
    rw [if_neg (by omega)]
    rfl
  · simp only [Smol.sleepComputed, addInstant, k2, p2, w2]
    rw [if_neg (by decide), if_neg (by omega)]
    rfl

end Mqrstt.Props
