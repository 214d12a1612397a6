import Verif.Proof.Connects
import Verif.Props.Options
import Verif.Props.KeepAlive
/-!
# C64: every connection is asked for with the configured options
-/

namespace Mqrstt.Props
open Mqrstt Mqrstt.Spec _root_.Spec

/-- **C64.** smol: every CONNECT ever written, on the first and on every later connection and whatever the servers answered,
says what was configured. (From 65,536 s on the keep-alive is wrong for another reason, see C18.) -/
theorem C64_connect_smol (id : Str) (calls : List Setter) (checks : Bool) (t : Nat) (ops : List SmolOp) (c : Connect) (a b : Nat)
    (h : .wrote (.connect c) a b ∈ smolTrace checks (Options.build id calls) t ops) :
    SaysConfigured id calls c ∧ (keepAliveSeconds calls < 65536 → c.keepAlive.toNat = keepAliveSeconds calls) := by
  obtain ⟨pre, post, h⟩ := List.append_of_mem h
  obtain ⟨c', h1, h2⟩ := C18_fields_partial id calls
  obtain rfl : c' = c := by
    have := (smol_connect h).trans h1
    cases this; rfl
  exact h2

/-- **C64.** tokio, the part that holds: everything but the keep-alive time is as configured in every CONNECT; the keep-alive
time is, until a server has named another one. -/
theorem C64_connect_tokio_partial (id : Str) (calls : List Setter) (t : Nat) (ops : List TokioOp) (c : Connect) (a b : Nat)
    (pre post : List Obs) (h : tokioTrace (Options.build id calls) t ops = pre ++ .wrote (.connect c) a b :: post) :
    SaysConfigured id calls c ∧
      ((∀ c', .read (.connAck c') ∈ pre → c'.serverKeepAlive = none) → keepAliveSeconds calls < 65536 →
        c.keepAlive.toNat = keepAliveSeconds calls) := by
  obtain ⟨c', h1, h2, h3⟩ := C18_fields_partial id calls
  have hc := tokio_connect h
  constructor
  · cases h1
    cases hc
    exact ⟨h2.1, h2.2, h2.3, h2.4, h2.5, h2.6, h2.7, h2.8, h2.9, h2.10, h2.11⟩
  · intro hn
    rw [ka_interval_none _ _ hn] at hc
    obtain rfl : c' = c := by
      have := hc.trans h1
      cases this; rfl
    exact h3

/-- **C64 is violated** in the tokio network: with 10 s configured, after a server that asked for 5 s, the next CONNECT
announces 5 s. -/
theorem C64_connect_tokio_violated :
    ∃ pre c a b post, tokioTrace netOptions 0 tokioTwice = pre ++ .wrote (.connect c) a b :: post ∧
      netOptions = Options.build ⟨[97], by decide⟩ [.keepAlive (fromSecs 10)] ∧
      keepAliveSeconds [.keepAlive (fromSecs 10)] = 10 ∧ c.keepAlive = 5 :=
  ⟨(tokioTrace netOptions 0 tokioTwice).take 6, _, _, _, _, rfl, rfl, rfl, rfl⟩

/-- the same history of the smol network: both say 10 s -/
example : ∃ c a b post, smolTrace true netOptions 0 smolTwice = .wrote (.connect c) a b :: post ∧ c.keepAlive = 10 :=
  ⟨_, _, _, _, rfl, rfl⟩

example : ∃ pre c a b post, pre ≠ [] ∧ smolTrace true netOptions 0 smolTwice = pre ++ .wrote (.connect c) a b :: post ∧
    c.keepAlive = 10 :=
  ⟨(smolTrace true netOptions 0 smolTwice).take 6, _, _, _, _, by decide, rfl, rfl⟩

end Mqrstt.Props
