import Verif.Proof.ConnectsDrop
import Verif.Props.Connects
import Verif.Props.Interrupt
/-! # Every connection is requested with the configured options, also after futures have been dropped (C64) -/

namespace Mqrstt.Props
open Mqrstt Mqrstt.Spec _root_.Spec

/-- **C64.** smol: every CONNECT ever written says what was configured, also if the futures of `run` and `connect` were dropped
anywhere, and also the CONNECT of a `connect` that is dropped itself. -/
theorem C64_dropped_smol (id : Str) (calls : List Setter) (checks : Bool) (t : Nat) (ops : List SmolWireOp) (c : Connect) (a b : Nat)
    (h : .wrote (.connect c) a b ∈ smolWireTrace checks (Options.build id calls) t ops) :
    SaysConfigured id calls c ∧ (keepAliveSeconds calls < 65536 → c.keepAlive.toNat = keepAliveSeconds calls) := by
  obtain ⟨pre, post, h⟩ := List.append_of_mem h
  obtain ⟨ops1, op, ops2, s', o1, o2, -, h1, -, -⟩ := history_split SmolWire.step h
  obtain ⟨hg, hu, ho⟩ := ConnectsDrop.smol_kept checks (Options.build id calls) t ops1
  have hc := ConnectsDrop.sm_connect (s := ((SmolWire.new checks (Options.build id calls) t).runOps ops1).1) hg hu h1 (c := c) (a := a) (b := b) (by simp)
  rw [ho] at hc
  obtain ⟨c', h2, h3⟩ := C18_fields_partial id calls
  obtain rfl : c' = c := by
    have := hc.trans h2
    cases this; rfl
  exact h3

/-- **C64.** tokio, the part that holds, also if futures were dropped anywhere: everything but the keep-alive time is as configured
in every CONNECT; the keep-alive time is, until a server has named another one. -/
theorem C64_dropped_tokio_partial (id : Str) (calls : List Setter) (t : Nat) (ops : List TokioWireOp) (c : Connect) (a b : Nat)
    (pre post : List Obs) (h : tokioWireTrace (Options.build id calls) t ops = pre ++ .wrote (.connect c) a b :: post) :
    SaysConfigured id calls c ∧
      ((∀ c', .read (.connAck c') ∈ pre → c'.serverKeepAlive = none) → keepAliveSeconds calls < 65536 →
        c.keepAlive.toNat = keepAliveSeconds calls) := by
  obtain ⟨ops1, op, ops2, s', o1, o2, -, h1, rfl, -⟩ := history_split TokioWire.step h
  obtain ⟨hu, ⟨k, hk⟩, hn⟩ := ConnectsDrop.tokio_kept (Options.build id calls) t ops1
  have hc := ConnectsDrop.tk_connect (s := ((TokioWire.new (Options.build id calls) t).runOps ops1).1) hu h1 (c := c) (a := a) (b := b) (by simp)
  obtain ⟨c', h2, h3, h4⟩ := C18_fields_partial id calls
  rw [hk] at hc hn
  constructor
  · cases h2
    cases hc
    exact ⟨h3.1, h3.2, h3.3, h3.4, h3.5, h3.6, h3.7, h3.8, h3.9, h3.10, h3.11⟩
  · intro hr
    have hkk : k = (Options.build id calls).keepAlive := hn fun c' hc' => hr c' (List.mem_append_left _ hc')
    rw [hkk] at hc
    obtain rfl : c' = c := by
      have := hc.trans h2
      cases this; rfl
    exact h4

/-- a `connect` is dropped while it waits for the answer, then another is made -/
def smolTwiceAsked : List SmolWireOp := [.dropConnect ⟨true, [resumedConnAck], true, at' 1⟩ (.waiting true)] ++ (smolUp.map .op)
def tokioTwiceAsked : List TokioWireOp := [.dropConnect ⟨true, [], false, fun _ => true, true, at' 1⟩ (.waiting true)] ++ (tokioUp.map .op)

/-- both CONNECTs are seen -/
example : ∃ c a b c' a' b' post, smolWireTrace true resumeOptions 0 smolTwiceAsked =
    .wrote (.connect c) a b :: .cancelled :: .wrote (.connect c') a' b' :: post ∧ c.keepAlive = 10 ∧ c'.keepAlive = 10 :=
  ⟨_, _, _, _, _, _, _, rfl, rfl, rfl⟩

example : ∃ c a b c' a' b' post, tokioWireTrace resumeOptions 0 tokioTwiceAsked =
    .wrote (.connect c) a b :: .cancelled :: .wrote (.connect c') a' b' :: post ∧ c.keepAlive = 10 ∧ c'.keepAlive = 10 :=
  ⟨_, _, _, _, _, _, _, rfl, rfl, rfl⟩

end Mqrstt.Props
