import Verif.Props.Dropped
/-!
# Giving up `connect` (C82)
-/

namespace Mqrstt.Props
open Mqrstt Mqrstt.Spec _root_.Spec

/-- **C82.** A call of `connect` that is dropped, wherever it is, leaves the network and its clients in the state in which
a call that fails could have left them: put such a call in its place, and the history ends in the same state, with the same
bytes on the connection, and looks the same from outside. -/
theorem C82_dropped_is_failed (o : Options) (t : Nat) :
    (∀ ops : List TokioWireOp, ∃ ops' : List TokioWireOp, TokioInstead ops ops' ∧ tokioWire o t ops' = tokioWire o t ops ∧
      outward (tokioWireTrace o t ops') = outward (tokioWireTrace o t ops)) ∧
    (∀ (checks : Bool) (ops : List SmolWireOp), ∃ ops' : List SmolWireOp, SmolInstead ops ops' ∧
      smolWire checks o t ops' = smolWire checks o t ops ∧
      outward (smolWireTrace checks o t ops') = outward (smolWireTrace checks o t ops)) :=
  ⟨fun ops => tokio_instead ops (.new o t), fun checks ops => smol_instead ops (.new checks o t)⟩

/-- an attempt that is given up while the session is being resumed: PUBLISH 1 of QoS 2 is sent, the connection is lost, a first
`connect` is dropped `d`, a second one succeeds -/
def givenUp (d : ConnectDropAt) : List TokioWireOp :=
  (tokioUp ++ [.client (.call (demoPublish .exactlyOnce)), .client (.submit 0), .turn .outgoing 0 true (at' 2),
    .turn .readError 0 true (at' 3)] : List TokioOp).map .op ++
  [.dropConnect ⟨true, resumedConnAck, false, fun _ => true, true, at' 4⟩ d,
    .op (.connect ⟨true, resumedConnAck, false, fun _ => true, true, at' 5⟩)]

/-- dropped while the packets are sent again, it has written the message once more; dropped in the handler it has not; either
way the second `connect` does -/
example : (writtenIn (tokioWireTrace resumeOptions 0 (givenUp (.resending 1)))).map (·.type) =
      [.connect, .publish, .connect, .publish, .connect, .publish] ∧
    (writtenIn (tokioWireTrace resumeOptions 0 (givenUp .handling))).map (·.type) =
      [.connect, .publish, .connect, .connect, .publish] ∧
    (tokioWire resumeOptions 0 (givenUp .handling)).wire = (tokioWire resumeOptions 0 (givenUp (.resending 1))).wire :=
  ⟨rfl, rfl, rfl⟩

/-- **C82, for the other properties.** What is seen of a history in which calls of `connect` are dropped is what is seen of
one in which they fail. So all that the other theorems say about what is written, read, connected, told and shown holds of it. -/
theorem C82_history (o : Options) (t : Nat) :
    (∀ ops : List TokioWireOp, (∀ b d lost T, .drop b d lost T ∉ ops) →
      ∃ tr, IsTraceWith o tr ∧ outward tr = outward (tokioWireTrace o t ops)) ∧
    (∀ (checks : Bool) (ops : List SmolWireOp), (∀ b d T, .drop b d T ∉ ops) →
      ∃ tr, IsTraceWith o tr ∧ outward tr = outward (smolWireTrace checks o t ops)) := by
  constructor
  · intro ops hd
    obtain ⟨ops', h, -, h2⟩ := (C82_dropped_is_failed o t).1 ops
    obtain ⟨l, rfl⟩ := h.ops hd
    exact ⟨_, .tokio t l rfl, by rw [← h2]; exact congrArg outward (TokioWire.runOps_op l (.new o t)).2.symm⟩
  · intro checks ops hd
    obtain ⟨ops', h, -, h2⟩ := (C82_dropped_is_failed o t).2 checks ops
    obtain ⟨l, rfl⟩ := h.ops hd
    exact ⟨_, .smol checks t l rfl, by rw [← h2]; exact congrArg outward (SmolWire.runOps_op l (.new checks o t)).2.symm⟩

example : ∀ d b d' lost T, .drop b d' lost T ∉ givenUp d := by
  intro d b d' lost T h
  simp [givenUp, tokioUp] at h

/-- **C82, before the answer.** As long as the CONNACK has not been handed to the user's handler, a dropped call of `connect`
has changed nothing: the connection in use, the session, the queue, the keep-alive are what they were. -/
theorem C82_before_the_answer (written : Bool) :
    (∀ (s s' : TokioWire) (i : TokioConnect) (obs : List Obs), s.step (.dropConnect i (.waiting written)) = some (s', obs) →
      s' = { s with net := { s.net with now := s'.net.now } } ∧ s.net.now ≤ s'.net.now) ∧
    (∀ (s s' : SmolWire) (i : SmolConnect) (obs : List Obs), s.step (.dropConnect i (.waiting written)) = some (s', obs) →
      s' = { s with net := { s.net with now := s'.net.now } } ∧ s.net.now ≤ s'.net.now) := by
  constructor
  · intro s s' i obs h
    simp only [TokioWire.step, Tokio.dropConnect] at h
    split at h
    · rename_i hd
      split at hd
      · rename_i hok
        split at hd
        · cases hd
        · cases hd
          cases h
          simp only [Times.ok, Bool.and_eq_true, decide_eq_true_eq] at hok
          exact ⟨rfl, by simp; omega⟩
      · cases hd
    · cases h
  · intro s s' i obs h
    simp only [SmolWire.step, Smol.dropConnect] at h
    split at h
    · rename_i hd
      split at hd
      · rename_i hok
        split at hd
        · cases hd
        · cases hd
          cases h
          simp only [Times.ok, Bool.and_eq_true, decide_eq_true_eq] at hok
          exact ⟨rfl, by simp; omega⟩
      · cases hd
    · cases h

/-- CONNECT has been written, the answer has not come -/
example : ∃ s' obs, (tokioWire resumeOptions 0 []).step (.dropConnect ⟨true, [], false, fun _ => true, true, at' 4⟩ (.waiting true)) =
    some (s', obs) ∧ (writtenIn obs).length = 1 := ⟨_, _, rfl, rfl⟩
example : ∃ s' obs, (smolWire true resumeOptions 0 []).step (.dropConnect ⟨true, [], true, at' 4⟩ (.waiting true)) =
    some (s', obs) ∧ (writtenIn obs).length = 1 := ⟨_, _, rfl, rfl⟩

/-- **C82, after the answer.** From the handler on, the session is the one after this CONNACK; the connection in use is what it
was before the call: the new one is lost. -/
theorem C82_after_the_answer (d : ConnectDropAt) (hd : ∀ written, d ≠ .waiting written) :
    (∀ (s s' : TokioWire) (i : TokioConnect) (obs : List Obs), s.step (.dropConnect i d) = some (s', obs) →
      s'.net.network = s.net.network ∧ s'.wire = s.wire ∧ ∃ c ps, .read (.connAck c) ∈ obs ∧ c.reason = .success ∧
        s.net.sys.step (.connAck c) = some (s'.net.sys, .connected c ps)) ∧
    (∀ (s s' : SmolWire) (i : SmolConnect) (obs : List Obs), s.step (.dropConnect i d) = some (s', obs) →
      s'.net.network = s.net.network ∧ s'.wire = s.wire ∧ s'.buffer = s.buffer ∧ ∃ c ps, .read (.connAck c) ∈ obs ∧
        c.reason = .success ∧ s.net.sys.step (.connAck c) = some (s'.net.sys, .connected c ps)) := by
  constructor
  · intro s s' i obs h
    simp only [TokioWire.step, Tokio.dropConnect] at h
    split at h
    · rename_i hd'
      split at hd'
      · split at hd'
        · cases hd'
        · split at hd'
          · exact absurd rfl (hd _)
          · split at hd'
            · split at hd'
              · rename_i hc
                split at hd'
                · rename_i hs
                  simp only [Option.some.injEq, Prod.mk.injEq] at hd' h
                  obtain ⟨rfl, rfl⟩ := hd'
                  obtain ⟨rfl, rfl⟩ := h
                  exact ⟨rfl, rfl, _, _, by simp, hc, connected_self hs⟩
                · cases hd'
              · cases hd'
            · cases hd'
          · split at hd'
            · split at hd'
              · rename_i hc
                split at hd'
                · rename_i hs
                  simp only [Option.some.injEq, Prod.mk.injEq] at hd' h
                  obtain ⟨rfl, rfl⟩ := hd'
                  obtain ⟨rfl, rfl⟩ := h
                  exact ⟨rfl, rfl, _, _, by simp, hc, connected_self hs⟩
                · cases hd'
              · cases hd'
            · cases hd'
      · cases hd'
    · cases h
  · intro s s' i obs h
    simp only [SmolWire.step, Smol.dropConnect] at h
    split at h
    · rename_i hd'
      split at hd'
      · split at hd'
        · cases hd'
        · split at hd'
          · exact absurd rfl (hd _)
          · split at hd'
            · split at hd'
              · rename_i hc
                split at hd'
                · rename_i hs
                  simp only [Option.some.injEq, Prod.mk.injEq] at hd' h
                  obtain ⟨rfl, rfl⟩ := hd'
                  obtain ⟨rfl, rfl⟩ := h
                  exact ⟨rfl, rfl, rfl, _, _, by simp, hc, connected_self hs⟩
                · cases hd'
              · cases hd'
            · cases hd'
          · split at hd'
            · split at hd'
              · rename_i hc
                split at hd'
                · rename_i hs
                  simp only [Option.some.injEq, Prod.mk.injEq] at hd' h
                  obtain ⟨rfl, rfl⟩ := hd'
                  obtain ⟨rfl, rfl⟩ := h
                  exact ⟨rfl, rfl, rfl, _, _, by simp, hc, connected_self hs⟩
                · cases hd'
              · cases hd'
            · cases hd'
      · cases hd'
    · cases h

/-- a CONNACK without a session on an attempt that is given up ends the session: the message waits no longer to be sent again -/
example : let ops := (tokioUp ++ [.client (.call (demoPublish .atLeastOnce)), .client (.submit 0), .turn .outgoing 0 true (at' 2),
      .turn .readError 0 true (at' 3)] : List TokioOp).map .op
    ∃ s' obs, (tokioWire resumeOptions 0 ops).step (.dropConnect ⟨true, plainConnAck, false, fun _ => true, true, at' 4⟩ .handling) =
      some (s', obs) ∧ s'.wire = (tokioWire resumeOptions 0 ops).wire ∧ s'.net.network.isNone = true ∧
    (writtenIn (tokioWireTrace resumeOptions 0 (ops ++ [.dropConnect ⟨true, plainConnAck, false, fun _ => true, true, at' 4⟩ .handling,
      .op (.connect ⟨true, resumedConnAck, false, fun _ => true, true, at' 5⟩)]))).map (·.type) =
        [.connect, .publish, .connect, .connect] := ⟨_, _, rfl, rfl, rfl, rfl⟩

end Mqrstt.Props
