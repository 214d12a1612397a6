import Verif.Props.Receiver
import Verif.Proof.Reorder
/-!
# The order of the server's packets does not matter (C118)
-/

namespace Mqrstt.Props
open Mqrstt Mqrstt.Spec

/-- **C118.** After every history: if the client accepts some packets of the server, it accepts them in every other order that keeps
the packets of each conversation in order. It answers each of them the same and gives the same ones to the user's handler, each
conversation in its order, and ends in the same state; only the order in which the free identifiers will be used can differ. -/
theorem C118_any_order (cfg : Config) (ops : List Op) (ps qs : List Packet) (hr : Reordered ps qs) (s1 : Sys) (as : List Reaction)
    (h : receiveAll (client cfg ops) ps = some (s1, as)) :
    ∃ s2 bs, receiveAll (client cfg ops) qs = some (s2, bs) ∧ SameButFree s1 s2 ∧
      ∀ k, as.filter (talk ·.1 = k) = bs.filter (talk ·.1 = k) := by
  cases ha : (client cfg ops).alive with
  | false =>
    cases ps with
    | nil =>
      have : qs = [] := by
        cases qs with
        | nil => rfl
        | cons q qs =>
          have := hr (talk q)
          simp at this
      subst this
      exact ⟨s1, as, h, ⟨.refl _, rfl⟩, fun _ => rfl⟩
    | cons p ps => simp [receiveAll, Sys.step, ha] at h
  | true =>
    have hasc : Asc (client cfg ops).handler.state :=
      ⟨run_rel (s := Sys.init cfg.sendMax cfg.recvMax cfg.maxPacketSize cfg.cleanStart) .nil ops, (rinv cfg ops).sorted⟩
    obtain ⟨h1, rfl, rfl⟩ := (receiveAll_iff ha).1 h
    obtain ⟨j1, j2, j3⟩ := reorder hasc hr h1
    refine ⟨_, _, (receiveAll_iff ha).2 ⟨j1, rfl, rfl⟩, ⟨j2.perm, ?_⟩, j3⟩
    have := congrArg (Sys.withState (client cfg ops)) j2.rest
    exact this

/-- a QoS 1 and a QoS 2 publish of the client are under way -/
def twoUnderWay : Sys := client demo (sendOps (demoPublish .atLeastOnce) ++ sendOps (demoPublish .exactlyOnce))

def inOneOrder : List Packet :=
  [.pubAck ⟨1, .success, .empty⟩, .pubRec ⟨2, .success, .empty⟩, .publish (message .exactlyOnce (some 7) false), .pubComp ⟨2, .success, .empty⟩]

def inAnotherOrder : List Packet :=
  [.publish (message .exactlyOnce (some 7) false), .pubRec ⟨2, .success, .empty⟩, .pubComp ⟨2, .success, .empty⟩, .pubAck ⟨1, .success, .empty⟩]

example : Reordered inOneOrder inAnotherOrder ∧
    ∃ s1 as, receiveAll twoUnderWay inOneOrder = some (s1, as) ∧ as.map (·.2.1.isSome) = [false, true, true, false] ∧ s1.pool.queue = [1, 2] := by
  refine ⟨fun k => ?_, _, _, rfl, by decide, by decide⟩
  simp only [inOneOrder, inAnotherOrder, List.filter_cons, List.filter_nil, talk, message]
  by_cases h1 : Talk.mine 1 = k
  · subst h1; simp
  · by_cases h2 : Talk.mine 2 = k
    · subst h2; simp
    · simp [h1, h2]

/-- within a conversation the order does matter: a PUBCOMP before its PUBREC is refused -/
example : receiveAll twoUnderWay [.pubComp ⟨2, .success, .empty⟩, .pubRec ⟨2, .success, .empty⟩] = none := rfl

/-- and the free identifiers do come back in another order -/
example : ∃ s2 bs, receiveAll twoUnderWay inAnotherOrder = some (s2, bs) ∧ s2.pool.queue = [2, 1] := ⟨_, _, rfl, by decide⟩

end Mqrstt.Props
