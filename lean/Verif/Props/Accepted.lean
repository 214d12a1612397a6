import Verif.Proof.Accepted
import Verif.Props.Refusals
/-!
# Which calls are accepted (C115)

C113 says that a call is refused only for the reason it gives. Here is the other direction: a call that can be served is not
refused, and one that cannot be is.
-/

namespace Mqrstt.Props
open Mqrstt Mqrstt.Spec _root_.Spec

/-- **C115.** In every history of either network with its clients, as long as the network exists: a call with legal arguments
whose packet is not larger than the maximum in the options is accepted. It waits for an identifier only if it needs one and all
have been handed out. -/
theorem C115_accepted (o : Options) (pre : List Obs) (q : Request) (r : Option (List Obs)) (h : GoesOn o pre (.call q) r)
    (hc : ¬ ClientsGone pre) (hu : Usable pre) (hs : Servable o.config.maxPacketSize q) :
    (∃ id p, q.packet id = some p ∧ r = some [.user (.called q id p)]) ∨
      (q.takesId = true ∧ o.config.sendMax.toNat ≤ idsTaken pre ∧ r = none) := by
  obtain ⟨fl, t, v, hv, rfl⟩ := h.sys rfl
  have ha := hv.alive_iff.2 hu
  rcases v.sys.call_result q (hv.open hc) with ⟨id, p, hi, hp, ⟨-, -, s', h⟩ | ⟨h1, -⟩⟩ | ⟨h1, h2, ⟨-, h⟩ | ⟨h, -⟩⟩
  · exact .inl ⟨id, p, hp, by rw [h]; rfl⟩
  · rcases h1 with h1 | ⟨e, h1⟩
    · rw [ha] at h1; cases h1
    · rw [hv.limit, validate_servable hi hp hs] at h1; cases h1
  · refine .inr ⟨h1, ?_, by rw [h]; rfl⟩
    have := hv.handed
    rw [h2] at this
    simpa using this
  · rw [ha] at h; cases h

/-- **C115 (partial).** A publish, subscribe or unsubscribe with a topic that is too long, or whose packet is larger than the
maximum in the options by more than five bytes, is refused, unless it waits for an identifier. Missing: the five bytes, and
disconnects, which are not checked. -/
theorem C115_refused_partial (o : Options) (pre : List Obs) (q : Request) (r : Option (List Obs)) (h : GoesOn o pre (.call q) r)
    (hc : ¬ ClientsGone pre) (hd : ∀ reason P, q ≠ .disconnect reason P) (hs : Unservable (o.config.maxPacketSize + 5) q) :
    (∃ id e, r = some [.user (.rejected q id e)]) ∨
      (q.takesId = true ∧ o.config.sendMax.toNat ≤ idsTaken pre ∧ r = none) := by
  obtain ⟨fl, t, v, hv, rfl⟩ := h.sys rfl
  rcases v.sys.call_result q (hv.open hc) with ⟨id, p, hi, hp, ⟨h1, -, -⟩ | ⟨-, s', e, h⟩⟩ | ⟨h1, h2, ⟨-, h⟩ | ⟨-, s', e, h⟩⟩
  · obtain ⟨e, h2⟩ := validate_unservable hi hp hd hs
    rw [hv.limit, h2] at h1
    cases h1
  · exact .inl ⟨id, e, by rw [h]; rfl⟩
  · refine .inr ⟨h1, ?_, by rw [h]; rfl⟩
    have := hv.handed
    rw [h2] at this
    simpa using this
  · exact .inl ⟨none, e, by rw [h]; rfl⟩

/-- **C115, the network is gone.** Then every call returns an error at once: none waits. -/
theorem C115_network_gone (o : Options) (pre : List Obs) (q : Request) (r : Option (List Obs)) (h : GoesOn o pre (.call q) r)
    (hc : ¬ ClientsGone pre) (hu : ¬ Usable pre) : ∃ id e, r = some [.user (.rejected q id e)] := by
  obtain ⟨fl, t, v, hv, rfl⟩ := h.sys rfl
  have ha : v.sys.alive ≠ true := fun ha => hu (hv.alive_iff.1 ha)
  rcases v.sys.call_result q (hv.open hc) with ⟨id, p, hi, hp, ⟨-, h1, -⟩ | ⟨-, s', e, h⟩⟩ | ⟨-, -, ⟨h, -⟩ | ⟨-, s', e, h⟩⟩
  · exact absurd h1 ha
  · exact ⟨id, e, by rw [h]; rfl⟩
  · exact absurd h ha
  · exact ⟨none, e, by rw [h]; rfl⟩

/-- **C115, calls that wait.** Each of the calls that wait for room in the queue goes on as soon as the network is gone, and
returns an error. -/
theorem C115_waiting_calls_return (o : Options) (pre : List Obs) (k : Nat) (r : Option (List Obs))
    (h : GoesOn o pre (.submit k) r) (hk : k < waitingCalls pre) (hu : ¬ Usable pre) :
    ∃ p, r = some [.user (.refused p)] := by
  obtain ⟨fl, t, v, hv, rfl⟩ := h.sys rfl
  have ha : v.sys.alive = false := by
    cases ha : v.sys.alive with
    | false => rfl
    | true => exact absurd (hv.alive_iff.1 ha) hu
  rw [← hv.waitCount] at hk
  refine ⟨v.sys.pending[k], ?_⟩
  simp [Sys.step, List.getElem?_eq_getElem hk, ha]

/-- a payload of 16 bytes -/
def publishSixteen : Request := .publish ⟨[97], by decide⟩ .atMostOnce false (List.replicate 16 120) .empty

/-- a DISCONNECT with ten user properties -/
def longDisconnect : Request := .disconnect .success { Props.empty with users := List.replicate 10 (Str.empty, Str.empty) }

/-- how the QoS 1 publish is sent -/
theorem demoPublish_bytes (id : UInt16) : (Packet.publish ⟨false, .atLeastOnce, false, ⟨[116], by decide⟩, some id, .empty, [1,2,3]⟩).write =
    .ok ([50, 9] ++ ([0,1,116] ++ u16Bytes id ++ [0,1,2,3])) := by
  have h2 : (Packet.publish ⟨false, .atLeastOnce, false, ⟨[116], by decide⟩, some id, .empty, [1,2,3]⟩).lenWrite = .ok [9] := by
    with_unfolding_all rfl
  have h3 : (Packet.publish ⟨false, .atLeastOnce, false, ⟨[116], by decide⟩, some id, .empty, [1,2,3]⟩).bodyWrite =
      .ok ([0,1,116] ++ u16Bytes id ++ [0,1,2,3]) := by
    with_unfolding_all rfl
  have h1 : (Packet.publish ⟨false, .atLeastOnce, false, ⟨[116], by decide⟩, some id, .empty, [1,2,3]⟩).firstByte = 50 := by
    simp only [Packet.firstByte, Packet.publishFirstByte, Bool.false_eq_true, if_false]; decide
  rw [Packet.write, h1, h2, h3]; rfl

/-- after anything a call that can be served, one that cannot, a network that is dropped while calls wait -/
example :
    (∃ r, GoesOn modest (tokioTrace modest 0 []) (.call (demoPublish .atLeastOnce)) r ∧
      Servable modest.config.maxPacketSize (demoPublish .atLeastOnce)) ∧
    (∃ r, GoesOn modest (smolTrace true modest 0 []) (.call publishThirty) r ∧
      Unservable (modest.config.maxPacketSize + 5) publishThirty) ∧
    (let ops := [.client (.call (demoPublish .atLeastOnce)), .client (.call (demoPublish .atLeastOnce)), .dropNetwork];
      waitingCalls (tokioTrace modest 0 ops) = 2 ∧ ¬ Usable (tokioTrace modest 0 ops) ∧ ¬ ClientsGone (tokioTrace modest 0 ops)) := by
  refine ⟨⟨_, .tokio 0 [] rfl rfl, ?_, ?_⟩, ⟨_, .smol true 0 [] rfl rfl, .inr ?_⟩, rfl, ?_, ?_⟩
  · simp [topicsIn, demoPublish]
  · intro id p hi hp
    cases id with
    | none => cases hi
    | some id =>
      cases hp
      exact ⟨⟨by simp [StrOk], by simp, Mqrstt.Witness.wf_empty _⟩, 11,
        .inl ⟨_, demoPublish_bytes id, rfl⟩, by decide⟩
  · intro id p hi hp
    cases id with
    | some id => cases hi
    | none =>
      cases hp
      exact ⟨⟨by simp [StrOk], by simp, Mqrstt.Witness.wf_empty _⟩, 36, .inl ⟨_, rfl, rfl⟩, by decide⟩
  · intro h
    obtain ⟨a, b, hab⟩ : ∃ a b, tokioTrace modest 0 [.client (.call (demoPublish .atLeastOnce)),
      .client (.call (demoPublish .atLeastOnce)), .dropNetwork] = [.user a, .user b, .user .networkDropped] := ⟨_, _, rfl⟩
    exact Bool.noConfusion (h (.user .networkDropped) (by rw [hab]; simp))
  · intro h
    obtain ⟨q, i, x, q', i', x', hab⟩ : ∃ q i x q' i' x', tokioTrace modest 0 [.client (.call (demoPublish .atLeastOnce)),
      .client (.call (demoPublish .atLeastOnce)), .dropNetwork] = [.user (.called q i x), .user (.called q' i' x'),
        .user .networkDropped] := ⟨_, _, _, _, _, _, rfl⟩
    rw [ClientsGone, hab] at h
    simp at h

/-- **C115 is false of the code**: the maximum is 20 bytes; a publish that is sent in 22 bytes and a disconnect that is sent in 54
are accepted. -/
theorem C115_too_large_violated :
    (∃ p, GoesOn modest [] (.call publishSixteen) (some [.user (.called publishSixteen none p)]) ∧ SentIn p 22) ∧
    (∃ p, GoesOn modest [] (.call longDisconnect) (some [.user (.called longDisconnect none p)]) ∧ SentIn p 54) ∧
    modest.config.maxPacketSize = 20 :=
  ⟨⟨_, .tokio 0 [] rfl rfl, .inl ⟨_, rfl, rfl⟩⟩, ⟨_, .tokio 0 [] rfl rfl, .inl ⟨_, rfl, rfl⟩⟩, rfl⟩

end Mqrstt.Props
