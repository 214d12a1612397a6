import Verif.Proof.Panic
import Verif.Props.Connecting
import Verif.Props.Progress
/-!
# What makes `run` and `connect` panic (C117)

A panic of the timer (a keep alive interval that the clock cannot represent) is the subject of C81.
-/

namespace Mqrstt.Props
open Mqrstt Mqrstt.Spec _root_.Spec

/-- **C117, tokio**, the part that holds: whatever happened before, `connect` does not panic, and `run` panics exactly when it
reads a PUBACK or PUBREC with an identifier that no publish can have, or has written a publish whose identifier is above the
receive maximum of the client (possible only if the send maximum is above it). Missing: these two must not panic either. -/
theorem C117_tokio_partial (o : Options) (t : Nat) (ops : List TokioOp) (op : TokioOp) (s' : Tokio) (obs : List Obs)
    (h : (tokio o t ops).step op = some (s', obs)) :
    .connectPanicked ∉ obs ∧
    (.ended .panicked ∈ obs ↔ isRunning (tokioTrace o t ops) = true ∧
      ((∃ p, .read p ∈ obs ∧ NoSlot o p) ∨ ∃ p a b, .wrote p a b ∈ obs ∧ BeyondReceiveMax o p)) := by
  have hv := Tokio.vrun o t ops
  have hs := Tokio.step_vstep h
  refine ⟨fun hp => ?_, ?_⟩
  · obtain ⟨-, c, a, b, rfl⟩ := hs.connectPanics hv.tame hp
    exact Tokio.connect_not_crashed h
  · have := hs.panics hv.tame
    rw [this, show isRunning (tokioTrace o t ops) = _ from hv.up.2.symm]
    have hn := Tokio.step_not_crashed h
    simp only [hn, or_false]
    exact Iff.rfl

/-- **C117, tokio**: with a send maximum that is at most the receive maximum, and a server that does not acknowledge identifiers
that no publish can have, nothing panics. -/
theorem C117_tokio_never_partial (o : Options) (t : Nat) (ops : List TokioOp) (hmax : o.sendMaximum ≤ o.receiveMaximum)
    (hserver : ∀ p, .read p ∈ tokioTrace o t ops → ¬ NoSlot o p) :
    .ended .panicked ∉ tokioTrace o t ops ∧ .connectPanicked ∉ tokioTrace o t ops := by
  refine (?_ : (∀ p, .read p ∈ tokioTrace o t ops → ¬ NoSlot o p) → _) hserver
  rw [tokioTrace, Tokio.runOps]
  refine (history_induct Tokio.step (s := Tokio.new o t) (fun s tr => VRun .tokio (View.init o t) tr s.view ∧
    ((∀ p, .read p ∈ tr → ¬ NoSlot o p) → .ended .panicked ∉ tr ∧ .connectPanicked ∉ tr)) ⟨.nil, by simp⟩ ?_ ops).2
  rintro s tr op s' obs ⟨hv, ih⟩ h
  have hs := Tokio.step_vstep h
  refine ⟨hv.snoc hs, fun hr => ?_⟩
  have ih := ih fun p hp => hr p (by simp [hp])
  simp only [List.mem_append, not_or]
  refine ⟨⟨ih.1, fun hp => ?_⟩, ih.2, fun hp => ?_⟩
  · rcases hs.panics_max hv.tame (fun ha p rest hq => hv.not_beyond ha hmax hq) hp with ⟨p, h1, h2⟩ | h1
    · exact hr p (by simp [h1]) h2
    · exact Tokio.step_not_crashed h h1
  · obtain ⟨-, c, a, b, rfl⟩ := hs.connectPanics hv.tame hp
    exact Tokio.connect_not_crashed h

/-- a connection on which a publish is acknowledged -/
example :
    tokioTrace resumeOptions 0 (tokioUp ++ [.client (.call (demoPublish .atLeastOnce)), .client (.submit 0),
      .turn .outgoing 0 true (at' 2), .arrive [0x40, 2, 0, 1], .turn .read 0 true (at' 3)]) ≠ [] ∧
    resumeOptions.sendMaximum ≤ resumeOptions.receiveMaximum ∧ ¬ NoSlot resumeOptions (.pubAck ⟨1, .success, .empty⟩) := by
  refine ⟨?_, by decide, by simp [NoSlot]; decide⟩
  intro h
  have := congrArg List.length h
  revert this
  decide

/-- **C117, smol**, the part that holds: whatever happened before,
* `run` panics exactly for the two causes of tokio or when, with overflow checks, the bytes not yet processed are the beginning of
  a packet of which fewer bytes are missing than its fixed header has, or when they start with a CONNECT cut short;
* `connect` panics only if the first bytes that arrive do not hold a whole packet, or start with a CONNECT cut short.

Missing: none of these must panic. -/
theorem C117_smol_partial (c : Bool) (o : Options) (t : Nat) (ops : List SmolOp) (op : SmolOp) (s' : Smol) (obs : List Obs)
    (h : (smol c o t ops).step op = some (s', obs)) :
    (.ended .panicked ∈ obs ↔ isRunning (smolTrace c o t ops) = true ∧
      ((∃ p, .read p ∈ obs ∧ NoSlot o p) ∨ (∃ p a b, .wrote p a b ∈ obs ∧ BeyondReceiveMax o p) ∨
        ∃ chunk io T rest, op = .turn (.read chunk) io T ∧ chunk ≠ [] ∧ Left (smolRx c o t ops) rest ∧
          (c = true ∧ NearlyWhole (rest ++ chunk) ∨ CutConnect (rest ++ chunk)))) ∧
    (.connectPanicked ∈ obs → ∃ i, op = .connect i ∧
      ∀ first more, i.chunks = first :: more → ¬ HoldsPacket first ∨ CutConnect first) := by
  obtain ⟨hv, hg⟩ := Smol.vrun_good c o t ops
  have hs := (Smol.step_vstep hg h).1
  obtain ⟨rest, hrx, hnet⟩ := Smol.rxed c o t ops
  have hc := smol_checks c o t ops
  refine ⟨?_, fun hp => ?_⟩
  · have := hs.panics hv.tame
    rw [this, show isRunning (smolTrace c o t ops) = _ from hv.up.2.symm]
    refine and_congr Iff.rfl (or_congr Iff.rfl (or_congr Iff.rfl ?_))
    rw [Smol.step_crashed h]
    constructor
    · rintro ⟨chunk, buffer, io, T, rfl, h1, h2, h3⟩
      rw [SmolStream.parse_panics, hc] at h3
      rw [h2] at hnet
      obtain rfl : buffer = rest := by simpa using hnet
      exact ⟨_, _, _, _, rfl, h1, hrx, h3⟩
    · rintro ⟨chunk, io, T, rest', rfl, h1, h2, h3⟩
      obtain rfl : rest' = rest := Stream.unique BufferPacket.fn h2 hrx
      have hn : (smol c o t ops).network = some rest' := by
        rcases hnet with hn | hn
        · simp [Smol.step, Smol.turn, hn] at h
        · exact hn
      refine ⟨_, _, _, _, rfl, h1, hn, ?_⟩
      rw [SmolStream.parse_panics, hc]
      exact h3
  · obtain ⟨-, _, a, b, rfl⟩ := hs.connectPanics hv.tame hp
    exact Smol.connect_crashed h

/-- a CONNACK in one piece; a publish that waits for its last byte -/
example : HoldsPacket plainConnAck ∧ ¬ CutConnect plainConnAck ∧ NearlyWhole [0x30, 5, 0, 1, 97, 0] ∧
    (∃ s', (smol true resumeOptions 0 []).step (.connect ⟨true, [plainConnAck], true, at' 1⟩) =
      some (s', [.wrote resumeOptions.connectPacket 1 1, .read (.connAck ⟨false, .success, .empty⟩),
        .delivered (.connAck ⟨false, .success, .empty⟩), .connected ⟨false, .success, .empty⟩ 1])) := by
  refine ⟨⟨.connAck, 0x20, [3], [0, 0, 0], [], rfl, (firstByte_iff _ _).1 ⟨0, rfl⟩, ⟨[], _, rfl, by decide, by simp, by simp [more]⟩, rfl⟩, ?_,
    ⟨.publish, 0x30, [5], [0, 1, 97, 0], rfl, (firstByte_iff _ _).1 ⟨0, rfl⟩, ⟨[], _, rfl, by decide, by simp, by simp [more]⟩, by decide, by decide⟩, ⟨_, rfl⟩⟩
  rintro ⟨len, flags, tail, rest, h, -⟩
  simp [plainConnAck] at h

/-- **C117 is false of the code**: on either network a PUBACK for identifier 0 makes `run` panic. On smol also part of a publish
does, with overflow checks, and `connect` panics if a CONNACK arrives in pieces of 3, 1 and 1 bytes. -/
theorem C117_no_panic_violated :
    (∃ ops op s' obs, (tokio resumeOptions 0 ops).step op = some (s', obs) ∧ .ended .panicked ∈ obs) ∧
    (∃ ops op s' obs, (smol false resumeOptions 0 ops).step op = some (s', obs) ∧ .ended .panicked ∈ obs) ∧
    (∃ ops T s', (smol true resumeOptions 0 ops).step (.turn (.read [0x30, 5, 0, 1, 97, 0]) true T) = some (s', [.ended .panicked])) ∧
    (∃ s' obs, (smol false resumeOptions 0 []).step (.connect ⟨true, [[0x20, 3, 0], [0], [0]], true, at' 1⟩) = some (s', obs) ∧
      .connectPanicked ∈ obs) := by
  refine ⟨⟨tokioUp ++ [.arrive [0x40, 2, 0, 0]], .turn .read 0 true (at' 2), ?_⟩,
    ⟨smolUp, .turn (.read [0x40, 2, 0, 0]) true (at' 2), ?_⟩, ⟨smolUp, at' 2, ?_⟩, ?_⟩
  · obtain ⟨s', h⟩ : ∃ s', (tokio resumeOptions 0 (tokioUp ++ [.arrive [0x40, 2, 0, 0]])).step (.turn .read 0 true (at' 2)) =
      some (s', [.read (.pubAck ⟨0, .success, .empty⟩), .ended .panicked]) := ⟨_, rfl⟩
    exact ⟨_, _, h, by simp⟩
  · obtain ⟨s', h⟩ : ∃ s', (smol false resumeOptions 0 smolUp).step (.turn (.read [0x40, 2, 0, 0]) true (at' 2)) =
      some (s', [.read (.pubAck ⟨0, .success, .empty⟩), .ended .panicked]) := ⟨_, rfl⟩
    exact ⟨_, _, h, by simp⟩
  · exact ⟨_, rfl⟩
  · obtain ⟨s', h⟩ : ∃ s', (smol false resumeOptions 0 []).step (.connect ⟨true, [[0x20, 3, 0], [0], [0]], true, at' 1⟩) =
      some (s', [.wrote resumeOptions.connectPacket 1 1, .connectPanicked]) := ⟨_, rfl⟩
    exact ⟨_, _, h, by simp⟩

/-- options with a send maximum above the receive maximum -/
def uneven : Options := Options.build ⟨[97], by decide⟩ [.receiveMax 1, .sendMax 2]

/-- also by what the clients ask for: the second of two publishes -/
theorem C117_own_publish_violated :
    ∃ ops op s' obs, (∀ p, .read p ∈ tokioTrace uneven 0 ops ++ obs → ∃ c, p = .connAck c) ∧
      (tokio uneven 0 ops).step op = some (s', obs) ∧ .ended .panicked ∈ obs := by
  let ops : List TokioOp := tokioUp ++ sendNow (demoPublish .atLeastOnce) 2 ++
    [.client (.call (demoPublish .atLeastOnce)), .client (.submit 0)]
  obtain ⟨s', q, h⟩ : ∃ s' q, (tokio uneven 0 ops).step (.turn .outgoing 0 true (at' 3)) =
    some (s', [.wrote (.publish q) 3 3, .ended .panicked]) := ⟨_, _, rfl⟩
  refine ⟨ops, _, s', _, ?_, h, by simp⟩
  intro p hp
  obtain ⟨c, hr⟩ : ∃ c, readIn (tokioTrace uneven 0 ops) = [.connAck c] := ⟨_, rfl⟩
  simp only [List.mem_append, List.mem_cons, List.not_mem_nil, reduceCtorEq, or_false] at hp
  have : p ∈ readIn (tokioTrace uneven 0 ops) := List.mem_filterMap.2 ⟨_, hp, rfl⟩
  rw [hr] at this
  exact ⟨c, by simpa using this⟩

end Mqrstt.Props
