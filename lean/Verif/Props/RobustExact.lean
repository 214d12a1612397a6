import Verif.Proof.RobustExact
import Verif.Props.Robust
/-!
# C15: where exactly the buffered reader panics
-/

namespace Mqrstt.Props
open Mqrstt Spec Witness

/-- **C15 (partial): the exceptions are exact.** On every byte string the loops of the buffered reader
end, and it panics exactly when the bytes start with a CONNECT that breaks off within a number. -/
theorem C15_exact_partial (b : Bytes) :
    (Packet.read b).1 ≠ .error (.err .fuel) ∧
    ((Packet.read b).1 = .error (.err .panic) ↔ CutConnect b) := by
  have hconn : PacketType.fromFirstByte 0x10 = .ok (.connect, 0) := rfl
  have key : ∀ e, (Packet.read b).1 = .error (.err e) → ¬ e.Proper → e = .panic ∧ CutConnect b := by
    intro e h he
    rcases Packet.read_cases b with ⟨first, len, body, rest, t, flags, rfl, ht, hv, hl⟩ | ⟨n, hn⟩ | ⟨e', he'⟩
    · rw [Packet.read_isVbi ht hv hl] at h
      simp only [Packet.readPacket] at h
      cases hr : Packet.bodyRead ⟨t, flags, body.length⟩ body with
      | ok q => rw [hr] at h; cases h
      | error e' =>
        rw [hr] at h
        cases h
        by_cases hc : t = .connect
        · subst hc
          have hfirst : first = 0x10 := by
            obtain ⟨g1, g2⟩ := ((C06_first_byte_accepted first).1 .connect).1 ⟨_, ht⟩
            have g3 := g2 0 rfl
            apply UInt8.toNat_inj.1
            simp only [typeNumber] at g1
            have : (0x10 : UInt8).toNat = 16 := rfl
            omega
          subst hfirst
          simp only [Packet.bodyRead, Rd.map] at hr
          rcases Rd.bind_eq_error.1 hr with hr | ⟨a, b', -, hr⟩
          · obtain ⟨k0, v, tail, rfl, k1, k2⟩ := Connect.read_fails hr he
            exact ⟨k0, len, v, tail, rest, by simp, hv, by rw [hl]; simp; omega, k1, k2⟩
          · cases hr
        · exact absurd (Packet.bodyRead_safe _ hc _ _ hr) he
    · rw [hn] at h; cases h
    · rw [he'] at h; cases h; exact absurd (Fail.proper_de _) he
  refine ⟨fun h => ?_, fun h => (key _ h (fun hp => hp.1 rfl)).2, ?_⟩
  · have := (key _ h (fun hp => hp.2 rfl)).1
    cases this
  · rintro ⟨len, v, tail, rest, rfl, hv, hl, k1, k2⟩
    rw [List.append_assoc, Packet.read_isVbi hconn hv (by rw [hl]; simp; omega)]
    simp only [Packet.readPacket, Packet.bodyRead, Rd.map]
    have := Connect.read_cut k1 k2
    rw [show (Connect.read >>= fun a => pure (Packet.connect a) : Rd Packet) ([0, 4, 77, 81, 84, 84, 5, v] ++ tail) = .error .panic
      from Rd.bind_eq_error.2 (.inl this)]

/-- both kinds of exception: cut in the keep alive time; and cut in the third property, the maximum
packet size, after a receive maximum and a user property -/
example : CutConnect [0x10, 9, 0, 4, 77, 81, 84, 84, 5, 2, 0] ∧
    CutConnect ([0x10, 22] ++ [0, 4, 77, 81, 84, 84, 5, 2, 0, 60] ++
      [11, 33, 0, 5, 38, 0, 0, 0, 0, 39, 0, 1] ++ [0xC0, 0]) := by
  refine ⟨⟨[9], 2, [0], [], rfl, ⟨[], 9, rfl, by decide, by simp, by simp [more]⟩, rfl, by decide, .inl (by decide)⟩,
    ⟨[22], 2, [0, 60, 11, 33, 0, 5, 38, 0, 0, 0, 0, 39, 0, 1], [0xC0, 0], rfl,
      ⟨[], 22, rfl, by decide, by simp, by simp [more]⟩, rfl, by decide, .inr ⟨0, 60, _, rfl, ?_⟩⟩⟩
  refine ⟨[11], [33, 0, 5, 38, 0, 0, 0, 0], .maximumPacketSize, [0, 1], [],
    [.value .receiveMaximum 5, .user ⟨[], by decide⟩ ⟨[], by decide⟩], 4, rfl, 
    ⟨[], 11, rfl, by decide, by simp, by simp [more]⟩, rfl, ?_, ?_, ?_, by decide, rfl, by decide⟩
  · exact ItemsBytes.cons (bs := [33, 0, 5]) (cs := [38, 0, 0, 0, 0]) ⟨by decide, [0, 5], rfl, 0, 5, rfl, rfl⟩
      (ItemsBytes.cons (bs := [38, 0, 0, 0, 0]) (cs := []) ⟨[0, 0], [0, 0], rfl, ⟨0, 0, rfl, rfl⟩, ⟨0, 0, rfl, rfl⟩⟩ .nil)
  · simp [AtMostOnce, WireItem.type]
  · intro i hi
    simp only [List.mem_cons, List.not_mem_nil, or_false] at hi
    rcases hi with rfl | rfl <;> exact ⟨by decide, by decide⟩

end Mqrstt.Props
