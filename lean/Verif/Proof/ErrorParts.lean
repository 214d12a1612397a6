import Verif.Proof.ErrorText
import Verif.Proof.Shown
import Verif.Spec.ErrorText
/-!
# What the texts of errors mention
-/

namespace Mqrstt
open Mqrstt.Spec _root_.Spec

theorem binary_small : ∀ d < 2, Binary [UInt8.ofNat (Nat.digitChar d).toNat] d := by
  intro d hd
  have : d = 0 ∨ d = 1 := by omega
  rcases this with rfl | rfl <;> (unfold Binary; decide)

theorem binary_means (n : Nat) : Binary (binary n) n := by
  induction n using Nat.strongRecOn with
  | ind n ih =>
    rw [binary, Nat.toDigits_eq_if (by decide)]
    split
    · exact binary_small n (by omega)
    · have h1 := ih (n / 2) (by omega)
      have h2 := binary_small (n % 2) (by omega)
      rw [binary] at h1
      refine ⟨by simp, ?_, ?_⟩
      · intro b hb
        rw [List.map_append] at hb
        rcases List.mem_append.1 hb with hb | hb
        · exact h1.2.1 b hb
        · exact h2.2.1 b hb
      · rw [List.map_append, List.foldl_append, h1.2.2]
        have h3 := h2.2.2
        simp only [List.map_cons, List.map_nil, List.foldl_cons, List.foldl_nil] at h3 ⊢
        omega

theorem mentions_prefix {w bs : Bytes} {ps : List Part} (hw : w.getLast?.any isDigitByte = false) (h : Mentions bs ps) :
    Mentions (w ++ bs) ps := by
  cases h with
  | nil => exact .nil _
  | @cons before x behind p ps hb hs ha h =>
    rw [← List.append_assoc]
    refine .cons ?_ hs ha h
    rw [List.getLast?_append]
    cases hl : before.getLast? with
    | none => simpa using hw
    | some b => rw [hl] at hb; simpa using hb

theorem packet_says (t : PacketType) : StandsFor (text t.name) (.packet t) := by
  cases t <;> (simp only [StandsFor]; decide)

theorem property_says (p : PropertyType) : StandsFor (text p.name) (.property p) := by
  cases p <;> (simp only [StandsFor]; decide)

theorem reason_says (r : Reason) : StandsFor (text r.name) (.reason r) := by
  rintro ⟨h, h0⟩
  unfold Names
  cases r <;> first | decide | exact absurd h (by decide) | exact absurd (h0 rfl) (by decide)

/-- at the end of the text -/
theorem mentions_last {w x : Bytes} {p : Part} (hw : w.getLast?.any isDigitByte = false) (h : StandsFor x p) : Mentions (w ++ x) [p] := by
  have := Mentions.cons hw h (behind := []) rfl (.nil _)
  simpa using this

theorem head_any {a : Bytes} (x : Bytes) (h : a.head?.any isDigitByte = false) (hn : a ≠ []) : (a ++ x).head?.any isDigitByte = false := by
  cases a with
  | nil => exact absurd rfl hn
  | cons b a => exact h

theorem deErr_mentions (e : DeErr) (i : Bytes) : Mentions (e.display i) (deParts i e) := by
  cases e with
  | malformedPacketWithInfo => exact mentions_last (by decide) rfl
  | malformedPacket => exact .nil _
  | unknownFixedHeader b => exact mentions_last (by decide) (binary_means _)
  | unsupportedProtocolVersion => exact .nil _
  | unknownProtocolVersion => exact .nil _
  | insufficientData a n =>
    simp only [DeErr.display, List.append_assoc]
    exact .cons (by decide) rfl (head_any _ (by decide) (by decide))
      (.cons (by decide) (decimal_means _) (head_any _ (by decide) (by decide))
        (.cons (by decide) (decimal_means _) (by decide) (.nil _)))
  | insufficientDataForProtocolVersion => exact .nil _
  | remainingDataError r l =>
    simp only [DeErr.display, List.append_assoc]
    exact .cons (by decide) (decimal_means _) (head_any _ (by decide) (by decide))
        (.cons (by decide) (decimal_means _) (by decide) (.nil _))
  | duplicateProperty p =>
    simp only [DeErr.display, List.append_assoc]
    exact .cons (by decide) (property_says _) (by decide) (.nil _)
  | unexpectedProperty p k =>
    simp only [DeErr.display, List.append_assoc]
    exact .cons (by decide) (property_says _) (head_any _ (by decide) (by decide)) (mentions_last (by decide) (packet_says _))
  | unknownProperty b =>
    simp only [DeErr.display, List.append_assoc]
    exact .cons (by decide) (decimal_means _) (by decide) (.nil _)
  | unknownQoS b => exact mentions_last (by decide) (decimal_means _)
  | utf8Error => exact mentions_last (by decide) rfl

theorem hErr_mentions (e : HErr) : Mentions e.debug (sessionParts e) := by
  cases e with
  | missingPacketId => exact .nil _
  | packetIdChannelError id =>
    simp only [HErr.debug, List.append_assoc]
    exact .cons (by decide) (decimal_means _) (by decide) (.nil _)
  | packetIdCollision id =>
    simp only [HErr.debug, List.append_assoc]
    exact .cons (by decide) (decimal_means _) (by decide) (.nil _)
  | unsolicited id t =>
    simp only [HErr.debug, List.append_assoc]
    exact .cons (by decide) (decimal_means _) (head_any _ (by decide) (by decide))
      (.cons (by decide) (packet_says _) (by decide) (.nil _))
  | unexpectedPacket t =>
    simp only [HErr.debug, List.append_assoc]
    exact .cons (by decide) (packet_says _) (by decide) (.nil _)

theorem connErr_mentions (e : ConnErr) (i : Bytes) : Mentions (e.display i) (connParts i e) := by
  cases e with
  | noNetwork => exact .nil _
  | noOutgoingPacketSender => exact .nil _
  | deserialization e => exact mentions_prefix (by decide) (deErr_mentions e i)
  | serialization e =>
    cases e with
    | variableIntegerOverflow n =>
      simp only [ConnErr.display, SerErr.display, List.append_assoc]
      exact mentions_prefix (by decide) (.cons (by decide) (decimal_means _) (by decide) (.nil _))
    | authDataWithoutAuthMethod => exact .nil _
  | io => exact mentions_last (by decide) rfl
  | refused r => exact mentions_last (by decide) (reason_says r)
  | notConnAck p => exact mentions_last (by decide) rfl
  | handler e => exact mentions_prefix (by decide) (hErr_mentions e)

theorem clientErr_mentions (e : ClientErr) : Mentions e.display (clientParts e) := by
  cases e with
  | noNetworkChannel => exact .nil _
  | validation e =>
    cases e with
    | maxPacketSize n => exact mentions_prefix (by decide) (mentions_last (by decide) (decimal_means _))
    | topicSize n => exact mentions_prefix (by decide) (mentions_last (by decide) (decimal_means _))

end Mqrstt
