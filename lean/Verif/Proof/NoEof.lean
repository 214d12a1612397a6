import Verif.Proof.Safe
/-!
# The readers of buffered packets never report the end of the stream
-/

namespace Mqrstt

/-- the reader does not fail with the end of the stream -/
def NoEof {α} (r : Rd α) : Prop := ∀ b, r b ≠ .error .eof

theorem NoEof.pure {α} (a : α) : NoEof (Pure.pure a : Rd α) := fun _ h => by cases h
theorem NoEof.de {α} (e : DeErr) : NoEof (Rd.de e : Rd α) := fun _ h => by cases h
theorem NoEof.bufLen : NoEof Mqrstt.bufLen := fun _ h => by cases h
theorem NoEof.lift {α} (r : Except DeErr α) : NoEof (Rd.lift r) := fun _ h => by cases r <;> cases h

theorem NoEof.bind {α β} {r : Rd α} {f : α → Rd β} (hr : NoEof r) (hf : ∀ a, NoEof (f a)) :
    NoEof (r >>= f) := by
  intro b h
  rcases Rd.bind_eq_error.1 h with h | ⟨a, b', _, h⟩
  · exact hr _ h
  · exact hf _ _ h

theorem NoEof.map {α β} {r : Rd α} {f : α → β} (hr : NoEof r) : NoEof (Rd.map f r) :=
  hr.bind fun _ => NoEof.pure _

theorem NoEof.ite {α} {c : Prop} [Decidable c] {r s : Rd α} (hr : NoEof r) (hs : NoEof s) :
    NoEof (if c then r else s) := by split <;> assumption

theorem getU8_noEof : NoEof getU8 := fun b h => by cases b <;> cases h
theorem getU16_noEof : NoEof getU16 := fun b h => by
  match b with
  | [] => cases h
  | [_] => cases h
  | _ :: _ :: _ => cases h
theorem getU32_noEof : NoEof getU32 := fun b h => by
  match b with
  | [] => cases h
  | [_] => cases h
  | [_, _] => cases h
  | [_, _, _] => cases h
  | _ :: _ :: _ :: _ :: _ => cases h
theorem splitTo_noEof (n : Nat) : NoEof (splitTo n) := fun b h => by
  unfold splitTo at h; split at h <;> cases h
theorem fromUtf8_noEof (b : Bytes) : NoEof (fromUtf8 b) := by
  unfold fromUtf8; split
  · exact .pure _
  · exact .de _

/-- prove `NoEof` by following the structure of a reader -/
syntax "no_eof" : tactic
macro_rules | `(tactic| no_eof) => `(tactic| repeat' (first
  | assumption
  | exact NoEof.pure _ | exact NoEof.de _ | exact NoEof.lift _ | exact NoEof.bufLen
  | exact getU8_noEof | exact getU16_noEof | exact getU32_noEof | exact splitTo_noEof _
  | exact fromUtf8_noEof _
  | refine NoEof.map ?_
  | refine NoEof.bind ?_ fun _ => ?_
  | split
  | refine NoEof.ite ?_ ?_
  | dsimp only))

theorem readU8_noEof : NoEof readU8 := by unfold readU8; no_eof
theorem readU16_noEof : NoEof readU16 := by unfold readU16; no_eof
theorem readU32_noEof : NoEof readU32 := by unfold readU32; no_eof
theorem readBool_noEof : NoEof readBool := by unfold readBool; no_eof
theorem readQoS_noEof : NoEof readQoS := by unfold readQoS; no_eof
theorem readBin_noEof : NoEof readBin := by unfold readBin; no_eof
theorem readStr_noEof : NoEof readStr := by have := readBin_noEof; unfold readStr; no_eof

theorem VarInt.readLoop_noEof (miss : Fail) (hm : miss ≠ .eof) (k i n : Nat) : NoEof (VarInt.readLoop miss k i n) := by
  induction k generalizing i n with
  | zero => intro b h; cases h
  | succ k ih =>
    intro b h
    cases b with
    | nil => cases h; exact hm rfl
    | cons x b =>
      simp only [VarInt.readLoop] at h
      split at h
      · cases h
      · exact ih _ _ _ h

theorem VarInt.read_noEof : NoEof VarInt.read := readLoop_noEof _ (by simp) _ _ _

theorem Kind.read_noEof (k : Kind) : NoEof k.read := by
  have := readU8_noEof
  have := readU16_noEof
  have := readU32_noEof
  have := readBool_noEof
  have := readQoS_noEof
  have := readBin_noEof
  have := readStr_noEof
  have := VarInt.read_noEof
  cases k <;> unfold Kind.read <;> no_eof

theorem Kind.readUnchecked_noEof (k : Kind) : NoEof k.readUnchecked := by
  have := Kind.read_noEof
  cases k <;> unfold Kind.readUnchecked <;> first | exact this _ | no_eof

theorem PropertyType.read_noEof : NoEof PropertyType.read := by unfold PropertyType.read; no_eof

theorem Props.syncReadEntry_noEof (sp : SyncSpec) (P : Props) (e : Entry) : NoEof (syncReadEntry sp P e) := by
  have := readStr_noEof
  have := VarInt.read_noEof
  cases e with
  | single p =>
    have h1 := Kind.read_noEof p.kind
    have h2 := Kind.readUnchecked_noEof p.kind
    simp only [syncReadEntry]; no_eof
  | subIdList => unfold syncReadEntry; no_eof
  | user => unfold syncReadEntry; no_eof

theorem Props.syncLoop_noEof (sp : SyncSpec) (fuel : Nat) : ∀ P, NoEof (syncLoop sp fuel P) := by
  have := PropertyType.read_noEof
  induction fuel with
  | zero => intro P b h; cases h
  | succ fuel ih =>
    intro P
    rw [syncLoop]
    refine this.bind fun t => ?_
    split
    · exact .de _
    · exact (syncReadEntry_noEof _ _ _).bind fun _ => NoEof.bufLen.bind fun _ => .ite (.pure _) (ih _)

theorem Props.onSlice_noEof {α} {d : Bytes} {r : Rd α} (h : NoEof r) : NoEof (onSlice d r) := by
  intro b he
  unfold onSlice at he
  split at he
  · cases he
  · rename_i h'
    cases he
    exact h _ h'

theorem Props.syncRead_noEof (sp : SyncSpec) : NoEof (syncRead sp) := by
  have := VarInt.read_noEof
  have hs : ∀ d fuel P, NoEof (onSlice d (syncLoop sp fuel P)) := fun d fuel P => onSlice_noEof (syncLoop_noEof _ _ _)
  have hl := syncLoop_noEof sp
  unfold syncRead
  refine this.bind fun _ => .ite (.pure _) <| NoEof.bufLen.bind fun _ => .ite (.de _) ?_
  refine NoEof.ite ?_ ?_
  · exact (splitTo_noEof _).bind fun _ => (hs _ _ _).bind fun _ => .ite (.de _) (.pure _)
  · exact (hl _ _).bind fun _ => .ite (.de _) (.pure _)

theorem Reason.read_noEof (l : List Reason) : NoEof (Reason.read l) := by unfold Reason.read; no_eof
theorem SubOptions.read_noEof : NoEof SubOptions.read := by unfold SubOptions.read; no_eof
theorem ConnectFlags.read_noEof : NoEof ConnectFlags.read := by unfold ConnectFlags.read; no_eof
theorem readProtocolVersion_noEof : NoEof readProtocolVersion := by unfold readProtocolVersion; no_eof

theorem CodesAck.readCodesGe_noEof (l : List Reason) (n fuel : Nat) : ∀ m, NoEof (readCodesGe l n fuel m) := by
  have := Reason.read_noEof l
  induction fuel with
  | zero => intro m b h; cases h
  | succ fuel ih =>
    intro m
    rw [readCodesGe]
    exact .ite (.pure _) (this.bind fun _ => (ih _).bind fun _ => .pure _)

theorem CodesAck.readCodesEq_noEof (l : List Reason) (n fuel : Nat) : ∀ m, NoEof (readCodesEq l n fuel m) := by
  have := Reason.read_noEof l
  induction fuel with
  | zero => intro m b h; cases h
  | succ fuel ih =>
    intro m
    rw [readCodesEq]
    exact .ite (.pure _) (this.bind fun _ => (ih _).bind fun _ => .pure _)

theorem Subscribe.readTopics_noEof (fuel : Nat) : NoEof (Subscribe.readTopics fuel) := by
  induction fuel with
  | zero => intro b h; cases h
  | succ fuel ih =>
    rw [Subscribe.readTopics]
    exact readStr_noEof.bind fun _ => SubOptions.read_noEof.bind fun _ => NoEof.bufLen.bind fun _ =>
      .ite (.pure _) (ih.bind fun _ => .pure _)

theorem Unsubscribe.readTopics_noEof (fuel : Nat) : NoEof (Unsubscribe.readTopics fuel) := by
  induction fuel with
  | zero => intro b h; cases h
  | succ fuel ih =>
    rw [Unsubscribe.readTopics]
    exact readStr_noEof.bind fun _ => NoEof.bufLen.bind fun _ => .ite (.pure _) (ih.bind fun _ => .pure _)

theorem LastWill.read_noEof (q : QoS) (r : Bool) : NoEof (LastWill.read q r) :=
  (Props.syncRead_noEof _).bind fun _ => readStr_noEof.bind fun _ => readBin_noEof.bind fun _ => .pure _

macro_rules | `(tactic| no_eof) => `(tactic| repeat' (first
  | assumption
  | exact NoEof.pure _ | exact NoEof.de _ | exact NoEof.lift _ | exact NoEof.bufLen
  | exact getU8_noEof | exact getU16_noEof | exact getU32_noEof | exact splitTo_noEof _
  | exact fromUtf8_noEof _
  | exact readU8_noEof | exact readU16_noEof | exact readStr_noEof | exact readBin_noEof
  | exact Props.syncRead_noEof _ | exact Reason.read_noEof _ | exact ConnectFlags.read_noEof
  | exact readProtocolVersion_noEof | exact LastWill.read_noEof _ _
  | exact CodesAck.readCodesGe_noEof _ _ _ _ | exact CodesAck.readCodesEq_noEof _ _ _ _
  | exact Subscribe.readTopics_noEof _ | exact Unsubscribe.readTopics_noEof _
  | refine NoEof.map ?_
  | refine NoEof.bind ?_ fun _ => ?_
  | split
  | refine NoEof.ite ?_ ?_
  | dsimp only))

theorem Connect.read_noEof : NoEof Connect.read := by unfold Connect.read; no_eof

theorem Publish.read_noEof (flags : UInt8) : NoEof (Publish.read flags) := by
  have h : NoEof Publish.rest := by intro b h; cases h
  unfold Publish.read; no_eof

theorem ConnAck.read_noEof (n : Nat) : NoEof (ConnAck.read n) := by unfold ConnAck.read; no_eof

theorem Ack.readRecComp_noEof (l : List Reason) (sp : Props.SyncSpec) (n : Nat) : NoEof (Ack.readRecComp l sp n) := by
  unfold Ack.readRecComp; no_eof

theorem Packet.bodyRead_noEof (h : FixedHeader) : NoEof (Packet.bodyRead h) := by
  obtain ⟨t, f, n⟩ := h
  cases t
  · exact Connect.read_noEof.map
  · exact (ConnAck.read_noEof _).map
  · exact (Publish.read_noEof _).map
  · refine NoEof.map ?_
    refine NoEof.ite (NoEof.bufLen.bind fun _ => .de _) ?_
    refine readU16_noEof.bind fun _ => .ite (.pure _) ((Reason.read_noEof _).bind fun _ => ?_)
    no_eof
  · exact (Ack.readRecComp_noEof _ _ _).map
  · refine NoEof.map ?_
    refine NoEof.ite (readU16_noEof.bind fun _ => .pure _) (.ite ?_ ?_)
    · exact readU16_noEof.bind fun _ => (Reason.read_noEof _).bind fun _ => .pure _
    · exact readU16_noEof.bind fun _ => (Reason.read_noEof _).bind fun _ =>
        (Props.syncRead_noEof _).bind fun _ => .pure _
  · exact (Ack.readRecComp_noEof _ _ _).map
  all_goals first | exact NoEof.pure _ | skip
  all_goals refine NoEof.map ?_
  · exact readU16_noEof.bind fun _ => (Props.syncRead_noEof _).bind fun _ => NoEof.bufLen.bind fun _ =>
      (Subscribe.readTopics_noEof _).bind fun _ => .pure _
  · exact readU16_noEof.bind fun _ => (Props.syncRead_noEof _).bind fun _ => NoEof.bufLen.bind fun _ =>
      (CodesAck.readCodesGe_noEof _ _ _ _).bind fun _ => .pure _
  · exact readU16_noEof.bind fun _ => (Props.syncRead_noEof _).bind fun _ => NoEof.bufLen.bind fun _ =>
      (Unsubscribe.readTopics_noEof _).bind fun _ => .pure _
  · exact readU16_noEof.bind fun _ => (Props.syncRead_noEof _).bind fun _ => NoEof.bufLen.bind fun _ =>
      (CodesAck.readCodesEq_noEof _ _ _ _).bind fun _ => .pure _
  · exact NoEof.ite (.pure _) <| (Reason.read_noEof _).bind fun _ => (Props.syncRead_noEof _).bind fun _ => .pure _
  · exact (Reason.read_noEof _).bind fun _ => (Props.syncRead_noEof _).bind fun _ => .pure _

theorem Packet.readPacket_ne_eof (h : FixedHeader) (b : Bytes) : Packet.readPacket h b ≠ .error .eof := by
  intro he
  unfold Packet.readPacket at he
  split at he
  · cases he
  · rename_i h'
    cases he
    exact bodyRead_noEof _ _ h'

end Mqrstt
