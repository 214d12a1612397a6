import Verif.Proof.Safe
/-!
# Streaming readers look only at what they consume

A result other than "end of input" does not change when more bytes follow.
-/

namespace Mqrstt
open Spec

/-- the outcome on `b` is the outcome on `b ++ c`, unless the input ran out -/
def LocalAt {α} (r s : Rd α) (b c : Bytes) : Prop :=
  (∀ a b', r b = .ok (a, b') → s (b ++ c) = .ok (a, b' ++ c)) ∧
  (∀ e, r b = .error (.de e) → s (b ++ c) = .error (.de e))

def Local {α} (r : Rd α) : Prop := ∀ b c, LocalAt r r b c

section
variable {α β : Type}

theorem LocalAt.bind {x y : Rd α} {f g : α → Rd β} {b c : Bytes} (hx : LocalAt x y b c)
    (hf : ∀ a b', x b = .ok (a, b') → LocalAt (f a) (g a) b' c) : LocalAt (x >>= f) (y >>= g) b c := by
  constructor
  · intro a b' h
    obtain ⟨a1, b1, h1, h2⟩ := Rd.bind_eq_ok.1 h
    exact Rd.bind_eq_ok.2 ⟨a1, _, hx.1 _ _ h1, (hf _ _ h1).1 _ _ h2⟩
  · intro e h
    rcases Rd.bind_eq_error.1 h with h | ⟨a1, b1, h1, h2⟩
    · exact Rd.bind_eq_error.2 (.inl (hx.2 _ h))
    · exact Rd.bind_eq_error.2 (.inr ⟨a1, _, hx.1 _ _ h1, (hf _ _ h1).2 _ h2⟩)

theorem Local.bind {x : Rd α} {f : α → Rd β} (hx : Local x) (hf : ∀ a, Local (f a)) :
    Local (x >>= f) := fun b c => (hx b c).bind fun a b' _ => hf a b' c

theorem Local.pure (a : α) : Local (pure a : Rd α) := by
  intro b c; constructor
  · intro a' b' h; cases h; rfl
  · intro e h; cases h

theorem Local.de (e : DeErr) : Local (Rd.de e : Rd α) := by
  intro b c; constructor
  · intro a' b' h; cases h
  · intro e h; cases h; rfl

theorem Local.lift (x : Except DeErr α) : Local (Rd.lift x) := by
  cases x with
  | ok a => exact Local.pure a
  | error e => exact Local.de e

theorem Local.ite {p : Prop} [Decidable p] {x y : Rd α} (hx : Local x) (hy : Local y) :
    Local (if p then x else y) := by split <;> assumption

theorem LocalAt.ite {p : Prop} [Decidable p] {x y x' y' : Rd α} {b c} (hx : LocalAt x x' b c)
    (hy : LocalAt y y' b c) : LocalAt (if p then x else y) (if p then x' else y') b c := by
  split <;> assumption

theorem Local.map {f : α → β} {r : Rd α} (h : Local r) : Local (Rd.map f r) :=
  h.bind fun _ => Local.pure _

/-- a loop whose fuel is the length of the input -/
theorem LocalAt.fuel {f : Nat → Rd α} {b c : Bytes}
    (h : LocalAt (f b.length) (f (b ++ c).length) b c) : LocalAt (bufLen >>= f) (bufLen >>= f) b c := h
end

theorem aU8_local : Local aU8 := by
  intro b c; constructor
  · intro a b' h; rw [aU8_ok h]; rfl
  · intro e h
    match b with
    | [] => cases h
    | _ :: _ => cases h

theorem aU16_local : Local aU16 := by
  intro b c; constructor
  · intro a b' h; obtain ⟨y, z, rfl, rfl⟩ := aU16_ok h; rfl
  · intro e h
    match b with
    | [] => cases h
    | [_] => cases h
    | _ :: _ :: _ => cases h

theorem aU32_local : Local aU32 := by
  intro b c; constructor
  · intro a b' h; obtain ⟨y, z, u, v, rfl, rfl⟩ := aU32_ok h; rfl
  · intro e h
    match b with
    | [] => cases h
    | [_] => cases h
    | [_, _] => cases h
    | [_, _, _] => cases h
    | _ :: _ :: _ :: _ :: _ => cases h

theorem aExact_local (n : Nat) : Local (aExact n) := by
  intro b c; constructor
  · intro a b' h
    obtain ⟨rfl, rfl⟩ := aExact_ok h
    rw [List.append_assoc, aExact_append]
  · intro e h
    unfold aExact at h
    split at h <;> cases h

theorem VarInt.asyncRead_local : Local VarInt.asyncRead := by
  intro b c; constructor
  · rintro ⟨n, k⟩ b' h
    obtain ⟨len, rfl, hv, rfl, rfl⟩ := VarInt.asyncRead_ok h
    rw [List.append_assoc, (VarInt.isVbi_reads hv _).2.1]
  · intro e h
    rcases VarInt.vbi_or_open 4 b with ⟨init, last, rest, rfl, h1, h2, h3⟩ | ho
    · have := (VarInt.isVbi_reads ⟨init, last, rfl, h1, h2, h3⟩ rest).2.1
      rw [List.append_assoc, List.singleton_append, h] at this
      cases this
    · rw [VarInt.asyncRead, VarInt.readLoop_open .eof b 4 0 0 ho] at h
      by_cases h4 : 4 ≤ b.length
      · rw [if_pos h4] at h
        cases h
        have ho' : ∀ x ∈ (b ++ c).take 4, more x := by
          rw [List.take_append_of_le_length h4]; exact ho
        rw [VarInt.asyncRead, VarInt.readLoop_open .eof _ 4 0 0 ho', if_pos (by simp; omega)]
      · rw [if_neg h4] at h; cases h

theorem fromUtf8_local (b : Bytes) : Local (fromUtf8 b) := by
  unfold fromUtf8; split
  · exact Local.pure _
  · exact Local.de _

theorem asyncReadBin_local : Local asyncReadBin :=
  aU16_local.bind fun _ => (aExact_local _).bind fun _ => Local.pure _

theorem asyncReadStr_local : Local asyncReadStr :=
  asyncReadBin_local.bind fun _ => (fromUtf8_local _).bind fun _ => Local.pure _

theorem Kind.asyncRead_local (k : Kind) : Local k.asyncRead := by
  cases k
  · exact aU8_local.bind fun _ => Local.pure _
  · exact aU16_local.bind fun _ => Local.pure _
  · exact aU32_local.bind fun _ => Local.pure _
  · exact asyncReadStr_local
  · exact asyncReadBin_local
  · exact VarInt.asyncRead_local.bind fun _ => Local.pure _
  · exact aU8_local.bind fun _ => .ite (Local.pure _) (.ite (Local.pure _) (Local.de _))
  · exact aU8_local.bind fun _ => (Local.lift _).bind fun _ => Local.pure _

theorem PropertyType.asyncRead_local : Local PropertyType.asyncRead :=
  aU8_local.bind fun _ => (Local.lift _).bind fun _ => Local.pure _

theorem Reason.asyncRead_local (l : List Reason) : Local (Reason.asyncRead l) :=
  aU8_local.bind fun _ => (Local.lift _).bind fun _ => Local.pure _

theorem SubOptions.asyncRead_local : Local SubOptions.asyncRead :=
  aU8_local.bind fun _ => (Local.lift _).bind fun _ => Local.pure _

namespace Props

theorem asyncReadEntry_local (P : Props) (e : Entry) : Local (asyncReadEntry P e) := by
  cases e with
  | single p =>
    simp only [asyncReadEntry]
    apply Local.ite (Local.de _)
    exact (Kind.asyncRead_local _).bind fun _ => Local.pure _
  | subIdList => exact VarInt.asyncRead_local.bind fun _ => Local.pure _
  | user => exact asyncReadStr_local.bind fun _ => asyncReadStr_local.bind fun _ => Local.pure _

theorem asyncLoop_local (es : List Entry) (len : Nat) (c : Bytes) :
    ∀ (f f' : Nat) (P : Props) (n : Nat) (b : Bytes), f ≤ f' →
      LocalAt (asyncLoop es len f P n) (asyncLoop es len f' P n) b c := by
  intro f
  induction f with
  | zero =>
    intro f' P n b _
    constructor
    · intro a b' h; cases h
    · intro e h; cases h
  | succ f ih =>
    intro f' P n b hf
    obtain ⟨f', rfl⟩ : ∃ g, f' = g + 1 := ⟨f' - 1, by omega⟩
    rw [asyncLoop, asyncLoop]
    refine (PropertyType.asyncRead_local b c).bind fun t b1 _ => ?_
    obtain ⟨t, m⟩ := t
    simp only
    cases Entry.select es t with
    | none => exact Local.de _ _ _
    | some e =>
      refine (asyncReadEntry_local P e b1 c).bind fun P' b2 _ => ?_
      exact .ite (Local.pure _ _ _) (ih _ _ _ _ (by omega))

theorem asyncRead_local (es : List Entry) : Local (Props.asyncRead es) := by
  refine VarInt.asyncRead_local.bind fun x b c => .ite (Local.pure _ _ _) (.fuel ?_)
  exact (asyncLoop_local _ _ c _ _ _ _ _ (by simp)).bind fun _ b c => Local.pure _ _ _

end Props

theorem CodesAck.asyncCodesEq_local (l : List Reason) (remLen : Nat) (c : Bytes) :
    ∀ (f f' n : Nat) (b : Bytes), f ≤ f' →
      LocalAt (CodesAck.asyncCodesEq l remLen f n) (CodesAck.asyncCodesEq l remLen f' n) b c := by
  intro f
  induction f with
  | zero =>
    intro f' n b _
    constructor
    · intro a b' h; cases h
    · intro e h; cases h
  | succ f ih =>
    intro f' n b hf
    obtain ⟨f', rfl⟩ : ∃ g, f' = g + 1 := ⟨f' - 1, by omega⟩
    refine .ite (Local.pure _ _ _) ((Reason.asyncRead_local l b c).bind fun r b1 _ => ?_)
    exact (ih _ _ _ (by omega)).bind fun _ _ _ => Local.pure _ _ _

theorem CodesAck.asyncCodesGe_local (l : List Reason) (remLen : Nat) (c : Bytes) :
    ∀ (f f' n : Nat) (b : Bytes), f ≤ f' →
      LocalAt (CodesAck.asyncCodesGe l remLen f n) (CodesAck.asyncCodesGe l remLen f' n) b c := by
  intro f
  induction f with
  | zero =>
    intro f' n b _
    constructor
    · intro a b' h; cases h
    · intro e h; cases h
  | succ f ih =>
    intro f' n b hf
    obtain ⟨f', rfl⟩ : ∃ g, f' = g + 1 := ⟨f' - 1, by omega⟩
    refine .ite (Local.pure _ _ _) ((Reason.asyncRead_local l b c).bind fun r b1 _ => ?_)
    exact (ih _ _ _ (by omega)).bind fun _ _ _ => Local.pure _ _ _

theorem Subscribe.asyncTopics_local (remLen : Nat) (c : Bytes) :
    ∀ (f f' n : Nat) (b : Bytes), f ≤ f' →
      LocalAt (Subscribe.asyncTopics remLen f n) (Subscribe.asyncTopics remLen f' n) b c := by
  intro f
  induction f with
  | zero =>
    intro f' n b _
    constructor
    · intro a b' h; cases h
    · intro e h; cases h
  | succ f ih =>
    intro f' n b hf
    obtain ⟨f', rfl⟩ : ∃ g, f' = g + 1 := ⟨f' - 1, by omega⟩
    refine (asyncReadStr_local b c).bind fun t b1 _ => (SubOptions.asyncRead_local b1 c).bind fun o b2 _ => ?_
    exact .ite (Local.pure _ _ _) ((ih _ _ _ (by omega)).bind fun _ _ _ => Local.pure _ _ _)

theorem Unsubscribe.asyncTopics_local (remLen : Nat) (c : Bytes) :
    ∀ (f f' n : Nat) (b : Bytes), f ≤ f' →
      LocalAt (Unsubscribe.asyncTopics remLen f n) (Unsubscribe.asyncTopics remLen f' n) b c := by
  intro f
  induction f with
  | zero =>
    intro f' n b _
    constructor
    · intro a b' h; cases h
    · intro e h; cases h
  | succ f ih =>
    intro f' n b hf
    obtain ⟨f', rfl⟩ : ∃ g, f' = g + 1 := ⟨f' - 1, by omega⟩
    refine (asyncReadStr_local b c).bind fun t b1 _ => ?_
    exact .ite (Local.pure _ _ _) ((ih _ _ _ (by omega)).bind fun _ _ _ => Local.pure _ _ _)

theorem asyncReadProtocolVersion_local : Local asyncReadProtocolVersion :=
  aU8_local.bind fun _ => .ite (Local.pure _) (.ite (Local.de _) (Local.de _))

/-- prove `Local` by following the structure of a reader -/
macro "loc" : tactic => `(tactic| repeat' (first
  | exact Local.pure _ | exact Local.de _ | exact Local.lift _
  | exact aU8_local | exact aU16_local | exact aExact_local _
  | exact asyncReadStr_local | exact asyncReadBin_local | exact asyncReadProtocolVersion_local
  | exact Props.asyncRead_local _ | exact Reason.asyncRead_local _
  | refine Local.bind ?_ fun _ => ?_
  | split
  | refine Local.ite ?_ ?_
  | dsimp only))

theorem LastWill.asyncRead_local (q : QoS) (r : Bool) : Local (LastWill.asyncRead q r) := by
  unfold LastWill.asyncRead; loc

theorem Connect.asyncRead_local : Local Connect.asyncRead := by
  unfold Connect.asyncRead ConnectFlags.asyncRead
  loc
  all_goals exact LastWill.asyncRead_local _ _

theorem Packet.asyncReadPacket_local (h : FixedHeader) : Local (Packet.asyncReadPacket h) := by
  obtain ⟨t, f, n⟩ := h
  cases t
  · exact Connect.asyncRead_local.map
  · refine Local.map ?_; unfold ConnAck.asyncRead ConnAck.asyncReadFlags; loc
  · refine Local.map ?_; unfold Publish.asyncRead; loc
  · refine Local.map ?_; unfold Ack.asyncReadPubAck; loc
  · refine Local.map ?_; unfold Ack.asyncReadPubRec; loc
  · refine Local.map ?_; unfold Ack.asyncReadPubRel; loc
  · refine Local.map ?_; unfold Ack.asyncReadPubComp; loc
  · exact Local.map <| aU16_local.bind fun _ => (Props.asyncRead_local _).bind fun _ b c => .fuel <|
      (Subscribe.asyncTopics_local _ _ _ _ _ _ (by simp)).bind fun _ _ _ => Local.pure _ _ _
  · exact Local.map <| aU16_local.bind fun _ => (Props.asyncRead_local _).bind fun _ b c => .fuel <|
      (CodesAck.asyncCodesEq_local _ _ _ _ _ _ _ (by simp)).bind fun _ _ _ => Local.pure _ _ _
  · exact Local.map <| aU16_local.bind fun _ => (Props.asyncRead_local _).bind fun _ b c => .fuel <|
      (Unsubscribe.asyncTopics_local _ _ _ _ _ _ (by simp)).bind fun _ _ _ => Local.pure _ _ _
  · exact Local.map <| aU16_local.bind fun _ => (Props.asyncRead_local _).bind fun _ b c => .fuel <|
      (CodesAck.asyncCodesGe_local _ _ _ _ _ _ _ (by simp)).bind fun _ _ _ => Local.pure _ _ _
  · exact Local.pure _
  · exact Local.pure _
  · refine Local.map ?_; unfold Disconnect.asyncRead; loc
  · refine Local.map ?_; unfold Auth.asyncRead; loc

theorem FixedHeader.asyncRead_local : Local FixedHeader.asyncRead := by
  refine aU8_local.bind fun _ => (Local.lift _).bind fun _ => ?_
  exact VarInt.asyncRead_local.bind fun _ => Local.pure _

theorem Packet.asyncRead_local : Local Packet.asyncRead :=
  FixedHeader.asyncRead_local.bind fun _ => Packet.asyncReadPacket_local _

end Mqrstt
