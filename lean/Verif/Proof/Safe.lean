import Verif.Proof.Framing
/-!
# Readers that never panic, and how much they consume
-/

namespace Mqrstt
open Spec

/-- neither a panic nor out of fuel -/
def Fail.Proper (e : Fail) : Prop := e ≠ .panic ∧ e ≠ .fuel

theorem Fail.proper_de (e : DeErr) : (Fail.de e).Proper := ⟨by simp, by simp⟩
theorem Fail.proper_eof : Fail.eof.Proper := ⟨by simp, by simp⟩

/-- on this input the reader does not panic -/
def SafeAt {α} (r : Rd α) (b : Bytes) : Prop := ∀ e, r b = .error e → e.Proper

/-- on no input does the reader panic -/
def Safe {α} (r : Rd α) : Prop := ∀ b, SafeAt r b

/-- a successful read leaves at least `k` bytes fewer -/
def Eats {α} (k : Nat) (r : Rd α) : Prop := ∀ b a rest, r b = .ok (a, rest) → rest.length + k ≤ b.length

/-- the count returned is the number of bytes consumed from the front -/
def Counts {α} (r : Rd (α × Nat)) : Prop :=
  ∀ b a n rest, r b = .ok ((a, n), rest) → ∃ pre, b = pre ++ rest ∧ pre.length = n

section
variable {α β : Type}

theorem SafeAt.bind {x : Rd α} {f : α → Rd β} {b : Bytes} (hx : SafeAt x b)
    (hf : ∀ a b', x b = .ok (a, b') → SafeAt (f a) b') : SafeAt (x >>= f) b := by
  intro e h
  rcases Rd.bind_eq_error.1 h with h | ⟨a, b', h1, h2⟩
  · exact hx e h
  · exact hf a b' h1 e h2

theorem Safe.bind {x : Rd α} {f : α → Rd β} (hx : Safe x) (hf : ∀ a, Safe (f a)) : Safe (x >>= f) :=
  fun b => (hx b).bind fun a b' _ => hf a b'

theorem Safe.pure (a : α) : Safe (pure a : Rd α) := by intro b e h; cases h
theorem Safe.de (e : DeErr) : Safe (Rd.de e : Rd α) := by
  intro b e' h; cases h; exact Fail.proper_de e
theorem Safe.bufLen : Safe bufLen := by intro b e h; cases h

theorem Safe.ite {c : Prop} [Decidable c] {x y : Rd α} (hx : Safe x) (hy : Safe y) :
    Safe (if c then x else y) := by split <;> assumption

theorem SafeAt.ite {c : Prop} [Decidable c] {x y : Rd α} {b} (hx : c → SafeAt x b)
    (hy : ¬ c → SafeAt y b) : SafeAt (if c then x else y) b := by
  split
  · exact hx ‹_›
  · exact hy ‹_›

theorem Safe.lift (x : Except DeErr α) : Safe (Rd.lift x) := by
  cases x with
  | ok a => exact Safe.pure a
  | error e => exact Safe.de e

theorem Safe.map {f : α → β} {r : Rd α} (h : Safe r) : Safe (Rd.map f r) := h.bind fun _ => Safe.pure _

theorem Eats.bind {x : Rd α} {f : α → Rd β} {k l : Nat} (hx : Eats k x) (hf : ∀ a, Eats l (f a)) :
    Eats (k + l) (x >>= f) := by
  intro b a rest h
  obtain ⟨a', b', h1, h2⟩ := Rd.bind_eq_ok.1 h
  have := hx _ _ _ h1
  have := hf _ _ _ _ h2
  omega

theorem Eats.mono {x : Rd α} {k l : Nat} (hx : Eats k x) (h : l ≤ k) : Eats l x := by
  intro b a rest e
  have := hx _ _ _ e
  omega

theorem Eats.pure (a : α) : Eats 0 (pure a : Rd α) := by intro b a' rest h; cases h; simp
theorem Eats.de (e : DeErr) (k : Nat) : Eats k (Rd.de e : Rd α) := by intro b a' rest h; cases h
theorem Eats.bufLen : Eats 0 bufLen := by intro b a' rest h; cases h; simp
theorem Eats.lift (x : Except DeErr α) : Eats 0 (Rd.lift x) := by
  cases x with
  | ok a => exact Eats.pure a
  | error e => exact Eats.de e 0
theorem Eats.ite {c : Prop} [Decidable c] {x y : Rd α} {k} (hx : Eats k x) (hy : Eats k y) :
    Eats k (if c then x else y) := by split <;> assumption

theorem Counts.eats {r : Rd (α × Nat)} (h : Counts r) : Eats 0 r := by
  rintro b ⟨a, n⟩ rest e
  obtain ⟨pre, rfl, -⟩ := h _ _ _ _ e
  simp

/-- sequencing with addition of counts -/
theorem Counts.bind {x : Rd (α × Nat)} {f : α → Rd (β × Nat)} (hx : Counts x)
    (hf : ∀ a, Counts (f a)) :
    Counts (do let (a, n) ← x; let (c, m) ← f a; Pure.pure (c, n + m) : Rd (β × Nat)) := by
  intro b c k rest h
  obtain ⟨⟨a, n⟩, b', h1, h2⟩ := Rd.bind_eq_ok.1 h
  obtain ⟨⟨c', m⟩, b'', h3, h4⟩ := Rd.bind_eq_ok.1 h2
  cases h4
  obtain ⟨p1, rfl, rfl⟩ := hx _ _ _ _ h1
  obtain ⟨p2, rfl, rfl⟩ := hf _ _ _ _ _ h3
  exact ⟨p1 ++ p2, by simp, by simp⟩
end

/-! ## primitives -/

theorem aU8_safe : Safe aU8 := by
  intro b e h; cases b with
  | nil => cases h; exact Fail.proper_eof
  | cons x b => cases h

theorem aU16_safe : Safe aU16 := by
  intro b e h
  match b with
  | [] => cases h; exact Fail.proper_eof
  | [_] => cases h; exact Fail.proper_eof
  | _ :: _ :: _ => cases h

theorem aU32_safe : Safe aU32 := by
  intro b e h
  match b with
  | [] => cases h; exact Fail.proper_eof
  | [_] => cases h; exact Fail.proper_eof
  | [_, _] => cases h; exact Fail.proper_eof
  | [_, _, _] => cases h; exact Fail.proper_eof
  | _ :: _ :: _ :: _ :: _ => cases h

theorem aExact_safe (n : Nat) : Safe (aExact n) := by
  intro b e h
  unfold aExact at h
  split at h
  · cases h
  · cases h; exact Fail.proper_eof

theorem aU8_ok {b : Bytes} {x rest} (h : aU8 b = .ok (x, rest)) : b = x :: rest := by
  cases b with
  | nil => cases h
  | cons y b => cases h; rfl

theorem aU16_ok {b : Bytes} {x rest} (h : aU16 b = .ok (x, rest)) :
    ∃ y z, b = y :: z :: rest ∧ x = mkU16 y z := by
  match b with
  | [] => cases h
  | [_] => cases h
  | _ :: _ :: _ => cases h; exact ⟨_, _, rfl, rfl⟩

theorem aU32_ok {b : Bytes} {x rest} (h : aU32 b = .ok (x, rest)) :
    ∃ y z u v, b = y :: z :: u :: v :: rest ∧ x = mkU32 y z u v := by
  match b with
  | [] => cases h
  | [_] => cases h
  | [_, _] => cases h
  | [_, _, _] => cases h
  | _ :: _ :: _ :: _ :: _ => cases h; exact ⟨_, _, _, _, rfl, rfl⟩

theorem aExact_ok {n : Nat} {b d rest : Bytes} (h : aExact n b = .ok (d, rest)) :
    b = d ++ rest ∧ d.length = n := by
  unfold aExact at h
  split at h
  · cases h; exact ⟨(List.take_append_drop _ _).symm, by rw [List.length_take]; omega⟩
  · cases h

theorem getU8_ok {b : Bytes} {x rest} (h : getU8 b = .ok (x, rest)) : b = x :: rest := by
  cases b with
  | nil => cases h
  | cons y b => cases h; rfl

theorem getU16_ok {b : Bytes} {x rest} (h : getU16 b = .ok (x, rest)) :
    ∃ y z, b = y :: z :: rest ∧ x = mkU16 y z := by
  match b with
  | [] => cases h
  | [_] => cases h
  | _ :: _ :: _ => cases h; exact ⟨_, _, rfl, rfl⟩

theorem getU32_ok {b : Bytes} {x rest} (h : getU32 b = .ok (x, rest)) :
    ∃ y z u v, b = y :: z :: u :: v :: rest ∧ x = mkU32 y z u v := by
  match b with
  | [] => cases h
  | [_] => cases h
  | [_, _] => cases h
  | [_, _, _] => cases h
  | _ :: _ :: _ :: _ :: _ => cases h; exact ⟨_, _, _, _, rfl, rfl⟩

theorem getU8_safeAt {b : Bytes} (h : b.length ≠ 0) : SafeAt getU8 b := by
  cases b with
  | nil => simp at h
  | cons y b => intro e h; cases h

theorem getU16_safeAt {b : Bytes} (h : ¬ b.length < 2) : SafeAt getU16 b := by
  match b with
  | [] => simp at h
  | [_] => simp at h
  | _ :: _ :: _ => intro e h; cases h

theorem getU32_safeAt {b : Bytes} (h : ¬ b.length < 4) : SafeAt getU32 b := by
  match b with
  | [] => simp at h
  | [_] => simp at h
  | [_, _] => simp at h
  | [_, _, _] => simp at h
  | _ :: _ :: _ :: _ :: _ => intro e h; cases h

theorem splitTo_safeAt {n : Nat} {b : Bytes} (h : ¬ n > b.length) : SafeAt (splitTo n) b := by
  intro e h'
  rw [splitTo, if_pos (by omega)] at h'
  cases h'

theorem splitTo_ok {n : Nat} {b d rest : Bytes} (h : splitTo n b = .ok (d, rest)) :
    b = d ++ rest ∧ d.length = n := by
  unfold splitTo at h
  split at h
  · cases h; exact ⟨(List.take_append_drop _ _).symm, by rw [List.length_take]; omega⟩
  · cases h

/-- a reader that looks at the buffer length first -/
theorem SafeAt.bufLen {α} {f : Nat → Rd α} {b : Bytes} (h : SafeAt (f b.length) b) :
    SafeAt (Mqrstt.bufLen >>= f) b := h

theorem readU8_safe : Safe readU8 := fun _ => .bufLen <|
  .ite (fun _ => Safe.de _ _) fun h => getU8_safeAt h

theorem readU16_safe : Safe readU16 := fun _ => .bufLen <|
  .ite (fun _ => Safe.de _ _) fun h => getU16_safeAt h

theorem readU32_safe : Safe readU32 := fun _ => .bufLen <|
  .ite (fun _ => Safe.de _ _) fun h => getU32_safeAt h

theorem readBool_safe : Safe readBool := fun _ => .bufLen <|
  .ite (fun _ => Safe.de _ _) fun h => (getU8_safeAt h).bind fun _ _ _ =>
    .ite (fun _ => Safe.pure _ _) fun _ => .ite (fun _ => Safe.pure _ _) fun _ => Safe.de _ _

theorem readQoS_safe : Safe readQoS := fun _ => .bufLen <|
  .ite (fun _ => Safe.de _ _) fun h => (getU8_safeAt h).bind fun _ _ _ => Safe.lift _ _

theorem readBin_safe : Safe readBin := fun _ => .bufLen <|
  .ite (fun _ => Safe.de _ _) fun h => (getU16_safeAt h).bind fun _ _ _ => .bufLen <|
    .ite (fun _ => Safe.de _ _) fun h => splitTo_safeAt h

theorem fromUtf8_safe (b : Bytes) : Safe (fromUtf8 b) := by
  unfold fromUtf8; split
  · exact Safe.pure _
  · exact Safe.de _

theorem readStr_safe : Safe readStr := readBin_safe.bind fun _ => fromUtf8_safe _

theorem asyncReadBin_safe : Safe asyncReadBin :=
  aU16_safe.bind fun _ => (aExact_safe _).bind fun _ => Safe.pure _

theorem asyncReadStr_safe : Safe asyncReadStr :=
  asyncReadBin_safe.bind fun _ => (fromUtf8_safe _).bind fun _ => Safe.pure _

theorem VarInt.readLoop_safe (miss : Fail) (hm : miss.Proper) (k i n : Nat) :
    Safe (VarInt.readLoop miss k i n) := by
  induction k generalizing i n with
  | zero => intro b e h; cases h; exact Fail.proper_de _
  | succ k ih =>
    intro b e h
    cases b with
    | nil => cases h; exact hm
    | cons x b =>
      simp only [VarInt.readLoop] at h
      split at h
      · cases h
      · exact ih _ _ _ _ h

theorem VarInt.read_safe : Safe VarInt.read := readLoop_safe _ (Fail.proper_de _) _ _ _
theorem VarInt.asyncRead_safe : Safe VarInt.asyncRead := readLoop_safe _ Fail.proper_eof _ _ _

theorem VarInt.asyncRead_counts : Counts VarInt.asyncRead := by
  intro b a n rest h
  obtain ⟨len, rfl, -, -, rfl⟩ := VarInt.asyncRead_ok h
  exact ⟨len, rfl, rfl⟩

theorem Kind.read_safe (k : Kind) : Safe k.read := by
  cases k
  · exact readU8_safe
  · exact readU16_safe
  · exact readU32_safe
  · exact readStr_safe
  · exact readBin_safe
  · exact VarInt.read_safe.bind fun _ => Safe.pure _
  · exact readBool_safe
  · exact readQoS_safe

theorem Kind.asyncRead_safe (k : Kind) : Safe k.asyncRead := by
  cases k
  · exact aU8_safe.bind fun _ => Safe.pure _
  · exact aU16_safe.bind fun _ => Safe.pure _
  · exact aU32_safe.bind fun _ => Safe.pure _
  · exact asyncReadStr_safe
  · exact asyncReadBin_safe
  · exact VarInt.asyncRead_safe.bind fun _ => Safe.pure _
  · exact aU8_safe.bind fun _ => .ite (Safe.pure _) (.ite (Safe.pure _) (Safe.de _))
  · exact aU8_safe.bind fun _ => (Safe.lift _).bind fun _ => Safe.pure _

/-! ## sizes -/

theorem getU8_eats : Eats 1 getU8 := by intro b a r h; rw [getU8_ok h]; simp
theorem aU8_eats : Eats 1 aU8 := by intro b a r h; rw [aU8_ok h]; simp
theorem getU16_eats : Eats 2 getU16 := by
  intro b a r h; obtain ⟨_, _, rfl, -⟩ := getU16_ok h; simp
theorem aU16_eats : Eats 2 aU16 := by
  intro b a r h; obtain ⟨_, _, rfl, -⟩ := aU16_ok h; simp
theorem getU32_eats : Eats 4 getU32 := by
  intro b a r h; obtain ⟨_, _, _, _, rfl, -⟩ := getU32_ok h; simp
theorem splitTo_eats (n) : Eats n (splitTo n) := by
  intro b a r h; obtain ⟨rfl, rfl⟩ := splitTo_ok h; simp; omega
theorem aExact_eats (n) : Eats n (aExact n) := by
  intro b a r h; obtain ⟨rfl, rfl⟩ := aExact_ok h; simp; omega

theorem readBin_eats : Eats 2 readBin :=
  Eats.bufLen.bind (k := 0) (l := 2) fun _ => .ite (Eats.de _ _) <| getU16_eats.bind (l := 0) fun _ =>
    Eats.bufLen.bind (k := 0) (l := 0) fun _ => .ite (Eats.de _ _) ((splitTo_eats _).mono (Nat.zero_le _))

theorem fromUtf8_eats (b : Bytes) : Eats 0 (fromUtf8 b) := by
  unfold fromUtf8; split
  · exact Eats.pure _
  · exact Eats.de _ _

theorem readStr_eats : Eats 2 readStr := readBin_eats.bind (l := 0) fun _ => fromUtf8_eats _

theorem asyncReadBin_counts : Counts asyncReadBin := by
  intro b a n rest h
  obtain ⟨x, b1, h1, h2⟩ := Rd.bind_eq_ok.1 h
  obtain ⟨y, z, rfl, rfl⟩ := aU16_ok h1
  obtain ⟨d, b2, h3, h4⟩ := Rd.bind_eq_ok.1 h2
  obtain ⟨rfl, hd⟩ := aExact_ok h3
  cases h4
  exact ⟨y :: z :: a, rfl, by simp [hd]; omega⟩

theorem asyncReadStr_counts : Counts asyncReadStr := by
  intro b a n rest h
  obtain ⟨⟨d, n'⟩, b1, h1, h2⟩ := Rd.bind_eq_ok.1 h
  obtain ⟨s, b2, h3, h4⟩ := Rd.bind_eq_ok.1 h2
  cases h4
  obtain ⟨p, rfl, rfl⟩ := asyncReadBin_counts _ _ _ _ h1
  unfold fromUtf8 at h3
  split at h3
  · cases h3; exact ⟨p, rfl, rfl⟩
  · cases h3

theorem asyncReadStr_eats : Eats 2 asyncReadStr := by
  intro b a rest h
  obtain ⟨⟨d, n'⟩, b1, h1, h2⟩ := Rd.bind_eq_ok.1 h
  obtain ⟨x, b3, h5, h6⟩ := Rd.bind_eq_ok.1 h1
  have := aU16_eats _ _ _ h5
  obtain ⟨y, b4, h7, h8⟩ := Rd.bind_eq_ok.1 h6
  have := aExact_eats _ _ _ _ h7
  cases h8
  obtain ⟨s, b2, h3, h4⟩ := Rd.bind_eq_ok.1 h2
  cases h4
  have := fromUtf8_eats _ _ _ _ h3
  omega

theorem lift_ok_inv {α} {x : Except DeErr α} {b rest : Bytes} {a : α}
    (h : Rd.lift x b = .ok (a, rest)) : x = .ok a ∧ rest = b := by
  cases x with
  | ok a' => cases h; exact ⟨rfl, rfl⟩
  | error e => cases h

theorem Kind.asyncRead_counts (k : Kind) : Counts k.asyncRead := by
  cases k
  · intro b a n rest h
    obtain ⟨x, b1, h1, h2⟩ := Rd.bind_eq_ok.1 h
    rw [aU8_ok h1]; cases h2; exact ⟨[_], rfl, rfl⟩
  · intro b a n rest h
    obtain ⟨x, b1, h1, h2⟩ := Rd.bind_eq_ok.1 h
    obtain ⟨y, z, rfl, rfl⟩ := aU16_ok h1
    cases h2; exact ⟨[y, z], rfl, rfl⟩
  · intro b a n rest h
    obtain ⟨x, b1, h1, h2⟩ := Rd.bind_eq_ok.1 h
    obtain ⟨y, z, u, v, rfl, rfl⟩ := aU32_ok h1
    cases h2; exact ⟨[y, z, u, v], rfl, rfl⟩
  · exact asyncReadStr_counts
  · exact asyncReadBin_counts
  · intro b a n rest h
    obtain ⟨⟨v, m⟩, b1, h1, h2⟩ := Rd.bind_eq_ok.1 h
    cases h2
    exact VarInt.asyncRead_counts _ _ _ _ h1
  · intro b a n rest h
    obtain ⟨x, b1, h1, h2⟩ := Rd.bind_eq_ok.1 h
    rw [aU8_ok h1]
    simp only [Rd.ite_apply] at h2
    split at h2
    · cases h2; exact ⟨[_], rfl, rfl⟩
    · split at h2 <;> cases h2; exact ⟨[_], rfl, rfl⟩
  · intro b a n rest h
    obtain ⟨x, b1, h1, h2⟩ := Rd.bind_eq_ok.1 h
    rw [aU8_ok h1]
    obtain ⟨q, b2, h3, h4⟩ := Rd.bind_eq_ok.1 h2
    obtain ⟨-, rfl⟩ := lift_ok_inv h3
    cases h4; exact ⟨[x], rfl, rfl⟩

theorem PropertyType.read_safe : Safe PropertyType.read := fun _ => .bufLen <|
  .ite (fun _ => Safe.de _ _) fun h => (getU8_safeAt h).bind fun _ _ _ => Safe.lift _ _

theorem PropertyType.read_eats : Eats 1 PropertyType.read :=
  Eats.bufLen.bind (k := 0) (l := 1) fun _ => .ite (Eats.de _ _) <| getU8_eats.bind (l := 0) fun _ =>
    Eats.lift _

theorem PropertyType.asyncRead_safe : Safe PropertyType.asyncRead :=
  aU8_safe.bind fun _ => (Safe.lift _).bind fun _ => Safe.pure _

theorem asyncByte_counts {α} (f : UInt8 → Except DeErr α) :
    Counts (do pure (← Rd.lift (f (← aU8)), 1) : Rd (α × Nat)) := by
  intro b a n rest h
  obtain ⟨x, b1, h1, h2⟩ := Rd.bind_eq_ok.1 h
  rw [aU8_ok h1]
  obtain ⟨q, b2, h3, h4⟩ := Rd.bind_eq_ok.1 h2
  obtain ⟨-, rfl⟩ := lift_ok_inv h3
  cases h4; exact ⟨[x], rfl, rfl⟩

theorem asyncByte_eats {α} (f : UInt8 → Except DeErr α) :
    Eats 1 (do pure (← Rd.lift (f (← aU8)), 1) : Rd (α × Nat)) :=
  aU8_eats.bind (l := 0) fun _ => (Eats.lift _).bind (l := 0) fun _ => Eats.pure _

theorem PropertyType.asyncRead_counts : Counts PropertyType.asyncRead := asyncByte_counts _
theorem PropertyType.asyncRead_eats : Eats 1 PropertyType.asyncRead := asyncByte_eats _

theorem readBool_eats : Eats 1 readBool :=
  Eats.bufLen.bind (k := 0) (l := 1) fun _ => .ite (Eats.de _ _) <| getU8_eats.bind (l := 0) fun _ =>
    .ite (Eats.pure _) (.ite (Eats.pure _) (Eats.de _ _))

theorem readQoS_eats : Eats 1 readQoS :=
  Eats.bufLen.bind (k := 0) (l := 1) fun _ => .ite (Eats.de _ _) <| getU8_eats.bind (l := 0) fun _ =>
    Eats.lift _

theorem VarInt.read_eats : Eats 1 VarInt.read := by
  rintro b ⟨n, k⟩ rest h
  obtain ⟨len, rfl, hv, -, -⟩ := VarInt.read_ok h
  have := VarInt.isVbi_pos hv
  simp; omega

theorem VarInt.asyncRead_eats : Eats 1 VarInt.asyncRead := by
  rintro b ⟨n, k⟩ rest h
  obtain ⟨len, rfl, hv, -, -⟩ := VarInt.asyncRead_ok h
  have := VarInt.isVbi_pos hv
  simp; omega

theorem Kind.read_eats (k : Kind) : Eats 1 k.read := by
  cases k
  · exact Eats.bufLen.bind (k := 0) fun _ => .ite (Eats.de _ _) getU8_eats
  · exact Eats.mono (Eats.bufLen.bind (k := 0) fun _ => .ite (Eats.de _ _) getU16_eats) (by omega)
  · exact Eats.mono (Eats.bufLen.bind (k := 0) fun _ => .ite (Eats.de _ _) getU32_eats) (by omega)
  · exact readStr_eats.mono (by omega)
  · exact readBin_eats.mono (by omega)
  · exact VarInt.read_eats.bind (l := 0) fun _ => Eats.pure _
  · exact readBool_eats
  · exact readQoS_eats

/-! ## properties -/

namespace Props

theorem syncReadEntry_safe {sp : SyncSpec} (hu : sp.unchecked = false) (P : Props) (e : Entry) :
    Safe (syncReadEntry sp P e) := by
  cases e with
  | single p =>
    simp only [syncReadEntry, hu]
    apply Safe.ite (Safe.de _)
    exact (Kind.read_safe _).bind fun _ => Safe.pure _
  | subIdList => exact VarInt.read_safe.bind fun _ => Safe.pure _
  | user => exact readStr_safe.bind fun _ => readStr_safe.bind fun _ => Safe.pure _

theorem syncReadEntry_eats {sp : SyncSpec} (hu : sp.unchecked = false) (P : Props) (e : Entry) :
    Eats 0 (syncReadEntry sp P e) := by
  cases e with
  | single p =>
    simp only [syncReadEntry, hu]
    apply Eats.ite (Eats.de _ _)
    exact ((Kind.read_eats _).bind (l := 0) fun _ => Eats.pure _).mono (by omega)
  | subIdList => exact (VarInt.read_eats.bind (l := 0) fun _ => Eats.pure _).mono (by omega)
  | user =>
    exact (readStr_eats.bind (l := 2) fun _ => readStr_eats.bind (l := 0) fun _ => Eats.pure _).mono
      (by omega)

theorem syncLoop_safe {sp : SyncSpec} (hu : sp.unchecked = false) :
    ∀ (fuel : Nat) (P : Props) (b : Bytes), b.length < fuel → SafeAt (syncLoop sp fuel P) b := by
  intro fuel
  induction fuel with
  | zero => intro P b h; omega
  | succ fuel ih =>
    intro P b hb
    rw [syncLoop]
    refine (PropertyType.read_safe b).bind fun t b1 h1 => ?_
    have l1 := PropertyType.read_eats _ _ _ h1
    split
    · exact Safe.de _ _
    · rename_i e _
      refine (syncReadEntry_safe hu P e b1).bind fun P' b2 h2 => ?_
      have l2 := syncReadEntry_eats hu P e _ _ _ h2
      refine .bufLen (.ite (fun _ => Safe.pure _ _) fun _ => ih P' b2 (by omega))

theorem syncRead_safe {sp : SyncSpec} (hu : sp.unchecked = false) : Safe (syncRead sp) := by
  refine VarInt.read_safe.bind fun x b => ?_
  refine .ite (fun _ => Safe.pure _ _) fun _ => .bufLen (.ite (fun _ => Safe.de _ _) fun h => ?_)
  have hend : ∀ (P : Props), Safe (if (sp.authCheck && ((P.val .authenticationData).any (fun d => !d.isEmpty))
      && (P.val .authenticationMethod).isNone) = true then Rd.de .malformedPacketWithInfo else pure P : Rd Props) :=
    fun P => .ite (Safe.de _) (Safe.pure _)
  refine .ite (fun _ => ?_) fun _ => (syncLoop_safe hu _ _ _ (by omega)).bind fun P b' _ => hend P b'
  refine (splitTo_safeAt (by omega)).bind fun data b' _ => SafeAt.bind ?_ fun P b' _ => hend P b'
  intro e he
  unfold onSlice at he
  split at he
  · cases he
  · rename_i e' h'
    cases he
    exact syncLoop_safe hu _ _ _ (by omega) _ h'

theorem asyncReadEntry_safe (P : Props) (e : Entry) : Safe (asyncReadEntry P e) := by
  cases e with
  | single p =>
    simp only [asyncReadEntry]
    apply Safe.ite (Safe.de _)
    exact (Kind.asyncRead_safe _).bind fun _ => Safe.pure _
  | subIdList => exact VarInt.asyncRead_safe.bind fun _ => Safe.pure _
  | user => exact asyncReadStr_safe.bind fun _ => asyncReadStr_safe.bind fun _ => Safe.pure _

theorem asyncReadEntry_counts (P : Props) (e : Entry) : Counts (asyncReadEntry P e) := by
  intro b a n rest h
  cases e with
  | single p =>
    simp only [asyncReadEntry, Rd.ite_apply] at h
    split at h
    · cases h
    · obtain ⟨⟨v, m⟩, b1, h1, h2⟩ := Rd.bind_eq_ok.1 h
      cases h2
      exact Kind.asyncRead_counts _ _ _ _ _ h1
  | subIdList =>
    obtain ⟨⟨v, m⟩, b1, h1, h2⟩ := Rd.bind_eq_ok.1 h
    cases h2
    exact VarInt.asyncRead_counts _ _ _ _ h1
  | user =>
    obtain ⟨⟨v, m⟩, b1, h1, h2⟩ := Rd.bind_eq_ok.1 h
    obtain ⟨⟨v', m'⟩, b2, h3, h4⟩ := Rd.bind_eq_ok.1 h2
    cases h4
    obtain ⟨p1, rfl, rfl⟩ := asyncReadStr_counts _ _ _ _ h1
    obtain ⟨p2, rfl, rfl⟩ := asyncReadStr_counts _ _ _ _ h3
    exact ⟨p1 ++ p2, by simp, by simp⟩

theorem asyncLoop_safe (es : List Entry) (len : Nat) :
    ∀ (fuel : Nat) (P : Props) (n : Nat) (b : Bytes), b.length < fuel →
      SafeAt (asyncLoop es len fuel P n) b := by
  intro fuel
  induction fuel with
  | zero => intro P n b h; omega
  | succ fuel ih =>
    intro P n b hb
    rw [asyncLoop]
    refine (PropertyType.asyncRead_safe b).bind fun t b1 h1 => ?_
    have l1 := PropertyType.asyncRead_eats _ _ _ h1
    obtain ⟨t, m⟩ := t
    simp only
    cases Entry.select es t with
    | none => exact Safe.de _ _
    | some e =>
      refine (asyncReadEntry_safe P e b1).bind fun P' b2 h2 => ?_
      have l2 := (asyncReadEntry_counts P e).eats _ _ _ h2
      exact .ite (fun _ => Safe.pure _ _) fun _ => ih P'.1 _ b2 (by omega)

theorem asyncLoop_counts (es : List Entry) (len : Nat) :
    ∀ (fuel : Nat) (P : Props) (n : Nat) (b : Bytes) (Q : Props) (m : Nat) (rest : Bytes),
      asyncLoop es len fuel P n b = .ok ((Q, m), rest) →
      m = len ∧ ∃ pre, b = pre ++ rest ∧ n + pre.length = m := by
  intro fuel
  induction fuel with
  | zero => intro P n b Q m rest h; cases h
  | succ fuel ih =>
    intro P n b Q m rest h
    rw [asyncLoop] at h
    obtain ⟨⟨t, k⟩, b1, h1, h2⟩ := Rd.bind_eq_ok.1 h
    obtain ⟨p1, rfl, rfl⟩ := PropertyType.asyncRead_counts _ _ _ _ h1
    simp only at h2
    cases hs : Entry.select es t with
    | none => rw [hs] at h2; cases h2
    | some e =>
      rw [hs] at h2
      obtain ⟨⟨P', k'⟩, b2, h3, h4⟩ := Rd.bind_eq_ok.1 h2
      obtain ⟨p2, rfl, rfl⟩ := asyncReadEntry_counts _ _ _ _ _ _ h3
      simp only [Rd.ite_apply] at h4
      split at h4
      · rename_i hn
        cases h4
        exact ⟨hn, p1 ++ p2, by simp, by simp; omega⟩
      · obtain ⟨e1, p3, rfl, e2⟩ := ih _ _ _ _ _ _ h4
        exact ⟨e1, p1 ++ p2 ++ p3, by simp, by simp; omega⟩

theorem asyncRead_safe (es : List Entry) : Safe (Props.asyncRead es) :=
  VarInt.asyncRead_safe.bind fun _ _ => .ite (fun _ => Safe.pure _ _) fun _ => .bufLen <|
    (asyncLoop_safe _ _ _ _ _ _ (by omega)).bind fun _ _ _ => Safe.pure _ _

theorem asyncRead_counts (es : List Entry) : Counts (Props.asyncRead es) := by
  intro b P n rest h
  obtain ⟨⟨len, k⟩, b1, h1, h2⟩ := Rd.bind_eq_ok.1 h
  obtain ⟨p1, rfl, rfl⟩ := VarInt.asyncRead_counts _ _ _ _ h1
  simp only [Rd.ite_apply] at h2
  split at h2
  · cases h2; exact ⟨p1, rfl, rfl⟩
  · obtain ⟨a, b2, h3, h4⟩ := Rd.bind_eq_ok.1 h2
    cases h3
    obtain ⟨⟨Q, m⟩, b3, h5, h6⟩ := Rd.bind_eq_ok.1 h4
    cases h6
    obtain ⟨-, p2, rfl, e⟩ := asyncLoop_counts _ _ _ _ _ _ _ _ _ h5
    exact ⟨p1 ++ p2, by simp, by simp; omega⟩

end Props

/-! ## reason codes and loops -/

theorem Reason.read_safe (l : List Reason) : Safe (Reason.read l) := fun _ => .bufLen <|
  .ite (fun _ => Safe.de _ _) fun h => (getU8_safeAt h).bind fun _ _ _ => Safe.lift _ _

theorem Reason.read_eats (l : List Reason) : Eats 1 (Reason.read l) :=
  Eats.bufLen.bind (k := 0) (l := 1) fun _ => .ite (Eats.de _ _) <| getU8_eats.bind (l := 0) fun _ =>
    Eats.lift _

theorem Reason.asyncRead_safe (l : List Reason) : Safe (Reason.asyncRead l) :=
  aU8_safe.bind fun _ => (Safe.lift _).bind fun _ => Safe.pure _

theorem Reason.asyncRead_counts (l : List Reason) : Counts (Reason.asyncRead l) := asyncByte_counts _
theorem Reason.asyncRead_eats (l : List Reason) : Eats 1 (Reason.asyncRead l) := asyncByte_eats _

theorem Reason.asyncRead_one {l : List Reason} {b rest : Bytes} {r : Reason} {n : Nat}
    (h : Reason.asyncRead l b = .ok ((r, n), rest)) : n = 1 := by
  obtain ⟨x, b1, h1, h2⟩ := Rd.bind_eq_ok.1 h
  obtain ⟨q, b2, h3, h4⟩ := Rd.bind_eq_ok.1 h2
  cases h4; rfl

namespace CodesAck

theorem readCodesGe_safe (l : List Reason) (remLen : Nat) : ∀ (fuel n : Nat) (b : Bytes),
    b.length < fuel → SafeAt (readCodesGe l remLen fuel n) b := by
  intro fuel
  induction fuel with
  | zero => intro n b h; omega
  | succ fuel ih =>
    intro n b hb
    refine .ite (fun _ => Safe.pure _ _) fun _ => (Reason.read_safe l b).bind fun r b1 h1 => ?_
    have := Reason.read_eats _ _ _ _ h1
    exact (ih _ b1 (by omega)).bind fun _ _ _ => Safe.pure _ _

theorem readCodesEq_safe (l : List Reason) (remLen : Nat) : ∀ (fuel n : Nat) (b : Bytes),
    b.length < fuel → SafeAt (readCodesEq l remLen fuel n) b := by
  intro fuel
  induction fuel with
  | zero => intro n b h; omega
  | succ fuel ih =>
    intro n b hb
    refine .ite (fun _ => Safe.pure _ _) fun _ => (Reason.read_safe l b).bind fun r b1 h1 => ?_
    have := Reason.read_eats _ _ _ _ h1
    exact (ih _ b1 (by omega)).bind fun _ _ _ => Safe.pure _ _

theorem asyncCodesGe_safe (l : List Reason) (remLen : Nat) : ∀ (fuel n : Nat) (b : Bytes),
    b.length < fuel → SafeAt (asyncCodesGe l remLen fuel n) b := by
  intro fuel
  induction fuel with
  | zero => intro n b h; omega
  | succ fuel ih =>
    intro n b hb
    refine .ite (fun _ => Safe.pure _ _) fun _ => (Reason.asyncRead_safe l b).bind fun r b1 h1 => ?_
    have := Reason.asyncRead_eats _ _ _ _ h1
    exact (ih _ b1 (by omega)).bind fun _ _ _ => Safe.pure _ _

theorem asyncCodesEq_safe (l : List Reason) (remLen : Nat) : ∀ (fuel n : Nat) (b : Bytes),
    b.length < fuel → SafeAt (asyncCodesEq l remLen fuel n) b := by
  intro fuel
  induction fuel with
  | zero => intro n b h; omega
  | succ fuel ih =>
    intro n b hb
    refine .ite (fun _ => Safe.pure _ _) fun _ => (Reason.asyncRead_safe l b).bind fun r b1 h1 => ?_
    have := Reason.asyncRead_eats _ _ _ _ h1
    exact (ih _ b1 (by omega)).bind fun _ _ _ => Safe.pure _ _

theorem asyncCodesEq_counts (l : List Reason) (remLen : Nat) : ∀ (fuel n : Nat) (b : Bytes)
    (rs : List Reason) (t : Nat) (rest : Bytes),
    asyncCodesEq l remLen fuel n b = .ok ((rs, t), rest) →
    t = remLen ∧ ∃ pre, b = pre ++ rest ∧ n + pre.length = t := by
  intro fuel
  induction fuel with
  | zero => intro n b rs t rest h; cases h
  | succ fuel ih =>
    intro n b rs t rest h
    simp only [asyncCodesEq, Rd.ite_apply] at h
    split at h
    · cases h; exact ⟨by omega, [], rfl, rfl⟩
    · obtain ⟨⟨r, k⟩, b1, h1, h2⟩ := Rd.bind_eq_ok.1 h
      obtain ⟨⟨rs', t'⟩, b2, h3, h4⟩ := Rd.bind_eq_ok.1 h2
      cases h4
      obtain ⟨p1, rfl, rfl⟩ := Reason.asyncRead_counts _ _ _ _ _ h1
      obtain ⟨e1, p2, rfl, e2⟩ := ih _ _ _ _ _ h3
      exact ⟨e1, p1 ++ p2, by simp, by simp; omega⟩

end CodesAck

theorem SubOptions.read_safe : Safe SubOptions.read := fun _ => .bufLen <|
  .ite (fun _ => Safe.de _ _) fun h => (getU8_safeAt h).bind fun _ _ _ => Safe.lift _ _

theorem SubOptions.read_eats : Eats 1 SubOptions.read :=
  Eats.bufLen.bind (k := 0) (l := 1) fun _ => .ite (Eats.de _ _) <| getU8_eats.bind (l := 0) fun _ =>
    Eats.lift _

theorem SubOptions.asyncRead_safe : Safe SubOptions.asyncRead :=
  aU8_safe.bind fun _ => (Safe.lift _).bind fun _ => Safe.pure _

theorem SubOptions.asyncRead_eats : Eats 1 SubOptions.asyncRead := asyncByte_eats _

theorem Subscribe.readTopics_safe : ∀ (fuel : Nat) (b : Bytes), b.length < fuel →
    SafeAt (Subscribe.readTopics fuel) b := by
  intro fuel
  induction fuel with
  | zero => intro b h; omega
  | succ fuel ih =>
    intro b hb
    refine (readStr_safe b).bind fun t b1 h1 => (SubOptions.read_safe b1).bind fun o b2 h2 => ?_
    have := readStr_eats _ _ _ h1
    have := SubOptions.read_eats _ _ _ h2
    exact .bufLen (.ite (fun _ => Safe.pure _ _) fun _ =>
      (ih b2 (by omega)).bind fun _ _ _ => Safe.pure _ _)

theorem Subscribe.asyncTopics_safe (remLen : Nat) : ∀ (fuel n : Nat) (b : Bytes), b.length < fuel →
    SafeAt (Subscribe.asyncTopics remLen fuel n) b := by
  intro fuel
  induction fuel with
  | zero => intro n b h; omega
  | succ fuel ih =>
    intro n b hb
    refine (asyncReadStr_safe b).bind fun t b1 h1 => (SubOptions.asyncRead_safe b1).bind fun o b2 h2 => ?_
    have := asyncReadStr_eats _ _ _ h1
    have := SubOptions.asyncRead_eats _ _ _ h2
    exact .ite (fun _ => Safe.pure _ _) fun _ =>
      (ih _ b2 (by omega)).bind fun _ _ _ => Safe.pure _ _

theorem Unsubscribe.readTopics_safe : ∀ (fuel : Nat) (b : Bytes), b.length < fuel →
    SafeAt (Unsubscribe.readTopics fuel) b := by
  intro fuel
  induction fuel with
  | zero => intro b h; omega
  | succ fuel ih =>
    intro b hb
    refine (readStr_safe b).bind fun t b1 h1 => ?_
    have := readStr_eats _ _ _ h1
    exact .bufLen (.ite (fun _ => Safe.pure _ _) fun _ =>
      (ih b1 (by omega)).bind fun _ _ _ => Safe.pure _ _)

theorem Unsubscribe.asyncTopics_safe (remLen : Nat) : ∀ (fuel n : Nat) (b : Bytes), b.length < fuel →
    SafeAt (Unsubscribe.asyncTopics remLen fuel n) b := by
  intro fuel
  induction fuel with
  | zero => intro n b h; omega
  | succ fuel ih =>
    intro n b hb
    refine (asyncReadStr_safe b).bind fun t b1 h1 => ?_
    have := asyncReadStr_eats _ _ _ h1
    exact .ite (fun _ => Safe.pure _ _) fun _ =>
      (ih _ b1 (by omega)).bind fun _ _ _ => Safe.pure _ _

/-! ## packets -/

theorem readProtocolVersion_safe : Safe readProtocolVersion := fun _ => .bufLen <|
  .ite (fun _ => Safe.de _ _) fun h => (getU8_safeAt h).bind fun _ _ _ =>
    .ite (fun _ => Safe.de _ _) fun _ => .ite (fun _ => Safe.pure _ _) fun _ => Safe.de _ _

theorem asyncReadProtocolVersion_safe : Safe asyncReadProtocolVersion :=
  aU8_safe.bind fun _ => .ite (Safe.pure _) (.ite (Safe.de _) (Safe.de _))

theorem LastWill.asyncRead_safe (q : QoS) (r : Bool) : Safe (LastWill.asyncRead q r) :=
  (Props.asyncRead_safe _).bind fun _ => asyncReadStr_safe.bind fun _ =>
    asyncReadBin_safe.bind fun _ => Safe.pure _

/-- prove `Safe` by following the structure of a reader -/
macro "safe" : tactic => `(tactic| repeat' (first
  | exact Safe.pure _ | exact Safe.de _ | exact Safe.lift _ | exact Safe.bufLen
  | exact aU8_safe | exact aU16_safe | exact aExact_safe _ | exact readU16_safe | exact readStr_safe
  | exact asyncReadStr_safe | exact asyncReadBin_safe | exact asyncReadProtocolVersion_safe
  | exact LastWill.asyncRead_safe _ _ | exact Props.asyncRead_safe _
  | exact Props.syncRead_safe rfl | exact Reason.read_safe _ | exact Reason.asyncRead_safe _
  | refine Safe.bind ?_ fun _ => ?_
  | split
  | refine Safe.ite ?_ ?_
  | dsimp only))

theorem Connect.asyncRead_safe : Safe Connect.asyncRead := by
  unfold Connect.asyncRead ConnectFlags.asyncRead
  safe

theorem Publish.read_safe (flags : UInt8) : Safe (Publish.read flags) := by
  have h : Safe Publish.rest := by intro b e h; cases h
  unfold Publish.read
  safe
  all_goals exact h

theorem Publish.asyncRead_safe (flags : UInt8) (n : Nat) : Safe (Publish.asyncRead flags n) := by
  unfold Publish.asyncRead
  safe

theorem ConnAck.read_safe (n : Nat) : Safe (ConnAck.read n) := by
  refine Safe.bufLen.bind fun _ => .ite (Safe.de _) ?_
  refine Safe.bind (fun _ => .bufLen <| .ite (fun _ => Safe.de _ _) fun h =>
    (getU8_safeAt h).bind fun _ _ _ => Safe.pure _ _) fun _ => ?_
  exact (Reason.read_safe _).bind fun _ => (Props.syncRead_safe rfl).bind fun _ => Safe.pure _

theorem ConnAck.asyncRead_safe : Safe ConnAck.asyncRead :=
  Safe.bind (aU8_safe.bind fun _ => Safe.pure _) fun _ => (Reason.asyncRead_safe _).bind fun _ =>
    (Props.asyncRead_safe _).bind fun _ => Safe.pure _

theorem Ack.readRecComp_safe (l : List Reason) {sp : Props.SyncSpec} (hu : sp.unchecked = false)
    (n : Nat) : Safe (Ack.readRecComp l sp n) :=
  .ite (readU16_safe.bind fun _ => Safe.pure _) <| .ite (Safe.bufLen.bind fun _ => Safe.de _) <|
    readU16_safe.bind fun _ => (Reason.read_safe _).bind fun _ => (Props.syncRead_safe hu).bind fun _ =>
      Safe.pure _

theorem Packet.bodyRead_safe (h : FixedHeader) (hc : h.type ≠ .connect) : Safe (Packet.bodyRead h) := by
  obtain ⟨t, f, n⟩ := h
  cases t
  · exact absurd rfl hc
  · exact (ConnAck.read_safe _).map
  · exact (Publish.read_safe _).map
  · refine Safe.map (.ite (Safe.bufLen.bind fun _ => Safe.de _) ?_)
    refine readU16_safe.bind fun _ => .ite (Safe.pure _) ((Reason.read_safe _).bind fun _ => ?_)
    safe
  · exact (Ack.readRecComp_safe _ rfl _).map
  · refine Safe.map (.ite (readU16_safe.bind fun _ => Safe.pure _) (.ite ?_ ?_))
    · exact readU16_safe.bind fun _ => (Reason.read_safe _).bind fun _ => Safe.pure _
    · exact readU16_safe.bind fun _ => (Reason.read_safe _).bind fun _ =>
        (Props.syncRead_safe rfl).bind fun _ => Safe.pure _
  · exact (Ack.readRecComp_safe _ rfl _).map
  · exact Safe.map <| readU16_safe.bind fun _ => (Props.syncRead_safe rfl).bind fun _ b => .bufLen <|
      (Subscribe.readTopics_safe _ _ (by omega)).bind fun _ _ _ => Safe.pure _ _
  · exact Safe.map <| readU16_safe.bind fun _ => (Props.syncRead_safe rfl).bind fun _ b => .bufLen <|
      (CodesAck.readCodesGe_safe _ _ _ _ _ (by omega)).bind fun _ _ _ => Safe.pure _ _
  · exact Safe.map <| readU16_safe.bind fun _ => (Props.syncRead_safe rfl).bind fun _ b => .bufLen <|
      (Unsubscribe.readTopics_safe _ _ (by omega)).bind fun _ _ _ => Safe.pure _ _
  · exact Safe.map <| readU16_safe.bind fun _ => (Props.syncRead_safe rfl).bind fun _ b => .bufLen <|
      (CodesAck.readCodesEq_safe _ _ _ _ _ (by omega)).bind fun _ _ _ => Safe.pure _ _
  · exact Safe.pure _
  · exact Safe.pure _
  · exact Safe.map <| .ite (Safe.pure _) <| (Reason.read_safe _).bind fun _ =>
      (Props.syncRead_safe rfl).bind fun _ => Safe.pure _
  · exact Safe.map <| (Reason.read_safe _).bind fun _ => (Props.syncRead_safe rfl).bind fun _ =>
      Safe.pure _

theorem Packet.asyncReadPacket_safe (h : FixedHeader) : Safe (Packet.asyncReadPacket h) := by
  obtain ⟨t, f, n⟩ := h
  cases t
  · exact Connect.asyncRead_safe.map
  · exact ConnAck.asyncRead_safe.map
  · exact (Publish.asyncRead_safe _ _).map
  · refine Safe.map (.ite (Safe.de _) ?_)
    refine aU16_safe.bind fun _ => .ite (Safe.pure _) ((Reason.asyncRead_safe _).bind fun _ => ?_)
    safe
  · exact Safe.map <| aU16_safe.bind fun _ => .ite (Safe.pure _) <| (Reason.asyncRead_safe _).bind fun _ =>
      (Props.asyncRead_safe _).bind fun _ => Safe.pure _
  · exact Safe.map <| aU16_safe.bind fun _ => .ite (Safe.pure _) <| (Reason.asyncRead_safe _).bind fun _ =>
      .ite (Safe.pure _) <| (Props.asyncRead_safe _).bind fun _ => Safe.pure _
  · exact Safe.map <| aU16_safe.bind fun _ => .ite (Safe.pure _) <| .ite (Safe.de _) <|
      (Reason.asyncRead_safe _).bind fun _ => (Props.asyncRead_safe _).bind fun _ =>
        .ite (Safe.de _) (Safe.pure _)
  · exact Safe.map <| aU16_safe.bind fun _ => (Props.asyncRead_safe _).bind fun _ b => .bufLen <|
      (Subscribe.asyncTopics_safe _ _ _ _ (by omega)).bind fun _ _ _ => Safe.pure _ _
  · exact Safe.map <| aU16_safe.bind fun _ => (Props.asyncRead_safe _).bind fun _ b => .bufLen <|
      (CodesAck.asyncCodesEq_safe _ _ _ _ _ (by omega)).bind fun _ _ _ => Safe.pure _ _
  · exact Safe.map <| aU16_safe.bind fun _ => (Props.asyncRead_safe _).bind fun _ b => .bufLen <|
      (Unsubscribe.asyncTopics_safe _ _ _ _ (by omega)).bind fun _ _ _ => Safe.pure _ _
  · exact Safe.map <| aU16_safe.bind fun _ => (Props.asyncRead_safe _).bind fun _ b => .bufLen <|
      (CodesAck.asyncCodesGe_safe _ _ _ _ _ (by omega)).bind fun _ _ _ => Safe.pure _ _
  · exact Safe.pure _
  · exact Safe.pure _
  · exact Safe.map <| .ite (Safe.pure _) <| (Reason.asyncRead_safe _).bind fun _ =>
      (Props.asyncRead_safe _).bind fun _ => Safe.pure _
  · exact Safe.map <| (Reason.asyncRead_safe _).bind fun _ => (Props.asyncRead_safe _).bind fun _ =>
      Safe.pure _

theorem FixedHeader.asyncRead_safe : Safe FixedHeader.asyncRead :=
  aU8_safe.bind fun _ => (Safe.lift _).bind fun _ => VarInt.asyncRead_safe.bind fun _ => Safe.pure _

theorem Packet.asyncRead_safe : Safe Packet.asyncRead :=
  FixedHeader.asyncRead_safe.bind fun _ => Packet.asyncReadPacket_safe _

end Mqrstt
