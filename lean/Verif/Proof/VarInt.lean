import Verif.Proof.Rd
import Verif.Spec.VarInt
/-! # Lemmas about variable byte integers -/

namespace Mqrstt.VarInt
open Mqrstt Spec

theorem byte_lo (x : Nat) (h : x < 128) :
    (UInt8.ofNat x).toNat = x ∧ UInt8.ofNat x &&& 0b10000000 = 0 := by
  have : ∀ y : Fin 128, (UInt8.ofNat y.val).toNat = y.val ∧ UInt8.ofNat y.val &&& 0b10000000 = 0 := by
    decide +kernel
  exact this ⟨x, h⟩

theorem byte_hi (x : Nat) (h : x < 128) :
    (UInt8.ofNat x ||| 128).toNat = x + 128 ∧ (UInt8.ofNat x ||| 128) &&& 0b10000000 ≠ 0 := by
  have : ∀ y : Fin 128, (UInt8.ofNat y.val ||| 128).toNat = y.val + 128 ∧
      (UInt8.ofNat y.val ||| 128) &&& 0b10000000 ≠ 0 := by
    decide +kernel
  exact this ⟨x, h⟩

theorem and_7f (n : Nat) : n &&& 0x7f = n % 128 := Nat.and_two_pow_sub_one_eq_mod n 7

theorem and_80 (b : UInt8) : b &&& 0b10000000 = 0 ↔ ¬ more b := by
  have : ∀ y : Fin 256, (UInt8.ofNat y.val &&& 0b10000000 = 0) ↔ ¬ 128 ≤ (UInt8.ofNat y.val).toNat := by
    decide +kernel
  have h := this ⟨b.toNat, b.toNat_lt⟩
  simpa [more] using h

/-- The read loop on a complete variable byte integer. -/
theorem readLoop_vbi (miss : Fail) (rest : Bytes) :
    ∀ (init : Bytes) (last : UInt8) (k i acc : Nat), init.length < k →
      (∀ b ∈ init, more b) → ¬ more last →
      readLoop miss k i acc (init ++ last :: rest) =
        .ok ((acc + vbiValue (init ++ [last]) * 2 ^ (7 * i), i + init.length + 1), rest) := by
  intro init
  induction init with
  | nil =>
    intro last k i acc hk _ hl
    cases k with
    | zero => simp at hk
    | succ k =>
      simp only [List.nil_append, readLoop, (and_80 last).2 hl, if_true]
      simp [vbiValue, and_7f, Nat.shiftLeft_eq]
  | cons b init ih =>
    intro last k i acc hk hm hl
    cases k with
    | zero => simp at hk
    | succ k =>
      have hb : ¬ (b &&& 0b10000000 = 0) := by rw [and_80]; simp [hm b (by simp)]
      simp only [List.cons_append, readLoop, hb, if_false]
      rw [ih last k (i + 1) _ (by simpa using hk) (fun c hc => hm c (by simp [hc])) hl]
      simp only [vbiValue, and_7f, Nat.shiftLeft_eq, List.length_cons]
      have : 2 ^ (7 * (i + 1)) = 128 * 2 ^ (7 * i) := by rw [Nat.mul_add, Nat.pow_add]; omega
      rw [this]
      congr 3
      · rw [Nat.add_mul, Nat.add_assoc]
        congr 2
        rw [Nat.mul_comm 128 (vbiValue _), Nat.mul_assoc]
      · omega

/-- The read loop when every byte announces another one. -/
theorem readLoop_open (miss : Fail) :
    ∀ (bs : Bytes) (k i acc : Nat), (∀ b ∈ bs.take k, more b) →
      readLoop miss k i acc bs =
        if k ≤ bs.length then .error (.de .malformedPacket) else .error miss := by
  intro bs
  induction bs with
  | nil => intro k i acc _; cases k <;> simp [readLoop]
  | cons b bs ih =>
    intro k i acc h
    cases k with
    | zero => simp [readLoop]
    | succ k =>
      have hb : ¬ (b &&& 0b10000000 = 0) := by rw [and_80]; simp [h b (by simp)]
      simp only [readLoop, hb, if_false]
      rw [ih k (i + 1) _ (fun c hc => h c (by simp [hc]))]
      simp

/-- Every byte string either starts with a complete variable byte integer or is open. -/
theorem vbi_or_open (k : Nat) : ∀ (bs : Bytes),
    (∃ init last rest, bs = init ++ last :: rest ∧ init.length < k ∧ (∀ b ∈ init, more b) ∧
      ¬ more last) ∨ (∀ b ∈ bs.take k, more b) := by
  induction k with
  | zero => intro bs; right; simp
  | succ k ih =>
    intro bs
    cases bs with
    | nil => right; simp
    | cons b bs =>
      by_cases hb : more b
      · rcases ih bs with ⟨init, last, rest, rfl, h1, h2, h3⟩ | h
        · left
          exact ⟨b :: init, last, rest, rfl, by simpa using h1, by simpa [hb] using h2, h3⟩
        · right; simpa [hb] using h
      · left; exact ⟨[], b, bs, rfl, by simp, by simp, hb⟩

/-- `remLenLoop` is `readLoop` with another result type. -/
theorem remLenLoop_eq (k i acc : Nat) (b : Bytes) :
    remLenLoop k i acc b =
      match readLoop .eof k i acc b with
      | .ok (r, _) => .ok r
      | .error .eof => .error (.insufficientBytes 1)
      | .error e => .error (.err e) := by
  induction k generalizing i acc b with
  | zero => simp [remLenLoop, readLoop]
  | succ k ih =>
    cases b with
    | nil => simp [remLenLoop, readLoop]
    | cons x b =>
      simp only [remLenLoop, readLoop]
      split
      · rfl
      · exact ih _ _ _

/-- The bytes produced by the write loop. -/
theorem writeLoop_spec : ∀ (k w : Nat), w < 128 ^ k → 0 < k →
    ∃ init last, writeLoop k w = some (init ++ [last]) ∧ init.length < k ∧
      (∀ b ∈ init, more b) ∧ ¬ more last ∧ vbiValue (init ++ [last]) = w ∧
      (init ≠ [] → 128 ^ init.length ≤ w) ∧ w < 128 ^ (init.length + 1) := by
  intro k
  induction k with
  | zero => intro w _ h; omega
  | succ k ih =>
    intro w hw _
    by_cases h0 : w / 128 = 0
    · have hlt : w < 128 := by omega
      refine ⟨[], UInt8.ofNat (w % 128), ?_, by simp, by simp, ?_, ?_, by simp, by simpa using hlt⟩
      · simp [writeLoop, h0]
      · rw [← and_80]; exact (byte_lo _ (Nat.mod_lt _ (by omega))).2
      · simp [vbiValue]; omega
    · have hk : 0 < k := by
        rcases Nat.eq_zero_or_pos k with rfl | h
        · simp at hw; omega
        · exact h
      have hw' : w / 128 < 128 ^ k := by
        rw [Nat.div_lt_iff_lt_mul (by omega)]; rw [Nat.pow_succ] at hw; exact hw
      obtain ⟨init, last, e, hl, hm, hn, hv, hlo, hhi⟩ := ih (w / 128) hw' hk
      have hmod : w % 128 < 128 := Nat.mod_lt _ (by omega)
      refine ⟨(UInt8.ofNat (w % 128) ||| 128) :: init, last, ?_, by simpa using hl, ?_, hn, ?_, ?_, ?_⟩
      · simp only [writeLoop, h0, if_false, Nat.pos_of_ne_zero h0, if_true, e]; simp
      · intro b hb
        rcases List.mem_cons.1 hb with rfl | hb
        · simp [more, (byte_hi _ hmod).1]
        · exact hm b hb
      · simp only [List.cons_append, vbiValue, (byte_hi _ hmod).1, hv]; omega
      · intro _
        simp only [List.length_cons, Nat.pow_succ]
        rcases init with _ | ⟨c, init⟩
        · simp; omega
        · have := hlo (by simp)
          have := (Nat.le_div_iff_mul_le (by omega : 0 < 128)).1 this
          exact this
      · simp only [List.length_cons]
        rw [Nat.pow_succ]
        exact (Nat.div_lt_iff_lt_mul (by omega)).1 hhi

/-- Everything about writing a value in range. -/
theorem write_spec (n : Nat) (h : n ≤ 268435455) :
    ∃ init last, write n = .ok (init ++ [last]) ∧
      asyncWrite n = .ok (init ++ [last], (init ++ [last]).length) ∧ init.length < 4 ∧
      (∀ b ∈ init, more b) ∧ ¬ more last ∧ vbiValue (init ++ [last]) = n ∧
      (init ++ [last]).length = len n := by
  obtain ⟨init, last, e, h1, h2, h3, h4, h5, h6⟩ := writeLoop_spec 4 n (by omega) (by omega)
  refine ⟨init, last, ?_, ?_, h1, h2, h3, h4, ?_⟩
  · simp [write, e]; omega
  · simp [asyncWrite, e]; omega
  · unfold len
    match init, h1, h5, h6 with
    | [], _, h5, h6 => simp at h6 ⊢; split <;> (try split) <;> (try split) <;> omega
    | [_], _, h5, h6 => simp at h5 h6 ⊢; split <;> (try split) <;> (try split) <;> omega
    | [_, _], _, h5, h6 => simp at h5 h6 ⊢; split <;> (try split) <;> (try split) <;> omega
    | [_, _, _], _, h5, h6 => simp at h5 h6 ⊢; split <;> (try split) <;> (try split) <;> omega

theorem len_pos (n : Nat) : 1 ≤ len n := by unfold len; split <;> (try split) <;> (try split) <;> omega
theorem len_le (n : Nat) : len n ≤ 4 := by unfold len; split <;> (try split) <;> (try split) <;> omega

theorem write_error (n : Nat) (h : 268435455 < n) :
    write n = .error (.variableIntegerOverflow n) ∧
      asyncWrite n = .error (.variableIntegerOverflow n) := by
  constructor <;> simp [write, asyncWrite] <;> omega

theorem write_ok_iff (n : Nat) (bs : Bytes) : write n = .ok bs →
    n ≤ 268435455 ∧ bs.length = len n ∧ asyncWrite n = .ok (bs, bs.length) ∧
    (∀ rest, read (bs ++ rest) = .ok ((n, bs.length), rest)) ∧
    (∀ rest, asyncRead (bs ++ rest) = .ok ((n, bs.length), rest)) ∧
    (∀ rest, remLen (bs ++ rest) = .ok (n, bs.length)) := by
  intro hw
  have hn : n ≤ 268435455 := by
    rcases Nat.lt_or_ge 268435455 n with h | h
    · rw [(write_error n h).1] at hw; cases hw
    · exact h
  obtain ⟨init, last, e1, e2, h1, h2, h3, h4, h5⟩ := write_spec n hn
  rw [e1] at hw
  cases hw
  have key : ∀ miss rest, readLoop miss 4 0 0 ((init ++ [last]) ++ rest) =
      .ok ((n, (init ++ [last]).length), rest) := by
    intro miss rest
    have := readLoop_vbi miss rest init last 4 0 0 h1 h2 h3
    rw [List.append_assoc, List.singleton_append, this, h4]
    simp
  refine ⟨hn, h5, e2, key _, key _, ?_⟩
  intro rest
  rw [remLen, remLenLoop_eq, key]

theorem asyncWrite_ok_iff (n : Nat) (bs : Bytes) (k : Nat) :
    asyncWrite n = .ok (bs, k) ↔ write n = .ok bs ∧ k = bs.length := by
  rcases Nat.lt_or_ge 268435455 n with h | h
  · simp [write_error n h]
  · obtain ⟨init, last, e1, e2, -⟩ := write_spec n h
    rw [e1, e2]
    simp only [Except.ok.injEq, Prod.mk.injEq]
    constructor
    · rintro ⟨rfl, rfl⟩; simp
    · rintro ⟨rfl, rfl⟩; simp

theorem write_of_le (n : Nat) (h : n ≤ 268435455) : ∃ bs, write n = .ok bs := by
  obtain ⟨init, last, e, -⟩ := write_spec n h
  exact ⟨_, e⟩

end Mqrstt.VarInt
