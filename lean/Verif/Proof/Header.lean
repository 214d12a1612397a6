import Verif.Props.Framing
import Verif.Spec.Header
/-!
# The three kinds of buffer
-/

namespace Mqrstt
open Spec Mqrstt.Props

theorem header_tri (b : Bytes) : (BadHeader b ∧ ∃ e, Packet.read b = (.error (.err e), b)) ∨
    ((b.length < 2 ∨ ∃ t h, h ≠ [] ∧ IsFrame t (b ++ h)) ∧
      ∃ n, Packet.read b = (.error (.insufficientBytes n), b)) ∨
    ∃ t f rest, IsFrame t f ∧ b = f ++ rest ∧ ∃ r, Packet.read b = (r, rest) ∧ ∀ n, r ≠ .error (.insufficientBytes n) := by
  match b with
  | [] => exact .inr (.inl ⟨.inl (by simp), _, rfl⟩)
  | [x] => exact .inr (.inl ⟨.inl (by simp), _, rfl⟩)
  | first :: second :: rest =>
    by_cases hf : ∀ t, ¬ FirstByteAllowed t first
    · refine .inl ⟨⟨first, second, rest, rfl, .inl hf⟩, ?_⟩
      have := (C06_first_byte_accepted first).2.1 hf
      rw [Packet.read, FixedHeader.read]
      simp only [this, List.length_cons]
      rw [if_neg (by omega)]
      exact ⟨_, rfl⟩
    · obtain ⟨t, hf⟩ : ∃ t, FirstByteAllowed t first := by simpa using hf
      obtain ⟨flags, ht⟩ := ((C06_first_byte_accepted first).1 t).2 hf
      rcases VarInt.vbi_or_open 4 (second :: rest) with ⟨init, last, more', hb, h1, h2, h3⟩ | ho
      · have hv : IsVbi (init ++ [last]) := ⟨init, last, rfl, h1, h2, h3⟩
        have hb : second :: rest = (init ++ [last]) ++ more' := by rw [hb]; simp
        rw [hb]
        by_cases hl : vbiValue (init ++ [last]) ≤ more'.length
        · right; right
          refine ⟨t, first :: ((init ++ [last]) ++ more'.take (vbiValue (init ++ [last]))), more'.drop (vbiValue (init ++ [last])),
            ⟨first, _, _, rfl, hf, hv, by rw [List.length_take]; omega⟩, ?_, ?_⟩
          · rw [List.cons_append, List.append_assoc (init ++ [last]), List.take_append_drop]
          · have := Packet.read_isVbi ht hv (body := more'.take (vbiValue (init ++ [last])))
              (by rw [List.length_take]; omega) (more'.drop (vbiValue (init ++ [last])))
            rw [List.take_append_drop] at this
            refine ⟨_, this, fun n => ?_⟩
            split <;> simp
        · right; left
          refine ⟨.inr ⟨t, List.replicate (vbiValue (init ++ [last]) - more'.length) 0, ?_, ?_⟩, ?_⟩
          · intro h
            have := congrArg List.length h
            rw [List.length_replicate] at this
            simp only [List.length_nil] at this
            omega
          · refine ⟨first, init ++ [last], more' ++ List.replicate (vbiValue (init ++ [last]) - more'.length) 0, by simp, hf, hv, ?_⟩
            rw [List.length_append, List.length_replicate]; omega
          · rw [Packet.read, FixedHeader.read_isVbi _ hv, ht]
            simp only [List.length_cons, List.length_append] at hl ⊢
            rw [if_pos (by simp only [List.length_nil]; omega)]
            exact ⟨_, rfl⟩
      · have hr := VarInt.readLoop_open .eof (second :: rest) 4 0 0 ho
        by_cases h4 : 4 ≤ (second :: rest).length
        · refine .inl ⟨⟨first, second, rest, rfl, .inr ⟨by simp at h4; omega, ho⟩⟩, ?_⟩
          rw [if_pos h4] at hr
          rw [Packet.read, FixedHeader.read]
          simp only [ht, List.length_cons]
          rw [if_neg (by omega), VarInt.remLen, VarInt.remLenLoop_eq, hr]
          exact ⟨_, rfl⟩
        · right; left
          rw [if_neg h4] at hr
          have hall : ∀ x ∈ second :: rest, more x := by
            rw [List.take_of_length_le (by omega)] at ho; exact ho
          have hv : IsVbi ((second :: rest) ++ [0]) := ⟨second :: rest, 0, rfl, by omega, hall, by simp [more]⟩
          refine ⟨.inr ⟨t, 0 :: List.replicate (vbiValue ((second :: rest) ++ [0])) 0, by simp, ?_⟩, ?_⟩
          · exact ⟨first, (second :: rest) ++ [0], List.replicate (vbiValue ((second :: rest) ++ [0])) 0, by simp, hf, hv,
              by rw [List.length_replicate]⟩
          · rw [Packet.read, FixedHeader.read]
            simp only [ht, List.length_cons]
            rw [if_neg (by omega), VarInt.remLen, VarInt.remLenLoop_eq, hr]
            exact ⟨_, rfl⟩

theorem badHeader_no_frame {b : Bytes} : BadHeader b → ∀ t f rest, IsFrame t f → b ≠ f ++ rest := by
  rintro ⟨first, second, rest', rfl, hh⟩ t f rest ⟨first', len, body, rfl, hf, ⟨init, last, rfl, h1, h2, h3⟩, -⟩ heq
  rw [List.cons_append] at heq
  injection heq with e1 e2
  subst e1
  rcases hh with hh | ⟨hl, hh⟩
  · exact hh t hf
  · rw [e2] at hh
    refine h3 (hh last ?_)
    have : init ++ [last] ++ body ++ rest = (init ++ [last]) ++ (body ++ rest) := by simp
    rw [this, List.take_append, List.take_of_length_le (by simp; omega)]
    simp

theorem short_asks {b : Bytes} (h : b.length < 2) : ∃ n, Packet.read b = (.error (.insufficientBytes n), b) := by
  cases b with
  | nil => exact ⟨_, rfl⟩
  | cons x b =>
    cases b with
    | nil => exact ⟨_, rfl⟩
    | cons y b => simp at h; omega

theorem badHeader_append {b : Bytes} (hb : BadHeader b) (h : Bytes) : BadHeader (b ++ h) := by
  obtain ⟨first, second, rest, rfl, hh⟩ := hb
  refine ⟨first, second, rest ++ h, by simp, ?_⟩
  rcases hh with hh | ⟨hl, hh⟩
  · exact .inl hh
  · refine .inr ⟨by simp; omega, ?_⟩
    intro x hx
    apply hh x
    rw [show second :: (rest ++ h) = (second :: rest) ++ h from rfl, List.take_append_of_le_length (by simp; omega)] at hx
    exact hx

end Mqrstt
