import Verif.Spec.Verdict
import Verif.Proof.Calm
/-! # The verdict on a `connect` (C109) -/

namespace Mqrstt
open Mqrstt.Spec _root_.Spec Mqrstt.Props

/-- a part of a readable packet is waited for -/
theorem stream_part {p : Packet} {a b m : Bytes} (h : Readable p a) (e : b ++ m = a) (hm : m ≠ []) :
    Packet.asyncRead b = .error .eof := by
  have ha := (readable_reads h).2
  cases hb : Packet.asyncRead b with
  | ok x =>
    exfalso
    obtain ⟨q, rest⟩ := x
    have h1 : StreamPacket b q rest := hb
    have h2 := StreamPacket.more _ _ _ m h1
    rw [e] at h2
    have h3 := (StreamPacket.fn _ _ _ _ _ h2 ha).2
    exact hm (List.append_eq_nil_iff.1 h3).2
  | error er =>
    have hs := Packet.asyncRead_safe _ _ hb
    cases er with
    | eof => rfl
    | de e' => exact absurd (by rw [e]; exact ha) (hopeless_stream hb m p [])
    | panic => exact absurd rfl hs.1
    | fuel => exact absurd rfl hs.2

theorem part_of {a b more : Bytes} (h : b <+: a ++ more) (hn : ¬ a <+: b) : ∃ m, b ++ m = a ∧ m ≠ [] := by
  obtain ⟨x, e⟩ := h
  rcases List.append_eq_append_iff.1 e with ⟨m, rfl, -⟩ | ⟨m, rfl, -⟩
  · refine ⟨m, rfl, ?_⟩
    rintro rfl
    exact hn (by simp)
  · exact absurd (List.prefix_append _ _) hn

theorem smol_all_fails {ps : List Packet} {u : Unit} (h : Smol.writeAll ps false = .ok u) : False := by
  induction ps with
  | nil => simp [Smol.writeAll] at h
  | cons p ps ih =>
    simp only [Smol.writeAll] at h
    split at h
    · cases h
    · exact ih h

theorem smol_all_io {ps : List Packet} (h : ∀ p ∈ ps, ∃ bs, p.write = .ok bs) {io : Bool} {e : ConnErr}
    (he : Smol.writeAll ps io = .error e) : e = .io := by
  induction ps with
  | nil =>
    simp only [Smol.writeAll] at he
    cases io <;> simp at he
    exact he.symm
  | cons p ps ih =>
    obtain ⟨bs, e'⟩ := h p (by simp)
    simp only [Smol.writeAll, e'] at he
    exact ih (fun q hq => h q (by simp [hq])) he

namespace SmolStream

/-! ### a blocking read that is still waiting, and one at the end of the stream -/

theorem readRequired_more {required total : Nat} {b : Bytes} {chunks : List Bytes} (x : List Bytes) :
    readRequired required total b chunks = .waiting ∨
    readRequired required total b (chunks ++ x) = match readRequired required total b chunks with
      | .done (b', r) => .done (b', r ++ x)
      | o => o := by
  induction chunks generalizing total b with
  | nil => exact .inl rfl
  | cons c cs ih =>
    simp only [List.cons_append, readRequired]
    split
    · exact .inr rfl
    · split
      · exact .inr rfl
      · exact ih

theorem readRequired_closed {required total : Nat} {b : Bytes} {chunks : List Bytes}
    (h : readRequired required total b chunks = .waiting) : readRequired required total b (chunks ++ [[]]) = .io := by
  induction chunks generalizing total b with
  | nil => simp [readRequired]
  | cons c cs ih =>
    simp only [List.cons_append, readRequired] at h ⊢
    split
    · rw [if_pos ‹_›] at h
    · rw [if_neg ‹_›] at h
      split
      · rw [if_pos ‹_›] at h; cases h
      · rw [if_neg ‹_›] at h
        exact ih h

theorem readRequired_rest {required total : Nat} {b b' : Bytes} {chunks r : List Bytes}
    (h : readRequired required total b chunks = .done (b', r)) : r.length < chunks.length := by
  induction chunks generalizing total b with
  | nil => cases h
  | cons c cs ih =>
    simp only [readRequired] at h
    split at h
    · cases h
    · split at h
      · cases h; simp
      · have := ih h
        simp; omega

/-- what was read is read also when more follows, and the rest remains -/
theorem readBody_more {h : FixedHeader} {hl : Nat} {b : Bytes} {chunks : List Bytes} (x : List Bytes) :
    readBody h hl b (chunks ++ x) = match readBody h hl b chunks with
      | .done (p, b', r) => .done (p, b', r ++ x)
      | o => o := by
  simp only [readBody]
  split
  · rfl
  · split <;> rfl

theorem read_more (checks : Bool) (x : List Bytes) (fuel : Nat) (b : Bytes) (chunks : List Bytes) (hf : chunks.length + 1 ≤ fuel)
    (fuel' : Nat) (hf' : fuel ≤ fuel') :
    read checks fuel b chunks = .waiting ∨ read checks fuel' b (chunks ++ x) = match read checks fuel b chunks with
      | .done (p, b', r) => .done (p, b', r ++ x)
      | o => o := by
  induction fuel generalizing b chunks fuel' with
  | zero => omega
  | succ fuel ih =>
    obtain ⟨fuel', rfl⟩ : ∃ f, fuel' = f + 1 := ⟨fuel' - 1, by omega⟩
    simp only [read]
    split
    · rename_i required hh
      rcases readRequired_more (required := required) (total := 0) (b := b) (chunks := chunks) x with h | h
      · rw [h]; exact .inl rfl
      · rw [h]
        cases h' : readRequired required 0 b chunks with
        | done y =>
          obtain ⟨b', r⟩ := y
          have := readRequired_rest h'
          exact ih b' r (by omega) fuel' (by omega)
        | _ => exact .inr rfl
    · exact .inr rfl
    · exact .inr rfl
    · rename_i hd hl hh
      split
      · split
        · exact .inr rfl
        · rename_i required hu
          rcases readRequired_more (required := required) (total := 0) (b := b) (chunks := chunks) x with h | h
          · rw [h]; exact .inl rfl
          · rw [h]
            cases h' : readRequired required 0 b chunks with
            | done y => exact .inr (readBody_more x)
            | _ => exact .inr rfl
      · exact .inr (readBody_more x)

theorem read_closed (checks : Bool) (fuel : Nat) (b : Bytes) (chunks : List Bytes) (hf : chunks.length + 1 ≤ fuel)
    (fuel' : Nat) (hf' : fuel ≤ fuel') (h : read checks fuel b chunks = .waiting) :
    read checks fuel' b (chunks ++ [[]]) = .io := by
  induction fuel generalizing b chunks fuel' with
  | zero => omega
  | succ fuel ih =>
    obtain ⟨fuel', rfl⟩ : ∃ f, fuel' = f + 1 := ⟨fuel' - 1, by omega⟩
    simp only [read] at h ⊢
    split
    · rename_i required hh
      rw [hh] at h
      simp only at h
      rcases readRequired_more (required := required) (total := 0) (b := b) (chunks := chunks) [[]] with h' | h'
      · rw [readRequired_closed h']
      · rw [h']
        cases h'' : readRequired required 0 b chunks with
        | done y =>
          obtain ⟨b', r⟩ := y
          rw [h''] at h
          have := readRequired_rest h''
          exact ih b' r (by omega) fuel' (by omega) h
        | waiting =>
          rw [h''] at h'
          rw [readRequired_closed h''] at h'
          cases h'
        | io => rfl
        | panic => rw [h''] at h; cases h
    · rfl
    · rename_i hh; rw [hh] at h
      exfalso
      split at h <;> simp_all
    · rename_i hd hl hh
      rw [hh] at h
      simp only at h
      split
      · rename_i hlen
        rw [if_pos hlen] at h
        split
        · rename_i hu; rw [hu] at h; cases h
        · rename_i required hu
          rw [hu] at h
          simp only at h
          rcases readRequired_more (required := required) (total := 0) (b := b) (chunks := chunks) [[]] with h' | h'
          · rw [readRequired_closed h']
          · rw [h']
            cases h'' : readRequired required 0 b chunks with
            | done y =>
              rw [h''] at h
              simp only [readBody] at h
              exfalso
              split at h
              · cases h
              · split at h <;> cases h
            | waiting =>
              rw [h''] at h'
              rw [readRequired_closed h''] at h'
              cases h'
            | io => rfl
            | panic => rw [h''] at h; cases h
      · rename_i hlen
        rw [if_neg hlen] at h
        simp only [readBody] at h
        exfalso
        split at h
        · cases h
        · split at h <;> cases h

end SmolStream
end Mqrstt
