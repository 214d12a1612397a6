import Verif.Proof.SmolConnect
import Verif.Props.Codes
import Verif.Spec.Patience
/-! # When a read waits, returns or fails -/

namespace Mqrstt
open Mqrstt.Spec _root_.Spec

/-! ## streams -/

theorem hopeless_stream {b : Bytes} {e : DeErr} (h : Packet.asyncRead b = .error (.de e)) : Hopeless StreamPacket b := by
  intro more p rest hp
  have := (Packet.asyncRead_local b more).2 e h
  have hp : Packet.asyncRead (b ++ more) = .ok (p, rest) := hp
  rw [this] at hp
  cases hp

theorem badFirst_stream {v : UInt8} (hv : BadFirstByte v) (rest : Bytes) : ∃ e, Packet.asyncRead (v :: rest) = .error (.de e) := by
  have := (Props.C06_first_byte_accepted v).2.1 hv
  refine ⟨.unknownFixedHeader v, ?_⟩
  have h1 : FixedHeader.asyncRead (v :: rest) = .error (.de (.unknownFixedHeader v)) := by
    show (Rd.bind (Rd.lift (PacketType.fromFirstByte v)) _) rest = _
    rw [this]
    rfl
  show Rd.bind FixedHeader.asyncRead _ _ = _
  simp only [Rd.bind, h1]

/-! ## buffers -/

theorem VarInt.remLenLoop_stable {k i n : Nat} {b : Bytes} {e : Fail} (h : remLenLoop k i n b = .error (.err e)) (m : Bytes) :
    remLenLoop k i n (b ++ m) = .error (.err e) := by
  induction k generalizing i n b with
  | zero => exact h
  | succ k ih =>
    cases b with
    | nil => simp [remLenLoop] at h
    | cons x b =>
      simp only [remLenLoop, List.cons_append] at h ⊢
      split at h
      · cases h
      · rename_i hx; rw [if_neg hx]; exact ih h

theorem FixedHeader.read_stable {b : Bytes} {e : Fail} (h : FixedHeader.read b = .error (.err e)) (m : Bytes) :
    FixedHeader.read (b ++ m) = .error (.err e) := by
  rw [FixedHeader.read.eq_def] at h
  split at h
  · cases h
  · rename_i hlen
    match b, hlen, h with
    | [], hlen, h => simp at hlen
    | first :: rest, hlen, h =>
      rw [FixedHeader.read.eq_def, if_neg (by rw [List.length_append]; omega)]
      simp only [List.cons_append] at h ⊢
      split at h
      · exact h
      · rename_i t fl he
        split at h
        · rename_i e' hr
          cases h
          have := VarInt.remLenLoop_stable (k := 4) (i := 0) (n := 0) hr m
          rw [VarInt.remLen, this]
        · cases h

theorem hopeless_header {b : Bytes} {e : Fail} (h : FixedHeader.read b = .error (.err e)) : Hopeless BufferPacket b := by
  intro more p rest hp
  have hp : Packet.read (b ++ more) = (.ok p, rest) := hp
  rw [Packet.read, FixedHeader.read_stable h more] at hp
  cases hp

theorem hopeless_body {b : Bytes} {h : FixedHeader} {hl : Nat} (hh : FixedHeader.read b = .ok (h, hl))
    (hlen : h.remLen + hl ≤ b.length) {e : Fail} (hr : Packet.readPacket h ((b.drop hl).take h.remLen) = .error e) :
    Hopeless BufferPacket b := by
  intro more p rest hp
  have hp : Packet.read (b ++ more) = (.ok p, rest) := hp
  rw [Packet.read, FixedHeader.read_more hh more] at hp
  simp only at hp
  rw [if_neg (by rw [List.length_append]; omega), List.drop_append_of_le_length (by omega),
    List.take_append_of_le_length (by rw [List.length_drop]; omega), hr] at hp
  cases hp

namespace SmolStream

theorem parse_failed {checks : Bool} {b : Bytes} {e : DeErr} (h : parse checks b = .failed e) : Hopeless BufferPacket b := by
  simp only [parse] at h
  split at h
  · cases h
  · exact hopeless_header ‹_›
  · cases h
  · rename_i hd hl hh
    split at h
    · split at h <;> cases h
    · rename_i hlen
      simp only [decode] at h
      split at h
      · cases h
      · exact hopeless_body hh (by omega) ‹_›
      · cases h

theorem parse_insufficient {checks : Bool} {b : Bytes} (h : parse checks b = .insufficient) : ¬ Whole BufferPacket b := by
  rintro ⟨p, rest, hp⟩
  have hp : Packet.read b = (.ok p, rest) := hp
  simp only [parse] at h
  rw [Packet.read] at hp
  split at h
  · rename_i n e; rw [e] at hp; cases hp
  · cases h
  · cases h
  · rename_i hd hl hh
    rw [hh] at hp
    simp only at hp
    split at h
    · rename_i hlen
      rw [if_pos hlen] at hp
      cases hp
    · simp only [decode] at h
      split at h <;> cases h

/-! ### the blocking read -/

theorem readRequired_io {required total : Nat} {b : Bytes} {chunks : List Bytes}
    (h : readRequired required total b chunks = .io) : [] ∈ chunks := by
  induction chunks generalizing total b with
  | nil => cases h
  | cons c cs ih =>
    simp only [readRequired] at h
    split at h
    · rename_i hc; simp [hc]
    · split at h
      · cases h
      · simp [ih h]

theorem readBody_io {h : FixedHeader} {hl : Nat} {b : Bytes} {chunks : List Bytes} (hh : FixedHeader.read b = .ok (h, hl))
    (hr : readBody h hl b chunks = .io) : Hopeless BufferPacket b := by
  simp only [readBody] at hr
  split at hr
  · cases hr
  · rename_i hlen
    have hk := (FixedHeader.read_len hh).2
    simp only [List.length_drop] at hlen
    simp only [decode] at hr
    split at hr
    · cases hr
    · rename_i hd
      split at hd
      · cases hd
      · exact hopeless_body hh (by omega) ‹_›
      · cases hd
    · cases hr

theorem read_io {checks : Bool} {fuel : Nat} {b : Bytes} {chunks : List Bytes} (h : read checks fuel b chunks = .io) :
    [] ∈ chunks ∨ Hopeless BufferPacket (b ++ chunks.flatten) := by
  induction fuel generalizing b chunks with
  | zero => cases h
  | succ fuel ih =>
    have more : ∀ {x : Bytes} {cs : List Bytes}, Hopeless BufferPacket x → Hopeless BufferPacket (x ++ cs.flatten) := by
      intro x cs hx m p r
      rw [List.append_assoc]
      exact hx _ p r
    simp only [read] at h
    split at h
    · split at h
      · rename_i hr
        obtain ⟨used, rfl, rfl⟩ := readRequired_used hr
        rcases ih h with h | h
        · exact .inl (by simp [h])
        · exact .inr (by simpa using h)
      · exact .inl (readRequired_io ‹_›)
      · cases h
      · cases h
    · exact .inr (more (hopeless_header ‹_›))
    · cases h
    · rename_i hd hl hh
      split at h
      · split at h
        · cases h
        · split at h
          · rename_i b' cs hr
            obtain ⟨used, rfl, rfl⟩ := readRequired_used hr
            refine .inr ?_
            have := more (cs := cs) (readBody_io (FixedHeader.read_more hh _) h)
            simpa using this
          · exact .inl (readRequired_io ‹_›)
          · cases h
          · cases h
      · exact .inr (more (readBody_io hh h))

/-- the read is over, and has used everything -/
def Returns (r : Outcome (Packet × Bytes × List Bytes)) : Prop := r = .io ∨ r = .panic ∨ ∃ p b, r = .done (p, b, [])

theorem readBody_returns (h : FixedHeader) (hl : Nat) (b : Bytes) : Returns (readBody h hl b []) := by
  simp only [readBody]
  split
  · exact .inr (.inl rfl)
  · split
    · exact .inr (.inr ⟨_, _, rfl⟩)
    · exact .inl rfl
    · exact .inr (.inl rfl)

/-- if the stream ends, or there are bytes enough, the loop that waits for bytes is left -/
theorem readRequired_ends {required : Nat} {chunks : List Bytes} {total : Nat} {b : Bytes}
    (h : [] ∈ chunks ∨ (chunks ≠ [] ∧ required ≤ total + chunks.flatten.length)) :
    (∃ n, n ≤ chunks.length ∧ readRequired required total b (chunks.take n) = .io) ∨
    ∃ used rest, chunks = used ++ rest ∧ used ≠ [] ∧ [] ∉ used ∧ required ≤ total + used.flatten.length ∧
      ∀ r, readRequired required total b (used ++ r) = .done (b ++ used.flatten, r) := by
  induction chunks generalizing total b with
  | nil => simp at h
  | cons c cs ih =>
    by_cases hc : c = []
    · subst hc
      exact .inl ⟨1, by simp, by simp [readRequired]⟩
    · by_cases ht : required ≤ total + c.length
      · refine .inr ⟨[c], cs, rfl, by simp, by simpa using Ne.symm hc, by simpa using ht, fun r => ?_⟩
        simp only [List.cons_append, List.nil_append, readRequired]
        rw [if_neg hc, if_pos ht]
        simp
      · have h' : [] ∈ cs ∨ (cs ≠ [] ∧ required ≤ total + c.length + cs.flatten.length) := by
          rcases h with h | ⟨-, h⟩
          · simp at h
            rcases h with h | h
            · exact absurd h hc
            · exact .inl h
          · refine .inr ⟨?_, by rw [List.flatten_cons, List.length_append] at h; omega⟩
            rintro rfl
            simp at h
            omega
        rcases ih (b := b ++ c) h' with ⟨n, hn, e⟩ | ⟨used, rest, rfl, h0, h1, h2, h3⟩
        · refine .inl ⟨n + 1, by simpa using hn, ?_⟩
          simp only [List.take_succ_cons, readRequired]
          rw [if_neg hc, if_neg ht]
          exact e
        · refine .inr ⟨c :: used, rest, rfl, by simp, by simp [h1, Ne.symm hc],
            by rw [List.flatten_cons, List.length_append]; omega, fun r => ?_⟩
          simp only [List.cons_append, readRequired]
          rw [if_neg hc, if_neg ht, h3]
          simp

theorem read_ends (checks : Bool) (chunks : List Bytes) (b : Bytes) (h : [] ∈ chunks) :
    ∃ n, n ≤ chunks.length ∧ ∀ fuel, n + 1 ≤ fuel → Returns (read checks fuel b (chunks.take n)) := by
  generalize hk : chunks.length = k
  induction k using Nat.strongRecOn generalizing chunks b with
  | ind k ih =>
    have zero : ∀ (r : Outcome (Packet × Bytes × List Bytes)), (∀ fuel, read checks (fuel + 1) b [] = r) → Returns r →
        ∃ n, n ≤ k ∧ ∀ fuel, n + 1 ≤ fuel → Returns (read checks fuel b (chunks.take n)) := by
      intro r hr hret
      refine ⟨0, Nat.zero_le _, fun fuel hf => ?_⟩
      obtain ⟨f, rfl⟩ : ∃ f, fuel = f + 1 := ⟨fuel - 1, by omega⟩
      rw [List.take_zero, hr f]
      exact hret
    cases hh : FixedHeader.read b with
    | error e =>
      cases e with
      | insufficientBytes required =>
        rcases readRequired_ends (required := required) (total := 0) (b := b) (.inl h) with ⟨n, hn, e⟩ | ⟨used, rest, rfl, h0, h1, h2, h3⟩
        · refine ⟨n, by omega, fun fuel hf => ?_⟩
          obtain ⟨f, rfl⟩ : ∃ f, fuel = f + 1 := ⟨fuel - 1, by omega⟩
          simp only [read, hh, e]
          exact .inl rfl
        · have hr : [] ∈ rest := by
            rcases List.mem_append.1 h with h | h
            · exact absurd h h1
            · exact h
          have hu : 0 < used.length := List.length_pos_iff.2 h0
          obtain ⟨n, hn, e⟩ := ih rest.length (by rw [List.length_append] at hk; omega) rest (b ++ used.flatten) hr rfl
          refine ⟨used.length + n, by rw [List.length_append] at hk; omega, fun fuel hf => ?_⟩
          obtain ⟨f, rfl⟩ : ∃ f, fuel = f + 1 := ⟨fuel - 1, by omega⟩
          rw [List.take_append, List.take_of_length_le (by omega), Nat.add_sub_cancel_left]
          simp only [read, hh, h3]
          exact e f (by omega)
      | err e =>
        cases e with
        | de e => exact zero .io (fun f => by simp only [read, hh]) (.inl rfl)
        | _ => exact zero .panic (fun f => by simp only [read, hh]) (.inr (.inl rfl))
    | ok x =>
      obtain ⟨hd, hl⟩ := x
      by_cases hlen : hl + hd.remLen > b.length
      · cases hu : usizeSub checks hd.remLen b.length with
        | none => exact zero .panic (fun f => by simp only [read, hh, if_pos hlen, hu]) (.inr (.inl rfl))
        | some required =>
          rcases readRequired_ends (required := required) (total := 0) (b := b) (.inl h) with ⟨n, hn, e⟩ | ⟨used, rest, rfl, h0, h1, h2, h3⟩
          · refine ⟨n, by omega, fun fuel hf => ?_⟩
            obtain ⟨f, rfl⟩ : ∃ f, fuel = f + 1 := ⟨fuel - 1, by omega⟩
            simp only [read, hh, if_pos hlen, hu, e]
            exact .inl rfl
          · refine ⟨used.length, by rw [List.length_append] at hk; omega, fun fuel hf => ?_⟩
            obtain ⟨f, rfl⟩ : ∃ f, fuel = f + 1 := ⟨fuel - 1, by omega⟩
            have h3 := h3 []
            rw [List.append_nil] at h3
            rw [List.take_left]
            simp only [read, hh, if_pos hlen, hu, h3]
            exact readBody_returns _ _ _
      · exact zero (readBody hd hl b []) (fun f => by simp only [read, hh, if_neg hlen]) (readBody_returns _ _ _)

theorem read_bad (checks : Bool) (chunks : List Bytes) (v x : UInt8) (more : Bytes) (hv : BadFirstByte v)
    (hc : chunks.flatten = v :: x :: more) :
    ∃ n, n ≤ chunks.length ∧ read checks (n + 1) [] (chunks.take n) = .io := by
  have hne : chunks ≠ [] := by rintro rfl; cases hc
  have h0 : FixedHeader.read [] = .error (.insufficientBytes 2) := rfl
  rcases readRequired_ends (required := 2) (total := 0) (b := []) (.inr ⟨hne, by rw [hc]; simp⟩) with
    ⟨n, hn, e⟩ | ⟨used, rest, rfl, hu, h1, h2, h3⟩
  · refine ⟨n, hn, ?_⟩
    simp only [read, h0, e]
  · refine ⟨used.length, by simp, ?_⟩
    have h3 := h3 []
    rw [List.append_nil] at h3
    have hf : ∃ r, used.flatten = v :: r := by
      rw [List.flatten_append] at hc
      cases hx : used.flatten with
      | nil => rw [hx] at h2; simp at h2
      | cons y r => rw [hx, List.cons_append, List.cons.injEq] at hc; exact ⟨r, by rw [hc.1]⟩
    obtain ⟨r, hf⟩ := hf
    have hh : ∃ e, FixedHeader.read (v :: r) = .error (.err (.de e)) := by
      refine ⟨.unknownFixedHeader v, ?_⟩
      rw [FixedHeader.read.eq_def, if_neg (by rw [← hf]; omega)]
      simp only [(Props.C06_first_byte_accepted v).2.1 hv]
    obtain ⟨e, hh⟩ := hh
    have hl : 0 < used.length := List.length_pos_iff.2 hu
    obtain ⟨f, hfu⟩ : ∃ f, used.length = f + 1 := ⟨used.length - 1, by omega⟩
    rw [List.take_left, hfu]
    simp only [read, h0, h3, List.nil_append, hf, hh]

end SmolStream

/-! ## the networks -/

theorem Tokio.established_some {s : Tokio} {c : ConnAck} (ha : s.sys.alive = true) (hc : c.reason = .success) (b : Bytes)
    (i : TokioConnect) (obs : List Obs) : ∃ s' more, s.established c b i obs = some (s', obs ++ more) := by
  simp only [established]
  obtain ⟨sys, e, hs, h⟩ := Sys.connAck_some (s := s.sys) ha hc
  have hs : (s.noteConnAck c i.times.fire).sys.step (.connAck c) = some (sys, e) := hs
  rw [hs]
  rcases h with ⟨ps, rfl⟩ | ⟨er, rfl⟩ | rfl
  · simp only
    split
    · exact ⟨_, _, by rw [List.append_assoc, List.append_assoc]⟩
    · exact ⟨_, _, by rw [List.append_assoc, List.append_assoc]⟩
  · exact ⟨_, _, rfl⟩
  · exact ⟨_, _, rfl⟩

theorem Tokio.onPacket_read {s s' : Tokio} {p : Packet} {io : Bool} {T : Times} {obs : List Obs}
    (h : s.onPacket p io T = some (s', obs)) : .read p ∈ obs := by
  simp only [onPacket, finish] at h
  repeat' split at h
  all_goals first
    | (simp only [Option.some.injEq, Prod.mk.injEq] at h; obtain ⟨-, rfl⟩ := h; simp)
    | cases h

theorem Smol.onPacket_read {s s' : Smol} {p : Packet} {io : Bool} {T : Times} {obs : List Obs}
    (h : s.onPacket p io T = some (s', obs)) : .read p ∈ obs := by
  simp only [onPacket, finish, flushOutgoing] at h
  repeat' split at h
  all_goals first
    | (simp only [Option.some.injEq, Prod.mk.injEq] at h; obtain ⟨-, rfl⟩ := h; simp)
    | cases h

end Mqrstt
