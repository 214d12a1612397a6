import Verif.Spec.Pieces
import Verif.Proof.Panic
import Verif.Proof.SmolConnect
/-!
# In which pieces an answer makes smol's `connect` panic (C117)
-/

namespace Mqrstt
open Mqrstt.Spec _root_.Spec Mqrstt.Props

namespace Pieces

theorem begins_iff {b : Bytes} {hl rem : Nat} : Begins b hl rem ↔ ∃ h, FixedHeader.read b = .ok (h, hl) ∧ h.remLen = rem := by
  constructor
  · rintro ⟨t, first, len, body, rfl, ht, hv, rfl, rfl⟩
    obtain ⟨f, hf⟩ := (firstByte_iff t first).2 ht
    exact ⟨⟨t, f, vbiValue len⟩, by rw [FixedHeader.read_isVbi first hv, hf], rfl⟩
  · rintro ⟨h, hh, rfl⟩
    obtain ⟨t, flags, first, len, body, rfl, ht, hv, rfl, rfl⟩ := FixedHeader.read_ok hh
    exact ⟨t, first, len, body, rfl, (firstByte_iff _ _).1 ⟨_, ht⟩, hv, rfl, rfl⟩

theorem header_more {b m : Bytes} {h : FixedHeader} {hl : Nat} (hh : FixedHeader.read b = .ok (h, hl)) :
    FixedHeader.read (b ++ m) = .ok (h, hl) ∧ hl ≤ b.length := by
  obtain ⟨t, flags, first, len, body, rfl, ht, hv, rfl, rfl⟩ := FixedHeader.read_ok hh
  refine ⟨?_, by simp; omega⟩
  rw [List.cons_append, List.append_assoc, FixedHeader.read_isVbi first hv, ht]

theorem header_less {b m : Bytes} {h : FixedHeader} {hl : Nat} (hh : FixedHeader.read (b ++ m) = .ok (h, hl)) :
    (b.length < hl ∧ ∃ n, FixedHeader.read b = .error (.insufficientBytes n) ∧ 1 ≤ n ∧ n ≤ hl - b.length) ∨
      FixedHeader.read b = .ok (h, hl) := by
  obtain ⟨t, flags, first, len, body, e, ht, hv, rfl, rfl⟩ := FixedHeader.read_ok hh
  have hpos := VarInt.isVbi_pos hv
  by_cases hlt : b.length < 1 + len.length
  · refine .inl ⟨hlt, ?_⟩
    rcases Nat.lt_or_ge b.length 2 with h2 | h2
    · exact ⟨2 - b.length, by rw [FixedHeader.read.eq_def, if_pos h2], by omega, by omega⟩
    · cases b with
      | nil => simp at h2
      | cons x g =>
        simp only [List.cons_append, List.cons.injEq] at e
        obtain ⟨rfl, e⟩ := e
        simp only [List.length_cons] at h2 hlt
        obtain ⟨len2, rfl⟩ : g <+: len := List.prefix_of_prefix_length_le ⟨m, e⟩ (List.prefix_append _ _) (by omega)
        have hl2 : len2 ≠ [] := by rintro rfl; simp at hlt; omega
        have hm := VarInt.remLen_prefix hv hl2
        refine ⟨1, ?_, Nat.le_refl _, by simp only [List.length_cons]; omega⟩
        rw [FixedHeader.read, if_neg (by simp; omega)]
        simp only [ht, hm]
  · refine .inr ?_
    cases b with
    | nil => simp at hlt
    | cons x g =>
      simp only [List.cons_append, List.cons.injEq] at e
      obtain ⟨rfl, e⟩ := e
      simp only [List.length_cons] at hlt
      obtain ⟨g2, rfl⟩ : len <+: g := List.prefix_of_prefix_length_le (List.prefix_append _ _) ⟨m, e⟩ (by omega)
      rw [FixedHeader.read_isVbi _ hv, ht]

/-- `readRequired` comes to an end exactly with pieces that are enough -/
theorem required_done (need total : Nat) (b : Bytes) (chunks : List Bytes) (b' : Bytes) (rest : List Bytes) :
    SmolStream.readRequired need total b chunks = .done (b', rest) ↔
      ∃ u, chunks = u ++ rest ∧ b' = b ++ u.flatten ∧ u ≠ [] ∧ (∀ x ∈ u, x ≠ []) ∧ need ≤ total + u.flatten.length ∧
        (u.dropLast = [] ∨ total + u.dropLast.flatten.length < need) := by
  induction chunks generalizing total b with
  | nil =>
    simp only [SmolStream.readRequired]
    constructor
    · intro h; cases h
    · rintro ⟨u, e, -, hu, -⟩
      cases u with
      | nil => exact absurd rfl hu
      | cons _ _ => cases e
  | cons c cs ih =>
    simp only [SmolStream.readRequired]
    by_cases hc : c = []
    · rw [if_pos hc]
      constructor
      · intro h; cases h
      · rintro ⟨u, e, -, hu, hne, -⟩
        cases u with
        | nil => exact absurd rfl hu
        | cons d u =>
          simp only [List.cons_append, List.cons.injEq] at e
          exact absurd (e.1.symm.trans hc) (hne d (.head _))
    · rw [if_neg hc]
      by_cases hn : total + c.length ≥ need
      · rw [if_pos hn]
        constructor
        · intro h
          cases h
          exact ⟨[c], rfl, by simp, by simp, by simpa using hc, by simpa using hn, .inl rfl⟩
        · rintro ⟨u, e, rfl, hu, hne, h1, h2⟩
          cases u with
          | nil => exact absurd rfl hu
          | cons d u =>
            simp only [List.cons_append, List.cons.injEq] at e
            obtain ⟨rfl, rfl⟩ := e
            cases u with
            | nil => simp
            | cons x u =>
              rcases h2 with h2 | h2
              · simp at h2
              · simp at h2; omega
      · rw [if_neg hn, ih]
        constructor
        · rintro ⟨u, rfl, rfl, hu, hne, h1, h2⟩
          refine ⟨c :: u, rfl, by simp, by simp, by simpa [hc] using hne,
            by simp only [List.flatten_cons, List.length_append]; omega, .inr ?_⟩
          cases u with
          | nil => exact absurd rfl hu
          | cons x u =>
            rcases h2 with h2 | h2
            · simp only [List.dropLast_cons_cons] at h2 ⊢
              rw [h2]
              simp
              omega
            · simp only [List.dropLast_cons_cons, List.flatten_cons, List.length_append]
              omega
        · rintro ⟨u, e, rfl, hu, hne, h1, h2⟩
          cases u with
          | nil => exact absurd rfl hu
          | cons d u =>
            simp only [List.cons_append, List.cons.injEq] at e
            obtain ⟨rfl, rfl⟩ := e
            cases u with
            | nil => simp at h1; omega
            | cons x u =>
              refine ⟨x :: u, rfl, by simp, by simp, fun y hy => hne y (.tail _ hy), by simp at h1 ⊢; omega, ?_⟩
              rcases h2 with h2 | h2
              · simp at h2
              · right
                simp only [List.dropLast_cons_cons, List.flatten_cons, List.length_append] at h2
                omega

theorem required_not_panic (need total : Nat) (b : Bytes) (chunks : List Bytes) :
    SmolStream.readRequired need total b chunks ≠ .panic := by
  induction chunks generalizing total b with
  | nil => simp [SmolStream.readRequired]
  | cons c cs ih =>
    simp only [SmolStream.readRequired]
    split
    · simp
    · split
      · simp
      · exact ih _ _

/-- the end of `read`: a packet cut off, or a CONNECT cut short -/
theorem body_panics {b : Bytes} {h : FixedHeader} {hl : Nat} (hh : FixedHeader.read b = .ok (h, hl)) (chunks : List Bytes) :
    SmolStream.readBody h hl b chunks = .panic ↔ b.length < hl + h.remLen ∨ CutConnect b := by
  have hle := (header_more (m := []) hh).2
  by_cases hlen : b.length < hl + h.remLen
  · simp only [hlen, true_or, iff_true]
    unfold SmolStream.readBody
    simp only
    rw [if_pos (by rw [List.length_drop]; omega)]
  · have hp := SmolStream.parse_panics false b
    simp only [Bool.false_eq_true, false_and, false_or] at hp
    simp only [hlen, false_or]
    rw [← hp]
    simp only [SmolStream.parse, hh]
    rw [if_neg (by omega)]
    unfold SmolStream.readBody
    simp only
    rw [if_neg (by rw [List.length_drop]; omega)]
    cases hd : SmolStream.decode h ((b.drop hl).take h.remLen) ((b.drop hl).drop h.remLen) with
    | packet p b => simp
    | failed e => simp
    | panic => simp
    | insufficient =>
      unfold SmolStream.decode at hd
      split at hd <;> cases hd

/-- the part of `AnswerPanics` after the header -/
def Late (c : Bool) (b : Bytes) (hl rem : Nat) (late : List Bytes) : Prop :=
  (c = true ∧ NearlyWhole b) ∨ CutConnect b ∨ b.length < hl + rem ∧ ∃ more tail, late = more ++ tail ∧
    Enough (awaited b.length rem) more ∧ (b.length + more.flatten.length < hl + rem ∨ CutConnect (b ++ more.flatten))

theorem nearly_iff {b : Bytes} {h : FixedHeader} {hl : Nat} (hh : FixedHeader.read b = .ok (h, hl)) :
    NearlyWhole b ↔ b.length < hl + h.remLen ∧ h.remLen < b.length := by
  constructor
  · intro hn
    obtain ⟨_, _, e, h1, h2⟩ := hn.header
    rw [hh] at e
    cases e
    exact ⟨by omega, h2⟩
  · rintro ⟨h1, h2⟩
    obtain ⟨t, flags, first, len, body, rfl, ht, hv, rfl, rfl⟩ := FixedHeader.read_ok hh
    refine ⟨t, first, len, body, rfl, (firstByte_iff _ _).1 ⟨_, ht⟩, hv, ?_, ?_⟩
    · simp at h1; omega
    · simp at h2; omega

theorem cut_whole {b : Bytes} {h : FixedHeader} {hl : Nat} (hh : FixedHeader.read b = .ok (h, hl)) (hc : CutConnect b) :
    hl + h.remLen ≤ b.length := by
  obtain ⟨len, flags, tail, rest, rfl, hv, hlen, -⟩ := hc
  rw [List.append_assoc, FixedHeader.read_isVbi _ hv] at hh
  split at hh
  · cases hh
  · cases hh
    simp
    omega

theorem late_panics (c : Bool) (fuel : Nat) {b : Bytes} {h : FixedHeader} {hl : Nat} (hh : FixedHeader.read b = .ok (h, hl))
    (chunks : List Bytes) : SmolStream.read c (fuel + 1) b chunks = .panic ↔ Late c b hl h.remLen chunks := by
  rw [SmolStream.read]
  simp only [hh]
  have hn := nearly_iff hh
  by_cases hlen : hl + h.remLen > b.length
  · rw [if_pos hlen]
    have hc : ¬ CutConnect b := fun hc => absurd (cut_whole hh hc) (by omega)
    have main : ∀ need, (match SmolStream.readRequired need 0 b chunks with
        | .done (buffer, chunks) => SmolStream.readBody h hl buffer chunks
        | .io => .io | .panic => .panic | .waiting => .waiting : SmolStream.Outcome (Packet × Bytes × List Bytes)) = .panic ↔
        ∃ more tail, chunks = more ++ tail ∧ Enough need more ∧
          (b.length + more.flatten.length < hl + h.remLen ∨ CutConnect (b ++ more.flatten)) := by
      intro need
      cases hr : SmolStream.readRequired need 0 b chunks with
      | done x =>
        obtain ⟨b', rest⟩ := x
        obtain ⟨u, e, rfl, h1, h2, h3, h4⟩ := (required_done _ _ _ _ _ _).1 hr
        simp only [Nat.zero_add] at h3 h4
        simp only [body_panics (header_more hh).1, List.length_append]
        constructor
        · intro hp
          exact ⟨u, rest, e, ⟨h1, h2, h3, h4⟩, hp⟩
        · rintro ⟨more, tail, e', he, hp⟩
          have : SmolStream.readRequired need 0 b chunks = .done (b ++ more.flatten, tail) :=
            (required_done _ _ _ _ _ _).2 ⟨more, e', rfl, he.some, he.nonempty, by simpa using he.enough, by simpa using he.notMore⟩
          rw [hr] at this
          simp only [SmolStream.Outcome.done.injEq, Prod.mk.injEq, List.append_cancel_left_eq] at this
          rw [this.1]
          exact hp
      | panic => exact absurd hr (required_not_panic _ _ _ _)
      | io =>
        simp only [reduceCtorEq, false_iff]
        rintro ⟨more, tail, e', he, -⟩
        have : SmolStream.readRequired need 0 b chunks = .done (b ++ more.flatten, tail) :=
          (required_done _ _ _ _ _ _).2 ⟨more, e', rfl, he.some, he.nonempty, by simpa using he.enough, by simpa using he.notMore⟩
        rw [hr] at this
        cases this
      | waiting =>
        simp only [reduceCtorEq, false_iff]
        rintro ⟨more, tail, e', he, -⟩
        have : SmolStream.readRequired need 0 b chunks = .done (b ++ more.flatten, tail) :=
          (required_done _ _ _ _ _ _).2 ⟨more, e', rfl, he.some, he.nonempty, by simpa using he.enough, by simpa using he.notMore⟩
        rw [hr] at this
        cases this
    by_cases hle : b.length ≤ h.remLen
    · have hnn : ¬ NearlyWhole b := by rw [hn]; omega
      simp only [usizeSub, if_pos hle, Late, hnn, and_false, hc, false_or, awaited]
      exact (main _).trans ⟨fun x => ⟨hlen, x⟩, fun x => x.2⟩
    · have hnn : NearlyWhole b := by rw [hn]; omega
      cases c with
      | true => simp [usizeSub, hle, Late, hnn]
      | false =>
        simp only [usizeSub, if_neg hle, Bool.false_eq_true, if_false, Late, false_and, hc, false_or, awaited]
        exact (main _).trans ⟨fun x => ⟨hlen, x⟩, fun x => x.2⟩
  · rw [if_neg hlen, body_panics hh]
    have hnn : ¬ NearlyWhole b := by rw [hn]; omega
    simp only [Late, hnn, and_false, false_or]
    constructor
    · rintro (h' | h')
      · omega
      · exact .inl h'
    · rintro (h' | h')
      · exact .inr h'
      · omega

/-- `AnswerPanics` when `b` has been read already -/
theorem early_panics (c : Bool) (fuel : Nat) (b : Bytes) (chunks : List Bytes) (hf : chunks.length + 1 ≤ fuel) :
    SmolStream.read c fuel b chunks = .panic ↔ ∃ early late h hl, chunks = early ++ late ∧ (∀ x ∈ early, x ≠ []) ∧
      FixedHeader.read (b ++ early.flatten) = .ok (h, hl) ∧ (early = [] ∨ b.length + early.dropLast.flatten.length < hl) ∧
      Late c (b ++ early.flatten) hl h.remLen late := by
  induction fuel generalizing b chunks with
  | zero => omega
  | succ fuel ih =>
    cases hh : FixedHeader.read b with
    | ok r =>
      obtain ⟨h, hl⟩ := r
      rw [late_panics c fuel hh]
      constructor
      · intro hp
        exact ⟨[], chunks, h, hl, rfl, by simp, by simpa using hh, .inl rfl, by simpa using hp⟩
      · rintro ⟨early, late, h', hl', rfl, -, h2, h3, h4⟩
        obtain ⟨e, hle⟩ := header_more (m := early.flatten) hh
        rw [e] at h2
        cases h2
        rcases h3 with rfl | h3
        · simpa using h4
        · omega
    | error e =>
      cases e with
      | err f =>
        have hno : ∀ m h hl, FixedHeader.read (b ++ m) ≠ .ok (h, hl) := by
          intro m h hl e
          rcases header_less e with ⟨-, n, e, -⟩ | e <;> rw [hh] at e <;> cases e
        have hl : SmolStream.read c (fuel + 1) b chunks ≠ .panic := by
          have hpar := SmolStream.parse_panics false b
          intro hl
          cases f with
          | de d => simp [SmolStream.read, hh] at hl
          | _ =>
            have : SmolStream.parse false b = .panic := by simp only [SmolStream.parse, hh]
            rw [hpar] at this
            rcases this with ⟨h, -⟩ | hc
            · simp at h
            · obtain ⟨len, flags, tail, rest, rfl, hv, -⟩ := hc
              refine hno [] ⟨.connect, 0, vbiValue len⟩ (1 + len.length) ?_
              rw [List.append_nil, List.append_assoc, FixedHeader.read_isVbi _ hv]
              rfl
        simp only [hl, false_iff]
        rintro ⟨early, late, h', hl', -, -, h2, -⟩
        exact hno _ _ _ h2
      | insufficientBytes n =>
        rw [SmolStream.read]
        simp only [hh]
        have key : ∀ early late h hl, chunks = early ++ late → (∀ x ∈ early, x ≠ []) →
            FixedHeader.read (b ++ early.flatten) = .ok (h, hl) → ∃ u v, early = u ++ v ∧
              SmolStream.readRequired n 0 b chunks = .done (b ++ u.flatten, v ++ late) := by
          intro early late h hl e hne h2
          have hn : n ≤ early.flatten.length ∧ 1 ≤ n := by
            rcases header_less h2 with ⟨h3, m, e, h4, h5⟩ | e
            · rw [hh] at e
              cases e
              have := (header_more (m := []) h2).2
              rw [List.length_append] at this
              omega
            · rw [hh] at e; cases e
          have step : ∀ (total : Nat) (b : Bytes) (early : List Bytes), (∀ x ∈ early, x ≠ []) → early ≠ [] →
              n ≤ total + early.flatten.length → ∃ u v, early = u ++ v ∧
                SmolStream.readRequired n total b (early ++ late) = .done (b ++ u.flatten, v ++ late) := by
            intro total b early
            induction early generalizing total b with
            | nil => intro _ h; exact absurd rfl h
            | cons x xs ihx =>
              intro hne _ hle
              simp only [List.cons_append, SmolStream.readRequired]
              rw [if_neg (hne x (.head _))]
              split
              · exact ⟨[x], xs, rfl, by simp⟩
              · rename_i hlt
                have hx : xs ≠ [] := by rintro rfl; simp at hle; omega
                obtain ⟨u, v, rfl, hr⟩ := ihx (total + x.length) (b ++ x) (fun y hy => hne y (.tail _ hy)) hx
                  (by simp at hle ⊢; omega)
                exact ⟨x :: u, v, rfl, by rw [hr]; simp⟩
          rw [e]
          exact step 0 b early hne (by rintro rfl; simp at hn; omega) (by omega)
        cases hr : SmolStream.readRequired n 0 b chunks with
        | done x =>
          obtain ⟨b', rest⟩ := x
          obtain ⟨u, e, rfl, h1, h2, h3, h4⟩ := (required_done _ _ _ _ _ _).1 hr
          simp only [Nat.zero_add] at h3 h4
          have hlen : rest.length + 1 ≤ fuel := by
            have : 1 ≤ u.length := by cases u with | nil => exact absurd rfl h1 | cons _ _ => simp
            rw [e] at hf
            simp at hf
            omega
          simp only
          rw [ih _ _ hlen]
          constructor
          · rintro ⟨early, late, h, hl, rfl, g1, g2, g3, g4⟩
            refine ⟨u ++ early, late, h, hl, by rw [e]; simp, ?_, by simpa using g2, .inr ?_, by simpa using g4⟩
            · intro x hx
              rcases List.mem_append.1 hx with hx | hx
              · exact h2 x hx
              · exact g1 x hx
            · rcases g3 with rfl | g3
              · simp only [List.append_nil]
                rw [List.flatten_nil, List.append_nil] at g2
                rcases header_less g2 with ⟨k1, m, k2, k3, k4⟩ | k
                · rw [hh] at k2
                  cases k2
                  rcases h4 with h4 | h4
                  · rw [h4]; simpa using k1
                  · omega
                · rw [hh] at k; cases k
              · cases early with
                | nil =>
                  have := (header_more (m := []) g2).2
                  simp only [List.flatten_nil, List.append_nil, List.dropLast_nil, List.length_nil] at this g3
                  omega
                | cons y ys =>
                  rw [List.dropLast_append_of_ne_nil (by simp)]
                  simp only [List.flatten_append, List.length_append] at g3 ⊢
                  omega
          · rintro ⟨early, late, h, hl, g0, g1, g2, g3, g4⟩
            obtain ⟨u', v, rfl, hr'⟩ := key early late h hl g0 g1 g2
            rw [hr] at hr'
            simp only [SmolStream.Outcome.done.injEq, Prod.mk.injEq, List.append_cancel_left_eq] at hr'
            have hu : u = u' := by
              have : u ++ rest = u' ++ (v ++ late) := by rw [← e, g0]; simp
              rw [hr'.2] at this
              exact List.append_cancel_right this
            subst hu
            refine ⟨v, late, h, hl, hr'.2, fun x hx => g1 x (by simp [hx]), by simpa using g2, ?_, by simpa using g4⟩
            by_cases hv : v = []
            · exact .inl hv
            · right
              rcases g3 with g3 | g3
              · simp at g3; exact absurd g3.1 h1
              · rw [List.dropLast_append_of_ne_nil hv] at g3
                simp only [List.flatten_append, List.length_append] at g3 ⊢
                omega
        | panic => exact absurd hr (required_not_panic _ _ _ _)
        | io =>
          simp only [reduceCtorEq, false_iff]
          rintro ⟨early, late, h, hl, g0, g1, g2, -⟩
          obtain ⟨_, _, -, hr'⟩ := key early late h hl g0 g1 g2
          rw [hr] at hr'
          cases hr'
        | waiting =>
          simp only [reduceCtorEq, false_iff]
          rintro ⟨early, late, h, hl, g0, g1, g2, -⟩
          obtain ⟨_, _, -, hr'⟩ := key early late h hl g0 g1 g2
          rw [hr] at hr'
          cases hr'

theorem read_panics (c : Bool) (chunks : List Bytes) :
    SmolStream.read c (chunks.length + 1) [] chunks = .panic ↔ AnswerPanics c chunks := by
  rw [early_panics c _ _ _ (Nat.le_refl _)]
  constructor
  · rintro ⟨early, late, h, hl, e, h1, h2, h3, h4⟩
    rw [List.nil_append] at h2 h4
    refine ⟨early, late, hl, h.remLen, e, h1, begins_iff.2 ⟨h, h2, rfl⟩, ?_, h4⟩
    rcases h3 with rfl | h3
    · have := (header_more (m := []) h2).2
      obtain ⟨_, _, _, _, _, e, -⟩ := FixedHeader.read_ok h2
      simp at e
    · simpa using h3
  · rintro ⟨early, late, hl, rem, e, h1, h2, h3, h4⟩
    obtain ⟨h, h5, rfl⟩ := begins_iff.1 h2
    exact ⟨early, late, h, hl, e, h1, by simpa using h5, .inr (by simpa using h3), by rw [List.nil_append]; exact h4⟩

theorem connect_panics {s s' : Smol} {i : SmolConnect} {c : Connect} {a b : Nat}
    (h : s.step (.connect i) = some (s', [.wrote (.connect c) a b, .connectPanicked])) :
    SmolStream.read s.checks (i.chunks.length + 1) [] i.chunks = .panic := by
  simp only [Smol.step, Smol.connect] at h
  split at h
  · split at h
    · simp at h
    · split at h
      · split at h
        · unfold Smol.established at h
          simp only at h
          repeat' split at h
          all_goals simp at h
        · simp at h
      · simp at h
      · simp at h
      · simp at h
      · assumption
      · simp at h
  · cases h

theorem connect_panicked {s s' : Smol} {i : SmolConnect} {p : Packet} {a b : Nat} {obs : List Obs}
    (h : s.step (.connect i) = some (s', obs)) (hw : .wrote p a b ∈ obs)
    (hp : SmolStream.read s.checks (i.chunks.length + 1) [] i.chunks = .panic) : .connectPanicked ∈ obs := by
  simp only [Smol.step, Smol.connect, hp] at h
  split at h
  · split at h
    · simp at h
      rw [← h.2] at hw
      simp at hw
    · simp at h
      rw [← h.2]
      simp
  · cases h

end Pieces
end Mqrstt
