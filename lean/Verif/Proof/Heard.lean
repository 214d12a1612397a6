import Verif.Spec.Heard
import Verif.Proof.Bytes
import Verif.Proof.Fair
/-! # What arrives is processed (C104) -/

namespace Mqrstt
open Mqrstt.Spec _root_.Spec Mqrstt.Props

section
variable {R : Bytes → Packet → Bytes → Prop}

/-- two readings of the same bytes -/
theorem stream_compare (fn : ∀ b p b' q c', R b p b' → R b q c' → p = q ∧ b' = c') {bs rest : Bytes} {ps : List Packet}
    (h : Stream R bs ps rest) : ∀ {qs : List Packet} {rest' : Bytes}, Stream R bs qs rest' →
      qs <+: ps ∨ ∃ q r, Stream R bs (ps ++ [q]) r ∧ (ps ++ [q]) <+: qs := by
  induction h with
  | nil bs =>
    intro qs rest' h'
    cases h' with
    | nil => exact .inl (List.prefix_refl _)
    | @cons _ _ _ q qs g gs => exact .inr ⟨q, _, .cons g (.nil _), ⟨qs, rfl⟩⟩
  | @cons bs bs' rest p ps h _ ih =>
    intro qs rest' h'
    cases h' with
    | nil => exact .inl List.nil_prefix
    | cons g gs =>
      obtain ⟨rfl, rfl⟩ := fn _ _ _ _ _ h g
      rcases ih gs with h2 | ⟨q, r, h2, h3⟩
      · exact .inl (List.prefix_cons_inj _ |>.2 h2)
      · exact .inr ⟨q, r, .cons h h2, List.prefix_cons_inj _ |>.2 h3⟩

/-- as long as bytes and packets only accumulate and waiting packets are read, everything is read -/
theorem absorbs (ext : ∀ b p b' m, R b p b' → R (b ++ m) p (b' ++ m))
    (fn : ∀ b p b' q c', R b p b' → R b q c' → p = q ∧ b' = c') {rx : Nat → Rx} {start : Nat}
    (hmono : ∀ n, start ≤ n → (rx n).bytes <+: (rx (n + 1)).bytes ∧ (rx n).packets <+: (rx (n + 1)).packets)
    (hst : ∀ n, start ≤ n → ∃ rest, Stream R (rx n).bytes (rx n).packets rest)
    (hfair : ∀ n, start ≤ n → PacketWaits R (rx n) → ∃ m, n ≤ m ∧ (PacketWaits R (rx m) → (rx m).packets.length < (rx (m + 1)).packets.length))
    {fs : List (Bytes × Packet)} (hf : Encodings R fs) :
    ∀ (d n : Nat), start ≤ n → fs.length ≤ (rx n).packets.length + d → (fs.map (·.1)).flatten <+: (rx n).bytes →
      ∃ k, fs.map (·.2) <+: (rx (n + k)).packets := by
  have mono : ∀ n k, start ≤ n → (rx n).bytes <+: (rx (n + k)).bytes ∧ (rx n).packets <+: (rx (n + k)).packets := by
    intro n k hn
    induction k with
    | zero => exact ⟨List.prefix_refl _, List.prefix_refl _⟩
    | succ k ih =>
      have := hmono (n + k) (by omega)
      exact ⟨ih.1.trans this.1, ih.2.trans this.2⟩
  intro d
  induction d with
  | zero =>
    intro n hn hl hb
    obtain ⟨rest, hs⟩ := hst n hn
    obtain ⟨tail, hb⟩ := hb
    have h2 := Encodings.stream ext hf tail
    rw [hb] at h2
    rcases stream_compare fn hs h2 with h | ⟨q, r, -, h⟩
    · exact ⟨0, h⟩
    · have := h.length_le
      simp at this
      omega
  | succ d ih =>
    intro n hn hl hb
    obtain ⟨rest, hs⟩ := hst n hn
    have hb' := hb
    obtain ⟨tail, hb⟩ := hb
    have h2 := Encodings.stream ext hf tail
    rw [hb] at h2
    rcases stream_compare fn hs h2 with h | ⟨q, r, h, -⟩
    · exact ⟨0, h⟩
    · obtain ⟨m, hm, hgrow⟩ := hfair n hn ⟨q, r, h⟩
      obtain ⟨j, rfl⟩ := Nat.le.dest hm
      have hnj := mono n j hn
      have hnj1 := mono n (j + 1) hn
      have : (rx n).packets.length < (rx (n + (j + 1))).packets.length := by
        by_cases e : (rx (n + j)).packets.length = (rx n).packets.length
        · have e2 : (rx (n + j)).packets = (rx n).packets := (hnj.2.eq_of_length e.symm).symm
          have hw : PacketWaits R (rx (n + j)) := by
            obtain ⟨more, hmore⟩ := hnj.1
            refine ⟨q, r ++ more, ?_⟩
            rw [e2, ← hmore]
            exact h.more ext
          have := hgrow hw
          rw [← Nat.add_assoc]
          omega
        · have h3 := hnj.2.length_le
          have h4 := (hmono (n + j) (by omega)).2.length_le
          rw [← Nat.add_assoc]
          omega
      obtain ⟨k, hk⟩ := ih (n + (j + 1)) (by omega) (by omega) (hb'.trans hnj1.1)
      exact ⟨j + 1 + k, by rw [← Nat.add_assoc]; exact hk⟩

end

/-! ## tokio -/

theorem tokioRx_succ (o : Options) (t : Nat) (sched : Nat → TokioOp) (n : Nat) :
    (∃ s' ob, (tokio o t (upTo sched n)).step (sched n) = some (s', ob) ∧
      tokioRx o t (upTo sched (n + 1)) = tokioRxStep (tokioRx o t (upTo sched n)) (sched n, ob)) ∨
    ((tokio o t (upTo sched n)).step (sched n) = none ∧ tokioRx o t (upTo sched (n + 1)) = tokioRx o t (upTo sched n)) := by
  rw [upTo_succ]
  simp only [tokioRx, log_append, List.foldl_append, log]
  have e : (history Tokio.step (Tokio.new o t) (upTo sched n)).1 = tokio o t (upTo sched n) := rfl
  rw [e]
  cases h : (tokio o t (upTo sched n)).step (sched n) with
  | none => exact .inr ⟨rfl, rfl⟩
  | some x => exact .inl ⟨x.1, x.2, rfl, rfl⟩

theorem tokioRx_mono {o : Options} {t : Nat} {sched : Nat → TokioOp} {n : Nat}
    (hr : (tokio o t (upTo sched n)).run.isSome = true) :
    (tokioRx o t (upTo sched n)).bytes <+: (tokioRx o t (upTo sched (n + 1))).bytes ∧
      (tokioRx o t (upTo sched n)).packets <+: (tokioRx o t (upTo sched (n + 1))).packets := by
  rcases tokioRx_succ o t sched n with ⟨s', ob, hs, e⟩ | ⟨-, e⟩
  · rw [e]
    generalize sched n = op at hs
    cases op with
    | connect i =>
      simp only [Tokio.step, Tokio.connect] at hs
      split at hs
      · rename_i hg
        simp at hg
        rw [hg.2] at hr
        cases hr
      · cases hs
    | turn b lost io T => cases b <;> exact ⟨List.prefix_refl _, List.prefix_append _ _⟩
    | arrive bs => exact ⟨List.prefix_append _ _, List.prefix_append _ _⟩
    | _ => exact ⟨List.prefix_refl _, List.prefix_append _ _⟩
  · rw [e]; exact ⟨List.prefix_refl _, List.prefix_refl _⟩

theorem tokio_read_grows {o : Options} {t : Nat} {sched : Nat → TokioOp} {m : Nat}
    (hrun : isRunning (tokioTrace o t (upTo sched m)) = true) (h0 : (tokioRx o t (upTo sched m)).taken = 0)
    (hop : readsTokio (sched m)) (hs : ((tokio o t (upTo sched m)).step (sched m)).isSome)
    (hw : PacketWaits StreamPacket (tokioRx o t (upTo sched m))) :
    (tokioRx o t (upTo sched m)).packets.length < (tokioRx o t (upTo sched (m + 1))).packets.length := by
  have hv := Tokio.vrun o t (upTo sched m)
  have hr := hv.up.2.trans hrun
  obtain ⟨hlive, -⟩ := hv.running hr
  have hlive : (tokio o t (upTo sched m)).network.isSome = true := hlive
  obtain ⟨rest, h1, h2⟩ := Tokio.rxed o t (upTo sched m) h0
  obtain ⟨eof, hn⟩ : ∃ eof, (tokio o t (upTo sched m)).network = some ⟨rest, eof⟩ := by
    rcases h2 with h | h
    · rw [h] at hlive; cases hlive
    · exact h
  obtain ⟨p, r, hw⟩ := hw
  have hp : ∃ r, StreamPacket rest p r := by
    rcases stream_compare StreamPacket.fn h1 hw with h | ⟨q, r', h, h'⟩
    · have := h.length_le
      simp at this
      omega
    · have := h'.eq_of_length (by simp)
      obtain ⟨rfl⟩ : q = p := by simpa using this
      clear hw h'
      generalize (tokioRx o t (upTo sched m)).bytes = bs at h h1
      generalize (tokioRx o t (upTo sched m)).packets = ps at h h1
      induction h1 with
      | nil => cases h with | cons g _ => exact ⟨_, g⟩
      | cons g _ ih =>
        cases h with
        | cons g' gs =>
          obtain ⟨-, rfl⟩ := StreamPacket.fn _ _ _ _ _ g g'
          exact ih h2 hn gs
  obtain ⟨r, hp⟩ := hp
  have hp : Packet.asyncRead rest = .ok (p, r) := hp
  rcases tokioRx_succ o t sched m with ⟨s', ob, hst, e⟩ | ⟨hst, -⟩
  · rw [e]
    generalize sched m = op at hop hst
    cases op <;> simp only [readsTokio] at hop
    rename_i b lost io T
    cases b <;> simp only at hop
    have : readIn ob = [p] := by
      simp only [Tokio.step, Tokio.turn, hn] at hst
      split at hst
      · split at hst
        · simp only [Tokio.onRead] at hst
          cases ‹some _ = some _›
          simp only [hp] at hst
          exact (Tokio.onPacket_took (c := ⟨r, eof⟩) rfl _ _ hst).1
        · cases hst
      · cases hst
    simp [tokioRxStep, this]
  · rw [hst] at hs; cases hs

/-! ## smol -/

theorem smolRx_succ (c : Bool) (o : Options) (t : Nat) (sched : Nat → SmolOp) (n : Nat) :
    (∃ s' ob, (smol c o t (upTo sched n)).step (sched n) = some (s', ob) ∧
      smolRx c o t (upTo sched (n + 1)) = smolRxStep (smolRx c o t (upTo sched n)) (sched n, ob)) ∨
    ((smol c o t (upTo sched n)).step (sched n) = none ∧ smolRx c o t (upTo sched (n + 1)) = smolRx c o t (upTo sched n)) := by
  rw [upTo_succ]
  simp only [smolRx, log_append, List.foldl_append, log]
  have e : (history Smol.step (Smol.new c o t) (upTo sched n)).1 = smol c o t (upTo sched n) := rfl
  rw [e]
  cases h : (smol c o t (upTo sched n)).step (sched n) with
  | none => exact .inr ⟨rfl, rfl⟩
  | some x => exact .inl ⟨x.1, x.2, rfl, rfl⟩

theorem smolRx_mono {c : Bool} {o : Options} {t : Nat} {sched : Nat → SmolOp} {n : Nat}
    (hr : (smol c o t (upTo sched n)).running = true) :
    (smolRx c o t (upTo sched n)).bytes <+: (smolRx c o t (upTo sched (n + 1))).bytes ∧
      (smolRx c o t (upTo sched n)).packets <+: (smolRx c o t (upTo sched (n + 1))).packets := by
  rcases smolRx_succ c o t sched n with ⟨s', ob, hs, e⟩ | ⟨-, e⟩
  · rw [e]
    generalize sched n = op at hs
    cases op with
    | connect i =>
      simp only [Smol.step, Smol.connect] at hs
      split at hs
      · rename_i hg
        simp at hg
        rw [hg.2] at hr
        cases hr
      · cases hs
    | turn b io T =>
      cases b with
      | read chunk => exact ⟨List.prefix_append _ _, List.prefix_append _ _⟩
      | _ => exact ⟨List.prefix_refl _, List.prefix_append _ _⟩
    | _ => exact ⟨List.prefix_refl _, List.prefix_append _ _⟩
  · rw [e]; exact ⟨List.prefix_refl _, List.prefix_refl _⟩

theorem smol_read_grows {c : Bool} {o : Options} {t : Nat} {sched : Nat → SmolOp} {m : Nat}
    (hrun : isRunning (smolTrace c o t (upTo sched m)) = true)
    (hrun' : isRunning (smolTrace c o t (upTo sched (m + 1))) = true)
    (hop : readsSmol (sched m)) (hs : ((smol c o t (upTo sched m)).step (sched m)).isSome)
    (hw : PacketWaits BufferPacket (smolRx c o t (upTo sched m))) :
    (smolRx c o t (upTo sched m)).packets.length < (smolRx c o t (upTo sched (m + 1))).packets.length := by
  have hv := Smol.vrun c o t (upTo sched m)
  have hr := hv.up.2.trans hrun
  obtain ⟨hlive, -⟩ := hv.running hr
  have hlive : (smol c o t (upTo sched m)).network.isSome = true := hlive
  obtain ⟨rest, h1, h2⟩ := Smol.rxed c o t (upTo sched m)
  have hn : (smol c o t (upTo sched m)).network = some rest := by
    rcases h2 with h | h
    · rw [h] at hlive; cases hlive
    · exact h
  obtain ⟨p, r, hw⟩ := hw
  have hp : ∃ r, BufferPacket rest p r := by
    rcases stream_compare BufferPacket.fn h1 hw with h | ⟨q, r', h, h'⟩
    · have := h.length_le
      simp at this
      omega
    · have := h'.eq_of_length (by simp)
      obtain ⟨rfl⟩ : q = p := by simpa using this
      clear hw h'
      generalize (smolRx c o t (upTo sched m)).bytes = bs at h h1
      generalize (smolRx c o t (upTo sched m)).packets = ps at h h1
      induction h1 with
      | nil => cases h with | cons g _ => exact ⟨_, g⟩
      | cons g _ ih =>
        cases h with
        | cons g' gs =>
          obtain ⟨-, rfl⟩ := BufferPacket.fn _ _ _ _ _ g g'
          exact ih h2 hn gs
  obtain ⟨r, hp⟩ := hp
  rcases smolRx_succ c o t sched m with ⟨s', ob, hst, e⟩ | ⟨hst, -⟩
  · rw [e]
    have hr' : s'.running = true := by
      have h3 := (smol_snoc hst).1
      rw [← upTo_succ] at h3
      have := (Smol.vrun c o t (upTo sched (m + 1))).up.2.trans hrun'
      rw [← h3]
      exact this
    generalize sched m = op at hop hst
    cases op <;> simp only [readsSmol] at hop
    rename_i b io T
    cases b <;> simp only at hop
    rename_i chunk
    have hp' := SmolStream.parse_of_packet (checks := (smol c o t (upTo sched m)).checks) (BufferPacket.more _ _ _ chunk hp)
    have : readIn ob = [p] := by
      simp only [Smol.step, Smol.turn, hn] at hst
      split at hst
      · simp only [Smol.onRead] at hst
        split at hst
        · cases hst; cases hr'
        · split at hst
          · cases hst
          · simp only [hp'] at hst
            exact (Smol.onPacket_took rfl _ _ hst).1
      · cases hst
    simp [smolRxStep, this]
  · rw [hst] at hs; cases hs

/-! ## a schedule that ends with waiting -/

theorem upTo_list {O : Type} (l : List O) (c : O) (k : Nat) :
    upTo (fun n => l[n]?.getD c) (l.length + k) = l ++ List.replicate k c := by
  induction k with
  | zero =>
    apply List.ext_getElem
    · simp [upTo]
    · intro i h1 h2
      simp [upTo] at h1 ⊢
      simp [h1]
  | succ k ih =>
    rw [← Nat.add_assoc, upTo_succ, ih, List.replicate_succ', List.append_assoc]
    simp

theorem history_replicate {S O : Type} {step : S → O → Option (S × List Obs)} {s : S} {c : O} (h : step s c = none) (k : Nat) :
    history step s (List.replicate k c) = (s, []) ∧ log step s (List.replicate k c) = [] := by
  induction k with
  | zero => exact ⟨rfl, rfl⟩
  | succ k ih =>
    simp only [List.replicate_succ, history, log, h]
    exact ih

end Mqrstt
