import Verif.Proof.Heard
import Verif.Props.Bytes
import Verif.Props.Progress
/-!
# What arrives is processed (C104)
-/

namespace Mqrstt.Props
open Mqrstt Mqrstt.Spec _root_.Spec

/-- **C104**, the part that holds. On every endless schedule in which `run` goes on from some point, no read is abandoned with
bytes in hand, and the loop does not neglect the connection for ever: all packets that have arrived at some time are processed
in the end, in order, whatever is written, called or becomes due meanwhile. (tokio) Missing: abandoned reads, see
`C104_tokio_violated`. -/
theorem C104_processed_tokio_partial (o : Options) (t : Nat) (sched : Nat → TokioOp) (start n : Nat)
    (hrun : ∀ n, start ≤ n → isRunning (tokioTrace o t (upTo sched n)) = true)
    (hkept : ∀ n, start ≤ n → (tokioRx o t (upTo sched n)).taken = 0) (hfair : HearsTokio o t sched) (hn : start ≤ n)
    (fs : List (Bytes × Packet)) (hf : Encodings StreamPacket fs)
    (harrived : (fs.map (·.1)).flatten <+: (tokioRx o t (upTo sched n)).bytes) :
    ∃ k, fs.map (·.2) <+: (tokioRx o t (upTo sched (n + k))).packets := by
  refine absorbs (rx := fun n => tokioRx o t (upTo sched n)) (start := start) StreamPacket.more StreamPacket.fn ?_ ?_ ?_ hf
    fs.length n hn (by omega) harrived
  · intro n hn
    exact tokioRx_mono ((Tokio.vrun o t (upTo sched n)).up.2.trans (hrun n hn))
  · intro n hn
    obtain ⟨rest, h, -⟩ := Tokio.rxed o t (upTo sched n) (hkept n hn)
    exact ⟨rest, h⟩
  · intro n hn hw
    obtain ⟨m, hm, h1, h2⟩ := hfair n hw
    exact ⟨m, hm, tokio_read_grows (hrun m (by omega)) (hkept m (by omega)) h1 h2⟩

/-- **C104**, the part that holds. (smol) Missing: when the server sends nothing more, packets that arrived together are not
processed, see `C104_smol_violated`. -/
theorem C104_processed_smol_partial (c : Bool) (o : Options) (t : Nat) (sched : Nat → SmolOp) (start n : Nat)
    (hrun : ∀ n, start ≤ n → isRunning (smolTrace c o t (upTo sched n)) = true) (hfair : HearsSmol c o t sched) (hn : start ≤ n)
    (fs : List (Bytes × Packet)) (hf : Encodings BufferPacket fs)
    (harrived : (fs.map (·.1)).flatten <+: (smolRx c o t (upTo sched n)).bytes) :
    ∃ k, fs.map (·.2) <+: (smolRx c o t (upTo sched (n + k))).packets := by
  refine absorbs (rx := fun n => smolRx c o t (upTo sched n)) (start := start) BufferPacket.more BufferPacket.fn ?_ ?_ ?_ hf
    fs.length n hn (by omega) harrived
  · intro n hn
    exact smolRx_mono ((Smol.vrun c o t (upTo sched n)).up.2.trans (hrun n hn))
  · intro n hn
    obtain ⟨rest, h, -⟩ := Smol.rxed c o t (upTo sched n)
    exact ⟨rest, h⟩
  · intro n hn hw
    obtain ⟨m, hm, h1, h2⟩ := hfair n hw
    exact ⟨m, hm, smol_read_grows (hrun m (by omega)) (hrun (m + 1) (by omega)) h1 h2⟩

/-! ## an endless conversation -/

/-- for ever: a PINGRESP arrives and is read -/
def hearing : Nat → TokioOp
  | 0 => .connect ⟨true, plainConnAck, false, fun _ => true, true, at' 1⟩
  | 1 => .start
  | n + 2 => if n % 2 = 0 then .arrive [0xD0, 0] else .turn .read 0 true (at' 2)

theorem hearing_0 (k : Nat) : hearing (4 + 2 * k) = .arrive [0xD0, 0] := by
  rw [show 4 + 2 * k = (2 + 2 * k) + 2 by omega, hearing, if_pos (by omega)]

theorem hearing_1 (k : Nat) : hearing (4 + 2 * k + 1) = .turn .read 0 true (at' 2) := by
  rw [show 4 + 2 * k + 1 = (3 + 2 * k) + 2 by omega, hearing, if_neg (by omega)]

theorem hearing_state (k : Nat) : tokio fewIds 0 (upTo hearing (4 + 2 * k)) = tokio fewIds 0 (upTo hearing 4) := by
  induction k with
  | zero => rfl
  | succ k ih =>
    rw [show 4 + 2 * (k + 1) = 4 + 2 * k + 1 + 1 by omega, upTo_succ, upTo_succ, hearing_0, hearing_1, List.append_assoc,
      tokio_then, ih]
    rfl

theorem hearing_at1 (k : Nat) : tokio fewIds 0 (upTo hearing (4 + 2 * k + 1)) = tokio fewIds 0 (upTo hearing 5) := by
  rw [upTo_succ, hearing_0, tokio_then, hearing_state]
  rfl

theorem hearing_kept (ops : List TokioOp) (h : ∀ op ∈ ops, ∃ n, op = hearing n) : ∀ (s : Tokio) (r : Rx), r.taken = 0 →
    ((log Tokio.step s ops).foldl tokioRxStep r).taken = 0 := by
  induction ops with
  | nil => exact fun s r h => h
  | cons op ops ih =>
    intro s r hr
    simp only [log]
    cases e : s.step op with
    | none => exact ih (fun x hx => h x (by simp [hx])) s r hr
    | some x =>
      refine ih (fun x hx => h x (by simp [hx])) _ _ ?_
      obtain ⟨n, rfl⟩ := h op (by simp)
      match n with
      | 0 => simp only [hearing, tokioRxStep]; split <;> simp [hr]
      | 1 => exact hr
      | n + 2 =>
        simp only [hearing]
        split <;> exact hr

example : (∀ n, 4 ≤ n → isRunning (tokioTrace fewIds 0 (upTo hearing n)) = true) ∧
    (∀ n, 4 ≤ n → (tokioRx fewIds 0 (upTo hearing n)).taken = 0) ∧ HearsTokio fewIds 0 hearing ∧
    plainConnAck ++ [0xD0, 0, 0xD0, 0] <+: (tokioRx fewIds 0 (upTo hearing 5)).bytes ∧
    (tokioRx fewIds 0 (upTo hearing 5)).packets.length = 2 := by
  refine ⟨?_, ?_, ?_, ⟨[], by decide +kernel⟩, rfl⟩
  · intro n hn
    refine (Tokio.vrun fewIds 0 (upTo hearing n)).up.2.symm.trans ?_
    show (tokio fewIds 0 (upTo hearing n)).view.running = true
    obtain ⟨k, r, rfl, hr⟩ : ∃ k r, n = 4 + 2 * k + r ∧ r < 2 := ⟨(n - 4) / 2, (n - 4) % 2, by omega, Nat.mod_lt _ (by omega)⟩
    match r with
    | 0 => rw [Nat.add_zero, hearing_state]; rfl
    | 1 => rw [hearing_at1]; rfl
  · intro n _
    exact hearing_kept _ (fun op hop => by simp [upTo] at hop; obtain ⟨m, -, rfl⟩ := hop; exact ⟨m, rfl⟩) _ _ rfl
  · intro n _
    refine ⟨4 + 2 * n + 1, by omega, ?_, ?_⟩
    · rw [hearing_1]; exact trivial
    · rw [hearing_1, hearing_at1]; rfl

/-- for ever: a PINGRESP arrives; the first time two at once -/
def hearingSmol : Nat → SmolOp
  | 0 => .connect ⟨true, [plainConnAck], true, at' 1⟩
  | 1 => .start
  | 2 => .turn (.read [0xD0, 0, 0xD0, 0]) true (at' 2)
  | _ + 3 => .turn (.read [0xD0, 0]) true (at' 2)

theorem hearingSmol_state (k : Nat) : smol true fewIds 0 (upTo hearingSmol (3 + k)) = smol true fewIds 0 (upTo hearingSmol 3) := by
  induction k with
  | zero => rfl
  | succ k ih =>
    rw [← Nat.add_assoc, upTo_succ, show hearingSmol (3 + k) = .turn (.read [0xD0, 0]) true (at' 2) by
      rw [Nat.add_comm]; rfl, smol_then, ih]
    rfl

example : (∀ n, 3 ≤ n → isRunning (smolTrace true fewIds 0 (upTo hearingSmol n)) = true) ∧ HearsSmol true fewIds 0 hearingSmol ∧
    plainConnAck ++ [0xD0, 0, 0xD0, 0] <+: (smolRx true fewIds 0 (upTo hearingSmol 3)).bytes ∧
    (smolRx true fewIds 0 (upTo hearingSmol 3)).packets.length = 2 ∧
    (smolRx true fewIds 0 (upTo hearingSmol 4)).packets.length = 3 := by
  refine ⟨?_, ?_, ⟨[], by decide +kernel⟩, rfl, rfl⟩
  · intro n hn
    refine (Smol.vrun true fewIds 0 (upTo hearingSmol n)).up.2.symm.trans ?_
    show (smol true fewIds 0 (upTo hearingSmol n)).view.running = true
    obtain ⟨k, rfl⟩ := Nat.le.dest hn
    rw [hearingSmol_state]
    rfl
  · intro n _
    refine ⟨3 + n, by omega, ?_, ?_⟩
    · rw [Nat.add_comm]; exact trivial
    · rw [hearingSmol_state, Nat.add_comm]; rfl

/-! ## the counterexamples -/

/-- the loop waits for ever after this history, as no branch of it can go on -/
def tokioDeaf : Nat → TokioOp := fun n => tokioCut[n]?.getD (.turn .read 0 true (at' 5))
def smolDeaf : Nat → SmolOp := fun n => smolTwo[n]?.getD (.turn .outgoing true (at' 5))

/-- **C104 is false of the code (tokio).** All bytes of a publish have arrived and `run` waits for more, for ever; the publish is
never processed, because its first bytes were taken by a read that was abandoned for a write. -/
theorem C104_tokio_violated : ∃ fs, Encodings StreamPacket fs ∧ fs.map (·.2) = [.connAck ⟨false, .success, .empty⟩, netPublished [0xD0, 0]] ∧
    ∀ k, (tokioRx fewIds 0 (upTo tokioDeaf (tokioCut.length + k))).bytes = (fs.map (·.1)).flatten ∧
      isRunning (tokioTrace fewIds 0 (upTo tokioDeaf (tokioCut.length + k))) = true ∧
      ¬ fs.map (·.2) <+: (tokioRx fewIds 0 (upTo tokioDeaf (tokioCut.length + k))).packets := by
  refine ⟨[(plainConnAck, .connAck ⟨false, .success, .empty⟩), ([0x30, 0x06, 0, 1, 97, 0, 0xD0, 0], netPublished [0xD0, 0])],
    ?_, rfl, ?_⟩
  · intro x hx
    simp only [List.mem_cons, List.not_mem_nil, or_false] at hx
    rcases hx with rfl | rfl <;> rfl
  · intro k
    have hnone : Tokio.step (history Tokio.step (Tokio.new fewIds 0) tokioCut).1 (.turn .read 0 true (at' 5)) = none := rfl
    obtain ⟨h1, h2⟩ := history_replicate hnone k
    have e1 : tokioRx fewIds 0 (upTo tokioDeaf (tokioCut.length + k)) = tokioRx fewIds 0 tokioCut := by
      rw [show upTo tokioDeaf (tokioCut.length + k) = tokioCut ++ List.replicate k (.turn .read 0 true (at' 5)) from upTo_list _ _ _]
      simp only [tokioRx, log_append, h2, List.append_nil]
    have e2 : tokioTrace fewIds 0 (upTo tokioDeaf (tokioCut.length + k)) = tokioTrace fewIds 0 tokioCut := by
      rw [show upTo tokioDeaf (tokioCut.length + k) = tokioCut ++ List.replicate k (.turn .read 0 true (at' 5)) from upTo_list _ _ _]
      simp only [tokioTrace, Tokio.runOps, history_append, h1, List.append_nil]
    rw [e1, e2]
    have e3 : (tokioRx fewIds 0 tokioCut).packets = [.connAck ⟨false, .success, .empty⟩, .pingResp] := rfl
    refine ⟨by decide +kernel, rfl, ?_⟩
    rw [e3]
    rintro ⟨m, h⟩
    simp [netPublished] at h

/-- **C104 is false of the code (smol).** Two PINGRESPs have arrived with one read and `run` goes on for ever; the second is
never processed. -/
theorem C104_smol_violated : ∃ fs, Encodings BufferPacket fs ∧ fs.map (·.2) = [.connAck ⟨false, .success, .empty⟩, .pingResp, .pingResp] ∧
    ∀ k, (smolRx true fewIds 0 (upTo smolDeaf (smolTwo.length + k))).bytes = (fs.map (·.1)).flatten ∧
      isRunning (smolTrace true fewIds 0 (upTo smolDeaf (smolTwo.length + k))) = true ∧
      ¬ fs.map (·.2) <+: (smolRx true fewIds 0 (upTo smolDeaf (smolTwo.length + k))).packets := by
  refine ⟨[(plainConnAck, .connAck ⟨false, .success, .empty⟩), ([0xD0, 0], .pingResp), ([0xD0, 0], .pingResp)], ?_, rfl, ?_⟩
  · intro x hx
    simp only [List.mem_cons, List.not_mem_nil, or_false] at hx
    rcases hx with rfl | rfl | rfl <;> rfl
  · intro k
    have hnone : Smol.step (history Smol.step (Smol.new true fewIds 0) smolTwo).1 (.turn .outgoing true (at' 5)) = none := rfl
    obtain ⟨h1, h2⟩ := history_replicate hnone k
    have e1 : smolRx true fewIds 0 (upTo smolDeaf (smolTwo.length + k)) = smolRx true fewIds 0 smolTwo := by
      rw [show upTo smolDeaf (smolTwo.length + k) = smolTwo ++ List.replicate k (.turn .outgoing true (at' 5)) from upTo_list _ _ _]
      simp only [smolRx, log_append, h2, List.append_nil]
    have e2 : smolTrace true fewIds 0 (upTo smolDeaf (smolTwo.length + k)) = smolTrace true fewIds 0 smolTwo := by
      rw [show upTo smolDeaf (smolTwo.length + k) = smolTwo ++ List.replicate k (.turn .outgoing true (at' 5)) from upTo_list _ _ _]
      simp only [smolTrace, Smol.runOps, history_append, h1, List.append_nil]
    rw [e1, e2]
    have e3 : (smolRx true fewIds 0 smolTwo).packets.length = 2 := rfl
    refine ⟨by decide +kernel, rfl, fun h => ?_⟩
    have := h.length_le
    rw [e3] at this
    simp at this

end Mqrstt.Props
