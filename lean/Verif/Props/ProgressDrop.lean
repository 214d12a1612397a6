import Verif.Proof.ProgressDrop
import Verif.Props.DeadEndDrop
/-! # Queued packets are sent, also after futures have been dropped (C57) -/

namespace Mqrstt.Props
open Mqrstt Mqrstt.Spec _root_.Spec

/-- **C57, tokio (partial)**, after any history in which the futures of `run` and `connect` may also have been dropped anywhere.
Missing: as in `C57_next_tokio_partial`. -/
theorem C57_dropped_tokio_partial (o : Options) (t : Nat) (ops : List TokioWireOp) (p : Packet) (rest : List Packet) (T : Times)
    (hrun : isRunning (tokioWireTrace o t ops) = true) (hq : (tokioWire o t ops).net.sys.queue = p :: rest)
    (hT : T.ok (tokioWire o t ops).net.now = true) (henc : ∃ e, p.asyncWrite = .ok e) (hid : ¬ BeyondReceiveMax o p) :
    ∃ s', (tokioWire o t ops).step (.op (.turn .outgoing 0 true T)) = some (s', .wrote p T.fire T.first ::
        if p.isDisconnect then [.ended (.status .outgoingDisconnect)] else []) ∧
      s'.net.sys.queue = rest ∧ s'.net.now = T.second := by
  obtain ⟨⟨sops, hi⟩, hr⟩ := tokio_interrupted o t ops
  have hr : (tokioWire o t ops).net.run.isSome = true := hr.trans hrun
  obtain ⟨hl, ha⟩ := (DeadEndDrop.tokio_more o t ops).1 hr
  obtain ⟨n, h1, h2, h3⟩ := ProgressDrop.tokio (tokioWire o t ops).net o p rest T ⟨sops, hi.sys⟩ hr hl ha hq hT henc hid
  refine ⟨_, by simp only [TokioWire.step, h1]; rfl, h2, h3⟩

/-- **C57, smol (partial)**, after any history in which the futures of `run` and `connect` may also have been dropped anywhere.
Missing: as in `C57_next_smol_partial`. -/
theorem C57_dropped_smol_partial (k : Bool) (o : Options) (t : Nat) (ops : List SmolWireOp) (p : Packet) (rest : List Packet)
    (T : Times) (hrun : isRunning (smolWireTrace k o t ops) = true) (hq : (smolWire k o t ops).net.sys.queue = p :: rest)
    (hT : T.ok (smolWire k o t ops).net.now = true) (henc : ∃ e, p.write = .ok e) (hid : ¬ BeyondReceiveMax o p) :
    ∃ s', (smolWire k o t ops).step (.op (.turn .outgoing true T)) = some (s', .wrote p T.fire T.first ::
        if p.isDisconnect then [.ended (.status .outgoingDisconnect)] else []) ∧
      s'.net.sys.queue = rest ∧ s'.net.now = T.second := by
  obtain ⟨⟨sops, hi⟩, hr⟩ := smol_interrupted k o t ops
  have hr : (smolWire k o t ops).net.running = true := hr.trans hrun
  obtain ⟨hl, ha⟩ := ProgressDrop.smol_ready k o t ops hr
  obtain ⟨n, h1, h2, h3⟩ := ProgressDrop.smol (smolWire k o t ops).net o p rest T ⟨sops, hi.sys⟩ hr hl ha hq hT henc hid
  refine ⟨_, by simp only [SmolWire.step, h1]; rfl, h2, h3⟩

/-- **C57**, the part that holds: as many turns as there are packets in front of the queue write exactly these packets, in
order, and nothing else; `run` goes on. This also after dropped futures. (tokio) -/
theorem C57_dropped_drained_tokio_partial (o : Options) (t : Nat) (ps rest : List Packet) (Ts : List Times) (ops : List TokioWireOp)
    (hrun : isRunning (tokioWireTrace o t ops) = true) (hq : (tokioWire o t ops).net.sys.queue = ps ++ rest)
    (hlen : Ts.length = ps.length) (hT : Spec.Clock (tokioWire o t ops).net.now Ts)
    (hok : ∀ p ∈ ps, p.isDisconnect = false ∧ (∃ e, p.asyncWrite = .ok e) ∧ ¬ BeyondReceiveMax o p) :
    let ops' := ops ++ Ts.map fun T => .op (.turn .outgoing 0 true T)
    tokioWireTrace o t ops' = tokioWireTrace o t ops ++ writtenAt ps Ts ∧ (tokioWire o t ops').net.sys.queue = rest ∧
      isRunning (tokioWireTrace o t ops') = true := by
  induction ps generalizing ops Ts with
  | nil =>
    obtain rfl := List.length_eq_zero_iff.1 hlen
    simpa [writtenAt] using ⟨hq, hrun⟩
  | cons p ps ih =>
    match Ts, hlen, hT with
    | T :: Ts, hlen, hT =>
      obtain ⟨hd, henc, hid⟩ := hok p (by simp)
      obtain ⟨s', hs, hq', hn⟩ := C57_dropped_tokio_partial o t ops p (ps ++ rest) T hrun hq hT.1 henc hid
      obtain ⟨h1, h2⟩ := ProgressDrop.tokio_snoc hs
      simp only [hd, Bool.false_eq_true, if_false] at h2
      have := ih Ts (ops ++ [.op (.turn .outgoing 0 true T)])
        (by rw [h2]; simpa [isRunning, runStep] using hrun) (by rw [h1]; exact hq') (by simpa using hlen)
        (by rw [h1, hn]; exact hT.2) (fun p hp => hok p (by simp [hp]))
      simpa [h2, writtenAt] using this

/-- **C57**, the part that holds, also after dropped futures. (smol) -/
theorem C57_dropped_drained_smol_partial (k : Bool) (o : Options) (t : Nat) (ps rest : List Packet) (Ts : List Times)
    (ops : List SmolWireOp)
    (hrun : isRunning (smolWireTrace k o t ops) = true) (hq : (smolWire k o t ops).net.sys.queue = ps ++ rest)
    (hlen : Ts.length = ps.length) (hT : Spec.Clock (smolWire k o t ops).net.now Ts)
    (hok : ∀ p ∈ ps, p.isDisconnect = false ∧ (∃ e, p.write = .ok e) ∧ ¬ BeyondReceiveMax o p) :
    let ops' := ops ++ Ts.map fun T => .op (.turn .outgoing true T)
    smolWireTrace k o t ops' = smolWireTrace k o t ops ++ writtenAt ps Ts ∧ (smolWire k o t ops').net.sys.queue = rest ∧
      isRunning (smolWireTrace k o t ops') = true := by
  induction ps generalizing ops Ts with
  | nil =>
    obtain rfl := List.length_eq_zero_iff.1 hlen
    simpa [writtenAt] using ⟨hq, hrun⟩
  | cons p ps ih =>
    match Ts, hlen, hT with
    | T :: Ts, hlen, hT =>
      obtain ⟨hd, henc, hid⟩ := hok p (by simp)
      obtain ⟨s', hs, hq', hn⟩ := C57_dropped_smol_partial k o t ops p (ps ++ rest) T hrun hq hT.1 henc hid
      obtain ⟨h1, h2⟩ := ProgressDrop.smol_snoc hs
      simp only [hd, Bool.false_eq_true, if_false] at h2
      have := ih Ts (ops ++ [.op (.turn .outgoing true T)])
        (by rw [h2]; simpa [isRunning, runStep] using hrun) (by rw [h1]; exact hq') (by simpa using hlen)
        (by rw [h1, hn]; exact hT.2) (fun p hp => hok p (by simp [hp]))
      simpa [h2, writtenAt] using this

/-- the hypotheses can be met: `run` was dropped in the middle of a message, another was handed over, and `run` was called again -/
example : isRunning (tokioWireTrace resumeOptions 0 (tokioBacklog ++ [.op .start])) = true ∧
    (at' 5).ok (tokioWire resumeOptions 0 (tokioBacklog ++ [.op .start])).net.now = true ∧
    ∃ p, (tokioWire resumeOptions 0 (tokioBacklog ++ [.op .start])).net.sys.queue = [p] ∧ (∃ e, p.asyncWrite = .ok e) ∧
      ¬ BeyondReceiveMax resumeOptions p := by
  refine ⟨rfl, rfl, _, rfl, ⟨_, rfl⟩, ?_⟩
  rintro ⟨id, h, hlt⟩
  cases h
  exact absurd hlt (by decide)

example : isRunning (smolWireTrace true resumeOptions 0 (smolBacklog ++ [.op .start])) = true ∧
    (at' 5).ok (smolWire true resumeOptions 0 (smolBacklog ++ [.op .start])).net.now = true ∧
    ∃ p, (smolWire true resumeOptions 0 (smolBacklog ++ [.op .start])).net.sys.queue = [p] ∧ (∃ e, p.write = .ok e) ∧
      ¬ BeyondReceiveMax resumeOptions p := by
  refine ⟨rfl, rfl, _, rfl, ⟨_, rfl⟩, ?_⟩
  rintro ⟨id, h, hlt⟩
  cases h

/-- a queue that is drained after a drop -/
example : ∃ p, (tokioWire resumeOptions 0 (tokioBacklog ++ [.op .start])).net.sys.queue = [p] ++ [] ∧
    Spec.Clock (tokioWire resumeOptions 0 (tokioBacklog ++ [.op .start])).net.now [at' 5] ∧ p.isDisconnect = false :=
  ⟨_, rfl, ⟨rfl, trivial⟩, rfl⟩

example : ∃ p, (smolWire true resumeOptions 0 (smolBacklog ++ [.op .start])).net.sys.queue = [p] ++ [] ∧
    Spec.Clock (smolWire true resumeOptions 0 (smolBacklog ++ [.op .start])).net.now [at' 5] ∧ p.isDisconnect = false :=
  ⟨_, rfl, ⟨rfl, trivial⟩, rfl⟩

end Mqrstt.Props
