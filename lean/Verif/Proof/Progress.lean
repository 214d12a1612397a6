import Verif.Spec.Progress
import Verif.Proof.NetHelp
/-! # The outgoing branch is always ready -/

namespace Mqrstt
open Mqrstt.Spec _root_.Spec Mqrstt.Props

theorem Inv.write_head {n r : UInt16} {clean : Bool} {s : Sys} {l : Ledger} {lost : List UInt16}
    (h : Inv n r clean s l lost) (ha : s.alive = true) {p : Packet} {rest : List Packet} (hq : s.queue = p :: rest)
    (hid : ∀ q id, p = .publish q → q.pkid = some id → id.toNat ≤ r.toNat) :
    ∃ s', s.step (.write true) = some (s', .written p) ∧ s'.queue = rest ∧ s'.alive = true := by
  rcases h.write_ok ha hq with ⟨st, h1, -, -⟩ | ⟨-, id, h2, h3, h4⟩
  · refine ⟨{ s with queue := rest, handler := { s.handler with state := st } }, ?_, rfl, ha⟩
    simp only [Sys.step, ha, if_true, hq, Handler.outgoing, h1]
  · cases p <;> simp [Packet.type] at h4
    have := hid _ id rfl h2
    omega

theorem VStep.running_ready {fl w ob w'} (hs : VStep fl w ob w') (ih : w.running = true → w.live = true ∧ w.sys.alive = true) :
    w'.running = true → w'.live = true ∧ w'.sys.alive = true := by
  cases hs
  case client op sys e hop hst =>
    intro hr
    refine ⟨(ih hr).1, ?_⟩
    have ha := (ih hr).2
    cases op <;> simp [Op.ofClient] at hop
    all_goals
      simp only [Sys.step, Sys.call, Sys.callWith] at hst
      repeat' split at hst
    all_goals simp only [Option.some.injEq, Prod.mk.injEq, reduceCtorEq] at hst
    all_goals
      obtain ⟨rfl, -⟩ := hst
      exact ha
  case accepted hR hp hst =>
    intro _
    refine ⟨hR.live, ?_⟩
    simp only [Sys.step, hR.alive, if_true] at hst
    split at hst <;> simp only [Option.some.injEq, Prod.mk.injEq, reduceCtorEq, and_false] at hst
    obtain ⟨rfl, -⟩ := hst
    rfl
  case outOk hR hst hd =>
    intro _
    refine ⟨hR.live, ?_⟩
    simp only [Sys.step, hR.alive, if_true] at hst
    repeat' split at hst
    all_goals simp only [Option.some.injEq, Prod.mk.injEq, reduceCtorEq, and_false] at hst
    obtain ⟨rfl, -⟩ := hst
    rfl
  all_goals simp_all [View.finish, View.afterConnAck]
  all_goals exact ⟨View.Ready.live ‹_›, View.Ready.alive ‹_›⟩

/-- while `run` executes there are a connection and a network -/
theorem VRun.running_ready {fl o t tr v} (h : VRun fl (View.init o t) tr v) :
    v.running = true → v.live = true ∧ v.sys.alive = true :=
  h.induct (fun _ v => v.running = true → v.live = true ∧ v.sys.alive = true) (by simp [View.init])
    fun _ _ _ _ _ ih hs => hs.running_ready ih

theorem tokio_snoc {o : Options} {t : Nat} {ops : List TokioOp} {op : TokioOp} {s' : Tokio} {obs : List Obs}
    (h : (tokio o t ops).step op = some (s', obs)) :
    tokio o t (ops ++ [op]) = s' ∧ tokioTrace o t (ops ++ [op]) = tokioTrace o t ops ++ obs := by
  have h' : Tokio.step (history Tokio.step (Tokio.new o t) ops).1 op = some (s', obs) := h
  simp only [tokio, tokioTrace, Tokio.runOps, history_append, history_one, h']
  exact ⟨trivial, trivial⟩

theorem smol_snoc {k : Bool} {o : Options} {t : Nat} {ops : List SmolOp} {op : SmolOp} {s' : Smol} {obs : List Obs}
    (h : (smol k o t ops).step op = some (s', obs)) :
    smol k o t (ops ++ [op]) = s' ∧ smolTrace k o t (ops ++ [op]) = smolTrace k o t ops ++ obs := by
  have h' : Smol.step (history Smol.step (Smol.new k o t) ops).1 op = some (s', obs) := h
  simp only [smol, smolTrace, Smol.runOps, history_append, history_one, h']
  exact ⟨trivial, trivial⟩

theorem canLose_zero (c : TokioConn) : Tokio.canLose c 0 = true := by
  simp only [Tokio.canLose, Nat.zero_le, decide_true, Bool.true_and, List.take_zero]
  rfl

/-- the head of the queue can be recorded -/
theorem head_written {fl o t tr v} (h : VRun fl (View.init o t) tr v) (ha : v.sys.alive = true) {p : Packet}
    {rest : List Packet} (hq : v.sys.queue = p :: rest) (hid : ¬ BeyondReceiveMax o p) :
    ∃ s', v.sys.step (.write true) = some (s', .written p) ∧ s'.queue = rest ∧ s'.alive = true := by
  obtain ⟨sops, hc⟩ := h.contains
  have hi := inv o.config sops
  rw [← hc.sys] at hi
  refine hi.write_head ha hq ?_
  rintro q id rfl hk
  exact Nat.le_of_not_lt fun hlt => hid ⟨id, hk, hlt⟩

end Mqrstt
