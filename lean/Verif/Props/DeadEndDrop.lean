import Verif.Proof.DeadEndDrop
import Verif.Props.VerdictDrop
/-!
# Nothing is stuck for good after futures have been dropped (C116)
-/

namespace Mqrstt.Props
open Mqrstt Mqrstt.Spec _root_.Spec

/-- **C116, tokio (partial)**, after any history in which the futures of `run` and `connect` may also have been dropped anywhere, even
in the middle of a packet: without any new call and any further drop there is a way on in which all packets handed over so far and
those of the calls that wait are written, in order, all calls return and nothing is left in memory. Missing: as in
`C116_no_dead_end_tokio_partial`; and a packet taken from the queue by the dropped future is no longer handed over. -/
theorem C116_dropped_tokio_partial (clientId : Str) (calls : List Setter) (t : Nat) (ops : List TokioWireOp)
    (hopt : ∀ c, (Options.build clientId calls).connectPacket = .connect c → LegalConnect c)
    (hmax : (Options.build clientId calls).sendMaximum ≤ (Options.build clientId calls).receiveMaximum)
    (huse : Usable (tokioWireTrace (Options.build clientId calls) t ops))
    (hclients : ¬ ClientsGone (tokioWireTrace (Options.build clientId calls) t ops))
    (hlegal : ∀ q id p, .user (.called q id p) ∈ tokioWireTrace (Options.build clientId calls) t ops → LegalRequest q ∧
      ∀ r P, q = .disconnect r P → (Packet.disconnect ⟨r, P⟩).bodyWireLen ≤ 268435455) :
    ∃ (more : List TokioOp) (obs : List Obs), (∀ op ∈ more, onlyServesTokio op = true) ∧
      tokioWireTrace (Options.build clientId calls) t (ops ++ more.map .op) = tokioWireTrace (Options.build clientId calls) t ops ++ obs ∧
      isRunning (tokioWireTrace (Options.build clientId calls) t ops ++ obs) = true ∧
      waitingCalls (tokioWireTrace (Options.build clientId calls) t ops ++ obs) = 0 ∧
      ((tokioWire (Options.build clientId calls) t ops).net.sys.queue ++
        (tokioWire (Options.build clientId calls) t ops).net.sys.pending).Sublist (writtenIn obs) ∧
      waitingPackets (tokioWire (Options.build clientId calls) t (ops ++ more.map .op)).net.sys = 0 ∧
      keptMessages (tokioWire (Options.build clientId calls) t (ops ++ more.map .op)).net.sys = 0 ∧
      rememberedIds (tokioWire (Options.build clientId calls) t (ops ++ more.map .op)).net.sys = 0 := by
  obtain ⟨more, s', obs, h1, h2, h3, -, h4, h5, h6, h7, h8⟩ := (DeadEndDrop.tokioWireRuntime clientId calls hopt t).finishes hmax
    (tr := tokioWireTrace (Options.build clientId calls) t ops) (s := (tokioWire (Options.build clientId calls) t ops).net)
    ⟨ops, _, rfl, rfl⟩ ⟨huse, hclients, hlegal⟩
  change List TokioOp at more
  have h1 : (tokioWire (Options.build clientId calls) t ops).net.runOps more = (s', obs) := h1
  have e := TokioWire.runOps_op more (tokioWire (Options.build clientId calls) t ops)
  rw [h1] at e
  have e0 : history TokioWire.step (TokioWire.new (Options.build clientId calls) t) (ops ++ more.map .op) =
      (((tokioWire (Options.build clientId calls) t ops).runOps (more.map .op)).1,
        tokioWireTrace (Options.build clientId calls) t ops ++ ((tokioWire (Options.build clientId calls) t ops).runOps (more.map .op)).2) := by
    rw [history_append]
    rfl
  have e1 : (tokioWire (Options.build clientId calls) t (ops ++ more.map .op)).net = s' :=
    (congrArg (fun x => x.1.net) e0).trans e.1
  have e2 : tokioWireTrace (Options.build clientId calls) t (ops ++ more.map .op) = tokioWireTrace (Options.build clientId calls) t ops ++ obs :=
    (congrArg Prod.snd e0).trans (by rw [e.2])
  refine ⟨more, obs, h2, e2, ?_, ?_, h4, by rw [e1]; exact h6, by rw [e1]; exact h7, by rw [e1]; exact h8⟩
  · rw [← e2]
    have := (tokio_interrupted (Options.build clientId calls) t (ops ++ more.map .op)).2
    rw [show ((TokioWire.new (Options.build clientId calls) t).runOps (ops ++ more.map .op)).1.net = s' from e1] at this
    exact this.symm.trans h3.1
  · rw [← e2]
    have := (DeadEndDrop.tokio_more (Options.build clientId calls) t (ops ++ more.map .op)).2
    rw [show ((TokioWire.new (Options.build clientId calls) t).runOps (ops ++ more.map .op)).1.net = s' from e1] at this
    rw [show s'.sys.pending = [] from h5] at this
    exact this.symm

/-- `run` was dropped in the middle of a PUBLISH, and another message was handed over after that -/
def tokioBacklog : List TokioWireOp :=
  tokioTorn ++ ([.client (.call (demoPublish .exactlyOnce)), .client (.submit 0)] : List TokioOp).map .op
def smolBacklog : List SmolWireOp :=
  smolTorn ++ ([.client (.call (demoPublish .atMostOnce)), .client (.submit 0)] : List SmolOp).map .op

/-- the hypotheses can be met -/
example : resumeOptions.sendMaximum ≤ resumeOptions.receiveMaximum ∧ (∀ c, resumeOptions.connectPacket = .connect c → LegalConnect c) ∧
    Usable (tokioWireTrace resumeOptions 0 tokioBacklog) ∧ ¬ ClientsGone (tokioWireTrace resumeOptions 0 tokioBacklog) ∧
    (∀ q id p, .user (.called q id p) ∈ tokioWireTrace resumeOptions 0 tokioBacklog → LegalRequest q ∧
      ∀ r P, q = .disconnect r P → (Packet.disconnect ⟨r, P⟩).bodyWireLen ≤ 268435455) ∧
    .cancelled ∈ tokioWireTrace resumeOptions 0 tokioBacklog ∧ (tokioWire resumeOptions 0 tokioBacklog).net.sys.queue.length = 1 := by
  obtain ⟨c, x, id, p, id', p', h⟩ : ∃ c x id p id' p', tokioWireTrace resumeOptions 0 tokioBacklog = [.wrote c 1 1, .read (.connAck x),
      .delivered (.connAck x), .connected x 1, .started, .user (.called (demoPublish .exactlyOnce) id p), .user (.submitted p), .cancelled,
      .user (.called (demoPublish .exactlyOnce) id' p'), .user (.submitted p')] :=
    ⟨_, _, _, _, _, _, rfl⟩
  refine ⟨by decide, resumeOptions_legal, usable_of rfl, by rw [h]; simp [ClientsGone], fun q id p hm => ?_, by rw [h]; simp, rfl⟩
  rw [h] at hm
  simp only [List.mem_cons, Obs.user.injEq, reduceCtorEq, false_or, Event.called.injEq, or_false, List.not_mem_nil] at hm
  obtain ⟨rfl, -, -⟩ | ⟨rfl, -, -⟩ := hm
  all_goals
    exact ⟨⟨⟨by unfold NoNull; decide, by decide, by decide⟩, by decide, by decide, rfl, empty_legal _⟩, by intro r P h; cases h⟩

/-- **C116, smol (partial)**, after any history in which the futures of `run` and `connect` may also have been dropped anywhere.
Missing: as in `C116_dropped_tokio_partial`. -/
theorem C116_dropped_smol_partial (clientId : Str) (calls : List Setter) (checks : Bool) (t : Nat) (ops : List SmolWireOp)
    (hopt : ∀ c, (Options.build clientId calls).connectPacket = .connect c → LegalConnect c)
    (hmax : (Options.build clientId calls).sendMaximum ≤ (Options.build clientId calls).receiveMaximum)
    (huse : Usable (smolWireTrace checks (Options.build clientId calls) t ops))
    (hclients : ¬ ClientsGone (smolWireTrace checks (Options.build clientId calls) t ops))
    (hlegal : ∀ q id p, .user (.called q id p) ∈ smolWireTrace checks (Options.build clientId calls) t ops → LegalRequest q ∧
      ∀ r P, q = .disconnect r P → (Packet.disconnect ⟨r, P⟩).bodyWireLen ≤ 268435455) :
    ∃ (more : List SmolOp) (obs : List Obs), (∀ op ∈ more, onlyServesSmol op = true) ∧
      smolWireTrace checks (Options.build clientId calls) t (ops ++ more.map .op) =
        smolWireTrace checks (Options.build clientId calls) t ops ++ obs ∧
      isRunning (smolWireTrace checks (Options.build clientId calls) t ops ++ obs) = true ∧
      waitingCalls (smolWireTrace checks (Options.build clientId calls) t ops ++ obs) = 0 ∧
      ((smolWire checks (Options.build clientId calls) t ops).net.sys.queue ++
        (smolWire checks (Options.build clientId calls) t ops).net.sys.pending).Sublist (writtenIn obs) ∧
      waitingPackets (smolWire checks (Options.build clientId calls) t (ops ++ more.map .op)).net.sys = 0 ∧
      keptMessages (smolWire checks (Options.build clientId calls) t (ops ++ more.map .op)).net.sys = 0 ∧
      rememberedIds (smolWire checks (Options.build clientId calls) t (ops ++ more.map .op)).net.sys = 0 := by
  obtain ⟨more, s', obs, h1, h2, h3, -, h4, h5, h6, h7, h8⟩ := (DeadEndDrop.smolWireRuntime clientId calls hopt checks t).finishes hmax
    (tr := smolWireTrace checks (Options.build clientId calls) t ops) (s := (smolWire checks (Options.build clientId calls) t ops).net)
    ⟨ops, _, rfl, rfl⟩ ⟨huse, hclients, hlegal⟩
  change List SmolOp at more
  have h1 : (smolWire checks (Options.build clientId calls) t ops).net.runOps more = (s', obs) := h1
  have e := SmolWire.runOps_op more (smolWire checks (Options.build clientId calls) t ops)
  rw [h1] at e
  have e0 : history SmolWire.step (SmolWire.new checks (Options.build clientId calls) t) (ops ++ more.map .op) =
      (((smolWire checks (Options.build clientId calls) t ops).runOps (more.map .op)).1,
        smolWireTrace checks (Options.build clientId calls) t ops ++
          ((smolWire checks (Options.build clientId calls) t ops).runOps (more.map .op)).2) := by
    rw [history_append]
    rfl
  have e1 : (smolWire checks (Options.build clientId calls) t (ops ++ more.map .op)).net = s' :=
    (congrArg (fun x => x.1.net) e0).trans e.1
  have e2 : smolWireTrace checks (Options.build clientId calls) t (ops ++ more.map .op) =
      smolWireTrace checks (Options.build clientId calls) t ops ++ obs :=
    (congrArg Prod.snd e0).trans (by rw [e.2])
  refine ⟨more, obs, h2, e2, ?_, ?_, h4, by rw [e1]; exact h6, by rw [e1]; exact h7, by rw [e1]; exact h8⟩
  · rw [← e2]
    have := (smol_interrupted checks (Options.build clientId calls) t (ops ++ more.map .op)).2
    rw [show ((SmolWire.new checks (Options.build clientId calls) t).runOps (ops ++ more.map .op)).1.net = s' from e1] at this
    exact this.symm.trans h3.1
  · rw [← e2]
    have := (DeadEndDrop.smol_more checks (Options.build clientId calls) t (ops ++ more.map .op)).2.2
    rw [show ((SmolWire.new checks (Options.build clientId calls) t).runOps (ops ++ more.map .op)).1.net = s' from e1] at this
    rw [show s'.sys.pending = [] from h5] at this
    exact this.symm

/-- the hypotheses can be met -/
example : Usable (smolWireTrace true resumeOptions 0 smolBacklog) ∧ ¬ ClientsGone (smolWireTrace true resumeOptions 0 smolBacklog) ∧
    (∀ q id p, .user (.called q id p) ∈ smolWireTrace true resumeOptions 0 smolBacklog → LegalRequest q ∧
      ∀ r P, q = .disconnect r P → (Packet.disconnect ⟨r, P⟩).bodyWireLen ≤ 268435455) ∧
    .cancelled ∈ smolWireTrace true resumeOptions 0 smolBacklog ∧ (smolWire true resumeOptions 0 smolBacklog).net.sys.queue.length = 1 := by
  obtain ⟨c, x, p, p', h⟩ : ∃ c x p p', smolWireTrace true resumeOptions 0 smolBacklog = [.wrote c 1 1, .read (.connAck x),
      .delivered (.connAck x), .connected x 1, .started, .user (.called (demoPublish .atMostOnce) none p), .user (.submitted p),
      .cancelled, .user (.called (demoPublish .atMostOnce) none p'), .user (.submitted p')] := ⟨_, _, _, _, rfl⟩
  refine ⟨usable_of rfl, by rw [h]; simp [ClientsGone], fun q id p hm => ?_, by rw [h]; simp, rfl⟩
  rw [h] at hm
  simp only [List.mem_cons, Obs.user.injEq, reduceCtorEq, false_or, Event.called.injEq, or_false, List.not_mem_nil] at hm
  obtain ⟨rfl, -, -⟩ | ⟨rfl, -, -⟩ := hm
  all_goals
    exact ⟨⟨⟨by unfold NoNull; decide, by decide, by decide⟩, by decide, by decide, rfl, empty_legal _⟩, by intro r P h; cases h⟩

end Mqrstt.Props
