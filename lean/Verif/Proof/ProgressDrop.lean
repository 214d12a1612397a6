import Verif.Proof.DeadEndDrop
import Verif.Props.Dropped
/-!
# The outgoing branch is always ready, also after futures have been dropped (C57)
-/

namespace Mqrstt
namespace ProgressDrop
open Mqrstt.Spec Mqrstt.Props _root_.Spec

/-- the head of the queue can be recorded -/
theorem head {o : Options} {s : Sys} (h : ∃ sops, s = client o.config sops) (ha : s.alive = true) {p : Packet} {rest : List Packet}
    (hq : s.queue = p :: rest) (hid : ¬ BeyondReceiveMax o p) :
    ∃ s', s.step (.write true) = some (s', .written p) ∧ s'.queue = rest ∧ s'.alive = true := by
  obtain ⟨sops, e⟩ := h
  have hi := inv o.config sops
  rw [← e] at hi
  refine hi.write_head ha hq ?_
  rintro q id rfl hk
  exact Nat.le_of_not_lt fun hlt => hid ⟨id, hk, hlt⟩

theorem tokio (s : Tokio) (o : Options) (p : Packet) (rest : List Packet) (T : Times) (h : ∃ sops, s.sys = client o.config sops)
    (hr : s.run.isSome = true) (hl : s.network.isSome = true) (ha : s.sys.alive = true) (hq : s.sys.queue = p :: rest)
    (hT : T.ok s.now = true) (henc : ∃ e, p.asyncWrite = .ok e) (hid : ¬ BeyondReceiveMax o p) :
    ∃ s', s.step (.turn .outgoing 0 true T) = some (s', .wrote p T.fire T.first ::
        if p.isDisconnect then [.ended (.status .outgoingDisconnect)] else []) ∧ s'.sys.queue = rest ∧ s'.now = T.second := by
  obtain ⟨s', hs, hq', -⟩ := head h ha hq hid
  obtain ⟨e, henc⟩ := henc
  obtain ⟨aw, hr⟩ := Option.isSome_iff_exists.1 hr
  obtain ⟨c, hl⟩ := Option.isSome_iff_exists.1 hl
  simp only [Tokio.step, Tokio.turn, hr, hl, hT, ha, Bool.and_self, if_true, canLose_zero, Tokio.onOutgoing, hq,
    Tokio.writePacket, henc, hs]
  cases p.isDisconnect <;> exact ⟨_, rfl, hq', rfl⟩

theorem smol (s : Smol) (o : Options) (p : Packet) (rest : List Packet) (T : Times) (h : ∃ sops, s.sys = client o.config sops)
    (hr : s.running = true) (hl : s.network.isSome = true) (ha : s.sys.alive = true) (hq : s.sys.queue = p :: rest)
    (hT : T.ok s.now = true) (henc : ∃ e, p.write = .ok e) (hid : ¬ BeyondReceiveMax o p) :
    ∃ s', s.step (.turn .outgoing true T) = some (s', .wrote p T.fire T.first ::
        if p.isDisconnect then [.ended (.status .outgoingDisconnect)] else []) ∧ s'.sys.queue = rest ∧ s'.now = T.second := by
  obtain ⟨s', hs, hq', -⟩ := head h ha hq hid
  obtain ⟨e, henc⟩ := henc
  obtain ⟨c, hl⟩ := Option.isSome_iff_exists.1 hl
  simp only [Smol.step, Smol.turn, hr, hl, hT, ha, Bool.and_self, if_true, Smol.onOutgoing, hq,
    Smol.writePacket, henc, hs]
  cases p.isDisconnect <;> exact ⟨_, rfl, hq', rfl⟩

theorem sm_drop {s s' : SmolWire} {b : SmolBranch} {d : DropAt} {T : Times} {ob : List Obs}
    (h : s.drop b d T = some (s', ob)) : s'.net.running = false := by
  unfold SmolWire.drop SmolWire.dropRead SmolWire.dropOutgoing SmolWire.dropTimer at h
  simp only [SmolWire.cut] at h
  repeat' split at h
  all_goals first
    | (cases h; done)
    | (cases h; rfl)

theorem smol_ready (c : Bool) (o : Options) (t : Nat) (ops : List SmolWireOp) :
    ((SmolWire.new c o t).runOps ops).1.net.view.running = true → ((SmolWire.new c o t).runOps ops).1.net.view.live = true ∧
      ((SmolWire.new c o t).runOps ops).1.net.view.sys.alive = true := by
  have := history_induct SmolWire.step (fun s _ => s.net.Good ∧
    (s.net.view.running = true → s.net.view.live = true ∧ s.net.view.sys.alive = true))
    (s := SmolWire.new c o t) ⟨⟨rfl, by simp [SmolWire.new, Smol.new]⟩, fun h => Bool.noConfusion (show false = true from h)⟩ ?_ ops
  · exact this.2
  rintro s tr op s' ob ⟨h1, h2⟩ hs
  cases op with
  | op op =>
    simp only [SmolWire.step] at hs
    split at hs
    · rename_i hn
      cases hs
      obtain ⟨hv, hg⟩ := Smol.step_vstep h1 hn
      exact ⟨hg, hv.running_ready h2⟩
    · cases hs
  | drop b d T =>
    have hs : s.drop b d T = some (s', ob) := hs
    exact ⟨(SmolWire.drop_facts hs).good h1, fun h => Bool.noConfusion ((sm_drop hs).symm.trans h)⟩
  | dropConnect i d =>
    obtain ⟨i', obs', -, hn', -⟩ := SmolWire.dropConnect_failed hs
    obtain ⟨hv, hg⟩ := Smol.step_vstep h1 hn'
    exact ⟨hg, hv.running_ready h2⟩

theorem tokio_snoc {o : Options} {t : Nat} {ops : List TokioWireOp} {op : TokioWireOp} {s' : TokioWire} {obs : List Obs}
    (h : (tokioWire o t ops).step op = some (s', obs)) :
    tokioWire o t (ops ++ [op]) = s' ∧ tokioWireTrace o t (ops ++ [op]) = tokioWireTrace o t ops ++ obs := by
  have h' : TokioWire.step (history TokioWire.step (TokioWire.new o t) ops).1 op = some (s', obs) := h
  simp only [tokioWire, tokioWireTrace, TokioWire.runOps, history_append, history_one, h']
  exact ⟨trivial, trivial⟩

theorem smol_snoc {k : Bool} {o : Options} {t : Nat} {ops : List SmolWireOp} {op : SmolWireOp} {s' : SmolWire} {obs : List Obs}
    (h : (smolWire k o t ops).step op = some (s', obs)) :
    smolWire k o t (ops ++ [op]) = s' ∧ smolWireTrace k o t (ops ++ [op]) = smolWireTrace k o t ops ++ obs := by
  have h' : SmolWire.step (history SmolWire.step (SmolWire.new k o t) ops).1 op = some (s', obs) := h
  simp only [smolWire, smolWireTrace, SmolWire.runOps, history_append, history_one, h']
  exact ⟨trivial, trivial⟩

end ProgressDrop
end Mqrstt
