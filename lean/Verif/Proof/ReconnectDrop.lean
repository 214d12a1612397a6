import Verif.Proof.VerdictDrop
/-!
# Connecting again after futures have been dropped (C90)
-/

namespace Mqrstt
namespace ReconnectDrop
open Mqrstt.Spec Mqrstt.Props _root_.Spec

/-- `connect` of an idle tokio network whose session takes the CONNACK -/
theorem tokio (s : Tokio) (clientId : Str) (calls : List Setter) (i : TokioConnect) (c : ConnAck) (rest : Bytes)
    (hopt : ∀ c, (Options.build clientId calls).connectPacket = .connect c → LegalConnect c)
    (hsame : Tokio.sameOptions (Options.build clientId calls) s.options) (ha : s.sys.alive = true) (hr : s.run = none)
    (htakes : ∃ s' ps, s.sys.step (.connAck c) = some (s', .connected c ps)) (hclock : i.times.ok s.now = true)
    (hio : i.connectOk = true ∧ i.flushOk = true) (hans : StreamPacket i.bytes (.connAck c) rest) (hc : c.reason = .success) :
    ∃ s' obs, s.step (.connect i) = some (s', obs) ∧ Succeeds c obs ∧ ∃ s'', s'.step .start = some (s'', [.started]) := by
  obtain ⟨sys, ps, hs⟩ := htakes
  have ha' := Sys.step_stays_alive hs ha (by simp) (by simp)
  have hw : Tokio.writePacket s.options.connectPacket true = .ok () := by
    obtain ⟨-, bs, n, e, -⟩ := (sameOptions_fine hopt hsame rfl).written
    have e : s.options.connectPacket.asyncWrite = .ok (bs, n) := e
    simp [Tokio.writePacket, e]
  obtain ⟨cn, hcn⟩ : ∃ cn, s.options.connectPacket = .connect cn := ⟨_, rfl⟩
  have hb : Packet.asyncRead i.bytes = .ok (.connAck c, rest) := hans
  simp only [Tokio.step, Tokio.connect, hclock, ha, hr, Option.isNone_none, Bool.and_self, if_true, hio.1, hw, hb, hc,
    Tokio.established, Tokio.noteConnAck, hs, hio.2]
  refine ⟨_, _, rfl, ⟨cn, i.times.enter, i.times.fire, Tokio.writePackets i.resendOk i.times 0 ps, i.times.second, by simp [hcn],
    fun x hx => ?_⟩, ?_⟩
  · obtain ⟨p, rfl⟩ := Tokio.writePackets_wrote _ _ _ _ x hx
    exact ⟨_, _, _, rfl⟩
  · exact ⟨_, by simp only [ha', Bool.and_self, if_true]; rfl⟩

/-- `connect` of an idle smol network whose session takes the CONNACK -/
theorem smol (s : Smol) (clientId : Str) (calls : List Setter) (i : SmolConnect) (c : ConnAck) (first : UInt8) (len body : Bytes)
    (hopt : ∀ c, (Options.build clientId calls).connectPacket = .connect c → LegalConnect c)
    (ho : s.options = Options.build clientId calls) (hL : LegalSys (Options.build clientId calls) s.sys)
    (ha : s.sys.alive = true) (hr : s.running = false)
    (htakes : ∃ s' ps, s.sys.step (.connAck c) = some (s', .connected c ps)) (hclock : i.times.ok s.now = true)
    (hio : i.connectOk = true ∧ i.resendOk = true)
    (hv : IsVbi len) (hb : vbiValue len = body.length) (hp : BufferPacket (first :: (len ++ body)) (.connAck c) [])
    (hc : c.reason = .success) (hbr : Brings i.chunks (first :: (len ++ body)))
    (hg : GoodSplit (1 + len.length) body.length i.chunks) :
    ∃ s' obs, s.step (.connect i) = some (s', obs) ∧ Succeeds c obs ∧ ∃ s'', s'.step .start = some (s'', [.started]) := by
  obtain ⟨sys, ps, hs⟩ := htakes
  have ha' := Sys.step_stays_alive hs ha (by simp) (by simp)
  have hre : Smol.writeAll ps i.resendOk = .ok () := by
    rw [hio.2]
    exact Smol.writeAll_ok (hL.resent hs)
  have hw : Smol.writePacket s.options.connectPacket i.connectOk = .ok () := by
    rw [ho, hio.1]
    obtain ⟨⟨bs, e, -⟩, -⟩ := (sameOptions_fine hopt (.refl _) rfl).written
    have e : (Options.build clientId calls).connectPacket.write = .ok bs := e
    simp [Smol.writePacket, e]
  obtain ⟨cn, hcn⟩ : ∃ cn, s.options.connectPacket = .connect cn := ⟨_, rfl⟩
  have hi := SmolStream.Incoming.of_frame hv hb hp
  obtain ⟨extra, he⟩ := hbr.whole
  have hrd := SmolStream.read_good s.checks hi (i.chunks.length + 1) [] i.chunks extra
    (Nat.le_refl _) hbr.nonempty (by simpa using he.symm) (fun n hn => SmolStream.cutsAt_nil (by simp) hbr.last hn)
    ((SmolStream.goodFrom_nil (by omega)).2 hg)
  simp only [Smol.step, Smol.connect, hclock, ha, hr, Bool.not_false, Bool.and_self, if_true, hw, hrd, hc,
    Smol.established, Smol.noteConnAck, hs, hre]
  refine ⟨_, _, rfl, ⟨cn, i.times.enter, i.times.fire, ps.map fun p => .wrote p i.times.fire i.times.first, i.times.second,
    by simp [hcn], ?_⟩, ?_⟩
  · intro x hx
    obtain ⟨p, -, rfl⟩ := List.mem_map.1 hx
    exact ⟨_, _, _, rfl⟩
  · exact ⟨_, by simp only [ha', Bool.and_self, if_true]; rfl⟩

theorem tokio_wire {s : TokioWire} {i : TokioConnect} {c : ConnAck}
    (h : ∃ s' obs, s.net.step (.connect i) = some (s', obs) ∧ Succeeds c obs ∧ ∃ s'', s'.step .start = some (s'', [.started])) :
    ∃ s' obs, s.step (.op (.connect i)) = some (s', obs) ∧ Succeeds c obs ∧ ∃ s'', s'.step (.op .start) = some (s'', [.started]) := by
  obtain ⟨n, obs, h1, h2, n', h3⟩ := h
  exact ⟨⟨n, TokioWire.advance s.wire (.connect i) obs⟩, obs, by simp only [TokioWire.step, h1], h2,
    ⟨n', TokioWire.advance (TokioWire.advance s.wire (.connect i) obs) .start [.started]⟩, by simp only [TokioWire.step, h3]⟩

theorem smol_wire {s : SmolWire} {i : SmolConnect} {c : ConnAck}
    (h : ∃ s' obs, s.net.step (.connect i) = some (s', obs) ∧ Succeeds c obs ∧ ∃ s'', s'.step .start = some (s'', [.started])) :
    ∃ s' obs, s.step (.op (.connect i)) = some (s', obs) ∧ Succeeds c obs ∧ ∃ s'', s'.step (.op .start) = some (s'', [.started]) := by
  obtain ⟨n, obs, h1, h2, n', h3⟩ := h
  refine ⟨_, obs, by simp only [SmolWire.step, h1]; rfl, h2, _, by simp only [SmolWire.step, h3]; rfl⟩

end ReconnectDrop
end Mqrstt
