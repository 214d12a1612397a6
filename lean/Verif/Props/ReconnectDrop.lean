import Verif.Proof.ReconnectDrop
import Verif.Props.VerdictDrop
import Verif.Props.Reconnect
/-! # C90: connecting again works after anything, dropped futures included -/

namespace Mqrstt.Props
open Mqrstt Mqrstt.Spec _root_.Spec

/-- **C90, tokio (partial)**, after any history in which the futures of `run` and `connect` may also have been dropped anywhere.
Missing: as in `C90_reconnect_tokio_partial`. -/
theorem C90_dropped_tokio_partial (clientId : Str) (calls : List Setter) (t : Nat) (ops : List TokioWireOp) (i : TokioConnect)
    (c : ConnAck) (rest : Bytes)
    (hopt : ∀ c, (Options.build clientId calls).connectPacket = .connect c → LegalConnect c)
    (huse : Usable (tokioWireTrace (Options.build clientId calls) t ops))
    (hidle : isRunning (tokioWireTrace (Options.build clientId calls) t ops) = false)
    (hclients : ¬ ClientsGone (tokioWireTrace (Options.build clientId calls) t ops))
    (hclock : i.times.ok (tokioWire (Options.build clientId calls) t ops).net.now = true)
    (hio : i.connectOk = true ∧ i.flushOk = true) (hans : StreamPacket i.bytes (.connAck c) rest) (hc : c.reason = .success) :
    ∃ s' obs, (tokioWire (Options.build clientId calls) t ops).step (.op (.connect i)) = some (s', obs) ∧ Succeeds c obs ∧
      ∃ s'', s'.step (.op .start) = some (s'', [.started]) := by
  obtain ⟨h1, -, h3⟩ := VerdictDrop.tokio_kept (Options.build clientId calls) t ops
  have hr : (tokioWire (Options.build clientId calls) t ops).net.run = none := by
    have : (tokioWire (Options.build clientId calls) t ops).net.run.isSome = false := (tokio_interrupted _ t ops).2.trans hidle
    simpa using this
  exact ReconnectDrop.tokio_wire (ReconnectDrop.tokio _ clientId calls i c rest hopt h3 (h1 huse) hr
    (VerdictDrop.tokio_takes _ t ops huse hclients hc) hclock hio hans hc)

/-- the hypotheses can be met: `run` was dropped in the middle of a message -/
example : Usable (tokioWireTrace resumeOptions 0 tokioTorn) ∧ isRunning (tokioWireTrace resumeOptions 0 tokioTorn) = false ∧
    (at' 4).ok (tokioWire resumeOptions 0 tokioTorn).net.now = true ∧
    StreamPacket resumedConnAck (.connAck ⟨true, .success, .empty⟩) [] ∧ (tokioWire resumeOptions 0 tokioTorn).net.network.isSome = true :=
  ⟨usable_of rfl, rfl, rfl, rfl, rfl⟩

/-- **C90, smol (partial)**, after any history in which the futures of `run` and `connect` may also have been dropped anywhere.
Missing: as in `C90_reconnect_smol_partial`. -/
theorem C90_dropped_smol_partial (clientId : Str) (calls : List Setter) (checks : Bool) (t : Nat) (ops : List SmolWireOp)
    (i : SmolConnect) (c : ConnAck) (first : UInt8) (len body : Bytes)
    (huse : Usable (smolWireTrace checks (Options.build clientId calls) t ops))
    (hidle : isRunning (smolWireTrace checks (Options.build clientId calls) t ops) = false)
    (hclients : ¬ ClientsGone (smolWireTrace checks (Options.build clientId calls) t ops))
    (hlegal : LegalUse clientId calls (smolWireTrace checks (Options.build clientId calls) t ops))
    (hclock : i.times.ok (smolWire checks (Options.build clientId calls) t ops).net.now = true)
    (hio : i.connectOk = true ∧ i.resendOk = true)
    (hv : IsVbi len) (hb : vbiValue len = body.length) (hp : BufferPacket (first :: (len ++ body)) (.connAck c) [])
    (hc : c.reason = .success) (hbr : Brings i.chunks (first :: (len ++ body)))
    (hg : GoodSplit (1 + len.length) body.length i.chunks) :
    ∃ s' obs, (smolWire checks (Options.build clientId calls) t ops).step (.op (.connect i)) = some (s', obs) ∧ Succeeds c obs ∧
      ∃ s'', s'.step (.op .start) = some (s'', [.started]) := by
  obtain ⟨h1, -⟩ := VerdictDrop.smol_kept checks (Options.build clientId calls) t ops
  obtain ⟨hL, -, ho⟩ := smol_wire_legalSys (clientId := clientId) (calls := calls) checks t ops hlegal.requests
  exact ReconnectDrop.smol_wire (ReconnectDrop.smol _ clientId calls i c first len body hlegal.options ho hL (h1 huse)
    ((smol_interrupted checks _ t ops).2.trans hidle) (VerdictDrop.smol_takes checks _ t ops huse hclients hc) hclock hio hv hb hp hc hbr hg)

/-- the hypotheses can be met: see the example beside `C109_dropped_smol_partial`; the CONNACK comes in one piece -/
example : Usable (smolWireTrace true resumeOptions 0 smolTorn) ∧ isRunning (smolWireTrace true resumeOptions 0 smolTorn) = false ∧
    (at' 4).ok (smolWire true resumeOptions 0 smolTorn).net.now = true ∧
    BufferPacket (0x20 :: ([3] ++ [1, 0, 0])) (.connAck ⟨true, .success, .empty⟩) [] ∧
    (smolWire true resumeOptions 0 smolTorn).buffer ≠ [] := by
  refine ⟨usable_of rfl, rfl, rfl, rfl, ?_⟩
  decide

end Mqrstt.Props
