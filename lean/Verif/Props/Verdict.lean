import Verif.Proof.VerdictDrop
import Verif.Props.Calm
import Verif.Props.Reconnect
/-! # Only the network and the server decide what becomes of `connect` (C109) -/

namespace Mqrstt.Props
open Mqrstt Mqrstt.Spec _root_.Spec

/-- **C109, tokio (partial).** After any history with legal options, while the network exists, `run` is not executing and there is
a client: if what arrives is the beginning of a CONNACK `c` in MQTT's wire format and whatever follows it, then `connect` ends as
the connection and the server decide, and never for another reason. Missing: that a packet that cannot be sent again is noticed at
once (C52), and that it is the same after the last client is gone (C90). -/
theorem C109_verdict_tokio_partial (clientId : Str) (calls : List Setter) (t : Nat) (ops : List TokioOp) (i : TokioConnect)
    (c : ConnAck) (answer more : Bytes)
    (hopt : ∀ c, (Options.build clientId calls).connectPacket = .connect c → LegalConnect c)
    (huse : Usable (tokioTrace (Options.build clientId calls) t ops))
    (hidle : isRunning (tokioTrace (Options.build clientId calls) t ops) = false)
    (hclients : ¬ ClientsGone (tokioTrace (Options.build clientId calls) t ops))
    (hclock : i.times.ok (tokio (Options.build clientId calls) t ops).now = true)
    (hans : PacketSays (.connAck c) answer) (hb : i.bytes <+: answer ++ more) :
    Announces c ((tokio (Options.build clientId calls) t ops).step (.connect i))
      (verdict c i.connectOk (answer.isPrefixOf i.bytes) i.eof i.flushOk) := by
  have hv := Tokio.vrun (Options.build clientId calls) t ops
  have ha : (tokio (Options.build clientId calls) t ops).sys.alive = true := hv.usable huse
  have hr : (tokio (Options.build clientId calls) t ops).run = none := by
    have : (tokio (Options.build clientId calls) t ops).run.isSome = false := hv.up.2.trans hidle
    simpa using this
  exact VerdictDrop.tokio_announces _ clientId calls i c answer more hopt (tokio_options _ t ops) ha hr
    (fun _ hc => hv.takes ha hclients hc) hclock hans hb

/-- a CONNACK that refuses the connection -/
def refusing : Bytes := [0x20, 3, 0, 0x87, 0]

theorem resumed_said : PacketSays (.connAck ⟨true, .success, .empty⟩) resumedConnAck :=
  ⟨0x20, [3], _, rfl, rfl, oneByte 3 (by decide), 1, [0], rfl, rfl, by decide, noSection _⟩

theorem refusing_said : PacketSays (.connAck ⟨false, .notAuthorized, .empty⟩) refusing :=
  ⟨0x20, [3], _, rfl, rfl, oneByte 3 (by decide), 0, [0], rfl, rfl, by decide, noSection _⟩

/-- after a connection that was lost with a message unacknowledged: the CONNACK resumes the session; all of it has arrived, or only
three bytes and then the end of the stream, or just these; and a CONNACK that refuses -/
example : (∀ c, resumeOptions.connectPacket = .connect c → LegalConnect c) ∧ Usable (tokioTrace resumeOptions 0 tokioClosed) ∧
    isRunning (tokioTrace resumeOptions 0 tokioClosed) = false ∧ ¬ ClientsGone (tokioTrace resumeOptions 0 tokioClosed) ∧
    (at' 4).ok (tokio resumeOptions 0 tokioClosed).now = true ∧
    PacketSays (.connAck ⟨true, .success, .empty⟩) resumedConnAck ∧ PacketSays (.connAck ⟨false, .notAuthorized, .empty⟩) refusing ∧
    [0x20, 3, 1] <+: resumedConnAck ∧
    verdict ⟨true, .success, .empty⟩ true (resumedConnAck.isPrefixOf resumedConnAck) false true = .accepted ∧
    verdict ⟨true, .success, .empty⟩ true (resumedConnAck.isPrefixOf [0x20, 3, 1]) true true = .broken ∧
    verdict ⟨true, .success, .empty⟩ true (resumedConnAck.isPrefixOf [0x20, 3, 1]) false true = .waiting ∧
    verdict ⟨false, .notAuthorized, .empty⟩ true (refusing.isPrefixOf refusing) false true = .refused :=
  ⟨resumeOptions_legal, usable_of rfl, rfl,
    fun hg => Bool.noConfusion (show false = true from (Tokio.vrun resumeOptions 0 tokioClosed).closed.mpr hg), rfl, resumed_said,
    refusing_said, ⟨[0, 0], rfl⟩, rfl, rfl, rfl, rfl⟩

/-- **C109, smol (partial).** The same, if the CONNACK is divided only in good places (C51), also by the end of what has arrived, and
the clients were called legally. (1) When the CONNACK has arrived. (2) While a part of it is missing, and (3) when the stream ends
then. Missing: all other ways of splitting it. -/
theorem C109_verdict_smol_partial (clientId : Str) (calls : List Setter) (checks : Bool) (t : Nat) (ops : List SmolOp)
    (i : SmolConnect) (c : ConnAck) (first : UInt8) (len body : Bytes)
    (huse : Usable (smolTrace checks (Options.build clientId calls) t ops))
    (hidle : isRunning (smolTrace checks (Options.build clientId calls) t ops) = false)
    (hclients : ¬ ClientsGone (smolTrace checks (Options.build clientId calls) t ops))
    (hlegal : LegalUse clientId calls (smolTrace checks (Options.build clientId calls) t ops))
    (hclock : i.times.ok (smol checks (Options.build clientId calls) t ops).now = true)
    (hv : IsVbi len) (hb : vbiValue len = body.length) (hans : PacketSays (.connAck c) (first :: (len ++ body))) :
    (Brings i.chunks (first :: (len ++ body)) → GoodSplit (1 + len.length) body.length i.chunks →
      Announces c ((smol checks (Options.build clientId calls) t ops).step (.connect i))
        (verdict c i.connectOk true false i.resendOk)) ∧
    (∀ missing, Brings (i.chunks ++ [missing]) (first :: (len ++ body)) →
      GoodSplit (1 + len.length) body.length (i.chunks ++ [missing]) →
      Announces c ((smol checks (Options.build clientId calls) t ops).step (.connect i))
        (verdict c i.connectOk false false i.resendOk) ∧
      Announces c ((smol checks (Options.build clientId calls) t ops).step (.connect { i with chunks := i.chunks ++ [[]] }))
        (verdict c i.connectOk false true i.resendOk)) := by
  have hv' := Smol.vrun checks (Options.build clientId calls) t ops
  have ha : (smol checks (Options.build clientId calls) t ops).sys.alive = true := hv'.usable huse
  exact VerdictDrop.smol_announces _ clientId calls i c first len body hlegal.options (smol_options _ _ t ops) ha
    (hv'.up.2.trans hidle) (hv'.legal hlegal.requests) (fun _ hc => hv'.takes ha hclients hc) hclock hv hb hans

/-- the same story on smol; the CONNACK in pieces of 1, 1 and 3 bytes, of which the last is still missing or not -/
example : Usable (smolTrace true resumeOptions 0 smolUnacked) ∧ isRunning (smolTrace true resumeOptions 0 smolUnacked) = false ∧
    ¬ ClientsGone (smolTrace true resumeOptions 0 smolUnacked) ∧
    LegalUse ⟨[97], by decide⟩ [.keepAlive (fromSecs 10), .cleanStart false, .receiveMax 4, .sendMax 4]
      (smolTrace true resumeOptions 0 smolUnacked) ∧
    (at' 4).ok (smol true resumeOptions 0 smolUnacked).now = true ∧ IsVbi [3] ∧ vbiValue [3] = 3 ∧
    PacketSays (.connAck ⟨true, .success, .empty⟩) (0x20 :: ([3] ++ [1, 0, 0])) ∧
    Brings ([[0x20], [3]] ++ [[1, 0, 0]]) (0x20 :: ([3] ++ [1, 0, 0])) ∧ GoodSplit 2 3 ([[0x20], [3]] ++ [[1, 0, 0]]) ∧
    verdict ⟨true, .success, .empty⟩ true true false true = .accepted ∧
    verdict ⟨true, .success, .empty⟩ true false false true = .waiting := by
  refine ⟨usable_of rfl, rfl,
    fun hg => Bool.noConfusion (show false = true from (Smol.vrun true resumeOptions 0 smolUnacked).closed.mpr hg),
    smolUnacked_legal, rfl, (oneByte 3 (by decide)).1, (oneByte 3 (by decide)).2.1, resumed_said,
    ⟨by decide, ⟨[], rfl⟩, fun n hn => ?_⟩, fun n hn => ?_, rfl, rfl⟩
  · rcases threeParts_cuts hn with rfl | rfl <;> decide
  · rcases threeParts_cuts hn with rfl | rfl
    · exact .inl (by decide)
    · exact .inr (.inl (by decide))

/-- **C109 is false of the code**: with legal options and calls and a CONNACK in MQTT's wire format that accepts the connection,
`connect` does not end as the connection and the server decide. (1) smol: it panics if the CONNACK comes in pieces of 3, 1 and 1
bytes. (2) both: it fails if the last client is gone and a SUBSCRIBE was not acknowledged. (3) tokio: it succeeds although the
connection does not take the message that is sent again. -/
theorem C109_own_fault_violated :
    (∀ checks, (([[0x20, 3, 0], [0], [0]] : List Bytes).flatten = plainConnAck) ∧
      (((Smol.new checks resumeOptions 0).step (.connect ⟨true, [[0x20, 3, 0], [0], [0]], true, at' 1⟩)).map Prod.snd =
        some [.wrote resumeOptions.connectPacket 1 1, .connectPanicked])) ∧
    (verdict ⟨false, .success, .empty⟩ true true false true = .accepted ∧
      (((tokio resumeOptions 0 tokioOrphan).step (.connect ⟨true, plainConnAck, false, fun _ => true, true, at' 3⟩)).map Prod.snd =
        some [.wrote resumeOptions.connectPacket 3 3, .read (.connAck ⟨false, .success, .empty⟩),
          .connectFailed (.handler (.packetIdChannelError 1))]) ∧
      (((smol true resumeOptions 0 smolOrphan).step (.connect ⟨true, [plainConnAck], true, at' 3⟩)).map Prod.snd =
        some [.wrote resumeOptions.connectPacket 3 3, .read (.connAck ⟨false, .success, .empty⟩),
          .connectFailed (.handler (.packetIdChannelError 1))])) ∧
    (verdict ⟨true, .success, .empty⟩ true true false false = .broken ∧
      (((tokio resumeOptions 0 tokioUnacked).step (.connect ⟨true, resumedConnAck, false, fun _ => false, true, at' 4⟩)).map Prod.snd =
        some [.wrote resumeOptions.connectPacket 4 4, .read (.connAck ⟨true, .success, .empty⟩),
          .delivered (.connAck ⟨true, .success, .empty⟩), .connected ⟨true, .success, .empty⟩ 4])) ∧
    (∀ c, resumeOptions.connectPacket = .connect c → LegalConnect c) ∧ PacketSays (.connAck ⟨false, .success, .empty⟩) plainConnAck ∧
    PacketSays (.connAck ⟨true, .success, .empty⟩) resumedConnAck := by
  refine ⟨fun checks => ⟨rfl, ?_⟩, ⟨rfl, rfl, rfl⟩, ⟨rfl, rfl⟩, resumeOptions_legal, connAck_said.2, resumed_said⟩
  cases checks <;> rfl

end Mqrstt.Props
