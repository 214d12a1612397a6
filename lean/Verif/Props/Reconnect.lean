import Verif.Proof.Reconnect
import Verif.Props.Bytes
import Verif.Props.Dropped
import Verif.Props.Recognised
/-! # C90: connecting again works after anything -/

namespace Mqrstt.Props
open Mqrstt Mqrstt.Spec _root_.Spec

/-- **C90**, the part that holds for tokio: after any history in which neither `connect` nor `run` has panicked, the network
was not dropped and there still is a client, while `run` is not executing: if the CONNECT goes out, the server answers with a
CONNACK that accepts, and the connection can be flushed, then `connect` succeeds and `run` can be started. Missing: that it
also succeeds after the last client is gone. -/
theorem C90_reconnect_tokio_partial (clientId : Str) (calls : List Setter) (t : Nat) (ops : List TokioOp) (i : TokioConnect)
    (c : ConnAck) (rest : Bytes)
    (hopt : ∀ c, (Options.build clientId calls).connectPacket = .connect c → LegalConnect c)
    (huse : Usable (tokioTrace (Options.build clientId calls) t ops))
    (hidle : isRunning (tokioTrace (Options.build clientId calls) t ops) = false)
    (hclients : ¬ ClientsGone (tokioTrace (Options.build clientId calls) t ops))
    (hclock : i.times.ok (tokio (Options.build clientId calls) t ops).now = true)
    (hio : i.connectOk = true ∧ i.flushOk = true) (hans : StreamPacket i.bytes (.connAck c) rest) (hc : c.reason = .success) :
    ∃ s' obs, (tokio (Options.build clientId calls) t ops).step (.connect i) = some (s', obs) ∧ Succeeds c obs ∧
      ∃ s'', s'.step .start = some (s'', [.started]) := by
  have hv := Tokio.vrun (Options.build clientId calls) t ops
  have ha : (tokio (Options.build clientId calls) t ops).sys.alive = true := hv.usable huse
  have hr : (tokio (Options.build clientId calls) t ops).run = none := by
    have : (tokio (Options.build clientId calls) t ops).run.isSome = false := hv.up.2.trans hidle
    simpa using this
  obtain ⟨sys, ps, hs⟩ : ∃ s' ps, (tokio (Options.build clientId calls) t ops).sys.step (.connAck c) = some (s', .connected c ps) :=
    hv.takes ha hclients hc
  have ha' := Sys.step_stays_alive hs ha (by simp) (by simp)
  have hw : Tokio.writePacket (tokio (Options.build clientId calls) t ops).options.connectPacket true = .ok () := by
    obtain ⟨-, bs, n, e, -⟩ := (sameOptions_fine hopt (tokio_options (Options.build clientId calls) t ops) rfl).written
    have e : (tokio (Options.build clientId calls) t ops).options.connectPacket.asyncWrite = .ok (bs, n) := e
    simp [Tokio.writePacket, e]
  obtain ⟨cn, hcn⟩ : ∃ cn, (tokio (Options.build clientId calls) t ops).options.connectPacket = .connect cn := ⟨_, rfl⟩
  have hb : Packet.asyncRead i.bytes = .ok (.connAck c, rest) := hans
  simp only [Tokio.step, Tokio.connect, hclock, ha, hr, Option.isNone_none, Bool.and_self, if_true, hio.1, hw, hb, hc,
    Tokio.established, Tokio.noteConnAck, hs, hio.2]
  refine ⟨_, _, rfl, ⟨cn, i.times.enter, i.times.fire, Tokio.writePackets i.resendOk i.times 0 ps, i.times.second, by simp [hcn],
    fun x hx => ?_⟩, ?_⟩
  · obtain ⟨p, rfl⟩ := Tokio.writePackets_wrote _ _ _ _ x hx
    exact ⟨_, _, _, rfl⟩
  · exact ⟨_, by simp only [ha', Bool.and_self, if_true]; rfl⟩

/-- **C90**, the part that holds for smol: the same, if the CONNACK arrives in good pieces (C51) and what the clients asked for
was legal (so that it can be sent again). -/
theorem C90_reconnect_smol_partial (clientId : Str) (calls : List Setter) (checks : Bool) (t : Nat) (ops : List SmolOp)
    (i : SmolConnect) (c : ConnAck) (first : UInt8) (len body : Bytes)
    (huse : Usable (smolTrace checks (Options.build clientId calls) t ops))
    (hidle : isRunning (smolTrace checks (Options.build clientId calls) t ops) = false)
    (hclients : ¬ ClientsGone (smolTrace checks (Options.build clientId calls) t ops))
    (hlegal : LegalUse clientId calls (smolTrace checks (Options.build clientId calls) t ops))
    (hclock : i.times.ok (smol checks (Options.build clientId calls) t ops).now = true)
    (hio : i.connectOk = true ∧ i.resendOk = true)
    (hv : IsVbi len) (hb : vbiValue len = body.length) (hp : BufferPacket (first :: (len ++ body)) (.connAck c) [])
    (hc : c.reason = .success) (hbr : Brings i.chunks (first :: (len ++ body)))
    (hg : GoodSplit (1 + len.length) body.length i.chunks) :
    ∃ s' obs, (smol checks (Options.build clientId calls) t ops).step (.connect i) = some (s', obs) ∧ Succeeds c obs ∧
      ∃ s'', s'.step .start = some (s'', [.started]) := by
  have hv' := Smol.vrun checks (Options.build clientId calls) t ops
  have ha : (smol checks (Options.build clientId calls) t ops).sys.alive = true := hv'.usable huse
  have hr : (smol checks (Options.build clientId calls) t ops).running = false := hv'.up.2.trans hidle
  obtain ⟨sys, ps, hs⟩ : ∃ s' ps, (smol checks (Options.build clientId calls) t ops).sys.step (.connAck c) =
    some (s', .connected c ps) := hv'.takes ha hclients hc
  have ha' := Sys.step_stays_alive hs ha (by simp) (by simp)
  have hre : Smol.writeAll ps i.resendOk = .ok () := by
    rw [hio.2]
    have hL : LegalSys (Options.build clientId calls) (smol checks (Options.build clientId calls) t ops).sys :=
      hv'.legal hlegal.requests
    exact Smol.writeAll_ok (hL.resent hs)
  have hw : Smol.writePacket (smol checks (Options.build clientId calls) t ops).options.connectPacket i.connectOk = .ok () := by
    rw [smol_options, hio.1]
    obtain ⟨⟨bs, e, -⟩, -⟩ := (sameOptions_fine hlegal.options (.refl _) rfl).written
    have e : (Options.build clientId calls).connectPacket.write = .ok bs := e
    simp [Smol.writePacket, e]
  obtain ⟨cn, hcn⟩ : ∃ cn, (smol checks (Options.build clientId calls) t ops).options.connectPacket = .connect cn := ⟨_, rfl⟩
  have hi := SmolStream.Incoming.of_frame hv hb hp
  obtain ⟨extra, he⟩ := hbr.whole
  have hrd := SmolStream.read_good (smol checks (Options.build clientId calls) t ops).checks hi (i.chunks.length + 1) [] i.chunks extra
    (Nat.le_refl _) hbr.nonempty (by simpa using he.symm) (fun n hn => SmolStream.cutsAt_nil (by simp) hbr.last hn)
    ((SmolStream.goodFrom_nil (by omega)).2 hg)
  simp only [Smol.step, Smol.connect, hclock, ha, hr, Bool.not_false, Bool.and_self, if_true, hw, hrd, hc,
    Smol.established, Smol.noteConnAck, hs, hre]
  refine ⟨_, _, rfl, ⟨cn, i.times.enter, i.times.fire, ps.map fun p => .wrote p i.times.fire i.times.first, i.times.second,
    by simp [hcn], ?_⟩, ?_⟩
  · intro x hx
    obtain ⟨p, -, rfl⟩ := List.mem_map.1 hx
    exact ⟨_, _, _, rfl⟩
  · exact ⟨_, by simp only [ha', Bool.and_self, if_true]; rfl⟩

/-- a message of QoS 1 is sent, then the server closes the connection without having acknowledged it -/
def tokioClosed : List TokioOp := tokioUp ++ sendNow (demoPublish .atLeastOnce) 2 ++ [.close, .turn .read 0 true (at' 3)]

/-- the hypotheses can be met, with something to send again -/
example : resumeOptions = Options.build ⟨[97], by decide⟩ [.keepAlive (fromSecs 10), .cleanStart false, .receiveMax 4, .sendMax 4] ∧
    Usable (tokioTrace resumeOptions 0 tokioClosed) ∧ isRunning (tokioTrace resumeOptions 0 tokioClosed) = false ∧
    ¬ ClientsGone (tokioTrace resumeOptions 0 tokioClosed) ∧ (at' 4).ok (tokio resumeOptions 0 tokioClosed).now = true ∧
    StreamPacket resumedConnAck (.connAck ⟨true, .success, .empty⟩) [] ∧
    (((tokio resumeOptions 0 tokioClosed).step (.connect ⟨true, resumedConnAck, false, fun _ => true, true, at' 4⟩)).map fun x =>
      (writtenIn x.2).map (·.type)) = some [.connect, .publish] := by
  refine ⟨rfl, usable_of rfl, rfl,
    fun hg => Bool.noConfusion (show false = true from (Tokio.vrun resumeOptions 0 tokioClosed).closed.mpr hg), rfl, rfl, rfl⟩

theorem smolUnacked_legal : LegalUse ⟨[97], by decide⟩ [.keepAlive (fromSecs 10), .cleanStart false, .receiveMax 4, .sendMax 4]
    (smolTrace true resumeOptions 0 smolUnacked) := by
  have e : ∃ c x p r, smolTrace true resumeOptions 0 smolUnacked = [.wrote c 1 1, .read (.connAck x), .delivered (.connAck x),
      .connected x 1, .started, .user (.called (.publish ⟨[97], by decide⟩ .atLeastOnce false [] .empty) (some 1) p),
      .user (.submitted p), .wrote p 2 2, .ended r] := ⟨_, _, _, _, rfl⟩
  obtain ⟨c, x, p, r, e⟩ := e
  refine ⟨resumeOptions_legal, fun q id p hm => ?_, fun q hm => ?_⟩
  · rw [e] at hm
    have hm : q = .publish ⟨[97], by decide⟩ .atLeastOnce false [] .empty := by simp at hm; exact hm.1
    subst hm
    exact ⟨⟨⟨(by unfold NoNull; decide : NoNull ⟨[97], by decide⟩), (by decide : (0x23 : UInt8) ∉ [97]),
      (by decide : (0x2B : UInt8) ∉ [97])⟩, fun h => (by cases h), fun h => (by cases h), rfl, empty_legal _⟩, by intro r P h; cases h⟩
  · rw [e] at hm
    have hm : q = .connAck x := by simpa using hm
    subst hm
    trivial

theorem threeParts_cuts {x y z : Bytes} {n : Nat} (h : IsCut [x, y, z] n) : n = x.length ∨ n = x.length + y.length := by
  obtain ⟨a, b, e, ha, hb, hn⟩ := h
  match a, e with
  | [], _ => exact absurd rfl ha
  | [_], e => simp at e; obtain ⟨rfl, -⟩ := e; simp at hn; omega
  | [_, _], e => simp at e; obtain ⟨rfl, rfl, -⟩ := e; simp at hn; omega
  | [_, _, _], e => simp at e; exact absurd e.2.2.2 hb
  | _ :: _ :: _ :: _ :: _, e => simp at e

/-- the same on smol, with the CONNACK in pieces of 1, 1 and 3 bytes -/
example : Usable (smolTrace true resumeOptions 0 smolUnacked) ∧ isRunning (smolTrace true resumeOptions 0 smolUnacked) = false ∧
    ¬ ClientsGone (smolTrace true resumeOptions 0 smolUnacked) ∧
    LegalUse ⟨[97], by decide⟩ [.keepAlive (fromSecs 10), .cleanStart false, .receiveMax 4, .sendMax 4]
      (smolTrace true resumeOptions 0 smolUnacked) ∧
    (at' 4).ok (smol true resumeOptions 0 smolUnacked).now = true ∧ IsVbi [3] ∧ vbiValue [3] = 3 ∧
    BufferPacket (0x20 :: ([3] ++ [1, 0, 0])) (.connAck ⟨true, .success, .empty⟩) [] ∧
    Brings [[0x20], [3], [1, 0, 0]] (0x20 :: ([3] ++ [1, 0, 0])) ∧ GoodSplit 2 3 [[0x20], [3], [1, 0, 0]] ∧
    (((smol true resumeOptions 0 smolUnacked).step (.connect ⟨true, [[0x20], [3], [1, 0, 0]], true, at' 4⟩)).map fun x =>
      (writtenIn x.2).map (·.type)) = some [.connect, .publish] := by
  refine ⟨usable_of rfl, rfl,
    fun hg => Bool.noConfusion (show false = true from (Smol.vrun true resumeOptions 0 smolUnacked).closed.mpr hg),
    smolUnacked_legal, rfl, ⟨[], 3, rfl, by decide, by simp, by unfold more; decide⟩, rfl, rfl,
    ⟨by decide, ⟨[], rfl⟩, fun n hn => ?_⟩, fun n hn => ?_, rfl⟩
  · rcases threeParts_cuts hn with rfl | rfl <;> decide
  · rcases threeParts_cuts hn with rfl | rfl
    · exact .inl (by decide)
    · exact .inr (.inl (by decide))

/-- a SUBSCRIBE is sent, the last client goes, the run is given up -/
def tokioOrphan : List TokioOp := tokioUp ++ sendNow askTopic 2 ++ [.client .dropClients, .cancel 0]
def smolOrphan : List SmolOp := smolUp ++ [.client (.call askTopic), .client (.submit 0), .turn .outgoing true (at' 2),
  .client .dropClients, .cancel]

/-- **C90 is false of the code**: when the last client is gone and a SUBSCRIBE was not acknowledged yet, `connect` fails with
an error of the handler although the server has accepted the connection. (The next `connect` succeeds.) -/
theorem C90_reconnect_violated :
    (Usable (tokioTrace resumeOptions 0 tokioOrphan) ∧ isRunning (tokioTrace resumeOptions 0 tokioOrphan) = false ∧
      (((tokio resumeOptions 0 tokioOrphan).step (.connect ⟨true, plainConnAck, false, fun _ => true, true, at' 3⟩)).map Prod.snd =
        some [.wrote resumeOptions.connectPacket 3 3, .read (.connAck ⟨false, .success, .empty⟩),
          .connectFailed (.handler (.packetIdChannelError 1))])) ∧
    (Usable (smolTrace true resumeOptions 0 smolOrphan) ∧ isRunning (smolTrace true resumeOptions 0 smolOrphan) = false ∧
      (((smol true resumeOptions 0 smolOrphan).step (.connect ⟨true, [plainConnAck], true, at' 3⟩)).map Prod.snd =
        some [.wrote resumeOptions.connectPacket 3 3, .read (.connAck ⟨false, .success, .empty⟩),
          .connectFailed (.handler (.packetIdChannelError 1))])) :=
  ⟨⟨usable_of rfl, rfl, rfl⟩, ⟨usable_of rfl, rfl, rfl⟩⟩

example : (((tokio resumeOptions 0 (tokioOrphan ++ [.connect ⟨true, plainConnAck, false, fun _ => true, true, at' 3⟩])).step
    (.connect ⟨true, plainConnAck, false, fun _ => true, true, at' 4⟩)).map Prod.snd =
      some [.wrote resumeOptions.connectPacket 4 4, .read (.connAck ⟨false, .success, .empty⟩),
        .delivered (.connAck ⟨false, .success, .empty⟩), .connected ⟨false, .success, .empty⟩ 4]) := rfl

end Mqrstt.Props
