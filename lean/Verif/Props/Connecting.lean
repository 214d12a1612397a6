import Verif.Proof.Connecting
import Verif.Props.KeepAlive
/-! # Connecting: refused connections and retransmission (C48, C52) -/

namespace Mqrstt.Props
open Mqrstt Mqrstt.Spec _root_.Spec

/-! ## C48 -/

/-- the error of `connect` carries the server's code, or the packet it sent instead of a CONNACK -/
def Carries (p : Packet) (e : ConnErr) : Prop :=
  match p with
  | .connAck c => e = .refused c.reason
  | p => e = .notConnAck p

/-- a CONNACK that accepts the connection -/
def AcceptsConnection (p : Packet) : Prop := ∃ c, p = .connAck c ∧ c.reason = .success

/-- **C48.** tokio: if the answer to CONNECT is anything but a CONNACK with the code "success", `connect` reports it and
nothing else happens: the handler is not called, and but for the clock the state is what it was. -/
theorem C48_refused_tokio (s s' : Tokio) (i : TokioConnect) (obs : List Obs) (p : Packet)
    (h : s.step (.connect i) = some (s', obs)) (hr : .read p ∈ obs) (hp : ¬ AcceptsConnection p) :
    s' = { s with now := i.times.second } ∧
      ∃ e, Carries p e ∧ obs = [.wrote s.options.connectPacket i.times.enter i.times.fire, .read p, .connectFailed e] := by
  simp only [Tokio.step, Tokio.connect] at h
  split at h
  · split at h
    · simp only [Option.some.injEq, Prod.mk.injEq] at h
      obtain ⟨-, rfl⟩ := h
      simp at hr
    · split at h
      · rename_i c rest _
        split at h
        · -- accepted: every packet read is this CONNACK
          rename_i hc
          exfalso
          have key : ∀ q, .read q ∈ obs → q = .connAck c := by
            intro q hq
            simp only [Tokio.established] at h
            split at h
            · split at h
              · simp only [Option.some.injEq, Prod.mk.injEq] at h
                obtain ⟨-, rfl⟩ := h
                simp at hq
                rcases hq with hq | hq
                · exact hq
                · exact absurd hq (Tokio.writePackets_no_read _ _ _ _ _)
              · simp only [Option.some.injEq, Prod.mk.injEq] at h
                obtain ⟨-, rfl⟩ := h
                simp at hq
                rcases hq with hq | hq
                · exact hq
                · exact absurd hq (Tokio.writePackets_no_read _ _ _ _ _)
            · simp only [Option.some.injEq, Prod.mk.injEq] at h
              obtain ⟨-, rfl⟩ := h
              simpa using hq
            · simp only [Option.some.injEq, Prod.mk.injEq] at h
              obtain ⟨-, rfl⟩ := h
              simpa using hq
            · simp at h
          exact hp ⟨c, key p hr, hc⟩
        · simp only [Option.some.injEq, Prod.mk.injEq] at h
          obtain ⟨rfl, rfl⟩ := h
          have hq : p = .connAck c := by simpa using hr
          subst hq
          exact ⟨rfl, _, rfl, rfl⟩
      · rename_i q rest hne _
        simp only [Option.some.injEq, Prod.mk.injEq] at h
        obtain ⟨rfl, rfl⟩ := h
        have hq : p = q := by simpa using hr
        subst hq
        refine ⟨rfl, _, ?_, rfl⟩
        cases p <;> first | rfl | exact (hne _ rfl).elim
      · simp only [Option.some.injEq, Prod.mk.injEq] at h
        obtain ⟨-, rfl⟩ := h
        simp at hr
      · split at h
        · simp only [Option.some.injEq, Prod.mk.injEq] at h
          obtain ⟨-, rfl⟩ := h
          simp at hr
        · simp at h
      · simp only [Option.some.injEq, Prod.mk.injEq] at h
        obtain ⟨-, rfl⟩ := h
        simp at hr
  · simp at h

/-- **C48.** The same for smol. -/
theorem C48_refused_smol (s s' : Smol) (i : SmolConnect) (obs : List Obs) (p : Packet)
    (h : s.step (.connect i) = some (s', obs)) (hr : .read p ∈ obs) (hp : ¬ AcceptsConnection p) :
    s' = { s with now := i.times.second } ∧
      ∃ e, Carries p e ∧ obs = [.wrote s.options.connectPacket i.times.enter i.times.fire, .read p, .connectFailed e] := by
  simp only [Smol.step, Smol.connect] at h
  split at h
  · split at h
    · simp only [Option.some.injEq, Prod.mk.injEq] at h
      obtain ⟨-, rfl⟩ := h
      simp at hr
    · split at h
      · rename_i c rest _
        split at h
        · rename_i hc
          exfalso
          have key : ∀ q, .read q ∈ obs → q = .connAck c := by
            intro q hq
            simp only [Smol.established] at h
            split at h
            · split at h
              · simp only [Option.some.injEq, Prod.mk.injEq] at h
                obtain ⟨-, rfl⟩ := h
                simpa using hq
              · simp only [Option.some.injEq, Prod.mk.injEq] at h
                obtain ⟨-, rfl⟩ := h
                simpa using hq
            · simp only [Option.some.injEq, Prod.mk.injEq] at h
              obtain ⟨-, rfl⟩ := h
              simpa using hq
            · simp only [Option.some.injEq, Prod.mk.injEq] at h
              obtain ⟨-, rfl⟩ := h
              simpa using hq
            · simp at h
          exact hp ⟨c, key p hr, hc⟩
        · simp only [Option.some.injEq, Prod.mk.injEq] at h
          obtain ⟨rfl, rfl⟩ := h
          have hq : p = .connAck c := by simpa using hr
          subst hq
          exact ⟨rfl, _, rfl, rfl⟩
      · rename_i q rest hne _
        simp only [Option.some.injEq, Prod.mk.injEq] at h
        obtain ⟨rfl, rfl⟩ := h
        have hq : p = q := by simpa using hr
        subst hq
        refine ⟨rfl, _, ?_, rfl⟩
        cases p <;> first | rfl | exact (hne _ rfl).elim
      · simp at h
      · simp only [Option.some.injEq, Prod.mk.injEq] at h
        obtain ⟨-, rfl⟩ := h
        simp at hr
      · simp only [Option.some.injEq, Prod.mk.injEq] at h
        obtain ⟨-, rfl⟩ := h
        simp at hr
      · simp at h
  · simp at h

/-- refused as "not authorized"; a PINGRESP as the answer -/
example : (∃ s', (Tokio.new netOptions 0).step (.connect ⟨true, [0x20, 3, 0, 0x87, 0], false, fun _ => true, true, at' 1⟩) =
      some (s', [.wrote netOptions.connectPacket 1 1, .read (.connAck ⟨false, .notAuthorized, .empty⟩),
        .connectFailed (.refused .notAuthorized)])) ∧
    (∃ s', (Smol.new true netOptions 0).step (.connect ⟨true, [[0xD0, 0]], true, at' 1⟩) =
      some (s', [.wrote netOptions.connectPacket 1 1, .read .pingResp, .connectFailed (.notConnAck .pingResp)])) :=
  ⟨⟨_, rfl⟩, ⟨_, rfl⟩⟩

/-! ## C52 -/

/-- **C52.** smol: `connect` succeeds only after everything the session has to retransmit was written, in order; and it
reports an error if the connection does not take it. -/
theorem C52_retransmission_smol (s s' : Smol) (i : SmolConnect) (obs : List Obs)
    (h : s.step (.connect i) = some (s', obs)) :
    (∀ c t, .connected c t ∈ obs → ∃ sys ps, s.sys.step (.connAck c) = some (sys, .connected c ps) ∧
      obs = [.wrote s.options.connectPacket i.times.enter i.times.fire, .read (.connAck c), .delivered (.connAck c)] ++
        ps.map (fun p => .wrote p i.times.fire i.times.first) ++ [.connected c t]) ∧
    (i.resendOk = false → ∀ c t, .connected c t ∉ obs) := by
  simp only [Smol.step, Smol.connect] at h
  split at h
  · split at h
    · simp only [Option.some.injEq, Prod.mk.injEq] at h
      obtain ⟨-, rfl⟩ := h
      simp
    · split at h
      · rename_i c rest _
        split at h
        · simp only [Smol.established] at h
          split at h
          · rename_i sys c' ps hs
            have hc' : c' = c := by
              rcases Sys.step_connAck_event hs with ⟨ps', e⟩ | e | ⟨_, e⟩ | e <;> cases e
              rfl
            subst hc'
            have hs : s.sys.step (.connAck c') = some (sys, .connected c' ps) := hs
            split at h
            · rename_i hw
              simp only [Option.some.injEq, Prod.mk.injEq] at h
              obtain ⟨-, rfl⟩ := h
              constructor
              · intro d t hd
                simp at hd
                obtain ⟨rfl, rfl⟩ := hd
                exact ⟨sys, ps, hs, by simp⟩
              · intro h0
                obtain ⟨e, he⟩ := Smol.writeAll_false ps
                rw [h0, he] at hw
                cases hw
            · simp only [Option.some.injEq, Prod.mk.injEq] at h
              obtain ⟨-, rfl⟩ := h
              simp
          · simp only [Option.some.injEq, Prod.mk.injEq] at h
            obtain ⟨-, rfl⟩ := h
            simp
          · simp only [Option.some.injEq, Prod.mk.injEq] at h
            obtain ⟨-, rfl⟩ := h
            simp
          · simp at h
        · simp only [Option.some.injEq, Prod.mk.injEq] at h
          obtain ⟨-, rfl⟩ := h
          simp
      · simp only [Option.some.injEq, Prod.mk.injEq] at h
        obtain ⟨-, rfl⟩ := h
        simp
      · simp at h
      · simp only [Option.some.injEq, Prod.mk.injEq] at h
        obtain ⟨-, rfl⟩ := h
        simp
      · simp only [Option.some.injEq, Prod.mk.injEq] at h
        obtain ⟨-, rfl⟩ := h
        simp
      · simp at h
  · simp at h

/-- **C52**, the part that holds for tokio: what is retransmitted is written in order, and all of it if every single write
works; and `connect` reports an error if flushing fails. Missing: the error of a single write is not reported. -/
theorem C52_retransmission_tokio_partial (s s' : Tokio) (i : TokioConnect) (obs : List Obs)
    (h : s.step (.connect i) = some (s', obs)) :
    (∀ c t, .connected c t ∈ obs → ∃ sys ps ws, s.sys.step (.connAck c) = some (sys, .connected c ps) ∧ ws.Sublist ps ∧
      obs = [.wrote s.options.connectPacket i.times.enter i.times.fire, .read (.connAck c), .delivered (.connAck c)] ++
        ws.map (fun p => .wrote p i.times.fire i.times.first) ++ [.connected c t] ∧
      ((∀ k, i.resendOk k = true) → (∀ p ∈ ps, ∃ bs, p.asyncWrite = .ok bs) → ws = ps)) ∧
    (i.flushOk = false → ∀ c t, .connected c t ∉ obs) := by
  simp only [Tokio.step, Tokio.connect] at h
  split at h
  · split at h
    · simp only [Option.some.injEq, Prod.mk.injEq] at h
      obtain ⟨-, rfl⟩ := h
      simp
    · split at h
      · rename_i c rest _
        split at h
        · simp only [Tokio.established] at h
          split at h
          · rename_i sys c' ps hs
            have hc' : c' = c := by
              rcases Sys.step_connAck_event hs with ⟨ps', e⟩ | e | ⟨_, e⟩ | e <;> cases e
              rfl
            subst hc'
            have hs : s.sys.step (.connAck c') = some (sys, .connected c' ps) := hs
            obtain ⟨ws, hsub, hws⟩ := Tokio.writePackets_wrotes i.resendOk i.times ps 0
            split at h
            · rename_i hf
              simp only [Option.some.injEq, Prod.mk.injEq] at h
              obtain ⟨-, rfl⟩ := h
              constructor
              · intro d t hd
                rw [hws] at hd
                simp [wrotes] at hd
                obtain ⟨rfl, rfl⟩ := hd
                refine ⟨sys, ps, ws, hs, hsub, by rw [hws]; simp [wrotes], ?_⟩
                intro hok hser
                rw [Tokio.writePackets_all _ _ _ _ hok hser] at hws
                have : Function.Injective (fun p => Obs.wrote p i.times.fire i.times.first) := by
                  intro a b h; simpa using h
                exact (List.map_inj_right (fun a b h => this h)).1 hws.symm
              · intro h0
                rw [h0] at hf
                cases hf
            · simp only [Option.some.injEq, Prod.mk.injEq] at h
              obtain ⟨-, rfl⟩ := h
              rw [hws]
              simp [wrotes]
          · simp only [Option.some.injEq, Prod.mk.injEq] at h
            obtain ⟨-, rfl⟩ := h
            simp
          · simp only [Option.some.injEq, Prod.mk.injEq] at h
            obtain ⟨-, rfl⟩ := h
            simp
          · simp at h
        · simp only [Option.some.injEq, Prod.mk.injEq] at h
          obtain ⟨-, rfl⟩ := h
          simp
      · simp only [Option.some.injEq, Prod.mk.injEq] at h
        obtain ⟨-, rfl⟩ := h
        simp
      · simp only [Option.some.injEq, Prod.mk.injEq] at h
        obtain ⟨-, rfl⟩ := h
        simp
      · split at h
        · simp only [Option.some.injEq, Prod.mk.injEq] at h
          obtain ⟨-, rfl⟩ := h
          simp
        · simp at h
      · simp only [Option.some.injEq, Prod.mk.injEq] at h
        obtain ⟨-, rfl⟩ := h
        simp
  · simp at h

/-- a QoS 1 publish was written and not acknowledged, the connection is lost -/
def tokioUnacked : List TokioOp :=
  tokioUp ++ [.client (.call (.publish ⟨[97], by decide⟩ .atLeastOnce false [] .empty)), .client (.submit 0),
    .turn .outgoing 0 true (at' 2), .turn .readError 0 true (at' 3)]
def smolUnacked : List SmolOp :=
  smolUp ++ [.client (.call (.publish ⟨[97], by decide⟩ .atLeastOnce false [] .empty)), .client (.submit 0),
    .turn .outgoing true (at' 2), .turn .readError true (at' 3)]

/-- a CONNACK that resumes the session -/
def resumedConnAck : Bytes := [0x20, 0x03, 0x01, 0x00, 0x00]

/-- the publish as it is sent again -/
def netResent : Packet := .publish ⟨true, .atLeastOnce, false, ⟨[97], by decide⟩, some 1, .empty, []⟩

/-- options that keep the session, with a few identifiers only -/
def resumeOptions : Options :=
  Options.build ⟨[97], by decide⟩ [.keepAlive (fromSecs 10), .cleanStart false, .receiveMax 4, .sendMax 4]

/-- when the retransmission can be written it is -/
example :
    (((tokio resumeOptions 0 tokioUnacked).step (.connect ⟨true, resumedConnAck, false, fun _ => true, true, at' 4⟩)).map Prod.snd =
      some [.wrote resumeOptions.connectPacket 4 4, .read (.connAck ⟨true, .success, .empty⟩),
        .delivered (.connAck ⟨true, .success, .empty⟩), .wrote netResent 4 4, .connected ⟨true, .success, .empty⟩ 4]) ∧
    (((smol true resumeOptions 0 smolUnacked).step (.connect ⟨true, [resumedConnAck], true, at' 4⟩)).map Prod.snd =
      some [.wrote resumeOptions.connectPacket 4 4, .read (.connAck ⟨true, .success, .empty⟩),
        .delivered (.connAck ⟨true, .success, .empty⟩), .wrote netResent 4 4, .connected ⟨true, .success, .empty⟩ 4]) :=
  ⟨rfl, rfl⟩

/-- **C52** is false for tokio: the retransmission cannot be written, `connect` reports success. (On smol it reports the
error.) -/
theorem C52_retransmission_violated :
    (((tokio resumeOptions 0 tokioUnacked).step (.connect ⟨true, resumedConnAck, false, fun _ => false, true, at' 4⟩)).map Prod.snd =
      some [.wrote resumeOptions.connectPacket 4 4, .read (.connAck ⟨true, .success, .empty⟩),
        .delivered (.connAck ⟨true, .success, .empty⟩), .connected ⟨true, .success, .empty⟩ 4]) ∧
    (((smol true resumeOptions 0 smolUnacked).step (.connect ⟨true, [resumedConnAck], false, at' 4⟩)).map Prod.snd =
      some [.wrote resumeOptions.connectPacket 4 4, .read (.connAck ⟨true, .success, .empty⟩),
        .delivered (.connAck ⟨true, .success, .empty⟩), .connectFailed .io]) :=
  ⟨rfl, rfl⟩

end Mqrstt.Props
