import Verif.Proof.KeepAlive
import Verif.Props.Network
/-!
# Keep-alive (C40-C43)

Times are nanoseconds. `IsTraceOf configured tr`: `tr` was observed of a network whose configured keep-alive interval is
`configured`. The interval in force (`ka`) is computed from the answers to CONNECT in the history; C43 is about how
it should be computed.
-/

namespace Mqrstt.Props
open Mqrstt Mqrstt.Spec _root_.Spec

/-! ## C40 -/

/-- **C40.** A PINGREQ is written only during `run`, with keep-alive on, an interval that is not zero, no unanswered
PINGREQ on this run, and not before the interval has passed since the last activity. -/
theorem C40_ping_only_when_due (configured : Nat) (tr pre post : List Obs) (a b : Nat) (h : IsTraceOf configured tr)
    (e : tr = pre ++ .wrote .pingReq a b :: post) :
    isRunning pre = true ∧ (ka configured pre).on = true ∧ (ka configured pre).interval ≠ 0 ∧ unanswered pre = false ∧
      lastActivity pre + (ka configured pre).interval ≤ a := by
  obtain ⟨fl, o, t, v, hv, rfl⟩ := h.vrun
  obtain ⟨v1, v2, tr1, o1, o2, tr2, h1, h2, -, rfl, -⟩ := hv.split e
  obtain ⟨rfl, hr, hl, hw, hp, hd⟩ := pingReq_step h1.users h2
  rw [List.append_nil, ← h1.ka]
  refine ⟨h1.up.2.symm.trans hr, hp, h1.interval_pos hl hp, h1.waits.await hw, ?_⟩
  have := h1.acts.last hl
  have : lastActivity tr1 ≤ v1.lastAction := this
  simp only [View.ka]
  omega

/-- **C40.** With keep-alive zero none is ever written: not while the interval in force is zero, in particular never if it
is configured as zero and no server asks for another one. -/
theorem C40_zero_never_pings (configured : Nat) (tr pre post : List Obs) (a b : Nat) (h : IsTraceOf configured tr)
    (hz : (ka configured pre).interval = 0) : tr ≠ pre ++ .wrote .pingReq a b :: post :=
  fun e => (C40_ping_only_when_due configured tr pre post a b h e).2.2.1 hz

/-- seconds -/
def sec (n : Nat) : Nat := n * 1000000000

/-- connected at 1 ns, a ping when 10 s have passed, its answer, another ping -/
def tokioPings : List TokioOp :=
  tokioUp ++ [.turn .timer 0 true (at' (sec 10 + 1)), .arrive [0xD0, 0], .turn .read 0 true (at' (sec 11)),
    .turn .timer 0 true (at' (sec 20)), .turn .timer 0 true (at' (sec 20 + 1))]

example : tokioTrace netOptions 0 tokioPings = tokioTrace netOptions 0 tokioUp ++
    [.wrote .pingReq (sec 10 + 1) (sec 10 + 1), .read .pingResp, .delivered .pingResp,
      .wrote .pingReq (sec 20 + 1) (sec 20 + 1)] := rfl

/-! ## C41 -/

/-- **C41.** tokio: a keep-alive timeout is reported only if it is justified. -/
theorem C41_timeout_justified_tokio (o : Options) (t : Nat) (ops : List TokioOp) (pre post : List Obs)
    (e : tokioTrace o t ops = pre ++ .ended (.status .keepAliveTimeout) :: post) : TimeoutJustified o.keepAlive pre :=
  timeout_justified (Tokio.vrun o t ops) e (.inl rfl)

/-- **C41**, the part that holds for smol: with keep-alive on and if the future of `run` has never been dropped. -/
theorem C41_timeout_justified_smol_partial (checks : Bool) (o : Options) (t : Nat) (ops : List SmolOp) (pre post : List Obs)
    (e : smolTrace checks o t ops = pre ++ .ended (.status .keepAliveTimeout) :: post)
    (hcancel : .cancelled ∉ pre) (hon : (ka o.keepAlive pre).on = true) : TimeoutJustified o.keepAlive pre :=
  timeout_justified (Smol.vrun checks o t ops) e (.inr ⟨hcancel, hon⟩)

example : tokioTrace netOptions 0 (tokioUp ++ [.turn .timer 0 true (at' (sec 11)), .turn .timer 0 true (at' (sec 21))]) =
    tokioTrace netOptions 0 tokioUp ++ [.wrote .pingReq (sec 11) (sec 11),
      .wrote keepAliveDisconnect (sec 21) (sec 21), .ended (.status .keepAliveTimeout)] := rfl

example : smolTrace true netOptions 0 (smolUp ++ [.turn .timer true (at' (sec 11)), .turn .timer true (at' (sec 21))]) =
    smolTrace true netOptions 0 smolUp ++ [.wrote .pingReq (sec 11) (sec 11),
      .wrote keepAliveDisconnect (sec 21) (sec 21), .ended (.status .keepAliveTimeout)] := rfl

/-- the options without keep-alive -/
def quietOptions : Options := Options.build ⟨[97], by decide⟩ [.keepAlive 0]

/-- a timeout one hour after connecting without keep-alive -/
def smolHour : List SmolOp := smolUp ++ [.turn .timer true ⟨1, sec 3600 + 1, sec 3600 + 1, sec 3600 + 1⟩]

/-- a ping is unanswered when the future of `run` is dropped; on the next connection, a minute later, the timeout strikes at
once -/
def smolStale : List SmolOp :=
  smolUp ++ [.turn .timer true (at' (sec 11)), .cancel, .connect ⟨true, [plainConnAck], true, at' (sec 60)⟩, .start,
    .turn .timer true (at' (sec 60))]

/-- **C41** is false for smol: without keep-alive `run` ends with a keep-alive timeout after an hour of silence; and after
a dropped run it reports one on a new connection on which no PINGREQ was written. -/
theorem C41_timeout_violated :
    (∃ pre, smolTrace true quietOptions 0 smolHour = pre ++ [.ended (.status .keepAliveTimeout)] ∧
      ∀ a b, .wrote .pingReq a b ∉ pre) ∧
    (∃ pre, smolTrace true netOptions 0 smolStale = pre ++ [.ended (.status .keepAliveTimeout)] ∧
      ¬ TimeoutJustified netOptions.keepAlive pre) := by
  constructor
  · refine ⟨[.wrote quietOptions.connectPacket 1 1, .read (.connAck ⟨false, .success, .empty⟩),
      .delivered (.connAck ⟨false, .success, .empty⟩), .connected ⟨false, .success, .empty⟩ 1, .started,
      .wrote keepAliveDisconnect (sec 3600 + 1) (sec 3600 + 1)], rfl, ?_⟩
    intro a b
    simp [quietOptions, Options.connectPacket, keepAliveDisconnect]
  · refine ⟨[.wrote netOptions.connectPacket 1 1, .read (.connAck ⟨false, .success, .empty⟩),
      .delivered (.connAck ⟨false, .success, .empty⟩), .connected ⟨false, .success, .empty⟩ 1, .started,
      .wrote .pingReq (sec 11) (sec 11), .cancelled,
      .wrote netOptions.connectPacket (sec 60) (sec 60), .read (.connAck ⟨false, .success, .empty⟩),
      .delivered (.connAck ⟨false, .success, .empty⟩), .connected ⟨false, .success, .empty⟩ (sec 60), .started,
      .wrote keepAliveDisconnect (sec 60) (sec 60)], rfl, ?_⟩
    intro h
    have := justified_unanswered h
    simp [unanswered, pingStep, netOptions, Options.connectPacket, keepAliveDisconnect] at this

/-! ## C42 -/

/-- **C42.** tokio: while `run` executes with keep-alive on, let nothing have been written since some moment (the clock
after `ops1`). Once the interval has passed since that moment, whatever was received in the meantime, the timer's turn
is due: it writes a PINGREQ, or if one is unanswered ends the run. -/
theorem C42_keeps_alive_tokio (o : Options) (t : Nat) (ops1 ops2 : List TokioOp) (tr2 : List Obs) (T : Times)
    (htr : tokioTrace o t (ops1 ++ ops2) = tokioTrace o t ops1 ++ tr2) (hquiet : ∀ x ∈ tr2, isWrote x = false)
    (hrun : isRunning (tokioTrace o t (ops1 ++ ops2)) = true)
    (hon : (ka o.keepAlive (tokioTrace o t (ops1 ++ ops2))).on = true)
    (hclock : T.ok (tokio o t (ops1 ++ ops2)).now = true)
    (hdue : (tokio o t ops1).now + (ka o.keepAlive (tokioTrace o t (ops1 ++ ops2))).interval ≤ T.enter) :
    ∃ s', (tokio o t (ops1 ++ ops2)).step (.turn .timer 0 true T) = some (s', [.wrote .pingReq T.fire T.first]) ∨
      (tokio o t (ops1 ++ ops2)).step (.turn .timer 0 true T) =
        some (s', [.wrote keepAliveDisconnect T.fire T.first, .ended (.status .keepAliveTimeout)]) := by
  have hv := Tokio.vrun o t (ops1 ++ ops2)
  obtain ⟨hlive, halive⟩ := hv.running (hv.up.2.trans hrun)
  have hsince : Since (tokio o t (ops1 ++ ops2)).view (tokio o t ops1).now := by
    have h1 := Tokio.vrun o t ops1
    have h2 := Tokio.vrun_from (tokio o t ops1) ops2
    have e := history_append Tokio.step (Tokio.new o t) ops1 ops2
    have e1 : tokio o t (ops1 ++ ops2) = ((tokio o t ops1).runOps ops2).1 := (congrArg Prod.fst e :)
    have e2 : tokioTrace o t (ops1 ++ ops2) = tokioTrace o t ops1 ++ ((tokio o t ops1).runOps ops2).2 :=
      (congrArg Prod.snd e :)
    rw [htr, List.append_cancel_left_eq] at e2
    rw [e1]
    rw [e2] at hquiet
    exact h2.since ⟨h1.clock.action, h1.clock.await⟩ hquiet (.inl rfl)
  have hk : (ka o.keepAlive (tokioTrace o t (ops1 ++ ops2))).interval = (tokio o t (ops1 ++ ops2)).options.keepAlive := by
    have := hv.ka; exact (congrArg Ka.interval this).symm
  have hp : (tokio o t (ops1 ++ ops2)).perform = true := by
    have := hv.ka; exact (congrArg Ka.on this).trans hon
  rw [hk] at hdue
  have hr : (tokio o t (ops1 ++ ops2)).run.isSome = true := hv.up.2.trans hrun
  exact Tokio.timer_due hr hlive halive hp hclock hsince hdue

/-- **C42**, the part that holds for smol: if nothing was received since that moment, either. Missing: packets that were
received in the meantime postpone the ping. -/
theorem C42_keeps_alive_smol_partial (checks : Bool) (o : Options) (t : Nat) (ops1 ops2 : List SmolOp) (tr2 : List Obs)
    (T : Times) (htr : smolTrace checks o t (ops1 ++ ops2) = smolTrace checks o t ops1 ++ tr2)
    (hquiet : ∀ x ∈ tr2, isWrote x = false) (hunheard : ∀ x ∈ tr2, isRead x = false)
    (hrun : isRunning (smolTrace checks o t (ops1 ++ ops2)) = true)
    (hon : (ka o.keepAlive (smolTrace checks o t (ops1 ++ ops2))).on = true)
    (hclock : T.ok (smol checks o t (ops1 ++ ops2)).now = true)
    (hdue : (smol checks o t ops1).now + (ka o.keepAlive (smolTrace checks o t (ops1 ++ ops2))).interval ≤ T.enter) :
    ∃ s', (smol checks o t (ops1 ++ ops2)).step (.turn .timer true T) = some (s', [.wrote .pingReq T.fire T.first]) ∨
      (smol checks o t (ops1 ++ ops2)).step (.turn .timer true T) =
        some (s', [.wrote keepAliveDisconnect T.fire T.first, .ended (.status .keepAliveTimeout)]) := by
  have hv := Smol.vrun checks o t (ops1 ++ ops2)
  obtain ⟨hlive, halive⟩ := hv.running (hv.up.2.trans hrun)
  have hsince : Since (smol checks o t (ops1 ++ ops2)).view (smol checks o t ops1).now := by
    have h1 := Smol.vrun checks o t ops1
    have h2 := Smol.vrun_from (smol checks o t ops1) (Smol.vrun_good checks o t ops1).2 ops2
    have e := history_append Smol.step (Smol.new checks o t) ops1 ops2
    have e1 : smol checks o t (ops1 ++ ops2) = ((smol checks o t ops1).runOps ops2).1 := (congrArg Prod.fst e :)
    have e2 : smolTrace checks o t (ops1 ++ ops2) = smolTrace checks o t ops1 ++ ((smol checks o t ops1).runOps ops2).2 :=
      (congrArg Prod.snd e :)
    rw [htr, List.append_cancel_left_eq] at e2
    rw [e1]
    rw [e2] at hquiet hunheard
    exact h2.since ⟨h1.clock.action, h1.clock.await⟩ hquiet (.inr hunheard)
  have hk : (ka o.keepAlive (smolTrace checks o t (ops1 ++ ops2))).interval = (smol checks o t (ops1 ++ ops2)).keepAlive := by
    have := hv.ka; exact (congrArg Ka.interval this).symm
  have hp : (smol checks o t (ops1 ++ ops2)).perform = true := by
    have := hv.ka; exact (congrArg Ka.on this).trans hon
  rw [hk] at hdue
  exact Smol.timer_due (hv.up.2.trans hrun) hlive halive hp hclock hsince hdue

/-- the hypotheses can be met: messages arrive at 5 s and 9 s, nothing is written, at 10 s the ping is due -/
example :
    let ops1 := tokioUp
    let ops2 : List TokioOp := [.arrive [0x30, 0x04, 0, 1, 97, 0], .turn .read 0 true (at' (sec 5)),
      .arrive [0x30, 0x04, 0, 1, 97, 0], .turn .read 0 true (at' (sec 9))]
    let m : Packet := .publish ⟨false, .atMostOnce, false, ⟨[97], by decide⟩, none, .empty, []⟩
    tokioTrace netOptions 0 (ops1 ++ ops2) = tokioTrace netOptions 0 ops1 ++
      [.read m, .delivered m, .read m, .delivered m] ∧
    isRunning (tokioTrace netOptions 0 (ops1 ++ ops2)) = true ∧ (tokio netOptions 0 ops1).now = 1 ∧
    (tokio netOptions 0 (ops1 ++ ops2)).now = sec 9 ∧
    (ka netOptions.keepAlive (tokioTrace netOptions 0 (ops1 ++ ops2))).on = true ∧
    (ka netOptions.keepAlive (tokioTrace netOptions 0 (ops1 ++ ops2))).interval = sec 10 := by
  exact ⟨rfl, rfl, rfl, rfl, rfl, rfl⟩

/-- messages at 9 s and 18 s -/
def smolBusy : List SmolOp := smolUp ++ [.turn (.read [0x30, 0x04, 0, 1, 97, 0]) true (at' (sec 9)),
  .turn (.read [0x30, 0x04, 0, 1, 97, 0]) true (at' (sec 18))]

/-- **C42** is false for smol: with an interval of 10 s, a client that has written nothing for 27 s pings only
then, if a message arrives every 9 s. (A server closes such a connection after 15 s.) -/
theorem C42_keeps_alive_violated :
    isRunning (smolTrace true netOptions 0 smolBusy) = true ∧
    (ka netOptions.keepAlive (smolTrace true netOptions 0 smolBusy)).on = true ∧
    (ka netOptions.keepAlive (smolTrace true netOptions 0 smolBusy)).interval = sec 10 ∧
    lastActivity (smolTrace true netOptions 0 smolBusy) = 1 ∧
    ∀ T : Times, T.fire < sec 28 → ∀ io, (smol true netOptions 0 smolBusy).step (.turn .timer io T) = none := by
  refine ⟨rfl, rfl, rfl, rfl, ?_⟩
  intro T hT io
  exact Smol.timer_early rfl rfl (Nat.lt_of_lt_of_eq hT (by rfl))

/-! ## C43 -/

/-- What is in force in the tokio network is what `ka` computes from the answers to CONNECT. -/
theorem C43_interval_in_force_tokio (o : Options) (t : Nat) (ops : List TokioOp) :
    (tokio o t ops).options.keepAlive = (ka o.keepAlive (tokioTrace o t ops)).interval ∧
    (tokio o t ops).perform = (ka o.keepAlive (tokioTrace o t ops)).on :=
  ⟨congrArg Ka.interval (Tokio.vrun o t ops).ka, congrArg Ka.on (Tokio.vrun o t ops).ka⟩

/-- The same for smol. -/
theorem C43_interval_in_force_smol (checks : Bool) (o : Options) (t : Nat) (ops : List SmolOp) :
    (smol checks o t ops).keepAlive = (ka o.keepAlive (smolTrace checks o t ops)).interval ∧
    (smol checks o t ops).perform = (ka o.keepAlive (smolTrace checks o t ops)).on :=
  ⟨congrArg Ka.interval (Smol.vrun checks o t ops).ka, congrArg Ka.on (Smol.vrun checks o t ops).ka⟩

/-- **C43**, the part that holds: at a successful connect with the answer `c`, where `old` is what was observed before that
answer. The interval is right if `c` names one, or no answer before did. Keep-alive is on exactly when the interval is
not zero, if this is the first answer, or if zero is neither configured nor was demanded by a server before. Missing: a
server's interval, and a zero, outlive the connection. -/
theorem C43_keep_alive_partial (configured : Nat) (tr pre post : List Obs) (c : ConnAck) (t : Nat)
    (h : IsTraceOf configured tr) (e : tr = pre ++ .connected c t :: post) :
    ∃ old new, pre = old ++ .read (.connAck c) :: new ∧ (∀ x ∈ new, isRead x = false) ∧
      (c.serverKeepAlive ≠ none ∨ (∀ c', .read (.connAck c') ∈ old → c'.serverKeepAlive = none) →
        (ka configured pre).interval = dueInterval configured c) ∧
      ((∀ c', .read (.connAck c') ∉ old) ∨
          configured ≠ 0 ∧ (∀ c', .read (.connAck c') ∈ old → c'.serverKeepAlive ≠ some 0) →
        (ka configured pre).on = decide ((ka configured pre).interval ≠ 0)) := by
  obtain ⟨fl, o, t', v, hv, rfl⟩ := h.vrun
  obtain ⟨v1, v2, tr1, o1, o2, tr2, h1, h2, -, rfl, -⟩ := hv.split e
  obtain ⟨hr, hc, cn, a, b, ws, T, rfl⟩ := connected_step h2
  refine ⟨tr1 ++ [.wrote (.connect cn) a b], .delivered (.connAck c) :: wrotes T ws, by simp, ?_, ?_⟩
  · intro x hx
    rcases List.mem_cons.1 hx with rfl | hx
    · rfl
    · simp [wrotes] at hx
      obtain ⟨p, -, rfl⟩ := hx
      rfl
  have hka : ka o.keepAlive (tr1 ++ ([.wrote (.connect cn) a b, .read (.connAck c), .delivered (.connAck c)] ++ wrotes T ws)) =
      kaStep (ka o.keepAlive tr1) (.read (.connAck c)) := by
    rw [ka_append, List.foldl_append, wrotes_ka]; rfl
  have hrun : (ka o.keepAlive tr1).running = false := by rw [← h1.ka]; exact hr
  have hmem : ∀ c', .read (.connAck c') ∈ tr1 ++ [.wrote (.connect cn) a b] ↔ .read (.connAck c') ∈ tr1 := by
    intro c'; simp
  simp only [hmem]
  rw [hka]
  simp only [kaStep, hrun, hc]
  constructor
  · intro hor
    cases hk : c.serverKeepAlive with
    | some k => simp [dueInterval, hk]
    | none =>
      have : (ka o.keepAlive tr1).interval = o.keepAlive := by
        apply ka_interval_none
        rcases hor with hor | hor
        · exact absurd hk hor
        · exact hor
      simp [dueInterval, hk, this]
  · intro hor
    have : (ka o.keepAlive tr1).on = true := by
      rcases hor with hor | ⟨h1, h2⟩
      · exact ka_on_first _ _ hor
      · exact (ka_on _ _ h1 h2).1
    simp [this]

/-- an answer with a keep-alive of `n` seconds -/
def keepAliveConnAck (n : UInt8) : Bytes := [0x20, 0x06, 0x00, 0x00, 0x03, 0x13, 0x00, n]

/-- 10 s are configured; the server asks for 5 s, closes, and on the next connection asks for 7 s -/
example : let ops : List TokioOp := [.connect ⟨true, keepAliveConnAck 5, false, fun _ => true, true, at' 1⟩, .start, .close,
      .turn .read 0 true (at' 2), .connect ⟨true, keepAliveConnAck 7, false, fun _ => true, true, at' 3⟩]
    ∃ pre c, tokioTrace netOptions 0 ops = pre ++ [.connected c 3] ∧ c.serverKeepAlive = some 7 ∧
      (ka netOptions.keepAlive pre).interval = sec 7 ∧ (ka netOptions.keepAlive pre).on = true := by
  intro ops
  exact ⟨(tokioTrace netOptions 0 ops).take 9, _, rfl, rfl, rfl, rfl⟩

/-- the server asks for 5 s, closes, and on the next connection asks for nothing -/
def tokioTwice : List TokioOp :=
  [.connect ⟨true, keepAliveConnAck 5, false, fun _ => true, true, at' 1⟩, .start, .close, .turn .read 0 true (at' 2),
    .connect ⟨true, plainConnAck, false, fun _ => true, true, at' 3⟩, .start, .turn .timer 0 true (at' (sec 5 + 3))]

/-- the server asks for none, closes, and on the next connection asks for 5 s -/
def tokioOff : List TokioOp :=
  [.connect ⟨true, keepAliveConnAck 0, false, fun _ => true, true, at' 1⟩, .start, .close, .turn .read 0 true (at' 2),
    .connect ⟨true, keepAliveConnAck 5, false, fun _ => true, true, at' 3⟩, .start]

def smolTwice : List SmolOp :=
  [.connect ⟨true, [keepAliveConnAck 5], true, at' 1⟩, .start, .turn (.read []) true (at' 2),
    .connect ⟨true, [plainConnAck], true, at' 3⟩, .start, .turn .timer true (at' (sec 5 + 3))]

def smolOff : List SmolOp :=
  [.connect ⟨true, [keepAliveConnAck 0], true, at' 1⟩, .start, .turn (.read []) true (at' 2),
    .connect ⟨true, [keepAliveConnAck 5], true, at' 3⟩, .start]

/-- **C43** is false of the code (both networks, 10 s configured): an interval of 5 s demanded on the first connection is
used on the second, where the server did not name one (a PINGREQ is written after 5 s); and after a connection without
keep-alive there is none on later ones, although the server asked for 5 s (tokio: the timer never fires; smol: it
fires only after an hour, and then ends the run). -/
theorem C43_keep_alive_violated :
    (∃ pre, tokioTrace netOptions 0 tokioTwice = pre ++ [.connected ⟨false, .success, .empty⟩ 3, .started,
        .wrote .pingReq (sec 5 + 3) (sec 5 + 3)]) ∧
    (∃ pre, smolTrace true netOptions 0 smolTwice = pre ++ [.connected ⟨false, .success, .empty⟩ 3, .started,
        .wrote .pingReq (sec 5 + 3) (sec 5 + 3)]) ∧
    (∃ pre c, tokioTrace netOptions 0 tokioOff = pre ++ [.connected c 3, .started] ∧ dueInterval netOptions.keepAlive c = sec 5 ∧
      ∀ lost io T, (tokio netOptions 0 tokioOff).step (.turn .timer lost io T) = none) ∧
    (∃ pre c, smolTrace true netOptions 0 smolOff = pre ++ [.connected c 3, .started] ∧
      dueInterval netOptions.keepAlive c = sec 5 ∧
      ∀ io T, T.fire < sec 3600 → (smol true netOptions 0 smolOff).step (.turn .timer io T) = none) := by
  refine ⟨⟨(tokioTrace netOptions 0 tokioTwice).take 9, rfl⟩, ⟨(smolTrace true netOptions 0 smolTwice).take 9, rfl⟩,
    ⟨(tokioTrace netOptions 0 tokioOff).take 9, _, rfl, rfl, ?_⟩,
    ⟨(smolTrace true netOptions 0 smolOff).take 9, _, rfl, rfl, ?_⟩⟩
  · intro lost io T
    exact Tokio.timer_off rfl rfl
  · intro io T hT
    exact Smol.timer_off rfl hT

end Mqrstt.Props
