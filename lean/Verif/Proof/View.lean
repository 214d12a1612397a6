import Verif.Proof.Net
/-!
# One relation for both loops

`View` is what the tokio and the smol network have in common, `VStep` lists the ways in which either can make a step.
The properties of the loops are proved from `VStep`.
-/

namespace Mqrstt

inductive Flavor where
  | tokio | smol
  deriving DecidableEq

structure View where
  sys : Sys
  keepAlive : Nat
  perform : Bool
  lastAction : Nat
  await : Option Nat
  live : Bool
  running : Bool
  now : Nat

namespace View

def finish (v : View) : View := { v with live := false, running := false, await := none }

/-- a turn of the loop may happen -/
structure Ready (v : View) (T : Times) : Prop where
  running : v.running = true
  live : v.live = true
  alive : v.sys.alive = true
  times : T.ok v.now = true

/-- the values after a CONNACK -/
def afterConnAck (v : View) (c : ConnAck) (T : Times) : View :=
  let k := match c.serverKeepAlive with
    | some k => fromSecs k.toNat
    | none => v.keepAlive
  { v with now := T.second, lastAction := T.fire, keepAlive := k, perform := if k = 0 then false else v.perform }

end View

def wrotes (T : Times) (ps : List Packet) : List Obs := ps.map fun p => .wrote p T.fire T.first

/-- a packet that goes to the session -/
def Packet.forSession : Packet → Bool
  | .pingResp | .disconnect _ => false
  | _ => true

def shownObs (p : Packet) (shown : Bool) : List Obs := if shown then [.read p, .delivered p] else [.read p]

/-- errors of a single packet, as against those of `run` itself -/
def ConnErr.ofPacket (e : ConnErr) : Prop := e ≠ .noNetwork ∧ e ≠ .noOutgoingPacketSender

inductive VStep (fl : Flavor) (v : View) : List Obs → View → Prop where
  | client {op sys e} (h : op.ofClient = true) (hs : v.sys.step op = some (sys, e)) : VStep fl v [.user e] { v with sys := sys }
  | drop {sys e} (hr : v.running = false) (hs : v.sys.step .dropNetwork = some (sys, e)) :
      VStep fl v [.user e] { v with sys := sys, live := false }
  | noNetwork (hr : v.running = false) (ha : v.sys.alive = true) (hl : v.live = false) :
      VStep fl v [.ended (.error .noNetwork)] v
  | start (hr : v.running = false) (ha : v.sys.alive = true) (hl : v.live = true) :
      VStep fl v [.started] { v with running := true }
  | quiet : VStep fl v [] v
  | cancel (hr : v.running = true) (hl : v.live = true) :
      VStep fl v [.cancelled] { v with running := false, await := if fl = .tokio then none else v.await }
  | wait {T} (h : v.Ready T) : VStep fl v [] { v with now := T.second }
  | readPing {T} (h : v.Ready T) : VStep fl v [.read .pingResp, .delivered .pingResp]
      { v with now := T.second, await := none, lastAction := if fl = .smol then T.first else v.lastAction }
  | readPingFail {T e} (h : v.Ready T) (hf : fl = .smol) (he : e.ofPacket) :
      VStep fl v [.read .pingResp, .delivered .pingResp, .ended (.error e)] { v with now := T.second }.finish
  | readDisc {T d} (h : v.Ready T) :
      VStep fl v [.read (.disconnect d), .delivered (.disconnect d), .ended (.status .incomingDisconnect)]
        { v with now := T.second }.finish
  | accepted {T p sys reply shown} (h : v.Ready T) (hp : p.forSession = true)
      (hs : v.sys.step (.receive p) = some (sys, .received p reply shown)) :
      VStep fl v (shownObs p shown ++ wrotes T reply.toList)
        { v with now := T.second, sys := sys,
                 lastAction := if reply.isSome ∨ fl = .smol then T.first else v.lastAction }
  | acceptedFail {T p sys reply shown e} (h : v.Ready T) (hp : p.forSession = true) (he : e.ofPacket)
      (hs : v.sys.step (.receive p) = some (sys, .received p reply shown)) :
      VStep fl v (shownObs p shown ++ [.ended (.error e)]) { v with now := T.second, sys := sys }.finish
  | refusedPacket {T p sys e} (h : v.Ready T) (hp : p.forSession = true)
      (hs : v.sys.step (.receive p) = some (sys, .receivedError p e)) :
      VStep fl v [.read p, .ended (.error (.handler e))] { v with now := T.second, sys := sys }.finish
  | readPanic {T p sys} (h : v.Ready T) (hp : p.forSession = true)
      (hs : v.sys.step (.receive p) = some (sys, .panicked)) :
      VStep fl v [.read p, .ended .panicked] { v with now := T.second, sys := sys }.finish
  | failed {T e} (h : v.Ready T)
      (he : e ≠ .noNetwork ∧ (e = .noOutgoingPacketSender → v.sys.queue = [] ∧ v.sys.pool.closed = true)) : VStep fl v [.ended (.error e)] { v with now := T.second }.finish
  | crashed {T} (h : v.Ready T) :
      VStep fl v [.ended .panicked] { v with now := T.second, sys := v.sys.die }.finish
  | outFail {T p sys e} (h : v.Ready T) (he : e.ofPacket) (hs : v.sys.step (.write false) = some (sys, .writeFailed p)) :
      VStep fl v [.ended (.error e)] { v with now := T.second, sys := sys }.finish
  | outOk {T p sys} (h : v.Ready T) (hs : v.sys.step (.write true) = some (sys, .written p))
      (hd : p.isDisconnect = false) :
      VStep fl v [.wrote p T.fire T.first] { v with now := T.second, sys := sys, lastAction := T.first }
  | outDisc {T p sys} (h : v.Ready T) (hs : v.sys.step (.write true) = some (sys, .written p))
      (hd : p.isDisconnect = true) :
      VStep fl v [.wrote p T.fire T.first, .ended (.status .outgoingDisconnect)]
        { v with now := T.second, sys := sys, lastAction := T.first }.finish
  | outErr {T p sys e} (h : v.Ready T) (hs : v.sys.step (.write true) = some (sys, .writtenError p e)) :
      VStep fl v [.wrote p T.fire T.first, .ended (.error (.handler e))] { v with now := T.second, sys := sys }.finish
  | outPanic {T p rest sys} (h : v.Ready T) (hq : v.sys.queue = p :: rest)
      (hs : v.sys.step (.write true) = some (sys, .panicked)) :
      VStep fl v [.wrote p T.fire T.first, .ended .panicked] { v with now := T.second, sys := sys }.finish
  | pingReq {T} (h : v.Ready T) (hw : v.await = none) (hp : v.perform = true)
      (hd : v.lastAction + v.keepAlive ≤ T.fire) :
      VStep fl v [.wrote .pingReq T.fire T.first]
        { v with now := T.second, lastAction := T.first, await := some T.second }
  | timeout {T t} (h : v.Ready T) (hw : v.await = some t) (hd : t + v.keepAlive ≤ T.fire) :
      VStep fl v [.wrote keepAliveDisconnect T.fire T.first, .ended (.status .keepAliveTimeout)]
        { v with now := T.second }.finish
  | idleTimeout {T} (h : v.Ready T) (hf : fl = .smol) (hp : v.perform = false)
      (hd : T.enter + fromSecs 3600 ≤ T.fire) :
      VStep fl v [.wrote keepAliveDisconnect T.fire T.first, .ended (.status .keepAliveTimeout)]
        { v with now := T.second }.finish
  | connectFailed {T : Times} {obs e} (hr : v.running = false) (ha : v.sys.alive = true) (ht : T.ok v.now = true)
      (ho : obs = [] ∨ ∃ c a b, obs = [.wrote (.connect c) a b]) :
      VStep fl v (obs ++ [.connectFailed e]) { v with now := T.second }
  | refused {T : Times} {c cn a b} (hr : v.running = false) (ha : v.sys.alive = true) (ht : T.ok v.now = true)
      (hc : c.reason ≠ .success) :
      VStep fl v [.wrote (.connect cn) a b, .read (.connAck c), .connectFailed (.refused c.reason)]
        { v with now := T.second }
  | notConnAck {T : Times} {p cn a b} (hr : v.running = false) (ha : v.sys.alive = true) (ht : T.ok v.now = true)
      (hc : ∀ c, p ≠ .connAck c) :
      VStep fl v [.wrote (.connect cn) a b, .read p, .connectFailed (.notConnAck p)] { v with now := T.second }
  | connectCrashed {T : Times} {cn a b} (hr : v.running = false) (ha : v.sys.alive = true) (ht : T.ok v.now = true) :
      VStep fl v [.wrote (.connect cn) a b, .connectPanicked]
        { v with now := T.second, sys := v.sys.die, live := false }
  | established {T : Times} {cn a b} {c : ConnAck} {ps ws : List Packet} {sys}
      (hr : v.running = false) (ha : v.sys.alive = true) (ht : T.ok v.now = true)
      (hc : c.reason = .success) (hs : v.sys.step (.connAck c) = some (sys, .connected c ps))
      (hw : ws.Sublist ps) (hall : fl = .smol → ws = ps) :
      VStep fl v ([.wrote (.connect cn) a b, .read (.connAck c), .delivered (.connAck c)] ++
          (wrotes T ws ++ [.connected c T.second]))
        { v.afterConnAck c T with sys := sys, lastAction := T.second, live := true }
  | establishFail {T : Times} {cn a b e} {c : ConnAck} {ps ws : List Packet} {sys}
      (hr : v.running = false) (ha : v.sys.alive = true) (ht : T.ok v.now = true)
      (hc : c.reason = .success) (hs : v.sys.step (.connAck c) = some (sys, .connected c ps)) (hw : ws.Sublist ps)
      (hnone : fl = .smol → ws = []) :
      VStep fl v ([.wrote (.connect cn) a b, .read (.connAck c), .delivered (.connAck c)] ++
          (wrotes T ws ++ [.connectFailed e])) { v.afterConnAck c T with sys := sys }
  | establishErr {T : Times} {cn a b e} {c : ConnAck} {sys}
      (hr : v.running = false) (ha : v.sys.alive = true) (ht : T.ok v.now = true)
      (hc : c.reason = .success) (hs : v.sys.step (.connAck c) = some (sys, .connectError c e)) :
      VStep fl v [.wrote (.connect cn) a b, .read (.connAck c), .connectFailed (.handler e)]
        { v.afterConnAck c T with sys := sys }
  | establishPanic {T : Times} {cn a b} {c : ConnAck} {sys}
      (hr : v.running = false) (ha : v.sys.alive = true) (ht : T.ok v.now = true)
      (hc : c.reason = .success) (hs : v.sys.step (.connAck c) = some (sys, .panicked)) :
      VStep fl v [.wrote (.connect cn) a b, .read (.connAck c), .connectPanicked]
        { v.afterConnAck c T with sys := sys, live := false }

theorem VStep.cast {fl v o o' w w'} (h : VStep fl v o w) (ho : o = o') (hw : w = w') : VStep fl v o' w' := by
  subst ho hw; exact h

/-! ## events of the session -/

theorem Sys.step_receive_event {s s' : Sys} {p : Packet} {e : Event} (h : s.step (.receive p) = some (s', e)) :
    (∃ reply shown, e = .received p reply shown) ∨ (∃ er, e = .receivedError p er) ∨ e = .panicked := by
  simp only [Sys.step] at h
  split at h
  · split at h <;> (simp only [Option.some.injEq, Prod.mk.injEq] at h; obtain ⟨-, rfl⟩ := h; simp)
  · simp at h

theorem Sys.step_write_event {s s' : Sys} {ok : Bool} {e : Event} (h : s.step (.write ok) = some (s', e)) :
    ∃ p rest, s.queue = p :: rest ∧
      ((ok = true ∧ (e = .written p ∨ (∃ er, e = .writtenError p er) ∨ e = .panicked)) ∨
        (ok = false ∧ e = .writeFailed p)) := by
  simp only [Sys.step] at h
  split at h
  · split at h
    · simp at h
    · rename_i p rest hq
      refine ⟨p, rest, hq, ?_⟩
      cases ok
      · simp at h; simp [h.2.symm]
      · simp only [if_true] at h
        split at h <;> (simp only [Option.some.injEq, Prod.mk.injEq] at h; obtain ⟨-, rfl⟩ := h; simp)
  · simp at h

theorem Sys.step_connAck_event {s s' : Sys} {c : ConnAck} {e : Event} (h : s.step (.connAck c) = some (s', e)) :
    (∃ ps, e = .connected c ps) ∨ e = .notConnected c ∨ (∃ er, e = .connectError c er) ∨ e = .panicked := by
  simp only [Sys.step] at h
  split at h
  · split at h <;> (simp only [Option.some.injEq, Prod.mk.injEq] at h; obtain ⟨-, rfl⟩ := h; simp)
  · simp at h

end Mqrstt
