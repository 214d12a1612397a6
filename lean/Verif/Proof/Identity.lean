import Verif.Spec.Identity
import Verif.Proof.Origin
import Verif.Proof.Connects
/-!
# Only CONNECT depends on who connects (C121)
-/

namespace Mqrstt
open Mqrstt.Spec

namespace Ident

theorem history {S O : Type} (step : S → O → Option (S × List Obs)) (I : S → Prop) (f : S → S) (h : Obs → Obs)
    (c : ∀ s o, I s → step (f s) o = (step s o).map fun r => (f r.1, r.2.map h))
    (pres : ∀ s o s' ob, I s → step s o = some (s', ob) → I s') (s : S) (hs : I s) (ops : List O) :
    Mqrstt.history step (f s) ops = (f (Mqrstt.history step s ops).1, (Mqrstt.history step s ops).2.map h) := by
  induction ops generalizing s with
  | nil => rfl
  | cons o ops ih =>
    simp only [Mqrstt.history, c s o hs]
    cases e : step s o with
    | none => exact ih s hs
    | some r => simp only [Option.map_some, ih r.1 (pres s o r.1 r.2 hs e), List.map_append]

theorem same_sys {o o' : Options} (h : SameManner o o') : o'.sys = o.sys := by
  unfold Options.sys Options.sendMaximum Options.receiveMaximum Options.maximumPacketSize
  rw [h.cleanStart, h.receiveMax, h.sendMax, h.maxPacketSize]

/-- no CONNECT waits to be sent -/
def Clear (s : Sys) : Prop := ∀ p, p ∈ s.pending ∨ p ∈ s.queue → ∀ c, p ≠ .connect c

theorem request_packet {q : Request} {id : Option UInt16} {p : Packet} (h : q.packet id = some p) (c : Connect) : p ≠ .connect c := by
  cases q <;> cases id <;> simp [Request.packet] at h <;> subst h <;> simp

theorem called_packet {s s' : Sys} {q : Request} {id : Option UInt16} {p : Packet} (h : s.step (.call q) = some (s', .called q id p)) :
    q.packet id = some p := by
  rcases Props.call_cases h with ⟨t, id', ht, hw⟩ | ⟨-, h', -⟩
  · obtain ⟨p', hp, ⟨e, -⟩ | ⟨-, _, e, -⟩⟩ := Props.callWith_cases hw
    · simp only [Event.called.injEq, true_and] at e
      obtain ⟨rfl, rfl⟩ := e
      exact hp
    · simp at e
  · simp at h'

theorem Clear.step {s s' : Sys} {op : Op} {e : Event} (h : Clear s) (hs : s.step op = some (s', e)) : Clear s' := by
  intro p hp
  rcases Sys.step_waiting hs p hp with hp | ⟨q, id, rfl, rfl⟩
  · exact h p hp
  · exact request_packet (called_packet hs)

theorem Clear.head {s : Sys} (h : Clear s) {p : Packet} {r : List Packet} (e : s.queue = p :: r) (c : Connect) : p ≠ .connect c :=
  h p (.inr (by simp [e])) c

theorem asIf_wrote {o' : Options} {p : Packet} (h : ∀ c, p ≠ .connect c) (a b : Nat) : asIf o' (.wrote p a b) = .wrote p a b := by
  cases p <;> first | rfl | exact absurd rfl (h _)

@[simp] theorem asIf_user (o' : Options) (e : Event) : asIf o' (.user e) = .user e := rfl
@[simp] theorem asIf_read (o' : Options) (p : Packet) : asIf o' (.read p) = .read p := rfl
@[simp] theorem asIf_delivered (o' : Options) (p : Packet) : asIf o' (.delivered p) = .delivered p := rfl
@[simp] theorem asIf_connected (o' : Options) (c : ConnAck) (t : Nat) : asIf o' (.connected c t) = .connected c t := rfl
@[simp] theorem asIf_connectFailed (o' : Options) (e : ConnErr) : asIf o' (.connectFailed e) = .connectFailed e := rfl
@[simp] theorem asIf_connectPanicked (o' : Options) : asIf o' .connectPanicked = .connectPanicked := rfl
@[simp] theorem asIf_started (o' : Options) : asIf o' .started = .started := rfl
@[simp] theorem asIf_ended (o' : Options) (e : End) : asIf o' (.ended e) = .ended e := rfl
@[simp] theorem asIf_cancelled (o' : Options) : asIf o' .cancelled = .cancelled := rfl
@[simp] theorem asIf_ping (o' : Options) (a b : Nat) : asIf o' (.wrote .pingReq a b) = .wrote .pingReq a b := rfl
@[simp] theorem asIf_bye (o' : Options) (a b : Nat) : asIf o' (.wrote keepAliveDisconnect a b) = .wrote keepAliveDisconnect a b := rfl

theorem answer_ne {p r : Packet} {b : Bool} (h : Sys.Answer p (some r) b) (c : Connect) : r ≠ .connect c := by
  cases h <;> simp

theorem resent_ne {p : Packet} (h : p.resent) (c : Connect) : p ≠ .connect c := by
  rintro rfl; exact h

theorem reply_ne {s s' : Sys} {p q r : Packet} {b : Bool} (h : s.step (.receive p) = some (s', .received q (some r) b)) (c : Connect) :
    r ≠ .connect c := by
  rcases Sys.step_receive_event h with ⟨_, _, e⟩ | ⟨_, e⟩ | e
  · simp only [Event.received.injEq] at e
    obtain ⟨rfl, rfl, rfl⟩ := e
    exact answer_ne (Sys.step_answer h) c
  · simp at e
  · simp at e

theorem again_ne {s s' : Sys} {c c' : ConnAck} {ps : List Packet} (h : s.step (.connAck c) = some (s', .connected c' ps)) :
    ∀ p ∈ ps, ∀ c, p ≠ .connect c := by
  rcases Sys.step_connAck_event h with ⟨_, e⟩ | e | ⟨_, e⟩ | e
  · simp only [Event.connected.injEq] at e
    obtain ⟨rfl, rfl⟩ := e
    exact fun p hp => resent_ne (Sys.step_connected_resent h p hp)
  all_goals simp at e

/-! ## tokio -/

variable (o o' : Options)

/-- `s` with the other configuration, apart from the keep-alive time -/
def tk (s : Tokio) : Tokio := { s with options := { o' with keepAlive := s.options.keepAlive } }

def tr (r : Option (Tokio × List Obs)) : Option (Tokio × List Obs) := r.map fun r => (tk o' r.1, r.2.map (asIf o'))

theorem tk_finish (s : Tokio) (ob : List Obs) (e : End) :
    some ((tk o' s).finish (ob.map (asIf o')) e) = tr o' (some (s.finish ob e)) := by
  simp [Tokio.finish, tk, tr]

theorem tk_onPacket (s : Tokio) (p : Packet) (io : Bool) (T : Times) : (tk o' s).onPacket p io T = tr o' (s.onPacket p io T) := by
  unfold Tokio.onPacket
  split
  · simp [tk, tr]
  · simp [Tokio.finish, tk, tr]
  · have e : (tk o' s).sys = s.sys := rfl
    rw [e]
    split
    · rename_i reply shown hs
      cases reply with
      | none => cases shown <;> simp [tk, tr]
      | some r =>
        have hr := asIf_wrote (o' := o') (reply_ne hs) T.fire T.first
        cases h : Tokio.writePacket r io <;> cases shown <;> simp [h, Tokio.finish, tk, tr, hr]
    · simp [Tokio.finish, tk, tr]
    · simp [Tokio.finish, tk, tr]
    · rfl

theorem tk_onRead (s : Tokio) (c : TokioConn) (io : Bool) (T : Times) : (tk o' s).onRead c io T = tr o' (s.onRead c io T) := by
  unfold Tokio.onRead
  split
  · rename_i p rest _
    exact tk_onPacket o' { s with network := some { c with input := rest } } p io T
  · exact tk_finish o' s [] _
  · split
    · exact tk_finish o' s [] _
    · rfl
  · exact tk_finish o' { s with sys := s.sys.die } [] _

theorem tk_onOutgoing (s : Tokio) (hc : Clear s.sys) (io : Bool) (T : Times) : (tk o' s).onOutgoing io T = tr o' (s.onOutgoing io T) := by
  unfold Tokio.onOutgoing
  have e : (tk o' s).sys = s.sys := rfl
  rw [e]
  split
  · split
    · exact tk_finish o' s [] _
    · rfl
  · rename_i p rest hq
    have hw := asIf_wrote (o' := o') (hc.head hq) T.fire T.first
    split
    · split
      · rename_i sys _ _
        exact tk_finish o' { s with sys := sys } [] _
      · rfl
    · split
      · dsimp only
        split <;> simp [Tokio.finish, tk, tr, hw]
      · simp [Tokio.finish, tk, tr, hw]
      · simp [Tokio.finish, tk, tr, hw]
      · rfl

theorem tk_onTimer (s : Tokio) (await : Option Nat) (io : Bool) (T : Times) : (tk o' s).onTimer await io T = tr o' (s.onTimer await io T) := by
  unfold Tokio.onTimer
  have e : (tk o' s).sleepOver await T = s.sleepOver await T := rfl
  have p : (tk o' s).perform = s.perform := rfl
  rw [e, p]
  split
  · cases await with
    | none =>
      dsimp only
      split
      · split <;> simp [Tokio.finish, tk, tr]
      · rfl
    | some t =>
      dsimp only
      split <;> simp [Tokio.finish, tk, tr]
  · rfl

theorem tk_turn (s : Tokio) (hc : Clear s.sys) (b : TokioBranch) (lost : Nat) (io : Bool) (T : Times) :
    (tk o' s).turn b lost io T = tr o' (s.turn b lost io T) := by
  cases hr : s.run with
  | none => simp [Tokio.turn, tk, hr, tr]
  | some a =>
    cases hn : s.network with
    | none => simp [Tokio.turn, tk, hr, hn, tr]
    | some c =>
      have r : (tk o' s).run = some a := hr
      have n : (tk o' s).network = some c := hn
      have k : T.ok (tk o' s).now = T.ok s.now := rfl
      have e : (tk o' s).sys = s.sys := rfl
      unfold Tokio.turn
      rw [r, n, hr, hn]
      dsimp only
      rw [k, e]
      split
      · cases b with
        | read => exact tk_onRead o' { s with now := T.second, run := some a, network := some c } c io T
        | readError => exact tk_finish o' { s with now := T.second, run := some a, network := some c } [] (.error .io)
        | outgoing =>
          dsimp only
          split
          · exact tk_onOutgoing o' { s with now := T.second, run := some a, network := some { c with input := c.input.drop lost } } hc io T
          · rfl
        | timer =>
          dsimp only
          split
          · exact tk_onTimer o' { s with now := T.second, run := some a, network := some { c with input := c.input.drop lost } } a io T
          · rfl
      · rfl

theorem tk_writePackets (ok : Nat → Bool) (T : Times) (i : Nat) (ps : List Packet) (h : ∀ p ∈ ps, ∀ c, p ≠ .connect c) :
    (Tokio.writePackets ok T i ps).map (asIf o') = Tokio.writePackets ok T i ps := by
  induction ps generalizing i with
  | nil => rfl
  | cons p ps ih =>
    simp only [Tokio.writePackets]
    have ih := fun i => ih i fun q hq => h q (.tail _ hq)
    split
    · rw [List.map_cons, ih, asIf_wrote (h p (.head _))]
    · exact ih _

theorem tk_established (s : Tokio) (c : ConnAck) (rest : Bytes) (i : TokioConnect) (ob : List Obs) :
    (tk o' s).established c rest i (ob.map (asIf o')) = tr o' (s.established c rest i ob) := by
  have n : (tk o' s).noteConnAck c i.times.fire = tk o' (s.noteConnAck c i.times.fire) := rfl
  unfold Tokio.established
  dsimp only
  rw [n]
  have e : (tk o' (s.noteConnAck c i.times.fire)).sys = (s.noteConnAck c i.times.fire).sys := rfl
  rw [e]
  generalize s.noteConnAck c i.times.fire = t
  split
  · rename_i ps hs
    have hw := tk_writePackets o' i.resendOk i.times 0 ps (again_ne hs)
    split <;> simp [tk, tr, hw]
  · simp [tk, tr]
  · simp [tk, tr]
  · rfl

theorem asIf_connect (p : Options) (a b : Nat) :
    asIf o' (.wrote p.connectPacket a b) = .wrote { o' with keepAlive := p.keepAlive }.connectPacket a b := rfl

/-! ### whether CONNECT can be encoded does not depend on the keep-alive time -/

theorem awr_ok (x y : AWr) : (∃ b, x ++ y = .ok b) ↔ (∃ b, x = .ok b) ∧ ∃ b, y = .ok b := by
  rcases x with e | ⟨a, n⟩ <;> rcases y with e | ⟨b, m⟩ <;> simp [HAppend.hAppend, AWr.append]

theorem wr_ok (x y : Wr) : (∃ b, x ++ y = .ok b) ↔ (∃ b, x = .ok b) ∧ ∃ b, y = .ok b := by
  rcases x with e | a <;> rcases y with e | b <;> simp [HAppend.hAppend, Wr.append]

theorem async_keepAlive {p : Options} (k : Nat) (h : ∃ b, p.connectPacket.asyncWrite = .ok b) :
    ∃ b, { p with keepAlive := k }.connectPacket.asyncWrite = .ok b := by
  simp only [Packet.asyncWrite, Options.connectPacket, Packet.bodyAsyncWrite, Connect.asyncWrite, awr_ok] at h ⊢
  obtain ⟨⟨-, h2⟩, ⟨⟨⟨⟨-, h3⟩, -⟩, h4⟩, -⟩, -⟩ := h
  exact ⟨⟨⟨_, rfl⟩, h2⟩, ⟨⟨⟨⟨⟨_, rfl⟩, h3⟩, ⟨_, rfl⟩⟩, h4⟩, ⟨_, rfl⟩⟩, ⟨_, rfl⟩⟩

theorem sync_keepAlive {p : Options} (k : Nat) (h : ∃ b, p.connectPacket.write = .ok b) :
    ∃ b, { p with keepAlive := k }.connectPacket.write = .ok b := by
  simp only [Packet.write, Options.connectPacket, Packet.bodyWrite, Connect.write, wr_ok] at h ⊢
  obtain ⟨⟨-, h2⟩, ⟨⟨⟨⟨-, h3⟩, -⟩, h4⟩, -⟩, -⟩ := h
  exact ⟨⟨⟨_, rfl⟩, h2⟩, ⟨⟨⟨⟨⟨_, rfl⟩, h3⟩, ⟨_, rfl⟩⟩, h4⟩, ⟨_, rfl⟩⟩, ⟨_, rfl⟩⟩

theorem tokio_writePacket {p : Packet} (h : ∃ b, p.asyncWrite = .ok b) (io : Bool) :
    Tokio.writePacket p io = if io then .ok () else .error .io := by
  obtain ⟨b, h⟩ := h
  simp [Tokio.writePacket, h]

theorem smol_writePacket {p : Packet} (h : ∃ b, p.write = .ok b) (io : Bool) :
    Smol.writePacket p io = if io then .ok () else .error .io := by
  obtain ⟨b, h⟩ := h
  simp [Smol.writePacket, h]

theorem tk_connect (s : Tokio) (h : ∃ b, s.options.connectPacket.asyncWrite = .ok b)
    (h' : ∃ b, o'.connectPacket.asyncWrite = .ok b) (i : TokioConnect) : (tk o' s).connect i = tr o' (s.connect i) := by
  have w := tokio_writePacket h i.connectOk
  have w' : Tokio.writePacket (tk o' s).options.connectPacket i.connectOk = _ :=
    tokio_writePacket (async_keepAlive s.options.keepAlive h') i.connectOk
  unfold Tokio.connect
  dsimp only
  have k : i.times.ok (tk o' s).now = i.times.ok s.now := rfl
  have e : (tk o' s).sys = s.sys := rfl
  have r : (tk o' s).run.isNone = s.run.isNone := rfl
  rw [k, e, r, w, w']
  have c : ∀ a b, asIf o' (.wrote s.options.connectPacket a b) = .wrote (tk o' s).options.connectPacket a b := asIf_connect o' s.options
  split
  · split
    · simp [tk, tr]
    · split
      · split
        · rename_i c' _ _ _
          rw [← c]
          exact tk_established o' { s with now := i.times.second } _ _ i
            [.wrote s.options.connectPacket i.times.enter i.times.fire, .read (.connAck c')]
        · rw [← c]; simp [tk, tr]
      · rw [← c]; simp [tk, tr]
      · rw [← c]; simp [tk, tr]
      · split
        · rw [← c]; simp [tk, tr]
        · rfl
      · rw [← c]; simp [tk, tr]
  · rfl

/-- the options of a network made with `o`, and no CONNECT waiting -/
def TokioOf (s : Tokio) : Prop := Clear s.sys ∧ ∃ k, s.options = { o with keepAlive := k }

theorem tk_step (h : ∃ b, o.connectPacket.asyncWrite = .ok b) (h' : ∃ b, o'.connectPacket.asyncWrite = .ok b)
    (s : Tokio) (op : TokioOp) (hs : TokioOf o s) : (tk o' s).step op = tr o' (s.step op) := by
  have e : (tk o' s).sys = s.sys := rfl
  have r : (tk o' s).run = s.run := rfl
  have n : (tk o' s).network = s.network := rfl
  cases op with
  | client op =>
    simp only [Tokio.step]
    rw [e]
    split
    · split <;> simp [tk, tr]
    · rfl
  | dropNetwork =>
    simp only [Tokio.step]
    rw [e, r]
    split
    · split <;> simp [tk, tr]
    · rfl
  | connect i =>
    refine tk_connect o' s ?_ h' i
    obtain ⟨k, hk⟩ := hs.2
    rw [hk]
    exact async_keepAlive k h
  | start =>
    simp only [Tokio.step]
    rw [e, r, n]
    split
    · split <;> simp [tk, tr]
    · rfl
  | arrive bs =>
    simp only [Tokio.step]
    rw [n]
    split
    · split <;> simp [tk, tr]
    · rfl
  | close =>
    simp only [Tokio.step]
    rw [n]
    split
    · simp [tk, tr]
    · rfl
  | turn b lost io T => exact tk_turn o' s hs.1 b lost io T
  | cancel lost =>
    cases hr : s.run with
    | none => simp [Tokio.step, tk, hr, tr]
    | some a =>
      cases hn : s.network with
      | none => simp [Tokio.step, tk, hr, hn, tr]
      | some c =>
        simp only [Tokio.step, tk, hr, hn]
        split <;> simp [tr, tk]

/-! ## the invariants -/

theorem Clear.die {s : Sys} (h : Clear s) : Clear s.die := h

theorem Clear.vstep {fl : Flavor} {v w : View} {ob : List Obs} (hc : Clear v.sys) (h : VStep fl v ob w) : Clear w.sys := by
  cases h <;> first
    | exact hc
    | (rename_i hs; exact hc.step hs)
    | (rename_i hs _; exact hc.step hs)
    | (rename_i hs _ _; exact hc.step hs)
    | exact hc.die

theorem Clear.new (p : Options) : Clear p.sys := by
  intro q hq
  simp [Options.sys, Sys.init] at hq

theorem tokioOf_step (s : Tokio) (op : TokioOp) (s' : Tokio) (ob : List Obs) (h : TokioOf o s) (hs : s.step op = some (s', ob)) :
    TokioOf o s' := by
  refine ⟨Clear.vstep (v := s.view) h.1 (Tokio.step_vstep hs), ?_⟩
  obtain ⟨k, hk⟩ := h.2
  obtain ⟨k', hk'⟩ := Tokio.step_options hs
  exact ⟨k', by rw [hk', hk]⟩

/-! ## smol -/

def sm (s : Smol) : Smol := { s with options := o' }

def sr (r : Option (Smol × List Obs)) : Option (Smol × List Obs) := r.map fun r => (sm o' r.1, r.2.map (asIf o'))

theorem sm_finish (s : Smol) (ob : List Obs) (e : End) :
    some ((sm o' s).finish (ob.map (asIf o')) e) = sr o' (some (s.finish ob e)) := by
  simp [Smol.finish, sm, sr]

theorem sm_flush (s : Smol) (hg : ∀ p ∈ s.outgoing, ∀ c, p ≠ .connect c) (ob : List Obs) (io : Bool) (T : Times) :
    some ((sm o' s).flushOutgoing (ob.map (asIf o')) io T) = sr o' (some (s.flushOutgoing ob io T)) := by
  unfold Smol.flushOutgoing
  have e : (sm o' s).outgoing = s.outgoing := rfl
  rw [e]
  split
  · have : s.outgoing.map (fun p => asIf o' (.wrote p T.fire T.first)) = s.outgoing.map fun p => .wrote p T.fire T.first :=
      List.map_congr_left fun p hp => asIf_wrote (hg p hp) _ _
    simp [sm, sr, this, Function.comp_def]
  · exact sm_finish o' s ob _

theorem sm_onPacket (s : Smol) (hg : s.outgoing = []) (p : Packet) (io : Bool) (T : Times) :
    (sm o' s).onPacket p io T = sr o' (s.onPacket p io T) := by
  unfold Smol.onPacket
  split
  · exact sm_flush o' { s with await := none } (by simp [hg]) [.read _, .delivered _] io T
  · simp [Smol.finish, sm, sr]
  · have e : (sm o' s).sys = s.sys := rfl
    rw [e]
    split
    · rename_i sys p' reply shown hs
      have hn : ∀ q ∈ s.outgoing ++ reply.toList, ∀ c, q ≠ .connect c := by
        rw [hg]
        intro q hq
        cases reply with
        | none => simp at hq
        | some r =>
          simp only [Option.toList, List.nil_append, List.mem_singleton] at hq
          subst hq
          exact reply_ne hs
      cases shown
      · exact sm_flush o' { s with sys := sys, outgoing := s.outgoing ++ reply.toList } hn [.read p] io T
      · exact sm_flush o' { s with sys := sys, outgoing := s.outgoing ++ reply.toList } hn [.read p, .delivered p] io T
    · simp [Smol.finish, sm, sr]
    · simp [Smol.finish, sm, sr]
    · rfl

theorem sm_onRead (s : Smol) (hg : s.outgoing = []) (buffer chunk : Bytes) (io : Bool) (T : Times) :
    (sm o' s).onRead buffer chunk io T = sr o' (s.onRead buffer chunk io T) := by
  unfold Smol.onRead
  have e : (sm o' s).checks = s.checks := rfl
  rw [e]
  split
  · exact sm_finish o' s [] _
  · split
    · rfl
    · dsimp only
      split
      · rename_i p rest _
        exact sm_onPacket o' { s with network := some rest } hg p io T
      · simp [sm, sr]
      · exact sm_finish o' s [] _
      · exact sm_finish o' { s with sys := s.sys.die } [] _

theorem sm_onOutgoing (s : Smol) (hc : Clear s.sys) (io : Bool) (T : Times) :
    (sm o' s).onOutgoing io T = sr o' (s.onOutgoing io T) := by
  unfold Smol.onOutgoing
  have e : (sm o' s).sys = s.sys := rfl
  rw [e]
  split
  · split <;> simp [Smol.finish, sm, sr]
  · rename_i p rest hq
    have hw := asIf_wrote (o' := o') (hc.head hq) T.fire T.first
    split
    · split <;> simp [Smol.finish, sm, sr]
    · split
      · dsimp only
        split <;> simp [Smol.finish, sm, sr, hw]
      · simp [Smol.finish, sm, sr, hw]
      · simp [Smol.finish, sm, sr, hw]
      · rfl

theorem sm_onTimer (s : Smol) (io : Bool) (T : Times) : (sm o' s).onTimer io T = sr o' (s.onTimer io T) := by
  have q : (sm o' s).sleepOver T = s.sleepOver T := rfl
  have p : (sm o' s).perform = s.perform := rfl
  have a : (sm o' s).await = s.await := rfl
  unfold Smol.onTimer
  rw [q, p, a]
  split
  · split
    · split <;> simp [Smol.finish, sm, sr]
    · split <;> simp [Smol.finish, sm, sr]
  · rfl

theorem sm_turn (s : Smol) (hc : Clear s.sys) (hg : s.outgoing = []) (b : SmolBranch) (io : Bool) (T : Times) :
    (sm o' s).turn b io T = sr o' (s.turn b io T) := by
  have k : T.ok (sm o' s).now = T.ok s.now := rfl
  have e : (sm o' s).sys = s.sys := rfl
  have r : (sm o' s).running = s.running := rfl
  have n : (sm o' s).network = s.network := rfl
  unfold Smol.turn
  rw [n, k, e, r]
  split
  · split
    · cases b with
      | read chunk => exact sm_onRead o' { s with now := T.second } hg _ chunk io T
      | readError => exact sm_finish o' { s with now := T.second } [] (.error .io)
      | outgoing => exact sm_onOutgoing o' { s with now := T.second } hc io T
      | timer => exact sm_onTimer o' { s with now := T.second } io T
    · rfl
  · rfl

theorem sm_established (s : Smol) (c : ConnAck) (buffer : Bytes) (i : SmolConnect) (ob : List Obs) :
    (sm o' s).established c buffer i (ob.map (asIf o')) = sr o' (s.established c buffer i ob) := by
  have n : (sm o' s).noteConnAck c i.times.fire = sm o' (s.noteConnAck c i.times.fire) := rfl
  unfold Smol.established
  dsimp only
  rw [n]
  have e : (sm o' (s.noteConnAck c i.times.fire)).sys = (s.noteConnAck c i.times.fire).sys := rfl
  rw [e]
  generalize s.noteConnAck c i.times.fire = t
  split
  · rename_i c' ps hs
    have hp : ps.map (fun p => asIf o' (.wrote p i.times.fire i.times.first)) = ps.map fun p => .wrote p i.times.fire i.times.first :=
      List.map_congr_left fun p hp => asIf_wrote (again_ne hs p hp) _ _
    split <;> simp [sm, sr, hp, Function.comp_def]
  · simp [sm, sr]
  · simp [sm, sr]
  · rfl

theorem sm_connect (s : Smol) (h : ∃ b, s.options.connectPacket.write = .ok b) (h' : ∃ b, o'.connectPacket.write = .ok b)
    (hk : s.options.keepAlive = o'.keepAlive) (i : SmolConnect) : (sm o' s).connect i = sr o' (s.connect i) := by
  have w := smol_writePacket h i.connectOk
  have w' : Smol.writePacket (sm o' s).options.connectPacket i.connectOk = _ := smol_writePacket h' i.connectOk
  unfold Smol.connect
  dsimp only
  have k : i.times.ok (sm o' s).now = i.times.ok s.now := rfl
  have e : (sm o' s).sys = s.sys := rfl
  have r : (sm o' s).running = s.running := rfl
  have q : (sm o' s).checks = s.checks := rfl
  have c : ∀ a b, asIf o' (.wrote s.options.connectPacket a b) = .wrote (sm o' s).options.connectPacket a b := by
    intro a b
    rw [asIf_connect, hk]
    rfl
  rw [k, e, r, q, w, w']
  split
  · split
    · simp [sm, sr]
    · split
      · split
        · rename_i c' _ _ _
          rw [← c]
          exact sm_established o' { s with now := i.times.second } _ _ i
            [.wrote s.options.connectPacket i.times.enter i.times.fire, .read (.connAck c')]
        · rw [← c]; simp [sm, sr]
      · rw [← c]; simp [sm, sr]
      · rfl
      · rw [← c]; simp [sm, sr]
      · rw [← c]; simp [sm, sr]
      · rfl
  · rfl

/-- a network made with `o` between two steps -/
structure SmolOf (s : Smol) : Prop where
  clear : Clear s.sys
  good : s.Good
  options : s.options = o

theorem sm_step (hk : o.keepAlive = o'.keepAlive) (h : ∃ b, o.connectPacket.write = .ok b) (h' : ∃ b, o'.connectPacket.write = .ok b)
    (s : Smol) (op : SmolOp) (hs : SmolOf o s) : (sm o' s).step op = sr o' (s.step op) := by
  have e : (sm o' s).sys = s.sys := rfl
  have r : (sm o' s).running = s.running := rfl
  have n : (sm o' s).network = s.network := rfl
  cases op with
  | client op =>
    simp only [Smol.step]
    rw [e]
    split
    · split <;> simp [sm, sr]
    · rfl
  | dropNetwork =>
    simp only [Smol.step]
    rw [e, r]
    split
    · rfl
    · split <;> simp [sm, sr]
  | connect i => exact sm_connect o' s (by rw [hs.options]; exact h) h' (by rw [hs.options]; exact hk) i
  | start =>
    simp only [Smol.step]
    rw [e, r, n]
    split
    · split <;> simp [sm, sr]
    · rfl
  | turn b io T => exact sm_turn o' s hs.clear hs.good.outgoing b io T
  | cancel =>
    simp only [Smol.step]
    rw [r]
    split <;> simp [sm, sr]

theorem smolOf_step (s : Smol) (op : SmolOp) (s' : Smol) (ob : List Obs) (h : SmolOf o s) (hs : s.step op = some (s', ob)) :
    SmolOf o s' :=
  ⟨Clear.vstep (v := s.view) h.clear (Smol.step_vstep h.good hs).1, (Smol.step_vstep h.good hs).2,
    (Smol.step_options hs).trans h.options⟩

end Ident
end Mqrstt
