import Verif.Spec.Inbound
import Verif.Proof.Receiver
import Verif.Proof.NetLink
import Verif.Proof.Positions
/-!
# Helper lemmas: messages that the client receives, in terms of what is observed
-/

namespace Mqrstt
open Spec

/-- the receiving side -/
structure Rcv where
  running : Bool
  /-- messages of QoS 1 and 2 read in `run` -/
  got : List Publish
  /-- those of them that the handler is called with -/
  expected : List Publish
  /-- QoS 2 identifiers read since the last accepting CONNACK, with no PUBREL since -/
  opened : List UInt16
  /-- the packet that was read last and whose answer may follow -/
  mid : Option Packet

namespace Rcv

def start : Rcv := ⟨false, [], [], [], none⟩

/-- is the handler called with this message? -/
def shows (s : Rcv) (p : Publish) : Bool :=
  match p.qos, p.pkid with
  | .exactlyOnce, some i => !p.dup && !s.opened.contains i
  | _, _ => true

def onPublish (s : Rcv) (p : Publish) : Rcv :=
  if p.qos ≠ .atMostOnce ∧ p.pkid ≠ none then
    { s with got := s.got ++ [p], expected := if s.shows p then s.expected ++ [p] else s.expected,
             opened := match p.qos, p.pkid with
               | .exactlyOnce, some i => if s.opened.contains i then s.opened else s.opened ++ [i]
               | _, _ => s.opened }
  else s

def onRead (s : Rcv) (p : Packet) : Rcv :=
  match p with
  | .publish q => { s.onPublish q with mid := some p }
  | .pubRel a => { s with opened := s.opened.filter (· ≠ a.id), mid := some p }
  | _ => { s with mid := some p }

def next (s : Rcv) : Obs → Rcv
  | .read p =>
    if s.running then s.onRead p
    else match p with
      | .connAck c => if c.reason = .success then { s with opened := [], mid := none } else { s with mid := none }
      | _ => { s with mid := none }
  | .delivered _ => s
  | .started => { s with running := true, mid := none }
  | .ended _ => { s with running := false, mid := none }
  | .cancelled => { s with running := false, mid := none }
  | _ => { s with mid := none }

/-- may this packet be written now? -/
def May (s : Rcv) : Packet → Prop
  | .pubAck a => s.running = true ∧ ∃ q : Publish, s.mid = some (.publish q) ∧ q.qos = .atLeastOnce ∧ q.pkid = some a.id
  | .pubRec a => s.running = true ∧ a.reason = .success ∧
      ∃ q : Publish, s.mid = some (.publish q) ∧ q.qos = .exactlyOnce ∧ q.pkid = some a.id
  | .pubComp a => s.running = true ∧ ∃ r : Ack, s.mid = some (.pubRel r) ∧ r.id = a.id
  | .pubRel a => s.running = true → ∃ r : Ack, s.mid = some (.pubRec r) ∧ r.id = a.id
  | .connect _ => s.running = false
  | _ => True

/-- may this be observed now? -/
def Fits (s : Rcv) : Obs → Prop
  | .wrote p _ _ => s.May p
  | .connectFailed _ | .connectPanicked => s.running = false
  | _ => True

/-- the rules along a piece of history -/
def Keeps : Rcv → List Obs → Prop
  | _, [] => True
  | s, x :: o => s.Fits x ∧ Keeps (s.next x) o

theorem Keeps.append : ∀ {a b : List Obs} {s : Rcv}, Keeps s a → Keeps (a.foldl next s) b → Keeps s (a ++ b)
  | [], _, _, _, h => h
  | _ :: _, _, _, h1, h2 => ⟨h1.1, Keeps.append h1.2 h2⟩

theorem Keeps.left : ∀ {a b : List Obs} {s : Rcv}, Keeps s (a ++ b) → Keeps s a
  | [], _, _, _ => trivial
  | _ :: _, _, _, h => ⟨h.1, Keeps.left h.2⟩

theorem Keeps.right : ∀ {a b : List Obs} {s : Rcv}, Keeps s (a ++ b) → Keeps (a.foldl next s) b
  | [], _, _, h => h
  | _ :: a, _, _, h => Keeps.right (a := a) h.2

end Rcv

/-- the receiving side after everything observed -/
def rcv (tr : List Obs) : Rcv := tr.foldl Rcv.next Rcv.start

theorem rcv_snoc (tr : List Obs) (x : Obs) : rcv (tr ++ [x]) = (rcv tr).next x := by simp [rcv]

theorem got_fold : ∀ (o : List Obs) (s : Rcv) (b : Bool × List Publish), b = (s.running, s.got) →
    o.foldl gotStep b = ((o.foldl Rcv.next s).running, (o.foldl Rcv.next s).got)
  | [], s, b, h => h
  | x :: o, s, b, h => by
    rw [List.foldl_cons, List.foldl_cons]
    refine got_fold o _ _ ?_
    subst h
    cases x with
    | read p =>
      cases p with
      | publish q =>
        cases hr : s.running
        · simp [gotStep, Rcv.next, hr]
        · by_cases hq : q.qos ≠ .atMostOnce ∧ q.pkid ≠ none
          · simp [gotStep, Rcv.next, hr, Rcv.onRead, Rcv.onPublish, hq]
          · simp [gotStep, Rcv.next, hr, Rcv.onRead, Rcv.onPublish, hq]
      | connAck c =>
        cases hr : s.running
        · simp only [gotStep, runStep, Rcv.next, hr]; simp; split <;> simp [hr]
        · simp [gotStep, runStep, Rcv.next, hr, Rcv.onRead]
      | _ =>
        cases hr : s.running <;> simp [gotStep, runStep, Rcv.next, hr, Rcv.onRead]
    | _ => simp [gotStep, runStep, Rcv.next]

theorem gotIn_eq (tr : List Obs) : gotIn tr = (rcv tr).got := by
  unfold gotIn rcv
  rw [got_fold tr Rcv.start (false, []) rfl]

theorem running_eq (tr : List Obs) : isRunning tr = (rcv tr).running := by
  have key : ∀ (o : List Obs) (s : Rcv) (b : Bool), b = s.running → o.foldl runStep b = (o.foldl Rcv.next s).running := by
    intro o
    induction o with
    | nil => intro s b h; exact h
    | cons x o ih =>
      intro s b h
      rw [List.foldl_cons, List.foldl_cons]
      refine ih _ _ ?_
      subst h
      cases x with
      | read p =>
        have h := got_fold [.read p] s _ rfl
        have h1 : (gotStep (s.running, s.got) (.read p)).1 = (s.next (.read p)).running := by
          have := congrArg Prod.fst h
          simpa using this
        rw [← h1]
        cases p <;> simp [gotStep, runStep]
      | _ => simp [runStep, Rcv.next]
  exact key tr Rcv.start false rfl

theorem handledIn_append (a b : List Obs) : handledIn (a ++ b) = handledIn a ++ handledIn b := by simp [handledIn]

theorem handledIn_wrotes (T : Times) (ps : List Packet) : handledIn (wrotes T ps) = [] := by
  induction ps with
  | nil => rfl
  | cons p ps ih => simp only [handledIn, wrotes, List.map_cons, List.filterMap_cons] at ih ⊢; exact ih

/-! ## the session's set of identifiers -/

theorem Sys.step_incoming {s s' : Sys} {op : Op} {e : Event} (h : s.step op = some (s', e)) (ho : ∀ p, op ≠ .receive p)
    (hc : ∀ c, op ≠ .connAck c) : s'.handler.state.incoming = s.handler.state.incoming := by
  cases op with
  | receive p => exact absurd rfl (ho p)
  | connAck c => exact absurd rfl (hc c)
  | write ok =>
    simp only [Sys.step] at h
    split at h
    · split at h
      · simp at h
      · rename_i p rest hq
        cases ok
        · simp at h; rw [← h.1]
        · simp only [if_true, Handler.outgoing] at h
          have hin := Handler.outgoingState_incoming s.handler.state p
          cases eo : Handler.outgoingState s.handler.state p with
          | mk st res =>
            rw [eo] at h hin
            rcases res with (x | _) | _ <;>
            · simp only [Option.some.injEq, Prod.mk.injEq] at h
              obtain ⟨rfl, -⟩ := h
              exact hin
    · simp at h
  | call q =>
    simp only [Sys.step, Sys.call, Sys.callWith] at h
    repeat' split at h
    all_goals first | (simp at h; done) | (simp only [Option.some.injEq, Prod.mk.injEq] at h; obtain ⟨rfl, -⟩ := h; rfl)
  | submit k =>
    simp only [Sys.step] at h
    repeat' split at h
    all_goals first | (simp at h; done) | (simp only [Option.some.injEq, Prod.mk.injEq] at h; obtain ⟨rfl, -⟩ := h; rfl)
  | abandon k =>
    simp only [Sys.step] at h
    repeat' split at h
    all_goals first | (simp at h; done) | (simp only [Option.some.injEq, Prod.mk.injEq] at h; obtain ⟨rfl, -⟩ := h; rfl)
  | dropClients => simp only [Sys.step, Option.some.injEq, Prod.mk.injEq] at h; obtain ⟨rfl, -⟩ := h; rfl
  | dropNetwork =>
    simp only [Sys.step] at h
    split at h
    · simp only [Option.some.injEq, Prod.mk.injEq] at h; obtain ⟨rfl, -⟩ := h; rfl
    · simp at h

theorem Sys.step_connAck_incoming {s s' : Sys} {c : ConnAck} {e : Event} (h : s.step (.connAck c) = some (s', e))
    (hc : c.reason = .success) (ha : s'.alive = true) : s'.handler.state.incoming = [] := by
  simp only [Sys.step] at h
  split at h
  · have hi := Handler.connAck_incoming s.handler c
    cases eo : s.handler.connAck c with
    | mk hd res =>
      rw [eo] at h hi
      have hnone : res ≠ .ok none := by
        rintro rfl
        unfold Handler.connAck at eo
        rw [if_pos hc] at eo
        repeat' split at eo
        all_goals simp at eo
      rcases res with (x | _) | (_ | ps)
      · simp only [Option.some.injEq, Prod.mk.injEq] at h
        obtain ⟨rfl, -⟩ := h
        rcases hi with hi | ⟨-, hi | hi⟩
        · exact hi
        · simp at hi
        · simp at hi
      · simp only [Option.some.injEq, Prod.mk.injEq] at h
        obtain ⟨rfl, -⟩ := h
        simp [Sys.die] at ha
      · exact absurd rfl hnone
      · simp only [Option.some.injEq, Prod.mk.injEq] at h
        obtain ⟨rfl, -⟩ := h
        rcases hi with hi | ⟨-, hi | hi⟩
        · exact hi
        · simp at hi
        · simp at hi
  · simp at h

theorem Sys.step_receive_incoming {s s' : Sys} {p : Packet} {e : Event} (h : s.step (.receive p) = some (s', e)) :
    s'.handler.state.incoming = (Handler.incomingState s.handler.state p).1.incoming := by
  have ha : s.alive = true := by
    cases ha : s.alive
    · simp [Sys.step, ha] at h
    · rfl
  rw [Sys.step_receive ha] at h
  cases eo : Handler.incomingState s.handler.state p with
  | mk st res =>
    rw [eo] at h
    rcases res with f | ⟨reply, sh⟩
    · cases f <;> · simp only [Option.some.injEq, Prod.mk.injEq] at h; obtain ⟨rfl, -⟩ := h; rfl
    · simp only [Option.some.injEq, Prod.mk.injEq] at h; obtain ⟨rfl, -⟩ := h; rfl

/-! ## one step -/

/-- the session remembers what has been observed -/
structure Tracks (v : View) (s : Rcv) : Prop where
  running : s.running = v.running
  sorted : v.sys.alive = true → v.sys.handler.state.incoming.Pairwise (· < ·)
  opened : v.sys.alive = true → ∀ id, id ∈ v.sys.handler.state.incoming ↔ id ∈ s.opened

/-- what a step has to give -/
structure Inboxed (s : Rcv) (o : List Obs) (w : View) : Prop where
  keeps : s.Keeps o
  tracks : Tracks w (o.foldl Rcv.next s)
  expected : (o.foldl Rcv.next s).expected = s.expected ++ handledIn o

theorem Tracks.same {v w : View} {s s' : Rcv} (h : Tracks v s) (hr : s'.running = w.running)
    (hi : w.sys.handler.state.incoming = v.sys.handler.state.incoming) (ha : w.sys.alive = true → v.sys.alive = true)
    (ho : s'.opened = s.opened) : Tracks w s' :=
  ⟨hr, fun a => hi ▸ h.sorted (ha a), fun a id => by rw [hi, ho]; exact h.opened (ha a) id⟩

theorem onRead_other {s : Rcv} {p : Packet} (h1 : ∀ q, p ≠ .publish q) (h2 : ∀ a, p ≠ .pubRel a) :
    s.onRead p = { s with mid := some p } := by
  cases p <;> first | rfl | exact absurd rfl (h1 _) | exact absurd rfl (h2 _)

theorem Tracks.read {v w : View} {s : Rcv} {p : Packet} {e : Event} (h : Tracks v s) (ha : v.sys.alive = true)
    (hs : v.sys.step (.receive p) = some (w.sys, e)) (hr : (s.onRead p).running = w.running) : Tracks w (s.onRead p) := by
  have hin := (Sys.step_receive_incoming hs).trans (Handler.incomingState_incoming v.sys.handler.state p)
  cases p with
  | publish q =>
    simp only at hin
    cases hq : q.qos with
    | exactlyOnce =>
      cases hk : q.pkid with
      | none =>
        rw [hq, hk] at hin
        exact h.same hr hin (fun _ => ha) (by simp [Rcv.onRead, Rcv.onPublish, hk])
      | some i =>
        rw [hq, hk] at hin
        refine ⟨hr, fun _ => by rw [hin]; exact IdSet.insert_sorted (h.sorted ha), fun _ a => ?_⟩
        rw [hin, IdSet.insert_mem, h.opened ha a]
        simp only [Rcv.onRead, Rcv.onPublish, hq, hk]
        simp
        split <;> grind
    | atMostOnce =>
      rw [hq] at hin
      exact h.same hr hin (fun _ => ha) (by simp [Rcv.onRead, Rcv.onPublish, hq])
    | atLeastOnce =>
      rw [hq] at hin
      refine h.same hr hin (fun _ => ha) ?_
      simp only [Rcv.onRead, Rcv.onPublish, hq]
      split <;> rfl
  | pubRel a =>
    simp only at hin
    refine ⟨hr, fun _ => by rw [hin]; exact IdSet.remove_sorted (h.sorted ha), fun _ x => ?_⟩
    rw [hin, IdSet.mem_remove (h.sorted ha), h.opened ha x]
    simp [Rcv.onRead]
  | _ => exact h.same hr hin (fun _ => ha) rfl

theorem onRead_running (s : Rcv) (p : Packet) : (s.onRead p).running = s.running := by
  cases p <;> simp [Rcv.onRead]
  simp only [Rcv.onPublish]
  split <;> rfl

theorem next_read_running (s : Rcv) (p : Packet) : (s.next (.read p)).running = s.running := by
  cases hr : s.running
  · simp only [Rcv.next, hr]
    cases p <;> simp [hr]
    split <;> simp [hr]
  · simp only [Rcv.next, hr, if_true, onRead_running]

/-- what is read is handled or not as the receiving side says -/
theorem Tracks.shown {v : View} {s : Rcv} {p : Packet} {sys : Sys} {reply : Option Packet} {shown : Bool} (h : Tracks v s)
    (ha : v.sys.alive = true) (hs : v.sys.step (.receive p) = some (sys, .received p reply shown)) :
    (s.onRead p).expected = s.expected ++ handledIn (shownObs p shown) := by
  obtain ⟨-, -, -, hres, -⟩ := Sys.step_received hs
  cases p with
  | publish q =>
    simp only [Handler.incomingState, Handler.incomingPublish] at hres
    cases hq : q.qos with
    | atMostOnce =>
      rw [hq] at hres
      simp only [Except.ok.injEq, Prod.mk.injEq] at hres
      obtain ⟨-, rfl⟩ := hres
      simp [Rcv.onRead, Rcv.onPublish, hq, shownObs, handledIn]
    | atLeastOnce =>
      rw [hq] at hres
      cases hk : q.pkid with
      | none => simp [hk] at hres
      | some i =>
        simp only [hk, Except.ok.injEq, Prod.mk.injEq] at hres
        obtain ⟨-, rfl⟩ := hres
        simp [Rcv.onRead, Rcv.onPublish, hq, hk, shownObs, handledIn, Rcv.shows]
    | exactlyOnce =>
      rw [hq] at hres
      cases hk : q.pkid with
      | none => simp [hk] at hres
      | some i =>
        simp only [hk, State.addIncomingPub, Except.ok.injEq, Prod.mk.injEq] at hres
        obtain ⟨-, hb⟩ := hres
        have hflag : (IdSet.insert i v.sys.handler.state.incoming).2 = !s.opened.contains i := by
          have h1 := IdSet.insert_flag (id := i) (h.sorted ha)
          have h2 := h.opened ha i
          rw [Bool.eq_iff_iff, h1, h2]
          simp
        rw [hflag] at hb
        have hsh : s.shows q = shown := by
          simp only [Rcv.shows, hq, hk]
          rw [← hb, Bool.and_comm]
        simp only [Rcv.onRead, Rcv.onPublish, hq, hk, hsh]
        cases shown <;> simp [shownObs, handledIn, hq]
  | _ => cases shown <;> simp [Rcv.onRead, shownObs, handledIn]

theorem shownObs_fold {s : Rcv} {p : Packet} {b : Bool} (hr : s.running = true) : (shownObs p b).foldl Rcv.next s = s.onRead p := by
  cases b <;> simp [shownObs, Rcv.next, hr]

theorem shownObs_keeps {s : Rcv} {p : Packet} {b : Bool} : s.Keeps (shownObs p b) := by
  cases b <;> simp [shownObs, Rcv.Keeps, Rcv.Fits]

theorem may_fromUser {s : Rcv} {p : Packet} (h : p.fromUser) : s.May p := by
  cases p <;> first | trivial | simp [Packet.fromUser] at h

theorem may_resent {s : Rcv} {p : Packet} (h : p.resent) (hr : s.running = false) : s.May p := by
  cases p <;> first | trivial | (intro h'; rw [hr] at h'; cases h') | simp [Packet.resent] at h

theorem wrotes_keeps {T : Times} : ∀ {ws : List Packet} {s : Rcv}, (∀ p ∈ ws, p.resent) → s.running = false → s.Keeps (wrotes T ws)
  | [], _, _, _ => trivial
  | p :: ws, s, h, hr => by
    exact ⟨may_resent (h p List.mem_cons_self) hr, wrotes_keeps (fun q hq => h q (List.mem_cons_of_mem _ hq)) hr⟩

theorem wrotes_fold {T : Times} : ∀ (ws : List Packet) (s : Rcv), s.mid = none → (wrotes T ws).foldl Rcv.next s = s
  | [], _, _ => rfl
  | p :: ws, s, h => by
    have : s.next (.wrote p T.fire T.first) = s := by
      simp only [Rcv.next]; rw [← h]
    simp only [wrotes, List.map_cons, List.foldl_cons] at *
    rw [this]
    exact wrotes_fold ws s h

theorem may_reply {s : Rcv} {p : Packet} {reply : Option Packet} {shown : Bool} {T : Times} (hr : s.running = true)
    (hm : s.mid = some p) (h : Sys.Answer p reply shown) : s.Keeps (wrotes T reply.toList) := by
  cases h
  case qos1 => exact ⟨⟨hr, _, hm, ‹_›, ‹_›⟩, trivial⟩
  case qos2 => exact ⟨⟨hr, rfl, _, hm, ‹_›, ‹_›⟩, trivial⟩
  case pubRel => exact ⟨⟨hr, _, hm, rfl⟩, trivial⟩
  case pubRecOk => exact ⟨fun _ => ⟨_, hm, rfl⟩, trivial⟩
  all_goals simp [wrotes, Rcv.Keeps, Rcv.Fits]

theorem onRead_mid (s : Rcv) (p : Packet) : (s.onRead p).mid = some p := by cases p <;> rfl

theorem reply_fold {T : Times} (r : Option Packet) (s : Rcv) : (wrotes T r.toList).foldl Rcv.next s =
    { s with mid := if r.isSome then none else s.mid } := by
  cases r <;> simp [wrotes, Rcv.next]

theorem VStep.inboxed {fl : Flavor} {v w : View} {o : List Obs} {s : Rcv} (h : VStep fl v o w) (ht : Tracks v s) (hu : v.sys.Users) :
    Inboxed s o w := by
  have hx := ht.running
  have notAsked : ∀ {op : Op} (p : Packet), op.ofClient = true → op ≠ .receive p := by
    intro op p h e; subst e; simp [Op.ofClient] at h
  have notAck : ∀ {op : Op} (c : ConnAck), op.ofClient = true → op ≠ .connAck c := by
    intro op p h e; subst e; simp [Op.ofClient] at h
  cases h
  case client hc hs =>
    exact ⟨by simp [Rcv.Keeps, Rcv.Fits], ht.same hx (Sys.step_incoming hs (fun p => notAsked p hc) (fun c => notAck c hc)) (Sys.step_alive hs) rfl,
      by simp [Rcv.next, handledIn]⟩
  case drop hs =>
    exact ⟨by simp [Rcv.Keeps, Rcv.Fits], ht.same hx (Sys.step_incoming hs (by simp) (by simp)) (Sys.step_alive hs) rfl, by simp [Rcv.next, handledIn]⟩
  case noNetwork hr _ _ => exact ⟨by simp [Rcv.Keeps, Rcv.Fits], ht.same hr.symm rfl (fun x => x) rfl, by simp [Rcv.next, handledIn]⟩
  case start => exact ⟨by simp [Rcv.Keeps, Rcv.Fits], ht.same rfl rfl (fun x => x) rfl, by simp [Rcv.next, handledIn]⟩
  case quiet => exact ⟨trivial, ht, by simp [handledIn]⟩
  case cancel => exact ⟨by simp [Rcv.Keeps, Rcv.Fits], ht.same rfl rfl (fun x => x) rfl, by simp [Rcv.next, handledIn]⟩
  case wait => exact ⟨trivial, ht.same hx rfl (fun x => x) rfl, by simp [handledIn]⟩
  case readPing hR =>
    have hr : s.running = true := hx.trans hR.running
    refine ⟨by simp [Rcv.Keeps, Rcv.Fits], ?_, by simp [Rcv.next, handledIn, hr, Rcv.onRead]⟩
    simp only [List.foldl_cons, List.foldl_nil, Rcv.next, hr, if_true]
    exact ht.same (hr.trans hR.running.symm) rfl (fun x => x) rfl
  case readPingFail hR _ _ =>
    have hr : s.running = true := hx.trans hR.running
    refine ⟨by simp [Rcv.Keeps, Rcv.Fits], ?_, by simp [Rcv.next, handledIn, hr, Rcv.onRead]⟩
    simp only [List.foldl_cons, List.foldl_nil, Rcv.next, hr, if_true]
    exact ht.same rfl rfl (fun x => x) rfl
  case readDisc hR =>
    have hr : s.running = true := hx.trans hR.running
    refine ⟨by simp [Rcv.Keeps, Rcv.Fits], ?_, by simp [Rcv.next, handledIn, hr, Rcv.onRead]⟩
    simp only [List.foldl_cons, List.foldl_nil, Rcv.next, hr, if_true]
    exact ht.same rfl rfl (fun x => x) rfl
  case accepted hR hp hs =>
    rename_i T p sys reply shown
    have hr : s.running = true := hx.trans hR.running
    refine ⟨shownObs_keeps.append ?_, ?_, ?_⟩
    · rw [shownObs_fold hr]
      exact may_reply ((onRead_running s p).trans hr) (onRead_mid s p) (Sys.step_answer hs)
    · rw [List.foldl_append, shownObs_fold hr, reply_fold]
      have := ht.read (w := { v with sys := sys }) hR.alive hs ((onRead_running s p).trans hx)
      exact ⟨this.running, this.sorted, this.opened⟩
    · rw [List.foldl_append, shownObs_fold hr, reply_fold, handledIn_append, handledIn_wrotes, List.append_nil]
      exact ht.shown hR.alive hs
  case acceptedFail hR hp he hs =>
    rename_i T p sys reply shown e
    have hr : s.running = true := hx.trans hR.running
    refine ⟨shownObs_keeps.append (by simp [Rcv.Keeps, Rcv.Fits]), ?_, ?_⟩
    · rw [List.foldl_append, shownObs_fold hr]
      have := ht.read (w := { v with sys := sys }) hR.alive hs ((onRead_running s p).trans hx)
      exact ⟨rfl, this.sorted, this.opened⟩
    · rw [List.foldl_append, shownObs_fold hr, handledIn_append]
      simp only [List.foldl_cons, List.foldl_nil, Rcv.next, ht.shown hR.alive hs]
      simp [handledIn]
  case refusedPacket hR hp hs =>
    rename_i T p sys e
    have hr : s.running = true := hx.trans hR.running
    refine ⟨by simp [Rcv.Keeps, Rcv.Fits], ?_, ?_⟩
    · simp only [List.foldl_cons, List.foldl_nil, Rcv.next, hr, if_true]
      have := ht.read (w := { v with sys := sys }) hR.alive hs ((onRead_running s p).trans hx)
      exact ⟨rfl, this.sorted, this.opened⟩
    · simp only [List.foldl_cons, List.foldl_nil, Rcv.next, hr, if_true]
      cases p with
      | publish q =>
        rw [Sys.step_receive hR.alive] at hs
        simp only [Handler.incomingState, Handler.incomingPublish] at hs
        cases hq : q.qos <;> cases hk : q.pkid <;> simp [hq, hk, State.addIncomingPub] at hs
        · simp [Rcv.onRead, Rcv.onPublish, hk, handledIn]
        · simp [Rcv.onRead, Rcv.onPublish, hk, handledIn]
      | _ => simp [Rcv.onRead, handledIn]
  case readPanic hR hp hs =>
    rename_i T p sys
    have hr : s.running = true := hx.trans hR.running
    refine ⟨by simp [Rcv.Keeps, Rcv.Fits], ?_, ?_⟩
    · simp only [List.foldl_cons, List.foldl_nil, Rcv.next, hr, if_true]
      have := ht.read (w := { v with sys := sys }) hR.alive hs ((onRead_running s p).trans hx)
      exact ⟨rfl, this.sorted, this.opened⟩
    · simp only [List.foldl_cons, List.foldl_nil, Rcv.next, hr, if_true]
      cases p with
      | publish q =>
        rw [Sys.step_receive hR.alive] at hs
        simp only [Handler.incomingState, Handler.incomingPublish] at hs
        cases hq : q.qos <;> cases hk : q.pkid <;> simp [hq, hk, State.addIncomingPub] at hs
      | _ => simp [Rcv.onRead, handledIn]
  case failed => exact ⟨by simp [Rcv.Keeps, Rcv.Fits], ht.same rfl rfl (fun x => x) rfl, by simp [Rcv.next, handledIn]⟩
  case crashed hR =>
    exact ⟨by simp [Rcv.Keeps, Rcv.Fits], ht.same rfl rfl (by simp [Sys.die, View.finish]) rfl, by simp [Rcv.next, handledIn]⟩
  case outFail hR he hs =>
    exact ⟨by simp [Rcv.Keeps, Rcv.Fits], ht.same rfl (Sys.step_incoming hs (by simp) (by simp)) (Sys.step_alive hs) rfl, by simp [Rcv.next, handledIn]⟩
  case outOk hR hs hd =>
    refine ⟨⟨may_fromUser (written_fromUser hu hs (.inl rfl)), trivial⟩,
      ht.same hx (Sys.step_incoming hs (by simp) (by simp)) (Sys.step_alive hs) rfl, by simp [Rcv.next, handledIn]⟩
  case outDisc hR hs hd =>
    refine ⟨⟨may_fromUser (written_fromUser hu hs (.inl rfl)), by first | trivial | exact hrun | exact hx.trans hr, trivial⟩,
      ht.same rfl (Sys.step_incoming hs (by simp) (by simp)) (Sys.step_alive hs) rfl, by simp [Rcv.next, handledIn]⟩
  case outErr hR hs =>
    refine ⟨⟨may_fromUser (written_fromUser hu hs (.inr ⟨_, rfl⟩)), by first | trivial | exact hrun | exact hx.trans hr, trivial⟩,
      ht.same rfl (Sys.step_incoming hs (by simp) (by simp)) (Sys.step_alive hs) rfl, by simp [Rcv.next, handledIn]⟩
  case outPanic hR hq hs =>
    refine ⟨⟨may_fromUser (hu _ (.inr (by simp [hq]))), by first | trivial | exact hrun | exact hx.trans hr, trivial⟩,
      ht.same rfl (Sys.step_incoming hs (by simp) (by simp)) (Sys.step_alive hs) rfl, by simp [Rcv.next, handledIn]⟩
  case pingReq hR _ _ _ =>
    exact ⟨⟨trivial, trivial⟩, ht.same hx rfl (fun x => x) rfl, by simp [Rcv.next, handledIn]⟩
  case timeout hR _ _ =>
    exact ⟨⟨trivial, by first | trivial | exact hrun | exact hx.trans hr, trivial⟩, ht.same rfl rfl (fun x => x) rfl, by simp [Rcv.next, handledIn]⟩
  case idleTimeout hR _ _ _ =>
    exact ⟨⟨trivial, by first | trivial | exact hrun | exact hx.trans hr, trivial⟩, ht.same rfl rfl (fun x => x) rfl, by simp [Rcv.next, handledIn]⟩
  case connectFailed hr ha _ ho =>
    rcases ho with rfl | ⟨c, a, b, rfl⟩
    · exact ⟨by simp [Rcv.Keeps, Rcv.Fits]; exact hx.trans hr, ht.same hx rfl (fun x => x) rfl, by simp [Rcv.next, handledIn]⟩
    · exact ⟨⟨hx.trans hr, by first | trivial | exact hrun | exact hx.trans hr, trivial⟩, ht.same hx rfl (fun x => x) rfl,
        by simp [Rcv.next, handledIn]⟩
  case refused hr ha _ hc =>
    have hrun : s.running = false := hx.trans hr
    refine ⟨⟨hrun, by first | trivial | exact hrun, by first | trivial | exact hrun | exact (next_read_running _ _).trans hrun, trivial⟩, ?_, ?_⟩
    · simp only [List.foldl_cons, List.foldl_nil, Rcv.next, hrun, Bool.false_eq_true, if_false, hc]
      exact ht.same hr.symm rfl (fun x => x) rfl
    · simp [Rcv.next, hrun, hc, handledIn]
  case notConnAck hr ha htm hc =>
    rename_i T p cn a b
    have hrun : s.running = false := hx.trans hr
    refine ⟨⟨hrun, by first | trivial | exact hrun, by first | trivial | exact hrun | exact (next_read_running _ _).trans hrun, trivial⟩, ?_, ?_⟩
    · simp only [List.foldl_cons, List.foldl_nil, Rcv.next, hrun, Bool.false_eq_true, if_false]
      cases p <;> first | exact ht.same hr.symm rfl (fun x => x) rfl | exact absurd rfl (hc _)
    · simp only [List.foldl_cons, List.foldl_nil, Rcv.next, hrun, Bool.false_eq_true, if_false]
      cases p <;> first | simp [handledIn] | exact absurd rfl (hc _)
  case connectCrashed hr ha _ =>
    have hrun : s.running = false := hx.trans hr
    exact ⟨⟨hrun, by first | trivial | exact hrun | exact hx.trans hr, trivial⟩, ht.same hx rfl (by simp [Sys.die]) rfl,
      by simp [Rcv.next, handledIn]⟩
  case established hr ha htm hc hs hw hall =>
    rename_i T cn a b c ps ws sys
    have hrun : s.running = false := hx.trans hr
    have hres := fun p hp => Sys.step_connected_resent hs p (hw.subset hp)
    have hfold : [Obs.wrote (.connect cn) a b, .read (.connAck c), .delivered (.connAck c)].foldl Rcv.next s =
        { s with opened := [], mid := none } := by
      simp [Rcv.next, hrun, hc]
    refine ⟨Rcv.Keeps.append ⟨hrun, by first | trivial | exact hrun, by first | trivial | exact hrun | exact (next_read_running _ _).trans hrun, trivial⟩ ?_, ?_, ?_⟩
    · rw [hfold]
      exact (wrotes_keeps hres (by exact hrun)).append (by rw [wrotes_fold _ _ rfl]; simp [Rcv.Keeps, Rcv.Fits, hrun])
    · rw [List.foldl_append, List.foldl_append, hfold, wrotes_fold _ _ rfl]
      refine ⟨hx, ?_, ?_⟩
      · intro hal
        show sys.handler.state.incoming.Pairwise _
        rw [Sys.step_connAck_incoming hs hc hal]; simp
      · intro hal id
        show id ∈ sys.handler.state.incoming ↔ _
        rw [Sys.step_connAck_incoming hs hc hal]
        simp [Rcv.next]
    · rw [List.foldl_append, List.foldl_append, hfold, wrotes_fold _ _ rfl, handledIn_append, handledIn_append, handledIn_wrotes]
      simp [Rcv.next, handledIn]
  case establishFail hr ha htm hc hs hw hnone =>
    rename_i T cn a b e c ps ws sys
    have hrun : s.running = false := hx.trans hr
    have hres := fun p hp => Sys.step_connected_resent hs p (hw.subset hp)
    have hfold : [Obs.wrote (.connect cn) a b, .read (.connAck c), .delivered (.connAck c)].foldl Rcv.next s =
        { s with opened := [], mid := none } := by
      simp [Rcv.next, hrun, hc]
    refine ⟨Rcv.Keeps.append ⟨hrun, by first | trivial | exact hrun, by first | trivial | exact hrun | exact (next_read_running _ _).trans hrun, trivial⟩ ?_, ?_, ?_⟩
    · rw [hfold]
      exact (wrotes_keeps hres (by exact hrun)).append (by rw [wrotes_fold _ _ rfl]; simp [Rcv.Keeps, Rcv.Fits, hrun])
    · rw [List.foldl_append, List.foldl_append, hfold, wrotes_fold _ _ rfl]
      refine ⟨hx, ?_, ?_⟩
      · intro hal
        show sys.handler.state.incoming.Pairwise _
        rw [Sys.step_connAck_incoming hs hc hal]; simp
      · intro hal id
        show id ∈ sys.handler.state.incoming ↔ _
        rw [Sys.step_connAck_incoming hs hc hal]
        simp [Rcv.next]
    · rw [List.foldl_append, List.foldl_append, hfold, wrotes_fold _ _ rfl, handledIn_append, handledIn_append, handledIn_wrotes]
      simp [Rcv.next, handledIn]
  case establishErr hr ha htm hc hs =>
    rename_i T cn a b e c sys
    have hrun : s.running = false := hx.trans hr
    have hfold : [Obs.wrote (.connect cn) a b, .read (.connAck c), .connectFailed (.handler e)].foldl Rcv.next s =
        { s with opened := [], mid := none } := by
      simp [Rcv.next, hrun, hc]
    refine ⟨⟨hrun, by first | trivial | exact hrun, by first | trivial | exact hrun | exact (next_read_running _ _).trans hrun, trivial⟩, ?_, ?_⟩
    · rw [hfold]
      have hal := Sys.step_stays_alive hs ha (by simp) (by simp)
      have := Sys.step_connAck_incoming hs hc hal
      exact ⟨hx, fun _ => by show sys.handler.state.incoming.Pairwise _; rw [this]; simp, fun _ id => by
        show id ∈ sys.handler.state.incoming ↔ _
        rw [this]⟩
    · rw [hfold]; simp [handledIn]
  case establishPanic hr ha htm hc hs =>
    rename_i T cn a b c sys
    have hrun : s.running = false := hx.trans hr
    have hfold : [Obs.wrote (.connect cn) a b, .read (.connAck c), .connectPanicked].foldl Rcv.next s =
        { s with opened := [], mid := none } := by
      simp [Rcv.next, hrun, hc]
    have hdead := Sys.step_panicked_alive hs
    refine ⟨⟨hrun, by first | trivial | exact hrun, by first | trivial | exact hrun | exact (next_read_running _ _).trans hrun, trivial⟩, ?_, ?_⟩
    · rw [hfold]
      exact ⟨hx, (fun hal => by have : sys.alive = true := hal; rw [hdead] at this; cases this), (fun hal => by have : sys.alive = true := hal; rw [hdead] at this; cases this)⟩
    · rw [hfold]; simp [handledIn]

theorem VRun.inboxed {fl : Flavor} {o : Options} {t : Nat} {tr : List Obs} {w : View} (h : VRun fl (View.init o t) tr w) :
    Inboxed Rcv.start tr w := by
  refine h.induct (fun tr w => Inboxed Rcv.start tr w)
    ⟨trivial, ⟨rfl, fun _ => by simp [View.init, Options.sys, Sys.init, State.new], fun _ id => by
      simp [View.init, Options.sys, Sys.init, State.new, Rcv.start]⟩, rfl⟩ ?_
  intro tr w ob w' hr ih hs
  have := VStep.inboxed hs ih.tracks hr.users
  refine ⟨ih.keeps.append this.keeps, by rw [List.foldl_append]; exact this.tracks, ?_⟩
  rw [List.foldl_append, this.expected, ih.expected, handledIn_append, List.append_assoc]

end Mqrstt
