import Verif.Proof.NetLink
/-! # Where observations stand in a history -/

namespace Mqrstt
open Spec

/-- a property of every position of a list: what is before, what is there, what follows -/
def AllPos (P : List Obs → Obs → List Obs → Prop) (o : List Obs) : Prop := ∀ o1 x o2, o = o1 ++ x :: o2 → P o1 x o2

@[simp] theorem allPos_nil {P} : AllPos P [] := by
  intro o1 x o2 h
  simp at h

@[simp] theorem allPos_cons {P a l} : AllPos P (a :: l) ↔ P [] a l ∧ AllPos (fun o1 => P (a :: o1)) l := by
  constructor
  · intro h
    exact ⟨h [] a l rfl, fun o1 x o2 e => h (a :: o1) x o2 (by rw [e]; rfl)⟩
  · rintro ⟨h1, h2⟩ o1 x o2 e
    cases o1 with
    | nil => simp at e; obtain ⟨rfl, rfl⟩ := e; exact h1
    | cons b o1 => simp at e; obtain ⟨rfl, e⟩ := e; exact h2 o1 x o2 e

theorem allPos_wrotes {P : List Obs → Obs → List Obs → Prop} {T : Times} {ws : List Packet} {l : List Obs}
    (h1 : ∀ p ∈ ws, ∀ o1 o2, P o1 (.wrote p T.fire T.first) o2) (h2 : AllPos (fun o1 => P (wrotes T ws ++ o1)) l) :
    AllPos P (wrotes T ws ++ l) := by
  induction ws generalizing P with
  | nil => exact h2
  | cons p ws ih =>
    refine allPos_cons.2 ⟨h1 p (by simp) _ _, ?_⟩
    exact ih (fun q hq o1 o2 => h1 q (by simp [hq]) _ _) h2

/-- from the steps to the positions of a history -/
theorem VRun.pos {fl o t tr v} (h : VRun fl (View.init o t) tr v) {P : List Obs → Obs → List Obs → Prop}
    (hP : ∀ tr1 v o w, VRun fl (View.init o' t) tr1 v → VStep fl v o w → AllPos P o) (ho : o' = o)
    {pre post : List Obs} {x : Obs} (e : tr = pre ++ x :: post) :
    ∃ tr1 o1 o2 tr2, P o1 x o2 ∧ pre = tr1 ++ o1 ∧ post = o2 ++ tr2 := by
  subst ho
  obtain ⟨v1, v2, tr1, o1, o2, tr2, h1, h2, -, h4, h5⟩ := h.split e
  exact ⟨tr1, o1, o2, tr2, hP _ _ _ _ h1 h2 o1 x o2 rfl, h4, h5⟩

/-! ## one step -/

theorem Sys.write_disconnect {s s' : Sys} {d : ReasonProps} {rest : List Packet} {e : Event}
    (hq : s.queue = .disconnect d :: rest) (h : s.step (.write true) = some (s', e)) : e = .written (.disconnect d) := by
  simp only [Sys.step, hq, Handler.outgoing, Handler.outgoingState, if_true] at h
  split at h
  · simp only [Option.some.injEq, Prod.mk.injEq] at h
    exact h.2.symm
  · simp at h

def PDelivered (o1 : List Obs) (x : Obs) (_ : List Obs) : Prop := ∀ p, x = .delivered p → [.read p] <:+ o1

theorem VStep.delivered {fl v o w} (h : VStep fl v o w) : AllPos PDelivered o := by
  cases h
  case accepted =>
    rename_i reply shown _ _ _
    cases shown <;> cases reply <;> simp [shownObs, wrotes, PDelivered]
  case acceptedFail =>
    rename_i shown _ _ _ _ _
    cases shown <;> simp [shownObs, PDelivered]
  case connectFailed ho => rcases ho with rfl | ⟨_, _, _, rfl⟩ <;> simp [PDelivered]
  case established =>
    simp only [List.cons_append, List.nil_append, allPos_cons]
    refine ⟨by simp [PDelivered], by simp [PDelivered], by simp [PDelivered], ?_⟩
    exact allPos_wrotes (by simp [PDelivered]) (by simp [PDelivered])
  case establishFail =>
    simp only [List.cons_append, List.nil_append, allPos_cons]
    refine ⟨by simp [PDelivered], by simp [PDelivered], by simp [PDelivered], ?_⟩
    exact allPos_wrotes (by simp [PDelivered]) (by simp [PDelivered])
  all_goals simp [PDelivered]

theorem readIn_append (a b : List Obs) : readIn (a ++ b) = readIn a ++ readIn b := by simp [readIn]
theorem deliveredIn_wrotes (T : Times) (ps : List Packet) : deliveredIn (wrotes T ps) = [] := by
  induction ps with
  | nil => rfl
  | cons p ps ih => exact ih

/-- in one step the handler sees only what was read -/
theorem VStep.deliveredRead {fl v o w} (h : VStep fl v o w) : (deliveredIn o).Sublist (readIn o) := by
  cases h
  case accepted =>
    rename_i reply shown _ _ _
    cases shown <;> cases reply <;> simp [shownObs, wrotes, deliveredIn, readIn]
  case acceptedFail =>
    rename_i shown _ _ _ _ _
    cases shown <;> simp [shownObs, deliveredIn, readIn]
  case connectFailed ho => rcases ho with rfl | ⟨_, _, _, rfl⟩ <;> simp [deliveredIn]
  case established =>
    simp only [deliveredIn_append, readIn_append, deliveredIn_wrotes]
    simp [deliveredIn, readIn]
  case establishFail =>
    simp only [deliveredIn_append, readIn_append, deliveredIn_wrotes]
    simp [deliveredIn, readIn]
  all_goals simp [deliveredIn, readIn]

/-- what follows the reading of a packet -/
inductive AfterRead (p : Packet) (o2 : List Obs) : Prop where
  | delivered (h : [.delivered p] <+: o2)
  /-- a suppressed copy of a QoS 2 message -/
  | copy {q : Publish} {id : UInt16} (hp : p = .publish q) (hq : q.qos = .exactlyOnce) (hid : q.pkid = some id)
      (h : (∃ a b, [.wrote (.pubRec ⟨id, .success, .empty⟩) a b] <+: o2) ∨ ∃ e, [.ended (.error e)] <+: o2)
  | rejected {e} (h : [.ended (.error (.handler e))] <+: o2)
  | panicked (h : [.ended .panicked] <+: o2 ∨ [.connectPanicked] <+: o2)
  | connectFailed {e} (h : [.connectFailed e] <+: o2)

def PRead (_ : List Obs) (x : Obs) (o2 : List Obs) : Prop := ∀ p, x = .read p → AfterRead p o2

theorem VStep.readStep {fl v o w} (h : VStep fl v o w) : AllPos PRead o := by
  cases h
  case accepted hs =>
    rename_i p _ reply shown _ _
    cases shown with
    | true => cases reply <;> simp [shownObs, wrotes, PRead] <;> exact .delivered ⟨_, rfl⟩
    | false =>
      cases Sys.step_answer hs
      case qos2 =>
        simp [shownObs, wrotes, PRead]
        exact .copy rfl ‹_› ‹_› (.inl ⟨_, _, _, rfl⟩)
  case acceptedFail hs =>
    rename_i p _ reply shown _ _ _ _
    cases shown with
    | true => simp [shownObs, PRead] ; exact .delivered ⟨_, rfl⟩
    | false =>
      cases Sys.step_answer hs
      case qos2 =>
        simp [shownObs, PRead]
        exact .copy rfl ‹_› ‹_› (.inr ⟨_, _, rfl⟩)
  case connectFailed ho => rcases ho with rfl | ⟨_, _, _, rfl⟩ <;> simp [PRead]
  case established =>
    simp only [List.cons_append, List.nil_append, allPos_cons]
    refine ⟨by simp [PRead], ?_, by simp [PRead], ?_⟩
    · simp [PRead]; exact .delivered ⟨_, rfl⟩
    · exact allPos_wrotes (by simp [PRead]) (by simp [PRead])
  case establishFail =>
    simp only [List.cons_append, List.nil_append, allPos_cons]
    refine ⟨by simp [PRead], ?_, by simp [PRead], ?_⟩
    · simp [PRead]; exact .delivered ⟨_, rfl⟩
    · exact allPos_wrotes (by simp [PRead]) (by simp [PRead])
  all_goals simp [PRead]
  all_goals first
    | exact .delivered ⟨_, rfl⟩
    | exact .rejected ⟨_, rfl⟩
    | exact .panicked (.inl ⟨_, rfl⟩)
    | exact .panicked (.inr ⟨_, rfl⟩)
    | exact .connectFailed ⟨_, rfl⟩

/-- what stands before a status -/
def BeforeStatus (o1 : List Obs) : Status → Prop
  | .incomingDisconnect => ∃ d, [.read (.disconnect d), .delivered (.disconnect d)] <:+ o1
  | .outgoingDisconnect => ∃ d a b, [.wrote (.disconnect d) a b] <:+ o1
  | .keepAliveTimeout => ∃ a b, [.wrote keepAliveDisconnect a b] <:+ o1
  | .shutdownSignal => False

def PStatus (o1 : List Obs) (x : Obs) (_ : List Obs) : Prop := ∀ st, x = .ended (.status st) → BeforeStatus o1 st

theorem VStep.status {fl v o w} (h : VStep fl v o w) : AllPos PStatus o := by
  cases h
  case accepted =>
    rename_i reply shown _ _ _
    cases shown <;> cases reply <;> simp [shownObs, wrotes, PStatus]
  case acceptedFail =>
    rename_i shown _ _ _ _ _
    cases shown <;> simp [shownObs, PStatus]
  case connectFailed ho => rcases ho with rfl | ⟨_, _, _, rfl⟩ <;> simp [PStatus]
  case established =>
    simp only [List.cons_append, List.nil_append, allPos_cons]
    refine ⟨by simp [PStatus], by simp [PStatus], by simp [PStatus], ?_⟩
    exact allPos_wrotes (by simp [PStatus]) (by simp [PStatus])
  case establishFail =>
    simp only [List.cons_append, List.nil_append, allPos_cons]
    refine ⟨by simp [PStatus], by simp [PStatus], by simp [PStatus], ?_⟩
    exact allPos_wrotes (by simp [PStatus]) (by simp [PStatus])
  case readDisc => simp [PStatus]; exact ⟨_, List.suffix_rfl⟩
  case outDisc hd =>
    simp [PStatus]
    rename_i p _ _ _
    cases p <;> simp [Packet.isDisconnect] at hd
    exact ⟨_, _, _, List.suffix_rfl⟩
  case timeout => simp [PStatus]; exact ⟨_, _, List.suffix_rfl⟩
  case idleTimeout => simp [PStatus]; exact ⟨_, _, List.suffix_rfl⟩
  all_goals simp [PStatus]

def PReadDisc (_ : List Obs) (x : Obs) (o2 : List Obs) : Prop := ∀ d, x = .read (.disconnect d) →
  [.delivered (.disconnect d), .ended (.status .incomingDisconnect)] <+: o2 ∨
    [.connectFailed (.notConnAck (.disconnect d))] <+: o2

theorem VStep.readDisconnect {fl v o w} (h : VStep fl v o w) : AllPos PReadDisc o := by
  cases h
  case accepted hp _ =>
    rename_i p _ reply shown _ _
    cases p <;> simp [Packet.forSession] at hp <;> cases shown <;> cases reply <;>
      simp [shownObs, wrotes, PReadDisc]
  case acceptedFail hp _ _ =>
    rename_i p _ reply shown _ _ _ _
    cases p <;> simp [Packet.forSession] at hp <;> cases shown <;> simp [shownObs, PReadDisc]
  case refusedPacket hp _ =>
    rename_i p _ _ _ _
    cases p <;> simp [Packet.forSession] at hp <;> simp [PReadDisc]
  case readPanic hp _ =>
    rename_i p _ _ _
    cases p <;> simp [Packet.forSession] at hp <;> simp [PReadDisc]
  case connectFailed ho => rcases ho with rfl | ⟨_, _, _, rfl⟩ <;> simp [PReadDisc]
  case established =>
    simp only [List.cons_append, List.nil_append, allPos_cons]
    refine ⟨by simp [PReadDisc], by simp [PReadDisc], by simp [PReadDisc], ?_⟩
    exact allPos_wrotes (by simp [PReadDisc]) (by simp [PReadDisc])
  case establishFail =>
    simp only [List.cons_append, List.nil_append, allPos_cons]
    refine ⟨by simp [PReadDisc], by simp [PReadDisc], by simp [PReadDisc], ?_⟩
    exact allPos_wrotes (by simp [PReadDisc]) (by simp [PReadDisc])
  case readDisc => simp [PReadDisc]
  case notConnAck => simp [PReadDisc]; intro d h; exact h.symm
  all_goals simp [PReadDisc]

def PWroteDisc (_ : List Obs) (x : Obs) (o2 : List Obs) : Prop := ∀ d a b, x = .wrote (.disconnect d) a b →
  [.ended (.status .outgoingDisconnect)] <+: o2 ∨
    (.disconnect d = keepAliveDisconnect ∧ [.ended (.status .keepAliveTimeout)] <+: o2)

theorem resent_wroteDisc {T : Times} {ps ws : List Packet} (h : ∀ p ∈ ps, p.resent) (hw : ws.Sublist ps) :
    ∀ p ∈ ws, ∀ o1 o2, PWroteDisc o1 (.wrote p T.fire T.first) o2 := by
  intro p hp o1 o2 d a b e
  simp only [Obs.wrote.injEq] at e
  have := h p (hw.subset hp)
  rw [e.1] at this
  simp [Packet.resent] at this

theorem VStep.wroteDisconnect {fl v o w} (h : VStep fl v o w) : AllPos PWroteDisc o := by
  cases h
  case accepted hs =>
    rename_i p _ reply shown _ _
    have := Sys.step_answer hs
    cases this <;> (try cases shown) <;> simp [shownObs, wrotes, PWroteDisc]
  case acceptedFail =>
    rename_i shown _ _ _ _ _
    cases shown <;> simp [shownObs, PWroteDisc]
  case connectFailed ho => rcases ho with rfl | ⟨_, _, _, rfl⟩ <;> simp [PWroteDisc]
  case established hs hw _ =>
    simp only [List.cons_append, List.nil_append, allPos_cons]
    refine ⟨by simp [PWroteDisc], by simp [PWroteDisc], by simp [PWroteDisc], ?_⟩
    refine allPos_wrotes ?_ (by simp [PWroteDisc])
    intro p hp o1 o2
    exact resent_wroteDisc (Sys.step_connected_resent hs) hw p hp _ _
  case establishFail hs hw hnone =>
    simp only [List.cons_append, List.nil_append, allPos_cons]
    refine ⟨by simp [PWroteDisc], by simp [PWroteDisc], by simp [PWroteDisc], ?_⟩
    refine allPos_wrotes ?_ (by simp [PWroteDisc])
    intro p hp o1 o2
    exact resent_wroteDisc (Sys.step_connected_resent hs) hw p hp _ _
  case outOk hd =>
    simp [PWroteDisc]
    rintro d rfl
    simp [Packet.isDisconnect] at hd
  case outErr hs =>
    simp [PWroteDisc]
    rintro d rfl
    obtain ⟨p', rest, hq, ⟨-, h' | ⟨_, h'⟩ | h'⟩ | ⟨h', -⟩⟩ := Sys.step_write_event hs
    · cases h'
    · cases h'; have := Sys.write_disconnect hq hs; cases this
    · cases h'
    · cases h'
  case outPanic hq hs =>
    simp [PWroteDisc]
    rintro d rfl
    have := Sys.write_disconnect hq hs; cases this
  case outDisc => simp [PWroteDisc]
  case timeout => simp [PWroteDisc]; intro d h; exact h.symm
  case idleTimeout => simp [PWroteDisc]; intro d h; exact h.symm
  all_goals simp [PWroteDisc]

/-- what stands before an acknowledgement -/
def BeforeAck (o1 : List Obs) : Packet → Prop
  | .pubAck a => ∃ q : Publish, q.qos = .atLeastOnce ∧ q.pkid = some a.id ∧
      [.read (.publish q), .delivered (.publish q)] <:+ o1
  | .pubRec a => ∃ q : Publish, q.qos = .exactlyOnce ∧ q.pkid = some a.id ∧
      ([.read (.publish q), .delivered (.publish q)] <:+ o1 ∨ [.read (.publish q)] <:+ o1)
  | .pubComp a => ∃ b : Ack, b.id = a.id ∧ [.read (.pubRel b), .delivered (.pubRel b)] <:+ o1
  | _ => True

def PAck (o1 : List Obs) (x : Obs) (_ : List Obs) : Prop := ∀ p a b, x = .wrote p a b → BeforeAck o1 p

theorem fromUser_beforeAck {p : Packet} (h : p.fromUser) (o1 : List Obs) : BeforeAck o1 p := by
  cases p <;> first | trivial | simp [Packet.fromUser] at h

theorem resent_beforeAck {p : Packet} (h : p.resent) (o1 : List Obs) : BeforeAck o1 p := by
  cases p <;> first | trivial | simp [Packet.resent] at h

theorem written_fromUser {s s' : Sys} {p : Packet} {e : Event} (hu : s.Users) (hs : s.step (.write true) = some (s', e))
    (he : e = .written p ∨ ∃ er, e = .writtenError p er) : p.fromUser := by
  obtain ⟨p', rest, hq, ⟨-, h' | ⟨_, h'⟩ | h'⟩ | ⟨h', -⟩⟩ := Sys.step_write_event hs
  · rcases he with he | ⟨_, he⟩ <;> rw [he] at h' <;> cases h'
    exact hu p (.inr (by simp [hq]))
  · rcases he with he | ⟨_, he⟩ <;> rw [he] at h' <;> cases h'
    exact hu p (.inr (by simp [hq]))
  · rcases he with he | ⟨_, he⟩ <;> rw [he] at h' <;> cases h'
  · cases h'

theorem VStep.acks {fl v o w} (hu : v.sys.Users) (h : VStep fl v o w) : AllPos PAck o := by
  cases h
  case accepted hs =>
    rename_i p _ reply shown _ _
    have := Sys.step_answer hs
    cases this
    case qos1 => simp [shownObs, wrotes, PAck]; exact ⟨_, ‹_›, ‹_›, List.suffix_rfl⟩
    case qos2 =>
      cases shown <;> simp [shownObs, wrotes, PAck] 
      · exact ⟨_, ‹_›, ‹_›, .inr List.suffix_rfl⟩
      · exact ⟨_, ‹_›, ‹_›, .inl List.suffix_rfl⟩
    case pubRel => simp [shownObs, wrotes, PAck]; refine ⟨_, ?_, List.suffix_rfl⟩; rfl
    all_goals simp [shownObs, wrotes, PAck]
    trivial
  case acceptedFail =>
    rename_i shown _ _ _ _ _
    cases shown <;> simp [shownObs, PAck]
  case connectFailed ho =>
    rcases ho with rfl | ⟨_, _, _, rfl⟩ <;> simp [PAck]
    trivial
  case established hs hw _ =>
    simp only [List.cons_append, List.nil_append, allPos_cons]
    refine ⟨by simp [PAck]; trivial, by simp [PAck], by simp [PAck], ?_⟩
    refine allPos_wrotes ?_ (by simp [PAck])
    intro p hp o1 o2 q a b e
    cases e
    exact resent_beforeAck (Sys.step_connected_resent hs p (hw.subset hp)) _
  case establishFail hs hw hnone =>
    simp only [List.cons_append, List.nil_append, allPos_cons]
    refine ⟨by simp [PAck]; trivial, by simp [PAck], by simp [PAck], ?_⟩
    refine allPos_wrotes ?_ (by simp [PAck])
    intro p hp o1 o2 q a b e
    cases e
    exact resent_beforeAck (Sys.step_connected_resent hs p (hw.subset hp)) _
  case outOk hs _ => simp [PAck]; exact fromUser_beforeAck (written_fromUser hu hs (.inl rfl)) _
  case outDisc hs _ => simp [PAck]; exact fromUser_beforeAck (written_fromUser hu hs (.inl rfl)) _
  case outErr hs => simp [PAck]; exact fromUser_beforeAck (written_fromUser hu hs (.inr ⟨_, rfl⟩)) _
  case outPanic hq hs =>
    simp [PAck]; exact fromUser_beforeAck (hu _ (.inr (by simp [hq]))) _
  all_goals simp [PAck]
  all_goals trivial

end Mqrstt
