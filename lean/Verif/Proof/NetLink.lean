import Verif.Proof.NetFacts
/-! # A history of a network contains a history of the session -/

namespace Mqrstt
open Spec Props

/-- the part of the options the session depends on -/
def Options.config (o : Options) : Config := ⟨o.sendMaximum, o.receiveMaximum, o.maximumPacketSize, o.cleanStart⟩

/-- what a step of the session passes to the user's handler -/
def Event.shows : Event → List Packet
  | .received p _ true => [p]
  | .connected c _ => [.connAck c]
  | _ => []

/-- what the handler was called with by way of the session: everything but PINGRESP and DISCONNECT -/
def sessionDelivered (tr : List Obs) : List Packet := (deliveredIn tr).filter Packet.forSession

theorem received_shows (p : Packet) (r : Option Packet) (b : Bool) :
    (if b = true then [p] else []) = (Event.received p r b).shows := by cases b <;> rfl

theorem deliveredIn_append (a b : List Obs) : deliveredIn (a ++ b) = deliveredIn a ++ deliveredIn b := by
  simp [deliveredIn]
theorem sessionDelivered_append (a b : List Obs) :
    sessionDelivered (a ++ b) = sessionDelivered a ++ sessionDelivered b := by
  simp [sessionDelivered, deliveredIn]
theorem submittedIn_append (a b : List Obs) : submittedIn (a ++ b) = submittedIn a ++ submittedIn b := by
  simp [submittedIn]
theorem freshIn_append (a b : List Obs) : freshIn (a ++ b) = freshIn a ++ freshIn b := by
  simp [freshIn, writtenIn]

theorem sessionDelivered_wrotes (T : Times) (ps : List Packet) : sessionDelivered (wrotes T ps) = [] := by
  induction ps with
  | nil => rfl
  | cons p ps ih => exact ih

theorem submittedIn_wrotes (T : Times) (ps : List Packet) : submittedIn (wrotes T ps) = [] := by
  induction ps with
  | nil => rfl
  | cons p ps ih => exact ih

theorem freshIn_wrotes (T : Times) (ps : List Packet) : freshIn (wrotes T ps) = ps.filter isFresh := by
  have : writtenIn (wrotes T ps) = ps := by
    induction ps with
    | nil => rfl
    | cons p ps ih =>
      simp only [writtenIn, wrotes, List.map_cons, List.filterMap_cons] at ih ⊢
      rw [ih]
  simp [freshIn, this]

theorem sessionDelivered_shown {p : Packet} (hp : p.forSession = true) (b : Bool) :
    sessionDelivered (shownObs p b) = if b then [p] else [] := by
  cases b <;> simp [sessionDelivered, shownObs, deliveredIn, hp]

theorem submittedIn_shown (p : Packet) (b : Bool) : submittedIn (shownObs p b) = [] := by
  cases b <;> rfl
theorem freshIn_shown (p : Packet) (b : Bool) : freshIn (shownObs p b) = [] := by
  cases b <;> rfl

theorem resent_not_fresh {p : Packet} (h : p.resent) : isFresh p = false := by
  cases p <;> simp_all [Packet.resent, isFresh]

theorem resent_filter {ps ws : List Packet} (h : ∀ p ∈ ps, p.resent) (hw : ws.Sublist ps) : ws.filter isFresh = [] := by
  rw [List.filter_eq_nil_iff]
  intro p hp
  simp [resent_not_fresh (h p (hw.subset hp))]

theorem answer_filter {p : Packet} {r : Option Packet} {b : Bool} (h : Sys.Answer p r b) : r.toList.filter isFresh = [] := by
  cases h <;> rfl

/-- one step of a network and the session -/
structure Linked (v : View) (o : List Obs) (w : View) (op : Op) (e : Event) : Prop where
  step : v.sys.step op = some (w.sys, e)
  shows : sessionDelivered o = e.shows
  submitted : submittedIn o = submittedPackets [e]
  fresh : (freshIn o).Sublist (takenPackets [e]) ∨
    (w.sys.alive = false ∧ submittedIn o = [] ∧ ∃ p rest, v.sys.queue = p :: rest ∧ (freshIn o).Sublist [p])
  alive : v.sys.alive = true ∨ freshIn o = []

theorem client_user {e : Event} (h : e.ofClient = true) :
    sessionDelivered [.user e] = e.shows ∧ submittedIn [.user e] = submittedPackets [e] ∧ freshIn [.user e] = [] := by
  cases e <;> first | exact ⟨rfl, rfl, rfl⟩ | simp [Event.ofClient] at h

theorem VStep.linked {fl v o w} (h : VStep fl v o w) :
    (w.sys = v.sys ∧ sessionDelivered o = [] ∧ submittedIn o = [] ∧ freshIn o = []) ∨ ∃ op e, Linked v o w op e := by
  cases h
  case client hc hs =>
    have := client_user (Sys.step_ofClient hc hs)
    exact .inr ⟨_, _, hs, this.1, this.2.1, .inl (by rw [this.2.2]; exact List.nil_sublist _), .inr this.2.2⟩
  case drop hs =>
    obtain ⟨rfl, -, -⟩ := Sys.step_drop hs
    exact .inr ⟨_, _, hs, rfl, rfl, .inl (List.nil_sublist _), .inr rfl⟩
  case accepted hR hp hs =>
    have := hR.alive
    refine .inr ⟨_, _, hs, ?_, ?_, .inl ?_, .inl ‹_›⟩
    · rw [sessionDelivered_append, sessionDelivered_shown hp, sessionDelivered_wrotes]
      rw [List.append_nil, received_shows]
    · rw [submittedIn_append, submittedIn_shown, submittedIn_wrotes]; rfl
    · rw [freshIn_append, freshIn_shown, freshIn_wrotes, answer_filter (Sys.step_answer hs)]
      exact List.nil_sublist _
  case acceptedFail hR hp _ hs =>
    have := hR.alive
    refine .inr ⟨_, _, hs, ?_, ?_, .inl ?_, .inl ‹_›⟩
    · rw [sessionDelivered_append, sessionDelivered_shown hp]
      exact (List.append_nil _).trans (received_shows _ _ _)
    · rw [submittedIn_append, submittedIn_shown]; rfl
    · rw [freshIn_append, freshIn_shown]; exact List.nil_sublist _
  case refusedPacket hs => exact .inr ⟨_, _, hs, rfl, rfl, .inl (List.nil_sublist _), .inr rfl⟩
  case readPanic hs => exact .inr ⟨_, _, hs, rfl, rfl, .inl (List.nil_sublist _), .inr rfl⟩
  case crashed h =>
    exact .inr ⟨.dropNetwork, .networkDropped, by simp [Sys.step, View.finish, h.alive], rfl, rfl, .inl (List.nil_sublist _), .inr rfl⟩
  case connectCrashed ha _ =>
    exact .inr ⟨.dropNetwork, .networkDropped, by simp [Sys.step, ha], rfl, rfl, .inl (List.nil_sublist _), .inr rfl⟩
  case outFail hs =>
    exact .inr ⟨_, _, hs, rfl, rfl, .inl (List.nil_sublist _), .inr rfl⟩
  case outOk hR hs hd => exact .inr ⟨_, _, hs, rfl, rfl, .inl List.filter_sublist, .inl hR.alive⟩
  case outDisc hR hs hd => exact .inr ⟨_, _, hs, rfl, rfl, .inl List.filter_sublist, .inl hR.alive⟩
  case outErr hR hs => exact .inr ⟨_, _, hs, rfl, rfl, .inl List.filter_sublist, .inl hR.alive⟩
  case outPanic hR hq hs =>
    exact .inr ⟨_, _, hs, rfl, rfl, .inr ⟨Sys.step_panicked_alive hs, rfl, _, _, hq, List.filter_sublist⟩, .inl hR.alive⟩
  case connectFailed ho => rcases ho with rfl | ⟨_, _, _, rfl⟩ <;> exact .inl ⟨rfl, rfl, rfl, rfl⟩
  case established hs hw _ =>
    refine .inr ⟨_, _, hs, ?_, ?_, .inl ?_, .inl ‹_›⟩
    · rw [sessionDelivered_append, sessionDelivered_append, sessionDelivered_wrotes]; rfl
    · rw [submittedIn_append, submittedIn_append, submittedIn_wrotes]; rfl
    · rw [freshIn_append, freshIn_append, freshIn_wrotes, resent_filter (Sys.step_connected_resent hs) hw]
      exact List.nil_sublist _
  case establishFail hs hw hnone =>
    refine .inr ⟨_, _, hs, ?_, ?_, .inl ?_, .inl ‹_›⟩
    · rw [sessionDelivered_append, sessionDelivered_append, sessionDelivered_wrotes]; rfl
    · rw [submittedIn_append, submittedIn_append, submittedIn_wrotes]; rfl
    · rw [freshIn_append, freshIn_append, freshIn_wrotes, resent_filter (Sys.step_connected_resent hs) hw]
      exact List.nil_sublist _
  case establishErr hs => exact .inr ⟨_, _, hs, rfl, rfl, .inl (List.nil_sublist _), .inr rfl⟩
  case establishPanic hs => exact .inr ⟨_, _, hs, rfl, rfl, .inl (List.nil_sublist _), .inr rfl⟩
  all_goals exact .inl ⟨rfl, rfl, rfl, rfl⟩

/-- a history of a network contains a history of the session -/
structure Contains (o : Options) (s : Sys) (tr : List Obs) (ops : List Op) : Prop where
  sys : s = client o.config ops
  shows : sessionDelivered tr = (events o.config ops).flatMap Event.shows
  submitted : submittedIn tr = submittedPackets (events o.config ops)
  fresh : (freshIn tr).Sublist (submittedPackets (events o.config ops))
  taken : s.alive = true → (freshIn tr).Sublist (takenPackets (events o.config ops))

theorem VRun.contains {fl o t tr v} (h : VRun fl (View.init o t) tr v) : ∃ ops, Contains o v.sys tr ops := by
  refine h.induct (fun tr v => ∃ ops, Contains o v.sys tr ops)
    ⟨[], rfl, rfl, rfl, List.nil_sublist _, fun _ => List.nil_sublist _⟩ ?_
  rintro tr w ob w' - ⟨ops, hc⟩ hs
  rcases hs.linked with ⟨h1, h2, h3, h4⟩ | ⟨op, e, hl⟩
  · refine ⟨ops, ?_⟩
    rw [h1]
    exact ⟨hc.sys, by rw [sessionDelivered_append, h2]; simpa using hc.shows,
      by rw [submittedIn_append, h3]; simpa using hc.submitted,
      by rw [freshIn_append, h4]; simpa using hc.fresh,
      by rw [freshIn_append, h4]; simpa using hc.taken⟩
  · have hstep := hl.step
    rw [hc.sys] at hstep
    obtain ⟨g1, g2⟩ := client_snoc o.config ops hstep
    have hf : Fifo (client o.config ops) (events o.config ops) := by
      have := Fifo.run ops (s := Sys.init o.config.sendMax o.config.recvMax o.config.maxPacketSize o.config.cleanStart)
        (h := []) ⟨[], rfl, fun _ => rfl⟩
      simpa [client, events] using this
    refine ⟨ops ++ [op], g1.symm, ?_, ?_, ?_, ?_⟩
    · rw [sessionDelivered_append, hc.shows, hl.shows, g2]; simp
    · rw [submittedIn_append, hc.submitted, hl.submitted, g2, submitted_append]
    · rw [freshIn_append, g2]
      rcases hl.alive with ha | h0
      · rcases hl.fresh with h1 | ⟨-, -, p, rest, hq, h1⟩
        · obtain ⟨rest, hr, -⟩ := hf.step hstep
          rw [hr, taken_append]
          exact ((hc.taken ha).append h1).trans (List.sublist_append_left _ _)
        · obtain ⟨rest', hr, hq'⟩ := hf
          rw [hc.sys] at hq ha
          rw [hq' ha, hq] at hr
          rw [submitted_append, hr]
          refine List.Sublist.trans ?_ (List.sublist_append_left _ _)
          rw [hc.sys] at hc
          exact (hc.taken ha).append (h1.trans (List.cons_sublist_cons.2 (List.nil_sublist _)))
      · rw [h0, List.append_nil, submitted_append]
        exact hc.fresh.trans (List.sublist_append_left _ _)
    · intro ha
      rw [freshIn_append, g2, taken_append]
      rcases hl.fresh with h1 | ⟨h1, -⟩
      · exact (hc.taken (Sys.step_alive hl.step ha)).append h1
      · rw [h1] at ha; simp at ha

end Mqrstt
