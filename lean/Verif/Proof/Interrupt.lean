import Verif.Spec.Interrupt
import Verif.Proof.Cuts
/-! # A history in which calls are dropped contains a history of the session -/

namespace Mqrstt
open Mqrstt.Spec Props

theorem calledIn_append (a b : List Obs) : calledIn (a ++ b) = calledIn a ++ calledIn b := by simp [calledIn]
theorem callsOf_append (a b : List Event) : callsOf (a ++ b) = callsOf a ++ callsOf b := by simp [callsOf]

theorem calledIn_wrotes (T : Times) (ps : List Packet) : calledIn (wrotes T ps) = [] := by
  induction ps with
  | nil => rfl
  | cons p ps ih => exact ih

theorem calledIn_shown (p : Packet) (b : Bool) : calledIn (shownObs p b) = [] := by cases b <;> rfl

theorem client_called {e : Event} : calledIn [.user e] = callsOf [e] := by cases e <;> rfl

/-- `VStep.linked`, with the calls -/
theorem VStep.linkedCalls {fl v o w} (h : VStep fl v o w) :
    (w.sys = v.sys ∧ sessionDelivered o = [] ∧ submittedIn o = [] ∧ freshIn o = [] ∧ calledIn o = []) ∨
      ∃ op e, Linked v o w op e ∧ calledIn o = callsOf [e] := by
  cases h
  case client hc hs =>
    have := client_user (Sys.step_ofClient hc hs)
    exact .inr ⟨_, _, ⟨hs, this.1, this.2.1, .inl (by rw [this.2.2]; exact List.nil_sublist _), .inr this.2.2⟩, client_called⟩
  case drop hs =>
    obtain ⟨rfl, -, -⟩ := Sys.step_drop hs
    exact .inr ⟨_, _, ⟨hs, rfl, rfl, .inl (List.nil_sublist _), .inr rfl⟩, rfl⟩
  case accepted hR hp hs =>
    have := hR.alive
    refine .inr ⟨_, _, ⟨hs, ?_, ?_, .inl ?_, .inl ‹_›⟩, ?_⟩
    · rw [sessionDelivered_append, sessionDelivered_shown hp, sessionDelivered_wrotes]
      rw [List.append_nil, received_shows]
    · rw [submittedIn_append, submittedIn_shown, submittedIn_wrotes]; rfl
    · rw [freshIn_append, freshIn_shown, freshIn_wrotes, answer_filter (Sys.step_answer hs)]
      exact List.nil_sublist _
    · rw [calledIn_append, calledIn_shown, calledIn_wrotes]; rfl
  case acceptedFail hR hp _ hs =>
    have := hR.alive
    refine .inr ⟨_, _, ⟨hs, ?_, ?_, .inl ?_, .inl ‹_›⟩, ?_⟩
    · rw [sessionDelivered_append, sessionDelivered_shown hp]
      exact (List.append_nil _).trans (received_shows _ _ _)
    · rw [submittedIn_append, submittedIn_shown]; rfl
    · rw [freshIn_append, freshIn_shown]; exact List.nil_sublist _
    · rw [calledIn_append, calledIn_shown]; rfl
  case refusedPacket hs => exact .inr ⟨_, _, ⟨hs, rfl, rfl, .inl (List.nil_sublist _), .inr rfl⟩, rfl⟩
  case readPanic hs => exact .inr ⟨_, _, ⟨hs, rfl, rfl, .inl (List.nil_sublist _), .inr rfl⟩, rfl⟩
  case crashed h =>
    exact .inr ⟨.dropNetwork, .networkDropped, ⟨by simp [Sys.step, View.finish, h.alive], rfl, rfl, .inl (List.nil_sublist _), .inr rfl⟩, rfl⟩
  case connectCrashed ha _ =>
    exact .inr ⟨.dropNetwork, .networkDropped, ⟨by simp [Sys.step, ha], rfl, rfl, .inl (List.nil_sublist _), .inr rfl⟩, rfl⟩
  case outFail hs =>
    exact .inr ⟨_, _, ⟨hs, rfl, rfl, .inl (List.nil_sublist _), .inr rfl⟩, rfl⟩
  case outOk hR hs hd => exact .inr ⟨_, _, ⟨hs, rfl, rfl, .inl List.filter_sublist, .inl hR.alive⟩, rfl⟩
  case outDisc hR hs hd => exact .inr ⟨_, _, ⟨hs, rfl, rfl, .inl List.filter_sublist, .inl hR.alive⟩, rfl⟩
  case outErr hR hs => exact .inr ⟨_, _, ⟨hs, rfl, rfl, .inl List.filter_sublist, .inl hR.alive⟩, rfl⟩
  case outPanic hR hq hs =>
    exact .inr ⟨_, _, ⟨hs, rfl, rfl, .inr ⟨Sys.step_panicked_alive hs, rfl, _, _, hq, List.filter_sublist⟩, .inl hR.alive⟩, rfl⟩
  case connectFailed ho => rcases ho with rfl | ⟨_, _, _, rfl⟩ <;> exact .inl ⟨rfl, rfl, rfl, rfl, rfl⟩
  case established hs hw _ =>
    refine .inr ⟨_, _, ⟨hs, ?_, ?_, .inl ?_, .inl ‹_›⟩, ?_⟩
    · rw [sessionDelivered_append, sessionDelivered_append, sessionDelivered_wrotes]; rfl
    · rw [submittedIn_append, submittedIn_append, submittedIn_wrotes]; rfl
    · rw [freshIn_append, freshIn_append, freshIn_wrotes, resent_filter (Sys.step_connected_resent hs) hw]
      exact List.nil_sublist _
    · rw [calledIn_append, calledIn_append, calledIn_wrotes]; rfl
  case establishFail hs hw hnone =>
    refine .inr ⟨_, _, ⟨hs, ?_, ?_, .inl ?_, .inl ‹_›⟩, ?_⟩
    · rw [sessionDelivered_append, sessionDelivered_append, sessionDelivered_wrotes]; rfl
    · rw [submittedIn_append, submittedIn_append, submittedIn_wrotes]; rfl
    · rw [freshIn_append, freshIn_append, freshIn_wrotes, resent_filter (Sys.step_connected_resent hs) hw]
      exact List.nil_sublist _
    · rw [calledIn_append, calledIn_append, calledIn_wrotes]; rfl
  case establishErr hs => exact .inr ⟨_, _, ⟨hs, rfl, rfl, .inl (List.nil_sublist _), .inr rfl⟩, rfl⟩
  case establishPanic hs => exact .inr ⟨_, _, ⟨hs, rfl, rfl, .inl (List.nil_sublist _), .inr rfl⟩, rfl⟩
  all_goals exact .inl ⟨rfl, rfl, rfl, rfl, rfl⟩

theorem Event.shows_length (e : Event) : e.shows.length ≤ 1 := by
  unfold Event.shows
  split <;> simp

/-- a dropped call: the session may have made a step, whose packet the handler may not have seen -/
structure CutLink (s s' : Sys) (obs : List Obs) : Prop where
  called : calledIn obs = []
  submitted : submittedIn obs = []
  fresh : freshIn obs = []
  dropped : droppedIn obs = 1
  runs : obs.foldl runStep true = false ∧ obs.foldl runStep false = false
  session : (s' = s ∧ sessionDelivered obs = []) ∨ ∃ op e, s.step op = some (s', e) ∧ callsOf [e] = [] ∧
    submittedPackets [e] = [] ∧ (sessionDelivered obs).Sublist e.shows

theorem CutLink.cut {s : Sys} {pre : List Obs} (h1 : calledIn pre = []) (h2 : submittedIn pre = []) (h3 : freshIn pre = [])
    (h4 : droppedIn pre = 0) {s' : Sys} (h5 : (s' = s ∧ sessionDelivered pre = []) ∨ ∃ op e, s.step op = some (s', e) ∧ callsOf [e] = [] ∧
    submittedPackets [e] = [] ∧ (sessionDelivered pre).Sublist e.shows) : CutLink s s' (pre ++ [.cancelled]) := by
  refine ⟨?_, ?_, ?_, ?_, ?_, ?_⟩
  · rw [calledIn_append, h1]; rfl
  · rw [submittedIn_append, h2]; rfl
  · rw [freshIn_append, h3]; rfl
  · simp only [droppedIn, List.countP_append] at h4 ⊢; rw [h4]; rfl
  · simp [List.foldl_append, runStep]
  · rw [sessionDelivered_append, show sessionDelivered [.cancelled] = [] from rfl, List.append_nil]
    exact h5

theorem received_link {s s' : Sys} {p q : Packet} {r : Option Packet} {b : Bool}
    (h : s.step (.receive p) = some (s', .received q r b)) {obs : List Obs} (ho : sessionDelivered obs = [] ∨
      (sessionDelivered obs).Sublist (Event.received q r b).shows) :
    (s' = s ∧ sessionDelivered obs = []) ∨ ∃ op e, s.step op = some (s', e) ∧ callsOf [e] = [] ∧
    submittedPackets [e] = [] ∧ (sessionDelivered obs).Sublist e.shows := by
  refine .inr ⟨_, _, h, rfl, rfl, ?_⟩
  rcases ho with ho | ho
  · rw [ho]; exact List.nil_sublist _
  · exact ho

theorem shown_sublist {p q : Packet} {r : Option Packet} {b : Bool} (e : q = p) :
    (sessionDelivered (if b = true then [Obs.read p, .delivered p] else [.read p])).Sublist (Event.received q r b).shows := by
  subst e
  cases b
  · exact List.nil_sublist _
  · simp only [if_true, sessionDelivered, deliveredIn, Event.shows]
    exact List.filter_sublist

theorem writeFailed_link {s s' : Sys} {e : Event} (h : s.step (.write false) = some (s', e)) :
    (s' = s ∧ sessionDelivered [] = []) ∨ ∃ op e, s.step op = some (s', e) ∧ callsOf [e] = [] ∧
    submittedPackets [e] = [] ∧ (sessionDelivered []).Sublist e.shows := by
  refine .inr ⟨_, _, h, ?_⟩
  obtain ⟨p, rest, -, ⟨h1, -⟩ | ⟨-, rfl⟩⟩ := Sys.step_write_event h
  · cases h1
  · exact ⟨rfl, rfl, List.nil_sublist _⟩

theorem TokioWire.drop_link {s s' : TokioWire} {b : TokioBranch} {d : DropAt} {lost : Nat} {T : Times} {obs : List Obs}
    (h : s.drop b d lost T = some (s', obs)) : CutLink s.net.sys s'.net.sys obs ∧ s'.net.run = none := by
  simp only [TokioWire.drop] at h
  split at h
  · split at h
    · cases b with
      | read =>
        simp only [TokioWire.dropRead] at h
        split at h
        · split at h
          · split at h
            · cases h
              exact ⟨CutLink.cut (pre := [.read _]) rfl rfl rfl rfl (.inl ⟨rfl, rfl⟩), rfl⟩
            · cases h
          · split at h
            · cases h
              exact ⟨CutLink.cut (pre := [.read _]) rfl rfl rfl rfl (.inl ⟨rfl, rfl⟩), rfl⟩
            · cases h
          · split at h
            · rename_i hs
              split at h
              · split at h
                · cases h
                  exact ⟨CutLink.cut (pre := [.read _]) rfl rfl rfl rfl (received_link hs (.inl rfl)), rfl⟩
                · cases h
              · simp only [TokioWire.cut] at h
                split at h
                · cases h
                  refine ⟨CutLink.cut ?_ ?_ ?_ ?_ (received_link hs (.inr ?_)), rfl⟩
                  · split <;> rfl
                  · split <;> rfl
                  · split <;> rfl
                  · split <;> rfl
                  · exact shown_sublist (by obtain ⟨_, _, e⟩ | ⟨_, e⟩ | e := Sys.step_receive_event hs <;> cases e; rfl)
                · cases h
              · cases h
            · cases h
        · cases h
      | readError => cases h
      | outgoing =>
        simp only at h
        split at h
        · simp only [TokioWire.dropOutgoing] at h
          split at h
          · split at h
            · rename_i sys e hs
              simp only [TokioWire.cut] at h
              split at h
              · cases h
                exact ⟨CutLink.cut (pre := []) rfl rfl rfl rfl (writeFailed_link hs), rfl⟩
              · cases h
            · cases h
          · cases h
        · cases h
      | timer =>
        simp only at h
        split at h
        · simp only [TokioWire.dropTimer] at h
          split at h
          · split at h
            · split at h
              · simp only [TokioWire.cut] at h
                split at h
                · cases h
                  exact ⟨CutLink.cut (pre := []) rfl rfl rfl rfl (.inl ⟨rfl, rfl⟩), rfl⟩
                · cases h
              · cases h
            · simp only [TokioWire.cut] at h
              split at h
              · cases h
                exact ⟨CutLink.cut (pre := []) rfl rfl rfl rfl (.inl ⟨rfl, rfl⟩), rfl⟩
              · cases h
            · cases h
          · cases h
        · cases h
    · cases h
  · cases h

theorem SmolWire.drop_link {s s' : SmolWire} {b : SmolBranch} {d : DropAt} {T : Times} {obs : List Obs}
    (h : s.drop b d T = some (s', obs)) : CutLink s.net.sys s'.net.sys obs ∧ s'.net.running = false := by
  simp only [SmolWire.drop] at h
  split at h
  · split at h
    · cases b with
      | read chunk =>
        simp only [SmolWire.dropRead] at h
        split at h
        · cases h
        · split at h
          · split at h
            · split at h
              · cases h
                exact ⟨CutLink.cut (pre := [.read _]) rfl rfl rfl rfl (.inl ⟨rfl, rfl⟩), rfl⟩
              · simp only [SmolWire.cut] at h
                split at h
                · cases h
                  exact ⟨CutLink.cut (pre := [.read _, .delivered _]) rfl rfl rfl rfl (.inl ⟨rfl, rfl⟩), rfl⟩
                · cases h
            · split at h
              · cases h
                exact ⟨CutLink.cut (pre := [.read _]) rfl rfl rfl rfl (.inl ⟨rfl, rfl⟩), rfl⟩
              · cases h
            · split at h
              · rename_i hs
                split at h
                · split at h
                  · cases h
                    exact ⟨CutLink.cut (pre := [.read _]) rfl rfl rfl rfl (received_link hs (.inl rfl)), rfl⟩
                  · cases h
                · simp only [SmolWire.cut] at h
                  split at h
                  · cases h
                    refine ⟨CutLink.cut ?_ ?_ ?_ ?_ (received_link hs (.inr ?_)), rfl⟩
                    · split <;> rfl
                    · split <;> rfl
                    · split <;> rfl
                    · split <;> rfl
                    · exact shown_sublist (by obtain ⟨_, _, e⟩ | ⟨_, e⟩ | e := Sys.step_receive_event hs <;> cases e; rfl)
                  · cases h
              · cases h
          · cases h
      | readError => cases h
      | outgoing =>
        simp only [SmolWire.dropOutgoing] at h
        split at h
        · split at h
          · rename_i sys e hs
            simp only [SmolWire.cut] at h
            split at h
            · cases h
              exact ⟨CutLink.cut (pre := []) rfl rfl rfl rfl (writeFailed_link hs), rfl⟩
            · cases h
          · cases h
        · cases h
      | timer =>
        simp only [SmolWire.dropTimer] at h
        split at h
        · split at h
          · split at h
            · simp only [SmolWire.cut] at h
              split at h
              · cases h
                exact ⟨CutLink.cut (pre := []) rfl rfl rfl rfl (.inl ⟨rfl, rfl⟩), rfl⟩
              · cases h
            · simp only [SmolWire.cut] at h
              split at h
              · cases h
                exact ⟨CutLink.cut (pre := []) rfl rfl rfl rfl (.inl ⟨rfl, rfl⟩), rfl⟩
              · cases h
          · cases h
        · cases h
    · cases h
  · cases h

theorem connected_link {s s' : Sys} {c c' : ConnAck} {ps : List Packet} (h : s.step (.connAck c) = some (s', .connected c' ps))
    {obs : List Obs} (ho : (sessionDelivered obs).Sublist [.connAck c]) :
    (s' = s ∧ sessionDelivered obs = []) ∨ ∃ op e, s.step op = some (s', e) ∧ callsOf [e] = [] ∧
    submittedPackets [e] = [] ∧ (sessionDelivered obs).Sublist e.shows := by
  have e : c' = c := by
    rcases Sys.step_connAck_event h with ⟨_, e⟩ | e | ⟨_, e⟩ | e <;> cases e
    rfl
  subst e
  exact .inr ⟨_, _, h, rfl, rfl, ho⟩

theorem wrote_quiet {l : List Obs} (h : ∀ o ∈ l, ∃ p a b, o = .wrote p a b) :
    calledIn l = [] ∧ submittedIn l = [] ∧ droppedIn l = 0 ∧ deliveredIn l = [] := by
  induction l with
  | nil => exact ⟨rfl, rfl, rfl, rfl⟩
  | cons o l ih =>
    obtain ⟨p, a, b, rfl⟩ := h o (by simp)
    obtain ⟨h1, h2, h3, h4⟩ := ih fun o ho => h o (by simp [ho])
    exact ⟨h1, h2, h3, h4⟩

theorem Tokio.dropConnect_link {s s' : Tokio} {i : TokioConnect} {d : ConnectDropAt} {obs : List Obs}
    (h : s.dropConnect i d = some (s', obs)) : CutLink s.sys s'.sys obs ∧ s'.run = s.run := by
  simp only [Tokio.dropConnect] at h
  split at h
  · split at h
    · cases h
    · split at h
      · cases h
        refine ⟨CutLink.cut ?_ ?_ ?_ ?_ (.inl ⟨rfl, ?_⟩), rfl⟩ <;> (split <;> rfl)
      · split at h
        · split at h
          · split at h
            · rename_i hs
              cases h
              exact ⟨CutLink.cut (pre := [.wrote _ _ _, .read _]) rfl rfl rfl rfl (connected_link hs (List.nil_sublist _)), rfl⟩
            · cases h
          · cases h
        · cases h
      · rename_i n
        split at h
        · rename_i c rest hr
          split at h
          · split at h
            · rename_i sys c' ps hs
              simp only [Option.some.injEq, Prod.mk.injEq] at h
              obtain ⟨rfl, rfl⟩ := h
              obtain ⟨h1, h2, h3, h4⟩ := wrote_quiet (l := Tokio.writePackets i.resendOk i.times 0 (ps.take n)) (fun o ho => by
                obtain ⟨p, rfl⟩ := Tokio.writePackets_wrote _ _ _ _ o ho
                exact ⟨_, _, _, rfl⟩)
              refine ⟨CutLink.cut ?_ ?_ ?_ ?_ (connected_link hs ?_), rfl⟩
              · rw [calledIn_append, h1]; rfl
              · rw [submittedIn_append, h2]; rfl
              · rw [freshIn_append]
                obtain ⟨ws, hw, e⟩ := Tokio.writePackets_wrotes i.resendOk i.times (ps.take n) 0
                rw [e, freshIn_wrotes, resent_filter (Sys.step_connected_resent (connected_self hs)) (hw.trans (List.take_sublist _ _))]
                rfl
              · simp only [droppedIn, List.countP_append] at h3 ⊢; rw [h3]; rfl
              · rw [sessionDelivered_append, sessionDelivered, sessionDelivered, h4]
                exact List.Sublist.refl _
            · cases h
          · cases h
        · cases h
  · cases h

theorem Smol.dropConnect_link {s s' : Smol} {i : SmolConnect} {d : ConnectDropAt} {obs : List Obs}
    (h : s.dropConnect i d = some (s', obs)) : CutLink s.sys s'.sys obs ∧ s'.running = s.running := by
  simp only [Smol.dropConnect] at h
  split at h
  · split at h
    · cases h
    · split at h
      · cases h
        refine ⟨CutLink.cut ?_ ?_ ?_ ?_ (.inl ⟨rfl, ?_⟩), rfl⟩ <;> (split <;> rfl)
      · split at h
        · split at h
          · split at h
            · rename_i hs
              cases h
              exact ⟨CutLink.cut (pre := [.wrote _ _ _, .read _]) rfl rfl rfl rfl (connected_link hs (List.nil_sublist _)), rfl⟩
            · cases h
          · cases h
        · cases h
      · split at h
        · split at h
          · split at h
            · rename_i hs
              cases h
              exact ⟨CutLink.cut (pre := [.wrote _ _ _, .read _, .delivered _]) rfl rfl rfl rfl
                (connected_link hs (List.Sublist.refl _)), rfl⟩
            · cases h
          · cases h
        · cases h
  · cases h

/-- a history in which calls may be dropped contains a history of the session -/
structure Interrupted (o : Options) (s : Sys) (tr : List Obs) (ops : List Op) : Prop where
  sys : s = client o.config ops
  called : calledIn tr = callsOf (events o.config ops)
  submitted : submittedIn tr = submittedPackets (events o.config ops)
  shows : (sessionDelivered tr).Sublist ((events o.config ops).flatMap Event.shows)
  missing : ((events o.config ops).flatMap Event.shows).length ≤ (sessionDelivered tr).length + droppedIn tr
  fresh : (freshIn tr).Sublist (submittedPackets (events o.config ops))
  taken : s.alive = true → (freshIn tr).Sublist (takenPackets (events o.config ops))

theorem Interrupted.init (o : Options) (t : Nat) : Interrupted o (View.init o t).sys [] [] :=
  ⟨rfl, rfl, rfl, .refl _, Nat.le_refl _, .refl _, fun _ => .refl _⟩

theorem droppedIn_append (a b : List Obs) : droppedIn (a ++ b) = droppedIn a + droppedIn b := by
  simp [droppedIn, List.countP_append]

theorem fifo_events (o : Options) (ops : List Op) : Fifo (client o.config ops) (events o.config ops) := by
  have := Fifo.run ops (s := Sys.init o.config.sendMax o.config.recvMax o.config.maxPacketSize o.config.cleanStart)
    (h := []) ⟨[], rfl, fun _ => rfl⟩
  simpa [client, events] using this

theorem Interrupted.vstep {o : Options} {fl v ob w} {tr : List Obs} {ops : List Op} (hc : Interrupted o v.sys tr ops)
    (h : VStep fl v ob w) : ∃ ops', Interrupted o w.sys (tr ++ ob) ops' := by
  rcases h.linkedCalls with ⟨h1, h2, h3, h4, h5⟩ | ⟨op, e, hl, hcl⟩
  · refine ⟨ops, ?_⟩
    rw [h1]
    refine ⟨hc.sys, ?_, ?_, ?_, ?_, ?_, ?_⟩
    · rw [calledIn_append, h5]; simpa using hc.called
    · rw [submittedIn_append, h3]; simpa using hc.submitted
    · rw [sessionDelivered_append, h2]; simpa using hc.shows
    · rw [sessionDelivered_append, h2, droppedIn_append]
      have := hc.missing
      simp only [List.append_nil]
      omega
    · rw [freshIn_append, h4]; simpa using hc.fresh
    · rw [freshIn_append, h4]; simpa using hc.taken
  · have hstep := hl.step
    rw [hc.sys] at hstep
    obtain ⟨g1, g2⟩ := client_snoc o.config ops hstep
    have hf := fifo_events o ops
    refine ⟨ops ++ [op], g1.symm, ?_, ?_, ?_, ?_, ?_, ?_⟩
    · rw [calledIn_append, hc.called, hcl, g2, callsOf_append]
    · rw [submittedIn_append, hc.submitted, hl.submitted, g2, submitted_append]
    · rw [sessionDelivered_append, hl.shows, g2]
      simpa using hc.shows.append (List.Sublist.refl e.shows)
    · rw [sessionDelivered_append, hl.shows, g2, droppedIn_append]
      have := hc.missing
      simp only [List.flatMap_append, List.flatMap_cons, List.flatMap_nil, List.append_nil, List.length_append]
      omega
    · rw [freshIn_append, g2]
      rcases hl.alive with ha | h0
      · rcases hl.fresh with h1 | ⟨-, -, p, rest, hq, h1⟩
        · obtain ⟨rest, hr, -⟩ := hf.step hstep
          rw [hr, taken_append]
          exact ((hc.taken ha).append h1).trans (List.sublist_append_left _ _)
        · obtain ⟨rest', hr, hq'⟩ := hf
          rw [hc.sys] at hq ha
          rw [hq' ha, hq] at hr
          rw [submitted_append, hr]
          refine List.Sublist.trans ?_ (List.sublist_append_left _ _)
          rw [hc.sys] at hc
          exact (hc.taken ha).append (h1.trans (List.cons_sublist_cons.2 (List.nil_sublist _)))
      · rw [h0, List.append_nil, submitted_append]
        exact hc.fresh.trans (List.sublist_append_left _ _)
    · intro ha
      rw [freshIn_append, g2, taken_append]
      rcases hl.fresh with h1 | ⟨h1, -⟩
      · exact (hc.taken (Sys.step_alive hl.step ha)).append h1
      · rw [h1] at ha; simp at ha

theorem Interrupted.cut {o : Options} {s s' : Sys} {tr ob : List Obs} {ops : List Op} (hc : Interrupted o s tr ops)
    (h : CutLink s s' ob) : ∃ ops', Interrupted o s' (tr ++ ob) ops' := by
  rcases h.session with ⟨rfl, h2⟩ | ⟨op, e, hs, h1, h2, h3⟩
  · refine ⟨ops, hc.sys, ?_, ?_, ?_, ?_, ?_, ?_⟩
    · rw [calledIn_append, h.called]; simpa using hc.called
    · rw [submittedIn_append, h.submitted]; simpa using hc.submitted
    · rw [sessionDelivered_append, h2]; simpa using hc.shows
    · rw [sessionDelivered_append, h2, droppedIn_append]
      have := hc.missing
      simp only [List.append_nil]
      omega
    · rw [freshIn_append, h.fresh]; simpa using hc.fresh
    · rw [freshIn_append, h.fresh]; simpa using hc.taken
  · have hstep := hs
    rw [hc.sys] at hstep
    obtain ⟨g1, g2⟩ := client_snoc o.config ops hstep
    refine ⟨ops ++ [op], g1.symm, ?_, ?_, ?_, ?_, ?_, ?_⟩
    · rw [calledIn_append, h.called, hc.called, g2, callsOf_append, h1]
    · rw [submittedIn_append, h.submitted, hc.submitted, g2, submitted_append, h2]
    · rw [sessionDelivered_append, g2]
      simpa using hc.shows.append h3
    · rw [sessionDelivered_append, g2, droppedIn_append, h.dropped]
      have := hc.missing
      have := e.shows_length
      simp only [List.flatMap_append, List.flatMap_cons, List.flatMap_nil, List.append_nil, List.length_append]
      omega
    · rw [freshIn_append, h.fresh, List.append_nil, g2, submitted_append]
      exact hc.fresh.trans (List.sublist_append_left _ _)
    · intro ha
      rw [freshIn_append, h.fresh, List.append_nil, g2, taken_append]
      exact (hc.taken (Sys.step_alive hs ha)).trans (List.sublist_append_left _ _)

theorem runs_append (tr ob : List Obs) (h : ob.foldl runStep true = false ∧ ob.foldl runStep false = false) :
    isRunning (tr ++ ob) = false := by
  rw [isRunning, List.foldl_append]
  cases tr.foldl runStep false
  · exact h.2
  · exact h.1

theorem Tokio.dropConnect_idle {s s' : Tokio} {i : TokioConnect} {d : ConnectDropAt} {obs : List Obs}
    (h : s.dropConnect i d = some (s', obs)) : s.run = none := by
  simp only [Tokio.dropConnect] at h
  split at h
  · rename_i hg
    simp at hg
    exact hg.2
  · cases h

theorem Smol.dropConnect_idle {s s' : Smol} {i : SmolConnect} {d : ConnectDropAt} {obs : List Obs}
    (h : s.dropConnect i d = some (s', obs)) : s.running = false := by
  simp only [Smol.dropConnect] at h
  split at h
  · rename_i hg
    simp at hg
    exact hg.2
  · cases h

theorem tokio_interrupted (o : Options) (t : Nat) (ops : List TokioWireOp) :
    (∃ sops, Interrupted o ((TokioWire.new o t).runOps ops).1.net.sys ((TokioWire.new o t).runOps ops).2 sops) ∧
    ((TokioWire.new o t).runOps ops).1.net.run.isSome = isRunning ((TokioWire.new o t).runOps ops).2 := by
  refine history_induct TokioWire.step (fun s tr => (∃ sops, Interrupted o s.net.sys tr sops) ∧ s.net.run.isSome = isRunning tr)
    ⟨⟨[], .init o t⟩, rfl⟩ ?_ ops
  rintro s tr op s' ob ⟨⟨sops, hc⟩, hr⟩ hs
  cases op with
  | op op =>
    simp only [TokioWire.step] at hs
    split at hs
    · rename_i hn
      cases hs
      have hv := Tokio.step_vstep hn
      refine ⟨Interrupted.vstep (v := s.net.view) hc hv, ?_⟩
      have := hv.up.2
      rw [isRunning, List.foldl_append, ← isRunning, ← hr]
      exact this
    · cases hs
  | drop b d lost T =>
    obtain ⟨hl, h⟩ := TokioWire.drop_link (show s.drop b d lost T = some (s', ob) from hs)
    exact ⟨hc.cut hl, by rw [h, runs_append _ _ hl.runs]; rfl⟩
  | dropConnect i d =>
    simp only [TokioWire.step] at hs
    split at hs
    · rename_i hn
      cases hs
      obtain ⟨hl, h⟩ := Tokio.dropConnect_link hn
      exact ⟨hc.cut hl, by rw [runs_append _ _ hl.runs]; simp [h, Tokio.dropConnect_idle hn]⟩
    · cases hs

theorem smol_interrupted (checks : Bool) (o : Options) (t : Nat) (ops : List SmolWireOp) :
    (∃ sops, Interrupted o ((SmolWire.new checks o t).runOps ops).1.net.sys ((SmolWire.new checks o t).runOps ops).2 sops) ∧
    ((SmolWire.new checks o t).runOps ops).1.net.running = isRunning ((SmolWire.new checks o t).runOps ops).2 := by
  have := history_induct SmolWire.step (fun s tr => ((∃ sops, Interrupted o s.net.sys tr sops) ∧ s.net.running = isRunning tr) ∧ s.net.Good)
    (s := SmolWire.new checks o t) ⟨⟨⟨[], .init o t⟩, rfl⟩, ⟨rfl, by simp [SmolWire.new, Smol.new]⟩⟩ ?_ ops
  · exact this.1
  rintro s tr op s' ob ⟨⟨⟨sops, hc⟩, hr⟩, hg⟩ hs
  cases op with
  | op op =>
    simp only [SmolWire.step] at hs
    split at hs
    · rename_i hn
      cases hs
      obtain ⟨hv, hg'⟩ := Smol.step_vstep hg hn
      refine ⟨⟨Interrupted.vstep (v := s.net.view) hc hv, ?_⟩, hg'⟩
      have := hv.up.2
      rw [isRunning, List.foldl_append, ← isRunning, ← hr]
      exact this
    · cases hs
  | drop b d T =>
    obtain ⟨hl, h⟩ := SmolWire.drop_link (show s.drop b d T = some (s', ob) from hs)
    have hd := SmolWire.drop_facts (show s.drop b d T = some (s', ob) from hs)
    exact ⟨⟨hc.cut hl, by rw [h, runs_append _ _ hl.runs]⟩, hd.good hg⟩
  | dropConnect i d =>
    obtain ⟨i', obs', -, hn', -⟩ := SmolWire.dropConnect_failed hs
    have hg' := (Smol.step_vstep hg hn').2
    simp only [SmolWire.step] at hs
    split at hs
    · rename_i hn
      cases hs
      obtain ⟨hl, h⟩ := Smol.dropConnect_link hn
      exact ⟨⟨hc.cut hl, by rw [runs_append _ _ hl.runs]; simp [h, Smol.dropConnect_idle hn]⟩, hg'⟩
    · cases hs

/-! ## what is possible when -/

theorem TokioWire.op_some (s : TokioWire) (op : TokioOp) : (s.step (.op op)).isSome = (s.net.step op).isSome := by
  simp only [TokioWire.step]
  split <;> rename_i h <;> simp [h]

theorem SmolWire.op_some (s : SmolWire) (op : SmolOp) : (s.step (.op op)).isSome = (s.net.step op).isSome := by
  simp only [SmolWire.step]
  split <;> rename_i h <;> simp [h]

theorem TokioWire.turn_running (s : TokioWire) {b : TokioBranch} {lost : Nat} {io : Bool} {T : Times}
    (h : (s.step (.op (.turn b lost io T))).isSome) : s.net.run.isSome = true := by
  rw [op_some] at h
  simp only [Tokio.step, Tokio.turn] at h
  split at h
  · rename_i e _; rw [e]; rfl
  · cases h

theorem TokioWire.drop_running (s : TokioWire) {b : TokioBranch} {d : DropAt} {lost : Nat} {T : Times}
    (h : (s.step (.drop b d lost T)).isSome) : s.net.run.isSome = true := by
  simp only [TokioWire.step, TokioWire.drop] at h
  split at h
  · rename_i e _; rw [e]; rfl
  · cases h

theorem TokioWire.dropConnect_running (s : TokioWire) {i : TokioConnect} {d : ConnectDropAt}
    (h : (s.step (.dropConnect i d)).isSome) : s.net.run.isSome = false := by
  simp only [TokioWire.step] at h
  split at h
  · rename_i hn; rw [Tokio.dropConnect_idle hn]; rfl
  · cases h

theorem TokioWire.start_iff (s : TokioWire) :
    (s.step (.op .start)).isSome ↔ s.net.run.isSome = false ∧ s.net.sys.alive = true := by
  rw [op_some]
  simp only [Tokio.step]
  split
  · rename_i hg
    simp at hg
    refine ⟨fun _ => by simp [hg], fun _ => ?_⟩
    split <;> rfl
  · rename_i hg
    simp at hg
    refine ⟨fun h => (by cases h), fun h => ?_⟩
    simp at h
    simp [hg h.1] at h

theorem TokioWire.connect_running (s : TokioWire) {i : TokioConnect}
    (h : (s.step (.op (.connect i))).isSome) : s.net.run.isSome = false := by
  rw [op_some] at h
  simp only [Tokio.step, Tokio.connect] at h
  split at h
  · rename_i hg
    simp at hg
    simp [hg]
  · cases h

theorem SmolWire.turn_running (s : SmolWire) {b : SmolBranch} {io : Bool} {T : Times}
    (h : (s.step (.op (.turn b io T))).isSome) : s.net.running = true := by
  rw [op_some] at h
  simp only [Smol.step, Smol.turn] at h
  split at h
  · split at h
    · rename_i e; simp at e; exact e.2
    · cases h
  · cases h

theorem SmolWire.drop_running (s : SmolWire) {b : SmolBranch} {d : DropAt} {T : Times}
    (h : (s.step (.drop b d T)).isSome) : s.net.running = true := by
  simp only [SmolWire.step, SmolWire.drop] at h
  split at h
  · split at h
    · rename_i e; simp at e; exact e.2
    · cases h
  · cases h

theorem SmolWire.dropConnect_running (s : SmolWire) {i : SmolConnect} {d : ConnectDropAt}
    (h : (s.step (.dropConnect i d)).isSome) : s.net.running = false := by
  simp only [SmolWire.step] at h
  split at h
  · rename_i hn; exact Smol.dropConnect_idle hn
  · cases h

theorem SmolWire.start_iff (s : SmolWire) :
    (s.step (.op .start)).isSome ↔ s.net.running = false ∧ s.net.sys.alive = true := by
  rw [op_some]
  simp only [Smol.step]
  split
  · rename_i hg
    simp at hg
    refine ⟨fun _ => hg, fun _ => ?_⟩
    split <;> rfl
  · rename_i hg
    simp at hg
    refine ⟨fun h => (by cases h), fun h => ?_⟩
    simp [hg h.1] at h

theorem SmolWire.connect_running (s : SmolWire) {i : SmolConnect}
    (h : (s.step (.op (.connect i))).isSome) : s.net.running = false := by
  rw [op_some] at h
  simp only [Smol.step, Smol.connect] at h
  split at h
  · rename_i hg
    simp at hg
    simp [hg]
  · cases h

end Mqrstt
