import Verif.Spec.Origin
import Verif.Proof.Sender
import Verif.Proof.NetLink
/-! # Where written packets come from -/

namespace Mqrstt
open Spec Props

/-! ## waiting packets come from calls -/

theorem Sys.step_waiting {s s' : Sys} {op : Op} {e : Event} (h : s.step op = some (s', e)) :
    ∀ p, p ∈ s'.pending ∨ p ∈ s'.queue → (p ∈ s.pending ∨ p ∈ s.queue) ∨ ∃ q id, op = .call q ∧ e = .called q id p := by
  have eraseIdx : ∀ {l : List Packet} {k : Nat} {p : Packet}, p ∈ l.eraseIdx k → p ∈ l := fun h => List.mem_of_mem_eraseIdx h
  intro p hp
  cases op with
  | call q =>
    rcases call_cases h with ⟨t, id', ht, hw⟩ | ⟨rfl, -, -⟩
    · have hpq : t.pending = s.pending ∧ t.queue = s.queue := by
        cases ht <;> (rename_i ht; subst ht; exact ⟨rfl, rfl⟩)
      obtain ⟨p', -, ⟨rfl, rfl, -⟩ | ⟨rfl, -⟩⟩ := callWith_cases hw
      · simp only [hpq.1, hpq.2, List.mem_append, List.mem_singleton] at hp
        rcases hp with (hp | rfl) | hp
        · exact .inl (.inl hp)
        · exact .inr ⟨_, _, rfl, rfl⟩
        · exact .inl (.inr hp)
      · rw [hpq.1, hpq.2] at hp; exact .inl hp
    · exact .inl hp
  | submit k =>
    simp only [Sys.step] at h
    split at h
    · simp at h
    · rename_i x hx
      split at h
      · split at h
        · simp only [Option.some.injEq, Prod.mk.injEq] at h
          obtain ⟨rfl, -⟩ := h
          rcases hp with hp | hp
          · exact .inl (.inl (eraseIdx hp))
          · simp only [List.mem_append, List.mem_singleton] at hp
            rcases hp with hp | rfl
            · exact .inl (.inr hp)
            · exact .inl (.inl (List.mem_of_getElem? hx))
        · simp at h
      · simp only [Option.some.injEq, Prod.mk.injEq] at h
        obtain ⟨rfl, -⟩ := h
        rcases hp with hp | hp
        · exact .inl (.inl (eraseIdx hp))
        · exact .inl (.inr hp)
  | abandon k =>
    simp only [Sys.step] at h
    split at h
    · simp at h
    · simp only [Option.some.injEq, Prod.mk.injEq] at h
      obtain ⟨rfl, -⟩ := h
      rcases hp with hp | hp
      · exact .inl (.inl (eraseIdx hp))
      · exact .inl (.inr hp)
  | dropClients =>
    simp only [Sys.step, Option.some.injEq, Prod.mk.injEq] at h
    obtain ⟨rfl, -⟩ := h
    rcases hp with hp | hp
    · simp at hp
    · exact .inl (.inr hp)
  | dropNetwork =>
    simp only [Sys.step] at h
    split at h
    · simp only [Option.some.injEq, Prod.mk.injEq] at h
      obtain ⟨rfl, -⟩ := h
      exact .inl hp
    · simp at h
  | write ok =>
    simp only [Sys.step] at h
    split at h
    · split at h
      · simp at h
      · rename_i x rest hq
        have hp' : p ∈ s.pending ∨ p ∈ rest := by
          cases ok
          · simp only [Bool.false_eq_true, if_false, Option.some.injEq, Prod.mk.injEq] at h
            obtain ⟨rfl, -⟩ := h; exact hp
          · simp only [if_true] at h
            split at h <;> (simp only [Option.some.injEq, Prod.mk.injEq] at h; obtain ⟨rfl, -⟩ := h; exact hp)
        rw [hq]
        exact .inl (hp'.imp id (List.mem_cons_of_mem _))
    · simp at h
  | receive x =>
    simp only [Sys.step] at h
    split at h
    · split at h <;> (simp only [Option.some.injEq, Prod.mk.injEq] at h; obtain ⟨rfl, -⟩ := h; exact .inl hp)
    · simp at h
  | connAck x =>
    simp only [Sys.step] at h
    split at h
    · split at h <;> (simp only [Option.some.injEq, Prod.mk.injEq] at h; obtain ⟨rfl, -⟩ := h; exact .inl hp)
    · simp at h

/-- a `called` event is made by a call -/
theorem Sys.step_called {s s' : Sys} {op : Op} {q : Request} {id : Option UInt16} {p : Packet}
    (h : s.step op = some (s', .called q id p)) : op = .call q := by
  cases op with
  | call q' =>
    rcases call_cases h with ⟨t, id', ht, hw⟩ | ⟨-, he, -⟩
    · obtain ⟨p', -, ⟨he, -⟩ | ⟨-, x, he, -⟩⟩ := callWith_cases hw
      · cases he; rfl
      · cases he
    · cases he
  | submit k => simp only [Sys.step] at h; repeat' split at h
                all_goals simp at h
  | abandon k => simp only [Sys.step] at h; repeat' split at h
                 all_goals simp at h
  | dropClients => simp [Sys.step] at h
  | dropNetwork => simp only [Sys.step] at h; split at h <;> simp at h
  | write ok => obtain ⟨_, _, -, ⟨-, he | ⟨_, he⟩ | he⟩ | ⟨-, he⟩⟩ := Sys.step_write_event h <;> cases he
  | receive x => obtain ⟨_, _, he⟩ | ⟨_, he⟩ | he := Sys.step_receive_event h <;> cases he
  | connAck x => obtain ⟨_, he⟩ | he | ⟨_, he⟩ | he := Sys.step_connAck_event h <;> cases he

theorem askedIn_more {tr : List Obs} {p : Packet} (h : AskedIn tr p) (o : List Obs) : AskedIn (tr ++ o) p := by
  obtain ⟨q, id, h⟩ := h
  exact ⟨q, id, List.mem_append_left _ h⟩

/-- whatever waits was asked for -/
theorem VRun.asked {fl o t tr v} (h : VRun fl (View.init o t) tr v) :
    ∀ p, p ∈ v.sys.pending ∨ p ∈ v.sys.queue → AskedIn tr p := by
  refine h.induct (fun tr v => ∀ p, p ∈ v.sys.pending ∨ p ∈ v.sys.queue → AskedIn tr p) ?_ ?_
  · intro p hp
    simp [View.init, Options.sys, Sys.init] at hp
  · intro tr w ob w' _ ih hs p hp
    have key : ∀ {op : Op} {e : Event}, w.sys.step op = some (w'.sys, e) → op.ofClient = false → AskedIn (tr ++ ob) p := by
      intro op e hstep hop
      rcases Sys.step_waiting hstep p hp with h1 | ⟨q, id, rfl, -⟩
      · exact askedIn_more (ih p h1) _
      · simp [Op.ofClient] at hop
    have same : w'.sys.pending = w.sys.pending → w'.sys.queue = w.sys.queue → AskedIn (tr ++ ob) p := by
      intro h1 h2
      rw [h1, h2] at hp
      exact askedIn_more (ih p hp) _
    cases hs
    case client e hc hstep =>
      rcases Sys.step_waiting hstep p hp with h1 | ⟨q, id, rfl, rfl⟩
      · exact askedIn_more (ih p h1) _
      · exact ⟨q, id, by simp⟩
    case drop hstep => exact key hstep rfl
    case accepted hs => exact key hs rfl
    case acceptedFail hs => exact key hs rfl
    case refusedPacket hs => exact key hs rfl
    case readPanic hs => exact key hs rfl
    case outFail hs => exact key hs rfl
    case outOk hs _ => exact key hs rfl
    case outDisc hs _ => exact key hs rfl
    case outErr hs => exact key hs rfl
    case outPanic hs => exact key hs rfl
    case established hs _ _ => exact key hs rfl
    case establishFail hs _ hnone => exact key hs rfl
    case establishErr hs => exact key hs rfl
    case establishPanic hs => exact key hs rfl
    all_goals exact same rfl rfl

/-- a call that is observed was made in a session -/
theorem VRun.called {fl o t tr v} (h : VRun fl (View.init o t) tr v) {q : Request} {id : Option UInt16} {p : Packet}
    (hm : .user (.called q id p) ∈ tr) :
    ∃ sops s', (client o.config sops).step (.call q) = some (s', .called q id p) := by
  obtain ⟨pre, post, e⟩ := List.append_of_mem hm
  obtain ⟨v1, v2, tr1, o1, o2, tr2, h1, h2, -, -, -⟩ := h.split e
  obtain ⟨sops, hc⟩ := h1.contains
  generalize ho : o1 ++ .user (.called q id p) :: o2 = ob at h2
  have hmem : Obs.user (.called q id p) ∈ ob := by rw [← ho]; simp
  clear ho
  have noWrotes : ∀ {T : Times} {ws : List Packet}, Obs.user (.called q id p) ∉ wrotes T ws := by simp [wrotes]
  have noShown : ∀ {x : Packet} {b : Bool}, Obs.user (.called q id p) ∉ shownObs x b := by
    intro x b; cases b <;> simp [shownObs]
  cases h2
  case client hop hs =>
    simp only [List.mem_singleton, Obs.user.injEq] at hmem
    subst hmem
    obtain rfl := Sys.step_called hs
    rw [hc.sys] at hs
    exact ⟨sops, _, hs⟩
  case drop hs =>
    simp only [List.mem_singleton, Obs.user.injEq] at hmem
    subst hmem
    simp only [Sys.step] at hs
    split at hs <;> simp at hs
  case connectFailed ho => rcases ho with rfl | ⟨_, _, _, rfl⟩ <;> simp at hmem
  all_goals simp [noWrotes, noShown] at hmem

/-! ## what the sender remembers was observed -/

structure Rooted (tr : List Obs) (s : Sender) : Prop where
  unacked : ∀ p ∈ s.unacked, p.qos ≠ .atMostOnce ∧ p.dup = false ∧ ∃ a b, .wrote (.publish p) a b ∈ tr
  again : ∀ p ∈ s.again, p ∈ s.unacked ∨ (p.qos ≠ .atMostOnce ∧ p.dup = false ∧ ∃ a b, .wrote (.publish p) a b ∈ tr)
  accepted : ∀ i ∈ s.accepted, ∃ a p t t', a.id = i ∧ .read (.pubRec a) ∈ tr ∧ Ledger.accepts a = true ∧
    .wrote (.publish p) t t' ∈ tr ∧ p.qos ≠ .atMostOnce ∧ p.pkid = some i
  rels : ∀ i ∈ s.rels, ∃ a p t t', a.id = i ∧ .read (.pubRec a) ∈ tr ∧ Ledger.accepts a = true ∧
    .wrote (.publish p) t t' ∈ tr ∧ p.qos ≠ .atMostOnce ∧ p.pkid = some i

theorem Rooted.snoc {clean : Bool} {tr : List Obs} {s : Sender} (h : Rooted tr s) (x : Obs) :
    Rooted (tr ++ [x]) (s.next clean x) := by
  have u0 : ∀ p ∈ s.unacked, p.qos ≠ .atMostOnce ∧ p.dup = false ∧ ∃ a b, .wrote (.publish p) a b ∈ tr ++ [x] := by
    intro p hp
    obtain ⟨h1, h2, a, b, h3⟩ := h.unacked p hp
    exact ⟨h1, h2, a, b, List.mem_append_left _ h3⟩
  have g0 : ∀ p ∈ s.again, p.qos ≠ .atMostOnce ∧ p.dup = false ∧ ∃ a b, .wrote (.publish p) a b ∈ tr ++ [x] := by
    intro p hp
    rcases h.again p hp with h1 | ⟨h1, h2, a, b, h3⟩
    · exact u0 p h1
    · exact ⟨h1, h2, a, b, List.mem_append_left _ h3⟩
  have grow : ∀ i, (∃ a p t t', a.id = i ∧ .read (.pubRec a) ∈ tr ∧ Ledger.accepts a = true ∧
      .wrote (.publish p) t t' ∈ tr ∧ p.qos ≠ .atMostOnce ∧ p.pkid = some i) →
      ∃ a p t t', a.id = i ∧ .read (.pubRec a) ∈ tr ++ [x] ∧ Ledger.accepts a = true ∧
      .wrote (.publish p) t t' ∈ tr ++ [x] ∧ p.qos ≠ .atMostOnce ∧ p.pkid = some i := by
    rintro i ⟨a, p, t, t', h1, h2, h3, h4, h5⟩
    exact ⟨a, p, t, t', h1, List.mem_append_left _ h2, h3, List.mem_append_left _ h4, h5⟩
  have a0 := fun i hi => grow i (h.accepted i hi)
  have r0 := fun i hi => grow i (h.rels i hi)
  have same : Rooted (tr ++ [x]) s := ⟨u0, fun p hp => .inr (g0 p hp), a0, r0⟩
  have idle : ∀ b : Bool, Rooted (tr ++ [x]) { s with running := b } := fun b => ⟨u0, fun p hp => .inr (g0 p hp), a0, r0⟩
  cases x <;> try exact same
  case wrote p a b =>
    simp only [Sender.next]
    cases p <;> try exact same
    case connect => exact ⟨u0, by simp [Sender.onWrote], a0, by simp [Sender.onWrote]⟩
    case publish p =>
      simp only [Sender.onWrote]
      split
      · exact same
      · split
        · refine ⟨u0, fun q hq => .inr (g0 q ?_), a0, r0⟩
          exact (List.dropWhile_suffix _).sublist.mem ((List.tail_sublist _).mem hq)
        · rename_i hq hd
          refine ⟨?_, fun q hq => .inr (g0 q hq), a0, r0⟩
          intro q hm
          simp only [List.mem_append, List.mem_singleton] at hm
          rcases hm with hm | rfl
          · exact u0 q hm
          · exact ⟨hq, by simpa using hd, a, b, by simp⟩
    case pubRel r =>
      exact ⟨u0, fun q hq => .inr (g0 q hq), a0, fun i hi => r0 i (List.erase_sublist.mem hi)⟩
  case read p =>
    simp only [Sender.next]
    split
    · have gg : ∀ q ∈ s.again, q.qos ≠ .atMostOnce ∧ q.dup = false ∧ ∃ a b, .wrote (.publish q) a b ∈ tr ++ [.read p] := g0
      cases p <;> try exact same
      case pubAck a =>
        simp only [Sender.onAck]
        split <;> exact ⟨fun q hq => u0 q (List.filter_sublist.mem hq), fun q hq => .inr (gg q hq), a0, r0⟩
      case pubRec a =>
        simp only [Sender.onAck]
        split
        · rename_i hany
          split
          · rename_i hacc
            have new : ∃ a' p t t', a'.id = a.id ∧ .read (.pubRec a') ∈ tr ++ [.read (.pubRec a)] ∧ Ledger.accepts a' = true ∧
                .wrote (.publish p) t t' ∈ tr ++ [.read (.pubRec a)] ∧ p.qos ≠ .atMostOnce ∧ p.pkid = some a.id := by
              rw [List.any_eq_true] at hany
              obtain ⟨p, hp, hf⟩ := hany
              obtain ⟨h1, -, t, t', h3⟩ := u0 p hp
              exact ⟨a, p, t, t', rfl, by simp, hacc, h3, h1, by simpa [Sender.isFor] using hf⟩
            refine ⟨fun q hq => u0 q (List.filter_sublist.mem hq), fun q hq => .inr (gg q hq), ?_, ?_⟩
            · intro i hi
              simp only [List.mem_append, List.mem_singleton] at hi
              rcases hi with hi | rfl
              · exact a0 i hi
              · exact new
            · intro i hi
              simp only [List.mem_append, List.mem_singleton] at hi
              rcases hi with hi | rfl
              · exact r0 i hi
              · exact new
          · exact ⟨fun q hq => u0 q (List.filter_sublist.mem hq), fun q hq => .inr (gg q hq), a0, r0⟩
        · exact same
      case pubComp a =>
        exact ⟨u0, fun q hq => .inr (g0 q hq), fun i hi => a0 i (List.erase_sublist.mem hi), r0⟩
    · split
      · split
        · simp only [Sender.onAccepted]
          split
          · exact ⟨u0, fun q hq => .inl hq, a0, a0⟩
          · exact ⟨by simp, by simp, by simp, by simp⟩
        · exact same
      · exact same
  case started => exact ⟨u0, by simp [Sender.next], a0, by simp [Sender.next]⟩
  case ended => exact idle _
  case cancelled => exact idle _

theorem Rooted.fold {clean : Bool} : ∀ (o : List Obs) {tr : List Obs} {s : Sender}, Rooted tr s →
    Rooted (tr ++ o) (o.foldl (Sender.next clean) s)
  | [], _, _, h => by simpa using h
  | x :: o, tr, s, h => by
    have := Rooted.fold (clean := clean) o (h.snoc (clean := clean) x)
    simpa using this

theorem rooted (clean : Bool) (tr : List Obs) : Rooted tr (sender clean tr) := by
  have : Rooted [] Sender.start := ⟨by simp [Sender.start], by simp [Sender.start], by simp [Sender.start], by simp [Sender.start]⟩
  simpa [sender] using this.fold (clean := clean) tr

/-! ## one step -/

/-- the sources of packets in one step -/
inductive Source (v : View) (o1 : List Obs) : Packet → Prop where
  | connect {c} : Source v o1 (.connect c)
  | queue {p} (h : p ∈ v.sys.queue) : Source v o1 p
  | resent {p} (h : p.resent) : Source v o1 p
  | pubAck {p : Publish} {id : UInt16} (h : .read (.publish p) ∈ o1) (hq : p.qos = .atLeastOnce) (hi : p.pkid = some id) :
      Source v o1 (.pubAck ⟨id, .success, .empty⟩)
  | pubRec {p : Publish} {id : UInt16} (h : .read (.publish p) ∈ o1) (hq : p.qos = .exactlyOnce) (hi : p.pkid = some id) :
      Source v o1 (.pubRec ⟨id, .success, .empty⟩)
  | pubComp {a : Ack} (h : .read (.pubRel a) ∈ o1) : Source v o1 (.pubComp ⟨a.id, .success, .empty⟩)
  | pingReq : Source v o1 .pingReq
  | timeout : Source v o1 (.disconnect ⟨.keepAliveTimeout, .empty⟩)

def PSource (v : View) (o1 : List Obs) (x : Obs) (_ : List Obs) : Prop := ∀ p a b, x = .wrote p a b → Source v o1 p ∧ v.sys.alive = true

theorem VStep.source {fl v o w} (h : VStep fl v o w) : AllPos (PSource v) o := by
  have taken : ∀ {p : Packet} {sys : Sys} {e : Event}, v.sys.step (.write true) = some (sys, e) →
      (e = .written p ∨ ∃ er, e = .writtenError p er) → p ∈ v.sys.queue := by
    intro p sys e hs he
    obtain ⟨p', rest, hq, ⟨-, h' | ⟨_, h'⟩ | h'⟩ | ⟨h', -⟩⟩ := Sys.step_write_event hs
    all_goals first | (rcases he with he | ⟨_, he⟩ <;> rw [he] at h' <;> cases h') | cases h'
    all_goals simp [hq]
  cases h
  case accepted hR hp hs =>
    rename_i p _ reply shown
    have := Sys.step_answer hs
    have ha := hR.alive
    cases this
    case qos1 => simp [shownObs, wrotes, PSource, ha]; exact .pubAck (by simp; rfl) ‹_› ‹_›
    case qos2 =>
      cases shown <;> simp [shownObs, wrotes, PSource, ha]
      · exact .pubRec (by simp; rfl) ‹_› ‹_›
      · exact .pubRec (by simp; rfl) ‹_› ‹_›
    case pubRel => simp [shownObs, wrotes, PSource, ha]; exact .pubComp (by simp)
    case pubRecOk => simp [shownObs, wrotes, PSource, ha]; exact .resent ⟨_, rfl⟩
    all_goals simp [shownObs, wrotes, PSource]
  case acceptedFail =>
    rename_i shown _ _ _ _ _
    cases shown <;> simp [shownObs, PSource]
  case connectFailed ho =>
    rcases ho with rfl | ⟨_, _, _, rfl⟩ <;> simp [PSource, *]
    exact .connect
  case established hs hw _ =>
    simp only [List.cons_append, List.nil_append, allPos_cons]
    refine ⟨by simp [PSource, *]; exact .connect, by simp [PSource], by simp [PSource], ?_⟩
    refine allPos_wrotes ?_ (by simp [PSource])
    intro p hp o1 o2 q a b e
    cases e
    exact ⟨.resent (Sys.step_connected_resent hs p (hw.subset hp)), ‹_›⟩
  case establishFail hs hw hnone =>
    simp only [List.cons_append, List.nil_append, allPos_cons]
    refine ⟨by simp [PSource, *]; exact .connect, by simp [PSource], by simp [PSource], ?_⟩
    refine allPos_wrotes ?_ (by simp [PSource])
    intro p hp o1 o2 q a b e
    cases e
    exact ⟨.resent (Sys.step_connected_resent hs p (hw.subset hp)), ‹_›⟩
  case outOk hR hs _ => simp [PSource, hR.alive]; exact .queue (taken hs (.inl rfl))
  case outDisc hR hs _ => simp [PSource, hR.alive]; exact .queue (taken hs (.inl rfl))
  case outErr hR hs => simp [PSource, hR.alive]; exact .queue (taken hs (.inr ⟨_, rfl⟩))
  case outPanic hR hq hs => simp [PSource, hR.alive]; exact .queue (by simp [hq])
  case pingReq hR _ _ _ => simp [PSource, hR.alive]; exact .pingReq
  case timeout hR _ _ => simp [PSource, hR.alive]; exact .timeout
  case idleTimeout hR _ _ _ => simp [PSource, hR.alive]; exact .timeout
  case refused => simp [PSource, *]; exact .connect
  case notConnAck => simp [PSource, *]; exact .connect
  case connectCrashed => simp [PSource, *]; exact .connect
  case establishErr => simp [PSource, *]; exact .connect
  case establishPanic => simp [PSource, *]; exact .connect
  all_goals simp [PSource]

end Mqrstt
