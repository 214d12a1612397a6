import Verif.Spec.Sequence
import Verif.Proof.EndToEnd
import Verif.Proof.Sender
import Verif.Proof.Discipline
/-!
# The order in which messages arrive: the invariant

The messages that are not acknowledged, in the order in which they were sent, are: those that the server has taken from this
connection, those under way on it, those that have still to be sent again (or were lost). A first part of them has been
handed on.
-/

namespace Mqrstt
open Spec Spec.World

theorem Spec.World.Willing.story {keeps : Bool} {tr : List Obs} {w : World} (h : Willing keeps tr w) : Story keeps tr w := by
  induction h with
  | start => exact .start
  | client _ hs ih => exact ih.client hs
  | server _ hs _ ih => exact ih.server hs

/-- the messages of QoS 1 and 2 under way -/
def flight (ts : List Packet) : List Publish := ts.filterMap fun
  | .publish p => if p.qos ≠ .atMostOnce then some (message p) else none
  | _ => none

theorem flight_append (a b : List Packet) : flight (a ++ b) = flight a ++ flight b := by simp [flight]

theorem flight_publish {p : Publish} (h : p.qos ≠ .atMostOnce) (ts : List Packet) : flight (.publish p :: ts) = message p :: flight ts := by
  simp [flight, h]

theorem flight_skip {p : Packet} (h : ∀ q : Publish, p = .publish q → q.qos = .atMostOnce) (ts : List Packet) : flight (p :: ts) = flight ts := by
  cases p with
  | publish q => simp [flight, h q rfl]
  | _ => rfl

theorem flight_cons (p : Packet) (ts : List Packet) : flight (p :: ts) = flight [p] ++ flight ts := flight_append [p] ts

theorem flight_mem {ts : List Packet} {m : Publish} (h : m ∈ flight ts) : ∃ p, .publish p ∈ ts ∧ p.qos ≠ .atMostOnce ∧ m = message p := by
  simp only [flight, List.mem_filterMap] at h
  obtain ⟨x, hx, he⟩ := h
  cases x <;> simp at he
  exact ⟨_, hx, he.1, he.2.symm⟩

/-- `run` and `connect` are not in between -/
def settled : Spec.Phase → Bool
  | .idle | .running | .closing => true
  | _ => false

def opening : Spec.Phase → Bool
  | .accepted _ | .resending _ => true
  | _ => false

/-- sender, server and connection in line -/
structure Line (firsts : List Publish) (sent : List Publish) (s : Sender) (w : World) (ph : Spec.Phase) : Prop where
  line : ∃ old new taken left, s.unacked = old ++ new ∧ s.unacked = taken ++ flight w.toServer ++ left ∧ taken <+: old ∧
    (firsts ++ new).Sublist sent ∧ (∀ p ∈ old, p ∈ firsts) ∧
    (∀ p ∈ old, p.qos = .exactlyOnce → ∀ i, p.pkid = some i → i ∈ w.held) ∧
    (∀ p ∈ new, ∀ i, p.pkid = some i → i ∉ w.held) ∧
    (s.running = true → left = []) ∧
    (w.up = true → settled ph = true → left = []) ∧
    (w.up = true → opening ph = true → left = s.again)

/-- the server has begun a new session and the client will learn it -/
structure Afresh (s : Sender) (w : World) : Prop where
  running : s.running = false
  up : w.up = false
  again : s.again = []
  flight : flight w.toServer = []

/-- where the conversation is -/
structure Talk (s : Sender) (w : World) (ph : Spec.Phase) : Prop where
  running : s.running = true ↔ (ph = .running ∨ ph = .closing)
  down : (ph = .asked ∨ ph = .refused) → w.up = false
  up : opening ph = true → w.up = true

structure Ordered (clean keeps : Bool) (tr : List Obs) (s : Sender) (w : World) (ph : Spec.Phase) : Prop where
  talk : Talk s w ph
  acks : (clean || !keeps) = true → ∀ c, .connAck c ∈ w.toClient → c.reason = .success → c.sessionPresent = true → clean = true
  order : ∃ firsts, Repeats firsts w.handed ∧ firsts.Sublist (sentIn tr) ∧
    (((clean || !keeps) = true ∧ Afresh s w) ∨ Line firsts (sentIn tr) s w ph)

theorem Spec.Repeats.two {f h : List Publish} (hr : Repeats f h) : ofQos .exactlyOnce h = ofQos .exactlyOnce f := by
  induction hr with
  | nil => rfl
  | first _ ih => rw [ofQos_append, ofQos_append, ih]
  | again _ _ hq ih =>
    rw [ofQos_append, ih]
    simp [ofQos, hq]

theorem flight_nil {ts : List Packet} (hp : ∀ m ∈ flight ts, m.pkid ≠ none) (h : ∀ i, ts.filter (toSrv i) = []) : flight ts = [] := by
  rw [List.eq_nil_iff_forall_not_mem]
  intro m hm
  obtain ⟨p, h1, h2, rfl⟩ := flight_mem hm
  obtain ⟨i, hi⟩ := Option.ne_none_iff_exists'.mp (hp _ hm)
  have hi' : p.pkid = some i := hi
  have : Packet.publish p ∈ ts.filter (toSrv i) := by simp [h1, toSrv, h2, hi']
  rw [h i] at this
  simp at this

section steps
variable {clean keeps : Bool} {tr : List Obs} {s : Sender} {w w' : World} {ph : Spec.Phase} {firsts sent : List Publish}

theorem Line.mem (h : Line firsts sent s w ph) : ∀ m ∈ flight w.toServer, m ∈ s.unacked := by
  obtain ⟨old, new, taken, left, h1, h2, -⟩ := h.line
  intro m hm
  rw [h2]; simp [hm]

/-- either the server has begun a new session or everything is in line and client and server agree -/
theorem Ordered.mode (h : Ordered clean keeps tr s w ph) (hc : Consistent clean keeps tr s w) :
    ∃ firsts, Repeats firsts w.handed ∧ firsts.Sublist (sentIn tr) ∧
      (((clean || !keeps) = true ∧ Afresh s w) ∨ (Line firsts (sentIn tr) s w ph ∧ Synced (clean || !keeps) tr s w)) := by
  obtain ⟨firsts, h1, h2, h3⟩ := h.order
  refine ⟨firsts, h1, h2, ?_⟩
  rcases h3 with h3 | h3
  · exact .inl h3
  · rcases hc.state with g | g
    · exact .inr ⟨h3, g⟩
    · refine .inl ⟨g.resets, g.quiet.running, g.quiet.up, g.quiet.again, flight_nil (fun m hm => (hc.sane.pub m (h3.mem m hm)).2.2) g.srv⟩

/-- the message at the head is one handed on before or the next one -/
theorem Line.head (h : Line firsts sent s w ph) {p : Publish} {rest : List Packet} (hw : w.toServer = .publish p :: rest)
    (hq : p.qos ≠ .atMostOnce) :
    ∃ old new taken left, s.unacked = old ++ new ∧ s.unacked = taken ++ [message p] ++ flight rest ++ left ∧ taken <+: old ∧
      (firsts ++ new).Sublist sent ∧ (∀ p ∈ old, p ∈ firsts) ∧
      (∀ p ∈ old, p.qos = .exactlyOnce → ∀ i, p.pkid = some i → i ∈ w.held) ∧
      (∀ p ∈ new, ∀ i, p.pkid = some i → i ∉ w.held) ∧
      (s.running = true → left = []) ∧
      (w.up = true → settled ph = true → left = []) ∧
      (w.up = true → opening ph = true → left = s.again) ∧
      ((message p ∈ old ∧ taken ++ [message p] <+: old) ∨ (old = taken ∧ ∃ more, new = message p :: more)) := by
  obtain ⟨old, new, taken, left, h1, h2, ⟨x, h3⟩, h4, h5, h6, h7, h8, h9, h10⟩ := h.line
  rw [hw, flight_publish hq] at h2
  refine ⟨old, new, taken, left, h1, by rw [h2]; simp, ⟨x, h3⟩, h4, h5, h6, h7, h8, h9, h10, ?_⟩
  subst h3
  have e : x ++ new = message p :: (flight rest ++ left) := by
    have := h1.symm.trans h2
    simpa using this
  cases x with
  | nil => exact .inr ⟨by simp, _, by simpa using e⟩
  | cons y x =>
    simp only [List.cons_append, List.cons.injEq] at e
    obtain ⟨rfl, -⟩ := e
    exact .inl ⟨by simp, x, by simp⟩

/-- the server takes a message that it has handed on before, or the next one -/
theorem Line.takes (h : Line firsts sent s w ph) (hs : Sane s) {p : Publish} {rest : List Packet} {i : UInt16}
    (hw : w.toServer = .publish p :: rest) (hq : p.qos ≠ .atMostOnce) (hi : p.pkid = some i) :
    (message p ∈ firsts ∧ (p.qos = .exactlyOnce → i ∈ w.held) ∧
      ∀ w' : World, w'.toServer = rest → w'.held = w.held → w'.up = w.up → Line firsts sent s w' ph) ∨
    (i ∉ w.held ∧ (firsts ++ [message p]).Sublist sent ∧
      ∀ w' : World, w'.toServer = rest → w'.up = w.up → (∀ j, j ≠ i → (j ∈ w'.held ↔ j ∈ w.held)) → (p.qos = .exactlyOnce → i ∈ w'.held) →
        Line (firsts ++ [message p]) sent s w' ph) := by
  obtain ⟨old, new, taken, left, h1, h2, h3, h4, h5, h6, h7, h8, h9, h10, h11⟩ := h.head hw hq
  have hid : (message p).pkid = some i := hi
  rcases h11 with ⟨ho, hp⟩ | ⟨rfl, more, rfl⟩
  · refine .inl ⟨h5 _ ho, fun hq2 => h6 _ ho hq2 i hid, fun w' g1 g2 g3 => ⟨old, new, taken ++ [message p], left, h1, ?_, hp, h4, h5, ?_, ?_,
      h8, ?_, ?_⟩⟩
    · rw [g1]; exact h2
    · rw [g2]; exact h6
    · rw [g2]; exact h7
    · rw [g3]; exact h9
    · rw [g3]; exact h10
  · have hni : i ∉ w.held := h7 _ List.mem_cons_self i hid
    refine .inr ⟨hni, ?_, fun w' g1 g2 g3 g4 => ⟨old ++ [message p], more, old ++ [message p], left, by rw [h1]; simp, ?_, ⟨[], by simp⟩, ?_, ?_, ?_, ?_,
      h8, ?_, ?_⟩⟩
    · exact List.Sublist.trans (by simp) h4
    · rw [g1]; exact h2
    · simpa using h4
    · intro q hq'
      rcases List.mem_append.mp hq' with hq' | hq'
      · exact List.mem_append_left _ (h5 q hq')
      · exact List.mem_append_right _ hq'
    · intro q hq' hq2 j hj
      rcases List.mem_append.mp hq' with hq' | hq'
      · have hjw := h6 q hq' hq2 j hj
        by_cases hji : j = i
        · exact absurd (hji ▸ hjw) hni
        · exact (g3 j hji).mpr hjw
      · rw [List.mem_singleton] at hq'
        subst hq'
        rw [hid] at hj
        cases hj
        exact g4 hq2
    · intro q hq' j hj
      have hji : j ≠ i := by
        rintro rfl
        have hn := hs.ids
        rw [h1, List.map_append, List.map_cons, List.nodup_append, List.nodup_cons] at hn
        exact hn.2.1.1 (hid ▸ hj ▸ List.mem_map_of_mem hq')
      rw [g3 j hji]
      exact h7 q (List.mem_cons_of_mem _ hq') j hj
    · rw [g2]; exact h9
    · rw [g2]; exact h10

/-- nothing about messages under way changes -/
theorem Line.same (h : Line firsts sent s w ph) (h1 : flight w'.toServer = flight w.toServer) (h2 : w'.up = w.up)
    (h3 : ∀ p ∈ s.unacked, ∀ i, p.pkid = some i → (i ∈ w'.held ↔ i ∈ w.held)) : Line firsts sent s w' ph := by
  obtain ⟨old, new, taken, left, g1, g2, g3, g4, g5, g6, g7, g8, g9, g10⟩ := h.line
  refine ⟨old, new, taken, left, g1, h1 ▸ g2, g3, g4, g5, ?_, ?_, g8, h2 ▸ g9, h2 ▸ g10⟩
  · intro p hp hq i hi
    exact (h3 p (by rw [g1]; simp [hp]) i hi).mpr (g6 p hp hq i hi)
  · intro p hp i hi
    rw [h3 p (by rw [g1]; simp [hp]) i hi]
    exact g7 p hp i hi

theorem Line.none (hf : firsts.Sublist sent) (h1 : s.unacked = []) (h2 : flight w.toServer = []) (h3 : s.again = []) : Line firsts sent s w ph :=
  ⟨[], [], [], [], by simp [h1], by simp [h1, h2], ⟨[], rfl⟩, by simpa using hf, by simp, by simp, by simp, fun _ => rfl, fun _ _ => rfl, fun _ _ => h3.symm⟩

theorem answer_mem {rest : List Packet} {r q : Packet} (h : q ∈ (w.answer rest r).toClient) : q ∈ w.toClient ∨ q = r := by
  simp only [World.answer] at h
  split at h
  · exact .inl h
  · simpa using h

theorem Ordered.server (h : Ordered clean keeps tr s w ph) (hc : Consistent clean keeps tr s w) (hw : Server keeps w w')
    (hr : ¬ w.Refuses w') : Ordered clean keeps tr s w' ph := by
  have hup : w'.up = w.up := by cases hw <;> rfl
  obtain ⟨firsts, f1, f2, f3⟩ := h.mode hc
  refine ⟨⟨h.talk.running, hup ▸ h.talk.down, hup ▸ h.talk.up⟩, ?_, ?_⟩
  · intro hre c hcm hok hpr
    have old := fun hm => h.acks hre c hm hok hpr
    cases hw with
    | @accept c' rest a hw ha hp =>
      rcases answer_mem hcm with hm | hm
      · exact old hm
      · cases hm
        have := hc.starts c' (by rw [hw]; exact List.mem_cons_self)
        rw [hpr, this] at hp
        cases clean <;> cases keeps <;> simp at hre hp ⊢
    | refuse hw ha =>
      rcases answer_mem hcm with hm | hm
      · exact old hm
      · cases hm; exact absurd hok ha
    | qos1 => exact old (by simpa using answer_mem hcm)
    | qos2 => exact old (by simpa using answer_mem hcm)
    | qos2again => exact old (by simpa using answer_mem hcm)
    | pubRel => exact old (by simpa using answer_mem hcm)
    | other => exact old hcm
    | sends hp =>
      rcases List.mem_append.mp hcm with hm | hm
      · exact old hm
      · rw [← List.mem_singleton.mp hm] at hp; simp [isAnswer] at hp
  · rcases f3 with ⟨hre, ha⟩ | ⟨hl, hsy⟩
    · have hfl : ∀ {p rest}, w.toServer = p :: rest → flight rest = [] := by
        intro p rest e
        have := ha.flight
        rw [e, flight_cons] at this
        exact (List.append_eq_nil_iff.mp this).2
      have hno : ∀ {p : Publish} {rest}, w.toServer = .publish p :: rest → p.qos ≠ .atMostOnce → False := by
        intro p rest e hq
        have := ha.flight
        rw [e, flight_publish hq] at this
        simp at this
      cases hw with
      | accept hw => exact ⟨firsts, f1, f2, .inl ⟨hre, ha.running, ha.up, ha.again, hfl hw⟩⟩
      | refuse hw => exact ⟨firsts, f1, f2, .inl ⟨hre, ha.running, ha.up, ha.again, hfl hw⟩⟩
      | qos1 hw hq => exact (hno hw (by simp [hq])).elim
      | qos2 hw hq => exact (hno hw (by simp [hq])).elim
      | qos2again hw hq => exact (hno hw (by simp [hq])).elim
      | pubRel hw => exact ⟨firsts, f1, f2, .inl ⟨hre, ha.running, ha.up, ha.again, hfl hw⟩⟩
      | other hw => exact ⟨firsts, f1, f2, .inl ⟨hre, ha.running, ha.up, ha.again, hfl hw⟩⟩
      | sends => exact ⟨firsts, f1, f2, .inl ⟨hre, ha.running, ha.up, ha.again, ha.flight⟩⟩
    · have hs := hc.sane
      cases hw with
      | @accept c rest a hw hok hp =>
        obtain ⟨hq, -, hb⟩ := hsy.connect [] c rest hw
        have hfl : flight w.toServer = flight rest := by rw [hw]; rfl
        have hfr : flight rest = [] := flight_nil (fun m hm => (hs.pub m (hl.mem m (hfl ▸ hm))).2.2) hb
        cases hpr : a.sessionPresent with
        | true =>
          exact ⟨firsts, f1, f2, .inr (hl.same hfl.symm rfl (fun _ _ _ _ => by simp))⟩
        | false =>
          by_cases hre : (clean || !keeps) = true
          · exact ⟨firsts, f1, f2, .inl ⟨hre, hq.running, hq.up, hq.again, hfr⟩⟩
          · have hcl := hc.starts c (by rw [hw]; exact List.mem_cons_self)
            have hse : w.session = false := by
              rw [hpr, hcl] at hp
              cases clean <;> cases keeps <;> simp at hre hp ⊢
              exact hp
            obtain ⟨-, -, hu, -⟩ := hsy.session hse
            exact ⟨firsts, f1, f2, .inr (.none f2 hu hfr hq.again)⟩
      | refuse hw => exact ⟨firsts, f1, f2, .inr (hl.same (by rw [hw]; rfl) rfl (fun _ _ _ _ => .rfl))⟩
      | @qos1 p rest a hw hq hi =>
        have hq0 : p.qos ≠ .atMostOnce := by simp [hq]
        have hnot : a.id ∉ w.held := by
          have hsrv : toSrv a.id (.publish p) = true := by simp [toSrv, hq0, hi]
          have ht : tok w.toServer w.toClient a.id = [.publish p] := by
            have h1 := (hsy.phase a.id).length
            rw [hw, tok_cons_for hsrv] at h1 ⊢
            simp only [List.length_cons] at h1
            rw [List.length_eq_zero_iff.mp (by omega : (tok rest w.toClient a.id).length = 0)]
          rcases (hsy.served ht).2.2.2 with h4 | h4
          · exact h4.2
          · rw [hq] at h4; simp at h4
        cases hacc : Ledger.accepts a with
        | false =>
          refine absurd ⟨p, rest, hw, hq0, rfl, ?_, ?_⟩ hr
          · simp [hacc]
          · intro i hi'
            rw [hi] at hi'; cases hi'
            exact hnot
        | true =>
          simp only [if_true]
          rcases hl.takes hs hw hq0 hi with ⟨g1, -, g3⟩ | ⟨g1, g2, g3⟩
          · exact ⟨firsts, f1.again g1 hq, f2, .inr (g3 _ rfl rfl rfl)⟩
          · exact ⟨firsts ++ [message p], f1.first, g2, .inr (g3 _ rfl rfl (fun _ _ => .rfl) (by simp [hq]))⟩
      | @qos2 p rest a hw hq hi hn =>
        have hq0 : p.qos ≠ .atMostOnce := by simp [hq]
        cases hacc : Ledger.accepts a with
        | false =>
          refine absurd ⟨p, rest, hw, hq0, rfl, ?_, ?_⟩ hr
          · simp [hacc]
          · intro i hi'
            rw [hi] at hi'; cases hi'
            simpa [hacc] using hn
        | true =>
          simp only [if_true]
          rcases hl.takes hs hw hq0 hi with ⟨-, g2, -⟩ | ⟨g1, g2, g3⟩
          · exact absurd (g2 hq) hn
          · exact ⟨firsts ++ [message p], f1.first, g2, .inr (g3 _ rfl rfl (fun j hj => by simp [hj]) (by simp))⟩
      | @qos2again p rest a hw hq hi hn ha =>
        have hq0 : p.qos ≠ .atMostOnce := by simp [hq]
        rcases hl.takes hs hw hq0 hi with ⟨-, -, g3⟩ | ⟨g1, -, -⟩
        · exact ⟨firsts, f1, f2, .inr (g3 _ rfl rfl rfl)⟩
        · exact absurd hn g1
      | @pubRel r a rest hw ha =>
        refine ⟨firsts, f1, f2, .inr (hl.same (by rw [hw]; rfl) rfl ?_)⟩
        intro p hp i hi
        have hne : i ≠ r.id := by
          rintro rfl
          have hph := hsy.phase r.id
          rw [hw, tok_cons_for (by simp [toSrv])] at hph
          cases hph with
          | idle _ _ _ h4 => simp at h4
          | one p' hp hid hq h2 h3 h4 => rcases h4 with h4 | ⟨q, h4, -⟩ | ⟨a, h4, -⟩ <;> simp at h4
          | two p' hp hid hq h2 h4 => rcases h4 with h4 | ⟨q, h4, -⟩ | ⟨a, h4, -⟩ <;> simp at h4
          | rel h1 h2 h4 => exact h1 p hp hi
        simp [hne]
      | @other p rest hw hp =>
        refine ⟨firsts, f1, f2, .inr (hl.same ?_ rfl (fun _ _ _ _ => .rfl))⟩
        rw [hw, flight_skip]
        rintro q rfl
        simpa [isAsking] using hp
      | sends => exact ⟨firsts, f1, f2, .inr (hl.same rfl rfl (fun _ _ _ _ => .rfl))⟩

theorem flight_take (k : Nat) : ∀ ts : List Packet, ∃ more, flight ts = flight (ts.take k) ++ more := by
  intro ts
  refine ⟨flight (ts.drop k), ?_⟩
  rw [← flight_append, List.take_append_drop]

theorem Line.connects (h : Line firsts sent s w ph) (hr : s.running = false) (c : Connect) (k : Nat) {ph' : Spec.Phase} :
    Line firsts sent { s with again := [], rels := [] }
      { w with toServer := w.toServer.take k ++ [.connect c], toClient := [], up := false } ph' := by
  obtain ⟨old, new, taken, left, g1, g2, g3, g4, g5, g6, g7, g8, g9, g10⟩ := h.line
  obtain ⟨more, e⟩ := flight_take k w.toServer
  refine ⟨old, new, taken, more ++ left, g1, ?_, g3, g4, g5, g6, g7, by simp [hr], by simp, by simp⟩
  show s.unacked = _
  rw [g2, e, flight_append]
  simp [flight]

/-- only the phase changes, or the connection is given up -/
theorem Line.phase (h : Line firsts sent s w ph) {w' : World} {ph' : Spec.Phase} (h1 : w'.toServer = w.toServer) (h2 : w'.held = w.held)
    (h3 : w'.up = true → w.up = true)
    (h4 : w'.up = true → settled ph' = true → settled ph = true ∨ (opening ph = true ∧ s.again = []))
    (h5 : w'.up = true → opening ph' = true → opening ph = true) : Line firsts sent s w' ph' := by
  obtain ⟨old, new, taken, left, g1, g2, g3, g4, g5, g6, g7, g8, g9, g10⟩ := h.line
  refine ⟨old, new, taken, left, g1, h1 ▸ g2, g3, g4, g5, h2 ▸ g6, h2 ▸ g7, g8, ?_, ?_⟩
  · intro hu hp
    rcases h4 hu hp with hp | ⟨hp, ha⟩
    · exact g9 (h3 hu) hp
    · rw [g10 (h3 hu) hp, ha]
  · exact fun hu hp => g10 (h3 hu) (h5 hu hp)

/-- a new message -/
theorem Line.publishes (h : Line firsts sent s w ph) (hr : s.running = true) {p : Publish} {i : UInt16} (hq : p.qos ≠ .atMostOnce)
    (hd : p.dup = false) (hi : p.pkid = some i) (hh : i ∉ w.held) (hph : opening ph = false) :
    Line firsts (sent ++ [p]) { s with unacked := s.unacked ++ [p] } { w with toServer := w.toServer ++ [.publish p] } ph := by
  obtain ⟨old, new, taken, left, g1, g2, g3, g4, g5, g6, g7, g8, g9, g10⟩ := h.line
  have hl := g8 hr
  subst hl
  refine ⟨old, new ++ [p], taken, [], ?_, ?_, g3, ?_, g5, g6, ?_, fun _ => rfl, fun _ _ => rfl, by simp [hph]⟩
  · show s.unacked ++ [p] = _
    rw [g1]; simp
  · show s.unacked ++ [p] = taken ++ flight (w.toServer ++ [.publish p]) ++ []
    rw [g2, flight_append, flight_publish hq, message_self hd]; simp [flight]
  · rw [← List.append_assoc]; exact g4.append (List.Sublist.refl _)
  · intro q hq' j hj
    rcases List.mem_append.mp hq' with hq' | hq'
    · exact g7 q hq' j hj
    · rw [List.mem_singleton] at hq'
      subst hq'
      rw [hi] at hj; cases hj
      exact hh

/-- a message is sent again -/
theorem Line.resends (h : Line firsts sent s w ph) (hs : Sane s) (hr : s.running = false) (hu : w.up = true) (hph : opening ph = true)
    {q : Publish} {rest : List Publish} (ha : s.again = q :: rest) :
    Line firsts sent { s with again := rest } { w with toServer := w.toServer ++ [.publish { q with dup := true }] } ph := by
  obtain ⟨old, new, taken, left, g1, g2, g3, g4, g5, g6, g7, g8, g9, g10⟩ := h.line
  have hl := g10 hu hph
  rw [ha] at hl
  subst hl
  have hmem : q ∈ s.unacked := by rw [g2]; simp
  obtain ⟨hd, hq, -⟩ := hs.pub q hmem
  have hns : settled ph = false := by cases ph <;> simp [opening] at hph <;> rfl
  refine ⟨old, new, taken, rest, g1, ?_, g3, g4, g5, g6, g7, by simp [hr], by simp [hns], fun _ _ => rfl⟩
  show s.unacked = _
  have hm : message { q with dup := true } = q := by
    rw [← message_self hd]; rfl
  have hq' : ({ q with dup := true } : Publish).qos ≠ .atMostOnce := hq
  show s.unacked = taken ++ flight (w.toServer ++ [.publish { q with dup := true }]) ++ rest
  rw [g2, flight_append, flight_publish hq', hm]
  simp [flight]

/-- an acknowledgement is read -/
theorem Line.acks (h : Line firsts sent s w ph) (hr : s.running = true) {i : UInt16} (hf : ∀ m ∈ flight w.toServer, m.pkid ≠ some i)
    {s' : Sender} (h1 : s'.unacked = s.unacked.filter fun p => !Sender.isFor i p) (h3 : opening ph = false)
    {w' : World} (h4 : w'.toServer = w.toServer) (h5 : w'.held = w.held) : Line firsts sent s' w' ph := by
  obtain ⟨old, new, taken, left, g1, g2, ⟨x, g3⟩, g4, g5, g6, g7, g8, g9, g10⟩ := h.line
  have hl := g8 hr
  subst hl
  have hff : (flight w.toServer).filter (fun p => !Sender.isFor i p) = flight w.toServer := by
    rw [List.filter_eq_self]
    intro m hm
    simp [Sender.isFor, hf m hm]
  refine ⟨old.filter fun p => !Sender.isFor i p, new.filter fun p => !Sender.isFor i p, taken.filter fun p => !Sender.isFor i p, [], ?_, ?_,
    ⟨x.filter fun p => !Sender.isFor i p, by rw [← List.filter_append, g3]⟩, ?_, ?_, ?_, ?_, fun _ => rfl, fun _ _ => rfl, by simp [h3]⟩
  · rw [h1, g1, List.filter_append]
  · rw [h1, g2, h4, List.filter_append, List.filter_append, hff]; rfl
  · exact List.Sublist.trans ((List.Sublist.refl _).append List.filter_sublist) g4
  · exact fun p hp => g5 p (List.mem_filter.mp hp).1
  · rw [h5]; exact fun p hp => g6 p (List.mem_filter.mp hp).1
  · rw [h5]; exact fun p hp => g7 p (List.mem_filter.mp hp).1

/-- the sender changes in what does not matter here -/
theorem Line.sender (h : Line firsts sent s w ph) {s' : Sender} (h1 : s'.unacked = s.unacked) (h2 : s'.running = true → s.running = true)
    (h3 : s'.again = s.again ∨ opening ph = false) : Line firsts sent s' w ph := by
  obtain ⟨old, new, taken, left, g1, g2, g3, g4, g5, g6, g7, g8, g9, g10⟩ := h.line
  refine ⟨old, new, taken, left, h1 ▸ g1, h1 ▸ g2, g3, g4, g5, g6, g7, fun x => g8 (h2 x), g9, ?_⟩
  rcases h3 with h3 | h3
  · rw [h3]; exact g10
  · simp [h3]

theorem Line.started (h : Line firsts sent s w ph) (hu : w.up = true) (hp : settled ph = true) :
    Line firsts sent { s with running := true, again := [], rels := [] } w .running := by
  obtain ⟨old, new, taken, left, g1, g2, g3, g4, g5, g6, g7, g8, g9, g10⟩ := h.line
  have hl := g9 hu hp
  exact ⟨old, new, taken, left, g1, g2, g3, g4, g5, g6, g7, fun _ => hl, fun _ _ => hl, by simp [opening]⟩

theorem sublist_obs {x : Obs} (h : firsts.Sublist (sentIn tr)) : firsts.Sublist (sentIn (tr ++ [x])) := by
  rw [sentIn_append]; exact h.trans (List.sublist_append_left _ _)

theorem opening_of {ph : Spec.Phase} (h : ph = .running ∨ ph = .closing) : opening ph = false := by
  rcases h with rfl | rfl <;> rfl

theorem ended_phases {ph ph' : Spec.Phase} {cu cu' : Bool} {r : End} (h : (Conv.mk ph cu).next (.ended r) = some ⟨ph', cu'⟩) :
    ph' = .idle ∧ (ph = .idle ∨ ph = .running ∨ ph = .closing) := by
  unfold Conv.next at h
  cases r with
  | error e => cases e <;> cases ph <;> cases cu <;> simp at h <;> simp [h.1.symm]
  | _ => cases ph <;> simp at h <;> simp [h.1.symm]

set_option maxHeartbeats 1000000 in
theorem Ordered.client {ph' : Spec.Phase} {cu cu' : Bool} (h : Ordered clean keeps tr s w ph) (hc : Consistent clean keeps tr s w) {x : Obs}
    (hw : Client w x w') (hm : ∀ p a b, x = .wrote p a b → s.MaySend clean p) (hcv : (Conv.mk ph cu).next x = some ⟨ph', cu'⟩)
    (hf1 : ∀ p a b, x = .wrote (.publish p) a b → p.qos ≠ .atMostOnce → p.dup = true → ∃ q rest, s.again = q :: rest ∧ p = { q with dup := true })
    (hf2 : ∀ c t, x = .connected c t → s.again = []) : Ordered clean keeps (tr ++ [x]) (s.next clean x) w' ph' := by
  obtain ⟨firsts, f1, f2, f3⟩ := h.mode hc
  have hs := hc.sane
  have hacks := h.acks
  obtain ⟨t1, t2, t3⟩ := h.talk
  -- nothing changes but the phase
  have quiet : ∀ {x : Obs} {s' : Sender} {w' : World}, (∀ p a b, x ≠ .wrote (.publish p) a b) →
      s.next clean x = s' → s'.unacked = s.unacked → s'.again = s.again → (s'.running = true → s.running = true) →
      w'.toServer = w.toServer → w'.held = w.held → w'.handed = w.handed → (∀ p ∈ w'.toClient, p ∈ w.toClient) → (w'.up = true → w.up = true) →
      (settled ph' = true → w'.up = true → settled ph = true ∨ (opening ph = true ∧ s.again = [])) →
      (opening ph' = true → opening ph = true ∧ w'.up = true) →
      (s'.running = true ↔ (ph' = .running ∨ ph' = .closing)) → ((ph' = .asked ∨ ph' = .refused) → w'.up = false) →
      Ordered clean keeps (tr ++ [x]) (s.next clean x) w' ph' := by
    intro x s' w' e1 e2 e3 e4 e5 e6 e7 e8 e9 e10 e11 e12 e13 e14
    have hsame := sentIn_same (tr := tr) e1
    rw [e2]
    refine ⟨⟨e13, e14, fun x => (e12 x).2⟩, fun hre c hcm => hacks hre c (e9 _ hcm), firsts, e8 ▸ f1, hsame ▸ f2, ?_⟩
    rcases f3 with ⟨hre, ha⟩ | ⟨hl, -⟩
    · refine .inl ⟨hre, ?_, ?_, e4 ▸ ha.again, e6 ▸ ha.flight⟩
      · rw [Bool.eq_false_iff]; intro hx; have := e5 hx; rw [ha.running] at this; cases this
      · rw [Bool.eq_false_iff]; intro hx; have := e10 hx; rw [ha.up] at this; cases this
    · rw [hsame]
      refine .inr ((hl.phase e6 e7 e10 (fun a b => e11 b a) (fun _ b => (e12 b).1)).sender e3 e5 (.inl e4))
  cases hw with
  | @connect c a b k =>
    have hsame := sentIn_same (tr := tr) (x := .wrote (.connect c) a b) (by simp)
    obtain ⟨hr, -⟩ := hm _ _ _ rfl
    have hph : ph' = .asked := by
      cases ph <;> simp [Conv.next, isResent, clientMaySend] at hcv
      exact hcv.1.symm
    have es : s.next clean (.wrote (.connect c) a b) = { s with again := [], rels := [] } := rfl
    rw [es]
    refine ⟨⟨by simp [hph, hr], by simp, by simp [hph, opening]⟩, by simp, firsts, f1, hsame ▸ f2, ?_⟩
    rcases f3 with ⟨hre, ha⟩ | ⟨hl, -⟩
    · refine .inl ⟨hre, hr, rfl, rfl, ?_⟩
      obtain ⟨more, e⟩ := flight_take k w.toServer
      rw [ha.flight] at e
      show flight (w.toServer.take k ++ [.connect c]) = []
      rw [flight_append, (List.append_eq_nil_iff.mp e.symm).1]; rfl
    · rw [hsame]; exact .inr (hl.connects hr c k)
  | @wrote p a b hp =>
    have hmay := hm _ _ _ rfl
    -- what is written is not a message
    have skip : ∀ {p : Packet} {s' : Sender}, (∀ q : Publish, p = .publish q → q.qos = .atMostOnce) → isConnect p = false →
        (Conv.mk ph cu).next (.wrote p a b) = some ⟨ph', cu'⟩ →
        s.next clean (.wrote p a b) = s' → s'.unacked = s.unacked → s'.again = s.again → s'.running = s.running →
        Ordered clean keeps (tr ++ [.wrote p a b]) (s.next clean (.wrote p a b)) { w with toServer := w.toServer ++ [p] } ph' := by
      intro p s' hq hp hcv e1 e2 e3 e4
      have hsame : sentIn (tr ++ [.wrote p a b]) = sentIn tr := by
        rw [sentIn_append]
        cases p with
        | publish q => simp [sentIn, hq q rfl]
        | _ => simp [sentIn]
      have hfl : flight (w.toServer ++ [p]) = flight w.toServer := by
        rw [flight_append, flight_skip hq]; simp [flight]
      have hph : settled ph' = settled ph ∧ opening ph' = opening ph ∧ ((ph' = .running ∨ ph' = .closing) ↔ (ph = .running ∨ ph = .closing)) ∧
          ¬ (ph' = .asked ∨ ph' = .refused) := by
        cases ph <;> cases p <;> simp only [isConnect, Bool.true_eq_false] at hp <;> simp only [Conv.next, clientMaySend] at hcv <;>
          (first | cases hcv | (split at hcv <;> cases hcv) | skip) <;> simp [settled, opening]
      rw [e1]
      refine ⟨⟨?_, ?_, ?_⟩, hacks, firsts, f1, hsame ▸ f2, ?_⟩
      · rw [e4, t1]; exact hph.2.2.1.symm
      · exact fun x => absurd x hph.2.2.2
      · rw [hph.2.1]; exact t3
      · rcases f3 with ⟨hre, ha⟩ | ⟨hl, -⟩
        · exact .inl ⟨hre, e4 ▸ ha.running, ha.up, e3 ▸ ha.again, hfl.trans ha.flight⟩
        · rw [hsame]
          have hl' : Line firsts (sentIn tr) s { w with toServer := w.toServer ++ [p] } ph := hl.same hfl rfl (fun _ _ _ _ => .rfl)
          exact .inr ((hl'.phase rfl rfl id (fun _ h => .inl (hph.1 ▸ h)) (fun _ h => hph.2.1 ▸ h)).sender e2 (by rw [e4]; exact id) (.inl e3))
    cases p with
    | connect c => simp [isConnect] at hp
    | publish p =>
      rcases hmay with ⟨h1, h2, h3⟩ | ⟨h1, h2, h3, i, h4, h5, h6⟩ | ⟨h1, h2, h3⟩
      · exact skip (by rintro q ⟨⟩; exact h1) rfl hcv (s' := s) (by simp [Sender.next, Sender.onWrote, h1]) rfl rfl rfl
      · have es : s.next clean (.wrote (.publish p) a b) = { s with unacked := s.unacked ++ [p] } := by
          simp [Sender.next, Sender.onWrote, h1, h2]
        rw [es]
        have hsent : sentIn (tr ++ [.wrote (.publish p) a b]) = sentIn tr ++ [p] := by
          rw [sentIn_fresh h1 h2]
        have hrun := t1.mp h3
        have hph : ph' = .running ∧ ph = .running := by
          rcases hrun with rfl | rfl <;> simp [Conv.next, clientMaySend] at hcv
          exact ⟨hcv.1.symm, rfl⟩
        obtain ⟨rfl, rfl⟩ := hph
        refine ⟨⟨t1, t2, t3⟩, hacks, firsts, f1, sublist_obs f2, ?_⟩
        rcases f3 with ⟨hre, ha⟩ | ⟨hl, hsy⟩
        · rw [ha.running] at h3; cases h3
        · rw [hsent]
          refine .inr (hl.publishes h3 h1 h2 h4 ?_ rfl)
          have hph := hsy.phase i
          cases hph with
          | idle _ _ h3 _ => exact h3
          | one p' hp hid => exact absurd hid (any_isFor h5 p' hp)
          | two p' hp hid => exact absurd hid (any_isFor h5 p' hp)
          | rel _ h2 => exact absurd h2 h6
      · by_cases hd : p.dup = true
        · obtain ⟨q, rest, ha, rfl⟩ := hf1 _ _ _ rfl h1 hd
          have hq : q.qos ≠ .atMostOnce := h1
          have es : s.next clean (.wrote (.publish { q with dup := true }) a b) = { s with again := rest } := by
            simp [Sender.next, Sender.onWrote, hq, ha]
          rw [es]
          have hph : opening ph = true ∧ ph' = ph := by
            cases ph <;> simp [Conv.next, isResent, clientMaySend] at hcv
            · simp [opening, hcv.1]
            · have := t1.mpr (.inl rfl); rw [h2] at this; cases this
          obtain ⟨ho, rfl⟩ := hph
          have hsent : sentIn (tr ++ [.wrote (.publish { q with dup := true }) a b]) = sentIn tr := by
            rw [sentIn_append]; simp [sentIn]
          refine ⟨⟨t1, t2, t3⟩, hacks, firsts, f1, sublist_obs f2, ?_⟩
          rcases f3 with ⟨hre, hx⟩ | ⟨hl, hsy⟩
          · rw [hx.again] at ha; cases ha
          · rw [hsent]; exact .inr (hl.resends hs h2 (t3 ho) ho ha)
        · exfalso
          obtain ⟨q, -, e⟩ := h3
          rw [e] at hd; exact hd rfl
    | pubRel r => exact skip (by simp) rfl hcv (s' := { s with rels := s.rels.erase r.id }) rfl rfl rfl rfl
    | _ => exact skip (by simp) rfl hcv (s' := s) rfl rfl rfl rfl
  | @read p missed rest hp hcn =>
    have hsub : ∀ q ∈ rest, q ∈ w.toClient := fun q hq => by rw [hp]; simp [hq]
    have hph : (ph = .asked ∧ ph' = .refused) ∨ (settled ph' = settled ph ∧ opening ph' = opening ph ∧
        ((ph' = .running ∨ ph' = .closing) ↔ (ph = .running ∨ ph = .closing)) ∧ ¬ (ph' = .asked ∨ ph' = .refused)) := by
      cases ph <;> cases p <;> simp [Conv.next] at hcv hcn <;> obtain ⟨rfl, -⟩ := hcv <;> simp [settled, opening]
    have stay : ∀ {s' : Sender}, s.next clean (.read p) = s' → s'.unacked = s.unacked → s'.again = s.again → s'.running = s.running →
        Ordered clean keeps (tr ++ [.read p]) (s.next clean (.read p)) { w with toClient := rest } ph' := by
      intro s' e1 e2 e3 e4
      rcases hph with ⟨rfl, rfl⟩ | ⟨q1, q2, q3, q4⟩
      · have hd := t2 (.inl rfl)
        refine quiet (by simp) e1 e2 e3 (by rw [e4]; exact id) rfl rfl rfl hsub id (by simp [settled]) (by simp [opening]) ?_ (fun _ => hd)
        rw [e4, t1]; simp
      · refine quiet (by simp) e1 e2 e3 (by rw [e4]; exact id) rfl rfl rfl hsub id (fun h _ => .inl (q1 ▸ h)) (fun h => ⟨q2 ▸ h, t3 (q2 ▸ h)⟩) ?_
          (fun h => absurd h q4)
        rw [e4, t1]; exact q3.symm
    cases hr : s.running with
    | false =>
      refine stay (s' := s) ?_ rfl rfl rfl
      simp only [Sender.next, hr]
      cases p <;> first | rfl | exact absurd rfl (hcn _)
    | true =>
      have es : s.next clean (.read p) = s.onAck p := by simp [Sender.next, hr]
      have gone : ∀ {i : UInt16}, toCli i p = true → s.onAck p = s ∨ (s.onAck p).unacked = (s.unacked.filter fun q => !Sender.isFor i q) →
          (s.onAck p).running = s.running → (s.onAck p).again = s.again →
          Ordered clean keeps (tr ++ [.read p]) (s.next clean (.read p)) { w with toClient := rest } ph' := by
        intro i hi hu hrun hag
        rcases hu with hu | hu
        · exact stay (s' := s) (es.trans hu) rfl rfl rfl
        have hsame := sentIn_same (tr := tr) (x := .read p) (by simp)
        have hphr := t1.mp hr
        rcases hph with ⟨rfl, rfl⟩ | ⟨q1, q2, q3, q4⟩
        · simp at hphr
        rw [es]
        refine ⟨⟨by rw [hrun, t1]; exact q3.symm, fun h => absurd h q4, by rw [q2]; exact t3⟩, fun hre c hcm => hacks hre c (hsub _ hcm), firsts, f1, hsame ▸ f2, ?_⟩
        rcases f3 with ⟨hre, hx⟩ | ⟨hl, hsy⟩
        · rw [hx.running] at hr; cases hr
        · rw [hsame]
          have hno : ∀ m ∈ flight w.toServer, m.pkid ≠ some i := by
            intro m hm he
            obtain ⟨q, g1, g2, rfl⟩ := flight_mem hm
            have he' : q.pkid = some i := he
            have hlen := (hsy.phase i).length
            have k1 : .publish q ∈ w.toServer.filter (toSrv i) := by simp [g1, toSrv, g2, he']
            have k2 : p ∈ w.toClient.filter (toCli i) := by rw [hp]; simp [hi]
            have := List.length_pos_of_mem k1
            have := List.length_pos_of_mem k2
            simp only [tok, List.length_append] at hlen
            omega
          have hop : opening ph = false := opening_of hphr
          have hl' := hl.acks hr hno hu hop (w' := { w with toClient := rest }) rfl rfl
          exact .inr (hl'.phase rfl rfl id (fun _ h => .inl (q1 ▸ h)) (fun _ h => q2 ▸ h))
      cases p with
      | pubAck a =>
        refine gone (i := a.id) (by simp [toCli]) (.inr ?_) ?_ ?_ <;> (simp only [Sender.onAck]; split <;> rfl)
      | pubRec a =>
        refine gone (i := a.id) (by simp [toCli]) ?_ ?_ ?_
        · simp only [Sender.onAck]; split
          · right; split <;> rfl
          · left; rfl
        · simp only [Sender.onAck]; split
          · split <;> rfl
          · rfl
        · simp only [Sender.onAck]; split
          · split <;> rfl
          · rfl
      | pubComp a => exact stay (s' := s.onAck (.pubComp a)) es rfl rfl rfl
      | _ => exact stay (s' := s) es rfl rfl rfl
  | @accepted c missed rest hp hok =>
    have hsame := sentIn_same (tr := tr) (x := .read (.connAck c)) (by simp)
    have hsub : ∀ q ∈ rest, q ∈ w.toClient := fun q hq => by rw [hp]; simp [hq]
    have hin : .connAck c ∈ w.toClient := by rw [hp]; simp
    have hrf : s.running = false ∧ flight w.toServer = [] ∧ (Ledger.resumed clean c = true ∨ (s.onAccepted clean c).unacked = [] ∧ (s.onAccepted clean c).again = []) := by
      rcases f3 with ⟨hre, ha⟩ | ⟨hl, hsy⟩
      · refine ⟨ha.running, ha.flight, .inr ?_⟩
        have hn : Ledger.resumed clean c = false := by
          have := hacks hre c hin hok
          simp only [Ledger.resumed]
          cases hpr : c.sessionPresent
          · rfl
          · simp [this hpr]
        simp [Sender.onAccepted, hn]
      · rcases hsy.ok with g | ⟨hq, -, -, hsrv, -, -, -⟩
        · exfalso
          have : .connAck c ∈ w.toClient.filter isOk := by simp [hin, isOk, hok]
          rw [g] at this; simp at this
        · refine ⟨hq.running, flight_nil (fun m hm => (hs.pub m (hl.mem m hm)).2.2) hsrv, ?_⟩
          cases hn : Ledger.resumed clean c
          · right; simp [Sender.onAccepted, hn]
          · exact .inl rfl
    obtain ⟨hr, hfl, hun⟩ := hrf
    have es : s.next clean (.read (.connAck c)) = s.onAccepted clean c := by simp [Sender.next, hr, hok]
    have hph : ph' = .accepted c := by
      cases ph <;> simp [Conv.next, hok] at hcv
      · exact hcv.1.symm
      · have := t1.mpr (.inl rfl); rw [hr] at this; cases this
    subst hph
    have hrun : (s.onAccepted clean c).running = false := by simp only [Sender.onAccepted]; split <;> exact hr
    rw [es]
    refine ⟨⟨by simp [hrun], by simp, fun _ => rfl⟩, fun hre c hcm => hacks hre c (hsub _ hcm), firsts, f1, hsame ▸ f2, .inr ?_⟩
    rw [hsame]
    rcases hun with hn | ⟨hu, ha⟩
    · rcases f3 with ⟨hre, ha⟩ | ⟨hl, hsy⟩
      · exfalso
        have := hacks hre c hin hok
        simp only [Ledger.resumed, Bool.and_eq_true, Bool.not_eq_true'] at hn
        rw [this hn.1] at hn
        simp at hn
      · obtain ⟨old, new, taken, left, g1, g2, g3, g4, g5, g6, g7, g8, g9, g10⟩ := hl.line
        have e1 : s.onAccepted clean c = { s with again := s.unacked, rels := s.accepted } := by simp [Sender.onAccepted, hn]
        rw [e1]
        refine ⟨old, new, [], s.unacked, g1, ?_, List.nil_prefix, g4, g5, g6, g7, by simp [hr], by simp [settled], fun _ _ => rfl⟩
        show s.unacked = [] ++ flight w.toServer ++ s.unacked
        rw [hfl]; rfl
    · exact .none f2 hu hfl ha
  | @refused c missed rest hp hok =>
    have hsub : ∀ q ∈ rest, q ∈ w.toClient := fun q hq => by rw [hp]; simp [hq]
    have es : s.next clean (.read (.connAck c)) = s := by
      simp only [Sender.next, hok, Sender.onAck]
      simp
    have hph : (ph = .asked ∧ ph' = .refused) ∨ (ph = .running ∧ ph' = .running) := by
      cases ph <;> simp [Conv.next, hok] at hcv <;> simp [hcv.1.symm]
    rcases hph with ⟨rfl, rfl⟩ | ⟨rfl, rfl⟩
    · have hd := t2 (.inl rfl)
      exact quiet (by simp) es rfl rfl id rfl rfl rfl hsub id (by simp [settled]) (by simp [opening]) (by rw [t1]; simp) (fun _ => hd)
    · exact quiet (by simp) es rfl rfl id rfl rfl rfl hsub id (fun h _ => .inl h) (by simp [opening]) t1 t2
  | started hu =>
    have hsame := sentIn_same (tr := tr) (x := .started) (by simp)
    have hph : ph = .idle ∧ ph' = .running := by
      cases ph <;> simp [Conv.next] at hcv
      exact ⟨rfl, hcv.2.1.symm⟩
    obtain ⟨rfl, rfl⟩ := hph
    refine ⟨⟨by simp [Sender.next], by simp, by simp [opening]⟩, hacks, firsts, f1, hsame ▸ f2, ?_⟩
    rcases f3 with ⟨hre, ha⟩ | ⟨hl, -⟩
    · rw [ha.up] at hu; cases hu
    · rw [hsame]; exact .inr (hl.started hu rfl)
  | ended =>
    have hph : ph' = .idle ∧ (ph = .idle ∨ ph = .running ∨ ph = .closing) := by
      exact ended_phases hcv
    obtain ⟨rfl, hph⟩ := hph
    exact quiet (by simp) (s' := { s with running := false }) rfl rfl rfl (by simp) rfl rfl rfl (fun _ h => h) id
      (fun _ _ => .inl (by rcases hph with rfl | rfl | rfl <;> rfl)) (by simp [opening]) (by simp) (by simp)
  | cancelled =>
    have hph : ph' = .idle ∧ ph = .running := by
      cases ph <;> simp [Conv.next] at hcv
      exact ⟨hcv.1.symm, rfl⟩
    obtain ⟨rfl, rfl⟩ := hph
    exact quiet (by simp) (s' := { s with running := false }) rfl rfl rfl (by simp) rfl rfl rfl (fun _ h => h) id
      (fun _ _ => .inl rfl) (by simp [opening]) (by simp) (by simp)
  | connectFailed =>
    have hph : ph' = .idle ∧ ph ≠ .running ∧ ph ≠ .closing := by
      cases ph <;> simp [Conv.next] at hcv <;> simp [hcv.1.symm]
    obtain ⟨rfl, h1, h2⟩ := hph
    exact quiet (by simp) (s' := s) rfl rfl rfl id rfl rfl rfl (fun _ h => h) (by simp) (by simp) (by simp [opening]) (by rw [t1]; simp [h1, h2]) (by simp)
  | connectPanicked =>
    have hph : ph' = .idle ∧ ph ≠ .running ∧ ph ≠ .closing := by
      cases ph <;> simp [Conv.next] at hcv <;> simp [hcv.1.symm]
    obtain ⟨rfl, h1, h2⟩ := hph
    exact quiet (by simp) (s' := s) rfl rfl rfl id rfl rfl rfl (fun _ h => h) (by simp) (by simp) (by simp [opening]) (by rw [t1]; simp [h1, h2]) (by simp)
  | connected =>
    have hph : ph' = .idle ∧ ∃ c, ph = .resending c := by
      cases ph <;> simp [Conv.next] at hcv
      exact ⟨hcv.1.symm, _, rfl⟩
    obtain ⟨rfl, c, rfl⟩ := hph
    have := hf2 _ _ rfl
    exact quiet (by simp) (s' := s) rfl rfl rfl id rfl rfl rfl (fun _ h => h) id (fun _ _ => .inr ⟨rfl, this⟩) (by simp [opening]) (by rw [t1]; simp) (by simp)
  | @delivered p =>
    have hph : settled ph' = settled ph ∧ opening ph' = opening ph ∧
        ((ph' = .running ∨ ph' = .closing) ↔ (ph = .running ∨ ph = .closing)) ∧ ¬ (ph' = .asked ∨ ph' = .refused) := by
      cases ph <;> cases p <;> simp [Conv.next] at hcv <;> obtain ⟨rfl, -⟩ := hcv <;> simp [settled, opening]
    obtain ⟨q1, q2, q3, q4⟩ := hph
    exact quiet (by simp) (s' := s) rfl rfl rfl id rfl rfl rfl (fun _ h => h) id (fun h _ => .inl (q1 ▸ h)) (fun h => ⟨q2 ▸ h, t3 (q2 ▸ h)⟩)
      (by rw [t1]; exact q3.symm) (fun h => absurd h q4)
  | @user e =>
    have hph : ph' = ph := by
      cases e <;> simp [Conv.next] at hcv <;> first | exact hcv.1.symm | skip
      cases ph <;> simp at hcv
      exact hcv.1.symm
    subst hph
    exact quiet (by simp) (s' := s) rfl rfl rfl id rfl rfl rfl (fun _ h => h) id (fun h _ => .inl h) (fun h => ⟨h, t3 h⟩) t1 t2

end steps

/-! ## from the start -/

theorem Ordered.start (clean keeps : Bool) : Ordered clean keeps [] Sender.start World.start .idle := by
  refine ⟨⟨by simp [Sender.start], by simp, by simp [opening]⟩, by simp [World.start], [], .nil, List.nil_sublist _, .inr ?_⟩
  exact .none (List.nil_sublist _) rfl rfl rfl

theorem resent_left {clean : Bool} {tr more : List Obs} (h : ResentInFull clean (tr ++ more)) : ResentInFull clean tr :=
  ⟨fun pre p a b post e => h.1 pre p a b (post ++ more) (by rw [e]; simp), fun pre c t post e => h.2 pre c t (post ++ more) (by rw [e]; simp)⟩

theorem ordered {clean keeps : Bool} {tr : List Obs} {w : World} (h : Willing keeps tr w) (hm : Obeys clean tr) (hf : ResentInFull clean tr)
    {cv : Conv} (hcv : (Conv.mk .idle false).after tr = some cv) : Ordered clean keeps tr (sender clean tr) w cv.phase := by
  induction h generalizing cv with
  | start => cases hcv; exact Ordered.start clean keeps
  | @client tr w x w' hw hs ih =>
    rw [conv_after_append] at hcv
    obtain ⟨cv0, h0, h1⟩ := Option.bind_eq_some_iff.mp hcv
    have h1 : cv0.next x = some cv := by
      simp only [Conv.after] at h1
      split at h1
      · cases h1
      · rename_i e; rw [e]; exact h1
    have hc := consistent hw.story hm.left
    have := (ih hm.left (resent_left hf) h0).client hc (cu := cv0.up) (cu' := cv.up) hs (fun p a b e => hm tr p a b [] (by rw [e])) h1
      (fun p a b e => hf.1 tr p a b [] (by rw [e])) (fun c t e => hf.2 tr c t [] (by rw [e]))
    have e : sender clean (tr ++ [x]) = (sender clean tr).next clean x := by simp [sender]
    rw [e]; exact this
  | server hw hs hr ih => exact (ih hm hf hcv).server (consistent hw.story hm) hs hr

/-! ## smol sends everything again -/

/-- each publish that is sent again is the next one -/
def Full (clean : Bool) : Sender → List Obs → Prop
  | _, [] => True
  | s, x :: o => (∀ p a b, x = .wrote (.publish p) a b → p.qos ≠ .atMostOnce → p.dup = true →
      ∃ q rest, s.again = q :: rest ∧ p = { q with dup := true }) ∧ Full clean (s.next clean x) o

theorem Full.append {clean : Bool} : ∀ {a b : List Obs} {s : Sender}, Full clean s a →
    Full clean (a.foldl (Sender.next clean) s) b → Full clean s (a ++ b)
  | [], _, _, _, h2 => h2
  | _ :: _, _, _, h1, h2 => ⟨h1.1, h1.2.append h2⟩

theorem Full.at {clean : Bool} : ∀ {pre : List Obs} {p : Publish} {a b : Nat} {post : List Obs} {s : Sender},
    Full clean s (pre ++ .wrote (.publish p) a b :: post) → p.qos ≠ .atMostOnce → p.dup = true →
    ∃ q rest, (pre.foldl (Sender.next clean) s).again = q :: rest ∧ p = { q with dup := true }
  | [], _, _, _, _, _, h => h.1 _ _ _ rfl
  | _ :: pre, _, _, _, _, _, h => Full.at (pre := pre) h.2

theorem Full.fresh {clean : Bool} : ∀ {o : List Obs} {s : Sender}, (∀ p a b, .wrote (.publish p) a b ∈ o → p.dup = false) → Full clean s o
  | [], _, _ => trivial
  | x :: o, s, h => by
    refine ⟨?_, Full.fresh (o := o) fun p a b hp => h p a b (List.mem_cons_of_mem _ hp)⟩
    rintro p a b rfl - hd
    rw [h p a b List.mem_cons_self] at hd; cases hd

theorem resend_full {clean : Bool} {T : Times} (rs : List UInt16) : ∀ (us : List Publish) (s : Sender),
    s.again = us → (∀ p ∈ us, p.qos ≠ .atMostOnce) →
    Full clean s (wrotes T (us.map again ++ rs.map fun id => .pubRel (State.successAck id)))
  | [], s, hs, _ => by
    apply Full.fresh
    intro p a b hp
    simp [wrotes] at hp
  | u :: us, s, hs, hq => by
    have hu := hq u List.mem_cons_self
    have hnext : Sender.next clean s (.wrote (again u) T.fire T.first) = { s with again := us } := by
      simp only [Sender.next, again, Sender.onWrote, hu, if_false, if_true, hs]
      simp
    refine ⟨?_, ?_⟩
    · intro p a b hp _ _
      simp only [again, Obs.wrote.injEq, Packet.publish.injEq] at hp
      exact ⟨u, us, hs, hp.1.symm⟩
    · show Full clean (Sender.next clean s (.wrote (again u) T.fire T.first)) _
      rw [hnext]
      exact resend_full rs us _ rfl fun p hp => hq p (List.mem_cons_of_mem _ hp)

theorem queued_fresh {clean : Bool} {v : View} {x : Sender} (hk : Keeps clean v x) (ha : v.sys.alive = true) (hr : v.running = true) {p : Publish}
    {rest : List Packet} (hq : v.sys.queue = .publish p :: rest) : p.dup = false := (queue_sends hk ha hr hq).2.1

theorem VStep.full {clean : Bool} {v w : View} {o : List Obs} {x : Sender} (h : VStep .smol v o w) (hk : Keeps clean v x) : Full clean x o := by
  obtain ⟨n, r, l, lost, hi, hl⟩ := hk.inv
  have hx := hk.running
  have hns : ∀ (q : Packet) (b : Bool) (p : Publish) (i j : Nat), Obs.wrote (.publish p) i j ∉ shownObs q b := by
    intro q b p i j hh; cases b <;> simp [shownObs] at hh
  cases h
  case established T cn a b c' ps ws sys hr ha ht hc hs hw hall =>
    obtain rfl := hall rfl
    have hrun : x.running = false := hx.trans hr
    obtain ⟨hu, hacc⟩ := hl ha
    obtain ⟨-, -, h1, h2, h3⟩ := hi.connAck_event hs
    refine Full.append (Full.fresh (by simp)) (Full.append ?_ (Full.fresh (by simp)))
    have hx : [.wrote (.connect cn) a b, .read (.connAck c'), .delivered (.connAck c')].foldl (Sender.next clean) x
        = ({ x with again := [], rels := [] } : Sender).onAccepted clean c' := by
      simp [Sender.next, Sender.onWrote, hrun, hc]
    rw [hx]
    cases hres : Ledger.resumed clean c' with
    | false =>
      have := h2 hres
      subst this
      exact trivial
    | true =>
      rw [h1 hres]
      simp only [Sender.onAccepted, hres, if_true]
      exact resend_full _ _ _ hu (fun p hp => by obtain ⟨id, -, h1, -⟩ := (hi.live ha).stored p hp; exact h1)
  case establishFail hnone =>
    obtain rfl := hnone rfl
    exact Full.fresh (by simp [wrotes])
  case accepted T p sys reply shown hR hp hs =>
    have hr : x.running = true := hx.trans hR.running
    obtain ⟨h1, h2⟩ := shown_fold (clean := clean) (p := p) (b := shown) hr
    obtain ⟨hu, hc⟩ := hl hR.alive
    have hreply := (hi.reply_sends hR.alive hs x hu T).1
    refine Full.append (Full.fresh (fun q a b hm => absurd hm (hns _ _ _ _ _))) (Full.fresh ?_)
    intro q a b hm
    cases reply with
    | none => simp [wrotes] at hm
    | some y =>
      simp only [wrotes, Option.toList, List.map_cons, List.map_nil, List.mem_singleton, Obs.wrote.injEq] at hm
      obtain ⟨rfl, -⟩ := hm
      have := hreply.1 (.publish q) _ _ rfl (by simp [isConnectObs])
      rcases this with ⟨-, h, -⟩ | ⟨-, h, -⟩ | ⟨-, h, -⟩
      · exact h
      · exact h
      · rw [onAck_running, hr] at h; cases h
  case outOk T p sys hR hs hd =>
    obtain ⟨p', rest, hq, hev⟩ := Sys.step_write_event hs
    obtain rfl : p' = p := by simp at hev; exact hev.symm
    refine Full.fresh ?_
    intro q a b hm
    simp at hm; obtain ⟨rfl, -⟩ := hm
    exact queued_fresh hk hR.alive hR.running hq
  case outDisc T p sys hR hs hd =>
    obtain ⟨p', rest, hq, hev⟩ := Sys.step_write_event hs
    obtain rfl : p' = p := by simp at hev; exact hev.symm
    refine Full.fresh ?_
    intro q a b hm
    simp at hm; obtain ⟨rfl, -⟩ := hm
    exact queued_fresh hk hR.alive hR.running hq
  case outErr T p sys e hR hs =>
    obtain ⟨p', rest, hq, hev⟩ := Sys.step_write_event hs
    obtain rfl : p' = p := by simp at hev; exact hev.symm
    refine Full.fresh ?_
    intro q a b hm
    simp at hm; obtain ⟨rfl, -⟩ := hm
    exact queued_fresh hk hR.alive hR.running hq
  case outPanic T p rest sys hR hq hs =>
    refine Full.fresh ?_
    intro q a b hm
    simp at hm; obtain ⟨rfl, -⟩ := hm
    exact queued_fresh hk hR.alive hR.running hq
  case connectFailed ho' => rcases ho' with rfl | ⟨_, _, _, rfl⟩ <;> exact Full.fresh (by simp)
  case acceptedFail => exact Full.append (Full.fresh (fun q a b hm => absurd hm (hns _ _ _ _ _))) (Full.fresh (by simp))
  all_goals exact Full.fresh (by simp [keepAliveDisconnect])

theorem smol_full {o : Options} {checks : Bool} {t : Nat} {ops : List SmolOp} : ResentInFull o.cleanStart (smolTrace checks o t ops) := by
  refine ⟨?_, fun pre c t' post e => (smol_nothing_left e).1⟩
  intro pre p a b post e hq hd
  obtain ⟨v1, v2, tr1, o1, o2, tr2, h1, h2, -, rfl, -⟩ := (Smol.vrun checks o t ops).split e
  obtain ⟨-, hk⟩ := h1.sends
  have := (h2.full hk).at hq hd
  unfold sender
  rw [List.foldl_append]
  exact this

end Mqrstt
