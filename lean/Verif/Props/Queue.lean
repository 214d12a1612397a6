import Verif.Spec.Handler
import Verif.Props.Client
/-!
# The bounded queue (C61) and client calls inside the handler (C62)
-/

namespace Mqrstt.Props
open Mqrstt Mqrstt.Spec _root_.Spec

/-! ## C61 -/

theorem step_submitted {s s' : Sys} {op : Op} {p : Packet} (h : s.step op = some (s', .submitted p)) :
    ∃ k, op = .submit k ∧ s.alive = true ∧ s.queue.length < 100 := by
  cases op with
  | submit k =>
    refine ⟨k, rfl, ?_⟩
    simp only [Sys.step] at h
    repeat' split at h
    all_goals simp only [Option.some.injEq, Prod.mk.injEq, reduceCtorEq, and_false] at h
    rename_i _ ha hl
    exact ⟨ha, hl⟩
  | call q =>
    rcases call_cases h with ⟨t, id', ht, hw⟩ | ⟨_, he, _⟩
    · obtain ⟨p', hp, hc | ⟨_, x, hx, _⟩⟩ := callWith_cases hw
      · simp at hc
      · simp at hx
    · simp at he
  | _ =>
    simp only [Sys.step] at h
    repeat' split at h
    all_goals simp at h

theorem Bounded.run : ∀ (ops : List Op) {s : Sys} {h : List Event}, Fifo s h →
    (submittedPackets h).length ≤ (takenPackets h).length + 100 →
    (submittedPackets (h ++ (s.run ops).2)).length ≤ (takenPackets (h ++ (s.run ops).2)).length + 100
  | [], s, h, _, hb => by simpa [Sys.run] using hb
  | op :: ops, s, h, hf, hb => by
    simp only [Sys.run]
    cases hs : s.step op with
    | none => exact Bounded.run ops hf hb
    | some r =>
      obtain ⟨s', e⟩ := r
      have := Bounded.run ops (hf.step hs) (h := h ++ [e]) ?_
      · simpa using this
      · rw [submitted_append, taken_append, List.length_append, List.length_append]
        by_cases he : ∃ p, e = .submitted p
        · obtain ⟨p, rfl⟩ := he
          obtain ⟨k, -, ha, hl⟩ := step_submitted hs
          obtain ⟨rest, h1, h2⟩ := hf
          rw [← h2 ha] at hl
          rw [h1, List.length_append]
          simp only [submittedPackets, takenPackets, List.length_cons, List.length_nil]
          omega
        · have : submittedPackets [e] = [] := by cases e <;> first | rfl | exact absurd ⟨_, rfl⟩ he
          rw [this, List.length_nil]
          omega

/-- **C61.** After every history at most 100 packets have been accepted (their calls returned `Ok`) and not been taken by the
network. -/
theorem C61_at_most_100 (cfg : Config) (ops : List Op) :
    (submittedPackets (events cfg ops)).length ≤ (takenPackets (events cfg ops)).length + 100 := by
  have := Bounded.run ops (s := Sys.init cfg.sendMax cfg.recvMax cfg.maxPacketSize cfg.cleanStart) (h := [])
    ⟨[], rfl, fun _ => rfl⟩ (by simp [submittedPackets])
  exact this

/-- **C61.** While the network exists, a waiting call can return exactly if fewer than 100 packets have been accepted and
not been taken; it then returns `Ok`, its packet is behind all others, and the other waiting calls go on waiting. -/
theorem C61_waits_exactly_when_full (cfg : Config) (ops : List Op) (hnet : (client cfg ops).alive = true) (k : Nat)
    (p : Packet) (hk : (client cfg ops).pending[k]? = some p) :
    ((∃ r, (client cfg ops).step (.submit k) = some r) ↔
      (submittedPackets (events cfg ops)).length < (takenPackets (events cfg ops)).length + 100) ∧
    (∀ s' e, (client cfg ops).step (.submit k) = some (s', e) →
      e = .submitted p ∧ s'.queue = (client cfg ops).queue ++ [p] ∧
        s'.pending = (client cfg ops).pending.eraseIdx k) := by
  have hq : (client cfg ops).queue.length + (takenPackets (events cfg ops)).length =
      (submittedPackets (events cfg ops)).length := by
    obtain ⟨rest, h1, h2⟩ := (C39_fifo cfg ops).1
    rw [h1, ← h2 hnet, List.length_append]
    omega
  simp only [Sys.step, hk, hnet, if_true, channelSize]
  by_cases hl : (client cfg ops).queue.length < 100
  · simp only [if_pos hl, Option.some.injEq, exists_eq', true_iff]
    refine ⟨by omega, ?_⟩
    intro s' e h
    simp only [Prod.mk.injEq] at h
    rw [← h.1, ← h.2]
    exact ⟨rfl, rfl, rfl⟩
  · simp only [if_neg hl, reduceCtorEq, exists_false, false_iff, false_implies, implies_true, and_true]
    omega

/-- a QoS 0 publish; as often as one likes, without a network that writes -/
def fillOps (n : Nat) : List Op := (List.replicate n (handlerCall 0 (demoPublish .atMostOnce))).flatten

/-- a full queue is reachable: 100 calls return, the next one waits -/
example : (submittedPackets (events demo (fillOps 100))).length = 100 ∧
    (client demo (fillOps 100 ++ [.call (demoPublish .atMostOnce)])).alive = true ∧
    (client demo (fillOps 100 ++ [.call (demoPublish .atMostOnce)])).pending.length = 1 ∧
    ((client demo (fillOps 100 ++ [.call (demoPublish .atMostOnce)])).step (.submit 0)).isNone = true ∧
    ((client demo (fillOps 100 ++ [.call (demoPublish .atMostOnce), .write true])).step (.submit 0)).isSome = true := by
  refine ⟨?_, ?_, ?_, ?_, ?_⟩ <;> decide +kernel

/-! ## C62 -/

theorem during_keeps {s s' : Sys} {op : Op} {e : Event} (hop : duringHandler op = true) (h : s.step op = some (s', e)) :
    s'.alive = s.alive ∧ s'.pool.closed = s.pool.closed ∧ s'.pool.queue <:+ s.pool.queue ∧
      (s.queue.length = 100 → s'.queue = s.queue ∨ s.alive = false) := by
  cases op with
  | call q =>
    rcases call_cases h with ⟨t, id', ht, hw⟩ | ⟨rfl, _⟩
    · have htq : t.queue = s.queue ∧ t.alive = s.alive ∧ t.pool.closed = s.pool.closed ∧ t.pool.queue <:+ s.pool.queue := by
        cases ht with
        | none _ ht => subst ht; exact ⟨rfl, rfl, rfl, List.suffix_refl _⟩
        | some id pool _ hp ht =>
          subst ht
          refine ⟨rfl, rfl, ?_, ?_⟩
          · simp only [Pool.take] at hp
            split at hp
            · simp at hp
            · simp only [Option.some.injEq, Prod.mk.injEq] at hp
              obtain ⟨-, rfl⟩ := hp; rfl
          · rw [Pool.take_some hp]
            exact List.suffix_cons _ _
      obtain ⟨p', hp, hc | ⟨rfl, _⟩⟩ := callWith_cases hw
      · obtain ⟨_, rfl, _⟩ := hc
        exact ⟨htq.2.1, htq.2.2.1, htq.2.2.2, fun _ => .inl htq.1⟩
      · exact ⟨htq.2.1, htq.2.2.1, htq.2.2.2, fun _ => .inl htq.1⟩
    · exact ⟨rfl, rfl, List.suffix_refl _, fun _ => .inl rfl⟩
  | submit k =>
    simp only [Sys.step] at h
    split at h
    · simp at h
    · split at h
      · split at h
        · rename_i hl
          have hl : s.queue.length < 100 := hl
          simp only [Option.some.injEq, Prod.mk.injEq] at h
          obtain ⟨rfl, rfl⟩ := h
          exact ⟨rfl, rfl, List.suffix_refl _, fun h => by omega⟩
        · simp at h
      · simp only [Option.some.injEq, Prod.mk.injEq] at h
        obtain ⟨rfl, rfl⟩ := h
        exact ⟨rfl, rfl, List.suffix_refl _, fun _ => .inl rfl⟩
  | abandon k =>
    simp only [Sys.step] at h
    split at h
    · simp at h
    · simp only [Option.some.injEq, Prod.mk.injEq] at h
      obtain ⟨rfl, rfl⟩ := h
      exact ⟨rfl, rfl, List.suffix_refl _, fun _ => .inl rfl⟩
  | _ => simp [duringHandler] at hop

theorem full_blocks : ∀ (ops : List Op) (s : Sys), s.alive = true → s.queue.length = 100 →
    (∀ op ∈ ops, duringHandler op = true) → submittedPackets (s.run ops).2 = []
  | [], _, _, _, _ => rfl
  | op :: ops, s, ha, hq, hd => by
    simp only [Sys.run]
    cases hs : s.step op with
    | none => exact full_blocks ops s ha hq fun o ho => hd o (by simp [ho])
    | some r =>
      obtain ⟨s', e⟩ := r
      obtain ⟨h1, -, -, h4⟩ := during_keeps (hd op (by simp)) hs
      have hq' : s'.queue.length = 100 := by
        rcases h4 hq with h | h
        · rw [h, hq]
        · simp [ha] at h
      have := full_blocks ops s' (h1 ▸ ha) hq' fun o ho => hd o (by simp [ho])
      cases e with
      | submitted p => obtain ⟨_, _, _, hlt⟩ := step_submitted hs; omega
      | _ => simpa [submittedPackets] using this

/-- the calls that have received an identifier -/
def gotIdentifier : Event → Bool
  | .called _ (some _) _ => true
  | .rejected _ (some _) _ => true
  | _ => false

/-- a call that needs an identifier has returned, with or without success -/
def identifierCallReturned : Event → Bool
  | .rejected q _ _ => q.takesId
  | e => gotIdentifier e

theorem empty_blocks : ∀ (ops : List Op) (s : Sys), s.alive = true → s.pool.queue = [] →
    (∀ op ∈ ops, duringHandler op = true) → ∀ e ∈ (s.run ops).2, identifierCallReturned e = false
  | [], _, _, _, _ => by simp [Sys.run]
  | op :: ops, s, ha, hq, hd => by
    simp only [Sys.run]
    cases hs : s.step op with
    | none => exact empty_blocks ops s ha hq fun o ho => hd o (by simp [ho])
    | some r =>
      obtain ⟨s', e⟩ := r
      obtain ⟨h1, -, h3, -⟩ := during_keeps (hd op (by simp)) hs
      rw [hq, List.suffix_nil] at h3
      have := empty_blocks ops s' (h1 ▸ ha) h3 fun o ho => hd o (by simp [ho])
      intro x hx
      rcases List.mem_cons.1 hx with rfl | hx
      · cases op with
        | call q =>
          rcases call_cases hs with ⟨t, id', ht, hw⟩ | ⟨_, _, _, hf⟩
          · cases ht with
            | none htk ht =>
              obtain ⟨p', hp, hc | ⟨_, y, rfl, _⟩⟩ := callWith_cases hw
              · rw [hc.1]; rfl
              · simpa [identifierCallReturned] using htk
            | some id pool _ hp ht => simp [Pool.take, hq] at hp
          · simp [ha] at hf
        | submit k =>
          simp only [Sys.step] at hs
          repeat' split at hs
          all_goals simp only [Option.some.injEq, Prod.mk.injEq, reduceCtorEq] at hs
          all_goals
            obtain ⟨-, rfl⟩ := hs
            rfl
        | abandon k =>
          simp only [Sys.step] at hs
          repeat' split at hs
          all_goals simp only [Option.some.injEq, Prod.mk.injEq, reduceCtorEq] at hs
          obtain ⟨-, rfl⟩ := hs
          rfl
        | _ => have := hd _ (List.mem_cons_self ..); simp [duringHandler] at this
      · exact this x hx

/-- **C62**, what goes wrong in general: if 100 packets are accepted and not taken when the handler is called, no call of any
client returns `Ok` as long as the handler runs, whatever the clients do; so a handler that waits for its own call
waits for ever. -/
theorem C62_full_queue_blocks (cfg : Config) (ops : List Op) (hnet : (client cfg ops).alive = true)
    (hfull : (submittedPackets (events cfg ops)).length = (takenPackets (events cfg ops)).length + 100)
    (more : List Op) (hm : ∀ op ∈ more, duringHandler op = true) :
    submittedPackets ((client cfg ops).run more).2 = [] := by
  refine full_blocks more _ hnet ?_ hm
  obtain ⟨rest, h1, h2⟩ := (C39_fifo cfg ops).1
  rw [h1, List.length_append] at hfull
  rw [← h2 hnet]
  omega

/-- **C62**, what goes wrong in general: if every identifier is in use or lost when the handler is called, no call that needs an
identifier (publish with QoS 1 or 2, subscribe, unsubscribe) goes on as long as the handler runs. -/
theorem C62_no_identifier_blocks (cfg : Config) (ops : List Op) (hnet : (client cfg ops).alive = true)
    (hused : (ledger cfg ops).ids.length + (lostIds cfg ops).length = cfg.sendMax.toNat)
    (more : List Op) (hm : ∀ op ∈ more, duringHandler op = true) :
    ∀ e ∈ ((client cfg ops).run more).2, identifierCallReturned e = false := by
  refine empty_blocks more _ hnet ?_ hm
  have := (inv cfg ops).length
  exact List.length_eq_zero_iff.1 (by omega)

/-- one identifier only -/
def oneId : Config := ⟨1, 10, 1000, false⟩

/-- an incoming message with QoS 0 -/
def incoming0 : Packet := .publish ⟨false, .atMostOnce, false, ⟨[97], by decide⟩, none, .empty, []⟩

theorem receive0 {s : Sys} (ha : s.alive = true) :
    ∃ s', s.step (.receive incoming0) = some (s', .received incoming0 none true) := by
  simp only [Sys.step, ha, if_true]
  exact ⟨_, rfl⟩

/-- **C62 is violated**: the handler answers every message with a QoS 1 publish, as the handlers in the documentation do. The
first answer is sent; before its PUBACK a second message arrives and is given to the handler; its answer can never be sent,
because the PUBACK that would free the identifier is read by the loop that waits for the handler. Likewise with a full
queue. -/
theorem C62_handler_blocks_for_ever_violated :
    (let ops : List Op := [.receive incoming0] ++ sendOps (demoPublish .atLeastOnce);
      (∃ s', (client oneId ops).step (.receive incoming0) = some (s', .received incoming0 none true)) ∧
      ∀ more, (∀ op ∈ more, duringHandler op = true) →
        ∀ e ∈ ((client oneId (ops ++ [.receive incoming0])).run more).2, identifierCallReturned e = false) ∧
    (let ops : List Op := fillOps 100;
      (∃ s', (client demo ops).step (.receive incoming0) = some (s', .received incoming0 none true)) ∧
      ∀ more, (∀ op ∈ more, duringHandler op = true) →
        submittedPackets ((client demo (ops ++ [.receive incoming0])).run more).2 = []) := by
  refine ⟨⟨receive0 (by decide), fun more hm => ?_⟩, ⟨receive0 (by decide +kernel), fun more hm => ?_⟩⟩
  · exact C62_no_identifier_blocks oneId _ (by decide) (by decide) more hm
  · exact C62_full_queue_blocks demo _ (by decide +kernel) (by decide +kernel) more hm

/-- the packets the requests ask for, one for each, in the same order -/
inductive AsksAll : List Request → List Packet → Prop
  | nil : AsksAll [] []
  | cons {q p qs ps} (id : Option UInt16) (h : Asks q id p) (hs : AsksAll qs ps) : AsksAll (q :: qs) (p :: ps)

/-- how many identifiers the requests need -/
def identifiersFor (qs : List Request) : Nat := (qs.filter Request.takesId).length

theorem handler_calls : ∀ (qs : List Request) (s : Sys), s.alive = true → s.pool.closed = false →
    s.queue.length + qs.length ≤ 100 → identifiersFor qs ≤ s.pool.queue.length →
    (∀ q ∈ qs, ∀ id p, q.packet id = some p → p.validate s.maxPacketSize = .ok ()) →
    ∃ ps, AsksAll qs ps ∧
      submittedPackets (s.run (qs.flatMap (handlerCall s.pending.length))).2 = ps ∧
      (s.run (qs.flatMap (handlerCall s.pending.length))).1.queue = s.queue ++ ps ∧
      (s.run (qs.flatMap (handlerCall s.pending.length))).1.pending = s.pending
  | [], s, _, _, _, _, _ => ⟨[], .nil, rfl, (List.append_nil _).symm, rfl⟩
  | q :: qs, s, ha, hc, hl, hi, hv => by
    simp only [List.length_cons] at hl
    have key : ∃ (t : Sys) (id : Option UInt16) (p : Packet), s.step (.call q) = some ({ t with pending := s.pending ++ [p] }, .called q id p) ∧
        t.alive = true ∧ t.pool.closed = false ∧ t.queue = s.queue ∧ t.maxPacketSize = s.maxPacketSize ∧
        identifiersFor qs ≤ t.pool.queue.length := by
      cases htk : q.takesId with
      | false =>
        obtain ⟨p, hp⟩ : ∃ p, q.packet none = some p := by
          cases q with
          | publish topic qos retain payload props => exact ⟨_, rfl⟩
          | disconnect => exact ⟨_, rfl⟩
          | _ => simp [Request.takesId] at htk
        refine ⟨s, none, p, ?_, ha, hc, rfl, rfl, ?_⟩
        · simp only [Sys.step, Sys.call, hc, htk, Bool.false_eq_true, if_false, Sys.callWith, hp,
            hv q (by simp) none p hp, ha, if_true]
        · simpa [identifiersFor, htk] using hi
      | true =>
        have hi' : identifiersFor qs + 1 ≤ s.pool.queue.length := by
          simpa [identifiersFor, List.filter_cons, htk] using hi
        obtain ⟨id, pool, hp⟩ : ∃ id pool, s.pool.take = some (id, pool) := by
          cases hq : s.pool.queue with
          | nil => simp [hq] at hi'
          | cons id rest => exact ⟨id, { s.pool with queue := rest }, by simp only [Pool.take, hq]⟩
        obtain ⟨p, hpk⟩ : ∃ p, q.packet (some id) = some p := by cases q <;> exact ⟨_, rfl⟩
        have hpq := Pool.take_some hp
        refine ⟨s.withPool pool, some id, p, ?_, ha, ?_, rfl, rfl, ?_⟩
        · have hva := hv q (by simp) (some id) p hpk
          simp only [Sys.step, Sys.call, hc, htk, Bool.false_eq_true, if_false, if_true, hp, Sys.callWith, hpk]
          simp only [Sys.withPool, hva, ha, if_true]
        · simp only [Pool.take] at hp
          split at hp
          · simp at hp
          · simp only [Option.some.injEq, Prod.mk.injEq] at hp
            obtain ⟨-, rfl⟩ := hp
            exact hc
        · rw [hpq, List.length_cons] at hi'
          show _ ≤ pool.queue.length
          omega
    obtain ⟨t, id, p, hcall, hta, htc, htq, htm, hti⟩ := key
    have hasks := (C49_call_content _ _ _ _ _ hcall).1
    have hsub : Sys.step { t with pending := s.pending ++ [p] } (.submit s.pending.length) =
        some ({ t with pending := s.pending, queue := s.queue ++ [p] }, .submitted p) := by
      have h1 : (s.pending ++ [p])[s.pending.length]? = some p := by simp
      have h2 : (s.pending ++ [p]).eraseIdx s.pending.length = s.pending := by
        rw [List.eraseIdx_append_of_length_le (Nat.le_refl _)]; simp
      simp only [Sys.step, h1, h2, hta, if_true, htq, channelSize]
      rw [if_pos (by omega)]
    obtain ⟨ps, h1, h2, h3, h4⟩ := handler_calls qs { t with pending := s.pending, queue := s.queue ++ [p] } hta htc
      (by simp only [List.length_append, List.length_cons, List.length_nil]; omega) hti
      (fun q' hq' id' p' hp' => by simpa [htm] using hv q' (by simp [hq']) id' p' hp')
    simp only at h2 h3 h4
    have hrun : s.run ((q :: qs).flatMap (handlerCall s.pending.length)) =
        let r := Sys.run { t with pending := s.pending, queue := s.queue ++ [p] } (qs.flatMap (handlerCall s.pending.length))
        (r.1, .called q id p :: .submitted p :: r.2) := by
      simp only [List.flatMap_cons, handlerCall, List.cons_append, List.nil_append, Sys.run, hcall, hsub]
    rw [hrun]
    refine ⟨p :: ps, .cons id hasks h1, by simp [submittedPackets, h2], ?_, h4⟩
    simp only [h3]
    simp

/-- **C62**, the part that holds: a handler that finds room in the queue and identifiers enough for its calls, and with which
no other client interferes, completes all of them (if their arguments are valid); their packets are queued in the order
of the calls, with the contents asked for. -/
theorem C62_handler_calls_partial (cfg : Config) (ops : List Op) (qs : List Request)
    (hnet : (client cfg ops).alive = true) (hcl : (client cfg ops).pool.closed = false)
    (hroom : (submittedPackets (events cfg ops)).length + qs.length ≤ (takenPackets (events cfg ops)).length + 100)
    (hids : (ledger cfg ops).ids.length + (lostIds cfg ops).length + identifiersFor qs ≤ cfg.sendMax.toNat)
    (hvalid : ∀ q ∈ qs, ∀ id p, q.packet id = some p → p.validate cfg.maxPacketSize = .ok ()) :
    let ops' := qs.flatMap (handlerCall (client cfg ops).pending.length)
    ∃ ps, AsksAll qs ps ∧
      submittedPackets ((client cfg ops).run ops').2 = ps ∧
      ((client cfg ops).run ops').1.queue = (client cfg ops).queue ++ ps := by
  obtain ⟨rest, h1, h2⟩ := (C39_fifo cfg ops).1
  have hl := (inv cfg ops).length
  rw [h1, List.length_append, h2 hnet] at hroom
  obtain ⟨ps, h1, h2, h3, -⟩ := handler_calls qs (client cfg ops) hnet hcl (by omega) (by omega)
    (by rw [show (client cfg ops).maxPacketSize = cfg.maxPacketSize from maxPacketSize_run _ _]; exact hvalid)
  exact ⟨ps, h1, h2, h3⟩

/-- two answers of different kinds from one handler call -/
example : let ops := [Op.receive incoming0]
    let qs := [demoPublish .atMostOnce, demoPublish .atLeastOnce]
    (client demo ops).alive = true ∧ (client demo ops).pool.closed = false ∧
    (submittedPackets (events demo ops)).length + qs.length ≤ (takenPackets (events demo ops)).length + 100 ∧
    (ledger demo ops).ids.length + (lostIds demo ops).length + identifiersFor qs ≤ demo.sendMax.toNat ∧
    ∀ q ∈ qs, ∀ id p, q.packet id = some p → p.validate demo.maxPacketSize = .ok () := by
  refine ⟨rfl, rfl, by decide, by decide, ?_⟩
  intro q hq id p hp
  simp only [List.mem_cons, List.not_mem_nil, or_false] at hq
  rcases hq with rfl | rfl <;>
    (simp only [demoPublish, Request.packet, Option.some.injEq] at hp; subst hp; cases id <;> rfl)

end Mqrstt.Props
