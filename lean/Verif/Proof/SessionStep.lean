import Verif.Proof.SessionInv
/-!
# Every step preserves the invariant
-/

namespace Mqrstt
open Spec

variable {n r : UInt16} {clean : Bool} {s : Sys} {l : Ledger} {lost : List UInt16}

theorem Request.packet_ident {q : Request} {id : Option UInt16} {p : Packet} (h : q.packet id = some p)
    (hid : id.isSome = q.takesId) : p.ident = id ∧ Submittable p := by
  cases q with
  | publish topic qos retain payload props =>
    simp only [Request.packet, Option.some.injEq] at h
    subst h
    refine ⟨rfl, rfl, ?_⟩
    cases id <;> cases qos <;> simp_all [Request.takesId]
  | subscribe topics props =>
    cases id with
    | none => simp [Request.packet] at h
    | some id => simp only [Request.packet, Option.map_some, Option.some.injEq] at h; subst h; exact ⟨rfl, trivial⟩
  | unsubscribe topics props =>
    cases id with
    | none => simp [Request.packet] at h
    | some id => simp only [Request.packet, Option.map_some, Option.some.injEq] at h; subst h; exact ⟨rfl, trivial⟩
  | disconnect reason props =>
    simp only [Request.packet, Option.some.injEq] at h
    subst h
    cases id with
    | none => exact ⟨rfl, trivial⟩
    | some id => simp [Request.takesId] at hid

/-- the part of a call after its identifier was received -/
theorem Inv.callWith {s0 : Sys} (h : Inv n r clean s0 l lost) {q : Request} {id : Option UInt16}
    (hq : ∀ a, s0.pool.queue.count a = s.pool.queue.count a + ind id a)
    (hs : s = s0.withPool s.pool) (hcap : s.pool.cap = s0.pool.cap)
    (hid : id.isSome = q.takesId) {s' : Sys} {e : Event} (hc : s.callWith q id = some (s', e)) :
    Inv n r clean s' (l.step clean e) (lost ++ l.leak clean e) := by
  have hpend : s.pending = s0.pending := by rw [hs]; rfl
  have hqueue : s.queue = s0.queue := by rw [hs]; rfl
  have halive : s.alive = s0.alive := by rw [hs]; rfl
  have hclean : s.handler.cleanStart = s0.handler.cleanStart := by rw [hs]; rfl
  have hrej : ∀ err, Inv n r clean s (l.step clean (.rejected q id err)) (lost ++ l.leak clean (.rejected q id err)) := by
    intro err
    refine ⟨hcap.trans h.cap, ?_, ?_, ?_, hclean.trans h.clean, ?_⟩
    · intro a
      have h1 := h.cnt a
      have h2 := hq a
      simp only [Ledger.step, Ledger.leak, List.count_append, count_toList]
      omega
    · rw [hpend]; exact h.calling
    · rw [hpend]; exact h.pok
    · intro ha
      have hl := h.live (halive ▸ ha)
      rw [hqueue]
      have hst : ∃ pl, s.handler.state = { s0.handler.state with pool := pl } := ⟨s.pool, by rw [hs]; rfl⟩
      obtain ⟨pl, hst⟩ := hst
      rw [hst]
      exact ⟨hl.queued, hl.qok, hl.order, hl.stored, hl.only, hl.rel, hl.sub, hl.unsub, hl.slots, hl.incoming⟩
  unfold Sys.callWith at hc
  cases hp : q.packet id with
  | none => rw [hp] at hc; simp at hc
  | some p =>
    rw [hp] at hc
    simp only at hc
    obtain ⟨hident, hsub⟩ := Request.packet_ident hp hid
    split at hc
    · simp only [Option.some.injEq, Prod.mk.injEq] at hc
      obtain ⟨rfl, rfl⟩ := hc
      exact hrej _
    · split at hc
      · simp only [Option.some.injEq, Prod.mk.injEq] at hc
        obtain ⟨rfl, rfl⟩ := hc
        refine ⟨hcap.trans h.cap, ?_, ?_, ?_, hclean.trans h.clean, ?_⟩
        · intro a
          have h1 := h.cnt a
          have h2 := hq a
          rw [count_ids] at h1
          show s.pool.queue.count a + _ + _ = _
          rw [count_ids]
          simp only [Ledger.step, Ledger.leak, List.count_append, count_toList, Ledger.publishIds] at h1 ⊢
          simp only [List.count_nil] 
          omega
        · intro a
          simp only [Ledger.step, List.count_append, count_toList, List.filterMap_append, h.calling a, hpend]
          rw [count_filterMap_cons, hident]
          simp
        · intro x hx
          rcases List.mem_append.mp hx with hx | hx
          · rw [hpend] at hx; exact h.pok x hx
          · rw [List.mem_singleton.mp hx]; exact hsub
        · intro ha
          have hl := h.live (halive ▸ ha)
          have hst : ∃ pl, s.handler.state = { s0.handler.state with pool := pl } := ⟨s.pool, by rw [hs]; rfl⟩
          obtain ⟨pl, hst⟩ := hst
          simp only
          rw [hst, hqueue]
          exact ⟨hl.queued, hl.qok, hl.order, hl.stored, hl.only, hl.rel, hl.sub, hl.unsub, hl.slots, hl.incoming⟩
      · simp only [Option.some.injEq, Prod.mk.injEq] at hc
        obtain ⟨rfl, rfl⟩ := hc
        exact hrej _

theorem Inv.call (h : Inv n r clean s l lost) {q : Request} {s' : Sys} {e : Event}
    (hc : s.call q = some (s', e)) :
    Inv n r clean s' (l.step clean e) (lost ++ l.leak clean e) := by
  unfold Sys.call at hc
  split at hc
  · simp at hc
  · split at hc
    · rename_i ht
      split at hc
      · rename_i id pool htake
        have hq : s.pool.queue = id :: pool.queue ∧ pool.cap = s.pool.cap := by
          unfold Pool.take at htake
          split at htake
          · simp at htake
          · rename_i x rest hx
            simp only [Option.some.injEq, Prod.mk.injEq] at htake
            obtain ⟨rfl, rfl⟩ := htake
            exact ⟨hx, rfl⟩
        refine Inv.callWith h (s := s.withPool pool) (id := some id) ?_ rfl hq.2 (by simp [ht]) hc
        intro a
        rw [hq.1, List.count_cons]
        simp only [Sys.withPool, Sys.pool, ind, Option.some.injEq, beq_iff_eq]
      · split at hc
        · simp at hc
        · simp only [Option.some.injEq, Prod.mk.injEq] at hc
          obtain ⟨rfl, rfl⟩ := hc
          simpa [Ledger.step, Ledger.leak] using h
    · rename_i ht
      exact Inv.callWith h (s := s) (id := none) (by intro a; simp [ind]) rfl rfl (by simp [ht]) hc

/-- a waiting call leaves the waiting list without its packet entering the queue -/
theorem Inv.gone (h : Inv n r clean s l lost) {k : Nat} {p : Packet} (hp : s.pending[k]? = some p) :
    Inv n r clean { s with pending := s.pending.eraseIdx k }
      { l with calling := Ledger.without l.calling p.ident } (lost ++ p.ident.toList) := by
  have hcount := count_eraseIdx Packet.ident s.pending k p hp
  refine ⟨h.cap, ?_, ?_, ?_, h.clean, ?_⟩
  · intro a
    have h1 := h.cnt a
    have h2 := h.calling a
    have h3 := hcount a
    rw [count_ids] at h1 ⊢
    simp only [List.count_append, count_toList, count_without, Ledger.publishIds] at h1 ⊢
    show s.pool.queue.count a + _ + _ = _
    omega
  · intro a
    have h2 := h.calling a
    have h3 := hcount a
    simp only [count_without]
    omega
  · intro x hx; exact h.pok x (List.mem_of_mem_eraseIdx hx)
  · intro ha
    have hl := h.live ha
    exact ⟨hl.queued, hl.qok, hl.order, hl.stored, hl.only, hl.rel, hl.sub, hl.unsub, hl.slots, hl.incoming⟩

theorem Inv.submit (h : Inv n r clean s l lost) {k : Nat} {p : Packet} (hp : s.pending[k]? = some p) :
    Inv n r clean { s with pending := s.pending.eraseIdx k, queue := s.queue ++ [p] }
      { l with calling := Ledger.without l.calling p.ident, queued := l.queued ++ p.ident.toList } lost := by
  have hcount := count_eraseIdx Packet.ident s.pending k p hp
  refine ⟨h.cap, ?_, ?_, ?_, h.clean, ?_⟩
  · intro a
    have h1 := h.cnt a
    have h2 := h.calling a
    have h3 := hcount a
    rw [count_ids] at h1 ⊢
    simp only [List.count_append, count_toList, count_without, Ledger.publishIds] at h1 ⊢
    show s.pool.queue.count a + _ + _ = _
    omega
  · intro a
    have h2 := h.calling a
    have h3 := hcount a
    simp only [count_without]
    omega
  · intro x hx; exact h.pok x (List.mem_of_mem_eraseIdx hx)
  · intro ha
    have hl := h.live ha
    obtain ⟨failed, hf⟩ := hl.queued
    refine ⟨⟨failed, ?_⟩, ?_, hl.order, hl.stored, hl.only, hl.rel, hl.sub, hl.unsub, hl.slots, hl.incoming⟩
    · intro a
      simp only [List.count_append, List.filterMap_append, hf a, count_toList]
      rw [count_filterMap_cons]
      simp only [List.filterMap_nil, List.count_nil]
      omega
    · intro x hx
      rcases List.mem_append.mp hx with hx | hx
      · exact hl.qok x hx
      · rw [List.mem_singleton.mp hx]; exact h.pok p (List.mem_of_getElem? hp)

theorem Inv.dropClients (h : Inv n r clean s l lost) :
    Inv n r clean { s.withPool { s.pool with closed := true } with pending := [] }
      { l with calling := [] } (lost ++ l.calling) := by
  refine ⟨h.cap, ?_, ?_, ?_, h.clean, ?_⟩
  · intro a
    have h1 := h.cnt a
    rw [count_ids] at h1 ⊢
    simp only [List.count_append, Ledger.publishIds, List.count_nil] at h1 ⊢
    show s.pool.queue.count a + _ + _ = _
    omega
  · intro a; rfl
  · intro x hx; simp at hx
  · intro ha
    have hl := h.live ha
    exact ⟨hl.queued, hl.qok, hl.order, hl.stored, hl.only, hl.rel, hl.sub, hl.unsub, hl.slots, hl.incoming⟩

/-- once the network is gone only the clients' part of the invariant remains -/
theorem Inv.dead (h : Inv n r clean s l lost) {s' : Sys} (hp : s'.pool = s.pool)
    (hpend : s'.pending = s.pending) (hc : s'.handler.cleanStart = s.handler.cleanStart)
    (ha : s'.alive = false) : Inv n r clean s' l lost :=
  ⟨by rw [hp]; exact h.cap, by rw [hp]; exact h.cnt, by rw [hpend]; exact h.calling,
    by rw [hpend]; exact h.pok, by rw [hc]; exact h.clean, by rw [ha]; intro x; exact absurd x (by simp)⟩

/-! ## writing -/

/-- a packet leaves the queue without having been written -/
theorem Inv.writeFailed (h : Inv n r clean s l lost) {p : Packet} {rest : List Packet}
    (hq : s.queue = p :: rest) : Inv n r clean { s with queue := rest } l lost := by
  refine ⟨h.cap, h.cnt, h.calling, h.pok, h.clean, ?_⟩
  intro ha
  have hl := h.live ha
  obtain ⟨failed, hf⟩ := hl.queued
  refine ⟨⟨p.ident.toList ++ failed, ?_⟩, ?_, hl.order, hl.stored, hl.only, hl.rel, hl.sub, hl.unsub, hl.slots, hl.incoming⟩
  · intro a
    rw [hf a, hq, count_filterMap_cons, List.count_append, count_toList]
    simp only
    omega
  · intro x hx; exact hl.qok x (by rw [hq]; exact List.mem_cons_of_mem _ hx)

theorem insert_count {x : UInt16} {xs : List UInt16} (h : xs.count x = 0) (a : UInt16) :
    (IdSet.insert x xs).1.count a = xs.count a + ind (some x) a := by
  rw [(IdSet.insert_new (List.count_eq_zero.mp h)).2 a]
  simp only [ind, Option.some.injEq, eq_comm]

theorem ident_in_queue (hl : Live r s.queue s.handler.state l) {p : Packet} {rest : List Packet}
    (hq : s.queue = p :: rest) (a : UInt16) :
    ∃ k, l.queued.count a = ind p.ident a + (rest.filterMap Packet.ident).count a + k := by
  obtain ⟨failed, hf⟩ := hl.queued
  refine ⟨failed.count a, ?_⟩
  rw [hf a, hq, count_filterMap_cons]

/-- the queue part of the invariant after a packet was taken from the queue and written -/
theorem queued_written (hl : Live r s.queue s.handler.state l) {p : Packet} {rest : List Packet}
    (hq : s.queue = p :: rest) :
    ∃ failed : List UInt16, ∀ a, (Ledger.without l.queued p.ident).count a
      = (rest.filterMap Packet.ident).count a + failed.count a := by
  obtain ⟨failed, hf⟩ := hl.queued
  refine ⟨failed, fun a => ?_⟩
  rw [count_without, hf a, hq, count_filterMap_cons]
  omega

theorem Inv.write_ok (h : Inv n r clean s l lost) (ha : s.alive = true) {p : Packet} {rest : List Packet}
    (hq : s.queue = p :: rest) :
    (∃ st, Handler.outgoingState s.handler.state p = (st, .ok ()) ∧ st.pool = s.pool ∧
      Inv n r clean { s with queue := rest, handler := { s.handler with state := st } } (l.onWritten p) lost) ∨
    (Handler.outgoingState s.handler.state p = (s.handler.state, .error .panic) ∧
      ∃ id, p.ident = some id ∧ r.toNat < id.toNat ∧ p.type = .publish) := by
  have hl := h.live ha
  have hsub : Submittable p := hl.qok p (by rw [hq]; simp)
  have hqok : ∀ x ∈ rest, Submittable x := fun x hx => hl.qok x (by rw [hq]; exact List.mem_cons_of_mem _ hx)
  have hqw := queued_written hl hq
  cases p with
  | publish p =>
    obtain ⟨hdup, hpk⟩ := hsub
    by_cases hqos : p.qos = .atMostOnce
    · left
      refine ⟨s.handler.state, ?_, rfl, ?_⟩
      · simp only [Handler.outgoingState, Handler.outgoingPublish, hqos]
      · have hid := hpk.mpr hqos
        have hlw : l.onWritten (.publish p) = l := by
          simp only [Ledger.onWritten, hqos, if_true, Packet.ident, hid, Ledger.without]
        rw [hlw]
        simp only [Packet.ident, hid, Ledger.without] at hqw
        exact ⟨h.cap, h.cnt, h.calling, h.pok, h.clean, fun _ =>
          ⟨hqw, hqok, hl.order, hl.stored, hl.only, hl.rel, hl.sub, hl.unsub, hl.slots, hl.incoming⟩⟩
    · obtain ⟨id, hid⟩ : ∃ id, p.pkid = some id := by
        cases e : p.pkid with
        | none => exact absurd (hpk.mp e) hqos
        | some id => exact ⟨id, rfl⟩
      have hout : Handler.outgoingState s.handler.state (.publish p) = s.handler.state.addOutgoingPub id p := by
        simp only [Handler.outgoingState, Handler.outgoingPublish]
        cases e : p.qos with
        | atMostOnce => exact absurd e hqos
        | atLeastOnce => simp only [hid]
        | exactlyOnce => simp only [hid]
      obtain ⟨k, hk⟩ := ident_in_queue hl hq id
      have hle := h.le_one id
      simp only [Packet.ident, hid, ind_self] at hk
      have hnone : s.handler.state.stored id = none := by
        cases e : s.handler.state.stored id with
        | none => rfl
        | some p' =>
          obtain ⟨hm, hp'⟩ := hl.only id p' e
          have : id ∈ l.publishIds := List.mem_filterMap.mpr ⟨p', hm, hp'⟩
          have := List.count_pos_iff.mpr this
          omega
      have hadd := State.addOutgoingPub_eq (s := s.handler.state) (id := id) (p := p) hnone
      cases hi : s.handler.state.slotIndex id with
      | none =>
        right
        rw [hi] at hadd
        refine ⟨hout.trans hadd, id, hid, ?_, rfl⟩
        rcases State.slotIndex_eq_none.mp hi with h0 | h0
        · exfalso
          subst h0
          have h1 := h.cnt 0
          rw [count_ids] at h1
          have : (Pool.new n).queue.count 0 = 0 := by
            rw [List.count_eq_zero, Pool.mem_new]
            intro hh
            exact absurd hh.1 (by decide)
          omega
        · rw [hl.slots] at h0; exact h0
      | some i =>
        left
        rw [hi] at hadd
        refine ⟨_, hout.trans hadd, rfl, ?_⟩
        have hlw : l.onWritten (.publish p)
            = { l with queued := Ledger.without l.queued (some id), unacked := l.unacked ++ [p] } := by
          simp only [Ledger.onWritten, hqos, if_false, Packet.ident, hid]
        rw [hlw]
        have hst : ∀ id', State.stored { s.handler.state with slots := s.handler.state.slots.set i (some p), order := s.handler.state.order ++ [id] } id' = if id' = id then some p else s.handler.state.stored id' :=
          State.stored_set hi rfl
        refine ⟨h.cap, ?_, h.calling, h.pok, h.clean, fun _ => ⟨?_, hqok, ?_, ?_, ?_, hl.rel, hl.sub, hl.unsub, ?_, hl.incoming⟩⟩
        · intro a
          have h1 := h.cnt a
          obtain ⟨k', hk'⟩ := ident_in_queue hl hq a
          simp only [Packet.ident, hid] at hk'
          rw [count_ids] at h1 ⊢
          show s.pool.queue.count a + _ + _ = _
          have hpi := publishIds_append l p a
          rw [hid] at hpi
          simp only [Ledger.publishIds] at hpi h1 ⊢
          simp only [count_without]
          omega
        · simp only [Packet.ident, hid] at hqw; exact hqw
        · show s.handler.state.order ++ [id] = _
          rw [hl.order]
          simp only [Ledger.publishIds, List.filterMap_append]
          rw [List.filterMap_cons_some hid]; rfl
        · intro x hx
          rcases List.mem_append.mp hx with hx | hx
          · obtain ⟨id', h1, h2, h3⟩ := hl.stored x hx
            refine ⟨id', h1, h2, ?_⟩
            have hne : id' ≠ id := by rintro rfl; rw [hnone] at h3; simp at h3
            exact (hst id').trans (by rw [if_neg hne]; exact h3)
          · rw [List.mem_singleton.mp hx]
            exact ⟨id, hid, hqos, (hst id).trans (by rw [if_pos rfl])⟩
        · intro id' p' h'
          have h'' := (hst id').symm.trans h'
          split at h''
          · rename_i heq
            obtain rfl := Option.some.inj h''
            exact ⟨by simp, by rw [heq]; exact hid⟩
          · obtain ⟨a1, a2⟩ := hl.only id' p' h''
            exact ⟨List.mem_append_left _ a1, a2⟩
        · show (List.set _ _ _).length = _
          rw [List.length_set]; exact hl.slots
  | subscribe p =>
    left
    obtain ⟨k, hk⟩ := ident_in_queue hl hq p.id
    have hle := h.le_one p.id
    simp only [Packet.ident, ind_self] at hk
    have hc := insert_count (x := p.id) (xs := s.handler.state.sub) (by have := hl.sub p.id; omega)
    refine ⟨_, rfl, rfl, h.cap, ?_, h.calling, h.pok, h.clean, fun _ => ⟨?_, hqok, hl.order, hl.stored, hl.only, hl.rel, ?_, hl.unsub, hl.slots, hl.incoming⟩⟩
    · intro a
      have h1 := h.cnt a
      obtain ⟨k', hk'⟩ := ident_in_queue hl hq a
      simp only [Packet.ident] at hk'
      rw [count_ids] at h1 ⊢
      show s.pool.queue.count a + _ + _ = _
      simp only [Ledger.publishIds, Ledger.onWritten, Packet.ident, List.count_append, count_single, count_without] at h1 ⊢
      omega
    · exact hqw
    · intro a
      have := hc a
      have h2 := hl.sub a
      simp only [Ledger.onWritten, List.count_append, count_single]
      show (IdSet.insert p.id s.handler.state.sub).1.count a = _
      omega
  | unsubscribe p =>
    left
    obtain ⟨k, hk⟩ := ident_in_queue hl hq p.id
    have hle := h.le_one p.id
    simp only [Packet.ident, ind_self] at hk
    have hc := insert_count (x := p.id) (xs := s.handler.state.unsub) (by have := hl.unsub p.id; omega)
    refine ⟨_, rfl, rfl, h.cap, ?_, h.calling, h.pok, h.clean, fun _ => ⟨?_, hqok, hl.order, hl.stored, hl.only, hl.rel, hl.sub, ?_, hl.slots, hl.incoming⟩⟩
    · intro a
      have h1 := h.cnt a
      obtain ⟨k', hk'⟩ := ident_in_queue hl hq a
      simp only [Packet.ident] at hk'
      rw [count_ids] at h1 ⊢
      show s.pool.queue.count a + _ + _ = _
      simp only [Ledger.publishIds, Ledger.onWritten, Packet.ident, List.count_append, count_single, count_without] at h1 ⊢
      omega
    · exact hqw
    · intro a
      have := hc a
      have h2 := hl.unsub a
      simp only [Ledger.onWritten, List.count_append, count_single]
      show (IdSet.insert p.id s.handler.state.unsub).1.count a = _
      omega
  | disconnect p =>
    left
    exact ⟨s.handler.state, rfl, rfl, h.cap, h.cnt, h.calling, h.pok, h.clean, fun _ =>
      ⟨hqw, hqok, hl.order, hl.stored, hl.only, hl.rel, hl.sub, hl.unsub, hl.slots, hl.incoming⟩⟩
  | _ => exact absurd hsub (by simp [Submittable])

/-! ## receiving -/

/-- the result of passing a packet to the handler, in terms of the ledger -/
structure Received (n r : UInt16) (clean : Bool) (s : Sys) (l : Ledger) (lost : List UInt16) (p : Packet)
    (out : State × Except HFail (Option Packet × Bool)) : Prop where
  ok : ∀ reply shown, out.2 = .ok (reply, shown) →
    Inv n r clean { s with handler := { s.handler with state := out.1 } } (l.onReceived p)
      (lost ++ l.leak clean (.received p reply shown))
  err : ∀ e, out.2 = .error (.err e) →
    Inv n r clean { s with handler := { s.handler with state := out.1 } } (l.step clean (.receivedError p e))
      (lost ++ l.leak clean (.receivedError p e))
  panic : out.2 = .error .panic → out.1.pool = s.pool

/-- an unchanged state -/
theorem Received.same (h : Inv n r clean s l lost) (p : Packet)
    (res : Except HFail (Option Packet × Bool)) (hl : l.onReceived p = l)
    (hn : ∀ reply shown, l.leak clean (.received p reply shown) = [])
    (he : ∀ id, res ≠ .error (.err (.packetIdChannelError id))) :
    Received n r clean s l lost p (s.handler.state, res) where
  ok := by intro reply shown _; rw [hl, hn, List.append_nil]; exact h
  err := by
    intro e hres
    have h1 : l.step clean (.receivedError p e) = l := by
      cases e <;> first | rfl | exact absurd hres (he _)
    have h2 : l.leak clean (.receivedError p e) = [] := by
      cases e <;> first | rfl | exact absurd hres (he _)
    rw [h1, h2, List.append_nil]; exact h
  panic := fun _ => rfl

/-- an error that leaves the state as it is -/
theorem Received.error (h : Inv n r clean s l lost) (p : Packet) (e : HErr)
    (he : ∀ id, e ≠ .packetIdChannelError id) :
    Received n r clean s l lost p (s.handler.state, .error (.err e)) where
  ok := by intro _ _ hh; simp at hh
  err := by
    intro e' hres
    simp only [Except.error.injEq, HFail.err.injEq] at hres
    subst hres
    have h1 : l.step clean (.receivedError p e) = l := by
      cases e <;> first | rfl | exact absurd rfl (he _)
    have h2 : l.leak clean (.receivedError p e) = [] := by
      cases e <;> first | rfl | exact absurd rfl (he _)
    rw [h1, h2, List.append_nil]; exact h
  panic := fun _ => rfl

/-- the state after the release of an identifier that left the ledger -/
theorem Received.release (h : Inv n r clean s l lost) (ha : s.alive = true) {p : Packet} {id : UInt16}
    {st : State} (hpool : st.pool = s.pool)
    (hids : ∀ a, l.ids.count a = (l.onReceived p).ids.count a + ind (some id) a)
    (hcalling : (l.onReceived p).calling = l.calling)
    (hn : ∀ reply shown, l.leak clean (.received p reply shown) = [])
    (hlive : Live r s.queue st (l.onReceived p)) :
    Received n r clean s l lost p (Handler.shown (Handler.release st id)) := by
  have hlen : s.pool.queue.length < s.pool.cap := by
    have h1 := h.length
    rw [h.cap]
    have h2 : 0 < l.ids.length := by
      have := hids id
      rw [ind_self] at this
      exact List.length_pos_of_mem (List.count_pos_iff.mp (show 0 < List.count id l.ids by omega))
    omega
  cases hc : s.pool.closed with
  | false =>
    rw [Handler.release_open (by rw [hpool]; exact hc) (by rw [hpool]; exact hlen)]
    refine ⟨?_, ?_, ?_⟩
    · intro reply shown _
      rw [hn, List.append_nil]
      refine ⟨by show st.pool.cap = _; rw [hpool]; exact h.cap, ?_, ?_, h.pok, h.clean, ?_⟩
      · intro a
        show (st.pool.queue ++ [id]).count a + _ + _ = _
        have h1 := h.cnt a
        have h2 := hids a
        rw [hpool, List.count_append, count_single]
        omega
      · rw [hcalling]; exact h.calling
      · intro _
        exact ⟨hlive.queued, hlive.qok, hlive.order, hlive.stored, hlive.only, hlive.rel, hlive.sub,
          hlive.unsub, hlive.slots, hlive.incoming⟩
    · intro e he; simp [Handler.shown] at he
    · intro he; simp [Handler.shown] at he
  | true =>
    rw [Handler.release_closed (by rw [hpool]; exact hc)]
    refine ⟨?_, ?_, ?_⟩
    · intro reply shown he; simp [Handler.shown] at he
    · intro e he
      simp only [Handler.shown, Except.error.injEq, HFail.err.injEq] at he
      subst he
      refine ⟨by show st.pool.cap = _; rw [hpool]; exact h.cap, ?_, ?_, h.pok, h.clean, ?_⟩
      · intro a
        show st.pool.queue.count a + _ + _ = _
        have h1 := h.cnt a
        have h2 := hids a
        simp only [Ledger.step, Ledger.leak]
        rw [hpool, List.count_append, count_single]
        omega
      · exact (by rw [Ledger.step, hcalling]; exact h.calling)
      · intro _
        exact ⟨hlive.queued, hlive.qok, hlive.order, hlive.stored, hlive.only, hlive.rel, hlive.sub,
          hlive.unsub, hlive.slots, hlive.incoming⟩
    · intro he; simp [Handler.shown] at he

/-- the live part of the invariant after an outgoing publish was removed -/
theorem Live.removePub (h : Inv n r clean s l lost) (hl : Live r s.queue s.handler.state l) {id : UInt16}
    {i : Nat} (hi : s.handler.state.slotIndex id = some i) :
    Live r s.queue { s.handler.state with order := s.handler.state.order.erase id,
                                          slots := s.handler.state.slots.set i none }
      { l with unacked := l.unacked.filter (·.pkid ≠ some id) } := by
  have hst : ∀ id', State.stored { s.handler.state with order := s.handler.state.order.erase id, slots := s.handler.state.slots.set i none } id' = if id' = id then none else s.handler.state.stored id' :=
    State.stored_set hi rfl
  refine ⟨hl.queued, hl.qok, ?_, ?_, ?_, hl.rel, hl.sub, hl.unsub, ?_, hl.incoming⟩
  · rw [h.publishIds_erase, ← hl.order]
  · intro p hp
    rw [List.mem_filter] at hp
    obtain ⟨id', h1, h2, h3⟩ := hl.stored p hp.1
    refine ⟨id', h1, h2, ?_⟩
    have hne : id' ≠ id := by
      rintro rfl
      have := hp.2
      simp [h1] at this
    exact (hst id').trans (by rw [if_neg hne]; exact h3)
  · intro id' p' h'
    have h'' := (hst id').symm.trans h'
    split at h''
    · simp at h''
    · rename_i hne
      obtain ⟨a1, a2⟩ := hl.only id' p' h''
      refine ⟨List.mem_filter.mpr ⟨a1, ?_⟩, a2⟩
      simp [a2, hne]
  · show (List.set _ _ _).length = _
    rw [List.length_set]; exact hl.slots

/-- an unknown identifier leaves the state as it is -/
theorem erase_unknown (hl : Live r s.queue s.handler.state l) {id : UInt16}
    (hn : s.handler.state.stored id = none) : s.handler.state.order.erase id = s.handler.state.order := by
  apply List.erase_of_not_mem
  rw [hl.order]
  intro hm
  obtain ⟨p, hp, hpk⟩ := List.mem_filterMap.mp hm
  obtain ⟨id', h1, _, h3⟩ := hl.stored p hp
  have hpk' : p.pkid = some id := hpk
  rw [hpk'] at h1
  obtain rfl := Option.some.inj h1
  rw [hn] at h3
  simp at h3

theorem count_removePub (h : Inv n r clean s l lost) (hl : Live r s.queue s.handler.state l) {id : UInt16}
    {p : Publish} (hp : s.handler.state.stored id = some p) (a : UInt16) :
    l.publishIds.count a
      = ({ l with unacked := l.unacked.filter (·.pkid ≠ some id) } : Ledger).publishIds.count a + ind (some id) a := by
  rw [h.publishIds_erase, count_erase']
  obtain ⟨h1, h2⟩ := hl.only id p hp
  have h3 : id ∈ l.publishIds := List.mem_filterMap.mpr ⟨p, h1, h2⟩
  have h4 := List.count_pos_iff.mpr h3
  by_cases ha : a = id
  · subst ha; rw [ind_self]; omega
  · have : ind (some id) a = 0 := by simp [ind, Ne.symm ha]
    omega

theorem Inv.receive (h : Inv n r clean s l lost) (ha : s.alive = true) (p : Packet) :
    Received n r clean s l lost p (Handler.incomingState s.handler.state p) := by
  have hl := h.live ha
  have hother : ∀ e, (∀ id, e ≠ HErr.packetIdChannelError id) → l.onReceived p = l →
      (∀ reply shown, l.leak clean (.received p reply shown) = []) →
      Received n r clean s l lost p (s.handler.state, .error (.err e)) := by
    intro e he h1 h2
    exact Received.same h p _ h1 h2 (by intro id hh; simp at hh; exact he id hh)
  cases p with
  | publish p =>
    simp only [Handler.incomingState, Handler.incomingPublish]
    cases hq : p.qos with
    | atMostOnce => exact Received.same h _ _ rfl (fun _ _ => rfl) (by simp)
    | atLeastOnce =>
      cases hp : p.pkid with
      | none => exact Received.same h _ _ rfl (fun _ _ => rfl) (by simp)
      | some id => exact Received.same h _ _ rfl (fun _ _ => rfl) (by simp)
    | exactlyOnce =>
      cases hp : p.pkid with
      | none => exact Received.same h _ _ rfl (fun _ _ => rfl) (by simp)
      | some id =>
        refine ⟨?_, ?_, ?_⟩
        · intro reply shown _
          refine ⟨h.cap, ?_, h.calling, h.pok, h.clean, fun _ => ?_⟩
          · intro x
            rw [show l.leak clean (.received (.publish p) reply shown) = [] from rfl, List.append_nil]
            exact h.cnt x
          · exact ⟨hl.queued, hl.qok, hl.order, hl.stored, hl.only, hl.rel, hl.sub, hl.unsub, hl.slots,
              IdSet.insert_sorted hl.incoming⟩
        · intro e he; simp at he
        · intro he; simp at he
  | pubAck a =>
    simp only [Handler.incomingState, Handler.incomingPubAck]
    rcases State.removeOutgoingPub_eq s.handler.state a.id with ⟨_, hr⟩ | ⟨i, hi, hn, hr⟩ | ⟨i, p, hi, hs, hr⟩
    · rw [hr]
      exact ⟨by intro _ _ he; simp [Handler.shown] at he, by intro e he; simp [Handler.shown] at he, fun _ => rfl⟩
    · rw [hr, erase_unknown hl hn]
      exact Received.error h _ _ (by simp)
    · rw [hr]
      refine Received.release h ha (id := a.id) rfl ?_ rfl (fun _ _ => rfl) (Live.removePub h hl hi)
      intro x
      have h1 := count_removePub h hl hs x
      rw [count_ids, count_ids]
      simp only [Ledger.onReceived]
      omega
  | pubRec a =>
    simp only [Handler.incomingState, Handler.incomingPubRec]
    rcases State.removeOutgoingPub_eq s.handler.state a.id with ⟨_, hr⟩ | ⟨i, hi, hn, hr⟩ | ⟨i, p, hi, hs, hr⟩
    · rw [hr]
      exact ⟨by intro _ _ he; simp [Handler.shown] at he, by intro e he; simp [Handler.shown] at he, fun _ => rfl⟩
    · rw [hr, erase_unknown hl hn]
      exact Received.error h _ _ (by simp)
    · rw [hr]
      have hlive := Live.removePub h hl hi
      have hcnt := count_removePub h hl hs
      have hle := h.le_one a.id
      have hpos : 0 < l.publishIds.count a.id := by have := hcnt a.id; rw [ind_self] at this; omega
      by_cases hacc : a.reason = .success ∨ a.reason = .noMatchingSubscribers
      · simp only [if_pos hacc]
        have hacc' : Ledger.accepts a = true := by simpa [Ledger.accepts] using hacc
        refine ⟨?_, by intro e he; simp [Handler.shown] at he, by intro he; simp [Handler.shown] at he⟩
        intro reply shown _
        have hc := insert_count (x := a.id) (xs := s.handler.state.rel) (by have := hl.rel a.id; omega)
        refine ⟨h.cap, ?_, h.calling, h.pok, h.clean, fun _ => ?_⟩
        · intro x
          have h1 := h.cnt x
          have h2 := hcnt x
          simp only [Ledger.leak, hacc', if_true, List.append_nil]
          show s.pool.queue.count x + _ + _ = _
          rw [count_ids] at h1 ⊢
          simp only [Ledger.onReceived, hacc', if_true, List.count_append, count_single]
          simp only [Ledger.publishIds] at h1 h2 ⊢
          omega
        · refine ⟨hlive.queued, hlive.qok, hlive.order, hlive.stored, hlive.only, ?_, hlive.sub, hlive.unsub,
            hlive.slots, hlive.incoming⟩
          intro x
          have h1 := hl.rel x
          have h2 := hc x
          simp only [Ledger.onReceived, hacc', if_true, List.count_append, count_single]
          show (IdSet.insert a.id s.handler.state.rel).1.count x = _
          omega
      · simp only [if_neg hacc]
        have hacc' : Ledger.accepts a = false := by
          simp only [Ledger.accepts, Bool.or_eq_false_iff, decide_eq_false_iff_not]
          exact ⟨fun hh => hacc (Or.inl hh), fun hh => hacc (Or.inr hh)⟩
        refine ⟨?_, by intro e he; simp [Handler.shown] at he, by intro he; simp [Handler.shown] at he⟩
        intro reply shown _
        refine ⟨h.cap, ?_, h.calling, h.pok, h.clean, fun _ => ?_⟩
        · intro x
          have h1 := h.cnt x
          have h2 := hcnt x
          simp only [Ledger.leak, hacc', Bool.false_eq_true, if_false]
          show s.pool.queue.count x + _ + _ = _
          rw [count_ids] at h1 ⊢
          simp only [Ledger.onReceived, hacc', Bool.false_eq_true, if_false, List.count_append, count_single]
          simp only [Ledger.publishIds] at h1 h2 ⊢
          omega
        · refine ⟨hlive.queued, hlive.qok, hlive.order, hlive.stored, hlive.only, ?_, hlive.sub, hlive.unsub,
            hlive.slots, hlive.incoming⟩
          intro x
          simp only [Ledger.onReceived, hacc', Bool.false_eq_true, if_false]
          exact hl.rel x
  | pubRel a =>
    simp only [Handler.incomingState, Handler.incomingPubRel]
    refine ⟨?_, by intro e he; simp [Handler.shown] at he, by intro he; simp [Handler.shown] at he⟩
    intro reply shown _
    refine ⟨h.cap, ?_, h.calling, h.pok, h.clean, fun _ => ?_⟩
    · intro x
      rw [show l.leak clean (.received (.pubRel a) reply shown) = [] from rfl, List.append_nil]
      exact h.cnt x
    · exact ⟨hl.queued, hl.qok, hl.order, hl.stored, hl.only, hl.rel, hl.sub, hl.unsub, hl.slots,
        List.Pairwise.sublist List.erase_sublist hl.incoming⟩
  | pubComp a =>
    simp only [Handler.incomingState, Handler.incomingPubComp, State.removeOutgoingRel, IdSet.remove]
    have hrel := hl.rel a.id
    by_cases hm : a.id ∈ s.handler.state.rel
    · have hb : s.handler.state.rel.contains a.id = true := by simpa using hm
      simp only [hb, if_true]
      have hpos := List.count_pos_iff.mpr hm
      refine Received.release h ha (id := a.id) rfl ?_ rfl (fun _ _ => rfl) ?_
      · intro x
        rw [count_ids, count_ids]
        simp only [Ledger.onReceived, Ledger.publishIds, count_erase']
        by_cases hx : x = a.id
        · subst hx; rw [ind_self]; omega
        · have : ind (some a.id) x = 0 := by simp [ind, Ne.symm hx]
          omega
      · refine ⟨hl.queued, hl.qok, hl.order, hl.stored, hl.only, ?_, hl.sub, hl.unsub, hl.slots, hl.incoming⟩
        intro x
        simp only [Ledger.onReceived, count_erase', hl.rel x]
    · have hb : s.handler.state.rel.contains a.id = false := by simpa using hm
      simp only [hb, Bool.false_eq_true, if_false, List.erase_of_not_mem hm]
      exact Received.error h _ _ (by simp)
  | subAck a =>
    simp only [Handler.incomingState, Handler.incomingSubAck, State.removeOutgoingSub, IdSet.remove]
    have hrel := hl.sub a.id
    by_cases hm : a.id ∈ s.handler.state.sub
    · have hb : s.handler.state.sub.contains a.id = true := by simpa using hm
      simp only [hb, if_true]
      have hpos := List.count_pos_iff.mpr hm
      refine Received.release h ha (id := a.id) rfl ?_ rfl (fun _ _ => rfl) ?_
      · intro x
        rw [count_ids, count_ids]
        simp only [Ledger.onReceived, Ledger.publishIds, count_erase']
        by_cases hx : x = a.id
        · subst hx; rw [ind_self]; omega
        · have : ind (some a.id) x = 0 := by simp [ind, Ne.symm hx]
          omega
      · refine ⟨hl.queued, hl.qok, hl.order, hl.stored, hl.only, hl.rel, ?_, hl.unsub, hl.slots, hl.incoming⟩
        intro x
        simp only [Ledger.onReceived, count_erase', hl.sub x]
    · have hb : s.handler.state.sub.contains a.id = false := by simpa using hm
      simp only [hb, Bool.false_eq_true, if_false, List.erase_of_not_mem hm]
      exact Received.error h _ _ (by simp)
  | unsubAck a =>
    simp only [Handler.incomingState, Handler.incomingUnsubAck, State.removeOutgoingUnsub, IdSet.remove]
    have hrel := hl.unsub a.id
    by_cases hm : a.id ∈ s.handler.state.unsub
    · have hb : s.handler.state.unsub.contains a.id = true := by simpa using hm
      simp only [hb, if_true]
      have hpos := List.count_pos_iff.mpr hm
      refine Received.release h ha (id := a.id) rfl ?_ rfl (fun _ _ => rfl) ?_
      · intro x
        rw [count_ids, count_ids]
        simp only [Ledger.onReceived, Ledger.publishIds, count_erase']
        by_cases hx : x = a.id
        · subst hx; rw [ind_self]; omega
        · have : ind (some a.id) x = 0 := by simp [ind, Ne.symm hx]
          omega
      · refine ⟨hl.queued, hl.qok, hl.order, hl.stored, hl.only, hl.rel, hl.sub, ?_, hl.slots, hl.incoming⟩
        intro x
        simp only [Ledger.onReceived, count_erase', hl.unsub x]
    · have hb : s.handler.state.unsub.contains a.id = false := by simpa using hm
      simp only [hb, Bool.false_eq_true, if_false, List.erase_of_not_mem hm]
      exact Received.error h _ _ (by simp)
  | _ =>
    exact hother _ (by intro id; simp) rfl (fun _ _ => rfl)

end Mqrstt
