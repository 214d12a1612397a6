import Verif.Spec.Reorder
import Verif.Proof.Receiver
/-!
# Packets of different conversations commute (C118)
-/

namespace Mqrstt
open Mqrstt.Spec

/-! ## sets -/

namespace IdSet

theorem insert_comm (i j : UInt16) : ∀ l : List UInt16, (insert i (insert j l).1).1 = (insert j (insert i l).1).1
  | [] => by
    simp only [insert]
    repeat' split
    all_goals grind [UInt16.lt_iff_toNat_lt, UInt16.toNat_inj]
  | x :: xs => by
    have ih := insert_comm i j xs
    simp only [insert]
    repeat' split
    all_goals simp only [insert]
    all_goals repeat' split
    all_goals grind [UInt16.lt_iff_toNat_lt, UInt16.toNat_inj]

theorem insert_erase_comm {i j : UInt16} (hij : i ≠ j) : ∀ {l : List UInt16}, l.Pairwise (· < ·) →
    (insert i l).1.erase j = (insert i (l.erase j)).1
  | [], _ => by
    simp [insert, List.erase_cons, hij]
  | x :: xs, h => by
    rw [List.pairwise_cons] at h
    have ih := insert_erase_comm hij h.2
    by_cases hx : x = j
    · subst hx
      simp only [List.erase_cons_head]
      simp only [insert]
      split
      · rename_i hlt
        rw [List.erase_cons_tail (by simpa using hij)]
        simp only [List.erase_cons_head]
        cases xs with
        | nil => rfl
        | cons y ys =>
          have := h.1 y (by simp)
          rw [insert, if_pos (UInt16.lt_trans hlt this)]
      · simp
    · rw [List.erase_cons_tail (by simpa using hx)]
      simp only [insert]
      split
      · rw [List.erase_cons_tail (by simpa using hij), List.erase_cons_tail (by simpa using hx)]
      · split
        · rw [List.erase_cons_tail (by simpa using hx)]
        · simp only
          rw [List.erase_cons_tail (by simpa using hx), ih]

end IdSet

/-! ## optional actions -/

/-- what a packet does to the session -/
structure Act where
  pub : Option UInt16 := none
  relIn : Option UInt16 := none
  relOut : Option UInt16 := none
  sub : Option UInt16 := none
  unsub : Option UInt16 := none
  free : Option UInt16 := none
  inIn : Option UInt16 := none
  inOut : Option UInt16 := none

def eraseO (i : Option UInt16) (l : List UInt16) : List UInt16 := match i with | some i => l.erase i | none => l
def insertO (i : Option UInt16) (l : List UInt16) : List UInt16 := match i with | some i => (IdSet.insert i l).1 | none => l
def clearO (i : Option UInt16) (l : List (Option Publish)) : List (Option Publish) :=
  match i with | some i => l.set (i.toNat - 1) none | none => l

def Act.eff (a : Act) (s : State) : State :=
  { pool := { s.pool with queue := s.pool.queue ++ a.free.toList }
    sub := eraseO a.sub s.sub
    unsub := eraseO a.unsub s.unsub
    slots := clearO a.pub s.slots
    order := eraseO a.pub s.order
    rel := insertO a.relIn (eraseO a.relOut s.rel)
    incoming := insertO a.inIn (eraseO a.inOut s.incoming) }

structure Act.Ok (a : Act) (s : State) : Prop where
  pub : ∀ i, a.pub = some i → ∃ p, s.stored i = some p
  relOut : ∀ i, a.relOut = some i → i ∈ s.rel
  sub : ∀ i, a.sub = some i → i ∈ s.sub
  unsub : ∀ i, a.unsub = some i → i ∈ s.unsub
  free : ∀ i, a.free = some i → s.pool.closed = false ∧ s.pool.queue.length < s.pool.cap

def act : Packet → Act
  | .publish p => match p.qos with
    | .exactlyOnce => { inIn := p.pkid }
    | _ => {}
  | .pubAck a => { pub := some a.id, free := some a.id }
  | .pubRec a => { pub := some a.id, relIn := if a.reason = .success ∨ a.reason = .noMatchingSubscribers then some a.id else none }
  | .pubRel a => { inOut := some a.id }
  | .pubComp a => { relOut := some a.id, free := some a.id }
  | .subAck a => { sub := some a.id, free := some a.id }
  | .unsubAck a => { unsub := some a.id, free := some a.id }
  | _ => {}

/-- packets that are accepted if the session knows what they are about -/
def Decent : Packet → Prop
  | .publish p => p.qos = .atMostOnce ∨ p.pkid ≠ none
  | .pubAck _ | .pubRec _ | .pubRel _ | .pubComp _ | .subAck _ | .unsubAck _ => True
  | _ => False

def answer (s : State) : Packet → Option Packet × Bool
  | .publish p => match p.qos, p.pkid with
    | .atLeastOnce, some id => (some (.pubAck ⟨id, .success, .empty⟩), true)
    | .exactlyOnce, some id => (some (.pubRec (State.successAck id)), (IdSet.insert id s.incoming).2 && !p.dup)
    | _, _ => (none, true)
  | .pubRec a => (if a.reason = .success ∨ a.reason = .noMatchingSubscribers then some (.pubRel (State.successAck a.id)) else none, true)
  | .pubRel a => (some (.pubComp (State.successAck a.id)), true)
  | _ => (none, true)

theorem release_ok {s s' : State} {id : UInt16} {r : Option Packet} :
    Handler.release s id = (s', .ok r) ↔ (s.pool.closed = false ∧ s.pool.queue.length < s.pool.cap) ∧
      s' = { s with pool := { s.pool with queue := s.pool.queue ++ [id] } } ∧ r = none := by
  simp only [Handler.release, State.makePkidAvailable, Pool.markAvailable]
  by_cases hc : s.pool.closed <;> by_cases hl : s.pool.queue.length < s.pool.cap <;> simp [hc, hl, eq_comm]

theorem shown_ok {r : State × Except HFail (Option Packet)} {s' : State} {x : Option Packet × Bool} :
    Handler.shown r = (s', .ok x) ↔ r = (s', .ok x.1) ∧ x.2 = true := by
  obtain ⟨s, r | r⟩ := r
  · simp [Handler.shown]
  · obtain ⟨a, b⟩ := x
    simp [Handler.shown]
    grind

theorem removeOutgoingPub_ok {s s' : State} {id : UInt16} {p : Publish} (h : s.removeOutgoingPub id = (s', .ok (some p))) :
    (∃ p, s.stored id = some p) ∧ s' = { s with order := s.order.erase id, slots := s.slots.set (id.toNat - 1) none } := by
  rcases State.removeOutgoingPub_eq s id with ⟨_, h'⟩ | ⟨i, _, _, h'⟩ | ⟨i, q, hi, hq, h'⟩
  · rw [h'] at h; cases h
  · rw [h'] at h; cases h
  · rw [h'] at h
    cases h
    obtain ⟨-, rfl, -⟩ := State.slotIndex_some hi
    exact ⟨⟨_, hq⟩, rfl⟩

theorem removeOutgoingPub_stored {s : State} {id : UInt16} {p : Publish} (h : s.stored id = some p) :
    s.removeOutgoingPub id = ({ s with order := s.order.erase id, slots := s.slots.set (id.toNat - 1) none }, .ok (some p)) := by
  rcases State.removeOutgoingPub_eq s id with ⟨h1, h'⟩ | ⟨i, _, h1, h'⟩ | ⟨i, q, hi, hq, h'⟩
  · simp [State.stored, h1] at h
  · rw [h1] at h; cases h
  · rw [hq] at h
    cases h
    obtain ⟨-, rfl, -⟩ := State.slotIndex_some hi
    exact h'

theorem incomingPubComp_eq (s : State) (a : Ack) : Handler.incomingPubComp s a =
    if a.id ∈ s.rel then Handler.release { s with rel := s.rel.erase a.id } a.id
    else ({ s with rel := s.rel.erase a.id }, .error (.err (.unsolicited a.id .pubComp))) := by
  unfold Handler.incomingPubComp
  have e : s.removeOutgoingRel a.id = ({ s with rel := s.rel.erase a.id }, s.rel.contains a.id) := rfl
  rw [e]
  by_cases h : a.id ∈ s.rel <;> simp [h]

theorem incomingSubAck_eq (s : State) (a : CodesAck) : Handler.incomingSubAck s a =
    if a.id ∈ s.sub then Handler.release { s with sub := s.sub.erase a.id } a.id
    else ({ s with sub := s.sub.erase a.id }, .error (.err (.unsolicited a.id .subAck))) := by
  unfold Handler.incomingSubAck
  have e : s.removeOutgoingSub a.id = ({ s with sub := s.sub.erase a.id }, s.sub.contains a.id) := rfl
  rw [e]
  by_cases h : a.id ∈ s.sub <;> simp [h]

theorem incomingUnsubAck_eq (s : State) (a : CodesAck) : Handler.incomingUnsubAck s a =
    if a.id ∈ s.unsub then Handler.release { s with unsub := s.unsub.erase a.id } a.id
    else ({ s with unsub := s.unsub.erase a.id }, .error (.err (.unsolicited a.id .unsubAck))) := by
  unfold Handler.incomingUnsubAck
  have e : s.removeOutgoingUnsub a.id = ({ s with unsub := s.unsub.erase a.id }, s.unsub.contains a.id) := rfl
  rw [e]
  by_cases h : a.id ∈ s.unsub <;> simp [h]

theorem incoming_iff (s s' : State) (p : Packet) (x : Option Packet × Bool) :
    Handler.incomingState s p = (s', .ok x) ↔ Decent p ∧ (act p).Ok s ∧ s' = (act p).eff s ∧ x = answer s p := by
  cases p with
  | publish p =>
    obtain ⟨dup, qos, retain, topic, pkid, props, payload⟩ := p
    have hok : ∀ i, (act (.publish ⟨dup, .exactlyOnce, retain, topic, i, props, payload⟩)).Ok s :=
      fun i => ⟨by simp [act], by simp [act], by simp [act], by simp [act], by simp [act]⟩
    have hok' : (Act.mk none none none none none none none none).Ok s := ⟨by simp, by simp, by simp, by simp, by simp⟩
    cases qos <;> cases pkid <;>
      simp only [Handler.incomingState, Handler.incomingPublish, State.addIncomingPub, Decent, answer, hok, true_and, Prod.mk.injEq,
        Except.ok.injEq, reduceCtorEq, and_false, false_and, false_or, ne_eq, not_true_eq_false, not_false_eq_true, or_true, true_or] <;>
      simp [act, Act.eff, eraseO, insertO, clearO, hok'] <;> (constructor <;> (rintro ⟨rfl, rfl⟩; exact ⟨rfl, rfl⟩))
  | pubAck a =>
    simp only [Handler.incomingState, shown_ok, Handler.incomingPubAck]
    constructor
    · rintro ⟨h1, h2⟩
      rcases hrem : s.removeOutgoingPub a.id with ⟨s1, r⟩
      rw [hrem] at h1
      simp only at h1
      split at h1
      · cases h1
      · obtain ⟨h3, h4⟩ := removeOutgoingPub_ok hrem
        obtain ⟨h5, h6, h7⟩ := release_ok.1 h1
        rw [h4] at h5 h6
        refine ⟨trivial, ⟨by simp [act, h3], by simp [act], by simp [act], by simp [act], by simpa [act] using h5⟩, ?_, Prod.ext h7 h2⟩
        simp [h6, act, Act.eff, eraseO, insertO, clearO]
      · cases h1
    · rintro ⟨-, h1, rfl, rfl⟩
      obtain ⟨p, hp⟩ := h1.pub _ rfl
      rw [removeOutgoingPub_stored hp]
      refine ⟨release_ok.2 ⟨h1.free _ rfl, ?_, rfl⟩, rfl⟩
      simp [act, Act.eff, eraseO, insertO, clearO]
  | pubRec a =>
    simp only [Handler.incomingState, shown_ok, Handler.incomingPubRec]
    constructor
    · rintro ⟨h1, h2⟩
      rcases hrem : s.removeOutgoingPub a.id with ⟨s1, r⟩
      rw [hrem] at h1
      simp only at h1
      split at h1
      · cases h1
      · obtain ⟨h3, h4⟩ := removeOutgoingPub_ok hrem
        rw [h4] at h1
        refine ⟨trivial, ⟨?_, ?_, ?_, ?_, ?_⟩, ?_⟩
        · simp [act, h3]
        · simp [act]
        · simp [act]
        · simp [act]
        · simp [act]
        · obtain ⟨x1, x2⟩ := x
          split at h1 <;> rename_i hr <;> simp [act, Act.eff, eraseO, insertO, clearO, answer, hr, State.addOutgoingRel] at h1 ⊢ <;>
            (obtain ⟨rfl, rfl⟩ := h1; exact ⟨rfl, rfl, h2⟩)
      · cases h1
    · rintro ⟨-, h1, rfl, rfl⟩
      obtain ⟨p, hp⟩ := h1.pub _ rfl
      rw [removeOutgoingPub_stored hp]
      refine ⟨?_, rfl⟩
      by_cases hr : a.reason = .success ∨ a.reason = .noMatchingSubscribers <;>
        simp [act, Act.eff, eraseO, insertO, clearO, answer, hr, State.addOutgoingRel]
  | pubRel a =>
    simp only [Handler.incomingState, shown_ok, Handler.incomingPubRel, State.removeIncomingPub, IdSet.remove]
    simp [Decent, act, Act.eff, eraseO, insertO, clearO, answer]
    constructor
    · rintro ⟨⟨h1, h2⟩, h3⟩
      exact ⟨⟨by simp, by simp, by simp, by simp, by simp⟩, h1.symm, Prod.ext h2.symm h3⟩
    · rintro ⟨-, rfl, rfl⟩
      simp
  | pubComp a =>
    simp only [Handler.incomingState, shown_ok, incomingPubComp_eq]
    constructor
    · rintro ⟨h1, h2⟩
      by_cases hm : a.id ∈ s.rel
      · rw [if_pos hm] at h1
        obtain ⟨h5, h6, h7⟩ := release_ok.1 h1
        refine ⟨trivial, ⟨by simp [act], by simpa [act] using hm, by simp [act], by simp [act], by simpa [act] using h5⟩, ?_, Prod.ext h7 h2⟩
        simp [h6, act, Act.eff, eraseO, insertO, clearO]
      · rw [if_neg hm] at h1
        cases h1
    · rintro ⟨-, h1, rfl, rfl⟩
      rw [if_pos (by simpa using h1.relOut _ rfl)]
      exact ⟨release_ok.2 ⟨h1.free _ rfl, by simp [act, Act.eff, eraseO, insertO, clearO], rfl⟩, rfl⟩
  | subAck a =>
    simp only [Handler.incomingState, shown_ok, incomingSubAck_eq]
    constructor
    · rintro ⟨h1, h2⟩
      by_cases hm : a.id ∈ s.sub
      · rw [if_pos hm] at h1
        obtain ⟨h5, h6, h7⟩ := release_ok.1 h1
        refine ⟨trivial, ⟨by simp [act], by simp [act], by simpa [act] using hm, by simp [act], by simpa [act] using h5⟩, ?_, Prod.ext h7 h2⟩
        simp [h6, act, Act.eff, eraseO, insertO, clearO]
      · rw [if_neg hm] at h1
        cases h1
    · rintro ⟨-, h1, rfl, rfl⟩
      rw [if_pos (by simpa using h1.sub _ rfl)]
      exact ⟨release_ok.2 ⟨h1.free _ rfl, by simp [act, Act.eff, eraseO, insertO, clearO], rfl⟩, rfl⟩
  | unsubAck a =>
    simp only [Handler.incomingState, shown_ok, incomingUnsubAck_eq]
    constructor
    · rintro ⟨h1, h2⟩
      by_cases hm : a.id ∈ s.unsub
      · rw [if_pos hm] at h1
        obtain ⟨h5, h6, h7⟩ := release_ok.1 h1
        refine ⟨trivial, ⟨by simp [act], by simp [act], by simp [act], by simpa [act] using hm, by simpa [act] using h5⟩, ?_, Prod.ext h7 h2⟩
        simp [h6, act, Act.eff, eraseO, insertO, clearO]
      · rw [if_neg hm] at h1
        cases h1
    · rintro ⟨-, h1, rfl, rfl⟩
      rw [if_pos (by simpa using h1.unsub _ rfl)]
      exact ⟨release_ok.2 ⟨h1.free _ rfl, by simp [act, Act.eff, eraseO, insertO, clearO], rfl⟩, rfl⟩
  | _ => simp [Handler.incomingState, Decent]

/-! ## two packets -/

/-- the identifiers a packet is about belong to its conversation -/
theorem act_talk (p : Packet) :
    (∀ i, ((act p).pub = some i ∨ (act p).relIn = some i ∨ (act p).relOut = some i ∨ (act p).sub = some i ∨ (act p).unsub = some i) →
      talk p = .mine i) ∧
    (∀ i, ((act p).inIn = some i ∨ (act p).inOut = some i) → talk p = .theirs (some i)) := by
  cases p with
  | publish p =>
    obtain ⟨dup, qos, retain, topic, pkid, props, payload⟩ := p
    cases qos <;> simp [act, talk]
  | pubRec a =>
    simp only [act, talk, Option.some.injEq, reduceCtorEq, false_or, or_false]
    refine ⟨fun i h => ?_, by simp⟩
    rcases h with h | h
    · rw [h]
    · split at h <;> simp at h; rw [h]
  | _ => simp [act, talk]

structure Act.Apart (a b : Act) : Prop where
  pub : ∀ i j, a.pub = some i → b.pub = some j → i ≠ j
  sub : ∀ i j, a.sub = some i → b.sub = some j → i ≠ j
  unsub : ∀ i j, a.unsub = some i → b.unsub = some j → i ≠ j
  rel : ∀ i j, (a.relIn = some i ∨ a.relOut = some i) → (b.relIn = some j ∨ b.relOut = some j) → i ≠ j
  inc : ∀ i j, (a.inIn = some i ∨ a.inOut = some i) → (b.inIn = some j ∨ b.inOut = some j) → i ≠ j

theorem act_apart {p q : Packet} (h : talk p ≠ talk q) : (act p).Apart (act q) := by
  have hp := act_talk p
  have hq := act_talk q
  refine ⟨?_, ?_, ?_, ?_, ?_⟩
  · rintro i j h1 h2 rfl
    exact h ((hp.1 i (by simp [h1])).trans (hq.1 i (by simp [h2])).symm)
  · rintro i j h1 h2 rfl
    exact h ((hp.1 i (by simp [h1])).trans (hq.1 i (by simp [h2])).symm)
  · rintro i j h1 h2 rfl
    exact h ((hp.1 i (by simp [h1])).trans (hq.1 i (by simp [h2])).symm)
  · rintro i j h1 h2 rfl
    exact h ((hp.1 i (by rcases h1 with h1 | h1 <;> simp [h1])).trans (hq.1 i (by rcases h2 with h2 | h2 <;> simp [h2])).symm)
  · rintro i j h1 h2 rfl
    exact h ((hp.2 i h1).trans (hq.2 i h2).symm)

theorem Act.Apart.symm {a b : Act} (h : a.Apart b) : b.Apart a :=
  ⟨fun i j h1 h2 e => h.pub j i h2 h1 e.symm, fun i j h1 h2 e => h.sub j i h2 h1 e.symm,
    fun i j h1 h2 e => h.unsub j i h2 h1 e.symm, fun i j h1 h2 e => h.rel j i h2 h1 e.symm, fun i j h1 h2 e => h.inc j i h2 h1 e.symm⟩

theorem eraseO_sorted {x : Option UInt16} {l : List UInt16} (h : l.Pairwise (· < ·)) : (eraseO x l).Pairwise (· < ·) := by
  cases x with
  | none => exact h
  | some i => exact h.sublist List.erase_sublist

theorem insertO_sorted {x : Option UInt16} {l : List UInt16} (h : l.Pairwise (· < ·)) : (insertO x l).Pairwise (· < ·) := by
  cases x with
  | none => exact h
  | some i => exact IdSet.insert_sorted h

theorem eraseO_comm (x y : Option UInt16) (l : List UInt16) : eraseO x (eraseO y l) = eraseO y (eraseO x l) := by
  cases x <;> cases y <;> simp only [eraseO]
  exact List.erase_comm _ _

theorem insertO_comm (x y : Option UInt16) (l : List UInt16) : insertO x (insertO y l) = insertO y (insertO x l) := by
  cases x <;> cases y <;> simp only [insertO]
  exact IdSet.insert_comm _ _ _

theorem eraseO_insertO {x y : Option UInt16} (h : ∀ i j, x = some i → y = some j → i ≠ j) {l : List UInt16}
    (hl : l.Pairwise (· < ·)) : eraseO y (insertO x l) = insertO x (eraseO y l) := by
  cases x <;> cases y <;> simp only [insertO, eraseO]
  exact IdSet.insert_erase_comm (h _ _ rfl rfl) hl

theorem clearO_comm (x y : Option UInt16) (l : List (Option Publish)) : clearO x (clearO y l) = clearO y (clearO x l) := by
  cases x with
  | none => rfl
  | some i =>
    cases y with
    | none => rfl
    | some j =>
      simp only [clearO]
      by_cases h : i.toNat - 1 = j.toNat - 1
      · rw [h]
      · exact (List.set_comm _ _ h).symm

theorem set_comm' {a1 a2 b1 b2 : Option UInt16} (h : ∀ i j, (a1 = some i ∨ a2 = some i) → (b1 = some j ∨ b2 = some j) → i ≠ j)
    {l : List UInt16} (hl : l.Pairwise (· < ·)) :
    insertO b1 (eraseO b2 (insertO a1 (eraseO a2 l))) = insertO a1 (eraseO a2 (insertO b1 (eraseO b2 l))) := by
  rw [eraseO_insertO (fun i j hi hj => h i j (.inl hi) (.inr hj)) (eraseO_sorted hl),
    eraseO_insertO (fun i j hi hj => (h j i (.inr hj) (.inl hi)).symm) (eraseO_sorted hl), insertO_comm, eraseO_comm]

theorem mem_eraseO {x : Option UInt16} {l : List UInt16} {j : UInt16} (h : ∀ i, x = some i → i ≠ j) : j ∈ eraseO x l ↔ j ∈ l := by
  cases x with
  | none => rfl
  | some i => exact List.mem_erase_of_ne (h i rfl).symm

theorem mem_insertO {x : Option UInt16} {l : List UInt16} {j : UInt16} (h : ∀ i, x = some i → i ≠ j) : j ∈ insertO x l ↔ j ∈ l := by
  cases x with
  | none => rfl
  | some i => simp only [insertO, IdSet.insert_mem]; exact ⟨fun h' => h'.resolve_left (h i rfl).symm, .inr⟩

/-- the sets are sorted -/
structure Asc (s : State) : Prop where
  rel : s.rel.Pairwise (· < ·)
  incoming : s.incoming.Pairwise (· < ·)

theorem Act.eff_asc (a : Act) {s : State} (h : Asc s) : Asc (a.eff s) :=
  ⟨insertO_sorted (eraseO_sorted h.rel), insertO_sorted (eraseO_sorted h.incoming)⟩

/-- the same but for the order of the free identifiers -/
structure Sim (s t : State) : Prop where
  perm : s.pool.queue.Perm t.pool.queue
  rest : t = { s with pool := { s.pool with queue := t.pool.queue } }

theorem Sim.refl (s : State) : Sim s s := ⟨.refl _, rfl⟩

theorem Sim.trans {s t u : State} (h : Sim s t) (h' : Sim t u) : Sim s u := by
  obtain ⟨h1, h2⟩ := h
  obtain ⟨h3, h4⟩ := h'
  refine ⟨h1.trans h3, ?_⟩
  rw [h2] at h4
  exact h4

theorem Sim.asc {s t : State} (h : Sim s t) (ha : Asc s) : Asc t := by
  rw [h.rest]
  exact ⟨ha.rel, ha.incoming⟩

theorem Sim.ok {s t : State} (h : Sim s t) {a : Act} (ha : a.Ok s) : a.Ok t := by
  have hl := h.perm.length_eq
  rw [h.rest]
  exact ⟨ha.pub, ha.relOut, ha.sub, ha.unsub, fun i hi => ⟨(ha.free i hi).1, by simpa [← hl] using (ha.free i hi).2⟩⟩

theorem Sim.eff {s t : State} (h : Sim s t) (a : Act) : Sim (a.eff s) (a.eff t) := by
  refine ⟨h.perm.append_right _, ?_⟩
  rw [h.rest]
  rfl

theorem Sim.answer {s t : State} (h : Sim s t) (p : Packet) : answer t p = answer s p := by
  rw [h.rest]
  rfl

theorem stored_clear {s : State} {x : Option UInt16} {j : UInt16} (h : ∀ i, x = some i → i ≠ 0 ∧ i ≠ j) :
    ({ s with slots := clearO x s.slots } : State).stored j = s.stored j := by
  cases x with
  | none => rfl
  | some i =>
    obtain ⟨h0, hj⟩ := h i rfl
    simp only [State.stored, State.slotIndex, clearO, List.length_set]
    by_cases hz : j = 0
    · simp [hz]
    · simp only [hz, if_false]
      by_cases hl : j.toNat - 1 < s.slots.length
      · simp only [hl, if_true]
        rw [List.getElem?_set_ne]
        intro he
        apply hj
        apply UInt16.toNat_inj.1
        have h1 : i.toNat ≠ 0 := fun e => h0 (UInt16.toNat_inj.1 (by simpa using e))
        have h2 : j.toNat ≠ 0 := fun e => hz (UInt16.toNat_inj.1 (by simpa using e))
        omega
      · simp [hl]

theorem eff_stored (a : Act) (s : State) (j : UInt16) :
    (a.eff s).stored j = ({ s with slots := clearO a.pub s.slots } : State).stored j := rfl

theorem stored_ne_zero {s : State} {j : UInt16} {p : Publish} (h : s.stored j = some p) : j ≠ 0 := by
  rintro rfl
  simp [State.stored, State.slotIndex] at h

theorem Act.swap_ok {a b : Act} {s : State} (hab : a.Apart b) (ha : a.Ok s) (hb : b.Ok (a.eff s)) : b.Ok s ∧ a.Ok (b.eff s) := by
  have hb' : b.Ok s := by
    refine ⟨fun j hj => ?_, fun j hj => ?_, fun j hj => ?_, fun j hj => ?_, fun j hj => ?_⟩
    · obtain ⟨p, hp⟩ := hb.pub j hj
      rw [eff_stored, stored_clear] at hp
      · exact ⟨p, hp⟩
      · intro i hi
        obtain ⟨q, hq⟩ := ha.pub i hi
        exact ⟨stored_ne_zero hq, hab.pub i j hi hj⟩
    · have := hb.relOut j hj
      simp only [Act.eff] at this
      rw [mem_insertO fun i hi => hab.rel i j (.inl hi) (.inr hj), mem_eraseO fun i hi => hab.rel i j (.inr hi) (.inr hj)] at this
      exact this
    · have := hb.sub j hj
      simp only [Act.eff] at this
      rwa [mem_eraseO fun i hi => hab.sub i j hi hj] at this
    · have := hb.unsub j hj
      simp only [Act.eff] at this
      rwa [mem_eraseO fun i hi => hab.unsub i j hi hj] at this
    · obtain ⟨h1, h2⟩ := hb.free j hj
      refine ⟨h1, ?_⟩
      simp only [Act.eff, List.length_append] at h2
      omega
  refine ⟨hb', ?_⟩
  refine ⟨fun i hi => ?_, fun i hi => ?_, fun i hi => ?_, fun i hi => ?_, fun i hi => ?_⟩
  · obtain ⟨p, hp⟩ := ha.pub i hi
    rw [eff_stored, stored_clear]
    · exact ⟨p, hp⟩
    · intro j hj
      obtain ⟨q, hq⟩ := hb'.pub j hj
      exact ⟨stored_ne_zero hq, (hab.pub i j hi hj).symm⟩
  · simp only [Act.eff]
    rw [mem_insertO fun j hj => (hab.rel i j (.inr hi) (.inl hj)).symm, mem_eraseO fun j hj => (hab.rel i j (.inr hi) (.inr hj)).symm]
    exact ha.relOut i hi
  · simp only [Act.eff]
    rw [mem_eraseO fun j hj => (hab.sub i j hi hj).symm]
    exact ha.sub i hi
  · simp only [Act.eff]
    rw [mem_eraseO fun j hj => (hab.unsub i j hi hj).symm]
    exact ha.unsub i hi
  · obtain ⟨h1, h2⟩ := ha.free i hi
    refine ⟨h1, ?_⟩
    simp only [Act.eff, List.length_append]
    cases hj : b.free with
    | none => simpa using h2
    | some j =>
      have := (hb.free j hj).2
      simp [Act.eff, hi] at this
      simpa using this

theorem Act.swap_eff {a b : Act} {s : State} (hab : a.Apart b) (hs : Asc s) : Sim (b.eff (a.eff s)) (a.eff (b.eff s)) := by
  refine ⟨?_, ?_⟩
  · simp only [Act.eff, List.append_assoc]
    exact (List.perm_append_comm).append_left _
  · simp only [Act.eff]
    rw [set_comm' hab.rel hs.rel, set_comm' hab.inc hs.incoming, eraseO_comm b.sub, eraseO_comm b.unsub, eraseO_comm b.pub, clearO_comm b.pub]

theorem swap_answer {p : Packet} {a : Act} {s : State} (hab : a.Apart (act p)) (hs : Asc s) : answer (a.eff s) p = answer s p := by
  cases p with
  | publish p =>
    obtain ⟨dup, qos, retain, topic, pkid, props, payload⟩ := p
    cases qos <;> cases pkid <;> simp only [answer]
    rename_i id
    have : (IdSet.insert id (a.eff s).incoming).2 = (IdSet.insert id s.incoming).2 := by
      rw [Bool.eq_iff_iff, IdSet.insert_flag (a.eff_asc hs).incoming, IdSet.insert_flag hs.incoming]
      simp only [Act.eff]
      rw [mem_insertO fun i hi => hab.inc i id (.inl hi) (.inl rfl), mem_eraseO fun i hi => hab.inc i id (.inr hi) (.inl rfl)]
    rw [this]
  | _ => rfl

/-! ## many packets -/

def okAll (s : State) : List Packet → Prop
  | [] => True
  | p :: ps => Decent p ∧ (act p).Ok s ∧ okAll ((act p).eff s) ps

def effAll (s : State) : List Packet → State
  | [] => s
  | p :: ps => effAll ((act p).eff s) ps

def answers (s : State) : List Packet → List Reaction
  | [] => []
  | p :: ps => (p, answer s p) :: answers ((act p).eff s) ps

theorem Sim.all {s t : State} (h : Sim s t) (ps : List Packet) :
    (okAll s ps → okAll t ps) ∧ Sim (effAll s ps) (effAll t ps) ∧ answers t ps = answers s ps := by
  induction ps generalizing s t with
  | nil => exact ⟨id, h, rfl⟩
  | cons p ps ih =>
    obtain ⟨h1, h2, h3⟩ := ih (h.eff (act p))
    refine ⟨fun ⟨a, b, c⟩ => ⟨a, h.ok b, h1 c⟩, h2, ?_⟩
    simp only [answers, h.answer, h3]

/-- the reactions to the packets of one conversation -/
abbrev of (k : Talk) (rs : List Reaction) : List Reaction := rs.filter (talk ·.1 = k)

theorem move_front {p : Packet} {a b : List Packet} {s : State} (hs : Asc s) (ha : ∀ x ∈ a, talk x ≠ talk p) (hd : Decent p)
    (hp : (act p).Ok s) (h : okAll ((act p).eff s) (a ++ b)) :
    okAll s (a ++ p :: b) ∧ Sim (effAll ((act p).eff s) (a ++ b)) (effAll s (a ++ p :: b)) ∧
      ∀ k, of k (answers s (a ++ p :: b)) = of k ((p, answer s p) :: answers ((act p).eff s) (a ++ b)) := by
  induction a generalizing s with
  | nil => exact ⟨⟨hd, hp, h⟩, .refl _, fun k => rfl⟩
  | cons x a ih =>
    obtain ⟨hx, hxo, hrest⟩ := h
    have hne := ha x (by simp)
    have hab : (act p).Apart (act x) := act_apart hne.symm
    obtain ⟨o1, o2⟩ := Act.swap_ok hab hp hxo
    have sim := Act.swap_eff (s := s) hab hs
    obtain ⟨i1, i2, i3⟩ := ih ((act x).eff_asc hs) (fun y hy => ha y (by simp [hy])) o2 ((sim.all _).1 hrest)
    refine ⟨⟨hx, o1, i1⟩, (sim.all _).2.1.trans i2, fun k => ?_⟩
    have e1 : answer ((act x).eff s) p = answer s p := swap_answer hab.symm hs
    have e2 : answer ((act p).eff s) x = answer s x := swap_answer hab hs
    have i3 := i3 k
    rw [e1, (sim.all _).2.2] at i3
    simp only [List.cons_append, answers, e2, of, List.filter_cons] at i3 ⊢
    rw [i3]
    by_cases hk : talk x = k
    · have : ¬ talk p = k := fun e => hne (hk.trans e.symm)
      simp [hk, this]
    · simp [hk]

theorem filter_split {p : Packet} {ps qs : List Packet} (h : Reordered (p :: ps) qs) :
    ∃ a b, qs = a ++ p :: b ∧ (∀ x ∈ a, talk x ≠ talk p) ∧ Reordered ps (a ++ b) := by
  have hp := h (talk p)
  simp only [List.filter_cons, decide_true, if_true] at hp
  have hp' := hp.symm
  rw [List.filter_eq_cons_iff] at hp'
  obtain ⟨a, b, rfl, h1, h2, h3⟩ := hp'
  have h1' : ∀ x ∈ a, talk x ≠ talk p := fun x hx => by simpa using h1 x hx
  refine ⟨a, b, rfl, h1', fun k => ?_⟩
  have hk := h k
  rw [List.filter_append, List.filter_cons] at hk
  rw [List.filter_append]
  by_cases hpk : talk p = k
  · subst hpk
    simp only [List.filter_cons, decide_true, if_true] at hk
    have : a.filter (talk · = talk p) = [] := by
      rw [List.filter_eq_nil_iff]
      intro x hx
      simpa using h1' x hx
    rw [this] at hk ⊢
    simpa using hk
  · simpa [List.filter_cons, hpk] using hk

theorem reorder {ps qs : List Packet} {s : State} (hs : Asc s) (hr : Reordered ps qs) (h : okAll s ps) :
    okAll s qs ∧ Sim (effAll s ps) (effAll s qs) ∧ ∀ k, of k (answers s ps) = of k (answers s qs) := by
  induction ps generalizing qs s with
  | nil =>
    have : qs = [] := by
      cases qs with
      | nil => rfl
      | cons q qs =>
        have := hr (talk q)
        simp at this
    subst this
    exact ⟨h, .refl _, fun _ => rfl⟩
  | cons p ps ih =>
    obtain ⟨hd, hp, h⟩ := h
    obtain ⟨a, b, rfl, h1, h2⟩ := filter_split hr
    obtain ⟨i1, i2, i3⟩ := ih ((act p).eff_asc hs) h2 h
    obtain ⟨j1, j2, j3⟩ := move_front hs h1 hd hp i1
    refine ⟨j1, i2.trans j2, fun k => ?_⟩
    rw [j3 k]
    have := i3 k
    simp only [answers, of, List.filter_cons] at this ⊢
    rw [this]

/-! ## the whole client -/

/-- the state of the session replaced -/
def Sys.withState (s : Sys) (t : State) : Sys := { s with handler := { s.handler with state := t } }

theorem step_receive {s s' : Sys} {p q : Packet} {reply : Option Packet} {sh : Bool} (ha : s.alive = true) :
    s.step (.receive p) = some (s', .received q reply sh) ↔ q = p ∧ Decent p ∧ (act p).Ok s.handler.state ∧
      s' = s.withState ((act p).eff s.handler.state) ∧ (reply, sh) = answer s.handler.state p := by
  have hi := incoming_iff s.handler.state
  simp only [Sys.step, ha, if_true, Handler.incoming]
  rcases hr : Handler.incomingState s.handler.state p with ⟨t, f | ⟨x1, x2⟩⟩
  · have hn : ¬ (Decent p ∧ (act p).Ok s.handler.state) := by
      rintro ⟨h1, h2⟩
      have := (hi _ p _).2 ⟨h1, h2, rfl, rfl⟩
      rw [hr] at this
      cases this
    constructor
    · intro h
      cases f <;> simp at h
    · rintro ⟨-, h1, h2, -⟩
      exact absurd ⟨h1, h2⟩ hn
  · obtain ⟨h1, h2, h3, h4⟩ := (hi _ _ _).1 hr
    simp only [Option.some.injEq, Prod.mk.injEq, Event.received.injEq]
    constructor
    · rintro ⟨rfl, rfl, rfl, rfl⟩
      exact ⟨rfl, h1, h2, by rw [h3]; simp [Sys.withState, ha], h4⟩
    · rintro ⟨rfl, -, -, rfl, h5⟩
      rw [← h4] at h5
      cases h5
      exact ⟨by rw [h3]; simp [Sys.withState, ha], rfl, rfl, rfl⟩

theorem receiveAll_iff {s s' : Sys} {ps : List Packet} {rs : List Reaction} (ha : s.alive = true) :
    receiveAll s ps = some (s', rs) ↔ okAll s.handler.state ps ∧ s' = s.withState (effAll s.handler.state ps) ∧
      rs = answers s.handler.state ps := by
  induction ps generalizing s rs with
  | nil => simp [receiveAll, okAll, effAll, answers, Sys.withState, eq_comm]
  | cons p ps ih =>
    simp only [receiveAll, okAll, effAll, answers]
    constructor
    · intro h
      split at h
      · rename_i s1 q reply sh hs
        obtain ⟨rfl, h1, h2, rfl, h4⟩ := (step_receive ha).1 hs
        simp only [Option.map_eq_some_iff] at h
        obtain ⟨⟨s2, rs'⟩, h5, h6⟩ := h
        cases h6
        obtain ⟨j1, j2, j3⟩ := (ih (s := s.withState ((act q).eff s.handler.state)) ha).1 h5
        exact ⟨⟨h1, h2, j1⟩, j2, by rw [j3, h4]; rfl⟩
      · cases h
    · rintro ⟨⟨h1, h2, h3⟩, rfl, rfl⟩
      have hs := (step_receive (p := p) (q := p) (reply := (answer s.handler.state p).1) (sh := (answer s.handler.state p).2) ha).2
        ⟨rfl, h1, h2, rfl, rfl⟩
      rw [hs]
      simp only
      rw [(ih (s := s.withState ((act p).eff s.handler.state)) ha).2 ⟨h3, rfl, rfl⟩]
      rfl

theorem State.removeOutgoingPub_rel (s : State) (id : UInt16) : (s.removeOutgoingPub id).1.rel = s.rel := by
  rcases State.removeOutgoingPub_eq s id with ⟨_, h⟩ | ⟨i, _, _, h⟩ | ⟨i, p, _, _, h⟩ <;> rw [h]

theorem Handler.release_rel (s : State) (id : UInt16) : (Handler.release s id).1.rel = s.rel := by
  have h : (s.makePkidAvailable id).1.rel = s.rel := by simp only [State.makePkidAvailable]
  unfold Handler.release
  cases e : s.makePkidAvailable id with
  | mk st r =>
    rw [e] at h
    cases r <;> exact h

theorem Handler.freeAll_rel : ∀ (ids : List UInt16) (s : State), (Handler.freeAll s ids).1.rel = s.rel
  | [], s => rfl
  | id :: ids, s => by
    have h : (s.makePkidAvailable id).1.rel = s.rel := by simp only [State.makePkidAvailable]
    unfold Handler.freeAll
    cases e : s.makePkidAvailable id with
    | mk st r =>
      rw [e] at h
      cases r with
      | error x => exact h
      | ok x => rw [← h]; exact Handler.freeAll_rel ids st

theorem Handler.connAck_rel (h : Handler) (c : ConnAck) :
    (h.connAck c).1.state.rel = [] ∨ (h.connAck c).1.state.rel = h.state.rel := by
  unfold Handler.connAck
  split
  · cases e : h.state.reset (c.sessionPresent && !h.cleanStart) with
    | mk st r =>
      have hst : st.rel = [] ∨ st.rel = h.state.rel := by
        unfold State.reset at e
        split at e
        · split at e <;> (cases e; exact .inr rfl)
        · cases e; exact .inl rfl
      cases r with
      | error x => exact hst
      | ok f =>
        have h2 := Handler.freeAll_rel f.1 st
        cases e2 : Handler.freeAll st f.1 with
        | mk st2 r2 =>
          rw [e2] at h2
          simp only [e2]
          cases r2 <;> (simp only at h2 ⊢; rw [h2]; exact hst)
  · exact .inr rfl

theorem Handler.incomingState_rel {s : State} (h : s.rel.Pairwise (· < ·)) (p : Packet) :
    (Handler.incomingState s p).1.rel.Pairwise (· < ·) := by
  rcases hr : Handler.incomingState s p with ⟨t, f | x⟩
  · cases p with
    | publish q =>
      simp only [Handler.incomingState, Handler.incomingPublish] at hr
      cases hq : q.qos <;> cases hk : q.pkid <;> simp [hq, hk] at hr
      all_goals (rw [← hr.1]; exact h)
    | pubAck a =>
      have e1 : t.rel = s.rel := by
        have := congrArg (·.1.rel) hr
        simp only [Handler.incomingState, Handler.shown_fst, Handler.incomingPubAck] at this
        rw [← this]
        have h := State.removeOutgoingPub_rel s a.id
        cases e : s.removeOutgoingPub a.id with
        | mk st2 r =>
          rw [e] at h
          rcases r with x | _ | x
          · exact h
          · exact h
          · simp only [Handler.release_rel]; exact h
      rw [e1]; exact h
    | pubRec a =>
      have := congrArg (·.1.rel) hr
      simp only [Handler.incomingState, Handler.shown_fst, Handler.incomingPubRec] at this
      have h' := State.removeOutgoingPub_rel s a.id
      rw [← this]
      cases e : s.removeOutgoingPub a.id with
      | mk st2 r =>
        rw [e] at h'
        simp only at h'
        rcases r with x | _ | x
        · simp only [h']; exact h
        · simp only [h']; exact h
        · simp only; split
          · simp only [State.addOutgoingRel, h']
            exact IdSet.insert_sorted h
          · simp only [h']; exact h
    | pubRel a => simp [Handler.incomingState, Handler.incomingPubRel, Handler.shown] at hr
    | pubComp a =>
      have := congrArg (·.1.rel) hr
      simp only [Handler.incomingState, Handler.shown_fst, Handler.incomingPubComp] at this
      have h' : (s.removeOutgoingRel a.id).1.rel = s.rel.erase a.id := rfl
      rw [← this]
      cases e : s.removeOutgoingRel a.id with
      | mk st2 was =>
        rw [e] at h'
        simp only at h'
        cases was
        · show st2.rel.Pairwise _
          rw [h']; exact h.sublist List.erase_sublist
        · show (Handler.release st2 a.id).1.rel.Pairwise _
          rw [Handler.release_rel, h']; exact h.sublist List.erase_sublist
    | subAck a =>
      have := congrArg (·.1.rel) hr
      simp only [Handler.incomingState, Handler.shown_fst, Handler.incomingSubAck] at this
      have h' : (s.removeOutgoingSub a.id).1.rel = s.rel := rfl
      rw [← this]
      cases e : s.removeOutgoingSub a.id with
      | mk st2 was =>
        rw [e] at h'
        simp only at h'
        cases was
        · show st2.rel.Pairwise _
          rw [h']; exact h
        · show (Handler.release st2 a.id).1.rel.Pairwise _
          rw [Handler.release_rel, h']; exact h
    | unsubAck a =>
      have := congrArg (·.1.rel) hr
      simp only [Handler.incomingState, Handler.shown_fst, Handler.incomingUnsubAck] at this
      have h' : (s.removeOutgoingUnsub a.id).1.rel = s.rel := rfl
      rw [← this]
      cases e : s.removeOutgoingUnsub a.id with
      | mk st2 was =>
        rw [e] at h'
        simp only at h'
        cases was
        · show st2.rel.Pairwise _
          rw [h']; exact h
        · show (Handler.release st2 a.id).1.rel.Pairwise _
          rw [Handler.release_rel, h']; exact h
    | _ => cases hr <;> exact h
  · obtain ⟨-, -, rfl, -⟩ := (incoming_iff _ _ _ _).1 hr
    exact insertO_sorted (eraseO_sorted h)

theorem step_rel {s s' : Sys} {op : Op} {e : Event} (hi : s.handler.state.rel.Pairwise (· < ·)) (hs : s.step op = some (s', e)) :
    s'.handler.state.rel.Pairwise (· < ·) := by
  cases op with
  | call q =>
    simp only [Sys.step, Sys.call, Sys.callWith] at hs
    repeat' split at hs
    all_goals
      first
      | (simp at hs; done)
      | (cases hs; exact hi)
  | submit k =>
    simp only [Sys.step] at hs
    repeat' split at hs
    all_goals
      first
      | (simp at hs; done)
      | (cases hs; exact hi)
  | abandon k =>
    simp only [Sys.step] at hs
    repeat' split at hs
    all_goals
      first
      | (simp at hs; done)
      | (cases hs; exact hi)
  | dropClients => cases hs; exact hi
  | dropNetwork =>
    simp only [Sys.step] at hs
    split at hs
    · cases hs; exact hi
    · cases hs
  | write ok =>
    have ho : ∀ p, (s.handler.outgoing p).1.state.rel.Pairwise (· < ·) := fun p => by
      have h1 : (s.handler.outgoing p).1.state = (Handler.outgoingState s.handler.state p).1 := rfl
      have h2 : (Handler.outgoingState s.handler.state p).1.rel = s.handler.state.rel := by
        cases p with
        | publish p =>
          simp only [Handler.outgoingState, Handler.outgoingPublish, State.addOutgoingPub]
          repeat' split
          all_goals rfl
        | _ => rfl
      rw [h1, h2]; exact hi
    simp only [Sys.step] at hs
    split at hs
    · split at hs
      · cases hs
      · rename_i p rest hq
        have := ho p
        split at hs
        · split at hs <;> (rename_i he; cases hs; rw [he] at this; exact this)
        · cases hs; exact hi
    · cases hs
  | receive p =>
    have h1 : (s.handler.incoming p).1.state.rel.Pairwise (· < ·) := Handler.incomingState_rel hi p
    simp only [Sys.step] at hs
    split at hs
    · split at hs <;> (rename_i he; cases hs; rw [he] at h1; exact h1)
    · cases hs
  | connAck c =>
    have h1 : (s.handler.connAck c).1.state.rel.Pairwise (· < ·) := by
      rcases Handler.connAck_rel s.handler c with h | h <;> rw [h]
      · exact .nil
      · exact hi
    simp only [Sys.step] at hs
    split at hs
    · split at hs <;> (rename_i he; cases hs; rw [he] at h1; exact h1)
    · cases hs

theorem run_rel {s : Sys} (h : s.handler.state.rel.Pairwise (· < ·)) (ops : List Op) :
    (s.run ops).1.handler.state.rel.Pairwise (· < ·) := by
  induction ops generalizing s with
  | nil => exact h
  | cons op ops ih =>
    simp only [Sys.run]
    split
    · exact ih h
    · rename_i s' e hs
      exact ih (step_rel h hs)

end Mqrstt
