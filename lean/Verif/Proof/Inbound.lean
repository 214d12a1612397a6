import Verif.Proof.Inbox
import Verif.Proof.EndToEnd
/-!
# Helper lemmas: messages from the server, end to end
-/

namespace Mqrstt.Inb
open Mqrstt Mqrstt.Spec Mqrstt.Spec.World Mqrstt.Spec.Duplex

/-- the identifier of an exchange that a packet of the server belongs to -/
def cliId : Packet → Option UInt16
  | .publish p => if p.qos = .atMostOnce then none else p.pkid
  | .pubRel a => some a.id
  | _ => none

/-- and a packet of the client -/
def srvId : Packet → Option UInt16
  | .pubAck a | .pubRec a | .pubComp a => some a.id
  | _ => none

/-- the server knows what a packet under way to the client is about -/
def CliOk (out : List Outgoing) : Packet → Prop
  | .publish q => q.qos ≠ .atMostOnce → ∃ o ∈ out, o.sent = true ∧ o.released = false ∧ message q = o.message
  | .pubRel a => ∃ o ∈ out, o.sent = true ∧ o.released = true ∧ o.message.pkid = some a.id
  | _ => True

/-- the same for packets to the server -/
def SrvOk (out : List Outgoing) (R : UInt16 → Bool) (opened : List UInt16) : Packet → Prop
  | .pubAck a => ∃ o ∈ out, o.sent = true ∧ o.message.qos = .atLeastOnce ∧ o.message.pkid = some a.id ∧ R a.id = true
  | .pubRec a => Ledger.accepts a = true ∧
      ∃ o ∈ out, o.sent = true ∧ o.message.qos = .exactlyOnce ∧ o.released = false ∧ o.message.pkid = some a.id ∧ R a.id = true
  | .pubComp a => a.id ∉ opened ∧ ∃ o ∈ out, o.sent = true ∧ o.released = true ∧ o.message.pkid = some a.id
  | _ => True

/-- the identifiers of the packets under way and of the packet that the client has just read -/
def idsOf (tc : List Packet) (mid : Option Packet) (ts : List Packet) : List UInt16 :=
  tc.filterMap cliId ++ mid.toList.filterMap cliId ++ ts.filterMap srvId

/-- Server and client agree. `R`: identifiers of unfinished messages that the client has read. -/
structure Xch (out : List Outgoing) (tc : List Packet) (mid : Option Packet) (ts : List Packet) (opened : List UInt16) (up : Bool)
    (R : UInt16 → Bool) : Prop where
  ids : (out.map (·.message.pkid)).Nodup
  entry : ∀ o ∈ out, o.message.qos ≠ .atMostOnce ∧ o.message.dup = false ∧ o.message.pkid ≠ none ∧
    (o.released = true → o.message.qos = .exactlyOnce ∧ ∀ i, o.message.pkid = some i → R i = true)
  busy : (idsOf tc mid ts).Nodup
  cli : ∀ p ∈ tc ++ mid.toList, CliOk out p
  midR : ∀ q i, mid = some (.publish q) → q.qos ≠ .atMostOnce → q.pkid = some i → R i = true
  midO : ∀ a, mid = some (.pubRel a) → a.id ∉ opened
  srv : ∀ p ∈ ts, SrvOk out R opened p
  opn : up = true → ∀ i ∈ opened, (∃ o ∈ out, o.message.pkid = some i ∧ o.message.qos = .exactlyOnce ∧ o.sent = true) ∧
    ∀ q, .publish q ∈ tc → q.qos ≠ .atMostOnce → q.pkid ≠ some i

variable {out : List Outgoing} {tc ts : List Packet} {mid : Option Packet} {opened : List UInt16} {up : Bool} {R : UInt16 → Bool}

theorem notExchange {p : Packet} (h : isExchange p = false) : cliId p = none ∧ ∀ out, CliOk out p := by
  cases p <;> simp [isExchange, cliId, CliOk] at h ⊢
  simp [h]

theorem SrvOk.opened_le {p : Packet} (h : SrvOk out R opened p) {opened' : List UInt16} (ho : ∀ i ∈ opened', i ∈ opened) :
    SrvOk out R opened' p := by
  cases p <;> first | exact h | exact ⟨fun hm => h.1 (ho _ hm), h.2⟩

theorem SrvOk.other {p : Packet} (h : srvId p = none) : SrvOk out R opened p := by
  cases p <;> first | trivial | simp [srvId] at h

/-- less is under way -/
theorem Xch.le (h : Xch out tc mid ts opened up R) {tc' ts' : List Packet} {mid' : Option Packet} {opened' : List UInt16} {up' : Bool}
    (h1 : tc'.Sublist tc) (h2 : mid' = mid ∨ mid' = none) (h3 : ts'.Sublist ts) (h4 : up' = true → up = true ∨ opened' = [])
    (h5 : ∀ i ∈ opened', i ∈ opened) : Xch out tc' mid' ts' opened' up' R := by
  have hm : mid'.toList.Sublist mid.toList := by
    rcases h2 with rfl | rfl
    · exact List.Sublist.refl _
    · simp
  refine ⟨h.ids, h.entry, ?_, fun p hp => h.cli p ((h1.append hm).subset hp), ?_, ?_, ?_, ?_⟩
  · exact h.busy.sublist (((h1.filterMap _).append (hm.filterMap _)).append (h3.filterMap _))
  · intro q i he
    rcases h2 with rfl | rfl
    · exact h.midR q i he
    · cases he
  · intro a he hx
    rcases h2 with rfl | rfl
    · exact h.midO a he (h5 _ hx)
    · cases he
  · exact fun p hp => (h.srv p (h3.subset hp)).opened_le h5
  · intro hu i hi
    rcases h4 hu with h4 | h4
    · obtain ⟨g1, g2⟩ := h.opn h4 i (h5 i hi)
      exact ⟨g1, fun q hq => g2 q (h1.subset hq)⟩
    · rw [h4] at hi; cases hi

theorem Xch.tc_snoc (h : Xch out tc mid ts opened up R) {p : Packet} (hp : isExchange p = false) :
    Xch out (tc ++ [p]) mid ts opened up R := by
  obtain ⟨h1, h2⟩ := notExchange hp
  refine ⟨h.ids, h.entry, ?_, ?_, h.midR, h.midO, h.srv, ?_⟩
  · have := h.busy
    simpa [idsOf, h1] using this
  · intro q hq
    simp only [List.append_assoc, List.mem_append, List.mem_singleton] at hq
    rcases hq with hq | rfl | hq
    · exact h.cli q (List.mem_append_left _ hq)
    · exact h2 _
    · exact h.cli q (List.mem_append_right _ hq)
  · intro hu i hi
    obtain ⟨g1, g2⟩ := h.opn hu i hi
    refine ⟨g1, fun q hq hq0 => ?_⟩
    rcases List.mem_append.mp hq with hq | hq
    · exact g2 q hq hq0
    · obtain rfl := List.mem_singleton.mp hq
      simp [isExchange, hq0] at hp

theorem Xch.tc_append {tail : List Packet} (h : Xch out tc mid ts opened up R) (ht : ∀ p ∈ tail, isExchange p = false) :
    Xch out (tc ++ tail) mid ts opened up R := by
  induction tail generalizing tc with
  | nil => simpa using h
  | cons p ps ih =>
    have := ih (h.tc_snoc (ht p (by simp))) fun q hq => ht q (by simp [hq])
    simpa using this

theorem Xch.ts_snoc (h : Xch out tc mid ts opened up R) {p : Packet} (hp : srvId p = none) :
    Xch out tc mid (ts ++ [p]) opened up R := by
  refine ⟨h.ids, h.entry, ?_, h.cli, h.midR, h.midO, ?_, h.opn⟩
  · have := h.busy
    simpa [idsOf, hp] using this
  · intro q hq
    rcases List.mem_append.mp hq with hq | hq
    · exact h.srv q hq
    · obtain rfl := List.mem_singleton.mp hq
      exact SrvOk.other hp

theorem message_of {q : Publish} {o : Outgoing} (h : message q = o.message) : q.qos = o.message.qos ∧ q.pkid = o.message.pkid := by
  rw [← h]; exact ⟨rfl, rfl⟩

/-- what is under way is about an unfinished message that was sent on this connection -/
theorem Xch.known (h : Xch out tc mid ts opened up R) {i : UInt16} (hi : i ∈ idsOf tc mid ts) :
    ∃ o ∈ out, o.sent = true ∧ o.message.pkid = some i := by
  unfold idsOf at hi
  rw [← List.filterMap_append] at hi
  rcases List.mem_append.mp hi with hi | hi
  · obtain ⟨p, hp, he⟩ := List.mem_filterMap.mp hi
    have := h.cli p hp
    cases p <;> simp [cliId] at he
    · obtain ⟨o, ho, h1, h2, h3⟩ := this he.1
      exact ⟨o, ho, h1, (message_of h3).2 ▸ he.2⟩
    · obtain ⟨o, ho, h1, h2, h3⟩ := this
      exact ⟨o, ho, h1, he ▸ h3⟩
  · obtain ⟨p, hp, he⟩ := List.mem_filterMap.mp hi
    have := h.srv p hp
    cases p <;> simp [srvId] at he
    · obtain ⟨o, ho, h1, h2, h3, h4⟩ := this
      exact ⟨o, ho, h1, he ▸ h3⟩
    · obtain ⟨-, o, ho, h1, h2, h3, h4, h5⟩ := this
      exact ⟨o, ho, h1, he ▸ h4⟩
    · obtain ⟨-, o, ho, h1, h2, h3⟩ := this
      exact ⟨o, ho, h1, he ▸ h3⟩

theorem Xch.same (h : Xch out tc mid ts opened up R) {o o' : Outgoing} (ho : o ∈ out) (ho' : o' ∈ out) (he : o.message.pkid = o'.message.pkid) :
    o = o' := by
  have hn := h.ids
  clear h
  induction out with
  | nil => cases ho
  | cons x xs ih =>
    simp only [List.map_cons, List.nodup_cons, List.mem_map, not_exists, not_and] at hn
    rcases List.mem_cons.mp ho with rfl | ho
    · rcases List.mem_cons.mp ho' with rfl | ho'
      · rfl
      · exact absurd he.symm (hn.1 _ ho')
    · rcases List.mem_cons.mp ho' with hx | ho'
      · exact absurd (hx ▸ he) (hn.1 _ ho)
      · exact ih ho ho' hn.2

/-! ## the client reads -/

/-- `R` after reading a packet -/
def readR (R : UInt16 → Bool) : Packet → UInt16 → Bool
  | .publish q => fun i => R i || (q.qos ≠ .atMostOnce && q.pkid == some i)
  | _ => R

theorem SrvOk.more {p : Packet} (h : SrvOk out R opened p) {R' : UInt16 → Bool} (hR : ∀ i, R i = true → R' i = true) :
    SrvOk out R' opened p := by
  cases p <;> simp only [SrvOk] at h ⊢ <;> grind

theorem Xch.moreR (h : Xch out tc mid ts opened up R) {R' : UInt16 → Bool} (hR : ∀ i, R i = true → R' i = true) :
    Xch out tc mid ts opened up R' :=
  ⟨h.ids, fun o ho => ⟨(h.entry o ho).1, (h.entry o ho).2.1, (h.entry o ho).2.2.1, fun hr =>
    ⟨((h.entry o ho).2.2.2 hr).1, fun i hi => hR _ (((h.entry o ho).2.2.2 hr).2 i hi)⟩⟩, h.busy, h.cli,
    fun q i a b c => hR _ (h.midR q i a b c), h.midO, fun p hp => (h.srv p hp).more hR, h.opn⟩

theorem idsOf_move (p : Packet) : (idsOf (p :: tc) none ts).Perm (idsOf tc (some p) ts) := by
  simp only [idsOf, Option.toList_none, Option.toList_some, List.filterMap_nil, List.append_nil, List.filterMap_cons]
  cases cliId p with
  | none => simp
  | some i => simp; exact (List.perm_middle (l₁ := tc.filterMap cliId)).symm

/-- the client takes a packet in `run` -/
theorem Xch.read {s : Rcv} {p : Packet} (h : Xch out (p :: tc) none ts s.opened true R) (hs : s.running = true) :
    Xch out tc (some p) ts (s.onRead p).opened true (readR R p) := by
  have hcli : ∀ q ∈ tc ++ (some p).toList, CliOk out q := by
    intro q hq
    refine h.cli q ?_
    simp at hq ⊢
    rcases hq with hq | hq
    · exact .inr hq
    · exact .inl hq
  have hbusy : (idsOf tc (some p) ts).Nodup := (idsOf_move p).nodup_iff.mp h.busy
  have hR : ∀ i, R i = true → readR R p i = true := by
    intro i hi; cases p <;> simp [readR, hi]
  have hmid : ∀ q i, some p = some (.publish q) → q.qos ≠ .atMostOnce → q.pkid = some i → readR R p i = true := by
    intro q i he h1 h2
    obtain rfl := Option.some.inj he
    simp [readR, h1, h2]
  by_cases hx : isExchange p = false
  · -- nothing of an exchange
    have hop : (s.onRead p).opened = s.opened := by
      cases p <;> simp [Rcv.onRead, isExchange] at hx ⊢
      simp [Rcv.onPublish, hx]
    rw [hop]
    refine ⟨h.ids, (h.moreR hR).entry, hbusy, hcli, hmid, ?_, (h.moreR hR).srv, ?_⟩
    · rintro a he
      obtain rfl := Option.some.inj he
      simp [isExchange] at hx
    · intro hu i hi
      obtain ⟨g1, g2⟩ := h.opn hu i hi
      exact ⟨g1, fun q hq => g2 q (List.mem_cons_of_mem _ hq)⟩
  · cases p with
    | publish q =>
      simp [isExchange] at hx
      obtain ⟨o, ho, h1, h2, h3⟩ := h.cli (.publish q) (by simp) hx
      obtain ⟨g1, g2⟩ := message_of h3
      obtain ⟨i, hi⟩ : ∃ i, q.pkid = some i := by
        cases hk : q.pkid with
        | none => rw [hk] at g2; exact absurd g2.symm (h.entry o ho).2.2.1
        | some i => exact ⟨i, rfl⟩
      have hid : cliId (.publish q) = some i := by simp [cliId, hx, hi]
      have hnot : i ∉ ts.filterMap srvId := by
        have := h.busy
        simp only [idsOf, List.filterMap_cons, hid, Option.toList_none, List.filterMap_nil, List.append_nil, List.cons_append,
          List.nodup_cons, List.mem_append, not_or] at this
        exact this.1.2
      have hnotc : i ∉ tc.filterMap cliId := by
        have := h.busy
        simp only [idsOf, List.filterMap_cons, hid, Option.toList_none, List.filterMap_nil, List.append_nil, List.cons_append,
          List.nodup_cons, List.mem_append, not_or] at this
        exact this.1.1
      have hmem : ∀ j, j ∈ (s.onRead (.publish q)).opened → j ∈ s.opened ∨ (j = i ∧ q.qos = .exactlyOnce) := by
        intro j hj
        simp only [Rcv.onRead, Rcv.onPublish, hi] at hj
        cases hq : q.qos <;> simp [hq] at hj
        · exact .inl hj
        · exact .inl hj
        · split at hj <;> grind
      refine ⟨h.ids, (h.moreR hR).entry, hbusy, hcli, hmid, by simp, ?_, ?_⟩
      · intro p hp
        have h0 := (h.moreR hR).srv p hp
        cases p with
        | pubComp a =>
          refine ⟨fun hm => ?_, h0.2⟩
          rcases hmem _ hm with hm | ⟨hm, -⟩
          · exact h0.1 hm
          · exact hnot (List.mem_filterMap.mpr ⟨_, hp, by simp [srvId, hm]⟩)
        | _ => exact h0
      · intro hu j hj
        rcases hmem j hj with hj | ⟨rfl, hq⟩
        · obtain ⟨g1, g2⟩ := h.opn hu j hj
          exact ⟨g1, fun q hq => g2 q (List.mem_cons_of_mem _ hq)⟩
        · refine ⟨⟨o, ho, g2 ▸ hi, g1 ▸ hq, h1⟩, fun q' hq' hq0 he => ?_⟩
          exact hnotc (List.mem_filterMap.mpr ⟨_, hq', by simp [cliId, hq0, he]⟩)
    | pubRel a =>
      refine ⟨h.ids, (h.moreR hR).entry, hbusy, hcli, hmid, ?_, ?_, ?_⟩
      · intro b he
        simp at he
        subst he
        simp [Rcv.onRead]
      · intro p hp
        exact ((h.moreR hR).srv p hp).opened_le (by intro i hi; simp [Rcv.onRead] at hi; exact hi.1)
      · intro hu j hj
        simp [Rcv.onRead] at hj
        obtain ⟨g1, g2⟩ := h.opn hu j hj.1
        exact ⟨g1, fun q hq => g2 q (List.mem_cons_of_mem _ hq)⟩
    | _ => simp [isExchange] at hx

/-! ## the client answers -/

theorem idsOf_reply {p r : Packet} (h : cliId p = srvId r) : (idsOf tc (some p) ts).Perm (idsOf tc none (ts ++ [r])) := by
  simp only [idsOf, Option.toList_none, Option.toList_some, List.filterMap_nil, List.append_nil, List.filterMap_append,
    List.filterMap_cons, h]
  cases srvId r with
  | none => simp
  | some i => simp; exact (List.perm_append_comm (l₁ := [i]) (l₂ := ts.filterMap srvId)).append_left _

theorem Xch.reply {s : Rcv} {r : Packet} (h : Xch out tc s.mid ts opened up R) (hm : s.May r) (hr : srvId r ≠ none) :
    Xch out tc none (ts ++ [r]) opened up R := by
  have key : ∀ p, s.mid = some p → cliId p = srvId r → SrvOk out R opened r → Xch out tc none (ts ++ [r]) opened up R := by
    intro p hp he hok
    refine ⟨h.ids, h.entry, ?_, ?_, by simp, by simp, ?_, h.opn⟩
    · have := h.busy
      rw [hp] at this
      exact (idsOf_reply he).nodup_iff.mp this
    · intro q hq
      exact h.cli q (List.mem_append_left _ (by simpa using hq))
    · intro q hq
      rcases List.mem_append.mp hq with hq | hq
      · exact h.srv q hq
      · obtain rfl := List.mem_singleton.mp hq
        exact hok
  cases r with
  | pubAck a =>
    obtain ⟨-, q, h1, h2, h3⟩ := hm
    obtain ⟨o, ho, g1, g2, g3⟩ := h.cli (.publish q) (by simp [h1]) (by simp [h2])
    obtain ⟨g4, g5⟩ := message_of g3
    exact key _ h1 (by simp [cliId, srvId, h2, h3]) ⟨o, ho, g1, g4 ▸ h2, g5 ▸ h3, h.midR q _ h1 (by simp [h2]) h3⟩
  | pubRec a =>
    obtain ⟨-, h0, q, h1, h2, h3⟩ := hm
    obtain ⟨o, ho, g1, g2, g3⟩ := h.cli (.publish q) (by simp [h1]) (by simp [h2])
    obtain ⟨g4, g5⟩ := message_of g3
    exact key _ h1 (by simp [cliId, srvId, h2, h3])
      ⟨by simp [Ledger.accepts, h0], o, ho, g1, g4 ▸ h2, g2, g5 ▸ h3, h.midR q _ h1 (by simp [h2]) h3⟩
  | pubComp a =>
    obtain ⟨-, b, h1, h2⟩ := hm
    obtain ⟨o, ho, g1, g2, g3⟩ := h.cli (.pubRel b) (by simp [h1])
    exact key _ h1 (by simp [cliId, srvId, h2]) ⟨h2 ▸ h.midO b h1, o, ho, g1, g2, h2 ▸ g3⟩
  | _ => simp [srvId] at hr

/-! ## the server -/

theorem Xch.idle (h : Xch out tc mid ts opened up R) {i : UInt16} {o : Outgoing} (ho : o ∈ out) (hi : o.message.pkid = some i)
    (hs : o.sent = false) : i ∉ idsOf tc mid ts := by
  intro hm
  obtain ⟨o', ho', h1, h2⟩ := h.known hm
  obtain rfl := h.same ho ho' (hi.trans h2.symm)
  rw [hs] at h1; cases h1

theorem not_in {i : UInt16} (hn : i ∉ idsOf tc mid ts) :
    (∀ p ∈ tc ++ mid.toList, cliId p ≠ some i) ∧ (∀ p ∈ ts, srvId p ≠ some i) := by
  unfold idsOf at hn
  rw [← List.filterMap_append] at hn
  simp only [List.mem_append, not_or, List.mem_filterMap, not_exists, not_and] at hn
  refine ⟨fun p hp => ?_, hn.2⟩
  rcases List.mem_append.mp hp with hp | hp
  · exact hn.1 p (.inl hp)
  · exact hn.1 p (.inr hp)

/-- the entry of an identifier that nothing is under way for can change or go -/
theorem CliOk.change {out out' : List Outgoing} {p : Packet} (h : CliOk out p) {i : UInt16} (hn : cliId p ≠ some i)
    (hk : ∀ o ∈ out, o.message.pkid ≠ some i → o ∈ out') : CliOk out' p := by
  cases p with
  | publish q =>
    intro hq
    obtain ⟨o, ho, h1, h2, h3⟩ := h hq
    refine ⟨o, hk o ho ?_, h1, h2, h3⟩
    rw [← (message_of h3).2]
    simpa [cliId, hq] using hn
  | pubRel a =>
    obtain ⟨o, ho, h1, h2, h3⟩ := h
    refine ⟨o, hk o ho ?_, h1, h2, h3⟩
    rw [h3]; exact hn
  | _ => trivial

theorem SrvOk.change {out out' : List Outgoing} {R R' : UInt16 → Bool} {p : Packet} (h : SrvOk out R opened p) {i : UInt16} (hn : srvId p ≠ some i)
    (hk : ∀ o ∈ out, o.message.pkid ≠ some i → o ∈ out') (hR : ∀ j, j ≠ i → R j = true → R' j = true) : SrvOk out' R' opened p := by
  cases p with
  | pubAck a =>
    obtain ⟨o, ho, h1, h2, h3, h4⟩ := h
    exact ⟨o, hk o ho (by rw [h3]; exact hn), h1, h2, h3, hR _ (by simpa [srvId] using hn) h4⟩
  | pubRec a =>
    obtain ⟨h0, o, ho, h1, h2, h3, h4, h5⟩ := h
    exact ⟨h0, o, hk o ho (by rw [h4]; exact hn), h1, h2, h3, h4, hR _ (by simpa [srvId] using hn) h5⟩
  | pubComp a =>
    obtain ⟨h0, o, ho, h1, h2, h3⟩ := h
    exact ⟨h0, o, hk o ho (by rw [h3]; exact hn), h1, h2, h3⟩
  | _ => trivial

theorem Xch.change (h : Xch out tc mid ts opened up R) {out' : List Outgoing} {R' : UInt16 → Bool} {i : UInt16} (hn : i ∉ idsOf tc mid ts)
    (hids : (out'.map (·.message.pkid)).Nodup)
    (hentry : ∀ o ∈ out', o.message.qos ≠ .atMostOnce ∧ o.message.dup = false ∧ o.message.pkid ≠ none ∧
      (o.released = true → o.message.qos = .exactlyOnce ∧ ∀ i, o.message.pkid = some i → R' i = true))
    (hk : ∀ o ∈ out, o.message.pkid ≠ some i → o ∈ out') (hR : ∀ j, j ≠ i → R j = true → R' j = true)
    (ho : up = true → i ∈ opened → ∃ o ∈ out', o.message.pkid = some i ∧ o.message.qos = .exactlyOnce ∧ o.sent = true) :
    Xch out' tc mid ts opened up R' := by
  obtain ⟨n1, n2⟩ := not_in hn
  refine ⟨hids, hentry, h.busy, fun p hp => (h.cli p hp).change (n1 p hp) hk, ?_, h.midO, fun p hp => (h.srv p hp).change (n2 p hp) hk hR, ?_⟩
  · intro q j he hq hj
    refine hR j ?_ (h.midR q j he hq hj)
    rintro rfl
    exact n1 (.publish q) (by simp [he]) (by simp [cliId, hq, hj])
  · intro hu j hj
    obtain ⟨⟨o, h1, h2, h3⟩, g2⟩ := h.opn hu j hj
    by_cases hji : j = i
    · subst hji; exact ⟨ho hu hj, g2⟩
    · refine ⟨⟨o, hk o h1 (by rw [h2]; simpa using hji), h2, h3⟩, g2⟩

/-- the server sends a packet of an exchange for which nothing is under way -/
theorem Xch.send (h : Xch out tc mid ts opened up R) {p : Packet} {i : UInt16} (hp : cliId p = some i) (hn : i ∉ idsOf tc mid ts)
    (hok : CliOk out p) (ho : up = true → ∀ q, p = .publish q → i ∉ opened) : Xch out (tc ++ [p]) mid ts opened up R := by
  refine ⟨h.ids, h.entry, ?_, ?_, h.midR, h.midO, h.srv, ?_⟩
  · have : (idsOf (tc ++ [p]) mid ts).Perm (i :: idsOf tc mid ts) := by
      simp only [idsOf, List.filterMap_append, List.filterMap_cons, hp, List.filterMap_nil, List.append_assoc]
      exact List.perm_middle
    rw [this.nodup_iff]
    exact List.nodup_cons.mpr ⟨hn, h.busy⟩
  · intro q hq
    simp only [List.append_assoc, List.mem_append, List.mem_singleton] at hq
    rcases hq with hq | rfl | hq
    · exact h.cli q (List.mem_append_left _ hq)
    · exact hok
    · exact h.cli q (List.mem_append_right _ hq)
  · intro hu j hj
    obtain ⟨g1, g2⟩ := h.opn hu j hj
    refine ⟨g1, fun q hq hq0 he => ?_⟩
    rcases List.mem_append.mp hq with hq | hq
    · exact g2 q hq hq0 he
    · obtain rfl := List.mem_singleton.mp hq
      simp [cliId, hq0, he] at hp
      exact ho hu q rfl (hp ▸ hj)

/-! ## counting -/

def isOwed (R : UInt16 → Bool) (o : Outgoing) : Bool := match o.message.pkid with | some i => R i | none => false

/-- the unfinished messages that the client has read -/
def owed (out : List Outgoing) (R : UInt16 → Bool) : List Publish := (out.filter (isOwed R)).map (·.message)

theorem owed_append (a b : List Outgoing) (R : UInt16 → Bool) : owed (a ++ b) R = owed a R ++ owed b R := by simp [owed]

theorem owed_congr {out : List Outgoing} {R R' : UInt16 → Bool} (h : ∀ o ∈ out, ∀ i, o.message.pkid = some i → R' i = R i) :
    owed out R' = owed out R := by
  unfold owed
  congr 1
  apply List.filter_congr
  intro o ho
  unfold isOwed
  cases hk : o.message.pkid with
  | none => rfl
  | some i => exact h o ho i hk

theorem times_sublist (m : Publish) {a b : List Publish} (h : a.Sublist b) : times m a ≤ times m b := (h.filter _).length_le

theorem split_ids {out pre post : List Outgoing} {o : Outgoing} (hn : (out.map (·.message.pkid)).Nodup) (h : out = pre ++ o :: post) :
    (∀ x ∈ pre, x.message.pkid ≠ o.message.pkid) ∧ (∀ x ∈ post, x.message.pkid ≠ o.message.pkid) := by
  subst h
  simp only [List.map_append, List.map_cons] at hn
  have hp : (pre.map (·.message.pkid) ++ o.message.pkid :: post.map (·.message.pkid)).Perm
      (o.message.pkid :: (pre.map (·.message.pkid) ++ post.map (·.message.pkid))) := List.perm_middle
  have := (List.nodup_cons.mp (hp.nodup_iff.mp hn)).1
  simp only [List.mem_append, List.mem_map, not_or, not_exists, not_and] at this
  exact this

theorem owed_read {out : List Outgoing} (hn : (out.map (·.message.pkid)).Nodup) {o : Outgoing} (ho : o ∈ out) {q : Publish}
    (hq : message q = o.message) (R : UInt16 → Bool) (m : Publish) :
    times m (owed out (readR R (.publish q))) ≤ times m (owed out R) + times m [message q] := by
  obtain ⟨pre, post, rfl⟩ := List.append_of_mem ho
  obtain ⟨h1, h2⟩ := split_ids hn rfl
  have hR : ∀ x : Outgoing, x.message.pkid ≠ o.message.pkid → ∀ i, x.message.pkid = some i → readR R (.publish q) i = R i := by
    intro x hx i hi
    have : q.pkid ≠ some i := by rw [(message_of hq).2, ← hi]; exact fun h => hx h.symm
    simp [readR, this]
  have hsplit : ∀ R, owed (pre ++ o :: post) R = owed pre R ++ (owed [o] R ++ owed post R) := by
    intro R; rw [← owed_append, ← owed_append]; rfl
  rw [hsplit, hsplit, owed_congr (out := pre) fun x hx => hR x (h1 x hx), owed_congr (out := post) fun x hx => hR x (h2 x hx)]
  simp only [times_append]
  have : times m (owed [o] (readR R (.publish q))) ≤ times m [message q] := by
    rw [hq]
    exact times_sublist m (by unfold owed; exact (List.filter_sublist (l := [o])).map _)
  omega

/-- first copies under way to the client -/
def firsts (tc : List Packet) : List Publish := tc.filterMap fun
  | .publish q => if q.qos ≠ .atMostOnce ∧ q.dup = false then some q else none
  | _ => none

theorem firsts_append (a b : List Packet) : firsts (a ++ b) = firsts a ++ firsts b := by simp [firsts]

theorem firsts_other {p : Packet} (h : isExchange p = false) : firsts [p] = [] := by
  cases p <;> simp [isExchange, firsts] at h ⊢
  intro h'; exact absurd h h'

/-! ## the invariant -/

/-- the connection -/
structure Link (s : Rcv) (w : World) : Prop where
  up : w.up = true → w.toServer.any isConnect = false
  run : s.running = true → w.up = true
  mid : s.mid ≠ none → s.running = true
  quiet : w.toServer.any isConnect = true → w.toClient = []
  tail : ∀ a c b, w.toServer = a ++ .connect c :: b → b.filterMap srvId = []

/-- everything -/
structure Inv (s : Rcv) (d : Duplex) : Prop where
  link : Link s d.net
  state : ∃ R, Xch d.out d.net.toClient s.mid d.net.toServer s.opened d.net.up R ∧
    ∀ m, times m d.done + times m (owed d.out R) ≤ times m (s.got.map message)
  expected : s.expected = s.got.filter fun p => p.qos ≠ .exactlyOnce || !p.dup
  firsts : ∀ m, times m (s.got.filter (!·.dup)) + times m (firsts d.net.toClient) ≤ times m d.begun
  gotBegun : ∀ p ∈ s.got, message p ∈ d.begun
  wayBegun : ∀ q, .publish q ∈ d.net.toClient → q.qos ≠ .atMostOnce → message q ∈ d.begun
  outBegun : ∀ o ∈ d.out, o.message ∈ d.begun

theorem Inv.start : Inv Rcv.start Duplex.start := by
  refine ⟨⟨by simp [Duplex.start, World.start], by simp [Rcv.start], by simp [Rcv.start], by simp [Duplex.start, World.start],
    by simp [Duplex.start, World.start]⟩, ⟨fun _ => false, ?_, ?_⟩, rfl, ?_, by simp [Rcv.start], by simp [Duplex.start, World.start],
    by simp [Duplex.start]⟩
  · constructor <;> simp [Duplex.start, World.start, Rcv.start, idsOf]
  · intro m; simp [Duplex.start, owed, times]
  · intro m; simp [Duplex.start, World.start, Rcv.start, Inb.firsts, times]

/-- less under way to the client -/
theorem firsts_sub {tc tc' : List Packet} (h : tc'.Sublist tc) (m : Publish) : times m (firsts tc') ≤ times m (firsts tc) :=
  times_sublist m (h.filterMap _)

theorem put_cases (w : World) (p : Packet) : (w.toServer.any isConnect = true ∧ put w p = w) ∨
    (w.toServer.any isConnect = false ∧ put w p = { w with toClient := w.toClient ++ [p] }) := by
  unfold put
  cases h : w.toServer.any isConnect
  · exact .inr ⟨rfl, rfl⟩
  · exact .inl ⟨rfl, rfl⟩

theorem Link.put {s : Rcv} {w : World} (h : Link s w) (p : Packet) : Link s (Duplex.put w p) := by
  rcases put_cases w p with ⟨h1, h2⟩ | ⟨h1, h2⟩
  · rw [h2]; exact h
  · rw [h2]
    exact ⟨h.up, h.run, h.mid, fun hx => by rw [h1] at hx; (cases hx), h.tail⟩

/-- the server takes a packet that is not CONNECT -/
theorem Link.take {s : Rcv} {w : World} (h : Link s w) {p : Packet} {rest : List Packet} (hw : w.toServer = p :: rest) :
    Link s { w with toServer := rest } := by
  refine ⟨fun hu => ?_, h.run, h.mid, fun hx => h.quiet ?_, fun a c b he => h.tail (p :: a) c b (by
    have he : rest = a ++ .connect c :: b := he
    rw [hw, he]; rfl)⟩
  · have := h.up hu
    rw [hw, List.any_cons, Bool.or_eq_false_iff] at this
    exact this.2
  · rw [hw, List.any_cons]
    simp only at hx
    rw [hx]; simp

theorem Xch.take (h : Xch out tc mid ts opened up R) {p : Packet} {rest : List Packet} (hw : ts = p :: rest) : Xch out tc mid rest opened up R :=
  h.le (List.Sublist.refl _) (.inl rfl) (hw ▸ List.sublist_cons_self _ _) (fun hu => .inl hu) (fun _ hi => hi)

/-- the identifier of an acknowledgement that the server takes has nothing else under way -/
theorem Xch.taken (h : Xch out tc mid ts opened up R) {p : Packet} {rest : List Packet} {i : UInt16} (hw : ts = p :: rest)
    (hp : srvId p = some i) : i ∉ idsOf tc mid rest := by
  subst hw
  have : (idsOf tc mid (p :: rest)).Perm (i :: idsOf tc mid rest) := by
    simp only [idsOf, List.filterMap_cons, hp]
    exact List.perm_middle
  exact (List.nodup_cons.mp (this.nodup_iff.mp h.busy)).1

variable {s : Rcv} {d : Duplex}

theorem Inv.withLess (h : Inv s d) {w : World} {tail : List Packet} (hl : Link s w) (h1 : w.toServer.Sublist d.net.toServer)
    (h2 : w.toClient = d.net.toClient ++ tail) (h3 : ∀ p ∈ tail, isExchange p = false) (h4 : w.up = d.net.up) :
    Inv s { d with net := w } := by
  have hf : Inb.firsts tail = [] := by
    clear h2
    induction tail with
    | nil => rfl
    | cons p ps ih =>
      have := firsts_append [p] ps
      rw [List.singleton_append] at this
      rw [this, firsts_other (h3 p (by simp)), ih (fun q hq => h3 q (by simp [hq]))]
      rfl
  obtain ⟨R, hx, hb⟩ := h.state
  have hx' : Xch d.out (d.net.toClient ++ tail) s.mid d.net.toServer s.opened d.net.up R := by
    exact hx.tc_append h3
  refine ⟨hl, ⟨R, ?_, hb⟩, h.expected, fun m => ?_, h.gotBegun, fun q hq hq0 => ?_, h.outBegun⟩
  · show Xch d.out w.toClient s.mid w.toServer s.opened w.up R
    rw [h2, h4]
    exact hx'.le (List.Sublist.refl _) (.inl rfl) h1 (fun hu => .inl hu) (fun _ hi => hi)
  · show _ + times m (Inb.firsts w.toClient) ≤ _
    rw [h2, firsts_append, hf, List.append_nil]
    exact h.firsts m
  · have hq : .publish q ∈ w.toClient := hq
    rw [h2] at hq
    rcases List.mem_append.mp hq with hq | hq
    · exact h.wayBegun q hq hq0
    · have := h3 _ hq
      simp [isExchange, hq0] at this

theorem Inv.answer (h : Inv s d) {w : World} {p r : Packet} {rest : List Packet} (hw : d.net.toServer = p :: rest) (hr : isExchange r = false)
    (h1 : w.toServer = rest) (h2 : w.toClient = if rest.any isConnect then d.net.toClient else d.net.toClient ++ [r])
    (h3 : w.up = d.net.up) : Inv s { d with net := w } := by
  have hl := h.link.take hw
  refine h.withLess (tail := if rest.any isConnect then [] else [r]) ⟨?_, ?_, h.link.mid, ?_, ?_⟩ ?_ ?_ ?_ h3
  · rw [h1, h3]; exact hl.up
  · rw [h3]; exact hl.run
  · rw [h1, h2]
    intro hx
    rw [if_pos hx]
    exact hl.quiet hx
  · rw [h1]; exact hl.tail
  · rw [h1, hw]; exact List.sublist_cons_self _ _
  · rw [h2]; split <;> simp
  · intro q hq
    split at hq <;> simp at hq
    rw [hq]; exact hr

/-- the server changes its mind about one message, for which nothing is under way, and perhaps sends one packet -/
theorem Inv.sends (h : Inv s d) {p : Packet} {out' : List Outgoing} {begun' done' : List Publish} {i : UInt16} {w : World}
    (hl : Link s w) (h1 : w.toServer.Sublist d.net.toServer) (h2 : w.toClient = d.net.toClient) (h4 : w.up = d.net.up)
    (hx : ∃ R, Xch out' w.toClient s.mid w.toServer s.opened w.up R ∧ ∀ m, times m done' + times m (owed out' R) ≤ times m (s.got.map message))
    (hp : cliId p = some i) (hn : i ∉ idsOf w.toClient s.mid w.toServer) (hok : CliOk out' p)
    (ho : w.up = true → ∀ q, p = .publish q → i ∉ s.opened)
    (hsub : ∀ m ∈ d.begun, m ∈ begun') (hout : ∀ o ∈ out', o.message ∈ begun')
    (hf : ∀ m, times m d.begun + times m (Inb.firsts [p]) ≤ times m begun') :
    Inv s { net := Duplex.put w p, out := out', begun := begun', done := done' } := by
  obtain ⟨R, hx, hb⟩ := hx
  have hle : ∀ m, times m d.begun ≤ times m begun' := fun m => Nat.le_trans (Nat.le_add_right _ _) (hf m)
  rcases put_cases w p with ⟨g1, g2⟩ | ⟨g1, g2⟩
  · rw [g2]
    refine ⟨hl, ⟨R, hx, hb⟩, h.expected, fun m => ?_, fun q hq => hsub _ (h.gotBegun q hq), fun q hq hq0 => ?_, hout⟩
    · have := h.firsts m
      have := hle m
      simp only [h2]
      omega
    · rw [show w.toClient = d.net.toClient from h2] at hq
      exact hsub _ (h.wayBegun q hq hq0)
  · have hl' := hl.put p
    rw [g2] at hl' ⊢
    refine ⟨hl', ⟨R, hx.send hp hn hok ho, hb⟩, h.expected, fun m => ?_, fun q hq => hsub _ (h.gotBegun q hq), fun q hq hq0 => ?_, hout⟩
    · have := h.firsts m
      have := hf m
      simp only [h2, firsts_append, times_append]
      omega
    · simp only [h2] at hq
      rcases List.mem_append.mp hq with hq | hq
      · exact hsub _ (h.wayBegun q hq hq0)
      · obtain rfl := List.mem_singleton.mp hq
        obtain ⟨o, ho, -, -, h3⟩ := hok hq0
        rw [h3]; exact hout o ho

theorem Inv.noClient (h : Inv s d) {p : Packet} {rest : List Packet} {out' : List Outgoing} {done' : List Publish}
    (hw : d.net.toServer = p :: rest)
    (hx : ∃ R, Xch out' d.net.toClient s.mid rest s.opened d.net.up R ∧ ∀ m, times m done' + times m (owed out' R) ≤ times m (s.got.map message))
    (hout : ∀ o ∈ out', o ∈ d.out) :
    Inv s { d with net := { d.net with toServer := rest }, out := out', done := done' } :=
  ⟨h.link.take hw, hx, h.expected, h.firsts, h.gotBegun, h.wayBegun, fun o ho => h.outBegun o (hout o ho)⟩

theorem ids_drop {pre post : List Outgoing} {o : Outgoing} (hn : ((pre ++ o :: post).map (·.message.pkid)).Nodup) :
    ((pre ++ post).map (·.message.pkid)).Nodup :=
  hn.sublist ((List.Sublist.append_left (List.sublist_cons_self _ _) _).map _)

theorem mem_drop {pre post : List Outgoing} {o x : Outgoing} (hx : x ∈ pre ++ o :: post) (hne : x.message.pkid ≠ o.message.pkid) :
    x ∈ pre ++ post := by
  simp only [List.mem_append, List.mem_cons] at hx ⊢
  rcases hx with hx | rfl | hx
  · exact .inl hx
  · exact absurd rfl hne
  · exact .inr hx

/-- the entry of an acknowledgement goes -/
theorem Xch.finish {pre post : List Outgoing} {o : Outgoing} (h : Xch (pre ++ o :: post) tc mid ts opened up R) {p : Packet} {rest : List Packet}
    {i : UInt16} (hw : ts = p :: rest) (hp : srvId p = some i) (hi : o.message.pkid = some i) (ho : up = true → i ∉ opened) :
    Xch (pre ++ post) tc mid rest opened up R := by
  refine (h.take hw).change (h.taken hw hp) (ids_drop h.ids) ?_ ?_ (fun _ _ => id) (fun hu hm => absurd hm (ho hu))
  · intro x hx
    refine h.entry x ?_
    simp only [List.mem_append, List.mem_cons] at hx ⊢
    rcases hx with hx | hx
    · exact .inl hx
    · exact .inr (.inr hx)
  · exact fun x hx hne => mem_drop hx (hi ▸ hne)

theorem owed_finish {pre post : List Outgoing} {o : Outgoing} {i : UInt16} (hi : o.message.pkid = some i) (hR : R i = true) (m : Publish) :
    times m (owed (pre ++ o :: post) R) = times m [o.message] + times m (owed (pre ++ post) R) := by
  have : owed (pre ++ o :: post) R = owed pre R ++ ([o.message] ++ owed post R) := by
    simp [owed, isOwed, hi, hR]
  rw [this, owed_append]
  simp only [times_append]
  omega

/-- the entry of a message changes, but not its message -/
theorem Xch.mark {pre post : List Outgoing} {o o' : Outgoing} (h : Xch (pre ++ o :: post) tc mid ts opened up R) {i : UInt16}
    (hn : i ∉ idsOf tc mid ts) (hi : o.message.pkid = some i) (hm : o'.message = o.message)
    (hr : o'.released = true → o.message.qos = .exactlyOnce ∧ R i = true) (ho : up = true → i ∈ opened → o'.sent = true) :
    Xch (pre ++ o' :: post) tc mid ts opened up R := by
  refine h.change hn ?_ ?_ ?_ (fun _ _ => id) ?_
  · have := h.ids
    simpa [hm] using this
  · intro x hx
    simp only [List.mem_append, List.mem_cons] at hx
    rcases hx with hx | rfl | hx
    · exact h.entry x (by simp [hx])
    · have := h.entry o (by simp)
      rw [hm]
      refine ⟨this.1, this.2.1, this.2.2.1, fun hx => ⟨(hr hx).1, fun j hj => ?_⟩⟩
      rw [hi] at hj
      obtain rfl := Option.some.inj hj
      exact (hr hx).2
    · exact h.entry x (by simp [hx])
  · intro x hx hne
    have := mem_drop hx (hi ▸ hne)
    simp only [List.mem_append, List.mem_cons] at this ⊢
    rcases this with hx | hx
    · exact .inl hx
    · exact .inr (.inr hx)
  · intro hu hm'
    obtain ⟨⟨x, h1, h2, h3, h4⟩, -⟩ := h.opn hu i hm'
    obtain rfl := h.same h1 (by simp : o ∈ pre ++ o :: post) (h2.trans hi.symm)
    exact ⟨o', by simp, hm ▸ h2, hm ▸ h3, ho hu hm'⟩

theorem owed_mark {pre post : List Outgoing} {o o' : Outgoing} (hm : o'.message = o.message) : owed (pre ++ o' :: post) R = owed (pre ++ o :: post) R := by
  have h1 : isOwed R o' = isOwed R o := by simp [isOwed, hm]
  cases h2 : isOwed R o <;> simp [owed, List.filter_cons, h1, h2, hm]

theorem Inv.server {keeps : Bool} (h : Inv s d) {d' : Duplex} (hs : Duplex.Server keeps d d') : Inv s d' := by
  obtain ⟨R, hx, hb⟩ := h.state
  cases hs with
  | @other p rest w hw hp hs hr =>
    cases hs with
    | accept h' => rw [hw] at h'; injection h' with h1 h2; rw [h1] at hp; simp [isOurs] at hp
    | refuse h' => rw [hw] at h'; injection h' with h1 h2; rw [h1] at hp; simp [isOurs] at hp
    | qos1 h' => rw [hw] at h'; injection h' with h1 h2; subst h2; exact h.answer (r := .pubAck _) hw rfl rfl rfl rfl
    | qos2 h' => rw [hw] at h'; injection h' with h1 h2; subst h2; exact h.answer (r := .pubRec _) hw rfl rfl rfl rfl
    | qos2again h' => rw [hw] at h'; injection h' with h1 h2; subst h2; exact h.answer (r := .pubRec _) hw rfl rfl rfl rfl
    | pubRel h' => rw [hw] at h'; injection h' with h1 h2; subst h2; exact h.answer (r := .pubComp _) hw rfl rfl rfl rfl
    | other h' =>
      rw [hw] at h'; injection h' with h1 h2; subst h2
      exact h.withLess (tail := []) (h.link.take hw) (by rw [hw]; exact List.sublist_cons_self _ _) (by simp) (by simp) rfl
    | sends h' =>
      simp only [hw] at hr
      have := congrArg List.length hr
      simp at this
  | @accept c rest a hw ha hp =>
    have hc : d.net.toServer.any isConnect = true := by rw [hw]; simp [isConnect]
    have hup : d.net.up = false := by
      cases hu : d.net.up
      · rfl
      · rw [h.link.up hu] at hc; cases hc
    have hrun : s.running = false := by
      cases hr : s.running
      · rfl
      · rw [h.link.run hr] at hup; cases hup
    have hmid : s.mid = none := by
      cases hm : s.mid with
      | none => rfl
      | some x =>
        have := h.link.mid (by simp [hm])
        rw [hrun] at this; cases this
    have htail := h.link.tail [] c rest hw
    have h0 := h.answer (w := { d.net.answer rest (.connAck a) with
      session := true, held := if a.sessionPresent then d.net.held else [] }) (r := .connAck a) hw rfl rfl rfl rfl
    have htc : ∀ p ∈ (d.net.answer rest (.connAck a)).toClient, isExchange p = false := by
      intro p hp
      simp only [World.answer, h.link.quiet hc] at hp
      split at hp <;> simp at hp
      rw [hp]; rfl
    have hts : ∀ p ∈ rest, srvId p = none := by
      intro p hp
      cases he : srvId p with
      | none => rfl
      | some i =>
        have : i ∈ rest.filterMap srvId := List.mem_filterMap.mpr ⟨p, hp, he⟩
        rw [htail] at this; cases this
    have hnew : ∀ out' : List Outgoing, (out'.map (·.message.pkid)).Nodup → (∀ o ∈ out', o.message.qos ≠ .atMostOnce ∧ o.message.dup = false ∧ o.message.pkid ≠ none ∧
      (o.released = true → o.message.qos = .exactlyOnce ∧ ∀ i, o.message.pkid = some i → R i = true)) →
      Xch out' (d.net.answer rest (.connAck a)).toClient s.mid rest s.opened d.net.up R := by
      intro out' g1 g2
      have hcn : (d.net.answer rest (.connAck a)).toClient.filterMap cliId = [] := by
        rw [List.filterMap_eq_nil_iff]
        exact fun p hp => (notExchange (htc p hp)).1
      refine ⟨g1, g2, ?_, ?_, by simp [hmid], by simp [hmid], fun p hp => SrvOk.other (hts p hp), by simp [hup]⟩
      · unfold idsOf; rw [hcn, hmid, htail]; simp
      · intro p hp
        rw [hmid] at hp
        simp only [Option.toList_none, List.append_nil] at hp
        exact (notExchange (htc p hp)).2 _
    refine ⟨h0.link, ⟨R, ?_, ?_⟩, h0.expected, h0.firsts, h0.gotBegun, h0.wayBegun, ?_⟩
    · show Xch _ _ s.mid rest s.opened d.net.up R
      cases a.sessionPresent
      · exact hnew [] (by simp) (by simp)
      · refine hnew _ ?_ ?_
        · have := hx.ids
          simp only [if_true, List.map_map]
          exact this
        · intro o ho
          simp at ho
          obtain ⟨o', ho', rfl⟩ := ho
          exact hx.entry o' ho'
    · intro m
      have := hb m
      cases a.sessionPresent
      · simp [owed, times] at this ⊢; omega
      · have he : owed (d.out.map ({ · with sent := false })) R = owed d.out R := by
          simp only [owed, List.filter_map, List.map_map]
          rfl
        simp only [if_true, he]
        exact this
    · intro o ho
      cases hsp : a.sessionPresent
      · simp [hsp] at ho
      · simp [hsp] at ho
        obtain ⟨o', ho', rfl⟩ := ho
        exact h.outBegun o' ho'
  | @refuse c rest a hw ha => exact h.answer (r := .connAck a) hw rfl rfl rfl rfl
  | @sends p ha hp =>
    rcases put_cases d.net p with ⟨g1, g2⟩ | ⟨g1, g2⟩
    · rw [g2]; exact h
    · have hl := h.link.put p
      rw [g2] at hl ⊢
      exact h.withLess (tail := [p]) hl (List.Sublist.refl _) rfl (by simpa using hp) rfl
  | @begins m i hq hd hi hn =>
    have hnot : i ∉ idsOf d.net.toClient s.mid d.net.toServer := by
      intro hm
      obtain ⟨o, ho, -, h2⟩ := hx.known hm
      exact hn o ho h2
    have hop : d.net.up = true → i ∉ s.opened := by
      intro hu hm
      obtain ⟨⟨o, ho, h2, -⟩, -⟩ := hx.opn hu i hm
      exact hn o ho h2
    have hself := message_self hd
    refine h.sends (i := i) h.link (List.Sublist.refl _) rfl rfl ⟨fun j => if j = i then false else R j, ?_, ?_⟩ (by simp [cliId, hq, hi]) hnot
      ?_ (fun hu q _ => hop hu) (fun m hm => List.mem_append_left _ hm) ?_ ?_
    · refine hx.change hnot ?_ ?_ (fun o ho _ => List.mem_append_left _ ho) ?_ (fun hu hm => absurd hm (hop hu))
      · rw [List.map_append, List.nodup_append]
        refine ⟨hx.ids, by simp, ?_⟩
        intro a ha b hb
        simp at hb
        obtain ⟨o, ho, rfl⟩ := List.mem_map.mp ha
        rw [hb, hi]
        exact hn o ho
      · intro o ho
        rcases List.mem_append.mp ho with ho | ho
        · have := hx.entry o ho
          refine ⟨this.1, this.2.1, this.2.2.1, fun hr => ⟨(this.2.2.2 hr).1, fun j hj => ?_⟩⟩
          rw [if_neg (fun he : j = i => hn o ho (he ▸ hj))]
          exact (this.2.2.2 hr).2 j hj
        · simp at ho
          subst ho
          exact ⟨hq, hd, by simp [hi], by simp⟩
      · intro j hj hR
        simp [hj, hR]
    · intro x
      have h1 : owed (d.out ++ [⟨m, false, true⟩]) (fun j => if j = i then false else R j) = owed d.out R := by
        rw [owed_append, owed_congr (out := d.out) (R := R)]
        · simp [owed, isOwed, hi]
        · intro o ho j hj
          rw [if_neg (fun he : j = i => hn o ho (he ▸ hj))]
      rw [h1]
      exact hb x
    · exact fun _ => ⟨_, List.mem_append_right _ (List.mem_singleton_self _), rfl, rfl, hself⟩
    · intro o ho
      rcases List.mem_append.mp ho with ho | ho
      · exact List.mem_append_left _ (h.outBegun o ho)
      · simp at ho; subst ho; simp
    · intro x
      simp [Inb.firsts, hq, hd, times_append]
  | @again o pre post ho hsn hr =>
    have hmem : o ∈ d.out := by rw [ho]; simp
    have he := hx.entry o hmem
    obtain ⟨i, hi⟩ : ∃ i, o.message.pkid = some i := by
      cases hk : o.message.pkid with
      | none => exact absurd hk he.2.2.1
      | some i => exact ⟨i, rfl⟩
    have hnot := hx.idle hmem hi hsn
    have hop : d.net.up = true → i ∉ s.opened := by
      intro hu hm
      obtain ⟨⟨o', ho', h2, h3, h4⟩, -⟩ := hx.opn hu i hm
      obtain rfl := hx.same hmem ho' (hi.trans h2.symm)
      rw [hsn] at h4; cases h4
    refine h.sends (i := i) h.link (List.Sublist.refl _) rfl rfl ⟨R, ?_, ?_⟩ (by simp [cliId, he.1, hi]) hnot
      ?_ (fun hu q _ => hop hu) (fun m hm => hm) ?_ ?_
    · rw [ho] at hx
      exact hx.mark hnot hi rfl (by simp [hr]) (fun _ _ => rfl)
    · intro m
      rw [owed_mark (o := o) (by rfl), ← ho]
      exact hb m
    · refine fun _ => ⟨{ o with sent := true }, by simp, rfl, hr, ?_⟩
      show ({ { o.message with dup := true } with dup := false } : Publish) = o.message
      exact message_self he.2.1
    · intro x hx'
      simp only [List.mem_append, List.mem_cons] at hx'
      rcases hx' with hx' | rfl | hx'
      · exact h.outBegun x (by rw [ho]; simp [hx'])
      · exact h.outBegun o hmem
      · exact h.outBegun x (by rw [ho]; simp [hx'])
    · intro x
      simp [Inb.firsts, times]
  | @releasesAgain o pre post a ho hsn hr hi =>
    have hmem : o ∈ d.out := by rw [ho]; simp
    have he := hx.entry o hmem
    have hnot := hx.idle hmem hi hsn
    refine h.sends (i := a.id) h.link (List.Sublist.refl _) rfl rfl ⟨R, ?_, ?_⟩ rfl hnot
      ⟨{ o with sent := true }, by simp, rfl, hr, hi⟩ (fun hu q hq => by cases hq) (fun m hm => hm) ?_ ?_
    · rw [ho] at hx
      exact hx.mark hnot hi rfl (fun _ => ⟨(he.2.2.2 hr).1, (he.2.2.2 hr).2 _ hi⟩) (fun _ _ => rfl)
    · intro m
      rw [owed_mark (o := o) (by rfl), ← ho]
      exact hb m
    · intro x hx'
      simp only [List.mem_append, List.mem_cons] at hx'
      rcases hx' with hx' | rfl | hx'
      · exact h.outBegun x (by rw [ho]; simp [hx'])
      · exact h.outBegun o hmem
      · exact h.outBegun x (by rw [ho]; simp [hx'])
    · intro x
      simp [Inb.firsts, times]
  | @pubAck o pre post a rest hw ho hi hq =>
    have hmem : o ∈ d.out := by rw [ho]; simp
    obtain ⟨o', ho', h1, h2, h3, h4⟩ := hx.srv (.pubAck a) (by rw [hw]; simp)
    have hop : d.net.up = true → a.id ∉ s.opened := by
      intro hu hm
      obtain ⟨⟨o', ho', h2, h3, h4⟩, -⟩ := hx.opn hu _ hm
      obtain rfl := hx.same hmem ho' (hi.trans h2.symm)
      rw [hq] at h3; cases h3
    refine h.noClient hw ⟨R, ?_, ?_⟩ (fun x hx' => ?_)
    · rw [ho] at hx
      exact hx.finish hw rfl hi hop
    · intro m
      have := hb m
      rw [ho, owed_finish hi h4] at this
      rw [times_append]
      omega
    · rw [ho]; simp only [List.mem_append, List.mem_cons] at hx' ⊢
      rcases hx' with hx' | hx'
      · exact .inl hx'
      · exact .inr (.inr hx')
  | @pubRec o pre post a r rest hw ho hi hq ha hri =>
    have hmem : o ∈ d.out := by rw [ho]; simp
    obtain ⟨-, o', ho', h1, h2, h3, h4, h5⟩ := hx.srv (.pubRec a) (by rw [hw]; simp)
    obtain rfl := hx.same hmem ho' (hi.trans h4.symm)
    have hnot := hx.taken hw rfl
    refine h.sends (i := a.id) (h.link.take hw) (by rw [hw]; exact List.sublist_cons_self _ _) rfl rfl ⟨R, ?_, ?_⟩ (by simp [cliId, hri]) hnot
      ⟨{ o with released := true }, by simp, h1, rfl, hri ▸ hi⟩ (fun hu q hq => by cases hq) (fun m hm => hm) ?_ ?_
    · rw [ho] at hx
      exact (hx.take hw).mark hnot hi rfl (fun _ => ⟨hq, h5⟩) (fun _ _ => h1)
    · intro m
      rw [owed_mark (o := o) (by rfl), ← ho]
      exact hb m
    · intro x hx'
      simp only [List.mem_append, List.mem_cons] at hx'
      rcases hx' with hx' | rfl | hx'
      · exact h.outBegun x (by rw [ho]; simp [hx'])
      · exact h.outBegun o hmem
      · exact h.outBegun x (by rw [ho]; simp [hx'])
    · intro x
      simp [Inb.firsts, times]
  | @refused o pre post a rest hw ho hi hq ha =>
    obtain ⟨h0, -⟩ := hx.srv (.pubRec a) (by rw [hw]; simp)
    rw [ha] at h0; cases h0
  | @pubComp o pre post a rest hw ho hi hr =>
    have hmem : o ∈ d.out := by rw [ho]; simp
    obtain ⟨h0, -⟩ := hx.srv (.pubComp a) (by rw [hw]; simp)
    have hR := ((hx.entry o hmem).2.2.2 hr).2 _ hi
    refine h.noClient hw ⟨R, ?_, ?_⟩ (fun x hx' => ?_)
    · rw [ho] at hx
      exact hx.finish hw rfl hi (fun _ => h0)
    · intro m
      have := hb m
      rw [ho, owed_finish hi hR] at this
      rw [times_append]
      omega
    · rw [ho]; simp only [List.mem_append, List.mem_cons] at hx' ⊢
      rcases hx' with hx' | hx'
      · exact .inl hx'
      · exact .inr (.inr hx')
  | @ignores p rest hw hp hc =>
    exact h.withLess (tail := []) (h.link.take hw) (by rw [hw]; exact List.sublist_cons_self _ _) (by simp) (by simp) rfl

/-! ## the client -/

theorem next_read_mid (s : Rcv) (p : Packet) (h : (s.next (.read p)).mid ≠ none) : s.running = true := by
  cases hr : s.running
  · exfalso; apply h
    simp only [Rcv.next, hr]
    cases p <;> simp
    split <;> rfl
  · rfl

theorem onRead_mid (s : Rcv) (p : Packet) : (s.onRead p).mid = some p := by cases p <;> rfl

theorem onRead_got {s : Rcv} {p : Packet} (h : isExchange p = false) : (s.onRead p).got = s.got ∧ (s.onRead p).expected = s.expected := by
  cases p <;> simp [isExchange] at h <;> simp [Rcv.onRead]
  simp [Rcv.onPublish, h]

theorem Inv.reads (h : Inv s d) {p : Packet} {missed rest : List Packet} {w : World} (hw : d.net.toClient = missed ++ p :: rest)
    (hu : w.up = d.net.up ∨ (w.up = true ∧ ∃ c, p = .connAck c ∧ c.reason = .success)) (hts : w.toServer = d.net.toServer)
    (htc : w.toClient = rest) : Inv (s.next (.read p)) { d with net := w } := by
  have hsub : rest.Sublist d.net.toClient := by
    rw [hw]
    exact (List.sublist_cons_self _ _).trans (List.sublist_append_right _ _)
  have hmem : p ∈ d.net.toClient := by rw [hw]; simp
  have hnoc : d.net.toServer.any isConnect = false := by
    cases hc : d.net.toServer.any isConnect
    · rfl
    · rw [h.link.quiet hc] at hw; simp at hw
  have hlink : Link (s.next (.read p)) w := by
    refine ⟨fun _ => by rw [hts]; exact hnoc, fun hr => ?_, fun hm => by rw [next_read_running]; exact next_read_mid s p hm,
      fun hx => by rw [hts, hnoc] at hx; (cases hx), by rw [hts]; exact h.link.tail⟩
    rw [next_read_running] at hr
    rcases hu with hu | hu
    · rw [hu]; exact h.link.run hr
    · exact hu.1
  have hway : ∀ q, .publish q ∈ w.toClient → q.qos ≠ .atMostOnce → message q ∈ d.begun := fun q hq =>
    h.wayBegun q (hsub.subset (htc ▸ hq))
  obtain ⟨R, hx, hb⟩ := h.state
  cases hr : s.running
  · have h1 : (s.next (.read p)).got = s.got ∧ (s.next (.read p)).expected = s.expected ∧ (s.next (.read p)).mid = none ∧
        ((s.next (.read p)).opened = [] ∨ ((s.next (.read p)).opened = s.opened ∧ ∀ c, p = .connAck c → c.reason ≠ .success)) := by
      simp only [Rcv.next, hr]
      cases p <;> simp
      split <;> simp [*]
    obtain ⟨g1, g2, g3, g4⟩ := h1
    refine ⟨hlink, ⟨R, ?_, by rw [g1]; exact hb⟩, by rw [g1, g2]; exact h.expected, fun m => ?_, by rw [g1]; exact h.gotBegun, hway, h.outBegun⟩
    · show Xch d.out w.toClient _ w.toServer _ w.up R
      rw [htc, hts, g3]
      refine hx.le hsub (.inr rfl) (List.Sublist.refl _) ?_ ?_
      · intro hup
        rcases g4 with g4 | ⟨g4, g5⟩
        · exact .inr g4
        · rcases hu with hu | ⟨-, c, hc, hs⟩
          · exact .inl (hu ▸ hup)
          · exact absurd hs (g5 c hc)
      · intro i hi
        rcases g4 with g4 | ⟨g4, -⟩
        · rw [g4] at hi; cases hi
        · exact g4 ▸ hi
    · rw [g1]
      have := h.firsts m
      have := firsts_sub hsub m
      show _ + times m (Inb.firsts w.toClient) ≤ times m d.begun
      rw [htc]
      omega
  · have hup := h.link.run hr
    have hup' : w.up = true := by
      rcases hu with hu | hu
      · rw [hu]; exact hup
      · exact hu.1
    have hnext : s.next (.read p) = s.onRead p := by simp [Rcv.next, hr]
    have hcut : Xch d.out (p :: rest) none d.net.toServer s.opened true R :=
      hx.le (hw ▸ List.sublist_append_right _ _) (.inr rfl) (List.Sublist.refl _) (fun _ => .inl hup) (fun _ hi => hi)
    have hread := hcut.read hr
    have hx' : Xch d.out w.toClient (s.next (.read p)).mid w.toServer (s.next (.read p)).opened w.up (readR R p) := by
      rw [hnext, onRead_mid, htc, hts, hup']; exact hread
    have hfs := firsts_sub (show (p :: rest).Sublist d.net.toClient by rw [hw]; exact List.sublist_append_right _ _)
    by_cases he : isExchange p = false
    · obtain ⟨g1, g2⟩ := onRead_got (s := s) he
      rw [← hnext] at g1 g2
      have hR : readR R p = R := by
        cases p <;> simp [isExchange] at he <;> simp [readR]
        simp [he]
      rw [hR] at hx'
      refine ⟨hlink, ⟨R, hx', by rw [g1]; exact hb⟩, by rw [g1, g2]; exact h.expected, fun m => ?_, by rw [g1]; exact h.gotBegun, hway, h.outBegun⟩
      rw [g1]
      have := h.firsts m
      have := firsts_sub hsub m
      show _ + times m (Inb.firsts w.toClient) ≤ times m d.begun
      rw [htc]
      omega
    · cases p with
      | publish q =>
        simp [isExchange] at he
        obtain ⟨o, ho, h1, h2, h3⟩ := hcut.cli (.publish q) (by simp) he
        obtain ⟨k1, k2⟩ := message_of h3
        obtain ⟨i, hi⟩ : ∃ i, q.pkid = some i := by
          cases hk : q.pkid with
          | none => rw [hk] at k2; exact absurd k2.symm (hcut.entry o ho).2.2.1
          | some i => exact ⟨i, rfl⟩
        have g1 : (s.next (.read (.publish q))).got = s.got ++ [q] := by
          rw [hnext]; simp [Rcv.onRead, Rcv.onPublish, he, hi]
        have hsh : s.shows q = (decide (q.qos ≠ .exactlyOnce) || !q.dup) := by
          unfold Rcv.shows
          rw [hi]
          cases hq : q.qos with
          | atMostOnce => exact absurd hq he
          | atLeastOnce => simp
          | exactlyOnce =>
            simp
            intro _ hop
            exact (hcut.opn rfl i hop).2 q (by simp) he hi
        have g2 : (s.next (.read (.publish q))).expected = s.expected ++ [q].filter fun p => p.qos ≠ .exactlyOnce || !p.dup := by
          rw [hnext]
          simp only [Rcv.onRead, Rcv.onPublish, if_pos (show q.qos ≠ .atMostOnce ∧ q.pkid ≠ none from ⟨he, by simp [hi]⟩), hsh, List.filter_cons,
            List.filter_nil]
          split <;> simp
        refine ⟨hlink, ⟨_, hx', ?_⟩, by rw [g1, g2, List.filter_append, h.expected], fun m => ?_, ?_, hway, h.outBegun⟩
        · intro m
          have := hb m
          have := owed_read hx.ids ho h3 R m
          rw [g1, List.map_append, times_append, List.map_singleton]
          show times m d.done + times m (owed d.out _) ≤ _
          omega
        · show _ + times m (Inb.firsts w.toClient) ≤ times m d.begun
          have := h.firsts m
          have hfs := hfs m
          rw [show Packet.publish q :: rest = [Packet.publish q] ++ rest from rfl, firsts_append, times_append] at hfs
          rw [g1, List.filter_append, times_append, htc]
          have : times m ([q].filter (!·.dup)) = times m (Inb.firsts [.publish q]) := by
            cases hd : q.dup <;> simp [Inb.firsts, hd, he]
          omega
        · intro x hx
          rw [g1] at hx
          rcases List.mem_append.mp hx with hx | hx
          · exact h.gotBegun x hx
          · obtain rfl := List.mem_singleton.mp hx
            exact h.wayBegun x hmem he
      | pubRel a =>
        have g1 : (s.next (.read (.pubRel a))).got = s.got := by rw [hnext]; rfl
        have g2 : (s.next (.read (.pubRel a))).expected = s.expected := by rw [hnext]; rfl
        refine ⟨hlink, ⟨R, hx', by rw [g1]; exact hb⟩, by rw [g1, g2]; exact h.expected, fun m => ?_, by rw [g1]; exact h.gotBegun, hway, h.outBegun⟩
        rw [g1]
        have := h.firsts m
        have := firsts_sub hsub m
        show _ + times m (Inb.firsts w.toClient) ≤ times m d.begun
        rw [htc]
        omega
      | _ => simp [isExchange] at he

theorem Inv.calm (h : Inv s d) {s' : Rcv} {w : World} (h1 : s'.running = true → w.up = true) (h2 : s'.mid = none ∨ s' = s) (h3 : s'.got = s.got)
    (h4 : s'.expected = s.expected) (h5 : s'.opened = s.opened) (g1 : w.toServer = d.net.toServer) (g2 : w.toClient = d.net.toClient)
    (g3 : w.up = true → d.net.up = true) : Inv s' { d with net := w } := by
  obtain ⟨R, hx, hb⟩ := h.state
  refine ⟨⟨fun hu => by rw [g1]; exact h.link.up (g3 hu), h1, fun hm => ?_, by rw [g1, g2]; exact h.link.quiet, by rw [g1]; exact h.link.tail⟩,
    ⟨R, ?_, by rw [h3]; exact hb⟩, by rw [h3, h4]; exact h.expected, ?_, by rw [h3]; exact h.gotBegun, ?_, h.outBegun⟩
  · rcases h2 with h2 | rfl
    · exact absurd h2 hm
    · exact h.link.mid hm
  · show Xch d.out w.toClient s'.mid w.toServer s'.opened w.up R
    rw [g1, g2, h5]
    refine hx.le (List.Sublist.refl _) ?_ (List.Sublist.refl _) (fun hu => .inl (g3 hu)) (fun _ hi => hi)
    rcases h2 with h2 | rfl
    · exact .inr h2
    · exact .inl rfl
  · intro m; rw [h3]; show _ + times m (Inb.firsts w.toClient) ≤ times m d.begun; rw [g2]; exact h.firsts m
  · intro q hq; exact h.wayBegun q (g2 ▸ hq)

theorem Inv.client (h : Inv s d) {x : Obs} {w : World} (hw : World.Client d.net x w) (hf : s.Fits x) : Inv (s.next x) { d with net := w } := by
  obtain ⟨R, hx, hb⟩ := h.state
  cases hw with
  | @connect c a b k =>
    have hrun : s.running = false := hf
    refine ⟨⟨by simp, by simp [Rcv.next, hrun], by simp [Rcv.next], fun _ => rfl, ?_⟩, ⟨R, ?_, hb⟩, h.expected, fun m => ?_, h.gotBegun, by simp, h.outBegun⟩
    · intro a' c' b' he
      have he : d.net.toServer.take k ++ [.connect c] = a' ++ .connect c' :: b' := he
      rcases List.append_eq_append_iff.mp he with ⟨x, h1, h2⟩ | ⟨x, h1, h2⟩
      · cases x with
        | nil =>
          simp only [List.nil_append, List.cons.injEq] at h2
          rw [← h2.2]; rfl
        | cons y ys => simp at h2
      · cases x with
        | nil =>
          simp only [List.nil_append, List.cons.injEq] at h2
          rw [h2.2]; rfl
        | cons y ys =>
          simp only [List.cons_append, List.cons.injEq] at h2
          obtain ⟨rfl, rfl⟩ := h2
          have := h.link.tail a' c' (ys ++ d.net.toServer.drop k) (by
            conv => lhs; rw [← List.take_append_drop k d.net.toServer, h1]
            simp)
          rw [List.filterMap_append, List.append_eq_nil_iff] at this
          rw [List.filterMap_append, this.1]
          rfl
    · exact (hx.le (List.nil_sublist _) (.inr rfl) (List.take_sublist k _) (by simp) (fun _ hi => hi)).ts_snoc rfl
    · have := h.firsts m
      show times m (s.got.filter (!·.dup)) + times m (Inb.firsts []) ≤ _
      simp only [Inb.firsts, List.filterMap_nil] at this ⊢
      simp [times] at this ⊢
      omega
  | @wrote p a b hp =>
    have hany : (d.net.toServer ++ [p]).any isConnect = d.net.toServer.any isConnect := by simp [hp]
    have hmay : s.May p := hf
    have hs' : s.next (.wrote p a b) = { s with mid := none } := rfl
    rw [hs']
    have htail : ∀ a c b, d.net.toServer ++ [p] = a ++ .connect c :: b → b.filterMap srvId = [] := by
      intro a c b he
      obtain ⟨b', h1, rfl⟩ := snoc_connect hp he
      rw [List.filterMap_append, h.link.tail a c b' h1]
      cases hi : srvId p with
      | none => simp [hi]
      | some i =>
        have hr : s.running = true := by
          cases p <;> simp [srvId] at hi <;> exact hmay.1
        have := h.link.up (h.link.run hr)
        rw [h1] at this
        simp [isConnect] at this
    refine ⟨⟨fun hu => hany.trans (h.link.up hu), h.link.run, by simp, fun hx => h.link.quiet (hany ▸ hx), htail⟩, ⟨R, ?_, hb⟩,
      h.expected, h.firsts, h.gotBegun, h.wayBegun, h.outBegun⟩
    cases hi : srvId p with
    | none => exact (hx.le (List.Sublist.refl _) (.inr rfl) (List.Sublist.refl _) (fun hu => .inl hu) (fun _ hi => hi)).ts_snoc hi
    | some i => exact hx.reply hmay (by simp [hi])
  | read hw hc => exact h.reads hw (.inl rfl) rfl rfl
  | accepted hw hc => exact h.reads hw (.inr ⟨rfl, _, rfl, hc⟩) rfl rfl
  | refused hw hc => exact h.reads hw (.inl rfl) rfl rfl
  | started hu => exact h.calm (fun _ => hu) (.inl rfl) rfl rfl rfl rfl rfl id
  | connectFailed => exact h.calm (fun hr => by
      have hf : s.running = false := hf
      rw [show s.running = true from hr] at hf; cases hf) (.inl rfl) rfl rfl rfl rfl rfl (by simp)
  | connectPanicked => exact h.calm (fun hr => by
      have hf : s.running = false := hf
      rw [show s.running = true from hr] at hf; cases hf) (.inl rfl) rfl rfl rfl rfl rfl (by simp)
  | connected => exact h.calm h.link.run (.inl rfl) rfl rfl rfl rfl rfl id
  | delivered => exact h.calm h.link.run (.inr rfl) rfl rfl rfl rfl rfl id
  | ended => exact h.calm (by simp [Rcv.next]) (.inl rfl) rfl rfl rfl rfl rfl id
  | cancelled => exact h.calm (by simp [Rcv.next]) (.inl rfl) rfl rfl rfl rfl rfl id
  | user => exact h.calm h.link.run (.inl rfl) rfl rfl rfl rfl rfl id

/-- the invariant holds along every story whose client answers only what it reads -/
theorem Inv.story {keeps : Bool} {tr : List Obs} (h : Duplex.Story keeps tr d) : Rcv.start.Keeps tr → Inv (rcv tr) d := by
  induction h with
  | start => exact fun _ => Inv.start
  | @client tr d x w h hs ih =>
    intro hk
    rw [rcv_snoc]
    have := hk.right
    exact (ih hk.left).client hs this.1
  | server h hs ih => exact fun hk => (ih hk).server hs

/-- seen from the client's own requests this is the world of `Spec/EndToEnd.lean` -/
theorem story_world {keeps : Bool} {tr : List Obs} (h : Duplex.Story keeps tr d) : World.Story keeps tr d.net := by
  have hput : ∀ {tr : List Obs} {w : World} {p : Packet}, World.Story keeps tr w → isAnswer p = false → World.Story keeps tr (Duplex.put w p) := by
    intro tr w p hs hp
    rcases put_cases w p with ⟨-, h2⟩ | ⟨-, h2⟩
    · rw [h2]; exact hs
    · rw [h2]; exact hs.server (.sends hp)
  induction h with
  | start => exact .start
  | client _ hs ih => exact ih.client hs
  | server _ hs ih =>
    cases hs with
    | other _ _ hs => exact ih.server hs
    | accept h1 h2 h3 => exact ih.server (.accept h1 h2 h3)
    | refuse h1 h2 => exact ih.server (.refuse h1 h2)
    | sends ha => exact hput ih ha
    | begins => exact hput ih rfl
    | again => exact hput ih rfl
    | releasesAgain => exact hput ih rfl
    | pubAck hw => exact ih.server (.other hw rfl)
    | pubRec hw => exact hput (ih.server (.other hw rfl)) rfl
    | refused hw => exact ih.server (.other hw rfl)
    | pubComp hw => exact ih.server (.other hw rfl)
    | ignores hw hp hc =>
      refine ih.server (.other hw ?_)
      rename_i p _
      cases p <;> simp [isOurs, isConnect] at hp hc <;> rfl

/-- counting messages of one kind -/
theorem times_one (q : QoS) (m : Publish) (l : List Publish) : times m (ofQos q l) = if m.qos = q then times m l else 0 := by
  unfold times ofQos
  rw [List.filter_filter]
  split
  · rename_i hm
    congr 1
    apply List.filter_congr
    intro x _
    by_cases hx : x = m <;> simp [hx, hm]
  · rename_i hm
    rw [List.length_eq_zero_iff, List.filter_eq_nil_iff]
    intro x _
    by_cases hx : x = m <;> simp [hx, hm]

theorem times_map_one (q : QoS) (m : Publish) (l : List Publish) :
    times m ((ofQos q l).map message) = if m.qos = q then times m (l.map message) else 0 := by
  rw [← times_one]
  congr 1
  unfold ofQos
  rw [List.filter_map]
  rfl

end Mqrstt.Inb
