import Verif.Spec.EndToEnd
import Verif.Proof.Sender
/-! # The world stays consistent -/

namespace Mqrstt
open Spec Spec.World

/-! ## what is under way for an identifier -/

/-- sent to the server about message `i` of the client -/
def toSrv (i : UInt16) : Packet → Bool
  | .publish p => p.qos ≠ .atMostOnce ∧ p.pkid = some i
  | .pubRel a => a.id = i
  | _ => false

/-- sent to the client about message `i` of the client -/
def toCli (i : UInt16) : Packet → Bool
  | .pubAck a => a.id = i
  | .pubRec a => a.id = i
  | .pubComp a => a.id = i
  | _ => false

def tok (a b : List Packet) (i : UInt16) : List Packet := a.filter (toSrv i) ++ b.filter (toCli i)

/-- how often a message occurs -/
noncomputable def times (p : Publish) (l : List Publish) : Nat := (l.filter fun q => @decide (q = p) (Classical.propDecidable _)).length

theorem times_append (p : Publish) (a b : List Publish) : times p (a ++ b) = times p a + times p b := by simp [times]
theorem times_self (p : Publish) : times p [p] = 1 := by simp [times]
theorem times_other {p q : Publish} (h : q ≠ p) : times p [q] = 0 := by simp [times, h]

/-- handed on more often than acknowledged -/
def Surplus (acked handed : List Publish) (p : Publish) : Prop := times p acked < times p handed

theorem Surplus.handed {acked handed : List Publish} {p : Publish} (h : Surplus acked handed p) (more : List Publish) :
    Surplus acked (handed ++ more) p := by
  unfold Surplus at *
  rw [times_append]; omega

/-- where message `i` is; `S`: it has been handed on and this has not been acknowledged -/
inductive Phase (us : List Publish) (acc held : List UInt16) (S : Publish → Prop) (i : UInt16) (t : List Packet) : Prop where
  | idle (h1 : ∀ p ∈ us, p.pkid ≠ some i) (h2 : i ∉ acc) (h3 : i ∉ held) (ht : t = [])
  | one (p : Publish) (hp : p ∈ us) (hid : p.pkid = some i) (hq : p.qos = .atLeastOnce) (h2 : i ∉ acc) (h3 : i ∉ held)
      (ht : t = [] ∨ (∃ q, t = [.publish q] ∧ message q = p) ∨ ∃ a, t = [.pubAck a] ∧ (Ledger.accepts a = true → S p))
  | two (p : Publish) (hp : p ∈ us) (hid : p.pkid = some i) (hq : p.qos = .exactlyOnce) (h2 : i ∉ acc)
      (ht : t = [] ∨ (∃ q, t = [.publish q] ∧ message q = p) ∨ ∃ a, t = [.pubRec a] ∧ (Ledger.accepts a = true ↔ i ∈ held))
  | rel (h1 : ∀ p ∈ us, p.pkid ≠ some i) (h2 : i ∈ acc)
      (ht : t = [] ∨ (∃ a, t = [.pubRel a]) ∨ ∃ a, t = [.pubComp a] ∧ i ∉ held)

theorem Phase.frame {us us' : List Publish} {acc acc' held held' : List UInt16} {S S' : Publish → Prop} {i : UInt16}
    {t t' : List Packet} (h : Phase us acc held S i t)
    (hu : ∀ p : Publish, p.pkid = some i → (p ∈ us' ↔ p ∈ us)) (ha : i ∈ acc' ↔ i ∈ acc) (hh : i ∈ held' ↔ i ∈ held)
    (hd : ∀ p : Publish, p.pkid = some i → S p → S' p) (ht : t' = t ∨ t' = []) : Phase us' acc' held' S' i t' := by
  have hno : (∀ p ∈ us, p.pkid ≠ some i) → ∀ p ∈ us', p.pkid ≠ some i :=
    fun h p hp he => h p ((hu p he).mp hp) he
  cases h with
  | idle h1 h2 h3 h4 =>
    refine .idle (hno h1) (by rwa [ha]) (by rwa [hh]) ?_
    rcases ht with rfl | rfl
    · exact h4
    · rfl
  | one p hp hid hq h2 h3 h4 =>
    refine .one p ((hu p hid).mpr hp) hid hq (by rwa [ha]) (by rwa [hh]) ?_
    rcases ht with rfl | rfl
    · rcases h4 with h | h | ⟨a, h, hx⟩
      · exact .inl h
      · exact .inr (.inl h)
      · exact .inr (.inr ⟨a, h, fun y => hd _ hid (hx y)⟩)
    · exact .inl rfl
  | two p hp hid hq h2 h4 =>
    refine .two p ((hu p hid).mpr hp) hid hq (by rwa [ha]) ?_
    rcases ht with rfl | rfl
    · rcases h4 with h | h | ⟨a, h, hx⟩
      · exact .inl h
      · exact .inr (.inl h)
      · exact .inr (.inr ⟨a, h, by rw [hx, hh]⟩)
    · exact .inl rfl
  | rel h1 h2 h4 =>
    refine .rel (hno h1) (by rwa [ha]) ?_
    rcases ht with rfl | rfl
    · rcases h4 with h | h | ⟨a, h, hx⟩
      · exact .inl h
      · exact .inr (.inl h)
      · exact .inr (.inr ⟨a, h, by rwa [hh]⟩)
    · exact .inl rfl

theorem Phase.length {us : List Publish} {acc held : List UInt16} {S : Publish → Prop} {i : UInt16} {t : List Packet}
    (h : Phase us acc held S i t) : t.length ≤ 1 := by
  cases h <;> rename_i ht
  · simp [ht]
  · rcases ht with h | ⟨q, h, -⟩ | ⟨a, h, -⟩ <;> simp [h]
  · rcases ht with h | ⟨q, h, -⟩ | ⟨a, h, -⟩ <;> simp [h]
  · rcases ht with h | ⟨q, h⟩ | ⟨a, h, -⟩ <;> simp [h]

theorem sub_one {α : Type} {a b : List α} (h : a.Sublist b) (hb : b.length ≤ 1) : a = b ∨ a = [] := by
  rcases Nat.lt_or_ge a.length b.length with hlt | hge
  · right
    exact List.length_eq_zero_iff.mp (by omega)
  · left
    exact h.eq_of_length_le hge

/-! ## bookkeeping -/

/-- QoS 2 messages not acknowledged and not handed on -/
def missing (us : List Publish) (held : List UInt16) : List Publish :=
  us.filter fun p => p.qos = .exactlyOnce ∧ ∀ i ∈ held, p.pkid ≠ some i

structure Books (tr : List Obs) (s : Sender) (handed : List Publish) (u : List Publish) : Prop where
  two : ∃ d, d.Sublist (ofQos .exactlyOnce s.discarded) ∧
    (ofQos .exactlyOnce (sentIn tr)).Perm (ofQos .exactlyOnce handed ++ u ++ ofQos .exactlyOnce s.refused ++ d)
  one : (ofQos .atLeastOnce (sentIn tr)).Perm (ofQos .atLeastOnce s.acked ++ ofQos .atLeastOnce s.unacked ++
    ofQos .atLeastOnce s.refused ++ ofQos .atLeastOnce s.discarded)
  acked : ∀ p, times p s.acked ≤ times p handed

/-- what the sender remembers makes sense -/
structure Sane (s : Sender) : Prop where
  ids : (s.unacked.map (·.pkid)).Nodup
  pub : ∀ p ∈ s.unacked, p.dup = false ∧ p.qos ≠ .atMostOnce ∧ p.pkid ≠ none
  acc : s.accepted.Nodup
  rels : s.rels.Nodup

def isOk : Packet → Bool
  | .connAck c => c.reason = .success
  | _ => false

/-- nothing is going on but connecting -/
structure Quiet (s : Sender) (w : World) : Prop where
  running : s.running = false
  up : w.up = false
  again : s.again = []
  rels : s.rels = []
  cli : ∀ i, w.toClient.filter (toCli i) = []

/-- client and server agree -/
structure Synced (resets : Bool) (tr : List Obs) (s : Sender) (w : World) : Prop where
  books : Books tr s w.handed (missing s.unacked w.held)
  phase : ∀ i, Phase s.unacked s.accepted w.held (Surplus s.acked w.handed) i (tok w.toServer w.toClient i)
  again : ∀ q ∈ s.again, q ∈ s.unacked ∧ ∀ i, q.pkid = some i → tok w.toServer w.toClient i = []
  againIds : (s.again.map (·.pkid)).Nodup
  rels : ∀ i ∈ s.rels, i ∈ s.accepted ∧ tok w.toServer w.toClient i = []
  connect : ∀ a c b, w.toServer = a ++ .connect c :: b →
    Quiet s w ∧ w.toClient.filter isOk = [] ∧ ∀ i, b.filter (toSrv i) = []
  ok : w.toClient.filter isOk = [] ∨
    (Quiet s w ∧ w.toServer.any isConnect = false ∧ w.session = true ∧ (∀ i, w.toServer.filter (toSrv i) = []) ∧ resets = false ∧
      ∃ c, w.toClient.filter isOk = [.connAck c] ∧ (c.sessionPresent = true ∨ (s.unacked = [] ∧ s.accepted = [])))
  session : w.session = false → s.running = false ∧ w.up = false ∧ s.unacked = [] ∧ s.accepted = []

/-- the server has started a new session and the client does not know -/
structure Unsynced (resets : Bool) (tr : List Obs) (s : Sender) (w : World) : Prop where
  books : ∃ u, u.Sublist (ofQos .exactlyOnce s.unacked) ∧ Books tr s w.handed u
  quiet : Quiet s w
  held : w.held = []
  session : w.session = true
  resets : resets = true
  srv : ∀ i, w.toServer.filter (toSrv i) = []
  ok : w.toClient.filter isOk = [] ∨
    (w.toServer.any isConnect = false ∧ ∃ c, w.toClient.filter isOk = [.connAck c] ∧ c.sessionPresent = false)

structure Consistent (clean keeps : Bool) (tr : List Obs) (s : Sender) (w : World) : Prop where
  sane : Sane s
  starts : ∀ c, .connect c ∈ w.toServer → c.cleanStart = clean
  state : Synced (clean || !keeps) tr s w ∨ Unsynced (clean || !keeps) tr s w

/-! ## lemmas about queues -/

theorem tok_cons_other {p : Packet} {i : UInt16} (h : toSrv i p = false) (a b : List Packet) : tok (p :: a) b i = tok a b i := by
  simp [tok, h]

theorem tok_cons_for {p : Packet} {i : UInt16} (h : toSrv i p = true) (a b : List Packet) : tok (p :: a) b i = p :: tok a b i := by
  simp [tok, h]

theorem tok_snoc_cli (r : Packet) (i : UInt16) (a b : List Packet) :
    tok a (b ++ [r]) i = tok a b i ++ if toCli i r then [r] else [] := by
  simp only [tok, List.filter_append, List.append_assoc]
  cases h : toCli i r <;> simp [h]

theorem tok_nil {a b : List Packet} {i : UInt16} (h1 : a.filter (toSrv i) = []) (h2 : b.filter (toCli i) = []) : tok a b i = [] := by
  simp [tok, h1, h2]

theorem tok_sublist {a a' b b' : List Packet} {i : UInt16} (h1 : a'.Sublist a) (h2 : b'.Sublist b) :
    (tok a' b' i).Sublist (tok a b i) :=
  (h1.filter _).append (h2.filter _)

theorem any_connect {l : List Packet} : l.any isConnect = true ↔ ∃ a c b, l = a ++ .connect c :: b := by
  constructor
  · intro h
    rw [List.any_eq_true] at h
    obtain ⟨p, hp, hc⟩ := h
    obtain ⟨a, b, rfl⟩ := List.append_of_mem hp
    cases p <;> simp [isConnect] at hc
    exact ⟨a, _, b, rfl⟩
  · rintro ⟨a, c, b, rfl⟩
    simp [isConnect]

theorem missing_congr {us : List Publish} {held held' : List UInt16} (h : ∀ p ∈ us, ∀ i, p.pkid = some i → (i ∈ held' ↔ i ∈ held)) :
    missing us held' = missing us held := by
  unfold missing
  apply List.filter_congr
  intro p hp
  congr 1
  apply propext
  constructor
  · rintro ⟨h1, h2⟩
    exact ⟨h1, fun i hi he => h2 i ((h p hp i he).mpr hi) he⟩
  · rintro ⟨h1, h2⟩
    exact ⟨h1, fun i hi he => h2 i ((h p hp i he).mp hi) he⟩

theorem missing_sublist (us : List Publish) (held : List UInt16) : (missing us held).Sublist (ofQos .exactlyOnce us) := by
  have : missing us held = (ofQos .exactlyOnce us).filter fun p => ∀ i ∈ held, p.pkid ≠ some i := by
    unfold missing ofQos
    rw [List.filter_filter]
    apply List.filter_congr
    intro p _
    simp [Bool.and_comm]
  rw [this]
  exact List.filter_sublist

theorem perm_pick {p : Publish} : ∀ {l : List Publish}, (l.map (·.pkid)).Nodup → p ∈ l →
    l.Perm (p :: l.filter fun q => q.pkid ≠ p.pkid)
  | q :: l, hn, hp => by
    rw [List.map_cons, List.nodup_cons] at hn
    rcases List.mem_cons.mp hp with rfl | hp
    · have : (p :: l).filter (fun q => q.pkid ≠ p.pkid) = l := by
        rw [List.filter_cons_of_neg (by simp), List.filter_eq_self]
        intro q hq
        simp only [ne_eq, decide_not, Bool.not_eq_eq_eq_not, Bool.not_true, decide_eq_false_iff_not]
        intro he
        exact hn.1 (he ▸ List.mem_map_of_mem hq)
      rw [this]
    · have hne : q.pkid ≠ p.pkid := fun he => hn.1 (he ▸ List.mem_map_of_mem hp)
      rw [List.filter_cons_of_pos (by simp [hne])]
      exact ((perm_pick hn.2 hp).cons q).trans (List.Perm.swap _ _ _)

theorem missing_take {us : List Publish} {held : List UInt16} {p : Publish} {i : UInt16} (hn : (us.map (·.pkid)).Nodup) (hp : p ∈ us)
    (hi : p.pkid = some i) (hq : p.qos = .exactlyOnce) (hh : i ∉ held) :
    (missing us held).Perm (p :: missing us (held ++ [i])) := by
  have hm : p ∈ missing us held := by
    simp only [missing, List.mem_filter, decide_eq_true_eq]
    refine ⟨hp, hq, fun j hj he => hh ?_⟩
    rw [hi] at he
    cases he
    exact hj
  have hn' : ((missing us held).map (·.pkid)).Nodup := by
    have : (missing us held).Sublist us := List.filter_sublist
    exact (this.map _).nodup hn
  have := perm_pick hn' hm
  have e : (missing us held).filter (fun q => q.pkid ≠ p.pkid) = missing us (held ++ [i]) := by
    unfold missing
    rw [List.filter_filter]
    apply List.filter_congr
    intro q _
    rw [hi]
    simp only [← Bool.decide_and]
    congr 1
    apply propext
    constructor
    · rintro ⟨h1, h2, h3⟩
      refine ⟨h2, fun j hj => ?_⟩
      rcases List.mem_append.mp hj with hj | hj
      · exact h3 j hj
      · rw [List.mem_singleton.mp hj]; exact h1
    · rintro ⟨h1, h2⟩
      exact ⟨h2 i (by simp), h1, fun j hj => h2 j (by simp [hj])⟩
  rwa [e] at this

theorem ofQos_append (q : QoS) (a b : List Publish) : ofQos q (a ++ b) = ofQos q a ++ ofQos q b := by simp [ofQos]

/-! ## steps of the server -/

section server
variable {resets : Bool} {tr : List Obs} {s : Sender} {w : World}

theorem Quiet.answer (h : Quiet s w) {rest : List Packet} {r : Packet} (hr : ∀ i, toCli i r = false) : Quiet s (w.answer rest r) := by
  refine ⟨h.running, h.up, h.again, h.rels, fun i => ?_⟩
  simp only [World.answer]
  split
  · exact h.cli i
  · simp [h.cli i, hr i]

theorem Synced.serve (h : Synced resets tr s w) {p r : Packet} {rest : List Packet} {i : UInt16} (hw : w.toServer = p :: rest)
    (hp : ∀ j, toSrv j p = true ↔ j = i) (hr : ∀ j, toCli j r = true ↔ j = i) (hok : isOk r = false)
    {held' : List UInt16} {handed' : List Publish} (hh : ∀ j, j ≠ i → (j ∈ held' ↔ j ∈ w.held)) (hd : ∃ more, handed' = w.handed ++ more)
    (hph : tok w.toServer w.toClient i = [p] → Phase s.unacked s.accepted held' (Surplus s.acked handed') i [] ∧ Phase s.unacked s.accepted held' (Surplus s.acked handed') i [r])
    (hb : tok w.toServer w.toClient i = [p] → Books tr s handed' (missing s.unacked held')) :
    Synced resets tr s { w.answer rest r with held := held', handed := handed' } := by
  have hpi : toSrv i p = true := (hp i).mpr rfl
  have htok : tok w.toServer w.toClient i = [p] := by
    have h1 := (h.phase i).length
    rw [hw, tok_cons_for hpi] at h1 ⊢
    simp only [List.length_cons] at h1
    rw [List.length_eq_zero_iff.mp (by omega : (tok rest w.toClient i).length = 0)]
  have hrest : tok rest w.toClient i = [] := by
    rw [hw, tok_cons_for hpi] at htok
    simpa using htok
  have hpj : ∀ j, j ≠ i → toSrv j p = false := fun j hj => by
    rw [Bool.eq_false_iff]; exact fun x => hj ((hp j).mp x)
  have hrj : ∀ j, j ≠ i → toCli j r = false := fun j hj => by
    rw [Bool.eq_false_iff]; exact fun x => hj ((hr j).mp x)
  have hsame : ∀ j, j ≠ i → tok rest (if rest.any isConnect = true then w.toClient else w.toClient ++ [r]) j =
      tok w.toServer w.toClient j := by
    intro j hj
    rw [hw, tok_cons_other (hpj j hj)]
    split
    · rfl
    · rw [tok_snoc_cli, hrj j hj]; simp
  refine ⟨hb htok, ?_, ?_, h.againIds, ?_, ?_, ?_, h.session⟩
  · intro j
    show Phase _ _ _ _ _ (tok rest (if rest.any isConnect = true then w.toClient else w.toClient ++ [r]) j)
    rcases Decidable.em (j = i) with rfl | hj
    · split
      · rw [hrest]; exact (hph htok).1
      · rw [tok_snoc_cli, hrest, (hr j).mpr rfl]; exact (hph htok).2
    · rw [hsame j hj]
      exact (h.phase j).frame (fun _ _ => .rfl) .rfl (hh j hj) (by
          obtain ⟨more, rfl⟩ := hd
          exact fun _ _ h => h.handed more) (.inl rfl)
  · intro q hq
    refine ⟨(h.again q hq).1, fun j hj => ?_⟩
    have := (h.again q hq).2 j hj
    have hji : j ≠ i := by rintro rfl; rw [htok] at this; simp at this
    exact (hsame j hji).trans this
  · intro j hj
    refine ⟨(h.rels j hj).1, ?_⟩
    have := (h.rels j hj).2
    have hji : j ≠ i := by rintro rfl; rw [htok] at this; simp at this
    exact (hsame j hji).trans this
  · intro a c b hab
    have hab' : rest = a ++ .connect c :: b := hab
    obtain ⟨h1, h2, h3⟩ := h.connect (p :: a) c b (by rw [hw, hab']; rfl)
    have hany : rest.any isConnect = true := any_connect.mpr ⟨a, c, b, hab'⟩
    have hcl : (w.answer rest r).toClient = w.toClient := by simp [World.answer, hany]
    refine ⟨⟨h1.running, h1.up, h1.again, h1.rels, fun i => ?_⟩, ?_, h3⟩
    · show (w.answer rest r).toClient.filter _ = []
      rw [hcl]; exact h1.cli i
    · show (w.answer rest r).toClient.filter _ = []
      rw [hcl]; exact h2
  · left
    rcases h.ok with h1 | ⟨-, -, -, h1, -⟩
    · show (w.answer rest r).toClient.filter _ = []
      simp only [World.answer]
      split
      · exact h1
      · simp [h1, hok]
    · have := h1 i
      rw [hw] at this
      simp [hpi] at this

theorem message_eq {q p : Publish} (h : message q = p) : q.qos = p.qos ∧ q.pkid = p.pkid := by
  subst h; exact ⟨rfl, rfl⟩

theorem Books.same_handed {handed : List Publish} {u u' : List Publish} (h : Books tr s handed u) (hu : u' = u) : Books tr s handed u' :=
  hu ▸ h

theorem publish_for {p : Publish} {i : UInt16} (hq : p.qos ≠ .atMostOnce) (hi : p.pkid = some i) (j : UInt16) :
    toSrv j (.publish p) = true ↔ j = i := by
  simp [toSrv, hq, hi, eq_comm]

/-- the message that is being served -/
theorem Synced.served (h : Synced resets tr s w) {p : Publish} {i : UInt16} (ht : tok w.toServer w.toClient i = [.publish p]) :
    message p ∈ s.unacked ∧ i ∉ s.accepted ∧ (message p).pkid = some i ∧
      ((p.qos = .atLeastOnce ∧ i ∉ w.held) ∨ p.qos = .exactlyOnce) := by
  have hph := h.phase i
  rw [ht] at hph
  cases hph with
  | idle _ _ _ h4 => simp at h4
  | one p' hp hid hq h2 h3 h4 =>
    rcases h4 with h4 | ⟨q, h4, h5⟩ | ⟨a, h4, -⟩ <;> simp at h4
    subst h4
    rw [h5]
    exact ⟨hp, h2, hid, .inl ⟨(message_eq h5).1.trans hq, h3⟩⟩
  | two p' hp hid hq h2 h4 =>
    rcases h4 with h4 | ⟨q, h4, h5⟩ | ⟨a, h4, -⟩ <;> simp at h4
    subst h4
    rw [h5]
    exact ⟨hp, h2, hid, .inr ((message_eq h5).1.trans hq)⟩
  | rel h1 h2 h4 => rcases h4 with h4 | ⟨q, h4⟩ | ⟨a, h4, -⟩ <;> simp at h4

theorem Synced.server (h : Synced resets tr s w) (hs : Sane s) {keeps clean : Bool} (hr : resets = (clean || !keeps))
    (hc : ∀ c, .connect c ∈ w.toServer → c.cleanStart = clean) {w' : World} (hw : Server keeps w w') :
    Synced resets tr s w' ∨ Unsynced resets tr s w' := by
  cases hw with
  | qos1 hw hq hi =>
    rename_i p rest a
    left
    have hq0 : p.qos ≠ .atMostOnce := by simp [hq]
    refine h.serve (held' := w.held) hw (publish_for hq0 hi) (fun j => by simp [toCli, eq_comm]) rfl (fun _ _ => .rfl) ?_ ?_ ?_
    · split
      · exact ⟨_, rfl⟩
      · exact ⟨[], by simp⟩
    · intro ht
      obtain ⟨h1, h2, h3, h4⟩ := h.served ht
      have hheld : a.id ∉ w.held := by
        rcases h4 with h4 | h4
        · exact h4.2
        · rw [hq] at h4; simp at h4
      refine ⟨.one (message p) h1 h3 hq h2 hheld (.inl rfl), .one (message p) h1 h3 hq h2 hheld (.inr (.inr ⟨a, rfl, ?_⟩))⟩
      intro ha
      rw [if_pos ha]
      have := h.books.acked (message p)
      unfold Surplus
      rw [times_append, times_self]
      omega
    · intro ht
      obtain ⟨h1, h2, h3, h4⟩ := h.served ht
      refine ⟨?_, h.books.one, ?_⟩
      · obtain ⟨d, hd, hp⟩ := h.books.two
        refine ⟨d, hd, ?_⟩
        split
        · have hm : (message p).qos ≠ .exactlyOnce := by simp [message, hq]
          rw [ofQos_append]
          simpa [ofQos, hm] using hp
        · exact hp
      · intro q
        have := h.books.acked q
        split
        · rw [times_append]; omega
        · exact this
  | qos2 hw hq hi hn =>
    rename_i p rest a
    left
    have hq0 : p.qos ≠ .atMostOnce := by simp [hq]
    refine h.serve hw (publish_for hq0 hi) (fun j => by simp [toCli, eq_comm]) rfl ?_ ?_ ?_ ?_
    · intro j hj
      split
      · simp [hj]
      · rfl
    · split
      · exact ⟨_, rfl⟩
      · exact ⟨[], by simp⟩
    · intro ht
      obtain ⟨h1, h2, h3, h4⟩ := h.served ht
      refine ⟨.two (message p) h1 h3 hq h2 (.inl rfl), .two (message p) h1 h3 hq h2 (.inr (.inr ⟨a, rfl, ?_⟩))⟩
      cases ha : Ledger.accepts a <;> simp [hn]
    · intro ht
      obtain ⟨h1, h2, h3, h4⟩ := h.served ht
      cases ha : Ledger.accepts a with
      | false => simpa using h.books
      | true =>
        simp only [if_true]
        refine ⟨?_, h.books.one, fun q => by rw [times_append]; have := h.books.acked q; omega⟩
        obtain ⟨d, hd, hp⟩ := h.books.two
        refine ⟨d, hd, hp.trans ?_⟩
        have hm : ofQos .exactlyOnce [message p] = [message p] := by simp [ofQos, message, hq]
        rw [ofQos_append, hm]
        have := missing_take hs.ids h1 h3 hq hn
        refine List.Perm.append_right _ (List.Perm.append_right _ ?_)
        rw [List.append_assoc]
        exact List.Perm.append_left _ this
  | qos2again hw hq hi hn ha =>
    rename_i p rest a
    left
    have hq0 : p.qos ≠ .atMostOnce := by simp [hq]
    refine h.serve (held' := w.held) (handed' := w.handed) hw (publish_for hq0 hi) (fun j => by simp [toCli, eq_comm]) rfl
      (fun _ _ => .rfl) ⟨[], by simp⟩ ?_ (fun _ => h.books)
    intro ht
    obtain ⟨h1, h2, h3, h4⟩ := h.served ht
    refine ⟨.two (message p) h1 h3 hq h2 (.inl rfl), .two (message p) h1 h3 hq h2 (.inr (.inr ⟨a, rfl, ?_⟩))⟩
    simp [ha, hn]
  | pubRel hw ha =>
    rename_i r a rest
    left
    refine h.serve (handed' := w.handed) (i := r.id) hw (fun j => by simp [toSrv, eq_comm]) (fun j => by simp [toCli, ha, eq_comm]) rfl ?_
      ⟨[], by simp⟩ ?_ ?_
    · intro j hj; simp [hj]
    · intro ht
      have hph := h.phase r.id
      rw [ht] at hph
      cases hph with
      | idle _ _ _ h4 => simp at h4
      | one p' hp hid hq h2 h3 h4 => rcases h4 with h4 | ⟨q, h4, h5⟩ | ⟨a, h4, -⟩ <;> simp at h4
      | two p' hp hid hq h2 h4 => rcases h4 with h4 | ⟨q, h4, h5⟩ | ⟨a, h4, -⟩ <;> simp at h4
      | rel h1 h2 h4 => exact ⟨.rel h1 h2 (.inl rfl), .rel h1 h2 (.inr (.inr ⟨a, rfl, by simp⟩))⟩
    · intro ht
      have hph := h.phase r.id
      rw [ht] at hph
      refine h.books.same_handed (missing_congr ?_)
      intro p hp j hj
      have : j ≠ r.id := by
        rintro rfl
        cases hph with
        | idle _ _ _ h4 => simp at h4
        | one p' hp hid hq h2 h3 h4 => rcases h4 with h4 | ⟨q, h4, h5⟩ | ⟨a, h4, -⟩ <;> simp at h4
        | two p' hp hid hq h2 h4 => rcases h4 with h4 | ⟨q, h4, h5⟩ | ⟨a, h4, -⟩ <;> simp at h4
        | rel h1 h2 h4 => exact h1 p hp hj
      simp [this]
  | other hw hp =>
    rename_i p rest
    left
    have hsrv : ∀ i, toSrv i p = false := by
      intro i; cases p <;> simp_all [isAsking, toSrv]
    have hcon : isConnect p = false := by cases p <;> simp_all [isAsking, isConnect]
    have ht : ∀ i, tok rest w.toClient i = tok w.toServer w.toClient i := fun i => by rw [hw, tok_cons_other (hsrv i)]
    refine ⟨h.books, fun i => by rw [ht]; exact h.phase i, fun q hq => ⟨(h.again q hq).1, fun i hi => by rw [ht]; exact (h.again q hq).2 i hi⟩,
      h.againIds, fun i hi => ⟨(h.rels i hi).1, by rw [ht]; exact (h.rels i hi).2⟩, ?_, ?_, h.session⟩
    · intro a c b hab
      have hab' : rest = a ++ .connect c :: b := hab
      obtain ⟨h1, h2, h3⟩ := h.connect (p :: a) c b (by rw [hw, hab']; rfl)
      exact ⟨⟨h1.running, h1.up, h1.again, h1.rels, h1.cli⟩, h2, h3⟩
    · rcases h.ok with h1 | ⟨h1, h2, h3, h4, h5⟩
      · exact .inl h1
      · rw [hw] at h2 h4
        simp only [List.any_cons, hcon, Bool.false_or] at h2
        exact .inr ⟨⟨h1.running, h1.up, h1.again, h1.rels, h1.cli⟩, h2, h3, fun i => by simpa [hsrv i] using h4 i, h5⟩
  | sends hp =>
    rename_i p
    left
    have hcli : ∀ i, toCli i p = false := by
      intro i; cases p <;> simp_all [isAnswer, toCli]
    have hok : isOk p = false := by cases p <;> simp_all [isAnswer, isOk]
    have ht : ∀ i, tok w.toServer (w.toClient ++ [p]) i = tok w.toServer w.toClient i := fun i => by
      rw [tok_snoc_cli, hcli]; simp
    have hq : Quiet s w → Quiet s { w with toClient := w.toClient ++ [p] } := fun h =>
      ⟨h.running, h.up, h.again, h.rels, fun i => by simp [h.cli i, hcli i]⟩
    refine ⟨h.books, fun i => by rw [ht]; exact h.phase i, fun q hq => ⟨(h.again q hq).1, fun i hi => by rw [ht]; exact (h.again q hq).2 i hi⟩,
      h.againIds, fun i hi => ⟨(h.rels i hi).1, by rw [ht]; exact (h.rels i hi).2⟩, ?_, ?_, h.session⟩
    · intro a c b hab
      obtain ⟨h1, h2, h3⟩ := h.connect a c b hab
      exact ⟨hq h1, by simp [h2, hok], h3⟩
    · rcases h.ok with h1 | ⟨h1, h2, h3, h4, h5, c, h6, h7⟩
      · exact .inl (by simp [h1, hok])
      · exact .inr ⟨hq h1, h2, h3, h4, h5, c, by simp [h6, hok], h7⟩
  | refuse hw ha =>
    rename_i c rest a
    left
    obtain ⟨h1, h2, h3⟩ := h.connect [] c rest hw
    have hq := h1.answer (rest := rest) (r := .connAck a) (fun i => rfl)
    have ht : ∀ i, tok rest (w.answer rest (.connAck a)).toClient i = [] := fun i => tok_nil (h3 i) (hq.cli i)
    have hok : (w.answer rest (.connAck a)).toClient.filter isOk = [] := by
      simp only [World.answer]
      split
      · exact h2
      · simp [h2, isOk, ha]
    refine ⟨h.books, fun i => (h.phase i).frame (fun _ _ => .rfl) .rfl .rfl (fun _ _ h => h) (.inr (ht i)), ?_, h.againIds, ?_, ?_, .inl hok, h.session⟩
    · rw [h1.again]; simp
    · rw [h1.rels]; simp
    · intro a' c' b hab
      have hab' : rest = a' ++ .connect c' :: b := hab
      obtain ⟨-, -, h3⟩ := h.connect (.connect c :: a') c' b (by rw [hw, hab']; rfl)
      exact ⟨hq, hok, h3⟩
  | accept hw ha hp =>
    rename_i c rest a
    obtain ⟨h1, h2, h3⟩ := h.connect [] c rest hw
    have hq := h1.answer (rest := rest) (r := .connAck a) (fun i => rfl)
    have hcl : c.cleanStart = clean := hc c (by rw [hw]; simp)
    have hoks : (rest.any isConnect = true ∧ (w.answer rest (.connAck a)).toClient.filter isOk = []) ∨
        (rest.any isConnect = false ∧ (w.answer rest (.connAck a)).toClient.filter isOk = [.connAck a]) := by
      simp only [World.answer]
      cases hh : rest.any isConnect with
      | true => exact .inl ⟨rfl, by simpa using h2⟩
      | false => exact .inr ⟨rfl, by simp [h2, isOk, ha]⟩
    cases hres : resets with
    | true =>
      right
      have hsp : a.sessionPresent = false := by
        rw [hp, hcl]
        rw [hres] at hr
        revert hr
        cases keeps <;> cases clean <;> simp
      refine ⟨⟨_, missing_sublist _ _, h.books⟩, ⟨hq.running, hq.up, hq.again, hq.rels, hq.cli⟩, by simp [hsp], rfl, rfl, h3, ?_⟩
      rcases hoks with ⟨-, h⟩ | ⟨h, h'⟩
      · exact .inl h
      · exact .inr ⟨h, a, h', hsp⟩
    | false =>
      left
      have hsp : a.sessionPresent = w.session := by
        rw [hp, hcl]
        rw [hres] at hr
        revert hr
        cases keeps <;> cases clean <;> simp
      have ht : ∀ i, tok rest (w.answer rest (.connAck a)).toClient i = [] := fun i => tok_nil (h3 i) (hq.cli i)
      have hheld : ∀ i, (i ∈ (if a.sessionPresent = true then w.held else []) ↔ i ∈ w.held) := by
        intro i
        split
        · rfl
        · rename_i hh
          rw [hsp] at hh
          obtain ⟨-, -, hu, hacc⟩ := h.session (by simpa using hh)
          have := h.phase i
          rw [hu, hacc] at this
          cases this with
          | idle _ _ h3 _ => simp [h3]
          | one _ hp => simp at hp
          | two _ hp => simp at hp
          | rel _ h => simp at h
      refine ⟨h.books.same_handed (missing_congr fun _ _ i _ => hheld i),
        fun i => (h.phase i).frame (fun _ _ => .rfl) .rfl (hheld i) (fun _ _ h => h) (.inr (ht i)), ?_, h.againIds, ?_, ?_, ?_, by simp⟩
      · rw [h1.again]; simp
      · rw [h1.rels]; simp
      · intro a' c' b hab
        have hab' : rest = a' ++ .connect c' :: b := hab
        obtain ⟨-, -, h3⟩ := h.connect (.connect c :: a') c' b (by rw [hw, hab']; rfl)
        refine ⟨⟨hq.running, hq.up, hq.again, hq.rels, hq.cli⟩, ?_, h3⟩
        rcases hoks with ⟨-, h⟩ | ⟨h, h'⟩
        · exact h
        · rw [any_connect.mpr ⟨a', c', b, hab'⟩] at h; simp at h
      · rcases hoks with ⟨-, h⟩ | ⟨h5, h'⟩
        · exact .inl h
        · refine .inr ⟨⟨hq.running, hq.up, hq.again, hq.rels, hq.cli⟩, h5, rfl, h3, rfl, a, h', ?_⟩
          cases hh : w.session with
          | true => exact .inl (hsp.trans hh)
          | false =>
            obtain ⟨-, -, hu, hacc⟩ := h.session hh
            exact .inr ⟨hu, hacc⟩

theorem Unsynced.server (h : Unsynced resets tr s w) {keeps clean : Bool} (hr : resets = (clean || !keeps))
    (hc : ∀ c, .connect c ∈ w.toServer → c.cleanStart = clean) {w' : World} (hw : Server keeps w w') : Unsynced resets tr s w' := by
  have hno : ∀ {p rest i}, w.toServer = p :: rest → toSrv i p = true → False := by
    intro p rest i hw hp
    have := h.srv i
    rw [hw] at this
    simp [hp] at this
  cases hw with
  | qos1 hw hq hi => exact (hno hw ((publish_for (by simp [hq]) hi _).mpr rfl)).elim
  | qos2 hw hq hi hn => exact (hno hw ((publish_for (by simp [hq]) hi _).mpr rfl)).elim
  | qos2again hw hq hi hn ha => exact (hno hw ((publish_for (by simp [hq]) hi _).mpr rfl)).elim
  | pubRel hw ha => exact (hno hw (by simp [toSrv]; rfl)).elim
  | other hw hp =>
    rename_i p rest
    have hsrv : ∀ i, toSrv i p = false := by
      intro i; cases p <;> simp_all [isAsking, toSrv]
    have hcon : isConnect p = false := by cases p <;> simp_all [isAsking, isConnect]
    refine ⟨h.books, ⟨h.quiet.running, h.quiet.up, h.quiet.again, h.quiet.rels, h.quiet.cli⟩, h.held, h.session, h.resets, ?_, ?_⟩
    · intro i
      have := h.srv i
      rw [hw] at this
      simpa [hsrv i] using this
    · rcases h.ok with h1 | ⟨h1, h2⟩
      · exact .inl h1
      · rw [hw] at h1
        exact .inr ⟨by simpa [hcon] using h1, h2⟩
  | sends hp =>
    rename_i p
    have hcli : ∀ i, toCli i p = false := by
      intro i; cases p <;> simp_all [isAnswer, toCli]
    have hok : isOk p = false := by cases p <;> simp_all [isAnswer, isOk]
    refine ⟨h.books, ⟨h.quiet.running, h.quiet.up, h.quiet.again, h.quiet.rels, fun i => by simp [h.quiet.cli i, hcli i]⟩,
      h.held, h.session, h.resets, h.srv, ?_⟩
    rcases h.ok with h1 | ⟨h1, c, h2, h3⟩
    · exact .inl (by simp [h1, hok])
    · exact .inr ⟨h1, c, by simp [h2, hok], h3⟩
  | refuse hw ha =>
    rename_i c rest a
    have hq := h.quiet.answer (rest := rest) (r := .connAck a) (fun i => rfl)
    have h2 : w.toClient.filter isOk = [] := by
      rcases h.ok with h1 | ⟨h1, -⟩
      · exact h1
      · rw [hw] at h1; simp [isConnect] at h1
    refine ⟨h.books, hq, h.held, h.session, h.resets, ?_, .inl ?_⟩
    · intro i
      have := h.srv i
      rw [hw, List.filter_cons_of_neg (by simp [toSrv])] at this
      exact this
    · simp only [World.answer]
      split
      · exact h2
      · simp [h2, isOk, ha]
  | accept hw ha hp =>
    rename_i c rest a
    have hq := h.quiet.answer (rest := rest) (r := .connAck a) (fun i => rfl)
    have h2 : w.toClient.filter isOk = [] := by
      rcases h.ok with h1 | ⟨h1, -⟩
      · exact h1
      · rw [hw] at h1; simp [isConnect] at h1
    have hcl : c.cleanStart = clean := hc c (by rw [hw]; simp)
    have hsp : a.sessionPresent = false := by
      rw [hp, hcl]
      have hres := h.resets
      rw [hr] at hres
      revert hres
      cases keeps <;> cases clean <;> simp
    refine ⟨h.books, ⟨hq.running, hq.up, hq.again, hq.rels, hq.cli⟩, by simp [hsp], rfl, h.resets, ?_, ?_⟩
    · intro i
      have := h.srv i
      rw [hw, List.filter_cons_of_neg (by simp [toSrv])] at this
      exact this
    · simp only [World.answer]
      cases hh : rest.any isConnect with
      | true => exact .inl (by simpa using h2)
      | false => exact .inr ⟨rfl, a, by simp [h2, isOk, ha], hsp⟩

theorem server_connects {keeps : Bool} {w w' : World} (h : Server keeps w w') : ∀ p ∈ w'.toServer, p ∈ w.toServer := by
  cases h with
  | sends => exact fun _ h => h
  | accept hw _ _ => intro p hp; rw [hw]; exact List.mem_cons_of_mem _ hp
  | refuse hw _ => intro p hp; rw [hw]; exact List.mem_cons_of_mem _ hp
  | qos1 hw _ _ => intro p hp; rw [hw]; exact List.mem_cons_of_mem _ hp
  | qos2 hw _ _ _ => intro p hp; rw [hw]; exact List.mem_cons_of_mem _ hp
  | qos2again hw _ _ _ _ => intro p hp; rw [hw]; exact List.mem_cons_of_mem _ hp
  | pubRel hw _ => intro p hp; rw [hw]; exact List.mem_cons_of_mem _ hp
  | other hw _ => intro p hp; rw [hw]; exact List.mem_cons_of_mem _ hp

theorem Consistent.server {clean keeps : Bool} (h : Consistent clean keeps tr s w) {w' : World} (hw : Server keeps w w') :
    Consistent clean keeps tr s w' := by
  refine ⟨h.sane, fun c hc => h.starts c (server_connects hw _ hc), ?_⟩
  rcases h.state with h1 | h1
  · exact h1.server h.sane rfl h.starts hw
  · exact .inr (h1.server rfl h.starts hw)

end server

/-! ## steps of the client -/

section client
variable {resets : Bool} {tr tr' : List Obs} {s : Sender} {w : World}

theorem sentIn_append (a b : List Obs) : sentIn (a ++ b) = sentIn a ++ sentIn b := by simp [sentIn]

theorem Books.obs {handed u : List Publish} (h : Books tr s handed u) (he : sentIn tr' = sentIn tr) : Books tr' s handed u :=
  ⟨by rw [he]; exact h.two, by rw [he]; exact h.one, h.acked⟩

/-- the books do not depend on `running`, `again`, `rels` -/
theorem Books.sender {handed u : List Publish} {s' : Sender} (h : Books tr s handed u) (h1 : s'.unacked = s.unacked) (h2 : s'.acked = s.acked)
    (h3 : s'.refused = s.refused) (h4 : s'.discarded = s.discarded) : Books tr s' handed u :=
  ⟨by rw [h3, h4]; exact h.two, by rw [h1, h2, h3, h4]; exact h.one, by rw [h2]; exact h.acked⟩

theorem Synced.obs (h : Synced resets tr s w) (he : sentIn tr' = sentIn tr) : Synced resets tr' s w :=
  ⟨h.books.obs he, h.phase, h.again, h.againIds, h.rels, h.connect, h.ok, h.session⟩

theorem Unsynced.obs (h : Unsynced resets tr s w) (he : sentIn tr' = sentIn tr) : Unsynced resets tr' s w := by
  obtain ⟨u, h1, h2⟩ := h.books
  exact ⟨⟨u, h1, h2.obs he⟩, h.quiet, h.held, h.session, h.resets, h.srv, h.ok⟩

theorem Synced.started (h : Synced resets tr s w) (hu : w.up = true) : Synced resets tr { s with running := true, again := [], rels := [] } w := by
  refine ⟨h.books.sender rfl rfl rfl rfl, h.phase, by simp, by simp, by simp, ?_, ?_, ?_⟩
  · intro a c b hab
    have := (h.connect a c b hab).1.up
    rw [hu] at this; simp at this
  · rcases h.ok with h1 | ⟨h1, -⟩
    · exact .inl h1
    · rw [h1.up] at hu; simp at hu
  · intro hh
    have := (h.session hh).2.1
    rw [hu] at this; simp at this

theorem Synced.ended (h : Synced resets tr s w) : Synced resets tr { s with running := false } w := by
  have hq : Quiet s w → Quiet { s with running := false } w := fun h => ⟨rfl, h.up, h.again, h.rels, h.cli⟩
  refine ⟨h.books.sender rfl rfl rfl rfl, h.phase, h.again, h.againIds, h.rels, ?_, ?_, ?_⟩
  · intro a c b hab
    obtain ⟨h1, h2⟩ := h.connect a c b hab
    exact ⟨hq h1, h2⟩
  · rcases h.ok with h1 | ⟨h1, h2⟩
    · exact .inl h1
    · exact .inr ⟨hq h1, h2⟩
  · intro hh
    exact ⟨rfl, (h.session hh).2⟩

theorem Unsynced.ended (h : Unsynced resets tr s w) : Unsynced resets tr { s with running := false } w := by
  obtain ⟨u, h1, h2⟩ := h.books
  exact ⟨⟨u, h1, h2.sender rfl rfl rfl rfl⟩, ⟨rfl, h.quiet.up, h.quiet.again, h.quiet.rels, h.quiet.cli⟩,
    h.held, h.session, h.resets, h.srv, h.ok⟩

theorem Synced.down (h : Synced resets tr s w) : Synced resets tr s { w with up := false } := by
  have hq : Quiet s w → Quiet s { w with up := false } := fun h => ⟨h.running, rfl, h.again, h.rels, h.cli⟩
  refine ⟨h.books, h.phase, h.again, h.againIds, h.rels, ?_, ?_, ?_⟩
  · intro a c b hab
    obtain ⟨h1, h2⟩ := h.connect a c b hab
    exact ⟨hq h1, h2⟩
  · rcases h.ok with h1 | ⟨h1, h2⟩
    · exact .inl h1
    · exact .inr ⟨hq h1, h2⟩
  · intro hh
    obtain ⟨h1, -, h2⟩ := h.session hh
    exact ⟨h1, rfl, h2⟩

theorem Unsynced.down (h : Unsynced resets tr s w) : Unsynced resets tr s { w with up := false } :=
  ⟨h.books, ⟨h.quiet.running, rfl, h.quiet.again, h.quiet.rels, h.quiet.cli⟩, h.held, h.session, h.resets, h.srv, h.ok⟩

/-- packets are lost on the way to the client -/
theorem Synced.less (h : Synced resets tr s w) {b : List Packet} (hb : b.Sublist w.toClient) : Synced resets tr s { w with toClient := b } := by
  have hq : Quiet s w → Quiet s { w with toClient := b } := fun h =>
    ⟨h.running, h.up, h.again, h.rels, fun i => List.sublist_nil.mp (h.cli i ▸ hb.filter _)⟩
  have htok : ∀ i, tok w.toServer b i = tok w.toServer w.toClient i ∨ tok w.toServer b i = [] :=
    fun i => sub_one (tok_sublist (List.Sublist.refl _) hb) (h.phase i).length
  have hnil : ∀ i, tok w.toServer w.toClient i = [] → tok w.toServer b i = [] := fun i hi => by
    rcases htok i with h | h
    · rw [h, hi]
    · exact h
  refine ⟨h.books, fun i => (h.phase i).frame (fun _ _ => .rfl) .rfl .rfl (fun _ _ h => h) (htok i),
    fun q hq => ⟨(h.again q hq).1, fun i hi => hnil i ((h.again q hq).2 i hi)⟩, h.againIds,
    fun i hi => ⟨(h.rels i hi).1, hnil i (h.rels i hi).2⟩, ?_, ?_, h.session⟩
  · intro a c b' hab
    obtain ⟨h1, h2, h3⟩ := h.connect a c b' hab
    exact ⟨hq h1, List.sublist_nil.mp (h2 ▸ hb.filter _), h3⟩
  · rcases h.ok with h1 | ⟨h1, h2, h3, h4, h5, c, h6, h7⟩
    · exact .inl (List.sublist_nil.mp (h1 ▸ hb.filter _))
    · rcases sub_one (hb.filter isOk) (by rw [h6]; simp) with h8 | h8
      · exact .inr ⟨hq h1, h2, h3, h4, h5, c, h8.trans h6, h7⟩
      · exact .inl h8

theorem Unsynced.less (h : Unsynced resets tr s w) {b : List Packet} (hb : b.Sublist w.toClient) : Unsynced resets tr s { w with toClient := b } := by
  refine ⟨h.books, ⟨h.quiet.running, h.quiet.up, h.quiet.again, h.quiet.rels, fun i => List.sublist_nil.mp (h.quiet.cli i ▸ hb.filter _)⟩,
    h.held, h.session, h.resets, h.srv, ?_⟩
  rcases h.ok with h1 | ⟨h1, c, h2, h3⟩
  · exact .inl (List.sublist_nil.mp (h1 ▸ hb.filter _))
  · rcases sub_one (hb.filter isOk) (by rw [h2]; simp) with h8 | h8
    · exact .inr ⟨h1, c, h8.trans h2, h3⟩
    · exact .inl h8

theorem connect_tail {ts : List Packet} {k : Nat} {c c' : Connect} {a b : List Packet}
    (h : ∀ a c b, ts = a ++ .connect c :: b → ∀ i, b.filter (toSrv i) = [])
    (e : ts.take k ++ [.connect c] = a ++ .connect c' :: b) (i : UInt16) : b.filter (toSrv i) = [] := by
  rcases List.append_eq_append_iff.mp e with ⟨x, h1, h2⟩ | ⟨x, h1, h2⟩
  · cases x with
    | nil =>
      simp only [List.nil_append, List.cons.injEq] at h2
      rw [← h2.2]; rfl
    | cons y ys => simp at h2
  · cases x with
    | nil =>
      simp only [List.nil_append, List.cons.injEq] at h2
      rw [h2.2]; rfl
    | cons y ys =>
      simp only [List.cons_append, List.cons.injEq] at h2
      obtain ⟨rfl, rfl⟩ := h2
      have := h a c' (ys ++ ts.drop k) (by
        conv => lhs; rw [← List.take_append_drop k ts, h1]
        simp) i
      rw [List.filter_append, List.append_eq_nil_iff] at this
      rw [List.filter_append, this.1]
      rfl

theorem Synced.connects (h : Synced resets tr s w) (hr : s.running = false) (c : Connect) (k : Nat) :
    Synced resets tr { s with again := [], rels := [] }
      { w with toServer := w.toServer.take k ++ [.connect c], toClient := [], up := false } := by
  have hsub : ∀ i, (tok (w.toServer.take k ++ [.connect c]) [] i).Sublist (tok w.toServer w.toClient i) := by
    intro i
    have : tok (w.toServer.take k ++ [.connect c]) [] i = tok (w.toServer.take k) [] i := by simp [tok, toSrv]
    rw [this]
    exact tok_sublist (List.take_sublist _ _) (List.nil_sublist _)
  have hq : Quiet { s with again := [], rels := [] } { w with toServer := w.toServer.take k ++ [.connect c], toClient := [], up := false } :=
    ⟨hr, rfl, rfl, rfl, fun _ => rfl⟩
  refine ⟨h.books.sender rfl rfl rfl rfl,
    fun i => (h.phase i).frame (fun _ _ => .rfl) .rfl .rfl (fun _ _ h => h) (sub_one (hsub i) (h.phase i).length),
    by simp, by simp, by simp, ?_, .inl rfl, ?_⟩
  · intro a c' b hab
    exact ⟨hq, rfl, fun i => connect_tail (fun a c b hab => (h.connect a c b hab).2.2) hab i⟩
  · intro hh
    obtain ⟨-, -, h2⟩ := h.session hh
    exact ⟨hr, rfl, h2⟩

theorem Unsynced.connects (h : Unsynced resets tr s w) (c : Connect) (k : Nat) :
    Unsynced resets tr { s with again := [], rels := [] }
      { w with toServer := w.toServer.take k ++ [.connect c], toClient := [], up := false } := by
  obtain ⟨u, h1, h2⟩ := h.books
  refine ⟨⟨u, h1, h2.sender rfl rfl rfl rfl⟩, ⟨h.quiet.running, rfl, rfl, rfl, fun _ => rfl⟩, h.held, h.session, h.resets, ?_, .inl rfl⟩
  intro i
  have := ((List.take_sublist k w.toServer).filter (toSrv i))
  rw [h.srv i, List.sublist_nil] at this
  simp [this, toSrv]

theorem snoc_connect {ts a b : List Packet} {c : Connect} {p : Packet} (hp : isConnect p = false)
    (e : ts ++ [p] = a ++ .connect c :: b) : ∃ b', ts = a ++ .connect c :: b' ∧ b = b' ++ [p] := by
  rcases List.append_eq_append_iff.mp e with ⟨x, h1, h2⟩ | ⟨x, h1, h2⟩
  · cases x with
    | nil =>
      simp only [List.nil_append, List.cons.injEq] at h2
      rw [h2.1] at hp; simp [isConnect] at hp
    | cons y ys => simp at h2
  · cases x with
    | nil =>
      simp only [List.nil_append, List.cons.injEq] at h2
      rw [← h2.1] at hp; simp [isConnect] at hp
    | cons y ys =>
      simp only [List.cons_append, List.cons.injEq] at h2
      obtain ⟨rfl, rfl⟩ := h2
      exact ⟨ys, h1, rfl⟩

/-- a packet that has nothing to do with the client's messages -/
theorem Synced.writes_other (h : Synced resets tr s w) {p : Packet} (hp : ∀ i, toSrv i p = false) (hc : isConnect p = false) :
    Synced resets tr s { w with toServer := w.toServer ++ [p] } := by
  have ht : ∀ i, tok (w.toServer ++ [p]) w.toClient i = tok w.toServer w.toClient i := fun i => by simp [tok, hp i]
  have hq : Quiet s w → Quiet s { w with toServer := w.toServer ++ [p] } := fun h => ⟨h.running, h.up, h.again, h.rels, h.cli⟩
  refine ⟨h.books, fun i => by rw [ht]; exact h.phase i, fun q hq => ⟨(h.again q hq).1, fun i hi => by rw [ht]; exact (h.again q hq).2 i hi⟩,
    h.againIds, fun i hi => ⟨(h.rels i hi).1, by rw [ht]; exact (h.rels i hi).2⟩, ?_, ?_, h.session⟩
  · intro a c b hab
    obtain ⟨b', h1, rfl⟩ := snoc_connect hc hab
    obtain ⟨h2, h3, h4⟩ := h.connect a c b' h1
    exact ⟨hq h2, h3, fun i => by simp [h4 i, hp i]⟩
  · rcases h.ok with h1 | ⟨h1, h2, h3, h4, h5⟩
    · exact .inl h1
    · exact .inr ⟨hq h1, by simp [h2, hc], h3, fun i => by simp [h4 i, hp i], h5⟩

theorem Unsynced.writes_other (h : Unsynced resets tr s w) {p : Packet} (hp : ∀ i, toSrv i p = false) (hc : isConnect p = false) :
    Unsynced resets tr s { w with toServer := w.toServer ++ [p] } := by
  refine ⟨h.books, ⟨h.quiet.running, h.quiet.up, h.quiet.again, h.quiet.rels, h.quiet.cli⟩, h.held, h.session, h.resets,
    fun i => by simp [h.srv i, hp i], ?_⟩
  rcases h.ok with h1 | ⟨h1, h2⟩
  · exact .inl h1
  · exact .inr ⟨by simp [h1, hc], h2⟩

/-! ### packets about a message -/

theorem Synced.active (h : Synced resets tr s w) (hq : ¬ Quiet s w) : w.toServer.any isConnect = false ∧ w.toClient.filter isOk = [] := by
  refine ⟨?_, ?_⟩
  · rw [Bool.eq_false_iff]
    intro hc
    obtain ⟨a, c, b, hab⟩ := any_connect.mp hc
    exact hq (h.connect a c b hab).1
  · rcases h.ok with h1 | ⟨h1, -⟩
    · exact h1
    · exact absurd h1 hq

theorem tok_snoc_srv {p : Packet} {i : UInt16} {a b : List Packet} (h : tok a b i = []) (hp : toSrv i p = true) : tok (a ++ [p]) b i = [p] := by
  simp only [tok, List.append_eq_nil_iff] at h
  simp [tok, h.1, h.2, hp]

theorem Synced.writes_for (h : Synced resets tr s w) {p : Packet} {i : UInt16} {s' : Sender}
    (ho : ∀ j, j ≠ i → toSrv j p = false) (hc : isConnect p = false) (hq : ¬ Quiet s w) (hs : w.session = true)
    (hb : Books tr' s' w.handed (missing s'.unacked w.held))
    (hu : ∀ j, j ≠ i → ∀ q : Publish, q.pkid = some j → (q ∈ s'.unacked ↔ q ∈ s.unacked)) (ha : s'.accepted = s.accepted) (hk : s'.acked = s.acked)
    (hph : Phase s'.unacked s'.accepted w.held (Surplus s'.acked w.handed) i (tok (w.toServer ++ [p]) w.toClient i))
    (hag : ∀ q ∈ s'.again, q ∈ s.again ∧ q ∈ s'.unacked ∧ q.pkid ≠ some i) (hids : (s'.again.map (·.pkid)).Nodup)
    (hrel : ∀ j ∈ s'.rels, j ∈ s.rels ∧ j ≠ i) :
    Synced resets tr' s' { w with toServer := w.toServer ++ [p] } := by
  obtain ⟨h1, h2⟩ := h.active hq
  have ht : ∀ j, j ≠ i → tok (w.toServer ++ [p]) w.toClient j = tok w.toServer w.toClient j := fun j hj => by simp [tok, ho j hj]
  refine ⟨hb, ?_, ?_, hids, ?_, ?_, .inl h2, ?_⟩
  · intro j
    rcases Decidable.em (j = i) with rfl | hj
    · exact hph
    · show Phase _ _ _ _ _ (tok (w.toServer ++ [p]) w.toClient j)
      exact (h.phase j).frame (hu j hj) (by rw [ha]) .rfl (fun _ _ h => by rw [hk]; exact h) (.inl (ht j hj))
  · intro q hq
    obtain ⟨g1, g2, g3⟩ := hag q hq
    exact ⟨g2, fun j hj => (ht j (fun e => g3 (e ▸ hj))).trans ((h.again q g1).2 j hj)⟩
  · intro j hj
    obtain ⟨g1, g2⟩ := hrel j hj
    exact ⟨by rw [ha]; exact (h.rels j g1).1, (ht j g2).trans (h.rels j g1).2⟩
  · intro a c b hab
    have : (w.toServer ++ [p]).any isConnect = true := any_connect.mpr ⟨a, c, b, hab⟩
    simp [h1, hc] at this
  · intro hh
    have hh' : w.session = false := hh
    rw [hs] at hh'; simp at hh'

theorem Synced.reads_for (h : Synced resets tr s w) (hsane : Sane s) {p : Packet} {i : UInt16} {rest : List Packet} {s' : Sender}
    (hw : w.toClient = p :: rest) (hi : toCli i p = true) (ho : ∀ j, j ≠ i → toCli j p = false) (hr : s.running = true)
    (hb : Books tr s' w.handed (missing s'.unacked w.held))
    (hu : ∀ j, j ≠ i → ∀ q : Publish, q.pkid = some j → (q ∈ s'.unacked ↔ q ∈ s.unacked))
    (ha : ∀ j, j ≠ i → (j ∈ s'.accepted ↔ j ∈ s.accepted))
    (hk : ∀ j, j ≠ i → ∀ q : Publish, q.pkid = some j → times q s'.acked = times q s.acked)
    (hph : Phase s'.unacked s'.accepted w.held (Surplus s'.acked w.handed) i [])
    (hag : s'.again = s.again) (hrel : ∀ j ∈ s'.rels, j ∈ s.rels ∨ (j = i ∧ i ∈ s'.accepted)) :
    Synced resets tr s' { w with toClient := rest } := by
  have hq : ¬ Quiet s w := fun h => by rw [h.running] at hr; simp at hr
  obtain ⟨h1, h2⟩ := h.active hq
  have hlen := (h.phase i).length
  have hti : tok w.toServer rest i = [] ∧ tok w.toServer w.toClient i ≠ [] := by
    rw [hw] at hlen ⊢
    simp only [tok, List.filter_cons_of_pos hi, List.length_append, List.length_cons] at hlen
    simp only [tok, List.filter_cons_of_pos hi]
    rw [List.length_eq_zero_iff.mp (by omega : (w.toServer.filter (toSrv i)).length = 0),
      List.length_eq_zero_iff.mp (by omega : (rest.filter (toCli i)).length = 0)]
    simp
  have ht : ∀ j, j ≠ i → tok w.toServer rest j = tok w.toServer w.toClient j := fun j hj => by
    rw [hw]; simp [tok, ho j hj]
  have hs : w.session = true := by
    rw [← Bool.not_eq_false]
    intro hh
    rw [(h.session hh).1] at hr; simp at hr
  refine ⟨hb, ?_, ?_, ?_, ?_, ?_, ?_, ?_⟩
  · intro j
    show Phase _ _ _ _ _ (tok w.toServer rest j)
    rcases Decidable.em (j = i) with rfl | hj
    · rw [hti.1]; exact hph
    · exact (h.phase j).frame (hu j hj) (ha j hj) .rfl (fun q hq h => by
        show times q s'.acked < _
        rw [hk j hj q hq]; exact h) (.inl (ht j hj))
  · intro q hq
    rw [hag] at hq
    obtain ⟨g1, g2⟩ := h.again q hq
    have hne : q.pkid ≠ some i := fun e => hti.2 (g2 i e)
    obtain ⟨j, hj⟩ := Option.ne_none_iff_exists'.mp (hsane.pub q g1).2.2
    have hji : j ≠ i := fun e => hne (e ▸ hj)
    refine ⟨(hu j hji q hj).mpr g1, fun j hj => ?_⟩
    exact (ht j (fun e => hne (e ▸ hj))).trans (g2 j hj)
  · rw [hag]; exact h.againIds
  · intro j hj
    rcases hrel j hj with g | ⟨rfl, g⟩
    · obtain ⟨g1, g2⟩ := h.rels j g
      have hji : j ≠ i := by rintro rfl; exact hti.2 g2
      exact ⟨(ha j hji).mpr g1, (ht j hji).trans g2⟩
    · exact ⟨g, hti.1⟩
  · intro a c b hab
    exact absurd (any_connect.mpr ⟨a, c, b, hab⟩) (by simp [h1])
  · left
    rw [hw] at h2
    have := (List.sublist_cons_self p rest).filter isOk
    rw [h2, List.sublist_nil] at this
    exact this
  · intro hh
    have hh' : w.session = false := hh
    rw [hs] at hh'; simp at hh'

/-! ### sending -/

theorem message_self {p : Publish} (h : p.dup = false) : message p = p := by
  cases p; simp only [message] at *; rw [h]

theorem eq_of_pkid {us : List Publish} (hn : (us.map (·.pkid)).Nodup) {p q : Publish} (hp : p ∈ us) (hq : q ∈ us) (h : p.pkid = q.pkid) :
    p = q := by
  induction us with
  | nil => simp at hp
  | cons x us ih =>
    rw [List.map_cons, List.nodup_cons] at hn
    rcases List.mem_cons.mp hp with rfl | hp'
    · rcases List.mem_cons.mp hq with rfl | hq'
      · rfl
      · exact absurd (h ▸ List.mem_map_of_mem hq') hn.1
    · rcases List.mem_cons.mp hq with rfl | hq'
      · exact absurd (h ▸ List.mem_map_of_mem hp') hn.1
      · exact ih hn.2 hp' hq'

theorem perm_add {S A U R D : List Publish} (p : Publish) (h : S.Perm (A ++ U ++ R ++ D)) :
    (S ++ [p]).Perm (A ++ (U ++ [p]) ++ R ++ D) := by
  refine (h.append_right [p]).trans ?_
  simp only [List.append_assoc]
  refine List.Perm.append_left _ (List.Perm.append_left _ ?_)
  have := (List.perm_append_comm (l₁ := R ++ D) (l₂ := [p]))
  simpa using this

theorem perm_refuse {A U U' R D : List Publish} (p : Publish) (h : U.Perm (p :: U')) :
    (A ++ U ++ R ++ D).Perm (A ++ U' ++ (R ++ [p]) ++ D) := by
  refine (((h.append_left A).append_right R).append_right D).trans ?_
  simp only [List.append_assoc]
  refine List.Perm.append_left _ ?_
  show (p :: (U' ++ (R ++ D))).Perm _
  have h1 : (U' ++ (R ++ ([p] ++ D))) = (U' ++ R) ++ p :: D := by simp
  rw [h1]
  have := (List.perm_middle (a := p) (l₁ := U' ++ R) (l₂ := D)).symm
  simpa using this

theorem perm_ack {A U U' R D : List Publish} (p : Publish) (h : U.Perm (p :: U')) :
    (A ++ U ++ R ++ D).Perm (A ++ [p] ++ U' ++ R ++ D) := by
  refine (((h.append_left A).append_right R).append_right D).trans ?_
  simp

theorem perm_discard {A U R D : List Publish} : (A ++ U ++ R ++ D).Perm (A ++ [] ++ R ++ (D ++ U)) := by
  simp only [List.append_assoc, List.nil_append]
  refine List.Perm.append_left _ ?_
  have := (List.perm_append_comm (l₁ := U) (l₂ := R ++ D))
  simpa using this

theorem missing_snoc_two {us : List Publish} {held : List UInt16} {p : Publish} {i : UInt16} (hi : p.pkid = some i)
    (hq : p.qos = .exactlyOnce) (hh : i ∉ held) : missing (us ++ [p]) held = missing us held ++ [p] := by
  simp only [missing, List.filter_append]
  congr 1
  rw [List.filter_eq_self]
  intro q hq'
  rw [List.mem_singleton.mp hq', hi]
  simp only [hq, true_and, decide_eq_true_eq]
  rintro j hj he
  cases he
  exact hh hj

theorem missing_snoc_one {us : List Publish} {held : List UInt16} {p : Publish} (hq : p.qos = .atLeastOnce) :
    missing (us ++ [p]) held = missing us held := by
  simp [missing, hq]

theorem sentIn_fresh {p : Publish} {a b : Nat} (hq : p.qos ≠ .atMostOnce) (hd : p.dup = false) :
    sentIn (tr ++ [.wrote (.publish p) a b]) = sentIn tr ++ [p] := by
  rw [sentIn_append]; simp [sentIn, hq, hd]

theorem any_isFor {us : List Publish} {i : UInt16} (h : us.any (Sender.isFor i) = false) : ∀ p ∈ us, p.pkid ≠ some i := by
  intro p hp he
  rw [List.any_eq_false] at h
  exact h p hp (by simp [Sender.isFor, he])

theorem Synced.publishes (h : Synced resets tr s w) {p : Publish} {a b : Nat} {i : UInt16} (hq : p.qos ≠ .atMostOnce)
    (hd : p.dup = false) (hr : s.running = true) (hi : p.pkid = some i) (h1 : s.unacked.any (Sender.isFor i) = false) (h2 : i ∉ s.accepted) :
    Synced resets (tr ++ [.wrote (.publish p) a b]) { s with unacked := s.unacked ++ [p] } { w with toServer := w.toServer ++ [.publish p] } := by
  have hno := any_isFor h1
  have hses : w.session = true := by
    rw [← Bool.not_eq_false]
    intro hh
    rw [(h.session hh).1] at hr; simp at hr
  have hidle : i ∉ w.held ∧ tok w.toServer w.toClient i = [] := by
    cases h.phase i with
    | idle _ _ h3 h4 => exact ⟨h3, h4⟩
    | one q hq' hid => exact absurd hid (hno q hq')
    | two q hq' hid => exact absurd hid (hno q hq')
    | rel _ h3 => exact absurd h3 h2
  refine h.writes_for (i := i) ?_ rfl (fun hq => by rw [hq.running] at hr; simp at hr) hses ?_ ?_ rfl rfl ?_ ?_ h.againIds ?_
  · intro j hj
    simp only [toSrv, hi]
    simp only [Option.some.injEq, decide_eq_false_iff_not, not_and]
    exact fun _ e => hj e.symm
  · obtain ⟨⟨d, hd1, hd2⟩, ho, hac⟩ := h.books
    cases hqq : p.qos with
    | atMostOnce => exact absurd hqq hq
    | atLeastOnce =>
      refine ⟨⟨d, hd1, ?_⟩, ?_, hac⟩
      · rw [sentIn_fresh hq hd, ofQos_append, missing_snoc_one hqq]
        simpa [ofQos, hqq] using hd2
      · rw [sentIn_fresh hq hd, ofQos_append]
        have e : ofQos .atLeastOnce [p] = [p] := by simp [ofQos, hqq]
        rw [e]
        show List.Perm _ (_ ++ ofQos .atLeastOnce (s.unacked ++ [p]) ++ _ ++ _)
        rw [ofQos_append, e]
        exact perm_add p ho
    | exactlyOnce =>
      refine ⟨⟨d, hd1, ?_⟩, ?_, hac⟩
      · rw [sentIn_fresh hq hd, ofQos_append, missing_snoc_two hi hqq hidle.1]
        have e : ofQos .exactlyOnce [p] = [p] := by simp [ofQos, hqq]
        rw [e]
        exact perm_add p hd2
      · rw [sentIn_fresh hq hd, ofQos_append]
        show List.Perm _ (_ ++ ofQos .atLeastOnce (s.unacked ++ [p]) ++ _ ++ _)
        rw [ofQos_append]
        simpa [ofQos, hqq] using ho
  · intro j hj q hq'
    simp only [List.mem_append, List.mem_singleton]
    constructor
    · rintro (h | rfl)
      · exact h
      · rw [hi] at hq'; cases hq'; exact absurd rfl hj
    · exact .inl
  · rw [tok_snoc_srv hidle.2 (by simp [toSrv, hq, hi])]
    have hm : p ∈ s.unacked ++ [p] := by simp
    cases hqq : p.qos with
    | atMostOnce => exact absurd hqq hq
    | atLeastOnce => exact .one p hm hi hqq h2 hidle.1 (.inr (.inl ⟨p, rfl, message_self hd⟩))
    | exactlyOnce => exact .two p hm hi hqq h2 (.inr (.inl ⟨p, rfl, message_self hd⟩))
  · intro q hq'
    have := (h.again q hq').1
    exact ⟨hq', List.mem_append_left _ this, hno q this⟩
  · intro j hj
    exact ⟨hj, fun e => h2 (e ▸ (h.rels j hj).1)⟩

theorem dropThrough {q : Publish} {l : List Publish} (hn : (l.map (·.pkid)).Nodup) (hq : q ∈ l) :
    ∀ x ∈ (l.dropWhile fun x => x.pkid != q.pkid).tail, x ∈ l ∧ x.pkid ≠ q.pkid := by
  induction l with
  | nil => simp at hq
  | cons y l ih =>
    rw [List.map_cons, List.nodup_cons] at hn
    intro x hx
    rw [List.dropWhile_cons] at hx
    rcases Decidable.em (y.pkid = q.pkid) with he | he
    · rw [if_neg (by simp [he])] at hx
      simp only [List.tail_cons] at hx
      exact ⟨List.mem_cons_of_mem _ hx, fun e => hn.1 ((he.trans e.symm) ▸ List.mem_map_of_mem hx)⟩
    · rw [if_pos (by simp [he])] at hx
      have hq' : q ∈ l := by
        rcases List.mem_cons.mp hq with rfl | h
        · exact absurd rfl he
        · exact h
      obtain ⟨g1, g2⟩ := ih hn.2 hq' x hx
      exact ⟨List.mem_cons_of_mem _ g1, g2⟩

theorem Synced.resends (h : Synced resets tr s w) (hs : Sane s) {q : Publish} {a b : Nat} (hq : q ∈ s.again) :
    Synced resets (tr ++ [.wrote (.publish { q with dup := true }) a b])
      { s with again := (s.again.dropWhile fun x => x.pkid != q.pkid).tail }
      { w with toServer := w.toServer ++ [.publish { q with dup := true }] } := by
  obtain ⟨hu, ht⟩ := h.again q hq
  obtain ⟨hd, hqos, hid⟩ := hs.pub q hu
  obtain ⟨i, hi⟩ := Option.ne_none_iff_exists'.mp hid
  have ht := ht i hi
  refine h.writes_for (i := i) ?_ rfl (fun hq' => by rw [hq'.again] at hq; simp at hq) ?_ ?_ (fun _ _ _ _ => .rfl) rfl rfl ?_ ?_ ?_ ?_
  · intro j hj
    simp only [toSrv, hi]
    simp only [Option.some.injEq, decide_eq_false_iff_not, not_and]
    exact fun _ e => hj e.symm
  · rw [← Bool.not_eq_false]
    intro hh
    rw [(h.session hh).2.2.1] at hu; simp at hu
  · refine Books.sender (Books.obs h.books ?_) rfl rfl rfl rfl
    rw [sentIn_append]; simp [sentIn]
  · rw [tok_snoc_srv ht (by simp [toSrv, hqos, hi])]
    have hm : message { q with dup := true } = q := by
      rw [show message { q with dup := true } = message q from rfl]; exact message_self hd
    cases h.phase i with
    | idle h1 => exact absurd hi (h1 q hu)
    | one p hp hid' hq' h2 h3 =>
      obtain rfl := eq_of_pkid hs.ids hp hu (hid'.trans hi.symm)
      exact .one p hp hid' hq' h2 h3 (.inr (.inl ⟨_, rfl, hm⟩))
    | two p hp hid' hq' h2 =>
      obtain rfl := eq_of_pkid hs.ids hp hu (hid'.trans hi.symm)
      exact .two p hp hid' hq' h2 (.inr (.inl ⟨_, rfl, hm⟩))
    | rel h1 => exact absurd hi (h1 q hu)
  · intro x hx
    obtain ⟨g1, g2⟩ := dropThrough h.againIds hq x hx
    exact ⟨g1, (h.again x g1).1, by rw [← hi]; exact g2⟩
  · exact (((List.tail_sublist _).trans (List.dropWhile_sublist _)).map _).nodup h.againIds
  · intro j hj
    refine ⟨hj, ?_⟩
    rintro rfl
    have := (h.rels j hj).1
    cases h.phase j with
    | idle h1 h2 => exact h2 this
    | one p hp hid' hq' h2 => exact h2 this
    | two p hp hid' hq' h2 => exact h2 this
    | rel h1 => exact h1 q hu hi

theorem Synced.releases (h : Synced resets tr s w) (hs : Sane s) {r : Ack} {a b : Nat} (hr : r.id ∈ s.rels) :
    Synced resets (tr ++ [.wrote (.pubRel r) a b]) { s with rels := s.rels.erase r.id }
      { w with toServer := w.toServer ++ [.pubRel r] } := by
  obtain ⟨hacc, ht⟩ := h.rels _ hr
  refine h.writes_for (i := r.id) ?_ rfl (fun hq' => by rw [hq'.rels] at hr; simp at hr) ?_ ?_ (fun _ _ _ _ => .rfl) rfl rfl ?_ ?_ h.againIds ?_
  · intro j hj
    simp only [toSrv, decide_eq_false_iff_not]
    exact fun e => hj e.symm
  · rw [← Bool.not_eq_false]
    intro hh
    rw [(h.session hh).2.2.2] at hacc; simp at hacc
  · refine Books.sender (Books.obs h.books ?_) rfl rfl rfl rfl
    rw [sentIn_append]; simp [sentIn]
  · rw [tok_snoc_srv ht (by simp [toSrv])]
    cases h.phase r.id with
    | idle h1 h2 => exact absurd hacc h2
    | one p hp hid' hq' h2 => exact absurd hacc h2
    | two p hp hid' hq' h2 => exact absurd hacc h2
    | rel h1 h2 => exact .rel h1 h2 (.inr (.inl ⟨r, rfl⟩))
  · intro q hq
    have hu := (h.again q hq).1
    refine ⟨hq, hu, fun e => ?_⟩
    cases h.phase r.id with
    | idle h1 h2 => exact h2 hacc
    | one p hp hid' hq' h2 => exact h2 hacc
    | two p hp hid' hq' h2 => exact h2 hacc
    | rel h1 => exact h1 q hu e
  · intro j hj
    exact ⟨List.mem_of_mem_erase hj, fun e => by
      rw [e] at hj
      exact ((List.Nodup.mem_erase_iff hs.rels).mp hj).1 rfl⟩

/-! ### acknowledgements -/

theorem filter_for {us : List Publish} (hn : (us.map (·.pkid)).Nodup) {p : Publish} {i : UInt16} (hp : p ∈ us) (hi : p.pkid = some i) :
    us.filter (Sender.isFor i) = [p] := by
  induction us with
  | nil => simp at hp
  | cons x us ih =>
    rw [List.map_cons, List.nodup_cons] at hn
    rcases List.mem_cons.mp hp with rfl | hp'
    · rw [List.filter_cons_of_pos (by simp [Sender.isFor, hi])]
      congr 1
      rw [List.filter_eq_nil_iff]
      intro q hq he
      simp only [Sender.isFor, beq_iff_eq] at he
      exact hn.1 (hi.trans he.symm ▸ List.mem_map_of_mem hq)
    · rw [List.filter_cons_of_neg, ih hn.2 hp']
      simp only [Sender.isFor, beq_iff_eq]
      intro he
      exact hn.1 (he.trans hi.symm ▸ List.mem_map_of_mem hp')

theorem perm_for {us : List Publish} (hn : (us.map (·.pkid)).Nodup) {p : Publish} {i : UInt16} (hp : p ∈ us) (hi : p.pkid = some i) :
    us.Perm (p :: us.filter fun p => !Sender.isFor i p) := by
  have := perm_pick hn hp
  rw [hi] at this
  have e : (us.filter fun p => !Sender.isFor i p) = us.filter fun q => q.pkid ≠ some i := by
    apply List.filter_congr
    intro q _
    simp only [Sender.isFor]
    by_cases h : q.pkid = some i <;> simp [h]
  rw [e]; exact this

theorem ofQos_perm {a b : List Publish} (q : QoS) (h : a.Perm b) : (ofQos q a).Perm (ofQos q b) := h.filter _

theorem missing_perm {a b : List Publish} (held : List UInt16) (h : a.Perm b) : (missing a held).Perm (missing b held) := h.filter _

theorem not_for (us : List Publish) (i : UInt16) : ∀ p ∈ us.filter (fun p => !Sender.isFor i p), p.pkid ≠ some i := by
  intro p hp he
  simp [Sender.isFor, he] at hp

theorem mem_others {us : List Publish} {i j : UInt16} (hj : j ≠ i) {q : Publish} (hq : q.pkid = some j) :
    q ∈ us.filter (fun p => !Sender.isFor i p) ↔ q ∈ us := by
  simp [Sender.isFor, hq, hj]

theorem cli_tok {ts rest : List Packet} {p : Packet} {i : UInt16} (hi : toCli i p = true) (hl : (tok ts (p :: rest) i).length ≤ 1) :
    tok ts (p :: rest) i = [p] := by
  simp only [tok, List.filter_cons_of_pos hi, List.length_append, List.length_cons] at hl
  simp only [tok, List.filter_cons_of_pos hi]
  rw [List.length_eq_zero_iff.mp (by omega : (ts.filter (toSrv i)).length = 0),
    List.length_eq_zero_iff.mp (by omega : (rest.filter (toCli i)).length = 0)]
  simp

theorem Synced.pubAck (h : Synced resets tr s w) (hs : Sane s) {a : Ack} {rest : List Packet} (hw : w.toClient = .pubAck a :: rest)
    (hr : s.running = true) : Synced resets tr (s.onAck (.pubAck a)) { w with toClient := rest } := by
  have hi : toCli a.id (.pubAck a) = true := by simp [toCli]
  have ht : tok w.toServer w.toClient a.id = [.pubAck a] := by
    have := (h.phase a.id).length
    rw [hw] at this ⊢
    exact cli_tok hi this
  have hph := h.phase a.id
  rw [ht] at hph
  obtain ⟨p, hp, hid, hq, h2, h3, h4⟩ : ∃ p, p ∈ s.unacked ∧ p.pkid = some a.id ∧ p.qos = .atLeastOnce ∧ a.id ∉ s.accepted ∧
      a.id ∉ w.held ∧ (Ledger.accepts a = true → Surplus s.acked w.handed p) := by
    cases hph with
    | idle _ _ _ h => simp at h
    | one p hp hid hq h2 h3 h4 =>
      refine ⟨p, hp, hid, hq, h2, h3, ?_⟩
      rcases h4 with h | ⟨q, h, -⟩ | ⟨b, h, hb⟩
      · simp at h
      · simp at h
      · simp only [List.cons.injEq, Packet.pubAck.injEq, and_true] at h
        rw [h]; exact hb
    | two p hp hid hq h2 h4 => rcases h4 with h | ⟨q, h, -⟩ | ⟨b, h, hb⟩ <;> simp at h
    | rel h1 h2 h4 => rcases h4 with h | ⟨q, h⟩ | ⟨b, h, hb⟩ <;> simp at h
  have hpm := perm_for hs.ids hp hid
  have e1 : ofQos .atLeastOnce [p] = [p] := by simp [ofQos, hq]
  have e2 : ofQos .exactlyOnce [p] = [] := by simp [ofQos, hq]
  have p1 := ofQos_perm .atLeastOnce hpm
  rw [← List.singleton_append, ofQos_append, e1] at p1
  have p2 := missing_perm w.held hpm
  rw [show missing (p :: _) w.held = missing (s.unacked.filter fun p => !Sender.isFor a.id p) w.held by simp [missing, hq]] at p2
  obtain ⟨⟨d, hd1, hd2⟩, ho, hac⟩ := h.books
  cases hacc : Ledger.accepts a with
  | true =>
    have es : s.onAck (.pubAck a) = { s with unacked := s.unacked.filter fun p => !Sender.isFor a.id p, acked := s.acked ++ [p] } := by
      simp [Sender.onAck, hacc, filter_for hs.ids hp hid]
    rw [es]
    refine h.reads_for hs hw hi ?_ hr ⟨⟨d, hd1, ?_⟩, ?_, ?_⟩ (fun j hj q hq => mem_others hj hq) (fun _ _ => .rfl) ?_
      (.idle (not_for _ _) h2 h3 rfl) rfl (fun _ => .inl)
    · intro j hj
      simp only [toCli, decide_eq_false_iff_not]
      exact fun e => hj e.symm
    · exact hd2.trans (((p2.append_left _).append_right _).append_right _)
    · show List.Perm _ (ofQos _ (s.acked ++ [p]) ++ _ ++ _ ++ _)
      rw [ofQos_append, e1]
      exact ho.trans (perm_ack p p1)
    · intro q
      show times q (s.acked ++ [p]) ≤ _
      rw [times_append]
      rcases Classical.em (p = q) with rfl | hne
      · rw [times_self]; exact h4 hacc
      · rw [times_other hne]; exact hac q
    · intro j hj q hq'
      show times q (s.acked ++ [p]) = _
      rw [times_append, times_other]
      · rfl
      · rintro rfl
        rw [hid] at hq'; cases hq'; exact hj rfl
  | false =>
    have es : s.onAck (.pubAck a) = { s with unacked := s.unacked.filter fun p => !Sender.isFor a.id p, refused := s.refused ++ [p] } := by
      simp [Sender.onAck, hacc, filter_for hs.ids hp hid]
    rw [es]
    refine h.reads_for hs hw hi ?_ hr ⟨⟨d, hd1, ?_⟩, ?_, hac⟩ (fun j hj q hq => mem_others hj hq) (fun _ _ => .rfl) (fun _ _ _ _ => rfl)
      (.idle (not_for _ _) h2 h3 rfl) rfl (fun _ => .inl)
    · intro j hj
      simp only [toCli, decide_eq_false_iff_not]
      exact fun e => hj e.symm
    · show List.Perm _ (_ ++ _ ++ ofQos _ (s.refused ++ [p]) ++ _)
      rw [ofQos_append, e2, List.append_nil]
      exact hd2.trans (((p2.append_left _).append_right _).append_right _)
    · show List.Perm _ (_ ++ _ ++ ofQos _ (s.refused ++ [p]) ++ _)
      rw [ofQos_append, e1]
      exact ho.trans (perm_refuse p p1)

theorem Synced.pubRec (h : Synced resets tr s w) (hs : Sane s) {a : Ack} {rest : List Packet} (hw : w.toClient = .pubRec a :: rest)
    (hr : s.running = true) : Synced resets tr (s.onAck (.pubRec a)) { w with toClient := rest } := by
  have hi : toCli a.id (.pubRec a) = true := by simp [toCli]
  have ht : tok w.toServer w.toClient a.id = [.pubRec a] := by
    have := (h.phase a.id).length
    rw [hw] at this ⊢
    exact cli_tok hi this
  have hph := h.phase a.id
  rw [ht] at hph
  obtain ⟨p, hp, hid, hq, h2, h4⟩ : ∃ p, p ∈ s.unacked ∧ p.pkid = some a.id ∧ p.qos = .exactlyOnce ∧ a.id ∉ s.accepted ∧
      (Ledger.accepts a = true ↔ a.id ∈ w.held) := by
    cases hph with
    | idle _ _ _ h => simp at h
    | two p hp hid hq h2 h4 =>
      refine ⟨p, hp, hid, hq, h2, ?_⟩
      rcases h4 with h | ⟨q, h, -⟩ | ⟨b, h, hb⟩
      · simp at h
      · simp at h
      · simp only [List.cons.injEq, Packet.pubRec.injEq, and_true] at h
        rw [h]; rw [h] at hb; exact hb
    | one p hp hid hq h2 h3 h4 => rcases h4 with h | ⟨q, h, -⟩ | ⟨b, h, hb⟩ <;> simp at h
    | rel h1 h2 h4 => rcases h4 with h | ⟨q, h⟩ | ⟨b, h, hb⟩ <;> simp at h
  have hpm := perm_for hs.ids hp hid
  have e1 : ofQos .atLeastOnce [p] = [] := by simp [ofQos, hq]
  have e2 : ofQos .exactlyOnce [p] = [p] := by simp [ofQos, hq]
  have p1 := ofQos_perm .atLeastOnce hpm
  rw [← List.singleton_append, ofQos_append, e1, List.nil_append] at p1
  have p2 := missing_perm w.held hpm
  obtain ⟨⟨d, hd1, hd2⟩, ho, hac⟩ := h.books
  have hany : s.unacked.any (Sender.isFor a.id) = true := List.any_eq_true.mpr ⟨p, hp, by simp [Sender.isFor, hid]⟩
  have hoth : ∀ j, j ≠ a.id → toCli j (.pubRec a) = false := by
    intro j hj
    simp only [toCli, decide_eq_false_iff_not]
    exact fun e => hj e.symm
  cases hacc : Ledger.accepts a with
  | true =>
    have es : s.onAck (.pubRec a) = { s with
        unacked := s.unacked.filter fun p => !Sender.isFor a.id p, accepted := s.accepted ++ [a.id], rels := s.rels ++ [a.id] } := by
      simp only [Sender.onAck, hacc, hany, if_true]
    rw [es]
    have hheld := h4.mp hacc
    rw [show missing (p :: _) w.held = missing (s.unacked.filter fun p => !Sender.isFor a.id p) w.held by
      simp only [missing]
      rw [List.filter_cons_of_neg]
      simp only [decide_eq_true_eq, not_and]
      exact fun _ h => h a.id hheld hid] at p2
    refine h.reads_for hs hw hi hoth hr ⟨⟨d, hd1, ?_⟩, ?_, hac⟩ (fun j hj q hq => mem_others hj hq) ?_ (fun _ _ _ _ => rfl)
      (.rel (not_for _ _) (by simp) (.inl rfl)) rfl ?_
    · exact hd2.trans (((p2.append_left _).append_right _).append_right _)
    · exact ho.trans (((p1.append_left _).append_right _).append_right _)
    · intro j hj; simp [hj]
    · intro j hj
      rcases List.mem_append.mp hj with hj | hj
      · exact .inl hj
      · exact .inr ⟨List.mem_singleton.mp hj, by simp⟩
  | false =>
    have es : s.onAck (.pubRec a) = { s with unacked := s.unacked.filter fun p => !Sender.isFor a.id p, refused := s.refused ++ [p] } := by
      simp [Sender.onAck, hacc, hany, filter_for hs.ids hp hid]
    rw [es]
    have hheld : a.id ∉ w.held := fun h => by rw [h4.mpr h] at hacc; simp at hacc
    rw [show missing (p :: _) w.held = p :: missing (s.unacked.filter fun p => !Sender.isFor a.id p) w.held by
      simp only [missing]
      rw [List.filter_cons_of_pos]
      simp only [decide_eq_true_eq]
      refine ⟨hq, fun i hi he => hheld ?_⟩
      rw [hid] at he; cases he; exact hi] at p2
    refine h.reads_for hs hw hi hoth hr ⟨⟨d, hd1, ?_⟩, ?_, hac⟩ (fun j hj q hq => mem_others hj hq) (fun _ _ => .rfl) (fun _ _ _ _ => rfl)
      (.idle (not_for _ _) h2 hheld rfl) rfl (fun _ => .inl)
    · show List.Perm _ (_ ++ _ ++ ofQos _ (s.refused ++ [p]) ++ _)
      rw [ofQos_append, e2]
      exact hd2.trans (perm_refuse p p2)
    · show List.Perm _ (_ ++ _ ++ ofQos _ (s.refused ++ [p]) ++ _)
      rw [ofQos_append, e1, List.append_nil]
      exact ho.trans (((p1.append_left _).append_right _).append_right _)

theorem Synced.pubComp (h : Synced resets tr s w) (hs : Sane s) {a : Ack} {rest : List Packet} (hw : w.toClient = .pubComp a :: rest)
    (hr : s.running = true) : Synced resets tr (s.onAck (.pubComp a)) { w with toClient := rest } := by
  have hi : toCli a.id (.pubComp a) = true := by simp [toCli]
  have ht : tok w.toServer w.toClient a.id = [.pubComp a] := by
    have := (h.phase a.id).length
    rw [hw] at this ⊢
    exact cli_tok hi this
  have hph := h.phase a.id
  rw [ht] at hph
  obtain ⟨h1, h2, h3⟩ : (∀ p ∈ s.unacked, p.pkid ≠ some a.id) ∧ a.id ∈ s.accepted ∧ a.id ∉ w.held := by
    cases hph with
    | idle _ _ _ h => simp at h
    | two p hp hid hq h2 h4 => rcases h4 with h | ⟨q, h, -⟩ | ⟨b, h, hb⟩ <;> simp at h
    | one p hp hid hq h2 h3 h4 => rcases h4 with h | ⟨q, h, -⟩ | ⟨b, h, hb⟩ <;> simp at h
    | rel h1 h2 h4 =>
      rcases h4 with h | ⟨q, h⟩ | ⟨b, h, hb⟩
      · simp at h
      · simp at h
      · exact ⟨h1, h2, hb⟩
  refine h.reads_for hs hw hi ?_ hr (h.books.sender rfl rfl rfl rfl) (fun _ _ _ _ => .rfl) ?_ (fun _ _ _ _ => rfl)
    (.idle h1 ?_ h3 rfl) rfl (fun _ => .inl)
  · intro j hj
    simp only [toCli, decide_eq_false_iff_not]
    exact fun e => hj e.symm
  · intro j hj
    exact List.mem_erase_of_ne hj
  · intro hm
    exact ((List.Nodup.mem_erase_iff hs.acc).mp hm).1 rfl

/-! ### CONNACK -/

theorem ok_is {missed rest : List Packet} {c c' : ConnAck} (hc : c.reason = .success)
    (h : (missed ++ .connAck c :: rest).filter isOk = [.connAck c']) : c' = c ∧ rest.filter isOk = [] := by
  rw [List.filter_append, List.filter_cons_of_pos (by simp [isOk, hc])] at h
  have hl := congrArg List.length h
  simp only [List.length_append, List.length_cons, List.length_nil] at hl
  rw [List.length_eq_zero_iff.mp (by omega : (missed.filter isOk).length = 0)] at h
  simp only [List.nil_append, List.cons.injEq, Packet.connAck.injEq] at h
  exact ⟨h.1.symm, h.2⟩

theorem Synced.accepted (h : Synced resets tr s w) (hs : Sane s) {clean : Bool} (hres : resets = false → clean = false) {c : ConnAck}
    {missed rest : List Packet} (hw : w.toClient = missed ++ .connAck c :: rest) (hc : c.reason = .success) :
    s.running = false ∧ Synced resets tr (s.onAccepted clean c) { w with toClient := rest, up := true } := by
  rcases h.ok with h1 | ⟨hq, h2, h3, h4, h5, c', h6, h7⟩
  · rw [hw] at h1; simp [isOk, hc] at h1
  rw [hw] at h6
  obtain ⟨rfl, hrest⟩ := ok_is hc h6
  have hcli : ∀ i, rest.filter (toCli i) = [] := by
    intro i
    have hsub : rest.Sublist w.toClient := by rw [hw]; exact (List.sublist_cons_self _ _).trans (List.sublist_append_right _ _)
    have := hsub.filter (toCli i)
    rwa [hq.cli i, List.sublist_nil] at this
  have ht : ∀ i, tok w.toServer rest i = [] := fun i => tok_nil (h4 i) (hcli i)
  refine ⟨hq.running, ?_⟩
  have hcl : clean = false := hres h5
  have hno : ∀ a c b, w.toServer ≠ a ++ .connect c :: b := fun a c b e => by
    have := any_connect.mpr ⟨a, c, b, e⟩
    rw [h2] at this; simp at this
  cases hsp : c'.sessionPresent with
  | true =>
    have es : s.onAccepted clean c' = { s with again := s.unacked, rels := s.accepted } := by
      simp [Sender.onAccepted, Ledger.resumed, hsp, hcl]
    rw [es]
    refine ⟨h.books.sender rfl rfl rfl rfl, ?_, fun q hq => ⟨hq, fun i _ => ht i⟩, hs.ids, fun i hi => ⟨hi, ht i⟩,
      fun a c b e => absurd e (hno a c b), .inl hrest, ?_⟩
    · intro i
      exact (h.phase i).frame (fun _ _ => .rfl) .rfl .rfl (fun _ _ h => h) (.inr (ht i))
    · intro hh
      have hh' : w.session = false := hh
      rw [h3] at hh'; simp at hh'
  | false =>
    rw [hsp] at h7
    simp only [Bool.false_eq_true, false_or] at h7
    have es : s.onAccepted clean c' = { s with unacked := [], accepted := [], again := [], rels := [], discarded := s.discarded } := by
      simp [Sender.onAccepted, Ledger.resumed, hsp, h7.1]
    rw [es]
    refine ⟨?_, ?_, ?_, ?_, ?_, fun a c b e => absurd e (hno a c b), .inl hrest, ?_⟩
    · have := h.books
      rw [h7.1] at this
      exact this.sender (s' := { s with unacked := [], accepted := [], again := [], rels := [], discarded := s.discarded }) h7.1.symm rfl rfl rfl
    · intro i
      have := (h.phase i).frame (t' := tok w.toServer rest i) (fun _ _ => .rfl) .rfl .rfl (fun _ _ h => h) (.inr (ht i))
      rw [h7.1, h7.2] at this
      exact this
    · simp
    · simp
    · simp
    · intro hh
      have hh' : w.session = false := hh
      rw [h3] at hh'; simp at hh'

theorem Unsynced.accepted (h : Unsynced resets tr s w) {clean : Bool} {c : ConnAck}
    {missed rest : List Packet} (hw : w.toClient = missed ++ .connAck c :: rest) (hc : c.reason = .success) :
    Synced resets tr (s.onAccepted clean c) { w with toClient := rest, up := true } := by
  have hq := h.quiet
  rcases h.ok with h1 | ⟨h2, c', h6, h7⟩
  · rw [hw] at h1; simp [isOk, hc] at h1
  rw [hw] at h6
  obtain ⟨rfl, hrest⟩ := ok_is hc h6
  have hcli : ∀ i, rest.filter (toCli i) = [] := by
    intro i
    have hsub : rest.Sublist w.toClient := by rw [hw]; exact (List.sublist_cons_self _ _).trans (List.sublist_append_right _ _)
    have := hsub.filter (toCli i)
    rwa [hq.cli i, List.sublist_nil] at this
  have ht : ∀ i, tok w.toServer rest i = [] := fun i => tok_nil (h.srv i) (hcli i)
  have hno : ∀ a c b, w.toServer ≠ a ++ .connect c :: b := fun a c b e => by
    have := any_connect.mpr ⟨a, c, b, e⟩
    rw [h2] at this; simp at this
  have es : s.onAccepted clean c' = { s with unacked := [], accepted := [], again := [], rels := [], discarded := s.discarded ++ s.unacked } := by
    simp [Sender.onAccepted, Ledger.resumed, h7]
  rw [es]
  refine ⟨?_, ?_, ?_, ?_, ?_, fun a c b e => absurd e (hno a c b), .inl hrest, ?_⟩
  · obtain ⟨u, hu, ⟨d, hd1, hd2⟩, ho, hac⟩ := h.books
    refine ⟨⟨d ++ u, ?_, hd2.trans perm_discard⟩, ?_, hac⟩
    · show List.Sublist _ (ofQos _ (s.discarded ++ s.unacked))
      rw [ofQos_append]
      exact hd1.append hu
    · show List.Perm _ (_ ++ _ ++ _ ++ ofQos _ (s.discarded ++ s.unacked))
      rw [ofQos_append]
      exact ho.trans perm_discard
  · intro i
    exact .idle (by simp) (by simp) (by show i ∉ w.held; rw [h.held]; simp) (ht i)
  · simp
  · simp
  · simp
  · intro hh
    have hh' : w.session = false := hh
    rw [h.session] at hh'; simp at hh'

/-! ### any observation -/

theorem Sane.of (h : Sane s) {s' : Sender} (h1 : s'.unacked.Sublist s.unacked) (h2 : s'.accepted.Nodup) (h3 : s'.rels.Nodup) : Sane s' :=
  ⟨(h1.map _).nodup h.ids, fun p hp => h.pub p (h1.mem hp), h2, h3⟩

theorem Sane.same (h : Sane s) {s' : Sender} (h1 : s'.unacked = s.unacked) (h2 : s'.accepted = s.accepted) (h3 : s'.rels = s.rels) : Sane s' :=
  h.of (by rw [h1]; exact List.Sublist.refl _) (by rw [h2]; exact h.acc) (by rw [h3]; exact h.rels)

theorem Sane.accepted (h : Sane s) (clean : Bool) (c : ConnAck) : Sane (s.onAccepted clean c) := by
  unfold Sender.onAccepted
  split
  · exact h.of (List.Sublist.refl _) h.acc h.acc
  · exact h.of (List.nil_sublist _) List.nodup_nil List.nodup_nil

theorem Synced.sane_ack (h : Synced resets tr s w) (hs : Sane s) {p : Packet} {rest : List Packet} (hw : w.toClient = p :: rest) :
    Sane (s.onAck p) := by
  cases p with
  | pubAck a =>
    simp only [Sender.onAck]
    split <;> exact hs.of List.filter_sublist hs.acc hs.rels
  | pubRec a =>
    simp only [Sender.onAck]
    split
    · rename_i hany
      split
      · have hi : toCli a.id (.pubRec a) = true := by simp [toCli]
        have ht : tok w.toServer w.toClient a.id = [.pubRec a] := by
          have := (h.phase a.id).length
          rw [hw] at this ⊢
          exact cli_tok hi this
        have hnot : a.id ∉ s.accepted := by
          have hph := h.phase a.id
          rw [ht] at hph
          cases hph with
          | idle _ h2 => exact h2
          | one _ _ _ _ h2 => exact h2
          | two _ _ _ _ h2 => exact h2
          | rel h1 =>
            obtain ⟨p, hp, hf⟩ := List.any_eq_true.mp hany
            simp only [Sender.isFor, beq_iff_eq] at hf
            exact absurd hf (h1 p hp)
        refine hs.of List.filter_sublist ?_ ?_
        · show (s.accepted ++ [a.id]).Nodup
          rw [List.nodup_append]
          refine ⟨hs.acc, by simp, ?_⟩
          intro x hx y hy e
          rw [List.mem_singleton.mp hy] at e
          exact hnot (e ▸ hx)
        · show (s.rels ++ [a.id]).Nodup
          rw [List.nodup_append]
          refine ⟨hs.rels, by simp, ?_⟩
          intro x hx y hy e
          rw [List.mem_singleton.mp hy] at e
          exact hnot (e ▸ (h.rels x hx).1)
      · exact hs.of List.filter_sublist hs.acc hs.rels
    · exact hs
  | pubComp a => exact hs.of (List.Sublist.refl _) (hs.acc.erase _) hs.rels
  | _ => exact hs

theorem sentIn_same {x : Obs} (h : ∀ p a b, x ≠ .wrote (.publish p) a b) : sentIn (tr ++ [x]) = sentIn tr := by
  rw [sentIn_append]
  have : sentIn [x] = [] := by
    cases x with
    | wrote p a b => cases p <;> first | rfl | exact absurd rfl (h _ _ _)
    | _ => rfl
  rw [this, List.append_nil]

theorem onAck_other {p : Packet} (h : ∀ i, toCli i p = false) : s.onAck p = s := by
  cases p <;> first | rfl | (simp [toCli] at h)

theorem Consistent.client {clean keeps : Bool} (h : Consistent clean keeps tr s w) {x : Obs} {w' : World} (hw : Client w x w')
    (hm : ∀ p a b, x = .wrote p a b → s.MaySend clean p) : Consistent clean keeps (tr ++ [x]) (s.next clean x) w' := by
  have hs := h.sane
  cases hw with
  | @connect c a b k =>
    obtain ⟨hr, hc⟩ := hm _ _ _ rfl
    refine ⟨hs.of (List.Sublist.refl _) hs.acc List.nodup_nil, ?_, ?_⟩
    · intro c' hc'
      rcases List.mem_append.mp hc' with hc' | hc'
      · exact h.starts c' (List.mem_of_mem_take hc')
      · simp only [List.mem_singleton, Packet.connect.injEq] at hc'
        rw [hc']; exact hc
    · rcases h.state with h1 | h1
      · exact .inl ((h1.connects hr c k).obs (sentIn_same (by simp)))
      · exact .inr ((h1.connects c k).obs (sentIn_same (by simp)))
  | @wrote p a b hp =>
    have hmay := hm _ _ _ rfl
    have hst : ∀ c, .connect c ∈ w.toServer ++ [p] → c.cleanStart = clean := by
      intro c' hc'
      rcases List.mem_append.mp hc' with hc' | hc'
      · exact h.starts c' hc'
      · rw [← List.mem_singleton.mp hc'] at hp; simp [isConnect] at hp
    have hother : ∀ {p : Packet} (a b : Nat), (∀ i, toSrv i p = false) → isConnect p = false → sentIn (tr ++ [.wrote p a b]) = sentIn tr →
        Synced (clean || !keeps) (tr ++ [.wrote p a b]) s { w with toServer := w.toServer ++ [p] } ∨
        Unsynced (clean || !keeps) (tr ++ [.wrote p a b]) s { w with toServer := w.toServer ++ [p] } := by
      intro p a b h1 h2 h3
      rcases h.state with h4 | h4
      · exact .inl ((h4.writes_other h1 h2).obs h3)
      · exact .inr ((h4.writes_other h1 h2).obs h3)
    cases p with
    | connect c => simp [isConnect] at hp
    | publish p =>
      rcases hmay with ⟨h1, h2, h3⟩ | ⟨h1, h2, h3, i, h4, h5, h6⟩ | ⟨h1, h2, q, h3, rfl⟩
      · have es : s.next clean (.wrote (.publish p) a b) = s := by simp [Sender.next, Sender.onWrote, h1]
        rw [es]
        refine ⟨hs, hst, hother a b (by simp [toSrv, h1]) rfl ?_⟩
        rw [sentIn_append]; simp [sentIn, h1]
      · have es : s.next clean (.wrote (.publish p) a b) = { s with unacked := s.unacked ++ [p] } := by
          simp [Sender.next, Sender.onWrote, h1, h2]
        rw [es]
        refine ⟨⟨?_, ?_, hs.acc, hs.rels⟩, hst, .inl ?_⟩
        · show ((s.unacked ++ [p]).map _).Nodup
          rw [List.map_append, List.nodup_append]
          refine ⟨hs.ids, by simp, ?_⟩
          intro x hx y hy e
          obtain ⟨q, hq, rfl⟩ := List.mem_map.mp hx
          simp only [List.map_cons, List.map_nil, List.mem_singleton] at hy
          rw [hy, h4] at e
          exact any_isFor h5 q hq e
        · intro q hq
          rcases List.mem_append.mp hq with hq | hq
          · exact hs.pub q hq
          · rw [List.mem_singleton.mp hq]; exact ⟨h2, h1, by rw [h4]; simp⟩
        · rcases h.state with g | g
          · exact g.publishes h1 h2 h3 h4 h5 h6
          · rw [g.quiet.running] at h3; simp at h3
      · rcases h.state with g | g
        · have hu := (g.again q h3).1
          have es : s.next clean (.wrote (.publish { q with dup := true }) a b) =
              { s with again := (s.again.dropWhile fun x => x.pkid != q.pkid).tail } := by
            have : q.qos ≠ .atMostOnce := h1
            simp [Sender.next, Sender.onWrote, this]
          rw [es]
          exact ⟨hs.same rfl rfl rfl, hst, .inl (g.resends hs h3)⟩
        · rw [g.quiet.again] at h3; simp at h3
    | pubRel r =>
      obtain ⟨h1, -⟩ := hmay
      refine ⟨hs.of (List.Sublist.refl _) hs.acc (hs.rels.erase _), hst, .inl ?_⟩
      rcases h.state with g | g
      · exact g.releases hs h1
      · rw [g.quiet.rels] at h1; simp at h1
    | _ => exact ⟨hs, hst, hother a b (by simp [toSrv]) rfl (sentIn_same (by simp))⟩
  | @read p missed rest hp hc =>
    have hsame := sentIn_same (tr := tr) (x := .read p) (by simp)
    cases hr : s.running with
    | false =>
      have es : s.next clean (.read p) = s := by
        simp only [Sender.next, hr]
        cases p <;> first | rfl | exact absurd rfl (hc _)
      rw [es]
      have hsub : rest.Sublist w.toClient := by rw [hp]; exact (List.sublist_cons_self _ _).trans (List.sublist_append_right _ _)
      refine ⟨hs, h.starts, ?_⟩
      rcases h.state with g | g
      · exact .inl ((g.less hsub).obs hsame)
      · exact .inr ((g.less hsub).obs hsame)
    | true =>
      have es : s.next clean (.read p) = s.onAck p := by simp [Sender.next, hr]
      rw [es]
      rcases h.state with g | g
      · have hsub : (p :: rest).Sublist w.toClient := by rw [hp]; exact List.sublist_append_right _ _
        have g' := g.less hsub
        refine ⟨g'.sane_ack hs rfl, h.starts, .inl (Synced.obs ?_ hsame)⟩
        cases p with
        | pubAck a => exact g'.pubAck hs rfl hr
        | pubRec a => exact g'.pubRec hs rfl hr
        | pubComp a => exact g'.pubComp hs rfl hr
        | _ => exact g'.less (List.sublist_cons_self _ _)
      · rw [g.quiet.running] at hr; simp at hr
  | @accepted c missed rest hp hc =>
    have hsame := sentIn_same (tr := tr) (x := .read (.connAck c)) (by simp)
    have key : s.running = false ∧ Synced (clean || !keeps) tr (s.onAccepted clean c) { w with toClient := rest, up := true } := by
      rcases h.state with g | g
      · exact g.accepted hs (by cases clean <;> simp) hp hc
      · exact ⟨g.quiet.running, g.accepted hp hc⟩
    have es : s.next clean (.read (.connAck c)) = s.onAccepted clean c := by simp [Sender.next, key.1, hc]
    rw [es]
    exact ⟨hs.accepted clean c, h.starts, .inl (key.2.obs hsame)⟩
  | @refused c missed rest hp hc =>
    have hsame := sentIn_same (tr := tr) (x := .read (.connAck c)) (by simp)
    have es : s.next clean (.read (.connAck c)) = s := by
      simp only [Sender.next, hc, Sender.onAck]
      simp
    rw [es]
    have hsub : rest.Sublist w.toClient := by rw [hp]; exact (List.sublist_cons_self _ _).trans (List.sublist_append_right _ _)
    refine ⟨hs, h.starts, ?_⟩
    rcases h.state with g | g
    · exact .inl ((g.less hsub).obs hsame)
    · exact .inr ((g.less hsub).obs hsame)
  | started hu =>
    refine ⟨hs.of (List.Sublist.refl _) hs.acc List.nodup_nil, h.starts, ?_⟩
    rcases h.state with g | g
    · exact .inl ((g.started hu).obs (sentIn_same (by simp)))
    · rw [g.quiet.up] at hu; simp at hu
  | ended =>
    refine ⟨hs.same rfl rfl rfl, h.starts, ?_⟩
    rcases h.state with g | g
    · exact .inl (g.ended.obs (sentIn_same (by simp)))
    · exact .inr (g.ended.obs (sentIn_same (by simp)))
  | cancelled =>
    refine ⟨hs.same rfl rfl rfl, h.starts, ?_⟩
    rcases h.state with g | g
    · exact .inl (g.ended.obs (sentIn_same (by simp)))
    · exact .inr (g.ended.obs (sentIn_same (by simp)))
  | connectFailed =>
    refine ⟨hs, h.starts, ?_⟩
    rcases h.state with g | g
    · exact .inl (g.down.obs (sentIn_same (by simp)))
    · exact .inr (g.down.obs (sentIn_same (by simp)))
  | connectPanicked =>
    refine ⟨hs, h.starts, ?_⟩
    rcases h.state with g | g
    · exact .inl (g.down.obs (sentIn_same (by simp)))
    · exact .inr (g.down.obs (sentIn_same (by simp)))
  | connected =>
    refine ⟨hs, h.starts, ?_⟩
    rcases h.state with g | g
    · exact .inl (g.obs (sentIn_same (by simp)))
    · exact .inr (g.obs (sentIn_same (by simp)))
  | delivered =>
    refine ⟨hs, h.starts, ?_⟩
    rcases h.state with g | g
    · exact .inl (g.obs (sentIn_same (by simp)))
    · exact .inr (g.obs (sentIn_same (by simp)))
  | user =>
    refine ⟨hs, h.starts, ?_⟩
    rcases h.state with g | g
    · exact .inl (g.obs (sentIn_same (by simp)))
    · exact .inr (g.obs (sentIn_same (by simp)))

end client

theorem Consistent.start (clean keeps : Bool) : Consistent clean keeps [] Sender.start World.start := by
  refine ⟨⟨by simp [Sender.start], by simp [Sender.start], by simp [Sender.start], by simp [Sender.start]⟩, by simp [World.start],
    .inl ⟨⟨⟨[], ?_, ?_⟩, ?_, ?_⟩, ?_, ?_, ?_, ?_, ?_, ?_, ?_⟩⟩
  · exact List.nil_sublist _
  · exact List.Perm.refl _
  · exact List.Perm.refl _
  · exact fun _ => Nat.le_refl _
  · intro i; exact .idle (by simp [Sender.start]) (by simp [Sender.start]) (by simp [World.start]) rfl
  · simp [Sender.start]
  · simp [Sender.start]
  · simp [Sender.start]
  · simp [World.start]
  · exact .inl rfl
  · exact fun _ => ⟨rfl, rfl, rfl, rfl⟩

/-- everything observed of the client obeys the rules for senders -/
def Obeys (clean : Bool) (tr : List Obs) : Prop :=
  ∀ pre p a b post, tr = pre ++ .wrote p a b :: post → (sender clean pre).MaySend clean p

theorem consistent {clean keeps : Bool} {tr : List Obs} {w : World} (h : Story keeps tr w) (hm : Obeys clean tr) :
    Consistent clean keeps tr (sender clean tr) w := by
  induction h with
  | start => exact Consistent.start clean keeps
  | @client tr w x w' _ hs ih =>
    have h1 : Obeys clean tr := fun pre p a b post e => hm pre p a b (post ++ [x]) (by rw [e]; simp)
    have := (ih h1).client hs (fun p a b e => hm tr p a b [] (by rw [e]))
    unfold sender at this ⊢
    rw [List.foldl_append]
    exact this
  | server _ hs ih => exact (ih hm).server hs

/-! ## what follows -/

theorem Obeys.left {clean : Bool} {tr more : List Obs} (h : Obeys clean (tr ++ more)) : Obeys clean tr :=
  fun pre p a b post e => h pre p a b (post ++ more) (by rw [e]; simp)

theorem Books.u {tr : List Obs} {s : Sender} {w : World} {clean keeps : Bool} (h : Consistent clean keeps tr s w) :
    ∃ u, u.Sublist (ofQos .exactlyOnce s.unacked) ∧ Books tr s w.handed u := by
  rcases h.state with h1 | h1
  · exact ⟨_, missing_sublist _ _, h1.books⟩
  · exact h1.books

/-- nothing is given up when the session lasts -/
theorem none_discarded {keeps clean : Bool} {tr : List Obs} {w : World} (h : Story keeps tr w) (hm : Obeys clean tr)
    (hr : (clean || !keeps) = false) : (sender clean tr).discarded = [] := by
  induction h with
  | start => rfl
  | server _ _ ih => exact ih hm
  | @client tr w x w' hst hs ih =>
    have ih := ih hm.left
    have hc := consistent hst hm.left
    have hne : ∀ y, sender clean (tr ++ [y]) = (sender clean tr).next clean y := fun y => by simp [sender]
    rw [hne]
    have hack : ∀ p, ((sender clean tr).onAck p).discarded = (sender clean tr).discarded := by
      intro p
      cases p <;> simp only [Sender.onAck] <;> (repeat' split) <;> rfl
    cases x with
    | wrote p a b =>
      rw [← ih]
      cases p <;> simp only [Sender.next, Sender.onWrote] <;> (repeat' split) <;> rfl
    | read p =>
      cases hrun : (sender clean tr).running with
      | true =>
        simp only [Sender.next, hrun, if_true]
        rw [hack]; exact ih
      | false =>
        cases p with
        | connAck c =>
          simp only [Sender.next, hrun, Bool.false_eq_true, if_false]
          split
          · rename_i hok
            unfold Sender.onAccepted
            split
            · exact ih
            · rename_i hres
              have hun : (sender clean tr).unacked = [] := by
                have hmem : Packet.connAck c ∈ w.toClient.filter isOk := by
                  rw [List.mem_filter]
                  refine ⟨?_, by simp [isOk, hok]⟩
                  cases hs with
                  | read _ h2 => exact absurd rfl (h2 c)
                  | accepted h1 _ => rw [h1]; simp
                  | refused h1 _ => rw [h1]; simp
                rcases hc.state with g | g
                · rcases g.ok with h1 | ⟨-, -, -, -, -, c', h6, h7⟩
                  · rw [h1] at hmem; simp at hmem
                  · rw [h6] at hmem
                    simp only [List.mem_singleton, Packet.connAck.injEq] at hmem
                    rcases h7 with h7 | h7
                    · exfalso
                      apply hres
                      rw [hmem]
                      simp only [Ledger.resumed, h7, Bool.true_and]
                      revert hr; cases clean <;> simp
                    · exact h7.1
                · rw [g.resets] at hr; simp at hr
              simp [hun, ih]
          · exact ih
        | _ => simp only [Sender.next, hrun]; exact ih
    | _ => exact ih

/-- nothing is handed on that was not sent -/
theorem handed_sent {keeps clean : Bool} {tr : List Obs} {w : World} (h : Story keeps tr w) (hm : Obeys clean tr) :
    ∀ p ∈ w.handed, p.qos = .atLeastOnce → p ∈ sentIn tr := by
  induction h with
  | start => simp [World.start]
  | @client tr w x w' hst hs ih =>
    intro p hp hq
    have he : w'.handed = w.handed := by cases hs <;> rfl
    rw [sentIn_append]
    exact List.mem_append_left _ (ih hm.left p (he ▸ hp) hq)
  | @server tr w w' hst hs ih =>
    have ih := ih hm
    have hc := consistent hst hm
    intro p hp hq
    cases hs with
    | qos1 hw hq1 hi =>
      rename_i q rest a
      have hmem : p ∈ w.handed ∨ p = message q := by
        revert hp
        show p ∈ (if Ledger.accepts a = true then w.handed ++ [message q] else w.handed) → _
        split
        · intro hp
          rcases List.mem_append.mp hp with hp | hp
          · exact .inl hp
          · exact .inr (List.mem_singleton.mp hp)
        · exact .inl
      rcases hmem with hmem | rfl
      · exact ih p hmem hq
      · have hsrv : toSrv a.id (.publish q) = true := by simp [toSrv, hq1, hi]
        rcases hc.state with g | g
        · have ht : tok w.toServer w.toClient a.id = [.publish q] := by
            have h1 := (g.phase a.id).length
            rw [hw, tok_cons_for hsrv] at h1 ⊢
            simp only [List.length_cons] at h1
            rw [List.length_eq_zero_iff.mp (by omega : (tok rest w.toClient a.id).length = 0)]
          have hu := (g.served ht).1
          have : message q ∈ ofQos .atLeastOnce (sentIn tr) := by
            refine g.books.one.symm.mem_iff.mp ?_
            simp only [List.mem_append]
            refine .inl (.inl (.inr ?_))
            simp only [ofQos, List.mem_filter, decide_eq_true_eq]
            exact ⟨hu, hq⟩
          exact (List.mem_filter.mp this).1
        · have := g.srv a.id
          rw [hw, List.filter_cons_of_pos hsrv] at this
          simp at this
    | qos2 hw hq2 hi hn =>
      rename_i q rest a
      have hmem : p ∈ w.handed ∨ p = message q := by
        revert hp
        show p ∈ (if Ledger.accepts a = true then w.handed ++ [message q] else w.handed) → _
        split
        · intro hp
          rcases List.mem_append.mp hp with hp | hp
          · exact .inl hp
          · exact .inr (List.mem_singleton.mp hp)
        · exact .inl
      rcases hmem with hmem | rfl
      · exact ih p hmem hq
      · have hq' : q.qos = .atLeastOnce := hq
        rw [hq2] at hq'; simp at hq'
    | _ => exact ih p hp hq

theorem times_cons (p q : Publish) (l : List Publish) : times p (q :: l) = times p [q] + times p l := times_append p [q] l

theorem times_pos {p : Publish} {l : List Publish} (h : 0 < times p l) : p ∈ l := by
  unfold times at h
  obtain ⟨x, hx⟩ := List.exists_mem_of_length_pos h
  rw [List.mem_filter] at hx
  have := hx.2
  simp only [decide_eq_true_eq] at this
  exact this ▸ hx.1

theorem times_perm {p : Publish} {a b : List Publish} (h : a.Perm b) : times p a = times p b := (h.filter _).length_eq

/-- what occurs at least as often is a part -/
theorem part_of_times : ∀ (a b : List Publish), (∀ p, times p a ≤ times p b) → ∃ e, b.Perm (a ++ e)
  | [], b, _ => ⟨b, .refl _⟩
  | x :: a, b, h => by
    have hx : x ∈ b := times_pos (by
      have := h x
      rw [times_cons, times_self] at this
      omega)
    obtain ⟨b1, b2, rfl⟩ := List.append_of_mem hx
    have hp : (b1 ++ x :: b2).Perm (x :: (b1 ++ b2)) := List.perm_middle
    obtain ⟨e, he⟩ := part_of_times a (b1 ++ b2) (fun p => by
      have := h p
      rw [times_perm hp, times_cons, times_cons p x (b1 ++ b2)] at this
      omega)
    exact ⟨e, hp.trans (he.cons x)⟩

theorem times_ofQos_le {p : Publish} {q : QoS} {a b : List Publish} (h : times p a ≤ times p b) : times p (ofQos q a) ≤ times p (ofQos q b) := by
  have key : ∀ l, times p (ofQos q l) = if p.qos = q then times p l else 0 := by
    intro l
    unfold times ofQos
    rw [List.filter_filter]
    split
    · rename_i hq
      congr 1
      apply List.filter_congr
      intro x _
      by_cases hx : x = p
      · simp [hx, hq]
      · simp [hx]
    · rename_i hq
      rw [List.length_eq_zero_iff, List.filter_eq_nil_iff]
      intro x _
      simp only [Bool.and_eq_true, decide_eq_true_eq, not_and]
      rintro rfl
      exact hq
  rw [key, key]
  split
  · exact h
  · exact Nat.le_refl _

end Mqrstt
