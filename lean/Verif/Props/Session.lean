import Verif.Proof.SessionFacts
/-!
# Packet identifiers and the sender's side of the session (C20-C28)

A history is any list of steps of any parties (client calls, submissions, dropped calls, writes that succeed
or fail, received packets, reconnects), see `Op`. `client` is the state and `events` what was observed after it;
the specification is the ledger of `Spec/Session.lean`, computed from the events only.
-/

namespace Mqrstt.Props
open Mqrstt Spec

/-- the configuration: send maximum, receive maximum, maximum packet size, clean start -/
structure Config where
  sendMax : UInt16
  recvMax : UInt16
  maxPacketSize : Nat
  cleanStart : Bool

/-- the client and network after a history -/
def client (cfg : Config) (ops : List Op) : Sys :=
  ((Sys.init cfg.sendMax cfg.recvMax cfg.maxPacketSize cfg.cleanStart).run ops).1

/-- what was observed -/
def events (cfg : Config) (ops : List Op) : List Event :=
  ((Sys.init cfg.sendMax cfg.recvMax cfg.maxPacketSize cfg.cleanStart).run ops).2

/-- the unfinished operations after a history, according to the specification -/
def ledger (cfg : Config) (ops : List Op) : Ledger := Ledger.after cfg.cleanStart (events cfg ops)

/-- the identifiers lost in a history, according to the specification -/
def lostIds (cfg : Config) (ops : List Op) : List UInt16 := Ledger.empty.lost cfg.cleanStart (events cfg ops)

/-- the identifiers 1..=send maximum -/
def allIds (cfg : Config) : List UInt16 := (List.range cfg.sendMax.toNat).map fun i => UInt16.ofNat (i + 1)

theorem inv (cfg : Config) (ops : List Op) :
    Inv cfg.sendMax cfg.recvMax cfg.cleanStart (client cfg ops) (ledger cfg ops) (lostIds cfg ops) :=
  Inv.history _ _ _ _ ops

/-- one more step -/
theorem client_snoc (cfg : Config) (ops : List Op) {op : Op} {s' : Sys} {e : Event}
    (h : (client cfg ops).step op = some (s', e)) :
    client cfg (ops ++ [op]) = s' ∧ events cfg (ops ++ [op]) = events cfg ops ++ [e] := by
  have hr := Sys.run_append (Sys.init cfg.sendMax cfg.recvMax cfg.maxPacketSize cfg.cleanStart) ops [op]
  have h1 : (((Sys.init cfg.sendMax cfg.recvMax cfg.maxPacketSize cfg.cleanStart).run ops).1).run [op] = (s', [e]) := by
    have h' : ((Sys.init cfg.sendMax cfg.recvMax cfg.maxPacketSize cfg.cleanStart).run ops).1.step op = some (s', e) := h
    simp only [Sys.run, h']
  rw [h1] at hr
  exact ⟨by simp only [client, hr], by simp only [events, hr]⟩

/-! ## concrete histories used by the examples -/

/-- two identifiers, small packets, clean start off -/
def demo : Config := ⟨2, 2, 1000, false⟩

def demoPublish (qos : QoS) : Request := .publish ⟨[116], by decide⟩ qos false [1, 2, 3] .empty

/-- a call, its submission and the successful write -/
def sendOps (q : Request) : List Op := [.call q, .submit 0, .write true]

def sessionConnAck (present : Bool) : ConnAck := ⟨present, .success, .empty⟩

/-! ## C20 -/

/-- **C20.** After every history all unfinished operations have different identifiers, and a call
that receives an identifier receives one that no unfinished operation has. -/
theorem C20_ids_unique (cfg : Config) (ops : List Op) :
    (ledger cfg ops).ids.Nodup ∧
    ∀ q id p s', (client cfg ops).step (.call q) = some (s', .called q (some id) p) →
      id ∉ (ledger cfg ops).ids := by
  have h := inv cfg ops
  constructor
  · rw [List.nodup_iff_count]
    intro a
    have := h.le_one a
    rw [← count_ids] at this
    omega
  · intro q id p s' hs hm
    have hinv := h.step hs
    have h1 := hinv.le_one id
    rw [← count_ids] at h1
    have h2 := List.count_pos_iff.mpr hm
    rw [count_ids] at h1 h2
    simp only [Ledger.step, List.count_append, count_toList, ind_self, Ledger.publishIds] at h1 h2
    omega

/-- a history with two operations in progress and one completed: identifiers 1 and 2 are in use -/
example : (ledger demo (sendOps (demoPublish .atLeastOnce) ++ sendOps (demoPublish .exactlyOnce))).ids = [1, 2] := by
  decide

/-! ## C21 -/

/-- **C21.** Every identifier that a call receives lies between 1 and the send maximum. -/
theorem C21_ids_valid (cfg : Config) (ops : List Op) (q : Request) (id : UInt16) (s' : Sys) :
    (∀ p, (client cfg ops).step (.call q) = some (s', .called q (some id) p) →
      1 ≤ id.toNat ∧ id.toNat ≤ cfg.sendMax.toNat) ∧
    (∀ e, (client cfg ops).step (.call q) = some (s', .rejected q (some id) e) →
      1 ≤ id.toNat ∧ id.toNat ≤ cfg.sendMax.toNat) := by
  have h := inv cfg ops
  have key : ∀ {l : Ledger} {lost : List UInt16}, Inv cfg.sendMax cfg.recvMax cfg.cleanStart s' l lost →
      (id ∈ l.ids ∨ id ∈ lost) → 1 ≤ id.toNat ∧ id.toNat ≤ cfg.sendMax.toNat := by
    intro l lost hinv hm
    have h1 : id ∈ (Pool.new cfg.sendMax).queue := by
      apply hinv.perm.subset
      rcases hm with hm | hm <;> simp [hm]
    exact (Pool.mem_new _ _).mp h1
  constructor
  · intro p hs
    refine key (h.step hs) (Or.inl ?_)
    simp [Ledger.step, Ledger.ids]
  · intro e hs
    refine key (h.step hs) (Or.inr ?_)
    simp [Ledger.leak]

/-- **C21.** Available, used and lost identifiers together are never more than the send maximum; whenever an
operation is unfinished there is room in the pool; and no step of any history ends in the abort of a
full pool: the only steps that panic are those of `Fatal`, which index a slot that does not exist. -/
theorem C21_pool_never_overflows (cfg : Config) (ops : List Op) :
    (client cfg ops).pool.queue.length + (ledger cfg ops).ids.length ≤ cfg.sendMax.toNat ∧
    (client cfg ops).pool.cap = cfg.sendMax.toNat ∧
    (∀ id ∈ (ledger cfg ops).ids, ((client cfg ops).pool.markAvailable id).2 ≠ .error .panic) ∧
    (∀ op s', (client cfg ops).step op = some (s', .panicked) → Fatal cfg.recvMax (client cfg ops) op) := by
  have h := inv cfg ops
  refine ⟨by have := h.length; omega, h.cap, ?_, fun op s' hs => h.step_panicked hs⟩
  intro id hm
  have := h.room hm
  simp only [Pool.markAvailable, this, if_true]
  split <;> simp

example : ∃ s', (client demo (sendOps (demoPublish .exactlyOnce))).step (.call (demoPublish .atLeastOnce))
    = some (s', .called (demoPublish .atLeastOnce) (some 2) (.publish ⟨false, .atLeastOnce, false, ⟨[116], by decide⟩, some 2, .empty, [1, 2, 3]⟩)) :=
  ⟨_, rfl⟩

/-! ## C22, C23 -/

/-- events of a history in which nothing is refused, dropped, lost or given up -/
def Harmless (cleanStart : Bool) : Event → Prop
  | .rejected _ id _ => id = none
  | .refused _ => False
  | .abandoned _ => False
  | .clientsDropped => False
  | .writeFailed _ => False
  | .received (.pubRec a) _ _ => Ledger.accepts a = true
  | .receivedError _ (.packetIdChannelError _) => False
  | .connected c _ => Ledger.resumed cleanStart c = true
  | .connectError _ _ => False
  | _ => True

theorem harmless_leak {clean : Bool} {e : Event} (h : Harmless clean e) (l : Ledger) : l.leak clean e = [] := by
  cases e with
  | rejected r id e => simp only [Harmless] at h; subst h; rfl
  | received p reply shown =>
    cases p <;> first | rfl | (simp only [Harmless] at h; simp [Ledger.leak, h])
  | receivedError p e => cases e <;> first | rfl | exact absurd h (by simp [Harmless])
  | connected c ps => simp only [Harmless] at h; simp [Ledger.leak, h]
  | _ => first | rfl | exact absurd h (by simp [Harmless])

/-- **C22.** In histories without failed writes, failed validation, dropped calls, negative PUBREC or session
loss no identifier is ever missing: those available and those of unfinished operations are together
exactly 1..=send maximum, each once. -/
theorem C22_no_id_missing (cfg : Config) (ops : List Op)
    (h : ∀ e ∈ events cfg ops, Harmless cfg.cleanStart e) :
    ((client cfg ops).pool.queue ++ (ledger cfg ops).ids).Perm (allIds cfg) := by
  have hlost : ∀ (es : List Event) (l : Ledger), (∀ e ∈ es, Harmless cfg.cleanStart e) → l.lost cfg.cleanStart es = [] := by
    intro es
    induction es with
    | nil => intro l _; rfl
    | cons e es ih =>
      intro l he
      simp only [Ledger.lost, harmless_leak (he e (by simp)), ih _ (fun x hx => he x (by simp [hx])), List.append_nil]
  have hp := (inv cfg ops).perm
  rw [lostIds, hlost _ _ h, List.append_nil] at hp
  exact hp

/-- the acknowledgement `p` completes the unfinished operation with identifier `id` -/
inductive Completes (l : Ledger) : Packet → UInt16 → Prop
  | publish (a : Ack) (h : a.id ∈ l.publishIds) : Completes l (.pubAck a) a.id
  | release (a : Ack) (h : a.id ∈ l.accepted) : Completes l (.pubComp a) a.id
  | subscribe (a : CodesAck) (h : a.id ∈ l.subscribes) : Completes l (.subAck a) a.id
  | unsubscribe (a : CodesAck) (h : a.id ∈ l.unsubscribes) : Completes l (.unsubAck a) a.id

/-- **C22.** The final acknowledgement of an operation is accepted and makes exactly that identifier
available, which was not available before and is in no unfinished operation afterwards. -/
theorem C22_completion_returns_id (cfg : Config) (ops : List Op) (p : Packet) (id : UInt16)
    (hnet : (client cfg ops).alive = true) (hclients : (client cfg ops).pool.closed = false)
    (h : Completes (ledger cfg ops) p id) :
    ∃ s', (client cfg ops).step (.receive p) = some (s', .received p none true) ∧
      s'.pool.queue = (client cfg ops).pool.queue ++ [id] ∧
      id ∉ (client cfg ops).pool.queue ∧ id ∉ (ledger cfg (ops ++ [.receive p])).ids := by
  have hi := inv cfg ops
  have key : ∃ s', (client cfg ops).step (.receive p) = some (s', .received p none true) ∧
      s'.pool.queue = (client cfg ops).pool.queue ++ [id] := by
    cases h with
    | publish a hm => exact hi.pubAck_known hnet hclients hm
    | release a hm => exact hi.pubComp_known hnet hclients hm
    | subscribe a hm => exact hi.subAck_known hnet hclients hm
    | unsubscribe a hm => exact hi.unsubAck_known hnet hclients hm
  obtain ⟨s', hs, hq⟩ := key
  refine ⟨s', hs, hq, ?_, ?_⟩
  · intro hm
    have hmem : id ∈ (ledger cfg ops).ids := by
      cases h with
      | publish a hp => exact Ledger.mem_ids (.inl hp)
      | release a hp => exact Ledger.mem_ids (.inr (.inl hp))
      | subscribe a hp => exact Ledger.mem_ids (.inr (.inr (.inl hp)))
      | unsubscribe a hp => exact Ledger.mem_ids (.inr (.inr (.inr hp)))
    have h1 := hi.le_one id
    rw [← count_ids] at h1
    have h2 := List.count_pos_iff.mpr hm
    have h3 := List.count_pos_iff.mpr hmem
    omega
  · intro hm
    have hi' := inv cfg (ops ++ [.receive p])
    rw [(client_snoc cfg ops hs).1] at hi'
    have h1 := hi'.le_one id
    rw [← count_ids, hq, List.count_append, count_single, ind_self] at h1
    have h3 := List.count_pos_iff.mpr hm
    omega

/-- a QoS 2 publish and a subscribe are completed: both identifiers are back, in order of completion -/
example :
    let ops := sendOps (demoPublish .exactlyOnce) ++ sendOps (.subscribe [] .empty) ++
      [.receive (.subAck ⟨2, .empty, []⟩), .receive (.pubRec ⟨1, .success, .empty⟩),
       .receive (.pubComp ⟨1, .success, .empty⟩)]
    (client demo ops).pool.queue = [2, 1] ∧ (ledger demo ops).ids = [] ∧ (events demo ops).length = 9 := by
  decide

/-- **C23**, the part that holds: the identifiers that are neither available nor used by an unfinished
operation are exactly those that the specification `Ledger.leak` lists: identifiers of calls that
returned an error or were dropped, of publishes refused by a negative PUBREC, of QoS 2 publishes waiting for
PUBCOMP when the session was lost, and those to be given back when no client is left. Missing for the full
claim: these are lost. (A write that fails keeps the identifier in `queued` for ever, see C47.) -/
theorem C23_exactly_these_lost_partial (cfg : Config) (ops : List Op) :
    ((client cfg ops).pool.queue ++ (ledger cfg ops).ids ++ lostIds cfg ops).Perm (allIds cfg) :=
  (inv cfg ops).perm

/-- no operation is unfinished, a client and the network exist, and still no call that needs an identifier will
ever get one -/
def StuckForever (cfg : Config) (ops : List Op) : Prop :=
  (ledger cfg ops).ids = [] ∧ (client cfg ops).alive = true ∧ (client cfg ops).pool.closed = false ∧
  ∀ ops' q id p, Event.called q (some id) p ∉ ((client cfg ops).run ops').2

theorem stuck_of_lost {n r : UInt16} {clean : Bool} : ∀ (ops : List Op) {s : Sys} {l : Ledger} {lost : List UInt16},
    Inv n r clean s l lost → lost.length = n.toNat → ∀ q id p, Event.called q (some id) p ∉ (s.run ops).2
  | [], s, l, lost, _, _ => by intro q id p hm; simp [Sys.run] at hm
  | op :: ops, s, l, lost, h, hlen => by
    intro q id p hm
    unfold Sys.run at hm
    cases hs : s.step op with
    | none => rw [hs] at hm; exact stuck_of_lost ops h hlen q id p hm
    | some v =>
      obtain ⟨s', e⟩ := v
      rw [hs] at hm
      have hi := h.step hs
      have hl := hi.length
      simp only [List.length_append] at hl
      rcases List.mem_cons.mp hm with hm | hm
      · subst hm
        simp only [Ledger.step, Ledger.ids, Option.toList_some, List.length_append, List.length_cons] at hl
        omega
      · refine stuck_of_lost ops hi ?_ q id p hm
        simp only [List.length_append]
        omega

theorem stuck {cfg : Config} {ops : List Op} (h1 : (ledger cfg ops).ids = [])
    (h2 : (client cfg ops).alive = true) (h3 : (client cfg ops).pool.closed = false)
    (h4 : (lostIds cfg ops).length = cfg.sendMax.toNat) : StuckForever cfg ops :=
  ⟨h1, h2, h3, fun ops' => stuck_of_lost ops' (inv cfg ops) h4⟩

/-- **C23 is violated**, in four ways: with a send maximum of one, after (1) a PUBREC with an error code,
(2) a call whose packet fails validation, (3) a call dropped while it waits for the queue, (4) the loss of the
session while a QoS 2 publish waits for PUBCOMP, no client can send anything that needs an identifier,
for ever. -/
theorem C23_ids_lost_violated :
    StuckForever ⟨1, 1, 1000, false⟩ (sendOps (demoPublish .exactlyOnce) ++ [.receive (.pubRec ⟨1, .quotaExceeded, .empty⟩)]) ∧
    StuckForever ⟨1, 1, 3, false⟩ [.call (demoPublish .atLeastOnce)] ∧
    StuckForever ⟨1, 1, 1000, false⟩ [.call (demoPublish .atLeastOnce), .abandon 0] ∧
    StuckForever ⟨1, 1, 1000, false⟩ (sendOps (demoPublish .exactlyOnce) ++
      [.receive (.pubRec ⟨1, .success, .empty⟩), .connAck (sessionConnAck false)]) := by
  refine ⟨stuck ?_ ?_ ?_ ?_, stuck ?_ ?_ ?_ ?_, stuck ?_ ?_ ?_ ?_, stuck ?_ ?_ ?_ ?_⟩ <;> decide

/-! ## C24 -/

/-- **C24.** The publishes of QoS 1 and 2 that were sent and not completed are at most send maximum many. -/
theorem C24_send_window (cfg : Config) (ops : List Op) :
    (ledger cfg ops).unacked.length + (ledger cfg ops).accepted.length ≤ cfg.sendMax.toNat := by
  have h1 := (inv cfg ops).length
  have h2 : (ledger cfg ops).publishIds.length = (ledger cfg ops).unacked.length :=
    filterMap_length _ (unacked_ids _ _ _ _ ops)
  simp only [Ledger.ids, List.length_append, h2] at h1
  omega

/-- both identifiers are used by publishes in flight -/
example : let l := ledger demo (sendOps (demoPublish .atLeastOnce) ++ sendOps (demoPublish .exactlyOnce) ++
      [.receive (.pubRec ⟨2, .success, .empty⟩)])
    l.unacked.length = 1 ∧ l.accepted.length = 1 := by decide

end Mqrstt.Props
