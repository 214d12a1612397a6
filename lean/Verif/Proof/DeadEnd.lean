import Verif.Spec.DeadEnd
import Verif.Proof.Accepted
import Verif.Proof.Calm
import Verif.Proof.Portable
import Verif.Props.Complete
/-!
# Everything can still be finished (C116)
-/

namespace Mqrstt
open Mqrstt.Spec _root_.Spec Mqrstt.Props

/-! ## observations that do no harm -/

/-- the network goes on, nobody asks for anything new, the server accepts everything and keeps the session -/
def Mild (clean : Bool) : Obs → Prop
  | .user (.submitted _) => True
  | .user _ => False
  | .read (.pubAck a) | .read (.pubRec a) => a.reason = .success
  | .read (.connAck c) => c.sessionPresent = !clean
  | .connectPanicked => False
  | .ended e => e ≠ .panicked
  | _ => True

theorem Mild.sender {clean : Bool} {x : Obs} (h : Mild clean x) (s : Sender) :
    (s.next clean x).refused = s.refused ∧ (clean = false → (s.next clean x).discarded = s.discarded) := by
  cases x with
  | wrote p a b =>
    have : ∀ p, (s.onWrote p).refused = s.refused ∧ (s.onWrote p).discarded = s.discarded := by
      intro p
      cases p with
      | publish p =>
        simp only [Sender.onWrote]
        split
        · exact ⟨rfl, rfl⟩
        · split <;> exact ⟨rfl, rfl⟩
      | _ => exact ⟨rfl, rfl⟩
    exact ⟨(this p).1, fun _ => (this p).2⟩
  | read p =>
    have hacc : ∀ a : Ack, a.reason = .success → Ledger.accepts a = true := fun a h => by simp [Ledger.accepts, h]
    simp only [Sender.next]
    split
    · cases p with
      | pubAck a => simp [Sender.onAck, hacc a h]
      | pubRec a =>
        simp only [Sender.onAck, hacc a h, if_true]
        split <;> exact ⟨rfl, fun _ => rfl⟩
      | _ => exact ⟨rfl, fun _ => rfl⟩
    · cases p with
      | connAck c =>
        have h : c.sessionPresent = !clean := h
        dsimp only
        split
        · simp only [Sender.onAccepted, Ledger.resumed, h]
          cases clean <;> simp
        · exact ⟨rfl, fun _ => rfl⟩
      | _ => exact ⟨rfl, fun _ => rfl⟩
  | _ => exact ⟨rfl, fun _ => rfl⟩

theorem mild_sender {clean : Bool} {obs : List Obs} (h : ∀ x ∈ obs, Mild clean x) (s : Sender) :
    (obs.foldl (Sender.next clean) s).refused = s.refused ∧
      (clean = false → (obs.foldl (Sender.next clean) s).discarded = s.discarded) := by
  induction obs generalizing s with
  | nil => exact ⟨rfl, fun _ => rfl⟩
  | cons x obs ih =>
    obtain ⟨h1, h2⟩ := (h x (by simp)).sender s
    obtain ⟨h3, h4⟩ := ih (fun y hy => h y (by simp [hy])) (s.next clean x)
    exact ⟨h3.trans h1, fun hc => (h4 hc).trans (h2 hc)⟩

/-- what the theorem asks of the history -/
structure Ready (tr : List Obs) : Prop where
  usable : Usable tr
  clients : ¬ ClientsGone tr
  legal : ∀ q id p, .user (.called q id p) ∈ tr → LegalCall q

theorem Ready.append {clean : Bool} {tr obs : List Obs} (h : Ready tr) (hm : ∀ x ∈ obs, Mild clean x) : Ready (tr ++ obs) := by
  refine ⟨?_, ?_, ?_⟩
  · intro x hx
    rcases List.mem_append.1 hx with hx | hx
    · exact h.usable x hx
    · have := hm x hx
      cases x with
      | user e => cases e <;> first | rfl | exact this.elim
      | ended e => cases e <;> first | rfl | exact (this rfl).elim
      | connectPanicked => exact this.elim
      | _ => rfl
  · intro hg
    rcases List.mem_append.1 hg with hx | hx
    · exact h.clients hx
    · exact hm _ hx
  · intro q id p hx
    rcases List.mem_append.1 hx with hx | hx
    · exact h.legal q id p hx
    · exact (hm _ hx).elim

/-! ## the answers that are given -/

/-- the shortest positive answers -/
inductive Plain : Packet → Prop
  | pubAck (id : UInt16) : Plain (.pubAck ⟨id, .success, .empty⟩)
  | pubRec (id : UInt16) : Plain (.pubRec ⟨id, .success, .empty⟩)
  | pubComp (id : UInt16) : Plain (.pubComp ⟨id, .success, .empty⟩)
  | subAck (id : UInt16) : Plain (.subAck ⟨id, .empty, []⟩)
  | unsubAck (id : UInt16) : Plain (.unsubAck ⟨id, .empty, []⟩)

theorem plain_answer {l : Ledger} (hq : ∀ p ∈ l.unacked, ∃ id, p.pkid = some id ∧ p.qos ≠ .atMostOnce) (h : ¬ NothingOpen l) :
    ∃ p, IsAnswer l p ∧ Plain p := by
  cases h1 : l.unacked with
  | cons p ps =>
    obtain ⟨id, hid, hne⟩ := hq p (by simp [h1])
    cases hqos : p.qos with
    | atMostOnce => exact absurd hqos hne
    | atLeastOnce => exact ⟨.pubAck ⟨id, .success, .empty⟩, ⟨p, by simp [h1], hid, hqos⟩, .pubAck id⟩
    | exactlyOnce => exact ⟨.pubRec ⟨id, .success, .empty⟩, ⟨⟨p, by simp [h1], hid, hqos⟩, rfl⟩, .pubRec id⟩
  | nil =>
    cases h2 : l.accepted with
    | cons id _ => exact ⟨.pubComp ⟨id, .success, .empty⟩, by simp [IsAnswer, h2], .pubComp id⟩
    | nil =>
      cases h3 : l.subscribes with
      | cons id _ => exact ⟨.subAck ⟨id, .empty, []⟩, by simp [IsAnswer, h3], .subAck id⟩
      | nil =>
        cases h4 : l.unsubscribes with
        | cons id _ => exact ⟨.unsubAck ⟨id, .empty, []⟩, by simp [IsAnswer, h4], .unsubAck id⟩
        | nil => exact absurd ⟨h1, h2, h3, h4⟩ h

theorem mkU16_back (id : UInt16) : mkU16 (UInt8.ofNat (id.toNat / 256)) (UInt8.ofNat (id.toNat % 256)) = id := by
  have h := aU16_u16Bytes (rest := []) id
  have h' : aU16 (u16Bytes id ++ []) = .ok (mkU16 (UInt8.ofNat (id.toNat / 256)) (UInt8.ofNat (id.toNat % 256)), []) := rfl
  rw [h'] at h
  simpa using h

/-- how a server sends them -/
theorem Plain.bytes {p : Packet} (h : Plain p) : ∃ bs, bs ≠ [] ∧ bs.length ≤ 4096 ∧ Packet.asyncRead bs = .ok (p, []) ∧
    ∀ checks, SmolStream.parse checks bs = .packet p [] := by
  cases h with
  | pubAck id =>
    refine ⟨[0x40, 2, UInt8.ofNat (id.toNat / 256), UInt8.ofNat (id.toNat % 256)], by simp, by simp, ?_, fun c => ?_⟩
    · conv => rhs; rw [← mkU16_back id]
      rfl
    · conv => rhs; rw [← mkU16_back id]
      rfl
  | pubRec id =>
    refine ⟨[0x50, 2, UInt8.ofNat (id.toNat / 256), UInt8.ofNat (id.toNat % 256)], by simp, by simp, ?_, fun c => ?_⟩
    · conv => rhs; rw [← mkU16_back id]
      rfl
    · conv => rhs; rw [← mkU16_back id]
      rfl
  | pubComp id =>
    refine ⟨[0x70, 2, UInt8.ofNat (id.toNat / 256), UInt8.ofNat (id.toNat % 256)], by simp, by simp, ?_, fun c => ?_⟩
    · conv => rhs; rw [← mkU16_back id]
      rfl
    · conv => rhs; rw [← mkU16_back id]
      rfl
  | subAck id =>
    refine ⟨[0x90, 3, UInt8.ofNat (id.toNat / 256), UInt8.ofNat (id.toNat % 256), 0], by simp, by simp, ?_, fun c => ?_⟩
    · conv => rhs; rw [← mkU16_back id]
      rfl
    · conv => rhs; rw [← mkU16_back id]
      rfl
  | unsubAck id =>
    refine ⟨[0xB0, 3, UInt8.ofNat (id.toNat / 256), UInt8.ofNat (id.toNat % 256), 0], by simp, by simp, ?_, fun c => ?_⟩
    · conv => rhs; rw [← mkU16_back id]
      rfl
    · conv => rhs; rw [← mkU16_back id]
      rfl

/-- what the session does with them -/
theorem Plain.received {n r : UInt16} {clean : Bool} {s : Sys} {l : Ledger} {lost : List UInt16} {p : Packet} (hp : Plain p)
    (h : Inv n r clean s l lost) (ha : s.alive = true) (hc : s.pool.closed = false) (hi : IsAnswer l p) :
    ∃ s' reply, s.step (.receive p) = some (s', .received p reply true) ∧ ∀ x ∈ reply, Sendable x := by
  cases hp with
  | pubAck id =>
    obtain ⟨q, hq, hi, -⟩ := hi
    obtain ⟨s', hs, -⟩ := h.pubAck_known (a := ⟨id, .success, .empty⟩) ha hc (List.mem_filterMap.2 ⟨q, hq, hi⟩)
    exact ⟨s', _, hs, by simp⟩
  | pubRec id =>
    obtain ⟨⟨q, hq, hi, -⟩, -⟩ := hi
    obtain ⟨s', hs, -⟩ := h.pubRec_known (a := ⟨id, .success, .empty⟩) ha (List.mem_filterMap.2 ⟨q, hq, hi⟩)
    refine ⟨s', _, hs, fun x hx => ?_⟩
    have : x = .pubRel ⟨id, .success, .empty⟩ := by
      have e : Ledger.accepts (⟨id, .success, .empty⟩ : Ack) = true := rfl
      simp only [e, if_true, Option.mem_def, Option.some.injEq] at hx
      exact hx.symm
    rw [this]
    exact sendable_closed.pubRel id
  | pubComp id =>
    obtain ⟨s', hs, -⟩ := h.pubComp_known (a := ⟨id, .success, .empty⟩) ha hc hi
    exact ⟨s', _, hs, by simp⟩
  | subAck id =>
    obtain ⟨s', hs, -⟩ := h.subAck_known (a := ⟨id, .empty, []⟩) ha hc hi
    exact ⟨s', _, hs, by simp⟩
  | unsubAck id =>
    obtain ⟨s', hs, -⟩ := h.unsubAck_known (a := ⟨id, .empty, []⟩) ha hc hi
    exact ⟨s', _, hs, by simp⟩

theorem Plain.mild {p : Packet} (h : Plain p) (clean : Bool) : Mild clean (.read p) := by
  cases h <;> first | rfl | trivial

/-! ## any runtime -/

/-- what is used of the session: the network and a client exist, and what it holds can be encoded -/
structure Sound (o : Options) (s : Sys) : Prop where
  alive : s.alive = true
  opened : s.pool.closed = false
  legal : LegalSys o s

theorem VRun.sound {clientId : Str} {calls : List Setter} {fl t tr v} (h : VRun fl (View.init (Options.build clientId calls) t) tr v)
    (hr : Ready tr) : Sound (Options.build clientId calls) v.sys := by
  refine ⟨h.usable hr.usable, ?_, h.legal hr.legal⟩
  cases e : v.sys.pool.closed with
  | false => rfl
  | true => exact absurd (h.closed.1 e) hr.clients

theorem Sound.takes {o : Options} {s : Sys} (h : Sound o s) {c : ConnAck} (hc : c.reason = .success) :
    ∃ s' ps, s.step (.connAck c) = some (s', .connected c ps) := by
  obtain ⟨sops, e⟩ := h.legal.reach
  have ha := h.alive
  have ho := h.opened
  rw [e] at ha ho ⊢
  exact (inv o.config sops).connAck_ok ha ho hc

theorem Sound.head_written {o : Options} {s : Sys} (h : Sound o s) (hmax : o.sendMaximum ≤ o.receiveMaximum) {p : Packet}
    {rest : List Packet} (hq : s.queue = p :: rest) :
    ∃ s', s.step (.write true) = some (s', .written p) ∧ s'.queue = rest ∧ s'.alive = true := by
  have hn := not_beyond_of h.legal.reach h.alive hmax hq
  obtain ⟨sops, e⟩ := h.legal.reach
  have hi := inv o.config sops
  rw [← e] at hi
  refine hi.write_head h.alive hq ?_
  rintro q id rfl hk
  exact Nat.le_of_not_lt fun hlt => hn ⟨id, hk, hlt⟩

/-- what is used of a runtime; `up`: `run` executes on a connection on which nothing has arrived that was not processed -/
structure Runtime (clientId : Str) (calls : List Setter) where
  S : Type
  O : Type
  step : S → O → Option (S × List Obs)
  serves : O → Bool
  sys : S → Sys
  R : List Obs → S → Prop
  up : S → Prop
  sound : ∀ {tr s}, R tr s → Ready tr → Sound (Options.build clientId calls) (sys s)
  extend : ∀ {tr s ops s' obs}, R tr s → history step s ops = (s', obs) → R (tr ++ obs) s'
  refresh : ∀ {tr s}, R tr s → Ready tr → ∃ ops s' obs, history step s ops = (s', obs) ∧ (∀ op ∈ ops, serves op = true) ∧ up s' ∧
    (∀ x ∈ obs, Mild (Options.build clientId calls).cleanStart x) ∧ (sys s').queue = (sys s).queue ∧ (sys s').pending = (sys s).pending
  submit : ∀ {s y e}, up s → (sys s).step (.submit 0) = some (y, e) → ∃ op s', history step s [op] = (s', [.user e]) ∧
    serves op = true ∧ up s' ∧ sys s' = y
  write : ∀ {s p rest y}, up s → (sys s).alive = true → (sys s).queue = p :: rest → Sendable p →
    (sys s).step (.write true) = some (y, .written p) → ∃ op s' a b, history step s [op] =
      (s', .wrote p a b :: if p.isDisconnect then [.ended (.status .outgoingDisconnect)] else []) ∧ serves op = true ∧ sys s' = y ∧
      (p.isDisconnect = false → up s')
  answer : ∀ {tr s p y reply}, R tr s → up s → (sys s).alive = true → Plain p → (sys s).step (.receive p) = some (y, .received p reply true) →
    (∀ x ∈ reply, Sendable x) → ∃ ops s' obs, history step s ops = (s', obs) ∧ (∀ op ∈ ops, serves op = true) ∧ up s' ∧ sys s' = y ∧
      ∀ x ∈ obs, Mild (Options.build clientId calls).cleanStart x

namespace Runtime
variable {clientId : Str} {calls : List Setter} (r : Runtime clientId calls)

/-- from here everything can be finished -/
def Ends (s : r.S) (todo : List Packet) : Prop :=
  ∃ ops s' obs, history r.step s ops = (s', obs) ∧ (∀ op ∈ ops, r.serves op = true) ∧ r.up s' ∧
    (∀ x ∈ obs, Mild (Options.build clientId calls).cleanStart x) ∧ todo.Sublist (writtenIn obs) ∧
    (r.sys s').queue = [] ∧ (r.sys s').pending = [] ∧
    ∃ sops, r.sys s' = client (Options.build clientId calls).config sops ∧ NothingOpen (ledger (Options.build clientId calls).config sops)

variable {r}

theorem Ends.after {s s1 : r.S} {ops : List r.O} {obs : List Obs} {todo todo1 : List Packet} (hh : history r.step s ops = (s1, obs))
    (hs : ∀ op ∈ ops, r.serves op = true) (hm : ∀ x ∈ obs, Mild (Options.build clientId calls).cleanStart x)
    (ht : ∀ l, todo1.Sublist l → todo.Sublist (writtenIn obs ++ l)) (h : r.Ends s1 todo1) : r.Ends s todo := by
  obtain ⟨ops', s', obs', h1, h2, h3, h4, h5, h6⟩ := h
  refine ⟨ops ++ ops', s', obs ++ obs', ?_, ?_, h3, ?_, ?_, h6⟩
  · rw [history_append, hh, h1]
  · intro op ho
    rcases List.mem_append.1 ho with ho | ho
    · exact hs op ho
    · exact h2 op ho
  · intro x hx
    rcases List.mem_append.1 hx with hx | hx
    · exact hm x hx
    · exact h4 x hx
  · have e : writtenIn (obs ++ obs') = writtenIn obs ++ writtenIn obs' := by simp [writtenIn]
    rw [e]
    exact ht _ h5

/-- the server gives the answers it owes -/
theorem answers (k : Nat) {tr : List Obs} {s : r.S} (hR : r.R tr s) (hr : Ready tr) (hu : r.up s) (hq : (r.sys s).queue = [])
    (hp : (r.sys s).pending = []) (sops : List Op) (hs : r.sys s = client (Options.build clientId calls).config sops)
    (hk : owed (ledger (Options.build clientId calls).config sops) = k) : r.Ends s [] := by
  induction k generalizing tr s sops with
  | zero => exact ⟨[], s, [], rfl, by simp, hu, by simp, by simp, hq, hp, sops, hs, owed_zero.1 hk⟩
  | succ k ih =>
    have ha := (r.sound hR hr).alive
    have hc := (r.sound hR hr).opened
    have hinv := inv (Options.build clientId calls).config sops
    obtain ⟨p, hp1, hp2⟩ := plain_answer (l := ledger (Options.build clientId calls).config sops)
      (fun q hq => by
        obtain ⟨id, h1, h2, -⟩ := (hinv.live (by rw [← hs]; exact ha)).stored q hq
        exact ⟨id, h1, h2⟩)
      (fun h => by have := owed_zero.2 h; omega)
    obtain ⟨y, reply, hst, hrep⟩ := hp2.received hinv (by rw [← hs]; exact ha) (by rw [← hs]; exact hc) hp1
    obtain ⟨ops, s', obs, h1, h2, h3, h4, h5⟩ := r.answer hR hu ha hp2 (by rw [hs]; exact hst) hrep
    obtain ⟨-, -, -, h9, -⟩ := answered (Options.build clientId calls).config sops (by rw [← hs]; exact ha) (by rw [← hs]; exact hc) p hp1
    have hless := hinv.owed_less hp1
    have hstep : (r.sys s).step (.receive p) = some (y, .received p reply true) := by rw [hs]; exact hst
    refine Ends.after h1 h2 h5 (fun l _ => List.nil_sublist _) (ih (r.extend hR h1) (hr.append h5) h3 ?_ ?_ (sops ++ [.receive p]) ?_ ?_)
    · rw [h4, Sys.step_queue hstep (by simp), hq]; rfl
    · rw [h4, Sys.step_pending rfl hstep, hp]
    · rw [h4]; exact (client_snoc _ _ hst).1.symm
    · rw [h9]; omega

/-- everything asked for is written -/
theorem drain (hmax : (Options.build clientId calls).sendMaximum ≤ (Options.build clientId calls).receiveMaximum) (k : Nat)
    {tr : List Obs} {s : r.S} (hR : r.R tr s) (hr : Ready tr) (hu : r.up s)
    (hk : (r.sys s).queue.length + 2 * (r.sys s).pending.length ≤ k) : r.Ends s ((r.sys s).queue ++ (r.sys s).pending) := by
  induction k generalizing tr s with
  | zero =>
    have h1 : (r.sys s).queue = [] := List.length_eq_zero_iff.1 (by omega)
    have h2 : (r.sys s).pending = [] := List.length_eq_zero_iff.1 (by omega)
    obtain ⟨sops, hc⟩ := (r.sound hR hr).legal.reach
    rw [h1, h2]
    exact answers _ hR hr hu h1 h2 sops hc rfl
  | succ k ih =>
    have hS := r.sound hR hr
    have ha := hS.alive
    cases hq : (r.sys s).queue with
    | nil =>
      cases hp : (r.sys s).pending with
      | nil =>
        obtain ⟨sops, hc⟩ := hS.legal.reach
        exact answers _ hR hr hu hq hp sops hc rfl
      | cons p ps =>
        obtain ⟨y, hy, hy1, hy2⟩ : ∃ y, (r.sys s).step (.submit 0) = some (y, .submitted p) ∧ y.queue = [p] ∧ y.pending = ps := by
          refine ⟨{ r.sys s with pending := ps, queue := [p] }, ?_, rfl, rfl⟩
          simp [Sys.step, hp, ha, hq, channelSize]
        obtain ⟨op, s', h1, h2, h3, h4⟩ := r.submit hu hy
        have hm : ∀ x ∈ [Obs.user (.submitted p)], Mild (Options.build clientId calls).cleanStart x := by
          intro x hx
          simp only [List.mem_singleton] at hx
          subst hx
          trivial
        have := ih (r.extend hR h1) (hr.append hm) h3 (by
          rw [h4, hy1, hy2]
          simp only [hq, hp, List.length_nil, List.length_cons] at hk ⊢
          omega)
        refine Ends.after h1 (by simpa using h2) hm (fun l hl => ?_) this
        rw [h4, hy1, hy2] at hl
        simpa [writtenIn] using hl
    | cons p rest =>
      have hsend : Sendable p := hS.legal.held.waiting p (.inr (by rw [hq]; simp))
      obtain ⟨y, hy, hy1, -⟩ := hS.head_written hmax hq
      obtain ⟨op, s', a, b, h1, h2, h3, h4⟩ := r.write hu ha hq hsend hy
      have hpend : y.pending = (r.sys s).pending := Sys.step_pending rfl hy
      have hm : ∀ x ∈ (Obs.wrote p a b :: if p.isDisconnect then [.ended (.status .outgoingDisconnect)] else []),
          Mild (Options.build clientId calls).cleanStart x := by
        intro x hx
        rcases List.mem_cons.1 hx with rfl | hx
        · trivial
        · split at hx
          · obtain rfl := List.mem_singleton.1 hx
            exact fun h => by cases h
          · cases hx
      have hwr : writtenIn (Obs.wrote p a b :: if p.isDisconnect then [.ended (.status .outgoingDisconnect)] else []) = [p] := by
        cases p.isDisconnect <;> rfl
      have hlen : y.queue.length + 2 * y.pending.length ≤ k := by
        rw [hy1, hpend]
        simp only [hq, List.length_cons] at hk
        omega
      have hsub : ∀ l : List Packet, (y.queue ++ y.pending).Sublist l →
          (p :: rest ++ (r.sys s).pending).Sublist (writtenIn (Obs.wrote p a b :: if p.isDisconnect then
            [.ended (.status .outgoingDisconnect)] else []) ++ l) := by
        intro l hl
        rw [hwr]
        rw [hy1, hpend] at hl
        simpa using hl
      have hR' := r.extend hR h1
      have hr' := hr.append hm
      cases hd : p.isDisconnect with
      | false =>
        refine Ends.after h1 (by simpa using h2) hm hsub ?_
        have := ih hR' hr' (h4 hd) (by rw [h3]; exact hlen)
        rwa [h3] at this
      | true =>
        obtain ⟨ops, s2, obs, g1, g2, g3, g4, g5, g6⟩ := r.refresh hR' hr'
        refine Ends.after h1 (by simpa using h2) hm hsub ?_
        have := ih (r.extend hR' g1) (hr'.append g4) g3 (by rw [g5, g6, h3]; exact hlen)
        rw [g5, g6, h3] at this
        exact Ends.after g1 g2 g4 (fun l hl => hl.trans (List.sublist_append_right _ _)) this

/-- wherever the runtime is -/
theorem ends (hmax : (Options.build clientId calls).sendMaximum ≤ (Options.build clientId calls).receiveMaximum)
    {tr : List Obs} {s : r.S} (hR : r.R tr s) (hr : Ready tr) : r.Ends s ((r.sys s).queue ++ (r.sys s).pending) := by
  obtain ⟨ops, s2, obs, g1, g2, g3, g4, g5, g6⟩ := r.refresh hR hr
  have := drain hmax _ (r.extend hR g1) (hr.append g4) g3 (Nat.le_refl _)
  rw [g5, g6] at this
  exact Ends.after g1 g2 g4 (fun l hl => hl.trans (List.sublist_append_right _ _)) this

/-- nothing is left -/
theorem finishes (hmax : (Options.build clientId calls).sendMaximum ≤ (Options.build clientId calls).receiveMaximum)
    {tr : List Obs} {s : r.S} (hR : r.R tr s) (hr : Ready tr) :
    ∃ ops s' obs, history r.step s ops = (s', obs) ∧ (∀ op ∈ ops, r.serves op = true) ∧ r.up s' ∧ r.R (tr ++ obs) s' ∧
      ((r.sys s).queue ++ (r.sys s).pending).Sublist (writtenIn obs) ∧ (r.sys s').pending = [] ∧
      waitingPackets (r.sys s') = 0 ∧ keptMessages (r.sys s') = 0 ∧ rememberedIds (r.sys s') = 0 := by
  obtain ⟨ops, s', obs, h1, h2, h3, h4, h5, h6, h7, sops, h8, h9⟩ := ends hmax hR hr
  have ha := (r.sound (r.extend hR h1) (hr.append h4)).alive
  have hkept := C92_nothing_kept (Options.build clientId calls).config sops (by rw [← h8]; exact ha) h9
  rw [← h8] at hkept
  exact ⟨ops, s', obs, h1, h2, h3, r.extend hR h1, h5, h7, by simp [waitingPackets, h6], hkept.1, hkept.2.1⟩

/-- in terms of what is observed -/
theorem settles (hrun : ∀ {tr s}, r.R tr s → ∃ fl t v, VRun fl (View.init (Options.build clientId calls) t) tr v ∧ v.sys = r.sys s ∧
      (r.up s → v.running = true))
    (hmax : (Options.build clientId calls).sendMaximum ≤ (Options.build clientId calls).receiveMaximum)
    {tr : List Obs} {s : r.S} (hR : r.R tr s) (hr : Ready tr) :
    ∃ ops s' obs, history r.step s ops = (s', obs) ∧ (∀ op ∈ ops, r.serves op = true) ∧
      Settles (Options.build clientId calls).cleanStart tr obs ∧
      ((r.sys s).queue ++ (r.sys s).pending).Sublist (writtenIn obs) ∧
      waitingPackets (r.sys s') = 0 ∧ keptMessages (r.sys s') = 0 ∧ rememberedIds (r.sys s') = 0 := by
  obtain ⟨ops, s', obs, h1, h2, h3, h4, h5, h6, h7, sops, h8, h9⟩ := ends hmax hR hr
  obtain ⟨fl, t, v, hv, hvs, hup⟩ := hrun (r.extend hR h1)
  have ha : v.sys.alive = true := hv.usable (hr.append h4).usable
  have hkept := C92_nothing_kept (Options.build clientId calls).config sops (by rw [← h8, ← hvs]; exact ha) h9
  rw [← h8] at hkept
  obtain ⟨-, hkeep⟩ := hv.sends
  obtain ⟨n, m, l, lost, hi, hl⟩ := hkeep.inv
  obtain ⟨e1, e2⟩ := hl ha
  have hs := mild_sender h4 (sender (Options.build clientId calls).cleanStart tr)
  have hfold : obs.foldl (Sender.next (Options.build clientId calls).cleanStart) (sender (Options.build clientId calls).cleanStart tr) =
      sender (Options.build clientId calls).cleanStart (tr ++ obs) := by simp [sender]
  rw [hfold] at hs
  refine ⟨ops, s', obs, h1, h2, ⟨?_, ?_, ?_, ?_, hs.1, hs.2⟩, h5, ?_, hkept.1, hkept.2.1⟩
  · rw [← hv.up.2]; exact hup h3
  · rw [← hv.waitCount, hvs, h7]; rfl
  · rw [e1]
    have hlen := (hi.live ha).order
    have h0 : v.sys.handler.state.order = [] := by
      rw [hvs]
      have := hkept.2.1
      simp only [rememberedIds] at this
      exact List.length_eq_zero_iff.1 (by omega)
    rw [h0] at hlen
    cases hun : l.unacked with
    | nil => rfl
    | cons q qs =>
      obtain ⟨id, hid, -⟩ := (hi.live ha).stored q (by rw [hun]; simp)
      simp [Ledger.publishIds, hun, hid] at hlen
  · rw [e2]
    have h0 : v.sys.handler.state.rel = [] := by
      rw [hvs]
      have := hkept.2.1
      simp only [rememberedIds] at this
      exact List.length_eq_zero_iff.1 (by omega)
    have := count_length (hi.live ha).rel
    rw [h0] at this
    exact List.length_eq_zero_iff.1 this.symm
  · simp [waitingPackets, h6]

end Runtime
/-! ## tokio -/

/-- the times of a turn without delay -/
def nowTimes (n : Nat) : Times := ⟨n, n, n, n⟩

theorem nowTimes_ok (n : Nat) : (nowTimes n).ok n = true := by simp [nowTimes, Times.ok]

/-- the answer to CONNECT -/
def welcome (clean : Bool) : ConnAck := ⟨!clean, .success, .empty⟩

def welcomeBytes (clean : Bool) : Bytes := [0x20, 3, if clean then 0 else 1, 0, 0]

theorem welcome_stream (clean : Bool) : Packet.asyncRead (welcomeBytes clean) = .ok (.connAck (welcome clean), []) := by
  cases clean <;> rfl

theorem welcome_chunk (checks clean : Bool) : SmolStream.read checks 2 [] [welcomeBytes clean] = .done (.connAck (welcome clean), [], []) := by
  cases checks <;> cases clean <;> rfl

theorem history_single {S O : Type} {step : S → O → Option (S × List Obs)} {s s' : S} {op : O} {obs : List Obs}
    (h : step s op = some (s', obs)) : history step s [op] = (s', obs) := by
  simp [history, h]

theorem history_cons {S O : Type} {step : S → O → Option (S × List Obs)} {s s1 s2 : S} {op : O} {ops : List O} {o1 o2 : List Obs}
    (h : step s op = some (s1, o1)) (h2 : history step s1 ops = (s2, o2)) : history step s (op :: ops) = (s2, o1 ++ o2) := by
  simp [history, h, h2]

/-- `connect` and `run` of an idle tokio network -/
theorem Tokio.rejoin {clientId : Str} {calls : List Setter}
    (hopt : ∀ c, (Options.build clientId calls).connectPacket = .connect c → LegalConnect c) {s : Tokio}
    (ho : Tokio.sameOptions (Options.build clientId calls) s.options)
    (hS : Sound (Options.build clientId calls) s.sys) (hi : s.run = none) :
    ∃ ops s' obs, history Tokio.step s ops = (s', obs) ∧ (∀ op ∈ ops, onlyServesTokio op = true) ∧
      (s'.run.isSome = true ∧ s'.network = some ⟨[], false⟩) ∧
      (∀ x ∈ obs, Mild (Options.build clientId calls).cleanStart x) ∧ s'.sys.queue = s.sys.queue ∧ s'.sys.pending = s.sys.pending := by
  have ha := hS.alive
  obtain ⟨sys, ps, hs⟩ : ∃ s' ps, s.sys.step (.connAck (welcome (Options.build clientId calls).cleanStart)) =
    some (s', .connected (welcome (Options.build clientId calls).cleanStart) ps) := hS.takes rfl
  have ha' := Sys.step_stays_alive hs ha (by simp) (by simp)
  have hw : Tokio.writePacket s.options.connectPacket true = .ok () := by
    obtain ⟨-, bs, n, e, -⟩ := (sameOptions_fine hopt ho rfl).written
    have e : s.options.connectPacket.asyncWrite = .ok (bs, n) := e
    simp [Tokio.writePacket, e]
  have hst : s.step (.connect ⟨true, welcomeBytes (Options.build clientId calls).cleanStart, false, fun _ => true, true, nowTimes s.now⟩) =
      some ({ ({ s with now := s.now }.noteConnAck (welcome (Options.build clientId calls).cleanStart) s.now) with
          sys := sys, lastAction := s.now, network := some ⟨[], false⟩ },
        [.wrote s.options.connectPacket s.now s.now, .read (.connAck (welcome (Options.build clientId calls).cleanStart)),
          .delivered (.connAck (welcome (Options.build clientId calls).cleanStart))] ++
          Tokio.writePackets (fun _ => true) (nowTimes s.now) 0 ps ++ [.connected (welcome (Options.build clientId calls).cleanStart) s.now]) := by
    have hc : (welcome (Options.build clientId calls).cleanStart).reason = .success := rfl
    simp only [Tokio.step, Tokio.connect, nowTimes_ok, ha, hi, Option.isNone_none, Bool.and_self, if_true, hw, welcome_stream, hc,
      Tokio.established, Tokio.noteConnAck, hs]
    simp [nowTimes]
  refine ⟨[.connect ⟨true, welcomeBytes (Options.build clientId calls).cleanStart, false, fun _ => true, true, nowTimes s.now⟩, .start],
    _, _, history_cons hst (history_single (s' := { ({ s with now := s.now }.noteConnAck (welcome (Options.build clientId calls).cleanStart) s.now) with
          sys := sys, lastAction := s.now, network := some ⟨[], false⟩, run := some none }) (obs := [.started]) ?_), ?_, ⟨rfl, rfl⟩, ?_, ?_, ?_⟩
  · have hrun : (s.noteConnAck (welcome (Options.build clientId calls).cleanStart) s.now).run = none := hi
    simp only [Tokio.step, hrun, ha', Option.isNone_none, Bool.and_self, if_true]
  · intro op h
    simp only [List.mem_cons, List.not_mem_nil, or_false] at h
    rcases h with rfl | rfl <;> rfl
  · intro x hx
    simp only [List.mem_append, List.mem_cons, List.not_mem_nil, or_false] at hx
    rcases hx with (((rfl | rfl | rfl) | hx) | rfl) | rfl
    · trivial
    · rfl
    · trivial
    · obtain ⟨p, rfl⟩ := Tokio.writePackets_wrote _ _ _ _ x hx
      trivial
    · trivial
    · trivial
  · exact (Sys.step_queue hs (by simp)).trans (by simp [submittedPackets])
  · exact Sys.step_pending rfl hs

/-- tokio as a runtime, for any histories -/
def tokioRuntimeOf (clientId : Str) (calls : List Setter)
    (hopt : ∀ c, (Options.build clientId calls).connectPacket = .connect c → LegalConnect c) (R : List Obs → Tokio → Prop)
    (sound : ∀ {tr s}, R tr s → Ready tr → Sound (Options.build clientId calls) s.sys)
    (options : ∀ {tr s}, R tr s → Tokio.sameOptions (Options.build clientId calls) s.options)
    (link : ∀ {tr s}, R tr s → s.run.isSome = true → s.network.isSome = true)
    (extend : ∀ {tr s ops s' obs}, R tr s → history Tokio.step s ops = (s', obs) → R (tr ++ obs) s') : Runtime clientId calls where
  S := Tokio
  O := TokioOp
  step := Tokio.step
  serves := onlyServesTokio
  sys := Tokio.sys
  R := R
  up s := s.run.isSome = true ∧ s.network = some ⟨[], false⟩
  sound := sound
  extend := extend
  refresh := by
    intro tr s hR hr
    have ho := options hR
    have hS := sound hR hr
    cases hi : s.run with
    | none => exact Tokio.rejoin hopt ho hS hi
    | some aw =>
      obtain ⟨c, hc⟩ := Option.isSome_iff_exists.1 (link hR (by simp [hi]))
      have hst : s.step (.cancel 0) = some ({ s with run := none, network := some { c with input := c.input.drop 0 } }, [.cancelled]) := by
        simp only [Tokio.step, hi, hc, canLose_zero, if_true]
      have hm : ∀ x ∈ [Obs.cancelled], Mild (Options.build clientId calls).cleanStart x := by
        intro x hx
        simp only [List.mem_singleton] at hx
        subst hx
        trivial
      obtain ⟨ops', s', obs, h1, h2, h3, h4, h5, h6⟩ := Tokio.rejoin hopt (s := { s with run := none, network := some { c with input := c.input.drop 0 } })
        ho hS rfl
      refine ⟨_, s', _, history_cons hst h1, ?_, h3, ?_, h5, h6⟩
      · intro op hop
        rcases List.mem_cons.1 hop with rfl | hop
        · rfl
        · exact h2 op hop
      · intro x hx
        rcases List.mem_append.1 hx with hx | hx
        · exact hm x hx
        · exact h4 x hx
  submit := by
    intro s y e hu hs
    refine ⟨.client (.submit 0), { s with sys := y }, history_single ?_, rfl, hu, rfl⟩
    simp only [Tokio.step, Op.ofClient, if_true, hs]
  write := by
    intro s p rest y hu ha hq hp hs
    obtain ⟨hu, hn⟩ := hu
    obtain ⟨aw, hr⟩ := Option.isSome_iff_exists.1 hu
    have hw := (hp.writes true).2
    simp only [if_true] at hw
    cases hd : p.isDisconnect with
    | false =>
      refine ⟨.turn .outgoing 0 true (nowTimes s.now), { s with sys := y, lastAction := s.now }, s.now, s.now, history_single ?_, rfl, rfl, fun _ => ⟨hu, hn⟩⟩
      simp only [Tokio.step, Tokio.turn, hr, hn, nowTimes_ok, ha, Bool.and_self, if_true, canLose_zero, Tokio.onOutgoing, hq, hw, hs, hd]
      simp [nowTimes, hr, hn]
    | true =>
      refine ⟨.turn .outgoing 0 true (nowTimes s.now), { s with sys := y, lastAction := s.now, network := none, run := none }, s.now, s.now, history_single ?_, rfl, rfl,
        fun h => by cases h⟩
      simp only [Tokio.step, Tokio.turn, hr, hn, nowTimes_ok, ha, Bool.and_self, if_true, canLose_zero, Tokio.onOutgoing, hq, hw, hs, hd]
      simp [nowTimes, Tokio.finish]
  answer := by
    intro tr s p y reply hR hu ha hp hs hrep
    obtain ⟨hu, hn⟩ := hu
    obtain ⟨aw, hr⟩ := Option.isSome_iff_exists.1 hu
    obtain ⟨bs, -, -, hb, -⟩ := hp.bytes
    have h1 : s.step (.arrive bs) = some ({ s with network := some ⟨bs, false⟩ }, []) := by
      simp [Tokio.step, hn]
    have h2 : ∃ la, Tokio.step { s with network := some ⟨bs, false⟩ } (.turn .read 0 true (nowTimes s.now)) =
        some ({ s with sys := y, network := some ⟨[], false⟩, lastAction := la },
          [.read p, .delivered p] ++ (reply.toList.map fun r => .wrote r s.now s.now)) := by
      cases reply with
      | none =>
        refine ⟨s.lastAction, ?_⟩
        simp only [Tokio.step, Tokio.turn, hr, nowTimes_ok, ha, Bool.and_self, if_true, Tokio.onRead, hb]
        cases hp <;> simp only [Tokio.onPacket, hs] <;> simp [nowTimes, hr]
      | some x =>
        refine ⟨s.now, ?_⟩
        have hw := ((hrep x rfl).writes true).2
        simp only [if_true] at hw
        simp only [Tokio.step, Tokio.turn, hr, nowTimes_ok, ha, Bool.and_self, if_true, Tokio.onRead, hb]
        cases hp <;> simp only [Tokio.onPacket, hs, hw] <;> simp [nowTimes, hr]
    obtain ⟨la, h2⟩ := h2
    refine ⟨_, _, _, history_cons h1 (history_single h2), ?_, ⟨hu, rfl⟩, rfl, ?_⟩
    · intro op h
      simp only [List.mem_cons, List.not_mem_nil, or_false] at h
      rcases h with rfl | rfl <;> rfl
    · intro x hx
      simp only [List.nil_append, List.mem_append, List.mem_cons, List.not_mem_nil, or_false, List.mem_map] at hx
      rcases hx with (rfl | rfl) | ⟨q, -, rfl⟩
      · exact hp.mild _
      · trivial
      · trivial

/-- tokio as a runtime -/
def tokioRuntime (clientId : Str) (calls : List Setter)
    (hopt : ∀ c, (Options.build clientId calls).connectPacket = .connect c → LegalConnect c) (t : Nat) : Runtime clientId calls :=
  tokioRuntimeOf clientId calls hopt
    (fun tr s => ∃ ops, history Tokio.step (Tokio.new (Options.build clientId calls) t) ops = (s, tr))
    (by
      rintro tr s ⟨ops, h⟩ hr
      have hv := Tokio.vrun (Options.build clientId calls) t ops
      simp only [Tokio.runOps, h] at hv
      exact hv.sound hr)
    (by
      rintro tr s ⟨ops, h⟩
      have ho := tokio_options (Options.build clientId calls) t ops
      simp only [tokio, Tokio.runOps, h] at ho
      exact ho)
    (by
      rintro tr s ⟨ops, h⟩ hi
      have hv := Tokio.vrun (Options.build clientId calls) t ops
      simp only [Tokio.runOps, h] at hv
      exact (hv.running_ready hi).1)
    (by
      rintro tr s ops s' obs ⟨ops0, h⟩ h'
      exact ⟨ops0 ++ ops, by rw [history_append, h, h']⟩)

theorem tokioRuntime_run {clientId : Str} {calls : List Setter}
    {hopt : ∀ c, (Options.build clientId calls).connectPacket = .connect c → LegalConnect c} {t : Nat} {tr : List Obs} {s : Tokio}
    (h : (tokioRuntime clientId calls hopt t).R tr s) : ∃ fl t v, VRun fl (View.init (Options.build clientId calls) t) tr v ∧
      v.sys = s.sys ∧ ((tokioRuntime clientId calls hopt t).up s → v.running = true) := by
  obtain ⟨ops, h⟩ := h
  have hv := Tokio.vrun (Options.build clientId calls) t ops
  simp only [Tokio.runOps, h] at hv
  exact ⟨_, _, _, hv, rfl, fun h => h.1⟩

/-! ## smol -/

/-- `connect` and `run` of an idle smol network -/
theorem Smol.rejoin {clientId : Str} {calls : List Setter}
    (hopt : ∀ c, (Options.build clientId calls).connectPacket = .connect c → LegalConnect c) {s : Smol}
    (ho : s.options = Options.build clientId calls)
    (hS : Sound (Options.build clientId calls) s.sys) (hi : s.running = false) (hg : s.outgoing = []) :
    ∃ ops s' obs, history Smol.step s ops = (s', obs) ∧ (∀ op ∈ ops, onlyServesSmol op = true) ∧
      (s'.running = true ∧ s'.network = some [] ∧ s'.outgoing = []) ∧
      (∀ x ∈ obs, Mild (Options.build clientId calls).cleanStart x) ∧ s'.sys.queue = s.sys.queue ∧ s'.sys.pending = s.sys.pending := by
  have ha := hS.alive
  obtain ⟨sys, ps, hs⟩ : ∃ s' ps, s.sys.step (.connAck (welcome (Options.build clientId calls).cleanStart)) =
    some (s', .connected (welcome (Options.build clientId calls).cleanStart) ps) := hS.takes rfl
  have ha' := Sys.step_stays_alive hs ha (by simp) (by simp)
  have hre : Smol.writeAll ps true = .ok () := Smol.writeAll_ok (hS.legal.resent hs)
  have hw : Smol.writePacket s.options.connectPacket true = .ok () := by
    rw [ho]
    obtain ⟨⟨bs, e, -⟩, -⟩ := (sameOptions_fine hopt (.refl _) rfl).written
    have e : (Options.build clientId calls).connectPacket.write = .ok bs := e
    simp [Smol.writePacket, e]
  have hst : s.step (.connect ⟨true, [welcomeBytes (Options.build clientId calls).cleanStart], true, nowTimes s.now⟩) =
      some ({ ({ s with now := s.now }.noteConnAck (welcome (Options.build clientId calls).cleanStart) s.now) with
          sys := sys, lastAction := s.now, network := some [] },
        [.wrote s.options.connectPacket s.now s.now, .read (.connAck (welcome (Options.build clientId calls).cleanStart)),
          .delivered (.connAck (welcome (Options.build clientId calls).cleanStart))] ++
          (ps.map fun p => .wrote p s.now s.now) ++ [.connected (welcome (Options.build clientId calls).cleanStart) s.now]) := by
    have hc : (welcome (Options.build clientId calls).cleanStart).reason = .success := rfl
    simp only [Smol.step, Smol.connect, nowTimes_ok, ha, hi, Bool.not_false, Bool.and_self, if_true, hw, List.length_cons, List.length_nil,
      Nat.zero_add, Nat.reduceAdd, welcome_chunk, hc, Smol.established, Smol.noteConnAck, hs, hre]
    simp [nowTimes]
  refine ⟨[.connect ⟨true, [welcomeBytes (Options.build clientId calls).cleanStart], true, nowTimes s.now⟩, .start],
    _, _, history_cons hst (history_single (s' := { ({ s with now := s.now }.noteConnAck (welcome (Options.build clientId calls).cleanStart) s.now) with
          sys := sys, lastAction := s.now, network := some [], running := true }) (obs := [.started]) ?_), ?_, ⟨rfl, rfl, hg⟩, ?_, ?_, ?_⟩
  · have hrun : (s.noteConnAck (welcome (Options.build clientId calls).cleanStart) s.now).running = false := hi
    simp only [Smol.step, hrun, ha', Bool.not_false, Bool.and_self, if_true]
  · intro op h
    simp only [List.mem_cons, List.not_mem_nil, or_false] at h
    rcases h with rfl | rfl <;> rfl
  · intro x hx
    simp only [List.mem_append, List.mem_cons, List.not_mem_nil, or_false, List.mem_map] at hx
    rcases hx with (((rfl | rfl | rfl) | ⟨p, -, rfl⟩) | rfl) | rfl
    · trivial
    · rfl
    · trivial
    · trivial
    · trivial
    · trivial
  · exact (Sys.step_queue hs (by simp)).trans (by simp [submittedPackets])
  · exact Sys.step_pending rfl hs

/-- smol as a runtime, for any histories -/
def smolRuntimeOf (clientId : Str) (calls : List Setter)
    (hopt : ∀ c, (Options.build clientId calls).connectPacket = .connect c → LegalConnect c) (R : List Obs → Smol → Prop)
    (sound : ∀ {tr s}, R tr s → Ready tr → Sound (Options.build clientId calls) s.sys)
    (options : ∀ {tr s}, R tr s → s.options = Options.build clientId calls)
    (good : ∀ {tr s}, R tr s → s.Good)
    (extend : ∀ {tr s ops s' obs}, R tr s → history Smol.step s ops = (s', obs) → R (tr ++ obs) s') : Runtime clientId calls where
  S := Smol
  O := SmolOp
  step := Smol.step
  serves := onlyServesSmol
  sys := Smol.sys
  R := R
  up s := s.running = true ∧ s.network = some [] ∧ s.outgoing = []
  sound := sound
  extend := extend
  refresh := by
    intro tr s hR hr
    have ho := options hR
    have hg := good hR
    have hS := sound hR hr
    cases hi : s.running with
    | false => exact Smol.rejoin hopt ho hS hi hg.outgoing
    | true =>
      have hst : s.step .cancel = some ({ s with running := false }, [.cancelled]) := by
        simp only [Smol.step, hi, if_true]
      have hm : ∀ x ∈ [Obs.cancelled], Mild (Options.build clientId calls).cleanStart x := by
        intro x hx
        simp only [List.mem_singleton] at hx
        subst hx
        trivial
      obtain ⟨ops', s', obs, h1, h2, h3, h4, h5, h6⟩ := Smol.rejoin hopt (s := { s with running := false })
        ho hS rfl hg.outgoing
      refine ⟨_, s', _, history_cons hst h1, ?_, h3, ?_, h5, h6⟩
      · intro op hop
        rcases List.mem_cons.1 hop with rfl | hop
        · rfl
        · exact h2 op hop
      · intro x hx
        rcases List.mem_append.1 hx with hx | hx
        · exact hm x hx
        · exact h4 x hx
  submit := by
    intro s y e hu hs
    refine ⟨.client (.submit 0), { s with sys := y }, history_single ?_, rfl, hu, rfl⟩
    simp only [Smol.step, Op.ofClient, if_true, hs]
  write := by
    intro s p rest y hu ha hq hp hs
    obtain ⟨hr, hn, hg⟩ := hu
    have hw := (hp.writes true).1
    simp only [if_true] at hw
    cases hd : p.isDisconnect with
    | false =>
      refine ⟨.turn .outgoing true (nowTimes s.now), { s with sys := y, lastAction := s.now }, s.now, s.now, history_single ?_, rfl, rfl, fun _ => ⟨hr, hn, hg⟩⟩
      simp only [Smol.step, Smol.turn, hr, hn, nowTimes_ok, ha, Bool.and_self, if_true, Smol.onOutgoing, hq, hw, hs, hd]
      simp [nowTimes, hr, hn]
    | true =>
      refine ⟨.turn .outgoing true (nowTimes s.now), { s with sys := y, lastAction := s.now, network := none, await := none, outgoing := [], running := false },
        s.now, s.now, history_single ?_, rfl, rfl, fun h => by cases h⟩
      simp only [Smol.step, Smol.turn, hr, hn, nowTimes_ok, ha, Bool.and_self, if_true, Smol.onOutgoing, hq, hw, hs, hd]
      simp [nowTimes, Smol.finish]
  answer := by
    intro tr s p y reply hR hu ha hp hs hrep
    obtain ⟨hr, hn, hg⟩ := hu
    obtain ⟨bs, hb0, hb1, -, hb⟩ := hp.bytes
    have h2 : Smol.step s (.turn (.read bs) true (nowTimes s.now)) =
        some ({ s with sys := y, network := some [], lastAction := s.now, outgoing := [] },
          [.read p, .delivered p] ++ (reply.toList.map fun r => .wrote r s.now s.now)) := by
      have hw := Sendable.writes_all (ps := reply.toList) (by simpa using hrep) true
      simp only [if_true] at hw
      simp only [Smol.step, Smol.turn, hr, hn, nowTimes_ok, ha, Bool.and_self, if_true, Smol.onRead, if_neg hb0,
        if_neg (Nat.not_lt.2 hb1), List.nil_append, hb]
      cases hp <;> simp only [Smol.onPacket, hs, Smol.flushOutgoing, hg, List.nil_append, hw] <;> simp [nowTimes, hr]
    refine ⟨_, _, _, history_single h2, ?_, ⟨hr, rfl, rfl⟩, rfl, ?_⟩
    · intro op h
      simp only [List.mem_cons, List.not_mem_nil, or_false] at h
      subst h
      rfl
    · intro x hx
      simp only [List.mem_append, List.mem_cons, List.not_mem_nil, or_false, List.mem_map] at hx
      rcases hx with (rfl | rfl) | ⟨q, -, rfl⟩
      · exact hp.mild _
      · trivial
      · trivial

/-- smol as a runtime -/
def smolRuntime (clientId : Str) (calls : List Setter)
    (hopt : ∀ c, (Options.build clientId calls).connectPacket = .connect c → LegalConnect c) (checks : Bool) (t : Nat) :
    Runtime clientId calls :=
  smolRuntimeOf clientId calls hopt
    (fun tr s => ∃ ops, history Smol.step (Smol.new checks (Options.build clientId calls) t) ops = (s, tr))
    (by
      rintro tr s ⟨ops, h⟩ hr
      have hv := Smol.vrun checks (Options.build clientId calls) t ops
      simp only [Smol.runOps, h] at hv
      exact hv.sound hr)
    (by
      rintro tr s ⟨ops, h⟩
      have ho := smol_options checks (Options.build clientId calls) t ops
      simp only [smol, Smol.runOps, h] at ho
      exact ho)
    (by
      rintro tr s ⟨ops, h⟩
      obtain ⟨-, hg⟩ := Smol.vrun_good checks (Options.build clientId calls) t ops
      simp only [Smol.runOps, h] at hg
      exact hg)
    (by
      rintro tr s ops s' obs ⟨ops0, h⟩ h'
      exact ⟨ops0 ++ ops, by rw [history_append, h, h']⟩)

theorem smolRuntime_run {clientId : Str} {calls : List Setter}
    {hopt : ∀ c, (Options.build clientId calls).connectPacket = .connect c → LegalConnect c} {checks : Bool} {t : Nat} {tr : List Obs}
    {s : Smol} (h : (smolRuntime clientId calls hopt checks t).R tr s) : ∃ fl t v, VRun fl (View.init (Options.build clientId calls) t) tr v ∧
      v.sys = s.sys ∧ ((smolRuntime clientId calls hopt checks t).up s → v.running = true) := by
  obtain ⟨ops, h⟩ := h
  have hv := Smol.vrun checks (Options.build clientId calls) t ops
  simp only [Smol.runOps, h] at hv
  exact ⟨_, _, _, hv, rfl, fun h => h.1⟩

end Mqrstt
