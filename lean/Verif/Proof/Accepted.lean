import Verif.Proof.Refusals
import Verif.Proof.Reuse
/-!
# Accepted calls
-/

namespace Mqrstt
open Mqrstt.Spec _root_.Spec Mqrstt.Props

theorem VStep.stillUsable {fl v o w} (h : VStep fl v o w) (ha : w.sys.alive = true) : v.sys.alive = true ∧ Usable o := by
  cases h
  case client op sys e hc hs =>
    refine ⟨Sys.step_alive hs ha, fun x hx => ?_⟩
    have := Sys.step_ofClient hc hs
    simp only [List.mem_singleton] at hx
    subst hx
    cases e <;> first | rfl | simp [Event.ofClient] at this
  case drop hr hs =>
    exfalso
    simp only [Sys.step] at hs
    split at hs
    · cases hs; cases ha
    · cases hs
  case readPanic hs => exact Bool.noConfusion ((Sys.step_panicked_alive hs).symm.trans ha)
  case outPanic hs => exact Bool.noConfusion ((Sys.step_panicked_alive hs).symm.trans ha)
  case establishPanic hs => exact Bool.noConfusion ((Sys.step_panicked_alive hs).symm.trans ha)
  case crashed => cases ha
  case connectCrashed => cases ha
  case accepted hs =>
    refine ⟨Sys.step_alive hs ha, fun x hx => ?_⟩
    simp only [shownObs, wrotes, List.mem_append, List.mem_map] at hx
    rcases hx with hx | ⟨_, _, rfl⟩
    · split at hx <;> (simp at hx; rcases hx with rfl | rfl <;> rfl)
    · rfl
  case acceptedFail hs =>
    refine ⟨Sys.step_alive hs ha, fun x hx => ?_⟩
    simp only [shownObs, List.mem_append] at hx
    rcases hx with hx | hx
    · split at hx <;> (simp at hx; rcases hx with rfl | rfl <;> rfl)
    · simp at hx; subst hx; rfl
  case established hs _ _ =>
    refine ⟨Sys.step_alive hs ha, fun x hx => ?_⟩
    simp only [wrotes, List.mem_append, List.mem_map, List.mem_cons, List.not_mem_nil, or_false] at hx
    rcases hx with (rfl | rfl | rfl) | ⟨_, _, rfl⟩ | rfl <;> rfl
  case establishFail hs _ _ =>
    refine ⟨Sys.step_alive hs ha, fun x hx => ?_⟩
    simp only [wrotes, List.mem_append, List.mem_map, List.mem_cons, List.not_mem_nil, or_false] at hx
    rcases hx with (rfl | rfl | rfl) | ⟨_, _, rfl⟩ | rfl <;> rfl
  case connectFailed ho =>
    refine ⟨ha, fun x hx => ?_⟩
    rcases ho with rfl | ⟨_, _, _, rfl⟩ <;> simp at hx
    · subst hx; rfl
    · rcases hx with rfl | rfl <;> rfl
  case outFail hs => exact ⟨Sys.step_alive hs ha, usable_of rfl⟩
  case outOk hs _ => exact ⟨Sys.step_alive hs ha, usable_of rfl⟩
  case outDisc hs _ => exact ⟨Sys.step_alive hs ha, usable_of rfl⟩
  case outErr hs => exact ⟨Sys.step_alive hs ha, usable_of rfl⟩
  case refusedPacket hs => exact ⟨Sys.step_alive hs ha, usable_of rfl⟩
  case establishErr hs => exact ⟨Sys.step_alive hs ha, usable_of rfl⟩
  all_goals exact ⟨ha, usable_of rfl⟩

/-- the network exists exactly as long as nothing has ended it -/
theorem VRun.alive_iff {fl o t tr v} (h : VRun fl (View.init o t) tr v) : v.sys.alive = true ↔ Usable tr := by
  refine ⟨?_, h.usable⟩
  refine h.induct (fun tr v => v.sys.alive = true → Usable tr) (fun _ x hx => by cases hx) ?_
  intro tr w o w' _ ih hs ha x hx
  obtain ⟨h1, h2⟩ := hs.stillUsable ha
  rcases List.mem_append.1 hx with hx | hx
  · exact ih h1 x hx
  · exact h2 x hx

theorem VRun.limit {fl o t tr v} (h : VRun fl (View.init o t) tr v) : v.sys.maxPacketSize = o.config.maxPacketSize := by
  obtain ⟨ops, hc⟩ := h.contains
  rw [hc.sys]; exact maxPacketSize_run ops _

/-! ## how many calls wait -/

/-- one observation and the number of waiting calls -/
def waitStep (n : Nat) : Obs → Nat
  | .user (.called _ _ _) => n + 1
  | .user (.submitted _) | .user (.refused _) | .user (.abandoned _) => n - 1
  | .user .clientsDropped => 0
  | _ => n

theorem waitingCalls_append (a b : List Obs) : waitingCalls (a ++ b) = b.foldl waitStep (waitingCalls a) := by
  rw [waitingCalls, List.foldl_append]; rfl

/-- what the network does leaves the waiting calls alone -/
theorem Sys.step_pending {s s' : Sys} {op : Op} {e : Event} (hc : op.ofClient = false) (h : s.step op = some (s', e)) :
    s'.pending = s.pending := by
  cases op with
  | call q => cases hc
  | submit k => cases hc
  | abandon k => cases hc
  | dropClients => cases hc
  | _ =>
    simp only [Sys.step] at h
    repeat' split at h
    all_goals first
      | cases h; done
      | (simp only [Option.some.injEq, Prod.mk.injEq] at h; obtain ⟨rfl, -⟩ := h; rfl)

theorem Sys.client_pending {s s' : Sys} {op : Op} {e : Event} (hc : op.ofClient = true) (h : s.step op = some (s', e)) :
    s'.pending.length = waitStep s.pending.length (.user e) := by
  cases op with
  | call q =>
    rcases call_cases h with ⟨t, id', ht, hw⟩ | ⟨rfl, rfl, -⟩
    · have hp : t.pending = s.pending := by cases ht <;> (rename_i ht; subst ht; rfl)
      obtain ⟨p, -, ⟨rfl, rfl, -⟩ | ⟨rfl, x, rfl, -⟩⟩ := callWith_cases hw
      · simp [waitStep, hp]
      · simp [waitStep, hp]
    · rfl
  | submit k =>
    simp only [Sys.step] at h
    split at h
    · cases h
    · rename_i hk
      have hlt := (List.getElem?_eq_some_iff.1 hk).1
      repeat' split at h
      all_goals first
        | cases h; done
        | (simp only [Option.some.injEq, Prod.mk.injEq] at h; obtain ⟨rfl, rfl⟩ := h; simp [waitStep, List.length_eraseIdx, hlt])
  | abandon k =>
    simp only [Sys.step] at h
    split at h
    · cases h
    · rename_i hk
      have hlt := (List.getElem?_eq_some_iff.1 hk).1
      simp only [Option.some.injEq, Prod.mk.injEq] at h
      obtain ⟨rfl, rfl⟩ := h
      simp [waitStep, List.length_eraseIdx, hlt]
  | dropClients =>
    simp only [Sys.step, Option.some.injEq, Prod.mk.injEq] at h
    obtain ⟨rfl, rfl⟩ := h
    rfl
  | _ => cases hc

theorem foldl_wait {o : List Obs} (n : Nat) (h : ∀ e, .user e ∉ o) : o.foldl waitStep n = n := by
  induction o with
  | nil => rfl
  | cons x o ih =>
    rw [List.foldl_cons]
    have : waitStep n x = n := by
      cases x with
      | user e => exact absurd (.head _) (h e)
      | _ => rfl
    rw [this]
    exact ih fun e he => h e (.tail _ he)

theorem VStep.waitCount {fl v o w} (h : VStep fl v o w) : w.sys.pending.length = o.foldl waitStep v.sys.pending.length := by
  cases h
  case client hc hs => exact Sys.client_pending hc hs
  case drop hr hs =>
    have := Sys.step_pending rfl hs
    simp only [Sys.step] at hs
    split at hs
    · cases hs; rfl
    · cases hs
  case accepted hs => rw [foldl_wait _ (by simp [mem_shown, mem_wrotes])]; exact congrArg List.length (Sys.step_pending rfl hs)
  case acceptedFail hs => rw [foldl_wait _ (by simp [mem_shown])]; exact congrArg List.length (Sys.step_pending rfl hs)
  case refusedPacket hs => exact congrArg List.length (Sys.step_pending rfl hs)
  case readPanic hs => exact congrArg List.length (Sys.step_pending rfl hs)
  case outFail hs => exact congrArg List.length (Sys.step_pending rfl hs)
  case outOk hs _ => exact congrArg List.length (Sys.step_pending rfl hs)
  case outDisc hs _ => exact congrArg List.length (Sys.step_pending rfl hs)
  case outErr hs => exact congrArg List.length (Sys.step_pending rfl hs)
  case outPanic hs => exact congrArg List.length (Sys.step_pending rfl hs)
  case established hs _ _ => rw [foldl_wait _ (by simp [mem_wrotes])]; exact congrArg List.length (Sys.step_pending rfl hs)
  case establishFail hs _ _ => rw [foldl_wait _ (by simp [mem_wrotes])]; exact congrArg List.length (Sys.step_pending rfl hs)
  case establishErr hs => exact congrArg List.length (Sys.step_pending rfl hs)
  case establishPanic hs => exact congrArg List.length (Sys.step_pending rfl hs)
  case connectFailed ho => rcases ho with rfl | ⟨_, _, _, rfl⟩ <;> rfl
  all_goals rfl

theorem VRun.waitCount {fl o t tr v} (h : VRun fl (View.init o t) tr v) : v.sys.pending.length = waitingCalls tr := by
  refine h.induct (fun tr v => v.sys.pending.length = waitingCalls tr) rfl ?_
  intro tr w o w' _ ih hs
  rw [hs.waitCount, waitingCalls_append, ih]

/-! ## the call -/

theorem sized {q : Request} {id : Option UInt16} {p : Packet} (hq : q.packet id = some p) (hd : ∀ r P, q ≠ .disconnect r P) :
    p.type = .publish ∨ p.type = .subscribe ∨ p.type = .unsubscribe := by
  cases q with
  | publish => cases hq; exact .inl rfl
  | subscribe => cases id <;> cases hq; exact .inr (.inl rfl)
  | unsubscribe => cases id <;> cases hq; exact .inr (.inr rfl)
  | disconnect r P => exact absurd rfl (hd r P)

theorem validate_servable {q : Request} {id : Option UInt16} {p : Packet} (hi : id.isSome = q.takesId) (hq : q.packet id = some p) {limit : Nat}
    (h : Servable limit q) : p.validate limit = .ok () := by
  cases hv : p.validate limit with
  | ok => rfl
  | error e =>
    exfalso
    obtain ⟨wf, m, hm, hl⟩ := h.2 id p hi hq
    rcases validate_error hq hv with ⟨-, h1, h2⟩ | ⟨topic, ht, -, h1⟩
    · have := (sent_size wf h2 hm).1
      omega
    · have := h.1 topic ht
      omega

theorem validate_unservable {q : Request} {id : Option UInt16} {p : Packet} (hi : id.isSome = q.takesId) (hq : q.packet id = some p) {limit : Nat}
    (hd : ∀ r P, q ≠ .disconnect r P) (h : Unservable (limit + 5) q) : ∃ e, p.validate limit = .error e := by
  have key : p.validate limit = .ok () → p.bodyWireLen ≤ limit ∧ ∀ topic ∈ topicsIn q, topic.bytes.length ≤ 65535 := by
    intro hv
    cases q with
    | publish topic qos retain payload props =>
      cases hq
      simp only [Packet.validate, Publish.validate] at hv
      split at hv
      · cases hv
      · rename_i h1
        by_cases h2 : topic.length > maximumTopicSize
        · rw [if_pos h2] at hv; cases hv
        · refine ⟨Nat.le_of_not_lt h1, ?_⟩
          simp only [topicsIn, List.mem_singleton, forall_eq]
          exact Nat.le_of_not_lt h2
    | subscribe topics props =>
      cases id <;> cases hq
      simp only [Packet.validate, Subscribe.validate] at hv
      repeat' split at hv
      all_goals first | cases hv; done | skip
      rename_i h1 _ h2
      refine ⟨Nat.le_of_not_lt h1, fun topic ht => ?_⟩
      obtain ⟨x, hx, rfl⟩ := List.mem_map.1 ht
      have := List.find?_eq_none.1 h2 x hx
      simpa [maximumTopicSize, Str.length] using this
    | unsubscribe topics props =>
      cases id <;> cases hq
      simp only [Packet.validate, Unsubscribe.validate] at hv
      repeat' split at hv
      all_goals first | cases hv; done | skip
      rename_i h1 _ h2
      refine ⟨Nat.le_of_not_lt h1, fun topic ht => ?_⟩
      have := List.find?_eq_none.1 h2 topic ht
      simpa [maximumTopicSize, Str.length] using this
    | disconnect r P => exact absurd rfl (hd r P)
  cases hv : p.validate limit with
  | error e => exact ⟨e, rfl⟩
  | ok =>
    exfalso
    obtain ⟨h1, h2⟩ := key hv
    rcases h with ⟨topic, ht, hl⟩ | h
    · have := h2 topic ht; omega
    · obtain ⟨wf, m, hm, hl⟩ := h id p hi hq
      have := (sent_size wf (sized hq hd) hm).2
      omega

/-- what a call does -/
theorem Sys.call_result (s : Sys) (q : Request) (hc : s.pool.closed = false) :
    (∃ id p, id.isSome = q.takesId ∧ q.packet id = some p ∧
      ((p.validate s.maxPacketSize = .ok () ∧ s.alive = true ∧ ∃ s', s.step (.call q) = some (s', .called q id p)) ∨
       ((s.alive = false ∨ ∃ e, p.validate s.maxPacketSize = .error e) ∧ ∃ s' e, s.step (.call q) = some (s', .rejected q id e)))) ∨
    (q.takesId = true ∧ s.pool.queue = [] ∧ ((s.alive = true ∧ s.step (.call q) = none) ∨
      (s.alive = false ∧ ∃ s' e, s.step (.call q) = some (s', .rejected q none e)))) := by
  have key : ∀ (t : Sys) (id : Option UInt16) (p : Packet), t.alive = s.alive → t.maxPacketSize = s.maxPacketSize →
      q.packet id = some p →
      (p.validate s.maxPacketSize = .ok () ∧ s.alive = true ∧ ∃ s', t.callWith q id = some (s', .called q id p)) ∨
       ((s.alive = false ∨ ∃ e, p.validate s.maxPacketSize = .error e) ∧ ∃ s' e, t.callWith q id = some (s', .rejected q id e)) := by
    intro t id p ha hm hp
    simp only [Sys.callWith, hp, hm, ha]
    cases hv : p.validate s.maxPacketSize with
    | error e => exact .inr ⟨.inr ⟨e, rfl⟩, _, _, rfl⟩
    | ok =>
      cases hs : s.alive with
      | true => exact .inl ⟨rfl, rfl, _, rfl⟩
      | false => exact .inr ⟨.inl rfl, _, _, rfl⟩
  simp only [Sys.step, Sys.call, hc]
  cases ht : q.takesId with
  | false =>
    obtain ⟨p, hp⟩ : ∃ p, q.packet none = some p := by
      cases q with
      | publish => exact ⟨_, rfl⟩
      | disconnect => exact ⟨_, rfl⟩
      | _ => cases ht
    exact .inl ⟨none, p, rfl, hp, key s none p rfl rfl hp⟩
  | true =>
    cases hp : s.pool.take with
    | none =>
      right
      have hq : s.pool.queue = [] := by
        simp only [Pool.take] at hp
        split at hp
        · assumption
        · cases hp
      refine ⟨rfl, hq, ?_⟩
      cases hs : s.alive with
      | true => exact .inl ⟨rfl, rfl⟩
      | false => exact .inr ⟨rfl, _, _, rfl⟩
    | some x =>
      obtain ⟨id, pool⟩ := x
      obtain ⟨p, hp⟩ : ∃ p, q.packet (some id) = some p := by cases q <;> exact ⟨_, rfl⟩
      exact .inl ⟨some id, p, rfl, hp, key (s.withPool pool) (some id) p rfl rfl hp⟩

/-- identifiers that have never been handed out are in the pool -/
theorem VStep.handed {fl v o w} {tr : List Obs} (h : VStep fl v o w) (n : Nat) (hn : n ≤ v.sys.pool.queue.length + idsTaken tr) :
    n ≤ w.sys.pool.queue.length + idsTaken (tr ++ o) := by
  have client : ∀ {op s' e}, v.sys.step op = some (s', e) → n ≤ s'.pool.queue.length + idsTaken (tr ++ [.user e]) := by
    intro op s' e hs
    have := Sys.step_handed hs
    simp only [idsTaken, List.filterMap_append, List.length_append, List.filterMap_cons, List.filterMap_nil] at hn ⊢
    cases he : handedOut e with
    | none => rw [he] at this; have := this.length_le; simp only [List.length_nil]; omega
    | some id => rw [he] at this; have := congrArg List.length this; simp only [List.length_cons, List.length_nil] at this ⊢; omega
  have other : ∀ {op s' e}, v.sys.step op = some (s', e) → handedOut e = none →
      n ≤ s'.pool.queue.length + idsTaken (tr ++ o) := by
    intro op s' e hs he
    have := Sys.step_handed hs
    rw [he] at this
    have := this.length_le
    simp only [idsTaken, List.filterMap_append, List.length_append] at hn ⊢
    omega
  have same : n ≤ v.sys.pool.queue.length + idsTaken (tr ++ o) := by
    simp only [idsTaken, List.filterMap_append, List.length_append] at hn ⊢
    omega
  cases h
  case client hc hs => exact client hs
  case drop hs => exact client hs
  case accepted hs => exact other hs rfl
  case acceptedFail hs => exact other hs rfl
  case refusedPacket hs => exact other hs rfl
  case readPanic hs => exact other hs rfl
  case outFail hs => exact other hs rfl
  case outOk hs _ => exact other hs rfl
  case outDisc hs _ => exact other hs rfl
  case outErr hs => exact other hs rfl
  case outPanic hs => exact other hs rfl
  case established hs _ _ => exact other hs rfl
  case establishFail hs _ _ => exact other hs rfl
  case establishErr hs => exact other hs rfl
  case establishPanic hs => exact other hs rfl
  all_goals exact same

theorem VRun.handed {fl o t tr v} (h : VRun fl (View.init o t) tr v) :
    o.config.sendMax.toNat ≤ v.sys.pool.queue.length + idsTaken tr := by
  refine h.induct (fun tr v => o.config.sendMax.toNat ≤ v.sys.pool.queue.length + idsTaken tr) ?_ ?_
  · have : (View.init o t).sys.pool.queue.length = o.config.sendMax.toNat := by
      change ((List.range o.config.sendMax.toNat).map _).length = _
      simp
    rw [this]
    exact Nat.le_add_right _ _
  · intro tr w o w' _ ih hs
    exact hs.handed _ ih

theorem VRun.open {fl o t tr v} (h : VRun fl (View.init o t) tr v) (hg : ¬ ClientsGone tr) : v.sys.pool.closed = false := by
  cases e : v.sys.pool.closed with
  | false => rfl
  | true => exact absurd (h.closed.1 e) hg

/-- the step of a client, seen from either network -/
theorem Spec.GoesOn.sys {o : Options} {pre : List Obs} {op : Op} {r : Option (List Obs)} (h : GoesOn o pre op r)
    (hc : op.ofClient = true) :
    ∃ fl t v, VRun fl (View.init o t) pre v ∧ r = (v.sys.step op).map fun x => [.user x.2] := by
  rcases h with ⟨t, ops, rfl, rfl⟩ | ⟨k, t, ops, rfl, rfl⟩
  · refine ⟨_, _, _, Tokio.vrun o t ops, ?_⟩
    change Option.map _ ((Mqrstt.Spec.tokio o t ops).step _) = Option.map _ ((Mqrstt.Spec.tokio o t ops).sys.step op)
    simp only [Tokio.step, hc, if_true]
    cases (Mqrstt.Spec.tokio o t ops).sys.step op <;> rfl
  · refine ⟨_, _, _, Smol.vrun k o t ops, ?_⟩
    change Option.map _ ((Mqrstt.Spec.smol k o t ops).step _) = Option.map _ ((Mqrstt.Spec.smol k o t ops).sys.step op)
    simp only [Smol.step, hc, if_true]
    cases (Mqrstt.Spec.smol k o t ops).sys.step op <;> rfl

end Mqrstt
