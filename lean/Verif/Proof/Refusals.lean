import Verif.Spec.Refusals
import Verif.Proof.Reconnect
import Verif.Props.Client
/-!
# Refused calls
-/

namespace Mqrstt
open Mqrstt.Spec _root_.Spec Mqrstt.Props

theorem validate_error {q : Request} {id : Option UInt16} {p : Packet} (hq : q.packet id = some p) {limit : Nat} {e : ValidationErr}
    (h : p.validate limit = .error e) :
    (e = .maxPacketSize p.bodyWireLen ∧ p.bodyWireLen > limit ∧
        (p.type = .publish ∨ p.type = .subscribe ∨ p.type = .unsubscribe)) ∨
      ∃ topic ∈ topicsIn q, e = .topicSize topic.bytes.length ∧ topic.bytes.length > 65535 := by
  cases q with
  | publish topic qos retain payload props =>
    simp only [Request.packet, Option.some.injEq] at hq
    subst hq
    simp only [Packet.validate, Publish.validate] at h
    split at h
    · rename_i hl; cases h; exact .inl ⟨rfl, hl, .inl rfl⟩
    · split at h
      · rename_i hl
        cases h
        exact .inr ⟨topic, .head _, rfl, hl⟩
      · cases h
  | subscribe topics props =>
    cases id with
    | none => cases hq
    | some id =>
      simp only [Request.packet, Option.map_some, Option.some.injEq] at hq
      subst hq
      simp only [Packet.validate, Subscribe.validate] at h
      split at h
      · rename_i hl; cases h; exact .inl ⟨rfl, hl, .inr (.inl rfl)⟩
      · split at h
        · rename_i hf
          cases h
          have h1 := List.find?_some hf
          have h2 := List.mem_of_find?_eq_some hf
          exact .inr ⟨_, List.mem_map_of_mem h2, rfl, by simpa [maximumTopicSize, Str.length] using h1⟩
        · cases h
  | unsubscribe topics props =>
    cases id with
    | none => cases hq
    | some id =>
      simp only [Request.packet, Option.map_some, Option.some.injEq] at hq
      subst hq
      simp only [Packet.validate, Unsubscribe.validate] at h
      split at h
      · rename_i hl; cases h; exact .inl ⟨rfl, hl, .inr (.inr rfl)⟩
      · split at h
        · rename_i hf
          cases h
          have h1 := List.find?_some hf
          have h2 := List.mem_of_find?_eq_some hf
          exact .inr ⟨_, h2, rfl, by simpa [maximumTopicSize, Str.length] using h1⟩
        · cases h
  | disconnect reason props =>
    simp only [Request.packet, Option.some.injEq] at hq
    subst hq
    cases h

/-- the observation of a client comes from a step of a client -/
theorem VRun.userStep {fl : Flavor} {o : Options} {t : Nat} {tr : List Obs} {v : View} (h : VRun fl (View.init o t) tr v)
    {pre post : List Obs} {e : Event} (he : tr = pre ++ .user e :: post) (hd : e ≠ .networkDropped) :
    ∃ w s' op, VRun fl (View.init o t) pre w ∧ op.ofClient = true ∧ w.sys.step op = some (s', e) := by
  obtain ⟨v1, v2, tr1, o1, o2, tr2, h1, h2, -, rfl, -⟩ := h.split he
  have key : ∃ s' op, o1 = [] ∧ op.ofClient = true ∧ v1.sys.step op = some (s', e) := by
    generalize hob : o1 ++ .user e :: o2 = ob at h2
    cases h2
    case client op sys e' hop hs =>
      have hn : o1 = [] := by
        cases o1 with
        | nil => rfl
        | cons a l => simp at hob
      subst hn
      simp only [List.nil_append, List.cons.injEq, Obs.user.injEq] at hob
      exact ⟨_, _, rfl, hop, hob.1 ▸ hs⟩
    case drop sys e' hr hs =>
      have hn : o1 = [] := by
        cases o1 with
        | nil => rfl
        | cons a l => simp at hob
      subst hn
      simp only [List.nil_append, List.cons.injEq, Obs.user.injEq] at hob
      simp only [Sys.step] at hs
      split at hs
      · cases hs; exact absurd hob.1 hd
      · cases hs
    all_goals
      have hm := congrArg (Obs.user e ∈ ·) hob
      simp [shownObs, wrotes] at hm
    all_goals first
      | (split at hm <;> simp at hm; done)
      | (rename_i ho; rcases ho with rfl | ⟨_, _, _, rfl⟩ <;> simp at hm; done)
  obtain ⟨s', op, rfl, h3, h4⟩ := key
  exact ⟨v1, s', op, by simpa using h1, h3, h4⟩

theorem VRun.refusal {fl : Flavor} {o : Options} {t : Nat} {tr : List Obs} {v : View} (h : VRun fl (View.init o t) tr v)
    {q : Request} {id : Option UInt16} {e : ClientErr} {s' : Sys} (hs : v.sys.step (.call q) = some (s', .rejected q id e)) :
    match e with
    | .noNetworkChannel => v.sys.alive = false
    | .validation e => ∃ p, q.packet id = some p ∧ p.validate o.config.maxPacketSize = .error e := by
  obtain ⟨ops, hc⟩ := h.contains
  have hmax : v.sys.maxPacketSize = o.config.maxPacketSize := by rw [hc.sys]; exact maxPacketSize_run ops _
  rcases call_cases hs with ⟨t', id', ht, hw⟩ | ⟨_, he, _, ha⟩
  · have htm : t'.maxPacketSize = v.sys.maxPacketSize := by cases ht <;> (rename_i ht; subst ht; rfl)
    have hta : t'.alive = v.sys.alive := by cases ht <;> (rename_i ht; subst ht; rfl)
    obtain ⟨p, hp, hc | ⟨_, x, hx, hv⟩⟩ := callWith_cases hw
    · cases hc.1
    · simp only [Event.rejected.injEq, true_and] at hx
      obtain ⟨rfl, rfl⟩ := hx
      rcases hv with ⟨v, rfl, hv⟩ | ⟨rfl, ha⟩
      · exact ⟨p, hp, by rw [← hmax, ← htm]; exact hv⟩
      · exact hta ▸ ha
  · simp only [Event.rejected.injEq, true_and] at he
    obtain ⟨rfl, rfl⟩ := he
    exact ha

/-- which step of a client is refused -/
theorem Sys.step_rejected {s s' : Sys} {op : Op} {q : Request} {id : Option UInt16} {e : ClientErr} (hc : op.ofClient = true)
    (h : s.step op = some (s', .rejected q id e)) : op = .call q := by
  cases op with
  | call q' =>
    rcases call_cases h with ⟨t, id', ht, hw⟩ | ⟨-, he, -⟩
    · obtain ⟨p', hp, hc | ⟨-, x, hx, -⟩⟩ := callWith_cases hw
      · cases hc.1
      · cases hx; rfl
    · cases he; rfl
  | submit k =>
    simp only [Sys.step] at h
    repeat' split at h
    all_goals simp only [Option.some.injEq, Prod.mk.injEq, reduceCtorEq, and_false] at h
  | abandon k =>
    simp only [Sys.step] at h
    repeat' split at h
    all_goals simp only [Option.some.injEq, Prod.mk.injEq, reduceCtorEq, and_false] at h
  | dropClients => simp only [Sys.step, Option.some.injEq, Prod.mk.injEq, reduceCtorEq, and_false] at h
  | _ => simp [Op.ofClient] at hc

theorem Sys.step_refused {s s' : Sys} {op : Op} {p : Packet} (hc : op.ofClient = true) (h : s.step op = some (s', .refused p)) :
    s.alive = false := by
  cases op with
  | call q' =>
    rcases call_cases h with ⟨t, id', ht, hw⟩ | ⟨-, he, -⟩
    · obtain ⟨p', hp, hc | ⟨-, x, hx, -⟩⟩ := callWith_cases hw
      · cases hc.1
      · cases hx
    · cases he
  | submit k =>
    simp only [Sys.step] at h
    split at h
    · cases h
    · split at h
      · split at h <;> cases h
      · rename_i ha; simpa using ha
  | abandon k =>
    simp only [Sys.step] at h
    repeat' split at h
    all_goals simp only [Option.some.injEq, Prod.mk.injEq, reduceCtorEq, and_false] at h
  | dropClients => simp only [Sys.step, Option.some.injEq, Prod.mk.injEq, reduceCtorEq, and_false] at h
  | _ => simp [Op.ofClient] at hc

end Mqrstt
