import Verif.Spec.Args
import Verif.Props.Wire
import Verif.Props.Client
/-!
# C63: the arguments of `subscribe` and `unsubscribe` reach the server
-/

namespace Mqrstt.Props
open Mqrstt Mqrstt.Spec _root_.Spec

theorem filters_say : ∀ {as : List SubArg} {bs : Bytes}, ListSays FilterSays (as.map SubArg.into) bs → ListSays ArgSays as bs
  | [], _, h => by cases h; exact .nil
  | a :: as, _, h => by
    cases h with
    | cons h hs =>
      refine .cons ?_ (filters_say hs)
      obtain ⟨topic, o, e, h1, h2⟩ := h
      refine ⟨topic, o, e, ?_, ?_⟩
      · cases a <;> exact h1
      · rw [h2]
        cases a with
        | topic t => rfl
        | withQoS t q => cases q <;> rfl
        | withOptions t o => rfl

theorem topics_eq (a : SubArgs) : a.topics = (subArgs a).map SubArg.into := by cases a <;> rfl

theorem unsub_topics_eq (a : UnsubArgs) : a.topics = unsubArgs a := by cases a <;> rfl

theorem called_validated {s s' : Sys} {q : Request} {id : Option UInt16} {p : Packet}
    (h : s.step (.call q) = some (s', .called q id p)) : p.validate s.maxPacketSize = .ok () := by
  rcases call_cases h with ⟨t, id', ht, hw⟩ | ⟨_, he, _⟩
  · obtain ⟨p', hp, hc | ⟨_, x, hx, _⟩⟩ := callWith_cases hw
    · obtain ⟨he, -, -, hv⟩ := hc
      simp only [Event.called.injEq, true_and] at he
      obtain ⟨rfl, rfl⟩ := he
      have : t.maxPacketSize = s.maxPacketSize := by cases ht <;> (rename_i ht; subst ht; rfl)
      rw [← this]; exact hv
    · simp at hx
  · simp at he

theorem noEmptyAuth_of {p : Packet} {es : List Entry} {P : Props} (hp : propSets p = [P]) (hw : PropsWF es P)
    (h1 : .single .authenticationData ∉ es) : ¬ EmptyAuthData p := by
  rintro ⟨Q, hQ, hq⟩
  rw [hp, List.mem_singleton] at hQ
  subst hQ
  exact h1 (hw.listed _ (by rw [hq]; simp))

theorem noAssignedId_of {p : Packet} {es : List Entry} {P : Props} (hp : propSets p = [P]) (hw : PropsWF es P)
    (h1 : .single .assignedClientIdentifier ∉ es) : ¬ HasAssignedId p := by
  rintro ⟨Q, hQ, hq⟩
  rw [hp, List.mem_singleton] at hQ
  subst hQ
  exact h1 (hw.listed _ hq)

theorem emptyProps_wf (es : List Entry) : PropsWF es .empty :=
  ⟨by simp [Props.empty], by simp [Props.empty], by simp [Props.empty], by simp [Props.empty], by simp [Props.empty],
    by simp [Props.empty], by simp [Props.empty]⟩

/-- **C63.** In every state: if a subscribe call with at least one topic is accepted, what either writer makes of its packet is
a SUBSCRIBE for exactly the given arguments, in the given order: a topic alone with QoS 0 and no options, a topic with a QoS
with that QoS and no options, a topic with options with those. -/
theorem C63_subscribe (s s' : Sys) (m : Method) (a : SubArgs) (P : Props) (id : Option UInt16) (p : Packet)
    (hm : (m = .subscribe a ∧ P = .empty) ∨ m = .subscribeWith a P) (hne : subArgs a ≠ [])
    (hP : PropsWF subscribeEntries P) (h : s.step (.call m.request) = some (s', .called m.request id p)) :
    ∃ i, id = some i ∧ (∀ bs, p.write = .ok bs → SubscribeSays i P (subArgs a) bs) ∧
      (∀ bs n, p.asyncWrite = .ok (bs, n) → SubscribeSays i P (subArgs a) bs) := by
  have hreq : m.request = .subscribe a.topics P := by
    rcases hm with ⟨rfl, rfl⟩ | rfl <;> rfl
  have hask := (C49_call_content _ _ _ _ _ h).1
  have hval := called_validated h
  rw [hreq] at hask
  cases hask with
  | subscribe _ _ p i h1 h2 h3 =>
    subst h1 h3
    have wf : WF (.subscribe p) := by
      refine ⟨hP, ?_, fun t ht => ?_⟩
      · rw [h2, topics_eq]
        simpa using hne
      · simp only [Packet.validate, Subscribe.validate] at hval
        repeat' split at hval
        all_goals simp only [reduceCtorEq] at hval
        rename_i v2
        have := List.find?_eq_none.1 v2 t ht
        simpa [StrOk, maximumTopicSize, Str.length] using this
    have key : ∀ bs, PacketSays (.subscribe p) bs → SubscribeSays p.id p.props (subArgs a) bs := by
      rintro bs ⟨first, len, body, rfl, hf, hl, idb, sec, topics, rfl, g1, g2, -, g4⟩
      refine ⟨len, idb, sec, topics, ?_, hl, g1, g2, ?_⟩
      · rw [show first = 0x82 from UInt8.toNat_inj.1 hf]
      · rw [h2, topics_eq] at g4
        exact filters_say g4
    have hc := C59_writers_conform_partial (.subscribe p) wf (noEmptyAuth_of rfl hP (by decide)) (fun h => h)
    exact ⟨_, rfl, fun bs e => key bs (hc.1 bs e),
      fun bs n e => key bs (hc.2 (noAssignedId_of rfl hP (by decide)) bs n e)⟩

/-- **C63.** The same for unsubscribe. -/
theorem C63_unsubscribe (s s' : Sys) (m : Method) (a : UnsubArgs) (P : Props) (id : Option UInt16) (p : Packet)
    (hm : (m = .unsubscribe a ∧ P = .empty) ∨ m = .unsubscribeWith a P) (hne : unsubArgs a ≠ [])
    (hP : PropsWF unsubscribeEntries P) (h : s.step (.call m.request) = some (s', .called m.request id p)) :
    ∃ i, id = some i ∧ (∀ bs, p.write = .ok bs → UnsubscribeSays i P (unsubArgs a) bs) ∧
      (∀ bs n, p.asyncWrite = .ok (bs, n) → UnsubscribeSays i P (unsubArgs a) bs) := by
  have hreq : m.request = .unsubscribe a.topics P := by
    rcases hm with ⟨rfl, rfl⟩ | rfl <;> rfl
  have hask := (C49_call_content _ _ _ _ _ h).1
  have hval := called_validated h
  rw [hreq] at hask
  cases hask with
  | unsubscribe _ _ p i h1 h2 h3 =>
    subst h1 h3
    have wf : WF (.unsubscribe p) := by
      refine ⟨hP, ?_, fun t ht => ?_⟩
      · rw [h2, unsub_topics_eq]
        exact hne
      · simp only [Packet.validate, Unsubscribe.validate] at hval
        repeat' split at hval
        all_goals simp only [reduceCtorEq] at hval
        rename_i v2
        have := List.find?_eq_none.1 v2 t ht
        simpa [StrOk, maximumTopicSize, Str.length] using this
    have key : ∀ bs, PacketSays (.unsubscribe p) bs → UnsubscribeSays p.id p.props (unsubArgs a) bs := by
      rintro bs ⟨first, len, body, rfl, hf, hl, idb, sec, topics, rfl, g1, g2, -, g4⟩
      refine ⟨len, idb, sec, topics, ?_, hl, g1, g2, ?_⟩
      · rw [show first = 0xA2 from UInt8.toNat_inj.1 hf]
      · rw [h2, unsub_topics_eq] at g4
        exact g4
    have hc := C59_writers_conform_partial (.unsubscribe p) wf (noEmptyAuth_of rfl hP (by decide)) (fun h => h)
    exact ⟨_, rfl, fun bs e => key bs (hc.1 bs e),
      fun bs n e => key bs (hc.2 (noAssignedId_of rfl hP (by decide)) bs n e)⟩

/-- three arguments of three kinds; options bytes 0, 2 and 0b00011101 -/
def mixedArgs : SubArgs := .many [.topic ⟨[97], by decide⟩, .withQoS ⟨[98], by decide⟩ .exactlyOnce,
  .withOptions ⟨[99], by decide⟩ ⟨.one, true, true, .atLeastOnce⟩]

example : PropsWF subscribeEntries .empty ∧ (subArgs mixedArgs).map argOptions = [0, 2, 29] ∧
    ∃ s' p bs, (client demo []).step (.call (Method.subscribe mixedArgs).request) =
      some (s', .called (Method.subscribe mixedArgs).request (some 1) p) ∧ p.write = .ok bs ∧
      bs = [0x82, 15, 0, 1, 0, 0, 1, 97, 0, 0, 1, 98, 2, 0, 1, 99, 29] :=
  ⟨emptyProps_wf _, rfl, _, _, _, rfl, rfl, rfl⟩

example : ∃ s' p bs, (client demo []).step (.call (Method.unsubscribe (.one ⟨[97], by decide⟩)).request) =
      some (s', .called (Method.unsubscribe (.one ⟨[97], by decide⟩)).request (some 1) p) ∧ p.write = .ok bs ∧
      bs = [0xA2, 6, 0, 1, 0, 0, 1, 97] :=
  ⟨_, _, _, rfl, rfl, rfl⟩

end Mqrstt.Props
