import Verif.Spec.Legal
import Verif.Props.Client
import Verif.Proof.NetLink
import Verif.Props.Options
/-!
# Accepted calls and legal packets (C58)
-/

namespace Mqrstt.Props
open Mqrstt Mqrstt.Spec _root_.Spec

/-- the configured maximum packet size is never above MQTT's -/
theorem build_maximumPacketSize (id : Str) (calls : List Setter) :
    (Options.build id calls).maximumPacketSize ≤ 268435455 := by
  have key : ∀ (calls : List Setter) (o : Options), o.maximumPacketSize ≤ 268435455 →
      (calls.foldl (fun o c => (o.set c).1) o).maximumPacketSize ≤ 268435455 := by
    intro calls
    induction calls with
    | nil => intro o h; exact h
    | cons c cs ih =>
      intro o h
      refine ih _ ?_
      cases c with
      | maxPacketSize n =>
        simp only [Options.set]
        split
        · exact h
        · rename_i hn
          simp only [Options.maximumPacketSize, Option.map_some, Option.getD_some]
          simpa [maximumPacketSize] using hn
      | _ => exact h
  exact key _ _ (by simp [Options.new, Options.maximumPacketSize, maximumPacketSize])

/-- **C58**, the part that holds: if the arguments of a call are legal and the call is accepted, its packet is one that
MQTT v5 lets a client send (in particular, no topic is too long for its length field), and both writers can encode it.
Missing: the client does not check its arguments, nor
the size of a DISCONNECT. -/
theorem C58_accepted_is_legal_partial (clientId : Str) (calls : List Setter) (ops : List Op) (q : Request)
    (id : Option UInt16) (p : Packet) (s' : Sys) (hq : LegalRequest q) 
    (hd : ∀ r P, q = .disconnect r P → (Packet.disconnect ⟨r, P⟩).bodyWireLen ≤ 268435455)
    (h : (client (Options.build clientId calls).config ops).step (.call q) = some (s', .called q id p)) :
    Legal p ∧ (∃ bs, p.write = .ok bs) ∧ (∃ bs n, p.asyncWrite = .ok (bs, n)) := by
  have hmax : (client (Options.build clientId calls).config ops).maxPacketSize ≤ 268435455 := by
    have := maxPacketSize_run ops (Sys.init (Options.build clientId calls).config.sendMax
      (Options.build clientId calls).config.recvMax (Options.build clientId calls).config.maxPacketSize
      (Options.build clientId calls).config.cleanStart)
    have h2 := build_maximumPacketSize clientId calls
    show ((Sys.init _ _ _ _).run ops).1.maxPacketSize ≤ _
    rw [this]
    exact h2
  obtain ⟨hask, -⟩ := C49_call_content _ _ _ _ _ h
  have hval : p.validate (client (Options.build clientId calls).config ops).maxPacketSize = .ok () := by
    rcases call_cases h with ⟨t, id', ht, hw⟩ | ⟨_, he, _⟩
    · obtain ⟨p', hp, hc | ⟨_, x, hx, _⟩⟩ := callWith_cases hw
      · obtain ⟨he, -, -, hv⟩ := hc
        simp only [Event.called.injEq, true_and] at he
        obtain ⟨rfl, rfl⟩ := he
        have : t.maxPacketSize = (client (Options.build clientId calls).config ops).maxPacketSize := by
          cases ht <;> (rename_i ht; subst ht; rfl)
        rw [← this]; exact hv
      · simp at hx
    · simp at he
  generalize (client (Options.build clientId calls).config ops).maxPacketSize = m at hmax hval
  suffices hh : Legal p ∧ WF p ∧ p.bodyWireLen ≤ 268435455 ∧ ¬ EmptyAuthData p ∧ ¬ HasAssignedId p by
    obtain ⟨h1, h2, h3, h4, h5⟩ := hh
    have hb := BodyOk.of h2 h3 h4
    obtain ⟨n, e, -⟩ := hb.asyncWrite_frame h5
    exact ⟨h1, ⟨_, hb.write_frame⟩, ⟨_, n, e⟩⟩
  have plain : ∀ es (P : Props), propSets p = [P] → PropsWF es P → .single .authenticationData ∉ es →
      .single .assignedClientIdentifier ∉ es → ¬ EmptyAuthData p ∧ ¬ HasAssignedId p := by
    intro es P hp hw h1 h2
    constructor
    · rintro ⟨Q, hQ, hq⟩
      rw [hp, List.mem_singleton] at hQ
      subst hQ
      exact h1 (hw.listed _ (by rw [hq]; simp))
    · rintro ⟨Q, hQ, hq⟩
      rw [hp, List.mem_singleton] at hQ
      subst hQ
      exact h2 (hw.listed _ hq)
  cases hask with
  | qos0 topic retain payload props p h1 h2 h3 h4 h5 h6 h7 =>
    subst h3 h4 h6 h7
    obtain ⟨g1, g2, g3, g4, g5⟩ := hq
    simp only [Packet.validate, Publish.validate] at hval
    repeat' split at hval
    all_goals simp only [reduceCtorEq] at hval
    rename_i v1 v2
    have wf : WF (.publish p) := ⟨by simpa [StrOk, maximumTopicSize, Str.length] using v2, by simp [h5, h2], g5⟩
    exact ⟨⟨g1, g2, g3, g4, wf⟩, wf, by simp only [Packet.bodyWireLen]; omega,
      plain _ _ rfl g5 (by decide) (by decide)⟩
  | qos topic qos hne retain payload props p id h1 h2 h3 h4 h5 h6 h7 =>
    subst h2 h3 h4 h6 h7
    obtain ⟨g1, g2, g3, g4, g5⟩ := hq
    simp only [Packet.validate, Publish.validate] at hval
    repeat' split at hval
    all_goals simp only [reduceCtorEq] at hval
    rename_i v1 v2
    have wf : WF (.publish p) := ⟨by simpa [StrOk, maximumTopicSize, Str.length] using v2, by simp [h5, hne], g5⟩
    exact ⟨⟨g1, g2, g3, g4, wf⟩, wf, by simp only [Packet.bodyWireLen]; omega,
      plain _ _ rfl g5 (by decide) (by decide)⟩
  | subscribe topics props p id h1 h2 h3 =>
    subst h1 h2 h3
    obtain ⟨g1, g2, g3, g4⟩ := hq
    simp only [Packet.validate, Subscribe.validate] at hval
    repeat' split at hval
    all_goals simp only [reduceCtorEq] at hval
    rename_i v1 _ v2
    have wf : WF (.subscribe p) := by
      refine ⟨g4, g1, fun t ht => ?_⟩
      have := List.find?_eq_none.1 v2 t ht
      simpa [StrOk, maximumTopicSize, Str.length] using this
    exact ⟨⟨g2, g3, wf⟩, wf, by simp only [Packet.bodyWireLen]; omega,
      plain _ _ rfl g4 (by decide) (by decide)⟩
  | unsubscribe topics props p id h1 h2 h3 =>
    subst h1 h2 h3
    obtain ⟨g1, g2, g4⟩ := hq
    simp only [Packet.validate, Unsubscribe.validate] at hval
    repeat' split at hval
    all_goals simp only [reduceCtorEq] at hval
    rename_i v1 _ v2
    have wf : WF (.unsubscribe p) := by
      refine ⟨g4, g1, fun t ht => ?_⟩
      have := List.find?_eq_none.1 v2 t ht
      simpa [StrOk, maximumTopicSize, Str.length] using this
    exact ⟨⟨g2, wf⟩, wf, by simp only [Packet.bodyWireLen]; omega,
      plain _ _ rfl g4 (by decide) (by decide)⟩
  | disconnect r P p h1 h2 =>
    subst h1 h2
    exact ⟨hq, hq, hd _ _ rfl, plain _ _ rfl hq.2 (by decide) (by decide)⟩

def legalOptions : Options := Options.build ⟨[97], by decide⟩ [.sendMax 2, .receiveMax 2]

/-- a subscription to `a/+` with a subscription identifier -/
def legalSubscribe : Request := .subscribe [(⟨[97, 47, 43], by decide⟩, SubOptions.default)]
  (Props.empty.set .subscriptionIdentifier 7)

example : LegalRequest legalSubscribe ∧
    ∃ p s', (client legalOptions.config []).step (.call legalSubscribe) = some (s', .called legalSubscribe (some 1) p) := by
  refine ⟨⟨by decide, ?_, by decide, ?_⟩, _, _, rfl⟩
  · intro t ht
    simp only [List.mem_singleton] at ht
    subst ht
    exact ⟨by decide, by unfold NoNull; decide⟩
  · refine ⟨?_, by decide, by decide, ?_, by simp [Props.set, Props.empty], by simp [Props.set, Props.empty], ?_⟩
    · intro p; cases p <;> decide
    · intro p v; cases p <;> simp [Props.set, Props.empty, ValueOk, PropertyType.kind]
      rintro rfl; decide
    · decide

/-- a publish to `#` -/
def wildcardPublish : Request := .publish ⟨[0x23], by decide⟩ .atMostOnce false [] .empty

/-- a publish with an incoming-only and, moreover, unencodable property -/
def hugeSubId : Request := .publish ⟨[97], by decide⟩ .atMostOnce false [] { Props.empty with subIds := [268435456] }

/-- **C58 is violated**: a SUBSCRIBE without topics and a PUBLISH to a wildcard are accepted and encoded; a PUBLISH with a
subscription identifier that has no encoding is accepted. -/
theorem C58_accepted_is_legal_violated :
    (∃ p s' bs, (client legalOptions.config []).step (.call (.subscribe [] .empty)) =
        some (s', .called (.subscribe [] .empty) (some 1) p) ∧ p.write = .ok bs ∧ ¬ Legal p) ∧
    (∃ p s' bs, (client legalOptions.config []).step (.call wildcardPublish) =
        some (s', .called wildcardPublish none p) ∧ p.write = .ok bs ∧ ¬ Legal p) ∧
    (∃ p s' e e', (client legalOptions.config []).step (.call hugeSubId) = some (s', .called hugeSubId none p) ∧
      p.write = .error e ∧ p.asyncWrite = .error e') := by
  refine ⟨⟨_, _, _, rfl, rfl, ?_⟩, ⟨_, _, _, rfl, rfl, ?_⟩, ⟨_, _, _, _, rfl, rfl, rfl⟩⟩
  · rintro ⟨-, -, -, h, -⟩; exact h rfl
  · rintro ⟨⟨-, h, -⟩, -⟩; exact h (by simp)

end Mqrstt.Props
