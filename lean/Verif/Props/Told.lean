import Verif.Spec.Told
import Verif.Props.Limits
import Verif.Props.Connects
/-!
# C96: the handler is told the topic of every message
-/

namespace Mqrstt.Props
open Mqrstt Mqrstt.Spec _root_.Spec

theorem announced_snoc (tr : List Obs) (x : Obs) : announcedAliases (tr ++ [x]) = (match x with
    | .wrote (.connect c) _ _ => ((c.props.val .topicAliasMaximum : Option UInt16).getD 0).toNat
    | _ => announcedAliases tr) := by
  simp only [announcedAliases, List.foldl_append, List.foldl_cons, List.foldl_nil]
  cases x with
  | wrote p a b => cases p <;> rfl
  | _ => rfl

theorem announced_zero (tr : List Obs)
    (h : ∀ c a b, .wrote (.connect c) a b ∈ tr → c.props.val .topicAliasMaximum = none) : announcedAliases tr = 0 := by
  have key : ∀ (l : List Obs), (∀ c a b, .wrote (.connect c) a b ∈ l.reverse → c.props.val .topicAliasMaximum = none) →
      announcedAliases l.reverse = 0 := by
    intro l
    induction l with
    | nil => intro _; rfl
    | cons x l ih =>
      intro h
      rw [List.reverse_cons] at h ⊢
      rw [announced_snoc]
      have ih := ih fun c a b hm => h c a b (List.mem_append_left _ hm)
      split
      · rename_i c a b
        rw [h c a b (by simp)]
        rfl
      · exact ih
  simpa using key tr.reverse (by simpa using h)

/-- **C96, the ground of it.** No CONNECT ever announces that the client knows about topic aliases, whatever setters are
called. -/
theorem C96_no_aliases (id : Str) (calls : List Setter) (tr : List Obs) (h : IsTraceWith (Options.build id calls) tr)
    (pre : List Obs) (hp : pre <+: tr) : announcedAliases pre = 0 := by
  apply announced_zero
  intro c a b hm
  obtain ⟨pre', post', rfl⟩ := List.append_of_mem hm
  obtain ⟨rest, e⟩ := hp
  have e : tr = pre' ++ .wrote (.connect c) a b :: (post' ++ rest) := by rw [← e]; simp
  have hc := configured id calls
  obtain ⟨k, hk⟩ : ∃ k, .connect c = { Options.build id calls with keepAlive := k }.connectPacket := by
    cases h with
    | tokio t ops h => exact ⟨_, tokio_connect (h.symm.trans e)⟩
    | smol checks t ops h => exact ⟨_, smol_connect (h.symm.trans e)⟩
  cases hk
  simp [Options.connectProps, hc.topicAliasMax]

/-- a history with every setter called -/
example : ∃ c a b, .wrote (.connect c) a b ∈ tokioTrace (Options.build ⟨[97], by decide⟩ someCalls) 0 [.connect
    ⟨true, plainConnAck, false, fun _ => true, true, at' 1⟩] ∧ c.props.val .receiveMaximum = some 10 :=
  ⟨_, _, _, .head _, rfl⟩

theorem isTrace_of {o : Options} {tr : List Obs} (h : IsTraceWith o tr) : IsTrace tr := by
  cases h with
  | tokio t ops h => exact .tokio o t ops h
  | smol checks t ops h => exact .smol checks o t ops h

/-- **C96.** As long as the server sends topic aliases only as far as the client has announced that it knows about them, every
message that is given to the handler has a topic, and it is the one that the server meant. -/
theorem C96_topic_told (id : Str) (calls : List Setter) (tr : List Obs) (h : IsTraceWith (Options.build id calls) tr)
    (server : ∀ pre post p, tr = pre ++ .read (.publish p) :: post → LegalTopic pre p)
    (pre post : List Obs) (p : Publish) (e : tr = pre ++ .delivered (.publish p) :: post) :
    p.topic.bytes ≠ [] ∧ ∃ pre', pre = pre' ++ [.read (.publish p)] ∧ ∀ t, Meant pre' p t ↔ t = p.topic := by
  obtain ⟨pre', rfl⟩ := (C38_in_order tr (isTrace_of h)).2 pre post (.publish p) e
  have e' : tr = pre' ++ .read (.publish p) :: (.delivered (.publish p) :: post) := by rw [e]; simp
  obtain ⟨h1, h2⟩ := server _ _ _ e'
  have h0 := C96_no_aliases id calls tr h pre' (by rw [e']; exact List.prefix_append _ _)
  have ht : p.topic.bytes ≠ [] := by
    intro hp
    obtain ⟨n, t, hn, -⟩ := h2 hp
    obtain ⟨g1, g2⟩ := h1 n hn
    rw [h0] at g2
    exact g1 (UInt16.toNat_inj.1 (by simpa using g2))
  refine ⟨ht, pre', rfl, fun t => ⟨fun hm => ?_, fun hm => hm ▸ .named ht⟩⟩
  cases hm with
  | named _ => rfl
  | known hp _ _ => exact absurd hp ht

/-- a server that sends no alias, and a message with a topic -/
example : let tr := smolTrace true netOptions 0 (smolUp ++ [.turn (.read [0x32, 0x06, 0, 1, 97, 0, 1, 0]) true (at' 2)])
    (∀ pre post p, tr = pre ++ .read (.publish p) :: post → LegalTopic pre p) ∧ .delivered (.publish netMessage) ∈ tr := by
  have e : ∃ c x l, smolTrace true netOptions 0 (smolUp ++ [.turn (.read [0x32, 0x06, 0, 1, 97, 0, 1, 0]) true (at' 2)]) =
      [.wrote netOptions.connectPacket 1 1, .read (.connAck c), .delivered (.connAck c), .connected c x, .started,
        .read (.publish netMessage), .delivered (.publish netMessage)] ++ l ∧ ∀ p, .read p ∉ l :=
    ⟨_, _, _, rfl, by simp⟩
  obtain ⟨c, x, l, e, hl⟩ := e
  rw [e]
  refine ⟨fun pre post p h => ?_, by simp⟩
  have : p = netMessage := by
    have hm : .read (.publish p) ∈ [.wrote netOptions.connectPacket 1 1, .read (.connAck c), .delivered (.connAck c),
        .connected c x, .started, .read (.publish netMessage), .delivered (.publish netMessage)] ++ l := by rw [h]; simp
    rcases List.mem_append.1 hm with hm | hm
    · simpa using hm
    · exact absurd hm (hl _)
  subst this
  exact ⟨fun n hn => (by cases hn), fun h => (by cases h)⟩

end Mqrstt.Props
