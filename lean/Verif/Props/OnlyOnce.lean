import Verif.Spec.Told
import Verif.Props.Told
import Verif.Props.Dropped
import Verif.Props.Discipline
/-!
# C97: QoS 0 messages are sent at most once; C98: a session that the client does not have
-/

namespace Mqrstt.Props
open Mqrstt Mqrstt.Spec _root_.Spec

theorem with_of {tr : List Obs} (h : IsTrace tr) : ∃ o, IsTraceWith o tr := by
  cases h with
  | tokio o t ops h => exact ⟨o, .tokio t ops h⟩
  | smol checks o t ops h => exact ⟨o, .smol checks t ops h⟩

/-- **C97.** Over all connections together, the messages of QoS 0 that are written are messages of QoS 0 that were submitted,
in the same order and each at most once. Missing: writes that are given up half-way, see `C97_sent_twice_violated`. -/
theorem C97_at_most_once_partial (tr : List Obs) (h : IsTrace tr) :
    (qos0 (writtenIn tr)).Sublist (qos0 (submittedIn tr)) := by
  have e : qos0 (writtenIn tr) = qos0 (freshIn tr) := by
    simp only [qos0, freshIn, List.filter_filter]
    apply List.filter_congr
    intro p hp
    cases p with
    | publish p =>
      simp only [isFresh]
      by_cases hq : p.qos = .atMostOnce
      · obtain ⟨x, hx, hy⟩ := List.mem_filterMap.1 hp
        cases x with
        | wrote p' a b =>
          cases hy
          obtain ⟨pre, post, e⟩ := List.append_of_mem hx
          obtain ⟨o, ho⟩ := with_of h
          rcases C65_sender o tr ho pre post _ a b e with ⟨-, h, -⟩ | ⟨h, -⟩ | ⟨h, -⟩
          · simp [h]
          · exact absurd hq h
          · exact absurd hq h
        | _ => cases hy
      · simp [hq]
    | _ => rfl
  rw [e]
  exact (C39_network_fifo tr h).filter _

/-- two messages submitted and one of them written when the connection is lost; nothing of QoS 0 is sent again -/
example :
    let tr := tokioTrace resumeOptions 0 (tokioUp ++ [.client (.call (netPublish [1])), .client (.call (netPublish [2])),
      .client (.submit 0), .client (.submit 0), .turn .outgoing 0 true (at' 2), .turn .readError 0 true (at' 5),
      .connect ⟨true, resumedConnAck, false, fun _ => true, true, at' 6⟩])
    qos0 (writtenIn tr) = [netPublished [1]] ∧ qos0 (submittedIn tr) = [netPublished [1], netPublished [2]] :=
  ⟨rfl, rfl⟩

/-- **C97 is violated** in the smol network: the future of `run` is dropped when all bytes of a message have been written but
the flush is not over; the next packet brings the message once more. One message was submitted, the server reads two. -/
theorem C97_sent_twice_violated : ∃ (ops : List SmolWireOp) (qs : List Packet),
    WireIs (smolWire true resumeOptions 0 ops).wire qs ∧ (qos0 qs).length = 2 ∧
    (qos0 (submittedIn (smolWireTrace true resumeOptions 0 ops))).length = 1 := by
  obtain ⟨ops, h1, h2⟩ := C79_smol_violated.1
  exact ⟨ops, _, h1, rfl, by rw [h2]; rfl⟩

/-! ## C98 -/

structure NoSession (s : Sender) : Prop where
  running : s.running = false
  unacked : s.unacked = []
  accepted : s.accepted = []
  again : s.again = []
  rels : s.rels = []

theorem NoSession.of {o : Options} {tr : List Obs} (h : IsTraceWith o tr) (pre : List Obs) (hp : pre <+: tr)
    (hs : .started ∉ pre) : NoSession (sender o.cleanStart pre) ∧ ∀ p ∈ writtenIn pre, ∃ c, p = .connect c := by
  have key : ∀ l : List Obs, l.reverse <+: tr → .started ∉ l.reverse →
      NoSession (sender o.cleanStart l.reverse) ∧ (∀ p ∈ writtenIn l.reverse, ∃ c, p = .connect c) ∧
        isRunning l.reverse = false := by
    intro l
    induction l with
    | nil => intro _ _; exact ⟨⟨rfl, rfl, rfl, rfl, rfl⟩, by simp [writtenIn], rfl⟩
    | cons x l ih =>
      intro hp hs
      rw [List.reverse_cons] at hp hs ⊢
      obtain ⟨rest, e⟩ := hp
      obtain ⟨i1, i2, i3⟩ := ih ⟨x :: rest, by rw [← e]; simp⟩ (fun hm => hs (List.mem_append_left _ hm))
      have hx : x ≠ .started := fun h => hs (by rw [h]; simp)
      have hsnoc : sender o.cleanStart (l.reverse ++ [x]) = Sender.next o.cleanStart (sender o.cleanStart l.reverse) x := by
        simp [sender, List.foldl_append]
      have hrun : isRunning (l.reverse ++ [x]) = false := by
        rw [isRunning, List.foldl_append]
        show runStep (isRunning l.reverse) x = false
        cases x <;> first | exact absurd rfl hx | exact i3 | rfl
      rw [hsnoc]
      obtain ⟨j1, j2, j3, j4, j5⟩ := i1
      cases x with
      | wrote p a b =>
        have e' : tr = l.reverse ++ .wrote p a b :: rest := by rw [← e]; simp
        have hc : ∃ c, p = .connect c := by
          rcases (C56_only_on_a_connection tr l.reverse rest (isTrace_of h)).1 p a b e' with ⟨-, g, -⟩ | ⟨-, g | g⟩
          · rw [i3] at g; cases g
          · exact g
          · have hm := C65_sender o tr h _ _ _ _ _ e'
            cases p with
            | publish p =>
              have g : p.dup = true := g
              rcases hm with ⟨-, hd, -⟩ | ⟨-, hd, -⟩ | ⟨-, -, q, hq, -⟩
              · rw [g] at hd; cases hd
              · rw [g] at hd; cases hd
              · rw [j4] at hq; cases hq
            | pubRel r =>
              have hm := hm.1
              rw [j5] at hm; cases hm
            | _ => cases g
        obtain ⟨c, rfl⟩ := hc
        refine ⟨⟨j1, j2, j3, rfl, rfl⟩, fun q hq => ?_, hrun⟩
        rw [writtenIn, List.filterMap_append] at hq
        rcases List.mem_append.1 hq with hq | hq
        · exact i2 q hq
        · exact ⟨c, List.mem_singleton.1 hq⟩
      | read p =>
        refine ⟨?_, fun q hq => ?_, hrun⟩
        · simp only [Sender.next, j1]
          cases p with
          | connAck c =>
            simp only [Sender.onAccepted]
            repeat' split
            all_goals simp_all
            all_goals exact ⟨by simp_all, by simp_all, by simp_all, by simp_all, by simp_all⟩
          | _ => exact ⟨j1, j2, j3, j4, j5⟩
        · rw [writtenIn, List.filterMap_append] at hq
          rcases List.mem_append.1 hq with hq | hq
          · exact i2 q hq
          · cases hq
      | started => exact absurd rfl hx
      | _ =>
        refine ⟨?_, fun q hq => ?_, hrun⟩
        · first
            | exact ⟨j1, j2, j3, j4, j5⟩
            | exact ⟨rfl, j2, j3, j4, j5⟩
        · rw [writtenIn, List.filterMap_append] at hq
          rcases List.mem_append.1 hq with hq | hq
          · exact i2 q hq
          · cases hq
  have := key pre.reverse (by simpa using hp) (by simpa using hs)
  rw [List.reverse_reverse] at this
  exact ⟨this.1, this.2.1⟩

/-- **C98 (partial).** A client that has no session sends nothing for the one that the server claims to have: until `run` is
called for the first time nothing but CONNECT is written, whatever the server says. Missing: that the connection is not
used, see below. -/
theorem C98_nothing_resent_partial (o : Options) (tr : List Obs) (h : IsTraceWith o tr) (pre post : List Obs)
    (e : tr = pre ++ post) (first : .started ∉ pre) : ∀ p ∈ writtenIn pre, ∃ c, p = .connect c :=
  (NoSession.of h pre ⟨post, e.symm⟩ first).2

example : let tr := tokioTrace resumeOptions 0 [.connect ⟨true, resumedConnAck, false, fun _ => true, true, at' 1⟩]
    .started ∉ tr ∧ ∃ c t, c.sessionPresent = true ∧ .connected c t ∈ tr := by
  have e : ∃ c t, tokioTrace resumeOptions 0 [.connect ⟨true, resumedConnAck, false, fun _ => true, true, at' 1⟩] =
      [.wrote resumeOptions.connectPacket 1 1, .read (.connAck c), .delivered (.connAck c), .connected c t] ∧
      c.sessionPresent = true := ⟨_, _, rfl, rfl⟩
  obtain ⟨c, t, e, h⟩ := e
  rw [e]
  exact ⟨by simp, c, t, h, by simp⟩

/-- **C98 is violated**: on its very first connection the client is told that there is a session, and goes on: (1) although it
has none, (2) although it has asked for a new one. -/
theorem C98_unknown_session_violated : ∀ clean : Bool, ∃ (o : Options) (tr : List Obs) (c : ConnAck) (t : Nat),
    o.cleanStart = clean ∧ IsTraceWith o tr ∧ c.sessionPresent = true ∧
    tr = [.wrote o.connectPacket 1 1, .read (.connAck c), .delivered (.connAck c), .connected c t, .started] := by
  intro clean
  exact ⟨{ resumeOptions with cleanStart := clean }, _, _, _, rfl,
    .tokio 0 [.connect ⟨true, resumedConnAck, false, fun _ => true, true, at' 1⟩, .start] rfl, rfl,
    by cases clean <;> rfl⟩

end Mqrstt.Props
