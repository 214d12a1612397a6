import Verif.Proof.Complete
import Verif.Proof.Senders
import Verif.Props.Memory
/-!
# A server that answers completes everything (C92)
-/

namespace Mqrstt.Props
open Mqrstt Mqrstt.Spec _root_.Spec

theorem lost_snoc (clean : Bool) (e : Event) : ∀ (es : List Event) (l : Ledger),
    l.lost clean (es ++ [e]) = l.lost clean es ++ (es.foldl (Ledger.step clean) l).leak clean e
  | [], l => by simp [Ledger.lost]
  | e' :: es, l => by simp [Ledger.lost, lost_snoc clean e es]

/-- one answer -/
theorem answered (cfg : Config) (ops : List Op) (hnet : (client cfg ops).alive = true)
    (hopen : (client cfg ops).pool.closed = false) (p : Packet) (hp : IsAnswer (ledger cfg ops) p) :
    (∃ reply, events cfg (ops ++ [.receive p]) = events cfg ops ++ [.received p reply true]) ∧
    (client cfg (ops ++ [.receive p])).alive = true ∧ (client cfg (ops ++ [.receive p])).pool.closed = false ∧
    ledger cfg (ops ++ [.receive p]) = (ledger cfg ops).onReceived p ∧
    lostIds cfg (ops ++ [.receive p]) = lostIds cfg ops := by
  obtain ⟨s', reply, hs⟩ := (inv cfg ops).answer hnet hopen hp
  obtain ⟨h1, h2⟩ := client_snoc cfg ops hs
  refine ⟨⟨reply, h2⟩, ?_, ?_, ?_, ?_⟩
  · rw [h1]; exact Sys.step_stays_alive hs hnet (by simp) (by simp)
  · rw [h1]
    have := Sys.step_closed hs
    simpa [hopen] using this
  · simp only [ledger, Ledger.after, h2, List.foldl_append, List.foldl_cons, List.foldl_nil]
    rfl
  · simp only [lostIds, h2, lost_snoc]
    have : Ledger.leak cfg.cleanStart ((events cfg ops).foldl (Ledger.step cfg.cleanStart) Ledger.empty)
        (.received p reply true) = [] := by
      cases p <;> try rfl
      case pubRec a => simp only [Ledger.leak, hp.2, if_true]
    rw [this, List.append_nil]

/-- **C92.** After any history, as long as a client and the network exist, let the server send answers that are due, in any
order. All are accepted and shown to the handler, nothing fails, and each brings the end closer by one: when as many have come as
were owed, no operation is unfinished. -/
theorem C92_answers_complete (cfg : Config) (ops : List Op) (hnet : (client cfg ops).alive = true)
    (hopen : (client cfg ops).pool.closed = false) (answers : List Packet) (ha : Answers (ledger cfg ops) answers) :
    (∃ replies : List (Option Packet), replies.length = answers.length ∧
      events cfg (ops ++ answers.map .receive) =
        events cfg ops ++ (answers.zip replies).map fun x => .received x.1 x.2 true) ∧
    (client cfg (ops ++ answers.map .receive)).alive = true ∧
    owed (ledger cfg (ops ++ answers.map .receive)) + answers.length = owed (ledger cfg ops) ∧
    (answers.length = owed (ledger cfg ops) → NothingOpen (ledger cfg (ops ++ answers.map .receive))) := by
  have key : (∃ replies : List (Option Packet), replies.length = answers.length ∧
      events cfg (ops ++ answers.map .receive) =
        events cfg ops ++ (answers.zip replies).map fun x => .received x.1 x.2 true) ∧
      (client cfg (ops ++ answers.map .receive)).alive = true ∧
      owed (ledger cfg (ops ++ answers.map .receive)) + answers.length = owed (ledger cfg ops) := by
    induction answers generalizing ops with
    | nil => exact ⟨⟨[], rfl, by simp⟩, by simpa using hnet, by simp⟩
    | cons p ps ih =>
      obtain ⟨⟨reply, h1⟩, h2, h3, h4, -⟩ := answered cfg ops hnet hopen p ha.1
      obtain ⟨⟨rs, g2, g1⟩, g3, g4⟩ := ih (ops ++ [.receive p]) h2 h3 (by rw [h4]; exact ha.2)
      have hl := (inv cfg ops).owed_less ha.1
      rw [List.append_assoc] at g1 g3 g4
      refine ⟨⟨reply :: rs, by simp [g2], ?_⟩, g3, ?_⟩
      · simpa [h1] using g1
      · rw [h4] at g4
        simp only [List.map_cons, List.length_cons, List.singleton_append] at g4 ⊢
        omega
  exact ⟨key.1, key.2.1, key.2.2, fun h => owed_zero.1 (by omega)⟩

/-- **C92.** While something is owed, an answer that is due exists; so the server can always bring everything to an end. -/
theorem C92_answer_exists (cfg : Config) (ops : List Op) (hnet : (client cfg ops).alive = true)
    (howed : owed (ledger cfg ops) ≠ 0) : ∃ p, IsAnswer (ledger cfg ops) p := by
  refine answer_exists ?_ fun h => howed (owed_zero.2 h)
  intro p hp
  obtain ⟨id, h1, h2, -⟩ := ((inv cfg ops).live hnet).stored p hp
  exact ⟨id, h1, h2⟩

/-- **C92.** Once nothing is owed, nothing of it is kept, and all identifiers except those of calls and packets that wait, and
those lost (C23), can be used again. -/
theorem C92_nothing_kept (cfg : Config) (ops : List Op) (hnet : (client cfg ops).alive = true)
    (hdone : NothingOpen (ledger cfg ops)) :
    keptMessages (client cfg ops) = 0 ∧ rememberedIds (client cfg ops) = 0 ∧
    ((client cfg ops).pool.queue ++ ((ledger cfg ops).calling ++ (ledger cfg ops).queued) ++ lostIds cfg ops).Perm (allIds cfg) := by
  obtain ⟨h1, h2, h3, h4⟩ := hdone
  have hl := (inv cfg ops).live hnet
  have hp : (ledger cfg ops).publishIds = [] := by simp [Ledger.publishIds, h1]
  have hr : rememberedIds (client cfg ops) = 0 := by
    simp only [rememberedIds, hl.order, count_length hl.rel, count_length hl.sub, count_length hl.unsub, hp, h2, h3, h4]
    rfl
  refine ⟨?_, hr, ?_⟩
  · have := (C91_each_bounded cfg ops hnet).2.2.1
    omega
  · have := C23_exactly_these_lost_partial cfg ops
    simpa only [Ledger.ids, hp, h2, h3, h4, List.append_nil] using this

/-- **C92.** From every point the server can bring everything to an end. -/
theorem C92_completable (cfg : Config) (ops : List Op) (hnet : (client cfg ops).alive = true)
    (hopen : (client cfg ops).pool.closed = false) :
    ∃ answers, Answers (ledger cfg ops) answers ∧ answers.length = owed (ledger cfg ops) := by
  generalize hk : owed (ledger cfg ops) = k
  induction k generalizing ops with
  | zero => exact ⟨[], trivial, rfl⟩
  | succ k ih =>
    obtain ⟨p, hp⟩ := C92_answer_exists cfg ops hnet (by omega)
    obtain ⟨-, h2, h3, h4, -⟩ := answered cfg ops hnet hopen p hp
    have := (inv cfg ops).owed_less hp
    obtain ⟨ps, g1, g2⟩ := ih (ops ++ [.receive p]) h2 h3 (by rw [h4]; omega)
    exact ⟨p :: ps, ⟨hp, by rw [← h4]; exact g1⟩, by simp [g2]⟩

/-- a message of QoS 1 and one of QoS 2 sent, the answers come the other way round -/
example : let cfg : Config := ⟨4, 4, 1000, false⟩
    let ops := sendOps (demoPublish .atLeastOnce) ++ sendOps (demoPublish .exactlyOnce)
    let answers : List Packet := [.pubRec ⟨2, .success, .empty⟩, .pubAck ⟨1, .success, .empty⟩, .pubComp ⟨2, .success, .empty⟩]
    (client cfg ops).alive = true ∧ (client cfg ops).pool.closed = false ∧ owed (ledger cfg ops) = 3 ∧
      Answers (ledger cfg ops) answers ∧ (client cfg (ops ++ answers.map .receive)).pool.queue = [3, 4, 1, 2] := by
  refine ⟨rfl, rfl, rfl, ⟨⟨⟨_, .tail _ (.head _), rfl, rfl⟩, rfl⟩, ⟨_, .head _, rfl, rfl⟩, .head _, trivial⟩, rfl⟩

end Mqrstt.Props
