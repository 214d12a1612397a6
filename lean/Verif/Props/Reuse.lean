import Verif.Proof.Reuse
import Verif.Props.Session
/-!
# When an identifier is used again (C87)
-/

namespace Mqrstt.Props
open Mqrstt Mqrstt.Spec _root_.Spec

/-- after this history the identifier can be given to a call: it exists, no unfinished operation has it and it is not
lost -/
def Available (cfg : Config) (ops : List Op) (id : UInt16) : Prop :=
  id ∈ allIds cfg ∧ id ∉ (ledger cfg ops).ids ∧ id ∉ lostIds cfg ops

/-- **C87.** At some point of a history the identifier `id` is in use. When, later, a call receives `id` again, every
identifier that was available at that point has been handed out in between. So an identifier is used again as late as
possible: an acknowledgement that is late or repeated does not meet a new operation as long as there are others to use. -/
theorem C87_reused_last (cfg : Config) (before between : List Op) (id other : UInt16)
    (huse : id ∈ (ledger cfg before).ids) (hother : Available cfg before other)
    (q : Request) (s' : Sys) (e : Event)
    (hcall : (client cfg (before ++ between)).step (.call q) = some (s', e)) (hid : handedOut e = some id) :
    other ∈ ((client cfg before).run between).2.filterMap handedOut := by
  have hinv := inv cfg before
  have hq : other ∈ (client cfg before).pool.queue := by
    have h1 := (C23_exactly_these_lost_partial cfg before).symm.subset hother.1
    simp only [List.mem_append] at h1
    rcases h1 with (h1 | h1) | h1
    · exact h1
    · exact absurd h1 hother.2.1
    · exact absurd h1 hother.2.2
  have hn : id ∉ (client cfg before).pool.queue := by
    intro hm
    have h1 := hinv.le_one id
    rw [← count_ids] at h1
    have h2 := List.count_pos_iff.mpr huse
    have h3 := List.count_pos_iff.mpr hm
    omega
  have hc : client cfg (before ++ between) = ((client cfg before).run between).1 := by
    simp only [client, Sys.run_append]
  have hs := Sys.step_handed hcall
  rw [hid, hc] at hs
  simp only [Shifts] at hs
  have hr := (client cfg before).run_handed between
  rw [hs] at hr
  have hp : (client cfg before).pool.queue <+: ((client cfg before).run between).2.filterMap handedOut := by
    obtain ⟨t, ht⟩ := hr
    rcases List.append_eq_append_iff.1 ht with ⟨a, h, -⟩ | ⟨c, h1, h2⟩
    · exact ⟨a, h.symm⟩
    · cases c with
      | nil => rw [h1]; simp
      | cons x c =>
        simp only [List.cons_append, List.cons.injEq] at h2
        exact absurd (by rw [h1, ← h2.1]; simp) hn
  exact hp.subset hq

/-- three identifiers, 1 and 2 are in use -/
def twoInUse : List Op := sendOps (demoPublish .atLeastOnce) ++ sendOps (demoPublish .atLeastOnce)

/-- 1 is given back while 2 is in use and 3 available: the next calls receive 3 and 1 -/
example : 1 ∈ (ledger ⟨3, 3, 1000, false⟩ twoInUse).ids ∧ Available ⟨3, 3, 1000, false⟩ twoInUse 3 ∧
    ((client ⟨3, 3, 1000, false⟩ twoInUse).run [.receive (.pubAck ⟨1, .success, .empty⟩), .call (demoPublish .atLeastOnce),
      .call (demoPublish .atLeastOnce)]).2.filterMap handedOut = [3, 1] :=
  ⟨by decide, ⟨by decide, by decide, by decide⟩, by decide⟩

end Mqrstt.Props
