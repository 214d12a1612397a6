import Verif.Model.Tokio
import Verif.Model.Smol
/-! # Lemmas about histories of a network -/

namespace Mqrstt

section
variable {S O : Type} (step : S → O → Option (S × List Obs))

theorem history_append (s : S) (a b : List O) :
    history step s (a ++ b) =
      ((history step (history step s a).1 b).1, (history step s a).2 ++ (history step (history step s a).1 b).2) := by
  induction a generalizing s with
  | nil => simp [history]
  | cons op a ih =>
    simp only [List.cons_append, history]
    cases step s op with
    | none => exact ih s
    | some x => simp [ih]

theorem history_one (s : S) (op : O) : history step s [op] =
    match step s op with
    | none => (s, [])
    | some x => x := by
  simp only [history]
  cases step s op <;> simp

/-- induction over a history -/
theorem history_induct (P : S → List Obs → Prop) {s : S} (h0 : P s [])
    (hs : ∀ s tr op s' o, P s tr → step s op = some (s', o) → P s' (tr ++ o)) (ops : List O) :
    P (history step s ops).1 (history step s ops).2 := by
  suffices h : ∀ ops s tr, P s tr → P (history step s ops).1 (tr ++ (history step s ops).2) by
    simpa using h ops s [] h0
  intro ops
  induction ops with
  | nil => intro s tr h; simpa [history] using h
  | cons op ops ih =>
    intro s tr h
    simp only [history]
    cases e : step s op with
    | none => exact ih s tr h
    | some x =>
      obtain ⟨s', o⟩ := x
      have := ih s' (tr ++ o) (hs s tr op s' o h e)
      simpa using this

/-- every observation of a history was made in one of its steps -/
theorem history_split {s : S} {ops : List O} {pre post : List Obs} {x : Obs}
    (h : (history step s ops).2 = pre ++ x :: post) :
    ∃ ops1 op ops2 s' o1 o2, ops = ops1 ++ op :: ops2 ∧
      step (history step s ops1).1 op = some (s', o1 ++ x :: o2) ∧
      pre = (history step s ops1).2 ++ o1 ∧ post = o2 ++ (history step s' ops2).2 := by
  induction ops generalizing s pre with
  | nil => simp [history] at h
  | cons op ops ih =>
    simp only [history] at h
    cases e : step s op with
    | none =>
      rw [e] at h
      obtain ⟨ops1, op', ops2, s', o1, o2, rfl, h1, h2, h3⟩ := ih h
      refine ⟨op :: ops1, op', ops2, s', o1, o2, rfl, ?_, ?_, h3⟩
      · simp only [history, e]; exact h1
      · simp only [history, e]; exact h2
    | some y =>
      obtain ⟨s1, o⟩ := y
      rw [e] at h
      simp only at h
      rcases List.append_eq_append_iff.1 h with ⟨a, ha, hb⟩ | ⟨a, ha, hb⟩
      · obtain ⟨ops1, op', ops2, s', o1, o2, rfl, h1, h2, h3⟩ := ih hb
        refine ⟨op :: ops1, op', ops2, s', o1, o2, rfl, ?_, ?_, h3⟩
        · simp only [history, e]; exact h1
        · simp only [history, e, ha, h2, List.append_assoc]
      · cases a with
        | nil =>
          simp only [List.nil_append] at hb
          obtain ⟨ops1, op', ops2, s', o1, o2, rfl, h1, h2, h3⟩ := ih (pre := []) (by simpa using hb.symm)
          refine ⟨op :: ops1, op', ops2, s', o1, o2, rfl, ?_, ?_, h3⟩
          · simp only [history, e]; exact h1
          · have hn := h2.symm
            simp only [List.append_eq_nil_iff] at hn
            simp [history, e, ha, hn.1, hn.2]
        | cons y a =>
          simp only [List.cons_append, List.cons.injEq] at hb
          obtain ⟨rfl, rfl⟩ := hb
          exact ⟨[], op, ops, s1, pre, a, rfl, by rw [ha] at e; exact e, by simp [history], rfl⟩

end
end Mqrstt
