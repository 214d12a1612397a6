import Verif.Model.Prim
/-! # Lemmas about readers and writers -/

deriving instance DecidableEq for Except

namespace Mqrstt

namespace Rd
variable {α β : Type}

theorem bind_apply (x : Rd α) (f : α → Rd β) (b : Bytes) :
    (x >>= f) b = match x b with
      | .error e => .error e
      | .ok (a, b') => f a b' := rfl

@[simp] theorem pure_apply (a : α) (b : Bytes) : (Pure.pure a : Rd α) b = .ok (a, b) := rfl

@[simp] theorem pure_apply' (a : α) (b : Bytes) : Rd.pure a b = .ok (a, b) := rfl

@[simp] theorem fail_apply (e : Fail) (b : Bytes) : (Rd.fail e : Rd α) b = .error e := rfl

@[simp] theorem de_apply (e : DeErr) (b : Bytes) : (Rd.de e : Rd α) b = .error (.de e) := rfl

theorem bind_ok {x : Rd α} {f : α → Rd β} {b b' : Bytes} {a : α} (h : x b = .ok (a, b')) :
    (x >>= f) b = f a b' := by rw [bind_apply, h]

theorem bind_error {x : Rd α} {f : α → Rd β} {b : Bytes} {e : Fail} (h : x b = .error e) :
    (x >>= f) b = .error e := by rw [bind_apply, h]

theorem bind_eq_ok {x : Rd α} {f : α → Rd β} {b : Bytes} {r : β × Bytes} :
    (x >>= f) b = .ok r ↔ ∃ a b', x b = .ok (a, b') ∧ f a b' = .ok r := by
  rw [bind_apply]
  cases h : x b with
  | error e => simp
  | ok p =>
    obtain ⟨a, b'⟩ := p
    constructor
    · intro h; exact ⟨a, b', rfl, h⟩
    · rintro ⟨_, _, h1, h2⟩; cases h1; exact h2

theorem bind_eq_error {x : Rd α} {f : α → Rd β} {b : Bytes} {e : Fail} :
    (x >>= f) b = .error e ↔
      x b = .error e ∨ ∃ a b', x b = .ok (a, b') ∧ f a b' = .error e := by
  rw [bind_apply]
  cases h : x b with
  | error e => simp
  | ok p =>
    obtain ⟨a, b'⟩ := p
    constructor
    · intro h; exact .inr ⟨a, b', rfl, h⟩
    · rintro (h | ⟨_, _, h1, h2⟩)
      · cases h
      · cases h1; exact h2

@[simp] theorem ite_apply (c : Prop) [Decidable c] (x y : Rd α) (b : Bytes) :
    (if c then x else y) b = if c then x b else y b := by split <;> rfl

@[simp] theorem lift_ok (a : α) : Rd.lift (.ok a : Except DeErr α) = pure a := rfl
@[simp] theorem lift_error (e : DeErr) : Rd.lift (.error e : Except DeErr α) = Rd.de e := rfl

@[simp] theorem bufLen_apply (b : Bytes) : bufLen b = .ok (b.length, b) := rfl

@[simp] theorem bufLen_bind (f : Nat → Rd β) (b : Bytes) : (bufLen >>= f) b = f b.length b := rfl

@[simp] theorem pure_bind' (a : α) (f : α → Rd β) : ((pure a : Rd α) >>= f) = f a := rfl

theorem bind_assoc' {γ : Type} (x : Rd α) (f : α → Rd β) (g : β → Rd γ) :
    ((x >>= f) >>= g) = (x >>= fun a => f a >>= g) := by
  funext b
  simp only [bind_apply]
  cases x b with
  | error e => rfl
  | ok p => rfl

end Rd

@[simp] theorem Wr.ok_append_ok (a b : Bytes) :
    ((.ok a : Wr) ++ (.ok b : Wr)) = (.ok (a ++ b) : Wr) := rfl

@[simp] theorem Wr.error_append (e : SerErr) (y : Wr) :
    ((.error e : Wr) ++ y) = (.error e : Wr) := rfl

@[simp] theorem Wr.append_error (a : Bytes) (e : SerErr) :
    ((.ok a : Wr) ++ (.error e : Wr)) = (.error e : Wr) := rfl

@[simp] theorem AWr.ok_append_ok (a b : Bytes) (n m : Nat) :
    ((.ok (a, n) : AWr) ++ (.ok (b, m) : AWr)) = (.ok (a ++ b, n + m) : AWr) := rfl

@[simp] theorem AWr.error_append (e : SerErr) (y : AWr) :
    ((.error e : AWr) ++ y) = (.error e : AWr) := rfl

@[simp] theorem AWr.append_error (a : Bytes) (n : Nat) (e : SerErr) :
    ((.ok (a, n) : AWr) ++ (.error e : AWr)) = (.error e : AWr) := rfl

theorem Wr.append_eq_ok {x y : Wr} {bs : Bytes} :
    x ++ y = (.ok bs : Wr) ↔ ∃ a b, x = .ok a ∧ y = .ok b ∧ bs = a ++ b := by
  cases x with
  | error e => simp
  | ok a =>
    cases y with
    | error e => simp
    | ok b => simp only [Wr.ok_append_ok, Except.ok.injEq]; constructor
              · intro h; exact ⟨a, b, rfl, rfl, h.symm⟩
              · rintro ⟨a', b', rfl, rfl, rfl⟩; rfl

theorem AWr.append_eq_ok {x y : AWr} {bs : Bytes} {n : Nat} :
    x ++ y = (.ok (bs, n) : AWr) ↔
      ∃ a k b m, x = .ok (a, k) ∧ y = .ok (b, m) ∧ bs = a ++ b ∧ n = k + m := by
  cases x with
  | error e => simp
  | ok a =>
    cases y with
    | error e =>
      constructor
      · intro h; cases h
      · rintro ⟨_, _, _, _, _, h, _⟩; cases h
    | ok b =>
      obtain ⟨a, k⟩ := a
      obtain ⟨b, m⟩ := b
      simp only [AWr.ok_append_ok, Except.ok.injEq, Prod.mk.injEq]
      constructor
      · rintro ⟨h1, h2⟩; exact ⟨a, k, b, m, ⟨rfl, rfl⟩, ⟨rfl, rfl⟩, h1.symm, h2.symm⟩
      · rintro ⟨a', k', b', m', ⟨rfl, rfl⟩, ⟨rfl, rfl⟩, rfl, rfl⟩; exact ⟨rfl, rfl⟩

end Mqrstt
