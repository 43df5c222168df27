import Verif.Model.Basic

/-! Helper lemmas about the result monad. -/

namespace Hpl

variable {α β : Type}

theorem bind_eq_ok {x : Res α} {f : α → Res β} {b : β} :
    (x >>= f) = .ok b ↔ ∃ a, x = .ok a ∧ f a = .ok b := by
  cases x with
  | error e =>
    constructor
    · intro h; cases h
    · rintro ⟨a, h, _⟩; cases h
  | ok a =>
    constructor
    · intro h; exact ⟨a, rfl, h⟩
    · rintro ⟨a', h, h2⟩; cases h; exact h2

@[simp] theorem ok_bind (a : α) (f : α → Res β) : ((.ok a : Res α) >>= f) = f a := rfl

@[simp] theorem error_bind (e : Fail) (f : α → Res β) :
    ((.error e : Res α) >>= f) = .error e := rfl

@[simp] theorem pure_eq_ok (a : α) : (pure a : Res α) = .ok a := rfl

@[simp] theorem throw_eq_error (e : Fail) : (throw e : Res α) = .error e := rfl

theorem ensure_eq_ok {c : Bool} {t : String} {u : Unit} :
    ensure c t = .ok u ↔ c = true := by
  unfold ensure
  cases c
  · simp
  · simp

@[simp] theorem ensure_true (t : String) : ensure true t = .ok () := rfl

@[simp] theorem ensure_false (t : String) : ensure false t = .error (.err t) := rfl

/-- A result that is not `ok` is an error. -/
theorem not_ok_iff {x : Res α} : (∀ a, x ≠ .ok a) ↔ ∃ e, x = .error e := by
  cases x with
  | error e => simp
  | ok a => simp

end Hpl
