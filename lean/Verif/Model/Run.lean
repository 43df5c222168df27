import Verif.Model.Basic

/-! # Histories

A history is a list of calls executed one after the other. A call that fails (error or panic) leaves the state
unchanged: the runtime discards its writes. -/

namespace Hpl

variable {σ ι : Type}

/-- State after one call. -/
def applyCall (step : σ → ι → Res σ) (s : σ) (c : ι) : σ :=
  match step s c with
  | .ok s' => s'
  | .error _ => s

/-- State after a history. -/
def run (step : σ → ι → Res σ) (s : σ) (h : List ι) : σ := h.foldl (applyCall step) s

@[simp] theorem run_nil (step : σ → ι → Res σ) (s : σ) : run step s [] = s := rfl

@[simp] theorem run_cons (step : σ → ι → Res σ) (s : σ) (c : ι) (h : List ι) :
    run step s (c :: h) = run step (applyCall step s c) h := rfl

theorem run_append (step : σ → ι → Res σ) (s : σ) (a b : List ι) :
    run step s (a ++ b) = run step (run step s a) b := by simp [run]

theorem run_snoc (step : σ → ι → Res σ) (s : σ) (a : List ι) (c : ι) :
    run step s (a ++ [c]) = applyCall step (run step s a) c := by simp [run]

theorem applyCall_ok {step : σ → ι → Res σ} {s s' : σ} {c : ι} (h : step s c = .ok s') :
    applyCall step s c = s' := by simp [applyCall, h]

theorem applyCall_error {step : σ → ι → Res σ} {s : σ} {c : ι} {e : Fail}
    (h : step s c = .error e) : applyCall step s c = s := by simp [applyCall, h]

/-- A call either fails and changes nothing or succeeds. -/
theorem applyCall_cases (step : σ → ι → Res σ) (s : σ) (c : ι) :
    (∃ e, step s c = .error e ∧ applyCall step s c = s) ∨
    (∃ s', step s c = .ok s' ∧ applyCall step s c = s') := by
  cases h : step s c with
  | error e => exact .inl ⟨e, rfl, applyCall_error h⟩
  | ok s' => exact .inr ⟨s', rfl, applyCall_ok h⟩

/-- Invariants hold after any history. -/
theorem run_invariant {step : σ → ι → Res σ} (P : σ → Prop)
    (hstep : ∀ s c s', P s → step s c = .ok s' → P s') (s : σ) (h : List ι) (hs : P s) :
    P (run step s h) := by
  induction h generalizing s with
  | nil => exact hs
  | cons c t ih =>
    rw [run_cons]
    apply ih
    rcases applyCall_cases step s c with ⟨e, _, he⟩ | ⟨s', h1, h2⟩
    · rw [he]; exact hs
    · rw [h2]; exact hstep s c s' hs h1

end Hpl
