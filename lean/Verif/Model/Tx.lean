import Verif.Model.Run

/-! # Transactions with nested calls

How the chain executes contract calls, seen from one contract: transactions are atomic; the messages a call emits are
executed after it and if one fails the call fails too; any other contract (recipient, hook, wallet) may call the
contract again at any point, may abort, and may catch the failure of a sub-call (`reply_on_error`), in which case
exactly the writes of that sub-call are rolled back. Everything other contracts do is arbitrary, which is expressed by
quantifying over all trees `Act`. -/

namespace Hpl.Tx

/-- One thing that happens during a transaction, as seen from the contract under study with calls `ι`. -/
inductive Act (ι : Type) where
  /-- The contract is called; `after` is everything that happens while the messages it emitted are executed. -/
  | call (c : ι) (after : List (Act ι))
  /-- A sub-call whose failure is caught by its caller. Also used for a whole transaction. -/
  | attempt (body : List (Act ι))
  /-- Somebody aborts. -/
  | abort

variable {σ ι ρ : Type}

/-- A successful call and its response. -/
abbrev Entry (ι ρ : Type) := ι × ρ

mutual
/-- Execution of one act. State and log of the calls whose effects are (so far) not rolled back; `none` is failure. -/
def exec (step : σ → ι → Res (σ × ρ)) : Act ι → σ × List (Entry ι ρ) → Option (σ × List (Entry ι ρ))
  | .call c after, (s, log) =>
    match step s c with
    | .error _ => none
    | .ok (s', r) => execList step after (s', log ++ [(c, r)])
  | .attempt body, x =>
    match execList step body x with
    | some y => some y
    | none => some x
  | .abort, _ => none

/-- Execution of a list of acts, in order. -/
def execList (step : σ → ι → Res (σ × ρ)) :
    List (Act ι) → σ × List (Entry ι ρ) → Option (σ × List (Entry ι ρ))
  | [], x => some x
  | a :: t, x =>
    match exec step a x with
    | none => none
    | some y => execList step t y
end

/-- A history: transactions one after the other. A failed transaction leaves no trace. -/
def history (step : σ → ι → Res (σ × ρ)) (s : σ) (txs : List (List (Act ι))) :
    σ × List (Entry ι ρ) :=
  txs.foldl (fun x tx => ((exec step (.attempt tx) x).getD x)) (s, [])

/-- `s` goes to `s'` by the given calls, each succeeding with the given response. -/
def Chain (step : σ → ι → Res (σ × ρ)) : σ → List (Entry ι ρ) → σ → Prop
  | s, [], s' => s' = s
  | s, (c, r) :: t, s' => ∃ m, step s c = .ok (m, r) ∧ Chain step m t s'

theorem Chain.append {step : σ → ι → Res (σ × ρ)} {s m s' : σ} {a b : List (Entry ι ρ)}
    (h1 : Chain step s a m) (h2 : Chain step m b s') : Chain step s (a ++ b) s' := by
  induction a generalizing s with
  | nil =>
    simp only [Chain] at h1
    subst h1
    exact h2
  | cons e t ih =>
    obtain ⟨c, r⟩ := e
    obtain ⟨x, hx, hr⟩ := h1
    exact ⟨x, hx, ih hr⟩

theorem Chain.split {step : σ → ι → Res (σ × ρ)} {s s' : σ} {a b : List (Entry ι ρ)}
    (h : Chain step s (a ++ b) s') : ∃ m, Chain step s a m ∧ Chain step m b s' := by
  induction a generalizing s with
  | nil => exact ⟨s, rfl, h⟩
  | cons e t ih =>
    obtain ⟨c, r⟩ := e
    obtain ⟨x, hx, hr⟩ := h
    obtain ⟨m, h1, h2⟩ := ih hr
    exact ⟨m, ⟨x, hx, h1⟩, h2⟩

theorem Chain.snoc {step : σ → ι → Res (σ × ρ)} {s s' : σ} {a : List (Entry ι ρ)}
    {e : Entry ι ρ} :
    Chain step s (a ++ [e]) s' ↔ ∃ m, Chain step s a m ∧ step m e.1 = .ok (s', e.2) := by
  constructor
  · intro h
    obtain ⟨m, h1, x, h2, h3⟩ := h.split
    simp only [Chain] at h3
    subst h3
    exact ⟨m, h1, h2⟩
  · rintro ⟨m, h1, h2⟩
    exact h1.append ⟨s', h2, rfl⟩

mutual
/-- Nested execution with rollback is, on the committed log, a linear sequence of successful calls. -/
theorem exec_chain (step : σ → ι → Res (σ × ρ)) (a : Act ι) (s s' : σ)
    (log log' : List (Entry ι ρ)) (h : exec step a (s, log) = some (s', log')) :
    ∃ new, log' = log ++ new ∧ Chain step s new s' := by
  cases a with
  | call c after =>
    unfold exec at h
    cases hs : step s c with
    | error e => simp [hs] at h
    | ok p =>
      obtain ⟨m, r⟩ := p
      simp only [hs] at h
      obtain ⟨new, h1, h2⟩ := execList_chain step after m s' _ log' h
      exact ⟨(c, r) :: new, by rw [h1]; simp, m, hs, h2⟩
  | attempt body =>
    unfold exec at h
    cases hb : execList step body (s, log) with
    | none =>
      simp only [hb, Option.some.injEq, Prod.mk.injEq] at h
      obtain ⟨rfl, rfl⟩ := h
      exact ⟨[], by simp, rfl⟩
    | some y =>
      obtain ⟨y1, y2⟩ := y
      simp only [hb, Option.some.injEq, Prod.mk.injEq] at h
      obtain ⟨rfl, rfl⟩ := h
      exact execList_chain step body s y1 log y2 hb
  | abort => unfold exec at h; cases h

theorem execList_chain (step : σ → ι → Res (σ × ρ)) (l : List (Act ι)) (s s' : σ)
    (log log' : List (Entry ι ρ)) (h : execList step l (s, log) = some (s', log')) :
    ∃ new, log' = log ++ new ∧ Chain step s new s' := by
  cases l with
  | nil =>
    unfold execList at h
    simp only [Option.some.injEq, Prod.mk.injEq] at h
    obtain ⟨rfl, rfl⟩ := h
    exact ⟨[], by simp, rfl⟩
  | cons a t =>
    unfold execList at h
    cases ha : exec step a (s, log) with
    | none => simp [ha] at h
    | some y =>
      obtain ⟨m, lm⟩ := y
      simp only [ha] at h
      obtain ⟨n1, h1, c1⟩ := exec_chain step a s m log lm ha
      obtain ⟨n2, h2, c2⟩ := execList_chain step t m s' lm log' h
      exact ⟨n1 ++ n2, by rw [h2, h1]; simp, c1.append c2⟩
end

theorem history_append (step : σ → ι → Res (σ × ρ)) (s : σ) (a b : List (List (Act ι))) :
    ∃ new, (history step s (a ++ b)).2 = (history step s a).2 ++ new ∧
      Chain step (history step s a).1 new (history step s (a ++ b)).1 := by
  have key : ∀ (b : List (List (Act ι))) (x : σ × List (Entry ι ρ)),
      ∃ new, (b.foldl (fun x tx => ((exec step (.attempt tx) x).getD x)) x).2 = x.2 ++ new ∧
      Chain step x.1 new (b.foldl (fun x tx => ((exec step (.attempt tx) x).getD x)) x).1 := by
    intro b
    induction b with
    | nil => intro x; exact ⟨[], by simp, rfl⟩
    | cons tx t ih =>
      intro x
      rw [List.foldl_cons]
      cases hx : exec step (.attempt tx) x with
      | none => exact ih x
      | some y =>
        obtain ⟨x1, x2⟩ := x
        obtain ⟨y1, y2⟩ := y
        obtain ⟨n1, h1, c1⟩ := exec_chain step _ x1 y1 x2 y2 hx
        obtain ⟨n2, h2, c2⟩ := ih (y1, y2)
        refine ⟨n1 ++ n2, ?_, c1.append c2⟩
        simp only [Option.getD_some]
        rw [h2, h1]
        simp
  unfold history
  rw [List.foldl_append]
  exact key b _

/-- The committed log of a history is a linear sequence of successful calls leading to the final state. -/
theorem history_chain (step : σ → ι → Res (σ × ρ)) (s : σ) (txs : List (List (Act ι))) :
    Chain step s (history step s txs).2 (history step s txs).1 := by
  obtain ⟨new, h1, h2⟩ := history_append step s [] txs
  rw [List.nil_append] at h1 h2
  rw [h1]
  exact h2

/-- Invariants hold after any history. -/
theorem Chain.invariant {step : σ → ι → Res (σ × ρ)} (P : σ → Prop)
    (hstep : ∀ s c s' r, P s → step s c = .ok (s', r) → P s') {s s' : σ} {l : List (Entry ι ρ)}
    (h : Chain step s l s') (hs : P s) : P s' := by
  induction l generalizing s with
  | nil =>
    simp only [Chain] at h
    rw [h]; exact hs
  | cons e t ih =>
    obtain ⟨c, r⟩ := e
    obtain ⟨m, h1, h2⟩ := h
    exact ih h2 (hstep s c m r hs h1)

end Hpl.Tx
