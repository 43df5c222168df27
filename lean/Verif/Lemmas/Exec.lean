import Verif.Lemmas.Packages
import Verif.Lemmas.Coins
import Verif.Lemmas.Message
import Verif.Spec.Exec
import Verif.Model.Owned
import Verif.Model.Tx
import Mathlib.Data.List.Induction

/-! Lemmas about contracts with an ownership part. -/

namespace Hpl

open Spec

variable {ε σ μ κ ν ι ρ : Type}

theorem stepOf_ok {exec : σ → ι → Res (σ × ρ)} {s s' : σ} {c : ι} :
    stepOf exec s c = .ok s' ↔ ∃ r, exec s c = .ok (s', r) := by
  unfold stepOf
  cases h : exec s c with
  | error e => simp [Except.map]
  | ok x =>
    obtain ⟨a, b⟩ := x
    simp [Except.map]

theorem stepOf_error {exec : σ → ι → Res (σ × ρ)} {s : σ} {c : ι} {e : Fail} :
    stepOf exec s c = .error e ↔ exec s c = .error e := by
  unfold stepOf
  cases h : exec s c <;> simp [Except.map]

/-- The final state of a chain of successful calls is the state after running the calls. -/
theorem Tx.Chain.run {step : σ → ι → Res (σ × ρ)} {s s' : σ} {l : List (Tx.Entry ι ρ)}
    (h : Tx.Chain step s l s') : s' = Hpl.run (stepOf step) s (l.map Prod.fst) := by
  induction l generalizing s with
  | nil => exact h
  | cons e t ih =>
    obtain ⟨c, r⟩ := e
    obtain ⟨m, h1, h2⟩ := h
    rw [List.map_cons, run_cons, applyCall_ok (stepOf_ok.2 ⟨r, h1⟩)]
    exact ih h2

/-- The state after a history of transactions with nested calls and rollbacks is the state after running, one after
the other, the calls that were not rolled back. So whatever holds after all linear histories holds after all histories
of transactions. -/
theorem Tx.history_run (step : σ → ι → Res (σ × ρ)) (s : σ) (txs : List (List (Tx.Act ι))) :
    (Tx.history step s txs).1 = Hpl.run (stepOf step) s ((Tx.history step s txs).2.map Prod.fst) :=
  (Tx.history_chain step s txs).run

theorem onlyOwner_ok {own : Ownable.State} {sender : Addr} {u : Unit} :
    onlyOwner own sender = .ok u ↔ own.owner = some sender := by
  unfold onlyOwner
  rw [bind_eq_ok]
  constructor
  · rintro ⟨o, h1, h2⟩
    rw [← of_decide_eq_true (ensure_eq_ok.1 h2)]
    exact Ownable.getOwner_eq_ok.1 h1
  · intro h
    exact ⟨sender, Ownable.getOwner_eq_ok.2 h, by simp⟩

section

variable {valid : ε → Addr → Bool}
  {part : ε → Ownable.State → σ → Addr → List Coin → μ → Res (σ × Response)}

theorem execOwned_ok {s s' : Ownable.State × σ} {c : ExecCall ε μ} {r : Response}
    (h : execOwned valid part s c = .ok (s', r)) :
    (∃ m, c.msg = .inl m ∧ Ownable.handle (valid c.env) s.1 c.sender m = .ok s'.1 ∧ s'.2 = s.2 ∧ r = {}) ∨
    (∃ m, c.msg = .inr m ∧ part c.env s.1 s.2 c.sender c.funds m = .ok (s'.2, r) ∧ s'.1 = s.1) := by
  unfold execOwned at h
  split at h
  · rename_i m hm
    obtain ⟨o, h1, hf⟩ := bind_eq_ok.1 h
    simp only [pure_eq_ok, Except.ok.injEq, Prod.mk.injEq] at hf
    obtain ⟨rfl, rfl⟩ := hf
    exact .inl ⟨m, hm, h1, rfl, rfl⟩
  · rename_i m hm
    obtain ⟨p, h1, hf⟩ := bind_eq_ok.1 h
    simp only [pure_eq_ok, Except.ok.injEq, Prod.mk.injEq] at hf
    obtain ⟨rfl, rfl⟩ := hf
    exact .inr ⟨m, hm, h1, rfl⟩

theorem execOwned_inr {s : Ownable.State × σ} {e : ε} {sender : Addr} {funds : List Coin} {m : μ}
    {x : (Ownable.State × σ) × Response} :
    execOwned valid part s ⟨e, sender, funds, .inr m⟩ = .ok x ↔
      ∃ p, part e s.1 s.2 sender funds m = .ok p ∧ x = ((s.1, p.1), p.2) := by
  unfold execOwned
  simp only
  rw [bind_eq_ok]
  simp only [pure_eq_ok, Except.ok.injEq, @eq_comm _ _ x]

theorem execOwned_inl {s : Ownable.State × σ} {e : ε} {sender : Addr} {funds : List Coin} {m : Ownable.Msg}
    {x : (Ownable.State × σ) × Response} :
    execOwned valid part s ⟨e, sender, funds, .inl m⟩ = .ok x ↔
      ∃ o, Ownable.handle (valid e) s.1 sender m = .ok o ∧ x = ((o, s.2), {}) := by
  unfold execOwned
  simp only
  rw [bind_eq_ok]
  simp only [pure_eq_ok, Except.ok.injEq, @eq_comm _ _ x]

/-- Call to a contract with an ownership part, as a call of the owned contract of `Verif/Model/Owned.lean`. -/
def ExecCall.toOwned (valid : ε → Addr → Bool) (c : ExecCall ε μ) : OwnedCall (ε × List Coin × μ) :=
  ⟨valid c.env, c.sender, c.msg.map id (fun m => (c.env, c.funds, m))⟩

/-- Contracts with an ownership part are owned contracts, so C27 (ownership) applies to them. -/
theorem run_toOwned (s : Ownable.State × σ) (h : List (ExecCall ε μ)) :
    run (stepOf (execOwned valid part)) s h =
      run (ownedStep (fun _ own p sender (x : ε × List Coin × μ) =>
        (part x.1 own p sender x.2.1 x.2.2).map Prod.fst)) s (h.map (ExecCall.toOwned valid)) := by
  induction h generalizing s with
  | nil => rfl
  | cons c t ih =>
    rw [List.map_cons, run_cons, run_cons, ih]
    congr 1
    unfold applyCall stepOf execOwned ownedStep ExecCall.toOwned
    rcases c.msg with m | m
    · simp only [Sum.map_inl, id]
      cases Ownable.handle (valid c.env) s.1 c.sender m <;> rfl
    · simp only [Sum.map_inr]
      cases part c.env s.1 s.2 c.sender c.funds m <;> rfl

/-- State after a history in terms of what the owner told the contract. -/
theorem run_execOwned (cfg : μ → Option κ) (body : ε → σ → κ → Res σ)
    (hcfg : ∀ e own s sender funds m k s', cfg m = some k →
      ((∃ r, part e own s sender funds m = .ok (s', r)) ↔ own.owner = some sender ∧ body e s k = .ok s'))
    (hrest : ∀ e own s sender funds m s' r, cfg m = none → part e own s sender funds m = .ok (s', r) → s' = s)
    (own : Ownable.State) (s : σ) (h : List (ExecCall ε μ)) :
    (run (stepOf (execOwned valid part)) (own, s) h).2 =
      run (fun s (x : ε × κ) => body x.1 s x.2) s (ownerCalls valid cfg own h) := by
  induction h generalizing own s with
  | nil => rfl
  | cons c t ih =>
    rw [run_cons]
    unfold ownerCalls
    rcases hm : c.msg with m | m
    · simp only
      cases hh : Ownable.handle (valid c.env) own c.sender m with
      | ok own' =>
        have : applyCall (stepOf (execOwned valid part)) (own, s) c = (own', s) :=
          applyCall_ok (stepOf_ok.2 ⟨{}, by unfold execOwned; rw [hm]; simp [hh]⟩)
        rw [this, ih]
      | error e =>
        have : applyCall (stepOf (execOwned valid part)) (own, s) c = (own, s) :=
          applyCall_error (e := e) (stepOf_error.2 (by unfold execOwned; rw [hm]; simp [hh]))
        rw [this, ih]
    · simp only
      cases hp : part c.env own s c.sender c.funds m with
      | error e =>
        have : applyCall (stepOf (execOwned valid part)) (own, s) c = (own, s) :=
          applyCall_error (e := e) (stepOf_error.2 (by unfold execOwned; rw [hm]; simp [hp]))
        rw [this, ih]
        cases hk : cfg m with
        | none => rfl
        | some k =>
          simp only
          by_cases ho : own.owner = some c.sender
          · rw [if_pos ho, List.singleton_append, run_cons]
            congr 1
            cases hb : body c.env s k with
            | error e' => exact (applyCall_error (step := fun s (x : ε × κ) => body x.1 s x.2) hb).symm
            | ok s' =>
              obtain ⟨r, hr⟩ := (hcfg c.env own s c.sender c.funds m k s' hk).2 ⟨ho, hb⟩
              rw [hp] at hr; cases hr
          · rw [if_neg ho, List.nil_append]
      | ok p =>
        have : applyCall (stepOf (execOwned valid part)) (own, s) c = (own, p.1) :=
          applyCall_ok (stepOf_ok.2 ⟨p.2, by unfold execOwned; rw [hm]; simp [hp]⟩)
        rw [this, ih]
        cases hk : cfg m with
        | none => rw [hrest _ _ _ _ _ _ _ p.2 hk hp]
        | some k =>
          obtain ⟨ho, hb⟩ := (hcfg c.env own s c.sender c.funds m k p.1 hk).1 ⟨p.2, hp⟩
          simp only
          rw [if_pos ho, List.singleton_append, run_cons,
            applyCall_ok (step := fun s (x : ε × κ) => body x.1 s x.2) hb]

end

/-! ### Last writes -/

section

variable [DecidableEq κ]

@[simp] theorem lastFor_nil (k : κ) : lastFor k ([] : List (κ × Option ν)) = none := rfl

theorem lastFor_append (k : κ) (a b : List (κ × Option ν)) :
    lastFor k (a ++ b) = (lastFor k b).or (lastFor k a) := by
  unfold lastFor
  rw [List.reverse_append, List.find?_append]
  cases b.reverse.find? (fun x => x.1 = k) <;> rfl

theorem lastFor_singleton (k : κ) (x : κ × Option ν) :
    lastFor k [x] = if k = x.1 then some x.2 else none := by
  unfold lastFor
  by_cases h : k = x.1
  · simp [h]
  · have h' : ¬ x.1 = k := fun e => h e.symm
    simp [h, h']

theorem lastFor_cons (k : κ) (x : κ × Option ν) (l : List (κ × Option ν)) :
    lastFor k (x :: l) = (lastFor k l).or (if k = x.1 then some x.2 else none) := by
  rw [← List.singleton_append, lastFor_append, lastFor_singleton]

theorem lastFor_mem {k : κ} {l : List (κ × Option ν)} {v : Option ν} (h : lastFor k l = some v) : (k, v) ∈ l := by
  unfold lastFor at h
  obtain ⟨x, h1, h2⟩ := Option.map_eq_some_iff.1 h
  have hp := List.find?_some h1
  have hm := List.mem_of_find?_eq_some h1
  simp only [decide_eq_true_eq] at hp
  rw [← hp, ← h2]
  simpa using hm

end

theorem ownerCalls_call {ε μ κ : Type} {valid : ε → Addr → Bool} {cfg : μ → Option κ} {own : Ownable.State}
    {h : List (ExecCall ε μ)} {x : ε × κ} (hx : x ∈ ownerCalls valid cfg own h) :
    ∃ c ∈ h, ∃ m, c.msg = .inr m ∧ cfg m = some x.2 := by
  induction h generalizing own with
  | nil => cases hx
  | cons c t ih =>
    have lift : (∃ c ∈ t, ∃ m, c.msg = .inr m ∧ cfg m = some x.2) →
        ∃ c' ∈ c :: t, ∃ m, c'.msg = .inr m ∧ cfg m = some x.2 :=
      fun ⟨c', h1, h2⟩ => ⟨c', List.mem_cons_of_mem _ h1, h2⟩
    unfold ownerCalls at hx
    split at hx
    · split at hx
      · exact lift (ih hx)
      · exact lift (ih hx)
    · rename_i m hm
      split at hx
      · rename_i k hk
        rcases List.mem_append.1 hx with hx | hx
        · split at hx
          · simp only [List.mem_singleton] at hx
            subst hx
            exact ⟨c, List.mem_cons_self, m, hm, hk⟩
          · cases hx
        · exact lift (ih hx)
      · exact lift (ih hx)

theorem ownerCalls_mem {ε μ κ : Type} {valid : ε → Addr → Bool} {cfg : μ → Option κ} {own : Ownable.State}
    {h : List (ExecCall ε μ)} {x : ε × κ} (hx : x ∈ ownerCalls valid cfg own h) : ∃ m, cfg m = some x.2 := by
  obtain ⟨_, _, m, _, hm⟩ := ownerCalls_call hx
  exact ⟨m, hm⟩

theorem run_set_last {α : Type} (a : α) (l : List (ε × α)) :
    run (fun (_ : α) (x : ε × α) => (.ok x.2 : Res α)) a l = ((l.map Prod.snd).getLast?).getD a := by
  induction l using List.reverseRecOn with
  | nil => rfl
  | append_singleton t x ih => rw [run_snoc]; simp [applyCall]

end Hpl
