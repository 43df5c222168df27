import Mathlib.Data.List.Induction
import Verif.Lemmas.Interface
import Verif.Lemmas.Proto
import Verif.Lemmas.Res
import Verif.Spec.Events

/-! # Lemmas about events -/

namespace Hpl.Events

open Spec Tx

variable {σ ι ρ : Type}

theorem hex_eq (b : Bytes) : hex b = hexText b := Interface.hexText_eq b

theorem number_decimal (n : Nat) : Decimal (number n) n := Proto.decimal_repr n

theorem logged_ok {step : σ → ι → Res (σ × ρ)} {ev : σ → ι → ρ → List TextEvent} {s s' : σ} {c : ι} {r : ρ}
    {l : List TextEvent} :
    logged step ev s c = .ok (s', (r, l)) ↔ step s c = .ok (s', r) ∧ l = ev s c r := by
  unfold logged
  rw [bind_eq_ok]
  constructor
  · rintro ⟨⟨a, b⟩, h1, hf⟩
    simp only [pure_eq_ok, Except.ok.injEq, Prod.mk.injEq] at hf
    obtain ⟨rfl, rfl, rfl⟩ := hf
    exact ⟨h1, rfl⟩
  · rintro ⟨h1, rfl⟩
    exact ⟨_, h1, rfl⟩

/-- The log without events. -/
def bare (log : List (ι × (ρ × List TextEvent))) : List (ι × ρ) := log.map (fun e => (e.1, e.2.1))

theorem bare_append (a b : List (ι × (ρ × List TextEvent))) : bare (a ++ b) = bare a ++ bare b := by simp [bare]

theorem all_append (a b : List (ι × (ρ × List TextEvent))) : all (a ++ b) = all a ++ all b := by simp [all]

theorem all_snoc (a : List (ι × (ρ × List TextEvent))) (e : ι × (ρ × List TextEvent)) :
    all (a ++ [e]) = all a ++ e.2.2 := by simp [all]

mutual
theorem exec_logged (step : σ → ι → Res (σ × ρ)) (ev : σ → ι → ρ → List TextEvent) (a : Act ι) (s : σ)
    (log : List (ι × (ρ × List TextEvent))) :
    (exec (logged step ev) a (s, log)).map (fun x => (x.1, bare x.2)) = exec step a (s, bare log) := by
  cases a with
  | call c after =>
    unfold exec
    cases hs : step s c with
    | error e =>
      have : ∃ e, logged step ev s c = .error e := by
        unfold logged; rw [hs]; exact ⟨e, rfl⟩
      obtain ⟨e', he⟩ := this
      simp [he]
    | ok p =>
      obtain ⟨m, r⟩ := p
      rw [logged_ok.2 ⟨hs, rfl⟩]
      simp only
      rw [execList_logged step ev after m]
      simp [bare]
  | attempt body =>
    unfold exec
    have h := execList_logged step ev body s log
    cases hb : execList (logged step ev) body (s, log) with
    | none =>
      rw [hb] at h
      simp only [Option.map_none] at h
      simp [← h]
    | some y =>
      rw [hb] at h
      simp only [Option.map_some] at h
      simp [← h]
  | abort => unfold exec; rfl

theorem execList_logged (step : σ → ι → Res (σ × ρ)) (ev : σ → ι → ρ → List TextEvent) (l : List (Act ι)) (s : σ)
    (log : List (ι × (ρ × List TextEvent))) :
    (execList (logged step ev) l (s, log)).map (fun x => (x.1, bare x.2)) = execList step l (s, bare log) := by
  cases l with
  | nil => unfold execList; rfl
  | cons a t =>
    unfold execList
    have h := exec_logged step ev a s log
    cases ha : exec (logged step ev) a (s, log) with
    | none =>
      rw [ha] at h
      simp only [Option.map_none] at h
      simp [← h]
    | some y =>
      obtain ⟨m, lm⟩ := y
      rw [ha] at h
      simp only [Option.map_some] at h
      simp only [← h]
      exact execList_logged step ev t m lm
end

/-- Recording events changes nothing else. -/
theorem history_logged (step : σ → ι → Res (σ × ρ)) (ev : σ → ι → ρ → List TextEvent) (s : σ) (txs : List (List (Act ι))) :
    (history step s txs).1 = (history (logged step ev) s txs).1 ∧
    (history step s txs).2 = bare (history (logged step ev) s txs).2 := by
  have key : ∀ (txs : List (List (Act ι))) (x : σ × List (ι × (ρ × List TextEvent))),
      txs.foldl (fun x tx => ((exec step (.attempt tx) x).getD x)) (x.1, bare x.2) =
        ((txs.foldl (fun x tx => ((exec (logged step ev) (.attempt tx) x).getD x)) x).1,
         bare (txs.foldl (fun x tx => ((exec (logged step ev) (.attempt tx) x).getD x)) x).2) := by
    intro txs
    induction txs with
    | nil => intro x; rfl
    | cons tx t ih =>
      intro x
      rw [List.foldl_cons, List.foldl_cons, ← ih]
      congr 1
      obtain ⟨x1, x2⟩ := x
      have h := exec_logged step ev (.attempt tx) x1 x2
      simp only at h ⊢
      cases hb : exec (logged step ev) (.attempt tx) (x1, x2) with
      | none =>
        rw [hb] at h
        simp only [Option.map_none] at h
        rw [← h]
        rfl
      | some y =>
        rw [hb] at h
        simp only [Option.map_some] at h
        rw [← h]
        rfl
  have h := key txs (s, [])
  unfold history
  have hb : bare ([] : List (ι × (ρ × List TextEvent))) = [] := rfl
  rw [hb] at h
  rw [h]
  exact ⟨rfl, rfl⟩

/-- Snoc induction along a logged history. -/
theorem logged_induct {step : σ → ι → Res (σ × ρ)} {ev : σ → ι → ρ → List TextEvent}
    (P : σ → List (ι × (ρ × List TextEvent)) → Prop) {s0 s : σ} {log : List (ι × (ρ × List TextEvent))}
    (hc : Chain (logged step ev) s0 log s) (h0 : P s0 [])
    (hs : ∀ s c s' r l, P s l → step s c = .ok (s', r) → P s' (l ++ [(c, (r, ev s c r))])) : P s log := by
  induction log using List.reverseRecOn generalizing s with
  | nil =>
    simp only [Chain] at hc
    subst hc
    exact h0
  | append_singleton l e ih =>
    obtain ⟨c, r, lv⟩ := e
    obtain ⟨m, h1, h2⟩ := Chain.snoc.1 hc
    simp only at h2
    obtain ⟨h3, h4⟩ := logged_ok.1 h2
    rw [h4]
    exact hs _ _ _ _ _ (ih h1) h3

theorem ofType_append (t : String) (a b : List TextEvent) : ofType t (a ++ b) = ofType t a ++ ofType t b := by
  simp [ofType]

theorem ofType_nil (t : String) : ofType t [] = [] := rfl

theorem ofType_cons (t : String) (e : TextEvent) (l : List TextEvent) :
    ofType t (e :: l) = if e.ty = t then e :: ofType t l else ofType t l := by
  simp only [ofType, List.filter_cons, decide_eq_true_eq]

theorem latest_append_none {t k : String} {a b : List TextEvent} (h : ofType t b = []) :
    latest t k (a ++ b) = latest t k a := by
  unfold latest
  rw [ofType_append, h, List.append_nil]

theorem latest_snoc {t k : String} {a b : List TextEvent} {e : TextEvent} (h : ofType t b = [e]) :
    latest t k (a ++ b) = attr k e := by
  unfold latest
  rw [ofType_append, h]
  simp

end Hpl.Events
