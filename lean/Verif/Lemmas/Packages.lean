import Verif.Model.Packages
import Verif.Lemmas.Res
import Verif.Lemmas.OMap

/-! Lemmas about the shared packages. -/

namespace Hpl

namespace Ownable

theorem getOwner_eq_ok {s : State} {o : Addr} : getOwner s = .ok o ↔ s.owner = some o := by
  unfold getOwner
  cases s.owner <;> simp

theorem handle_init_ok {valid : Addr → Bool} {s s' : State} {sender next : Addr} :
    handle valid s sender (.initTransfer next) = .ok s' ↔
      valid next = true ∧ s.owner = some sender ∧ s.pending = none ∧
        s' = { s with pending := some next } := by
  simp only [handle, initTransfer]
  constructor
  · intro h
    obtain ⟨_, h1, h⟩ := bind_eq_ok.1 h
    obtain ⟨o, h2, h⟩ := bind_eq_ok.1 h
    obtain ⟨_, h3, h⟩ := bind_eq_ok.1 h
    obtain ⟨_, h4, h⟩ := bind_eq_ok.1 h
    rw [ensure_eq_ok] at h1 h3 h4
    rw [getOwner_eq_ok] at h2
    simp only [decide_eq_true_eq] at h3
    refine ⟨h1, by rw [h2, h3], by simpa using h4, ?_⟩
    simpa using h.symm
  · rintro ⟨h1, h2, h3, rfl⟩
    simp [h1, getOwner, h2, h3]

theorem handle_revoke_ok {valid : Addr → Bool} {s s' : State} {sender : Addr} :
    handle valid s sender .revoke = .ok s' ↔
      s.owner = some sender ∧ (∃ p, s.pending = some p) ∧ s' = { s with pending := none } := by
  simp only [handle, revoke]
  constructor
  · intro h
    obtain ⟨o, h2, h⟩ := bind_eq_ok.1 h
    obtain ⟨_, h3, h⟩ := bind_eq_ok.1 h
    obtain ⟨_, h4, h⟩ := bind_eq_ok.1 h
    rw [ensure_eq_ok] at h3 h4
    rw [getOwner_eq_ok] at h2
    simp only [decide_eq_true_eq] at h3
    refine ⟨by rw [h2, h3], Option.isSome_iff_exists.1 h4, ?_⟩
    simpa using h.symm
  · rintro ⟨h2, ⟨p, h3⟩, rfl⟩
    simp [getOwner, h2, h3]

theorem handle_claim_ok {valid : Addr → Bool} {s s' : State} {sender : Addr} :
    handle valid s sender .claim = .ok s' ↔
      s.pending = some sender ∧ s' = ⟨some sender, none⟩ := by
  simp only [handle, claim]
  cases hp : s.pending with
  | none => simp
  | some p =>
    constructor
    · intro h
      obtain ⟨_, h3, h⟩ := bind_eq_ok.1 h
      rw [ensure_eq_ok] at h3
      simp only [decide_eq_true_eq] at h3
      exact ⟨by rw [h3], by simpa using h.symm⟩
    · rintro ⟨h, rfl⟩
      cases h
      simp

end Ownable

namespace Pausable

theorem handle_ok {own : Ownable.State} {p p' : Bool} {sender : Addr} {m : Msg} :
    handle own p sender m = .ok p' ↔
      own.owner = some sender ∧ p' = !p ∧ (p' = true ↔ m = .pause) := by
  unfold handle
  constructor
  · intro h
    obtain ⟨o, h2, h⟩ := bind_eq_ok.1 h
    obtain ⟨_, h3, h⟩ := bind_eq_ok.1 h
    rw [ensure_eq_ok] at h3
    rw [Ownable.getOwner_eq_ok] at h2
    simp only [decide_eq_true_eq] at h3
    refine ⟨by rw [h2, h3], ?_⟩
    cases m <;> cases p <;> simp_all
  · rintro ⟨h1, h2, h3⟩
    have hg : Ownable.getOwner own = .ok sender := Ownable.getOwner_eq_ok.2 h1
    cases m <;> cases p <;> simp_all

end Pausable

namespace Router

variable {τ : Type}

theorem handle_ok {own : Ownable.State} {s s' : State τ} {sender : Addr} {m : Msg τ} :
    handle own s sender m = .ok s' ↔
      own.owner = some sender ∧
        s' = setRoutes s (match m with | .setRoute x => [x] | .setRoutes l => l) := by
  unfold handle
  constructor
  · intro h
    obtain ⟨o, h2, h⟩ := bind_eq_ok.1 h
    obtain ⟨_, h3, h⟩ := bind_eq_ok.1 h
    rw [ensure_eq_ok] at h3
    rw [Ownable.getOwner_eq_ok] at h2
    simp only [decide_eq_true_eq] at h3
    refine ⟨by rw [h2, h3], ?_⟩
    cases m <;> simpa [setRoutes] using h.symm
  · rintro ⟨h1, rfl⟩
    have hg : Ownable.getOwner own = .ok sender := Ownable.getOwner_eq_ok.2 h1
    cases m <;> simp [hg, setRoutes]

theorem setRoutes_append (s : State τ) (a b : List (UInt32 × Option τ)) :
    setRoutes s (a ++ b) = setRoutes (setRoutes s a) b := by simp [setRoutes]

end Router

namespace Connection

theorem handle_ok {valid : Addr → Bool} {own : Ownable.State} {s s' : State} {sender : Addr}
    {m : Msg} :
    handle valid own s sender m = .ok s' ↔
      own.owner = some sender ∧
        (match m with
          | .setMailbox a => valid a = true ∧ s' = { s with mailbox := some a }
          | .setIsm a => valid a = true ∧ s' = { s with ism := some a }
          | .setHook a => valid a = true ∧ s' = { s with hook := some a }) := by
  unfold handle
  constructor
  · intro h
    obtain ⟨o, h2, h⟩ := bind_eq_ok.1 h
    obtain ⟨_, h3, h⟩ := bind_eq_ok.1 h
    rw [ensure_eq_ok] at h3
    rw [Ownable.getOwner_eq_ok] at h2
    simp only [decide_eq_true_eq] at h3
    refine ⟨by rw [h2, h3], ?_⟩
    cases m <;>
    · obtain ⟨_, h4, h⟩ := bind_eq_ok.1 h
      rw [ensure_eq_ok] at h4
      exact ⟨h4, by simpa using h.symm⟩
  · rintro ⟨h1, h⟩
    have hg : Ownable.getOwner own = .ok sender := Ownable.getOwner_eq_ok.2 h1
    cases m <;>
    · obtain ⟨h4, rfl⟩ := h
      simp [hg, h4]

end Connection

/-! ## Pagination -/

section Page

variable {κ ν : Type} [LinearOrder κ]

theorem getAndCheckLimit_some {l : UInt32} {r : UInt32} :
    getAndCheckLimit (some l) = .ok r ↔ l ≤ maxLimit ∧ r = l := by
  unfold getAndCheckLimit
  by_cases h : l ≤ maxLimit <;> simp [h, eq_comm]

/-- Splitting a key-sorted list at one of its keys. -/
theorem filter_gt_of_split {a b : List (κ × ν)} {p : κ × ν} (hs : KeySorted (a ++ p :: b)) :
    (a ++ p :: b).filter (fun q => decide (p.1 < q.1)) = b := by
  unfold KeySorted at hs
  rw [List.pairwise_append] at hs
  obtain ⟨_, h2, h3⟩ := hs
  rw [List.pairwise_cons] at h2
  rw [List.filter_append, List.filter_cons]
  have e1 : a.filter (fun q => decide (p.1 < q.1)) = [] := by
    rw [List.filter_eq_nil_iff]
    intro q hq
    have := h3 q hq p (by simp)
    simpa using le_of_lt this
  have e2 : b.filter (fun q => decide (p.1 < q.1)) = b := by
    rw [List.filter_eq_self]
    intro q hq
    simpa using h2.1 q hq
  simp [e1, e2]

theorem filter_lt_of_split {a b : List (κ × ν)} {p : κ × ν} (hs : KeySorted (a ++ p :: b)) :
    (a ++ p :: b).filter (fun q => decide (q.1 < p.1)) = a := by
  unfold KeySorted at hs
  rw [List.pairwise_append] at hs
  obtain ⟨_, h2, h3⟩ := hs
  rw [List.pairwise_cons] at h2
  rw [List.filter_append, List.filter_cons]
  have e1 : a.filter (fun q => decide (q.1 < p.1)) = a := by
    rw [List.filter_eq_self]
    intro q hq
    simpa using h3 q hq p (by simp)
  have e2 : b.filter (fun q => decide (q.1 < p.1)) = [] := by
    rw [List.filter_eq_nil_iff]
    intro q hq
    simpa using le_of_lt (h2.1 q hq)
  simp [e1, e2]

end Page

namespace Migrate

theorem migrate_ok {V : Type} [LT V] [DecidableLT V] {parse : String → Option V} {st st' : Option Stored}
    {name version : String} :
    migrate parse st name version = .ok st' ↔
      ∃ s sv v, st = some s ∧ s.contract = name ∧ parse s.version = some sv ∧
        parse version = some v ∧ sv < v ∧ st' = some ⟨name, version⟩ := by
  unfold migrate
  cases st with
  | none => simp
  | some s =>
    constructor
    · intro h
      obtain ⟨_, h3, h⟩ := bind_eq_ok.1 h
      rw [ensure_eq_ok] at h3
      simp only [decide_eq_true_eq] at h3
      cases hv : parse version with
      | none => simp [hv] at h
      | some v =>
        cases hsv : parse s.version with
        | none => simp [hv, hsv] at h
        | some sv =>
          simp only [hv, hsv] at h
          split at h
          · rename_i hlt
            exact ⟨s, sv, v, rfl, h3, hsv, rfl, hlt, by simpa using h.symm⟩
          · simp at h
    · rintro ⟨s', sv, v, h1, h2, h3, h4, h5, rfl⟩
      cases h1
      simp [h2, h3, h4, h5]

end Migrate

end Hpl
