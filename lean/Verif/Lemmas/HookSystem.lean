import Verif.Lemmas.Igp
import Verif.Lemmas.Mailbox
import Verif.Lemmas.Merkle
import Verif.Spec.HookSystem

/-! Lemmas about trees of hooks. -/

namespace Hpl.Spec

open HookSystem

variable {W : World} {md b : Bytes}

/-! ### Coins -/

/-- No zero coin and no denomination twice. -/
def Tidy (l : List Coin) : Prop := DistinctDenoms l ∧ ∀ c ∈ l, c.amount ≠ 0

theorem tidy_nil : Tidy [] := ⟨by simp [DistinctDenoms], by simp⟩

theorem tidy_one {c : Coin} (h : c.amount ≠ 0) : Tidy [c] := ⟨by simp [DistinctDenoms, h], by simpa using h⟩

theorem tidy_toVec {m : Coins} (h : Coins.Pos m) : Tidy m.toVec := ⟨Coins.distinct_toVec m, Coins.toVec_pos h⟩

theorem Tidy.nodup {l : List Coin} (h : Tidy l) : (l.map (·.denom)).Nodup := by
  have := h.1
  unfold DistinctDenoms at this
  rwa [List.filter_eq_self.2 (by intro c hc; simpa using h.2 c hc)] at this

theorem amountOf_mem {l : List Coin} {c : Coin} (hc : c ∈ l) : c.amount ≤ amountOf c.denom l := by
  induction l with
  | nil => cases hc
  | cons x t ih =>
    rw [amountOf_cons]
    rcases List.mem_cons.1 hc with rfl | hc
    · rw [if_pos rfl]; omega
    · have := ih hc; omega

theorem tidy_eq_nil {l : List Coin} (h : Tidy l) (h0 : ∀ d, amountOf d l = 0) : l = [] := by
  cases l with
  | nil => rfl
  | cons c t =>
    have h1 := amountOf_mem (l := c :: t) (c := c) (by simp)
    rw [h0] at h1
    exact absurd (Nat.le_zero.1 h1) (h.2 c (by simp))

theorem amountOf_one (d : String) (c : Coin) : amountOf d [c] = if c.denom = d then c.amount else 0 := by
  rw [amountOf_cons]; simp

theorem tidy_eq_one {l : List Coin} (h : Tidy l) {c : Coin} (hc : c.amount ≠ 0)
    (h1 : ∀ d, amountOf d l = amountOf d [c]) : l = [c] := by
  have hall : ∀ x ∈ l, x.denom = c.denom := by
    intro x hx
    by_contra hne
    have h2 := amountOf_mem hx
    rw [h1, amountOf_one, if_neg (fun e => hne e.symm)] at h2
    exact h.2 x hx (Nat.le_zero.1 h2)
  cases l with
  | nil =>
    have := h1 c.denom
    rw [amountOf_one, if_pos rfl] at this
    exact absurd this.symm hc
  | cons x t =>
    cases t with
    | nil =>
      have hx := hall x (by simp)
      have := h1 c.denom
      rw [amountOf_one, amountOf_one, if_pos hx, if_pos rfl] at this
      obtain ⟨d, a⟩ := x
      obtain ⟨d', a'⟩ := c
      simp only at hx this
      rw [hx, this]
    | cons y t =>
      have hn := h.nodup
      simp only [List.map_cons, List.nodup_cons, List.mem_cons] at hn
      exact absurd (.inl ((hall x (by simp)).trans (hall y (by simp)).symm)) hn.1

/-! ### Payments -/

theorem payCoin_ok {k : Bank} {src dst : Addr} {c : Coin} (h : c.amount ≤ k src c.denom) :
    ∃ k', payCoin k src dst c = .ok k' ∧ ∀ a d,
      k' a d + (if a = src then amountOf d [c] else 0) = k a d + (if a = dst then amountOf d [c] else 0) := by
  unfold payCoin
  rw [if_pos h]
  refine ⟨_, rfl, ?_⟩
  intro a d
  rw [amountOf_one]
  by_cases h1 : a = dst <;> by_cases h2 : a = src <;> by_cases h3 : d = c.denom
  all_goals first
    | (subst h3; simp [h1, h2] at *; done)
    | (subst h3; subst h2; simp [h1] at *; omega)
    | (subst h3; subst h1; simp [h2] at *; try omega)
    | (have h3' : ¬ c.denom = d := fun e => h3 e.symm
       simp [h1, h2, h3, h3'])

theorem pay_ok {k : Bank} {src dst : Addr} {l : List Coin} (h : ∀ d, amountOf d l ≤ k src d) :
    ∃ k', pay k src dst l = .ok k' ∧ ∀ a d,
      k' a d + (if a = src then amountOf d l else 0) = k a d + (if a = dst then amountOf d l else 0) := by
  induction l generalizing k with
  | nil => exact ⟨k, rfl, by simp⟩
  | cons c t ih =>
    have hc : ∀ d, amountOf d (c :: t) = amountOf d [c] + amountOf d t := fun d => amountOf_append d [c] t
    obtain ⟨k1, h1, h2⟩ := payCoin_ok (k := k) (src := src) (dst := dst) (c := c)
      (le_trans (amountOf_mem (by simp)) (h c.denom))
    obtain ⟨k2, h3, h4⟩ := ih (k := k1) (by
      intro d
      have e1 := h2 src d
      have e2 := h d
      rw [hc] at e2
      rw [if_pos rfl] at e1
      omega)
    refine ⟨k2, by simp only [pay, h1, ok_bind, h3], ?_⟩
    intro a d
    have e1 := h2 a d
    have e2 := h4 a d
    rw [hc]
    split_ifs at e1 e2 ⊢ <;> omega

theorem pay_cover {k k' : Bank} {src dst : Addr} {l : List Coin} (hn : Tidy l) (h : pay k src dst l = .ok k') (d : String) :
    amountOf d l ≤ k src d := by
  have key : ∀ (l : List Coin) (k k' : Bank), (l.map (·.denom)).Nodup → pay k src dst l = .ok k' →
      amountOf d l ≤ k src d := by
    intro l
    induction l with
    | nil => intros; simp
    | cons c t ih =>
      intro k k' hnd h
      simp only [pay] at h
      obtain ⟨k1, h1, h2⟩ := bind_eq_ok.1 h
      rw [List.map_cons, List.nodup_cons] at hnd
      have h3 := ih k1 k' hnd.2 h2
      rw [amountOf_cons]
      unfold payCoin at h1
      split at h1
      · rename_i hle
        cases h1
        by_cases hd : c.denom = d
        · subst hd
          rw [if_pos rfl]
          have : amountOf c.denom t = 0 := by
            unfold amountOf
            rw [List.filter_eq_nil_iff.2]
            · rfl
            · intro x hx hxd
              exact hnd.1 (List.mem_map.2 ⟨x, hx, by simpa using hxd⟩)
          omega
        · rw [if_neg hd]
          have hd' : ¬ d = c.denom := fun e => hd e.symm
          simpa [hd'] using h3
      · cases h1
  exact key l k k' hn.nodup h

/-! ### Visits -/

theorem keptBy_append (d : String) (u v : List Visit) : keptBy d (u ++ v) = keptBy d u + keptBy d v := by
  simp [keptBy]

theorem keptAt_append (a : Addr) (d : String) (u v : List Visit) :
    keptAt a d (u ++ v) = keptAt a d u + keptAt a d v := by
  simp [keptAt, keptBy_append]

theorem visitsOf_append (a : Addr) (u v : List Visit) : visitsOf a (u ++ v) = visitsOf a u + visitsOf a v := by
  simp [visitsOf]

theorem keptBy_one (d : String) (a : Addr) (l : List Coin) : keptBy d [(a, l)] = amountOf d l := by simp [keptBy]

theorem keptAt_one (x : Addr) (d : String) (a : Addr) (l : List Coin) :
    keptAt x d [(a, l)] = if x = a then amountOf d l else 0 := by
  unfold keptAt
  by_cases h : a = x
  · simp [h, keptBy]
  · have h' : ¬ x = a := fun e => h e.symm
    simp [h, h', keptBy]

theorem visitsOf_one (x a : Addr) (l : List Coin) : visitsOf x [(a, l)] = if x = a then 1 else 0 := by
  unfold visitsOf
  by_cases h : a = x
  · simp [h]
  · have h' : ¬ x = a := fun e => h e.symm
    simp [h, h']

theorem keptBy_free {d : String} {vs : List Visit} (h : ∀ v ∈ vs, v.2 = []) : keptBy d vs = 0 := by
  unfold keptBy
  rw [List.sum_eq_zero_iff_forall_eq_nat]
  intro n hn
  obtain ⟨v, hv, rfl⟩ := List.mem_map.1 hn
  rw [h v hv]; rfl

/-! ### Contracts that differ in merkle trees only -/

theorem GrownBy.refl (hooks : Contracts) : GrownBy hooks hooks [] :=
  ⟨fun _ s h => ⟨s.tree, h, by simp [visitsOf]⟩, fun _ _ => rfl⟩

theorem GrownBy.trans {x y z : Contracts} {u v : List Visit} (h1 : GrownBy x y u) (h2 : GrownBy y z v) :
    GrownBy x z (u ++ v) := by
  refine ⟨?_, ?_⟩
  · intro a s hs
    obtain ⟨t, e1, c1⟩ := h1.1 a s hs
    obtain ⟨t', e2, c2⟩ := h2.1 a _ e1
    exact ⟨t', e2, by rw [c2, visitsOf_append]; simp only; omega⟩
  · intro a hn
    have e1 := h1.2 a hn
    rw [h2.2 a (by rw [e1]; exact hn), e1]

variable {hooks hooks' : Contracts} {vs : List Visit}

theorem GrownBy.same (h : GrownBy hooks hooks' vs) {a : Addr} {c : Contract} (hc : hooks a = some c)
    (hn : ∀ s, c ≠ .merkle s) : hooks' a = some c := by
  rw [h.2 a, hc]
  intro s hs
  rw [hc] at hs
  exact hn s (Option.some.inj hs)

theorem GrownBy.oracleOf (h : GrownBy hooks hooks' vs) (n : Nat) : oracleOf hooks' n = oracleOf hooks n := by
  induction n with
  | zero => rfl
  | succ n ih =>
    funext a d
    unfold HookSystem.oracleOf HookSystem.answerRate
    rw [ih]
    cases hc : hooks a with
    | none => rw [h.2 a (by rw [hc]; intro s; simp), hc]
    | some c =>
      cases c with
      | merkle s =>
        obtain ⟨t, ht, _⟩ := h.1 a s hc
        rw [ht]
      | _ => rw [h.same hc (by intro s; simp)]

theorem GrownBy.oracleAt (h : GrownBy hooks hooks' vs) : oracleAt hooks' = oracleAt hooks := h.oracleOf 10

theorem GrownBy.quoteOf (h : GrownBy hooks hooks' vs) (n : Nat) : quoteOf hooks' n = quoteOf hooks n := by
  induction n with
  | zero => funext a m b; rfl
  | succ n ih =>
    funext a m b
    unfold HookSystem.quoteOf
    rw [h.oracleAt, ih]
    cases hc : hooks a with
    | none => rw [h.2 a (by rw [hc]; intro s; simp), hc]
    | some c =>
      cases c with
      | merkle s =>
        obtain ⟨t, ht, _⟩ := h.1 a s hc
        rw [ht]
      | _ => rw [h.same hc (by intro s; simp)]

theorem RoutesTo.grown (h : GrownBy hooks hooks' vs) {a x : Addr} {d : UInt32} {r : Bytes}
    (hr : RoutesTo hooks a d r x) : RoutesTo hooks' a d r x := by
  cases hr with
  | routing hs hx => exact .routing (h.same hs (by intro s; simp)) hx
  | fallbackRoute hs hf hx => exact .fallbackRoute (h.same hs (by intro s; simp)) hf hx
  | fallback hs hf hx => exact .fallback (h.same hs (by intro s; simp)) hf hx
  | custom hs hx => exact .custom (h.same hs (by intro s; simp)) hx
  | customRoute hs hn hx => exact .customRoute (h.same hs (by intro s; simp)) hn hx

theorem Settles.grown (h : GrownBy hooks hooks' vs) {a : Addr} {us : List Visit}
    (hs : Settles W hooks md b a us) : Settles W hooks' md b a us := by
  induction hs with
  | merkle hs hm =>
    obtain ⟨t, ht, _⟩ := h.1 _ _ hs
    exact .merkle ht hm
  | fee hs h0 => exact .fee (h.same hs (by intro s; simp)) h0
  | pausable hs h0 => exact .pausable (h.same hs (by intro s; simp)) h0
  | igp hs hq hr hc => exact .igp (h.same hs (by intro s; simp)) (by rw [h.oracleAt]; exact hq) hr hc
  | aggregate ms hs hl hm ih => exact .aggregate ms (h.same hs (by intro s; simp)) hl ih
  | route hx hv h0 ih => exact .route (hx.grown h) ih h0

theorem visitsOf_le (a : Addr) (us : List Visit) : visitsOf a us ≤ us.length := List.length_filter_le _ _

end Hpl.Spec
