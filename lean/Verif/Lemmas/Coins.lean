import Verif.Spec.Coins
import Verif.Lemmas.OMap
import Verif.Lemmas.Res

/-! Lemmas about coins. -/

namespace Hpl

open Spec

@[simp] theorem amountOf_nil (d : String) : amountOf d [] = 0 := rfl

theorem amountOf_cons (d : String) (c : Coin) (l : List Coin) :
    amountOf d (c :: l) = (if c.denom = d then c.amount else 0) + amountOf d l := by
  unfold amountOf
  by_cases h : c.denom = d <;> simp [h]

theorem amountOf_append (d : String) (a b : List Coin) :
    amountOf d (a ++ b) = amountOf d a + amountOf d b := by
  simp [amountOf]

namespace Coins

/-- Amount of a denomination in a `Coins` value. -/
def amt (m : Coins) (d : String) : Nat := (m.get d).getD 0

/-- No zero amounts stored. -/
def Pos (m : Coins) : Prop := ∀ d a, m.get d = some a → a ≠ 0

@[simp] theorem amt_empty (d : String) : amt OMap.empty d = 0 := rfl

theorem pos_empty : Pos OMap.empty := by intro d a h; simp at h

theorem amt_insert (m : Coins) (k : String) (v : Nat) (d : String) :
    amt (m.insert k v) d = if d = k then v else amt m d := by
  unfold amt
  rw [OMap.get_insert]
  split <;> rfl

theorem amt_erase (m : Coins) (k : String) (d : String) :
    amt (m.erase k) d = if d = k then 0 else amt m d := by
  unfold amt
  rw [OMap.get_erase]
  split <;> rfl

theorem Pos.insert {m : Coins} (h : Pos m) (k : String) {v : Nat} (hv : v ≠ 0) :
    Pos (m.insert k v) := by
  intro d a hd
  rw [OMap.get_insert] at hd
  split at hd
  · cases hd; exact hv
  · exact h d a hd

theorem Pos.erase {m : Coins} (h : Pos m) (k : String) : Pos (m.erase k) := by
  intro d a hd
  rw [OMap.get_erase] at hd
  split at hd
  · cases hd
  · exact h d a hd

theorem amountOf_entries (d : String) (l : List (String × Nat)) (hs : KeySorted l) :
    amountOf d (l.map (fun p => ⟨p.1, p.2⟩)) = (findKey d l).getD 0 := by
  induction l with
  | nil => rfl
  | cons p t ih =>
    obtain ⟨k, v⟩ := p
    obtain ⟨h1, h2⟩ := List.pairwise_cons.1 hs
    rw [List.map_cons, amountOf_cons, ih h2]
    simp only [findKey]
    by_cases hk : d = k
    · subst hk
      have : findKey d t = none := by
        rw [findKey_eq_none]
        intro q hq he
        have := h1 q hq
        simp only at this
        rw [he] at this
        exact lt_irrefl _ this
      simp [this]
    · simp [hk, Ne.symm hk]

theorem amountOf_toVec (m : Coins) (d : String) : amountOf d m.toVec = amt m d :=
  amountOf_entries d m.entries m.sorted

/-! ### `try_from` -/

theorem tryFromAux_ok {m m' : Coins} {l : List Coin} (h : tryFromAux m l = .ok m') :
    ∀ d, amt m' d = amt m d + amountOf d l := by
  induction l generalizing m with
  | nil =>
    simp only [tryFromAux, Except.ok.injEq] at h
    subst h
    simp
  | cons c t ih =>
    intro d
    simp only [tryFromAux] at h
    split at h
    · rename_i hz
      rw [ih h d, amountOf_cons, hz]
      simp
    · split at h
      · cases h
      · rename_i hz hh
        rw [ih h d, amt_insert, amountOf_cons]
        by_cases hd : d = c.denom
        · subst hd
          have : amt m c.denom = 0 := by
            unfold amt
            cases hg : m.get c.denom with
            | none => rfl
            | some v => exact absurd (OMap.has_iff.2 ⟨v, hg⟩) hh
          simp [this]
        · simp [hd, Ne.symm hd]

theorem tryFromAux_pos {m m' : Coins} {l : List Coin} (h : tryFromAux m l = .ok m') (hp : Pos m) :
    Pos m' := by
  induction l generalizing m with
  | nil =>
    simp only [tryFromAux, Except.ok.injEq] at h
    subst h
    exact hp
  | cons c t ih =>
    simp only [tryFromAux] at h
    split at h
    · exact ih h hp
    · split at h
      · cases h
      · rename_i hz _
        exact ih h (hp.insert _ hz)

theorem tryFromAux_isOk {m : Coins} {l : List Coin} :
    (∃ m', tryFromAux m l = .ok m') ↔
      DistinctDenoms l ∧ ∀ c ∈ l, c.amount ≠ 0 → m.has c.denom = false := by
  induction l generalizing m with
  | nil => simp [tryFromAux, DistinctDenoms]
  | cons c t ih =>
    simp only [tryFromAux]
    by_cases hz : c.amount = 0
    · rw [if_pos hz, ih]
      simp [DistinctDenoms, hz]
    · rw [if_neg hz]
      by_cases hh : m.has c.denom = true
      · rw [if_pos hh]
        simp [hz, hh]
      · rw [if_neg hh, ih]
        simp only [Bool.not_eq_true] at hh
        unfold DistinctDenoms
        simp only [List.filter_cons, hz, ne_eq, not_false_eq_true, decide_true, if_true,
          List.map_cons, List.nodup_cons, List.mem_cons, forall_eq_or_imp, hh, forall_const, true_and]
        have hins : ∀ k, (m.insert c.denom c.amount).has k = false ↔
            k ≠ c.denom ∧ m.has k = false := by
          intro k
          rw [OMap.has_insert]
          by_cases hk : k = c.denom
          · simp [hk]
          · simp [hk]
        constructor
        · rintro ⟨h1, h2⟩
          refine ⟨⟨?_, h1⟩, fun x hx hxz => ((hins _).1 (h2 x hx hxz)).2⟩
          intro hm
          obtain ⟨x, hx, he⟩ := List.mem_map.1 hm
          obtain ⟨hx1, hx2⟩ := List.mem_filter.1 hx
          have := ((hins _).1 (h2 x hx1 (by simpa using hx2))).1
          exact this he
        · rintro ⟨⟨h1, h2⟩, h3⟩
          refine ⟨h2, fun x hx hxz => (hins _).2 ⟨?_, h3 x hx hxz⟩⟩
          intro he
          exact h1 (List.mem_map.2 ⟨x, List.mem_filter.2 ⟨hx, by simpa using hxz⟩, he⟩)

theorem tryFrom_isOk {l : List Coin} : (∃ m, tryFrom l = .ok m) ↔ DistinctDenoms l := by
  unfold tryFrom
  rw [tryFromAux_isOk]
  simp only [and_iff_left_iff_imp]
  intro _ c _ _
  rfl

theorem tryFrom_ok {l : List Coin} {m : Coins} (h : tryFrom l = .ok m) (d : String) :
    amt m d = amountOf d l := by
  rw [tryFromAux_ok h]; simp

theorem tryFrom_pos {l : List Coin} {m : Coins} (h : tryFrom l = .ok m) : Pos m :=
  tryFromAux_pos h pos_empty

/-! ### `sub` -/

theorem sub_ok {m m' : Coins} {c : Coin} (h : sub m c = .ok m') :
    c.amount ≤ amt m c.denom ∧
      ∀ d, amt m' d = amt m d - (if c.denom = d then c.amount else 0) := by
  unfold sub at h
  split at h
  · rename_i a ha
    have ham : amt m c.denom = a := by simp [amt, ha]
    split at h
    · rename_i hle
      refine ⟨by rw [ham]; exact hle, ?_⟩
      intro d
      split at h
      · rename_i hz
        simp only [Except.ok.injEq] at h
        subst h
        rw [amt_erase]
        by_cases hd : d = c.denom
        · subst hd; simp [ham]; omega
        · simp [hd, Ne.symm hd]
      · simp only [Except.ok.injEq] at h
        subst h
        rw [amt_insert]
        by_cases hd : d = c.denom
        · subst hd; simp [ham]
        · simp [hd, Ne.symm hd]
    · cases h
  · split at h
    · rename_i hz
      simp only [Except.ok.injEq] at h
      subst h
      simp [hz]
    · cases h

theorem sub_isOk {m : Coins} {c : Coin} (h : c.amount ≤ amt m c.denom) :
    ∃ m', sub m c = .ok m' := by
  unfold sub
  cases hg : m.get c.denom with
  | none =>
    simp only [amt, hg, Option.getD_none, Nat.le_zero_eq] at h
    simp [h]
  | some a =>
    simp only [amt, hg, Option.getD_some] at h
    simp only [h, if_true]
    split <;> exact ⟨_, rfl⟩

theorem sub_pos {m m' : Coins} {c : Coin} (h : sub m c = .ok m') (hp : Pos m) : Pos m' := by
  unfold sub at h
  split at h
  · split at h
    · split at h
      · simp only [Except.ok.injEq] at h
        subst h
        exact hp.erase _
      · rename_i hz
        simp only [Except.ok.injEq] at h
        subst h
        exact hp.insert _ hz
    · cases h
  · split at h
    · simp only [Except.ok.injEq] at h
      subst h
      exact hp
    · cases h

theorem subAll_ok {m m' : Coins} {l : List Coin} (h : subAll m l = .ok m') (d : String) :
    amt m' d + amountOf d l = amt m d := by
  induction l generalizing m with
  | nil =>
    simp only [subAll, Except.ok.injEq] at h
    subst h
    simp
  | cons c t ih =>
    simp only [subAll] at h
    obtain ⟨x, h1, h⟩ := bind_eq_ok.1 h
    obtain ⟨h2, h3⟩ := sub_ok h1
    have := ih h
    rw [h3] at this
    rw [amountOf_cons]
    by_cases hd : c.denom = d
    · subst hd
      simp only [if_true] at this ⊢
      omega
    · simp only [hd, if_false] at this ⊢
      omega

theorem subAll_isOk {m : Coins} {l : List Coin} :
    (∃ m', subAll m l = .ok m') ↔ ∀ d, amountOf d l ≤ amt m d := by
  constructor
  · rintro ⟨m', h⟩ d
    have := subAll_ok h d
    omega
  · intro h
    induction l generalizing m with
    | nil => exact ⟨m, rfl⟩
    | cons c t ih =>
      have hc := h c.denom
      rw [amountOf_cons, if_pos rfl] at hc
      obtain ⟨x, hx⟩ := sub_isOk (m := m) (c := c) (by omega)
      obtain ⟨_, h3⟩ := sub_ok hx
      obtain ⟨y, hy⟩ := ih (m := x) (by
        intro d
        have := h d
        rw [amountOf_cons] at this
        rw [h3]
        omega)
      exact ⟨y, by simp [subAll, hx, hy]⟩

theorem subAll_pos {m m' : Coins} {l : List Coin} (h : subAll m l = .ok m') (hp : Pos m) :
    Pos m' := by
  induction l generalizing m with
  | nil =>
    simp only [subAll, Except.ok.injEq] at h
    subst h
    exact hp
  | cons c t ih =>
    simp only [subAll] at h
    obtain ⟨x, h1, h⟩ := bind_eq_ok.1 h
    exact ih h (sub_pos h1 hp)

/-! ### `add` -/

theorem add_ok {m m' : Coins} {c : Coin} (h : add m c = .ok m') (d : String) :
    amt m' d = amt m d + (if c.denom = d then c.amount else 0) := by
  unfold add at h
  split at h
  · rename_i hz
    simp only [Except.ok.injEq] at h
    subst h
    simp [hz]
  · split at h
    · rename_i hg
      simp only [Except.ok.injEq] at h
      subst h
      rw [amt_insert]
      by_cases hd : d = c.denom
      · subst hd; simp [amt, hg]
      · simp [hd, Ne.symm hd]
    · rename_i a hg
      split at h
      · simp only [Except.ok.injEq] at h
        subst h
        rw [amt_insert]
        by_cases hd : d = c.denom
        · subst hd; simp [amt, hg]
        · simp [hd, Ne.symm hd]
      · cases h

theorem add_pos {m m' : Coins} {c : Coin} (h : add m c = .ok m') (hp : Pos m) : Pos m' := by
  unfold add at h
  split at h
  · simp only [Except.ok.injEq] at h
    subst h
    exact hp
  · rename_i hz
    split at h
    · simp only [Except.ok.injEq] at h
      subst h
      exact hp.insert _ hz
    · split at h
      · simp only [Except.ok.injEq] at h
        subst h
        exact hp.insert _ (by omega)
      · cases h

theorem addAll_ok {m m' : Coins} {l : List Coin} (h : addAll m l = .ok m') (d : String) :
    amt m' d = amt m d + amountOf d l := by
  induction l generalizing m with
  | nil =>
    simp only [addAll, Except.ok.injEq] at h
    subst h
    simp
  | cons c t ih =>
    simp only [addAll] at h
    obtain ⟨x, h1, h⟩ := bind_eq_ok.1 h
    rw [ih h, add_ok h1, amountOf_cons]
    omega

theorem addAll_isOk {m : Coins} {l : List Coin} (h : ∀ d, amt m d + amountOf d l < u128Lim) :
    ∃ m', addAll m l = .ok m' := by
  induction l generalizing m with
  | nil => exact ⟨m, rfl⟩
  | cons c t ih =>
    have h1 : ∃ m', add m c = .ok m' := by
      unfold add
      split
      · exact ⟨_, rfl⟩
      · split
        · exact ⟨_, rfl⟩
        · rename_i a ha
          have := h c.denom
          rw [amountOf_cons, if_pos rfl] at this
          rw [amt, ha, Option.getD_some] at this
          rw [if_pos (by omega)]
          exact ⟨_, rfl⟩
    obtain ⟨m1, h1⟩ := h1
    obtain ⟨m', h2⟩ := ih (m := m1) (by
      intro d
      have := h d
      rw [amountOf_cons] at this
      rw [add_ok h1]
      omega)
    exact ⟨m', by simp only [addAll, h1, ok_bind, h2]⟩

theorem addAll_pos {m m' : Coins} {l : List Coin} (h : addAll m l = .ok m') (hp : Pos m) :
    Pos m' := by
  induction l generalizing m with
  | nil =>
    simp only [addAll, Except.ok.injEq] at h
    subst h
    exact hp
  | cons c t ih =>
    simp only [addAll] at h
    obtain ⟨x, h1, h⟩ := bind_eq_ok.1 h
    exact ih h (add_pos h1 hp)

/-! ### `to_vec` -/

theorem toVec_denoms_nodup (m : Coins) : (m.toVec.map (·.denom)).Nodup := by
  have : m.toVec.map (·.denom) = m.keys := by
    unfold toVec OMap.keys
    rw [List.map_map]
    rfl
  rw [this]
  exact OMap.keys_nodup m

theorem toVec_pos {m : Coins} (h : Pos m) : ∀ c ∈ m.toVec, c.amount ≠ 0 := by
  intro c hc
  obtain ⟨p, hp, rfl⟩ := List.mem_map.1 hc
  exact h p.1 p.2 (OMap.get_eq_some_iff.2 hp)

theorem distinct_toVec (m : Coins) : DistinctDenoms m.toVec := by
  unfold DistinctDenoms
  exact (toVec_denoms_nodup m).sublist (List.Sublist.map _ List.filter_sublist)

end Coins

end Hpl
