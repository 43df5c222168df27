import Verif.Model.OMap
import Mathlib.Data.List.Basic

/-! Helper lemmas about ordered maps. -/

namespace Hpl

variable {κ ν : Type} [LinearOrder κ]

theorem findKey_insertSorted (k k' : κ) (v : ν) (l : List (κ × ν)) :
    findKey k' (insertSorted k v l) = if k' = k then some v else findKey k' l := by
  induction l with
  | nil => simp [insertSorted, findKey]
  | cons a t ih =>
    obtain ⟨k2, v2⟩ := a
    simp only [insertSorted]
    split
    · simp [findKey]
    · split
      · rename_i _ h
        subst h
        simp only [findKey]
        split <;> simp_all
      · rename_i h1 h2
        simp only [findKey, ih]
        split
        · rename_i h3
          have h4 : ¬ k' = k := by
            rintro rfl; exact h2 h3
          simp [h4]
        · rfl

theorem findKey_eq_none {k : κ} {l : List (κ × ν)} :
    findKey k l = none ↔ ∀ p ∈ l, p.1 ≠ k := by
  induction l with
  | nil => simp [findKey]
  | cons a t ih =>
    simp only [findKey]
    split
    · rename_i h
      simp [h]
    · rename_i h
      simp only [ih, List.mem_cons, forall_eq_or_imp]
      exact ⟨fun hh => ⟨fun e => h e.symm, hh⟩, fun hh => hh.2⟩

theorem mem_of_findKey {k : κ} {v : ν} {l : List (κ × ν)} (h : findKey k l = some v) :
    (k, v) ∈ l := by
  induction l with
  | nil => simp [findKey] at h
  | cons a t ih =>
    obtain ⟨k2, v2⟩ := a
    simp only [findKey] at h
    split at h
    · rename_i hk
      simp_all
    · exact List.mem_cons_of_mem _ (ih h)

theorem findKey_of_mem {k : κ} {v : ν} {l : List (κ × ν)} (hs : KeySorted l) (h : (k, v) ∈ l) :
    findKey k l = some v := by
  induction l with
  | nil => cases h
  | cons a t ih =>
    obtain ⟨k2, v2⟩ := a
    obtain ⟨h1, h2⟩ := List.pairwise_cons.1 hs
    simp only [findKey]
    rcases List.mem_cons.1 h with h | h
    · simp_all
    · have : k2 < k := h1 _ h
      have : k ≠ k2 := ne_of_gt this
      simp [this, ih h2 h]

theorem findKey_filter (k k' : κ) (l : List (κ × ν)) :
    findKey k' (l.filter (fun p => p.1 ≠ k)) = if k' = k then none else findKey k' l := by
  induction l with
  | nil => simp [findKey]
  | cons a t ih =>
    obtain ⟨k2, v2⟩ := a
    simp only [List.filter_cons]
    by_cases h : k2 = k
    · subst h
      simp only [ne_eq, not_true_eq_false, decide_false, Bool.false_eq_true, ↓reduceIte, findKey]
      simp only [ne_eq] at ih
      rw [ih]
      split <;> rfl
    · simp only [ne_eq, h, not_false_eq_true, decide_true, ↓reduceIte, findKey]
      simp only [ne_eq] at ih
      rw [ih]
      by_cases h3 : k' = k2
      · subst h3; simp [h]
      · simp [h3]

namespace OMap

@[simp] theorem get_empty (k : κ) : (empty : OMap κ ν).get k = none := rfl

theorem get_insert (m : OMap κ ν) (k k' : κ) (v : ν) :
    (m.insert k v).get k' = if k' = k then some v else m.get k' :=
  findKey_insertSorted k k' v m.entries

@[simp] theorem get_insert_self (m : OMap κ ν) (k : κ) (v : ν) :
    (m.insert k v).get k = some v := by simp [get_insert]

theorem get_insert_ne (m : OMap κ ν) {k k' : κ} (v : ν) (h : k' ≠ k) :
    (m.insert k v).get k' = m.get k' := by simp [get_insert, h]

theorem get_erase (m : OMap κ ν) (k k' : κ) :
    (m.erase k).get k' = if k' = k then none else m.get k' :=
  findKey_filter k k' m.entries

theorem get_eq_some_iff {m : OMap κ ν} {k : κ} {v : ν} :
    m.get k = some v ↔ (k, v) ∈ m.entries :=
  ⟨mem_of_findKey, findKey_of_mem m.sorted⟩

theorem get_eq_none_iff {m : OMap κ ν} {k : κ} : m.get k = none ↔ k ∉ m.keys := by
  rw [get, findKey_eq_none, keys]
  simp only [List.mem_map, not_exists, not_and, ne_eq]

theorem mem_keys_iff {m : OMap κ ν} {k : κ} : k ∈ m.keys ↔ ∃ v, m.get k = some v := by
  constructor
  · intro h
    obtain ⟨p, hp, rfl⟩ := List.mem_map.1 h
    exact ⟨p.2, get_eq_some_iff.2 hp⟩
  · rintro ⟨v, h⟩
    exact List.mem_map.2 ⟨(k, v), get_eq_some_iff.1 h, rfl⟩

theorem has_iff {m : OMap κ ν} {k : κ} : m.has k = true ↔ ∃ v, m.get k = some v := by
  simp [has, Option.isSome_iff_exists]

theorem has_iff_mem_keys {m : OMap κ ν} {k : κ} : m.has k = true ↔ k ∈ m.keys := by
  rw [has_iff, mem_keys_iff]

theorem has_insert (m : OMap κ ν) (k k' : κ) (v : ν) :
    (m.insert k v).has k' = (decide (k' = k) || m.has k') := by
  unfold has
  rw [get_insert]
  split <;> simp_all

theorem keys_sorted (m : OMap κ ν) : m.keys.Pairwise (· < ·) := by
  rw [keys, List.pairwise_map]
  exact m.sorted

theorem keys_nodup (m : OMap κ ν) : m.keys.Nodup :=
  List.Pairwise.imp (fun h => ne_of_lt h) m.keys_sorted

/-- A map is determined by its lookups. -/
theorem ext_get {a b : OMap κ ν} (h : ∀ k, a.get k = b.get k) : a = b := by
  obtain ⟨la, sa⟩ := a
  obtain ⟨lb, sb⟩ := b
  apply ext'
  simp only
  have hm : ∀ p : κ × ν, p ∈ la ↔ p ∈ lb := by
    intro p
    have := h p.1
    constructor
    · intro hp
      have h1 : (OMap.mk la sa).get p.1 = some p.2 := get_eq_some_iff.2 hp
      rw [this] at h1
      exact get_eq_some_iff.1 h1
    · intro hp
      have h1 : (OMap.mk lb sb).get p.1 = some p.2 := get_eq_some_iff.2 hp
      rw [← this] at h1
      exact get_eq_some_iff.1 h1
  clear h
  induction la generalizing lb with
  | nil =>
    cases lb with
    | nil => rfl
    | cons b t => exact absurd ((hm b).2 (by simp)) (by simp)
  | cons a ta ih =>
    cases lb with
    | nil => exact absurd ((hm a).1 (by simp)) (by simp)
    | cons b tb =>
      obtain ⟨ha1, ha2⟩ := List.pairwise_cons.1 sa
      obtain ⟨hb1, hb2⟩ := List.pairwise_cons.1 sb
      have hab : a = b := by
        rcases List.mem_cons.1 ((hm a).1 (by simp)) with h | h
        · exact h
        · rcases List.mem_cons.1 ((hm b).2 (by simp)) with h' | h'
          · exact h'.symm
          · exact absurd (hb1 a h) (not_lt_of_gt (ha1 b h'))
      subst hab
      congr 1
      apply ih ha2 tb hb2
      intro p
      have hp := hm p
      constructor
      · intro h
        rcases List.mem_cons.1 (hp.1 (List.mem_cons_of_mem _ h)) with h' | h'
        · subst h'; exact absurd (ha1 _ h) (lt_irrefl _)
        · exact h'
      · intro h
        rcases List.mem_cons.1 (hp.2 (List.mem_cons_of_mem _ h)) with h' | h'
        · subst h'; exact absurd (hb1 _ h) (lt_irrefl _)
        · exact h'

theorem keys_insert_mem (m : OMap κ ν) (k k' : κ) (v : ν) :
    k' ∈ (m.insert k v).keys ↔ k' = k ∨ k' ∈ m.keys := by
  rw [← has_iff_mem_keys, has_insert, ← has_iff_mem_keys]
  simp

theorem keys_erase_mem (m : OMap κ ν) (k k' : κ) :
    k' ∈ (m.erase k).keys ↔ k' ≠ k ∧ k' ∈ m.keys := by
  rw [mem_keys_iff, mem_keys_iff, get_erase]
  by_cases h : k' = k <;> simp [h]

end OMap

end Hpl
