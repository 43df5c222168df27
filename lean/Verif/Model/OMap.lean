import Verif.Model.Basic
import Mathlib.Order.Basic

/-!
# Ordered finite maps

Model of `cw_storage_plus::Map` and `std::collections::BTreeMap`: finite maps whose iteration
order is the key order.  `cw_storage_plus` stores `u32` keys big-endian and byte-vector keys raw,
so byte order of the storage keys is numeric order resp. lexicographic order.
-/

namespace Hpl

instance : LinearOrder UInt32 where
  le_refl := UInt32.le_refl
  le_trans _ _ _ := UInt32.le_trans
  le_antisymm _ _ := UInt32.le_antisymm
  le_total := UInt32.le_total
  lt_iff_le_not_ge a b := by
    rw [UInt32.lt_iff_toNat_lt, UInt32.le_iff_toNat_le, UInt32.le_iff_toNat_le]; omega
  toDecidableLE := fun _ _ => inferInstance
  toDecidableLT := fun _ _ => inferInstance

instance : LinearOrder UInt8 where
  le_refl := UInt8.le_refl
  le_trans _ _ _ := UInt8.le_trans
  le_antisymm _ _ := UInt8.le_antisymm
  le_total := UInt8.le_total
  lt_iff_le_not_ge a b := by
    rw [UInt8.lt_iff_toNat_lt, UInt8.le_iff_toNat_le, UInt8.le_iff_toNat_le]; omega
  toDecidableLE := fun _ _ => inferInstance
  toDecidableLT := fun _ _ => inferInstance

variable {κ ν : Type} [LinearOrder κ]

/-- Insert or overwrite in a key-sorted association list. -/
def insertSorted (k : κ) (v : ν) : List (κ × ν) → List (κ × ν)
  | [] => [(k, v)]
  | (k', v') :: t =>
    if k < k' then (k, v) :: (k', v') :: t
    else if k = k' then (k, v) :: t
    else (k', v') :: insertSorted k v t

/-- First value stored under a key. -/
def findKey (k : κ) : List (κ × ν) → Option ν
  | [] => none
  | (k', v') :: t => if k = k' then some v' else findKey k t

/-- Strictly increasing keys. -/
def KeySorted (l : List (κ × ν)) : Prop := l.Pairwise (fun a b => a.1 < b.1)

theorem mem_insertSorted {k : κ} {v : ν} {l : List (κ × ν)} {p : κ × ν}
    (h : p ∈ insertSorted k v l) : p = (k, v) ∨ p ∈ l := by
  induction l with
  | nil => simpa [insertSorted] using h
  | cons a t ih =>
    obtain ⟨k', v'⟩ := a
    simp only [insertSorted] at h
    split at h
    · simpa using h
    · split at h
      · rcases List.mem_cons.1 h with h | h
        · exact .inl h
        · exact .inr (List.mem_cons_of_mem _ h)
      · rcases List.mem_cons.1 h with h | h
        · exact .inr (by simp [h])
        · rcases ih h with h | h
          · exact .inl h
          · exact .inr (List.mem_cons_of_mem _ h)

theorem keySorted_insertSorted {k : κ} {v : ν} {l : List (κ × ν)} (h : KeySorted l) :
    KeySorted (insertSorted k v l) := by
  induction l with
  | nil => simp [insertSorted, KeySorted]
  | cons a t ih =>
    obtain ⟨k', v'⟩ := a
    obtain ⟨h1, h2⟩ := List.pairwise_cons.1 h
    simp only [insertSorted]
    split
    · rename_i hlt
      refine List.pairwise_cons.2 ⟨?_, h⟩
      intro b hb
      rcases List.mem_cons.1 hb with rfl | hb
      · exact hlt
      · exact lt_trans hlt (h1 b hb)
    · split
      · rename_i _ heq
        subst heq
        exact List.pairwise_cons.2 ⟨h1, h2⟩
      · rename_i h3 h4
        refine List.pairwise_cons.2 ⟨?_, ih h2⟩
        intro b hb
        rcases mem_insertSorted hb with rfl | hb
        · exact lt_of_le_of_ne (not_lt.1 h3) (Ne.symm h4)
        · exact h1 b hb

/-- Ordered finite map. The sortedness proof makes every value a legal `BTreeMap`. -/
structure OMap (κ ν : Type) [LinearOrder κ] where
  entries : List (κ × ν)
  sorted : KeySorted entries

namespace OMap

@[ext] theorem ext' {a b : OMap κ ν} (h : a.entries = b.entries) : a = b := by
  cases a; cases b; simp_all

instance [DecidableEq ν] : DecidableEq (OMap κ ν) := fun a b =>
  decidable_of_iff (a.entries = b.entries) ⟨ext', fun h => by rw [h]⟩

/-- Empty map. -/
def empty : OMap κ ν := ⟨[], List.Pairwise.nil⟩

/-- `Map::may_load` / `BTreeMap::get`. -/
def get (m : OMap κ ν) (k : κ) : Option ν := findKey k m.entries

/-- `Map::has`. -/
def has (m : OMap κ ν) (k : κ) : Bool := (m.get k).isSome

/-- `Map::save` / `BTreeMap::insert`. -/
def insert (m : OMap κ ν) (k : κ) (v : ν) : OMap κ ν :=
  ⟨insertSorted k v m.entries, keySorted_insertSorted m.sorted⟩

/-- `Map::remove` / `BTreeMap::remove`. -/
def erase (m : OMap κ ν) (k : κ) : OMap κ ν :=
  ⟨m.entries.filter (fun p => p.1 ≠ k), List.Pairwise.filter _ m.sorted⟩

/-- `Map::keys(.., Ascending)`. -/
def keys (m : OMap κ ν) : List κ := m.entries.map (·.1)

/-- Values in key order. -/
def values (m : OMap κ ν) : List ν := m.entries.map (·.2)

/-- Collecting an iterator of pairs into a map: later pairs overwrite earlier ones. -/
def ofList (l : List (κ × ν)) : OMap κ ν := l.foldl (fun m p => m.insert p.1 p.2) empty

end OMap

end Hpl
