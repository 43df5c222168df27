import Verif.Model.Basic
import Mathlib.Data.List.Induction

/-! Helper lemmas about bytes, slices and big-endian integers. -/

namespace Hpl

@[simp] theorem length_beN (n v : Nat) : (beN n v).length = n := by
  induction n generalizing v with
  | zero => rfl
  | succ n ih => simp [beN, ih]

theorem fromBE_append_singleton (b : Bytes) (x : UInt8) :
    fromBE (b ++ [x]) = fromBE b * 256 + x.toNat := by
  simp [fromBE]

@[simp] theorem fromBE_nil : fromBE [] = 0 := rfl

theorem fromBE_beN (n v : Nat) : fromBE (beN n v) = v % 256 ^ n := by
  induction n generalizing v with
  | zero => simp [beN, Nat.mod_one]
  | succ n ih =>
    rw [beN, fromBE_append_singleton, ih]
    have h : (UInt8.ofNat (v % 256)).toNat = v % 256 := by
      simp
    rw [h, Nat.pow_succ, Nat.mul_comm (256 ^ n) 256, Nat.mod_mul]
    omega

theorem fromBE_beN_of_lt {n v : Nat} (h : v < 256 ^ n) : fromBE (beN n v) = v := by
  rw [fromBE_beN, Nat.mod_eq_of_lt h]

theorem beN_fromBE (b : Bytes) : beN b.length (fromBE b) = b := by
  induction b using List.reverseRecOn with
  | nil => rfl
  | append_singleton b x ih =>
    rw [fromBE_append_singleton, List.length_append, List.length_singleton, beN]
    have hx : x.toNat < 256 := x.toNat_lt
    have h1 : (fromBE b * 256 + x.toNat) / 256 = fromBE b := by omega
    have h2 : (fromBE b * 256 + x.toNat) % 256 = x.toNat := by omega
    rw [h1, h2, ih]
    simp

theorem fromBE_lt (b : Bytes) : fromBE b < 256 ^ b.length := by
  induction b using List.reverseRecOn with
  | nil => simp
  | append_singleton b x ih =>
    rw [fromBE_append_singleton, List.length_append, List.length_singleton, Nat.pow_succ]
    have hx : x.toNat < 256 := x.toNat_lt
    omega

theorem fromBE_inj {a b : Bytes} (hl : a.length = b.length) (h : fromBE a = fromBE b) : a = b := by
  rw [← beN_fromBE a, ← beN_fromBE b, hl, h]

@[simp] theorem length_u32be (x : UInt32) : (u32be x).length = 4 := by simp [u32be]

@[simp] theorem length_u256be (x : Nat) : (u256be x).length = 32 := by simp [u256be]

@[simp] theorem length_zeros (n : Nat) : (zeros n).length = n := by simp [zeros]

@[simp] theorem ofU32be_u32be (x : UInt32) : ofU32be (u32be x) = x := by
  unfold ofU32be u32be
  rw [fromBE_beN_of_lt]
  · simp
  · have := x.toNat_lt
    simpa using this

theorem u32be_ofU32be {b : Bytes} (h : b.length = 4) : u32be (ofU32be b) = b := by
  unfold ofU32be u32be
  have := fromBE_lt b
  rw [h] at this
  have h2 : (UInt32.ofNat (fromBE b)).toNat = fromBE b := by
    simp only [UInt32.toNat_ofNat']
    apply Nat.mod_eq_of_lt
    simpa using this
  rw [h2, ← h, beN_fromBE]

theorem u32be_inj {x y : UInt32} (h : u32be x = u32be y) : x = y := by
  rw [← ofU32be_u32be x, h, ofU32be_u32be]

theorem fromBE_u256be {x : Nat} (h : x < 2 ^ 256) : fromBE (u256be x) = x := by
  unfold u256be
  exact fromBE_beN_of_lt (by simpa using h)

theorem u256be_fromBE {b : Bytes} (h : b.length = 32) : u256be (fromBE b) = b := by
  unfold u256be
  rw [← h, beN_fromBE]

theorem fromBE_lt_256 {b : Bytes} (h : b.length = 32) : fromBE b < 2 ^ 256 := by
  have := fromBE_lt b
  rw [h] at this
  simpa using this

theorem u256be_inj {x y : Nat} (hx : x < 2 ^ 256) (hy : y < 2 ^ 256) (h : u256be x = u256be y) :
    x = y := by
  rw [← fromBE_u256be hx, h, fromBE_u256be hy]

theorem slice_ok {v : Bytes} {i j : Nat} (h1 : i ≤ j) (h2 : j ≤ v.length) :
    slice v i j = .ok ((v.drop i).take (j - i)) := by
  simp [slice, h1, h2]

theorem slice_eq_ok {v w : Bytes} {i j : Nat} :
    slice v i j = .ok w ↔ i ≤ j ∧ j ≤ v.length ∧ w = (v.drop i).take (j - i) := by
  unfold slice
  split
  · rename_i h
    constructor
    · intro hh; injection hh with hh; exact ⟨h.1, h.2, hh.symm⟩
    · intro hh; rw [hh.2.2]
  · rename_i h
    constructor
    · intro hh; cases hh
    · intro hh; exact absurd ⟨hh.1, hh.2.1⟩ h

theorem sliceFrom_eq_ok {v w : Bytes} {i : Nat} :
    sliceFrom v i = .ok w ↔ i ≤ v.length ∧ w = v.drop i := by
  unfold sliceFrom
  split
  · rename_i h
    constructor
    · intro hh; injection hh with hh; exact ⟨h, hh.symm⟩
    · intro hh; rw [hh.2]
  · rename_i h
    constructor
    · intro hh; cases hh
    · intro hh; exact absurd hh.1 h

theorem sliceFrom_ok {v : Bytes} {i : Nat} (h : i ≤ v.length) :
    sliceFrom v i = .ok (v.drop i) := by
  simp [sliceFrom, h]

/-- The middle part of a three-way concatenation. -/
theorem drop_take_append (a b c : Bytes) (i n : Nat) (hi : a.length = i) (hn : b.length = n) :
    ((a ++ (b ++ c)).drop i).take n = b := by
  subst hi hn
  simp

theorem padLeft32_ok {v : Bytes} (h : v.length ≤ 32) :
    padLeft32 v = .ok (zeros (32 - v.length) ++ v) := by
  simp [padLeft32, h]

theorem padLeft32_length {v w : Bytes} (h : padLeft32 v = .ok w) : w.length = 32 := by
  unfold padLeft32 at h
  split at h
  · injection h with h
    subst h
    simp; omega
  · cases h

theorem padLeft32_32 {v : Bytes} (h : v.length = 32) : padLeft32 v = .ok v := by
  simp [padLeft32, h, zeros]

theorem toNat_ofU32be {b : Bytes} (h : b.length = 4) : (ofU32be b).toNat = fromBE b := by
  have := fromBE_lt b
  rw [h] at this
  rw [ofU32be, UInt32.toNat_ofNat']
  exact Nat.mod_eq_of_lt (by simpa using this)

end Hpl
