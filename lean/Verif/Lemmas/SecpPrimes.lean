import Verif.Model.Secp
import Mathlib.NumberTheory.LucasPrimality
import Mathlib.Tactic.NormNum.Prime
import Mathlib.Tactic.Ring

/-! # The two moduli of secp256k1 are prime

By the test of Lucas, for them and for the large primes below. -/

namespace Hpl.Secp

theorem powMod_eq (m : ℕ) : ∀ (k e a acc : ℕ), e < 2 ^ k → powMod m k e a acc = acc * a ^ e % m
  | 0, e, a, acc, h => by
    obtain rfl : e = 0 := by simpa using h
    simp [powMod]
  | k + 1, e, a, acc, h => by
    rw [powMod, powMod_eq m k _ _ _ (by rw [pow_succ] at h; omega)]
    have he : a ^ e = (a * a) ^ (e / 2) * a ^ (e % 2) := by
      rw [← pow_two, ← pow_mul, ← pow_add, Nat.div_add_mod]
    have h1 : (a * a % m) ^ (e / 2) ≡ (a * a) ^ (e / 2) [MOD m] := (Nat.mod_modEq _ _).pow _
    rcases Nat.mod_two_eq_zero_or_one e with h0 | h0
    · rw [he, h0, if_neg (by decide), pow_zero, mul_one]
      exact h1.mul_left acc
    · rw [he, h0, if_pos rfl]
      have h2 : acc * a % m * (a * a % m) ^ (e / 2) ≡ acc * a * (a * a) ^ (e / 2) [MOD m] :=
        (Nat.mod_modEq _ _).mul h1
      rw [h2]
      congr 1
      ring

theorem powMod_cast (m : ℕ) {e : ℕ} (he : e < 2 ^ 256) (a : ℕ) : (powMod m 256 e a 1 : ZMod m) = (a : ZMod m) ^ e := by
  rw [powMod_eq m 256 e a 1 he, one_mul, ZMod.natCast_mod, Nat.cast_pow]

theorem prime_of_cert {N a : ℕ} {fs : List ℕ} (h1 : 1 < N) (h2 : N < 2 ^ 256) (hfs : fs.prod = N - 1)
    (hp : ∀ f ∈ fs, f.Prime) (ha : powMod N 256 (N - 1) a 1 = 1)
    (hf : ∀ f ∈ fs, powMod N 256 ((N - 1) / f) a 1 ≠ 1) : N.Prime := by
  have lt : ∀ d, (N - 1) / d < 2 ^ 256 := fun d => lt_of_le_of_lt (Nat.div_le_self _ _) (by omega)
  refine lucas_primality N (a : ZMod N) ?_ fun q hq hd => ?_
  · rw [← powMod_cast N (by omega), ha, Nat.cast_one]
  · rw [← hfs] at hd
    obtain ⟨f, hm, hd⟩ := (Nat.prime_iff.1 hq).dvd_prod_iff.1 hd
    obtain rfl := (Nat.prime_dvd_prime_iff_eq hq (hp f hm)).1 hd
    intro h
    rw [← powMod_cast N (lt q)] at h
    refine hf q hm ?_
    have h3 : powMod N 256 ((N - 1) / q) a 1 < N := by
      rw [powMod_eq N 256 _ _ _ (lt q)]
      exact Nat.mod_lt _ (by omega)
    have h4 := (ZMod.natCast_eq_natCast_iff' _ 1 N).1 (h.trans Nat.cast_one.symm)
    rwa [Nat.mod_eq_of_lt h3, Nat.mod_eq_of_lt h1] at h4

theorem prime_0 : Nat.Prime 1206781 := by
  refine prime_of_cert (a := 10) (fs := [2, 2, 3, 5, 20113]) (by decide +kernel) (by decide +kernel) (by decide +kernel) ?_ (by decide +kernel) (by decide +kernel)
  simp only [List.forall_mem_cons, List.not_mem_nil, false_imp_iff, implies_true, and_true]
  exact ⟨(by norm_num), (by norm_num), (by norm_num), (by norm_num), (by norm_num)⟩

theorem prime_1 : Nat.Prime 7240687 := by
  refine prime_of_cert (a := 3) (fs := [2, 3, 1206781]) (by decide +kernel) (by decide +kernel) (by decide +kernel) ?_ (by decide +kernel) (by decide +kernel)
  simp only [List.forall_mem_cons, List.not_mem_nil, false_imp_iff, implies_true, and_true]
  exact ⟨(by norm_num), (by norm_num), prime_0⟩

theorem prime_2 : Nat.Prime 107590001 := by
  refine prime_of_cert (a := 3) (fs := [2, 2, 2, 2, 5, 5, 5, 5, 7, 29, 53]) (by decide +kernel) (by decide +kernel) (by decide +kernel) ?_ (by decide +kernel) (by decide +kernel)
  simp only [List.forall_mem_cons, List.not_mem_nil, false_imp_iff, implies_true, and_true]
  exact ⟨(by norm_num), (by norm_num), (by norm_num), (by norm_num), (by norm_num), (by norm_num), (by norm_num), (by norm_num), (by norm_num), (by norm_num), (by norm_num)⟩

theorem prime_3 : Nat.Prime 255515944373312847190720520512484175977 := by
  refine prime_of_cert (a := 3) (fs := [2, 2, 2, 7, 7, 11, 1627, 2657, 4423, 41201, 96557, 7240687, 107590001]) (by decide +kernel) (by decide +kernel) (by decide +kernel) ?_ (by decide +kernel) (by decide +kernel)
  simp only [List.forall_mem_cons, List.not_mem_nil, false_imp_iff, implies_true, and_true]
  exact ⟨(by norm_num), (by norm_num), (by norm_num), (by norm_num), (by norm_num), (by norm_num), (by norm_num), (by norm_num), (by norm_num), (by norm_num), (by norm_num), prime_1, prime_2⟩

theorem prime_4 : Nat.Prime 13331831 := by
  refine prime_of_cert (a := 13) (fs := [2, 5, 971, 1373]) (by decide +kernel) (by decide +kernel) (by decide +kernel) ?_ (by decide +kernel) (by decide +kernel)
  simp only [List.forall_mem_cons, List.not_mem_nil, false_imp_iff, implies_true, and_true]
  exact ⟨(by norm_num), (by norm_num), (by norm_num), (by norm_num)⟩

theorem prime_5 : Nat.Prime 173378833005251801 := by
  refine prime_of_cert (a := 6) (fs := [2, 2, 2, 5, 5, 2621, 24809, 13331831]) (by decide +kernel) (by decide +kernel) (by decide +kernel) ?_ (by decide +kernel) (by decide +kernel)
  simp only [List.forall_mem_cons, List.not_mem_nil, false_imp_iff, implies_true, and_true]
  exact ⟨(by norm_num), (by norm_num), (by norm_num), (by norm_num), (by norm_num), (by norm_num), (by norm_num), prime_4⟩

theorem prime_6 : Nat.Prime 22149492674086928081353 := by
  refine prime_of_cert (a := 5) (fs := [2, 2, 2, 3, 5323, 173378833005251801]) (by decide +kernel) (by decide +kernel) (by decide +kernel) ?_ (by decide +kernel) (by decide +kernel)
  simp only [List.forall_mem_cons, List.not_mem_nil, false_imp_iff, implies_true, and_true]
  exact ⟨(by norm_num), (by norm_num), (by norm_num), (by norm_num), (by norm_num), prime_5⟩

theorem prime_7 : Nat.Prime 132896956044521568488119 := by
  refine prime_of_cert (a := 6) (fs := [2, 3, 22149492674086928081353]) (by decide +kernel) (by decide +kernel) (by decide +kernel) ?_ (by decide +kernel) (by decide +kernel)
  simp only [List.forall_mem_cons, List.not_mem_nil, false_imp_iff, implies_true, and_true]
  exact ⟨(by norm_num), (by norm_num), prime_6⟩

theorem prime_8 : Nat.Prime 205115282021455665897114700593932402728804164701536103180137503955397371 := by
  refine prime_of_cert (a := 10) (fs := [2, 3, 5, 29, 29, 31, 7723, 132896956044521568488119, 255515944373312847190720520512484175977]) (by decide +kernel) (by decide +kernel) (by decide +kernel) ?_ (by decide +kernel) (by decide +kernel)
  simp only [List.forall_mem_cons, List.not_mem_nil, false_imp_iff, implies_true, and_true]
  exact ⟨(by norm_num), (by norm_num), (by norm_num), (by norm_num), (by norm_num), (by norm_num), (by norm_num), prime_7, prime_3⟩

theorem prime_p : p.Prime := by
  refine prime_of_cert (a := 3) (fs := [2, 3, 7, 13441, 205115282021455665897114700593932402728804164701536103180137503955397371]) (by decide +kernel) (by decide +kernel) (by decide +kernel) ?_ (by decide +kernel) (by decide +kernel)
  simp only [List.forall_mem_cons, List.not_mem_nil, false_imp_iff, implies_true, and_true]
  exact ⟨(by norm_num), (by norm_num), (by norm_num), (by norm_num), prime_8⟩

theorem prime_10 : Nat.Prime 44706919 := by
  refine prime_of_cert (a := 6) (fs := [2, 3, 797, 9349]) (by decide +kernel) (by decide +kernel) (by decide +kernel) ?_ (by decide +kernel) (by decide +kernel)
  simp only [List.forall_mem_cons, List.not_mem_nil, false_imp_iff, implies_true, and_true]
  exact ⟨(by norm_num), (by norm_num), (by norm_num), (by norm_num)⟩

theorem prime_11 : Nat.Prime 174723607534414371449 := by
  refine prime_of_cert (a := 3) (fs := [2, 2, 2, 17, 59, 4051, 120233, 44706919]) (by decide +kernel) (by decide +kernel) (by decide +kernel) ?_ (by decide +kernel) (by decide +kernel)
  simp only [List.forall_mem_cons, List.not_mem_nil, false_imp_iff, implies_true, and_true]
  exact ⟨(by norm_num), (by norm_num), (by norm_num), (by norm_num), (by norm_num), (by norm_num), (by norm_num), prime_10⟩

theorem prime_12 : Nat.Prime 4681609 := by
  refine prime_of_cert (a := 23) (fs := [2, 2, 2, 3, 97, 2011]) (by decide +kernel) (by decide +kernel) (by decide +kernel) ?_ (by decide +kernel) (by decide +kernel)
  simp only [List.forall_mem_cons, List.not_mem_nil, false_imp_iff, implies_true, and_true]
  exact ⟨(by norm_num), (by norm_num), (by norm_num), (by norm_num), (by norm_num), (by norm_num)⟩

theorem prime_13 : Nat.Prime 107361793816595537 := by
  refine prime_of_cert (a := 3) (fs := [2, 2, 2, 2, 16699, 85831, 4681609]) (by decide +kernel) (by decide +kernel) (by decide +kernel) ?_ (by decide +kernel) (by decide +kernel)
  simp only [List.forall_mem_cons, List.not_mem_nil, false_imp_iff, implies_true, and_true]
  exact ⟨(by norm_num), (by norm_num), (by norm_num), (by norm_num), (by norm_num), (by norm_num), prime_12⟩

theorem prime_14 : Nat.Prime 305873 := by
  refine prime_of_cert (a := 3) (fs := [2, 2, 2, 2, 7, 2731]) (by decide +kernel) (by decide +kernel) (by decide +kernel) ?_ (by decide +kernel) (by decide +kernel)
  simp only [List.forall_mem_cons, List.not_mem_nil, false_imp_iff, implies_true, and_true]
  exact ⟨(by norm_num), (by norm_num), (by norm_num), (by norm_num), (by norm_num), (by norm_num)⟩

theorem prime_15 : Nat.Prime 1627771 := by
  refine prime_of_cert (a := 3) (fs := [2, 3, 5, 29, 1871]) (by decide +kernel) (by decide +kernel) (by decide +kernel) ?_ (by decide +kernel) (by decide +kernel)
  simp only [List.forall_mem_cons, List.not_mem_nil, false_imp_iff, implies_true, and_true]
  exact ⟨(by norm_num), (by norm_num), (by norm_num), (by norm_num), (by norm_num)⟩

theorem prime_16 : Nat.Prime 297159362677 := by
  refine prime_of_cert (a := 2) (fs := [2, 2, 3, 3, 11, 461, 1627771]) (by decide +kernel) (by decide +kernel) (by decide +kernel) ?_ (by decide +kernel) (by decide +kernel)
  simp only [List.forall_mem_cons, List.not_mem_nil, false_imp_iff, implies_true, and_true]
  exact ⟨(by norm_num), (by norm_num), (by norm_num), (by norm_num), (by norm_num), (by norm_num), prime_15⟩

theorem prime_17 : Nat.Prime 545358713 := by
  refine prime_of_cert (a := 5) (fs := [2, 2, 2, 41, 59, 28181]) (by decide +kernel) (by decide +kernel) (by decide +kernel) ?_ (by decide +kernel) (by decide +kernel)
  simp only [List.forall_mem_cons, List.not_mem_nil, false_imp_iff, implies_true, and_true]
  exact ⟨(by norm_num), (by norm_num), (by norm_num), (by norm_num), (by norm_num), (by norm_num)⟩

theorem prime_18 : Nat.Prime 29047611873442575647497758179 := by
  refine prime_of_cert (a := 2) (fs := [2, 293, 305873, 545358713, 297159362677]) (by decide +kernel) (by decide +kernel) (by decide +kernel) ?_ (by decide +kernel) (by decide +kernel)
  simp only [List.forall_mem_cons, List.not_mem_nil, false_imp_iff, implies_true, and_true]
  exact ⟨(by norm_num), (by norm_num), prime_14, prime_17, prime_16⟩

theorem prime_19 : Nat.Prime 341948486974166000522343609283189 := by
  refine prime_of_cert (a := 2) (fs := [2, 2, 3, 3, 3, 109, 29047611873442575647497758179]) (by decide +kernel) (by decide +kernel) (by decide +kernel) ?_ (by decide +kernel) (by decide +kernel)
  simp only [List.forall_mem_cons, List.not_mem_nil, false_imp_iff, implies_true, and_true]
  exact ⟨(by norm_num), (by norm_num), (by norm_num), (by norm_num), (by norm_num), (by norm_num), prime_18⟩

theorem prime_n : n.Prime := by
  refine prime_of_cert (a := 7) (fs := [2, 2, 2, 2, 2, 2, 3, 149, 631, 107361793816595537, 174723607534414371449, 341948486974166000522343609283189]) (by decide +kernel) (by decide +kernel) (by decide +kernel) ?_ (by decide +kernel) (by decide +kernel)
  simp only [List.forall_mem_cons, List.not_mem_nil, false_imp_iff, implies_true, and_true]
  exact ⟨(by norm_num), (by norm_num), (by norm_num), (by norm_num), (by norm_num), (by norm_num), (by norm_num), (by norm_num), (by norm_num), prime_13, prime_11, prime_19⟩

instance : Fact p.Prime := ⟨prime_p⟩

instance : Fact n.Prime := ⟨prime_n⟩

end Hpl.Secp
