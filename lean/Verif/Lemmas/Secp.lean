import Verif.Spec.Secp
import Verif.Lemmas.Bytes
import Mathlib.FieldTheory.Finite.Basic
import Mathlib.GroupTheory.OrderOfElement

/-! # The model of secp256k1 computes in the group of the curve -/

namespace Hpl.Secp

open Spec WeierstrassCurve.Affine

theorem p_lt : p < 2 ^ 256 := by decide
theorem n_lt : n < 2 ^ 256 := by decide
theorem p_pos : 0 < p := by decide
theorem n_pos : 0 < n := by decide

theorem inv_cast {m : ℕ} [Fact m.Prime] (h : m < 2 ^ 256) (h2 : 2 < m) (a : ℕ) :
    (inv m a : ZMod m) = (a : ZMod m)⁻¹ := by
  rw [inv, powMod_cast m (by omega)]
  by_cases ha : (a : ZMod m) = 0
  · rw [ha, zero_pow (by omega), inv_zero]
  · refine eq_inv_of_mul_eq_one_left ?_
    rw [← pow_succ, show m - 2 + 1 = m - 1 by omega]
    exact ZMod.pow_card_sub_one_eq_one ha

theorem inv_p (a : ℕ) : (inv p a : ZMod p) = (a : ZMod p)⁻¹ := inv_cast p_lt (by decide) a
theorem inv_n (a : ℕ) : (inv n a : ZMod n) = (a : ZMod n)⁻¹ := inv_cast n_lt (by decide) a

theorem cast_inj {x y : ℕ} (hx : x < p) (hy : y < p) : (x : ZMod p) = y ↔ x = y := by
  rw [ZMod.natCast_eq_natCast_iff', Nat.mod_eq_of_lt hx, Nat.mod_eq_of_lt hy]

theorem sub_cast {a b : ℕ} (hb : b < p) : (sub a b : ZMod p) = (a : ZMod p) - b := by
  rw [sub, ZMod.natCast_mod, Nat.cast_add, Nat.cast_sub hb.le, ZMod.natCast_self]
  ring

theorem sub_lt (a b : ℕ) : sub a b < p := Nat.mod_lt _ p_pos

/-- The point of the curve that a point of the model stands for. -/
def Rep : Pt → secp256k1.Point → Prop
  | none, P => P = 0
  | some (x, y), P => IsPoint P x y

theorem rep_none {P : secp256k1.Point} : Rep none P ↔ P = 0 := Iff.rfl

theorem curve_a : secp256k1.a₁ = 0 ∧ secp256k1.a₂ = 0 ∧ secp256k1.a₃ = 0 ∧ secp256k1.a₄ = 0 ∧ secp256k1.a₆ = 7 :=
  ⟨rfl, rfl, rfl, rfl, rfl⟩

theorem negY_eq (x y : ZMod p) : secp256k1.negY x y = -y := by
  simp [negY, curve_a]

theorem third_rep {l x1 y1 x2 : ℕ} {L : ZMod p} (hl : (l : ZMod p) = L) (h1 : x1 < p) (h2 : y1 < p) (h3 : x2 < p)
    {h} : Rep (third l x1 y1 x2) (.some (secp256k1.addX x1 x2 L) (secp256k1.addY x1 x2 y1 L) h) := by
  have hx : (sub (sub (l * l % p) x1) x2 : ZMod p) = secp256k1.addX x1 x2 L := by
    rw [sub_cast h3, sub_cast h1, ZMod.natCast_mod, Nat.cast_mul, hl]
    simp [addX, curve_a, pow_two]
  have hy : (sub (l * sub x1 (sub (sub (l * l % p) x1) x2) % p) y1 : ZMod p) = secp256k1.addY x1 x2 y1 L := by
    rw [sub_cast h2, ZMod.natCast_mod, Nat.cast_mul, sub_cast (sub_lt _ _), hx, hl]
    rw [addY, negY_eq, negAddY]
    ring
  refine ⟨sub_lt _ _, sub_lt _ _, ?_, ?_⟩
  · rw [hx, hy]; exact h
  · rw [Point.some.injEq]
    exact ⟨hx.symm, hy.symm⟩

theorem add_rep : ∀ {a b : Pt} {P Q : secp256k1.Point}, Rep a P → Rep b Q → Rep (add a b) (P + Q)
  | none, b, P, Q, ha, hb => by
    rw [show P = 0 from ha, zero_add]
    exact hb
  | some (x, y), none, P, Q, ha, hb => by
    rw [show Q = 0 from hb, add_zero]
    exact ha
  | some (x1, y1), some (x2, y2), P, Q, ⟨a1, a2, a3, a4⟩, ⟨b1, b2, b3, b4⟩ => by
    subst a4 b4
    rw [add]
    split
    next hx =>
      subst hx
      split
      next hy =>
        have : (y1 : ZMod p) = secp256k1.negY x1 y2 := by
          rw [negY_eq, eq_neg_iff_add_eq_zero, ← Nat.cast_add, ← ZMod.natCast_mod, hy, Nat.cast_zero]
        rw [Point.add_of_Y_eq rfl this]
        rfl
      next hy =>
        have hne : (y1 : ZMod p) ≠ secp256k1.negY x1 y2 := by
          rw [negY_eq, ne_eq, eq_neg_iff_add_eq_zero, ← Nat.cast_add, ZMod.natCast_eq_zero_iff,
            Nat.dvd_iff_mod_eq_zero]
          exact hy
        rw [Point.add_of_Y_ne hne]
        refine third_rep ?_ a1 a2 b1
        rw [slope_of_Y_ne rfl hne, ZMod.natCast_mod, Nat.cast_mul, inv_p, ZMod.natCast_mod, negY_eq]
        simp only [curve_a, Nat.cast_mul, Nat.cast_ofNat, sub_neg_eq_add, div_eq_mul_inv]
        rw [← two_mul]
        ring
    next hx =>
      have hne : (x1 : ZMod p) ≠ x2 := fun h => hx ((cast_inj a1 b1).1 h)
      rw [Point.add_of_X_ne hne]
      refine third_rep ?_ a1 a2 b1
      rw [slope_of_X_ne hne, ZMod.natCast_mod, Nat.cast_mul, inv_p, sub_cast b1, sub_cast b2, div_eq_mul_inv]

theorem mulAdd_rep : ∀ {k e : ℕ} {a acc : Pt} {P Q : secp256k1.Point}, e < 2 ^ k → Rep a P → Rep acc Q →
    Rep (mulAdd k e a acc) (Q + e • P)
  | 0, e, a, acc, P, Q, he, ha, hacc => by
    obtain rfl : e = 0 := by simpa using he
    simpa [mulAdd] using hacc
  | k + 1, e, a, acc, P, Q, he, ha, hacc => by
    rw [mulAdd]
    have he' : e • P = (e / 2) • (P + P) + (e % 2) • P := by
      rw [← two_nsmul, ← mul_nsmul', ← add_nsmul, Nat.div_add_mod']
    have hk : e / 2 < 2 ^ k := by rw [pow_succ] at he; omega
    rcases Nat.mod_two_eq_zero_or_one e with h0 | h0
    · rw [he', h0, if_neg (by decide), zero_nsmul, add_zero]
      exact mulAdd_rep hk (add_rep ha ha) hacc
    · rw [he', h0, if_pos rfl, one_nsmul, add_comm ((e / 2) • _), ← add_assoc]
      exact mulAdd_rep hk (add_rep ha ha) (add_rep hacc ha)

theorem mul_rep {e : ℕ} {a : Pt} {P : secp256k1.Point} (he : e < 2 ^ 256) (ha : Rep a P) : Rep (mul e a) (e • P) := by
  have := mulAdd_rep (acc := none) (Q := 0) he ha rfl
  rwa [zero_add] at this

theorem isPoint_unique {P : secp256k1.Point} {x y x' y' : ℕ} (h : IsPoint P x y) (h' : IsPoint P x' y') :
    x = x' ∧ y = y' := by
  obtain ⟨a1, a2, a3, rfl⟩ := h
  obtain ⟨b1, b2, b3, b4⟩ := h'
  rw [Point.some.injEq] at b4
  exact ⟨(cast_inj a1 b1).1 b4.1, (cast_inj a2 b2).1 b4.2⟩

theorem rep_point {a : Pt} {P : secp256k1.Point} {x y : ℕ} (h : Rep a P) (h' : IsPoint P x y) : a = some (x, y) := by
  match a with
  | none =>
    obtain ⟨_, _, _, e⟩ := h'
    rw [show P = 0 from h] at e
    exact absurd e.symm (Point.some_ne_zero _)
  | some (x', y') =>
    obtain ⟨rfl, rfl⟩ := isPoint_unique (show IsPoint P x' y' from h) h'
    rfl

/-! ## The generator -/

theorem nonsingular_of {x y : ZMod p} (h : y ^ 2 = x ^ 3 + 7) (hy : y ≠ -y) : secp256k1.Nonsingular x y := by
  rw [nonsingular_iff, equation_iff]
  simp only [curve_a]
  refine ⟨by linear_combination h, .inr ?_⟩
  simpa using hy

theorem two_ne : (2 : ZMod p) ≠ 0 := by
  rw [ne_eq, show (2 : ZMod p) = ((2 : ℕ) : ZMod p) by norm_num, ZMod.natCast_eq_zero_iff]
  decide

/-- There is a generator. -/
theorem exists_generator : ∃ g, IsGenerator g := by
  have hn : secp256k1.Nonsingular
      ((0x79BE667EF9DCBBAC55A06295CE870B07029BFCDB2DCE28D959F2815B16F81798 : ℕ) : ZMod p)
      ((0x483ADA7726A3C4655DA4FBFC0E1108A8FD17B448A68554199C47D08FFB10D4B8 : ℕ) : ZMod p) := nonsingular_of ?_ ?_
  · exact ⟨.some _ _ hn, by decide, by decide, hn, rfl⟩
  · rw [← Nat.cast_pow, ← Nat.cast_pow, ← Nat.cast_ofNat (n := 7), ← Nat.cast_add, ZMod.natCast_eq_natCast_iff']
    decide +kernel
  · intro h
    rw [eq_neg_iff_add_eq_zero, ← two_mul, mul_eq_zero] at h
    rcases h with h | h
    · exact two_ne h
    · rw [ZMod.natCast_eq_zero_iff] at h
      revert h
      decide +kernel

theorem mul_n_G : mul n G = none := by decide +kernel

theorem generator_rep {g : secp256k1.Point} (hg : IsGenerator g) : Rep G g := hg

/-- The generator has order `n`. -/
theorem n_smul {g : secp256k1.Point} (hg : IsGenerator g) : n • g = 0 := by
  have key : ∀ m, m < 2 ^ 256 → mul m G = none → m • g = 0 := fun m h1 h2 => by
    have := mul_rep h1 (generator_rep hg)
    rw [h2] at this
    exact this
  exact key n n_lt mul_n_G

theorem generator_ne {g : secp256k1.Point} (hg : IsGenerator g) : g ≠ 0 := by
  obtain ⟨_, _, h, rfl⟩ := hg
  exact Point.some_ne_zero _

theorem addOrderOf_generator {g : secp256k1.Point} (hg : IsGenerator g) : addOrderOf g = n :=
  addOrderOf_eq_prime (n_smul hg) (generator_ne hg)

theorem smul_eq_iff {g : secp256k1.Point} (hg : IsGenerator g) {a b : ℕ} :
    a • g = b • g ↔ (a : ZMod n) = b := by
  rw [nsmul_eq_nsmul_iff_modEq, addOrderOf_generator hg, ZMod.natCast_eq_natCast_iff]

theorem smul_mod {g : secp256k1.Point} (hg : IsGenerator g) (a : ℕ) : (a % n) • g = a • g :=
  (smul_eq_iff hg).2 (ZMod.natCast_mod a n)

/-! ## Recovery -/

theorem equation_of {P : secp256k1.Point} {x y : ℕ} (h : IsPoint P x y) : (y : ZMod p) ^ 2 = (x : ZMod p) ^ 3 + 7 := by
  obtain ⟨_, _, hn, _⟩ := h
  have := (equation_iff _ _).1 ((nonsingular_iff _ _).1 hn).1
  simp only [curve_a] at this
  linear_combination this

theorem p_odd : p % 2 = 1 := by decide

/-- The point is found from its first coordinate and the parity of the second. -/
theorem decompress_point {P : secp256k1.Point} {x y : ℕ} (h : IsPoint P x y) :
    decompress x (decide (y % 2 = 1)) = some (some (x, y)) := by
  have he := equation_of h
  obtain ⟨hx, hy, _⟩ := h
  have hc : (((x * x * x + 7) % p : ℕ) : ZMod p) = (y : ZMod p) ^ 2 := by
    rw [he, ZMod.natCast_mod]
    push_cast
    ring
  generalize hcc : (x * x * x + 7) % p = c at hc
  generalize hzz : powMod p 256 ((p + 1) / 4) c 1 = z
  have hz : z < p := by
    rw [← hzz, powMod_eq p 256 _ _ _ (by decide)]
    exact Nat.mod_lt _ p_pos
  have hz2 : (z : ZMod p) ^ 2 = (y : ZMod p) ^ 2 := by
    rw [← hzz, powMod_cast p (by decide), hc, ← pow_mul, ← pow_mul, show 2 * ((p + 1) / 4 * 2) = (p - 1) + 2 by decide, pow_add]
    by_cases h0 : (y : ZMod p) = 0
    · rw [h0]; simp
    · rw [ZMod.pow_card_sub_one_eq_one h0, one_mul]
  have hzc : z * z % p = c := by
    have h1 : ((z * z : ℕ) : ZMod p) = (c : ℕ) := by rw [hc, ← hz2]; push_cast; ring
    have hcp : c < p := by rw [← hcc]; exact Nat.mod_lt _ p_pos
    rw [ZMod.natCast_eq_natCast_iff', Nat.mod_eq_of_lt hcp] at h1
    exact h1
  have hres : (if decide (z % 2 = 1) = decide (y % 2 = 1) then z else sub 0 z) = y := by
    rcases sq_eq_sq_iff_eq_or_eq_neg.1 hz2 with h1 | h1
    · obtain rfl := (cast_inj hz hy).1 h1
      rw [if_pos rfl]
    · have hs : sub 0 z = y := by
        refine (cast_inj (sub_lt _ _) hy).1 ?_
        rw [sub_cast hz, h1, Nat.cast_zero]
        ring
      by_cases h0 : z = 0
      · subst h0
        have : y = 0 := by
          refine (cast_inj hy p_pos).1 ?_
          rw [Nat.cast_zero] at h1 ⊢
          exact neg_eq_zero.1 h1.symm
        subst this
        rw [if_pos rfl]
      · have hyz : y = p - z := by
          rw [← hs, sub, zero_add, Nat.mod_eq_of_lt (by omega)]
        have := p_odd
        rw [if_neg, hs]
        rw [decide_eq_decide]
        omega
  unfold decompress
  simp only
  rw [hcc, hzz, if_pos hzc, hres]

theorem ne_zero_of {r : ℕ} (h0 : 0 < r) (h1 : r < n) : (r : ZMod n) ≠ 0 := by
  rw [ne_eq, ZMod.natCast_eq_zero_iff]
  intro h
  exact absurd (Nat.le_of_dvd h0 h) (by omega)

theorem smul_ne {g : secp256k1.Point} (hg : IsGenerator g) {d : ℕ} (h0 : 0 < d) (h1 : d < n) : d • g ≠ 0 := by
  rw [← zero_nsmul g, ne_eq, smul_eq_iff hg, Nat.cast_zero]
  exact ne_zero_of h0 h1

theorem point_of_ne {P : secp256k1.Point} (h : P ≠ 0) : ∃ x y, IsPoint P x y := by
  cases P with
  | zero => exact absurd rfl h
  | some x y hn =>
    refine ⟨x.val, y.val, ZMod.val_lt _, ZMod.val_lt _, ?_⟩
    rw [ZMod.natCast_zmod_val, ZMod.natCast_zmod_val]
    exact ⟨hn, rfl⟩

theorem mod_lt256 (a : ℕ) : a % n < 2 ^ 256 := lt_trans (Nat.mod_lt _ n_pos) n_lt

/-- What the recovery computes, in the group. -/
theorem recoverKey_signed {g : secp256k1.Point} (hg : IsGenerator g) {d k z r s : ℕ} {odd : Bool}
    (h : SignedWith g d k z r s odd) (hs : s ≤ n / 2) {x y : ℕ} (hk : IsPoint (d • g) x y) :
    recoverKey z r s odd = some (x, y) := by
  obtain ⟨⟨y', hR, rfl⟩, r1, r2, s1, s2, e⟩ := h
  have er := ne_zero_of r1 r2
  have es := ne_zero_of s1 s2
  have e' : (s : ZMod n) * k = z + r * d := by
    have := (ZMod.natCast_eq_natCast_iff _ _ n).2 e
    push_cast at this
    exact this
  have hG := generator_rep hg
  have q1 : Rep (add (mul ((n - inv n r * z % n) % n) G) (mul (inv n r * s % n) (some (r, y')))) (d • g) := by
    have h1 := add_rep (mul_rep (mod_lt256 (n - inv n r * z % n)) hG)
      (mul_rep (mod_lt256 (inv n r * s)) (show Rep (some (r, y')) (k • g) from hR))
    rw [← mul_nsmul', ← add_nsmul] at h1
    rwa [(smul_eq_iff hg (b := d)).2] at h1
    rw [Nat.cast_add, Nat.cast_mul, ZMod.natCast_mod, ZMod.natCast_mod, Nat.cast_sub (Nat.mod_lt _ n_pos).le,
      ZMod.natCast_self, ZMod.natCast_mod, Nat.cast_mul, Nat.cast_mul, inv_n]
    field_simp
    linear_combination e'
  have q2 : Rep (add (mul (z * inv n s % n) G) (mul (r * inv n s % n) (some (x, y)))) (k • g) := by
    have h1 := add_rep (mul_rep (mod_lt256 (z * inv n s)) hG)
      (mul_rep (mod_lt256 (r * inv n s)) (show Rep (some (x, y)) (d • g) from hk))
    rw [← mul_nsmul', ← add_nsmul] at h1
    rwa [(smul_eq_iff hg (b := k)).2] at h1
    rw [Nat.cast_add, Nat.cast_mul, ZMod.natCast_mod, ZMod.natCast_mod, Nat.cast_mul, Nat.cast_mul, inv_n]
    field_simp
    linear_combination -e'
  unfold recoverKey verifies
  rw [decompress_point hR]
  simp only [Option.bind_eq_bind, Option.bind_some]
  rw [rep_point q1 hk]
  simp only
  rw [rep_point q2 hR]
  simp [hs, Nat.mod_eq_of_lt r2]

end Hpl.Secp
