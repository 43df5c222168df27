import Verif.Lemmas.Secp
import Mathlib.GroupTheory.Perm.Cycle.Type
import Mathlib.GroupTheory.SpecificGroups.Cyclic

/-! # Every point of secp256k1 is a multiple of the generator, and recovery is the inverse of signing -/

namespace Hpl.Secp

open Spec WeierstrassCurve.Affine

/-! ## The order of the group -/

theorem neg_isPoint {P : secp256k1.Point} {x y : ℕ} (h : IsPoint P x y) (hy : 0 < y) : IsPoint (-P) x (p - y) := by
  obtain ⟨h1, h2, h3, rfl⟩ := h
  have e : ((p - y : ℕ) : ZMod p) = secp256k1.negY x y := by
    rw [negY_eq, Nat.cast_sub h2.le, ZMod.natCast_self, zero_sub]
  refine ⟨h1, by omega, ?_, ?_⟩
  · rw [e]
    exact (nonsingular_neg _ _).2 h3
  · rw [Point.neg_some, Point.some.injEq]
    exact ⟨rfl, e.symm⟩

/-- Two points with the same first coordinate. -/
theorem same_x {P Q : secp256k1.Point} {x y y' : ℕ} (hP : IsPoint P x y) (hQ : IsPoint Q x y') : Q = P ∨ Q = -P := by
  have e := (equation_of hQ).trans (equation_of hP).symm
  obtain ⟨_, _, _, rfl⟩ := hP
  obtain ⟨_, _, _, rfl⟩ := hQ
  rcases sq_eq_sq_iff_eq_or_eq_neg.1 e with h | h
  · left
    rw [Point.some.injEq]
    exact ⟨rfl, h⟩
  · right
    rw [Point.neg_some, Point.some.injEq, negY_eq]
    exact ⟨rfl, h⟩

/-- Minus seven is not a cube. -/
theorem no_root (x : ZMod p) : x ^ 3 + 7 ≠ 0 := by
  intro h
  have h7 : x ^ 3 = ((p - 7 : ℕ) : ZMod p) := by
    rw [Nat.cast_sub (by decide), ZMod.natCast_self]
    linear_combination h
  have hx : x ≠ 0 := by
    rintro rfl
    rw [zero_pow (by decide)] at h7
    have := h7.symm
    rw [ZMod.natCast_eq_zero_iff] at this
    revert this
    decide
  have h1 : x ^ (p - 1) = 1 := ZMod.pow_card_sub_one_eq_one hx
  rw [show p - 1 = 3 * ((p - 1) / 3) by decide, pow_mul, h7, ← powMod_cast p (by decide)] at h1
  have h2 : ((powMod p 256 ((p - 1) / 3) (p - 7) 1 : ℕ) : ZMod p) = (1 : ℕ) := by rw [h1, Nat.cast_one]
  rw [ZMod.natCast_eq_natCast_iff'] at h2
  revert h2
  decide +kernel

/-- No point is its own opposite. -/
theorem y_pos {P : secp256k1.Point} {x y : ℕ} (h : IsPoint P x y) : 0 < y := by
  rcases Nat.eq_zero_or_pos y with rfl | h0
  · have := equation_of h
    rw [Nat.cast_zero, zero_pow (by decide)] at this
    exact absurd this.symm (no_root _)
  · exact h0

theorem neg_ne {P : secp256k1.Point} (h : P ≠ 0) : -P ≠ P := by
  obtain ⟨x, y, hP⟩ := point_of_ne h
  intro e
  have hn := neg_isPoint hP (y_pos hP)
  rw [e] at hn
  have := (isPoint_unique hP hn).2
  have := p_odd
  have := hP.2.1
  omega

/-- A point is determined by its first coordinate and whether the second is the smaller of the two. -/
noncomputable def code : secp256k1.Point → Option (ZMod p × Bool)
  | .zero => none
  | .some x y _ => some (x, decide (y.val % 2 = 1))

theorem code_inj : Function.Injective code := by
  intro P Q h
  match P, Q, h with
  | .zero, .zero, _ => rfl
  | .some x y hP, .some x' y' hQ, h =>
    simp only [code, Option.some.injEq, Prod.mk.injEq] at h
    obtain ⟨rfl, h⟩ := h
    have eP : (x.val : ZMod p) = x := ZMod.natCast_zmod_val x
    have iP : IsPoint (.some x y hP) x.val y.val :=
      ⟨ZMod.val_lt _, ZMod.val_lt _, by rw [eP, ZMod.natCast_zmod_val]; exact ⟨hP, rfl⟩⟩
    have iQ : IsPoint (.some x y' hQ) x.val y'.val :=
      ⟨ZMod.val_lt _, ZMod.val_lt _, by rw [eP, ZMod.natCast_zmod_val]; exact ⟨hQ, rfl⟩⟩
    rcases same_x iQ iP with e | e
    · exact e
    · exfalso
      have hn := neg_isPoint iQ (y_pos iQ)
      rw [← e] at hn
      have e2 := (isPoint_unique iP hn).2
      rw [decide_eq_decide] at h
      have := p_odd
      have := iQ.2.1
      omega

instance : Finite secp256k1.Point := Finite.of_injective _ code_inj

/-- The curve has `n` points. -/
theorem card_point : Nat.card secp256k1.Point = n := by
  obtain ⟨g, hg⟩ := exists_generator
  have h1 : n ∣ Nat.card secp256k1.Point := by
    rw [← addOrderOf_generator hg]
    exact addOrderOf_dvd_natCard g
  have h2 : Nat.card secp256k1.Point ≤ 2 * p + 1 := by
    refine (Nat.card_le_card_of_injective _ code_inj).trans ?_
    rw [Finite.card_option, Nat.card_prod, Nat.card_zmod]
    simp [Nat.mul_comm]
  have h3 : ¬ 2 ∣ Nat.card secp256k1.Point := by
    intro h
    obtain ⟨P, hP⟩ := exists_prime_addOrderOf_dvd_card' 2 h
    have h0 : P ≠ 0 := by
      rintro rfl
      rw [addOrderOf_zero] at hP
      exact absurd hP (by decide)
    refine neg_ne h0 ?_
    rw [neg_eq_iff_add_eq_zero, ← two_nsmul, ← hP]
    exact addOrderOf_nsmul_eq_zero P
  obtain ⟨c, hc⟩ := h1
  have h4 : 0 < Nat.card secp256k1.Point := Nat.card_pos
  have h5 : c < 3 := by
    by_contra hh
    have : n * 3 ≤ n * c := Nat.mul_le_mul_left _ (by omega)
    have : 2 * p + 1 < n * 3 := by decide
    omega
  interval_cases c
  · omega
  · rw [hc, mul_one]
  · exact absurd (Dvd.intro_left n hc.symm) h3

theorem exists_smul {g : secp256k1.Point} (hg : IsGenerator g) (P : secp256k1.Point) : ∃ d, d < n ∧ P = d • g := by
  have := mem_multiples_of_prime_card (p := n) card_point (generator_ne hg) (g' := P)
  obtain ⟨d, hd⟩ := this
  exact ⟨d % n, Nat.mod_lt _ n_pos, by rw [smul_mod hg]; exact hd.symm⟩

/-! ## Recovery is the inverse of signing -/

theorem decompress_sound {x : ℕ} (hx : x < p) {odd : Bool} {a : Pt} (h : decompress x odd = some a) :
    ∃ y P, a = some (x, y) ∧ IsPoint P x y ∧ odd = decide (y % 2 = 1) := by
  unfold decompress at h
  simp only at h
  generalize hzz : powMod p 256 ((p + 1) / 4) ((x * x * x + 7) % p) 1 = z at h
  have hz : z < p := by
    rw [← hzz, powMod_eq p 256 _ _ _ (by decide)]
    exact Nat.mod_lt _ p_pos
  split at h
  · next hc =>
    have he : (z : ZMod p) ^ 2 = (x : ZMod p) ^ 3 + 7 := by
      have := congrArg (Nat.cast (R := ZMod p)) hc
      rw [ZMod.natCast_mod, ZMod.natCast_mod] at this
      push_cast at this
      linear_combination this
    have hz0 : z ≠ 0 := by
      rintro rfl
      rw [Nat.cast_zero, zero_pow (by decide)] at he
      exact no_root _ he.symm
    have ns : secp256k1.Nonsingular (x : ZMod p) (z : ZMod p) := by
      refine nonsingular_of he ?_
      intro e
      rw [eq_neg_iff_add_eq_zero, ← two_mul, mul_eq_zero] at e
      rcases e with e | e
      · exact two_ne e
      · rw [ZMod.natCast_eq_zero_iff] at e
        exact absurd (Nat.le_of_dvd (by omega) e) (by omega)
    have ip : IsPoint (.some _ _ ns) x z := ⟨hx, hz, ns, rfl⟩
    have := p_odd
    obtain rfl := Option.some.inj h
    by_cases hd : decide (z % 2 = 1) = odd
    · exact ⟨z, _, by rw [if_pos hd], ip, hd.symm⟩
    · have es : sub 0 z = p - z := by rw [sub, zero_add, Nat.mod_eq_of_lt (by omega)]
      refine ⟨p - z, _, by rw [if_neg hd, es], neg_isPoint ip (by omega), ?_⟩
      cases odd
      · simp at hd ⊢
        omega
      · simp at hd ⊢
        omega
  · exact absurd h (by simp)

/-- What is recovered is the key of the signer. -/
theorem recoverKey_sound {g : secp256k1.Point} (hg : IsGenerator g) {z r s : ℕ} {odd : Bool} (r1 : 0 < r) (r2 : r < n)
    (s1 : 0 < s) (s2 : s < n) {x y : ℕ} (h : recoverKey z r s odd = some (x, y)) :
    s ≤ n / 2 ∧ ∃ d k, 0 < d ∧ d < n ∧ IsPoint (d • g) x y ∧ SignedWith g d k z r s odd := by
  unfold recoverKey at h
  simp only [Option.bind_eq_bind, Option.bind_eq_some_iff] at h
  obtain ⟨a, ha, h⟩ := h
  obtain ⟨y', R, rfl, hR, ho⟩ := decompress_sound (r2.trans (by decide)) ha
  obtain ⟨k, hk, rfl⟩ := exists_smul hg R
  have er := ne_zero_of r1 r2
  have es := ne_zero_of s1 s2
  have hG := generator_rep hg
  have q1 := add_rep (mul_rep (mod_lt256 (n - inv n r * z % n)) hG)
      (mul_rep (mod_lt256 (inv n r * s)) (show Rep (some (r, y')) (k • g) from hR))
  rw [← mul_nsmul', ← add_nsmul] at q1
  split at h
  · exact absurd h (by simp)
  · next q hq =>
    rw [hq] at q1
    split at h
    · next hc =>
      obtain rfl := Option.some.inj h
      rw [Bool.and_eq_true, decide_eq_true_eq] at hc
      refine ⟨hc.1, ((n - inv n r * z % n) % n + inv n r * s % n * k) % n, k, ?_, Nat.mod_lt _ n_pos, ?_,
        ⟨y', hR, ho⟩, r1, r2, s1, s2, ?_⟩
      rotate_left
      · rw [smul_mod hg]
        exact q1
      · rw [← ZMod.natCast_eq_natCast_iff]
        push_cast
        rw [ZMod.natCast_mod]
        push_cast
        rw [ZMod.natCast_mod, ZMod.natCast_mod, Nat.cast_sub (Nat.mod_lt _ n_pos).le,
          ZMod.natCast_self, ZMod.natCast_mod, Nat.cast_mul, Nat.cast_mul, inv_n]
        field_simp
        ring
      · refine Nat.pos_of_ne_zero fun h0 => ?_
        have := q1
        rw [← smul_mod hg, h0, zero_nsmul] at this
        obtain ⟨_, _, _, e⟩ := show IsPoint _ _ _ from this
        exact absurd e.symm (Point.some_ne_zero _)
    · exact absurd h (by simp)

/-- The other signature with the same numbers. -/
theorem SignedWith.neg {g : secp256k1.Point} (hg : IsGenerator g) {d k z r s : ℕ} {odd : Bool}
    (h : SignedWith g d k z r s odd) : SignedWith g d (k * (n - 1)) z r (n - s) (!odd) := by
  obtain ⟨⟨y, hR, ho⟩, r1, r2, s1, s2, e⟩ := h
  have hn : (k * (n - 1)) • g = -(k • g) := by
    rw [eq_neg_iff_add_eq_zero, ← add_nsmul, ← Nat.mul_succ, Nat.mul_comm, Nat.succ_eq_add_one,
      Nat.sub_add_cancel (by decide), mul_nsmul, n_smul hg, nsmul_zero]
  have hy := y_pos hR
  refine ⟨⟨p - y, ?_, ?_⟩, r1, r2, by omega, by omega, ?_⟩
  · rw [hn]
    exact neg_isPoint hR hy
  · have := p_odd
    have := hR.2.1
    rw [ho]
    by_cases h1 : y % 2 = 1
    · simp [h1]
      omega
    · simp [h1]
      omega
  · rw [← ZMod.natCast_eq_natCast_iff] at e ⊢
    rw [Nat.cast_mul, Nat.cast_sub s2.le, Nat.cast_mul, Nat.cast_sub (by decide), ZMod.natCast_self]
    push_cast at e ⊢
    linear_combination e

end Hpl.Secp
