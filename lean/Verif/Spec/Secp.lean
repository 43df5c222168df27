import Verif.Lemmas.SecpPrimes
import Mathlib.AlgebraicGeometry.EllipticCurve.Affine.Point
import Mathlib.Algebra.Field.ZMod

/-! # Signatures on secp256k1, as in the standard

Points, their addition and multiples are those of Mathlib. -/

namespace Hpl.Spec

open Secp (p n)

/-- `y^2 = x^3 + 7` over the integers modulo `p`. -/
def secp256k1 : WeierstrassCurve.Affine (ZMod p) := ⟨0, 0, 0, 0, 7⟩

/-- The point with coordinates `x` and `y`. -/
def IsPoint (P : secp256k1.Point) (x y : ℕ) : Prop :=
  x < p ∧ y < p ∧ ∃ h, P = .some (x : ZMod p) (y : ZMod p) h

/-- The generator of the standard. -/
def IsGenerator (g : secp256k1.Point) : Prop :=
  IsPoint g 0x79BE667EF9DCBBAC55A06295CE870B07029BFCDB2DCE28D959F2815B16F81798
    0x483ADA7726A3C4655DA4FBFC0E1108A8FD17B448A68554199C47D08FFB10D4B8

/-- The numbers `r` and `s` and the parity of a signature of `z` with the secret key `d` and the nonce `k`: `r` is the first
coordinate of `k g`, and `s = (z + r d) / k` modulo `n`. -/
structure SignedWith (g : secp256k1.Point) (d k z r s : ℕ) (odd : Bool) : Prop where
  nonce : ∃ y, IsPoint (k • g) r y ∧ odd = decide (y % 2 = 1)
  r_pos : 0 < r
  r_lt : r < n
  s_pos : 0 < s
  s_lt : s < n
  eq : s * k ≡ z + r * d [MOD n]

/-- The uncompressed public key of the point. -/
def IsKey (P : secp256k1.Point) (b : List UInt8) : Prop :=
  ∃ x y, IsPoint P x y ∧ b = 4 :: (beN 32 x ++ beN 32 y)

/-- The signature verifies for the public key `P`, as in the standard. -/
def Verifies (g P : secp256k1.Point) (z r s : ℕ) : Prop :=
  ∃ w x y, s * w ≡ 1 [MOD n] ∧ IsPoint ((z * w) • g + (r * w) • P) x y ∧ x % n = r

/-- The Ethereum address of the secret key: the last 20 bytes of the hash of the two coordinates. -/
def AddressOf (H : List UInt8 → List UInt8) (g : secp256k1.Point) (d : ℕ) (a : List UInt8) : Prop :=
  ∃ x y, IsPoint (d • g) x y ∧ a = (H (beN 32 x ++ beN 32 y)).drop 12

/-- The 65 bytes of a signature of the digest with the secret key, as wallets write it. `high` tells whether `s` may be in the
upper half; wallets do not make such signatures. -/
def EthSigned (g : secp256k1.Point) (high : Bool) (d : ℕ) (digest sig : List UInt8) : Prop :=
  ∃ k r s odd, SignedWith g d k (fromBE digest) r s odd ∧ (s ≤ n / 2 ∨ high = true) ∧
    sig = beN 32 r ++ beN 32 s ++ [if odd then 28 else 27]

end Hpl.Spec
