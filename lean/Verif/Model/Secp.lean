import Verif.Model.Crypto

/-! # The host function `secp256k1_recover_pubkey`

The contracts call `api.secp256k1_recover_pubkey` (`/repo/contracts/core/va/src/contract.rs` 185-189,
`/repo/contracts/isms/multisig/src/query.rs` 47-51). It is implemented by `cosmwasm-crypto` 1.5 with `k256` 0.13
(`/repo/Cargo.toml` 48 and 80), outside of the repository; this file transcribes it. Field elements and scalars are numbers
below the modulus. Points are in affine coordinates; inverses and roots are powers. `k256` computes the same with other
coordinates and algorithms.
-/

namespace Hpl.Secp

/-- The modulus of the field of coordinates, `2^256 - 2^32 - 977`. -/
def p : Nat := 0xFFFFFFFFFFFFFFFFFFFFFFFFFFFFFFFFFFFFFFFFFFFFFFFFFFFFFFFEFFFFFC2F

/-- The order of the generator. -/
def n : Nat := 0xFFFFFFFFFFFFFFFFFFFFFFFFFFFFFFFEBAAEDCE6AF48A03BBFD25E8CD0364141

/-- The neutral element, or a point with its coordinates. -/
abbrev Pt := Option (Nat × Nat)

/-- The generator. -/
def G : Pt := some (0x79BE667EF9DCBBAC55A06295CE870B07029BFCDB2DCE28D959F2815B16F81798,
  0x483ADA7726A3C4655DA4FBFC0E1108A8FD17B448A68554199C47D08FFB10D4B8)

/-- `acc * a ^ e` modulo `m`, by squaring; the first number bounds the bits of `e`. -/
def powMod (m : Nat) : Nat → Nat → Nat → Nat → Nat
  | 0, _, _, acc => acc % m
  | k + 1, e, a, acc => powMod m k (e / 2) (a * a % m) (if e % 2 = 1 then acc * a % m else acc)

/-- The inverse modulo a prime `m`. -/
def inv (m a : Nat) : Nat := powMod m 256 (m - 2) a 1

/-- Difference modulo `p` of numbers below `p`. -/
def sub (a b : Nat) : Nat := (a + (p - b)) % p

/-- The point on the line with slope `l` through `(x1, y1)` and a point with coordinate `x2`, reflected. -/
def third (l x1 y1 x2 : Nat) : Pt :=
  let x3 := sub (sub (l * l % p) x1) x2
  some (x3, sub (l * sub x1 x3 % p) y1)

/-- Addition of points of `y^2 = x^3 + 7`. -/
def add : Pt → Pt → Pt
  | none, q => q
  | some a, none => some a
  | some (x1, y1), some (x2, y2) =>
    if x1 = x2 then
      if (y1 + y2) % p = 0 then none
      else third (3 * x1 * x1 * inv p (2 * y1 % p) % p) x1 y1 x2
    else third (sub y1 y2 * inv p (sub x1 x2) % p) x1 y1 x2

/-- `acc + e * a`, by doubling; the first number bounds the bits of `e`. -/
def mulAdd : Nat → Nat → Pt → Pt → Pt
  | 0, _, _, acc => acc
  | k + 1, e, a, acc => mulAdd k (e / 2) (add a a) (if e % 2 = 1 then add acc a else acc)

/-- Multiplication by a scalar of at most 256 bits. -/
def mul (e : Nat) (a : Pt) : Pt := mulAdd 256 e a none

/-- `AffinePoint::decompress`: the point with a coordinate and a parity. -/
def decompress (x : Nat) (odd : Bool) : Option Pt :=
  let c := (x * x * x + 7) % p
  let y := powMod p 256 ((p + 1) / 4) c 1
  if y * y % p = c then some (some (x, if decide (y % 2 = 1) = odd then y else sub 0 y)) else none

/-- `hazmat::verify_prehashed`, after `is_high` has been excluded. -/
def verifies (z r s : Nat) (q : Pt) : Bool :=
  match add (mul (z * inv n s % n) G) (mul (r * inv n s % n) q) with
  | none => false
  | some (x, _) => decide (x % n = r)

/-- `VerifyingKey::recover_from_prehash` of the `ecdsa` crate. -/
def recoverKey (z r s : Nat) (odd : Bool) : Option (Nat × Nat) := do
  let a ← decompress r odd
  let ri := inv n r
  match add (mul ((n - ri * z % n) % n) G) (mul (ri * s % n) a) with
  | none => none
  | some q => if decide (s ≤ n / 2) && verifies z r s (some q) then some q else none

/-- `secp256k1_recover_pubkey` of `cosmwasm-crypto`. Signatures have to be 64 bytes, with both numbers between one and
`n - 1`, and the recovery parameter zero or one. `normalize` tells whether the host replaces a number `s` in the upper half
by `n - s`, as some versions do; the others refuse such signatures. -/
def recover (normalize : Bool) : Recover := fun hash sig v =>
  let r := fromBE (sig.take 32)
  let s := fromBE (sig.drop 32)
  let odd := decide (v = 1)
  if hash.length = 32 ∧ sig.length = 64 ∧ (v = 0 ∨ v = 1) ∧ 0 < r ∧ r < n ∧ 0 < s ∧ s < n then
    let z := fromBE hash % n
    let k := if normalize && decide (n / 2 < s) then recoverKey z r (n - s) (!odd) else recoverKey z r s odd
    k.map (fun q => 4 :: (beN 32 q.1 ++ beN 32 q.2))
  else none

end Hpl.Secp
