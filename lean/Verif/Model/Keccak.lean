import Verif.Model.Basic

/-!
# keccak256

`keccak256_hash` (`/repo/packages/interface/src/types/crypto.rs` 5-13) calls `sha3::Keccak256`; the crate is not in
`/repo`, so this is the Keccak reference algorithm (Keccak-f[1600], rate 1088, padding `0x01 .. 0x80`).
The 1600-bit state is one natural number, byte `k` of the state being bits `8k .. 8k+7`; lane `x + 5 y` is bits
`64 (x + 5 y) ..`.
-/

namespace Hpl.Keccak

/-- All-ones lane. -/
def mask : Nat := 2 ^ 64 - 1

/-- Lane `i` of a state. -/
def lane (s i : Nat) : Nat := (s >>> (64 * i)) &&& mask

/-- State with the given lanes (`n` of them). -/
def ofLanes (f : Nat → Nat) : Nat → Nat
  | 0 => 0
  | n + 1 => ofLanes f n ||| (f n <<< (64 * n))

/-- 64-bit rotation. -/
def rotl (x n : Nat) : Nat := ((x <<< n) ||| (x >>> (64 - n))) &&& mask

/-- Rotation offsets, index `x + 5 y`. -/
def offsets : List Nat :=
  [0, 1, 62, 28, 27, 36, 44, 6, 55, 20, 3, 10, 43, 25, 39, 41, 45, 15, 21, 8, 18, 2, 61, 56, 14]

/-- Round constants. -/
def roundConstants : List Nat :=
  [0x0000000000000001, 0x0000000000008082, 0x800000000000808A, 0x8000000080008000,
   0x000000000000808B, 0x0000000080000001, 0x8000000080008081, 0x8000000000008009,
   0x000000000000008A, 0x0000000000000088, 0x0000000080008009, 0x000000008000000A,
   0x000000008000808B, 0x800000000000008B, 0x8000000000008089, 0x8000000000008003,
   0x8000000000008002, 0x8000000000000080, 0x000000000000800A, 0x800000008000000A,
   0x8000000080008081, 0x8000000000008080, 0x0000000080000001, 0x8000000080008008]

/-- Column parities. -/
def parity (s : Nat) : Nat :=
  ofLanes (fun x => lane s x ^^^ lane s (x + 5) ^^^ lane s (x + 10) ^^^ lane s (x + 15) ^^^
    lane s (x + 20)) 5

/-- The theta correction of each column from the parities. -/
def thetaD (c : Nat) : Nat :=
  ofLanes (fun x => lane c ((x + 4) % 5) ^^^ rotl (lane c ((x + 1) % 5)) 1) 5

/-- theta. -/
def theta (s : Nat) : Nat :=
  let d := thetaD (parity s)
  ofLanes (fun i => lane s i ^^^ lane d (i % 5)) 25

/-- rho and pi: the lane at `(X, Y)` comes from `((X + 3 Y) mod 5, X)`. -/
def rhoPi (s : Nat) : Nat :=
  ofLanes (fun j =>
    let i := (j % 5 + 3 * (j / 5)) % 5 + 5 * (j % 5)
    rotl (lane s i) (offsets.getD i 0)) 25

/-- chi. -/
def chi (s : Nat) : Nat :=
  ofLanes (fun i =>
    lane s i ^^^ ((mask ^^^ lane s ((i % 5 + 1) % 5 + 5 * (i / 5))) &&&
      lane s ((i % 5 + 2) % 5 + 5 * (i / 5)))) 25

/-- One round. -/
def round (s rc : Nat) : Nat := chi (rhoPi (theta s)) ^^^ rc

/-- Keccak-f[1600]. -/
def f1600 (s : Nat) : Nat := roundConstants.foldl round s

/-- Little-endian number of a byte string. -/
def leNat : Bytes → Nat
  | [] => 0
  | b :: t => b.toNat + 256 * leNat t

/-- The `n` low bytes, least significant first. -/
def leBytes : Nat → Nat → Bytes
  | 0, _ => []
  | n + 1, v => UInt8.ofNat (v % 256) :: leBytes n (v / 256)

/-- Absorb full 136-byte blocks, then the padded rest. `fuel` bounds the number of blocks. -/
def absorb : Nat → Nat → Bytes → Nat
  | 0, s, _ => s
  | fuel + 1, s, m =>
    if m.length < 136 then
      f1600 (s ^^^ leNat m ^^^ (1 <<< (8 * m.length)) ^^^ (0x80 <<< (8 * 135)))
    else absorb fuel (f1600 (s ^^^ leNat (m.take 136))) (m.drop 136)

/-- keccak256. -/
def keccak256 (m : Bytes) : Bytes := leBytes 32 (absorb (m.length / 136 + 1) 0 m)

end Hpl.Keccak
