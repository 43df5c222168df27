import Mathlib.Data.List.Lex
import Mathlib.Data.String.Basic

/-!
# Basic vocabulary of the model

Bytes, failures, slices with Rust panics, and big-endian integers.
-/

namespace Hpl

/-- `HexBinary` / `Vec<u8>` / `[u8; n]` (cosmwasm_std; used throughout
`/repo/packages/interface/src/types`). -/
abbrev Bytes := List UInt8

/-- Human readable address, `cosmwasm_std::Addr` (a newtype around `String`). -/
abbrev Addr := String

/-- Ways a contract call can fail. `err` is a returned `Err(..)`, `panic` is a Rust panic
(`unwrap`, slice index, arithmetic overflow: `/repo/Cargo.toml` lines 14-22 set
`overflow-checks = true`, `panic = "abort"` for release). Both abort the call and all its writes.
The string is only a tag (simplified error values). -/
inductive Fail where
  | err (tag : String)
  | panic (tag : String)
deriving DecidableEq, Repr

/-- Result of a contract function. -/
abbrev Res (α : Type) := Except Fail α

/-- `ensure!(cond, err)` (cosmwasm_std). -/
def ensure (c : Bool) (tag : String) : Res Unit :=
  if c then .ok () else .error (.err tag)

/-- Rust slice expression `&v[i..j]`: panics unless `i ≤ j ≤ v.len()`. -/
def slice (v : Bytes) (i j : Nat) : Res Bytes :=
  if i ≤ j ∧ j ≤ v.length then .ok ((v.drop i).take (j - i)) else .error (.panic "slice")

/-- Rust slice expression `&v[i..]`: panics unless `i ≤ v.len()`. -/
def sliceFrom (v : Bytes) (i : Nat) : Res Bytes :=
  if i ≤ v.length then .ok (v.drop i) else .error (.panic "slice")

/-- Rust index expression `v[i]`. -/
def index (v : Bytes) (i : Nat) : Res UInt8 :=
  match v[i]? with
  | some x => .ok x
  | none => .error (.panic "index")

/-- `n`-byte big-endian representation of `v` (truncating), `to_be_bytes`. -/
def beN : Nat → Nat → Bytes
  | 0, _ => []
  | n + 1, v => beN n (v / 256) ++ [UInt8.ofNat (v % 256)]

/-- `from_be_bytes`. -/
def fromBE (b : Bytes) : Nat := b.foldl (fun a x => a * 256 + x.toNat) 0

/-- `u32::to_be_bytes`. -/
def u32be (x : UInt32) : Bytes := beN 4 x.toNat

/-- `u32::from_be_bytes` (callers pass exactly four bytes). -/
def ofU32be (b : Bytes) : UInt32 := UInt32.ofNat (fromBE b)

/-- `Uint256::to_be_bytes` for a value below `2^256`. -/
def u256be (x : Nat) : Bytes := beN 32 x

/-- `n` zero bytes. -/
def zeros (n : Nat) : Bytes := List.replicate n 0

/-- `let mut a = [0u8; 32]; a[32 - v.len()..].copy_from_slice(&v)`
(`/repo/packages/interface/src/types/bech32.rs` 7-8, `metadata.rs` 79-81,
`/repo/contracts/core/va/src/contract.rs` 135-136): left pad to 32 bytes, panics (index
underflow) when `v` is longer than 32 bytes. -/
def padLeft32 (v : Bytes) : Res Bytes :=
  if v.length ≤ 32 then .ok (zeros (32 - v.length) ++ v) else .error (.panic "sub overflow")

end Hpl
