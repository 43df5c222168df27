import Verif.Model.Basic

/-! # Signatures in Ethereum style (`/repo/packages/interface/src/types/crypto.rs`) -/

namespace Hpl

/-- `str::as_bytes` of an ASCII literal. -/
def ascii (s : String) : Bytes := s.toList.map (fun c => UInt8.ofNat c.toNat)

/-- `n.to_string()` as bytes. -/
def decimal (n : Nat) : Bytes := (Nat.toDigits 10 n).map (fun c => UInt8.ofNat c.toNat)

/-- `PREFIX`, crypto.rs 3: `"\x19Ethereum Signed Message:\n"`. -/
def ethPrefix : Bytes := [0x19] ++ ascii "Ethereum Signed Message:" ++ [0x0a]

/-- `eth_hash`, crypto.rs 15-21; `H` is `keccak256_hash`. -/
def ethHash (H : Bytes → Bytes) (message : Bytes) : Bytes :=
  H (ethPrefix ++ decimal message.length ++ message)

/-- `eth_addr`, crypto.rs 23-31. `copy_from_slice` panics unless 20 bytes remain. -/
def ethAddr (H : Bytes → Bytes) (pubkey : Bytes) : Res Bytes := do
  let body ← sliceFrom pubkey 1
  let a ← sliceFrom (H body) 12
  if a.length = 20 then return a else throw (.panic "copy_from_slice")

/-- `api.secp256k1_recover_pubkey` as an arbitrary partial function of hash, 64-byte signature and recovery bit. -/
abbrev Recover := Bytes → Bytes → UInt8 → Option Bytes

/-- `x - 27` on `u8` with overflow check. -/
def sub27 (x : UInt8) : Res UInt8 :=
  if 27 ≤ x.toNat then .ok (x - 27) else .error (.panic "sub overflow")

/-- The host call, whose failure is returned as an error. -/
def recoverPubkey (R : Recover) (hash sig : Bytes) (v : UInt8) : Res Bytes :=
  match R hash sig v with
  | some p => .ok p
  | none => .error (.err "recover pubkey")

/-- The recovery of a signer as both users write it: `/repo/contracts/core/va/src/contract.rs` 185-195,
`/repo/contracts/isms/multisig/src/query.rs` 46-53. -/
def recoverSigner (H : Bytes → Bytes) (R : Recover) (hash signature : Bytes) : Res Bytes := do
  let rs ← slice signature 0 64
  let x ← index signature 64
  let v ← sub27 x
  let pk ← recoverPubkey R hash rs v
  ethAddr H pk

end Hpl
