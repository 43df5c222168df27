import Verif.Model.OMap
import Verif.Model.Bech32

/-! # Metadata formats (`/repo/packages/interface/src/types/metadata.rs`) -/

namespace Hpl

/-- `SIGNATURE_LENGTH`, metadata.rs 8. -/
def sigLen : Nat := 65

/-- `slice::chunks_exact(n)`: the whole `n`-byte chunks; a shorter rest is dropped. -/
def chunksExact (n : Nat) (v : Bytes) : List Bytes :=
  (List.range (v.length / n)).map (fun i => (v.drop (i * n)).take n)

/-- `MerkleRootMultisigIsmMetadata`, metadata.rs 10-21. -/
structure MerkleRootMeta where
  originMailbox : Bytes
  checkpointIndex : UInt32
  messageId : Bytes
  proof : Bytes
  signatures : Bytes
deriving DecidableEq, Repr

namespace MerkleRootMeta

/-- metadata.rs 23-35. -/
def encode (m : MerkleRootMeta) : Bytes :=
  m.originMailbox ++ (u32be m.checkpointIndex ++ (m.messageId ++ (m.proof ++ m.signatures)))

/-- metadata.rs 37-47. -/
def decode (v : Bytes) : Res MerkleRootMeta := do
  let a ← slice v 0 32
  let b ← slice v 32 36
  let c ← slice v 36 68
  let d ← slice v 68 1092
  let e ← sliceFrom v 1092
  return ⟨a, ofU32be b, c, d, e⟩

/-- `signatures_len`, metadata.rs 50-56. -/
def signaturesLen (m : MerkleRootMeta) : Res Nat :=
  if m.signatures.length % sigLen ≠ 0 then .error (.err "Invalid signatures length")
  else .ok (m.signatures.length / sigLen)

/-- `signature_at`, metadata.rs 58-63. -/
def signatureAt (m : MerkleRootMeta) (i : Nat) : Res Bytes :=
  slice m.signatures (i * sigLen) ((i + 1) * sigLen)

end MerkleRootMeta

/-- `MessageIdMultisigIsmMetadata`, metadata.rs 66-75. -/
structure MessageIdMeta where
  originMerkleTree : Bytes
  merkleRoot : Bytes
  merkleIndex : Bytes
  signatures : List Bytes
deriving DecidableEq, Repr

namespace MessageIdMeta

/-- metadata.rs 77-99. -/
def encode (m : MessageIdMeta) : Res Bytes := do
  let t ← padLeft32 m.originMerkleTree
  return t ++ (m.merkleRoot ++ (m.merkleIndex ++ m.signatures.flatten))

/-- metadata.rs 101-116. -/
def decode (v : Bytes) : Res MessageIdMeta := do
  let s ← sliceFrom v 68
  let a ← slice v 0 32
  let b ← slice v 32 64
  let c ← slice v 64 68
  return ⟨a, b, c, chunksExact sigLen s⟩

/-- `merkle_index`, metadata.rs 118-122: `try_into::<[u8; 4]>().unwrap()`. -/
def index (m : MessageIdMeta) : Res UInt32 :=
  if m.merkleIndex.length = 4 then .ok (ofU32be m.merkleIndex) else .error (.panic "try_into")

end MessageIdMeta

/-- `AggregateMetadata(BTreeMap<Addr, HexBinary>)`, metadata.rs 136-137. -/
abbrev AggregateMeta := OMap Addr Bytes

namespace AggregateMeta

/-- `RANGE_SIZE`, metadata.rs 140. -/
def rangeSize : Nat := 4

/-- One step of `from_hex`, metadata.rs 160-176. -/
def entryAt (v : Bytes) (i : Nat) : Res Bytes := do
  let start := i * rangeSize * 2
  let mid := start + rangeSize
  let fin := mid + rangeSize
  let s ← slice v start mid
  let e ← slice v mid fin
  slice v (fromBE s) (fromBE e)

/-- The closure mapped over the enumerated ISM list, metadata.rs 158-177. -/
def entriesFrom (v : Bytes) (i : Nat) : List Addr → Res (List (Addr × Bytes))
  | [] => .ok []
  | a :: t => do
    let m ← entryAt v i
    let r ← entriesFrom v (i + 1) t
    return (a, m) :: r

/-- `from_hex`, metadata.rs 156-179; collecting into a `BTreeMap` keeps the last of equal keys. -/
def fromHex (v : Bytes) (addrs : List Addr) : Res AggregateMeta := do
  let l ← entriesFrom v 0 addrs
  return OMap.ofList l

/-- The fold computing start and end offsets, metadata.rs 190-196. -/
def ranges (pos : Nat) : List Bytes → List (Nat × Nat × Bytes)
  | [] => []
  | m :: t => (pos, pos + m.length, m) :: ranges (pos + m.length) t

/-- `clone_into_array::<[u8; 4]>(&x.to_be_bytes()[4..])`, metadata.rs 124-134 and 200-201, on a
target whose `usize` has `w` bytes: panics when the remaining slice is not 4 bytes. -/
def usizeTail (w x : Nat) : Res Bytes := do
  let b ← sliceFrom (beN w x) rangeSize
  if b.length = 4 then return b else throw (.panic "clone_from_slice")

/-- The `.map(..)` and the loop filling `pos`, metadata.rs 197-212. -/
def table (w : Nat) : List (Nat × Nat × Bytes) → Res Bytes
  | [] => .ok []
  | (s, e, _) :: t => do
    let s' ← usizeTail w s
    let e' ← usizeTail w e
    let r ← table w t
    return s' ++ (e' ++ r)

/-- The encoder on the list of values, metadata.rs 183-216. -/
def encodeList (w : Nat) (ms : List Bytes) : Res Bytes := do
  let t ← table w (ranges (ms.length * rangeSize * 2) ms)
  return t ++ ms.flatten

/-- `impl From<AggregateMetadata> for HexBinary`, metadata.rs 181-218. -/
def encode (w : Nat) (m : AggregateMeta) : Res Bytes := encodeList w m.values

end AggregateMeta

/-- `IGPMetadata`, metadata.rs 220-224. -/
structure IgpMeta where
  gasLimit : Nat
  refundAddress : Bytes
deriving DecidableEq, Repr

namespace IgpMeta

/-- metadata.rs 226-236. -/
def encode (m : IgpMeta) : Bytes := u256be m.gasLimit ++ m.refundAddress

/-- metadata.rs 238-245. -/
def decode (v : Bytes) : Res IgpMeta := do
  let g ← slice v 0 32
  let r ← sliceFrom v 32
  return ⟨fromBE g, r⟩

/-- `get_refund_address`, metadata.rs 247-265. -/
def refundTo (C : Codec) (m : IgpMeta) (hrp : String) (default : Addr) : Res Addr :=
  if m.refundAddress.length ≠ 20 ∧ m.refundAddress.length ≠ 32 then .ok default
  else
    let raw := if (m.refundAddress.take 16).all (· = 0) then m.refundAddress.drop 16
      else m.refundAddress
    match bech32Encode C hrp raw with
    | .ok a => .ok a
    | .error _ => .error (.panic "unwrap")

end IgpMeta

end Hpl
