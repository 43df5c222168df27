import Verif.Model.Warp

/-! # Messages to the token factory (`/repo/contracts/warp/native/src/proto.rs`, `conv.rs`)

The derived encoder and decoder are those of the dependency prost; they are modelled after its documentation: fields in
the order of their tags, strings, numbers and lists only if not empty, every field as key, length and content. -/

namespace Hpl.Proto

/-- Bytes of a string. -/
def utf8 (s : String) : Bytes := s.toByteArray.data.toList

/-- String with the given bytes, if they are valid UTF-8. -/
def ofUtf8 (b : Bytes) : Option String := String.fromUTF8? ⟨b.toArray⟩

/-- `prost::encoding::encode_varint`: seven bits per byte, least significant first; `fuel` bounds the number of bytes. -/
def varintAux : Nat → Nat → Bytes
  | 0, n => [UInt8.ofNat n]
  | fuel + 1, n => if n < 128 then [UInt8.ofNat n] else UInt8.ofNat (n % 128 + 128) :: varintAux fuel (n / 128)

/-- A `u64` takes at most ten bytes. -/
def varint (n : Nat) : Bytes := varintAux 9 n

/-- Content of a field, as far as the messages here use it: `string` and `message` are length-delimited, `uint32` is a
varint. -/
inductive Content where
  | bytes (b : Bytes)
  | number (n : Nat)

/-- `encode_key` with the content: wire type 2 with the length, or wire type 0. -/
def encodeField (tag : Nat) : Content → Bytes
  | .bytes b => varint (8 * tag + 2) ++ varint b.length ++ b
  | .number n => varint (8 * tag) ++ varint n

/-- `#[prost(string, tag)]`. -/
def string (tag : Nat) (s : String) : Bytes := if s = "" then [] else encodeField tag (.bytes (utf8 s))

/-- `#[prost(uint32, tag)]`. -/
def uint32 (tag : Nat) (n : UInt32) : Bytes := if n = 0 then [] else encodeField tag (.number n.toNat)

/-- `#[prost(string, repeated, tag)]`. -/
def strings (tag : Nat) (l : List String) : Bytes := l.flatMap (fun s => encodeField tag (.bytes (utf8 s)))

/-- `#[prost(message, optional, tag)]` with a value present. -/
def message (tag : Nat) (b : Bytes) : Bytes := encodeField tag (.bytes b)

/-- `#[prost(message, repeated, tag)]`. -/
def messages (tag : Nat) (l : List Bytes) : Bytes := l.flatMap (fun b => encodeField tag (.bytes b))

/-- `MsgCreateDenom`, proto.rs 4-11. -/
def createDenom (sender subdenom : String) : Bytes := string 1 sender ++ string 2 subdenom

/-- `Coin`, proto.rs 44-50. -/
def coin (denom amount : String) : Bytes := string 1 denom ++ string 2 amount

/-- `MsgMint`, proto.rs 52-58, and `MsgBurn`, proto.rs 69-75: they have the same fields. -/
def senderCoin (sender : String) (c : Bytes) : Bytes := string 1 sender ++ message 2 c

/-- `to_mint_msg`, conv.rs 8-16: the amount is printed in decimal. -/
def mint (sender : Addr) (denom : String) (amount : Nat) : Bytes := senderCoin sender (coin denom amount.repr)

/-- `to_burn_msg`, conv.rs 18-26. -/
def burn (sender : Addr) (denom : String) (amount : Nat) : Bytes := senderCoin sender (coin denom amount.repr)

/-- `native::DenomUnit`, `/repo/packages/interface/src/warp/native.rs` 9-20; `proto::DenomUnit`, proto.rs 86-107. -/
structure DenomUnit where
  denom : String
  exponent : UInt32
  aliases : List String
deriving DecidableEq, Repr

/-- `native::Metadata`, native.rs 22-41; `proto::Metadata`, proto.rs 109-136. -/
structure Metadata where
  description : String
  denomUnits : List DenomUnit
  base : String
  display : String
  name : String
  symbol : String
deriving DecidableEq, Repr

/-- Encoding of a unit. -/
def denomUnit (u : DenomUnit) : Bytes := string 1 u.denom ++ uint32 2 u.exponent ++ strings 3 u.aliases

/-- Encoding of metadata. -/
def metadata (m : Metadata) : Bytes :=
  string 1 m.description ++ messages 2 (m.denomUnits.map denomUnit) ++ string 3 m.base ++ string 4 m.display ++
    string 5 m.name ++ string 6 m.symbol

/-- `to_set_metadata_msg`, conv.rs 47-68, and `MsgSetDenomMetadata`, proto.rs 138-144. -/
def setDenomMetadata (sender : Addr) (m : Metadata) : Bytes := string 1 sender ++ message 2 (metadata m)

/-- `CosmosMsg::Stargate`. -/
structure Stargate where
  typeUrl : String
  value : Bytes
deriving DecidableEq, Repr

/-- proto.rs 13-20, 60-67, 77-84: the messages to the token factory among the messages of a response. -/
def stargate : OutMsg → Option Stargate
  | .tfMint sender denom amount => some ⟨"/osmosis.tokenfactory.v1beta1.MsgMint", mint sender denom amount⟩
  | .tfBurn sender denom amount => some ⟨"/osmosis.tokenfactory.v1beta1.MsgBurn", burn sender denom amount⟩
  | _ => none

/-- The submessages of `instantiate` for a bridged token (the first with a reply), `/repo/contracts/warp/native/src/contract.rs`
49-73. -/
def instantiateMsgs (self : Addr) (denom : String) (m : Option Metadata) : List Stargate :=
  ⟨"/osmosis.tokenfactory.v1beta1.MsgCreateDenom", createDenom self denom⟩ :: (match m with
  | some m => [⟨"/osmosis.tokenfactory.v1beta1.MsgSetDenomMetadata", setDenomMetadata self m⟩]
  | none => [])

/-! ## Decoding the reply -/

/-- `prost::encoding::decode_varint`: at most `count` bytes, and the tenth may only hold one bit. -/
def decodeVarint : Nat → Bytes → Res (Nat × Bytes)
  | 0, _ => .error (.err "invalid varint")
  | _ + 1, [] => .error (.err "invalid varint")
  | count + 1, b :: t =>
    if b.toNat < 128 then
      if count = 0 ∧ 2 ≤ b.toNat then .error (.err "invalid varint") else .ok (b.toNat, t)
    else do
      let x ← decodeVarint count t
      return (b.toNat - 128 + 128 * x.1, x.2)

/-- The first `n` bytes. -/
def splitBytes (n : Nat) (b : Bytes) : Res (Bytes × Bytes) :=
  if n ≤ b.length then .ok (b.take n, b.drop n) else .error (.err "buffer underflow")

/-- A length-delimited content. -/
def lengthDelimited (b : Bytes) : Res (Bytes × Bytes) := do
  let x ← decodeVarint 10 b
  splitBytes x.1 x.2

/-- `prost::encoding::string::merge`. -/
def mergeString (wire : Nat) (b : Bytes) : Res (String × Bytes) :=
  if wire = 2 then do
    let x ← lengthDelimited b
    match ofUtf8 x.1 with
    | some s => return (s, x.2)
    | none => .error (.err "invalid string value")
  else .error (.err "invalid wire type")

/-- `prost::encoding::skip_field`. Simplified: groups (wire types 3 and 4, deprecated) are refused. -/
def skipField (wire : Nat) (b : Bytes) : Res Bytes :=
  if wire = 0 then do
    let x ← decodeVarint 10 b
    return x.2
  else if wire = 1 then do
    let x ← splitBytes 8 b
    return x.2
  else if wire = 2 then do
    let x ← lengthDelimited b
    return x.2
  else if wire = 5 then do
    let x ← splitBytes 4 b
    return x.2
  else .error (.err "invalid wire type")

/-- One round of `Message::merge` for `MsgCreateDenomResponse`: the key is a `u32`, tags start at 1; the only known field
is the string with tag 1. -/
def mergeField (denom : String) (b : Bytes) : Res (String × Bytes) := do
  let k ← decodeVarint 10 b
  ensure (decide (k.1 < 2 ^ 32)) "invalid key value"
  ensure (decide (1 ≤ k.1 / 8)) "invalid tag value"
  if k.1 / 8 = 1 then mergeString (k.1 % 8) k.2
  else do
    let rest ← skipField (k.1 % 8) k.2
    return (denom, rest)

/-- `while buf.has_remaining() { merge_field }`; every round consumes bytes, so the number of bytes bounds the rounds. -/
def mergeAll : Nat → String → Bytes → Res String
  | _, denom, [] => .ok denom
  | 0, _, _ :: _ => .error (.err "unreachable")
  | fuel + 1, denom, b :: t => do
    let x ← mergeField denom (b :: t)
    mergeAll fuel x.1 x.2

/-- `MsgCreateDenomResponse::decode`, proto.rs 22-42. -/
def decodeResponse (b : Bytes) : Res String := mergeAll b.length "" b

/-- `reply`, `/repo/contracts/warp/native/src/contract.rs` 122-144: `data` is the data of the reply, if there is any. -/
def reply (s : Ownable.State × Warp.State) (id : Nat) (data : Option Bytes) : Res (Ownable.State × Warp.State) :=
  match data with
  | none => .error (.err "no reply data")
  | some b =>
    if id = 0 then do
      let denom ← decodeResponse b
      return (s.1, { s.2 with token := some denom })
    else .error (.err "invalid reply id")

/-! ## Decimal numbers -/

/-- `u128::from_str` on digits: an empty string and anything but digits is refused (a leading plus sign, which it accepts,
never occurs), as is a value that does not fit. -/
def parseU128 (s : String) : Res Nat :=
  if s.toList ≠ [] ∧ s.toList.all Char.isDigit then
    if Nat.ofDigitChars 10 s.toList 0 < 2 ^ 128 then .ok (Nat.ofDigitChars 10 s.toList 0)
    else .error (.err "number too large to fit in target type")
  else .error (.err "invalid digit found in string")

/-- `to_uint128` as written: a `Uint256` is printed and parsed again, conv.rs 43-45. -/
def toUint128 (n : Nat) : Res Nat := parseU128 n.repr

end Hpl.Proto
