import Verif.Model.Basic

/-! # Addresses (`/repo/packages/interface/src/types/bech32.rs`) -/

namespace Hpl

/-- The two functions of the `bech32` crate that the code calls, as an arbitrary pair of partial
functions: `enc hrp raw` is `bech32::encode(hrp, raw.to_base32(), Variant::Bech32)` and `dec s` is
`bech32::decode(s)` followed by `Vec::<u8>::from_base32`. `Verif/Model/Bech32Codec.lean` gives the concrete
codec; most theorems hold for any pair. -/
structure Codec where
  enc : String → Bytes → Option Addr
  dec : Addr → Option Bytes

/-- `bech32_decode`, bech32.rs 13-21. -/
def bech32Decode (C : Codec) (a : Addr) : Res Bytes :=
  match C.dec a with
  | some r => .ok r
  | none => .error (.err "invalid bech32 bytes")

/-- `bech32_to_h256`, bech32.rs 4-11. -/
def bech32ToH256 (C : Codec) (a : Addr) : Res Bytes := do
  let raw ← bech32Decode C a
  padLeft32 raw

/-- `bech32_encode`, bech32.rs 23-45. The recursive call on `raw_addr[12..]` has a 20-byte
argument, so it is unfolded here. `0u128` over bytes `0..12` being zero is written as the byte
test it is. -/
def bech32Encode (C : Codec) (hrp : String) (raw : Bytes) : Res Addr :=
  if raw.length ≠ 32 ∧ raw.length ≠ 20 then .error (.err "invalid raw address length")
  else
    let raw' := if raw.length = 32 ∧ raw.take 12 = zeros 12 then raw.drop 12 else raw
    match C.enc hrp raw' with
    | some a => .ok a
    | none => .error (.err "invalid bech32 address")

/-- A codec that decodes what it encodes. -/
def Codec.Lawful (C : Codec) : Prop := ∀ hrp raw a, C.enc hrp raw = some a → C.dec a = some raw

end Hpl
