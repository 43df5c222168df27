import Verif.Model.Bech32

/-!
# The concrete bech32 codec

Transcription of what `/repo/packages/interface/src/types/bech32.rs` 13-45 uses from the `bech32` crate
(version 0.9.1, `/repo/Cargo.toml` `bech32 = "0.9.1"`; the crate's source is not in `/repo`, so this
follows BIP-173 and the crate's documentation). Simplified: the 8-to-5-bit regrouping is written on lists of bits
instead of with a shift register.
-/

namespace Hpl.Bech

/-- The alphabet (BIP-173). -/
def charset : List Char := "qpzry9x8gf2tvdw0s3jn54khce6mua7l".toList

/-- Alphabet lookup (values below 32). -/
def charOf (v : Nat) : Char := charset.getD v 'q'

/-- `CHARSET_REV`: value of a character of either case. -/
def valOf (c : Char) : Option Nat :=
  if c.toNat < 128 then charset.findIdx? (· = c.toLower) else none

/-- The generator contribution of the five top bits `b`. -/
def genTerm (b : Nat) : Nat :=
  (if b.testBit 0 then 0x3b6a57b2 else 0) ^^^ ((if b.testBit 1 then 0x26508e6d else 0) ^^^
  ((if b.testBit 2 then 0x1ea119fa else 0) ^^^ ((if b.testBit 3 then 0x3d4233dd else 0) ^^^
  (if b.testBit 4 then 0x2a1462b3 else 0))))

/-- `polymod_step`. -/
def step (c v : Nat) : Nat := ((c % 2 ^ 25) <<< 5) ^^^ (v ^^^ genTerm (c >>> 25))

/-- Checksum state after a list of 5-bit values. -/
def polymod (c : Nat) (vs : List Nat) : Nat := vs.foldl step c

/-- `hrp_expand`. -/
def hrpExpand (hrp : List Char) : List Nat :=
  hrp.map (fun c => c.toNat >>> 5) ++ [0] ++ hrp.map (fun c => c.toNat % 32)

/-- Checksum constants of the two variants (Bech32, Bech32m). -/
def constBech32 : Nat := 1
/-- See `constBech32`. -/
def constBech32m : Nat := 0x2bc830a3

/-- The six checksum values (`write_checksum`, always `Variant::Bech32`, bech32.rs 41). -/
def checksum (hrp : List Char) (data : List Nat) : List Nat :=
  let plm := polymod 1 (hrpExpand hrp ++ data ++ [0, 0, 0, 0, 0, 0]) ^^^ constBech32
  [plm / 2 ^ 25 % 32, plm / 2 ^ 20 % 32, plm / 2 ^ 15 % 32, plm / 2 ^ 10 % 32, plm / 2 ^ 5 % 32,
    plm % 32]

/-- `check_hrp`: 1 to 83 printable ASCII characters, not of mixed case. -/
def checkHrp (hrp : List Char) : Bool :=
  decide (hrp ≠ []) && decide (hrp.length ≤ 83) &&
  hrp.all (fun c => decide (33 ≤ c.toNat) && decide (c.toNat ≤ 126)) &&
  !(hrp.any Char.isLower && hrp.any Char.isUpper)

/-- The bits of an `n`-bit number, most significant first. -/
def bitsOf : Nat → Nat → List Bool
  | 0, _ => []
  | n + 1, v => bitsOf n (v / 2) ++ [decide (v % 2 = 1)]

/-- Number from bits, most significant first. -/
def ofBits (l : List Bool) : Nat := l.foldl (fun a b => 2 * a + (if b then 1 else 0)) 0

/-- `to_base32`: regroup into 5-bit values, padding with zero bits at the end. -/
def toBase32 (raw : Bytes) : List Nat :=
  let bits := raw.flatMap (fun b => bitsOf 8 b.toNat)
  let n := (bits.length + 4) / 5
  let padded := bits ++ List.replicate (5 * n - bits.length) false
  (List.range n).map (fun i => ofBits ((padded.drop (5 * i)).take 5))

/-- `Vec::<u8>::from_base32`: regroup into bytes; the left-over bits must be fewer than five and
all zero. -/
def fromBase32 (vs : List Nat) : Option Bytes :=
  let bits := vs.flatMap (fun v => bitsOf 5 v)
  let n := bits.length / 8
  let rest := bits.drop (8 * n)
  if rest.length < 5 ∧ rest.all (· = false) then
    some ((List.range n).map (fun i => UInt8.ofNat (ofBits ((bits.drop (8 * i)).take 8))))
  else none

/-- `bech32::encode(hrp, raw.to_base32(), Variant::Bech32)` (bech32.rs 41-42). -/
def enc (hrp : String) (raw : Bytes) : Option Addr :=
  if checkHrp hrp.toList then
    let h := hrp.toList.map Char.toLower
    let data := toBase32 raw
    some (String.ofList (h ++ '1' :: (data ++ checksum h data).map charOf))
  else none

/-- `bech32::decode` (bech32.rs 14-15): split at the last `1`, check the prefix, translate the characters, reject
mixed case, verify the checksum of either variant, drop it. Returns prefix and values. -/
def decodeU5 (s : List Char) : Option (List Char × List Nat) := do
  let rev := s.reverse
  let dataC := (rev.takeWhile (· ≠ '1')).reverse
  let rest := rev.dropWhile (· ≠ '1')
  if rest = [] then none
  else
    let hrp := rest.tail.reverse
    if !checkHrp hrp then none
    else
      let vals ← dataC.mapM valOf
      if (hrp ++ dataC).any Char.isLower && (hrp ++ dataC).any Char.isUpper then none
      else if vals.length < 6 then none
      else
        let h := hrp.map Char.toLower
        let pm := polymod 1 (hrpExpand h ++ vals)
        if pm = constBech32 ∨ pm = constBech32m then some (h, vals.take (vals.length - 6))
        else none

/-- `bech32_decode`'s two crate calls, bech32.rs 14-18. -/
def dec (a : Addr) : Option Bytes := do
  let (_, v) ← decodeU5 a.toList
  fromBase32 v

/-- The concrete codec. -/
def codec : Codec := ⟨enc, dec⟩

end Hpl.Bech
