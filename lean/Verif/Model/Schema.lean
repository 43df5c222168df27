import Verif.Model.Json

/-! # Types of messages (`#[cw_serde]`)

`cw_serde` of the dependency cosmwasm-schema derives serialisation with `rename_all = "snake_case"` and
`deny_unknown_fields`; the rules are those of serde for externally tagged enums. Types are data here, so that what
follows holds of all of them at once. -/

namespace Hpl

mutual
/-- A message type. -/
inductive Ty where
  /-- `bool` -/
  | bool
  /-- `u8`, `u32`, `u64`, `u128`: a number of that many bits. -/
  | uint (bits : Nat)
  /-- `Uint128`, `Uint256` and `as_str` (`/repo/packages/interface/src/warp/native.rs` 87-110): decimal digits in a
  string. -/
  | decimal (bits : Nat)
  /-- `String`, `Addr` (which is not validated when read) -/
  | text
  /-- `HexBinary` -/
  | hex
  /-- `Option` -/
  | opt (t : Ty)
  /-- `Vec` -/
  | list (t : Ty)
  /-- Tuples and arrays of fixed length, also the fields of a tuple variant (names unused). -/
  | tuple (ts : Fields)
  /-- Structs, also the fields of a struct variant. -/
  | struct (fs : Fields)
  /-- Enums: Rust names of the variants with their content. -/
  | enum (vs : Fields)
  /-- The content of a unit variant. -/
  | unit

/-- Named types. -/
inductive Fields where
  | nil
  | cons (name : String) (t : Ty) (rest : Fields)
end

/-- Values of all types: structs and tuples list their fields in the order of the definition, enums name the variant. -/
inductive Val where
  | bool (b : Bool)
  | nat (n : Nat)
  | text (s : String)
  | bytes (b : Bytes)
  | none
  | some (v : Val)
  | seq (l : List Val)
  | variant (name : String) (v : Val)
  | unit

/-- The content of a unit variant. -/
def Val.isUnit : Val → Bool
  | .unit => true
  | _ => false

namespace Schema

/-- `rename_all = "snake_case"` for names of variants: an underscore before every upper-case letter but a first one, and
lower case throughout. -/
def snakeChars : List Char → List Char
  | [] => []
  | c :: t => if c.isUpper then '_' :: c.toLower :: snakeChars t else c :: snakeChars t

def snake (s : String) : String :=
  match s.toList with
  | [] => ""
  | c :: t => String.ofList (c.toLower :: snakeChars t)

/-! ## Hexadecimal and decimal strings -/

/-- `HexBinary::to_hex`: lower case. -/
def toHex (b : Bytes) : String :=
  String.ofList (b.flatMap (fun x => [Json.hexDigit (x.toNat / 16), Json.hexDigit (x.toNat % 16)]))

/-- `HexBinary::from_hex`: pairs of digits in either case. -/
def ofHexChars : List Char → Option Bytes
  | [] => some []
  | [_] => none
  | a :: b :: t => do
    let x ← Json.hexValue a
    let y ← Json.hexValue b
    let r ← ofHexChars t
    return UInt8.ofNat (x * 16 + y) :: r

def ofHex (s : String) : Option Bytes := ofHexChars s.toList

/-- `Uint128::from_str` and the like: digits only, and the number must fit. -/
def ofDecimal (bits : Nat) (s : String) : Option Nat :=
  if s.toList ≠ [] ∧ s.toList.all Char.isDigit ∧ Nat.ofDigitChars 10 s.toList 0 < 2 ^ bits then
    some (Nat.ofDigitChars 10 s.toList 0)
  else none

/-- The content of a unit variant. -/
def isUnit : Ty → Bool
  | .unit => true
  | _ => false

/-! ## Writing -/

/-- All elements, if each can be written. -/
def mapAll (f : α → Option β) : List α → Option (List β)
  | [] => some []
  | a :: t => do
    let b ← f a
    let r ← mapAll f t
    return b :: r

mutual
/-- `Serialize`; `none` if the value is not of the type. -/
def encode : Ty → Val → Option Json
  | .bool, .bool b => some (.bool b)
  | .uint bits, .nat n => if n < 2 ^ bits then some (.num n) else none
  | .decimal bits, .nat n => if n < 2 ^ bits then some (.str n.repr) else none
  | .text, .text s => some (.str s)
  | .hex, .bytes b => some (.str (toHex b))
  | .opt _, .none => some .null
  | .opt t, .some v => encode t v
  | .list t, .seq l => (mapAll (encode t) l).map .arr
  | .tuple ts, .seq l => (encodeTuple ts l).map .arr
  | .struct fs, .seq l => (encodeStruct fs l).map .obj
  | .enum vs, .variant n v => encodeVariant vs n v
  | _, _ => none

/-- The elements of a tuple. -/
def encodeTuple : Fields → List Val → Option (List Json)
  | .nil, [] => some []
  | .cons _ t r, v :: l => do
    let j ← encode t v
    let js ← encodeTuple r l
    return j :: js
  | _, _ => none

/-- The fields of a struct. -/
def encodeStruct : Fields → List Val → Option (List (String × Json))
  | .nil, [] => some []
  | .cons n t r, v :: l => do
    let j ← encode t v
    let js ← encodeStruct r l
    return (n, j) :: js
  | _, _ => none

/-- A variant: its name alone, or an object with its name as the only key. -/
def encodeVariant : Fields → String → Val → Option Json
  | .nil, _, _ => none
  | .cons n t r, m, v =>
    if n = m then
      if isUnit t then (if v.isUnit then some (.str (snake n)) else none)
      else (encode t v).map (fun j => .obj [(snake n, j)])
    else encodeVariant r m v
end

/-! ## Reading -/

/-- The first member with the given key. -/
def lookup (k : String) : List (String × Json) → Option Json
  | [] => none
  | (n, j) :: t => if n = k then some j else lookup k t

/-- No key occurs twice. -/
def distinct : List String → Bool
  | [] => true
  | a :: t => !t.contains a && distinct t

/-- The names. -/
def Fields.names : Fields → List String
  | .nil => []
  | .cons n _ r => n :: Fields.names r

/-- What a field that is missing stands for. -/
def missing : Ty → Option Val
  | .opt _ => some .none
  | _ => none

mutual
/-- `Deserialize`. Simplified: unit variants are accepted as strings only. -/
def decode : Ty → Json → Option Val
  | .bool, .bool b => some (.bool b)
  | .uint bits, .num n => if n < 2 ^ bits then some (.nat n) else none
  | .decimal bits, .str s => (ofDecimal bits s).map .nat
  | .text, .str s => some (.text s)
  | .hex, .str s => (ofHex s).map .bytes
  | .opt _, .null => some .none
  | .opt t, j => (decode t j).map .some
  | .list t, .arr l => (mapAll (decode t) l).map .seq
  | .tuple ts, .arr l => (decodeTuple ts l).map .seq
  | .struct fs, .obj l =>
    if distinct (l.map (·.1)) && l.all (fun p => (Fields.names fs).contains p.1) then (decodeStruct fs l).map .seq
    else none
  | .enum vs, .str k => decodeVariant vs k none
  | .enum vs, .obj [(k, j)] => decodeVariant vs k (some j)
  | _, _ => none

/-- The elements of a tuple. -/
def decodeTuple : Fields → List Json → Option (List Val)
  | .nil, [] => some []
  | .cons _ t r, j :: l => do
    let v ← decode t j
    let vs ← decodeTuple r l
    return v :: vs
  | _, _ => none

/-- The fields of a struct, in whatever order they come. -/
def decodeStruct : Fields → List (String × Json) → Option (List Val)
  | .nil, _ => some []
  | .cons n t r, l => do
    let v ← (match lookup n l with
      | some j => decode t j
      | none => missing t)
    let vs ← decodeStruct r l
    return v :: vs

/-- A variant by its name. -/
def decodeVariant : Fields → String → Option Json → Option Val
  | .nil, _, _ => none
  | .cons n t r, k, j =>
    if snake n = k then
      if isUnit t then (if j.isNone then some (.variant n .unit) else none)
      else j.bind (fun j => (decode t j).map (.variant n))
    else decodeVariant r k j
end

/-- `to_json_binary`. -/
def send (t : Ty) (v : Val) : Option Bytes := (encode t v).map Json.toBinary

/-- `from_json`. -/
def receive (t : Ty) (b : Bytes) : Option Val := (Json.ofBinary b).bind (decode t)

end Schema

end Hpl
