import Verif.Model.Proto

/-! # The protobuf wire format, as a relation, and how a receiver reads fields

Written after the protobuf encoding specification, independently of the encoder and decoder. Groups are left out. -/

namespace Hpl.Spec

/-- Little-endian base 128; all bytes but the last have the top bit set. -/
inductive Base128 : Nat → Bytes → Prop
  | last (b : UInt8) : b.toNat < 128 → Base128 b.toNat [b]
  | more (b : UInt8) (n : Nat) (t : Bytes) : 128 ≤ b.toNat → Base128 n t → Base128 (b.toNat - 128 + 128 * n) (b :: t)

/-- A varint: 64 bits in at most ten bytes, not necessarily the shortest form. -/
def Varint (n : Nat) (b : Bytes) : Prop := Base128 n b ∧ b.length ≤ 10 ∧ n < 2 ^ 64

/-- The content of a field. -/
inductive WireVal where
  | number (n : Nat)
  | eight (b : Bytes)
  | bytes (b : Bytes)
  | four (b : Bytes)
deriving DecidableEq, Repr

/-- Wire types. -/
def WireVal.wireType : WireVal → Nat
  | .number _ => 0
  | .eight _ => 1
  | .bytes _ => 2
  | .four _ => 5

/-- How content is written. -/
inductive Content : WireVal → Bytes → Prop
  | number (n : Nat) (b : Bytes) : Varint n b → Content (.number n) b
  | eight (b : Bytes) : b.length = 8 → Content (.eight b) b
  | bytes (b l : Bytes) : Varint b.length l → Content (.bytes b) (l ++ b)
  | four (b : Bytes) : b.length = 4 → Content (.four b) b

/-- A field: key and content. Field numbers take 29 bits and start at 1. -/
def Field (k : Nat) (v : WireVal) (b : Bytes) : Prop :=
  ∃ key c, b = key ++ c ∧ Varint (8 * k + v.wireType) key ∧ Content v c ∧ 1 ≤ k ∧ k < 2 ^ 29

/-- A message: fields one after the other. -/
inductive Wire : List (Nat × WireVal) → Bytes → Prop
  | nil : Wire [] []
  | cons (k : Nat) (v : WireVal) (b : Bytes) (fs : List (Nat × WireVal)) (t : Bytes) :
      Field k v b → Wire fs t → Wire ((k, v) :: fs) (b ++ t)

/-- A string field: the last one counts, `dflt` if there is none; `none` if one of them is not a string. -/
def lastString (k : Nat) (dflt : String) : List (Nat × WireVal) → Option String
  | [] => some dflt
  | (k', v) :: t =>
    if k' = k then (match v with
      | .bytes b => (Proto.ofUtf8 b).bind (fun s => lastString k s t)
      | _ => none)
    else lastString k dflt t

/-- A string field; absent ones are empty. -/
def stringAt (k : Nat) (fs : List (Nat × WireVal)) : Option String := lastString k "" fs

/-- All contents of a field. -/
def valuesAt (k : Nat) (fs : List (Nat × WireVal)) : List WireVal := (fs.filter (fun f => f.1 = k)).map (fun f => f.2)

/-- A number field; absent ones are zero. -/
def numberAt (k : Nat) (fs : List (Nat × WireVal)) : Option Nat :=
  match (valuesAt k fs).getLast? with
  | none => some 0
  | some (.number n) => some n
  | some _ => none

/-- The bytes are a message, and whoever reads it gets fields with property `Q`. -/
def ReadAs (b : Bytes) (Q : List (Nat × WireVal) → Prop) : Prop := (∃ fs, Wire fs b) ∧ ∀ fs, Wire fs b → Q fs

/-- A decimal number. -/
def Decimal (s : String) (n : Nat) : Prop :=
  s.toList ≠ [] ∧ (∀ c ∈ s.toList, c.isDigit = true) ∧ s.toList.foldl (fun a c => 10 * a + (c.toNat - 48)) 0 = n

/-- A coin of the given denomination and amount. -/
def IsCoin (denom : String) (amount : Nat) (fs : List (Nat × WireVal)) : Prop :=
  stringAt 1 fs = some denom ∧ (∃ a, stringAt 2 fs = some a ∧ Decimal a amount) ∧ ∀ f ∈ fs, f.1 = 1 ∨ f.1 = 2

/-- A sender and a coin. -/
def IsSenderCoin (sender denom : String) (amount : Nat) (fs : List (Nat × WireVal)) : Prop :=
  stringAt 1 fs = some sender ∧ (∃ c, valuesAt 2 fs = [.bytes c] ∧ ReadAs c (IsCoin denom amount)) ∧
    ∀ f ∈ fs, f.1 = 1 ∨ f.1 = 2

/-- A denomination unit. -/
def IsUnit (u : Proto.DenomUnit) (fs : List (Nat × WireVal)) : Prop :=
  stringAt 1 fs = some u.denom ∧ numberAt 2 fs = some u.exponent.toNat ∧
    valuesAt 3 fs = u.aliases.map (fun s => .bytes (Proto.utf8 s)) ∧ ∀ f ∈ fs, f.1 = 1 ∨ f.1 = 2 ∨ f.1 = 3

/-- Metadata of a denomination. -/
def IsMetadata (m : Proto.Metadata) (fs : List (Nat × WireVal)) : Prop :=
  stringAt 1 fs = some m.description ∧
    (∃ us, valuesAt 2 fs = us.map .bytes ∧ List.Forall₂ (fun u b => ReadAs b (IsUnit u)) m.denomUnits us) ∧
    stringAt 3 fs = some m.base ∧ stringAt 4 fs = some m.display ∧ stringAt 5 fs = some m.name ∧
    stringAt 6 fs = some m.symbol ∧ ∀ f ∈ fs, 1 ≤ f.1 ∧ f.1 ≤ 6

end Hpl.Spec
