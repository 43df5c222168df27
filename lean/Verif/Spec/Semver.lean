import Verif.Model.Semver

/-! # Semantic versioning (semver.org, items 2, 9, 10 and 11)

Written independently of the parser and the comparison. -/

namespace Hpl.Spec

open Semver

/-- The text of a version. -/
def versionText (v : Version) : String :=
  String.ofList (v.major.repr.toList ++ '.' :: v.minor.repr.toList ++ '.' :: v.patch.repr.toList ++
    (if v.pre = [] then [] else '-' :: ['.'].intercalate v.pre) ++
    (if v.build = [] then [] else '+' :: ['.'].intercalate v.build))

/-- Made of digits only. -/
def Numeric (s : List Char) : Prop := ∀ c ∈ s, c.isDigit = true

/-- The number that digits stand for. -/
def valueOf (s : List Char) : Nat := Nat.ofDigitChars 10 s 0

/-- Identifiers are not empty and have ASCII alphanumerics and hyphens only. -/
def Ident (s : List Char) : Prop :=
  s ≠ [] ∧ ∀ c ∈ s, ('A' ≤ c ∧ c ≤ 'Z') ∨ ('a' ≤ c ∧ c ≤ 'z') ∨ ('0' ≤ c ∧ c ≤ '9') ∨ c = '-'

/-- Well-formed versions: items 2, 9 and 10, with numbers of 64 bits. -/
def ValidVersion (v : Version) : Prop :=
  v.major < 2 ^ 64 ∧ v.minor < 2 ^ 64 ∧ v.patch < 2 ^ 64 ∧
  (∀ s ∈ v.pre, Ident s ∧ (Numeric s → s = ['0'] ∨ s.head? ≠ some '0')) ∧
  (∀ s ∈ v.build, Ident s)

/-- Item 11.4.1-11.4.3: one identifier comes before another. -/
def IdBefore (a b : List Char) : Prop :=
  (Numeric a ∧ Numeric b ∧ valueOf a < valueOf b) ∨ (Numeric a ∧ ¬ Numeric b) ∨ (¬ Numeric a ∧ ¬ Numeric b ∧ a < b)

/-- Item 11.3 and 11.4: a pre-release comes before the release, and pre-releases are compared by identifiers from left to
right, a longer list coming after its beginnings. -/
def PreBefore (a b : List (List Char)) : Prop := (a ≠ [] ∧ b = []) ∨ (a ≠ [] ∧ b ≠ [] ∧ List.Lex IdBefore a b)

/-- Item 11: precedence. -/
def Precedes (v w : Version) : Prop :=
  v.major < w.major ∨ (v.major = w.major ∧ (v.minor < w.minor ∨ (v.minor = w.minor ∧ (v.patch < w.patch ∨
    (v.patch = w.patch ∧ PreBefore v.pre w.pre)))))

/-- Versions that differ in their builds only have the same precedence (item 10). -/
def SamePrecedence (v w : Version) : Prop :=
  v.major = w.major ∧ v.minor = w.minor ∧ v.patch = w.patch ∧ v.pre = w.pre

/-- Of numbers with the same value the shorter one comes first; otherwise like identifiers of pre-releases. This is not
part of semantic versioning. -/
def BuildIdBefore (a b : List Char) : Prop :=
  IdBefore a b ∨ (Numeric a ∧ Numeric b ∧ valueOf a = valueOf b ∧ a.length < b.length)

/-- `x.y.z` -/
def release (x y z : Nat) : String := versionText ⟨x, y, z, [], []⟩

/-- `x.y.z-rcN` -/
def candidate (x y z n : Nat) : String := versionText ⟨x, y, z, ["rc".toList ++ n.repr.toList], []⟩

/-- `x.y.z-rc.N` -/
def dottedCandidate (x y z n : Nat) : String := versionText ⟨x, y, z, ["rc".toList, n.repr.toList], []⟩

end Hpl.Spec
