import Verif.Model.Packages

/-! # Versions (`semver::Version` of the dependency semver 1.0)

`/repo/packages/utils/src/lib.rs` 34-37 parses the versions of the stored and of the new code and compares them. Simplified:
texts are lists of characters instead of bytes, and pre-release and build are kept as the lists of their segments between
dots (`as_str().split('.')`), the empty ones as the empty list. -/

namespace Hpl.Semver

/-- `struct Version`. -/
structure Version where
  major : Nat
  minor : Nat
  patch : Nat
  pre : List (List Char)
  build : List (List Char)
deriving DecidableEq, Repr

/-! ## Reading (`parse.rs`) -/

/-- `numeric_identifier`: digits of a `u64` without leading zero; `v` is the value so far, `started` says whether there was a
digit. -/
def number (v : Nat) (started : Bool) : List Char → Option (Nat × List Char)
  | [] => if started then some (v, []) else none
  | c :: t =>
    if c.isDigit then
      if started && v == 0 then none
      else if v * 10 + (c.toNat - 48) < 2 ^ 64 then number (v * 10 + (c.toNat - 48)) true t
      else none
    else if started then some (v, c :: t) else none

/-- `dot` -/
def dot : List Char → Option (List Char)
  | '.' :: t => some t
  | _ => none

/-- Characters of identifiers: `A`-`Z`, `a`-`z`, `0`-`9` and `-`. -/
def identChar (c : Char) : Bool :=
  (65 ≤ c.toNat && c.toNat ≤ 90) || (97 ≤ c.toNat && c.toNat ≤ 122) || c.isDigit || c == '-'

/-- `!segment_has_nondigit && segment_len > 1 && input[accumulated_len..].starts_with('0')` -/
def leadingZero (seg : List Char) : Bool := seg.all Char.isDigit && decide (1 < seg.length) && seg.head? == some '0'

/-- `identifier`: the segments before are `acc`, the characters of the present one are `seg`. -/
def identifier (isPre : Bool) (acc : List (List Char)) (seg : List Char) :
    List Char → Option (List (List Char) × List Char)
  | [] =>
    if seg = [] then (if acc = [] then some ([], []) else none)
    else if isPre && leadingZero seg then none
    else some (acc ++ [seg], [])
  | c :: t =>
    if identChar c then identifier isPre acc (seg ++ [c]) t
    else if seg = [] then (if acc = [] ∧ c ≠ '.' then some ([], c :: t) else none)
    else if isPre && leadingZero seg then none
    else if c = '.' then identifier isPre (acc ++ [seg]) [] t
    else some (acc ++ [seg], c :: t)

/-- The part after `mark`, which must not be empty; nothing if the mark is not there. -/
def section_ (mark : Char) (isPre : Bool) (l : List Char) : Option (List (List Char) × List Char) :=
  match l with
  | [] => some ([], [])
  | c :: t =>
    if c = mark then
      match identifier isPre [] [] t with
      | some ([], _) => none
      | r => r
    else some ([], c :: t)

/-- `Version::from_str` -/
def parse (s : String) : Option Version := do
  let (major, t) ← number 0 false s.toList
  let t ← dot t
  let (minor, t) ← number 0 false t
  let t ← dot t
  let (patch, t) ← number 0 false t
  let (pre, t) ← section_ '-' true t
  let (build, t) ← section_ '+' false t
  if t = [] then return ⟨major, minor, patch, pre, build⟩ else none

/-! ## Comparing (`impls.rs`) -/

/-- `Ord::cmp` of strings. -/
def cmpText : List Char → List Char → Ordering
  | [], [] => .eq
  | [], _ :: _ => .lt
  | _ :: _, [] => .gt
  | a :: s, b :: t => (compare a.toNat b.toNat).then (cmpText s t)

/-- The loop over segments in both comparisons. -/
def cmpSegs (f : List Char → List Char → Ordering) : List (List Char) → List (List Char) → Ordering
  | [], [] => .eq
  | [], _ :: _ => .lt
  | _ :: _, [] => .gt
  | a :: s, b :: t => (f a b).then (cmpSegs f s t)

/-- One segment in `impl Ord for Prerelease`. -/
def cmpPreSeg (a b : List Char) : Ordering :=
  match a.all Char.isDigit, b.all Char.isDigit with
  | false, true => .gt
  | true, false => .lt
  | false, false => cmpText a b
  | true, true => (compare a.length b.length).then (cmpText a b)

/-- `impl Ord for Prerelease`: none at all comes last. -/
def cmpPre (a b : List (List Char)) : Ordering :=
  match a, b with
  | [], [] => .eq
  | [], _ :: _ => .gt
  | _ :: _, [] => .lt
  | _, _ => cmpSegs cmpPreSeg a b

/-- `trim_start_matches('0')` -/
def trimZeros : List Char → List Char
  | [] => []
  | c :: t => if c = '0' then trimZeros t else c :: t

/-- One segment in `impl Ord for BuildMetadata`. -/
def cmpBuildSeg (a b : List Char) : Ordering :=
  match a.all Char.isDigit, b.all Char.isDigit with
  | false, true => .gt
  | true, false => .lt
  | false, false => cmpText a b
  | true, true => ((compare (trimZeros a).length (trimZeros b).length).then (cmpText (trimZeros a) (trimZeros b))).then
      (compare a.length b.length)

/-- `#[derive(Ord)]` of `Version`. -/
def cmp (v w : Version) : Ordering :=
  (compare v.major w.major).then ((compare v.minor w.minor).then ((compare v.patch w.patch).then
    ((cmpPre v.pre w.pre).then (cmpSegs cmpBuildSeg v.build w.build))))

/-- `<` on versions, as `PartialOrd` derives it from `Ord::cmp`. -/
instance : LT Version := ⟨fun v w => cmp v w = .lt⟩

instance : DecidableLT Version := fun v w => inferInstanceAs (Decidable (cmp v w = .lt))

end Hpl.Semver
