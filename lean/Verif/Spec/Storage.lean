import Verif.Model.Storage
import Verif.Spec.Exec

/-! # Which places a contract uses (C78) -/

namespace Hpl.Spec

open Storage

/-- The keys of a type: `u32` in four bytes, `Vec<u8>` as it is, and a `u32` before a `Vec<u8>`. -/
def KeyOf : Shape → List Bytes → Bytes → Prop
  | .u32, prefixes, last => prefixes = [] ∧ ∃ d : UInt32, last = u32be d
  | .bytes, prefixes, _ => prefixes = []
  | .u32Bytes, prefixes, _ => ∃ d : UInt32, prefixes = [u32be d]

/-- A place of a contract: a declared item, or an entry of a declared map under a key of its type. -/
def Has (L : Layout) : Cell → Prop
  | .item i => i < L.items.length
  | .entry i prefixes last => ∃ name shape, L.maps[i]? = some (name, shape) ∧ KeyOf shape prefixes last

/-- What a place holds after a history of saves and removals: what was last saved there, unless removed since. -/
def holds (ops : List (Cell × Option Bytes)) (c : Cell) : Option Bytes := (lastFor c ops).join

end Hpl.Spec
