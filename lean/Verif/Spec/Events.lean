import Verif.Model.Events
import Verif.Spec.Interface
import Verif.Spec.Message
import Verif.Spec.Proto

/-! # What a reader of events sees -/

namespace Hpl.Spec

/-- The events of one type, in order. -/
def ofType (t : String) (evs : List TextEvent) : List TextEvent := evs.filter (fun e => e.ty = t)

/-- The text of an attribute. -/
def attr (k : String) (e : TextEvent) : Option String := e.attrs.lookup k

/-- The text of an attribute of the last event of a type. -/
def latest (t k : String) (evs : List TextEvent) : Option String := (ofType t evs).getLast?.bind (attr k)

/-- The attribute is the number `n` in decimal. -/
def NumberAt (k : String) (e : TextEvent) (n : Nat) : Prop := ∃ t, attr k e = some t ∧ Decimal t n

/-- The attribute is the bytes `b` in hexadecimal. -/
def HexAt (k : String) (e : TextEvent) (b : Bytes) : Prop := attr k e = some (hexText b)

end Hpl.Spec
