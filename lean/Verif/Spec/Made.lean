import Verif.Model.Start

/-! # Making contracts, specified -/

namespace Hpl.Spec

/-- A contract with an owner is made exactly under the condition; it then belongs to the owner named, nobody else is to become
owner, and the rest of its state is as said. -/
def Made {σ : Type} (made : Res (Ownable.State × σ)) (condition : Prop) (owner : Addr) (fresh : σ → Prop) : Prop :=
  ((∃ s, made = .ok s) ↔ condition) ∧
    ∀ s, made = .ok s → Ownable.getOwner s.1 = .ok owner ∧ s.1.pending = none ∧ fresh s.2

/-- The module a list of initial modules names for a domain: the last one. -/
def lastNamed (isms : List (UInt32 × Addr)) (domain : UInt32) : Option Addr :=
  (isms.reverse.find? (fun p => p.1 = domain)).map Prod.snd

end Hpl.Spec
