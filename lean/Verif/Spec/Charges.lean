import Verif.Spec.HookSystem

/-! # What hooks charge, and how often they are called -/

namespace Hpl.Spec

open HookSystem

/-- Hooks that pass the message on to no other hook. -/
def Ends : Contract → Prop
  | .merkle _ => True
  | .fee _ => True
  | .pausable _ => True
  | .igp _ => True
  | _ => False

/-- The hooks called for the message `b`, in order and as often as they are called, if hook `h` is: itself, and those it passes the
message on to. -/
inductive Called (hooks : Contracts) (b : Bytes) : Addr → List Addr → Prop where
  | ends {h c} (hc : hooks h = some c) (he : Ends c) : Called hooks b h [h]
  | members {h s} (ms : List (Addr × List Addr)) (hs : hooks h = some (.aggregate s)) (hl : s.2 = ms.map (·.1))
      (hm : ∀ m ∈ ms, Called hooks b m.1 m.2) : Called hooks b h (h :: ms.flatMap (·.2))
  | route {h x vs} (hx : RoutesTo hooks h (destOf b) (recipientOf b) x) (hv : Called hooks b x vs) :
      Called hooks b h (h :: vs)

/-- What the hook at `a` charges for message `b` with metadata `md`: the fee set, or the price of the gas, as it quotes them. -/
inductive Charges (hooks : Contracts) (md b : Bytes) : Addr → List Coin → Prop where
  | fee {a s} (hs : hooks a = some (.fee s)) : Charges hooks md b a [s.2]
  | gas {a s coins} (hs : hooks a = some (.igp s)) (hq : Igp.quoteDispatch (oracleAt hooks) s md b = .ok coins) :
      Charges hooks md b a coins

end Hpl.Spec
