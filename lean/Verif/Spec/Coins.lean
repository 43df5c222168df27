import Verif.Model.Coins

/-! # Amounts per denomination -/

namespace Hpl.Spec

/-- Total amount of denomination `d` in a list of coins. -/
def amountOf (d : String) (l : List Coin) : Nat :=
  ((l.filter (fun c => c.denom = d)).map (fun c => c.amount)).sum

/-- No denomination occurs in two non-zero coins. -/
def DistinctDenoms (l : List Coin) : Prop :=
  ((l.filter (fun c => c.amount ≠ 0)).map (fun c => c.denom)).Nodup

end Hpl.Spec
