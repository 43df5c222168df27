import Verif.Model.Ledger
import Verif.Spec.Coins

/-! # Coins in and out of an account, read off a log -/

namespace Hpl.Spec

variable {ε μ : Type}

/-- Coins of denomination `d` arriving. -/
def arriving (d : String) : Ledger.Act ε μ → Nat
  | .call c => amountOf d c.funds
  | .gift coins => amountOf d coins

/-- Coins of denomination `d` bank messages send to others than `self`. -/
def leaving (self : Addr) (d : String) : List OutMsg → Nat
  | [] => 0
  | .bankSend dst coins :: t => (if dst = self then 0 else amountOf d coins) + leaving self d t
  | _ :: t => leaving self d t

/-- All coins of denomination `d` that arrived in a log. -/
def arrived (d : String) (log : List (Tx.Entry (Ledger.Act ε μ) Response)) : Nat :=
  (log.map (fun e => arriving d e.1)).sum

/-- All coins of denomination `d` that left in a log. -/
def left (self : Addr) (d : String) (log : List (Tx.Entry (Ledger.Act ε μ) Response)) : Nat :=
  (log.map (fun e => leaving self d e.2.msgs)).sum

end Hpl.Spec
