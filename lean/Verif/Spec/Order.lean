import Verif.Spec.TokenWorld

/-! # What is claimed of the order of deliveries -/

namespace Hpl.Spec

open Bridge TokenWorld

variable {κ : Type}

/-- Whom a message of a router pays. -/
def paysTo : OutMsg → Option Addr
  | .bankSend dst _ => some dst
  | .execute _ (.cw20Transfer dst _) _ => some dst
  | .execute _ (.cw20Mint dst _) _ => some dst
  | _ => none

/-- A delivery of a message by anybody to any recipient, without coins. If the recipient is the router, the tokens are not
for the router itself. -/
def Delivery (P : κ → Setup) (e : Tx.Entry (TokenWorld.Act κ) Out) : Prop :=
  ∃ x c md m, e.1 = .mailbox x c ∧ c.msg = .process md m ∧ c.funds = [] ∧
    ∀ q ∈ e.2.router.msgs, paysTo q ≠ some (P x).router

end Hpl.Spec
