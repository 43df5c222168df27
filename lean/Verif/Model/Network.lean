import Verif.Model.Mailbox
import Verif.Model.Tx
import Mathlib.Logic.Function.Basic

/-! # Any number of chains, each with a mailbox

The mailboxes of `Verif/Model/Mailbox.lean` side by side, one for every chain of an arbitrary collection `κ`. A call goes
to the mailbox of one chain and leaves the others alone. All chains use the same hash. Address formats are the concern of
each chain, so there is one codec per chain. -/

namespace Hpl.Network

variable {κ : Type} [DecidableEq κ]

/-- A call to the mailbox of a chain. -/
structure Call (κ : Type) where
  chain : κ
  call : Mailbox.Call

/-- `execute` (`/repo/contracts/core/mailbox/src/contract.rs` 51-70) on the chain that is called. -/
def step (H : Bytes → Bytes) (C : κ → Codec) (s : κ → Mailbox.State) (c : Call κ) :
    Res ((κ → Mailbox.State) × Response) := do
  let p ← Mailbox.execute H (C c.chain) (s c.chain) c.call
  return (Function.update s c.chain p.1, p.2)

end Hpl.Network
