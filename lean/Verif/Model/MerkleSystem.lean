import Verif.Model.Hooks
import Verif.Model.Mailbox

/-! # A mailbox and a merkle hook on the same chain

The latest-dispatched-id query the hook makes (`/repo/contracts/hooks/merkle/src/lib.rs` 88-94) is answered by the
mailbox's storage (`/repo/contracts/core/mailbox/src/query.rs` 80-86). -/

namespace Hpl.MerkleSystem

/-- A call to the mailbox at address `mb`, or to the hook (by anyone). -/
inductive Call where
  | mailbox (c : Mailbox.Call)
  | hook (metadata message : Bytes)

/-- What a call returns: the mailbox's response or the hook's index attribute. -/
inductive Out where
  | mailbox (r : Response)
  | hook (index : Nat)
deriving DecidableEq

/-- The answer of the chain to a latest-dispatched-id query sent to address `a`. -/
def latestId (mb : Addr) (s : Mailbox.State) (a : Addr) : Res Bytes :=
  if a = mb then Mailbox.getLatestDispatchId s else .error (.err "not a mailbox")

/-- One call. -/
def step (H : Bytes → Bytes) (C : Codec) (mb : Addr) (s : Mailbox.State × MerkleHook.State) :
    Call → Res ((Mailbox.State × MerkleHook.State) × Out)
  | .mailbox c => do
    let x ← Mailbox.execute H C s.1 c
    return ((x.1, s.2), .mailbox x.2)
  | .hook metadata message => do
    let x ← MerkleHook.execute H s.2 ⟨latestId mb s.1, metadata, message⟩
    return ((s.1, x.1), .hook x.2)

end Hpl.MerkleSystem
