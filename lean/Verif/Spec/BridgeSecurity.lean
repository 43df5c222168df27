import Verif.Spec.Bridge
import Verif.Spec.Security
import Verif.Props.Isms

/-! # Honest validators of a bridge -/

namespace Hpl.Spec

open Bridge

/-- As `Honest`, but instead of assuming sound security modules it says what they are. The contracts are the modelled
ones; at each delivery to a router in the name of the remote router, the module then responsible for the router is
guarded: fewer dishonest validators than needed to approve. `signed pre` is what validators have signed when the log is
`pre`; honest ones have attested only messages announced by then. Nobody forges a signature of an honest validator or
breaks the hash. -/
structure Validated (H : Bytes → Bytes) (R : Recover) (P : Side → Setup) (r : Side → Bytes) (d : Side → UInt32)
    (world : BridgeLog → Side → Addr → Option IsmContract) (honest : Bytes → Prop)
    (signed : BridgeLog → Bytes → Attestation → Prop) (s0 : Side → Chain) (log : BridgeLog) : Prop where
  callers : ∀ e ∈ log, ∀ x c env, e.1 = .router x c env → c.sender ≠ (P x).mailbox
  routes : ∀ e ∈ log, ∀ x c env, e.1 = .router x c env → ∀ m, c.msg ≠ .inr (.router m)
  senders : ∀ e ∈ log, ∀ x c q, e.1 = .mailbox x c → c.msg = .dispatch q →
    bech32ToH256 (P x).codec c.sender ≠ .ok (r x)
  contracts : ∀ pre x a k, world pre x a = some k → Reachable k
  truthful : ∀ pre x v, honest v → Truthful (fun o b => o = d x → b ∈ announcedOn x pre) (signed pre) v
  guarded : ∀ pre x c out post md m s, log = pre ++ (Act.mailbox x c, out) :: post → c.msg = .process md m →
    Tx.Chain (step H P) s0 pre s → originOf m = (d x.other).toNat → senderOf m = r x.other → recipientOf m = r x →
    (∃ depth, c.env.verify = askIsm H R (world pre x) depth) ∧
    ∀ ism, ResponsibleIsm c.env (s x).box (P x).router ism → Guarded (world pre x) honest (d x.other) ism
  crypto : ∀ pre x c out post md m, log = pre ++ (Act.mailbox x c, out) :: post → c.msg = .process md m →
    ¬ Forged H R honest (signed pre) (d x.other) md m ∧ ¬ HashBroken H honest (signed pre) (d x.other) md m

end Hpl.Spec
