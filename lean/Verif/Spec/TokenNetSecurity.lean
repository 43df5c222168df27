import Verif.Spec.TokenNet
import Verif.Spec.Security
import Verif.Props.Isms

/-! # Honest validators of a network of token routers -/

namespace Hpl.Spec

open Bridge

variable {κ : Type} [DecidableEq κ]

/-- As `HonestNet`, but instead of assuming sound security modules it says what they are. The contracts are the modelled
ones; at each delivery to a router in the name of a router of the network, the module then responsible is guarded for the
origin: fewer dishonest validators than needed to approve. `signed pre` is what validators have signed when the log is
`pre`; honest ones have attested only messages announced by then on the chain they name. Nobody forges a signature of an
honest validator or breaks the hash. -/
structure ValidatedNet (H : Bytes → Bytes) (R : Recover) (P : κ → Setup) (r : κ → Bytes) (d : κ → UInt32)
    (world : TokenLog κ → κ → Addr → Option IsmContract) (honest : Bytes → Prop)
    (signed : TokenLog κ → Bytes → Attestation → Prop) (s0 : κ → Chain) (log : TokenLog κ) : Prop where
  callers : ∀ e ∈ log, ∀ x c env, e.1 = .router x c env → c.sender ≠ (P x).mailbox
  routes : ∀ e ∈ log, ∀ x c env m, e.1 = .router x c env → c.msg = .inr m →
    ∀ o q, (o, some q) ∈ remoteUpdates m → ∃ y, o = d y ∧ q = r y
  senders : ∀ e ∈ log, ∀ x c q, e.1 = .mailbox x c → c.msg = .dispatch q →
    bech32ToH256 (P x).codec c.sender ≠ .ok (r x)
  contracts : ∀ pre x a k, world pre x a = some k → Reachable k
  truthful : ∀ pre v, honest v → Truthful (fun o b => ∀ y, o = d y → b ∈ announcedAt y pre) (signed pre) v
  guarded : ∀ pre x c out post md m s y, log = pre ++ (TokenNet.Act.mailbox x c, out) :: post → c.msg = .process md m →
    Tx.Chain (TokenNet.step H P) s0 pre s → originOf m = (d y).toNat → senderOf m = r y → recipientOf m = r x →
    (∃ depth, c.env.verify = askIsm H R (world pre x) depth) ∧
    ∀ ism, ResponsibleIsm c.env (s x).box (P x).router ism → Guarded (world pre x) honest (d y) ism
  crypto : ∀ pre x c out post md m y, log = pre ++ (TokenNet.Act.mailbox x c, out) :: post → c.msg = .process md m →
    originOf m = (d y).toNat →
    ¬ Forged H R honest (signed pre) (d y) md m ∧ ¬ HashBroken H honest (signed pre) (d y) md m

end Hpl.Spec
