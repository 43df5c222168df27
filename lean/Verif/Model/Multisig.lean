import Verif.Model.Crypto
import Verif.Model.Message
import Verif.Model.Metadata
import Verif.Model.Owned

/-! # Message-id multisig ISM (`/repo/contracts/isms/multisig/src`) -/

namespace Hpl.Multisig

/-- `VALIDATORS` and `THRESHOLD`, state.rs 4-8. -/
structure State where
  validators : OMap UInt32 (List Bytes)
  threshold : OMap UInt32 UInt8

/-- After `instantiate`, contract.rs 25-38 (which only sets the owner). -/
def init : State := ⟨OMap.empty, OMap.empty⟩

/-- `SetValidators` and `UnsetDomain` of `ExecuteMsg`, `/repo/packages/interface/src/ism/multisig.rs` 22-34. -/
inductive Msg where
  | setValidators (domain : UInt32) (threshold : UInt8) (validators : List Bytes)
  | unsetDomain (domain : UInt32)

/-- The two arms of `execute`, contract.rs 52-100. Events are dropped. -/
def handle (_valid : Addr → Bool) (own : Ownable.State) (s : State) (sender : Addr) : Msg → Res State
  | .setValidators d t vs => do
    let o ← Ownable.getOwner own
    ensure (decide (sender = o)) "unauthorized"
    ensure (vs.all (fun v => decide (v.length = 20))) "length should be 20"
    ensure (decide (t.toNat ≤ vs.length) && decide (0 < t.toNat)) "threshold not in range"
    return { validators := s.validators.insert d vs, threshold := s.threshold.insert d t }
  | .unsetDomain d => do
    let o ← Ownable.getOwner own
    ensure (decide (sender = o)) "unauthorized"
    return { validators := s.validators.erase d, threshold := s.threshold.erase d }

/-- `execute`, contract.rs 41-102. -/
def step : Ownable.State × State → OwnedCall Msg → Res (Ownable.State × State) := ownedStep handle

/-- `Map::load`: error when there is no entry. -/
def load {κ ν : Type} [LinearOrder κ] (m : OMap κ ν) (k : κ) : Res ν :=
  match m.get k with
  | some v => .ok v
  | none => .error (.err "not found")

/-- `domain_hash`, lib.rs 15-24. -/
def domainHash (H : Bytes → Bytes) (domain : UInt32) (address : Bytes) : Bytes :=
  H (u32be domain ++ address ++ ascii "HYPERLANE")

/-- `multisig_hash`, lib.rs 26-42. -/
def multisigHash (H : Bytes → Bytes) (domainHash root : Bytes) (index : UInt32) (id : Bytes) : Bytes :=
  H (domainHash ++ root ++ u32be index ++ id)

/-- `threshold -= 1` on `u8` with overflow check. -/
def pred (t : UInt8) : Res UInt8 :=
  if 1 ≤ t.toNat then .ok (t - 1) else .error (.panic "sub overflow")

/-- The signature loop, query.rs 42-63: the threshold left and the validators matched so far. -/
def loop (H : Bytes → Bytes) (R : Recover) (hash : Bytes) (validators : List Bytes) :
    List Bytes → UInt8 → List Bytes → Res UInt8
  | [], t, _ => .ok t
  | sig :: rest, t, matched => do
    let a ← recoverSigner H R hash sig
    if validators.contains a && !matched.contains a then do
      let t' ← pred t
      if t' = 0 then return t' else loop H R hash validators rest t' (a :: matched)
    else loop H R hash validators rest t matched

/-- `verify_message`, query.rs 21-68. -/
def verify (H : Bytes → Bytes) (R : Recover) (s : State) (metadata message : Bytes) : Res Bool := do
  let md ← MessageIdMeta.decode metadata
  let msg ← Message.decode message
  let index ← md.index
  let hash := ethHash H (multisigHash H (domainHash H msg.origin md.originMerkleTree) md.merkleRoot index (msg.id H))
  let validators ← load s.validators msg.origin
  let threshold ← load s.threshold msg.origin
  let t ← loop H R hash validators md.signatures threshold []
  return decide (t = 0)

/-- `get_verify_info`, query.rs 70-83. -/
def verifyInfo (s : State) (message : Bytes) : Res (UInt8 × List Bytes) := do
  let msg ← Message.decode message
  let t ← load s.threshold msg.origin
  let vs ← load s.validators msg.origin
  return (t, vs)

/-- `EnrolledValidators`, contract.rs 122-132. -/
def enrolled (s : State) (domain : UInt32) : Res (List Bytes × UInt8) := do
  let vs ← load s.validators domain
  let t ← load s.threshold domain
  return (vs, t)

end Hpl.Multisig
