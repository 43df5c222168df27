import Verif.Model.Multisig

/-! # Aggregate, routing and pausable ISMs (`/repo/contracts/isms`)

`Verifier` is what `ism::verify` (`/repo/packages/interface/src/ism/mod.rs` 105-117) answers: the result of the smart
query `Verify` to a module. -/

namespace Hpl

/-- Answers of modules to `Verify { metadata, message }`. -/
abbrev Verifier := Addr → Bytes → Bytes → Res Bool

/-! ## `/repo/contracts/isms/aggregate/src/lib.rs` -/

namespace AggregateIsm

/-- `ISMS` and `THRESHOLD`, lib.rs 26-30. -/
structure State where
  isms : List Addr
  threshold : UInt8
deriving DecidableEq, Repr

/-- `instantiate`, lib.rs 37-64: the threshold is not checked. -/
def instantiate (valid : Addr → Bool) (owner : Addr) (isms : List Addr) (threshold : UInt8) :
    Res (Ownable.State × State) := do
  ensure (valid owner) "invalid address"
  ensure (isms.all valid) "invalid address"
  return (Ownable.init owner, ⟨isms, threshold⟩)

/-- `SetIsms` of `ExecuteMsg`, `/repo/packages/interface/src/ism/aggregate.rs` 15-19. -/
inductive Msg where
  | setIsms (isms : List Addr) (threshold : UInt8)

/-- lib.rs 75-102. -/
def handle (valid : Addr → Bool) (own : Ownable.State) (_s : State) (sender : Addr) : Msg → Res State
  | .setIsms isms threshold => do
    let o ← Ownable.getOwner own
    ensure (decide (o = sender)) "unauthorized"
    ensure (decide (0 < threshold.toNat)) "threshold must not be zero"
    ensure (decide (threshold.toNat ≤ isms.length)) "threshold should be less than ism count"
    ensure (isms.all valid) "invalid address"
    return ⟨isms, threshold⟩

/-- `execute`, lib.rs 67-104. -/
def step : Ownable.State × State → OwnedCall Msg → Res (Ownable.State × State) := ownedStep handle

/-- `if verified { threshold -= 1; }`, lib.rs 148-150. -/
def lower (verified : Bool) (t : UInt8) : Res UInt8 := if verified then Multisig.pred t else .ok t

/-- The loop, lib.rs 145-155: the threshold left. -/
def loop (V : Verifier) (message : Bytes) : UInt8 → List (Addr × Bytes) → Res UInt8
  | t, [] => .ok t
  | t, (a, md) :: rest => do
    let b ← V a md message
    let t' ← lower b t
    if t' = 0 then return t' else loop V message t' rest

/-- `verify`, lib.rs 136-160. -/
def verify (V : Verifier) (s : State) (metadata message : Bytes) : Res Bool := do
  let m ← AggregateMeta.fromHex metadata s.isms
  let t ← loop V message s.threshold m.entries
  return decide (t = 0)

/-- `bech32_decode` mapped over the list, lib.rs 164-169 (helper of `verifyInfo`). -/
def decodeAll (C : Codec) : List Addr → Res (List Bytes)
  | [] => .ok []
  | a :: t => do
    let r ← bech32Decode C a
    let rs ← decodeAll C t
    return r :: rs

/-- `verify_info`, lib.rs 162-171. -/
def verifyInfo (C : Codec) (s : State) : Res (UInt8 × List Bytes) := do
  let rs ← decodeAll C s.isms
  return (s.threshold, rs)

end AggregateIsm

/-! ## `/repo/contracts/isms/routing/src/contract.rs` -/

namespace RoutingIsm

/-- `MODULES`, state.rs 4-5. -/
abbrev State := OMap UInt32 Addr

/-- The loop over the initial modules, contract.rs 31-37. -/
def setAll (valid : Addr → Bool) : State → List (UInt32 × Addr) → Res State
  | s, [] => .ok s
  | s, (d, a) :: t => do
    ensure (valid a) "invalid address"
    setAll valid (s.insert d a) t

/-- `instantiate`, contract.rs 19-42. -/
def instantiate (valid : Addr → Bool) (owner : Addr) (isms : List (UInt32 × Addr)) :
    Res (Ownable.State × State) := do
  ensure (valid owner) "invalid address"
  let s ← setAll valid OMap.empty isms
  return (Ownable.init owner, s)

/-- `Set` and `Unset` of `ExecuteMsg`, `/repo/packages/interface/src/ism/routing.rs` 22-28. -/
inductive Msg where
  | set (domain : UInt32) (ism : Addr)
  | unset (domains : List UInt32)

/-- contract.rs 55-98. -/
def handle (valid : Addr → Bool) (own : Ownable.State) (s : State) (sender : Addr) : Msg → Res State
  | .set d a => do
    let o ← Ownable.getOwner own
    ensure (decide (o = sender)) "unauthorized"
    ensure (valid a) "invalid address"
    return s.insert d a
  | .unset ds => do
    let o ← Ownable.getOwner own
    ensure (decide (o = sender)) "unauthorized"
    return ds.foldl OMap.erase s

/-- `execute`, contract.rs 45-100. -/
def step : Ownable.State × State → OwnedCall Msg → Res (Ownable.State × State) := ownedStep handle

/-- `may_load(..)?.ok_or(RouteNotFound)`, contract.rs 115-117 and 142-144. -/
def moduleFor (s : State) (domain : UInt32) : Res Addr :=
  match s.get domain with
  | some a => .ok a
  | none => .error (.err "route not found")

/-- `Verify`, contract.rs 112-124. -/
def verify (V : Verifier) (s : State) (metadata message : Bytes) : Res Bool := do
  let m ← Message.decode message
  let a ← moduleFor s m.origin
  V a metadata message

/-- `Route`, contract.rs 139-149. -/
def route (s : State) (message : Bytes) : Res Addr := do
  let m ← Message.decode message
  moduleFor s m.origin

end RoutingIsm

/-! ## `/repo/contracts/isms/pausable/src/lib.rs` -/

namespace PausableIsm

/-- `Verify`, lib.rs 81-90. The state is the pause flag; executions are `pausableStep`. -/
def verify (paused : Bool) (_metadata _message : Bytes) : Res Bool := do
  ensure (!paused) "hook paused"
  return true

end PausableIsm

/-! ## Modules calling modules -/

/-- A contract that can be asked to verify: the four modules of this repository in some state, or anything else. -/
inductive IsmContract where
  | multisig (s : Multisig.State)
  | aggregate (s : AggregateIsm.State)
  | routing (s : RoutingIsm.State)
  | pausable (paused : Bool)
  | other (answer : Bytes → Bytes → Res Bool)

/-- The `Verify` query answered by the contract at an address, contracts asking contracts through the querier.
`depth` bounds the nesting of queries (gas and the runtime's query depth limit); beyond it the query fails. -/
def askIsm (H : Bytes → Bytes) (R : Recover) (world : Addr → Option IsmContract) : Nat → Verifier
  | 0, _, _, _ => .error (.err "out of gas")
  | depth + 1, a, metadata, message =>
    match world a with
    | none => .error (.err "no such contract")
    | some (.multisig s) => Multisig.verify H R s metadata message
    | some (.aggregate s) => AggregateIsm.verify (askIsm H R world depth) s metadata message
    | some (.routing s) => RoutingIsm.verify (askIsm H R world depth) s metadata message
    | some (.pausable p) => PausableIsm.verify p metadata message
    | some (.other f) => f metadata message

end Hpl
