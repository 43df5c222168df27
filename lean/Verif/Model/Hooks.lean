import Verif.Model.Merkle
import Verif.Model.Message
import Verif.Model.Msg
import Verif.Model.Packages
import Mathlib.Data.Prod.Lex

/-! # Post-dispatch hooks (`/repo/contracts/hooks`)

Every hook is given by its storage, its execution entry point (`execute`, including the calls anyone may make) and its
queries. Attributes of events are dropped except for the index the merkle hook reports. -/

namespace Hpl

/-- What the world outside a hook answers during one call: address validation, the balances of the hook itself
(after the attached coins have been credited), the quotes of other hooks and the latest dispatched id a mailbox
reports. -/
structure HookEnv where
  valid : Addr → Bool
  balances : List Coin
  quote : Addr → Bytes → Bytes → Res (List Coin)
  latestId : Addr → Res Bytes

/-- One call to a contract with an ownership part; `ε` are the answers of the world, `μ` all other messages. -/
structure ExecCall (ε μ : Type) where
  env : ε
  sender : Addr
  funds : List Coin
  msg : Ownable.Msg ⊕ μ

/-- Entry point of a contract that passes ownership messages to `hpl_ownable::handle` and treats the others with
`part`, e.g. `/repo/contracts/hooks/fee/src/lib.rs` 75-131. -/
def execOwned {ε σ μ : Type} (valid : ε → Addr → Bool)
    (part : ε → Ownable.State → σ → Addr → List Coin → μ → Res (σ × Response))
    (s : Ownable.State × σ) (c : ExecCall ε μ) : Res ((Ownable.State × σ) × Response) :=
  match c.msg with
  | .inl m => do
    let o ← Ownable.handle (valid c.env) s.1 c.sender m
    return ((o, s.2), {})
  | .inr m => do
    let p ← part c.env s.1 s.2 c.sender c.funds m
    return ((s.1, p.1), p.2)

/-- `ensure_eq!(get_owner(deps.storage)?, info.sender, ..)`. -/
def onlyOwner (own : Ownable.State) (sender : Addr) : Res Unit := do
  let o ← Ownable.getOwner own
  ensure (decide (o = sender)) "unauthorized"

/-! ## `/repo/contracts/hooks/merkle/src/lib.rs` -/

namespace MerkleHook

/-- Items `MAILBOX` and `MESSAGE_TREE`, lib.rs 46-50. -/
structure State where
  mailbox : Addr
  tree : Merkle.Tree
deriving DecidableEq, Repr

/-- `ExecuteMsg::PostDispatch`, the only call; sender and funds are not looked at. `latestId` is the answer of the
mailbox. -/
structure Call where
  latestId : Addr → Res Bytes
  metadata : Bytes
  message : Bytes

/-- `instantiate`, lib.rs 57-75; `zs` is the table of empty subtree hashes. -/
def instantiate (zs : List Bytes) (valid : Addr → Bool) (mailbox : Addr) : Res State := do
  ensure (valid mailbox) "invalid address"
  return ⟨mailbox, Merkle.default zs⟩

/-- `execute`, lib.rs 78-121. The result is the index attribute of the event. -/
def execute (H : Bytes → Bytes) (s : State) (c : Call) : Res (State × Nat) := do
  let latest ← c.latestId s.mailbox
  let msg ← Message.decode c.message
  ensure (decide (latest = msg.id H)) "message is not dispatching"
  let t ← Merkle.insert H s.tree (msg.id H)
  return ({ s with tree := t }, s.tree.count)

/-- `get_mailbox`, lib.rs 142-146. -/
def getMailbox (s : State) : Addr := s.mailbox

/-- `quote_dispatch`, lib.rs 148-150. -/
def quoteDispatch : List Coin := []

/-- `get_tree_count`, lib.rs 152-158: `tree.count as u32`. -/
def getCount (s : State) : UInt32 := UInt32.ofNat s.tree.count

/-- `get_tree_root`, lib.rs 160-164. -/
def getRoot (H : Bytes → Bytes) (zs : List Bytes) (s : State) : Bytes := Merkle.root H zs s.tree

/-- `get_tree_branch`, lib.rs 166-172. -/
def getBranch (s : State) : List Bytes := s.tree.branch

/-- `get_tree`, lib.rs 174-181. -/
def getTree (s : State) : List Bytes × UInt32 := (s.tree.branch, UInt32.ofNat s.tree.count)

/-- The `count` of `get_tree_checkpoint`, lib.rs 188-192: the subtraction is checked. -/
def checkpointIndex (count : Nat) : Res UInt32 :=
  if count = 0 then .ok 0
  else if (UInt32.ofNat count).toNat = 0 then .error (.panic "sub overflow")
  else .ok (UInt32.ofNat count - 1)

/-- `get_tree_checkpoint`, lib.rs 183-194. -/
def getCheckpoint (H : Bytes → Bytes) (zs : List Bytes) (s : State) : Res (Bytes × UInt32) := do
  let i ← checkpointIndex s.tree.count
  return (Merkle.root H zs s.tree, i)

end MerkleHook

/-! ## `/repo/contracts/hooks/fee/src/lib.rs` -/

namespace FeeHook

/-- `ExecuteMsg` without ownership. -/
inductive Msg where
  | setFee (fee : Coin)
  | claim (recipient : Option Addr)
  | postDispatch (metadata message : Bytes)

/-- `instantiate`, lib.rs 46-66. The storage is the item `COIN_FEE` (38-39). -/
def instantiate (valid : Addr → Bool) (owner : Addr) (fee : Coin) : Res (Ownable.State × Coin) := do
  ensure (valid owner) "invalid address"
  return (Ownable.init owner, fee)

/-- `SetFee` and `Claim`, lib.rs 84-112, and `PostDispatch`, lib.rs 114-129. The recipient of a claim is an
`Option<Addr>`, i.e. not validated. -/
def part (e : HookEnv) (own : Ownable.State) (fee : Coin) (sender : Addr) (funds : List Coin) :
    Msg → Res (Coin × Response)
  | .setFee f => do
    onlyOwner own sender
    return (f, {})
  | .claim recipient => do
    let o ← Ownable.getOwner own
    ensure (decide (o = sender)) "unauthorized"
    return (fee, { msgs := [.bankSend (recipient.getD o) e.balances] })
  | .postDispatch _ _ => do
    let supplied ← mustPay funds fee.denom
    ensure (decide (fee.amount ≤ supplied)) "insufficient funds"
    return (fee, {})

/-- `execute`, lib.rs 75-131. -/
def execute : Ownable.State × Coin → ExecCall HookEnv Msg → Res ((Ownable.State × Coin) × Response) :=
  execOwned HookEnv.valid part

/-- `quote_dispatch`, lib.rs 151-154. -/
def quoteDispatch (s : Ownable.State × Coin) : List Coin := [s.2]

/-- `get_fee`, lib.rs 68-72. -/
def getFee (s : Ownable.State × Coin) : Coin := s.2

end FeeHook

/-! ## `/repo/contracts/hooks/pausable/src/lib.rs` -/

namespace PausableHook

/-- `ExecuteMsg` without ownership. -/
inductive Msg where
  | pausable (m : Pausable.Msg)
  | postDispatch (metadata message : Bytes)

/-- `instantiate`, lib.rs 41-59. -/
def instantiate (valid : Addr → Bool) (owner : Addr) (paused : Bool) : Res (Ownable.State × Bool) := do
  ensure (valid owner) "invalid address"
  return (Ownable.init owner, paused)

/-- lib.rs 70-79. -/
def part (_ : HookEnv) (own : Ownable.State) (paused : Bool) (sender : Addr) (_ : List Coin) :
    Msg → Res (Bool × Response)
  | .pausable m => do
    let p ← Pausable.handle own paused sender m
    return (p, {})
  | .postDispatch _ _ => do
    ensure (!paused) "paused"
    return (paused, {})

/-- `execute`, lib.rs 62-81. -/
def execute : Ownable.State × Bool → ExecCall HookEnv Msg → Res ((Ownable.State × Bool) × Response) :=
  execOwned HookEnv.valid part

/-- `quote_dispatch`, lib.rs 101-103. -/
def quoteDispatch : List Coin := []

end PausableHook

/-! ## `/repo/contracts/hooks/aggregate/src/lib.rs` -/

namespace AggregateHook

/-- `ExecuteMsg` without ownership. -/
inductive Msg where
  | setHooks (hooks : List Addr)
  | postDispatch (metadata message : Bytes)

/-- `instantiate`, lib.rs 49-74. The storage is the item `HOOKS`. -/
def instantiate (valid : Addr → Bool) (owner : Addr) (hooks : List Addr) :
    Res (Ownable.State × List Addr) := do
  ensure (valid owner) "invalid address"
  ensure (hooks.all valid) "invalid address"
  return (Ownable.init owner, hooks)

/-- The `map` over the hooks at lib.rs 89-104. -/
def postAll (quote : Addr → Bytes → Bytes → Res (List Coin)) (metadata message : Bytes) :
    List Addr → Res (List OutMsg)
  | [] => .ok []
  | h :: t => do
    let fees ← quote h metadata message
    let rest ← postAll quote metadata message t
    return .execute h (.postDispatch metadata message) fees :: rest

/-- lib.rs 85-132. -/
def part (e : HookEnv) (own : Ownable.State) (hooks : List Addr) (sender : Addr) (_ : List Coin) :
    Msg → Res (List Addr × Response)
  | .setHooks l => do
    onlyOwner own sender
    ensure (l.all e.valid) "invalid address"
    return (l, {})
  | .postDispatch metadata message => do
    let msgs ← postAll e.quote metadata message hooks
    let _ ← Message.decode message
    return (hooks, { msgs := msgs })

/-- `execute`, lib.rs 77-134. -/
def execute : Ownable.State × List Addr → ExecCall HookEnv Msg →
    Res ((Ownable.State × List Addr) × Response) := execOwned HookEnv.valid part

/-- The `try_fold` of `quote_dispatch`, lib.rs 165-180. -/
def quoteFold (quote : Addr → Bytes → Bytes → Res (List Coin)) (metadata message : Bytes) :
    Coins → List Addr → Res Coins
  | acc, [] => .ok acc
  | acc, h :: t => do
    let fees ← quote h metadata message
    let acc' ← Coins.addAll acc fees
    quoteFold quote metadata message acc' t

/-- `quote_dispatch`, lib.rs 158-185. -/
def quoteDispatch (quote : Addr → Bytes → Bytes → Res (List Coin)) (s : Ownable.State × List Addr)
    (metadata message : Bytes) : Res (List Coin) := do
  let total ← quoteFold quote metadata message OMap.empty s.2
  return Coins.toVec total

/-- `get_hooks`, lib.rs 187-195. -/
def getHooks (s : Ownable.State × List Addr) : List Addr := s.2

end AggregateHook

/-! ## `/repo/contracts/hooks/routing/src/lib.rs` -/

/-- `Message::from(message)` of which only destination and recipient are used, and `wasm_execute(routed_hook,
&req.wrap(), vec![])` (`/repo/contracts/hooks/routing/src/lib.rs` 131, routing-fallback 134, routing-custom 292). -/
def forwardTo (hook : Addr) (metadata message : Bytes) : Response :=
  { msgs := [.execute hook (.postDispatch metadata message) []] }

namespace RoutingHook

/-- `ExecuteMsg` without ownership. -/
inductive Msg where
  | router (m : Router.Msg Addr)
  | postDispatch (metadata message : Bytes)

/-- `instantiate`, lib.rs 45-62. -/
def instantiate (valid : Addr → Bool) (owner : Addr) : Res (Ownable.State × Router.State Addr) := do
  ensure (valid owner) "invalid address"
  return (Ownable.init owner, OMap.empty)

/-- `ok_or(ContractError::RouteNotFound(dest_domain))`, lib.rs 117-119. -/
def found (o : Option Addr) : Res Addr :=
  match o with
  | some a => .ok a
  | none => .error (.err "route not found")

/-- `route`, lib.rs 112-122. -/
def route (s : Router.State Addr) (message : Bytes) : Res Addr := do
  let msg ← Message.decode message
  found (Router.getRoute s msg.dest)

/-- lib.rs 73-74 and `post_dispatch`, 124-139. -/
def part (_ : HookEnv) (own : Ownable.State) (s : Router.State Addr) (sender : Addr) (_ : List Coin) :
    Msg → Res (Router.State Addr × Response)
  | .router m => do
    let s' ← Router.handle own s sender m
    return (s', {})
  | .postDispatch metadata message => do
    let hook ← route s message
    return (s, forwardTo hook metadata message)

/-- `execute`, lib.rs 65-76. -/
def execute : Ownable.State × Router.State Addr → ExecCall HookEnv Msg →
    Res ((Ownable.State × Router.State Addr) × Response) := execOwned HookEnv.valid part

/-- `quote_dispatch`, lib.rs 96-110. -/
def quoteDispatch (quote : Addr → Bytes → Bytes → Res (List Coin))
    (s : Ownable.State × Router.State Addr) (metadata message : Bytes) : Res (List Coin) := do
  let hook ← route s.2 message
  quote hook metadata message

end RoutingHook

/-! ## `/repo/contracts/hooks/routing-fallback/src/lib.rs` -/

namespace FallbackHook

/-- Routes and the item `FALLBACK_HOOK`, lib.rs 39-40. -/
structure State where
  routes : Router.State Addr
  fallback : Option Addr

/-- `ExecuteMsg` without ownership. -/
inductive Msg where
  | router (m : Router.Msg Addr)
  | setFallback (hook : Addr)
  | postDispatch (metadata message : Bytes)

/-- `instantiate`, lib.rs 47-64: the fallback hook is not set. -/
def instantiate (valid : Addr → Bool) (owner : Addr) : Res (Ownable.State × State) := do
  ensure (valid owner) "invalid address"
  return (Ownable.init owner, ⟨OMap.empty, none⟩)

/-- `FALLBACK_HOOK.load(storage)?`, lib.rs 119. -/
def loadFallback (s : State) : Res Addr :=
  match s.fallback with
  | some a => .ok a
  | none => .error (.err "not found")

/-- `route`, lib.rs 115-125: the fallback hook is loaded first, so it must be set even if a route exists. -/
def route (s : State) (message : Bytes) : Res Addr := do
  let msg ← Message.decode message
  let fallback ← loadFallback s
  return (Router.getRoute s.routes msg.dest).getD fallback

/-- lib.rs 75-93 and `post_dispatch`, 127-142. -/
def part (e : HookEnv) (own : Ownable.State) (s : State) (sender : Addr) (_ : List Coin) :
    Msg → Res (State × Response)
  | .router m => do
    let r ← Router.handle own s.routes sender m
    return ({ s with routes := r }, {})
  | .setFallback h => do
    onlyOwner own sender
    ensure (e.valid h) "invalid address"
    return ({ s with fallback := some h }, {})
  | .postDispatch metadata message => do
    let hook ← route s message
    return (s, forwardTo hook metadata message)

/-- `execute`, lib.rs 67-95. -/
def execute : Ownable.State × State → ExecCall HookEnv Msg →
    Res ((Ownable.State × State) × Response) := execOwned HookEnv.valid part

/-- `quote_dispatch`, lib.rs 144-158. -/
def quoteDispatch (quote : Addr → Bytes → Bytes → Res (List Coin))
    (s : Ownable.State × State) (metadata message : Bytes) : Res (List Coin) := do
  let hook ← route s.2 message
  quote hook metadata message

end FallbackHook

/-! ## `/repo/contracts/hooks/routing-custom/src/lib.rs` -/

/-- Value of a hex digit. -/
def hexDigit (c : Char) : Option Nat :=
  let n := c.toNat
  if 48 ≤ n ∧ n ≤ 57 then some (n - 48)
  else if 97 ≤ n ∧ n ≤ 102 then some (n - 87)
  else if 65 ≤ n ∧ n ≤ 70 then some (n - 55)
  else none

/-- Bytes of pairs of hex digits. -/
def hexBytes : List Char → Option Bytes
  | [] => some []
  | [_] => none
  | a :: b :: t =>
    match hexDigit a, hexDigit b, hexBytes t with
    | some x, some y, some r => some (UInt8.ofNat (16 * x + y) :: r)
    | _, _, _ => none

/-- `HexBinary::from_hex` (library: `hex::decode`, upper and lower case). -/
def fromHexString (s : String) : Res Bytes :=
  match hexBytes s.toList with
  | some b => .ok b
  | none => .error (.err "invalid hex")

namespace CustomHook

/-- Key `(u32, Vec<u8>)` of `CUSTOM_HOOKS`, lib.rs 49-50. -/
abbrev Key := UInt32 ×ₗ Bytes

/-- Routes and `CUSTOM_HOOKS`. -/
structure State where
  routes : Router.State Addr
  custom : OMap Key Addr

/-- `RegisterCustomHookMsg`, `/repo/packages/interface/src/hook/routing_custom.rs` 17-22. -/
structure Registration where
  dest : UInt32
  recipient : String
  hook : Addr

/-- `ClearCustomHookMsg`, routing_custom.rs 24-28. -/
structure Clearing where
  dest : UInt32
  recipient : String

/-- `ExecuteMsg` without ownership; the singular variants of registering and clearing are passed on as lists of
length one (lib.rs 88-92). -/
inductive Msg where
  | router (m : Router.Msg Addr)
  | register (l : List Registration)
  | clear (l : List Clearing)
  | postDispatch (metadata message : Bytes)

/-- `instantiate`, lib.rs 57-74. -/
def instantiate (valid : Addr → Bool) (owner : Addr) : Res (Ownable.State × State) := do
  ensure (valid owner) "invalid address"
  return (Ownable.init owner, ⟨OMap.empty, OMap.empty⟩)

/-- The loop of `register`, lib.rs 186-204. -/
def registerAll (valid : Addr → Bool) : OMap Key Addr → List Registration → Res (OMap Key Addr)
  | m, [] => .ok m
  | m, r :: t => do
    let b ← fromHexString r.recipient
    ensure (decide (b.length = 32)) "recipient must be 32 bytes long"
    ensure (valid r.hook) "invalid address"
    registerAll valid (m.insert (toLex (r.dest, b)) r.hook) t

/-- The loop of `clear`, lib.rs 237-245. -/
def clearAll : OMap Key Addr → List Clearing → Res (OMap Key Addr)
  | m, [] => .ok m
  | m, r :: t => do
    let b ← fromHexString r.recipient
    clearAll (m.erase (toLex (r.dest, b))) t

/-- The tail of `route`, lib.rs 271-282. -/
def pick (s : State) (msg : Message) : Res Addr :=
  match s.custom.get (toLex (msg.dest, msg.recipient)) with
  | some h => .ok h
  | none => RoutingHook.found (Router.getRoute s.routes msg.dest)

/-- `route`, lib.rs 267-283. -/
def route (s : State) (message : Bytes) : Res Addr := do
  let msg ← Message.decode message
  pick s msg

/-- lib.rs 85-92, `register` 175-224, `clear` 226-265, `post_dispatch` 285-300. -/
def part (e : HookEnv) (own : Ownable.State) (s : State) (sender : Addr) (_ : List Coin) :
    Msg → Res (State × Response)
  | .router m => do
    let r ← Router.handle own s.routes sender m
    return ({ s with routes := r }, {})
  | .register l => do
    onlyOwner own sender
    let m ← registerAll e.valid s.custom l
    return ({ s with custom := m }, {})
  | .clear l => do
    onlyOwner own sender
    let m ← clearAll s.custom l
    return ({ s with custom := m }, {})
  | .postDispatch metadata message => do
    let hook ← route s message
    return (s, forwardTo hook metadata message)

/-- `execute`, lib.rs 77-94. -/
def execute : Ownable.State × State → ExecCall HookEnv Msg →
    Res ((Ownable.State × State) × Response) := execOwned HookEnv.valid part

/-- `quote_dispatch`, lib.rs 302-316. -/
def quoteDispatch (quote : Addr → Bytes → Bytes → Res (List Coin))
    (s : Ownable.State × State) (metadata message : Bytes) : Res (List Coin) := do
  let hook ← route s.2 message
  quote hook metadata message

/-- `get_custom_hook`, lib.rs 126-140 (the hook of the answer). -/
def getCustomHook (s : Ownable.State × State) (dest : UInt32) (recipient : String) : Res Addr := do
  let b ← fromHexString recipient
  RoutingHook.found (s.2.custom.get (toLex (dest, b)))

end CustomHook

end Hpl
