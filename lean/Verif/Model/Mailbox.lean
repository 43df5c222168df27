import Verif.Model.Bech32
import Verif.Model.Message
import Verif.Model.Msg
import Verif.Model.Packages

/-! # Mailbox (`/repo/contracts/core/mailbox/src`) -/

namespace Hpl.Mailbox

/-- `MAILBOX_VERSION`, lib.rs 10. -/
def version : UInt8 := 3

/-- `Config`, state.rs 5-13. -/
structure Config where
  hrp : String
  localDomain : UInt32
  defaultIsm : Option Addr
  defaultHook : Option Addr
  requiredHook : Option Addr
deriving DecidableEq, Repr

/-- `Delivery`, state.rs 49-53. -/
structure Delivery where
  sender : Addr
  block : Nat
deriving DecidableEq, Repr

/-- Storage: `CONFIG`, `NONCE`, `LATEST_DISPATCHED_ID`, `DELIVERIES` (state.rs 55-65) and the ownership items. -/
structure State where
  config : Config
  own : Ownable.State
  nonce : UInt32
  latest : Option Bytes
  deliveries : OMap Bytes Delivery

/-- What the world outside the mailbox answers during one call: address validation, block height, the fee quotes of
hooks (`hook::quote_dispatch`), the ISM a recipient names (`ism::recipient`) and the verdicts of ISMs
(`ism::verify`). A failing query is an error. Different calls may see different answers. -/
structure Env where
  valid : Addr → Bool
  height : Nat
  quote : Addr → Bytes → Bytes → Res (List Coin)
  recipientIsm : Addr → Res (Option Addr)
  verify : Addr → Bytes → Bytes → Res Bool

/-- `ExecuteMsg`, `/repo/packages/interface/src/core/mailbox.rs` 80-104. -/
inductive Msg where
  | ownable (m : Ownable.Msg)
  | setDefaultIsm (ism : Addr)
  | setDefaultHook (hook : Addr)
  | setRequiredHook (hook : Addr)
  | dispatch (m : DispatchMsg)
  | process (metadata message : Bytes)

/-- One execute call. -/
structure Call where
  env : Env
  sender : Addr
  funds : List Coin
  msg : Msg

/-- `expect("... not set")`, state.rs 36-46. -/
def expectSet (o : Option Addr) : Res Addr :=
  match o with
  | some a => .ok a
  | none => .error (.panic "not set")

/-- `instantiate`, contract.rs 18-48. `lower` is `char::is_lowercase`; the cw2 version item is in
`Verif/Model/Packages.lean`. -/
def instantiate (lower : Char → Bool) (valid : Addr → Bool) (hrp : String) (domain : UInt32)
    (owner : Addr) : Res State := do
  ensure (hrp.toList.all lower) "hrp must be lowercase"
  ensure (valid owner) "invalid address"
  return {
    config := ⟨hrp, domain, none, none, none⟩
    own := Ownable.init owner
    nonce := 0
    latest := none
    deliveries := OMap.empty }

/-- `set_default_ism`, execute.rs 26-47. -/
def setDefaultIsm (valid : Addr → Bool) (s : State) (sender ism : Addr) : Res State := do
  let o ← Ownable.getOwner s.own
  ensure (decide (o = sender)) "unauthorized"
  ensure (valid ism) "invalid address"
  return { s with config := { s.config with defaultIsm := some ism } }

/-- `set_default_hook`, execute.rs 49-70. -/
def setDefaultHook (valid : Addr → Bool) (s : State) (sender hook : Addr) : Res State := do
  let o ← Ownable.getOwner s.own
  ensure (decide (o = sender)) "unauthorized"
  ensure (valid hook) "invalid address"
  return { s with config := { s.config with defaultHook := some hook } }

/-- `set_required_hook`, execute.rs 72-93. -/
def setRequiredHook (valid : Addr → Bool) (s : State) (sender hook : Addr) : Res State := do
  let o ← Ownable.getOwner s.own
  ensure (decide (o = sender)) "unauthorized"
  ensure (valid hook) "invalid address"
  return { s with config := { s.config with requiredHook := some hook } }

/-- `DispatchMsg::to_msg`, `/repo/packages/interface/src/core/mailbox.rs` 52-68. -/
def toMsg (C : Codec) (m : DispatchMsg) (version : UInt8) (nonce origin : UInt32) (sender : Addr) :
    Res Message := do
  let s ← bech32ToH256 C sender
  return {
    version := version
    nonce := nonce
    origin := origin
    sender := s
    dest := m.dest
    recipient := m.recipient
    body := m.body }

/-- `DispatchMsg::get_hook_addr`, `/repo/packages/interface/src/core/mailbox.rs` 70-77. -/
def getHookAddr (valid : Addr → Bool) (m : DispatchMsg) (dflt : Addr) : Res Addr :=
  match m.hook with
  | none => .ok dflt
  | some h => do
    ensure (valid h) "invalid address"
    return h

/-- `nonce + 1` with overflow check. -/
def nonceSucc (n : UInt32) : Res UInt32 :=
  if n.toNat + 1 < 2 ^ 32 then .ok (n + 1) else .error (.panic "add overflow")

/-- The fee loop, execute.rs 127-135: every failure becomes `HookPayment`. -/
def payFees (attached : Coins) (fees : List Coin) : Res Coins :=
  match Coins.subAll attached fees with
  | .ok r => .ok r
  | .error _ => .error (.err "hook payment")

/-- `dispatch`, execute.rs 95-154. -/
def dispatch (H : Bytes → Bytes) (C : Codec) (env : Env) (s : State) (sender : Addr)
    (funds : List Coin) (m : DispatchMsg) : Res (State × Response) := do
  ensure (decide (m.recipient.length = 32)) "invalid address length"
  let msg ← toMsg C m version s.nonce s.config.localDomain sender
  let metadata := m.metadata.getD []
  let dflt ← expectSet s.config.defaultHook
  let hook ← getHookAddr env.valid m dflt
  let required ← expectSet s.config.requiredHook
  let fees ← env.quote required metadata msg.encode
  let attached ← Coins.tryFrom funds
  let rest ← payFees attached fees
  let id := msg.id H
  let n ← nonceSucc s.nonce
  return ({ s with nonce := n, latest := some id },
    { msgs := [.execute required (.postDispatch metadata msg.encode) fees,
               .execute hook (.postDispatch metadata msg.encode) (Coins.toVec rest)]
      events := [.dispatchId id, .dispatch msg.sender msg.dest msg.recipient msg.encode]
      data := some id })

/-- `process`, execute.rs 156-226. `unwrap_or(config.get_default_ism())` evaluates its argument first, so an unset
default ISM panics whatever the recipient answers. -/
def process (H : Bytes → Bytes) (C : Codec) (env : Env) (s : State) (sender : Addr)
    (metadata message : Bytes) : Res (State × Response) := do
  let msg ← Message.decode message
  let recipient ← bech32Encode C s.config.hrp msg.recipient
  ensure (decide (msg.version = version)) "invalid message version"
  ensure (decide (msg.dest = s.config.localDomain)) "invalid destination domain"
  let id := msg.id H
  let named ← env.recipientIsm recipient
  let dflt ← expectSet s.config.defaultIsm
  let ism := named.getD dflt
  ensure (!s.deliveries.has id) "message already delivered"
  let verified ← env.verify ism metadata msg.encode
  ensure verified "verify failed"
  return ({ s with deliveries := s.deliveries.insert id ⟨sender, env.height⟩ },
    { msgs := [.execute recipient (.handle msg.origin msg.sender msg.body) []]
      events := [.processId id, .process msg.origin msg.sender msg.recipient] })

/-- `execute`, contract.rs 51-70. Events of the configuration calls are dropped. -/
def execute (H : Bytes → Bytes) (C : Codec) (s : State) (c : Call) : Res (State × Response) :=
  match c.msg with
  | .ownable m => do
    let o ← Ownable.handle c.env.valid s.own c.sender m
    return ({ s with own := o }, {})
  | .setDefaultIsm a => do
    let s' ← setDefaultIsm c.env.valid s c.sender a
    return (s', {})
  | .setDefaultHook a => do
    let s' ← setDefaultHook c.env.valid s c.sender a
    return (s', {})
  | .setRequiredHook a => do
    let s' ← setRequiredHook c.env.valid s c.sender a
    return (s', {})
  | .dispatch m => dispatch H C c.env s c.sender c.funds m
  | .process metadata message => process H C c.env s c.sender metadata message

/-- `get_delivered`, query.rs 55-59. -/
def getDelivered (s : State) (id : Bytes) : Bool := s.deliveries.has id

/-- `get_nonce`, query.rs 61-65. -/
def getNonce (s : State) : UInt32 := s.nonce

/-- `get_latest_dispatch_id`, query.rs 80-86. -/
def getLatestDispatchId (s : State) : Res Bytes :=
  match s.latest with
  | some i => .ok i
  | none => .error (.err "not found")

/-- `get_default_ism`, `get_default_hook`, `get_required_hook`, query.rs 31-53. -/
def getDefaultIsm (s : State) : Res Addr := expectSet s.config.defaultIsm
/-- query.rs 39-45. -/
def getDefaultHook (s : State) : Res Addr := expectSet s.config.defaultHook
/-- query.rs 47-53. -/
def getRequiredHook (s : State) : Res Addr := expectSet s.config.requiredHook

/-- `get_recipient_ism`, query.rs 67-78. -/
def getRecipientIsm (env : Env) (s : State) (recipient : Addr) : Res Addr := do
  let dflt ← expectSet s.config.defaultIsm
  ensure (env.valid recipient) "invalid address"
  let named ← env.recipientIsm recipient
  return named.getD dflt

/-- `quote_dispatch`, query.rs 88-132. -/
def quoteDispatch (C : Codec) (env : Env) (s : State) (sender : Addr) (m : DispatchMsg) :
    Res (List Coin) := do
  ensure (env.valid sender) "invalid address"
  let msg ← toMsg C m version s.nonce s.config.localDomain sender
  let dflt ← expectSet s.config.defaultHook
  let required ← expectSet s.config.requiredHook
  let hook ← getHookAddr env.valid m dflt
  let base ← env.quote hook (m.metadata.getD []) msg.encode
  let req ← env.quote required (m.metadata.getD []) msg.encode
  let b ← Coins.tryFrom base
  let total ← Coins.addAll b req
  return Coins.toVec total

end Hpl.Mailbox
