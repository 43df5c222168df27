import Verif.Model.Igp
import Verif.Model.Mailbox
import Verif.Model.Proto
import Verif.Model.Schema
import Verif.Model.Tx
import Verif.Model.Va
import Verif.Model.Warp

/-! # Events as texts

The events off-chain agents read: of the mailbox, the merkle hook, the paymaster, the validator announce contract and the
token routers. A call that fails emits nothing. The chain adds the address of the contract and a prefix to the type, which is
left out. -/

namespace Hpl

/-- `cosmwasm_std::Event`: type and attributes. -/
structure TextEvent where
  ty : String
  attrs : List (String × String)
deriving DecidableEq, Repr

namespace Events

/-- `to_string` of unsigned integers. -/
def number (n : Nat) : String := n.repr

/-- `HexBinary::to_hex`, also what `to_string` gives. -/
def hex (b : Bytes) : String := Schema.toHex b

/-- A step that also gives the events of the call. `ev` sees the state before the call and its response. -/
def logged {σ ι ρ : Type} (step : σ → ι → Res (σ × ρ)) (ev : σ → ι → ρ → List TextEvent) (s : σ) (c : ι) :
    Res (σ × (ρ × List TextEvent)) := do
  let p ← step s c
  return (p.1, (p.2, ev s c p.2))

/-- All events of a log, in order. -/
def all {ι ρ : Type} (log : List (ι × (ρ × List TextEvent))) : List TextEvent := log.flatMap (fun e => e.2.2)

/-! ## `/repo/packages/ownable/src/lib.rs` -/

/-- lib.rs 21-23, 80-82, 99, 117. -/
def ownable (sender : Addr) : Ownable.Msg → TextEvent
  | .initTransfer next => ⟨"hpl_ownable::init", [("owner", sender), ("next_owner", next)]⟩
  | .revoke => ⟨"hpl_ownable::revoke", [("owner", sender)]⟩
  | .claim => ⟨"hpl_ownable::claim", [("owner", sender)]⟩

/-! ## `/repo/packages/router/src/lib.rs` -/

/-- `serde_json_wasm::to_string` of a `DomainRouteSet`; `text` is the text a route is written as. -/
def routeJson {τ : Type} (text : τ → String) (set : UInt32 × Option τ) : Json :=
  .obj [("domain", .num set.1.toNat), ("route", match set.2 with | none => .null | some r => .str (text r))]

/-- lib.rs 24-26, 76-82, 101-107. -/
def router {τ : Type} (text : τ → String) (sender : Addr) : Router.Msg τ → TextEvent
  | .setRoute set =>
    ⟨"hpl_router::set_route", [("sender", sender), ("set", String.ofList (routeJson text set).print)]⟩
  | .setRoutes sets =>
    ⟨"hpl_router::set_routes", [("sender", sender), ("set", String.ofList (Json.arr (sets.map (routeJson text))).print)]⟩

/-! ## `/repo/packages/connection/src/lib.rs` -/

/-- lib.rs 23-25, 47-49, 56-58, 65-67. -/
def connection : Connection.Msg → TextEvent
  | .setMailbox a => ⟨"hpl_connection::set_mailbox", [("mailbox", a)]⟩
  | .setIsm a => ⟨"hpl_connection::set_ism", [("ism", a)]⟩
  | .setHook a => ⟨"hpl_connection::set_hook", [("hook", a)]⟩

/-! ## `/repo/contracts/core/mailbox/src/event.rs` -/

/-- `emit_dispatch_id`, event.rs 26-28; `emit_dispatch`, 30-36; `emit_process_id`, 38-40; `emit_process`, 42-47. -/
def ofMailbox : Event → TextEvent
  | .dispatchId id => ⟨"mailbox_dispatch_id", [("message_id", hex id)]⟩
  | .dispatch sender dest recipient message => ⟨"mailbox_dispatch",
      [("sender", hex sender), ("destination", number dest.toNat), ("recipient", hex recipient), ("message", hex message)]⟩
  | .processId id => ⟨"mailbox_process_id", [("message_id", hex id)]⟩
  | .process origin sender recipient => ⟨"mailbox_process",
      [("origin", number origin.toNat), ("sender", hex sender), ("recipient", hex recipient)]⟩

/-- The events of a successful call: `emit_default_ism_set`, `emit_default_hook_set`, `emit_required_hook_set` (event.rs 8-24,
with the arguments of execute.rs 38, 61, 84), those of the ownable package, and those in the response. -/
def mailbox (_ : Mailbox.State) (c : Mailbox.Call) (r : Response) : List TextEvent :=
  match c.msg with
  | .ownable m => [ownable c.sender m]
  | .setDefaultIsm a => [⟨"mailbox_default_ism_set", [("owner", c.sender), ("new_default_ism", a)]⟩]
  | .setDefaultHook a => [⟨"mailbox_default_hook_set", [("owner", c.sender), ("new_default_hook", a)]⟩]
  | .setRequiredHook a => [⟨"mailbox_required_hook_set", [("owner", c.sender), ("new_required_hook", a)]⟩]
  | .dispatch _ => r.events.map ofMailbox
  | .process _ _ => r.events.map ofMailbox

/-! ## `/repo/contracts/hooks/merkle/src/lib.rs` -/

/-- The id of the decoded message; a call with an undecodable one fails. -/
def messageId (H : Bytes → Bytes) (message : Bytes) : Bytes :=
  match Message.decode message with
  | .ok m => m.id H
  | .error _ => []

/-- lib.rs 110-119; `index` is the count before the insertion. -/
def merkle (H : Bytes → Bytes) (_ : MerkleHook.State) (c : MerkleHook.Call) (index : Nat) : List TextEvent :=
  [⟨"hpl_hook_merkle::post_dispatch", [("message_id", hex (messageId H c.message)), ("index", number index)]⟩,
   ⟨"hpl_hook_merkle::inserted_into_tree", [("index", number index)]⟩]

/-! ## `/repo/contracts/igps/core/src/event.rs` -/

/-- `emit_pay_for_gas`, event.rs 62-80. -/
def payForGas (sender : Addr) (dest : UInt32) (id : Bytes) (gas refunded required payment : Nat) : TextEvent :=
  ⟨"igp-core-pay-for-gas",
    [("sender", sender), ("dest_domain", number dest.toNat), ("message_id", hex id), ("gas_amount", number gas),
     ("gas_refunded", number refunded), ("gas_required", number required), ("payment", number payment)]⟩

/-- `emit_post_dispatch`, event.rs 49-60. -/
def postDispatch (metadata message : Bytes) : TextEvent :=
  ⟨"igp-core-post-dispatch",
    [("metadata", if metadata = [] then "0x" else hex metadata), ("message", hex message)]⟩

/-- The numbers of `pay_for_gas`, execute.rs 151-153 and 162 and 174-182, computed again; the call succeeded. -/
def payment (e : IgpEnv) (s : Igp.State) (sender : Addr) (funds : List Coin) (id : Bytes) (dest : UInt32) (gas : Nat) :
    List TextEvent :=
  match mustPay funds s.gasToken, Igp.quoteGasPrice e.oracle s dest gas with
  | .ok received, .ok needed => [payForGas sender dest id gas (received - needed) needed received]
  | _, _ => []

/-- `post_dispatch`, execute.rs 110-141: id, destination and gas amount are taken from message and metadata. -/
def paymentFor (C : Codec) (H : Bytes → Bytes) (e : IgpEnv) (s : Igp.State) (sender : Addr) (funds : List Coin)
    (metadata message : Bytes) : List TextEvent :=
  match Message.decode message with
  | .error _ => []
  | .ok m =>
    match Igp.gasAndRefund C s metadata m with
    | .error _ => []
    | .ok g => payment e s sender funds (m.id H) m.dest g.1

/-- `collect::<Vec<_>>().join(",")` of domains, event.rs 14-20 and 28-33. -/
def domains (l : List UInt32) : String := ",".intercalate (l.map (fun d => number d.toNat))

/-- The events of the paymaster: `emit_set_default_gas`, event.rs 3-7; `emit_set_gas_for_domain`, 9-21;
`emit_unset_gas_for_domain`, 23-34; `emit_set_beneficiary`, 36-40; `emit_claim`, 42-46; those of payments, and those of the
ownable and the router package (routes to gas oracles). -/
def igp (C : Codec) (H : Bytes → Bytes) (s : Ownable.State × Igp.State) (c : ExecCall IgpEnv Igp.Msg) (_ : Response) :
    List TextEvent :=
  match c.msg with
  | .inl m => [ownable c.sender m]
  | .inr (.router m) => [router id c.sender m]
  | .inr (.setDefaultGas gas) => [⟨"igp-core-set-default-gas", [("owner", c.sender), ("default-gas", number gas)]⟩]
  | .inr (.setGasForDomain l) =>
    [⟨"igp-core-set-gas-for-domain", [("owner", c.sender), ("domains", domains (l.map Prod.fst))]⟩]
  | .inr (.unsetGasForDomain l) => [⟨"igp-core-unset-gas-for-domain", [("owner", c.sender), ("domains", domains l)]⟩]
  | .inr (.setBeneficiary a) => [⟨"igp-core-set-beneficiary", [("owner", c.sender), ("beneficiary", a)]⟩]
  | .inr (.payForGas id dest gas _) => payment c.env s.2 c.sender c.funds id dest gas
  | .inr (.postDispatch metadata message) =>
    paymentFor C H c.env s.2 c.sender c.funds metadata message ++ [postDispatch metadata message]
  | .inr .claim => [⟨"igp-core-claim",
      [("beneficiary", s.2.beneficiary), ("collected", number (c.env.balance s.2.gasToken) ++ s.2.gasToken)]⟩]

/-! ## `/repo/contracts/core/va/src/contract.rs` -/

/-- `ExecuteMsg::Announce`, with the location as the text it is; the model of the contract keeps its bytes. -/
structure Announce where
  sender : Addr
  validator : Bytes
  location : String
  signature : Bytes

/-- `announce`, contract.rs 153-216. -/
def announce (H : Bytes → Bytes) (R : Recover) (s : Va.State) (c : Announce) : Res (Va.State × Unit) :=
  Va.announce H R s ⟨c.sender, c.validator, Proto.utf8 c.location, c.signature⟩

/-- contract.rs 210-215. -/
def announcement (_ : Va.State) (c : Announce) (_ : Unit) : List TextEvent :=
  [⟨"validator-announcement", [("sender", c.sender), ("validator", hex c.validator), ("storage-location", c.location)]⟩]

/-! ## `/repo/contracts/warp/{native,cw20}/src/contract.rs` -/

/-- `new_event` of the two routers, native/src/lib.rs 33-35 and cw20/src/lib.rs 32-34, and whether the destination is an
attribute (cw20/src/contract.rs 248). -/
structure WarpNames where
  name : String
  withDest : Bool

def warpNative : WarpNames := ⟨"hpl_warp_native::", false⟩
def warpCw20 : WarpNames := ⟨"hpl_warp_cw20::", true⟩

/-- native/src/contract.rs 189-194, cw20/src/contract.rs 176-181. The recipient of a transfer that cannot be read is that of a
failing call. -/
def warpHandle (n : WarpNames) (C : Codec) (s : Warp.State) (body : Bytes) : List TextEvent :=
  match WarpMessage.decode body with
  | .error _ => []
  | .ok m =>
    match bech32Encode C s.hrp m.recipient with
    | .error _ => []
    | .ok recipient => [⟨n.name ++ "handle",
        [("recipient", recipient), ("token", s.token.getD ""), ("amount", number m.amount)]⟩]

/-- native/src/contract.rs 259-267, cw20/src/contract.rs 245-254. -/
def warpTransfer (n : WarpNames) (s : Warp.State) (sender : Addr) (dest : UInt32) (recipient : Bytes) (amount : Nat)
    (hook : Option Addr) (metadata : Option Bytes) : TextEvent :=
  ⟨n.name ++ "transfer-remote",
    [("sender", sender)] ++ (if n.withDest then [("dest_domain", number dest.toNat)] else []) ++
    [("recipient", hex recipient), ("token", s.token.getD ""), ("amount", number amount), ("hook", hook.getD ""),
     ("metadata", hex (metadata.getD []))]⟩

/-- The events of the token routers. -/
def warp (n : WarpNames) (C : Codec) (s : Ownable.State × Warp.State) (c : ExecCall (Addr → Bool) Warp.Msg) (_ : Response) :
    List TextEvent :=
  match c.msg with
  | .inl m => [ownable c.sender m]
  | .inr (.router m) => [router hex c.sender m]
  | .inr (.connection m) => [connection m]
  | .inr (.handle _ _ body) => warpHandle n C s.2 body
  | .inr (.transferRemote dest recipient amount hook metadata) =>
    [warpTransfer n s.2 c.sender dest recipient amount hook metadata]

end Events

end Hpl
