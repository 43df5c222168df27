import Verif.Model.Deploy
import Verif.Model.EventsOthers
import Verif.Model.Interface
import Verif.Model.Va

/-! # Making contracts

The messages with which contracts are made, as types of texts, and the events of making them: `instantiate` of every contract
and `reply` of the token routers. A response without an event but with attributes is the event `wasm` of the chain. -/

namespace Hpl.Start

open Interface Events

/-! ## Messages -/

/-- `native::DenomUnit`, `/repo/packages/interface/src/warp/native.rs` 14-23; the exponent is written with `as_str`. -/
def denomUnitTy : Ty := st [("denom", .text), ("exponent", .decimal 32), ("aliases", .list .text)]

/-- `native::Metadata`, native.rs 25-33. -/
def metadataTy : Ty := st [("description", .text), ("denom_units", .list denomUnitTy), ("base", .text), ("display", .text),
  ("name", .text), ("symbol", .text)]

/-- `NativeModeBriged` and `NativeModeCollateral`, native.rs 35-44, in `TokenModeMsg`,
`/repo/packages/interface/src/warp/mod.rs` 22-26. -/
def nativeTokenTy : Ty := en [
  ("Bridged", st [("denom", .text), ("metadata", .opt metadataTy)]),
  ("Collateral", st [("denom", .text)])]

/-- `cw20_base::msg::InstantiateMsg` (a dependency). Embedded logos are left out: the only logo is a link. -/
def cw20InitTy : Ty := st [("name", .text), ("symbol", .text), ("decimals", u8),
  ("initial_balances", .list (st [("address", .text), ("amount", uint128)])),
  ("mint", .opt (st [("minter", .text), ("cap", .opt uint128)])),
  ("marketing", .opt (st [("project", .opt .text), ("description", .opt .text), ("marketing", .opt .text),
    ("logo", .opt (en [("Url", .text)]))]))]

/-- `Cw20ModeBridged` and `Cw20ModeCollateral`, `/repo/packages/interface/src/warp/cw20.rs` 27-36, in `TokenModeMsg`. -/
def cw20TokenTy : Ty := en [
  ("Bridged", st [("code_id", .uint 64), ("init_msg", cw20InitTy)]),
  ("Collateral", st [("address", .text)])]

/-- `InstantiateMsg` of the contracts: `/repo/packages/interface/src/` core/mailbox.rs 11-16; core/va.rs 4-8;
hook/aggregate.rs 9-13; hook/fee.rs 10-14; hook/merkle.rs 8-11; hook/pausable.rs 10-14; hook/routing.rs 11-14;
hook/routing_custom.rs 12-15; hook/routing_fallback.rs 11-14; igp/core.rs 13-20; igp/oracle.rs 6-9; ism/aggregate.rs 7-12;
ism/multisig.rs 10-13; ism/pausable.rs 10-14; ism/routing.rs 16-20; warp/native.rs 46-53; warp/cw20.rs 38-45. -/
def instantiateTy : Contract → Ty
  | .mailbox => st [("hrp", .text), ("owner", .text), ("domain", u32)]
  | .va => st [("hrp", .text), ("mailbox", .text)]
  | .aggregateHook => st [("owner", .text), ("hooks", .list .text)]
  | .feeHook => st [("owner", .text), ("fee", coin)]
  | .merkleHook => st [("mailbox", .text)]
  | .pausableHook => st [("owner", .text), ("paused", .bool)]
  | .routingHook => st [("owner", .text)]
  | .customHook => st [("owner", .text)]
  | .fallbackHook => st [("owner", .text)]
  | .igp => st [("hrp", .text), ("owner", .text), ("gas_token", .text), ("beneficiary", .text), ("default_gas_usage", u128)]
  | .oracle => st [("owner", .text)]
  | .aggregateIsm => st [("owner", .text), ("isms", .list .text), ("threshold", u8)]
  | .multisigIsm => st [("owner", .text)]
  | .pausableIsm => st [("owner", .text), ("paused", .bool)]
  | .routingIsm => st [("owner", .text), ("isms", .list ismSet)]
  | .warpNative => st [("token", nativeTokenTy), ("hrp", .text), ("owner", .text), ("mailbox", .text)]
  | .warpCw20 => st [("token", cw20TokenTy), ("hrp", .text), ("owner", .text), ("mailbox", .text)]
  | .cw20 => cw20InitTy

/-- `cw20_base::msg::InstantiateMarketingInfo`. -/
structure Marketing where
  project : Option String
  description : Option String
  marketing : Option String
  logo : Option String
deriving DecidableEq, Repr

/-- `cw20_base::msg::InstantiateMsg`. -/
structure Cw20Init where
  name : String
  symbol : String
  decimals : UInt8
  balances : List (Addr × Nat)
  mint : Option (Addr × Option Nat)
  marketing : Option Marketing
deriving DecidableEq, Repr

/-- The part of it that matters for the ledger. -/
def Cw20Init.ledger (m : Cw20Init) : Cw20.Init := ⟨m.balances, m.mint⟩

/-- The token of the native router. -/
inductive NativeToken where
  | bridged (denom : String) (metadata : Option Proto.Metadata)
  | collateral (denom : String)
deriving DecidableEq, Repr

/-- The part of it that matters for the ledger. -/
def NativeToken.ledger : NativeToken → Deploy.NativeToken
  | .bridged denom _ => .bridged denom
  | .collateral denom => .collateral denom

/-- The token of the cw20 router. -/
inductive Cw20Token where
  | bridged (codeId : UInt64) (init : Cw20Init)
  | collateral (address : Addr)
deriving DecidableEq, Repr

/-- The part of it that matters for the ledger. -/
def Cw20Token.ledger : Cw20Token → Deploy.Cw20Token
  | .bridged codeId init => .bridged codeId.toNat init.ledger
  | .collateral address => .collateral address

/-- The messages of `instantiateTy`. -/
inductive Msg where
  | mailbox (hrp owner : String) (domain : UInt32)
  | va (hrp mailbox : String)
  | aggregateHook (owner : String) (hooks : List String)
  | feeHook (owner : String) (fee : Coin)
  | merkleHook (mailbox : String)
  | pausableHook (owner : String) (paused : Bool)
  | routingHook (owner : String)
  | customHook (owner : String)
  | fallbackHook (owner : String)
  | igp (hrp owner gasToken beneficiary : String) (defaultGas : Nat)
  | oracle (owner : String)
  | aggregateIsm (owner : String) (isms : List String) (threshold : UInt8)
  | multisigIsm (owner : String)
  | pausableIsm (owner : String) (paused : Bool)
  | routingIsm (owner : String) (isms : List (UInt32 × String))
  | warpNative (token : NativeToken) (hrp owner mailbox : String)
  | warpCw20 (token : Cw20Token) (hrp owner mailbox : String)
  | cw20 (m : Cw20Init)
deriving DecidableEq, Repr

/-- Who reads the message. -/
def Msg.contract : Msg → Contract
  | .mailbox .. => .mailbox
  | .va .. => .va
  | .aggregateHook .. => .aggregateHook
  | .feeHook .. => .feeHook
  | .merkleHook .. => .merkleHook
  | .pausableHook .. => .pausableHook
  | .routingHook .. => .routingHook
  | .customHook .. => .customHook
  | .fallbackHook .. => .fallbackHook
  | .igp .. => .igp
  | .oracle .. => .oracle
  | .aggregateIsm .. => .aggregateIsm
  | .multisigIsm .. => .multisigIsm
  | .pausableIsm .. => .pausableIsm
  | .routingIsm .. => .routingIsm
  | .warpNative .. => .warpNative
  | .warpCw20 .. => .warpCw20
  | .cw20 .. => .cw20

def textsVal (l : List String) : Val := .seq (l.map .text)

def denomUnitVal (u : Proto.DenomUnit) : Val := .seq [.text u.denom, .nat u.exponent.toNat, textsVal u.aliases]

def metadataVal (m : Proto.Metadata) : Val :=
  .seq [.text m.description, .seq (m.denomUnits.map denomUnitVal), .text m.base, .text m.display, .text m.name, .text m.symbol]

def nativeTokenVal : NativeToken → Val
  | .bridged denom metadata => .variant "Bridged" (.seq [.text denom, option metadataVal metadata])
  | .collateral denom => .variant "Collateral" (.seq [.text denom])

def balanceVal (b : Addr × Nat) : Val := .seq [.text b.1, .nat b.2]

def minterVal (m : Addr × Option Nat) : Val := .seq [.text m.1, option .nat m.2]

def logoVal (l : String) : Val := .variant "Url" (.text l)

def marketingVal (m : Marketing) : Val :=
  .seq [option .text m.project, option .text m.description, option .text m.marketing, option logoVal m.logo]

def cw20InitVal (m : Cw20Init) : Val :=
  .seq [.text m.name, .text m.symbol, .nat m.decimals.toNat, .seq (m.balances.map balanceVal), option minterVal m.mint,
    option marketingVal m.marketing]

def cw20TokenVal : Cw20Token → Val
  | .bridged codeId init => .variant "Bridged" (.seq [.nat codeId.toNat, cw20InitVal init])
  | .collateral address => .variant "Collateral" (.seq [.text address])

def ismVal (x : UInt32 × String) : Val := .seq [.nat x.1.toNat, .text x.2]

/-- The value of a message. -/
def Msg.val : Msg → Val
  | .mailbox hrp owner domain => .seq [.text hrp, .text owner, .nat domain.toNat]
  | .va hrp mb => .seq [.text hrp, .text mb]
  | .aggregateHook owner hooks => .seq [.text owner, textsVal hooks]
  | .feeHook owner fee => .seq [.text owner, .seq [.text fee.denom, .nat fee.amount]]
  | .merkleHook mb => .seq [.text mb]
  | .pausableHook owner paused => .seq [.text owner, .bool paused]
  | .routingHook owner => .seq [.text owner]
  | .customHook owner => .seq [.text owner]
  | .fallbackHook owner => .seq [.text owner]
  | .igp hrp owner gasToken beneficiary defaultGas =>
    .seq [.text hrp, .text owner, .text gasToken, .text beneficiary, .nat defaultGas]
  | .oracle owner => .seq [.text owner]
  | .aggregateIsm owner isms threshold => .seq [.text owner, textsVal isms, .nat threshold.toNat]
  | .multisigIsm owner => .seq [.text owner]
  | .pausableIsm owner paused => .seq [.text owner, .bool paused]
  | .routingIsm owner isms => .seq [.text owner, .seq (isms.map ismVal)]
  | .warpNative token hrp owner mb => .seq [nativeTokenVal token, .text hrp, .text owner, .text mb]
  | .warpCw20 token hrp owner mb => .seq [cw20TokenVal token, .text hrp, .text owner, .text mb]
  | .cw20 m => cw20InitVal m

/-- `to_json_binary` of a message. -/
def Msg.text (m : Msg) : Option Bytes := Schema.send (instantiateTy m.contract) m.val

/-- The message of the cw20 router for its token, `/repo/contracts/warp/cw20/src/contract.rs` 49-67. -/
def tokenInit (self : Addr) (m : Cw20Init) : Cw20Init := { m with mint := some (self, none) }

/-! ## Contracts with an owner -/

/-- `/repo/contracts/core/mailbox/src/contract.rs` 18-48 and `emit_instantiated`, `/repo/contracts/core/mailbox/src/event.rs`
4-6. -/
def mailbox (lower : Char → Bool) (valid : Addr → Bool) (hrp : String) (domain : UInt32) (owner : Addr) :
    Res (Mailbox.State × List TextEvent) := do
  let s ← Mailbox.instantiate lower valid hrp domain owner
  return (s, [⟨"mailbox_instantiated", [("owner", owner)]⟩])

/-- `/repo/contracts/hooks/aggregate/src/lib.rs` 49-74. -/
def aggregateHook (valid : Addr → Bool) (sender owner : Addr) (hooks : List Addr) :
    Res ((Ownable.State × List Addr) × List TextEvent) := do
  let s ← AggregateHook.instantiate valid owner hooks
  return (s, [⟨"hpl_hook_aggregate::initialize", [("sender", sender), ("owner", owner), ("hooks", joined hooks)]⟩])

/-- `/repo/contracts/hooks/fee/src/lib.rs` 46-66. -/
def feeHook (valid : Addr → Bool) (sender owner : Addr) (fee : Coin) :
    Res ((Ownable.State × Coin) × List TextEvent) := do
  let s ← FeeHook.instantiate valid owner fee
  return (s, [⟨"hpl_hook_fee::initialize",
    [("sender", sender), ("owner", owner), ("fee_denom", fee.denom), ("fee_amount", number fee.amount)]⟩])

/-- `/repo/contracts/hooks/pausable/src/lib.rs` 41-59. -/
def pausableHook (valid : Addr → Bool) (sender owner : Addr) (paused : Bool) :
    Res ((Ownable.State × Bool) × List TextEvent) := do
  let s ← PausableHook.instantiate valid owner paused
  return (s, [⟨"hpl_hook_pausable::initialize", [("sender", sender), ("owner", owner)]⟩])

/-- `/repo/contracts/hooks/routing/src/lib.rs` 45-62. -/
def routingHook (valid : Addr → Bool) (sender owner : Addr) :
    Res ((Ownable.State × Router.State Addr) × List TextEvent) := do
  let s ← RoutingHook.instantiate valid owner
  return (s, [⟨"hpl_hook_routing::initialize", [("sender", sender), ("owner", owner)]⟩])

/-- `/repo/contracts/hooks/routing-fallback/src/lib.rs` 42-64: the prefix is that of the routing hook. -/
def fallbackHook (valid : Addr → Bool) (sender owner : Addr) :
    Res ((Ownable.State × FallbackHook.State) × List TextEvent) := do
  let s ← FallbackHook.instantiate valid owner
  return (s, [⟨"hpl_hook_routing::initialize", [("sender", sender), ("owner", owner)]⟩])

/-- `/repo/contracts/hooks/routing-custom/src/lib.rs` 57-74. -/
def customHook (valid : Addr → Bool) (sender owner : Addr) :
    Res ((Ownable.State × CustomHook.State) × List TextEvent) := do
  let s ← CustomHook.instantiate valid owner
  return (s, [⟨"hpl_hook_routing_custom::initialize", [("sender", sender), ("owner", owner)]⟩])

/-- `/repo/contracts/igps/core/src/contract.rs` 21-58. -/
def igp (lower : Char → Bool) (valid : Addr → Bool) (supplyOk : Bool) (sender : Addr) (hrp : String) (owner : Addr)
    (gasToken : String) (beneficiary : Addr) (defaultGas : Nat) : Res ((Ownable.State × Igp.State) × List TextEvent) := do
  let s ← Igp.instantiate lower valid supplyOk hrp owner gasToken beneficiary defaultGas
  return (s, [⟨"hpl_igp_core::initialize",
    [("sender", sender), ("owner", owner), ("beneficiary", beneficiary), ("default_gas", number defaultGas)]⟩])

/-- `/repo/contracts/igps/oracle/src/contract.rs` 20-33. -/
def oracle (valid : Addr → Bool) (owner : Addr) : Res ((Ownable.State × Oracle.State) × List TextEvent) := do
  let s ← Oracle.instantiate valid owner
  return (s, [⟨"init-igp-gas-oracle", [("owner", owner)]⟩])

/-- `/repo/contracts/isms/aggregate/src/lib.rs` 37-64. -/
def aggregateIsm (valid : Addr → Bool) (sender owner : Addr) (isms : List Addr) (threshold : UInt8) :
    Res ((Ownable.State × AggregateIsm.State) × List TextEvent) := do
  let s ← AggregateIsm.instantiate valid owner isms threshold
  return (s, [⟨"hpl_ism_aggregate::instantiate",
    [("sender", sender), ("owner", owner), ("isms", joined isms), ("threshold", number threshold.toNat)]⟩])

/-- `/repo/contracts/isms/multisig/src/contract.rs` 25-38: the only attribute is the method. -/
def multisigIsm (valid : Addr → Bool) (owner : Addr) : Res ((Ownable.State × Multisig.State) × List TextEvent) := do
  ensure (valid owner) "invalid address"
  return ((Ownable.init owner, Multisig.init), [⟨"wasm", [("method", "instantiate")]⟩])

/-- `/repo/contracts/isms/pausable/src/lib.rs` 39-57. -/
def pausableIsm (valid : Addr → Bool) (sender owner : Addr) (paused : Bool) :
    Res ((Ownable.State × Bool) × List TextEvent) := do
  ensure (valid owner) "invalid address"
  return ((Ownable.init owner, paused), [⟨"hpl_ism_pausable::initialize", [("sender", sender), ("owner", owner)]⟩])

/-- `/repo/contracts/isms/routing/src/contract.rs` 19-42: two attributes of the response. -/
def routingIsm (valid : Addr → Bool) (owner : Addr) (isms : List (UInt32 × Addr)) :
    Res ((Ownable.State × RoutingIsm.State) × List TextEvent) := do
  let s ← RoutingIsm.instantiate valid owner isms
  return (s, [⟨"wasm", [("method", "instantiate"), ("owner", owner)]⟩])

/-! ## Contracts without an owner -/

/-- `/repo/contracts/hooks/merkle/src/lib.rs` 57-75. -/
def merkleHook (zs : List Bytes) (valid : Addr → Bool) (sender mailbox : Addr) :
    Res (MerkleHook.State × List TextEvent) := do
  let s ← MerkleHook.instantiate zs valid mailbox
  return (s, [⟨"hpl_hook_merkle::initialize", [("sender", sender), ("mailbox", mailbox)]⟩])

/-- `/repo/contracts/core/va/src/contract.rs` 27-55: the domain is what the mailbox answers. The field `hrp` of the message is
not used. -/
def va (C : Codec) (valid : Addr → Bool) (sender mailbox : Addr) (domain : Res UInt32) : Res (Va.State × List TextEvent) := do
  let s ← Va.instantiate C valid mailbox domain
  return (s, [⟨"init-validator-announce",
    [("creator", sender), ("mailbox", mailbox), ("local-domain", number s.localDomain.toNat)]⟩])

/-! ## Token routers -/

/-- `fmt::Display for TokenMode`, `/repo/packages/interface/src/warp/mod.rs` 43-55. -/
def modeText : Warp.Mode → String
  | .bridged => "bridged"
  | .collateral => "collateral"

/-- `/repo/contracts/warp/native/src/contract.rs` 79-85, `/repo/contracts/warp/cw20/src/contract.rs` 75-81. -/
def warpEvent (n : WarpNames) (sender owner : Addr) (mode : Warp.Mode) (denom : String) : TextEvent :=
  ⟨n.name ++ "instantiate", [("sender", sender), ("owner", owner), ("mode", modeText mode), ("denom", denom)]⟩

/-- `/repo/contracts/warp/native/src/contract.rs` 30-86 and 122-144. The reply, and with it its event, comes after the response of
`instantiate`. -/
def warpNative (valid : Addr → Bool) (self sender : Addr) (i : Deploy.Init) (b : Bank) (t : NativeToken) :
    Res ((Ownable.State × Warp.State) × List TextEvent) := do
  let r ← Deploy.native valid self i b t.ledger
  return (r.1, match t with
    | .bridged denom _ => [warpEvent Events.warpNative sender i.owner .bridged (Bank.factoryDenom self denom),
        ⟨"hpl_warp_native::reply-init", [("denom", r.1.2.token.getD "")]⟩]
    | .collateral denom => [warpEvent Events.warpNative sender i.owner .collateral denom])

/-- `/repo/contracts/warp/cw20/src/contract.rs` 29-82 and 118-140. What the first event calls the denomination of a new token is
its name. -/
def warpCw20 (valid : Addr → Bool) (self sender : Addr) (i : Deploy.Init) (strict : Bool) (created : Addr) (data : Bytes)
    (token : Cw20) (t : Cw20Token) : Res ((Ownable.State × Warp.State) × List TextEvent) := do
  let r ← Deploy.cw20 valid self i strict created data token t.ledger
  return (r.1, match t with
    | .bridged _ init => [warpEvent Events.warpCw20 sender i.owner .bridged init.name,
        ⟨"hpl_warp_cw20::reply-init", [("new_token", r.1.2.token.getD "")]⟩]
    | .collateral address => [warpEvent Events.warpCw20 sender i.owner .collateral address])

end Hpl.Start
