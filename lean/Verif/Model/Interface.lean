import Verif.Model.Schema
import Verif.Model.Msg

/-! # The messages of the contracts (`/repo/packages/interface/src`)

Every `#[cw_serde]` type that is the execute or query message of a contract, an answer to a query, or part of one of
these. Messages of instantiation are in `Model/Start`. Line numbers are those of the file named in the heading. -/

namespace Hpl.Interface

/-- Named types from a list. -/
def fields : List (String × Ty) → Fields
  | [] => .nil
  | (n, t) :: r => .cons n t (fields r)

/-- A struct, or the content of a struct variant. -/
def st (l : List (String × Ty)) : Ty := .struct (fields l)

/-- An enum. A variant `A(B)` has content `B`; a variant `A {}` has content `st []`; a variant `A` has content `.unit`;
a variant `A()` has content `tu []`. -/
def en (l : List (String × Ty)) : Ty := .enum (fields l)

/-- A tuple, or an array. -/
def tu (l : List Ty) : Ty := .tuple (fields (l.map (fun t => ("", t))))

/-- `u8` -/
def u8 : Ty := .uint 8
/-- `u32` -/
def u32 : Ty := .uint 32
/-- `u128`, which the dependency serde-json-wasm writes as a string
(`/repo/tests/neutron-migration/results/snapshot-new.json` 650-659). -/
def u128 : Ty := .decimal 128
/-- `Uint128` -/
def uint128 : Ty := .decimal 128
/-- `Uint256` -/
def uint256 : Ty := .decimal 256

/-- `Coin` of the dependency cosmwasm-std. -/
def coin : Ty := st [("denom", .text), ("amount", uint128)]

/-- A query: its variant, its content, and the type its answer is declared to have (`#[returns]`). -/
abbrev Queries := List (String × Ty × Ty)

/-- The enum of queries. -/
def Queries.ty (q : Queries) : Ty := en (q.map (fun r => (r.1, r.2.1)))

/-! ## `lib.rs`, `ownable.rs`, `pausable.rs`, `connection.rs`, `router.rs` -/

/-- lib.rs 21-25 -/
def order : Ty := en [("Asc", .unit), ("Desc", .unit)]

/-- ownable.rs `OwnableMsg` -/
def ownableMsg : Ty := en [
  ("InitOwnershipTransfer", st [("next_owner", .text)]),
  ("RevokeOwnershipTransfer", st []),
  ("ClaimOwnership", st [])]

/-- ownable.rs `OwnerResponse` -/
def ownerResponse : Ty := st [("owner", .text)]
/-- ownable.rs `PendingOwnerResponse` -/
def pendingOwnerResponse : Ty := st [("pending_owner", .opt .text)]

/-- ownable.rs `OwnableQueryMsg` -/
def ownableQuery : Queries := [
  ("GetOwner", st [], ownerResponse),
  ("GetPendingOwner", st [], pendingOwnerResponse)]

/-- pausable.rs `PausableMsg` -/
def pausableMsg : Ty := en [("Pause", st []), ("Release", st [])]
/-- pausable.rs `PauseInfoResponse` -/
def pauseInfoResponse : Ty := st [("paused", .bool)]
/-- pausable.rs `PausableQueryMsg` -/
def pausableQuery : Queries := [("PauseInfo", st [], pauseInfoResponse)]

/-- connection.rs `ConnectionMsg` -/
def connectionMsg : Ty := en [
  ("SetMailbox", st [("mailbox", .text)]),
  ("SetHook", st [("hook", .text)]),
  ("SetIsm", st [("ism", .text)])]

/-- connection.rs `MailboxResponse` -/
def connMailboxResponse : Ty := st [("mailbox", .opt .text)]
/-- connection.rs `HookResponse` -/
def connHookResponse : Ty := st [("hook", .opt .text)]
/-- connection.rs `IsmResponse` -/
def connIsmResponse : Ty := st [("ism", .opt .text)]

/-- connection.rs `ConnectionQueryMsg` -/
def connectionQuery : Queries := [
  ("GetMailbox", st [], connMailboxResponse),
  ("GetHook", st [], connHookResponse),
  ("GetIsm", st [], connIsmResponse)]

/-- router.rs `DomainRouteSet<T>` -/
def domainRouteSet (t : Ty) : Ty := st [("domain", u32), ("route", .opt t)]
/-- router.rs `RouterMsg<T>` -/
def routerMsg (t : Ty) : Ty := en [
  ("SetRoute", st [("set", domainRouteSet t)]),
  ("SetRoutes", st [("set", .list (domainRouteSet t))])]
/-- router.rs `DomainsResponse` -/
def domainsResponse : Ty := st [("domains", .list u32)]
/-- router.rs `RouteResponse<T>` -/
def routeResponse (t : Ty) : Ty := st [("route", domainRouteSet t)]
/-- router.rs `RoutesResponse<T>` -/
def routesResponse (t : Ty) : Ty := st [("routes", .list (domainRouteSet t))]

/-- router.rs `RouterQuery<T>`; the variant `Placeholder` is skipped by serde. -/
def routerQuery (t : Ty) : Queries := [
  ("Domains", st [], domainsResponse),
  ("GetRoute", st [("domain", u32)], routeResponse t),
  ("ListRoutes", st [("offset", .opt u32), ("limit", .opt u32), ("order", .opt order)], routesResponse t)]

/-! ## `hook/mod.rs` -/

/-- `PostDispatchMsg`, 17-21 -/
def postDispatchMsg : Ty := st [("metadata", .hex), ("message", .hex)]
/-- `QuoteDispatchMsg`, 29-34 -/
def quoteDispatchMsg : Ty := st [("metadata", .hex), ("message", .hex)]
/-- `ExpectedHookMsg`, 47-50 -/
def expectedHookMsg : Ty := en [("PostDispatch", postDispatchMsg)]
/-- `MailboxResponse`, 67-70 -/
def hookMailboxResponse : Ty := st [("mailbox", .text)]
/-- `QuoteDispatchResponse`, 72-75 -/
def quoteDispatchResponse : Ty := st [("fees", .list coin)]
/-- `HookQueryMsg`, 52-60 -/
def hookQuery : Queries := [
  ("QuoteDispatch", quoteDispatchMsg, quoteDispatchResponse),
  ("Mailbox", st [], hookMailboxResponse)]
/-- `ExpectedHookQueryMsg`, 62-66 -/
def expectedHookQuery : Ty := en [("Hook", hookQuery.ty)]

/-! ## `ism/mod.rs` -/

/-- `IsmType`, 9-20 -/
def ismType : Ty := en [("Unused", .unit), ("Routing", .unit), ("Aggregation", .unit), ("LegacyMultisig", .unit),
  ("MerkleRootMultisig", .unit), ("MessageIdMultisig", .unit), ("Null", .unit), ("CcipRead", .unit)]
/-- `ModuleTypeResponse`, 71-75; the field `typ` is renamed. -/
def moduleTypeResponse : Ty := st [("type", ismType)]
/-- `VerifyResponse`, 77-80 -/
def verifyResponse : Ty := st [("verified", .bool)]
/-- `VerifyInfoResponse`, 82-86 -/
def verifyInfoResponse : Ty := st [("threshold", u8), ("validators", .list .hex)]
/-- `InterchainSecurityModuleResponse`, 88-91 -/
def ismResponse : Ty := st [("ism", .opt .text)]
/-- `IsmQueryMsg`, 22-36 -/
def ismQuery : Queries := [
  ("ModuleType", st [], moduleTypeResponse),
  ("Verify", st [("metadata", .hex), ("message", .hex)], verifyResponse),
  ("VerifyInfo", st [("message", .hex)], verifyInfoResponse)]
/-- `ExpectedIsmQueryMsg`, 44-49 -/
def expectedIsmQuery : Ty := en [("Ism", ismQuery.ty)]
/-- `IsmSpecifierQueryMsg`, 58-63 -/
def ismSpecifierQuery : Queries := [("InterchainSecurityModule", tu [], ismResponse)]
/-- `ExpectedIsmSpecifierQueryMsg`, 51-56 -/
def expectedIsmSpecifierQuery : Ty := en [("IsmSpecifier", ismSpecifierQuery.ty)]

/-! ## `core/mod.rs`, `core/mailbox.rs`, `core/va.rs` -/

/-- mod.rs `HandleMsg`, 7-13 -/
def handleMsg : Ty := st [("origin", u32), ("sender", .hex), ("body", .hex)]
/-- mod.rs `ExpectedHandleMsg`, 21-24 -/
def expectedHandleMsg : Ty := en [("Handle", handleMsg)]

/-- mailbox.rs `DispatchMsg`, 18-25 -/
def dispatchMsg : Ty := st [("dest_domain", u32), ("recipient_addr", .hex), ("msg_body", .hex), ("hook", .opt .text),
  ("metadata", .opt .hex)]

/-- mailbox.rs `ExecuteMsg`, 80-104 -/
def mailboxMsg : Ty := en [
  ("Ownable", ownableMsg),
  ("SetDefaultIsm", st [("ism", .text)]),
  ("SetDefaultHook", st [("hook", .text)]),
  ("SetRequiredHook", st [("hook", .text)]),
  ("Dispatch", dispatchMsg),
  ("Process", st [("metadata", .hex), ("message", .hex)])]

/-- mailbox.rs `HrpResponse` -/
def hrpResponse : Ty := st [("hrp", .text)]
/-- mailbox.rs `LocalDomainResponse`, and va.rs `LocalDomainResponse` -/
def localDomainResponse : Ty := st [("local_domain", u32)]
/-- mailbox.rs `MessageDeliveredResponse` -/
def messageDeliveredResponse : Ty := st [("delivered", .bool)]
/-- mailbox.rs `DefaultIsmResponse` -/
def defaultIsmResponse : Ty := st [("default_ism", .text)]
/-- mailbox.rs `DefaultHookResponse` -/
def defaultHookResponse : Ty := st [("default_hook", .text)]
/-- mailbox.rs `RequiredHookResponse` -/
def requiredHookResponse : Ty := st [("required_hook", .text)]
/-- mailbox.rs `RecipientIsmResponse` -/
def recipientIsmResponse : Ty := st [("ism", .text)]
/-- mailbox.rs `NonceResponse` -/
def nonceResponse : Ty := st [("nonce", u32)]
/-- mailbox.rs `LatestDispatchedIdResponse` -/
def latestDispatchedIdResponse : Ty := st [("message_id", .hex)]

/-- mailbox.rs `MailboxHookQueryMsg` -/
def mailboxHookQuery : Queries := [
  ("QuoteDispatch", st [("sender", .text), ("msg", dispatchMsg)], quoteDispatchResponse)]

/-- mailbox.rs `MailboxQueryMsg` -/
def mailboxQuery : Queries := [
  ("Hrp", st [], hrpResponse),
  ("LocalDomain", st [], localDomainResponse),
  ("MessageDelivered", st [("id", .hex)], messageDeliveredResponse),
  ("DefaultIsm", st [], defaultIsmResponse),
  ("DefaultHook", st [], defaultHookResponse),
  ("RequiredHook", st [], requiredHookResponse),
  ("Nonce", st [], nonceResponse),
  ("RecipientIsm", st [("recipient_addr", .text)], recipientIsmResponse),
  ("LatestDispatchId", st [], latestDispatchedIdResponse)]

/-- va.rs `ExecuteMsg` -/
def vaMsg : Ty := en [
  ("Announce", st [("validator", .hex), ("signature", .hex), ("storage_location", .text)])]
/-- va.rs `GetAnnounceStorageLocationsResponse` -/
def storageLocationsResponse : Ty := st [("storage_locations", .list (tu [.text, .list .text]))]
/-- va.rs `GetAnnouncedValidatorsResponse` -/
def validatorsResponse : Ty := st [("validators", .list .text)]
/-- va.rs `MailboxResponse` -/
def vaMailboxResponse : Ty := st [("mailbox", .text)]
/-- va.rs `QueryMsg` -/
def vaQuery : Queries := [
  ("GetAnnounceStorageLocations", st [("validators", .list .hex)], storageLocationsResponse),
  ("GetAnnouncedValidators", st [], validatorsResponse),
  ("Mailbox", st [], vaMailboxResponse),
  ("LocalDomain", st [], localDomainResponse)]

/-! ## Hooks -/

/-- hook/aggregate.rs `ExecuteMsg`, 15-20 -/
def aggregateHookMsg : Ty := en [
  ("Ownable", ownableMsg),
  ("PostDispatch", postDispatchMsg),
  ("SetHooks", st [("hooks", .list .text)])]
/-- hook/aggregate.rs `HooksResponse`, 38-41 -/
def hooksResponse : Ty := st [("hooks", .list .text)]
/-- hook/aggregate.rs `AggregateHookQueryMsg`, 31-36 -/
def aggregateHookQuery : Queries := [("Hooks", st [], hooksResponse)]

/-- hook/fee.rs `FeeHookMsg`, 23-27 -/
def feeHookMsg : Ty := en [
  ("SetFee", st [("fee", coin)]),
  ("Claim", st [("recipient", .opt .text)])]
/-- hook/fee.rs `ExecuteMsg`, 16-21 -/
def feeMsg : Ty := en [
  ("Ownable", ownableMsg),
  ("PostDispatch", postDispatchMsg),
  ("FeeHook", feeHookMsg)]
/-- hook/fee.rs `FeeResponse` -/
def feeResponse : Ty := st [("fee", coin)]
/-- hook/fee.rs `FeeHookQueryMsg` -/
def feeHookQuery : Queries := [("Fee", st [], feeResponse)]

/-- hook/merkle.rs `ExecuteMsg` -/
def merkleHookMsg : Ty := en [("PostDispatch", postDispatchMsg)]
/-- hook/merkle.rs `CountResponse` -/
def countResponse : Ty := st [("count", u32)]
/-- hook/merkle.rs `RootResponse` -/
def rootResponse : Ty := st [("root", .hex)]
/-- `[HexBinary; TREE_DEPTH]` -/
def branch : Ty := tu (List.replicate 32 .hex)
/-- hook/merkle.rs `BranchResponse` -/
def branchResponse : Ty := st [("branch", branch)]
/-- hook/merkle.rs `TreeResponse` -/
def treeResponse : Ty := st [("branch", branch), ("count", u32)]
/-- hook/merkle.rs `CheckPointResponse` -/
def checkPointResponse : Ty := st [("root", .hex), ("count", u32)]
/-- hook/merkle.rs `MerkleHookQueryMsg` -/
def merkleHookQuery : Queries := [
  ("Count", st [], countResponse),
  ("Root", st [], rootResponse),
  ("Branch", st [], branchResponse),
  ("Tree", st [], treeResponse),
  ("CheckPoint", st [], checkPointResponse)]

/-- hook/pausable.rs `ExecuteMsg` -/
def pausableHookMsg : Ty := en [
  ("Ownable", ownableMsg),
  ("Pausable", pausableMsg),
  ("PostDispatch", postDispatchMsg)]

/-- hook/routing.rs `ExecuteMsg` -/
def routingHookMsg : Ty := en [
  ("Ownable", ownableMsg),
  ("PostDispatch", postDispatchMsg),
  ("Router", routerMsg .text)]

/-- hook/routing_custom.rs `RegisterCustomHookMsg` -/
def registerCustomHookMsg : Ty := st [("dest_domain", u32), ("recipient", .text), ("hook", .text)]
/-- hook/routing_custom.rs `ClearCustomHookMsg` -/
def clearCustomHookMsg : Ty := st [("dest_domain", u32), ("recipient", .text)]
/-- hook/routing_custom.rs `ExecuteMsg` -/
def customHookMsg : Ty := en [
  ("Ownable", ownableMsg),
  ("PostDispatch", postDispatchMsg),
  ("Router", routerMsg .text),
  ("RegisterCustomHook", registerCustomHookMsg),
  ("RegisterCustomHooks", .list registerCustomHookMsg),
  ("ClearCustomHook", clearCustomHookMsg),
  ("ClearCustomHooks", .list clearCustomHookMsg)]
/-- hook/routing_custom.rs `CustomHookResponse` -/
def customHookResponse : Ty := st [("dest_domain", u32), ("recipient", .text), ("hook", .text)]
/-- hook/routing_custom.rs `CustomHooksResponse` -/
def customHooksResponse : Ty := st [("custom_hooks", .list customHookResponse)]
/-- hook/routing_custom.rs `CustomRoutingHookQueryMsg` -/
def customHookQuery : Queries := [
  ("CustomHook", st [("dest_domain", u32), ("recipient", .text)], customHookResponse),
  ("CustomHooks", st [("dest_domain", u32), ("offset", .opt .text), ("limit", .opt u32), ("order", .opt order)],
    customHooksResponse)]

/-- hook/routing_fallback.rs `ExecuteMsg` -/
def fallbackHookMsg : Ty := en [
  ("Ownable", ownableMsg),
  ("PostDispatch", postDispatchMsg),
  ("Router", routerMsg .text),
  ("SetFallbackHook", st [("hook", .text)])]

/-! ## Gas -/

/-- igp/core.rs `ExecuteMsg`, 46-74 -/
def igpMsg : Ty := en [
  ("Ownable", ownableMsg),
  ("Router", routerMsg .text),
  ("PostDispatch", postDispatchMsg),
  ("SetDefaultGas", st [("gas", u128)]),
  ("SetGasForDomain", st [("config", .list (tu [u32, u128]))]),
  ("UnsetGasForDomain", st [("domains", .list u32)]),
  ("SetBeneficiary", st [("beneficiary", .text)]),
  ("PayForGas", st [("message_id", .hex), ("dest_domain", u32), ("gas_amount", uint256), ("refund_address", .text)]),
  ("Claim", st [])]
/-- igp/core.rs `DefaultGasResponse` -/
def defaultGasResponse : Ty := st [("gas", u128)]
/-- igp/core.rs `GasForDomainResponse` -/
def gasForDomainResponse : Ty := st [("gas", .list (tu [u32, u128]))]
/-- igp/core.rs `BeneficiaryResponse` -/
def beneficiaryResponse : Ty := st [("beneficiary", .text)]
/-- igp/core.rs `QuoteGasPaymentResponse` -/
def quoteGasPaymentResponse : Ty := st [("gas_needed", uint256)]
/-- igp/core.rs `IgpQueryMsg`, 90-114 -/
def igpQuery : Queries := [
  ("DefaultGas", st [], defaultGasResponse),
  ("GasForDomain", st [("domains", .list u32)], gasForDomainResponse),
  ("ListGasForDomains", st [("offset", .opt u32), ("limit", .opt u32), ("order", .opt order)], gasForDomainResponse),
  ("Beneficiary", st [], beneficiaryResponse),
  ("QuoteGasPayment", st [("dest_domain", u32), ("gas_amount", uint256)], quoteGasPaymentResponse)]

/-- igp/oracle.rs `RemoteGasDataConfig` -/
def remoteGasDataConfig : Ty := st [("remote_domain", u32), ("token_exchange_rate", uint128), ("gas_price", uint128)]
/-- igp/oracle.rs `ExecuteMsg` -/
def oracleMsg : Ty := en [
  ("Ownership", ownableMsg),
  ("SetRemoteGasDataConfigs", st [("configs", .list remoteGasDataConfig)]),
  ("SetRemoteGasData", st [("config", remoteGasDataConfig)])]
/-- igp/oracle.rs `GetExchangeRateAndGasPriceResponse`, 52-56 -/
def exchangeRateResponse : Ty := st [("gas_price", uint128), ("exchange_rate", uint128)]
/-- igp/oracle.rs `IgpGasOracleQueryMsg`, 39-44 -/
def oracleQuery : Queries := [("GetExchangeRateAndGasPrice", st [("dest_domain", u32)], exchangeRateResponse)]

/-! ## Security modules -/

/-- ism/aggregate.rs `ExecuteMsg` -/
def aggregateIsmMsg : Ty := en [
  ("Ownable", ownableMsg),
  ("SetIsms", st [("isms", .list .text), ("threshold", u8)])]
/-- ism/aggregate.rs `IsmsResponse` -/
def ismsResponse : Ty := st [("isms", .list .text), ("threshold", u8)]
/-- ism/aggregate.rs `AggregateIsmQueryMsg` -/
def aggregateIsmQuery : Queries := [("Isms", st [], ismsResponse)]

/-- ism/multisig.rs `ExecuteMsg` -/
def multisigIsmMsg : Ty := en [
  ("Ownable", ownableMsg),
  ("SetValidators", st [("domain", u32), ("threshold", u8), ("validators", .list .hex)]),
  ("UnsetDomain", st [("domain", u32)])]
/-- ism/multisig.rs `EnrolledValidatorsResponse` -/
def enrolledValidatorsResponse : Ty := st [("validators", .list .hex), ("threshold", u8)]
/-- ism/multisig.rs `MultisigIsmQueryMsg` -/
def multisigIsmQuery : Queries := [("EnrolledValidators", st [("domain", u32)], enrolledValidatorsResponse)]

/-- ism/pausable.rs `ExecuteMsg` -/
def pausableIsmMsg : Ty := en [("Ownable", ownableMsg), ("Pausable", pausableMsg)]

/-- ism/routing.rs `IsmSet` -/
def ismSet : Ty := st [("domain", u32), ("address", .text)]
/-- ism/routing.rs `ExecuteMsg` -/
def routingIsmMsg : Ty := en [
  ("Ownable", ownableMsg),
  ("Set", st [("ism", ismSet)]),
  ("Unset", st [("domains", .list u32)])]
/-- ism/routing.rs `RouteResponse` -/
def ismRouteResponse : Ty := st [("ism", .text)]
/-- ism/routing.rs `RoutingIsmQueryMsg` -/
def routingIsmQuery : Queries := [("Route", st [("message", .hex)], ismRouteResponse)]

/-! ## Token routers -/

/-- warp/native.rs `ExecuteMsg`, 55-72, and warp/cw20.rs `ExecuteMsg`, 47-64 -/
def warpMsg : Ty := en [
  ("Ownable", ownableMsg),
  ("Router", routerMsg .hex),
  ("Connection", connectionMsg),
  ("Handle", handleMsg),
  ("TransferRemote", st [("dest_domain", u32), ("recipient", .hex), ("amount", uint128), ("hook", .opt .text),
    ("metadata", .opt .hex)])]
/-- warp/mod.rs `TokenTypeNative`, 9-13 -/
def tokenTypeNative : Ty := en [
  ("Fungible", st [("denom", .text)]),
  ("NonFungible", st [("class", .text)])]
/-- warp/mod.rs `TokenType`, 15-20 -/
def tokenType : Ty := en [
  ("Native", tokenTypeNative),
  ("CW20", st [("contract", .text)]),
  ("CW721", st [("contract", .text)])]
/-- warp/mod.rs `TokenMode`, 37-41 -/
def tokenMode : Ty := en [("Bridged", .unit), ("Collateral", .unit)]
/-- warp/mod.rs `TokenTypeResponse`, 95-99; the field `typ` is renamed. -/
def tokenTypeResponse : Ty := st [("type", tokenType)]
/-- warp/mod.rs `TokenModeResponse`, 101-104 -/
def tokenModeResponse : Ty := st [("mode", tokenMode)]
/-- warp/mod.rs `TokenWarpDefaultQueryMsg`, 85-93 -/
def tokenDefaultQuery : Queries := [
  ("TokenType", st [], tokenTypeResponse),
  ("TokenMode", st [], tokenModeResponse)]

/-- `Expiration` of the dependency cw-utils. -/
def expiration : Ty := en [("AtHeight", .uint 64), ("AtTime", .decimal 64), ("Never", st [])]

/-- `Cw20ExecuteMsg` of the dependency cw20. Simplified: content of type `Binary` is any text (the dependency wants
base64). -/
def cw20Msg : Ty := en [
  ("Transfer", st [("recipient", .text), ("amount", uint128)]),
  ("Burn", st [("amount", uint128)]),
  ("Send", st [("contract", .text), ("amount", uint128), ("msg", .text)]),
  ("IncreaseAllowance", st [("spender", .text), ("amount", uint128), ("expires", .opt expiration)]),
  ("DecreaseAllowance", st [("spender", .text), ("amount", uint128), ("expires", .opt expiration)]),
  ("TransferFrom", st [("owner", .text), ("recipient", .text), ("amount", uint128)]),
  ("SendFrom", st [("owner", .text), ("contract", .text), ("amount", uint128), ("msg", .text)]),
  ("BurnFrom", st [("owner", .text), ("amount", uint128)]),
  ("Mint", st [("recipient", .text), ("amount", uint128)]),
  ("UpdateMinter", st [("new_minter", .opt .text)]),
  ("UpdateMarketing", st [("project", .opt .text), ("description", .opt .text), ("marketing", .opt .text)]),
  ("UploadLogo", en [("Url", .text), ("Embedded", en [("Svg", .text), ("Png", .text)])])]

/-! ## Contracts -/

/-- The contracts of the repository, `/repo/contracts`, without the mocks. -/
inductive Contract where
  | mailbox | va
  | aggregateHook | feeHook | merkleHook | pausableHook | routingHook | customHook | fallbackHook | igp
  | oracle
  | aggregateIsm | multisigIsm | pausableIsm | routingIsm
  | warpNative | warpCw20
  /-- The dependency cw20-base. -/
  | cw20
deriving DecidableEq, Repr

/-- The type of the message that the entry point `execute` of the contract takes. -/
def executeTy : Contract → Ty
  | .mailbox => mailboxMsg
  | .va => vaMsg
  | .aggregateHook => aggregateHookMsg
  | .feeHook => feeMsg
  | .merkleHook => merkleHookMsg
  | .pausableHook => pausableHookMsg
  | .routingHook => routingHookMsg
  | .customHook => customHookMsg
  | .fallbackHook => fallbackHookMsg
  | .igp => igpMsg
  | .oracle => oracleMsg
  | .aggregateIsm => aggregateIsmMsg
  | .multisigIsm => multisigIsmMsg
  | .pausableIsm => pausableIsmMsg
  | .routingIsm => routingIsmMsg
  | .warpNative | .warpCw20 => warpMsg
  | .cw20 => cw20Msg

/-- The groups of queries of a contract, with the variant of `QueryMsg` that holds the group. -/
def queries : Contract → List (String × Queries)
  | .mailbox => [("Ownable", ownableQuery), ("Hook", mailboxHookQuery), ("Mailbox", mailboxQuery)]
  | .va => [("", vaQuery)]
  | .aggregateHook => [("Ownable", ownableQuery), ("Hook", hookQuery), ("AggregateHook", aggregateHookQuery)]
  | .feeHook => [("Ownable", ownableQuery), ("Hook", hookQuery), ("FeeHook", feeHookQuery)]
  | .merkleHook => [("Hook", hookQuery), ("MerkleHook", merkleHookQuery)]
  | .pausableHook => [("Pausable", pausableQuery), ("Ownable", ownableQuery), ("Hook", hookQuery)]
  | .routingHook => [("Ownable", ownableQuery), ("Router", routerQuery .text), ("Hook", hookQuery)]
  | .customHook => [("Ownable", ownableQuery), ("Router", routerQuery .text), ("Hook", hookQuery),
      ("CustomRoutingHook", customHookQuery)]
  | .fallbackHook => [("Ownable", ownableQuery), ("Router", routerQuery .text), ("Hook", hookQuery)]
  | .igp => [("Ownable", ownableQuery), ("Hook", hookQuery), ("Router", routerQuery .text), ("Oracle", oracleQuery),
      ("Igp", igpQuery)]
  | .oracle => [("Ownable", ownableQuery), ("Oracle", oracleQuery)]
  | .aggregateIsm => [("Ownable", ownableQuery), ("Ism", ismQuery), ("AggregateIsm", aggregateIsmQuery)]
  | .multisigIsm => [("Ownable", ownableQuery), ("Ism", ismQuery), ("MultisigIsm", multisigIsmQuery)]
  | .pausableIsm => [("Ownable", ownableQuery), ("Ism", ismQuery), ("Pausable", pausableQuery)]
  | .routingIsm => [("Ownable", ownableQuery), ("Ism", ismQuery), ("RoutingIsm", routingIsmQuery)]
  | .warpNative | .warpCw20 => [("Ownable", ownableQuery), ("Router", routerQuery .hex),
      ("Connection", connectionQuery), ("TokenDefault", tokenDefaultQuery), ("IsmSpecifier", ismSpecifierQuery)]
  | .cw20 => []

/-- The type of the message that the entry point `query` of the contract takes. The queries of the validator announce
are not grouped. -/
def queryTy : Contract → Ty
  | .va => vaQuery.ty
  | c => en ((queries c).map (fun g => (g.1, g.2.ty)))

/-! ## What the contracts answer

`query` of each contract: the type of the value that is written for each query; `none` where the code panics. -/

/-- `/repo/packages/ownable/src/lib.rs` 119-133 -/
def ownableAnswer : String → Option Ty
  | "GetOwner" => some ownerResponse
  | "GetPendingOwner" => some pendingOwnerResponse
  | _ => none

/-- `/repo/packages/pausable/src/lib.rs` 65-76 -/
def pausableAnswer : String → Option Ty
  | "PauseInfo" => some pauseInfoResponse
  | _ => none

/-- `/repo/packages/connection/src/lib.rs` 71-88 -/
def connectionAnswer : String → Option Ty
  | "GetMailbox" => some connMailboxResponse
  | "GetHook" => some connHookResponse
  | "GetIsm" => some connIsmResponse
  | _ => none

/-- `/repo/packages/router/src/lib.rs` 109-136, whose `T` is inferred from the message. -/
def routerAnswer (t : Ty) : String → Option Ty
  | "Domains" => some domainsResponse
  | "GetRoute" => some (routeResponse t)
  | "ListRoutes" => some (routesResponse t)
  | _ => none

/-- `QueryMsg::Hook` of the hooks: `/repo/contracts/hooks/aggregate/src/lib.rs` 140-145, fee 137-140, merkle 128-131,
pausable 88-91, routing 83-86, routing-custom 101-104, routing-fallback 102-105, `/repo/contracts/igps/core/src/contract.rs`
109-112. -/
def hookAnswer : String → Option Ty
  | "QuoteDispatch" => some quoteDispatchResponse
  | "Mailbox" => some hookMailboxResponse
  | _ => none

/-- `QueryMsg::Mailbox`, `/repo/contracts/core/mailbox/src/contract.rs` 84-94 with query.rs 17-86 -/
def mailboxAnswer : String → Option Ty
  | "Hrp" => some hrpResponse
  | "LocalDomain" => some localDomainResponse
  | "DefaultIsm" => some defaultIsmResponse
  | "DefaultHook" => some defaultHookResponse
  | "RequiredHook" => some requiredHookResponse
  | "MessageDelivered" => some messageDeliveredResponse
  | "RecipientIsm" => some recipientIsmResponse
  | "Nonce" => some nonceResponse
  | "LatestDispatchId" => some latestDispatchedIdResponse
  | _ => none

/-- `/repo/contracts/core/va/src/contract.rs` 74-83 -/
def vaAnswer : String → Option Ty
  | "GetAnnounceStorageLocations" => some storageLocationsResponse
  | "GetAnnouncedValidators" => some validatorsResponse
  | "Mailbox" => some vaMailboxResponse
  | "LocalDomain" => some localDomainResponse
  | _ => none

/-- `QueryMsg::MerkleHook`, `/repo/contracts/hooks/merkle/src/lib.rs` 132-138 -/
def merkleAnswer : String → Option Ty
  | "Count" => some countResponse
  | "Root" => some rootResponse
  | "Branch" => some branchResponse
  | "Tree" => some treeResponse
  | "CheckPoint" => some checkPointResponse
  | _ => none

/-- `QueryMsg::CustomRoutingHook`, `/repo/contracts/hooks/routing-custom/src/lib.rs` 105-116 -/
def customHookAnswer : String → Option Ty
  | "CustomHook" => some customHookResponse
  | "CustomHooks" => some customHooksResponse
  | _ => none

/-- `QueryMsg::Igp`, `/repo/contracts/igps/core/src/contract.rs` 118-133 -/
def igpAnswer : String → Option Ty
  | "DefaultGas" => some defaultGasResponse
  | "GasForDomain" => some gasForDomainResponse
  | "ListGasForDomains" => some gasForDomainResponse
  | "Beneficiary" => some beneficiaryResponse
  | "QuoteGasPayment" => some quoteGasPaymentResponse
  | _ => none

/-- `QueryMsg::Oracle`, `/repo/contracts/igps/core/src/contract.rs` 113-117 and
`/repo/contracts/igps/oracle/src/contract.rs` 89-98 -/
def oracleAnswer : String → Option Ty
  | "GetExchangeRateAndGasPrice" => some exchangeRateResponse
  | _ => none

/-- `QueryMsg::Ism` of the aggregate, `/repo/contracts/isms/aggregate/src/lib.rs` 113-121, and of the multisig,
`/repo/contracts/isms/multisig/src/contract.rs` 112-121. -/
def ismAnswer : String → Option Ty
  | "ModuleType" => some moduleTypeResponse
  | "Verify" => some verifyResponse
  | "VerifyInfo" => some verifyInfoResponse
  | _ => none

/-- `QueryMsg::Ism` of the pausable module, `/repo/contracts/isms/pausable/src/lib.rs` 79-92. -/
def pausableIsmAnswer : String → Option Ty
  | "ModuleType" => some moduleTypeResponse
  | "Verify" => some verifyResponse
  | _ => none

/-- `QueryMsg::Ism` of the routing module, `/repo/contracts/isms/routing/src/contract.rs` 108-138: the query `VerifyInfo`
is answered with a `VerifyResponse`. -/
def routingIsmAnswer : String → Option Ty
  | "ModuleType" => some moduleTypeResponse
  | "Verify" => some verifyResponse
  | "VerifyInfo" => some verifyResponse
  | _ => none

/-- `QueryMsg::TokenDefault`, `/repo/contracts/warp/native/src/contract.rs` 278-281 and
`/repo/contracts/warp/cw20/src/contract.rs` 265-268. -/
def tokenDefaultAnswer : String → Option Ty
  | "TokenType" => some tokenTypeResponse
  | "TokenMode" => some tokenModeResponse
  | _ => none

/-- One query with one answer. -/
def single (name : String) (t : Ty) (q : String) : Option Ty := if q = name then some t else none

/-- What the contract answers to the query `q` of the group `g`. -/
def answer : Contract → String → String → Option Ty
  | .mailbox, "Ownable", q => ownableAnswer q
  | .mailbox, "Hook", q => single "QuoteDispatch" quoteDispatchResponse q
  | .mailbox, "Mailbox", q => mailboxAnswer q
  | .va, "", q => vaAnswer q
  | .aggregateHook, "Ownable", q => ownableAnswer q
  | .aggregateHook, "Hook", q => hookAnswer q
  | .aggregateHook, "AggregateHook", q => single "Hooks" hooksResponse q
  | .feeHook, "Ownable", q => ownableAnswer q
  | .feeHook, "Hook", q => hookAnswer q
  | .feeHook, "FeeHook", q => single "Fee" feeResponse q
  | .merkleHook, "Hook", q => hookAnswer q
  | .merkleHook, "MerkleHook", q => merkleAnswer q
  | .pausableHook, "Pausable", q => pausableAnswer q
  | .pausableHook, "Ownable", q => ownableAnswer q
  | .pausableHook, "Hook", q => hookAnswer q
  | .routingHook, "Ownable", q => ownableAnswer q
  | .routingHook, "Router", q => routerAnswer .text q
  | .routingHook, "Hook", q => hookAnswer q
  | .customHook, "Ownable", q => ownableAnswer q
  | .customHook, "Router", q => routerAnswer .text q
  | .customHook, "Hook", q => hookAnswer q
  | .customHook, "CustomRoutingHook", q => customHookAnswer q
  | .fallbackHook, "Ownable", q => ownableAnswer q
  | .fallbackHook, "Router", q => routerAnswer .text q
  | .fallbackHook, "Hook", q => hookAnswer q
  | .igp, "Ownable", q => ownableAnswer q
  | .igp, "Router", q => routerAnswer .text q
  | .igp, "Hook", q => hookAnswer q
  | .igp, "Oracle", q => oracleAnswer q
  | .igp, "Igp", q => igpAnswer q
  | .oracle, "Ownable", q => ownableAnswer q
  | .oracle, "Oracle", q => oracleAnswer q
  | .aggregateIsm, "Ownable", q => ownableAnswer q
  | .aggregateIsm, "Ism", q => ismAnswer q
  | .aggregateIsm, "AggregateIsm", q => single "Isms" ismsResponse q
  | .multisigIsm, "Ownable", q => ownableAnswer q
  | .multisigIsm, "Ism", q => ismAnswer q
  | .multisigIsm, "MultisigIsm", q => single "EnrolledValidators" enrolledValidatorsResponse q
  | .pausableIsm, "Pausable", q => pausableAnswer q
  | .pausableIsm, "Ownable", q => ownableAnswer q
  | .pausableIsm, "Ism", q => pausableIsmAnswer q
  | .routingIsm, "Ownable", q => ownableAnswer q
  | .routingIsm, "Ism", q => routingIsmAnswer q
  | .routingIsm, "RoutingIsm", q => single "Route" ismRouteResponse q
  | .warpNative, "Ownable", q => ownableAnswer q
  | .warpNative, "Router", q => routerAnswer .hex q
  | .warpNative, "Connection", q => connectionAnswer q
  | .warpNative, "TokenDefault", q => tokenDefaultAnswer q
  | .warpNative, "IsmSpecifier", q => single "InterchainSecurityModule" ismResponse q
  | .warpCw20, "Ownable", q => ownableAnswer q
  | .warpCw20, "Router", q => routerAnswer .hex q
  | .warpCw20, "Connection", q => connectionAnswer q
  | .warpCw20, "TokenDefault", q => tokenDefaultAnswer q
  | .warpCw20, "IsmSpecifier", q => single "InterchainSecurityModule" ismResponse q
  | _, _, _ => none

/-- The same by the value of the query. -/
def answerTo : Contract → Val → Option Ty
  | .va, .variant q _ => answer .va "" q
  | c, .variant g (.variant q _) => answer c g q
  | _, _ => none

/-! ## What the contracts send -/

/-- `Option<T>` -/
def option (f : α → Val) : Option α → Val
  | none => .none
  | some a => .some (f a)

/-- `mailbox::ExecuteMsg::Dispatch`, core/mailbox.rs 106-127 -/
def dispatchVal (m : DispatchMsg) : Val := .variant "Dispatch" (.seq [.nat m.dest.toNat, .bytes m.recipient,
  .bytes m.body, option .text m.hook, option .bytes m.metadata])

/-- The type with which an execute message is written. -/
def payloadTy : Payload → Ty
  | .postDispatch .. => expectedHookMsg
  | .handle .. => expectedHandleMsg
  | .dispatch .. => mailboxMsg
  | .cw20Mint .. | .cw20Burn .. | .cw20Transfer .. | .cw20TransferFrom .. => cw20Msg

/-- The value of an execute message. -/
def payloadVal : Payload → Val
  | .postDispatch metadata message => .variant "PostDispatch" (.seq [.bytes metadata, .bytes message])
  | .handle origin sender body => .variant "Handle" (.seq [.nat origin.toNat, .bytes sender, .bytes body])
  | .dispatch m => dispatchVal m
  | .cw20Mint recipient amount => .variant "Mint" (.seq [.text recipient, .nat amount])
  | .cw20Burn amount => .variant "Burn" (.seq [.nat amount])
  | .cw20Transfer recipient amount => .variant "Transfer" (.seq [.text recipient, .nat amount])
  | .cw20TransferFrom owner recipient amount =>
    .variant "TransferFrom" (.seq [.text owner, .text recipient, .nat amount])

/-- The queries that contracts of the repository make of other contracts. -/
inductive Request where
  /-- `hook::quote_dispatch`, hook/mod.rs 93-107: of the mailbox, and of the aggregate, routing, custom and fallback
  hooks. -/
  | quoteDispatch (metadata message : Bytes)
  /-- `ism::recipient`, ism/mod.rs 93-103: of the mailbox. -/
  | interchainSecurityModule
  /-- `ism::verify`, ism/mod.rs 105-117: of the mailbox and the aggregate module; the same by the routing module,
  `/repo/contracts/isms/routing/src/contract.rs` 119-121. -/
  | verify (metadata message : Bytes)
  /-- By the routing module, `/repo/contracts/isms/routing/src/contract.rs` 132-134, without `wrap`. -/
  | verifyInfo (message : Bytes)
  /-- By the merkle hook, `/repo/contracts/hooks/merkle/src/lib.rs` 88-94. -/
  | latestDispatchId
  /-- By the validator announce, `/repo/contracts/core/va/src/contract.rs` 38-44. -/
  | localDomain
  /-- By the gas paymaster, `/repo/contracts/igps/core/src/query.rs` 72-75 and 133-136. -/
  | exchangeRate (domain : UInt32)
deriving DecidableEq, Repr

/-- `mailbox::QueryMsg` -/
def mailboxQueryMsg : Ty := queryTy .mailbox

/-- `oracle::QueryMsg` -/
def oracleQueryMsg : Ty := queryTy .oracle

/-- The type with which a query is written. -/
def requestTy : Request → Ty
  | .quoteDispatch .. => expectedHookQuery
  | .interchainSecurityModule => expectedIsmSpecifierQuery
  | .verify .. => expectedIsmQuery
  | .verifyInfo .. => ismQuery.ty
  | .latestDispatchId | .localDomain => mailboxQueryMsg
  | .exchangeRate _ => oracleQueryMsg

/-- The value of a query. -/
def requestVal : Request → Val
  | .quoteDispatch metadata message =>
    .variant "Hook" (.variant "QuoteDispatch" (.seq [.bytes metadata, .bytes message]))
  | .interchainSecurityModule => .variant "IsmSpecifier" (.variant "InterchainSecurityModule" (.seq []))
  | .verify metadata message => .variant "Ism" (.variant "Verify" (.seq [.bytes metadata, .bytes message]))
  | .verifyInfo message => .variant "VerifyInfo" (.seq [.bytes message])
  | .latestDispatchId => .variant "Mailbox" (.variant "LatestDispatchId" (.seq []))
  | .localDomain => .variant "Mailbox" (.variant "LocalDomain" (.seq []))
  | .exchangeRate d => .variant "Oracle" (.variant "GetExchangeRateAndGasPrice" (.seq [.nat d.toNat]))

/-- The type with which the answer is read. -/
def expectedTy : Request → Ty
  | .quoteDispatch .. => quoteDispatchResponse
  | .interchainSecurityModule => ismResponse
  | .verify .. => verifyResponse
  | .verifyInfo .. => verifyResponse
  | .latestDispatchId => latestDispatchedIdResponse
  | .localDomain => localDomainResponse
  | .exchangeRate _ => exchangeRateResponse

/-- The answers to these queries. -/
inductive Reply where
  /-- `QuoteDispatchResponse` -/
  | fees (l : List Coin)
  /-- `InterchainSecurityModuleResponse` -/
  | ism (a : Option Addr)
  /-- `VerifyResponse` -/
  | verified (b : Bool)
  /-- `LatestDispatchedIdResponse` -/
  | messageId (b : Bytes)
  /-- `LocalDomainResponse` -/
  | localDomain (d : UInt32)
  /-- `GetExchangeRateAndGasPriceResponse` -/
  | rate (gasPrice exchangeRate : Nat)
deriving DecidableEq, Repr

/-- The value of an answer. -/
def replyVal : Reply → Val
  | .fees l => .seq [.seq (l.map (fun c => .seq [.text c.denom, .nat c.amount]))]
  | .ism a => .seq [option .text a]
  | .verified b => .seq [.bool b]
  | .messageId b => .seq [.bytes b]
  | .localDomain d => .seq [.nat d.toNat]
  | .rate g e => .seq [.nat g, .nat e]

end Hpl.Interface
