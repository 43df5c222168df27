import Verif.Model.Bech32
import Verif.Model.Hooks
import Verif.Model.Metadata

/-! # Interchain gas paymaster and gas oracle (`/repo/contracts/igps`) -/

namespace Hpl

/-- `Uint256` multiplication (library operator): panics on overflow. -/
def mul256 (a b : Nat) : Res Nat :=
  if a * b < 2 ^ 256 then .ok (a * b) else .error (.panic "mul overflow")

/-! ## `/repo/contracts/igps/oracle` -/

namespace Oracle

/-- `RemoteGasData`, state.rs 6-10. -/
structure GasData where
  rate : Nat
  price : Nat
deriving DecidableEq, Repr

/-- `RemoteGasDataConfig`, `/repo/packages/interface/src/igp/oracle.rs` 11-16. -/
structure Config where
  domain : UInt32
  rate : Nat
  price : Nat
deriving DecidableEq, Repr

/-- `REMOTE_GAS_DATA`, state.rs 12-13. -/
abbrev State := OMap UInt32 GasData

/-- `ExecuteMsg` without ownership, `/repo/packages/interface/src/igp/oracle.rs` 18-26. -/
inductive Msg where
  | setConfigs (l : List Config)
  | setConfig (c : Config)

/-- `instantiate`, contract.rs 20-33. -/
def instantiate (valid : Addr → Bool) (owner : Addr) : Res (Ownable.State × State) := do
  ensure (valid owner) "invalid address"
  return (Ownable.init owner, OMap.empty)

/-- `insert_gas_data`, state.rs 15-24. -/
def insertGasData (s : State) (c : Config) : State := s.insert c.domain ⟨c.rate, c.price⟩

/-- The loop of `SetRemoteGasDataConfigs`, contract.rs 53-61. -/
def setAll : State → List Config → Res State
  | s, [] => .ok s
  | s, c :: t => do
    ensure (decide (c.rate ≠ 0)) "exchange rate must be non-zero"
    setAll (insertGasData s c) t

/-- contract.rs 45-82. -/
def part (_ : Addr → Bool) (own : Ownable.State) (s : State) (sender : Addr) (_ : List Coin) :
    Msg → Res (State × Response)
  | .setConfigs l => do
    onlyOwner own sender
    let s' ← setAll s l
    return (s', {})
  | .setConfig c => do
    onlyOwner own sender
    return (insertGasData s c, {})

/-- `execute`, contract.rs 36-83. The world only answers address validation. -/
def execute : Ownable.State × State → ExecCall (Addr → Bool) Msg → Res ((Ownable.State × State) × Response) :=
  execOwned id part

/-- `GetExchangeRateAndGasPrice`, contract.rs 89-98. -/
def getData (s : Ownable.State × State) (domain : UInt32) : Res GasData :=
  match s.2.get domain with
  | some d => .ok d
  | none => .error (.err "not found")

end Oracle

/-! ## `/repo/contracts/igps/core` -/

/-- Answers of the world to the paymaster: address validation, its own balance of a denomination (after the attached
coins have been credited) and what a gas oracle answers for a domain. -/
structure IgpEnv where
  valid : Addr → Bool
  balance : String → Nat
  oracle : Addr → UInt32 → Res Oracle.GasData

namespace Igp

/-- Items of lib.rs 21-34 and the routes of the router package (gas oracle per domain). -/
structure State where
  hrp : String
  gasToken : String
  defaultGas : Nat
  gasFor : OMap UInt32 Nat
  beneficiary : Addr
  routes : Router.State Addr

/-- `ExecuteMsg` without ownership, `/repo/packages/interface/src/igp/core.rs` 45-73. -/
inductive Msg where
  | router (m : Router.Msg Addr)
  | postDispatch (metadata message : Bytes)
  | setDefaultGas (gas : Nat)
  | setGasForDomain (config : List (UInt32 × Nat))
  | unsetGasForDomain (domains : List UInt32)
  | setBeneficiary (a : Addr)
  | payForGas (messageId : Bytes) (dest : UInt32) (gas : Nat) (refund : Addr)
  | claim

/-- `TOKEN_EXCHANGE_RATE_SCALE`, lib.rs 19. -/
def scale : Nat := 10000000000

/-- `instantiate`, contract.rs 21-58. `lower` is `char::is_lowercase`; `supplyOk` says whether the supply query for
the gas token is answered. -/
def instantiate (lower : Char → Bool) (valid : Addr → Bool) (supplyOk : Bool) (hrp : String) (owner : Addr)
    (gasToken : String) (beneficiary : Addr) (defaultGas : Nat) : Res (Ownable.State × State) := do
  ensure (hrp.toList.all lower) "hrp must be lowercase"
  ensure supplyOk "gas token does not exist"
  ensure (valid owner) "invalid address"
  ensure (valid beneficiary) "invalid address"
  return (Ownable.init owner, ⟨hrp, gasToken, defaultGas, OMap.empty, beneficiary, OMap.empty⟩)

/-- `get_default_gas`, lib.rs 36-41. -/
def gasFor (s : State) (domain : UInt32) : Nat := (s.gasFor.get domain).getD s.defaultGas

/-- `ok_or(ContractError::GasOracleNotFound(dest_domain))`, query.rs 68-70. -/
def oracleFor (s : State) (dest : UInt32) : Res Addr :=
  match Router.getRoute s.routes dest with
  | some a => .ok a
  | none => .error (.err "gas oracle not found")

/-- `quote_gas_price`, query.rs 61-82 (and `quote_gas_payment`, 84-92). -/
def quoteGasPrice (oracle : Addr → UInt32 → Res Oracle.GasData) (s : State) (dest : UInt32) (gas : Nat) :
    Res Nat := do
  let a ← oracleFor s dest
  let d ← oracle a dest
  let cost ← mul256 gas d.price
  let total ← mul256 cost d.rate
  return total / scale

/-- The `if !payment_gap.is_zero()` of `pay_for_gas`, execute.rs 165-172. -/
def refundMsgs (gap : Nat) (denom : String) (refund : Addr) : List OutMsg :=
  if gap = 0 then [] else [.bankSend refund [⟨denom, gap⟩]]

/-- `pay_for_gas`, execute.rs 143-183. The event is dropped. -/
def payForGas (e : IgpEnv) (s : State) (funds : List Coin) (dest : UInt32) (gas : Nat) (refund : Addr) :
    Res Response := do
  let received ← mustPay funds s.gasToken
  let needed ← quoteGasPrice e.oracle s dest gas
  ensure (decide (needed ≤ received)) "insufficient funds"
  return { msgs := refundMsgs (received - needed) s.gasToken refund }

/-- The `match` of `post_dispatch`, execute.rs 119-131: gas limit and refund address. The sender of the message is
turned into an address in both branches. -/
def gasAndRefund (C : Codec) (s : State) (metadata : Bytes) (m : Message) : Res (Nat × Addr) :=
  if metadata.length < 32 then do
    let a ← bech32Encode C s.hrp m.sender
    return (gasFor s m.dest, a)
  else do
    let md ← IgpMeta.decode metadata
    let a ← bech32Encode C s.hrp m.sender
    let r ← IgpMeta.refundTo C md s.hrp a
    return (md.gasLimit, r)

/-- `post_dispatch`, execute.rs 110-141. -/
def postDispatch (C : Codec) (e : IgpEnv) (s : State) (funds : List Coin) (metadata message : Bytes) :
    Res Response := do
  let m ← Message.decode message
  let g ← gasAndRefund C s metadata m
  payForGas e s funds m.dest g.1 g.2

/-- `BENEFICIARY.load` and comparison, `claim`, execute.rs 90-108. -/
def claim (e : IgpEnv) (s : State) (sender : Addr) : Res Response := do
  ensure (decide (sender = s.beneficiary)) "unauthorized"
  return { msgs := [.bankSend s.beneficiary [⟨s.gasToken, e.balance s.gasToken⟩]] }

/-- contract.rs 72-98; `set_default_gas`, execute.rs 22-36; `set_gas_for_domain`, 38-54; `unset_gas_for_domain`,
56-72; `set_beneficiary`, 74-88. -/
def part (C : Codec) (e : IgpEnv) (own : Ownable.State) (s : State) (sender : Addr) (funds : List Coin) :
    Msg → Res (State × Response)
  | .router m => do
    let r ← Router.handle own s.routes sender m
    return ({ s with routes := r }, {})
  | .postDispatch metadata message => do
    let r ← postDispatch C e s funds metadata message
    return (s, r)
  | .setDefaultGas g => do
    onlyOwner own sender
    return ({ s with defaultGas := g }, {})
  | .setGasForDomain l => do
    onlyOwner own sender
    return ({ s with gasFor := l.foldl (fun m x => m.insert x.1 x.2) s.gasFor }, {})
  | .unsetGasForDomain l => do
    onlyOwner own sender
    return ({ s with gasFor := l.foldl (fun m x => m.erase x) s.gasFor }, {})
  | .setBeneficiary a => do
    onlyOwner own sender
    ensure (e.valid a) "invalid address"
    return ({ s with beneficiary := a }, {})
  | .payForGas _ dest gas refund => do
    let r ← payForGas e s funds dest gas refund
    return (s, r)
  | .claim => do
    let r ← claim e s sender
    return (s, r)

/-- `execute`, contract.rs 61-99. -/
def execute (C : Codec) : Ownable.State × State → ExecCall IgpEnv Msg → Res ((Ownable.State × State) × Response) :=
  execOwned IgpEnv.valid (part C)

/-- The gas limit in `quote_dispatch`, query.rs 100-109. -/
def quotedGas (s : State) (metadata : Bytes) (dest : UInt32) : Res Nat :=
  if metadata.length < 32 then .ok (gasFor s dest)
  else do
    let md ← IgpMeta.decode metadata
    return md.gasLimit

/-- The answer of `quote_dispatch`, query.rs 112-120: `parse::<u128>` fails for larger values. -/
def feeCoins (denom : String) (fees : Nat) : Res (List Coin) :=
  if fees = 0 then .ok []
  else if fees < u128Lim then .ok [⟨denom, fees⟩]
  else .error (.err "parse int")

/-- `quote_dispatch`, query.rs 94-122. -/
def quoteDispatch (oracle : Addr → UInt32 → Res Oracle.GasData) (s : Ownable.State × State)
    (metadata message : Bytes) : Res (List Coin) := do
  let m ← Message.decode message
  let gas ← quotedGas s.2 metadata m.dest
  let fees ← quoteGasPrice oracle s.2 m.dest gas
  feeCoins s.2.gasToken fees

/-- `get_default_gas`, query.rs 19-23. -/
def getDefaultGas (s : Ownable.State × State) : Nat := s.2.defaultGas

/-- `get_gas_for_domain`, query.rs 25-35: fails if one of the domains has no own setting. -/
def getGasForDomain (s : Ownable.State × State) : List UInt32 → Res (List (UInt32 × Nat))
  | [] => .ok []
  | d :: t => do
    let g ← (match s.2.gasFor.get d with
      | some g => .ok g
      | none => .error (.err "not found"))
    let rest ← getGasForDomain s t
    return (d, g) :: rest

/-- `list_gas_for_domains`, query.rs 37-51. -/
def listGasForDomains (s : Ownable.State × State) (offset : Option UInt32) (limit : Option UInt32)
    (order : Option Order) : Res (List (UInt32 × Nat)) := rangePage s.2.gasFor offset limit order

/-- `get_beneficiary`, query.rs 53-59. -/
def getBeneficiary (s : Ownable.State × State) : Addr := s.2.beneficiary

/-- `get_exchange_rate_and_gas_price`, query.rs 124-137. -/
def getExchangeRate (oracle : Addr → UInt32 → Res Oracle.GasData) (s : Ownable.State × State) (dest : UInt32) :
    Res Oracle.GasData := do
  let a ← oracleFor s.2 dest
  oracle a dest

end Igp

end Hpl
