import Verif.Model.Proto
import Verif.Model.TokenWorld

/-! # Deployment of token routers

`instantiate` of the two contracts with the submessage it causes, executed by the chain, and the reply. -/

namespace Hpl.Deploy

/-- The fields of `InstantiateMsg` the contracts have in common, `/repo/packages/interface/src/warp/native.rs` 47-54,
`/repo/packages/interface/src/warp/cw20.rs` 39-46. -/
structure Init where
  hrp : String
  owner : Addr
  mailbox : Addr
deriving DecidableEq, Repr

/-! ## Native -/

/-- `TokenModeMsg<NativeModeBriged, NativeModeCollateral>`, native.rs 36-45. Left out are the metadata of a bridged
denomination, which is only for display (`Proto.instantiateMsgs`). -/
inductive NativeToken where
  | bridged (sub : String)
  | collateral (denom : String)
deriving DecidableEq, Repr

/-- The answer of the token factory, `MsgCreateDenomResponse`, `/repo/contracts/warp/native/src/proto.rs` 22-27. -/
def createResponse (denom : String) : Bytes := Proto.string 1 denom

/-- `instantiate`, `/repo/contracts/warp/native/src/contract.rs` 30-86, with `MsgCreateDenom` executed and `reply`,
contract.rs 122-144. -/
def native (valid : Addr → Bool) (self : Addr) (i : Init) (b : Bank) :
    NativeToken → Res ((Ownable.State × Warp.State) × Bank)
  | .bridged sub => do
    let s ← Warp.instantiate valid i.hrp i.owner i.mailbox .bridged none
    let b' ← b.create self sub
    let s' ← Proto.reply s 0 (some (createResponse (Bank.factoryDenom self sub)))
    return (s', b')
  | .collateral denom => do
    let s ← Warp.instantiate valid i.hrp i.owner i.mailbox .collateral (some denom)
    return (s, b)

/-! ## Cw20 -/

/-- `TokenModeMsg<Cw20ModeBridged, Cw20ModeCollateral>`, cw20.rs 28-37. -/
inductive Cw20Token where
  | bridged (codeId : Nat) (init : Cw20.Init)
  | collateral (address : Addr)

/-- `WasmMsg::Instantiate`. -/
structure WasmInstantiate where
  admin : Option Addr
  codeId : Nat
  msg : Cw20.Init
  funds : List Coin
  label : String

/-- The submessage, `/repo/contracts/warp/cw20/src/contract.rs` 49-67: whoever the message says may mint is replaced by
the router, without cap; everything else stays as given. -/
def tokenMsg (self : Addr) (codeId : Nat) (init : Cw20.Init) : WasmInstantiate :=
  ⟨some self, codeId, { init with mint := some (self, none) }, [], "token warp cw20"⟩

/-- `cw_utils::parse_protobuf_varint` (a dependency): at most nine bytes. -/
def parseVarint : Nat → Bytes → Res (Nat × Bytes)
  | 0, _ => .error (.err "varint data too long")
  | _ + 1, [] => .error (.err "varint data too short")
  | count + 1, b :: t =>
    if b.toNat < 128 then .ok (b.toNat, t)
    else do
      let x ← parseVarint count t
      return (b.toNat - 128 + 128 * x.1, x.2)

/-- `cw_utils::parse_protobuf_length_prefixed` (a dependency): the next field must be the given one; no bytes at all are an
empty field. -/
def parseField (k : Nat) : Bytes → Res (Bytes × Bytes)
  | [] => .ok ([], [])
  | b :: t => do
    ensure (decide (b.toNat / 8 = k)) "invalid field"
    ensure (decide (b.toNat % 4 = 2)) "invalid wire type"
    let x ← parseVarint 9 t
    Proto.splitBytes x.1 x.2

/-- `cw_utils::parse_instantiate_response_data` (a dependency): the address in field 1, then optionally data in field 2,
and what follows is ignored. The result is the address. -/
def parseResponse (b : Bytes) : Res Addr := do
  let x ← parseField 1 b
  let _ ← parseField 2 x.2
  match Proto.ofUtf8 x.1 with
  | some s => return s
  | none => .error (.err "invalid UTF-8")

/-- The answer of the chain to `MsgInstantiateContract`: the address of the new contract, and the data it returned, if any. -/
def instantiateResponse (address : Addr) (data : Bytes) : Bytes :=
  Proto.string 1 address ++ (if data = [] then [] else Proto.encodeField 2 (.bytes data))

/-- `reply`, `/repo/contracts/warp/cw20/src/contract.rs` 118-140. `REPLY_ID_CREATE_DENOM` is 0,
`/repo/contracts/warp/cw20/src/lib.rs`. -/
def cw20Reply (valid : Addr → Bool) (s : Ownable.State × Warp.State) (id : Nat) (data : Option Bytes) :
    Res (Ownable.State × Warp.State) :=
  if id = 0 then
    match data with
    | none => .error (.err "no reply data")
    | some b => do
      let a ← parseResponse b
      ensure (valid a) "invalid address"
      return (s.1, { s.2 with token := some a })
  else .error (.err "invalid reply id")

/-- `instantiate`, cw20/src/contract.rs 29-82, with the submessage executed and its reply. `token` is the contract at the
address of the collateral; `created` and `data` are what the chain says of the new contract. It runs the code with the id
given by the deployer, which is assumed to be cw20-base (`strict` says which version). -/
def cw20 (valid : Addr → Bool) (self : Addr) (i : Init) (strict : Bool) (created : Addr) (data : Bytes) (token : Cw20) :
    Cw20Token → Res ((Ownable.State × Warp.State) × Cw20)
  | .bridged codeId init => do
    let s ← Warp.instantiate valid i.hrp i.owner i.mailbox .bridged none
    let t ← Cw20.instantiate strict valid (tokenMsg self codeId init).msg
    let s' ← cw20Reply valid s 0 (some (instantiateResponse created data))
    return (s', t)
  | .collateral address => do
    ensure (valid address) "invalid address"
    let s ← Warp.instantiate valid i.hrp i.owner i.mailbox .collateral (some address)
    return (s, token)

end Hpl.Deploy
