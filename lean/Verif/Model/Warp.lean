import Verif.Model.Bech32
import Verif.Model.Hooks
import Verif.Model.WarpMessage

/-! # Token routers (`/repo/contracts/warp/native/src`, `/repo/contracts/warp/cw20/src`)

Both contracts have the same storage and the same messages. Events are dropped. -/

namespace Hpl.Warp

/-- `TokenMode`, `/repo/packages/interface/src/warp/mod.rs` 37-41. -/
inductive Mode where
  | bridged
  | collateral
deriving DecidableEq, Repr

/-- Items `TOKEN`, `MODE`, `HRP`, `MAILBOX` (native/src/lib.rs 17-31, cw20/src/lib.rs 16-30), those of the connection
package and the routes of the router package (remote routers as bytes). `TOKEN` is a denomination resp. a cw20
address; for bridged tokens it is unset until the reply. `MAILBOX` is stored under the key "mailbox", the mailbox of the
connection package under "conn::mailbox". -/
structure State where
  token : Option String
  mode : Mode
  hrp : String
  mailbox : Addr
  conn : Connection.State
  routes : Router.State Bytes

/-- `ExecuteMsg` without ownership, `/repo/packages/interface/src/warp/native.rs` 53-71 and cw20.rs 50-68. -/
inductive Msg where
  | router (m : Router.Msg Bytes)
  | connection (m : Connection.Msg)
  | handle (origin : UInt32) (sender body : Bytes)
  | transferRemote (dest : UInt32) (recipient : Bytes) (amount : Nat) (hook : Option Addr) (metadata : Option Bytes)

/-- `TOKEN.load`. -/
def loadToken (s : State) : Res String :=
  match s.token with
  | some t => .ok t
  | none => .error (.err "not found")

/-- `get_route(..)?.route.expect("route not found")`, native/src/contract.rs 161-163 and 225-227, cw20/src/contract.rs
156-158 and 199-201. -/
def expectRoute (s : State) (domain : UInt32) : Res Bytes :=
  match Router.getRoute s.routes domain with
  | some r => .ok r
  | none => .error (.panic "route not found")

/-- `if let Some(ref custom_hook) = hook { addr_validate(custom_hook)? }`, native/src/contract.rs 229-232,
cw20/src/contract.rs 203-206. -/
def checkHook (valid : Addr → Bool) : Option Addr → Res Unit
  | none => .ok ()
  | some h => ensure (valid h) "invalid address"

/-- `to_uint128`, native/src/conv.rs 43-45, cw20/src/conv.rs 42-44. -/
def toUint128 (n : Nat) : Res Nat := if n < u128Lim then .ok n else .error (.err "parse int")

/-- `mailbox::dispatch` with the payload of a transfer, native/src/contract.rs 241-257, cw20/src/contract.rs 228-242. -/
def dispatchMsg (s : State) (dest : UInt32) (router recipient : Bytes) (amount : Nat) (hook : Option Addr)
    (metadata : Option Bytes) (funds : List Coin) : OutMsg :=
  .execute s.mailbox
    (.dispatch ⟨dest, router, (WarpMessage.mk recipient amount []).encode, hook.or s.conn.hook, metadata⟩) funds

/-- What the two contracts do differently: the messages for an arriving transfer and a transfer to another chain. -/
structure Kind where
  /-- `self token mode recipient amount`. -/
  release : Addr → String → Mode → Addr → Nat → Res (List OutMsg)
  /-- `self token mode sender funds amount`: the coins left and the messages before the dispatch. -/
  take : Addr → String → Mode → Addr → List Coin → Nat → Res (List Coin × List OutMsg)

/-- `mailbox_handle`, native/src/contract.rs 146-195, cw20/src/contract.rs 142-182. -/
def handle (k : Kind) (C : Codec) (self : Addr) (s : State) (sender : Addr) (origin : UInt32)
    (msgSender body : Bytes) : Res Response := do
  ensure (decide (sender = s.mailbox)) "unauthorized"
  let r ← expectRoute s origin
  ensure (decide (msgSender = r)) "unauthorized"
  let m ← WarpMessage.decode body
  let recipient ← bech32Encode C s.hrp m.recipient
  let token ← loadToken s
  let msgs ← k.release self token s.mode recipient m.amount
  return { msgs := msgs }

/-- `transfer_remote`, native/src/contract.rs 198-268, cw20/src/contract.rs 185-255. The two contracts evaluate the
checks in different orders, which only affects which error is reported. The first check stands for parsing the message:
the amount is a `Uint128`. -/
def transferRemote (k : Kind) (valid : Addr → Bool) (self : Addr) (s : State) (sender : Addr) (funds : List Coin)
    (dest : UInt32) (recipient : Bytes) (amount : Nat) (hook : Option Addr) (metadata : Option Bytes) :
    Res Response := do
  ensure (decide (amount < u128Lim)) "parse error"
  let token ← loadToken s
  let p ← k.take self token s.mode sender funds amount
  let r ← expectRoute s dest
  checkHook valid hook
  return { msgs := p.2 ++ [dispatchMsg s dest r recipient amount hook metadata p.1] }

/-- native/src/contract.rs 98-118, cw20/src/contract.rs 94-114. -/
def part (k : Kind) (C : Codec) (self : Addr) (valid : Addr → Bool) (own : Ownable.State) (s : State) (sender : Addr)
    (funds : List Coin) : Msg → Res (State × Response)
  | .router m => do
    let r ← Router.handle own s.routes sender m
    return ({ s with routes := r }, {})
  | .connection m => do
    let c ← Connection.handle valid own s.conn sender m
    return ({ s with conn := c }, {})
  | .handle origin msgSender body => do
    let r ← handle k C self s sender origin msgSender body
    return (s, r)
  | .transferRemote dest recipient amount hook metadata => do
    let r ← transferRemote k valid self s sender funds dest recipient amount hook metadata
    return (s, r)

/-- `execute`, native/src/contract.rs 89-119, cw20/src/contract.rs 85-115. -/
def execute (k : Kind) (C : Codec) (self : Addr) :
    Ownable.State × State → ExecCall (Addr → Bool) Msg → Res ((Ownable.State × State) × Response) :=
  execOwned id (part k C self)

/-- The storage after `instantiate`, native/src/contract.rs 30-86, cw20/src/contract.rs 29-82. For a collateral token
`token` is its denomination resp. address, the latter validated; for bridged tokens it is `none` and a submessage creates
the token. -/
def instantiate (valid : Addr → Bool) (hrp : String) (owner mailbox : Addr) (mode : Mode) (token : Option String) :
    Res (Ownable.State × State) := do
  ensure (valid owner) "invalid address"
  ensure (valid mailbox) "invalid address"
  return (Ownable.init owner, ⟨token, mode, hrp, mailbox, Connection.empty, OMap.empty⟩)

/-- `reply`, native/src/contract.rs 122-144, cw20/src/contract.rs 118-140, for the only submessage there is: `created`
is the denomination resp. address in the reply data, `none` if it cannot be parsed (or validated). -/
def reply (s : Ownable.State × State) (created : Option String) : Res (Ownable.State × State) :=
  match created with
  | some t => .ok (s.1, { s.2 with token := some t })
  | none => .error (.err "invalid reply")

/-- Instantiation as the chain executes it: for a bridged token the submessage and its reply belong to it. `token` is
the given denomination or address in collateral mode (`validToken` says whether it passes validation, cw20 only), and
what the reply says in bridged mode. -/
def deploy (valid : Addr → Bool) (validToken : Bool) (hrp : String) (owner mailbox : Addr) (mode : Mode)
    (token : Option String) : Res (Ownable.State × State) :=
  match mode with
  | .collateral => do
    ensure validToken "invalid address"
    match token with
    | some t => instantiate valid hrp owner mailbox .collateral (some t)
    | none => .error (.err "no token")
  | .bridged => do
    let s ← instantiate valid hrp owner mailbox .bridged none
    reply s token

/-- The query `InterchainSecurityModule`, native/src/contract.rs 282-286, cw20/src/contract.rs 269-273. -/
def interchainSecurityModule (s : Ownable.State × State) : Option Addr := s.2.conn.ism

/-! ## Native -/

/-- `funds.iter().enumerate().find(|(_, v)| v.denom == token)` and the subtraction, native/src/contract.rs 212-223: the
first coin of that denomination is lowered, which may leave a coin of amount zero. -/
def takeCoin (token : String) (amount : Nat) : List Coin → Res (List Coin)
  | [] => .error (.panic "no funds sent")
  | c :: t =>
    if c.denom = token then
      if amount ≤ c.amount then .ok (⟨c.denom, c.amount - amount⟩ :: t) else .error (.err "insufficient funds")
    else do
      let t' ← takeCoin token amount t
      return c :: t'

/-- native/src/contract.rs 174-187 and 212-239. -/
def native : Kind where
  release self token mode recipient amount := do
    let n ← toUint128 amount
    return (match mode with
      | .bridged => [.tfMint self token amount]
      | .collateral => []) ++ [.bankSend recipient [⟨token, n⟩]]
  take self token mode _ funds amount := do
    let rest ← takeCoin token amount funds
    return (rest, match mode with
      | .bridged => [.tfBurn self token amount]
      | .collateral => [])

/-! ## Cw20 -/

/-- cw20/src/contract.rs 168-174 and 208-226. -/
def cw20 : Kind where
  release _ token mode recipient amount := do
    let n ← toUint128 amount
    return match mode with
      | .bridged => [.execute token (.cw20Mint recipient n) []]
      | .collateral => [.execute token (.cw20Transfer recipient n) []]
  take self token mode sender funds amount :=
    .ok (funds, .execute token (.cw20TransferFrom sender self amount) [] ::
      (match mode with
      | .bridged => [.execute token (.cw20Burn amount) []]
      | .collateral => []))

end Hpl.Warp
