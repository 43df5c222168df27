import Verif.Model.TokenNet
import Verif.Model.Ledgers

/-! # Networks of token routers with their tokens

As `Verif/Model/TokenNet.lean`, but with the tokens themselves: on every chain there is a bank with a token factory and a
cw20 token with all balances, and anybody may use them. What is only a number in `Bridge.Chain` (what the router holds,
the supply) is here the result of what these ledgers do, and a message of the router succeeds only if they let it. -/

namespace Hpl.TokenWorld

open Bridge (Setup Out)

/-- State of one chain. `token` is the contract at the address `Setup.token` and plays no role for a native router. -/
structure Chain where
  box : Mailbox.State
  router : Ownable.State × Warp.State
  bank : Bank
  token : Cw20

/-- A cw20 call by the router. -/
def cw20 (p : Setup) (t : Cw20) : Payload → Res Cw20
  | .cw20Mint dst n => t.mint p.router dst n
  | .cw20Burn n => t.burn p.router n
  | .cw20Transfer dst n => t.transfer p.router dst n
  | .cw20TransferFrom owner dst n => t.transferFrom p.router owner dst n
  | _ => .error (.err "parse error")

/-- A call of the mailbox by the router. -/
def callMailbox (H : Bytes → Bytes) (p : Setup) (env : Mailbox.Env) (c : Chain) (funds : List Coin) :
    Payload → Res (Chain × List Response)
  | .dispatch m => do
    let x ← Mailbox.execute H p.codec c.box ⟨env, p.router, funds, .dispatch m⟩
    return ({ c with box := x.1 }, [x.2])
  | _ => .error (.err "parse error")

/-- Execution of a message of the router: `BankMsg::Send`, messages to the token factory (which the chain accepts only in
the name of the contract itself), and calls of other contracts with coins. A router calls only its mailbox and its token. -/
def perform (H : Bytes → Bytes) (p : Setup) (env : Mailbox.Env) (c : Chain) : OutMsg → Res (Chain × List Response)
  | .bankSend dst coins => do
    let b ← c.bank.send p.router dst coins
    return ({ c with bank := b }, [])
  | .tfMint sender denom n => do
    ensure (decide (sender = p.router)) "unauthorized"
    let b ← c.bank.mint sender denom n sender
    return ({ c with bank := b }, [])
  | .tfBurn sender denom n => do
    ensure (decide (sender = p.router)) "unauthorized"
    let b ← c.bank.burn sender denom n sender
    return ({ c with bank := b }, [])
  | .execute dst payload funds => do
    let b ← c.bank.move p.router dst funds
    if dst = p.mailbox then callMailbox H p env { c with bank := b } funds payload
    else if p.native = false ∧ dst = p.token then do
      let t ← cw20 p c.token payload
      return ({ c with bank := b, token := t }, [])
    else .error (.err "no such contract")

/-- Execution of all messages of a response of the router. -/
def performAll (H : Bytes → Bytes) (p : Setup) (env : Mailbox.Env) : Chain → List OutMsg → Res (Chain × List Response)
  | c, [] => .ok (c, [])
  | c, m :: t => do
    let x ← perform H p env c m
    let y ← performAll H p env x.1 t
    return (y.1, x.2 ++ y.2)

/-- A call of the router by `c.sender` with the messages it causes. The attached coins come from the caller, who is not
the router: it never calls itself. -/
def callRouter (H : Bytes → Bytes) (p : Setup) (env : Mailbox.Env) (ch : Chain)
    (c : ExecCall (Addr → Bool) Warp.Msg) : Res (Chain × Response × List Response) := do
  ensure (decide (c.sender ≠ p.router)) "no such caller"
  let b ← ch.bank.move c.sender p.router c.funds
  let x ← Warp.execute p.kind p.codec p.router ch.router c
  let y ← performAll H p env { ch with router := x.1, bank := b } x.2.msgs
  return (y.1, x.2, y.2)

/-- Delivery by the mailbox, as in `Bridge.deliver`. -/
def deliver (H : Bytes → Bytes) (p : Setup) (env : Mailbox.Env) (ch : Chain) :
    List OutMsg → Res (Chain × Response × List Response)
  | [.execute dst (.handle origin sender body) funds] =>
    if dst = p.router then callRouter H p env ch ⟨env.valid, p.mailbox, funds, .inr (.handle origin sender body)⟩
    else .ok (ch, {}, [])
  | _ => .ok (ch, {}, [])

/-- What happens. -/
inductive Act (κ : Type) where
  /-- Somebody calls the router; `env` is what the mailbox sees of the world if the router calls it. -/
  | router (chain : κ) (c : ExecCall (Addr → Bool) Warp.Msg) (env : Mailbox.Env)
  /-- Somebody calls the mailbox. -/
  | mailbox (chain : κ) (c : Mailbox.Call)
  /-- Somebody uses the bank or the token factory. -/
  | bank (chain : κ) (sender : Addr) (op : Bank.Op)
  /-- Somebody calls the cw20 token. -/
  | token (chain : κ) (sender : Addr) (op : Cw20.Op)

variable {κ : Type} [DecidableEq κ]

/-- One step. What the router does with tokens are its messages, executed with the call that causes them, so nobody else
acts in its name; it has no entry for tokens sent with `Cw20ExecuteMsg::Send` (`ExecuteMsg`,
`/repo/packages/interface/src/warp/cw20.rs` 45-63). What hooks and other contracts do with coins they were sent are other
acts. -/
def step (H : Bytes → Bytes) (P : κ → Setup) (s : κ → Chain) : Act κ → Res ((κ → Chain) × Out)
  | .router x c env => do
    let y ← callRouter H (P x) env (s x) c
    return (Function.update s x y.1, ⟨y.2.1, y.2.2⟩)
  | .mailbox x c => do
    ensure (decide (c.sender ≠ (P x).router)) "no such caller"
    let b ← (s x).bank.move c.sender (P x).mailbox c.funds
    let y ← Mailbox.execute H (P x).codec (s x).box c
    let z ← deliver H (P x) c.env { s x with box := y.1, bank := b } y.2.msgs
    return (Function.update s x z.1, ⟨z.2.1, y.2 :: z.2.2⟩)
  | .bank x sender op => do
    ensure (decide (sender ≠ (P x).router)) "no such caller"
    let b ← (s x).bank.run sender op
    return (Function.update s x { s x with bank := b }, {})
  | .token x sender op => do
    ensure (decide (sender ≠ (P x).router)) "no such caller"
    let t ← (s x).token.run (P x).router sender op
    return (Function.update s x { s x with token := t }, {})

end Hpl.TokenWorld
