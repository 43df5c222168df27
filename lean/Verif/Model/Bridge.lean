import Verif.Model.Mailbox
import Verif.Model.Tx
import Verif.Model.Warp

/-! # Two chains, each with a mailbox and a token router

Everything else (users, hooks, security modules, relayers, other recipients, other contracts) is arbitrary. Of a token
only two numbers are kept: what the router holds and the total supply; what others hold is not modelled, so others may
pay any amount at any time. A cw20 token is assumed to behave as its standard says, and the bank and token factory
modules as documented; where they would refuse a message for reasons not modelled here, that is an `abort` of
`Verif/Model/Tx.lean`. -/

namespace Hpl.Bridge

/-- The two chains. -/
inductive Side where
  | left
  | right
deriving DecidableEq, Repr

/-- The other chain. -/
def Side.other : Side → Side
  | .left => .right
  | .right => .left

/-- What is fixed on one chain: which of the two router contracts is used, how addresses are encoded, the addresses of
router and mailbox, and the token (a denomination or a cw20 contract). -/
structure Setup where
  native : Bool
  codec : Codec
  router : Addr
  mailbox : Addr
  token : String

/-- The router contract. -/
def Setup.kind (p : Setup) : Warp.Kind := if p.native then Warp.native else Warp.cw20

/-- Tokens among bank coins. -/
def Setup.coins (p : Setup) (l : List Coin) : Nat :=
  if p.native then ((l.filter (fun c => c.denom = p.token)).map (fun c => c.amount)).sum else 0

/-- State of one chain. -/
structure Chain where
  box : Mailbox.State
  router : Ownable.State × Warp.State
  held : Nat
  supply : Nat

/-- What happens. -/
inductive Act where
  /-- Somebody calls the router; `env` is what the mailbox sees of the world if the router calls it. -/
  | router (side : Side) (c : ExecCall (Addr → Bool) Warp.Msg) (env : Mailbox.Env)
  /-- Somebody calls the mailbox. -/
  | mailbox (side : Side) (c : Mailbox.Call)
  /-- Somebody sends tokens to the router. -/
  | gift (side : Side) (n : Nat)
  /-- Somebody other than the router burns tokens. -/
  | burn (side : Side) (n : Nat)

/-- What can be observed of an act: the response of the router and the responses of the mailbox. -/
structure Out where
  router : Response := {}
  mailbox : List Response := []

/-- Subtraction that fails if there is too little. -/
def sub (a n : Nat) : Res Nat := if n ≤ a then .ok (a - n) else .error (.err "insufficient funds")

/-- A cw20 call by the router. -/
def cw20 (p : Setup) (c : Chain) : Payload → Res Chain
  | .cw20Mint dst n => .ok { c with held := if dst = p.router then c.held + n else c.held, supply := c.supply + n }
  | .cw20Burn n => do
    let h ← sub c.held n
    let t ← sub c.supply n
    return { c with held := h, supply := t }
  | .cw20Transfer dst n => do
    let h ← sub c.held n
    return { c with held := if dst = p.router then c.held else h }
  | .cw20TransferFrom owner dst n =>
    if owner = p.router then .error (.err "no allowance")
    else .ok { c with held := if dst = p.router then c.held + n else c.held }
  | _ => .error (.err "parse error")

/-- A call of the mailbox by the router. -/
def callMailbox (H : Bytes → Bytes) (p : Setup) (env : Mailbox.Env) (c : Chain) (funds : List Coin) :
    Payload → Res (Chain × List Response)
  | .dispatch m => do
    let x ← Mailbox.execute H p.codec c.box ⟨env, p.router, funds, .dispatch m⟩
    return ({ c with box := x.1 }, [x.2])
  | _ => .error (.err "parse error")

/-- Execution of a message of the router. -/
def perform (H : Bytes → Bytes) (p : Setup) (env : Mailbox.Env) (c : Chain) : OutMsg → Res (Chain × List Response)
  | .bankSend dst coins => do
    let h ← sub c.held (p.coins coins)
    return ({ c with held := if dst = p.router then c.held else h }, [])
  | .tfMint _ denom n =>
    .ok (if p.native ∧ denom = p.token then { c with held := c.held + n, supply := c.supply + n } else c, [])
  | .tfBurn _ denom n =>
    if p.native ∧ denom = p.token then do
      let h ← sub c.held n
      let t ← sub c.supply n
      return ({ c with held := h, supply := t }, [])
    else .ok (c, [])
  | .execute dst payload funds => do
    let h ← sub c.held (p.coins funds)
    if dst = p.mailbox then callMailbox H p env { c with held := h } funds payload
    else if p.native = false ∧ dst = p.token then do
      let c' ← cw20 p { c with held := h } payload
      return (c', [])
    else .ok ({ c with held := h }, [])

/-- Execution of all messages of a response of the router. What the hooks called by the mailbox do happens after this:
none of the messages following the dispatch message exists (it is the last one). -/
def performAll (H : Bytes → Bytes) (p : Setup) (env : Mailbox.Env) : Chain → List OutMsg → Res (Chain × List Response)
  | c, [] => .ok (c, [])
  | c, m :: t => do
    let x ← perform H p env c m
    let y ← performAll H p env x.1 t
    return (y.1, x.2 ++ y.2)

/-- A call of the router by `c.sender` with the messages it causes. The attached coins are credited first. -/
def callRouter (H : Bytes → Bytes) (p : Setup) (env : Mailbox.Env) (ch : Chain)
    (c : ExecCall (Addr → Bool) Warp.Msg) : Res (Chain × Response × List Response) := do
  let x ← Warp.execute p.kind p.codec p.router ch.router c
  let y ← performAll H p env { ch with router := x.1, held := ch.held + p.coins c.funds } x.2.msgs
  return (y.1, x.2, y.2)

/-- Delivery by the mailbox: `process` is the only call that emits a call of a message handler, and it emits nothing
else. If another contract is called, what it does is up to it and happens after this. -/
def deliver (H : Bytes → Bytes) (p : Setup) (env : Mailbox.Env) (ch : Chain) :
    List OutMsg → Res (Chain × Response × List Response)
  | [.execute dst (.handle origin sender body) funds] =>
    if dst = p.router then callRouter H p env ch ⟨env.valid, p.mailbox, funds, .inr (.handle origin sender body)⟩
    else .ok (ch, {}, [])
  | _ => .ok (ch, {}, [])

/-- Replaces the state of one chain. -/
def set (s : Side → Chain) (side : Side) (c : Chain) : Side → Chain := fun t => if t = side then c else s t

/-- One step. -/
def step (H : Bytes → Bytes) (P : Side → Setup) (s : Side → Chain) : Act → Res ((Side → Chain) × Out)
  | .router side c env => do
    let x ← callRouter H (P side) env (s side) c
    return (set s side x.1, ⟨x.2.1, x.2.2⟩)
  | .mailbox side c => do
    let x ← Mailbox.execute H (P side).codec (s side).box c
    let y ← deliver H (P side) c.env { s side with box := x.1 } x.2.msgs
    return (set s side y.1, ⟨y.2.1, x.2 :: y.2.2⟩)
  | .gift side n => .ok (set s side { s side with held := (s side).held + n }, {})
  | .burn side n => do
    let t ← sub (s side).supply n
    return (set s side { s side with supply := t }, {})

end Hpl.Bridge
