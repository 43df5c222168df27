import Verif.Model.TokenWorld
import Verif.Spec.TokenNet

/-! # What is claimed of tokens on the chains of a network -/

namespace Hpl.Spec

open Bridge TokenWorld

variable {κ : Type}

/-- What an account holds of the token of a chain. -/
def holding (p : Setup) (c : TokenWorld.Chain) (a : Addr) : Nat :=
  if p.native then c.bank.balance a p.token else c.token.balance a

/-- Supply of the token of a chain. -/
def tokenSupply (p : Setup) (c : TokenWorld.Chain) : Nat := if p.native then c.bank.supply p.token else c.token.supply

/-- What `TokenNet` keeps of a chain: what the router holds, and the supply if the token is bridged. -/
def view (P : κ → Setup) (M : κ → Warp.Mode) (s : κ → TokenWorld.Chain) (x : κ) : Bridge.Chain :=
  ⟨(s x).box, (s x).router, holding (P x) (s x) (P x).router,
    if M x = .bridged then tokenSupply (P x) (s x) else 0⟩

/-- Tokens somebody hands to the router, if they go there. -/
def given (p : Setup) (dst : Addr) (n : Nat) : Nat := if dst = p.router then n else 0

/-- Tokens of a router moved to or destroyed by others with the bank: what the router gets and what is destroyed. -/
def bankEffect (p : Setup) : Bank.Op → Nat × Nat
  | .send dst coins => (given p dst (p.coins coins), 0)
  | .burnOwn coins => (0, p.coins coins)
  | .issue denom dst n => (if p.native ∧ denom = p.token then given p dst n else 0, 0)
  | _ => (0, 0)

/-- The same for a cw20 token. -/
def tokenEffect (p : Setup) : Cw20.Op → Nat × Nat
  | .transfer dst n => (given p dst n, 0)
  | .burn n => (0, n)
  | .mint dst n => (given p dst n, 0)
  | .transferFrom _ dst n => (given p dst n, 0)
  | .burnFrom _ n => (0, n)
  | _ => (0, 0)

/-- A gift, or tokens destroyed, which only matters if they are bridged. -/
def asAct (M : κ → Warp.Mode) (x : κ) : Nat × Nat → TokenNet.Act κ
  | (g, b) => if M x = .bridged ∧ b ≠ 0 then .burn x b else .gift x g

/-- The act `TokenNet` sees. -/
def viewAct (P : κ → Setup) (M : κ → Warp.Mode) : TokenWorld.Act κ → TokenNet.Act κ
  | .router x c env => .router x c env
  | .mailbox x c => .mailbox x c
  | .bank x _ op => asAct M x (bankEffect (P x) op)
  | .token x _ op => asAct M x (if (P x).native then (0, 0) else tokenEffect (P x) op)

/-- The log `TokenNet` sees. -/
def viewLog (P : κ → Setup) (M : κ → Warp.Mode) (log : List (Tx.Entry (TokenWorld.Act κ) Out)) : TokenLog κ :=
  log.map (fun e => (viewAct P M e.1, e.2))

/-- The tokens are what the routers need: a bridged token is controlled by its router alone, without
cap; a native collateral token
exists and has no administrator, who could take it away from the router; the router has allowed nobody to spend its cw20
tokens. Mailbox, router and modes are as given. -/
structure OwnTokens (P : κ → Setup) (M : κ → Warp.Mode) (s : κ → TokenWorld.Chain) : Prop where
  distinct : ∀ x, (P x).mailbox ≠ (P x).router
  mode : ∀ x, (s x).router.2.mode = M x
  exist : ∀ x, (P x).native = true → (s x).bank.known (P x).token = true
  admin : ∀ x, (P x).native = true →
    (s x).bank.admin (P x).token = if M x = .bridged then some (P x).router else none
  minter : ∀ x, (P x).native = false → M x = .bridged → (s x).token.minter = some ((P x).router, none)
  allowance : ∀ x, (P x).native = false → ∀ a, (s x).token.allowance (P x).router a = none

/-- The balances of all accounts amount to the supply, which is a `Uint128` for cw20 tokens. -/
def Covered (P : κ → Setup) (s : κ → TokenWorld.Chain) : Prop :=
  ∀ x, (∃ T : Finset Addr, (∀ a, a ∉ T → holding (P x) (s x) a = 0) ∧
    ∑ a ∈ T, holding (P x) (s x) a = tokenSupply (P x) (s x)) ∧
    ((P x).native = false → (s x).token.supply < 2 ^ 128)

/-- The supply of all bridged tokens. -/
def bridgedSupply [Fintype κ] (P : κ → Setup) (M : κ → Warp.Mode) (s : κ → TokenWorld.Chain) : Nat :=
  ∑ x, if M x = .bridged then tokenSupply (P x) (s x) else 0

/-- What collateral routers hold. -/
def lockedCollateral [Fintype κ] (P : κ → Setup) (M : κ → Warp.Mode) (s : κ → TokenWorld.Chain) : Nat :=
  ∑ x, if M x = .collateral then holding (P x) (s x) (P x).router else 0

/-- What given accounts hold of bridged tokens. -/
def bridgedHoldings [Fintype κ] (P : κ → Setup) (M : κ → Warp.Mode) (s : κ → TokenWorld.Chain) (A : κ → Finset Addr) : Nat :=
  ∑ x, if M x = .bridged then ∑ a ∈ A x, holding (P x) (s x) a else 0

/-- Who acts, and on which chain. -/
def actorOf : TokenWorld.Act κ → κ × Addr
  | .router x c _ => (x, c.sender)
  | .mailbox x c => (x, c.sender)
  | .bank x sender _ => (x, sender)
  | .token x sender _ => (x, sender)

/-- What a caller of the router offers: the tokens attached and, for cw20 tokens, the amount of a transfer. -/
def offered (p : Setup) (c : ExecCall (Addr → Bool) Warp.Msg) : Nat :=
  p.coins c.funds + match c.msg with
    | .inr (.transferRemote _ _ amount _ _) => if p.native then 0 else amount
    | _ => 0

end Hpl.Spec
