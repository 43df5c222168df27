import Verif.Model.Igp
import Verif.Model.Tx

/-! # A contract together with its account

The account of one contract in the bank module. Coins arrive with calls or as plain transfers of others (amounts are
arbitrary: what others own is not modelled), and leave only by messages of the contract itself. A bank transfer fails
if the account holds too little; the chain may refuse it for any other reason too, which is an `abort` of
`Verif/Model/Tx.lean`. The contracts studied here emit nothing but bank messages, so a call with its messages is one
step. -/

namespace Hpl.Ledger

/-- What happens to the account: a call of the contract by somebody else, or a transfer to it. -/
inductive Act (ε μ : Type) where
  | call (c : ExecCall ε μ)
  | gift (coins : List Coin)

/-- Executes the bank messages of a response on the account of `self`. -/
def performAll (self : Addr) : Coins → List OutMsg → Res Coins
  | b, [] => .ok b
  | b, .bankSend dst coins :: t => do
    let b' ← Coins.subAll b coins
    performAll self (if dst = self then b else b') t
  | b, _ :: t => performAll self b t

variable {ε σ μ : Type}

/-- One step. The attached coins are credited before the contract runs; `see` puts the balance into what the contract
sees of the world. -/
def step (see : Coins → ε → ε) (exec : σ → ExecCall ε μ → Res (σ × Response)) (self : Addr) (x : σ × Coins) :
    Act ε μ → Res ((σ × Coins) × Response)
  | .call c => do
    let b ← Coins.addAll x.2 c.funds
    let p ← exec x.1 { c with env := see b c.env }
    let b' ← performAll self b p.2.msgs
    return ((p.1, b'), p.2)
  | .gift coins => do
    let b ← Coins.addAll x.2 coins
    return ((x.1, b), {})

end Hpl.Ledger

namespace Hpl

/-- The fee hook with its account: `query_all_balances` (`/repo/contracts/hooks/fee/src/lib.rs` 98) answers all its
coins. -/
def FeeHook.ledger := Ledger.step (fun b (e : HookEnv) => { e with balances := Coins.toVec b }) FeeHook.execute

/-- The paymaster with its account: `query_balance` (`/repo/contracts/igps/core/src/execute.rs` 99-101). -/
def Igp.ledger (C : Codec) :=
  Ledger.step (fun b (e : IgpEnv) => { e with balance := fun d => (b.get d).getD 0 }) (Igp.execute C)

end Hpl
