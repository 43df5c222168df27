import Verif.Model.Bridge
import Mathlib.Logic.Function.Basic

/-! # Any number of chains, each with a mailbox and a token router

The chains of `Verif/Model/Bridge.lean`, one for every element of an arbitrary collection `κ`. What happens on a chain is
what is described there; an act concerns one chain and leaves the others alone. All chains use the same hash; the router
contract, address format, addresses and token are the concern of each chain. -/

namespace Hpl.TokenNet

open Bridge

variable {κ : Type} [DecidableEq κ]

/-- What happens; the acts of `Bridge.Act` on one of many chains. -/
inductive Act (κ : Type) where
  /-- Somebody calls the router; `env` is what the mailbox sees of the world if the router calls it. -/
  | router (chain : κ) (c : ExecCall (Addr → Bool) Warp.Msg) (env : Mailbox.Env)
  /-- Somebody calls the mailbox. -/
  | mailbox (chain : κ) (c : Mailbox.Call)
  /-- Somebody sends tokens to the router. -/
  | gift (chain : κ) (n : Nat)
  /-- Somebody other than the router burns tokens. -/
  | burn (chain : κ) (n : Nat)

/-- One step. Calls of the router: `execute` of `/repo/contracts/warp/native/src/contract.rs` 89-119 or
`/repo/contracts/warp/cw20/src/contract.rs` 85-115 with the messages it emits; calls of the mailbox: `execute` of
`/repo/contracts/core/mailbox/src/contract.rs` 51-70 with the delivery to the router. -/
def step (H : Bytes → Bytes) (P : κ → Setup) (s : κ → Chain) : Act κ → Res ((κ → Chain) × Out)
  | .router x c env => do
    let y ← callRouter H (P x) env (s x) c
    return (Function.update s x y.1, ⟨y.2.1, y.2.2⟩)
  | .mailbox x c => do
    let y ← Mailbox.execute H (P x).codec (s x).box c
    let z ← deliver H (P x) c.env { s x with box := y.1 } y.2.msgs
    return (Function.update s x z.1, ⟨z.2.1, y.2 :: z.2.2⟩)
  | .gift x n => .ok (Function.update s x { s x with held := (s x).held + n }, {})
  | .burn x n => do
    let t ← sub (s x).supply n
    return (Function.update s x { s x with supply := t }, {})

end Hpl.TokenNet
