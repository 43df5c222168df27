import Verif.Model.HookSystem

/-! # All calls of the mailbox, the hooks and the gas oracles of a chain

`HookSystem.lean` follows dispatches and post-dispatches. Here are the other messages of these contracts: ownership,
settings, claims, payments for gas and processing. -/

namespace Hpl.HookSystem

/-- A message to a hook or gas oracle, by the kind of the contract. The merkle hook only knows `PostDispatch`
(`/repo/packages/interface/src/hook/merkle.rs` 13-16). -/
inductive HookMsg where
  | fee (m : Ownable.Msg ⊕ FeeHook.Msg)
  | pausable (m : Ownable.Msg ⊕ PausableHook.Msg)
  | aggregate (m : Ownable.Msg ⊕ AggregateHook.Msg)
  | routing (m : Ownable.Msg ⊕ RoutingHook.Msg)
  | fallback (m : Ownable.Msg ⊕ FallbackHook.Msg)
  | custom (m : Ownable.Msg ⊕ CustomHook.Msg)
  | igp (m : Ownable.Msg ⊕ Igp.Msg)
  | oracle (m : Ownable.Msg ⊕ Oracle.Msg)

/-- Execution of a message by a contract, the coins already credited. `balances` is the answer to the query for all
balances of the contract, which only the claim of the fee hook asks for. A message of another kind of contract cannot be
read. -/
def execHook (W : World) (s : Sys) (balances : List Coin) (caller self : Addr) (funds : List Coin) :
    HookMsg → Contract → Res (Contract × Response)
  | .fee m, .fee x => do
    let y ← FeeHook.execute x ⟨{ hookEnv W s with balances := balances }, caller, funds, m⟩
    return (.fee y.1, y.2)
  | .pausable m, .pausable x => do
    let y ← PausableHook.execute x ⟨hookEnv W s, caller, funds, m⟩
    return (.pausable y.1, y.2)
  | .aggregate m, .aggregate x => do
    let y ← AggregateHook.execute x ⟨hookEnv W s, caller, funds, m⟩
    return (.aggregate y.1, y.2)
  | .routing m, .routing x => do
    let y ← RoutingHook.execute x ⟨hookEnv W s, caller, funds, m⟩
    return (.routing y.1, y.2)
  | .fallback m, .fallback x => do
    let y ← FallbackHook.execute x ⟨hookEnv W s, caller, funds, m⟩
    return (.fallback y.1, y.2)
  | .custom m, .custom x => do
    let y ← CustomHook.execute x ⟨hookEnv W s, caller, funds, m⟩
    return (.custom y.1, y.2)
  | .igp m, .igp x => do
    let y ← Igp.execute W.C x ⟨igpEnv W s self, caller, funds, m⟩
    return (.igp y.1, y.2)
  | .oracle m, .oracle x => do
    let y ← Oracle.execute x ⟨W.valid, caller, funds, m⟩
    return (.oracle y.1, y.2)
  | _, _ => .error (.err "unknown message")

/-- A call of a hook or gas oracle by `caller`: the new state and the messages that follow from it, with their
sender. -/
def callContract (W : World) (s : Sys) (balances : List Coin) (caller self : Addr) (funds : List Coin) (m : HookMsg) :
    Res (Sys × List (Addr × OutMsg)) := do
  let b ← pay s.bank caller self funds
  let c ← contractAt s.hooks self
  let x ← execHook W { s with bank := b } balances caller self funds m c
  return ({ s with bank := b, hooks := store s.hooks self x.1 }, x.2.msgs.map (fun o => (self, o)))

/-- A call of the mailbox by `caller`. Recipients and modules, which are not contracts of this model, answer the mailbox
as they like. -/
def callBox (W : World) (s : Sys) (recipientIsm : Addr → Res (Option Addr)) (verify : Addr → Bytes → Bytes → Res Bool)
    (caller : Addr) (funds : List Coin) (m : Mailbox.Msg) : Res (Sys × List (Addr × OutMsg)) := do
  let b ← pay s.bank caller W.mb funds
  let x ← Mailbox.execute W.H W.C s.box
    ⟨{ boxEnv W s.hooks with recipientIsm := recipientIsm, verify := verify }, caller, funds, m⟩
  return ({ s with box := x.1, bank := b }, x.2.msgs.map (fun o => (W.mb, o)))

end Hpl.HookSystem
