import Verif.Model.Igp
import Verif.Model.MerkleSystem

/-! # A chain with a mailbox, hooks and accounts

The mailbox and any number of hooks and gas oracles at their addresses, asking and calling each other, together with
the balances of all accounts. A dispatch is followed through the messages it leads to, in the order in which the chain
executes them: the messages of a contract are executed, each with all that follows from it, before the remaining ones
of its caller. The contracts are those of `Verif/Model/Mailbox.lean`, `Hooks.lean` and `Igp.lean`; what is added here is
what the chain itself does. -/

namespace Hpl.HookSystem

/-- A contract that can be a hook, or the gas oracle of one, with its storage. -/
inductive Contract where
  | merkle (s : MerkleHook.State)
  | fee (s : Ownable.State × Coin)
  | pausable (s : Ownable.State × Bool)
  | aggregate (s : Ownable.State × List Addr)
  | routing (s : Ownable.State × Router.State Addr)
  | fallback (s : Ownable.State × FallbackHook.State)
  | custom (s : Ownable.State × CustomHook.State)
  | igp (s : Ownable.State × Igp.State)
  | oracle (s : Ownable.State × Oracle.State)

/-- What does not change: hash function, address codec, valid addresses, address of the mailbox, block height and the
depth of nested queries the chain allows (gas and the runtime's query depth limit). -/
structure World where
  H : Bytes → Bytes
  C : Codec
  valid : Addr → Bool
  mb : Addr
  height : Nat
  depth : Nat

/-- Contracts by address. -/
abbrev Contracts := Addr → Option Contract

/-- Balances: account, denomination. The supply of a denomination is not bounded here. -/
abbrev Bank := Addr → String → Nat

/-- The state of the chain. -/
structure Sys where
  box : Mailbox.State
  hooks : Contracts
  bank : Bank

/-- The exchange rate query of a gas oracle, `/repo/packages/interface/src/igp/oracle.rs` 39-44. A paymaster answers it too, with
the answer of the oracle it has for the domain, `/repo/contracts/igps/core/src/contract.rs` 113-117; `next` is how it asks. -/
def answerRate (hooks : Contracts) (next : Addr → UInt32 → Res Oracle.GasData) (a : Addr) (domain : UInt32) :
    Res Oracle.GasData :=
  match hooks a with
  | some (.oracle s) => Oracle.getData s domain
  | some (.igp s) => Igp.getExchangeRate next s domain
  | _ => .error (.err "not a gas oracle")

/-- The same if not more than some number of contracts can be asked in turn. -/
def oracleOf (hooks : Contracts) : Nat → Addr → UInt32 → Res Oracle.GasData
  | 0 => fun _ _ => .error (.err "out of gas")
  | n + 1 => answerRate hooks (oracleOf hooks n)

/-- The exchange rate query as made by a paymaster. The runtime allows ten nested queries; those open already are not counted here. -/
def oracleAt (hooks : Contracts) : Addr → UInt32 → Res Oracle.GasData := answerRate hooks (oracleOf hooks 9)

/-- The quote query (`hook::quote_dispatch`, `/repo/packages/interface/src/hook/mod.rs` 93-108) answered by the
contract at an address, contracts asking contracts. -/
def quoteOf (hooks : Contracts) : Nat → Addr → Bytes → Bytes → Res (List Coin)
  | 0, _, _, _ => .error (.err "out of gas")
  | n + 1, a, md, m =>
    match hooks a with
    | none => .error (.err "no such contract")
    | some (.merkle _) => .ok MerkleHook.quoteDispatch
    | some (.fee s) => .ok (FeeHook.quoteDispatch s)
    | some (.pausable _) => .ok PausableHook.quoteDispatch
    | some (.aggregate s) => AggregateHook.quoteDispatch (quoteOf hooks n) s md m
    | some (.routing s) => RoutingHook.quoteDispatch (quoteOf hooks n) s md m
    | some (.fallback s) => FallbackHook.quoteDispatch (quoteOf hooks n) s md m
    | some (.custom s) => CustomHook.quoteDispatch (quoteOf hooks n) s md m
    | some (.igp s) => Igp.quoteDispatch (oracleAt hooks) s md m
    | some (.oracle _) => .error (.err "unknown query")

/-- What the mailbox sees of the chain while it dispatches. It asks recipients and modules only when it processes, which
does not happen here. -/
def boxEnv (W : World) (hooks : Contracts) : Mailbox.Env where
  valid := W.valid
  height := W.height
  quote := quoteOf hooks W.depth
  recipientIsm := fun _ => .error (.err "not asked")
  verify := fun _ _ _ => .error (.err "not asked")

/-- What a hook sees of the chain while it post-dispatches. Only claims, which are not made here, look at balances. -/
def hookEnv (W : World) (s : Sys) : HookEnv where
  valid := W.valid
  balances := []
  quote := quoteOf s.hooks W.depth
  latestId := MerkleSystem.latestId W.mb s.box

/-- The same for the paymaster. -/
def igpEnv (W : World) (s : Sys) (self : Addr) : IgpEnv where
  valid := W.valid
  balance := s.bank self
  oracle := oracleAt s.hooks

/-- Moves one coin; fails if the payer has too little. -/
def payCoin (b : Bank) (src dst : Addr) (c : Coin) : Res Bank :=
  if c.amount ≤ b src c.denom then
    let b1 : Bank := fun a d => if a = src ∧ d = c.denom then b a d - c.amount else b a d
    .ok (fun a d => if a = dst ∧ d = c.denom then b1 a d + c.amount else b1 a d)
  else .error (.err "insufficient balance")

/-- Moves coins, `BankMsg::Send` and the funds attached to a call. -/
def pay (b : Bank) (src dst : Addr) : List Coin → Res Bank
  | [] => .ok b
  | c :: t => do
    let b' ← payCoin b src dst c
    pay b' src dst t

/-- `PostDispatch` executed by a contract, the coins already credited. -/
def postDispatch (W : World) (s : Sys) (caller self : Addr) (md m : Bytes) (funds : List Coin) :
    Contract → Res (Contract × Response)
  | .merkle x => do
    let y ← MerkleHook.execute W.H x ⟨MerkleSystem.latestId W.mb s.box, md, m⟩
    return (.merkle y.1, {})
  | .fee x => do
    let y ← FeeHook.execute x ⟨hookEnv W s, caller, funds, .inr (.postDispatch md m)⟩
    return (.fee y.1, y.2)
  | .pausable x => do
    let y ← PausableHook.execute x ⟨hookEnv W s, caller, funds, .inr (.postDispatch md m)⟩
    return (.pausable y.1, y.2)
  | .aggregate x => do
    let y ← AggregateHook.execute x ⟨hookEnv W s, caller, funds, .inr (.postDispatch md m)⟩
    return (.aggregate y.1, y.2)
  | .routing x => do
    let y ← RoutingHook.execute x ⟨hookEnv W s, caller, funds, .inr (.postDispatch md m)⟩
    return (.routing y.1, y.2)
  | .fallback x => do
    let y ← FallbackHook.execute x ⟨hookEnv W s, caller, funds, .inr (.postDispatch md m)⟩
    return (.fallback y.1, y.2)
  | .custom x => do
    let y ← CustomHook.execute x ⟨hookEnv W s, caller, funds, .inr (.postDispatch md m)⟩
    return (.custom y.1, y.2)
  | .igp x => do
    let y ← Igp.execute W.C x ⟨igpEnv W s self, caller, funds, .inr (.postDispatch md m)⟩
    return (.igp y.1, y.2)
  | .oracle _ => .error (.err "unknown message")

/-- The contract at an address. -/
def contractAt (hooks : Contracts) (a : Addr) : Res Contract :=
  match hooks a with
  | some c => .ok c
  | none => .error (.err "no such contract")

/-- Stores a contract. -/
def store (hooks : Contracts) (a : Addr) (c : Contract) : Contracts := fun x => if x = a then some c else hooks x

/-- Executes one message of `src`. The result includes the messages that follow from it, with their sender. Hooks send
no other messages than these. -/
def stepMsg (W : World) (s : Sys) (src : Addr) : OutMsg → Res (Sys × List (Addr × OutMsg))
  | .execute dst (.postDispatch md m) funds => do
    let b ← pay s.bank src dst funds
    let c ← contractAt s.hooks dst
    let x ← postDispatch W { s with bank := b } src dst md m funds c
    return ({ s with bank := b, hooks := store s.hooks dst x.1 }, x.2.msgs.map (fun o => (dst, o)))
  | .bankSend dst coins => do
    let b ← pay s.bank src dst coins
    return ({ s with bank := b }, [])
  | _ => .error (.err "not a message of a hook")

/-- Executes messages and all that follows from them, depth first. `gas` bounds their number. A failure anywhere
fails everything, since the contracts use no reply. -/
def runMsgs (W : World) : Nat → Sys → List (Addr × OutMsg) → Res Sys
  | _, s, [] => .ok s
  | 0, _, _ :: _ => .error (.err "out of gas")
  | gas + 1, s, (src, o) :: t => do
    let x ← stepMsg W s src o
    runMsgs W gas x.1 (x.2 ++ t)

/-- A dispatch by `sender` with attached `funds`, together with everything that follows from it. -/
def dispatch (W : World) (gas : Nat) (s : Sys) (sender : Addr) (funds : List Coin) (q : DispatchMsg) : Res Sys := do
  let b ← pay s.bank sender W.mb funds
  let x ← Mailbox.execute W.H W.C s.box ⟨boxEnv W s.hooks, sender, funds, .dispatch q⟩
  runMsgs W gas { s with box := x.1, bank := b } (x.2.msgs.map (fun o => (W.mb, o)))

/-- Somebody calls the hook at `hook` directly. -/
def callHook (W : World) (gas : Nat) (s : Sys) (sender hook : Addr) (md m : Bytes) (funds : List Coin) : Res Sys :=
  runMsgs W gas s [(sender, .execute hook (.postDispatch md m) funds)]

/-- The quote query of the mailbox. -/
def quoteDispatch (W : World) (s : Sys) (sender : Addr) (q : DispatchMsg) : Res (List Coin) :=
  Mailbox.quoteDispatch W.C (boxEnv W s.hooks) s.box sender q

end Hpl.HookSystem
