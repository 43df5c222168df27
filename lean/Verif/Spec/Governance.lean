import Verif.Model.Igp
import Verif.Model.Isms
import Verif.Model.Mailbox
import Verif.Model.Warp
import Verif.Spec.Exec

/-! # Owners and what they may set

Every contract of the repository that has an owner is described in the same way: its states and calls, its owner, and
for each call whether it is about ownership, about settings, or use. For settings the description says when their content is
acceptable. -/

namespace Hpl.Spec

/-- What a call is about. -/
inductive Act (σ : Type) where
  /-- A message about ownership; `valid` is the address validation of the chain at that moment. -/
  | ownership (valid : Addr → Bool) (m : Ownable.Msg)
  /-- A message that changes settings; `fine` says whether its content is acceptable in a state. -/
  | settings (fine : σ → Prop)
  /-- Anything else. -/
  | use

/-- A contract with an owner. -/
structure Governed where
  State : Type
  Call : Type
  /-- After deployment. -/
  start : State → Prop
  step : State → Call → Res State
  /-- What the queries `GetOwner` and `GetPendingOwner` answer. -/
  own : State → Ownable.State
  sender : Call → Addr
  act : Call → Act State

/-- Settings messages, by the answers of the world at the time of the call. -/
def actOf {μ σ τ : Type} (valid : Addr → Bool) (proj : τ → σ) (fine : μ → Option (σ → Prop)) : Ownable.Msg ⊕ μ → Act τ
  | .inl m => .ownership valid m
  | .inr m =>
    match fine m with
    | some f => .settings (fun s => f (proj s))
    | none => .use

/-- A contract whose entry point also answers messages. -/
def answering {ε σ μ : Type} (valid : ε → Addr → Bool) (start : Ownable.State × σ → Prop)
    (execute : Ownable.State × σ → ExecCall ε μ → Res ((Ownable.State × σ) × Response))
    (fine : (Addr → Bool) → μ → Option (σ → Prop)) : Governed where
  State := Ownable.State × σ
  Call := ExecCall ε μ
  start := start
  step := stepOf execute
  own := Prod.fst
  sender := ExecCall.sender
  act c := actOf (valid c.env) Prod.snd (fine (valid c.env)) c.msg

/-- A contract whose entry point only changes its state. -/
def silent {σ μ : Type} (start : Ownable.State × σ → Prop)
    (step : Ownable.State × σ → OwnedCall μ → Res (Ownable.State × σ))
    (fine : (Addr → Bool) → μ → Option (σ → Prop)) : Governed where
  State := Ownable.State × σ
  Call := OwnedCall μ
  start := start
  step := step
  own := Prod.fst
  sender := OwnedCall.sender
  act c := actOf c.valid Prod.snd (fine c.valid) c.msg

/-! ## When settings are acceptable -/

/-- Pausing and releasing must alternate. -/
def finePause : Pausable.Msg → Bool → Prop
  | .pause, paused => paused = false
  | .release, paused => paused = true

/-- Addresses must be valid. -/
def fineConnection (valid : Addr → Bool) : Connection.Msg → Prop
  | .setMailbox a | .setIsm a | .setHook a => valid a = true

def fineMailbox (valid : Addr → Bool) : Mailbox.Msg → Act Mailbox.State
  | .ownable m => .ownership valid m
  | .setDefaultIsm a | .setDefaultHook a | .setRequiredHook a => .settings (fun _ => valid a = true)
  | .dispatch _ | .process .. => .use

def fineFee (_ : Addr → Bool) : FeeHook.Msg → Option (Coin → Prop)
  | .setFee _ => some (fun _ => True)
  | .claim _ => some (fun _ => True)
  | .postDispatch .. => none

def finePausable (_ : Addr → Bool) : PausableHook.Msg → Option (Bool → Prop)
  | .pausable m => some (finePause m)
  | .postDispatch .. => none

def fineAggregateHook (valid : Addr → Bool) : AggregateHook.Msg → Option (List Addr → Prop)
  | .setHooks l => some (fun _ => ∀ a ∈ l, valid a = true)
  | .postDispatch .. => none

def fineRoutingHook (_ : Addr → Bool) : RoutingHook.Msg → Option (Router.State Addr → Prop)
  | .router _ => some (fun _ => True)
  | .postDispatch .. => none

def fineFallback (valid : Addr → Bool) : FallbackHook.Msg → Option (FallbackHook.State → Prop)
  | .router _ => some (fun _ => True)
  | .setFallback a => some (fun _ => valid a = true)
  | .postDispatch .. => none

/-- Recipients are given in hexadecimal, 32 bytes when registered. -/
def fineCustom (valid : Addr → Bool) : CustomHook.Msg → Option (CustomHook.State → Prop)
  | .router _ => some (fun _ => True)
  | .register l => some (fun _ => ∀ r ∈ l, (∃ b, fromHexString r.recipient = .ok b ∧ b.length = 32) ∧ valid r.hook = true)
  | .clear l => some (fun _ => ∀ r ∈ l, ∃ b, fromHexString r.recipient = .ok b)
  | .postDispatch .. => none

def fineIgp (valid : Addr → Bool) : Igp.Msg → Option (Igp.State → Prop)
  | .router _ | .setDefaultGas _ | .setGasForDomain _ | .unsetGasForDomain _ => some (fun _ => True)
  | .setBeneficiary a => some (fun _ => valid a = true)
  | .postDispatch .. | .payForGas .. | .claim => none

/-- The setter of a list refuses rates of zero. -/
def fineOracle (_ : Addr → Bool) : Oracle.Msg → Option (Oracle.State → Prop)
  | .setConfigs l => some (fun _ => ∀ c ∈ l, c.rate ≠ 0)
  | .setConfig _ => some (fun _ => True)

def fineWarp (valid : Addr → Bool) : Warp.Msg → Option (Warp.State → Prop)
  | .router _ => some (fun _ => True)
  | .connection m => some (fun _ => fineConnection valid m)
  | .handle .. | .transferRemote .. => none

def fineAggregateIsm (valid : Addr → Bool) : AggregateIsm.Msg → Option (AggregateIsm.State → Prop)
  | .setIsms l t => some (fun _ => 0 < t.toNat ∧ t.toNat ≤ l.length ∧ ∀ a ∈ l, valid a = true)

def fineMultisig (_ : Addr → Bool) : Multisig.Msg → Option (Multisig.State → Prop)
  | .setValidators _ t vs => some (fun _ => 0 < t.toNat ∧ t.toNat ≤ vs.length ∧ ∀ v ∈ vs, v.length = 20)
  | .unsetDomain _ => some (fun _ => True)

def fineRoutingIsm (valid : Addr → Bool) : RoutingIsm.Msg → Option (RoutingIsm.State → Prop)
  | .set _ a => some (fun _ => valid a = true)
  | .unset _ => some (fun _ => True)

def finePausableIsm (_ : Addr → Bool) (m : Pausable.Msg) : Option (Bool → Prop) := some (finePause m)

/-! ## All contracts with an owner -/

/-- The mailbox. -/
def mailbox (H : Bytes → Bytes) (C : Codec) (lower : Char → Bool) : Governed where
  State := Mailbox.State
  Call := Mailbox.Call
  start s := ∃ valid hrp d o, Mailbox.instantiate lower valid hrp d o = .ok s
  step := stepOf (Mailbox.execute H C)
  own := Mailbox.State.own
  sender := Mailbox.Call.sender
  act c := fineMailbox c.env.valid c.msg

/-- All contracts of the repository that have an owner: mailbox, six hooks, gas paymaster, gas oracle, four security
modules, two token routers. -/
def governed (H : Bytes → Bytes) (C : Codec) (lower : Char → Bool) (self : Addr) : List Governed :=
  [mailbox H C lower,
   answering HookEnv.valid (fun s => ∃ v o f, FeeHook.instantiate v o f = .ok s) FeeHook.execute fineFee,
   answering HookEnv.valid (fun s => ∃ v o p, PausableHook.instantiate v o p = .ok s) PausableHook.execute finePausable,
   answering HookEnv.valid (fun s => ∃ v o l, AggregateHook.instantiate v o l = .ok s) AggregateHook.execute
     fineAggregateHook,
   answering HookEnv.valid (fun s => ∃ v o, RoutingHook.instantiate v o = .ok s) RoutingHook.execute fineRoutingHook,
   answering HookEnv.valid (fun s => ∃ v o, FallbackHook.instantiate v o = .ok s) FallbackHook.execute fineFallback,
   answering HookEnv.valid (fun s => ∃ v o, CustomHook.instantiate v o = .ok s) CustomHook.execute fineCustom,
   answering IgpEnv.valid (fun s => ∃ v b hrp o t ben g, Igp.instantiate lower v b hrp o t ben g = .ok s) (Igp.execute C)
     fineIgp,
   answering id (fun s => ∃ v o, Oracle.instantiate v o = .ok s) Oracle.execute fineOracle,
   answering id (fun s => ∃ v vt hrp o mb m t, Warp.deploy v vt hrp o mb m t = .ok s) (Warp.execute Warp.native C self)
     fineWarp,
   answering id (fun s => ∃ v vt hrp o mb m t, Warp.deploy v vt hrp o mb m t = .ok s) (Warp.execute Warp.cw20 C self)
     fineWarp,
   silent (fun s => ∃ v o l t, AggregateIsm.instantiate v o l t = .ok s) AggregateIsm.step fineAggregateIsm,
   silent (fun s => ∃ o, s = (Ownable.init o, Multisig.init)) Multisig.step fineMultisig,
   silent (fun s => ∃ v o l, RoutingIsm.instantiate v o l = .ok s) RoutingIsm.step fineRoutingIsm,
   silent (fun s => ∃ o p, s = (Ownable.init o, p)) pausableStep finePausableIsm]

/-! ## What is claimed -/

/-- Nothing that others do keeps `o` from handing the contract over to `n`: withdraw whatever nomination there is, nominate
`n`, let `n` accept. In between anybody else may make any calls. -/
def CanHandOver (G : Governed) (s : G.State) (o : Addr) : Prop :=
  ∀ (n : Addr) (v v' v'' : Addr → Bool) (revoke nominate accept : G.Call) (h h' : List G.Call),
    G.act revoke = .ownership v .revoke → G.sender revoke = o →
    G.act nominate = .ownership v' (.initTransfer n) → G.sender nominate = o → v' n = true →
    G.act accept = .ownership v'' .claim → G.sender accept = n →
    (∀ c ∈ h, G.sender c ≠ o) → (∀ c ∈ h', G.sender c ≠ o ∧ G.sender c ≠ n) →
    G.own (run G.step s (revoke :: h ++ nominate :: h' ++ [accept])) = ⟨some n, none⟩

/-- After any history there is an owner; exactly the acceptable settings from exactly this owner are accepted; nobody else
changes the ownership, a nominee aside; and the owner can hand over. -/
def InControl (G : Governed) : Prop :=
  ∀ s0, G.start s0 → ∀ h : List G.Call, ∃ o, (G.own (run G.step s0 h)).owner = some o ∧
    (∀ c f, G.act c = .settings f →
      ((∃ s', G.step (run G.step s0 h) c = .ok s') ↔ G.sender c = o ∧ f (run G.step s0 h))) ∧
    (∀ c s', G.step (run G.step s0 h) c = .ok s' → G.own s' ≠ G.own (run G.step s0 h) →
      (∃ v m, G.act c = .ownership v m) ∧ (G.sender c = o ∨ (G.own (run G.step s0 h)).pending = some (G.sender c))) ∧
    CanHandOver G (run G.step s0 h) o

end Hpl.Spec
