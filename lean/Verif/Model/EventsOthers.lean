import Verif.Model.Events
import Verif.Model.Isms

/-! # Events of security modules, hooks and gas oracle -/

namespace Hpl.Events

/-- Entry points of the model that give no response: nothing is sent. -/
def silent {σ ι : Type} (step : σ → ι → Res σ) (s : σ) (c : ι) : Res (σ × Unit) := do
  let s' ← step s c
  return (s', ())

/-- Events of a contract with an ownership part. -/
def owned {σ μ : Type} (f : Addr → μ → List TextEvent) (_ : σ) (c : OwnedCall μ) (_ : Unit) : List TextEvent :=
  match c.msg with
  | .inl m => [ownable c.sender m]
  | .inr m => f c.sender m

/-- `slice::join(",")`. -/
def joined (l : List String) : String := ",".intercalate l

/-- `/repo/packages/pausable/src/lib.rs` 18-20, 53, 63. -/
def pausable (sender : Addr) : Pausable.Msg → TextEvent
  | .pause => ⟨"hpl_pausable::pause", [("sender", sender)]⟩
  | .release => ⟨"hpl_pausable::release", [("sender", sender)]⟩

/-! ## Security modules -/

/-- `/repo/contracts/isms/pausable/src/lib.rs` 60-70. -/
def pausableIsm : Ownable.State × Bool → OwnedCall Pausable.Msg → Unit → List TextEvent :=
  owned (fun sender m => [pausable sender m])

/-- `/repo/contracts/isms/multisig/src/contract.rs` 76-82 and 94-98; the second names the caller under `sener`. -/
def multisigMsg (sender : Addr) : Multisig.Msg → List TextEvent
  | .setValidators domain threshold validators => [⟨"ism_multisig_set_validators",
      [("sender", sender), ("domain", number domain.toNat), ("validators", number validators.length),
       ("threshold", number threshold.toNat)]⟩]
  | .unsetDomain domain => [⟨"ism_multisig_unset_domain", [("sener", sender), ("domain", number domain.toNat)]⟩]

def multisigIsm : Ownable.State × Multisig.State → OwnedCall Multisig.Msg → Unit → List TextEvent := owned multisigMsg

/-- `/repo/contracts/isms/routing/src/contract.rs` 68-73 and 86-97. -/
def routingIsmMsg (sender : Addr) : RoutingIsm.Msg → List TextEvent
  | .set domain ism =>
    [⟨"hpl_ism_routing::set", [("sender", sender), ("domain", number domain.toNat), ("ism", ism)]⟩]
  | .unset l => [⟨"hpl_ism_routing::unset", [("sender", sender), ("domains", domains l)]⟩]

def routingIsm : Ownable.State × RoutingIsm.State → OwnedCall RoutingIsm.Msg → Unit → List TextEvent :=
  owned routingIsmMsg

/-- `/repo/contracts/isms/aggregate/src/lib.rs` 100-101. -/
def aggregateIsmMsg (_ : Addr) : AggregateIsm.Msg → List TextEvent
  | .setIsms isms _ => [⟨"hpl_ism_aggregate::set_isms", [("isms", joined isms)]⟩]

def aggregateIsm : Ownable.State × AggregateIsm.State → OwnedCall AggregateIsm.Msg → Unit → List TextEvent :=
  owned aggregateIsmMsg

/-! ## Gas oracle -/

/-- `/repo/contracts/igps/oracle/src/contract.rs` 63-67 and 79-80. -/
def oracle (_ : Ownable.State × Oracle.State) (c : ExecCall (Addr → Bool) Oracle.Msg) (_ : Response) : List TextEvent :=
  match c.msg with
  | .inl m => [ownable c.sender m]
  | .inr (.setConfigs l) => [⟨"set-gas-configs", [("owner", c.sender), ("domains", domains (l.map Oracle.Config.domain))]⟩]
  | .inr (.setConfig x) => [⟨"set-gas-config", [("domain", number x.domain.toNat)]⟩]

/-! ## Hooks -/

/-- The coin a call to `must_pay` has found, computed again; the call succeeded. -/
def supplied (funds : List Coin) (denom : String) : Nat :=
  match mustPay funds denom with
  | .ok n => n
  | .error _ => 0

/-- `/repo/contracts/hooks/fee/src/lib.rs` 90-94, 109-111 and 124-128. -/
def feeHook (s : Ownable.State × Coin) (c : ExecCall HookEnv FeeHook.Msg) (_ : Response) : List TextEvent :=
  match c.msg with
  | .inl m => [ownable c.sender m]
  | .inr (.setFee fee) => [⟨"hpl_hook_fee::set_fee", [("fee_denom", fee.denom), ("fee_amount", number fee.amount)]⟩]
  | .inr (.claim _) => [⟨"hpl_hook_fee::claim", []⟩]
  | .inr (.postDispatch _ _) => [⟨"hpl_hook_fee::post_dispatch",
      [("paid_denom", s.2.denom), ("paid_amount", number (supplied c.funds s.2.denom))]⟩]

/-- `/repo/contracts/hooks/pausable/src/lib.rs` 69-79: post-dispatching emits nothing. -/
def pausableHook (_ : Ownable.State × Bool) (c : ExecCall HookEnv PausableHook.Msg) (_ : Response) : List TextEvent :=
  match c.msg with
  | .inl m => [ownable c.sender m]
  | .inr (.pausable m) => [pausable c.sender m]
  | .inr (.postDispatch _ _) => []

/-- `/repo/contracts/hooks/aggregate/src/lib.rs` 109-111 and 127-131. -/
def aggregateHook (H : Bytes → Bytes) (_ : Ownable.State × List Addr) (c : ExecCall HookEnv AggregateHook.Msg) (_ : Response) :
    List TextEvent :=
  match c.msg with
  | .inl m => [ownable c.sender m]
  | .inr (.setHooks hooks) => [⟨"hpl_hook_aggregate::set_hooks", [("sender", c.sender), ("hooks", joined hooks)]⟩]
  | .inr (.postDispatch _ message) => [⟨"hpl_hook_aggregate::post_dispatch", [("message_id", hex (messageId H message))]⟩]

/-- The events of the three routing hooks after a message is passed on: `hook` is what `route` has given. A call with an
undecodable message or without route fails. -/
def routed (H : Bytes → Bytes) (name : String) (message : Bytes) (hook : Res Addr) : List TextEvent :=
  match Message.decode message, hook with
  | .ok m, .ok hook => [⟨name,
      [("domain", number m.dest.toNat), ("route", hook), ("message_id", hex (m.id H))]⟩]
  | _, _ => []

/-- `/repo/contracts/hooks/routing/src/lib.rs` 133-138. -/
def routingHook (H : Bytes → Bytes) (s : Ownable.State × Router.State Addr) (c : ExecCall HookEnv RoutingHook.Msg)
    (_ : Response) : List TextEvent :=
  match c.msg with
  | .inl m => [ownable c.sender m]
  | .inr (.router m) => [router id c.sender m]
  | .inr (.postDispatch _ message) => routed H "hpl_hook_routing::post_dispatch" message (RoutingHook.route s.2 message)

/-- `/repo/contracts/hooks/routing-fallback/src/lib.rs` 42-44 (the prefix is that of the routing hook), 87-91 and 136-141. -/
def fallbackHook (H : Bytes → Bytes) (s : Ownable.State × FallbackHook.State) (c : ExecCall HookEnv FallbackHook.Msg)
    (_ : Response) : List TextEvent :=
  match c.msg with
  | .inl m => [ownable c.sender m]
  | .inr (.router m) => [router id c.sender m]
  | .inr (.setFallback hook) =>
    [⟨"hpl_hook_routing::set_fallback_hook", [("sender", c.sender), ("fallback-hook", hook)]⟩]
  | .inr (.postDispatch _ message) => routed H "hpl_hook_routing::post_dispatch" message (FallbackHook.route s.2 message)

/-- `format!("{}:{}", v.dest_domain, v.recipient)`, `/repo/contracts/hooks/routing-custom/src/lib.rs` 214 and 255. -/
def key (dest : UInt32) (recipient : String) : Json := .str (number dest.toNat ++ ":" ++ recipient)

/-- `/repo/contracts/hooks/routing-custom/src/lib.rs` 206-223, 247-264 and 294-299. -/
def customHook (H : Bytes → Bytes) (s : Ownable.State × CustomHook.State) (c : ExecCall HookEnv CustomHook.Msg)
    (_ : Response) : List TextEvent :=
  match c.msg with
  | .inl m => [ownable c.sender m]
  | .inr (.router m) => [router id c.sender m]
  | .inr (.register l) => [⟨"hpl_hook_routing_custom::register", [("sender", c.sender),
      ("keys", String.ofList (Json.arr (l.map (fun r => key r.dest r.recipient))).print)]⟩]
  | .inr (.clear l) => [⟨"hpl_hook_routing_custom::clear", [("sender", c.sender),
      ("keys", String.ofList (Json.arr (l.map (fun r => key r.dest r.recipient))).print)]⟩]
  | .inr (.postDispatch _ message) =>
    routed H "hpl_hook_routing_custom::post_dispatch" message (CustomHook.route s.2 message)

end Hpl.Events
