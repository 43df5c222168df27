import Verif.Spec.Exec
import Verif.Spec.Coins

/-! # What hooks were told, and what they send -/

namespace Hpl.Spec

/-- Fee settings. -/
def feeCfg : FeeHook.Msg → Option Coin
  | .setFee f => some f
  | _ => none

/-- Pausing and releasing. -/
def pauseCfg : PausableHook.Msg → Option Pausable.Msg
  | .pausable m => some m
  | _ => none

/-- Hook lists. -/
def hooksCfg : AggregateHook.Msg → Option (List Addr)
  | .setHooks l => some l
  | _ => none

/-- Routes of a router message. -/
def routesOf : Router.Msg Addr → List (UInt32 × Option Addr)
  | .setRoute x => [x]
  | .setRoutes l => l

/-- Settings of a routing hook. -/
def routingCfg : RoutingHook.Msg → Option (Router.Msg Addr)
  | .router m => some m
  | _ => none

/-- Settings of a fallback routing hook: routes or the fallback. -/
def fallbackCfg : FallbackHook.Msg → Option (Router.Msg Addr ⊕ Addr)
  | .router m => some (.inl m)
  | .setFallback a => some (.inr a)
  | _ => none

/-- Fallback settings that count: valid addresses. -/
def fallbackOf (x : HookEnv × (Router.Msg Addr ⊕ Addr)) : List Addr :=
  match x.2 with
  | .inl _ => []
  | .inr a => if x.1.valid a then [a] else []

/-- Settings of a custom routing hook: routes, registrations or clearings. -/
def customCfg : CustomHook.Msg →
    Option (Router.Msg Addr ⊕ (List CustomHook.Registration ⊕ List CustomHook.Clearing))
  | .router m => some (.inl m)
  | .register l => some (.inr (.inl l))
  | .clear l => some (.inr (.inr l))
  | _ => none

/-- The entry a registration asks for; nothing if it is invalid: recipients must be 32 bytes in hexadecimal, hooks
must be addresses. -/
def registrationEntry (valid : Addr → Bool) (r : CustomHook.Registration) :
    Option ((UInt32 × Bytes) × Option Addr) :=
  (fromHexString r.recipient).toOption.bind (fun b =>
    if b.length = 32 ∧ valid r.hook = true then some ((r.dest, b), some r.hook) else none)

/-- The entry a clearing asks to remove; nothing if the recipient is not hexadecimal. -/
def clearingEntry (r : CustomHook.Clearing) : Option ((UInt32 × Bytes) × Option Addr) :=
  (fromHexString r.recipient).toOption.map (fun b => ((r.dest, b), none))

/-- All of them, or none if one is missing. -/
def allOrNone {α : Type} : List (Option α) → List α
  | l => if l.all Option.isSome then l.filterMap id else []

/-- The updates of the custom table a setting makes: all it asks for, or none at all if part of it is invalid. -/
def customUpdates (valid : Addr → Bool) :
    Router.Msg Addr ⊕ (List CustomHook.Registration ⊕ List CustomHook.Clearing) →
    List ((UInt32 × Bytes) × Option Addr)
  | .inl _ => []
  | .inr (.inl l) => allOrNone (l.map (registrationEntry valid))
  | .inr (.inr l) => allOrNone (l.map clearingEntry)

/-- The route updates a setting makes. -/
def customRoutes {α : Type} : Router.Msg Addr ⊕ α → List (UInt32 × Option Addr)
  | .inl m => routesOf m
  | .inr _ => []

/-- Destination domain in an encoded message: bytes 41 to 44, big endian. -/
def destOf (b : Bytes) : UInt32 := UInt32.ofNat (fromBE ((b.drop 41).take 4))

/-- Recipient in an encoded message: bytes 45 to 76. -/
def recipientOf (b : Bytes) : Bytes := (b.drop 45).take 32

/-- Coins of denomination `d` a list of messages sends away. -/
def outflow (d : String) : List OutMsg → Nat
  | [] => 0
  | .execute _ _ funds :: t => amountOf d funds + outflow d t
  | .bankSend _ coins :: t => amountOf d coins + outflow d t
  | _ :: t => outflow d t

end Hpl.Spec
