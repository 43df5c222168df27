import Verif.Model.Json
import Verif.Spec.Events

/-! # Settings as a reader of events sees them -/

namespace Hpl.Spec

/-- The last event with a property. -/
def lastOf (p : TextEvent → Prop) [DecidablePred p] (evs : List TextEvent) : Option TextEvent :=
  (evs.filter (fun e => p e)).getLast?

/-- Names separated by commas. -/
def listed (t : String) : List String := if t = "" then [] else (t.toList.splitOn ',').map String.ofList

/-- Neither empty nor with a comma inside. -/
def Name (a : String) : Prop := a ≠ "" ∧ ',' ∉ a.toList

/-! ## Ownership and pausing -/

/-- The events of ownership transfers. -/
def ownershipTypes : List String := ["hpl_ownable::init", "hpl_ownable::revoke", "hpl_ownable::claim"]

/-- Who owns the contract: who claimed it last, or the first owner. Who may claim it: who was named last, unless that was
revoked or claimed. -/
def OwnersTold (first : Addr) (owner pending : Option Addr) (evs : List TextEvent) : Prop :=
  owner = some ((latest "hpl_ownable::claim" "owner" evs).getD first) ∧
  pending = (lastOf (fun e => e.ty ∈ ownershipTypes) evs).bind (attr "next_owner")

/-- Whether the contract is paused. -/
def pausedTold (first : Bool) (evs : List TextEvent) : Bool :=
  match lastOf (fun e => e.ty = "hpl_pausable::pause" ∨ e.ty = "hpl_pausable::release") evs with
  | none => first
  | some e => e.ty = "hpl_pausable::pause"

/-! ## Routes -/

/-- `{"domain":1,"route":"text"}`, where the route may be `null`. -/
def readSet : Json → Option (Nat × Option String)
  | .obj l =>
    match l.lookup "domain", l.lookup "route" with
    | some (.num n), some (.str r) => some (n, some r)
    | some (.num n), some .null => some (n, none)
    | _, _ => none
  | _ => none

/-- The texts of an attribute that is JSON. -/
def jsonAt (k : String) (e : TextEvent) : Option Json := (attr k e).bind (fun t => Json.parse t.toList)

/-- The routes an event tells. -/
def setsOf (e : TextEvent) : List (Nat × Option String) :=
  if e.ty = "hpl_router::set_route" then ((jsonAt "set" e).bind readSet).toList
  else if e.ty = "hpl_router::set_routes" then
    match jsonAt "set" e with
    | some (.arr l) => l.filterMap readSet
    | _ => []
  else []

/-- The last route told for a domain. -/
def routeTold (d : UInt32) (evs : List TextEvent) : Option String :=
  ((evs.flatMap setsOf).reverse.lookup d.toNat).join

/-! ## Security modules -/

/-- A number in decimal. -/
def inDecimal (n : Nat) : String := toString n

/-- Enrolments of a domain. -/
def EnrolsDomain (d : UInt32) (e : TextEvent) : Prop :=
  (e.ty = "ism_multisig_set_validators" ∨ e.ty = "ism_multisig_unset_domain") ∧ attr "domain" e = some (inDecimal d.toNat)

instance (d : UInt32) : DecidablePred (EnrolsDomain d) := fun e => by unfold EnrolsDomain; infer_instance

/-- What the events tell about validators and threshold of a domain: whether they are set, how many validators there are, and
the threshold. -/
def EnrolmentTold (d : UInt32) (validators : Option (List Bytes)) (threshold : Option UInt8) (evs : List TextEvent) : Prop :=
  match lastOf (EnrolsDomain d) evs with
  | none => validators = none ∧ threshold = none
  | some e =>
    if e.ty = "ism_multisig_unset_domain" then validators = none ∧ threshold = none
    else ∃ vs t, validators = some vs ∧ threshold = some t ∧ NumberAt "validators" e vs.length ∧ NumberAt "threshold" e t.toNat

/-- Events about the module of a domain. -/
def RoutesDomain (d : UInt32) (e : TextEvent) : Prop :=
  (e.ty = "hpl_ism_routing::set" ∧ attr "domain" e = some (inDecimal d.toNat)) ∨
  (e.ty = "hpl_ism_routing::unset" ∧ ∃ t ∈ attr "domains" e, inDecimal d.toNat ∈ listed t)

instance (d : UInt32) : DecidablePred (RoutesDomain d) := fun e => by unfold RoutesDomain; infer_instance

/-- The module of a domain: the last one set, none if the domain was unset, or the first one. -/
def moduleTold (d : UInt32) (first : Option Addr) (evs : List TextEvent) : Option Addr :=
  match lastOf (RoutesDomain d) evs with
  | none => first
  | some e => if e.ty = "hpl_ism_routing::set" then attr "ism" e else none

/-- A list of addresses: the last one told, or the first one. -/
def ListTold (ty k : String) (first l : List Addr) (evs : List TextEvent) : Prop :=
  match lastOf (fun e => e.ty = ty) evs with
  | none => l = first
  | some e => attr k e = some (commas l) ∧ ((∀ a ∈ l, Name a) → ∃ t, attr k e = some t ∧ listed t = l)

/-! ## Gas oracle -/

/-- The event tells that data for a domain was set. -/
def SetsGasOf (d : UInt32) (e : TextEvent) : Prop :=
  (e.ty = "set-gas-config" ∧ attr "domain" e = some (inDecimal d.toNat)) ∨
  (e.ty = "set-gas-configs" ∧ ∃ t ∈ attr "domains" e, inDecimal d.toNat ∈ listed t)

/-! ## Hooks -/

/-- The fee: the last one told, or the first one. -/
def FeeTold (first fee : Coin) (evs : List TextEvent) : Prop :=
  match lastOf (fun e => e.ty = "hpl_hook_fee::set_fee") evs with
  | none => fee = first
  | some e => attr "fee_denom" e = some fee.denom ∧ NumberAt "fee_amount" e fee.amount

/-- The texts in a JSON list. -/
def textsAt (k : String) (e : TextEvent) : List String :=
  match jsonAt k e with
  | some (.arr l) => l.filterMap (fun j => match j with | .str t => some t | _ => none)
  | _ => []

/-- Lower case. -/
def lowered (t : String) : String := String.ofList (t.toList.map Char.toLower)

/-- Events about the custom hook of a recipient; the text after the colon may be in upper case. -/
def NamesRecipient (d : UInt32) (b : Bytes) (e : TextEvent) : Prop :=
  (e.ty = "hpl_hook_routing_custom::register" ∨ e.ty = "hpl_hook_routing_custom::clear") ∧
  inDecimal d.toNat ++ ":" ++ hexText b ∈ (textsAt "keys" e).map lowered

instance (d : UInt32) (b : Bytes) : DecidablePred (NamesRecipient d b) := fun e => by
  unfold NamesRecipient; infer_instance

/-- Whether a recipient has a custom hook. -/
def customTold (d : UInt32) (b : Bytes) (evs : List TextEvent) : Bool :=
  match lastOf (NamesRecipient d b) evs with
  | none => false
  | some e => e.ty = "hpl_hook_routing_custom::register"

/-- The event of passing a message on: to which hook, for which destination and message. -/
structure RoutedTold (name : String) (hook : Addr) (dest : UInt32) (id : Bytes) (e : TextEvent) : Prop where
  ty : e.ty = name
  route : attr "route" e = some hook
  domain : NumberAt "domain" e dest.toNat
  id : HexAt "message_id" e id

/-! ## What no reader can see -/

/-- What is seen of the state is the same after any two histories with the same events. -/
def Readable {σ ι ρ α : Type} (step : σ → ι → Res (σ × ρ)) (ev : σ → ι → ρ → List TextEvent) (s0 : σ) (f : σ → α) : Prop :=
  ∀ txs txs' : List (List (Tx.Act ι)),
    Events.all (Tx.history (Events.logged step ev) s0 txs).2 = Events.all (Tx.history (Events.logged step ev) s0 txs').2 →
    f (Tx.history (Events.logged step ev) s0 txs).1 = f (Tx.history (Events.logged step ev) s0 txs').1

end Hpl.Spec
