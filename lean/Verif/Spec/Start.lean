import Verif.Model.Start
import Verif.Spec.EventsOthers

/-! # What a reader of all events of a contract knows -/

namespace Hpl.Spec

/-- What the last event of a type says, or what the first event of all, that of making the contract, says. -/
def toldSince (ty k k0 : String) (log : List TextEvent) : Option String :=
  (latest ty k log).or (log.head?.bind (attr k0))

/-- The last event of a type, or the first event of all. -/
def lastOrFirst (ty : String) (log : List TextEvent) : Option TextEvent := (lastOf (fun e => e.ty = ty) log).or log.head?

/-- Who owns the contract and who may claim it. -/
def OwnersKnown (owner pending : Option Addr) (log : List TextEvent) : Prop :=
  owner = toldSince "hpl_ownable::claim" "owner" "owner" log ∧
  pending = (lastOf (fun e => e.ty ∈ ownershipTypes) log).bind (attr "next_owner")

/-- The fee. -/
def FeeKnown (fee : Coin) (log : List TextEvent) : Prop :=
  ∃ e, lastOrFirst "hpl_hook_fee::set_fee" log = some e ∧ attr "fee_denom" e = some fee.denom ∧
    NumberAt "fee_amount" e fee.amount

/-- A list of addresses. -/
def ListKnown (ty k : String) (l : List Addr) (log : List TextEvent) : Prop :=
  ∃ e t, lastOrFirst ty log = some e ∧ attr k e = some t ∧ t = commas l ∧ ((∀ a ∈ l, Name a) → listed t = l)

/-- Token and mode of a router. -/
def TokenKnown (ty k : String) (token : Option String) (mode : Warp.Mode) (log : List TextEvent) : Prop :=
  token.isSome ∧ token = toldSince ty k "denom" log ∧
  log.head?.bind (attr "mode") = some (match mode with | .bridged => "bridged" | .collateral => "collateral")

/-- Contracts made with the same events are the same. -/
def Tells {ι σ : Type} (make : ι → Res (σ × List TextEvent)) : Prop :=
  ∀ i j s t evs, make i = .ok (s, evs) → make j = .ok (t, evs) → s = t

/-- Numbers in a message that makes a token fit their types. -/
def TokenFits (m : Start.Cw20Init) : Prop :=
  (∀ b ∈ m.balances, b.2 < 2 ^ 128) ∧ ∀ a n, m.mint = some (a, some n) → n < 2 ^ 128

/-- Numbers in a message that makes a contract fit their types. -/
def StartFits : Start.Msg → Prop
  | .feeHook _ fee => fee.amount < 2 ^ 128
  | .igp _ _ _ _ gas => gas < 2 ^ 128
  | .warpCw20 (.bridged _ m) _ _ _ => TokenFits m
  | .cw20 m => TokenFits m
  | _ => True

/-! ## Texts of messages -/

/-- An object. -/
def members (l : List (String × String)) : String := "{" ++ commas (l.map (fun p => quoted p.1 ++ ":" ++ p.2)) ++ "}"

/-- A list. -/
def items (l : List String) : String := "[" ++ commas l ++ "]"

/-- Something or `null`. -/
def orNull {α : Type} (f : α → String) : Option α → String
  | none => "null"
  | some a => f a

def metadataText (m : Proto.Metadata) : String :=
  members [("description", quoted m.description),
    ("denom_units", items (m.denomUnits.map (fun u => members [("denom", quoted u.denom),
      ("exponent", quoted (toString u.exponent.toNat)), ("aliases", items (u.aliases.map quoted))]))),
    ("base", quoted m.base), ("display", quoted m.display), ("name", quoted m.name), ("symbol", quoted m.symbol)]

def tokenText (m : Start.Cw20Init) : String :=
  members [("name", quoted m.name), ("symbol", quoted m.symbol), ("decimals", toString m.decimals.toNat),
    ("initial_balances", items (m.balances.map (fun b => members [("address", quoted b.1), ("amount", quoted (toString b.2))]))),
    ("mint", orNull (fun x => members [("minter", quoted x.1), ("cap", orNull (fun n => quoted (toString n)) x.2)]) m.mint),
    ("marketing", orNull (fun x => members [("project", orNull quoted x.project),
      ("description", orNull quoted x.description), ("marketing", orNull quoted x.marketing),
      ("logo", orNull (fun l => members [("url", quoted l)]) x.logo)]) m.marketing)]

/-- The text of a message that makes a contract. -/
def startText : Start.Msg → String
  | .mailbox hrp owner domain =>
    members [("hrp", quoted hrp), ("owner", quoted owner), ("domain", toString domain.toNat)]
  | .va hrp mailbox => members [("hrp", quoted hrp), ("mailbox", quoted mailbox)]
  | .aggregateHook owner hooks => members [("owner", quoted owner), ("hooks", items (hooks.map quoted))]
  | .feeHook owner fee => members [("owner", quoted owner),
      ("fee", members [("denom", quoted fee.denom), ("amount", quoted (toString fee.amount))])]
  | .merkleHook mailbox => members [("mailbox", quoted mailbox)]
  | .pausableHook owner paused | .pausableIsm owner paused =>
    members [("owner", quoted owner), ("paused", if paused then "true" else "false")]
  | .routingHook owner | .customHook owner | .fallbackHook owner | .oracle owner | .multisigIsm owner =>
    members [("owner", quoted owner)]
  | .igp hrp owner gasToken beneficiary defaultGas =>
    members [("hrp", quoted hrp), ("owner", quoted owner), ("gas_token", quoted gasToken),
      ("beneficiary", quoted beneficiary), ("default_gas_usage", quoted (toString defaultGas))]
  | .aggregateIsm owner isms threshold =>
    members [("owner", quoted owner), ("isms", items (isms.map quoted)), ("threshold", toString threshold.toNat)]
  | .routingIsm owner isms => members [("owner", quoted owner),
      ("isms", items (isms.map (fun x => members [("domain", toString x.1.toNat), ("address", quoted x.2)])))]
  | .warpNative (.bridged denom metadata) hrp owner mailbox =>
    members [("token", members [("bridged", members [("denom", quoted denom), ("metadata", orNull metadataText metadata)])]),
      ("hrp", quoted hrp), ("owner", quoted owner), ("mailbox", quoted mailbox)]
  | .warpNative (.collateral denom) hrp owner mailbox =>
    members [("token", members [("collateral", members [("denom", quoted denom)])]),
      ("hrp", quoted hrp), ("owner", quoted owner), ("mailbox", quoted mailbox)]
  | .warpCw20 (.bridged codeId init) hrp owner mailbox =>
    members [("token", members [("bridged", members [("code_id", toString codeId.toNat), ("init_msg", tokenText init)])]),
      ("hrp", quoted hrp), ("owner", quoted owner), ("mailbox", quoted mailbox)]
  | .warpCw20 (.collateral address) hrp owner mailbox =>
    members [("token", members [("collateral", members [("address", quoted address)])]),
      ("hrp", quoted hrp), ("owner", quoted owner), ("mailbox", quoted mailbox)]
  | .cw20 m => tokenText m

/-- Nothing in the metadata must be escaped. -/
def MetadataPlain (m : Proto.Metadata) : Prop :=
  Plain m.description ∧ (∀ u ∈ m.denomUnits, Plain u.denom ∧ ∀ a ∈ u.aliases, Plain a) ∧ Plain m.base ∧ Plain m.display ∧
    Plain m.name ∧ Plain m.symbol

/-- Nothing in the message for a token must be escaped. -/
def TokenPlain (m : Start.Cw20Init) : Prop :=
  Plain m.name ∧ Plain m.symbol ∧ (∀ b ∈ m.balances, Plain b.1) ∧ (∀ x, m.mint = some x → Plain x.1) ∧
    ∀ x, m.marketing = some x → (∀ a, x.project = some a → Plain a) ∧ (∀ a, x.description = some a → Plain a) ∧
      (∀ a, x.marketing = some a → Plain a) ∧ ∀ a, x.logo = some a → Plain a

/-- Nothing in the message must be escaped. -/
def StartPlain : Start.Msg → Prop
  | .mailbox a b _ | .va a b => Plain a ∧ Plain b
  | .aggregateHook a l | .aggregateIsm a l _ => Plain a ∧ ∀ b ∈ l, Plain b
  | .feeHook a c => Plain a ∧ Plain c.denom
  | .merkleHook a | .pausableHook a _ | .pausableIsm a _ | .routingHook a | .customHook a | .fallbackHook a | .oracle a
  | .multisigIsm a => Plain a
  | .igp a b c d _ => Plain a ∧ Plain b ∧ Plain c ∧ Plain d
  | .routingIsm a l => Plain a ∧ ∀ x ∈ l, Plain x.2
  | .warpNative (.bridged d m) a b c => Plain d ∧ (∀ x, m = some x → MetadataPlain x) ∧ Plain a ∧ Plain b ∧ Plain c
  | .warpNative (.collateral d) a b c => Plain d ∧ Plain a ∧ Plain b ∧ Plain c
  | .warpCw20 (.bridged _ m) a b c => TokenPlain m ∧ Plain a ∧ Plain b ∧ Plain c
  | .warpCw20 (.collateral d) a b c => Plain d ∧ Plain a ∧ Plain b ∧ Plain c
  | .cw20 m => TokenPlain m

end Hpl.Spec
