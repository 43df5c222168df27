import Verif.Model.Bridge
import Verif.Spec.Hooks
import Verif.Spec.Igp
import Verif.Spec.Warp

/-! # What a log of the two-chain system says -/

namespace Hpl.Spec

open Bridge

/-- A log of the acts that were not rolled back. -/
abbrev BridgeLog := List (Act × Out)

/-- The chain an act happens on. -/
def sideOf : Act → Side
  | .router s _ _ => s
  | .mailbox s _ => s
  | .gift s _ => s
  | .burn s _ => s

/-- Message bytes in the dispatch events of a response. -/
def dispatchedIn (r : Response) : List Bytes :=
  r.events.filterMap (fun ev => match ev with
    | .dispatch _ _ _ message => some message
    | _ => none)

/-- Messages announced by the mailbox of a chain. -/
def announcedOn (side : Side) (log : BridgeLog) : List Bytes :=
  log.flatMap (fun e => if sideOf e.1 = side then e.2.mailbox.flatMap dispatchedIn else [])

/-- Origin in an encoded message: bytes 5 to 8. -/
def originOf (b : Bytes) : Nat := fromBE ((b.drop 5).take 4)

/-- Those announced on `side` whose sender is the account `r side`. -/
def sentBy (r : Side → Bytes) (side : Side) (log : BridgeLog) : List Bytes :=
  (announcedOn side log).filter (fun m => senderOf m = r side)

/-- Message an act submits to the mailbox of `side`. -/
def submitted (side : Side) : Act → List Bytes
  | .mailbox s c => if s = side then (match c.msg with
    | .process _ m => [m]
    | _ => []) else []
  | _ => []

/-- Messages delivered by the mailbox of a chain. -/
def deliveredOn (side : Side) (log : BridgeLog) : List Bytes := log.flatMap (fun e => submitted side e.1)

/-- The amount in a transfer message: bytes 32 to 63 of the body. -/
def amountIn (m : Bytes) : Nat := fromBE (bytesOf 32 64 (m.drop 77))

/-- Sum of the amounts in the transfers sent by the router of `side` and not yet delivered on the other chain. -/
def inFlight (r : Side → Bytes) (side : Side) (log : BridgeLog) : Nat :=
  (((sentBy r side log).filter (fun m => m ∉ deliveredOn side.other log)).map amountIn).sum

/-- Tokens a message of the router creates. -/
def mintedBy (p : Setup) : OutMsg → Nat
  | .tfMint _ denom n => if p.native = true ∧ denom = p.token then n else 0
  | .execute dst (.cw20Mint _ n) _ => if p.native = false ∧ dst = p.token then n else 0
  | _ => 0

/-- Tokens a message of the router destroys. -/
def burnedBy (p : Setup) : OutMsg → Nat
  | .tfBurn _ denom n => if p.native = true ∧ denom = p.token then n else 0
  | .execute dst (.cw20Burn n) _ => if p.native = false ∧ dst = p.token then n else 0
  | _ => 0

/-- Tokens a message of the router pays out of what it holds. -/
def paidBy (p : Setup) : OutMsg → Nat
  | .bankSend _ coins => p.coins coins
  | .execute dst (.cw20Transfer _ n) _ => if p.native = false ∧ dst = p.token then n else 0
  | _ => 0

/-- Tokens a message of the router pays to the router itself. -/
def paidToSelf (p : Setup) : OutMsg → Nat
  | .bankSend dst coins => if dst = p.router then p.coins coins else 0
  | .execute dst (.cw20Transfer to' n) _ => if p.native = false ∧ dst = p.token ∧ to' = p.router then n else 0
  | _ => 0

/-- Tokens a message of the router passes on as funds. -/
def passedOn (p : Setup) : OutMsg → Nat
  | .execute _ _ funds => p.coins funds
  | _ => 0

/-- Tokens a message of the router fetches from others. -/
def fetchedBy (p : Setup) : OutMsg → Nat
  | .execute dst (.cw20TransferFrom _ to' n) _ =>
    if p.native = false ∧ dst = p.token ∧ to' = p.router then n else 0
  | _ => 0

/-- Is this a transfer to the other chain? -/
def isTransfer : Act → Bool
  | .router _ ⟨_, _, _, .inr (.transferRemote _ _ _ _ _)⟩ _ => true
  | _ => false

/-- Tokens attached to a call of the router. -/
def attached (p : Setup) : Act → Nat
  | .router _ c _ => p.coins c.funds
  | _ => 0

/-- Sum over the messages of the router of `side`. -/
def total (f : OutMsg → Nat) (side : Side) (log : BridgeLog) : Nat :=
  (log.map (fun e => if sideOf e.1 = side then (e.2.router.msgs.map f).sum else 0)).sum

/-- Tokens created by the router of `side`. -/
def minted (P : Side → Setup) (side : Side) (log : BridgeLog) : Nat := total (mintedBy (P side)) side log

/-- Tokens destroyed by the router of `side`. -/
def burned (P : Side → Setup) (side : Side) (log : BridgeLog) : Nat := total (burnedBy (P side)) side log

/-- Tokens paid out by the router of `side`. -/
def released (P : Side → Setup) (side : Side) (log : BridgeLog) : Nat := total (paidBy (P side)) side log

/-- Tokens the router of `side` took for transfers to the other chain: what was attached to the call, less what it
passed on, and what it fetched. -/
def locked (P : Side → Setup) (side : Side) (log : BridgeLog) : Nat :=
  (log.map (fun e => if sideOf e.1 = side ∧ isTransfer e.1 then
    attached (P side) e.1 + (e.2.router.msgs.map (fetchedBy (P side))).sum -
      (e.2.router.msgs.map (passedOn (P side))).sum else 0)).sum

/-- What the router of `side` got for nothing: plain transfers, tokens attached to calls other than transfers, and
deliveries addressed to itself. -/
def donated (P : Side → Setup) (side : Side) (log : BridgeLog) : Nat :=
  (log.map (fun e => if sideOf e.1 = side then
    (match e.1 with
      | .gift _ n => n
      | _ => 0) + (if isTransfer e.1 then 0 else attached (P side) e.1) +
      (e.2.router.msgs.map (paidToSelf (P side))).sum else 0)).sum

/-- What others burned on `side`. -/
def burnedByOthers (side : Side) (log : BridgeLog) : Nat :=
  (log.map (fun e => match e.1 with
    | .burn s n => if s = side then n else 0
    | _ => 0)).sum

/-- The two routers and mailboxes are set up for each other: distinct domains `d`, router identities `r` that are those
of the router addresses, a collateral router on the left and a bridged one on the right, each using the mailbox of its
chain and knowing just the other as remote router; addresses decode to what they encode. Nothing is said about what happened on the mailboxes before. -/
structure Linked (P : Side → Setup) (r : Side → Bytes) (d : Side → UInt32) (s : Side → Chain) : Prop where
  codec : ∀ x, (P x).codec.Lawful
  domains : d .left ≠ d .right
  domain : ∀ x, (s x).box.config.localDomain = d x
  identity : ∀ x, bech32ToH256 (P x).codec (P x).router = .ok (r x)
  address : ∀ x, bech32Encode (P x).codec (s x).box.config.hrp (r x) = .ok (P x).router
  token : ∀ x, (s x).router.2.token = some (P x).token
  mailbox : ∀ x, (s x).router.2.mailbox = (P x).mailbox
  routes : ∀ x o, Router.getRoute (s x).router.2.routes o = if o = d x.other then some (r x.other) else none
  collateral : (s .left).router.2.mode = .collateral
  bridged : (s .right).router.2.mode = .bridged

/-- What is assumed of the world: only the mailbox calls in its name, nobody else sends messages with the identity of the
router; the owners leave the routes alone; and messages are delivered to the router in the name of the remote router only
if they were announced on the other chain before (the security module responsible for the router is sound). -/
structure Honest (P : Side → Setup) (r : Side → Bytes) (d : Side → UInt32) (log : BridgeLog) : Prop where
  callers : ∀ e ∈ log, ∀ x c env, e.1 = .router x c env → c.sender ≠ (P x).mailbox
  routes : ∀ e ∈ log, ∀ x c env, e.1 = .router x c env → ∀ m, c.msg ≠ .inr (.router m)
  senders : ∀ e ∈ log, ∀ x c q, e.1 = .mailbox x c → c.msg = .dispatch q →
    bech32ToH256 (P x).codec c.sender ≠ .ok (r x)
  ism : ∀ pre x c out post md m, log = pre ++ (Act.mailbox x c, out) :: post → c.msg = .process md m →
    originOf m = (d x.other).toNat → senderOf m = r x.other → recipientOf m = r x →
    m ∈ announcedOn x.other pre

/-- All transfers name recipients whose length satisfies `Q`. -/
def Recipients (Q : Nat → Prop) (log : BridgeLog) : Prop :=
  ∀ e ∈ log, ∀ x c env dest recipient amount hook md, e.1 = .router x c env →
    c.msg = .inr (.transferRemote dest recipient amount hook md) → Q recipient.length

end Hpl.Spec
