import Verif.Model.TokenNet
import Verif.Spec.Bridge
import Mathlib.Algebra.BigOperators.Group.Finset.Basic

/-! # What a log of a network of token routers says -/

namespace Hpl.Spec

open Bridge

variable {κ : Type} [DecidableEq κ]

/-- A log of the acts that were not rolled back. -/
abbrev TokenLog (κ : Type) := List (TokenNet.Act κ × Out)

/-- The chain an act happens on. -/
def chainOf : TokenNet.Act κ → κ
  | .router x _ _ => x
  | .mailbox x _ => x
  | .gift x _ => x
  | .burn x _ => x

/-- Messages announced by the mailbox of a chain. -/
def announcedAt (x : κ) (log : TokenLog κ) : List Bytes :=
  log.flatMap (fun e => if chainOf e.1 = x then e.2.mailbox.flatMap dispatchedIn else [])

/-- Messages announced on any chain whose sender is the account `r x`, where `x` is the chain. -/
def sentInNet (r : κ → Bytes) (log : TokenLog κ) : List Bytes :=
  log.flatMap (fun e => (e.2.mailbox.flatMap dispatchedIn).filter (fun m => senderOf m = r (chainOf e.1)))

/-- Message an act submits to a mailbox. -/
def submittedTo : TokenNet.Act κ → List Bytes
  | .mailbox _ ⟨_, _, _, .process _ m⟩ => [m]
  | _ => []

/-- Messages delivered on any chain. -/
def deliveredInNet (log : TokenLog κ) : List Bytes := log.flatMap (fun e => submittedTo e.1)

/-- Messages delivered on a chain. -/
def deliveredAt (x : κ) (log : TokenLog κ) : List Bytes :=
  log.flatMap (fun e => if chainOf e.1 = x then submittedTo e.1 else [])

/-- Sum of the amounts in the transfers sent by the routers and delivered nowhere. -/
def inTransit (r : κ → Bytes) (log : TokenLog κ) : Nat :=
  (((sentInNet r log).filter (fun m => m ∉ deliveredInNet log)).map amountIn).sum

/-- Is this a transfer to another chain? -/
def isTransferAct : TokenNet.Act κ → Bool
  | .router _ ⟨_, _, _, .inr (.transferRemote _ _ _ _ _)⟩ _ => true
  | _ => false

/-- Tokens attached to a call of the router. -/
def attachedTo (p : Setup) : TokenNet.Act κ → Nat
  | .router _ c _ => p.coins c.funds
  | _ => 0

/-- Tokens sent to the router by a plain transfer. -/
def giftIn : TokenNet.Act κ → Nat
  | .gift _ n => n
  | _ => 0

/-- Tokens burned by others. -/
def burnIn : TokenNet.Act κ → Nat
  | .burn _ n => n
  | _ => 0

/-- Sum over the entries on the chains whose router is of mode `mode`. -/
def sumOver (M : κ → Warp.Mode) (mode : Warp.Mode) (f : κ → TokenNet.Act κ × Out → Nat) (log : TokenLog κ) : Nat :=
  (log.map (fun e => if M (chainOf e.1) = mode then f (chainOf e.1) e else 0)).sum

/-- Tokens created by bridged routers. -/
def mintedNet (P : κ → Setup) (M : κ → Warp.Mode) : TokenLog κ → Nat :=
  sumOver M .bridged (fun x e => (e.2.router.msgs.map (mintedBy (P x))).sum)

/-- Tokens destroyed by bridged routers. -/
def burnedNet (P : κ → Setup) (M : κ → Warp.Mode) : TokenLog κ → Nat :=
  sumOver M .bridged (fun x e => (e.2.router.msgs.map (burnedBy (P x))).sum)

/-- Tokens paid out by collateral routers. -/
def releasedNet (P : κ → Setup) (M : κ → Warp.Mode) : TokenLog κ → Nat :=
  sumOver M .collateral (fun x e => (e.2.router.msgs.map (paidBy (P x))).sum)

/-- Tokens collateral routers took for transfers: what was attached to the call and what was fetched, less what was
passed on. -/
def lockedNet (P : κ → Setup) (M : κ → Warp.Mode) : TokenLog κ → Nat :=
  sumOver M .collateral (fun x e => if isTransferAct e.1 then
    attachedTo (P x) e.1 + (e.2.router.msgs.map (fetchedBy (P x))).sum - (e.2.router.msgs.map (passedOn (P x))).sum
    else 0)

/-- What collateral routers got for nothing: plain transfers, tokens attached to calls other than transfers, and
deliveries addressed to themselves. -/
def donatedNet (P : κ → Setup) (M : κ → Warp.Mode) : TokenLog κ → Nat :=
  sumOver M .collateral (fun x e => giftIn e.1 + (if isTransferAct e.1 then 0 else attachedTo (P x) e.1) +
    (e.2.router.msgs.map (paidToSelf (P x))).sum)

/-- What others burned on chains with bridged routers. -/
def burnedByOthersNet (M : κ → Warp.Mode) : TokenLog κ → Nat := sumOver M .bridged (fun _ e => burnIn e.1)

/-- What all collateral routers hold. -/
def totalCollateral [Fintype κ] (M : κ → Warp.Mode) (s : κ → Chain) : Nat :=
  ∑ x, if M x = .collateral then (s x).held else 0

/-- The supply of all bridged tokens. -/
def totalBridged [Fintype κ] (M : κ → Warp.Mode) (s : κ → Chain) : Nat :=
  ∑ x, if M x = .bridged then (s x).supply else 0

/-- The routers form a network: distinct domains `d`, router identities `r` that are those of the router addresses, modes
`M`, each router using the mailbox of its chain; remote routers known to a router are routers of the network (not all
need be known, and a router may know itself). -/
structure Joined (P : κ → Setup) (r : κ → Bytes) (d : κ → UInt32) (M : κ → Warp.Mode) (s : κ → Chain) : Prop where
  codec : ∀ x, (P x).codec.Lawful
  domains : Function.Injective d
  domain : ∀ x, (s x).box.config.localDomain = d x
  identity : ∀ x, bech32ToH256 (P x).codec (P x).router = .ok (r x)
  address : ∀ x, bech32Encode (P x).codec (s x).box.config.hrp (r x) = .ok (P x).router
  token : ∀ x, (s x).router.2.token = some (P x).token
  mailbox : ∀ x, (s x).router.2.mailbox = (P x).mailbox
  routes : ∀ x o q, Router.getRoute (s x).router.2.routes o = some q → ∃ y, o = d y ∧ q = r y
  mode : ∀ x, (s x).router.2.mode = M x

/-- What is assumed of the world: only the mailbox calls in its name; owners enrol only routers of the network (and may
enrol and remove those as they like); nobody else sends messages with the identity of a router; and messages are
delivered to a router in the name of a router of the network only if they were announced on that chain before (the
security module responsible for the router is sound). -/
structure HonestNet (P : κ → Setup) (r : κ → Bytes) (d : κ → UInt32) (log : TokenLog κ) : Prop where
  callers : ∀ e ∈ log, ∀ x c env, e.1 = .router x c env → c.sender ≠ (P x).mailbox
  routes : ∀ e ∈ log, ∀ x c env m, e.1 = .router x c env → c.msg = .inr m →
    ∀ o q, (o, some q) ∈ remoteUpdates m → ∃ y, o = d y ∧ q = r y
  senders : ∀ e ∈ log, ∀ x c q, e.1 = .mailbox x c → c.msg = .dispatch q →
    bech32ToH256 (P x).codec c.sender ≠ .ok (r x)
  ism : ∀ pre x c out post md m, log = pre ++ (TokenNet.Act.mailbox x c, out) :: post → c.msg = .process md m →
    ∀ y, originOf m = (d y).toNat → senderOf m = r y → recipientOf m = r x → m ∈ announcedAt y pre

/-- All transfers name recipients whose length satisfies `Q`. -/
def RecipientsNet (Q : Nat → Prop) (log : TokenLog κ) : Prop :=
  ∀ e ∈ log, ∀ x c env dest recipient amount hook md, e.1 = .router x c env →
    c.msg = .inr (.transferRemote dest recipient amount hook md) → Q recipient.length

end Hpl.Spec
