import Verif.Model.HookSystem
import Verif.Spec.Hooks

/-! # What a tree of hooks is paid -/

namespace Hpl.Spec

open HookSystem

/-- A visit of a hook that passes nothing on, with the coins it is to keep. -/
abbrev Visit := Addr × List Coin

/-- Coins of denomination `d` kept by all visits together. -/
def keptBy (d : String) (vs : List Visit) : Nat := (vs.map (fun v => amountOf d v.2)).sum

/-- Coins of denomination `d` kept by visits of `a`. -/
def keptAt (a : Addr) (d : String) (vs : List Visit) : Nat := keptBy d (vs.filter (fun v => v.1 = a))

/-- How often `a` is visited. -/
def visitsOf (a : Addr) (vs : List Visit) : Nat := (vs.filter (fun v => v.1 = a)).length

/-- The metadata names no refund address that begins with 16 zero bytes (which the paymaster cannot handle, see
C56). -/
def RefundFine (md : Bytes) : Prop := ¬ ((md.length = 52 ∨ md.length = 64) ∧ (md.drop 32).take 16 = zeros 16)

/-- The hook a routing hook of any of the three kinds chooses for a message to domain `d` and recipient `r`. -/
inductive RoutesTo (hooks : Contracts) (h : Addr) (d : UInt32) (r : Bytes) : Addr → Prop where
  | routing {s x} (hs : hooks h = some (.routing s)) (hx : Router.getRoute s.2 d = some x) : RoutesTo hooks h d r x
  | fallbackRoute {s f x} (hs : hooks h = some (.fallback s)) (hf : s.2.fallback = some f)
      (hx : Router.getRoute s.2.routes d = some x) : RoutesTo hooks h d r x
  | fallback {s f} (hs : hooks h = some (.fallback s)) (hf : s.2.fallback = some f)
      (hx : Router.getRoute s.2.routes d = none) : RoutesTo hooks h d r f
  | custom {s x} (hs : hooks h = some (.custom s)) (hx : s.2.custom.get (toLex (d, r)) = some x) :
      RoutesTo hooks h d r x
  | customRoute {s x} (hs : hooks h = some (.custom s)) (hn : s.2.custom.get (toLex (d, r)) = none)
      (hx : Router.getRoute s.2.routes d = some x) : RoutesTo hooks h d r x

/-- The tree of hooks below `h`, for one message `b` and metadata `md`, is in order, and `vs` are the visits a
post-dispatch of `h` leads to, in order. In order means: merkle hooks belong to the mailbox, pausable hooks are not
paused, fees and gas payments are not zero (those quoted as zero cannot be paid, C48, C56), and what lies below a
routing hook is free of charge (routing hooks pass on no coins, C52). -/
inductive Settles (W : World) (hooks : Contracts) (md b : Bytes) : Addr → List Visit → Prop where
  | merkle {h s} (hs : hooks h = some (.merkle s)) (hm : s.mailbox = W.mb) : Settles W hooks md b h [(h, [])]
  | fee {h s} (hs : hooks h = some (.fee s)) (h0 : s.2.amount ≠ 0) : Settles W hooks md b h [(h, [s.2])]
  | pausable {h s} (hs : hooks h = some (.pausable s)) (hp : s.2 = false) : Settles W hooks md b h [(h, [])]
  | igp {h s c} (hs : hooks h = some (.igp s)) (hq : Igp.quoteDispatch (oracleAt hooks) s md b = .ok [c])
      (hr : RefundFine md)
      (hc : ∀ raw : Bytes, raw.length = 20 ∨ raw.length = 32 → ∃ a, W.C.enc s.2.hrp raw = some a) :
      Settles W hooks md b h [(h, [c])]
  | aggregate {h s} (ms : List (Addr × List Visit)) (hs : hooks h = some (.aggregate s)) (hl : s.2 = ms.map (·.1))
      (hm : ∀ m ∈ ms, Settles W hooks md b m.1 m.2) : Settles W hooks md b h (ms.flatMap (·.2))
  | route {h x vs} (hx : RoutesTo hooks h (destOf b) (recipientOf b) x) (hv : Settles W hooks md b x vs)
      (h0 : ∀ v ∈ vs, v.2 = []) : Settles W hooks md b h vs

/-- Every merkle hook of the mailbox has room for `n` more messages. -/
def Room (hooks : Contracts) (n : Nat) : Prop :=
  ∀ a s, hooks a = some (.merkle s) → s.tree.branch.length = 32 ∧ s.tree.count + n ≤ Merkle.maxLeaves

/-- Contracts after the visits: merkle hooks have grown by one message per visit, everything else is as before. -/
def GrownBy (before after : Contracts) (vs : List Visit) : Prop :=
  (∀ a s, before a = some (.merkle s) → ∃ t, after a = some (.merkle ⟨s.mailbox, t⟩) ∧
    t.count = s.tree.count + visitsOf a vs) ∧
  (∀ a, (∀ s, before a ≠ some (.merkle s)) → after a = before a)

/-- The message a dispatch request makes. -/
def requestMessage (s : Mailbox.State) (from32 : Bytes) (q : DispatchMsg) : Bytes :=
  Message.encode ⟨3, s.nonce, s.config.localDomain, from32, q.dest, q.recipient, q.body⟩

/-- The contracts a post-dispatch of `h` for the message `b` is passed on to, `h` itself included. -/
inductive Reaches (hooks : Contracts) (b : Bytes) : Addr → Addr → Prop where
  | here (h) : Reaches hooks b h h
  | member {h m x s} (hs : hooks h = some (.aggregate s)) (hm : m ∈ s.2) (hx : Reaches hooks b m x) :
      Reaches hooks b h x
  | route {h m x} (hm : RoutesTo hooks h (destOf b) (recipientOf b) m) (hx : Reaches hooks b m x) :
      Reaches hooks b h x

/-- The tree after `n` insertions of `id` into another one. -/
inductive Recorded (H : Bytes → Bytes) (id : Bytes) : Merkle.Tree → Nat → Merkle.Tree → Prop where
  | none (t) : Recorded H id t 0 t
  | more {s n t t'} (h : Recorded H id s n t) (hi : Merkle.insert H t id = .ok t') : Recorded H id s (n + 1) t'

/-- A contract that post-dispatches messages: a hook that is not paused, whose mailbox is the one that dispatches and
whose fallback is set, as far as it has these. -/
def InService (W : World) : Contract → Prop
  | .merkle s => s.mailbox = W.mb
  | .pausable s => s.2 = false
  | .fallback s => s.2.fallback ≠ none
  | .oracle _ => False
  | _ => True

end Hpl.Spec
