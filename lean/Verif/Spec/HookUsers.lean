import Verif.Model.HookUsers
import Verif.Spec.HookSystem

/-! # What people who own nothing do on a chain -/

namespace Hpl.Spec

open HookSystem

/-- Something an account sets out to do: send coins or post-dispatch (`msg`, also how the contracts of the model go on),
call the mailbox, call a hook or gas oracle. Answers of contracts outside of the model come with the call. -/
inductive Item where
  | msg (o : OutMsg)
  | box (funds : List Coin) (m : Mailbox.Msg) (recipientIsm : Addr → Res (Option Addr))
      (verify : Addr → Bytes → Bytes → Res Bool)
  | hook (self : Addr) (funds : List Coin) (m : HookMsg) (balances : List Coin)

/-- What happens when the accounts of `P`, and nobody else, do as they like. The list is what is still to be done: each
item is carried out, with all that follows from it, before the next one, so a list is a history of calls by different
accounts, and calls that fail are left out of it. A contract outside of the model that is called, or given coins to, may go
on with anything in its own name if it belongs to `P`, also in the middle of a dispatch. -/
inductive Runs (W : World) (P : Addr → Prop) : Sys → List (Addr × Item) → Sys → Prop where
  | done (s) : Runs W P s [] s
  | msg {s x s' src o t} (h : stepMsg W s src o = .ok x) (hr : Runs W P x.1 (x.2.map (fun m => (m.1, .msg m.2)) ++ t) s') :
      Runs W P s ((src, .msg o) :: t) s'
  | box {s x s' src funds m ri ve t} (h : callBox W s ri ve src funds m = .ok x)
      (hr : Runs W P x.1 (x.2.map (fun m => (m.1, .msg m.2)) ++ t) s') :
      Runs W P s ((src, .box funds m ri ve) :: t) s'
  | hook {s x s' src self funds m bal t} (h : callContract W s bal src self funds m = .ok x)
      (hr : Runs W P x.1 (x.2.map (fun m => (m.1, .msg m.2)) ++ t) s') :
      Runs W P s ((src, .hook self funds m bal) :: t) s'
  | foreign {s k s' src dst p funds t} (l : List (Addr × Item)) (hn : s.hooks dst = none) (hb : dst ≠ W.mb)
      (hp : pay s.bank src dst funds = .ok k) (hl : ∀ i ∈ l, i.1 = dst ∧ P dst)
      (hr : Runs W P { s with bank := k } (l ++ t) s') :
      Runs W P s ((src, .msg (.execute dst p funds)) :: t) s'

/-- The ownership of a contract, if it has one. -/
def ownershipOf : Contract → Option Ownable.State
  | .merkle _ => none
  | .fee s => some s.1
  | .pausable s => some s.1
  | .aggregate s => some s.1
  | .routing s => some s.1
  | .fallback s => some s.1
  | .custom s => some s.1
  | .igp s => some s.1
  | .oracle s => some s.1

/-- `x` owns neither the mailbox nor one of the contracts, and nobody is handing one over to them. -/
def OwnsNothing (s : Sys) (x : Addr) : Prop :=
  (s.box.own.owner ≠ some x ∧ s.box.own.pending ≠ some x) ∧
  ∀ a c o, s.hooks a = some c → ownershipOf c = some o → o.owner ≠ some x ∧ o.pending ≠ some x

/-- Contracts of the same kind, with the same settings and owners: only messages may have been added to merkle trees. -/
def SameSettings (before after : Contracts) : Prop :=
  (∀ a s, before a = some (.merkle s) → ∃ t, after a = some (.merkle ⟨s.mailbox, t⟩)) ∧
  (∀ a, (∀ s, before a ≠ some (.merkle s)) → after a = before a)

end Hpl.Spec
