import Verif.Model.MerkleSystem
import Verif.Spec.Mailbox

/-! # What a log of mailbox and merkle hook calls says -/

namespace Hpl.Spec

open MerkleSystem

/-- A log of successful calls. -/
abbrev SystemLog := List (MerkleSystem.Call × Out)

/-- The mailbox calls of a log. -/
def mailboxPart (log : SystemLog) : MailboxLog :=
  log.filterMap (fun e => match e with
    | (.mailbox c, .mailbox r) => some (c, r)
    | _ => none)

/-- Bytes of the messages dispatched, in order: what the dispatch events say. -/
def dispatched (log : SystemLog) : List Bytes := announced (mailboxPart log)

/-- Message bytes the hook was called with, in order. -/
def hookMessages (log : SystemLog) : List Bytes :=
  log.filterMap (fun e => match e.1 with
    | .hook _ message => some message
    | _ => none)

/-- Repeats the entries of a list according to the given numbers. -/
def repeated (ks : List Nat) (l : List Bytes) : List Bytes :=
  (ks.zip l).flatMap (fun p => List.replicate p.1 p.2)

/-- Every dispatch of the log is followed by a call of the hook with the message dispatched. -/
def HookDriven (log : SystemLog) : Prop :=
  ∀ pre e post, log = pre ++ e :: post → ∀ b ∈ dispatched [e], b ∈ hookMessages post

end Hpl.Spec
