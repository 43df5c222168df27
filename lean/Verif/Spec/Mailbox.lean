import Verif.Model.Mailbox
import Verif.Model.Tx

/-! # What a log of mailbox calls says -/

namespace Hpl.Spec

open Mailbox

/-- A log of successful mailbox calls and their responses. -/
abbrev MailboxLog := List (Call × Response)

/-- The message is a call of somebody's message handler. -/
def isHandle : OutMsg → Bool
  | .execute _ (.handle _ _ _) _ => true
  | _ => false

/-- All handler calls in a log, each with the id of the message the emitting call was submitted with (`none` if the
call was not a submission of a message). -/
def handed (H : Bytes → Bytes) (log : MailboxLog) : List (Option Bytes × OutMsg) :=
  log.flatMap (fun e => (e.2.msgs.filter isHandle).map (fun o =>
    (match e.1.msg with
      | .process _ message => some (H message)
      | _ => none, o)))

/-- Ids of the messages processed in a log. -/
def processedIds (H : Bytes → Bytes) (log : MailboxLog) : List Bytes :=
  log.filterMap (fun e => match e.1.msg with
    | .process _ message => some (H message)
    | _ => none)

/-- Message bytes announced by dispatch events, in order. -/
def announced (log : MailboxLog) : List Bytes :=
  log.flatMap (fun e => e.2.events.filterMap (fun ev => match ev with
    | .dispatch _ _ _ message => some message
    | _ => none))

/-- Number of successful dispatch calls in a log. -/
def dispatches (log : MailboxLog) : Nat :=
  (log.filter (fun e => match e.1.msg with
    | .dispatch _ => true
    | _ => false)).length

/-- The ISM that decides about messages to `recipient`: the one the recipient names, else the default one. -/
def ResponsibleIsm (env : Env) (s : State) (recipient ism : Addr) : Prop :=
  env.recipientIsm recipient = .ok (some ism) ∨
  (env.recipientIsm recipient = .ok none ∧ s.config.defaultIsm = some ism)

end Hpl.Spec
