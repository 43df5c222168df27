import Verif.Model.Network
import Verif.Spec.Mailbox

/-! # What a log of calls on several chains says -/

namespace Hpl.Spec

variable {κ : Type} [DecidableEq κ]

/-- A log of successful calls on several chains and their responses. -/
abbrev NetLog (κ : Type) := List (Network.Call κ × Response)

/-- The handler calls of a log, with the chain they happened on and the bytes submitted with the call that caused them
(`none` if that was not a submission of a message). -/
def netHanded (log : NetLog κ) : List (κ × Option Bytes × OutMsg) :=
  log.flatMap (fun e => (e.2.msgs.filter isHandle).map (fun o =>
    (e.1.chain, (match e.1.call.msg with
      | .process _ message => some message
      | _ => none), o)))

/-- The message bytes announced by dispatch events anywhere. -/
def netAnnounced (log : NetLog κ) : List Bytes := announced (log.map (fun e => (e.1.call, e.2)))

end Hpl.Spec
