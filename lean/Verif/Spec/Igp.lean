import Verif.Model.Igp
import Verif.Spec.Exec
import Verif.Spec.Hooks

/-! # What the gas paymaster and the gas oracle were told -/

namespace Hpl.Spec

/-- Settings of the paymaster: everything except paying, post-dispatching and claiming. -/
def igpCfg : Igp.Msg → Option Igp.Msg
  | .router m => some (.router m)
  | .setDefaultGas g => some (.setDefaultGas g)
  | .setGasForDomain l => some (.setGasForDomain l)
  | .unsetGasForDomain l => some (.unsetGasForDomain l)
  | .setBeneficiary a => some (.setBeneficiary a)
  | .postDispatch _ _ => none
  | .payForGas _ _ _ _ => none
  | .claim => none

/-- The gas updates a setting makes. -/
def gasUpdates : Igp.Msg → List (UInt32 × Option Nat)
  | .setGasForDomain l => l.map (fun x => (x.1, some x.2))
  | .unsetGasForDomain l => l.map (fun d => (d, none))
  | _ => []

/-- The default gas a setting sets. -/
def defaultGasOf : Igp.Msg → List Nat
  | .setDefaultGas g => [g]
  | _ => []

/-- The oracle updates a setting makes. -/
def oracleUpdates : Igp.Msg → List (UInt32 × Option Addr)
  | .router m => routesOf m
  | _ => []

/-- The beneficiary a setting sets, if its address is valid. -/
def beneficiaryOf (x : IgpEnv × Igp.Msg) : List Addr :=
  match x.2 with
  | .setBeneficiary a => if x.1.valid a then [a] else []
  | _ => []

/-- What the owner told a paymaster. -/
def igpCalls (owner : Addr) (h : List (ExecCall IgpEnv Igp.Msg)) : List (IgpEnv × Igp.Msg) :=
  ownerCalls IgpEnv.valid igpCfg (Ownable.init owner) h

/-- Gas amount for a domain after a history: the value the owner set last, unless unset since; then the default. -/
def gasAfter (owner : Addr) (default0 : Nat) (h : List (ExecCall IgpEnv Igp.Msg)) (d : UInt32) : Nat :=
  (lastFor d ((igpCalls owner h).flatMap (fun x => gasUpdates x.2))).join.getD
    (((igpCalls owner h).flatMap (fun x => defaultGasOf x.2)).getLast?.getD default0)

/-- Gas oracle of a domain after a history. -/
def oracleAfter (owner : Addr) (h : List (ExecCall IgpEnv Igp.Msg)) (d : UInt32) : Option Addr :=
  (lastFor d ((igpCalls owner h).flatMap (fun x => oracleUpdates x.2))).join

/-- Beneficiary after a history. -/
def beneficiaryAfter (owner b0 : Addr) (h : List (ExecCall IgpEnv Igp.Msg)) : Addr :=
  ((igpCalls owner h).flatMap beneficiaryOf).getLast?.getD b0

/-- The entries an oracle setting writes; the plural form writes nothing if one of the rates is zero. -/
def oracleWrites : Oracle.Msg → List (UInt32 × Option Oracle.GasData)
  | .setConfigs l => if ∀ c ∈ l, c.rate ≠ 0 then l.map (fun c => (c.domain, some ⟨c.rate, c.price⟩)) else []
  | .setConfig c => [(c.domain, some ⟨c.rate, c.price⟩)]

/-- What the owner of an oracle wrote, in order. -/
def oracleLog (owner : Addr) (h : List (ExecCall (Addr → Bool) Oracle.Msg)) :
    List (UInt32 × Option Oracle.GasData) :=
  (ownerCalls id some (Ownable.init owner) h).flatMap (fun x => oracleWrites x.2)

/-- Sender in an encoded message: bytes 9 to 40. -/
def senderOf (b : Bytes) : Bytes := (b.drop 9).take 32

/-- The address of an account of 20 or 32 bytes; 20 bytes may be padded to 32 with zeros. -/
def accountOf (C : Codec) (hrp : String) (b : Bytes) : Option Addr :=
  if b.length = 20 then C.enc hrp b
  else if b.length = 32 then
    if b.take 12 = zeros 12 then C.enc hrp (b.drop 12) else C.enc hrp b
  else none

/-- The refund account named in gas metadata: what follows the 32 bytes of the gas limit, if that has the length of an
account. -/
def namedRefund (md : Bytes) : Option Bytes :=
  if 32 ≤ md.length ∧ ((md.drop 32).length = 20 ∨ (md.drop 32).length = 32) then some (md.drop 32) else none

/-- The account to refund: the named one, otherwise the sender of the message. Named accounts that begin with 16 zero
bytes are not supported. -/
def refundAccount (C : Codec) (hrp : String) (md b : Bytes) : Option Addr :=
  match namedRefund md with
  | none => accountOf C hrp (senderOf b)
  | some r => if r.take 16 = zeros 16 then none else accountOf C hrp r

/-- The gas amount metadata asks for; `dflt` if there is no gas metadata. -/
def gasIn (md : Bytes) (dflt : Nat) : Nat := if md.length < 32 then dflt else fromBE (md.take 32)

end Hpl.Spec
