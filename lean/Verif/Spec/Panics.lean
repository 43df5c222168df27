import Verif.Model.Igp
import Verif.Model.Isms
import Verif.Model.Mailbox
import Verif.Model.Va
import Verif.Model.Warp

/-! # Panics

A contract call can fail in two ways: with an error the code chose to return, or by a Rust panic. The specification
names the situations in which a call panics in terms of lengths, settings and numbers only. -/

namespace Hpl

/-- The call ends in a Rust panic. -/
def Panics {α : Type} (r : Res α) : Prop := ∃ tag, r = .error (.panic tag)

/-- Answers of other contracts reach the caller as values or errors: a panic of a queried contract is an error of the
query. -/
structure Mailbox.Env.Calm (e : Mailbox.Env) : Prop where
  quote : ∀ a x y, ¬ Panics (e.quote a x y)
  recipientIsm : ∀ a, ¬ Panics (e.recipientIsm a)
  verify : ∀ a x y, ¬ Panics (e.verify a x y)

/-- The same for the answers hooks see. -/
structure HookEnv.Calm (e : HookEnv) : Prop where
  quote : ∀ a x y, ¬ Panics (e.quote a x y)
  latestId : ∀ a, ¬ Panics (e.latestId a)

/-- The same for gas oracles. -/
def OracleCalm (o : Addr → UInt32 → Res Oracle.GasData) : Prop := ∀ a d, ¬ Panics (o a d)

/-- The same for the modules an aggregate or routing module asks. -/
def VerifierCalm (V : Verifier) : Prop := ∀ a x y, ¬ Panics (V a x y)

/-- The mailbox has its three settings. -/
def Mailbox.Config.Complete (c : Mailbox.Config) : Prop :=
  c.defaultIsm.isSome ∧ c.defaultHook.isSome ∧ c.requiredHook.isSome

/-- The address of the account has at most 32 bytes (or is no address at all). -/
def ShortAddress (C : Codec) (a : Addr) : Prop := ∀ raw, C.dec a = some raw → raw.length ≤ 32

/-- The gas price calculation for `gas` leaves 256 bits. -/
def GasOverflow (gas : Nat) (d : Oracle.GasData) : Prop :=
  2 ^ 256 ≤ gas * d.price ∨ 2 ^ 256 ≤ gas * d.price * d.rate

/-- A refund address in gas metadata that the paymaster cannot turn into an account: it has the length of an address,
and either its first 16 bytes are zero or the address library refuses the bytes it is given (the last 20 of 32 bytes
starting with 12 zero bytes, otherwise all). -/
def BadRefund (C : Codec) (hrp : String) (r : Bytes) : Prop :=
  (r.length = 20 ∨ r.length = 32) ∧
    (r.take 16 = zeros 16 ∨
      C.enc hrp (if r.length = 32 ∧ r.take 12 = zeros 12 then r.drop 12 else r) = none)

/-- A signature that cannot even be looked at: shorter than 65 bytes, or its last byte below 27. -/
def BadSignature (sig : Bytes) : Prop := sig.length < 65 ∨ ∃ x, sig[64]? = some x ∧ x.toNat < 27

/-- Hash function with 32-byte results and key recovery with non-empty keys, as keccak256 and secp256k1 are. -/
structure GoodCrypto (H : Bytes → Bytes) (R : Recover) : Prop where
  hash : ∀ b, (H b).length = 32
  key : ∀ h s v k, R h s v = some k → k ≠ []

/-- The gas amount a dispatch asks for: the first 32 bytes of the metadata, or the setting if it is shorter. -/
def Spec.gasAsked (s : Igp.State) (md : Bytes) (dest : UInt32) : Nat :=
  if md.length < 32 then (s.gasFor.get dest).getD s.defaultGas else fromBE (md.take 32)

/-- What an arriving message must be like for the router to panic: it comes from the mailbox, and there is no route for its
origin, or it was sent by the remote router there and has fewer than 64 bytes. -/
def Spec.PanicsOnArrival (s : Warp.State) (sender : Addr) (origin : UInt32) (from32 body : Bytes) : Prop :=
  sender = s.mailbox ∧ (Router.getRoute s.routes origin = none ∨
    (Router.getRoute s.routes origin = some from32 ∧ body.length < 64))

end Hpl
