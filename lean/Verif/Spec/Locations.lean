import Verif.Model.Keccak
import Verif.Model.Va
import Verif.Spec.Secp
import Verif.Spec.Security

/-! # Storage locations of validators, specified -/

namespace Hpl.Spec

open Secp
open Keccak (keccak256)

/-- The answer of the locations query for one validator: where its signatures are said to be stored. -/
def shown (s : Va.State) (v : Bytes) : List Bytes := ((Va.getAnnounce s [v]).map Prod.snd).flatten

/-- The signature with which a location was announced is valid for the secret key `d`, but of a digest that the validator never
signed. -/
def LocationForged (g : secp256k1.Point) (high : Bool) (d : ℕ) (signed : Attestation → Prop) (dom : UInt32)
    (mailbox32 location sig : Bytes) : Prop :=
  0 < d ∧ d < n ∧ EthSigned g high d (announcementDigest keccak256 dom mailbox32 location) (sig.take 65) ∧
    ∀ a, signed a → a.digest keccak256 ≠ announcementDigest keccak256 dom mailbox32 location

end Hpl.Spec
