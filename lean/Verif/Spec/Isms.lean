import Verif.Spec.Message
import Verif.Spec.Multisig
import Verif.Model.Isms

/-! # Approval by modules, specified -/

namespace Hpl.Spec

/-- The part of aggregate metadata addressed by the `i`-th pair of 4-byte offsets (start, end) in its head. -/
def PartAt (metadata : Bytes) (i : Nat) (part : Bytes) : Prop :=
  8 * i + 8 ≤ metadata.length ∧
  ∃ b e, b = fromBE ((metadata.drop (8 * i)).take 4) ∧ e = fromBE ((metadata.drop (8 * i + 4)).take 4) ∧
    b ≤ e ∧ e ≤ metadata.length ∧ part = (metadata.drop b).take (e - b)

/-- The metadata part of module `a` in a module list: the part at its position (its last one if listed repeatedly). -/
def PartFor (metadata : Bytes) (isms : List Addr) (a : Addr) (part : Bytes) : Prop :=
  ∃ i, isms[i]? = some a ∧ (∀ j, i < j → isms[j]? ≠ some a) ∧ PartAt metadata i part

/-- Different listed modules, each approving the message with its metadata part. -/
def Approvals (V : Verifier) (metadata message : Bytes) (isms q : List Addr) : Prop :=
  q.Nodup ∧ ∀ a ∈ q, a ∈ isms ∧ ∃ part, PartFor metadata isms a part ∧ V a part message = .ok true

/-- Approval of a message by a module, recursively down to the leaves of the nesting. -/
inductive Approved (H : Bytes → Bytes) (R : Recover) (world : Addr → Option IsmContract) (message : Bytes) :
    Addr → Bytes → Prop where
  /-- A validator quorum signed. -/
  | multisig {a md s m vs t q} (hw : world a = some (.multisig s)) (hm : WireFormat m message)
      (hv : s.validators.get m.origin = some vs) (ht : s.threshold.get m.origin = some t)
      (hq : q.length = t.toNat)
      (hs : Quorum H R (digestFor H m.origin md message) (SignatureIn md) vs q) : Approved H R world message a md
  /-- An unpaused pausable module approves everything. -/
  | pausable {a md} (hw : world a = some (.pausable false)) : Approved H R world message a md
  /-- Some other module approved. -/
  | other {a md f} (hw : world a = some (.other f)) (hf : f md message = .ok true) : Approved H R world message a md
  /-- The module for the origin approved, with the same metadata. -/
  | routing {a md s m b} (hw : world a = some (.routing s)) (hm : WireFormat m message)
      (hr : s.get m.origin = some b) (h : Approved H R world message b md) : Approved H R world message a md
  /-- As many different modules as the threshold says approved, each with its own part of the metadata. -/
  | aggregate {a md s} {q : List Addr} (part : Addr → Bytes) (hw : world a = some (.aggregate s))
      (hq : q.Nodup) (hl : q.length = s.threshold.toNat) (hm : ∀ b ∈ q, b ∈ s.isms)
      (hp : ∀ b ∈ q, PartFor md s.isms b (part b))
      (h : ∀ b ∈ q, Approved H R world message b (part b)) : Approved H R world message a md

end Hpl.Spec
