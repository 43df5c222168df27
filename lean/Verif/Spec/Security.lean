import Verif.Spec.Isms
import Verif.Spec.Mailbox

/-! # Honest validators, specified -/

namespace Hpl.Spec

/-- What validators sign. -/
inductive Attestation where
  /-- The message was inserted into the tree of its origin, whose root then was `root` at `index`. -/
  | checkpoint (origin : UInt32) (tree root : Bytes) (index : UInt32) (message : Bytes)
  /-- The signatures of this validator are stored at the location. -/
  | announcement (domain : UInt32) (mailbox32 location : Bytes)

/-- The digest that is signed. -/
def Attestation.digest (H : Bytes → Bytes) : Attestation → Bytes
  | .checkpoint origin tree root index message => checkpointDigest H origin tree root index (H message)
  | .announcement domain mailbox location => announcementDigest H domain mailbox location

/-- All strings hashed to make the digest. -/
def Attestation.inputs (H : Bytes → Bytes) : Attestation → List Bytes
  | .checkpoint origin tree root index message => message :: checkpointInputs H origin tree root index (H message)
  | .announcement domain mailbox location => announcementInputs H domain mailbox location

/-- A validator that attested, of messages, only ones announced by the mailbox of the attested origin.
`announcedBy o b`: the mailbox of domain `o` announced the bytes `b`. -/
def Truthful (announcedBy : UInt32 → Bytes → Prop) (signed : Bytes → Attestation → Prop) (v : Bytes) : Prop :=
  ∀ origin tree root index message, signed v (.checkpoint origin tree root index message) →
    tree.length = 32 ∧ root.length = 32 ∧ announcedBy origin message

/-- The attestation a multisig module looks for. -/
def sought (origin : UInt32) (metadata message : Bytes) : Attestation :=
  .checkpoint origin (metadata.take 32) ((metadata.drop 32).take 32) (ofU32be ((metadata.drop 64).take 4)) message

/-- (A part of) the metadata contains a signature of an honest validator over the digest looked for, although this
validator never signed anything with that digest. -/
def Forged (H : Bytes → Bytes) (R : Recover) (honest : Bytes → Prop) (signed : Bytes → Attestation → Prop)
    (origin : UInt32) (metadata message : Bytes) : Prop :=
  ∃ v part sig, honest v ∧ part <:+: metadata ∧ SignatureIn part sig ∧
    SignedBy H R ((sought origin part message).digest H) sig v ∧
    ∀ a, signed v a → a.digest H ≠ (sought origin part message).digest H

/-- A string hashed for an attestation of an honest validator and one hashed for checking the submitted message with
(a part of) the submitted metadata are a collision of the hash. -/
def HashBroken (H : Bytes → Bytes) (honest : Bytes → Prop) (signed : Bytes → Attestation → Prop) (origin : UInt32)
    (metadata message : Bytes) : Prop :=
  ∃ v a part, honest v ∧ signed v a ∧ part <:+: metadata ∧
    ∃ x ∈ a.inputs H, ∃ y ∈ (sought origin part message).inputs H, Collision H x y

/-- Module `a` cannot approve messages from `origin` by dishonest validators alone: a multisig of which fewer than
threshold many validators are dishonest, a routing module whose module for the origin is guarded, or an aggregate any
threshold many modules of which include a guarded one. -/
inductive Guarded (world : Addr → Option IsmContract) (honest : Bytes → Prop) (origin : UInt32) : Addr → Prop where
  | multisig {a s} (hw : world a = some (.multisig s))
      (h : ∀ vs t, s.validators.get origin = some vs → s.threshold.get origin = some t →
        ∀ q : List Bytes, q.Nodup → (∀ v ∈ q, v ∈ vs ∧ ¬ honest v) → q.length < t.toNat) :
      Guarded world honest origin a
  | routing {a s} (hw : world a = some (.routing s)) (h : ∀ b, s.get origin = some b → Guarded world honest origin b) :
      Guarded world honest origin a
  | aggregate {a s} (g : List Addr) (hw : world a = some (.aggregate s)) (h : ∀ b ∈ g, Guarded world honest origin b)
      (hg : ∀ q : List Addr, q.Nodup → (∀ b ∈ q, b ∈ s.isms) → q.length = s.threshold.toNat → ∃ b ∈ q, b ∈ g) :
      Guarded world honest origin a

/-- In the log there is a dispatch that asked for the contents of `m`, by the account `m.sender`. -/
def DispatchedIn (C : Codec) (log : MailboxLog) (m : Message) : Prop :=
  ∃ e ∈ log, ∃ q, e.1.msg = .dispatch q ∧ bech32ToH256 C e.1.sender = .ok m.sender ∧ q.dest = m.dest ∧
    q.recipient = m.recipient ∧ q.body = m.body

end Hpl.Spec
