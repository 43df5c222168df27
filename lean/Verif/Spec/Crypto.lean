import Verif.Model.Crypto

/-! # Signatures and digests, specified -/

namespace Hpl.Spec

/-- Two different byte strings with the same hash. -/
def Collision (H : Bytes → Bytes) (x y : Bytes) : Prop := x ≠ y ∧ H x = H y

/-- `signer` is the address recovered from a 65-byte Ethereum signature (`r ‖ s ‖ v`, `v` is 27 plus the recovery bit)
over `digest`: the last 20 bytes of the hash of the recovered public key without its first byte. Bytes after the
65th are ignored. -/
def SignedBy (H : Bytes → Bytes) (R : Recover) (digest signature signer : Bytes) : Prop :=
  ∃ v bit pk, 65 ≤ signature.length ∧ signature[64]? = some v ∧ v.toNat = 27 + bit.toNat ∧
    R digest (signature.take 64) bit = some pk ∧ signer = (H (pk.drop 1)).drop 12 ∧ signer.length = 20

/-- The digest wallets sign for a 32-byte payload (`personal_sign`). -/
def personalDigest (H : Bytes → Bytes) (payload : Bytes) : Bytes :=
  H ([0x19] ++ ascii "Ethereum Signed Message:" ++ [0x0a] ++ ascii "32" ++ payload)

/-- The string hashed by `personalDigest`. -/
def personalInput (payload : Bytes) : Bytes :=
  [0x19] ++ ascii "Ethereum Signed Message:" ++ [0x0a] ++ ascii "32" ++ payload

/-- What a validator signs to announce a storage location: domain and mailbox (32 bytes) are hashed together with a
tag, that hash with the location. -/
def announcementDigest (H : Bytes → Bytes) (domain : UInt32) (mailbox32 location : Bytes) : Bytes :=
  personalDigest H (H (H (u32be domain ++ mailbox32 ++ ascii "HYPERLANE_ANNOUNCEMENT") ++ location))

/-- What a validator signs to attest a message id at a checkpoint. -/
def checkpointDigest (H : Bytes → Bytes) (origin : UInt32) (tree root : Bytes) (index : UInt32) (id : Bytes) :
    Bytes :=
  personalDigest H (H (H (u32be origin ++ tree ++ ascii "HYPERLANE") ++ root ++ u32be index ++ id))

/-- The three strings hashed to make a checkpoint digest. -/
def checkpointInputs (H : Bytes → Bytes) (origin : UInt32) (tree root : Bytes) (index : UInt32) (id : Bytes) :
    List Bytes :=
  let p := u32be origin ++ tree ++ ascii "HYPERLANE"
  let q := H p ++ root ++ u32be index ++ id
  [p, q, personalInput (H q)]

/-- The three strings hashed to make an announcement digest. -/
def announcementInputs (H : Bytes → Bytes) (domain : UInt32) (mailbox32 location : Bytes) : List Bytes :=
  let p := u32be domain ++ mailbox32 ++ ascii "HYPERLANE_ANNOUNCEMENT"
  let q := H p ++ location
  [p, q, personalInput (H q)]

end Hpl.Spec
