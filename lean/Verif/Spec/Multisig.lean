import Verif.Spec.Crypto
import Verif.Model.Message

/-! # Multisig approval, specified -/

namespace Hpl.Spec

/-- The `i`-th 65-byte block after the first 68 bytes of the metadata, if it is complete. -/
def SignatureIn (metadata sig : Bytes) : Prop :=
  ∃ i, (metadata.drop (68 + 65 * i)).take 65 = sig ∧ sig.length = 65

/-- The digest validators sign for a message under given metadata: tree address, root and index are the first 68
bytes of the metadata, the id is the hash of the message bytes. -/
def digestFor (H : Bytes → Bytes) (origin : UInt32) (metadata message : Bytes) : Bytes :=
  checkpointDigest H origin (metadata.take 32) ((metadata.drop 32).take 32)
    (ofU32be ((metadata.drop 64).take 4)) (H message)

/-- `q` are different enrolled validators, each having signed `digest` by one of the signatures `sigs`. -/
def Quorum (H : Bytes → Bytes) (R : Recover) (digest : Bytes) (sigs : Bytes → Prop) (enrolled : List Bytes)
    (q : List Bytes) : Prop :=
  q.Nodup ∧ ∀ a ∈ q, a ∈ enrolled ∧ ∃ sig, sigs sig ∧ SignedBy H R digest sig a

end Hpl.Spec
