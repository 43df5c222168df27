import Verif.Model.Basic

/-! # Hyperlane message wire format (`/repo/packages/interface/src/types/message.rs`) -/

namespace Hpl

/-- `struct Message`, message.rs 7-15. -/
structure Message where
  version : UInt8
  nonce : UInt32
  origin : UInt32
  sender : Bytes
  dest : UInt32
  recipient : Bytes
  body : Bytes
deriving DecidableEq, Repr

namespace Message

/-- `impl From<Message> for HexBinary`, message.rs 30-45. -/
def encode (m : Message) : Bytes :=
  [m.version] ++ (u32be m.nonce ++ (u32be m.origin ++ (m.sender ++ (u32be m.dest ++
    (m.recipient ++ m.body)))))

/-- `impl From<HexBinary> for Message`, message.rs 47-59. Slices out of range panic. -/
def decode (v : Bytes) : Res Message := do
  let version ← index v 0
  let nonce ← slice v 1 5
  let origin ← slice v 5 9
  let sender ← slice v 9 41
  let dest ← slice v 41 45
  let recipient ← slice v 45 77
  let body ← sliceFrom v 77
  return {
    version := version
    nonce := ofU32be nonce
    origin := ofU32be origin
    sender := sender
    dest := ofU32be dest
    recipient := recipient
    body := body }

/-- `Message::id`, message.rs 18-20; `H` is `keccak256_hash` (crypto.rs 5-13). -/
def id (H : Bytes → Bytes) (m : Message) : Bytes := H m.encode

end Message

end Hpl
