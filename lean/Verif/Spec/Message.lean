import Verif.Model.Message

/-! # The message wire format, specified -/

namespace Hpl

/-- Specification of the Hyperlane v3 wire format, byte offset by byte offset, as published in
the protocol documentation; independent of the encoder. -/
structure Spec.WireFormat (m : Message) (b : Bytes) : Prop where
  size : b.length = 77 + m.body.length
  version : b[0]? = some m.version
  nonce : fromBE ((b.drop 1).take 4) = m.nonce.toNat
  origin : fromBE ((b.drop 5).take 4) = m.origin.toNat
  sender : (b.drop 9).take 32 = m.sender
  dest : fromBE ((b.drop 41).take 4) = m.dest.toNat
  recipient : (b.drop 45).take 32 = m.recipient
  body : b.drop 77 = m.body

end Hpl
