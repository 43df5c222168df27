import Verif.Model.Basic

/-! # Warp route payload (`/repo/packages/interface/src/warp/mod.rs`) -/

namespace Hpl

/-- `warp::Message`, mod.rs 56-61; `amount` is a `Uint256`. -/
structure WarpMessage where
  recipient : Bytes
  amount : Nat
  metadata : Bytes
deriving DecidableEq, Repr

namespace WarpMessage

/-- mod.rs 63-73. The recipient is written whatever its length. -/
def encode (m : WarpMessage) : Bytes := m.recipient ++ (u256be m.amount ++ m.metadata)

/-- mod.rs 75-83. -/
def decode (v : Bytes) : Res WarpMessage := do
  let r ← slice v 0 32
  let a ← slice v 32 64
  let md ← sliceFrom v 64
  return ⟨r, fromBE a, md⟩

end WarpMessage

end Hpl
