import Verif.Model.Basic

/-! # Incremental merkle tree (`/repo/packages/interface/src/types/merkle.rs`)

`H` is `keccak256_hash`; `zs` is the table `ZERO_HASHES` (merkle.rs 11-44) decoded from hex. -/

namespace Hpl.Merkle

/-- `TREE_DEPTH`, merkle.rs 7. -/
def treeDepth : Nat := 32

/-- `MAX_LEAVES`, merkle.rs 8. -/
def maxLeaves : Nat := 2 ^ 32 - 1

/-- `struct MerkleTree`, merkle.rs 46-50. `branch` is `[HexBinary; 32]`, here a list (its length is
32 in every reachable tree); `count` is a `u128` that never exceeds `maxLeaves`. -/
structure Tree where
  branch : List Bytes
  count : Nat
deriving DecidableEq, Repr

/-- `impl Default`, merkle.rs 52-65. -/
def default (zs : List Bytes) : Tree := ⟨zs, 0⟩

/-- The loop of `insert`, merkle.rs 78-86: `none` is the final `panic!`. -/
def insertLoop (H : Bytes → Bytes) : List Bytes → Bytes → Nat → Option (List Bytes)
  | [], _, _ => none
  | next :: rest, node, size =>
    if size % 2 = 1 then some (node :: rest)
    else (insertLoop H rest (H (next ++ node)) (size / 2)).map (next :: ·)

/-- `insert`, merkle.rs 68-87. -/
def insert (H : Bytes → Bytes) (t : Tree) (node : Bytes) : Res Tree :=
  if t.count < maxLeaves then
    match insertLoop H t.branch node (t.count + 1) with
    | some b => .ok ⟨b, t.count + 1⟩
    | none => .error (.panic "unreachable code")
  else .error (.err "tree is full")

/-- The fold of `root_with_ctx`, merkle.rs 92-103; bit `i` of the index is read by halving. -/
def rootLoop (H : Bytes → Bytes) : List Bytes → List Bytes → Nat → Bytes → Bytes
  | zero :: zs, next :: bs, idx, current =>
    rootLoop H zs bs (idx / 2)
      (if idx % 2 = 1 then H (next ++ current) else H (current ++ zero))
  | _, _, _, current => current

/-- `root` and `root_with_ctx`, merkle.rs 89-108, starting from `zero()` (120-125). -/
def root (H : Bytes → Bytes) (zs : List Bytes) (t : Tree) : Bytes :=
  rootLoop H zs t.branch t.count (zeros 32)

/-- `branch_root`, merkle.rs 110-118. -/
def branchRoot (H : Bytes → Bytes) (item : Bytes) : List Bytes → Nat → Bytes
  | [], _ => item
  | next :: rest, idx =>
    branchRoot H (if idx % 2 = 1 then H (next ++ item) else H (item ++ next)) rest (idx / 2)

end Hpl.Merkle
