import Verif.Model.Basic

/-! # Specification: complete binary hash trees, independent of the incremental algorithm -/

namespace Hpl.Spec

/-- Root of the complete binary tree of depth `d` over the leaves `f 0, ..., f (2^d - 1)`. -/
def treeRoot (H : Bytes → Bytes) : Nat → (Nat → Bytes) → Bytes
  | 0, f => f 0
  | d + 1, f => H (treeRoot H d f ++ treeRoot H d (fun i => f (2 ^ d + i)))

/-- Leaf function of a list, padded with the zero leaf. -/
def leafOf (l : List Bytes) (i : Nat) : Bytes := l.getD i (zeros 32)

/-- Value of the `j`-th node of height `k`: the root over leaves `j * 2^k ..`. -/
def node (H : Bytes → Bytes) (f : Nat → Bytes) (k j : Nat) : Bytes :=
  treeRoot H k (fun m => f (j * 2 ^ k + m))

/-- Index of the sibling of node `j`. -/
def sibling (j : Nat) : Nat := if j % 2 = 0 then j + 1 else j - 1

/-- The sibling path of leaf `i`: for each height below `d`, the sibling of its ancestor. -/
def siblingPath (H : Bytes → Bytes) (f : Nat → Bytes) (d i : Nat) : List Bytes :=
  (List.range d).map (fun k => node H f k (sibling (i / 2 ^ k)))

/-- Hash input of the `j`-th inner node of height `k + 1`. -/
def nodePreimage (H : Bytes → Bytes) (f : Nat → Bytes) (k j : Nat) : Bytes :=
  node H f k (2 * j) ++ node H f k (2 * j + 1)

/-- The table of empty-subtree hashes for `H`: zero leaf first, then each the hash of its
predecessor with itself. -/
def ZeroChain (H : Bytes → Bytes) (zs : List Bytes) : Prop :=
  zs.length = 32 ∧ zs[0]? = some (zeros 32) ∧
  ∀ (i : Nat) (a b : Bytes), zs[i]? = some a → zs[i + 1]? = some b → b = H (a ++ a)

/-- Value carried at height `k` by a proof check: hash the item upwards, the proof entry going left
when the index bit is set. -/
def proofValue (H : Bytes → Bytes) (item : Bytes) (proof : List Bytes) (idx : Nat) : Nat → Bytes
  | 0 => item
  | k + 1 =>
    let cur := proofValue H item proof idx k
    let sib := proof.getD k []
    H (if (idx / 2 ^ k) % 2 = 1 then sib ++ cur else cur ++ sib)

/-- Hash input used by a proof check at height `k`. -/
def proofInput (H : Bytes → Bytes) (item : Bytes) (proof : List Bytes) (idx k : Nat) : Bytes :=
  if (idx / 2 ^ k) % 2 = 1 then proof.getD k [] ++ proofValue H item proof idx k
  else proofValue H item proof idx k ++ proof.getD k []

end Hpl.Spec
