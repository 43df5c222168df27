import Verif.Lemmas.Merkle
import Verif.Lemmas.Res

/-! # C09 - C13: the incremental merkle tree -/

namespace Hpl

open Merkle Spec

/-- Insert a sequence of leaves one after the other. -/
def Merkle.insertAll (H : Bytes → Bytes) (t : Tree) : List Bytes → Res Tree
  | [] => .ok t
  | x :: xs => do
    let t' ← Merkle.insert H t x
    insertAll H t' xs

/-- Everything known about a tree built from the leaves `l`. -/
theorem Merkle.insertAll_spec (H : Bytes → Bytes) (t t' : Tree) (l r : List Bytes)
    (hb : t.branch.length = 32) (hc : t.count = l.length) (hI : Inv H t.branch l)
    (h : insertAll H t r = .ok t') :
    t'.branch.length = 32 ∧ t'.count = (l ++ r).length ∧ Inv H t'.branch (l ++ r) ∧
    (r ≠ [] → (l ++ r).length ≤ 2 ^ 32 - 1) := by
  induction r generalizing t l with
  | nil =>
    simp only [insertAll, Except.ok.injEq] at h
    subst h
    exact ⟨hb, by simpa using hc, by simpa using hI, fun h => absurd rfl h⟩
  | cons x xs ih =>
    simp only [insertAll] at h
    obtain ⟨t1, h1, h2⟩ := bind_eq_ok.1 h
    unfold Merkle.insert at h1
    split at h1
    case isFalse => cases h1
    case isTrue hlt =>
    split at h1
    case h_2 => cases h1
    case h_1 b hb1 =>
    cases h1
    rw [hc] at hb1
    obtain ⟨g1, g2⟩ := insertLoop_inv H _ _ l x hI hb1
    obtain ⟨k1, k2, k3, k4⟩ := ih ⟨b, t.count + 1⟩ (l ++ [x]) (by simpa [hb] using g2)
      (by simp [hc]) g1 h2
    have e : l ++ [x] ++ xs = l ++ (x :: xs) := by simp
    rw [e] at k2 k3 k4
    refine ⟨k1, k2, k3, fun _ => ?_⟩
    by_cases hx : xs = []
    · subst hx
      unfold maxLeaves at hlt
      simp; omega
    · exact k4 hx

theorem Merkle.insertAll_default (H : Bytes → Bytes) (zs : List Bytes) (hz : zs.length = 32)
    (r : List Bytes) (t' : Tree) (h : insertAll H (Merkle.default zs) r = .ok t') :
    t'.branch.length = 32 ∧ t'.count = r.length ∧ Inv H t'.branch r ∧ r.length ≤ 2 ^ 32 - 1 := by
  obtain ⟨h1, h2, h3, h4⟩ := insertAll_spec H (Merkle.default zs) t' [] r hz rfl (inv_nil H _) h
  refine ⟨h1, by simpa using h2, by simpa using h3, ?_⟩
  by_cases hr : r = []
  · subst hr; simp
  · simpa using h4 hr

/-- C13. In every tree reachable from the empty one by insertions (with whatever hash and whatever
table of constants): the count is the number of insertions; the next insertion succeeds exactly when fewer
than `2^32 - 1` leaves are present and then raises the count by one; otherwise it fails with an
error, never a panic. -/
theorem C13_insert_total (H : Bytes → Bytes) (zs : List Bytes) (hz : zs.length = 32)
    (leaves : List Bytes) (t : Tree) (ht : insertAll H (Merkle.default zs) leaves = .ok t)
    (x : Bytes) :
    t.count = leaves.length ∧
    (leaves.length < 2 ^ 32 - 1 → ∃ t', Merkle.insert H t x = .ok t' ∧ t'.count = t.count + 1) ∧
    (¬ leaves.length < 2 ^ 32 - 1 → Merkle.insert H t x = .error (.err "tree is full")) ∧
    (∀ s, Merkle.insert H t x ≠ .error (.panic s)) := by
  obtain ⟨h1, h2, h3, h4⟩ := insertAll_default H zs hz leaves t ht
  have hins : leaves.length < 2 ^ 32 - 1 →
      ∃ t', Merkle.insert H t x = .ok t' ∧ t'.count = t.count + 1 := by
    intro hlt
    obtain ⟨b, hb⟩ := insertLoop_some H t.branch x (t.count + 1) (by omega) (by rw [h1]; omega)
    refine ⟨⟨b, t.count + 1⟩, ?_, rfl⟩
    unfold Merkle.insert maxLeaves
    rw [if_pos (by omega), hb]
  have hfull : ¬ leaves.length < 2 ^ 32 - 1 → Merkle.insert H t x = .error (.err "tree is full") := by
    intro hn
    unfold Merkle.insert maxLeaves
    rw [if_neg (by omega)]
  refine ⟨h2, hins, hfull, ?_⟩
  intro s hs
  by_cases hlt : leaves.length < 2 ^ 32 - 1
  · obtain ⟨t', ht', _⟩ := hins hlt
    rw [ht'] at hs; cases hs
  · rw [hfull hlt] at hs; cases hs

/-- C13 (sequences). Any sequence of at most `2^32 - 1` leaves can be inserted, no longer one can. -/
theorem C13_capacity (H : Bytes → Bytes) (zs : List Bytes) (hz : zs.length = 32)
    (leaves : List Bytes) :
    (∃ t, insertAll H (Merkle.default zs) leaves = .ok t) ↔ leaves.length ≤ 2 ^ 32 - 1 := by
  constructor
  · rintro ⟨t, ht⟩
    exact (insertAll_default H zs hz leaves t ht).2.2.2
  · intro hle
    have happ : ∀ (a : List Bytes) (b : Bytes) (t0 t1 : Tree), insertAll H t0 a = .ok t1 →
        insertAll H t0 (a ++ [b]) = Merkle.insert H t1 b := by
      intro a
      induction a with
      | nil =>
        intro b t0 t1 h
        simp only [insertAll, Except.ok.injEq] at h
        subst h
        simp only [List.nil_append, insertAll]
        cases Merkle.insert H t0 b <;> rfl
      | cons x xs ih =>
        intro b t0 t1 h
        simp only [insertAll] at h
        obtain ⟨t2, h2, h3⟩ := bind_eq_ok.1 h
        simp only [List.cons_append, insertAll, h2, ok_bind]
        exact ih b t2 t1 h3
    induction leaves using List.reverseRecOn with
    | nil => exact ⟨_, rfl⟩
    | append_singleton a b ih =>
      rw [List.length_append, List.length_singleton] at hle
      obtain ⟨t, ht⟩ := ih (by omega)
      obtain ⟨t', ht', _⟩ := (C13_insert_total H zs hz a t ht b).2.1 (by omega)
      exact ⟨t', by rw [happ a b _ t ht]; exact ht'⟩

/-- C09. The root of the incremental tree after inserting `leaves` is the root of the complete
depth-32 tree over those leaves padded with zero leaves. `zs` is any table of empty-subtree
hashes for `H` (`C14_zero_hashes` shows the hard-coded table is the one for keccak256). -/
theorem C09_root_correct (H : Bytes → Bytes) (zs : List Bytes) (hz : ZeroChain H zs)
    (leaves : List Bytes) (t : Tree) (ht : insertAll H (Merkle.default zs) leaves = .ok t) :
    Merkle.root H zs t = treeRoot H 32 (leafOf leaves) := by
  obtain ⟨h1, h2, h3, h4⟩ := insertAll_default H zs hz.1 leaves t ht
  unfold Merkle.root
  rw [h2, rootLoop_spec H zs t.branch leaves (zeros 32) (zeros 32) (by rw [hz.1, h1]) h3
    (chain_of_zeroChain H hz) (by rw [h1]; omega), h1, fill_zero]

/-- C10. For every index below `2^32` (in particular every inserted leaf) the sibling path makes the
proof check return the published root. -/
theorem C10_inclusion_complete (H : Bytes → Bytes) (zs : List Bytes) (hz : ZeroChain H zs)
    (leaves : List Bytes) (t : Tree) (ht : insertAll H (Merkle.default zs) leaves = .ok t)
    (i : Nat) (x : Bytes) (hx : leaves[i]? = some x) :
    (siblingPath H (leafOf leaves) 32 i).length = 32 ∧
    branchRoot H x (siblingPath H (leafOf leaves) 32 i) i = Merkle.root H zs t := by
  have hlen := (insertAll_default H zs hz.1 leaves t ht).2.2.2
  have hi : i < leaves.length := by
    rcases Nat.lt_or_ge i leaves.length with h | h
    · exact h
    · rw [List.getElem?_eq_none h] at hx; cases hx
  have hx' : x = leafOf leaves i := by simp [leafOf, hx]
  refine ⟨by simp [siblingPath], ?_⟩
  rw [C09_root_correct H zs hz leaves t ht, hx']
  exact branchRoot_siblingPath H _ 32 i (by omega)

theorem node_length (H : Bytes → Bytes) (hH : ∀ x, (H x).length = 32) (f : Nat → Bytes)
    (hf : ∀ i, (f i).length = 32) (k j : Nat) : (node H f k j).length = 32 := by
  cases k with
  | zero => rw [node_zero]; exact hf j
  | succ k => rw [node_succ]; exact hH _

theorem branchRoot_proofValue (H : Bytes → Bytes) (item : Bytes) (proof : List Bytes) (idx : Nat) :
    branchRoot H item proof idx = proofValue H item proof idx proof.length := by
  have gen : ∀ (rest pre : List Bytes), branchRoot H (proofValue H item (pre ++ rest) idx pre.length) rest
      (idx / 2 ^ pre.length) = proofValue H item (pre ++ rest) idx (pre ++ rest).length := by
    intro rest
    induction rest with
    | nil => intro pre; simp [branchRoot]
    | cons a t ih =>
      intro pre
      simp only [branchRoot]
      have := ih (pre ++ [a])
      have e : pre ++ [a] ++ t = pre ++ a :: t := by simp
      rw [e] at this
      rw [← this]
      congr 1
      · have hg : (pre ++ a :: t).getD pre.length [] = a := by simp
        simp only [List.length_append, List.length_singleton, proofValue, hg]
        split <;> rfl
      · simp only [List.length_append, List.length_singleton, Nat.pow_succ]
        rw [Nat.div_div_eq_div_mul]
  have := gen proof []
  simpa [proofValue] using this

/-- C11. Soundness of inclusion proofs: if the proof check of a 32-byte item at an index below `2^32`
returns the published root, the item is the leaf inserted at that index (the zero leaf past the end), or at some
height the hash input used by the proof and the one used by the tree are different with equal hash. -/
theorem C11_inclusion_sound (H : Bytes → Bytes) (hH : ∀ x, (H x).length = 32) (zs : List Bytes)
    (hz : ZeroChain H zs) (leaves : List Bytes) (hl : ∀ x ∈ leaves, x.length = 32) (t : Tree)
    (ht : insertAll H (Merkle.default zs) leaves = .ok t)
    (item : Bytes) (hitem : item.length = 32) (proof : List Bytes) (hp : proof.length = 32)
    (idx : Nat) (hidx : idx < 2 ^ 32)
    (h : branchRoot H item proof idx = Merkle.root H zs t) :
    item = leafOf leaves idx ∨
    ∃ k < 32, proofInput H item proof idx k ≠ nodePreimage H (leafOf leaves) k (idx / 2 ^ (k + 1)) ∧
      H (proofInput H item proof idx k) =
        H (nodePreimage H (leafOf leaves) k (idx / 2 ^ (k + 1))) := by
  rw [C09_root_correct H zs hz leaves t ht, branchRoot_proofValue, hp, ← node_top] at h
  have hf : ∀ i, (leafOf leaves i).length = 32 := by
    intro i
    unfold leafOf
    rw [List.getD_eq_getElem?_getD]
    cases hx : leaves[i]? with
    | none => simp
    | some x => exact hl x (List.mem_of_getElem? hx)
  by_contra hcon
  rw [not_or] at hcon
  obtain ⟨hne, hcol⟩ := hcon
  apply hne
  -- descend from the root to the leaf
  have key : ∀ m, m ≤ 32 → proofValue H item proof idx (32 - m) =
      node H (leafOf leaves) (32 - m) (idx / 2 ^ (32 - m)) := by
    intro m
    induction m with
    | zero =>
      intro _
      rw [Nat.sub_zero, h, Nat.div_eq_of_lt hidx]
    | succ m ih =>
      intro hm
      have ih := ih (by omega)
      obtain ⟨k, hk⟩ : ∃ k, 32 - m = k + 1 := ⟨32 - m - 1, by omega⟩
      have hk' : 32 - (m + 1) = k := by omega
      rw [hk'] 
      rw [hk] at ih
      have hpv : proofValue H item proof idx (k + 1) = H (proofInput H item proof idx k) := rfl
      rw [hpv, node_succ] at ih
      have heq : proofInput H item proof idx k =
          nodePreimage H (leafOf leaves) k (idx / 2 ^ (k + 1)) := by
        by_contra hd
        exact hcol ⟨k, by omega, hd, ih⟩
      have hcur : (proofValue H item proof idx k).length = 32 := by
        cases k with
        | zero => exact hitem
        | succ k => exact hH _
      have hhalf : idx / 2 ^ (k + 1) = idx / 2 ^ k / 2 := by
        rw [Nat.div_div_eq_div_mul, Nat.pow_succ]
      unfold proofInput nodePreimage at heq
      rw [hhalf] at heq
      by_cases hb : idx / 2 ^ k % 2 = 1
      · rw [if_pos hb] at heq
        have := (List.append_inj' heq (by rw [hcur, node_length H hH _ hf])).2
        rw [this]; congr 1; omega
      · rw [if_neg hb] at heq
        have := (List.append_inj heq (by rw [hcur, node_length H hH _ hf])).1
        rw [this]; congr 1; omega
  have := key 32 (Nat.le_refl _)
  simpa [proofValue, node_zero] using this

/-- C12. Two trees with the same root contain the same leaves after zero padding, or some inner node
exhibits a hash collision; with equal counts the leaf sequences are equal. -/
theorem C12_root_binds_history (H : Bytes → Bytes) (hH : ∀ x, (H x).length = 32) (zs : List Bytes)
    (hz : ZeroChain H zs) (l1 l2 : List Bytes) (h1 : ∀ x ∈ l1, x.length = 32)
    (h2 : ∀ x ∈ l2, x.length = 32) (t1 t2 : Tree)
    (ht1 : insertAll H (Merkle.default zs) l1 = .ok t1)
    (ht2 : insertAll H (Merkle.default zs) l2 = .ok t2)
    (h : Merkle.root H zs t1 = Merkle.root H zs t2) :
    ((∀ i, i < 2 ^ 32 → leafOf l1 i = leafOf l2 i) ∧ (t1.count = t2.count → l1 = l2)) ∨
    ∃ k j, k < 32 ∧ j < 2 ^ (31 - k) ∧
      nodePreimage H (leafOf l1) k j ≠ nodePreimage H (leafOf l2) k j ∧
      H (nodePreimage H (leafOf l1) k j) = H (nodePreimage H (leafOf l2) k j) := by
  rw [C09_root_correct H zs hz l1 t1 ht1, C09_root_correct H zs hz l2 t2 ht2, ← node_top,
    ← node_top] at h
  have hlf : ∀ l : List Bytes, (∀ x ∈ l, x.length = 32) → ∀ i, (leafOf l i).length = 32 := by
    intro l hl i
    unfold leafOf
    rw [List.getD_eq_getElem?_getD]
    cases hx : l[i]? with
    | none => simp
    | some x => exact hl x (List.mem_of_getElem? hx)
  by_contra hcon
  rw [not_or] at hcon
  obtain ⟨hne, hcol⟩ := hcon
  apply hne
  have key : ∀ m, m ≤ 32 → ∀ j, j < 2 ^ m →
      node H (leafOf l1) (32 - m) j = node H (leafOf l2) (32 - m) j := by
    intro m
    induction m with
    | zero =>
      intro _ j hj
      have : j = 0 := by simpa using hj
      rw [this]; exact h
    | succ m ih =>
      intro hm j hj
      obtain ⟨k, hk⟩ : ∃ k, 32 - m = k + 1 := ⟨32 - m - 1, by omega⟩
      have hk' : 32 - (m + 1) = k := by omega
      have hj2 : j / 2 < 2 ^ m := by rw [Nat.pow_succ] at hj; omega
      have ih := ih (by omega) (j / 2) hj2
      rw [hk, node_succ, node_succ] at ih
      have heq : nodePreimage H (leafOf l1) k (j / 2) = nodePreimage H (leafOf l2) k (j / 2) := by
        by_contra hd
        exact hcol ⟨k, j / 2, by omega, by
          have : 31 - k = m := by omega
          rw [this]; exact hj2, hd, ih⟩
      unfold nodePreimage at heq
      have hsplit := List.append_inj heq (by rw [node_length H hH _ (hlf l1 h1),
        node_length H hH _ (hlf l2 h2)])
      rw [hk']
      by_cases hb : j % 2 = 1
      · have e : j = 2 * (j / 2) + 1 := by omega
        rw [e]; exact hsplit.2
      · have e : j = 2 * (j / 2) := by omega
        rw [e]; exact hsplit.1
  have hleaf : ∀ i, i < 2 ^ 32 → leafOf l1 i = leafOf l2 i := by
    intro i hi
    have := key 32 (Nat.le_refl _) i hi
    simpa [node_zero] using this
  refine ⟨hleaf, ?_⟩
  intro hc
  obtain ⟨_, c1, _, b1⟩ := insertAll_default H zs hz.1 l1 t1 ht1
  obtain ⟨_, c2, _, b2⟩ := insertAll_default H zs hz.1 l2 t2 ht2
  rw [c1, c2] at hc
  apply List.ext_getElem hc
  intro i hi1 hi2
  have := hleaf i (by omega)
  simpa [leafOf, hi1, hi2] using this

/-! Concrete cases meeting the hypotheses: a toy 32-byte hash with its zero chain, three leaves. -/

/-- A toy hash with 32-byte output. -/
def toyHash (x : Bytes) : Bytes := u256be (x.foldl (fun a b => (a * 31 + b.toNat + 7) % 1000003) 5)

/-- Its empty-subtree table. -/
def toyZeros : List Bytes := (List.range 32).map (fun i => (fun a => toyHash (a ++ a))^[i] (zeros 32))

theorem toyHash_length (x : Bytes) : (toyHash x).length = 32 := by simp [toyHash]

theorem toy_zeroChain : ZeroChain toyHash toyZeros := by
  refine ⟨by simp [toyZeros], by simp [toyZeros], ?_⟩
  intro i a b ha hb
  simp only [toyZeros, List.getElem?_map, Option.map_eq_some_iff] at ha hb
  obtain ⟨x, hx, rfl⟩ := ha
  obtain ⟨y, hy, rfl⟩ := hb
  rw [List.getElem?_range] at hx hy
  · cases hx; cases hy
    rw [Function.iterate_succ_apply']
  · by_contra hc
    rw [List.getElem?_eq_none (by simp; omega)] at hy; cases hy
  · by_contra hc
    rw [List.getElem?_eq_none (by simp; omega)] at hx; cases hx

example : ∃ (l : List Bytes) (t : Tree), l.length = 3 ∧ (∀ x ∈ l, x.length = 32) ∧
    insertAll toyHash (Merkle.default toyZeros) l = .ok t :=
  ⟨[toyHash [1], toyHash [2], toyHash [3]], _, rfl, by simp [toyHash_length],
    ((C13_capacity toyHash toyZeros toy_zeroChain.1 _).2 (by simp)).choose_spec⟩

end Hpl
