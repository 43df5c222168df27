import Verif.Model.Merkle
import Verif.Spec.Merkle
import Verif.Lemmas.Bytes
import Mathlib.Data.List.Induction

/-! Helper lemmas about the merkle tree. -/

namespace Hpl.Merkle

open Spec

variable (H : Bytes → Bytes)

/-- Hash complete pairs. -/
def pairs : List Bytes → List Bytes
  | x :: y :: t => H (x ++ y) :: pairs t
  | _ => []

/-- Hash pairs of a leaf function. -/
def pairF (f : Nat → Bytes) : Nat → Bytes := fun i => H (f (2 * i) ++ f (2 * i + 1))

theorem length_pairs (l : List Bytes) : (pairs H l).length = l.length / 2 := by
  fun_induction pairs H l with
  | case1 x y t ih => simp only [List.length_cons, ih]; omega
  | case2 l h =>
    match l, h with
    | [], _ => rfl
    | [a], _ => simp
    | a :: b :: t, h => exact absurd rfl (h a b t)

theorem pairs_append_even (l r : List Bytes) (h : l.length % 2 = 0) :
    pairs H (l ++ r) = pairs H l ++ pairs H r := by
  fun_induction pairs H l with
  | case1 x y t ih =>
    simp only [List.cons_append, pairs]
    rw [ih]
    simp only [List.length_cons] at h; omega
  | case2 l hl =>
    match l, hl with
    | [], _ => rfl
    | [a], _ => simp at h
    | a :: b :: t, hl => exact absurd rfl (hl a b t)

/-- Branch invariant: the `i`-th entry is the last of the level-`i` complete nodes whenever their
number is odd. -/
def Inv : List Bytes → List Bytes → Prop
  | [], _ => True
  | b :: bs, l => (l.length % 2 = 1 → l.getLast? = some b) ∧ Inv bs (pairs H l)

theorem inv_nil (bs : List Bytes) : Inv H bs [] := by
  induction bs with
  | nil => trivial
  | cons b bs ih => exact ⟨fun h => by simp at h, ih⟩

theorem insertLoop_inv (bs bs' : List Bytes) (l : List Bytes) (node : Bytes) (hI : Inv H bs l)
    (h : insertLoop H bs node (l.length + 1) = some bs') :
    Inv H bs' (l ++ [node]) ∧ bs'.length = bs.length := by
  induction bs generalizing l node bs' with
  | nil => simp [insertLoop] at h
  | cons b bs ih =>
    simp only [insertLoop] at h
    split at h
    · rename_i hodd
      simp only [Option.some.injEq] at h
      subst h
      have he : l.length % 2 = 0 := by omega
      refine ⟨⟨fun _ => by simp, ?_⟩, rfl⟩
      rw [pairs_append_even H l [node] he]
      simpa [pairs] using hI.2
    · rename_i hodd
      have hl : l.length % 2 = 1 := by omega
      obtain ⟨hb, hI2⟩ := hI
      have hlast := hb hl
      rw [Option.map_eq_some_iff] at h
      obtain ⟨bs2, h2, rfl⟩ := h
      obtain ⟨l', rfl⟩ : ∃ l', l = l' ++ [b] := by
        rcases List.eq_nil_or_concat l with rfl | ⟨l', x, rfl⟩
        · simp at hl
        · simp only [List.concat_eq_append, List.getLast?_append, List.getLast?_singleton,
            Option.some_or, Option.some.injEq] at hlast
          exact ⟨l', by simp [hlast]⟩
      have hl' : l'.length % 2 = 0 := by simp at hl; omega
      have hp : pairs H (l' ++ [b]) = pairs H l' := by
        rw [pairs_append_even H _ _ hl']; simp [pairs]
      have hlen : ((l' ++ [b]).length + 1) / 2 = (pairs H (l' ++ [b])).length + 1 := by
        rw [length_pairs]; simp; omega
      rw [hlen] at h2
      obtain ⟨g1, g2⟩ := ih bs2 (pairs H (l' ++ [b])) _ hI2 h2
      refine ⟨⟨?_, ?_⟩, by simp [g2]⟩
      · intro hc; simp at hc; omega
      · rw [hp] at g1
        have : pairs H (l' ++ [b] ++ [node]) = pairs H l' ++ [H (b ++ node)] := by
          rw [List.append_assoc, pairs_append_even H _ _ hl']; simp [pairs]
        rw [this]; exact g1

theorem insertLoop_some (bs : List Bytes) (node : Bytes) (n : Nat) (hn : 0 < n)
    (hlt : n < 2 ^ bs.length) : ∃ bs', insertLoop H bs node n = some bs' := by
  induction bs generalizing node n with
  | nil => simp at hlt; omega
  | cons b bs ih =>
    simp only [insertLoop]
    split
    · exact ⟨_, rfl⟩
    · rename_i h
      rw [List.length_cons, Nat.pow_succ] at hlt
      obtain ⟨bs', h'⟩ := ih (H (b ++ node)) (n / 2) (by omega) (by omega)
      exact ⟨b :: bs', by rw [h']; rfl⟩

/-! ### Complete trees -/

theorem treeRoot_congr (d : Nat) (f g : Nat → Bytes) (h : ∀ i, i < 2 ^ d → f i = g i) :
    treeRoot H d f = treeRoot H d g := by
  induction d generalizing f g with
  | zero => exact h 0 (by simp)
  | succ d ih =>
    simp only [treeRoot]
    rw [ih f g (fun i hi => h i (by rw [Nat.pow_succ]; omega)),
      ih (fun i => f (2 ^ d + i)) (fun i => g (2 ^ d + i))
        (fun i hi => h _ (by rw [Nat.pow_succ]; omega))]

theorem treeRoot_pairF (d : Nat) (f : Nat → Bytes) :
    treeRoot H (d + 1) f = treeRoot H d (pairF H f) := by
  induction d generalizing f with
  | zero => rfl
  | succ d ih =>
    rw [treeRoot, ih, ih]
    conv_rhs => rw [treeRoot]
    congr 2
    congr 1
    funext i
    simp only [pairF]
    have h1 : 2 ^ (d + 1) + 2 * i = 2 * (2 ^ d + i) := by rw [Nat.pow_succ]; omega
    have h2 : 2 ^ (d + 1) + (2 * i + 1) = 2 * (2 ^ d + i) + 1 := by rw [Nat.pow_succ]; omega
    rw [h1, h2]

/-- Leaf function: list, then one current node, then empty nodes. -/
def fill (l : List Bytes) (cur z : Bytes) (i : Nat) : Bytes :=
  if h : i < l.length then l[i] else if i = l.length then cur else z

theorem pairs_getElem (l : List Bytes) (i : Nat) (h : i < (pairs H l).length)
    (h1 : 2 * i < l.length) (h2 : 2 * i + 1 < l.length) :
    (pairs H l)[i] = H (l[2 * i] ++ l[2 * i + 1]) := by
  induction i generalizing l with
  | zero =>
    match l, h1, h2 with
    | x :: y :: t, _, _ => rfl
  | succ i ih =>
    match l, h1, h2 with
    | x :: y :: t, h1, h2 =>
      simp only [pairs] at h ⊢
      simp only [List.getElem_cons_succ]
      have h1' : 2 * i < t.length := by simp at h1; omega
      have h2' : 2 * i + 1 < t.length := by simp at h2; omega
      rw [ih t (by simpa using h) h1' h2']
      congr 1

theorem pairF_fill (l : List Bytes) (cur z b : Bytes)
    (hb : l.length % 2 = 1 → l.getLast? = some b) :
    pairF H (fill l cur z) = fill (pairs H l)
      (if l.length % 2 = 1 then H (b ++ cur) else H (cur ++ z)) (H (z ++ z)) := by
  funext i
  simp only [pairF]
  have hlp := length_pairs H l
  by_cases hi : i < (pairs H l).length
  · have h1 : 2 * i < l.length := by omega
    have h2 : 2 * i + 1 < l.length := by omega
    simp only [fill, hi, h1, h2, dif_pos]
    rw [pairs_getElem H l i hi h1 h2]
  · by_cases he : i = (pairs H l).length
    · have hr : fill (pairs H l) (if l.length % 2 = 1 then H (b ++ cur) else H (cur ++ z))
          (H (z ++ z)) i = (if l.length % 2 = 1 then H (b ++ cur) else H (cur ++ z)) := by
        simp [fill, he]
      rw [hr]
      by_cases hodd : l.length % 2 = 1
      · have h1 : 2 * i < l.length := by omega
        have h2 : 2 * i + 1 = l.length := by omega
        have hbv : l[2 * i] = b := by
          have := hb hodd
          rw [List.getLast?_eq_getElem?] at this
          have e : l.length - 1 = 2 * i := by omega
          rw [e, List.getElem?_eq_getElem h1] at this
          simpa using this
        have h2' : ¬ (2 * i + 1 < l.length) := by omega
        rw [if_pos hodd]
        simp only [fill, dif_pos h1, hbv, dif_neg h2', if_pos h2]
      · have h1 : 2 * i = l.length := by omega
        rw [if_neg hodd]
        have a1 : ¬ (2 * i < l.length) := by omega
        have a2 : ¬ (2 * i + 1 < l.length) := by omega
        have a3 : ¬ (2 * i + 1 = l.length) := by omega
        simp only [fill, dif_neg a1, dif_neg a2, if_pos h1, if_neg a3]
    · have h1 : ¬ (2 * i < l.length) := by omega
      have h2 : ¬ (2 * i = l.length) := by omega
      have h3 : ¬ (2 * i + 1 < l.length) := by omega
      have h4 : ¬ (2 * i + 1 = l.length) := by omega
      simp only [fill, dif_neg h1, dif_neg h3, if_neg h2, if_neg h4, dif_neg hi, if_neg he]

/-- Chain of empty-subtree hashes starting at `z`. -/
def Chain : Bytes → List Bytes → Prop
  | _, [] => True
  | z, z' :: zs => z' = z ∧ Chain (H (z ++ z)) zs

theorem rootLoop_spec (zs bs : List Bytes) (l : List Bytes) (cur z : Bytes)
    (hlen : zs.length = bs.length) (hI : Inv H bs l) (hz : Chain H z zs)
    (hl : l.length < 2 ^ bs.length) :
    rootLoop H zs bs l.length cur = treeRoot H bs.length (fill l cur z) := by
  induction bs generalizing zs l cur z with
  | nil =>
    have : l = [] := List.length_eq_zero_iff.1 (by simpa using hl)
    subst this
    have : zs = [] := List.length_eq_zero_iff.1 (by simpa using hlen)
    subst this
    simp [rootLoop, treeRoot, fill]
  | cons b bs ih =>
    match zs, hlen, hz with
    | z' :: zs, hlen, hz =>
      obtain ⟨rfl, hz⟩ := hz
      obtain ⟨hb, hI⟩ := hI
      simp only [rootLoop]
      rw [List.length_cons, treeRoot_pairF, pairF_fill H l cur z' b hb]
      have := ih zs (pairs H l) (if l.length % 2 = 1 then H (b ++ cur) else H (cur ++ z'))
        (H (z' ++ z')) (by simpa using hlen) hI hz (by
          rw [length_pairs]; rw [List.length_cons, Nat.pow_succ] at hl; omega)
      rw [length_pairs] at this
      exact this

theorem chain_of_zeroChain_aux (zs : List Bytes) (z : Bytes) (h0 : zs ≠ [] → zs[0]? = some z)
    (hs : ∀ (i : Nat) (a b : Bytes), zs[i]? = some a → zs[i + 1]? = some b → b = H (a ++ a)) :
    Chain H z zs := by
  induction zs generalizing z with
  | nil => trivial
  | cons a t ih =>
    have ha : a = z := by simpa using h0 (by simp)
    subst ha
    refine ⟨rfl, ih _ ?_ ?_⟩
    · intro hne
      cases t with
      | nil => exact absurd rfl hne
      | cons b t' =>
        have := hs 0 a b rfl rfl
        simp [this]
    · intro i x y hx hy
      exact hs (i + 1) x y (by simpa using hx) (by simpa using hy)

theorem chain_of_zeroChain {zs : List Bytes} (h : ZeroChain H zs) : Chain H (zeros 32) zs :=
  chain_of_zeroChain_aux H zs _ (fun _ => h.2.1) h.2.2

theorem fill_zero (l : List Bytes) : fill l (zeros 32) (zeros 32) = leafOf l := by
  funext i
  unfold fill leafOf
  by_cases h : i < l.length
  · simp [h]
  · simp [h]

/-! ### Nodes, paths -/

theorem node_zero (f : Nat → Bytes) (j : Nat) : node H f 0 j = f j := by
  simp [node, treeRoot]

theorem node_pairF (f : Nat → Bytes) (k j : Nat) : node H (pairF H f) k j = node H f (k + 1) j := by
  unfold node
  rw [treeRoot_pairF]
  congr 1
  funext m
  simp only [pairF]
  have h1 : 2 * (j * 2 ^ k + m) = j * 2 ^ (k + 1) + 2 * m := by
    rw [Nat.pow_succ, Nat.mul_add, ← Nat.mul_assoc j, Nat.mul_comm 2 (j * 2 ^ k)]
  rw [h1, Nat.add_assoc]

theorem node_succ (f : Nat → Bytes) (k j : Nat) :
    node H f (k + 1) j = H (nodePreimage H f k j) := by
  unfold nodePreimage
  simp only [node, treeRoot]
  congr 3
  · funext m
    have : j * 2 ^ (k + 1) = 2 * j * 2 ^ k := by
      rw [Nat.pow_succ, Nat.mul_comm (2 ^ k) 2, ← Nat.mul_assoc, Nat.mul_comm j 2]
    rw [this]
  · funext m
    have : j * 2 ^ (k + 1) + (2 ^ k + m) = (2 * j + 1) * 2 ^ k + m := by
      rw [Nat.pow_succ, Nat.mul_comm (2 ^ k) 2, ← Nat.mul_assoc, Nat.mul_comm j 2, Nat.add_mul]; omega
    rw [this]

theorem node_top (f : Nat → Bytes) (d : Nat) : node H f d 0 = treeRoot H d f := by
  simp [node]

theorem siblingPath_succ (f : Nat → Bytes) (d i : Nat) :
    siblingPath H f (d + 1) i = f (sibling i) :: siblingPath H (pairF H f) d (i / 2) := by
  unfold siblingPath
  rw [List.range_succ_eq_map, List.map_cons, List.map_map]
  congr 1
  · simp [node_zero]
  · apply List.map_congr_left
    intro k _
    simp only [Function.comp]
    rw [node_pairF, Nat.div_div_eq_div_mul, Nat.pow_succ, Nat.mul_comm 2]

theorem branchRoot_siblingPath (f : Nat → Bytes) (d i : Nat) (hi : i < 2 ^ d) :
    branchRoot H (f i) (siblingPath H f d i) i = treeRoot H d f := by
  induction d generalizing f i with
  | zero =>
    have : i = 0 := by simpa using hi
    subst this
    simp [siblingPath, branchRoot, treeRoot]
  | succ d ih =>
    rw [siblingPath_succ, branchRoot, treeRoot_pairF]
    have hi' : i / 2 < 2 ^ d := by rw [Nat.pow_succ] at hi; omega
    rw [← ih (pairF H f) (i / 2) hi']
    congr 1
    by_cases h : i % 2 = 1
    · have e1 : sibling i = 2 * (i / 2) := by unfold sibling; rw [if_neg (by omega)]; omega
      have e2 : i = 2 * (i / 2) + 1 := by omega
      rw [if_pos h, e1, pairF]
      congr 2
      rw [← e2]
    · have e1 : sibling i = 2 * (i / 2) + 1 := by unfold sibling; rw [if_pos (by omega)]; omega
      have e2 : i = 2 * (i / 2) := by omega
      rw [if_neg h, e1, pairF]
      congr 2
      rw [← e2]

end Hpl.Merkle
