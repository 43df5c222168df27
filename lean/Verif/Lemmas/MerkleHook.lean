import Verif.Lemmas.Exec
import Verif.Props.Merkle
import Verif.Props.Mailbox
import Verif.Spec.MerkleHook

/-! Lemmas about the merkle hook. -/

namespace Hpl

open Spec Merkle

theorem MerkleHook.execute_ok {H : Bytes → Bytes} {s s' : MerkleHook.State} {c : MerkleHook.Call} {i : Nat} :
    MerkleHook.execute H s c = .ok (s', i) ↔
      77 ≤ c.message.length ∧ c.latestId s.mailbox = .ok (H c.message) ∧ i = s.tree.count ∧
        s'.mailbox = s.mailbox ∧ Merkle.insert H s.tree (H c.message) = .ok s'.tree := by
  unfold MerkleHook.execute
  constructor
  · intro h
    obtain ⟨l, h1, h⟩ := bind_eq_ok.1 h
    obtain ⟨m, h2, h⟩ := bind_eq_ok.1 h
    obtain ⟨_, h3, h⟩ := bind_eq_ok.1 h
    obtain ⟨t, h4, hf⟩ := bind_eq_ok.1 h
    simp only [pure_eq_ok, Except.ok.injEq, Prod.mk.injEq] at hf
    obtain ⟨rfl, rfl⟩ := hf
    have h3 := of_decide_eq_true (ensure_eq_ok.1 h3)
    obtain ⟨e, hs, hr⟩ := Message.decode_eq_ok.1 h2
    have hid : m.id H = H c.message := by rw [← e]; rfl
    rw [hid] at h3 h4
    refine ⟨?_, by rw [h1, h3], rfl, rfl, h4⟩
    rw [← e, Message.length_encode m hs hr]
    omega
  · rintro ⟨hl, h1, rfl, h2, h3⟩
    obtain ⟨m, hm⟩ := Message.decode_long hl
    have hid : m.id H = H c.message := by rw [← (Message.decode_eq_ok.1 hm).1]; rfl
    rw [h1, ok_bind, hm, ok_bind, hid, h3]
    obtain ⟨mb, t⟩ := s'
    simp only at h2
    subst h2
    simp

theorem Merkle.insertAll_snoc {H : Bytes → Bytes} {t : Tree} {l : List Bytes} {x : Bytes} {t' : Tree} :
    insertAll H t (l ++ [x]) = .ok t' ↔ ∃ m, insertAll H t l = .ok m ∧ Merkle.insert H m x = .ok t' := by
  induction l generalizing t with
  | nil =>
    simp only [List.nil_append, insertAll, bind_eq_ok]
    constructor
    · rintro ⟨a, h1, h2⟩; cases h2; exact ⟨t, rfl, h1⟩
    · rintro ⟨m, h1, h2⟩; cases h1; exact ⟨t', h2, rfl⟩
  | cons y l ih =>
    simp only [List.cons_append, insertAll, bind_eq_ok, ih]
    constructor
    · rintro ⟨a, h1, m, h2, h3⟩; exact ⟨m, ⟨a, h1, h2⟩, h3⟩
    · rintro ⟨m, ⟨a, h1, h2⟩, h3⟩; exact ⟨a, h1, m, h2, h3⟩

/-- What the branch of a tree contains. -/
theorem Merkle.inv_branch {H : Bytes → Bytes} (bs l : List Bytes) (f : Nat → Bytes) (hI : Inv H bs l)
    (hf : ∀ (j : Nat) (h : j < l.length), l[j] = f j) (i : Nat) (hi : i < bs.length)
    (hodd : (l.length / 2 ^ i) % 2 = 1) :
    bs[i]? = some (node H f i (l.length / 2 ^ i - 1)) := by
  induction bs generalizing l f i with
  | nil => simp at hi
  | cons b bs ih =>
    obtain ⟨h1, h2⟩ := hI
    cases i with
    | zero =>
      simp only [Nat.pow_zero, Nat.div_one] at hodd ⊢
      have hlast := h1 hodd
      have hpos : 0 < l.length := by omega
      rw [List.getLast?_eq_getElem?, List.getElem?_eq_getElem (by omega), hf] at hlast
      rw [node_zero]
      simpa using hlast.symm
    | succ i =>
      have hlen : (pairs H l).length / 2 ^ i = l.length / 2 ^ (i + 1) := by
        rw [length_pairs, Nat.div_div_eq_div_mul, Nat.pow_succ, Nat.mul_comm]
      have := ih (pairs H l) (pairF H f) h2 (by
        intro j hj
        have hj' := hj
        rw [length_pairs] at hj'
        rw [pairs_getElem H l j hj (by omega) (by omega), hf, hf]
        rfl) i (by simpa using hi) (by rw [hlen]; exact hodd)
      rw [List.getElem?_cons_succ, this, hlen, node_pairF]

end Hpl
