import Verif.Lemmas.Isms
import Verif.Lemmas.Metadata
import Verif.Spec.Relay

/-! # Assembling metadata -/

namespace Hpl

open Spec

/-- The parts of assembled metadata. -/
theorem assemble (isms : List Addr) (part : Addr → Bytes) (h : 8 * isms.length + (isms.map part).flatten.length < 2 ^ 32) :
    ∃ v, v.length = 8 * isms.length + (isms.map part).flatten.length ∧
      (∃ m, AggregateMeta.fromHex v isms = .ok m) ∧
      ∀ m, AggregateMeta.fromHex v isms = .ok m → ∀ a p, (a, p) ∈ m.entries → a ∈ isms ∧ p = part a := by
  obtain ⟨v, h1, h2⟩ := AggregateMeta.encodeList_8 (isms.map part) (by simpa using h)
  have hpart : ∀ i a, isms[i]? = some a → PartAt v i (part a) := by
    intro i a hi
    exact AggregateMeta.entryAt_ok.1 (h2 i (part a) (by simp [hi]))
  refine ⟨v, ?_, ?_, ?_⟩
  · unfold AggregateMeta.encodeList at h1
    obtain ⟨t, h3, h4⟩ := bind_eq_ok.1 h1
    cases h4
    have hpos : (isms.map part).length * AggregateMeta.rangeSize * 2 = 8 * (isms.map part).length := by
      unfold AggregateMeta.rangeSize; omega
    obtain ⟨t', h5, h6, _⟩ := AggregateMeta.table_8 (isms.map part) (8 * (isms.map part).length) (by simpa using h)
    rw [hpos, h5] at h3
    cases h3
    simp only [List.length_append, h6, List.length_map]
  · refine AggregateMeta.fromHex_total ?_
    intro i hi
    exact ⟨part isms[i], hpart i _ (List.getElem?_eq_getElem hi)⟩
  · intro m hm a p hp
    obtain ⟨i, k1, _, k3⟩ := ((AggregateMeta.fromHex_ok hm).1 a p).1 hp
    refine ⟨List.mem_of_getElem? k1, ?_⟩
    obtain ⟨_, x, y, rfl, rfl, _, _, rfl⟩ := k3
    obtain ⟨_, x', y', rfl, rfl, _, _, e⟩ := hpart i a k1
    exact e.symm

namespace AggregateIsm

open Multisig

/-- The loop reaches zero if enough modules approve and nothing before them fails. -/
theorem loop_reaches {V : Verifier} {message : Bytes} {es : List (Addr × Bytes)} {t : UInt8} {q : List Addr}
    (hs : KeySorted es) (ht : t ≠ 0) (hq : q.Nodup) (hl : t.toNat ≤ q.length)
    (ha : ∀ a ∈ q, ∃ p, (a, p) ∈ es ∧ V a p message = .ok true)
    (hb : ∀ a p, (a, p) ∈ es → ∀ c ∈ q, a < c → ∃ b, V a p message = .ok b) :
    loop V message t es = .ok 0 := by
  induction es generalizing t q with
  | nil =>
    cases q with
    | nil =>
      have := u8_ne_zero.1 ht
      simp at hl
      omega
    | cons c q =>
      obtain ⟨p, hp, _⟩ := ha c (by simp)
      cases hp
  | cons x rest ih =>
    obtain ⟨a, p⟩ := x
    obtain ⟨hs1, hs2⟩ := List.pairwise_cons.1 hs
    have h1 := u8_ne_zero.1 ht
    obtain ⟨t', ht'⟩ : ∃ t', pred t = .ok t' := ⟨t - 1, by unfold pred; rw [if_pos h1]⟩
    have hp := pred_ok.1 ht'
    have hb' : ∀ q' : List Addr, (∀ c ∈ q', c ∈ q) → ∀ d r, (d, r) ∈ rest → ∀ c ∈ q', d < c → ∃ b, V d r message = .ok b :=
      fun q' hq' d r hd c hc hlt => hb d r (List.mem_cons_of_mem _ hd) c (hq' c hc) hlt
    have keyne : ∀ d r, (d, r) ∈ rest → d ≠ a := fun d r hd he => absurd (hs1 _ hd) (by simp [he])
    by_cases hin : a ∈ q
    · obtain ⟨p', hp', hv⟩ := ha a hin
      have : p' = p := by
        rcases List.mem_cons.1 hp' with h | h
        · cases h; rfl
        · exact absurd rfl (keyne _ _ h)
      subst this
      simp only [loop, hv, ok_bind, lower, if_true, ht']
      by_cases hz : t' = 0
      · rw [if_pos hz, hz]; rfl
      · rw [if_neg hz]
        refine ih (q := q.erase a) hs2 hz (hq.erase a) ?_ ?_ (hb' _ fun c hc => List.mem_of_mem_erase hc)
        · rw [List.length_erase_of_mem hin]; omega
        · intro c hc
          obtain ⟨r, hr, hv⟩ := ha c (List.mem_of_mem_erase hc)
          rcases List.mem_cons.1 hr with h | h
          · cases h
            exact absurd hc (List.Nodup.not_mem_erase hq)
          · exact ⟨r, h, hv⟩
    · have hrest : ∀ c ∈ q, ∃ r, (c, r) ∈ rest ∧ V c r message = .ok true := by
        intro c hc
        obtain ⟨r, hr, hv⟩ := ha c hc
        rcases List.mem_cons.1 hr with h | h
        · cases h; exact absurd hc hin
        · exact ⟨r, h, hv⟩
      obtain ⟨b, hbv⟩ : ∃ b, V a p message = .ok b := by
        cases q with
        | nil => simp at hl; omega
        | cons c q =>
          obtain ⟨r, hr, _⟩ := hrest c (by simp)
          exact hb a p (by simp) c (by simp) (hs1 _ hr)
      simp only [loop, hbv, ok_bind]
      cases b with
      | false =>
        simp only [lower, Bool.false_eq_true, if_false, ok_bind, if_neg ht]
        exact ih hs2 ht hq hl hrest (hb' q fun _ h => h)
      | true =>
        simp only [lower, if_true, ht', ok_bind]
        by_cases hz : t' = 0
        · rw [if_pos hz, hz]; rfl
        · rw [if_neg hz]
          exact ih hs2 hz hq (by omega) hrest (hb' q fun _ h => h)

/-- A module that fails lets through only what is approved before it is asked. -/
theorem loop_blocked {V : Verifier} {message : Bytes} {es : List (Addr × Bytes)} {t : UInt8} {c : Addr} {p : Bytes}
    (hs : KeySorted es) (ht : t ≠ 0) (hc : (c, p) ∈ es) (hv : ∀ b, V c p message ≠ .ok b)
    (h : loop V message t es = .ok 0) :
    ∃ q : List Addr, q.Nodup ∧ q.length = t.toNat ∧ ∀ a ∈ q, a < c ∧ ∃ r, (a, r) ∈ es ∧ V a r message = .ok true := by
  induction es generalizing t with
  | nil => cases hc
  | cons x rest ih =>
    obtain ⟨a, r⟩ := x
    obtain ⟨hs1, hs2⟩ := List.pairwise_cons.1 hs
    simp only [loop] at h
    obtain ⟨b, hb, h1⟩ := bind_eq_ok.1 h
    obtain ⟨t', ht', h2⟩ := bind_eq_ok.1 h1
    have hc' : (c, p) ∈ rest := by
      rcases List.mem_cons.1 hc with e | e
      · cases e; exact absurd hb (hv b)
      · exact e
    have hlt : a < c := hs1 _ hc'
    cases b with
    | false =>
      simp only [lower, Bool.false_eq_true, if_false, Except.ok.injEq] at ht'
      subst ht'
      rw [if_neg ht] at h2
      obtain ⟨q, q1, q2, q3⟩ := ih hs2 ht hc' h2
      refine ⟨q, q1, q2, fun d hd => ?_⟩
      obtain ⟨d1, s, d2, d3⟩ := q3 d hd
      exact ⟨d1, s, List.mem_cons_of_mem _ d2, d3⟩
    | true =>
      simp only [lower, if_true] at ht'
      have hp := pred_ok.1 ht'
      split at h2
      · rename_i hz
        rw [hz] at hp
        refine ⟨[a], by simp, by simpa using hp.symm, ?_⟩
        intro d hd
        rw [List.mem_singleton] at hd
        subst hd
        exact ⟨hlt, r, by simp, hb⟩
      · rename_i hz
        obtain ⟨q, q1, q2, q3⟩ := ih hs2 hz hc' h2
        refine ⟨a :: q, ?_, by rw [List.length_cons]; omega, ?_⟩
        · rw [List.nodup_cons]
          refine ⟨fun hm => ?_, q1⟩
          obtain ⟨_, s, hs, _⟩ := q3 a hm
          exact absurd (hs1 _ hs) (by simp)
        · intro d hd
          rcases List.mem_cons.1 hd with rfl | hd
          · exact ⟨hlt, r, by simp, hb⟩
          · obtain ⟨d1, s, d2, d3⟩ := q3 d hd
            exact ⟨d1, s, List.mem_cons_of_mem _ d2, d3⟩

end AggregateIsm

end Hpl
