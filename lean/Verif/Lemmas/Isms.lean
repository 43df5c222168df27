import Verif.Model.Isms
import Verif.Spec.Isms
import Verif.Lemmas.Multisig
import Verif.Lemmas.Metadata
import Mathlib.Data.List.Nodup

namespace Hpl

open Spec

/-! ## Reading aggregate metadata -/

namespace AggregateMeta

theorem entryAt_ok {v p : Bytes} {i : Nat} : entryAt v i = .ok p ↔ PartAt v i p := by
  unfold entryAt PartAt rangeSize
  constructor
  · intro h
    obtain ⟨s, h1, h⟩ := bind_eq_ok.1 h
    obtain ⟨e, h2, hf⟩ := bind_eq_ok.1 h
    obtain ⟨_, a2, a3⟩ := slice_eq_ok.1 h1
    obtain ⟨_, b2, b3⟩ := slice_eq_ok.1 h2
    obtain ⟨c1, c2, c3⟩ := slice_eq_ok.1 hf
    have e1 : i * 4 * 2 = 8 * i := by omega
    rw [e1] at a3 b3 b2
    rw [show 8 * i + 4 - 8 * i = 4 by omega] at a3
    rw [show 8 * i + 4 + 4 - (8 * i + 4) = 4 by omega] at b3
    exact ⟨by omega, fromBE s, fromBE e, by rw [a3], by rw [b3], c1, c2, c3⟩
  · rintro ⟨hl, b, e, rfl, rfl, h1, h2, rfl⟩
    have e1 : i * 4 * 2 = 8 * i := by omega
    rw [e1]
    refine bind_eq_ok.2 ⟨_, slice_eq_ok.2 ⟨by omega, by omega, rfl⟩, bind_eq_ok.2 ⟨_,
      slice_eq_ok.2 ⟨by omega, by omega, rfl⟩, ?_⟩⟩
    rw [show 8 * i + 4 - 8 * i = 4 by omega, show 8 * i + 4 + 4 - (8 * i + 4) = 4 by omega]
    exact slice_eq_ok.2 ⟨h1, h2, rfl⟩

theorem entriesFrom_ok {v : Bytes} {addrs : List Addr} {i : Nat} {l : List (Addr × Bytes)} :
    entriesFrom v i addrs = .ok l ↔
      l.map (·.1) = addrs ∧ ∀ (j : Nat) a p, l[j]? = some (a, p) → PartAt v (i + j) p := by
  induction addrs generalizing i l with
  | nil =>
    simp only [entriesFrom, Except.ok.injEq]
    constructor
    · rintro rfl; simp
    · rintro ⟨h, _⟩
      exact (List.map_eq_nil_iff.1 h).symm
  | cons a t ih =>
    simp only [entriesFrom]
    constructor
    · intro h
      obtain ⟨p, h1, h⟩ := bind_eq_ok.1 h
      obtain ⟨r, h2, hf⟩ := bind_eq_ok.1 h
      cases hf
      obtain ⟨g1, g2⟩ := ih.1 h2
      refine ⟨by simp [g1], ?_⟩
      intro j b q hj
      cases j with
      | zero =>
        simp only [List.getElem?_cons_zero, Option.some.injEq, Prod.mk.injEq] at hj
        rw [← hj.2]
        exact entryAt_ok.1 h1
      | succ j =>
        rw [List.getElem?_cons_succ] at hj
        have := g2 j b q hj
        rwa [show i + (j + 1) = i + 1 + j by omega]
    · rintro ⟨h1, h2⟩
      cases l with
      | nil => simp at h1
      | cons x r =>
        obtain ⟨b, p⟩ := x
        simp only [List.map_cons, List.cons.injEq] at h1
        obtain ⟨rfl, rfl⟩ := h1
        refine bind_eq_ok.2 ⟨p, entryAt_ok.2 (h2 0 b p rfl), bind_eq_ok.2 ⟨r, ih.2 ⟨rfl, ?_⟩, rfl⟩⟩
        intro j c q hj
        have := h2 (j + 1) c q (by simpa using hj)
        rwa [show i + 1 + j = i + (j + 1) by omega]

end AggregateMeta

theorem findKey_append {κ ν : Type} [LinearOrder κ] (k : κ) (a b : List (κ × ν)) :
    findKey k (a ++ b) = (findKey k a).or (findKey k b) := by
  induction a with
  | nil => simp [findKey]
  | cons x t ih =>
    obtain ⟨k', v⟩ := x
    simp only [List.cons_append, findKey]
    split
    · simp
    · exact ih

/-- Collected into a map, the last of several entries counts. -/
theorem OMap.get_ofList_reverse {κ ν : Type} [LinearOrder κ] (l : List (κ × ν)) (k : κ) :
    (OMap.ofList l).get k = findKey k l.reverse := by
  induction l using List.reverseRecOn with
  | nil => rfl
  | append_singleton t x ih =>
    unfold OMap.ofList at ih ⊢
    rw [List.foldl_append, List.foldl_cons, List.foldl_nil, OMap.get_insert, ih,
      List.reverse_append, List.reverse_singleton, List.singleton_append, findKey]

theorem findKey_reverse {κ ν : Type} [LinearOrder κ] {l : List (κ × ν)} {k : κ} {v : ν} :
    findKey k l.reverse = some v ↔
      ∃ i : Nat, l[i]? = some (k, v) ∧ ∀ j w, i < j → l[j]? ≠ some (k, w) := by
  induction l with
  | nil => simp [findKey]
  | cons x t ih =>
    obtain ⟨k', v'⟩ := x
    rw [List.reverse_cons, findKey_append]
    constructor
    · intro h
      rcases ht : findKey k t.reverse with _ | w
      · rw [ht, Option.none_or] at h
        simp only [findKey] at h
        split at h
        · rename_i hk
          cases h
          refine ⟨0, by simp [hk], ?_⟩
          intro j w hj he
          obtain ⟨j', rfl⟩ : ∃ j', j = j' + 1 := ⟨j - 1, by omega⟩
          rw [List.getElem?_cons_succ] at he
          exact findKey_eq_none.1 ht _ (List.mem_reverse.2 (List.mem_of_getElem? he)) rfl
        · cases h
      · rw [ht, Option.some_or] at h
        cases h
        obtain ⟨i, h1, h2⟩ := ih.1 ht
        refine ⟨i + 1, by simpa using h1, ?_⟩
        intro j w hj
        obtain ⟨j', rfl⟩ : ∃ j', j = j' + 1 := ⟨j - 1, by omega⟩
        rw [List.getElem?_cons_succ]
        exact h2 j' w (by omega)
    · rintro ⟨i, h1, h2⟩
      cases i with
      | zero =>
        simp only [List.getElem?_cons_zero, Option.some.injEq, Prod.mk.injEq] at h1
        obtain ⟨rfl, rfl⟩ := h1
        have : findKey k' t.reverse = none := by
          rw [findKey_eq_none]
          rintro ⟨a, w⟩ hp he
          simp only at he
          subst he
          obtain ⟨j, hj⟩ := List.mem_iff_getElem?.1 (List.mem_reverse.1 hp)
          exact h2 (j + 1) w (by omega) (by simpa using hj)
        rw [this]
        simp [findKey]
      | succ i =>
        rw [List.getElem?_cons_succ] at h1
        rw [ih.2 ⟨i, h1, fun j w hj he => h2 (j + 1) w (by omega) (by simpa using he)⟩]
        rfl

/-- The map the aggregate module reads from its metadata. -/
theorem AggregateMeta.fromHex_ok {v : Bytes} {addrs : List Addr} {m : AggregateMeta}
    (h : AggregateMeta.fromHex v addrs = .ok m) :
    (∀ a p, (a, p) ∈ m.entries ↔ PartFor v addrs a p) ∧
    (∀ a, a ∈ m.keys ↔ a ∈ addrs) := by
  unfold AggregateMeta.fromHex at h
  obtain ⟨l, h1, hf⟩ := bind_eq_ok.1 h
  cases hf
  obtain ⟨g1, g2⟩ := AggregateMeta.entriesFrom_ok.1 h1
  have hk : ∀ i : Nat, addrs[i]? = (l[i]?).map (·.1) := by
    intro i; rw [← g1, List.getElem?_map]
  refine ⟨?_, ?_⟩
  · intro a p
    rw [← OMap.get_eq_some_iff, OMap.get_ofList_reverse, findKey_reverse]
    unfold PartFor
    constructor
    · rintro ⟨i, k1, k2⟩
      refine ⟨i, by rw [hk, k1]; rfl, ?_, by simpa using g2 i a p k1⟩
      intro j hj he
      rw [hk] at he
      obtain ⟨⟨b, w⟩, e1, e2⟩ := Option.map_eq_some_iff.1 he
      simp only at e2
      subst e2
      exact k2 j w hj e1
    · rintro ⟨i, k1, k2, k3⟩
      rw [hk] at k1
      obtain ⟨⟨b, w⟩, e1, e2⟩ := Option.map_eq_some_iff.1 k1
      simp only at e2
      subst e2
      have hw := g2 i b w e1
      rw [Nat.zero_add] at hw
      have : w = p := by
        obtain ⟨_, x, y, rfl, rfl, _, _, rfl⟩ := hw
        obtain ⟨_, x', y', rfl, rfl, _, _, rfl⟩ := k3
        rfl
      subst this
      refine ⟨i, e1, ?_⟩
      intro j w' hj he
      exact k2 j hj (by rw [hk, he]; rfl)
  · intro a
    rw [OMap.mem_keys_iff]
    constructor
    · rintro ⟨p, hp⟩
      rw [OMap.get_ofList_reverse] at hp
      have := mem_of_findKey hp
      rw [List.mem_reverse] at this
      rw [← g1]
      exact List.mem_map.2 ⟨_, this, rfl⟩
    · intro ha
      cases hg : (OMap.ofList l).get a with
      | some p => exact ⟨p, rfl⟩
      | none =>
        rw [OMap.get_ofList_reverse, findKey_eq_none] at hg
        rw [← g1] at ha
        obtain ⟨x, hx, rfl⟩ := List.mem_map.1 ha
        exact absurd rfl (hg x (List.mem_reverse.2 hx))

/-- Metadata in which every listed module has a part can be read. -/
theorem AggregateMeta.fromHex_total {v : Bytes} {addrs : List Addr}
    (h : ∀ i, i < addrs.length → ∃ p, PartAt v i p) :
    ∃ m, AggregateMeta.fromHex v addrs = .ok m := by
  have key : ∀ (addrs : List Addr) (i : Nat), (∀ j, j < addrs.length → ∃ p, PartAt v (i + j) p) →
      ∃ l, AggregateMeta.entriesFrom v i addrs = .ok l := by
    intro addrs
    induction addrs with
    | nil => intro i _; exact ⟨[], rfl⟩
    | cons a t ih =>
      intro i h
      obtain ⟨p, hp⟩ := h 0 (by simp)
      rw [Nat.add_zero] at hp
      obtain ⟨r, hr⟩ := ih (i + 1) (fun j hj => by
        have := h (j + 1) (by simpa using hj)
        rwa [show i + 1 + j = i + (j + 1) by omega])
      exact ⟨(a, p) :: r, by
        simp only [AggregateMeta.entriesFrom]
        rw [AggregateMeta.entryAt_ok.2 hp, hr]; rfl⟩
  obtain ⟨l, hl⟩ := key addrs 0 (fun j hj => by simpa using h j hj)
  exact ⟨OMap.ofList l, by unfold AggregateMeta.fromHex; rw [hl]; rfl⟩

namespace AggregateIsm

open Multisig

/-- What the loop counts are approvals. -/
theorem loop_sound {V : Verifier} {message : Bytes} {es : List (Addr × Bytes)} {t r : UInt8}
    (hn : (es.map (·.1)).Nodup) (ht : t ≠ 0) (h : loop V message t es = .ok r) :
    ∃ q : List Addr, q.Nodup ∧ q.length + r.toNat = t.toNat ∧
      ∀ a ∈ q, ∃ p, (a, p) ∈ es ∧ V a p message = .ok true := by
  induction es generalizing t with
  | nil =>
    simp only [loop, Except.ok.injEq] at h
    subst h
    exact ⟨[], by simp, by simp, by simp⟩
  | cons x rest ih =>
    obtain ⟨a, p⟩ := x
    simp only [List.map_cons, List.nodup_cons] at hn
    simp only [loop] at h
    obtain ⟨b, hb, h1⟩ := bind_eq_ok.1 h
    obtain ⟨t', ht', h2⟩ := bind_eq_ok.1 h1
    clear h h1
    rename' h2 => h
    cases b with
    | false =>
      simp only [lower, Bool.false_eq_true, if_false, Except.ok.injEq] at ht'
      subst ht'
      rw [if_neg ht] at h
      obtain ⟨q, q1, q2, q3⟩ := ih hn.2 ht h
      refine ⟨q, q1, q2, fun c hc => ?_⟩
      obtain ⟨s, hs, hv⟩ := q3 c hc
      exact ⟨s, List.mem_cons_of_mem _ hs, hv⟩
    | true =>
      simp only [lower, if_true] at ht'
      have hp := pred_ok.1 ht'
      split at h
      · simp only [pure_eq_ok, Except.ok.injEq] at h
        subst h
        refine ⟨[a], by simp, by simp [hp, Nat.add_comm], ?_⟩
        intro c hc
        rw [List.mem_singleton] at hc
        subst hc
        exact ⟨p, by simp, hb⟩
      · rename_i hz
        obtain ⟨q, q1, q2, q3⟩ := ih hn.2 hz h
        refine ⟨a :: q, ?_, by rw [List.length_cons]; omega, ?_⟩
        · rw [List.nodup_cons]
          refine ⟨fun hm => ?_, q1⟩
          obtain ⟨s, hs, _⟩ := q3 a hm
          exact hn.1 (List.mem_map.2 ⟨_, hs, rfl⟩)
        · intro c hc
          rcases List.mem_cons.1 hc with rfl | hc
          · exact ⟨p, by simp, hb⟩
          · obtain ⟨s, hs, hv⟩ := q3 c hc
            exact ⟨s, List.mem_cons_of_mem _ hs, hv⟩

/-- If the modules answer without error, the loop subtracts the number of approvals, down to zero at most. -/
theorem loop_count {V : Verifier} {message : Bytes} {es : List (Addr × Bytes)} {t : UInt8}
    (ht : t ≠ 0) (hv : ∀ a p, (a, p) ∈ es → ∃ b, V a p message = .ok b) :
    ∃ r, loop V message t es = .ok r ∧
      r.toNat = t.toNat - (es.filter (fun x => decide (V x.1 x.2 message = .ok true))).length := by
  induction es generalizing t with
  | nil => exact ⟨t, rfl, by simp⟩
  | cons x rest ih =>
    obtain ⟨a, p⟩ := x
    obtain ⟨b, hb⟩ := hv a p (by simp)
    have hrest : ∀ a p, (a, p) ∈ rest → ∃ b, V a p message = .ok b :=
      fun a p h => hv a p (List.mem_cons_of_mem _ h)
    simp only [loop, hb, ok_bind]
    cases b with
    | false =>
      obtain ⟨r, h1, h2⟩ := ih ht hrest
      refine ⟨r, ?_, ?_⟩
      · simp only [lower, Bool.false_eq_true, if_false, ok_bind, if_neg ht]
        exact h1
      · rw [List.filter_cons, if_neg (by simp [hb])]
        exact h2
    | true =>
      have h1 := u8_ne_zero.1 ht
      obtain ⟨t', ht'⟩ : ∃ t', pred t = .ok t' := ⟨t - 1, by unfold pred; rw [if_pos h1]⟩
      have hp := pred_ok.1 ht'
      simp only [lower, if_true, ht', ok_bind]
      rw [List.filter_cons, if_pos (decide_eq_true hb), List.length_cons]
      by_cases hz : t' = 0
      · rw [if_pos hz]
        refine ⟨t', rfl, ?_⟩
        subst hz
        simp at hp ⊢
        omega
      · rw [if_neg hz]
        obtain ⟨r, h3, h4⟩ := ih hz hrest
        exact ⟨r, h3, by omega⟩

theorem verify_ok {V : Verifier} {s : State} {metadata message : Bytes} {b : Bool} :
    verify V s metadata message = .ok b ↔ ∃ m r, AggregateMeta.fromHex metadata s.isms = .ok m ∧
      loop V message s.threshold m.entries = .ok r ∧ b = decide (r = 0) := by
  unfold verify
  constructor
  · intro h
    obtain ⟨m, h1, h⟩ := bind_eq_ok.1 h
    obtain ⟨r, h2, hf⟩ := bind_eq_ok.1 h
    simp only [pure_eq_ok, Except.ok.injEq] at hf
    exact ⟨m, r, h1, h2, hf.symm⟩
  · rintro ⟨m, r, h1, h2, rfl⟩
    rw [h1, ok_bind, h2]
    rfl

/-- A positive answer with a positive threshold is backed by that many approvals. -/
theorem verify_sound {V : Verifier} {s : State} {metadata message : Bytes} (ht : s.threshold ≠ 0)
    (h : verify V s metadata message = .ok true) :
    ∃ q, q.length = s.threshold.toNat ∧ Approvals V metadata message s.isms q := by
  obtain ⟨m, r, h1, h2, h3⟩ := verify_ok.1 h
  have hr : r = 0 := of_decide_eq_true h3.symm
  obtain ⟨g1, g2⟩ := AggregateMeta.fromHex_ok h1
  obtain ⟨q, q1, q2, q3⟩ := loop_sound m.keys_nodup ht h2
  refine ⟨q, by rw [hr] at q2; simpa using q2, q1, ?_⟩
  intro a ha
  obtain ⟨p, hp, hv⟩ := q3 a ha
  exact ⟨(g2 a).1 (List.mem_map.2 ⟨_, hp, rfl⟩), p, (g1 a p).1 hp, hv⟩

end AggregateIsm

end Hpl
