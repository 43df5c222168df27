import Verif.Model.Metadata
import Verif.Lemmas.Bytes
import Verif.Lemmas.Res
import Verif.Lemmas.OMap

/-! Helper lemmas about the metadata formats. -/

namespace Hpl

theorem take_slice_append_drop (v : Bytes) {i j : Nat} (h : i ≤ j) :
    (v.drop i).take (j - i) ++ v.drop j = v.drop i := by
  have : v.drop j = (v.drop i).drop (j - i) := by rw [List.drop_drop]; congr 1; omega
  rw [this, List.take_append_drop]

theorem chunksExact_append {n : Nat} (hn : 0 < n) {a : Bytes} (ha : a.length = n) (r : Bytes) :
    chunksExact n (a ++ r) = a :: chunksExact n r := by
  unfold chunksExact
  have h1 : (a ++ r).length / n = r.length / n + 1 := by
    rw [List.length_append, ha, Nat.add_comm, Nat.add_div_right _ hn]
  rw [h1, List.range_succ_eq_map, List.map_cons, List.map_map]
  congr 1
  · simp [← ha]
  · apply List.map_congr_left
    intro i _
    simp only [Function.comp]
    congr 1
    rw [List.drop_append, ha]
    have h2 : i.succ * n = n + i * n := by rw [Nat.succ_mul, Nat.add_comm]
    rw [h2, List.drop_eq_nil_of_le (by omega), List.nil_append]
    congr 1; omega

theorem chunksExact_flatten {n : Nat} (hn : 0 < n) (l : List Bytes) (hl : ∀ a ∈ l, a.length = n) :
    chunksExact n l.flatten = l := by
  induction l with
  | nil => simp [chunksExact]
  | cons a t ih =>
    rw [List.flatten_cons, chunksExact_append hn (hl a (by simp)), ih]
    intro b hb; exact hl b (List.mem_cons_of_mem _ hb)

theorem chunksExact_mem_length {n : Nat} {v a : Bytes} (h : a ∈ chunksExact n v) :
    a.length = n := by
  unfold chunksExact at h
  obtain ⟨i, hi, rfl⟩ := List.mem_map.1 h
  rw [List.mem_range] at hi
  have h1 : (i + 1) * n ≤ v.length :=
    Nat.le_trans (Nat.mul_le_mul_right n hi) (Nat.div_mul_le_self _ _)
  rw [Nat.succ_mul] at h1
  simp only [List.length_take, List.length_drop]
  omega

/-- The chunks, concatenated, are the input without a tail shorter than a chunk. -/
theorem chunksExact_flatten_tail {n : Nat} (hn : 0 < n) (v : Bytes) :
    ∃ tail : Bytes, v = (chunksExact n v).flatten ++ tail ∧ tail.length < n := by
  induction hk : v.length / n generalizing v with
  | zero =>
    refine ⟨v, ?_, ?_⟩
    · simp [chunksExact, hk]
    · exact (Nat.div_eq_zero_iff_lt hn).1 hk
  | succ k ih =>
    have hlen : n ≤ v.length := by
      by_contra hc
      rw [Nat.div_eq_of_lt (by omega)] at hk
      omega
    have ha : (v.take n).length = n := by simp; omega
    have hr : (v.drop n).length / n = k := by
      rw [List.length_drop]
      have h3 : v.length = (v.length - n) + n := by omega
      rw [h3, Nat.add_div_right _ hn] at hk
      omega
    obtain ⟨tail, h1, h2⟩ := ih (v.drop n) hr
    refine ⟨tail, ?_, h2⟩
    conv_lhs => rw [← List.take_append_drop n v]
    conv_rhs => rw [← List.take_append_drop n v]
    rw [chunksExact_append hn ha, List.flatten_cons, List.append_assoc, ← h1]

namespace AggregateMeta

theorem usizeTail_8 (x : Nat) : usizeTail 8 x = .ok (beN 4 x) := by
  have key : (beN 8 x).drop 4 = beN 4 x := by
    simp [beN]
  have : sliceFrom (beN 8 x) rangeSize = .ok (beN 4 x) := by
    unfold sliceFrom rangeSize
    rw [if_pos (by simp), key]
  unfold usizeTail
  rw [this]
  simp

theorem usizeTail_4 (x : Nat) : usizeTail 4 x = .error (.panic "clone_from_slice") := by
  have : sliceFrom (beN 4 x) rangeSize = .ok [] := by
    unfold sliceFrom rangeSize
    rw [if_pos (by simp), List.drop_eq_nil_of_le (by simp)]
  unfold usizeTail
  rw [this]
  rfl

/-- Closed form of the offset table. -/
theorem table_8 (ms : List Bytes) (pos : Nat) (h : pos + ms.flatten.length < 2 ^ 32) :
    ∃ t, table 8 (ranges pos ms) = .ok t ∧ t.length = 8 * ms.length ∧
      ∀ i (_ : i < ms.length),
        (t.drop (8 * i)).take 4 = beN 4 (pos + (ms.take i).flatten.length) ∧
        (t.drop (8 * i + 4)).take 4 = beN 4 (pos + (ms.take (i + 1)).flatten.length) := by
  induction ms generalizing pos with
  | nil => exact ⟨[], rfl, rfl, fun i hi => absurd hi (by simp)⟩
  | cons m r ih =>
    rw [List.flatten_cons, List.length_append] at h
    obtain ⟨t, h1, h2, h3⟩ := ih (pos + m.length) (by omega)
    refine ⟨beN 4 pos ++ (beN 4 (pos + m.length) ++ t), ?_, by simp [h2]; omega, ?_⟩
    · simp only [ranges, table]
      rw [usizeTail_8, usizeTail_8, h1]
      rfl
    · intro i hi
      cases i with
      | zero =>
        constructor
        · simp
        · simp
      | succ i =>
        simp only [List.length_cons, Nat.add_lt_add_iff_right] at hi
        obtain ⟨g1, g2⟩ := h3 i hi
        have hd : ∀ k, (beN 4 pos ++ (beN 4 (pos + m.length) ++ t)).drop (8 + k) = t.drop k := by
          intro k
          rw [← List.append_assoc, List.drop_append, List.drop_eq_nil_of_le (by simp)]
          simp
        constructor
        · rw [show 8 * (i + 1) = 8 + 8 * i by omega, hd, g1]
          simp; congr 1; omega
        · rw [show 8 * (i + 1) + 4 = 8 + (8 * i + 4) by omega, hd, g2]
          simp [List.take_succ_cons]; congr 1; omega

theorem take_succ_flatten {ms : List Bytes} {i : Nat} {m : Bytes} (h : ms[i]? = some m) :
    (ms.take (i + 1)).flatten = (ms.take i).flatten ++ m := by
  rw [List.take_add_one, h]; simp

theorem encodeList_8 (ms : List Bytes) (h : 8 * ms.length + ms.flatten.length < 2 ^ 32) :
    ∃ v, encodeList 8 ms = .ok v ∧ ∀ i m, ms[i]? = some m → entryAt v i = .ok m := by
  have hpos : ms.length * rangeSize * 2 = 8 * ms.length := by unfold rangeSize; omega
  obtain ⟨t, h1, h2, h3⟩ := table_8 ms (8 * ms.length) h
  refine ⟨t ++ ms.flatten, ?_, ?_⟩
  · unfold encodeList; rw [hpos, h1]; rfl
  · intro i m hm
    have hi : i < ms.length := by
      rcases Nat.lt_or_ge i ms.length with hh | hh
      · exact hh
      · rw [List.getElem?_eq_none hh] at hm; cases hm
    obtain ⟨g1, g2⟩ := h3 i hi
    have hsub : ∀ k, ((ms.take k).flatten.length ≤ ms.flatten.length) := by
      intro k
      conv_rhs => rw [← List.take_append_drop k ms]
      rw [List.flatten_append, List.length_append]; omega
    have s1 : slice (t ++ ms.flatten) (i * rangeSize * 2) (i * rangeSize * 2 + rangeSize) =
        .ok (beN 4 (8 * ms.length + (ms.take i).flatten.length)) := by
      rw [slice_ok (by omega) (by simp [h2, rangeSize]; omega)]
      rw [← g1]
      congr 1
      simp only [rangeSize]
      rw [List.drop_append_of_le_length (by omega), List.take_append_of_le_length (by
        simp [h2]; omega)]
      congr 1
      · omega
      · congr 1; omega
    have s2 : slice (t ++ ms.flatten) (i * rangeSize * 2 + rangeSize)
        (i * rangeSize * 2 + rangeSize + rangeSize) =
        .ok (beN 4 (8 * ms.length + (ms.take (i + 1)).flatten.length)) := by
      rw [slice_ok (by omega) (by simp [h2, rangeSize]; omega)]
      rw [← g2]
      congr 1
      simp only [rangeSize]
      rw [List.drop_append_of_le_length (by omega), List.take_append_of_le_length (by
        simp [h2]; omega)]
      congr 1
      · omega
      · congr 1; omega
    unfold entryAt
    simp only
    rw [s1, s2]
    simp only [ok_bind]
    have b1 := hsub i
    have b2 := hsub (i + 1)
    rw [fromBE_beN_of_lt (by simp at *; omega), fromBE_beN_of_lt (by simp at *; omega)]
    have htk := take_succ_flatten hm
    rw [slice_ok (by rw [htk]; simp) (by simp only [List.length_append, h2]; omega)]
    congr 1
    rw [htk, List.drop_append, List.drop_eq_nil_of_le (by omega), List.nil_append, h2]
    have hsplit : ms.flatten = (ms.take i).flatten ++ (m ++ (ms.drop (i + 1)).flatten) := by
      conv_lhs => rw [← List.take_append_drop (i + 1) ms]
      rw [List.flatten_append, htk, List.append_assoc]
    rw [hsplit]
    apply drop_take_append
    · omega
    · simp only [List.length_append]; omega

theorem entriesFrom_zip (v : Bytes) (addrs : List Addr) (ms : List Bytes)
    (hl : addrs.length = ms.length) (i : Nat)
    (h : ∀ j m, ms[j]? = some m → entryAt v (i + j) = .ok m) :
    entriesFrom v i addrs = .ok (addrs.zip ms) := by
  induction addrs generalizing ms i with
  | nil => rfl
  | cons a t ih =>
    cases ms with
    | nil => simp at hl
    | cons m r =>
      simp only [entriesFrom]
      have h0 : entryAt v i = .ok m := h 0 m rfl
      rw [h0, ih r (by simpa using hl) (i + 1)]
      · rfl
      · intro j m' hj
        rw [Nat.add_assoc, Nat.add_comm 1 j]
        exact h (j + 1) m' (by simpa using hj)

theorem entryAt_bytes {v : Bytes} {i : Nat} {m : Bytes} : entryAt v i = .ok m ↔
    8 * i + 8 ≤ v.length ∧ fromBE ((v.drop (8 * i)).take 4) ≤ fromBE ((v.drop (8 * i + 4)).take 4) ∧
      fromBE ((v.drop (8 * i + 4)).take 4) ≤ v.length ∧
      (v.drop (fromBE ((v.drop (8 * i)).take 4))).take
        (fromBE ((v.drop (8 * i + 4)).take 4) - fromBE ((v.drop (8 * i)).take 4)) = m := by
  have e1 : i * 4 * 2 = 8 * i := by omega
  unfold entryAt
  simp only [show rangeSize = 4 from rfl, e1]
  by_cases h : 8 * i + 8 ≤ v.length
  · rw [slice_ok (by omega) (by omega), slice_ok (by omega) (by omega)]
    simp only [ok_bind, Nat.add_sub_cancel_left]
    unfold slice
    split
    · rename_i h'; simp [h, h'.1, h'.2]
    · rename_i h'
      constructor
      · intro hh; cases hh
      · rintro ⟨_, h2, h3, _⟩; exact absurd ⟨h2, h3⟩ h'
  · have : ∀ x, slice v (8 * i + 4) (8 * i + 4 + 4) ≠ .ok x := by
      intro x hx
      unfold slice at hx
      rw [if_neg (by omega)] at hx
      cases hx
    constructor
    · intro hh
      obtain ⟨a, _, hh⟩ := bind_eq_ok.1 hh
      obtain ⟨b, hb, _⟩ := bind_eq_ok.1 hh
      exact absurd hb (this b)
    · rintro ⟨h', _⟩; exact absurd h' h

theorem entriesFrom_bytes {v : Bytes} {addrs : List Addr} {i : Nat} {l : List (Addr × Bytes)} :
    entriesFrom v i addrs = .ok l ↔ ∃ ms : List Bytes, ms.length = addrs.length ∧
      (∀ j m, ms[j]? = some m → entryAt v (i + j) = .ok m) ∧ l = addrs.zip ms := by
  constructor
  · intro h
    induction addrs generalizing i l with
    | nil =>
      simp only [entriesFrom, Except.ok.injEq] at h
      exact ⟨[], rfl, by simp, by simp [← h]⟩
    | cons a t ih =>
      obtain ⟨m, h1, h⟩ := bind_eq_ok.1 h
      obtain ⟨r, h2, h⟩ := bind_eq_ok.1 h
      simp only [pure_eq_ok, Except.ok.injEq] at h
      obtain ⟨ms, m1, m2, rfl⟩ := ih h2
      refine ⟨m :: ms, by simp [m1], ?_, by rw [← h]; rfl⟩
      intro j m' hj
      cases j with
      | zero =>
        simp only [List.getElem?_cons_zero, Option.some.injEq] at hj
        rw [← hj]; exact h1
      | succ j =>
        have := m2 j m' (by simpa using hj)
        rwa [Nat.add_assoc, Nat.add_comm 1 j] at this
  · rintro ⟨ms, m1, m2, rfl⟩
    exact entriesFrom_zip v addrs ms m1.symm i m2

end AggregateMeta

theorem findKey_of_nodup {κ ν : Type} [LinearOrder κ] {l : List (κ × ν)} {a : κ} {b : ν} (hn : (l.map (·.1)).Nodup)
    (h : (a, b) ∈ l) : findKey a l = some b := by
  cases hf : findKey a l with
  | none => exact absurd rfl (findKey_eq_none.1 hf _ h)
  | some b' =>
    have h3 := mem_of_findKey hf
    have : ∀ l : List (κ × ν), (l.map (·.1)).Nodup → (a, b) ∈ l → (a, b') ∈ l → b' = b := by
      intro l hn h3 h4
      induction l with
      | nil => cases h3
      | cons x t ih =>
        rw [List.map_cons, List.nodup_cons] at hn
        rcases List.mem_cons.1 h3 with e3 | m3
        · rcases List.mem_cons.1 h4 with e4 | m4
          · rw [← e3] at e4; cases e4; rfl
          · exact absurd (List.mem_map.2 ⟨_, m4, by rw [← e3]⟩) hn.1
        · rcases List.mem_cons.1 h4 with e4 | m4
          · exact absurd (List.mem_map.2 ⟨_, m3, by rw [← e4]⟩) hn.1
          · exact ih hn.2 m3 m4
    rw [this l hn h h3]

theorem OMap.get_foldl_insert {κ ν : Type} [LinearOrder κ] (l : List (κ × ν)) (m : OMap κ ν)
    (hn : (l.map (·.1)).Nodup) (k : κ) :
    (l.foldl (fun m p => m.insert p.1 p.2) m).get k = (findKey k l).or (m.get k) := by
  induction l generalizing m with
  | nil => simp [findKey]
  | cons a t ih =>
    obtain ⟨k', v'⟩ := a
    rw [List.map_cons, List.nodup_cons] at hn
    rw [List.foldl_cons, ih _ hn.2, OMap.get_insert]
    simp only [findKey]
    by_cases h : k = k'
    · subst h
      have : findKey k t = none := by
        rw [findKey_eq_none]
        intro p hp he
        exact hn.1 (List.mem_map.2 ⟨p, hp, he⟩)
      simp [this]
    · simp [h]

theorem OMap.get_ofList {κ ν : Type} [LinearOrder κ] (l : List (κ × ν))
    (hn : (l.map (·.1)).Nodup) (k : κ) : (OMap.ofList l).get k = findKey k l := by
  unfold OMap.ofList
  rw [OMap.get_foldl_insert l _ hn k]
  simp

theorem OMap.ofList_entries {κ ν : Type} [LinearOrder κ] (m : OMap κ ν) :
    OMap.ofList m.entries = m := by
  apply OMap.ext_get
  intro k
  rw [OMap.get_ofList _ m.keys_nodup]
  rfl

end Hpl
