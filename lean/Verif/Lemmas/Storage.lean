import Verif.Lemmas.Bytes
import Verif.Lemmas.OMap
import Verif.Model.Storage
import Mathlib.Tactic.Ring

/-! Helper lemmas about the order of byte strings and ranges of storage. -/

namespace Hpl.Storage

theorem append_lt_append_left (a b c : Bytes) : a ++ b < a ++ c ↔ b < c := by
  induction a with
  | nil => rfl
  | cons x t ih => simp [ih]

theorem append_le_append_left (a b c : Bytes) : a ++ b ≤ a ++ c ↔ b ≤ c := by
  rw [← not_lt, ← not_lt, append_lt_append_left]

theorem le_append (a b : Bytes) : a ≤ a ++ b := by
  have := (append_le_append_left a [] b).2 (by rw [← not_lt]; exact List.not_lt_nil b)
  simpa using this

/-- Strings between two strings with a common prefix have that prefix. -/
theorem prefix_of_between {P a b k : Bytes} (ha : P <+: a) (hb : P <+: b) (h1 : a ≤ k) (h2 : k ≤ b) : P <+: k := by
  obtain ⟨a, rfl⟩ := ha
  obtain ⟨b, rfl⟩ := hb
  induction P generalizing k with
  | nil => exact List.nil_prefix
  | cons x t ih =>
    cases k with
    | nil =>
      exfalso
      rw [← not_lt] at h1
      exact h1 (by simp)
    | cons y k =>
      rw [← not_lt, List.cons_append, List.cons_lt_cons_iff] at h1 h2
      push Not at h1 h2
      have hxy : x = y := le_antisymm (by simpa using h1.1) (by simpa using h2.1)
      subst hxy
      exact List.cons_prefix_cons.2 ⟨rfl, ih (h1.2 rfl) (h2.2 rfl)⟩

theorem fromBE_cons (x : UInt8) (t : Bytes) : fromBE (x :: t) = x.toNat * 256 ^ t.length + fromBE t := by
  induction t using List.reverseRecOn with
  | nil => simp [fromBE]
  | append_singleton t y ih =>
    rw [← List.cons_append, fromBE_append_singleton, fromBE_append_singleton, ih]
    simp only [List.length_append, List.length_cons, List.length_nil, pow_succ]
    ring

/-- Strings of the same length are ordered like numbers. -/
theorem lt_iff_fromBE {a b : Bytes} (h : a.length = b.length) : a < b ↔ fromBE a < fromBE b := by
  induction a generalizing b with
  | nil =>
    cases b with
    | nil => simp
    | cons => simp at h
  | cons x t ih =>
    cases b with
    | nil => simp at h
    | cons y u =>
      simp only [List.length_cons, Nat.add_right_cancel_iff] at h
      rw [List.cons_lt_cons_iff, ih h, fromBE_cons, fromBE_cons, h, UInt8.lt_iff_toNat_lt]
      have h1 := fromBE_lt t
      have h2 := fromBE_lt u
      rw [h] at h1
      constructor
      · rintro (h3 | ⟨rfl, h3⟩)
        · have : (x.toNat + 1) * 256 ^ u.length ≤ y.toNat * 256 ^ u.length := Nat.mul_le_mul_right _ h3
          rw [Nat.add_mul] at this
          omega
        · omega
      · intro h3
        rcases Nat.lt_trichotomy x.toNat y.toNat with h4 | h4 | h4
        · exact .inl h4
        · refine .inr ⟨UInt8.toNat_inj.1 h4, ?_⟩
          rw [h4] at h3
          omega
        · exfalso
          have : (y.toNat + 1) * 256 ^ u.length ≤ x.toNat * 256 ^ u.length := Nat.mul_le_mul_right _ h4
          rw [Nat.add_mul] at this
          omega

/-- A difference within the common length decides. -/
theorem append_lt_of_lt {a b r : Bytes} (h : a.length = b.length) (hl : a < b) : a ++ r < b := by
  induction a generalizing b with
  | nil =>
    cases b with
    | nil => simp at hl
    | cons => simp at h
  | cons x t ih =>
    cases b with
    | nil => simp at h
    | cons y u =>
      simp only [List.length_cons, Nat.add_right_cancel_iff] at h
      rw [List.cons_append, List.cons_lt_cons_iff]
      rw [List.cons_lt_cons_iff] at hl
      rcases hl with hl | ⟨hl, hl'⟩
      · exact .inl hl
      · exact .inr ⟨hl, ih h hl'⟩

theorem length_bump (b : Bytes) : (bump b).length = b.length := by
  induction b with
  | nil => rfl
  | cons x t ih =>
    rw [bump]
    split <;> simp [ih]

@[simp] theorem length_upperBound (b : Bytes) : (upperBound b).length = b.length := by
  simp [upperBound, length_bump]

theorem fromBE_bump (b : Bytes) (h : ∃ x ∈ b, x ≠ 255) : fromBE (bump b).reverse = fromBE b.reverse + 1 := by
  induction b with
  | nil => simp at h
  | cons x t ih =>
    rw [bump]
    by_cases hx : x = 255
    · subst hx
      rw [if_pos rfl, List.reverse_cons, List.reverse_cons, fromBE_append_singleton, fromBE_append_singleton, ih]
      · simp
        ring
      · obtain ⟨y, hy, hy'⟩ := h
        rcases List.mem_cons.1 hy with rfl | hy
        · exact absurd rfl hy'
        · exact ⟨y, hy, hy'⟩
    · rw [if_neg hx, List.reverse_cons, List.reverse_cons, fromBE_append_singleton, fromBE_append_singleton]
      have : (x + 1).toNat = x.toNat + 1 := by
        have h1 : x.toNat ≠ 255 := fun h => hx (UInt8.toNat_inj.1 h)
        have h2 := x.toNat_lt
        rw [UInt8.toNat_add]
        simp only [UInt8.toNat_one]
        omega
      omega

/-- The upper bound is the next number. -/
theorem fromBE_upperBound {b : Bytes} (h : ∃ x ∈ b, x ≠ 255) : fromBE (upperBound b) = fromBE b + 1 := by
  rw [upperBound, fromBE_bump _ (by simpa using h), List.reverse_reverse]

theorem lt_upperBound {P : Bytes} (h : ∃ x ∈ P, x ≠ 255) (r : Bytes) : P ++ r < upperBound P := by
  apply append_lt_of_lt (by simp)
  rw [lt_iff_fromBE (by simp), fromBE_upperBound h]
  omega

/-- For keys that are not shorter, being in the range of a prefix is having it. -/
theorem prefix_of_range {P k : Bytes} (h : ∃ x ∈ P, x ≠ 255) (hk : P.length ≤ k.length) (h1 : P ≤ k)
    (h2 : k < upperBound P) : P <+: k := by
  have hlen : (k.take P.length).length = P.length := by simp [hk]
  have h3 : k.take P.length < upperBound P := by
    refine lt_of_le_of_lt (le_append _ (k.drop P.length)) ?_
    rw [List.take_append_drop]
    exact h2
  have h4 : ¬ k.take P.length < P := by
    intro h5
    have := append_lt_of_lt (r := k.drop P.length) hlen h5
    rw [List.take_append_drop] at this
    exact absurd h1 (not_le.2 this)
  rw [lt_iff_fromBE (by simp [hk]), fromBE_upperBound h] at h3
  rw [lt_iff_fromBE hlen] at h4
  have : k.take P.length = P := fromBE_inj hlen (by omega)
  rw [← this]
  exact List.take_prefix _ _

theorem upperBound_concat (A : Bytes) {x : UInt8} (hx : x ≠ 255) : upperBound (A ++ [x]) = A ++ [x + 1] := by
  simp [upperBound, bump, hx]

theorem bump_append {a : Bytes} (h : ∃ x ∈ a, x ≠ 255) (b : Bytes) : bump (a ++ b) = bump a ++ b := by
  induction a with
  | nil => simp at h
  | cons x t ih =>
    rw [List.cons_append, bump, bump]
    by_cases hx : x = 255
    · subst hx
      rw [if_pos rfl, if_pos rfl, ih, List.cons_append]
      obtain ⟨y, hy, hy'⟩ := h
      rcases List.mem_cons.1 hy with rfl | hy
      · exact absurd rfl hy'
      · exact ⟨y, hy, hy'⟩
    · rw [if_neg hx, if_neg hx, List.cons_append]

/-- The carry stays behind a byte that can be incremented. -/
theorem upperBound_append (a : Bytes) {b : Bytes} (h : ∃ x ∈ b, x ≠ 255) : upperBound (a ++ b) = a ++ upperBound b := by
  rw [upperBound, List.reverse_append, bump_append (by simpa using h), List.reverse_append, List.reverse_reverse, upperBound]

/-- If no carry is needed, it is so for all keys. -/
theorem prefix_of_range_concat {A k : Bytes} {x : UInt8} (hx : x ≠ 255) (h1 : A ++ [x] ≤ k)
    (h2 : k < upperBound (A ++ [x])) : A ++ [x] <+: k := by
  have hA : A <+: k := by
    refine prefix_of_between (List.prefix_append A [x]) (List.prefix_append A [x + 1]) h1 (le_of_lt ?_)
    rw [← upperBound_concat A hx]
    exact h2
  refine prefix_of_range ⟨x, by simp, hx⟩ ?_ h1 h2
  obtain ⟨r, rfl⟩ := hA
  cases r with
  | nil =>
    exfalso
    have := (append_le_append_left A [x] []).1 h1
    rw [← not_lt] at this
    exact this (by simp)
  | cons y r => simp

theorem u32be_lt {a b : UInt32} : u32be a < u32be b ↔ a < b := by
  have ha := a.toNat_lt
  have hb := b.toNat_lt
  rw [lt_iff_fromBE (by simp), u32be, u32be, fromBE_beN_of_lt (by omega), fromBE_beN_of_lt (by omega), UInt32.lt_iff_toNat_lt]

/-- The successor of a string. -/
theorem append_zero_le {a b : Bytes} : a ++ [0] ≤ b ↔ a < b := by
  induction a generalizing b with
  | nil =>
    cases b with
    | nil => simp
    | cons x t =>
      simp only [List.nil_append, List.nil_lt_cons, iff_true]
      rw [← not_lt, List.cons_lt_cons_iff]
      push Not
      exact ⟨UInt8.zero_le, fun _ => not_lt.1 (List.not_lt_nil t)⟩
  | cons x t ih =>
    cases b with
    | nil =>
      simp
    | cons y u =>
      rw [List.cons_append, ← not_lt, List.cons_lt_cons_iff, List.cons_lt_cons_iff, ← ih, ← not_lt (a := u)]
      push Not
      constructor
      · rintro ⟨h1, h2⟩
        rcases lt_or_eq_of_le h1 with h3 | h3
        · exact .inl h3
        · exact .inr ⟨h3, h2 h3.symm⟩
      · rintro (h | ⟨h1, h2⟩)
        · exact ⟨le_of_lt h, fun h' => absurd h' (ne_of_gt h)⟩
        · exact ⟨le_of_eq h1, fun _ => h2⟩

section Range

variable {κ : Type} [LinearOrder κ] {enc : κ → Bytes} {dec : Bytes → Res κ} {s : Raw} {P : Bytes}

omit [LinearOrder κ] in
theorem readAll_enc (hdec : ∀ x, dec (enc x) = .ok x) (l : List (κ × Bytes)) :
    readAll dec (l.map (fun p => (enc p.1, p.2))) = .ok l := by
  induction l with
  | nil => rfl
  | cons x t ih =>
    rw [List.map_cons, readAll, hdec, ih]
    rfl

/-- The entries under a prefix as a typed map. -/
theorem typed (henc : ∀ x y, enc x < enc y ↔ x < y) (hP : ∃ x ∈ P, x ≠ 255)
    (hs : ∀ k ∈ s.keys, P ≤ k → k < upperBound P → ∃ x, k = P ++ enc x) :
    ∃ m : OMap κ Bytes, s.entries.filter (fun p => P ≤ p.1 ∧ p.1 < upperBound P) =
        m.entries.map (fun p => (P ++ enc p.1, p.2)) ∧ ∀ x, m.get x = s.get (P ++ enc x) := by
  have key : ∀ l : List (Bytes × Bytes), (∀ p ∈ l, ∃ x, p.1 = P ++ enc x) →
      ∃ es : List (κ × Bytes), l = es.map (fun p => (P ++ enc p.1, p.2)) := by
    intro l
    induction l with
    | nil => exact fun _ => ⟨[], rfl⟩
    | cons p t ih =>
      intro h
      obtain ⟨x, hx⟩ := h p (.head _)
      obtain ⟨es, he⟩ := ih fun q hq => h q (.tail _ hq)
      refine ⟨(x, p.2) :: es, ?_⟩
      rw [List.map_cons, ← he, ← hx]
  obtain ⟨es, he⟩ := key (s.entries.filter (fun p => P ≤ p.1 ∧ p.1 < upperBound P)) (by
    intro p hp
    rw [List.mem_filter, decide_eq_true_eq] at hp
    exact hs _ (List.mem_map.2 ⟨p, hp.1, rfl⟩) hp.2.1 hp.2.2)
  have hsort : KeySorted es := by
    have h1 : KeySorted (s.entries.filter (fun p => P ≤ p.1 ∧ p.1 < upperBound P)) := s.sorted.filter _
    rw [he] at h1
    have h2 := List.pairwise_map.1 h1
    exact h2.imp fun {a b} h => (henc _ _).1 ((append_lt_append_left _ _ _).1 h)
  refine ⟨⟨es, hsort⟩, he, fun x => ?_⟩
  apply Option.ext
  intro v
  rw [OMap.get_eq_some_iff, OMap.get_eq_some_iff]
  have hinj : ∀ a b : κ, enc a = enc b → a = b := by
    intro a b h
    rcases lt_trichotomy a b with h1 | h1 | h1
    · exact absurd ((henc _ _).2 h1) (by rw [h]; exact lt_irrefl _)
    · exact h1
    · exact absurd ((henc _ _).2 h1) (by rw [h]; exact lt_irrefl _)
  have h1 : (P ++ enc x, v) ∈ s.entries ↔
      (P ++ enc x, v) ∈ s.entries.filter (fun p => P ≤ p.1 ∧ p.1 < upperBound P) := by
    rw [List.mem_filter, decide_eq_true_eq]
    exact ⟨fun h => ⟨h, le_append _ _, lt_upperBound hP _⟩, fun h => h.1⟩
  rw [h1, he]
  constructor
  · intro h
    exact List.mem_map.2 ⟨_, h, rfl⟩
  · intro h
    obtain ⟨⟨y, w⟩, h2, h3⟩ := List.mem_map.1 h
    simp only [Prod.mk.injEq, List.append_cancel_left_eq] at h3
    obtain ⟨h4, rfl⟩ := h3
    rw [← hinj _ _ h4]
    exact h2

theorem filter_of_filter {α : Type} {p q : α → Bool} (l : List α) (h : ∀ x, q x = true → p x = true) :
    l.filter q = (l.filter p).filter q := by
  rw [List.filter_filter]
  refine List.filter_congr fun x _ => ?_
  by_cases hq : q x = true
  · simp [hq, h x hq]
  · simp [Bool.not_eq_true _ ▸ hq]

omit [LinearOrder κ] in
theorem drop_map (l : List (κ × Bytes)) :
    (l.map (fun p => (P ++ enc p.1, p.2))).map (fun p : Bytes × Bytes => (p.1.drop P.length, p.2)) =
      l.map (fun p => (enc p.1, p.2)) := by
  rw [List.map_map]
  refine List.map_congr_left fun p _ => ?_
  simp

/-- Pages of the raw storage are pages of the typed map. -/
theorem page_typed (henc : ∀ x y, enc x < enc y ↔ x < y) (hdec : ∀ x, dec (enc x) = .ok x) (hP : ∃ x ∈ P, x ≠ 255)
    {m : OMap κ Bytes} (hm : s.entries.filter (fun p => P ≤ p.1 ∧ p.1 < upperBound P) =
        m.entries.map (fun p => (P ++ enc p.1, p.2))) (start : Option κ) (limit : Option UInt32) (order : Option Order) :
    page enc dec s P start limit order = rangePage m start limit order := by
  unfold page rangePage
  congr 1
  funext l
  have hasc : rangeWithPrefix s P (start.map (fun k => Bound.exclusive (enc k))) none .asc =
      (match start with
      | none => m.entries
      | some k => m.entries.filter (fun p => k < p.1)).map (fun p : κ × Bytes => (enc p.1, p.2)) := by
    cases start with
    | none =>
      change List.map _ (s.entries.filter (fun p => P ≤ p.1 ∧ p.1 < upperBound P)) = m.entries.map _
      rw [hm, drop_map]
    | some k =>
      simp only [rangeWithPrefix, hostRange, startBound, endBound, Option.map_some]
      rw [filter_of_filter (p := fun p : Bytes × Bytes => P ≤ p.1 ∧ p.1 < upperBound P), hm, List.filter_map, drop_map]
      · congr 1
        refine List.filter_congr fun p _ => ?_
        simp only [Function.comp, append_le_append_left, append_zero_le, henc, lt_upperBound hP, and_true]
      · intro x hx
        have hx := of_decide_eq_true hx
        exact decide_eq_true ⟨le_trans (le_append _ _) hx.1, hx.2⟩
  have hdesc : rangeWithPrefix s P none (start.map (fun k => Bound.exclusive (enc k))) .desc =
      (match start with
      | none => m.entries
      | some k => m.entries.filter (fun p => p.1 < k)).reverse.map (fun p : κ × Bytes => (enc p.1, p.2)) := by
    cases start with
    | none =>
      change List.map _ (s.entries.filter (fun p => P ≤ p.1 ∧ p.1 < upperBound P)).reverse = m.entries.reverse.map _
      rw [hm, ← List.map_reverse, drop_map]
    | some k =>
      simp only [rangeWithPrefix, hostRange, startBound, endBound, Option.map_some]
      rw [filter_of_filter (p := fun p : Bytes × Bytes => P ≤ p.1 ∧ p.1 < upperBound P), hm, List.filter_map,
        ← List.map_reverse, drop_map]
      · congr 2
        refine List.filter_congr fun p _ => ?_
        simp only [Function.comp, append_lt_append_left, henc, le_append, true_and]
      · intro x hx
        have hx := of_decide_eq_true hx
        exact decide_eq_true ⟨hx.1, lt_trans hx.2 (lt_upperBound hP _)⟩
  cases order.getD .asc with
  | asc =>
    simp only [hasc, ← List.map_take]
    rw [readAll_enc hdec]
    rfl
  | desc =>
    simp only [hdesc, ← List.map_take]
    rw [readAll_enc hdec]
    rfl

theorem listAll_typed (hdec : ∀ x, dec (enc x) = .ok x)
    {m : OMap κ Bytes} (hm : s.entries.filter (fun p => P ≤ p.1 ∧ p.1 < upperBound P) =
        m.entries.map (fun p => (P ++ enc p.1, p.2))) : listAll dec s P = .ok m.entries := by
  change readAll dec (List.map _ (s.entries.filter (fun p => P ≤ p.1 ∧ p.1 < upperBound P))) = _
  rw [hm, drop_map, readAll_enc hdec]

end Range

end Hpl.Storage
