import Mathlib.Data.Prod.Lex
import Mathlib.Data.List.Lex
import Mathlib.Order.WithBot
import Mathlib.Data.Char
import Mathlib.Tactic.Ring
import Mathlib.Tactic.Linarith
import Verif.Spec.Semver
import Verif.Lemmas.Packages

/-! # Versions: the comparison is a linear order, and the parser reads exactly the texts of valid versions -/

namespace Hpl.Semver

open Spec

/-! ## Comparisons -/

/-- The comparison of a linear order. -/
def ord {α : Type} [LinearOrder α] (a b : α) : Ordering := compare a b

theorem ord_lt {α : Type} [LinearOrder α] {a b : α} : ord a b = .lt ↔ a < b := compare_lt_iff_lt

theorem ord_eq {α : Type} [LinearOrder α] {a b : α} : ord a b = .eq ↔ a = b := compare_eq_iff_eq

theorem ord_gt {α : Type} [LinearOrder α] {a b : α} : ord a b = .gt ↔ b < a := compare_gt_iff_gt

theorem ord_le {α : Type} [LinearOrder α] {a b : α} : ord a b ≠ .gt ↔ a ≤ b := compare_le_iff_le

theorem ord_self {α : Type} [LinearOrder α] (a : α) : ord a a = .eq := ord_eq.2 rfl

theorem toLex_lt {α β : Type} [LinearOrder α] [LinearOrder β] {a : α} {b d : β} (h : b < d) :
    toLex (a, b) < toLex (a, d) := Prod.Lex.toLex_lt_toLex.2 (Or.inr ⟨rfl, h⟩)

theorem ord_lex {α β : Type} [LinearOrder α] [LinearOrder β] (a c : α) (b d : β) :
    ord (toLex (a, b)) (toLex (c, d)) = (ord a c).then (ord b d) := by
  rcases lt_trichotomy a c with h | h | h
  · rw [ord_lt.2 h, ord_lt.2 (Prod.Lex.toLex_lt_toLex.2 (.inl h))]; rfl
  · subst h
    rw [ord_eq.2 rfl]
    rcases lt_trichotomy b d with h | h | h
    · rw [ord_lt.2 h, ord_lt.2 (toLex_lt h)]; rfl
    · subst h; rw [ord_eq.2 rfl, ord_eq.2 rfl]; rfl
    · rw [ord_gt.2 h, ord_gt.2 (toLex_lt h)]; rfl
  · rw [ord_gt.2 h, ord_gt.2 (Prod.Lex.toLex_lt_toLex.2 (.inl h))]; rfl

theorem ord_cons {α : Type} [LinearOrder α] (a b : α) (s t : List α) :
    ord (a :: s) (b :: t) = (ord a b).then (ord s t) := by
  rcases lt_trichotomy a b with h | h | h
  · rw [ord_lt.2 h, ord_lt.2 (List.cons_lt_cons_iff.2 (.inl h))]; rfl
  · subst h
    rw [ord_eq.2 rfl]
    rcases lt_trichotomy s t with h | h | h
    · rw [ord_lt.2 h, ord_lt.2 (List.cons_lt_cons_iff.2 (.inr ⟨rfl, h⟩))]; rfl
    · subst h; rw [ord_eq.2 rfl, ord_eq.2 rfl]; rfl
    · rw [ord_gt.2 h, ord_gt.2 (List.cons_lt_cons_iff.2 (.inr ⟨rfl, h⟩))]; rfl
  · rw [ord_gt.2 h, ord_gt.2 (List.cons_lt_cons_iff.2 (.inl h))]; rfl

theorem ord_toNat (a b : Char) : compare a.toNat b.toNat = ord a b := by
  rcases lt_trichotomy a b with h | h | h
  · rw [ord_lt.2 h]; exact (ord_lt (α := ℕ)).2 h
  · subst h; rw [ord_self]; exact ord_self a.toNat
  · rw [ord_gt.2 h]; exact (ord_gt (α := ℕ)).2 h

theorem cmpText_eq : ∀ a b : List Char, cmpText a b = ord a b
  | [], [] => by rw [cmpText, ord_eq.2 rfl]
  | [], _ :: _ => by rw [cmpText, ord_lt.2 (List.nil_lt_cons _ _)]
  | _ :: _, [] => by rw [cmpText, ord_gt.2 (List.nil_lt_cons _ _)]
  | a :: s, b :: t => by rw [cmpText, ord_cons, ord_toNat, cmpText_eq s t]

theorem cmpSegs_eq {K : Type} [LinearOrder K] {f : List Char → List Char → Ordering} {key : List Char → K}
    (h : ∀ a b, f a b = ord (key a) (key b)) :
    ∀ a b, cmpSegs f a b = ord (a.map key) (b.map key)
  | [], [] => by rw [cmpSegs, ord_eq.2 rfl]
  | [], _ :: _ => by rw [cmpSegs, List.map_cons, List.map_nil, ord_lt.2 (List.nil_lt_cons _ _)]
  | _ :: _, [] => by rw [cmpSegs, List.map_cons, List.map_nil, ord_gt.2 (List.nil_lt_cons _ _)]
  | a :: s, b :: t => by rw [cmpSegs, List.map_cons, List.map_cons, ord_cons, h, cmpSegs_eq h s t]

/-- What segments of pre-releases are compared by. -/
def keyPre (s : List Char) : Bool ×ₗ ℕ ×ₗ List Char :=
  toLex (!s.all Char.isDigit, toLex (if s.all Char.isDigit then s.length else 0, s))

theorem cmpPreSeg_eq (a b : List Char) : cmpPreSeg a b = ord (keyPre a) (keyPre b) := by
  unfold cmpPreSeg keyPre
  rw [ord_lex, ord_lex, cmpText_eq]
  cases a.all Char.isDigit <;> cases b.all Char.isDigit <;> simp <;> rfl

theorem keyPre_inj {a b : List Char} (h : keyPre a = keyPre b) : a = b := by
  unfold keyPre at h
  have h1 := congrArg (fun x => (ofLex (ofLex x).2).2) h
  exact h1

/-- What segments of builds are compared by. -/
def keyBuild (s : List Char) : Bool ×ₗ ℕ ×ₗ List Char ×ₗ ℕ :=
  if s.all Char.isDigit then toLex (false, toLex ((trimZeros s).length, toLex (trimZeros s, s.length)))
  else toLex (true, toLex (0, toLex (s, 0)))

theorem then_assoc (a b c : Ordering) : (a.then b).then c = a.then (b.then c) := by
  cases a <;> rfl

theorem cmpBuildSeg_eq (a b : List Char) : cmpBuildSeg a b = ord (keyBuild a) (keyBuild b) := by
  unfold cmpBuildSeg keyBuild
  cases a.all Char.isDigit <;> cases b.all Char.isDigit <;>
    simp [ord_lex, cmpText_eq, then_assoc, ord_self] <;> rfl

theorem trimZeros_eq (s : List Char) : ∃ k, s = List.replicate k '0' ++ trimZeros s := by
  induction s with
  | nil => exact ⟨0, rfl⟩
  | cons c t ih =>
    rw [trimZeros]
    split
    · obtain ⟨k, hk⟩ := ih
      refine ⟨k + 1, ?_⟩
      rw [List.replicate_succ, List.cons_append, ← hk, ‹c = '0'›]
    · exact ⟨0, rfl⟩

theorem trimZeros_inj {a b : List Char} (h : trimZeros a = trimZeros b) (hl : a.length = b.length) : a = b := by
  obtain ⟨k, hk⟩ := trimZeros_eq a
  obtain ⟨m, hm⟩ := trimZeros_eq b
  have h1 := congrArg List.length hk
  have h2 := congrArg List.length hm
  rw [List.length_append, List.length_replicate] at h1 h2
  rw [h] at h1
  have : k = m := by omega
  rw [hk, hm, h, this]

theorem keyBuild_inj {a b : List Char} (h : keyBuild a = keyBuild b) : a = b := by
  unfold keyBuild at h
  have h0 := congrArg (fun x => (ofLex x).1) h
  have h1 := congrArg (fun x => (ofLex (ofLex (ofLex x).2).2).1) h
  have h2 := congrArg (fun x => (ofLex (ofLex (ofLex x).2).2).2) h
  cases ha : a.all Char.isDigit <;> cases hb : b.all Char.isDigit <;> simp [ha, hb] at h0 h1 h2
  · exact h1
  · exact trimZeros_inj h1 h2

/-- What pre-releases are compared by. -/
def keyPres (a : List (List Char)) : WithTop (List (Bool ×ₗ ℕ ×ₗ List Char)) :=
  if a = [] then ⊤ else ((a.map keyPre : List _) : WithTop _)

theorem ord_coe {α : Type} [LinearOrder α] (a b : α) : ord (a : WithTop α) (b : WithTop α) = ord a b := by
  rcases lt_trichotomy a b with h | h | h
  · rw [ord_lt.2 h, ord_lt.2 (WithTop.coe_lt_coe.2 h)]
  · subst h; rw [ord_self, ord_self]
  · rw [ord_gt.2 h, ord_gt.2 (WithTop.coe_lt_coe.2 h)]

theorem cmpPre_eq (a b : List (List Char)) : cmpPre a b = ord (keyPres a) (keyPres b) := by
  unfold keyPres
  cases a <;> cases b
  · rw [cmpPre, ord_self]
  · rw [cmpPre, if_pos rfl, if_neg (by simp), ord_gt.2 (WithTop.coe_lt_top _)]
  · rw [cmpPre, if_pos rfl, if_neg (by simp), ord_lt.2 (WithTop.coe_lt_top _)]
  · rw [cmpPre, if_neg (by simp), if_neg (by simp), ord_coe, cmpSegs_eq cmpPreSeg_eq]
    all_goals simp

theorem keyPres_inj {a b : List (List Char)} (h : keyPres a = keyPres b) : a = b := by
  unfold keyPres at h
  split at h <;> split at h
  · simp [*]
  · simp at h
  · simp at h
  · exact List.map_injective_iff.2 (fun _ _ => keyPre_inj) (WithTop.coe_injective h)

/-- What versions are compared by. -/
def key (v : Version) : ℕ ×ₗ ℕ ×ₗ ℕ ×ₗ WithTop (List (Bool ×ₗ ℕ ×ₗ List Char)) ×ₗ
    List (Bool ×ₗ ℕ ×ₗ List Char ×ₗ ℕ) :=
  toLex (v.major, toLex (v.minor, toLex (v.patch, toLex (keyPres v.pre, v.build.map keyBuild))))

theorem cmp_eq (v w : Version) : cmp v w = ord (key v) (key w) := by
  rw [cmp, key, key, ord_lex, ord_lex, ord_lex, ord_lex, cmpPre_eq, cmpSegs_eq cmpBuildSeg_eq]
  rfl

theorem key_inj {v w : Version} (h : key v = key w) : v = w := by
  unfold key at h
  have h1 := congrArg (fun x => (ofLex x).1) h
  have h2 := congrArg (fun x => (ofLex (ofLex x).2).1) h
  have h3 := congrArg (fun x => (ofLex (ofLex (ofLex x).2).2).1) h
  have h4 := congrArg (fun x => (ofLex (ofLex (ofLex (ofLex x).2).2).2).1) h
  have h5 := congrArg (fun x => (ofLex (ofLex (ofLex (ofLex x).2).2).2).2) h
  simp only [ofLex_toLex] at h1 h2 h3 h4 h5
  have h4 := keyPres_inj h4
  have h5 := List.map_injective_iff.2 (fun _ _ => keyBuild_inj) h5
  cases v; cases w
  simp_all

/-- Versions as ordered by `Ord::cmp`. -/
@[reducible] def linearOrder : LinearOrder Version where
  le v w := cmp v w ≠ .gt
  lt v w := cmp v w = .lt
  le_refl v := by simp [cmp_eq, ord_self]
  le_trans a b c h1 h2 := by
    simp only [cmp_eq, ord_le] at *
    exact le_trans h1 h2
  lt_iff_le_not_ge a b := by
    simp only [cmp_eq, ord_lt, ord_le]
    exact lt_iff_le_not_ge
  le_antisymm a b h1 h2 := by
    simp only [cmp_eq, ord_le] at *
    exact key_inj (le_antisymm h1 h2)
  le_total a b := by
    simp only [cmp_eq, ord_le]
    exact le_total _ _
  toDecidableLE := fun v w => inferInstanceAs (Decidable (cmp v w ≠ .gt))
  toDecidableLT := inferInstance

theorem lt_iff_key {v w : Version} : v < w ↔ key v < key w := by
  show cmp v w = .lt ↔ _
  rw [cmp_eq, ord_lt]

/-! ## Numbers -/

theorem digit_bounds {c : Char} (h : c.isDigit = true) : 48 ≤ c.toNat ∧ c.toNat ≤ 57 := by
  simp only [Char.isDigit, Bool.and_eq_true, decide_eq_true_eq] at h
  exact ⟨h.1, h.2⟩

theorem digitChar_sub {c : Char} (h : c.isDigit = true) : Nat.digitChar (c.toNat - 48) = c := by
  obtain ⟨h1, h2⟩ := digit_bounds h
  have : c = Char.ofNat c.toNat := (Char.ofNat_toNat c).symm
  rw [this]
  generalize c.toNat = n at *
  have hn : n = 48 ∨ n = 49 ∨ n = 50 ∨ n = 51 ∨ n = 52 ∨ n = 53 ∨ n = 54 ∨ n = 55 ∨ n = 56 ∨ n = 57 := by omega
  rcases hn with rfl | rfl | rfl | rfl | rfl | rfl | rfl | rfl | rfl | rfl <;> rfl

theorem numeric_iff {s : List Char} : s.all Char.isDigit = true ↔ Numeric s := by simp [Numeric]

theorem numeric_toDigits (n : ℕ) : Numeric (Nat.toDigits 10 n) :=
  fun _ h => Nat.isDigit_of_mem_toDigits (by decide) (by decide) h

theorem value_cons (c : Char) (s : List Char) (v : ℕ) :
    Nat.ofDigitChars 10 (c :: s) v = Nat.ofDigitChars 10 s (10 * v + (c.toNat - 48)) := Nat.ofDigitChars_cons

theorem value_lt {s : List Char} (h : Numeric s) : Nat.ofDigitChars 10 s 0 < 10 ^ s.length := by
  induction s with
  | nil => simp
  | cons c t ih =>
    have ih := ih (fun x hx => h x (List.mem_cons_of_mem _ hx))
    obtain ⟨h1, h2⟩ := digit_bounds (h c List.mem_cons_self)
    rw [value_cons, Nat.ofDigitChars_eq_ofDigitChars_zero, List.length_cons, pow_succ]
    have : 10 ^ t.length * (10 * 0 + (c.toNat - 48)) ≤ 10 ^ t.length * 9 := Nat.mul_le_mul_left _ (by omega)
    omega

theorem le_value (s : List Char) (v : ℕ) : v ≤ Nat.ofDigitChars 10 s v := by
  rw [Nat.ofDigitChars_eq_ofDigitChars_zero]
  exact le_trans (Nat.le_mul_of_pos_left v (Nat.pos_of_ne_zero (by positivity))) (Nat.le_add_right _ _)

/-- Numbers of the same length compare like their texts. -/
theorem value_lt_iff_lex : ∀ {s t : List Char} {v w : ℕ}, Numeric s → Numeric t → s.length = t.length →
    (Nat.ofDigitChars 10 s v < Nat.ofDigitChars 10 t w ↔ v < w ∨ (v = w ∧ s < t))
  | [], [], v, w, _, _, _ => by simp
  | c :: s, d :: t, v, w, hs, ht, hl => by
    obtain ⟨h1, h2⟩ := digit_bounds (hs c List.mem_cons_self)
    obtain ⟨h3, h4⟩ := digit_bounds (ht d List.mem_cons_self)
    rw [value_cons, value_cons, value_lt_iff_lex (fun x hx => hs x (List.mem_cons_of_mem _ hx))
      (fun x hx => ht x (List.mem_cons_of_mem _ hx)) (by simpa using hl), List.cons_lt_cons_iff]
    have e1 : c < d ↔ c.toNat < d.toNat := Iff.rfl
    have e2 : c = d ↔ c.toNat = d.toNat := ⟨fun h => by rw [h], fun h => Char.toNat_inj.1 h⟩
    rw [e1, e2]
    by_cases hst : s < t <;> simp only [hst, and_true, and_false, or_false] <;> omega

/-- A longer number without leading zero is the greater one. -/
theorem value_lt_of_length {s t : List Char} (hs : Numeric s) (ht : Numeric t) (hl : s.length < t.length)
    (hz : t.head? ≠ some '0') : Nat.ofDigitChars 10 s 0 < Nat.ofDigitChars 10 t 0 := by
  cases t with
  | nil => simp at hl
  | cons d t =>
    obtain ⟨h3, h4⟩ := digit_bounds (ht d List.mem_cons_self)
    have hd : d.toNat ≠ 48 := by
      intro h
      apply hz
      rw [List.head?_cons, show d = '0' from Char.toNat_inj.1 h]
    have h5 := value_lt hs
    rw [value_cons, Nat.ofDigitChars_eq_ofDigitChars_zero (l := t)]
    have h6 : 10 ^ s.length ≤ 10 ^ t.length := Nat.pow_le_pow_right (by decide) (by simpa using Nat.lt_succ_iff.1 hl)
    have h7 : 10 ^ t.length * 1 ≤ 10 ^ t.length * (10 * 0 + (d.toNat - 48)) := Nat.mul_le_mul_left _ (by omega)
    omega

/-- No leading zero. -/
def NoZero (s : List Char) : Prop := s = ['0'] ∨ s.head? ≠ some '0'

theorem value_lt_iff {s t : List Char} (hs : Numeric s) (ht : Numeric t) (zs : NoZero s) (zt : NoZero t)
    (hne : s = [] → t ≠ ['0']) (hne' : t = [] → s ≠ ['0']) :
    valueOf s < valueOf t ↔ s.length < t.length ∨ (s.length = t.length ∧ s < t) := by
  unfold valueOf
  have key : ∀ {s t : List Char}, Numeric s → Numeric t → NoZero t → (s = [] → t ≠ ['0']) → s.length < t.length →
      Nat.ofDigitChars 10 s 0 < Nat.ofDigitChars 10 t 0 := by
    intro s t hs ht zt hne hl
    rcases zt with rfl | zt
    · have : s = [] := by cases s <;> simp_all
      exact absurd rfl (hne this)
    · exact value_lt_of_length hs ht hl zt
  rcases lt_trichotomy s.length t.length with h | h | h
  · simp [h, key hs ht zt hne h]
  · rw [value_lt_iff_lex hs ht h]; simp [h]
  · have := key ht hs zs hne' h
    constructor
    · intro h'; omega
    · rintro (h' | h') <;> omega

theorem value_trim (s : List Char) : valueOf (trimZeros s) = valueOf s := by
  obtain ⟨k, hk⟩ := trimZeros_eq s
  unfold valueOf
  conv_rhs => rw [hk]
  rw [Nat.ofDigitChars_append, Nat.ofDigitChars_replicate_zero, Nat.mul_zero]

theorem head_trim (s : List Char) : (trimZeros s).head? ≠ some '0' := by
  induction s with
  | nil => simp [trimZeros]
  | cons c t ih =>
    rw [trimZeros]
    split
    · exact ih
    · simpa using ‹_›

theorem numeric_trim {s : List Char} (h : Numeric s) : Numeric (trimZeros s) := by
  obtain ⟨k, hk⟩ := trimZeros_eq s
  intro c hc
  exact h c (by rw [hk]; exact List.mem_append_right _ hc)

/-- Without leading zeros, numbers of the same value have the same text. -/
theorem trim_eq_iff {a b : List Char} (ha : Numeric a) (hb : Numeric b) :
    trimZeros a = trimZeros b ↔ valueOf a = valueOf b := by
  constructor
  · intro h; rw [← value_trim a, ← value_trim b, h]
  · intro h
    have h1 := value_lt_iff (numeric_trim ha) (numeric_trim hb) (.inr (head_trim a)) (.inr (head_trim b))
      (fun _ e => head_trim b (by rw [e]; rfl)) (fun _ e => head_trim a (by rw [e]; rfl))
    have h2 := value_lt_iff (numeric_trim hb) (numeric_trim ha) (.inr (head_trim b)) (.inr (head_trim a))
      (fun _ e => head_trim a (by rw [e]; rfl)) (fun _ e => head_trim b (by rw [e]; rfl))
    rw [value_trim, value_trim, h] at h1 h2
    simp only [lt_irrefl, false_iff, not_or, not_and] at h1 h2
    have hl : (trimZeros a).length = (trimZeros b).length := by omega
    exact le_antisymm (not_lt.1 (h2.2 hl.symm)) (not_lt.1 (h1.2 hl))

/-! ## The order in the words of semantic versioning -/

theorem all_false {s : List Char} : s.all Char.isDigit = false ↔ ¬ Numeric s := by
  rw [← numeric_iff, Bool.not_eq_true]

theorem keyPre_lt {a b : List Char} (ha : a ≠ []) (hb : b ≠ []) (za : Numeric a → NoZero a) (zb : Numeric b → NoZero b) :
    keyPre a < keyPre b ↔ IdBefore a b := by
  unfold keyPre IdBefore
  rw [Prod.Lex.toLex_lt_toLex]
  by_cases na : Numeric a <;> by_cases nb : Numeric b
  · have := value_lt_iff na nb (za na) (zb nb) (fun h => absurd h ha) (fun h => absurd h hb)
    simp [numeric_iff.2 na, numeric_iff.2 nb, na, nb, Prod.Lex.toLex_lt_toLex, this]
  · simp [numeric_iff.2 na, all_false.2 nb, na, nb]
  · simp [numeric_iff.2 nb, all_false.2 na, na, nb]
  · simp [all_false.2 na, all_false.2 nb, na, nb, Prod.Lex.toLex_lt_toLex]

theorem keyBuild_lt (a b : List Char) : keyBuild a < keyBuild b ↔ BuildIdBefore a b := by
  unfold keyBuild BuildIdBefore IdBefore
  by_cases na : Numeric a <;> by_cases nb : Numeric b
  · have h1 := value_lt_iff (numeric_trim na) (numeric_trim nb) (.inr (head_trim a)) (.inr (head_trim b))
      (fun _ e => head_trim b (by rw [e]; rfl)) (fun _ e => head_trim a (by rw [e]; rfl))
    rw [value_trim, value_trim] at h1
    have h2 := trim_eq_iff na nb
    have h3 : trimZeros a = trimZeros b → (trimZeros a).length = (trimZeros b).length := fun h => by rw [h]
    simp only [numeric_iff.2 na, numeric_iff.2 nb, na, nb, h1, ← h2, if_true, Prod.Lex.toLex_lt_toLex]
    simp
    tauto
  · simp [numeric_iff.2 na, all_false.2 nb, na, nb, Prod.Lex.toLex_lt_toLex]
  · simp [numeric_iff.2 nb, all_false.2 na, na, nb, Prod.Lex.toLex_lt_toLex]
  · simp [all_false.2 na, all_false.2 nb, na, nb, Prod.Lex.toLex_lt_toLex]

theorem map_lt {K : Type} [LinearOrder K] {key : List Char → K} {R : List Char → List Char → Prop}
    (hinj : ∀ a b, key a = key b → a = b) : ∀ {a b : List (List Char)},
    (∀ x ∈ a, ∀ y ∈ b, (key x < key y ↔ R x y)) → (a.map key < b.map key ↔ List.Lex R a b)
  | [], [], _ => by simp
  | [], _ :: _, _ => by simp
  | _ :: _, [], _ => by simp
  | a :: s, b :: t, h => by
    rw [List.map_cons, List.map_cons, List.cons_lt_cons_iff, h a List.mem_cons_self b List.mem_cons_self,
      map_lt hinj (fun x hx y hy => h x (List.mem_cons_of_mem _ hx) y (List.mem_cons_of_mem _ hy))]
    constructor
    · rintro (h1 | ⟨h1, h2⟩)
      · exact .rel h1
      · rw [hinj _ _ h1]; exact .cons h2
    · intro h1
      cases h1 with
      | rel h => exact .inl h
      | cons h => exact .inr ⟨rfl, h⟩

theorem keyPres_lt {a b : List (List Char)} (ha : ∀ s ∈ a, s ≠ [] ∧ (Numeric s → NoZero s))
    (hb : ∀ s ∈ b, s ≠ [] ∧ (Numeric s → NoZero s)) : keyPres a < keyPres b ↔ PreBefore a b := by
  unfold keyPres PreBefore
  by_cases h1 : a = [] <;> by_cases h2 : b = []
  · simp [h1, h2]
  · simp [h1, h2]
  · simp [h1, h2]
  · simp only [h1, h2, if_false, WithTop.coe_lt_coe]
    rw [map_lt (fun _ _ => keyPre_inj) (fun x hx y hy => keyPre_lt (ha x hx).1 (hb y hy).1 (ha x hx).2 (hb y hy).2)]
    simp [h1, h2]

/-- The order of the crate is precedence, and among versions of the same precedence that of their builds. -/
theorem lt_iff {v w : Version} (hv : ValidVersion v) (hw : ValidVersion w) :
    v < w ↔ Precedes v w ∨ (SamePrecedence v w ∧ List.Lex BuildIdBefore v.build w.build) := by
  rw [lt_iff_key, key, key]
  simp only [Prod.Lex.toLex_lt_toLex]
  rw [keyPres_lt (fun s hs => ⟨(hv.2.2.2.1 s hs).1.1, (hv.2.2.2.1 s hs).2⟩)
    (fun s hs => ⟨(hw.2.2.2.1 s hs).1.1, (hw.2.2.2.1 s hs).2⟩), map_lt (fun _ _ => keyBuild_inj)
    (fun x _ y _ => keyBuild_lt x y)]
  have : keyPres v.pre = keyPres w.pre ↔ v.pre = w.pre := ⟨keyPres_inj, fun h => by rw [h]⟩
  rw [this]
  unfold Precedes SamePrecedence
  tauto

/-! ## Reading -/

/-- Does not begin with a digit. -/
def Stops (r : List Char) : Prop := ∀ c ∈ r.head?, c.isDigit = false

theorem number_digits {r : List Char} (hr : Stops r) : ∀ {ds : List Char} {v : ℕ}, Numeric ds → v ≠ 0 →
    Nat.ofDigitChars 10 ds v < 2 ^ 64 → number v true (ds ++ r) = some (Nat.ofDigitChars 10 ds v, r)
  | [], v, _, _, _ => by
    cases r with
    | nil => rfl
    | cons c t =>
      have := hr c rfl
      simp [number, this]
  | c :: ds, v, hd, h0, hlt => by
    have hc := hd c List.mem_cons_self
    rw [value_cons] at hlt ⊢
    have hle := le_value ds (10 * v + (c.toNat - 48))
    rw [List.cons_append, number, if_pos hc, if_neg (by simp [h0]), if_pos (by omega),
      Nat.mul_comm v 10]
    exact number_digits hr (fun x hx => hd x (List.mem_cons_of_mem _ hx)) (by omega) hlt

theorem toDigits_head {n : ℕ} (hn : n ≠ 0) : ∃ c ds, Nat.toDigits 10 n = c :: ds ∧ c.isDigit = true ∧
    c.toNat ≠ 48 ∧ Numeric ds := by
  have hd : ∀ m, m < 10 → m ≠ 0 → (Nat.digitChar m).toNat ≠ 48 := by decide
  have main : ∀ m, ∀ n, n ≤ m → n ≠ 0 → ∃ c ds, Nat.toDigits 10 n = c :: ds ∧ c.toNat ≠ 48 := by
    intro m
    induction m with
    | zero => intro n h h'; omega
    | succ m ih =>
      intro n h h'
      by_cases hlt : n < 10
      · exact ⟨_, [], Nat.toDigits_of_lt_base hlt, hd n hlt h'⟩
      · obtain ⟨c, ds, h1, h2⟩ := ih (n / 10) (by omega) (by omega)
        exact ⟨c, _, by rw [Nat.toDigits_of_base_le (by decide) (by omega), h1, List.cons_append], h2⟩
  obtain ⟨c, ds, h1, h2⟩ := main n n le_rfl hn
  have h3 := numeric_toDigits n
  rw [h1] at h3
  exact ⟨c, ds, h1, h3 c List.mem_cons_self, h2, fun x hx => h3 x (List.mem_cons_of_mem _ hx)⟩

theorem number_repr {n : ℕ} {r : List Char} (hn : n < 2 ^ 64) (hr : Stops r) :
    number 0 false (n.repr.toList ++ r) = some (n, r) := by
  rw [Nat.toList_repr]
  by_cases h0 : n = 0
  · subst h0
    rw [Nat.toDigits_zero]
    cases r with
    | nil => rfl
    | cons c t =>
      have := hr c rfl
      simp [number, this]
  · obtain ⟨c, ds, h1, h2, h3, h4⟩ := toDigits_head h0
    have h5 : Nat.ofDigitChars 10 (c :: ds) 0 = n := by rw [← h1, Nat.ofDigitChars_ten_toDigits]
    rw [value_cons] at h5
    have hle := le_value ds (10 * 0 + (c.toNat - 48))
    have := digit_bounds h2
    rw [h1, List.cons_append, number, if_pos h2, if_neg (by simp), if_pos (by omega),
      show 0 * 10 + (c.toNat - 48) = 10 * 0 + (c.toNat - 48) by omega,
      number_digits hr h4 (by omega) (by omega), h5]

theorem toDigits_snoc {v : ℕ} (hv : v ≠ 0) {c : Char} (hc : c.isDigit = true) :
    Nat.toDigits 10 (v * 10 + (c.toNat - 48)) = Nat.toDigits 10 v ++ [c] := by
  have := digit_bounds hc
  rw [Nat.mul_comm, ← Nat.toDigits_append_toDigits (by decide) (Nat.pos_of_ne_zero hv) (by omega),
    Nat.toDigits_of_lt_base (b := 10) (n := c.toNat - 48) (by omega), digitChar_sub hc]

theorem number_sound : ∀ {l : List Char} {v n : ℕ} {r : List Char}, v ≠ 0 → v < 2 ^ 64 → number v true l = some (n, r) →
    n < 2 ^ 64 ∧ Nat.toDigits 10 v ++ l = Nat.toDigits 10 n ++ r
  | [], v, n, r, _, hv, h => by
    simp [number] at h
    obtain ⟨rfl, rfl⟩ := h
    exact ⟨hv, rfl⟩
  | c :: t, v, n, r, h0, hv, h => by
    rw [number] at h
    split at h
    · rename_i hc
      rw [if_neg (by simp [h0])] at h
      split at h
      · obtain ⟨h1, h2⟩ := number_sound (by omega) ‹_› h
        refine ⟨h1, ?_⟩
        rw [← h2, toDigits_snoc h0 hc]
        simp
      · cases h
    · simp at h
      obtain ⟨rfl, rfl⟩ := h
      exact ⟨hv, rfl⟩

theorem number_ok {l r : List Char} {n : ℕ} (h : number 0 false l = some (n, r)) :
    n < 2 ^ 64 ∧ l = n.repr.toList ++ r := by
  rw [Nat.toList_repr]
  cases l with
  | nil => simp [number] at h
  | cons c t =>
    rw [number] at h
    split at h
    · rename_i hc
      have hb := digit_bounds hc
      rw [if_neg (by simp), if_pos (by omega), Nat.zero_mul, Nat.zero_add] at h
      by_cases hz : c.toNat = 48
      · have hz' : c = '0' := Char.toNat_inj.1 hz
        subst hz'
        have h' : number 0 true t = some (n, r) := h
        cases t with
        | nil =>
          simp [number] at h'
          obtain ⟨rfl, rfl⟩ := h'
          simp
        | cons d t =>
          rw [number] at h'
          split at h'
          · simp at h'
          · simp at h'
            obtain ⟨rfl, rfl⟩ := h'
            simp
      · obtain ⟨h1, h2⟩ := number_sound (by omega) (by omega) h
        refine ⟨h1, ?_⟩
        rw [← h2, Nat.toDigits_of_lt_base (b := 10) (by omega), digitChar_sub hc]
        simp
    · simp at h

theorem identChar_iff {c : Char} : identChar c = true ↔
    (('A' ≤ c ∧ c ≤ 'Z') ∨ ('a' ≤ c ∧ c ≤ 'z') ∨ ('0' ≤ c ∧ c ≤ '9') ∨ c = '-') := by
  have e : ∀ a b : Char, a ≤ b ↔ a.toNat ≤ b.toNat := fun _ _ => Iff.rfl
  have e2 : c.isDigit = true ↔ 48 ≤ c.toNat ∧ c.toNat ≤ 57 := by
    simp only [Char.isDigit, Bool.and_eq_true, decide_eq_true_eq]
    exact Iff.rfl
  simp only [identChar, Bool.or_eq_true, Bool.and_eq_true, decide_eq_true_eq, beq_iff_eq, e, e2]
  have h1 : 'A'.toNat = 65 := rfl
  have h2 : 'Z'.toNat = 90 := rfl
  have h3 : 'a'.toNat = 97 := rfl
  have h4 : 'z'.toNat = 122 := rfl
  have h5 : '0'.toNat = 48 := rfl
  have h6 : '9'.toNat = 57 := rfl
  rw [h1, h2, h3, h4, h5, h6]
  tauto

theorem ident_iff {s : List Char} : Ident s ↔ s ≠ [] ∧ ∀ c ∈ s, identChar c = true := by
  unfold Ident
  simp only [identChar_iff]

theorem leadingZero_iff {s : List Char} : leadingZero s = false ↔ (Numeric s → NoZero s) := by
  unfold leadingZero NoZero
  rw [← numeric_iff]
  cases s.all Char.isDigit with
  | false => simp
  | true =>
    cases s with
    | nil => simp
    | cons c t => cases t <;> simp [em]

/-- Segments that may follow one another. -/
def GoodSegs (isPre : Bool) (ids : List (List Char)) : Prop :=
  ∀ s ∈ ids, Ident s ∧ (isPre = true → Numeric s → NoZero s)

/-- The text of segments with a dot after each. -/
def dotted (ids : List (List Char)) : List Char := ids.flatMap (· ++ ['.'])

theorem intercalate_snoc (ids : List (List Char)) (s : List Char) :
    ['.'].intercalate (ids ++ [s]) = dotted ids ++ s := by
  induction ids with
  | nil => simp [dotted, List.intercalate]
  | cons a t ih =>
    cases t with
    | nil => simp [dotted, List.intercalate, List.intersperse]
    | cons b t =>
      have : ['.'].intercalate ((a :: b :: t) ++ [s]) = a ++ '.' :: ['.'].intercalate ((b :: t) ++ [s]) := by
        simp [List.intercalate, List.intersperse]
      rw [this, ih]
      simp [dotted]

theorem identifier_sound {isPre : Bool} : ∀ {l acc seg ids r}, GoodSegs isPre acc →
    (∀ c ∈ seg, identChar c = true) → identifier isPre acc seg l = some (ids, r) →
    (ids = [] ∧ acc = [] ∧ seg = [] ∧ r = l) ∨
    (ids ≠ [] ∧ GoodSegs isPre ids ∧ dotted acc ++ seg ++ l = ['.'].intercalate ids ++ r) := by
  intro l
  induction l with
  | nil =>
    intro acc seg ids r ha hs h
    rw [identifier] at h
    split at h
    · split at h
      · simp at h
        left
        simp [*]
      · cases h
    · split at h
      · cases h
      · rename_i h1 h2
        simp at h
        obtain ⟨rfl, rfl⟩ := h
        right
        refine ⟨by simp, ?_, by rw [intercalate_snoc]⟩
        intro s hm
        rcases List.mem_append.1 hm with hm | hm
        · exact ha s hm
        · simp at hm
          subst hm
          refine ⟨ident_iff.2 ⟨h1, hs⟩, fun hp => ?_⟩
          rw [← leadingZero_iff]
          simpa [hp] using h2
  | cons c t ih =>
    intro acc seg ids r ha hs h
    rw [identifier] at h
    split at h
    · rename_i hc
      rcases ih ha (by
        intro x hx
        rcases List.mem_append.1 hx with hx | hx
        · exact hs x hx
        · simp at hx; rw [hx]; exact hc) h with ⟨_, _, h3, _⟩ | h1
      · simp at h3
      · right
        refine ⟨h1.1, h1.2.1, ?_⟩
        rw [← h1.2.2]; simp
    · split at h
      · split at h
        · simp at h
          left
          simp [*]
        · cases h
      · split at h
        · cases h
        · rename_i h1 h2
          have hg : GoodSegs isPre (acc ++ [seg]) := by
            intro s hm
            rcases List.mem_append.1 hm with hm | hm
            · exact ha s hm
            · simp at hm
              subst hm
              refine ⟨ident_iff.2 ⟨h1, hs⟩, fun hp => ?_⟩
              rw [← leadingZero_iff]
              simpa [hp] using h2
          split at h
          · rename_i hdot
            subst hdot
            rcases ih hg (by simp) h with ⟨_, h3, _⟩ | h3
            · simp at h3
            · right
              refine ⟨h3.1, h3.2.1, ?_⟩
              rw [← h3.2.2]
              simp [dotted]
          · simp at h
            obtain ⟨rfl, rfl⟩ := h
            right
            exact ⟨by simp, hg, by rw [intercalate_snoc]⟩

/-- Neither continues an identifier nor begins another. -/
def Ends (r : List Char) : Prop := ∀ c ∈ r.head?, identChar c = false ∧ c ≠ '.'

theorem identifier_chars {isPre : Bool} {acc : List (List Char)} {r : List Char} : ∀ {s seg : List Char},
    (∀ c ∈ s, identChar c = true) → identifier isPre acc seg (s ++ r) = identifier isPre acc (seg ++ s) r
  | [], seg, _ => by simp
  | c :: s, seg, h => by
    rw [List.cons_append, identifier, if_pos (h c List.mem_cons_self),
      identifier_chars (fun x hx => h x (List.mem_cons_of_mem _ hx))]
    simp

theorem identifier_complete {isPre : Bool} {r : List Char} (hr : Ends r) : ∀ {ids acc : List (List Char)}, ids ≠ [] →
    GoodSegs isPre ids → identifier isPre acc [] (['.'].intercalate ids ++ r) = some (acc ++ ids, r)
  | [], _, h, _ => absurd rfl h
  | [s], acc, _, hg => by
    obtain ⟨h1, h2⟩ := hg s (by simp)
    have hz : (isPre && leadingZero s) = false := by
      cases isPre with
      | false => rfl
      | true => simpa using leadingZero_iff.2 (h2 rfl)
    have : ['.'].intercalate [s] = s := by simp [List.intercalate]
    rw [this, identifier_chars (ident_iff.1 h1).2, List.nil_append]
    cases r with
    | nil => rw [identifier, if_neg h1.1, hz]; simp
    | cons c t =>
      have hc := hr c rfl
      rw [identifier, if_neg (by simp [hc.1]), if_neg h1.1, hz, if_neg (by simp), if_neg hc.2]
  | s :: u :: t, acc, _, hg => by
    obtain ⟨h1, h2⟩ := hg s (by simp)
    have hz : (isPre && leadingZero s) = false := by
      cases isPre with
      | false => rfl
      | true => simpa using leadingZero_iff.2 (h2 rfl)
    have : ['.'].intercalate (s :: u :: t) ++ r = s ++ '.' :: (['.'].intercalate (u :: t) ++ r) := by
      simp [List.intercalate, List.intersperse]
    rw [this, identifier_chars (ident_iff.1 h1).2, List.nil_append, identifier,
      if_neg (by decide), if_neg h1.1, hz, if_neg (by simp), if_pos rfl,
      identifier_complete hr (by simp) (fun x hx => hg x (List.mem_cons_of_mem _ hx))]
    simp

/-- A section with its mark, nothing if it is empty. -/
def sectionText (mark : Char) (ids : List (List Char)) : List Char :=
  if ids = [] then [] else mark :: ['.'].intercalate ids

theorem section_sound {mark : Char} {isPre : Bool} {l r : List Char} {ids : List (List Char)}
    (h : section_ mark isPre l = some (ids, r)) : GoodSegs isPre ids ∧ l = sectionText mark ids ++ r := by
  unfold section_ at h
  unfold sectionText
  split at h
  · simp at h
    obtain ⟨rfl, rfl⟩ := h
    simp [GoodSegs]
  · split at h
    · rename_i hc
      split at h
      · cases h
      · rename_i hx
        rcases identifier_sound (by simp [GoodSegs]) (by simp) h with ⟨rfl, _⟩ | ⟨h1, h2, h3⟩
        · exact absurd h (by simpa using hx _)
        · refine ⟨h2, ?_⟩
          rw [if_neg h1, List.cons_append, ← h3, hc]
          simp [dotted]
    · simp at h
      obtain ⟨rfl, rfl⟩ := h
      simp [GoodSegs]

theorem section_complete {mark : Char} {isPre : Bool} {r : List Char} {ids : List (List Char)} (hr : Ends r)
    (hm : ∀ c ∈ r.head?, c ≠ mark) (hg : GoodSegs isPre ids) :
    section_ mark isPre (sectionText mark ids ++ r) = some (ids, r) := by
  unfold sectionText
  split
  · subst ids
    cases r with
    | nil => rfl
    | cons c t => simp [section_, hm c rfl]
  · rename_i hne
    rw [List.cons_append, section_, if_pos rfl, identifier_complete hr hne hg]
    cases ids with
    | nil => exact absurd rfl hne
    | cons a t => rfl

theorem dot_ok {l t : List Char} (h : dot l = some t) : l = '.' :: t := by
  unfold dot at h
  split at h
  · cases h; rfl
  · cases h

theorem versionText_eq (v : Version) : (versionText v).toList =
    v.major.repr.toList ++ '.' :: (v.minor.repr.toList ++ '.' :: (v.patch.repr.toList ++
      (sectionText '-' v.pre ++ (sectionText '+' v.build ++ [])))) := by
  simp [versionText, sectionText]

theorem goodSegs_pre {ids : List (List Char)} : GoodSegs true ids ↔
    ∀ s ∈ ids, Ident s ∧ (Numeric s → s = ['0'] ∨ s.head? ≠ some '0') := by
  simp [GoodSegs, NoZero]

theorem goodSegs_build {ids : List (List Char)} : GoodSegs false ids ↔ ∀ s ∈ ids, Ident s := by
  simp [GoodSegs]

/-- The parser reads exactly the texts of valid versions. -/
theorem parse_iff {s : String} {v : Version} : parse s = some v ↔ ValidVersion v ∧ s = versionText v := by
  constructor
  · intro h
    unfold parse at h
    simp only [Option.bind_eq_bind, Option.bind_eq_some_iff, Prod.exists] at h
    obtain ⟨a, t1, h1, t2, h2, b, t3, h3, t4, h4, c, t5, h5, pre, t6, h6, build, t7, h7, h8⟩ := h
    split at h8
    · rename_i ht
      subst ht
      simp only [Option.pure_def, Option.some.injEq] at h8
      subst h8
      obtain ⟨n1, e1⟩ := number_ok h1
      obtain ⟨n2, e2⟩ := number_ok h3
      obtain ⟨n3, e3⟩ := number_ok h5
      obtain ⟨g1, e4⟩ := section_sound h6
      obtain ⟨g2, e5⟩ := section_sound h7
      refine ⟨⟨n1, n2, n3, goodSegs_pre.1 g1, goodSegs_build.1 g2⟩, ?_⟩
      apply String.toList_inj.1
      rw [versionText_eq, e1, dot_ok h2, e2, dot_ok h4, e3, e4, e5]
    · cases h8
  · rintro ⟨⟨n1, n2, n3, g1, g2⟩, rfl⟩
    have hdot : ∀ t, Stops ('.' :: t) := by
      intro t c hc
      cases hc
      decide
    have hend : Ends [] := by intro c hc; cases hc
    have hb : ∀ c ∈ (sectionText '+' v.build ++ []).head?, c = '+' := by
      intro c hc
      unfold sectionText at hc
      split at hc
      · cases hc
      · cases hc; rfl
    have hp : Stops (sectionText '-' v.pre ++ (sectionText '+' v.build ++ [])) := by
      intro c hc
      by_cases he : v.pre = []
      · rw [sectionText, if_pos he, List.nil_append] at hc
        rw [hb c hc]; decide
      · rw [sectionText, if_neg he] at hc
        cases hc
        decide
    unfold parse
    rw [versionText_eq, number_repr n1 (hdot _)]
    simp only [Option.bind_eq_bind, Option.bind_some, dot]
    rw [number_repr n2 (hdot _)]
    simp only [Option.bind_some]
    rw [number_repr n3 hp]
    simp only [Option.bind_some]
    rw [section_complete (fun c hc => by rw [hb c hc]; decide) (fun c hc => by rw [hb c hc]; decide)
      (goodSegs_pre.2 g1)]
    simp only [Option.bind_some]
    rw [section_complete hend (by simp) (goodSegs_build.2 g2)]
    rfl

end Hpl.Semver
