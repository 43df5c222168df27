import Verif.Model.Json
import Verif.Lemmas.Proto

/-! # Reading what was written -/

namespace Hpl.Json

theorem hexValue_hexDigit : ∀ n, n < 16 → hexValue (hexDigit n) = some n := by decide

theorem char_ofNat_toNat (c : Char) : Char.ofNat c.toNat = c := Char.ofNat_toNat c

/-- Reading an escaped character. -/
theorem string_escape (c : Char) (t : List Char) : string (escape c ++ t) = (string t).map (push c) := by
  unfold escape
  have special : ∀ (n : Nat) (e : Char), c.toNat = n → e ≠ 'u' → unescape e = some (Char.ofNat n) →
      string (['\\', e] ++ t) = (string t).map (push c) := by
    intro n e h3 h4 h5
    have hc : Char.ofNat n = c := by rw [← h3]; exact char_ofNat_toNat c
    simp only [List.cons_append, List.nil_append]
    rw [string.eq_def]
    simp only [if_neg h4, h5, hc]
    cases string t <;> rfl
  by_cases h1 : c = '"'
  · rw [if_pos h1]; exact special 34 '"' (by rw [h1]; decide) (by decide) (by decide)
  rw [if_neg h1]
  by_cases h2 : c = '\\'
  · rw [if_pos h2]; exact special 92 '\\' (by rw [h2]; decide) (by decide) (by decide)
  rw [if_neg h2]
  by_cases h3 : c.toNat = 8
  · rw [if_pos h3]; exact special 8 'b' h3 (by decide) (by decide)
  rw [if_neg h3]
  by_cases h3 : c.toNat = 9
  · rw [if_pos h3]; exact special 9 't' h3 (by decide) (by decide)
  rw [if_neg h3]
  by_cases h3 : c.toNat = 10
  · rw [if_pos h3]; exact special 10 'n' h3 (by decide) (by decide)
  rw [if_neg h3]
  by_cases h3 : c.toNat = 12
  · rw [if_pos h3]; exact special 12 'f' h3 (by decide) (by decide)
  rw [if_neg h3]
  by_cases h3 : c.toNat = 13
  · rw [if_pos h3]; exact special 13 'r' h3 (by decide) (by decide)
  rw [if_neg h3]
  by_cases h4 : c.toNat < 32
  · rw [if_pos h4]
    have hu : unicode '0' '0' (hexDigit (c.toNat / 16)) (hexDigit (c.toNat % 16)) = some c := by
      unfold unicode
      rw [hexValue_hexDigit _ (by omega), hexValue_hexDigit _ (by omega)]
      have h0 : hexValue '0' = some 0 := by decide
      rw [h0]
      simp only [Option.bind_eq_bind, Option.bind_some]
      have : ((0 * 16 + 0) * 16 + c.toNat / 16) * 16 + c.toNat % 16 = c.toNat := by omega
      rw [this, if_neg (by omega), char_ofNat_toNat]
    simp only [List.cons_append, List.nil_append]
    rw [string.eq_def]
    simp only [hu]
    cases string t <;> rfl
  · rw [if_neg h4]
    simp only [List.cons_append, List.nil_append]
    rw [string.eq_def]
    simp only [if_neg h1, if_neg h2, if_neg h4]
    cases string t <;> rfl

/-- Reading a string that was written. -/
theorem string_close (s rest : List Char) : string (closeString s ++ rest) = some (s, rest) := by
  unfold closeString
  induction s with
  | nil => simp only [List.flatMap_nil, List.nil_append, List.cons_append]; rw [string.eq_def]; simp
  | cons c t ih =>
    rw [List.flatMap_cons, List.append_assoc, List.append_assoc, string_escape, ← List.append_assoc, ih]
    rfl

theorem word_append (w r : List Char) : word w (w ++ r) = some r := by simp [word]

theorem ws_cons {c : Char} (h : isWs c = false) (r : List Char) : ws (c :: r) = c :: r := by
  simp [ws, h]

theorem key_close (k : String) (rest : List Char) : key (closeString k.toList ++ ':' :: rest) = some (k, rest) := by
  unfold key
  rw [string_close]
  simp only [Option.bind_eq_bind, Option.bind_some]
  rw [ws_cons (by decide)]
  have := word_append [':'] rest
  simp only [List.cons_append, List.nil_append] at this
  rw [this]
  simp

/-- The rest does not continue a number. -/
def NoDigit (r : List Char) : Prop := ∀ c t, r = c :: t → c.isDigit = false

theorem noDigit_cons {c : Char} (h : c.isDigit = false) (t : List Char) : NoDigit (c :: t) := by
  rintro _ _ ⟨⟩; exact h

theorem digits_takeWhile (n : Nat) (r : List Char) (hr : NoDigit r) :
    (n.repr.toList ++ r).takeWhile Char.isDigit = n.repr.toList ∧ (n.repr.toList ++ r).dropWhile Char.isDigit = r := by
  have h := (Proto.decimal_repr n).2.1
  have hd : ∀ l : List Char, (∀ c ∈ l, c.isDigit = true) →
      (l ++ r).takeWhile Char.isDigit = l ∧ (l ++ r).dropWhile Char.isDigit = r := by
    intro l
    induction l with
    | nil =>
      intro _
      cases r with
      | nil => simp
      | cons c t => simp [hr c t rfl]
    | cons a l ih =>
      intro h
      have := ih (fun c hc => h c (List.mem_cons_of_mem _ hc))
      simp [h a List.mem_cons_self, this.1, this.2]
  exact hd _ h

/-- The first character of a text is not white space and not a closing bracket. -/
theorem print_head (j : Json) : ∃ c t, print j = c :: t ∧ isWs c = false ∧ c ≠ ']' := by
  match j with
  | .null => exact ⟨_, _, by rw [print], by decide, by decide⟩
  | .bool true => exact ⟨_, _, by rw [print], by decide, by decide⟩
  | .bool false => exact ⟨_, _, by rw [print], by decide, by decide⟩
  | .num n =>
    have h := Proto.decimal_repr n
    rw [print]
    cases hc : n.repr.toList with
    | nil => exact absurd hc h.1
    | cons c t =>
      have hd := h.2.1 c (by rw [hc]; exact List.mem_cons_self)
      refine ⟨c, t, rfl, ?_, ?_⟩
      · cases hw : isWs c with
        | false => rfl
        | true =>
          simp only [isWs, Bool.or_eq_true, decide_eq_true_eq] at hw
          rcases hw with ((rfl | rfl) | rfl) | rfl <;> revert hd <;> decide
      · rintro rfl; revert hd; decide
  | .str s => exact ⟨_, _, by rw [print], by decide, by decide⟩
  | .arr [] => exact ⟨_, _, by rw [print], by decide, by decide⟩
  | .arr (_ :: _) => exact ⟨_, _, by rw [print], by decide, by decide⟩
  | .obj [] => exact ⟨_, _, by rw [print], by decide, by decide⟩
  | .obj ((_, _) :: _) => exact ⟨_, _, by rw [print], by decide, by decide⟩

theorem noDigit_items (l : List Json) (r : List Char) : NoDigit (printItems l ++ r) := by
  cases l with
  | nil => rw [printItems]; exact noDigit_cons (by decide) _
  | cons j t => rw [printItems]; exact noDigit_cons (by decide) _

theorem noDigit_members (l : List (String × Json)) (r : List Char) : NoDigit (printMembers l ++ r) := by
  cases l with
  | nil => rw [printMembers]; exact noDigit_cons (by decide) _
  | cons p t => obtain ⟨k, j⟩ := p; rw [printMembers]; exact noDigit_cons (by decide) _

mutual
theorem value_print (j : Json) (n : Nat) (r : List Char) (hn : (print j).length ≤ n) (hr : NoDigit r) :
    value n (print j ++ r) = some (j, r) := by
  match n, j with
  | 0, j =>
    obtain ⟨c, t, h, _⟩ := print_head j
    rw [h] at hn
    cases hn
  | n + 1, .null =>
    rw [print, value]; simp [ws_cons, isWs, word]
  | n + 1, .bool true =>
    rw [print, value]; simp [ws_cons, isWs, word]
  | n + 1, .bool false =>
    rw [print, value]; simp [ws_cons, isWs, word]
  | n + 1, .num k =>
    obtain ⟨h1, h2⟩ := digits_takeWhile k r hr
    have h := Proto.decimal_repr k
    have hval : Nat.ofDigitChars 10 k.repr.toList 0 = k := by
      rw [Nat.toList_repr]; exact Nat.ofDigitChars_ten_toDigits
    obtain ⟨c, t, hp, hw, _⟩ := print_head (.num k)
    rw [print] at hp
    rw [print, value]
    rw [hp] at h1 h2 ⊢
    have hd := h.2.1 c (by rw [hp]; exact List.mem_cons_self)
    have ne : ∀ d : Char, d.isDigit = false → c ≠ d := by
      intro d hd' hcd; rw [hcd, hd'] at hd; cases hd
    rw [List.cons_append, ws_cons hw]
    simp only
    rw [if_neg (ne 'n' (by decide)), if_neg (ne 't' (by decide)), if_neg (ne 'f' (by decide)),
      if_neg (ne '"' (by decide)), if_neg (ne '[' (by decide)), if_neg (ne '{' (by decide)), if_pos hd]
    rw [List.cons_append] at h1 h2
    rw [h1, h2, ← hp, hval]
  | n + 1, .str s =>
    rw [print, value, List.cons_append, ws_cons (by decide)]
    simp only
    rw [if_neg (by decide), if_neg (by decide), if_neg (by decide), if_pos trivial, string_close]
    simp
  | n + 1, .arr [] =>
    rw [print, value]; simp [ws_cons, isWs]
  | n + 1, .arr (j :: t) =>
    obtain ⟨c, u, hp, hw, hc⟩ := print_head j
    rw [print] at hn ⊢
    simp only [List.length_cons, List.length_append] at hn
    have h1 := value_print j n (printItems t ++ r) (by omega) (noDigit_items t r)
    have h2 := items_print t n r (by omega)
    rw [value, List.cons_append, ws_cons (by decide)]
    simp only
    rw [if_neg (by decide), if_neg (by decide), if_neg (by decide), if_neg (by decide), if_pos trivial,
      List.append_assoc]
    have hws : ws (print j ++ (printItems t ++ r)) = c :: (u ++ (printItems t ++ r)) := by
      rw [hp, List.cons_append, ws_cons hw]
    rw [hws]
    simp only
    rw [if_neg hc, h1]
    simp only [Option.bind_eq_bind, Option.bind_some]
    rw [h2]
    rfl
  | n + 1, .obj [] =>
    rw [print, value]; simp [ws_cons, isWs]
  | n + 1, .obj ((k, j) :: t) =>
    rw [print] at hn ⊢
    simp only [List.length_cons, List.length_append] at hn
    have h1 := value_print j n (printMembers t ++ r) (by omega) (noDigit_members t r)
    have h2 := members_print t n r (by omega)
    rw [value, List.cons_append, ws_cons (by decide)]
    simp only
    rw [if_neg (by decide), if_neg (by decide), if_neg (by decide), if_neg (by decide), if_neg (by decide),
      if_pos trivial, List.cons_append, ws_cons (by decide)]
    simp only
    rw [if_neg (by decide), if_pos trivial]
    have hk : closeString k.toList ++ ':' :: (print j ++ printMembers t) ++ r =
        closeString k.toList ++ ':' :: (print j ++ (printMembers t ++ r)) := by simp
    rw [hk, key_close]
    simp only [Option.bind_eq_bind, Option.bind_some]
    rw [h1]
    simp only [Option.bind_some]
    rw [h2]
    rfl

theorem items_print (l : List Json) (n : Nat) (r : List Char) (hn : (printItems l).length ≤ n) :
    items n (printItems l ++ r) = some (l, r) := by
  match n, l with
  | 0, [] => rw [printItems] at hn; cases hn
  | 0, _ :: _ => rw [printItems] at hn; cases hn
  | n + 1, [] => rw [printItems, items]; simp [ws_cons, isWs]
  | n + 1, j :: t =>
    rw [printItems] at hn ⊢
    simp only [List.length_cons, List.length_append] at hn
    have h1 := value_print j n (printItems t ++ r) (by omega) (noDigit_items t r)
    have h2 := items_print t n r (by omega)
    rw [items, List.cons_append, ws_cons (by decide)]
    simp only
    rw [if_neg (by decide), if_pos trivial, List.append_assoc, h1]
    simp only [Option.bind_eq_bind, Option.bind_some]
    rw [h2]
    rfl

theorem members_print (l : List (String × Json)) (n : Nat) (r : List Char) (hn : (printMembers l).length ≤ n) :
    members n (printMembers l ++ r) = some (l, r) := by
  match n, l with
  | 0, [] => rw [printMembers] at hn; cases hn
  | 0, (_, _) :: _ => rw [printMembers] at hn; cases hn
  | n + 1, [] => rw [printMembers, members]; simp [ws_cons, isWs]
  | n + 1, (k, j) :: t =>
    rw [printMembers] at hn ⊢
    simp only [List.length_cons, List.length_append] at hn
    have h1 := value_print j n (printMembers t ++ r) (by omega) (noDigit_members t r)
    have h2 := members_print t n r (by omega)
    rw [members, List.cons_append, ws_cons (by decide)]
    simp only
    rw [if_neg (by decide), if_pos trivial, List.cons_append, ws_cons (by decide)]
    have hq := word_append ['"'] (closeString k.toList ++ ':' :: (print j ++ printMembers t) ++ r)
    simp only [List.cons_append, List.nil_append] at hq
    rw [hq]
    have hk : closeString k.toList ++ ':' :: (print j ++ printMembers t) ++ r =
        closeString k.toList ++ ':' :: (print j ++ (printMembers t ++ r)) := by simp
    simp only [Option.bind_eq_bind, Option.bind_some]
    rw [hk, key_close]
    simp only [Option.bind_some]
    rw [h1]
    simp only [Option.bind_some]
    rw [h2]
    rfl
end

/-- What was written is read as it was. -/
theorem parse_print (j : Json) : parse (print j) = some j := by
  have h := value_print j (print j).length [] (Nat.le_refl _) (by rintro _ _ ⟨⟩)
  rw [List.append_nil] at h
  unfold parse
  rw [h]
  rfl

theorem ofBinary_toBinary (j : Json) : ofBinary (toBinary j) = some j := by
  unfold ofBinary toBinary
  rw [Proto.ofUtf8_utf8]
  simp [parse_print]

end Hpl.Json
