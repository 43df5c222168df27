import Verif.Model.Basic

/-! # Mistakes in typing an address -/

namespace Hpl.Spec

/-- The two texts differ, not only in upper and lower case, and only within four consecutive characters after the last `1`. None of these is
a `1`, which would move the border between prefix and data. -/
def Retyped (s t : List Char) : Prop :=
  ∃ h p u v q, s = h ++ '1' :: (p ++ u ++ q) ∧ t = h ++ '1' :: (p ++ v ++ q) ∧ '1' ∉ p ++ u ++ q ∧ '1' ∉ v ∧
    u.length = v.length ∧ u.length ≤ 4 ∧ u.map Char.toLower ≠ v.map Char.toLower

/-- The two texts have the same data after the last `1`, and prefixes that differ in up to four consecutive letters. -/
def OtherPrefix (s t : List Char) : Prop :=
  ∃ p u v q d, s = p ++ u ++ q ++ '1' :: d ∧ t = p ++ v ++ q ++ '1' :: d ∧ '1' ∉ d ∧ u.length = v.length ∧ u.length ≤ 4 ∧
    (∀ c ∈ u ++ v, 'a'.toNat ≤ c.toNat ∧ c.toNat ≤ 'z'.toNat) ∧ u ≠ v

end Hpl.Spec
