import Verif.Lemmas.Semver
import Verif.Props.Packages

/-! # C94: migrations follow semantic versions -/

namespace Hpl

open Spec Semver Migrate

/-- **C94 (texts).** The texts that are read as versions are exactly those of well-formed semantic versions, each of one
version only. -/
theorem C94_texts_partial (s : String) (v : Version) : parse s = some v ↔ ValidVersion v ∧ s = versionText v := parse_iff

/-- **C94 (migrations).** A migration succeeds exactly if the names are the same and the version of the new code comes after
that of the stored one: by precedence, or with the same precedence by the build. -/
theorem C94_migrates_partial (stored name old new : String) (st : Option Stored) :
    migrate parse (some ⟨stored, old⟩) name new = .ok st ↔
      stored = name ∧ st = some ⟨name, new⟩ ∧ ∃ v w, ValidVersion v ∧ ValidVersion w ∧ old = versionText v ∧
        new = versionText w ∧ (Precedes v w ∨ (SamePrecedence v w ∧ List.Lex BuildIdBefore v.build w.build)) := by
  rw [migrate_ok]
  constructor
  · rintro ⟨s, v, w, h1, h2, h3, h4, h5, h6⟩
    cases h1
    obtain ⟨h3, e3⟩ := parse_iff.1 h3
    obtain ⟨h4, e4⟩ := parse_iff.1 h4
    exact ⟨h2, h6, v, w, h3, h4, e3, e4, (lt_iff h3 h4).1 h5⟩
  · rintro ⟨h1, h2, v, w, h3, h4, e3, e4, h5⟩
    exact ⟨_, v, w, rfl, h1, parse_iff.2 ⟨h3, e3⟩, parse_iff.2 ⟨h4, e4⟩, (lt_iff h3 h4).2 h5, h2⟩

/-- **C94 (never back).** After any sequence of attempted migrations: a version that was in force at some time and has been
replaced is never in force again, and no version that precedes one that was in force can be migrated to. -/
theorem C94_never_back_partial (s0 : Stored) (h g k : List (String × String)) :
    ∃ a b c, migratedBy parse s0 h = some a ∧ migratedBy parse s0 (h ++ g) = some b ∧
      migratedBy parse s0 (h ++ g ++ k) = some c ∧
      (b.version ≠ a.version → c.version ≠ a.version) ∧
      (∀ v u, ValidVersion v → a.version = versionText v → ValidVersion u → Precedes u v →
        ∀ name, ∃ e, migrate parse (some b) name (versionText u) = .error e) := by
  let _ := Semver.linearOrder
  obtain ⟨a, b, ha, hb, _, _, hab, hno⟩ := C32_migration parse s0 h g
  obtain ⟨b', c, hb', hc, _, _, hbc, _⟩ := C32_migration parse s0 (h ++ g) k
  rw [hb] at hb'
  cases hb'
  refine ⟨a, b, c, ha, hb, hc, ?_, ?_⟩
  · intro hne hca
    rcases hab with hab | ⟨v, v', h1, h2, h3⟩
    · exact hne hab
    · rcases hbc with hbc | ⟨w, w', h4, h5, h6⟩
      · exact hne (hbc.symm.trans hca)
      · rw [h2] at h4; cases h4
        rw [hca, h1] at h5; cases h5
        exact lt_irrefl _ (lt_trans h3 h6)
  · intro v u hv hav hu huv name
    rw [← hb]
    refine hno name (versionText u) ?_
    intro v' u' h1 h2
    rw [parse_iff.2 ⟨hv, hav⟩] at h1
    rw [parse_iff.2 ⟨hu, rfl⟩] at h2
    cases h1; cases h2
    exact le_of_lt ((lt_iff hu hv).2 (.inl huv))

/-! ## Releases and their candidates -/

theorem Semver.migrate_iff {v w : Version} (hv : ValidVersion v) (hw : ValidVersion w) (name : String) :
    (∃ st, migrate parse (some ⟨name, versionText v⟩) name (versionText w) = .ok st) ↔
      Precedes v w ∨ (SamePrecedence v w ∧ List.Lex BuildIdBefore v.build w.build) := by
  constructor
  · rintro ⟨st, h⟩
    obtain ⟨s, v', w', h1, h2, h3, h4, h5, h6⟩ := migrate_ok.1 h
    cases h1
    rw [parse_iff.2 ⟨hv, rfl⟩] at h3
    rw [parse_iff.2 ⟨hw, rfl⟩] at h4
    cases h3; cases h4
    exact (lt_iff hv hw).1 h5
  · intro h
    exact ⟨_, migrate_ok.2 ⟨_, v, w, rfl, rfl, parse_iff.2 ⟨hv, rfl⟩, parse_iff.2 ⟨hw, rfl⟩, (lt_iff hv hw).2 h, rfl⟩⟩

theorem Semver.ident_digits (n : ℕ) : Ident n.repr.toList := by
  rw [Nat.toList_repr]
  refine ident_iff.2 ⟨Nat.toDigits_ne_nil, fun c hc => ?_⟩
  simp [identChar, numeric_toDigits n c hc]

theorem Semver.noZero_digits (n : ℕ) : n.repr.toList = ['0'] ∨ n.repr.toList.head? ≠ some '0' := by
  rw [Nat.toList_repr]
  by_cases h : n = 0
  · subst h; left; simp
  · obtain ⟨c, ds, h1, h2, h3, h4⟩ := toDigits_head h
    right
    rw [h1]
    intro e
    cases e
    exact h3 rfl

theorem Semver.ident_rc (n : ℕ) : Ident ("rc".toList ++ n.repr.toList) := by
  refine ident_iff.2 ⟨by simp, fun c hc => ?_⟩
  rcases List.mem_append.1 hc with h | h
  · have : c = 'r' ∨ c = 'c' := by simpa using h
    rcases this with rfl | rfl <;> decide
  · exact (ident_iff.1 (ident_digits n)).2 c h

theorem Semver.not_numeric_rc (t : List Char) : ¬ Numeric ("rc".toList ++ t) := by
  intro h
  have := h 'r' (by simp)
  revert this
  decide

theorem Semver.lex_pair {R : List Char → List Char → Prop} {a b c : List Char} (ha : ¬ R a a)
    (h : List.Lex R [a, b] [a, c]) : R b c := by
  cases h with
  | rel h => exact absurd h ha
  | cons h => exact (List.lex_singleton_iff _ _).1 h

/-- **C94 (releases).** Between releases a migration succeeds exactly if the numbers grow, the major one first. -/
theorem C94_releases_partial (name : String) {x y z x' y' z' : ℕ} (hx : x < 2 ^ 64) (hy : y < 2 ^ 64) (hz : z < 2 ^ 64)
    (hx' : x' < 2 ^ 64) (hy' : y' < 2 ^ 64) (hz' : z' < 2 ^ 64) :
    (∃ st, migrate parse (some ⟨name, release x y z⟩) name (release x' y' z') = .ok st) ↔
      x < x' ∨ (x = x' ∧ (y < y' ∨ (y = y' ∧ z < z'))) := by
  unfold release
  rw [migrate_iff ⟨hx, hy, hz, by simp, by simp⟩ ⟨hx', hy', hz', by simp, by simp⟩]
  simp [Precedes, SamePrecedence, PreBefore]

/-- **C94 (candidates and releases).** Every candidate can be migrated to its release and to every later one, and no release
to a candidate of its own. -/
theorem C94_candidate_release_partial (name : String) {x y z : ℕ} (n : ℕ) (hx : x < 2 ^ 64) (hy : y < 2 ^ 64)
    (hz : z < 2 ^ 64) :
    (∀ z', z ≤ z' → z' < 2 ^ 64 →
      ∃ st, migrate parse (some ⟨name, candidate x y z n⟩) name (release x y z') = .ok st) ∧
    (∀ z', z' < z → ∃ st, migrate parse (some ⟨name, release x y z'⟩) name (candidate x y z n) = .ok st) ∧
    ¬ ∃ st, migrate parse (some ⟨name, release x y z⟩) name (candidate x y z n) = .ok st := by
  have hc : ValidVersion ⟨x, y, z, ["rc".toList ++ n.repr.toList], []⟩ :=
    ⟨hx, hy, hz, by
      intro s hs
      rw [List.mem_singleton.1 hs]
      exact ⟨ident_rc n, fun h => absurd h (not_numeric_rc _)⟩, by simp⟩
  have hr : ∀ z', z' < 2 ^ 64 → ValidVersion ⟨x, y, z', [], []⟩ := fun z' h => ⟨hx, hy, h, by simp, by simp⟩
  unfold release candidate
  refine ⟨fun z' h1 h2 => ?_, fun z' h1 => ?_, ?_⟩
  · rw [migrate_iff hc (hr z' h2)]
    left
    rcases Nat.lt_or_eq_of_le h1 with h | h
    · simp [Precedes, h]
    · simp [Precedes, PreBefore, h]
  · rw [migrate_iff (hr z' (by omega)) hc]
    left
    simp [Precedes, h1]
  · rw [migrate_iff (hr z hz) hc]
    simp [Precedes, PreBefore, SamePrecedence]

/-- **C94 (dotted candidates).** Candidates numbered after a dot follow their numbers. -/
theorem C94_dotted_candidates_partial (name : String) {x y z : ℕ} (n m : ℕ) (hx : x < 2 ^ 64) (hy : y < 2 ^ 64)
    (hz : z < 2 ^ 64) :
    (∃ st, migrate parse (some ⟨name, dottedCandidate x y z n⟩) name (dottedCandidate x y z m) = .ok st) ↔ n < m := by
  have hc : ∀ n : ℕ, ValidVersion ⟨x, y, z, ["rc".toList, n.repr.toList], []⟩ := fun n =>
    ⟨hx, hy, hz, by
      intro s hs
      rcases List.mem_cons.1 hs with rfl | hs
      · exact ⟨⟨by simp, by decide⟩, fun h => absurd h (by simpa using not_numeric_rc [])⟩
      · rw [List.mem_singleton.1 hs]
        exact ⟨ident_digits n, fun _ => noZero_digits n⟩, by simp⟩
  unfold dottedCandidate
  rw [migrate_iff (hc n) (hc m)]
  have hrc : ¬ IdBefore "rc".toList "rc".toList := by
    rintro (⟨h, _⟩ | ⟨h, _⟩ | ⟨_, _, h⟩)
    · exact absurd h (by simpa using not_numeric_rc [])
    · exact absurd h (by simpa using not_numeric_rc [])
    · exact lt_irrefl _ h
  have hn : ∀ n : ℕ, Numeric n.repr.toList := fun n => by rw [Nat.toList_repr]; exact numeric_toDigits n
  have hv : ∀ n : ℕ, valueOf n.repr.toList = n := fun n => by
    rw [Nat.toList_repr]; exact Nat.ofDigitChars_ten_toDigits
  have hid : IdBefore n.repr.toList m.repr.toList ↔ n < m := by
    unfold IdBefore
    rw [hv, hv]
    simp [numeric_toDigits]
  simp only [Precedes, SamePrecedence, PreBefore, lt_irrefl, false_or, true_and]
  constructor
  · rintro ((⟨_, h⟩ | ⟨_, _, h⟩) | ⟨_, h⟩)
    · cases h
    · exact hid.1 (lex_pair hrc h)
    · cases h
  · intro h
    exact .inl (.inr ⟨by simp, by simp, .cons (.rel (hid.2 h))⟩)

/-- **C94, in full.** Between candidates of a release, named as the project names them, a migration succeeds exactly if
their numbers grow. This is false: see `C94_full_refuted`. -/
def C94_full : Prop :=
  ∀ (name : String) (x y z n m : ℕ), x < 2 ^ 64 → y < 2 ^ 64 → z < 2 ^ 64 →
    ((∃ st, migrate parse (some ⟨name, candidate x y z n⟩) name (candidate x y z m) = .ok st) ↔ n < m)

/-- Candidates are compared as texts. -/
theorem Semver.candidate_iff (name : String) {x y z : ℕ} (n m : ℕ) (hx : x < 2 ^ 64) (hy : y < 2 ^ 64)
    (hz : z < 2 ^ 64) :
    (∃ st, migrate parse (some ⟨name, candidate x y z n⟩) name (candidate x y z m) = .ok st) ↔
      n.repr.toList < m.repr.toList := by
  have hc : ∀ n : ℕ, ValidVersion ⟨x, y, z, ["rc".toList ++ n.repr.toList], []⟩ := fun n =>
    ⟨hx, hy, hz, by
      intro s hs
      rw [List.mem_singleton.1 hs]
      exact ⟨ident_rc n, fun h => absurd h (not_numeric_rc _)⟩, by simp⟩
  unfold candidate
  rw [migrate_iff (hc n) (hc m)]
  have hid : IdBefore ("rc".toList ++ n.repr.toList) ("rc".toList ++ m.repr.toList) ↔
      n.repr.toList < m.repr.toList := by
    unfold IdBefore
    simp only [not_numeric_rc, false_and, not_false_eq_true, true_and, false_or, and_false]
    show 'r' :: 'c' :: n.repr.toList < 'r' :: 'c' :: m.repr.toList ↔ _
    simp
  simp only [Precedes, SamePrecedence, PreBefore, lt_irrefl, false_or, true_and]
  constructor
  · rintro ((⟨_, h⟩ | ⟨_, _, h⟩) | ⟨_, h⟩)
    · cases h
    · exact hid.1 ((List.lex_singleton_iff _ _).1 h)
    · cases h
  · intro h
    exact .inl (.inr ⟨by simp, by simp, .rel (hid.2 h)⟩)

/-- The tenth candidate cannot follow the ninth. -/
theorem C94_full_refuted : ¬ C94_full := by
  intro h
  have h1 := (h "crates.io:hpl-mailbox" 0 0 7 9 10 (by decide) (by decide) (by decide)).2 (by decide)
  rw [candidate_iff _ _ _ (by decide) (by decide) (by decide)] at h1
  simp only [Nat.toList_repr] at h1
  revert h1
  decide +kernel

/-- **C94 (candidates, what holds).** Candidates whose numbers have equally many digits follow their numbers. Missing for
the full claim: numbers of different lengths, which are compared as texts (`rc9` comes after `rc10`). -/
theorem C94_candidates_partial (name : String) {x y z : ℕ} (n m : ℕ) (hx : x < 2 ^ 64) (hy : y < 2 ^ 64)
    (hz : z < 2 ^ 64) (hl : n.repr.toList.length = m.repr.toList.length) :
    (∃ st, migrate parse (some ⟨name, candidate x y z n⟩) name (candidate x y z m) = .ok st) ↔ n < m := by
  rw [candidate_iff name n m hx hy hz]
  have hv : ∀ n : ℕ, Nat.ofDigitChars 10 n.repr.toList 0 = n := fun n => by
    rw [Nat.toList_repr]; exact Nat.ofDigitChars_ten_toDigits
  have hn : ∀ n : ℕ, Numeric n.repr.toList := fun n => by rw [Nat.toList_repr]; exact numeric_toDigits n
  have := value_lt_iff_lex (v := 0) (w := 0) (hn n) (hn m) hl
  rw [hv, hv] at this
  rw [this]
  simp

/-- The versions of the project's own test: from a candidate to its release and on to the present version; then back, to the
same version again, and to a text that is no version. -/
example :
    migratedBy parse ⟨"crates.io:hpl-mailbox", "0.0.6-rc8"⟩
      [("crates.io:hpl-mailbox", "0.0.6"), ("crates.io:hpl-mailbox", "0.0.7"), ("crates.io:hpl-mailbox", "0.0.6"),
       ("crates.io:hpl-mailbox", "0.0.7"), ("crates.io:hpl-mailbox", "0.0.07"), ("other", "0.0.8"),
       ("crates.io:hpl-mailbox", "0.0.8-rc.9"), ("crates.io:hpl-mailbox", "0.0.8-rc.10+build.7")] =
      some ⟨"crates.io:hpl-mailbox", "0.0.8-rc.10+build.7"⟩ := by decide +kernel

example : candidate 0 0 6 8 = "0.0.6-rc8" ∧ release 0 0 7 = "0.0.7" ∧ dottedCandidate 0 0 8 10 = "0.0.8-rc.10" := by
  decide +kernel

/-- The ninth candidate stays in force: the tenth and the eleventh are refused. -/
example :
    migratedBy parse ⟨"crates.io:hpl-mailbox", "0.0.7-rc8"⟩
      [("crates.io:hpl-mailbox", "0.0.7-rc9"), ("crates.io:hpl-mailbox", "0.0.7-rc10"),
       ("crates.io:hpl-mailbox", "0.0.7-rc11")] = some ⟨"crates.io:hpl-mailbox", "0.0.7-rc9"⟩ := by decide +kernel

/-- A version with every part. -/
example : parse "1.20.3-alpha.0.x-y+007.b" =
    some ⟨1, 20, 3, ["alpha".toList, ['0'], "x-y".toList], ["007".toList, ['b']]⟩ ∧
    parse "1.20.3-alpha.00" = none ∧ parse "1.20" = none ∧ parse "1.20.3-" = none ∧
    parse "18446744073709551616.0.0" = none := by decide +kernel

end Hpl
