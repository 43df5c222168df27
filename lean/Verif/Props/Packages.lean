import Verif.Lemmas.Packages
import Verif.Lemmas.Metadata
import Verif.Model.Owned
import Mathlib.Data.List.Induction
import Mathlib.Data.Prod.Lex

/-! # Shared packages: C27 - C32 -/

namespace Hpl

/-! ## C27 ownership -/

section C27

variable {σ μ : Type} (part : (Addr → Bool) → Ownable.State → σ → Addr → μ → Res σ)

/-- Ownership after a history of a contract with ownership plus any other owner-aware package. -/
def ownAfter (o0 : Addr) (p0 : σ) (h : List (OwnedCall μ)) : Ownable.State :=
  (run (ownedStep part) (Ownable.init o0, p0) h).1

/-- In history `h` account `n` was nominated by the account that was owner at that time, while no other nomination was
pending; since that call the nomination stands and the owner is still the same. -/
def Spec.NominationStands (o0 : Addr) (p0 : σ) (h : List (OwnedCall μ)) (n : Addr) : Prop :=
  ∃ h1 c h2, h = h1 ++ c :: h2 ∧ c.msg = .inl (.initTransfer n) ∧ c.valid n = true ∧
    (ownAfter part o0 p0 h1).owner = some c.sender ∧
    (ownAfter part o0 p0 h1).pending = none ∧
    (∀ k, (ownAfter part o0 p0 (h1 ++ c :: h2.take k)).owner = some c.sender ∧
          (ownAfter part o0 p0 (h1 ++ c :: h2.take k)).pending = some n ∧
          ∀ d, h2[k]? = some d → (d.msg = .inl .revoke → d.sender ≠ c.sender) ∧
            (d.msg = .inl .claim → d.sender ≠ n))

theorem ownedStep_ok {s s' : Ownable.State × σ} {c : OwnedCall μ}
    (h : ownedStep part s c = .ok s') :
    (∃ m, c.msg = .inl m ∧ Ownable.handle c.valid s.1 c.sender m = .ok s'.1 ∧ s'.2 = s.2) ∨
    (∃ m, c.msg = .inr m ∧ part c.valid s.1 s.2 c.sender m = .ok s'.2 ∧ s'.1 = s.1) := by
  unfold ownedStep at h
  split at h
  · rename_i m hm
    obtain ⟨o, h1, h⟩ := bind_eq_ok.1 h
    simp only [pure_eq_ok, Except.ok.injEq] at h
    subst h
    exact .inl ⟨m, hm, h1, rfl⟩
  · rename_i m hm
    obtain ⟨o, h1, h⟩ := bind_eq_ok.1 h
    simp only [pure_eq_ok, Except.ok.injEq] at h
    subst h
    exact .inr ⟨m, hm, h1, rfl⟩

theorem ownAfter_snoc (o0 : Addr) (p0 : σ) (h : List (OwnedCall μ)) (c : OwnedCall μ) :
    ownAfter part o0 p0 (h ++ [c]) =
      match c.msg with
      | .inl m =>
        match Ownable.handle c.valid (ownAfter part o0 p0 h) c.sender m with
        | .ok s => s
        | .error _ => ownAfter part o0 p0 h
      | .inr _ => ownAfter part o0 p0 h := by
  unfold ownAfter
  rw [run_snoc]
  generalize run (ownedStep part) (Ownable.init o0, p0) h = s
  unfold applyCall ownedStep
  rcases hm : c.msg with m | m
  · cases h1 : Ownable.handle c.valid s.1 c.sender m <;> simp [h1]
  · cases h1 : part c.valid s.1 s.2 c.sender m <;> simp [h1]

/-- Effect of one call on ownership. -/
theorem ownAfter_step (o0 : Addr) (p0 : σ) (h : List (OwnedCall μ)) (c : OwnedCall μ) :
    (ownAfter part o0 p0 (h ++ [c]) = ownAfter part o0 p0 h ∧
      (∀ n, c.msg = .inl (.initTransfer n) →
        c.valid n = false ∨ (ownAfter part o0 p0 h).owner ≠ some c.sender ∨
          (ownAfter part o0 p0 h).pending ≠ none) ∧
      (c.msg = .inl .revoke → (ownAfter part o0 p0 h).owner ≠ some c.sender ∨
          (ownAfter part o0 p0 h).pending = none) ∧
      (c.msg = .inl .claim → (ownAfter part o0 p0 h).pending ≠ some c.sender)) ∨
    (∃ n, c.msg = .inl (.initTransfer n) ∧ c.valid n = true ∧
      (ownAfter part o0 p0 h).owner = some c.sender ∧ (ownAfter part o0 p0 h).pending = none ∧
      ownAfter part o0 p0 (h ++ [c]) = ⟨some c.sender, some n⟩) ∨
    (c.msg = .inl .revoke ∧ (ownAfter part o0 p0 h).owner = some c.sender ∧
      (∃ n, (ownAfter part o0 p0 h).pending = some n) ∧
      ownAfter part o0 p0 (h ++ [c]) = ⟨some c.sender, none⟩) ∨
    (c.msg = .inl .claim ∧ (ownAfter part o0 p0 h).pending = some c.sender ∧
      ownAfter part o0 p0 (h ++ [c]) = ⟨some c.sender, none⟩) := by
  rw [ownAfter_snoc]
  generalize ownAfter part o0 p0 h = s
  rcases hm : c.msg with m | m
  · simp only
    cases m with
    | initTransfer n =>
      cases hh : Ownable.handle c.valid s c.sender (.initTransfer n) with
      | error e =>
        refine .inl ⟨rfl, ?_, by simp, by simp⟩
        intro n' hn
        simp only [Sum.inl.injEq, Ownable.Msg.initTransfer.injEq] at hn
        subst hn
        by_contra hc
        push Not at hc
        obtain ⟨h1, h2, h3⟩ := hc
        rw [Bool.ne_false_iff] at h1
        rw [Ownable.handle_init_ok.2 ⟨h1, h2, h3, rfl⟩] at hh
        cases hh
      | ok s' =>
        obtain ⟨h1, h2, h3, rfl⟩ := Ownable.handle_init_ok.1 hh
        exact .inr (.inl ⟨n, rfl, h1, h2, h3, by simp [h2]⟩)
    | revoke =>
      cases hh : Ownable.handle c.valid s c.sender .revoke with
      | error e =>
        refine .inl ⟨rfl, by simp, ?_, by simp⟩
        intro _
        by_contra hc
        push Not at hc
        obtain ⟨h1, h2⟩ := hc
        rw [Ownable.handle_revoke_ok.2 ⟨h1, Option.ne_none_iff_exists'.1 h2, rfl⟩] at hh
        cases hh
      | ok s' =>
        obtain ⟨h1, h2, rfl⟩ := Ownable.handle_revoke_ok.1 hh
        exact .inr (.inr (.inl ⟨rfl, h1, h2, by simp [h1]⟩))
    | claim =>
      cases hh : Ownable.handle c.valid s c.sender .claim with
      | error e =>
        refine .inl ⟨rfl, by simp, by simp, ?_⟩
        intro _ hc
        rw [Ownable.handle_claim_ok.2 ⟨hc, rfl⟩] at hh
        cases hh
      | ok s' =>
        obtain ⟨h1, rfl⟩ := Ownable.handle_claim_ok.1 hh
        exact .inr (.inr (.inr ⟨rfl, h1, rfl⟩))
  · exact .inl ⟨rfl, by simp, by simp, by simp⟩

/-- A pending nomination was made by the current owner and has stood since. -/
theorem nominationStands_of_pending (o0 : Addr) (p0 : σ) (h : List (OwnedCall μ)) (n : Addr)
    (hp : (ownAfter part o0 p0 h).pending = some n) :
    Spec.NominationStands part o0 p0 h n := by
  induction h using List.reverseRecOn generalizing n with
  | nil => simp [ownAfter, Ownable.init] at hp
  | append_singleton t c ih =>
    rcases ownAfter_step part o0 p0 t c with ⟨he, h1, h2, h3⟩ | ⟨n', hm, hv, ho, hpn, he⟩ |
        ⟨_, _, _, he⟩ | ⟨_, _, he⟩
    · rw [he] at hp
      obtain ⟨g1, d, g2, rfl, hd, hv, hg1, hg1p, hk⟩ := ih n hp
      refine ⟨g1, d, g2 ++ [c], by simp, hd, hv, hg1, hg1p, ?_⟩
      have hfull := hk g2.length
      rw [List.take_length] at hfull
      intro k
      rcases Nat.lt_trichotomy k g2.length with hlt | rfl | hgt
      · rw [List.take_append_of_le_length (by omega), List.getElem?_append_left hlt]
        exact hk k
      · rw [List.take_append_of_le_length (le_refl _), List.take_length]
        refine ⟨hfull.1, hfull.2.1, ?_⟩
        intro d' hd'
        simp only [List.getElem?_append_right (le_refl _), Nat.sub_self, List.getElem?_cons_zero,
          Option.some.injEq] at hd'
        subst hd'
        constructor
        · intro hrev heq
          rcases h2 hrev with h2 | h2
          · exact h2 (by rw [hfull.1, heq])
          · rw [hp] at h2; cases h2
        · intro hcl heq
          exact h3 hcl (by rw [hp, heq])
      · rw [List.take_of_length_le (by simp; omega)]
        have e : g1 ++ d :: (g2 ++ [c]) = g1 ++ d :: g2 ++ [c] := by simp
        rw [e, he]
        refine ⟨hfull.1, hfull.2.1, ?_⟩
        intro d' hd'
        rw [List.getElem?_eq_none (by simp; omega)] at hd'
        cases hd'
    · rw [he] at hp
      simp only [Option.some.injEq] at hp
      subst hp
      refine ⟨t, c, [], rfl, hm, hv, ho, hpn, ?_⟩
      intro k
      simp [he]
    · rw [he] at hp; cases hp
    · rw [he] at hp; cases hp

/-- **C27.** For any contract made of ownership and another package, after any history: there is an owner; the owner
changes only by the acceptance of an account whose nomination, made by the owner, still stands; nominations are made
and withdrawn only by the owner and never overwrite each other; and a standing nominee can always accept. -/
theorem C27_ownership (o0 : Addr) (p0 : σ) (h : List (OwnedCall μ)) (c : OwnedCall μ) :
    (∃ o, (ownAfter part o0 p0 h).owner = some o) ∧
    ((ownAfter part o0 p0 (h ++ [c])).owner ≠ (ownAfter part o0 p0 h).owner →
      c.msg = .inl .claim ∧ (ownAfter part o0 p0 (h ++ [c])).owner = some c.sender ∧
      Spec.NominationStands part o0 p0 h c.sender) ∧
    (∀ n, (ownAfter part o0 p0 (h ++ [c])).pending = some n →
      (ownAfter part o0 p0 h).pending = some n ∨
      ((ownAfter part o0 p0 h).pending = none ∧ c.msg = .inl (.initTransfer n) ∧
        (ownAfter part o0 p0 h).owner = some c.sender)) ∧
    (∀ n, (ownAfter part o0 p0 h).pending = some n →
      (ownAfter part o0 p0 (h ++ [c])).pending = none →
      (c.msg = .inl .revoke ∧ (ownAfter part o0 p0 h).owner = some c.sender ∧
        (ownAfter part o0 p0 (h ++ [c])).owner = (ownAfter part o0 p0 h).owner) ∨
      (c.msg = .inl .claim ∧ c.sender = n)) ∧
    ((ownAfter part o0 p0 h).pending = some c.sender → c.msg = .inl .claim →
      (ownAfter part o0 p0 (h ++ [c])).owner = some c.sender) := by
  refine ⟨?_, ?_, ?_, ?_, ?_⟩
  · induction h using List.reverseRecOn with
    | nil => exact ⟨o0, rfl⟩
    | append_singleton t d ih =>
      rcases ownAfter_step part o0 p0 t d with ⟨he, _⟩ | ⟨n', hm, hv, ho, hpn, he⟩ |
        ⟨_, _, _, he⟩ | ⟨_, _, he⟩
      · rw [he]; exact ih
      all_goals exact ⟨d.sender, by rw [he]⟩
  · intro hne
    rcases ownAfter_step part o0 p0 h c with ⟨he, _⟩ | ⟨n', hm, hv, ho, hpn, he⟩ |
        ⟨_, ho, _, he⟩ | ⟨hm, hp, he⟩
    · exact absurd (by rw [he]) hne
    · exact absurd (by rw [he, ho]) hne
    · exact absurd (by rw [he, ho]) hne
    · exact ⟨hm, by rw [he], nominationStands_of_pending part o0 p0 h _ hp⟩
  · intro n hn
    rcases ownAfter_step part o0 p0 h c with ⟨he, _⟩ | ⟨n', hm, hv, ho, hpn, he⟩ |
        ⟨_, ho, _, he⟩ | ⟨hm, hp, he⟩
    · rw [he] at hn; exact .inl hn
    · rw [he] at hn
      simp only [Option.some.injEq] at hn
      subst hn
      exact .inr ⟨hpn, hm, ho⟩
    · rw [he] at hn; cases hn
    · rw [he] at hn; cases hn
  · intro n hn hno
    rcases ownAfter_step part o0 p0 h c with ⟨he, _⟩ | ⟨n', hm, hv, ho, hpn, he⟩ |
        ⟨hm, ho, _, he⟩ | ⟨hm, hp, he⟩
    · rw [he, hn] at hno; cases hno
    · rw [he] at hno; cases hno
    · exact .inl ⟨hm, ho, by rw [he, ho]⟩
    · rw [hn] at hp
      exact .inr ⟨hm, by simpa using hp.symm⟩
  · intro hp hm
    rcases ownAfter_step part o0 p0 h c with ⟨_, _, _, h3⟩ | ⟨n', hm', _⟩ | ⟨hm', _⟩ | ⟨_, _, he⟩
    · exact absurd hp (h3 hm)
    · rw [hm] at hm'; cases hm'
    · rw [hm] at hm'; cases hm'
    · rw [he]

/-- Ownership does change hands: alice nominates bob, a stranger's revoke is ignored, bob accepts. -/
example :
    ownAfter (fun _ => Pausable.handle) "alice" false
      [⟨fun _ => true, "alice", .inl (.initTransfer "bob")⟩,
       ⟨fun _ => true, "eve", .inl .revoke⟩] = ⟨some "alice", some "bob"⟩ ∧
    ownAfter (fun _ => Pausable.handle) "alice" false
      [⟨fun _ => true, "alice", .inl (.initTransfer "bob")⟩,
       ⟨fun _ => true, "eve", .inl .revoke⟩,
       ⟨fun _ => true, "bob", .inl .claim⟩] = ⟨some "bob", none⟩ := by decide +kernel

end C27

/-! ## C28 pausing -/

/-- State of a pausable contract after a history. -/
def pausableAfter (o0 : Addr) (p0 : Bool) (h : List (OwnedCall Pausable.Msg)) :
    Ownable.State × Bool := run pausableStep (Ownable.init o0, p0) h

/-- Call `c`, made after history `h`, is a pause or release `m` and does not fail. -/
def Spec.PauseSucceeds (o0 : Addr) (p0 : Bool) (h : List (OwnedCall Pausable.Msg))
    (c : OwnedCall Pausable.Msg) (m : Pausable.Msg) : Prop :=
  c.msg = .inr m ∧ ∃ s, pausableStep (pausableAfter o0 p0 h) c = .ok s

theorem pauseSucceeds_iff (o0 : Addr) (p0 : Bool) (h : List (OwnedCall Pausable.Msg))
    (c : OwnedCall Pausable.Msg) (m : Pausable.Msg) :
    Spec.PauseSucceeds o0 p0 h c m ↔
      c.msg = .inr m ∧ (pausableAfter o0 p0 h).1.owner = some c.sender ∧
        (m = .pause ↔ (pausableAfter o0 p0 h).2 = false) := by
  unfold Spec.PauseSucceeds pausableStep
  constructor
  · rintro ⟨hm, s, hs⟩
    refine ⟨hm, ?_⟩
    rcases ownedStep_ok _ hs with ⟨m', h1, _⟩ | ⟨m', h1, h2, _⟩
    · rw [hm] at h1; cases h1
    · rw [hm] at h1; cases h1
      obtain ⟨h3, h4, h5⟩ := Pausable.handle_ok.1 h2
      refine ⟨h3, ?_⟩
      rw [← h5, h4]
      simp
  · rintro ⟨hm, ho, hf⟩
    refine ⟨hm, ?_⟩
    unfold ownedStep
    rw [hm]
    simp only
    have : Pausable.handle (pausableAfter o0 p0 h).1 (pausableAfter o0 p0 h).2 c.sender m =
        .ok (!(pausableAfter o0 p0 h).2) :=
      Pausable.handle_ok.2 ⟨ho, rfl, by rw [hf]; simp⟩
    rw [this]
    exact ⟨_, rfl⟩

theorem pausableAfter_snoc (o0 : Addr) (p0 : Bool) (h : List (OwnedCall Pausable.Msg))
    (c : OwnedCall Pausable.Msg) :
    (∃ m, Spec.PauseSucceeds o0 p0 h c m ∧
      (pausableAfter o0 p0 (h ++ [c])).2 = decide (m = .pause)) ∨
    ((∀ m, ¬ Spec.PauseSucceeds o0 p0 h c m) ∧
      (pausableAfter o0 p0 (h ++ [c])).2 = (pausableAfter o0 p0 h).2) := by
  have hsn : pausableAfter o0 p0 (h ++ [c]) =
      applyCall pausableStep (pausableAfter o0 p0 h) c := run_snoc _ _ _ _
  rw [hsn]
  rcases applyCall_cases pausableStep (pausableAfter o0 p0 h) c with ⟨e, h1, h2⟩ | ⟨s', h1, h2⟩
  · refine .inr ⟨?_, by rw [h2]⟩
    rintro m ⟨_, s, hs⟩
    rw [h1] at hs; cases hs
  · rw [h2]
    rcases ownedStep_ok _ h1 with ⟨m, hm, _, he⟩ | ⟨m, hm, hh, _⟩
    · refine .inr ⟨?_, he⟩
      rintro m' ⟨hm', _⟩
      rw [hm] at hm'; cases hm'
    · refine .inl ⟨m, ⟨hm, s', h1⟩, ?_⟩
      obtain ⟨_, h4, h5⟩ := Pausable.handle_ok.1 hh
      cases hs' : s'.2 <;> simp_all

/-- **C28.** A pause or release succeeds exactly when the caller is the owner and the flag is not already in the
requested position; and after any history the flag is the one requested by the last successful pause/release (the
initial one if there was none). -/
theorem C28_pause_flag (o0 : Addr) (p0 : Bool) (h : List (OwnedCall Pausable.Msg)) :
    (∀ c m, c.msg = .inr m →
      ((∃ s, pausableStep (pausableAfter o0 p0 h) c = .ok s) ↔
        (pausableAfter o0 p0 h).1.owner = some c.sender ∧
        (pausableAfter o0 p0 h).2 = decide (m = .release))) ∧
    (((∀ h1 c h2 m, h = h1 ++ c :: h2 → ¬ Spec.PauseSucceeds o0 p0 h1 c m) ∧
        (pausableAfter o0 p0 h).2 = p0) ∨
     (∃ h1 c h2 m, h = h1 ++ c :: h2 ∧ Spec.PauseSucceeds o0 p0 h1 c m ∧
        (∀ g1 d g2 m', h2 = g1 ++ d :: g2 →
          ¬ Spec.PauseSucceeds o0 p0 (h1 ++ c :: g1) d m') ∧
        (pausableAfter o0 p0 h).2 = decide (m = .pause))) := by
  refine ⟨?_, ?_⟩
  · intro c m hm
    have := pauseSucceeds_iff o0 p0 h c m
    unfold Spec.PauseSucceeds at this
    simp only [hm, true_and] at this
    rw [this]
    cases m <;> cases (pausableAfter o0 p0 h).2 <;> simp
  · induction h using List.reverseRecOn with
    | nil => exact .inl ⟨by simp, rfl⟩
    | append_singleton t d ih =>
      rcases pausableAfter_snoc o0 p0 t d with ⟨m, h1, h2⟩ | ⟨h1, h2⟩
      · exact .inr ⟨t, d, [], m, rfl, h1, by simp, h2⟩
      · rw [h2]
        rcases ih with ⟨ih1, ih2⟩ | ⟨a, c, b, m, rfl, hc, hb, hf⟩
        · refine .inl ⟨?_, ih2⟩
          intro g1 c g2 m hg
          rcases List.eq_nil_or_concat' g2 with rfl | ⟨g2', x, rfl⟩
          · obtain ⟨rfl, h3⟩ := List.append_inj' hg rfl
            cases h3
            exact h1 m
          · have hg' : t ++ [d] = (g1 ++ c :: g2') ++ [x] := by rw [hg]; simp
            obtain ⟨rfl, _⟩ := List.append_inj' hg' rfl
            exact ih1 g1 c g2' m rfl
        · refine .inr ⟨a, c, b ++ [d], m, by simp, hc, ?_, hf⟩
          intro g1 x g2 m' hg
          rcases List.eq_nil_or_concat' g2 with rfl | ⟨g2', y, rfl⟩
          · obtain ⟨rfl, h3⟩ := List.append_inj' hg rfl
            cases h3
            exact h1 m'
          · have hg' : b ++ [d] = (g1 ++ x :: g2') ++ [y] := by rw [hg]; simp
            obtain ⟨rfl, _⟩ := List.append_inj' hg' rfl
            exact hb g1 x g2' m' rfl

/-- Pause, a rejected second pause, release by a stranger rejected. -/
example :
    (pausableAfter "alice" false
      [⟨fun _ => true, "alice", .inr .pause⟩, ⟨fun _ => true, "alice", .inr .pause⟩,
       ⟨fun _ => true, "eve", .inr .release⟩]).2 = true ∧
    (pausableAfter "alice" false
      [⟨fun _ => true, "alice", .inr .pause⟩, ⟨fun _ => true, "alice", .inr .release⟩]).2 =
      false := by decide +kernel

/-! ## C29 routes -/

section C29

variable {τ : Type}

/-- Domains and routes a router message mentions, in order. -/
def Spec.mentioned : Router.Msg τ → List (UInt32 × Option τ)
  | .setRoute x => [x]
  | .setRoutes l => l

/-- The route updates of a history that count: those sent by the account owning the contract at that moment. -/
def Spec.routeWrites (own : Ownable.State) :
    List (OwnedCall (Router.Msg τ)) → List (UInt32 × Option τ)
  | [] => []
  | c :: t =>
    match c.msg with
    | .inl m =>
      match Ownable.handle c.valid own c.sender m with
      | .ok own' => Spec.routeWrites own' t
      | .error _ => Spec.routeWrites own t
    | .inr m => (if own.owner = some c.sender then Spec.mentioned m else []) ++
        Spec.routeWrites own t

/-- The last entry of a list of updates that is about domain `d`. -/
def Spec.lastAbout (d : UInt32) (l : List (UInt32 × Option τ)) : Option (Option τ) :=
  (l.reverse.find? (fun x => x.1 == d)).map (·.2)

/-- State of a router contract after a history. -/
def routerAfter (o0 : Addr) (h : List (OwnedCall (Router.Msg τ))) :
    Ownable.State × Router.State τ := run routerStep (Ownable.init o0, OMap.empty) h

theorem run_routerStep (own : Ownable.State) (s : Router.State τ)
    (h : List (OwnedCall (Router.Msg τ))) :
    (run routerStep (own, s) h).2 = Router.setRoutes s (Spec.routeWrites own h) := by
  induction h generalizing own s with
  | nil => rfl
  | cons c t ih =>
    rw [run_cons]
    unfold Spec.routeWrites
    rcases hm : c.msg with m | m
    · simp only
      cases hh : Ownable.handle c.valid own c.sender m with
      | ok own' =>
        have : applyCall routerStep (own, s) c = (own', s) :=
          applyCall_ok (by unfold routerStep ownedStep; rw [hm]; simp [hh])
        rw [this, ih]
      | error e =>
        have : applyCall routerStep (own, s) c = (own, s) :=
          applyCall_error (e := e) (by unfold routerStep ownedStep; rw [hm]; simp [hh])
        rw [this, ih]
    · simp only
      by_cases ho : own.owner = some c.sender
      · have hh := (Router.handle_ok (m := m) (s := s)).2 ⟨ho, rfl⟩
        have : applyCall routerStep (own, s) c = (own, Router.setRoutes s (Spec.mentioned m)) :=
          applyCall_ok (by
            unfold routerStep ownedStep; rw [hm]; simp only [hh]; cases m <;> rfl)
        rw [this, ih, if_pos ho, Router.setRoutes_append]
      · cases hh : Router.handle own s c.sender m with
        | ok s' => exact absurd (Router.handle_ok.1 hh).1 ho
        | error e =>
          have : applyCall routerStep (own, s) c = (own, s) :=
            applyCall_error (e := e) (by unfold routerStep ownedStep; rw [hm]; simp [hh])
          rw [this, ih, if_neg ho]
          simp

theorem get_setRoutes (s : Router.State τ) (l : List (UInt32 × Option τ)) (d : UInt32) :
    (Router.setRoutes s l).get d = (Spec.lastAbout d l).or (s.get d) := by
  induction l using List.reverseRecOn with
  | nil => simp [Router.setRoutes, Spec.lastAbout]
  | append_singleton t x ih =>
    rw [Router.setRoutes_append]
    show ((Router.setRoutes s t).insert x.1 x.2).get d = _
    rw [OMap.get_insert, ih]
    unfold Spec.lastAbout
    simp only [List.reverse_append, List.reverse_cons, List.reverse_nil, List.nil_append,
      List.singleton_append, List.find?_cons]
    by_cases hd : d = x.1
    · simp [hd]
    · have : (x.1 == d) = false := by simpa using fun h => hd h.symm
      simp [hd, this]

theorem lastAbout_isSome (d : UInt32) (l : List (UInt32 × Option τ)) :
    (∃ r, Spec.lastAbout d l = some r) ↔ ∃ r, (d, r) ∈ l := by
  unfold Spec.lastAbout
  constructor
  · rintro ⟨r, h⟩
    obtain ⟨x, h1, h2⟩ := Option.map_eq_some_iff.1 h
    have hp := List.find?_some h1
    have hm := List.mem_of_find?_eq_some h1
    simp only [beq_iff_eq] at hp
    exact ⟨x.2, by rw [← hp]; simpa using hm⟩
  · rintro ⟨r, h⟩
    cases hf : l.reverse.find? (fun x => x.1 == d) with
    | some x => exact ⟨x.2, rfl⟩
    | none =>
      rw [List.find?_eq_none] at hf
      exact absurd (by simp) (hf (d, r) (by simpa using h))

/-- **C29.** After any history the route reported for a domain is the one in the last update about it among those sent
by the owner (absent if there is none or it cleared the route), the domain list is strictly increasing and consists
of the domains so mentioned, the router check says yes exactly for the current route, and a call by anybody else than
the owner leaves the table as it was. -/
theorem C29_router [DecidableEq τ] (o0 : Addr) (h : List (OwnedCall (Router.Msg τ))) :
    (∀ d, Router.getRoute (routerAfter o0 h).2 d =
      (Spec.lastAbout d (Spec.routeWrites (Ownable.init o0) h)).join) ∧
    (Router.getDomains (routerAfter o0 h).2).Pairwise (· < ·) ∧
    (∀ d, d ∈ Router.getDomains (routerAfter o0 h).2 ↔
      ∃ r, (d, r) ∈ Spec.routeWrites (Ownable.init o0) h) ∧
    (∀ d r, Router.isRouter (routerAfter o0 h).2 d r = .ok true ↔
      Spec.lastAbout d (Spec.routeWrites (Ownable.init o0) h) = some (some r)) ∧
    (∀ c, (routerAfter o0 h).1.owner ≠ some c.sender →
      (routerAfter o0 (h ++ [c])).2 = (routerAfter o0 h).2) := by
  have hg : ∀ d, (routerAfter o0 h).2.get d =
      Spec.lastAbout d (Spec.routeWrites (Ownable.init o0) h) := by
    intro d
    unfold routerAfter
    rw [run_routerStep, get_setRoutes]
    simp
  refine ⟨?_, OMap.keys_sorted _, ?_, ?_, ?_⟩
  · intro d
    unfold Router.getRoute
    rw [hg]
    rcases Spec.lastAbout d (Spec.routeWrites (Ownable.init o0) h) with _ | _ | r <;> rfl
  · intro d
    unfold Router.getDomains
    rw [OMap.mem_keys_iff, ← lastAbout_isSome, hg]
  · intro d r
    unfold Router.isRouter
    rw [hg]
    rcases Spec.lastAbout d (Spec.routeWrites (Ownable.init o0) h) with _ | _ | r' <;>
      simp [eq_comm]
  · intro c hc
    unfold routerAfter at hc ⊢
    rw [run_snoc]
    rcases applyCall_cases routerStep (run routerStep (Ownable.init o0, OMap.empty) h) c with
      ⟨e, _, he⟩ | ⟨s', h1, h2⟩
    · rw [he]
    · rw [h2]
      rcases ownedStep_ok _ h1 with ⟨m, _, _, he⟩ | ⟨m, _, hh, _⟩
      · exact he
      · exact absurd (Router.handle_ok.1 hh).1 hc

/-- Batch and single updates, a cleared route, and an ignored outsider. -/
example :
    let h : List (OwnedCall (Router.Msg String)) :=
      [⟨fun _ => true, "alice", .inr (.setRoutes [(7, some "a"), (3, some "b"), (7, some "c")])⟩,
       ⟨fun _ => true, "eve", .inr (.setRoute (3, some "x"))⟩,
       ⟨fun _ => true, "alice", .inr (.setRoute (7, none))⟩]
    Router.getRoute (routerAfter "alice" h).2 3 = some "b" ∧
    Router.getRoute (routerAfter "alice" h).2 7 = none ∧
    Router.getDomains (routerAfter "alice" h).2 = [3, 7] := by decide +kernel

end C29

/-! ## C30 pagination -/

section C30

variable {κ ν : Type} [LinearOrder κ]

/-- A client reading a listing page by page: it passes the last key of each page as the next offset and stops at the
first empty page. `none` if it has not stopped after the given number of requests or a request failed. -/
def Spec.followPages (page : Option κ → Res (List (κ × ν))) : Nat → Option κ →
    Option (List (κ × ν))
  | 0, _ => none
  | n + 1, start =>
    match page start with
    | .error _ => none
    | .ok p =>
      match p.getLast? with
      | none => some []
      | some (k, _) => (Spec.followPages page n (some k)).map (p ++ ·)

omit [LinearOrder κ] in
theorem followPages_of_rest (page : Option κ → Res (List (κ × ν))) (L : Nat) (hL : 0 < L)
    (all : List (κ × ν))
    (hpage : ∀ a p b, all = a ++ p :: b → page (some p.1) = .ok (b.take L))
    (n : Nat) (a rest : List (κ × ν)) (start : Option κ)
    (hall : all = a ++ rest) (hstart : page start = .ok (rest.take L)) (hn : rest.length < n) :
    Spec.followPages page n start = some rest := by
  induction n generalizing a rest start with
  | zero => omega
  | succ n ih =>
    unfold Spec.followPages
    rw [hstart]
    simp only
    rcases List.eq_nil_or_concat' (rest.take L) with he | ⟨t, p, he⟩
    · rw [he]
      have : rest = [] := by
        rcases rest with _ | ⟨x, xs⟩
        · rfl
        · rw [List.take_cons hL] at he; cases he
      simp [this]
    · rw [he]
      simp only [List.getLast?_append, List.getLast?_singleton, Option.some_or]
      have hsplit : rest = t ++ p :: rest.drop L := by
        conv_lhs => rw [← List.take_append_drop L rest, he]
        simp
      have hlen : (rest.drop L).length < n := by
        have := congrArg List.length hsplit
        simp only [List.length_append, List.length_cons] at this
        omega
      have hall' : all = (a ++ t) ++ p :: rest.drop L := by
        rw [hall]; conv_lhs => rw [hsplit]
        simp
      rw [ih (a ++ t ++ [p]) (rest.drop L) (some p.1) (by rw [hall']; simp)
        (hpage _ p _ hall') hlen]
      simp only [Option.map_some, Option.some.injEq]
      conv_rhs => rw [hsplit]
      simp

/-- **C30.** For a page size between 1 and 30 (or the default one), reading a listing page by page terminates and yields
a list whose keys are strictly increasing (decreasing in descending order), hence without repetition, and which
contains an entry exactly when the table does. Larger page sizes are refused. -/
theorem C30_pagination (m : OMap κ ν) (order : Option Order) :
    (∀ limit : Option UInt32, (∀ l, limit = some l → 1 ≤ l ∧ l ≤ 30) →
      ∀ n, m.entries.length < n →
      ∃ r, Spec.followPages (fun start => rangePage m start limit order) n none = some r ∧
        (match order.getD .asc with
          | .asc => (r.map (·.1)).Pairwise (· < ·)
          | .desc => (r.map (·.1)).Pairwise (· > ·)) ∧
        ∀ k v, (k, v) ∈ r ↔ m.get k = some v) ∧
    (∀ l : UInt32, 30 < l → ∀ start, ∃ e, rangePage m start (some l) order = .error e) := by
  refine ⟨?_, ?_⟩
  · intro limit hlim n hn
    obtain ⟨l, hl, hl0⟩ : ∃ l, getAndCheckLimit limit = .ok l ∧ 0 < l.toNat := by
      cases limit with
      | none => exact ⟨10, rfl, by decide⟩
      | some l =>
        obtain ⟨h1, h2⟩ := hlim l rfl
        refine ⟨l, getAndCheckLimit_some.2 ⟨h2, rfl⟩, ?_⟩
        have := UInt32.le_iff_toNat_le.1 h1
        have h1' : (1 : UInt32).toNat = 1 := rfl
        omega
    cases ho : order.getD .asc with
    | asc =>
      refine ⟨m.entries, ?_, ?_, fun k v => OMap.get_eq_some_iff.symm⟩
      · apply followPages_of_rest _ l.toNat hl0 m.entries _ n [] m.entries none rfl _ hn
        · intro a p b hsp
          unfold rangePage
          simp only [hl, ho, ok_bind, pure_eq_ok]
          rw [hsp, filter_gt_of_split (by rw [← hsp]; exact m.sorted)]
        · unfold rangePage
          simp [hl, ho]
      · exact OMap.keys_sorted m
    | desc =>
      refine ⟨m.entries.reverse, ?_, ?_, fun k v => by
        rw [List.mem_reverse]; exact OMap.get_eq_some_iff.symm⟩
      · apply followPages_of_rest _ l.toNat hl0 m.entries.reverse _ n [] m.entries.reverse none rfl
          _ (by simpa using hn)
        · intro a p b hsp
          have hsp' : m.entries = b.reverse ++ p :: a.reverse := by
            have := congrArg List.reverse hsp
            simpa using this
          unfold rangePage
          simp only [hl, ho, ok_bind, pure_eq_ok]
          rw [hsp', filter_lt_of_split (by rw [← hsp']; exact m.sorted)]
          simp
        · unfold rangePage
          simp [hl, ho]
      · show (m.entries.reverse.map (·.1)).Pairwise (· > ·)
        rw [List.map_reverse, List.pairwise_reverse]
        exact OMap.keys_sorted m
  · intro l hl start
    unfold rangePage getAndCheckLimit
    have : ¬ l ≤ maxLimit := by
      rw [not_le]; exact hl
    exact ⟨.err "oversized request", by simp [this]⟩

/-- Three entries read two at a time, descending. -/
example :
    Spec.followPages (fun start => rangePage (OMap.ofList [((5 : UInt32), "e"), (2, "b"), (9, "i")])
      start (some 2) (some .desc)) 4 none = some [(9, "i"), (5, "e"), (2, "b")] := by
  decide +kernel

end C30

/-! ## C31 connection settings -/

/-- State of a contract with connection settings after a history. -/
def connectionAfter (o0 : Addr) (s0 : Connection.State) (h : List (OwnedCall Connection.Msg)) :
    Ownable.State × Connection.State := run connectionStep (Ownable.init o0, s0) h

/-- **C31.** After any history one more call changes a setting only if it is the owner's call for that very setting with
an address the chain accepts, and then the setting is that address and the other two are as before; and such a call
always succeeds. -/
theorem C31_connection (o0 : Addr) (s0 : Connection.State) (h : List (OwnedCall Connection.Msg))
    (c : OwnedCall Connection.Msg) :
    let s := (connectionAfter o0 s0 h).2
    let s' := (connectionAfter o0 s0 (h ++ [c])).2
    let own := (connectionAfter o0 s0 h).1.owner
    (s'.mailbox ≠ s.mailbox →
      ∃ a, c.msg = .inr (.setMailbox a) ∧ own = some c.sender ∧ c.valid a = true ∧
        s'.mailbox = some a ∧ s'.ism = s.ism ∧ s'.hook = s.hook) ∧
    (s'.ism ≠ s.ism →
      ∃ a, c.msg = .inr (.setIsm a) ∧ own = some c.sender ∧ c.valid a = true ∧
        s'.ism = some a ∧ s'.mailbox = s.mailbox ∧ s'.hook = s.hook) ∧
    (s'.hook ≠ s.hook →
      ∃ a, c.msg = .inr (.setHook a) ∧ own = some c.sender ∧ c.valid a = true ∧
        s'.hook = some a ∧ s'.mailbox = s.mailbox ∧ s'.ism = s.ism) ∧
    (∀ a, own = some c.sender → c.valid a = true →
      (c.msg = .inr (.setMailbox a) → s'.mailbox = some a) ∧
      (c.msg = .inr (.setIsm a) → s'.ism = some a) ∧
      (c.msg = .inr (.setHook a) → s'.hook = some a)) := by
  intro s s' own
  have hsn : connectionAfter o0 s0 (h ++ [c]) =
      applyCall connectionStep (connectionAfter o0 s0 h) c := run_snoc _ _ _ _
  have hgo : ∀ m r, c.msg = .inr m →
      Connection.handle c.valid (connectionAfter o0 s0 h).1 s c.sender m = .ok r → s' = r := by
    intro m r hm hr
    have : connectionStep (connectionAfter o0 s0 h) c = .ok ((connectionAfter o0 s0 h).1, r) := by
      unfold connectionStep ownedStep
      rw [hm]
      simp only
      rw [hr]
      rfl
    show (connectionAfter o0 s0 (h ++ [c])).2 = r
    rw [hsn, applyCall_ok this]
  have hlast : ∀ a, own = some c.sender → c.valid a = true →
      (c.msg = .inr (.setMailbox a) → s'.mailbox = some a) ∧
      (c.msg = .inr (.setIsm a) → s'.ism = some a) ∧
      (c.msg = .inr (.setHook a) → s'.hook = some a) := by
    intro a ho hv
    refine ⟨fun hm => ?_, fun hm => ?_, fun hm => ?_⟩
    · rw [hgo _ _ hm (Connection.handle_ok.2 ⟨ho, hv, rfl⟩)]
    · rw [hgo _ _ hm (Connection.handle_ok.2 ⟨ho, hv, rfl⟩)]
    · rw [hgo _ _ hm (Connection.handle_ok.2 ⟨ho, hv, rfl⟩)]
  have hcases : s' = s ∨ ∃ m, c.msg = .inr m ∧
      Connection.handle c.valid (connectionAfter o0 s0 h).1 s c.sender m = .ok s' := by
    rcases applyCall_cases connectionStep (connectionAfter o0 s0 h) c with ⟨e, _, he⟩ | ⟨r, h1, h2⟩
    · left; show (connectionAfter o0 s0 (h ++ [c])).2 = _; rw [hsn, he]
    · have hs' : s' = r.2 := by show (connectionAfter o0 s0 (h ++ [c])).2 = _; rw [hsn, h2]
      rcases ownedStep_ok _ h1 with ⟨m, _, _, he⟩ | ⟨m, hm, hh, _⟩
      · left; rw [hs', he]
      · right; exact ⟨m, hm, by rw [hs']; exact hh⟩
  refine ⟨?_, ?_, ?_, hlast⟩
  all_goals
    intro hne
    rcases hcases with he | ⟨m, hm, hh⟩
    · rw [he] at hne; exact absurd rfl hne
    · obtain ⟨ho, hr⟩ := Connection.handle_ok.1 hh
      cases m <;>
      · obtain ⟨hv, hr⟩ := hr
        rw [hr] at hne ⊢
        first
          | exact absurd rfl hne
          | exact ⟨_, hm, ho, hv, rfl, rfl, rfl⟩

/-- An accepted change, one refused for an invalid address, one refused for the caller. -/
example :
    (connectionAfter "alice" Connection.empty
      [⟨fun a => a == "mb", "alice", .inr (.setMailbox "mb")⟩,
       ⟨fun a => a == "mb", "alice", .inr (.setIsm "??")⟩,
       ⟨fun _ => true, "eve", .inr (.setHook "h")⟩]).2 = ⟨some "mb", none, none⟩ := by
  decide +kernel

/-! ## C32 migration -/

/-- Stored name and version after a sequence of migrations, each to a contract name and version. -/
def migratedBy {V : Type} [LT V] [DecidableLT V] (parse : String → Option V) (s0 : Migrate.Stored)
    (h : List (String × String)) : Option Migrate.Stored :=
  run (fun s (c : String × String) => Migrate.migrate parse s c.1 c.2) (some s0) h

/-- **C32.** After any sequence `h` of attempted migrations, and any further sequence `g`: the contract name is still
the original one, the version is the same or strictly greater in version order (unequal strings only if strictly
greater), and a migration to a version not strictly greater than one that was in force at any earlier time fails.
`parse` and the order on versions are arbitrary. -/
theorem C32_migration {V : Type} [LinearOrder V] (parse : String → Option V)
    (s0 : Migrate.Stored) (h g : List (String × String)) :
    ∃ s s', migratedBy parse s0 h = some s ∧ migratedBy parse s0 (h ++ g) = some s' ∧
      s.contract = s0.contract ∧ s'.contract = s0.contract ∧
      (s'.version = s.version ∨ ∃ v v', parse s.version = some v ∧ parse s'.version = some v' ∧
        v < v') ∧
      (∀ name w, (∀ v u, parse s.version = some v → parse w = some u → u ≤ v) →
        ∃ e, Migrate.migrate parse (migratedBy parse s0 (h ++ g)) name w = .error e) := by
  have hbase : ∃ s, migratedBy parse s0 h = some s ∧ s.contract = s0.contract := by
    apply run_invariant (fun st : Option Migrate.Stored => ∃ s, st = some s ∧ s.contract = s0.contract)
    · rintro st c st' ⟨s, rfl, hs⟩ hm
      obtain ⟨s1, sv, v, h1, h2, _, _, _, rfl⟩ := Migrate.migrate_ok.1 hm
      cases h1
      exact ⟨_, rfl, by rw [← h2]; exact hs⟩
    · exact ⟨s0, rfl, rfl⟩
  obtain ⟨s, hs, hsc⟩ := hbase
  have hnext : ∃ s', migratedBy parse s0 (h ++ g) = some s' ∧ s'.contract = s0.contract ∧
      (s'.version = s.version ∨ ∃ v v', parse s.version = some v ∧ parse s'.version = some v' ∧
        v < v') := by
    have he : migratedBy parse s0 (h ++ g) =
        run (fun s (c : String × String) => Migrate.migrate parse s c.1 c.2) (some s) g := by
      rw [← hs]; exact run_append _ _ _ _
    rw [he]
    apply run_invariant (fun st : Option Migrate.Stored => ∃ s', st = some s' ∧
      s'.contract = s0.contract ∧
      (s'.version = s.version ∨ ∃ v v', parse s.version = some v ∧ parse s'.version = some v' ∧
        v < v'))
    · rintro st c st' ⟨s1, rfl, hs1, hv⟩ hm
      obtain ⟨s2, sv, v, h1, h2, h3, h4, h5, rfl⟩ := Migrate.migrate_ok.1 hm
      cases h1
      refine ⟨_, rfl, by rw [← h2]; exact hs1, .inr ?_⟩
      rcases hv with hv | ⟨a, b, h6, h7, h8⟩
      · exact ⟨sv, v, by rw [← hv]; exact h3, h4, h5⟩
      · rw [h3] at h7
        cases h7
        exact ⟨a, v, h6, h4, lt_trans h8 h5⟩
    · exact ⟨s, rfl, hsc, .inl rfl⟩
  obtain ⟨s', hs', hsc', hv⟩ := hnext
  refine ⟨s, s', hs, hs', hsc, hsc', hv, ?_⟩
  intro name w hw
  rw [← not_ok_iff]
  intro st' hm
  rw [hs'] at hm
  obtain ⟨s2, sv, v, h1, h2, h3, h4, h5, rfl⟩ := Migrate.migrate_ok.1 hm
  cases h1
  rcases hv with hv | ⟨a, b, h6, h7, h8⟩
  · rw [hv] at h3
    exact absurd (hw sv v h3 h4) (not_le.2 h5)
  · rw [h3] at h7
    cases h7
    exact absurd (hw a v h6 h4) (not_le.2 (lt_trans h8 h5))

/-- With versions `major.minor.patch` compared lexicographically: an upgrade succeeds, repeating it and going back do
not. -/
example :
    let parse : String → Option (Nat ×ₗ Nat ×ₗ Nat) := fun s =>
      if s = "0.1.0" then some (toLex (0, toLex (1, 0)))
      else if s = "0.0.7" then some (toLex (0, toLex (0, 7))) else none
    migratedBy parse ⟨"crates.io:hpl-mailbox", "0.0.7"⟩
      [("crates.io:hpl-mailbox", "0.1.0"), ("crates.io:hpl-mailbox", "0.1.0"),
       ("crates.io:hpl-mailbox", "0.0.7"), ("other", "0.1.0")] =
      some ⟨"crates.io:hpl-mailbox", "0.1.0"⟩ := by decide +kernel

end Hpl
