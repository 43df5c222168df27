import Verif.Spec.Governance
import Verif.Lemmas.Hooks
import Verif.Lemmas.Isms
import Verif.Lemmas.Igp
import Verif.Lemmas.Mailbox
import Verif.Lemmas.Warp

/-! # Lemmas about contracts with an owner -/

namespace Hpl

open Spec

/-- What has to be shown of the single steps of a contract. -/
structure Stepwise (G : Governed) : Prop where
  start : ∀ s, G.start s → ∃ o, (G.own s).owner = some o
  quiet : ∀ s c s', G.step s c = .ok s' → (∀ v m, G.act c ≠ .ownership v m) → G.own s' = G.own s
  only : ∀ s c s' v m, G.step s c = .ok s' → G.act c = .ownership v m →
    Ownable.handle v (G.own s) (G.sender c) m = .ok (G.own s')
  able : ∀ s c v m o, G.act c = .ownership v m → Ownable.handle v (G.own s) (G.sender c) m = .ok o →
    ∃ s', G.step s c = .ok s' ∧ G.own s' = o
  settings : ∀ s c f, G.act c = .settings f →
    ((∃ s', G.step s c = .ok s') ↔ (G.own s).owner = some (G.sender c) ∧ f s)

namespace Ownable

/-- Who can change the ownership, and how. -/
theorem handle_cases {v : Addr → Bool} {s s' : State} {a : Addr} {m : Msg} (h : handle v s a m = .ok s') :
    (∃ n, m = .initTransfer n ∧ s.owner = some a ∧ s.pending = none ∧ s' = ⟨s.owner, some n⟩) ∨
    (m = .revoke ∧ s.owner = some a ∧ s' = ⟨s.owner, none⟩) ∨
    (m = .claim ∧ s.pending = some a ∧ s' = ⟨some a, none⟩) := by
  cases m with
  | initTransfer n =>
    obtain ⟨_, h2, h3, h4⟩ := handle_init_ok.1 h
    exact .inl ⟨n, rfl, h2, h3, by simpa using h4⟩
  | revoke =>
    obtain ⟨h1, h2, h3⟩ := handle_revoke_ok.1 h
    exact .inr (.inl ⟨rfl, h1, by simpa using h3⟩)
  | claim =>
    obtain ⟨h1, h2⟩ := handle_claim_ok.1 h
    exact .inr (.inr ⟨rfl, h1, by simpa using h2⟩)

end Ownable

namespace Stepwise

variable {G : Governed}

/-- A call that changes the ownership comes from the owner or the nominee. -/
theorem change (W : Stepwise G) {s s' : G.State} {c : G.Call} (h : G.step s c = .ok s') (hn : G.own s' ≠ G.own s) :
    (∃ v m, G.act c = .ownership v m) ∧
      ((G.own s).owner = some (G.sender c) ∨ (G.own s).pending = some (G.sender c)) := by
  by_cases ha : ∃ v m, G.act c = .ownership v m
  · refine ⟨ha, ?_⟩
    obtain ⟨v, m, ha⟩ := ha
    rcases Ownable.handle_cases (W.only s c s' v m h ha) with ⟨_, _, h1, _⟩ | ⟨_, h1, _⟩ | ⟨_, h1, _⟩
    · exact .inl h1
    · exact .inl h1
    · exact .inr h1
  · exact absurd (W.quiet s c s' h (fun v m hm => ha ⟨v, m, hm⟩)) hn

theorem apply_same (W : Stepwise G) {s : G.State} {c : G.Call} (h1 : (G.own s).owner ≠ some (G.sender c))
    (h2 : (G.own s).pending ≠ some (G.sender c)) : G.own (applyCall G.step s c) = G.own s := by
  rcases applyCall_cases G.step s c with ⟨_, _, he⟩ | ⟨s', h3, h4⟩
  · rw [he]
  · rw [h4]
    by_contra hn
    rcases (W.change h3 hn).2 with h | h
    · exact h1 h
    · exact h2 h

/-- Calls of others than owner and nominee do not change the ownership. -/
theorem run_same (W : Stepwise G) {s : G.State} {h : List G.Call}
    (ho : ∀ c ∈ h, (G.own s).owner ≠ some (G.sender c) ∧ (G.own s).pending ≠ some (G.sender c)) :
    G.own (run G.step s h) = G.own s := by
  induction h generalizing s with
  | nil => rfl
  | cons c t ih =>
    have e := W.apply_same (ho c (List.mem_cons_self ..)).1 (ho c (List.mem_cons_self ..)).2
    rw [run_cons, ih (by rw [e]; exact fun d hd => ho d (List.mem_cons_of_mem _ hd)), e]

theorem owner (W : Stepwise G) {s0 : G.State} (h0 : G.start s0) (h : List G.Call) :
    ∃ o, (G.own (run G.step s0 h)).owner = some o := by
  refine run_invariant (fun s => ∃ o, (G.own s).owner = some o) ?_ s0 h (W.start s0 h0)
  rintro s c s' ⟨o, ho⟩ hs
  by_cases ha : ∃ v m, G.act c = .ownership v m
  · obtain ⟨v, m, ha⟩ := ha
    rcases Ownable.handle_cases (W.only s c s' v m hs ha) with ⟨_, _, _, _, he⟩ | ⟨_, _, he⟩ | ⟨_, _, he⟩
    · exact ⟨o, by rw [he]; exact ho⟩
    · exact ⟨o, by rw [he]; exact ho⟩
    · exact ⟨_, by rw [he]⟩
  · exact ⟨o, by rw [W.quiet s c s' hs (fun v m hm => ha ⟨v, m, hm⟩)]; exact ho⟩

theorem apply_able (W : Stepwise G) {s : G.State} {c : G.Call} {v : Addr → Bool} {m : Ownable.Msg} {o : Ownable.State}
    (ha : G.act c = .ownership v m) (h : Ownable.handle v (G.own s) (G.sender c) m = .ok o) :
    G.own (applyCall G.step s c) = o := by
  obtain ⟨s', h1, h2⟩ := W.able s c v m o ha h
  rw [applyCall_ok h1, h2]

theorem canHandOver (W : Stepwise G) {s : G.State} {o : Addr} (ho : (G.own s).owner = some o) : CanHandOver G s o := by
  intro n v v' v'' revoke nominate accept h h' hr1 hr2 hn1 hn2 hv ha1 ha2 hh hh'
  have e1 : G.own (applyCall G.step s revoke) = ⟨some o, none⟩ := by
    cases hp : (G.own s).pending with
    | some p =>
      exact W.apply_able hr1 (Ownable.handle_revoke_ok.2 ⟨by rw [hr2]; exact ho, ⟨p, hp⟩, by rw [← ho]⟩)
    | none =>
      rcases applyCall_cases G.step s revoke with ⟨_, _, he⟩ | ⟨s', h3, h4⟩
      · rw [he]
        cases hs : G.own s with
        | mk a b =>
          rw [hs] at ho hp
          cases ho
          cases hp
          rfl
      · have := (Ownable.handle_revoke_ok.1 (W.only _ _ _ _ _ h3 hr1)).2.1
        rw [hp] at this
        obtain ⟨_, this⟩ := this
        cases this
  have e2 : G.own (run G.step (applyCall G.step s revoke) h) = ⟨some o, none⟩ := by
    rw [W.run_same, e1]
    intro c hc
    rw [e1]
    refine ⟨fun hco => hh c hc (Option.some.inj hco).symm, fun hcp => by cases hcp⟩
  have e3 : G.own (applyCall G.step (run G.step (applyCall G.step s revoke) h) nominate) = ⟨some o, some n⟩ := by
    apply W.apply_able hn1
    rw [Ownable.handle_init_ok, e2, hn2]
    exact ⟨hv, rfl, rfl, rfl⟩
  have e4 : G.own (run G.step (applyCall G.step (run G.step (applyCall G.step s revoke) h) nominate) h') =
      ⟨some o, some n⟩ := by
    rw [W.run_same, e3]
    intro c hc
    rw [e3]
    exact ⟨fun hco => (hh' c hc).1 (Option.some.inj hco).symm, fun hcp => (hh' c hc).2 (Option.some.inj hcp).symm⟩
  have : revoke :: h ++ nominate :: h' ++ [accept] = revoke :: (h ++ (nominate :: (h' ++ [accept]))) := by simp
  rw [this, run_cons, run_append, run_cons, run_append, run_cons, run_nil]
  apply W.apply_able ha1
  rw [Ownable.handle_claim_ok, e4, ha2]
  exact ⟨rfl, rfl⟩

theorem inControl (W : Stepwise G) : InControl G := by
  intro s0 h0 h
  obtain ⟨o, ho⟩ := W.owner h0 h
  refine ⟨o, ho, ?_, ?_, W.canHandOver ho⟩
  · intro c f hc
    rw [W.settings _ c f hc, ho]
    constructor
    · rintro ⟨h1, h2⟩
      exact ⟨(Option.some.inj h1).symm, h2⟩
    · rintro ⟨h1, h2⟩
      exact ⟨by rw [h1], h2⟩
  · intro c s' hs hn
    obtain ⟨h1, h2⟩ := W.change hs hn
    refine ⟨h1, ?_⟩
    rcases h2 with h2 | h2
    · rw [ho] at h2
      exact .inl (Option.some.inj h2).symm
    · exact .inr h2

end Stepwise

section

variable {ε σ μ : Type}

theorem stepwise_answering {valid : ε → Addr → Bool} {start : Ownable.State × σ → Prop}
    {part : ε → Ownable.State → σ → Addr → List Coin → μ → Res (σ × Response)}
    {fine : (Addr → Bool) → μ → Option (σ → Prop)}
    (hs : ∀ s, start s → ∃ o, s.1.owner = some o)
    (hf : ∀ e own s sender funds m f, fine (valid e) m = some f →
      ((∃ x, part e own s sender funds m = .ok x) ↔ own.owner = some sender ∧ f s)) :
    Stepwise (answering valid start (execOwned valid part) fine) where
  start := hs
  quiet s c s' h hn := by
    obtain ⟨r, h⟩ := stepOf_ok.1 h
    rcases execOwned_ok h with ⟨m, hm, _⟩ | ⟨m, hm, _, h3⟩
    · exact absurd (by simp only [answering]; rw [hm]; rfl) (hn (valid c.env) m)
    · exact h3
  only s c s' v m h ha := by
    obtain ⟨r, h⟩ := stepOf_ok.1 h
    rcases execOwned_ok h with ⟨m', hm, h2, _⟩ | ⟨m', hm, _, h3⟩
    · simp only [answering] at ha
      rw [hm] at ha
      cases ha
      exact h2
    · simp only [answering] at ha
      rw [hm, actOf] at ha
      split at ha <;> cases ha
  able s c v m o ha h := by
    obtain ⟨e, a, fu, mm⟩ := c
    cases mm with
    | inl m' =>
      cases ha
      exact ⟨(o, s.2), stepOf_ok.2 ⟨{}, execOwned_inl.2 ⟨o, h, rfl⟩⟩, rfl⟩
    | inr m' =>
      simp only [answering] at ha
      rw [actOf] at ha
      split at ha <;> cases ha
  settings s c f ha := by
    obtain ⟨e, a, fu, mm⟩ := c
    cases mm with
    | inl m' => cases ha
    | inr m' =>
      simp only [answering, actOf] at ha
      split at ha
      · rename_i g hg
        cases ha
        refine Iff.trans ?_ (hf e s.1 s.2 a fu m' g hg)
        constructor
        · rintro ⟨s', h⟩
          obtain ⟨r, h⟩ := stepOf_ok.1 h
          obtain ⟨p, hp, _⟩ := execOwned_inr.1 h
          exact ⟨p, hp⟩
        · rintro ⟨p, hp⟩
          exact ⟨_, stepOf_ok.2 ⟨p.2, execOwned_inr.2 ⟨p, hp, rfl⟩⟩⟩
      · cases ha

theorem stepwise_silent {start : Ownable.State × σ → Prop}
    {part : (Addr → Bool) → Ownable.State → σ → Addr → μ → Res σ} {fine : (Addr → Bool) → μ → Option (σ → Prop)}
    (hs : ∀ s, start s → ∃ o, s.1.owner = some o)
    (hf : ∀ v own s sender m f, fine v m = some f →
      ((∃ x, part v own s sender m = .ok x) ↔ own.owner = some sender ∧ f s)) :
    Stepwise (silent start (ownedStep part) fine) where
  start := hs
  quiet s c s' h hn := by
    obtain ⟨v, a, mm⟩ := c
    cases mm with
    | inl m => exact absurd rfl (hn v m)
    | inr m =>
      obtain ⟨p, _, h2⟩ := bind_eq_ok.1 h
      cases h2
      rfl
  only s c s' v m h ha := by
    obtain ⟨v', a, mm⟩ := c
    cases mm with
    | inl m' =>
      cases ha
      obtain ⟨p, h1, h2⟩ := bind_eq_ok.1 h
      cases h2
      exact h1
    | inr m' =>
      simp only [silent, actOf] at ha
      split at ha <;> cases ha
  able s c v m o ha h := by
    obtain ⟨v', a, mm⟩ := c
    cases mm with
    | inl m' =>
      cases ha
      exact ⟨(o, s.2), bind_eq_ok.2 ⟨o, h, rfl⟩, rfl⟩
    | inr m' =>
      simp only [silent, actOf] at ha
      split at ha <;> cases ha
  settings s c f ha := by
    obtain ⟨v, a, mm⟩ := c
    cases mm with
    | inl m' => cases ha
    | inr m' =>
      simp only [silent, actOf] at ha
      split at ha
      · rename_i g hg
        cases ha
        refine Iff.trans ?_ (hf v s.1 s.2 a m' g hg)
        constructor
        · rintro ⟨s', h⟩
          obtain ⟨p, h1, _⟩ := bind_eq_ok.1 h
          exact ⟨p, h1⟩
        · rintro ⟨p, hp⟩
          exact ⟨_, bind_eq_ok.2 ⟨p, hp, rfl⟩⟩
      · cases ha

end

/-! ## When calls succeed -/

/-- Whether a sequence of two steps succeeds. -/
theorem bind_isOk {α β : Type} {x : Res α} {f : α → Res β} :
    (∃ b, (x >>= f) = .ok b) ↔ ∃ a, x = .ok a ∧ ∃ b, f a = .ok b := by
  simp only [bind_eq_ok]
  constructor
  · rintro ⟨b, a, h1, h2⟩
    exact ⟨a, h1, b, h2⟩
  · rintro ⟨a, h1, b, h2⟩
    exact ⟨b, a, h1, h2⟩

theorem ensure_isOk {c : Bool} {t : String} {p : Prop} : (∃ u, ensure c t = .ok u ∧ p) ↔ c = true ∧ p := by
  constructor
  · rintro ⟨u, h1, h2⟩
    exact ⟨ensure_eq_ok.1 h1, h2⟩
  · rintro ⟨h1, h2⟩
    exact ⟨(), by rw [h1]; rfl, h2⟩

theorem onlyOwner_isOk {own : Ownable.State} {a : Addr} {p : Prop} :
    (∃ u, onlyOwner own a = .ok u ∧ p) ↔ own.owner = some a ∧ p := by
  constructor
  · rintro ⟨u, h1, h2⟩
    exact ⟨onlyOwner_ok.1 h1, h2⟩
  · rintro ⟨h1, h2⟩
    exact ⟨(), onlyOwner_ok.2 h1, h2⟩

theorem router_isOk {τ : Type} {own : Ownable.State} {s : Router.State τ} {a : Addr} {m : Router.Msg τ} {p : Prop} :
    (∃ r, Router.handle own s a m = .ok r ∧ p) ↔ own.owner = some a ∧ p := by
  constructor
  · rintro ⟨u, h1, h2⟩
    exact ⟨(Router.handle_ok.1 h1).1, h2⟩
  · rintro ⟨h1, h2⟩
    exact ⟨_, Router.handle_ok.2 ⟨h1, rfl⟩, h2⟩

theorem owner_eq {own : Ownable.State} {a : Addr} {p : Prop} :
    (∃ o, own.owner = some o ∧ o = a ∧ p) ↔ own.owner = some a ∧ p := by
  constructor
  · rintro ⟨o, h1, rfl, h2⟩
    exact ⟨h1, h2⟩
  · rintro ⟨h1, h2⟩
    exact ⟨a, h1, rfl, h2⟩

theorem owner_eq' {own : Ownable.State} {a : Addr} {p : Prop} :
    (∃ o, own.owner = some o ∧ a = o ∧ p) ↔ own.owner = some a ∧ p := by
  rw [← owner_eq]
  simp only [eq_comm]

theorem pause_isOk {own : Ownable.State} {q : Bool} {a : Addr} {m : Pausable.Msg} {p : Prop} :
    (∃ r, Pausable.handle own q a m = .ok r ∧ p) ↔ own.owner = some a ∧ finePause m q ∧ p := by
  simp only [Pausable.handle_ok]
  cases m <;> cases q <;> simp [finePause]

theorem connection_isOk {v : Addr → Bool} {own : Ownable.State} {s : Connection.State} {a : Addr} {m : Connection.Msg}
    {p : Prop} :
    (∃ r, Connection.handle v own s a m = .ok r ∧ p) ↔ own.owner = some a ∧ fineConnection v m ∧ p := by
  simp only [Connection.handle_ok]
  cases m <;> simp [fineConnection, and_assoc]

theorem ensure_isOk' {c : Bool} {t : String} : (∃ u, ensure c t = .ok u) ↔ c = true := by
  simpa using ensure_isOk (c := c) (t := t) (p := True)

theorem onlyOwner_isOk' {own : Ownable.State} {a : Addr} : (∃ u, onlyOwner own a = .ok u) ↔ own.owner = some a := by
  simpa using onlyOwner_isOk (own := own) (a := a) (p := True)

theorem router_isOk' {τ : Type} {own : Ownable.State} {s : Router.State τ} {a : Addr} {m : Router.Msg τ} :
    (∃ r, Router.handle own s a m = .ok r) ↔ own.owner = some a := by
  simpa only [and_true] using router_isOk (own := own) (s := s) (a := a) (m := m) (p := True)

theorem pause_isOk' {own : Ownable.State} {q : Bool} {a : Addr} {m : Pausable.Msg} :
    (∃ r, Pausable.handle own q a m = .ok r) ↔ own.owner = some a ∧ finePause m q := by
  simpa only [and_true] using pause_isOk (own := own) (q := q) (a := a) (m := m) (p := True)

theorem connection_isOk' {v : Addr → Bool} {own : Ownable.State} {s : Connection.State} {a : Addr} {m : Connection.Msg} :
    (∃ r, Connection.handle v own s a m = .ok r) ↔ own.owner = some a ∧ fineConnection v m := by
  simpa only [and_true] using connection_isOk (v := v) (own := own) (s := s) (a := a) (m := m) (p := True)

theorem owner_only {own : Ownable.State} {a : Addr} : (∃ o, own.owner = some o ∧ o = a) ↔ own.owner = some a := by
  simpa only [and_true] using owner_eq (own := own) (a := a) (p := True)

theorem owner_only' {own : Ownable.State} {a : Addr} : (∃ o, own.owner = some o ∧ a = o) ↔ own.owner = some a := by
  simpa only [and_true] using owner_eq' (own := own) (a := a) (p := True)

theorem isOk_ok {β : Type} {a : β} : (∃ b, (Except.ok a : Res β) = .ok b) ↔ True := by simp

theorem registerAll_isOk {valid : Addr → Bool} {m : OMap CustomHook.Key Addr} {l : List CustomHook.Registration} {p : Prop} :
    (∃ r, CustomHook.registerAll valid m l = .ok r ∧ p) ↔
      (∀ r ∈ l, (∃ b, fromHexString r.recipient = .ok b ∧ b.length = 32) ∧ valid r.hook = true) ∧ p := by
  induction l generalizing m with
  | nil => simp [CustomHook.registerAll]
  | cons r t ih =>
    constructor
    · rintro ⟨m', h, hp⟩
      simp only [CustomHook.registerAll] at h
      obtain ⟨b, h1, h⟩ := bind_eq_ok.1 h
      obtain ⟨_, h2, h⟩ := bind_eq_ok.1 h
      obtain ⟨_, h3, h⟩ := bind_eq_ok.1 h
      refine ⟨?_, hp⟩
      intro x hx
      rcases List.mem_cons.1 hx with rfl | hx
      · exact ⟨⟨b, h1, of_decide_eq_true (ensure_eq_ok.1 h2)⟩, ensure_eq_ok.1 h3⟩
      · exact (ih.1 ⟨m', h, hp⟩).1 x hx
    · rintro ⟨h, hp⟩
      obtain ⟨⟨b, h1, h2⟩, h3⟩ := h r (List.mem_cons_self ..)
      obtain ⟨m', h4, _⟩ := (ih (m := m.insert (toLex (r.dest, b)) r.hook)).2 ⟨fun x hx => h x (List.mem_cons_of_mem _ hx), hp⟩
      refine ⟨m', ?_, hp⟩
      simp only [CustomHook.registerAll, h1, ok_bind, h2, decide_true, ensure_true, h3, h4]

theorem clearAll_isOk {m : OMap CustomHook.Key Addr} {l : List CustomHook.Clearing} {p : Prop} :
    (∃ r, CustomHook.clearAll m l = .ok r ∧ p) ↔ (∀ r ∈ l, ∃ b, fromHexString r.recipient = .ok b) ∧ p := by
  induction l generalizing m with
  | nil => simp [CustomHook.clearAll]
  | cons r t ih =>
    constructor
    · rintro ⟨m', h, hp⟩
      simp only [CustomHook.clearAll] at h
      obtain ⟨b, h1, h⟩ := bind_eq_ok.1 h
      refine ⟨?_, hp⟩
      intro x hx
      rcases List.mem_cons.1 hx with rfl | hx
      · exact ⟨b, h1⟩
      · exact (ih.1 ⟨m', h, hp⟩).1 x hx
    · rintro ⟨h, hp⟩
      obtain ⟨b, h1⟩ := h r (List.mem_cons_self ..)
      obtain ⟨m', h4, _⟩ := (ih (m := m.erase (toLex (r.dest, b)))).2 ⟨fun x hx => h x (List.mem_cons_of_mem _ hx), hp⟩
      refine ⟨m', ?_, hp⟩
      simp only [CustomHook.clearAll, h1, ok_bind, h4]

theorem setAll_isOk {s : Oracle.State} {l : List Oracle.Config} {p : Prop} :
    (∃ r, Oracle.setAll s l = .ok r ∧ p) ↔ (∀ c ∈ l, c.rate ≠ 0) ∧ p := by
  constructor
  · rintro ⟨r, h, hp⟩
    exact ⟨((Oracle.setAll_eq s l).1 r h).1, hp⟩
  · rintro ⟨h, hp⟩
    obtain ⟨r, hr⟩ := (Oracle.setAll_eq s l).2 h
    exact ⟨r, hr, hp⟩

theorem registerAll_isOk' {valid : Addr → Bool} {m : OMap CustomHook.Key Addr} {l : List CustomHook.Registration} :
    (∃ r, CustomHook.registerAll valid m l = .ok r) ↔
      ∀ r ∈ l, (∃ b, fromHexString r.recipient = .ok b ∧ b.length = 32) ∧ valid r.hook = true := by
  simpa only [and_true] using registerAll_isOk (valid := valid) (m := m) (l := l) (p := True)

theorem clearAll_isOk' {m : OMap CustomHook.Key Addr} {l : List CustomHook.Clearing} :
    (∃ r, CustomHook.clearAll m l = .ok r) ↔ ∀ r ∈ l, ∃ b, fromHexString r.recipient = .ok b := by
  simpa only [and_true] using clearAll_isOk (m := m) (l := l) (p := True)

theorem setAll_isOk' {s : Oracle.State} {l : List Oracle.Config} :
    (∃ r, Oracle.setAll s l = .ok r) ↔ ∀ c ∈ l, c.rate ≠ 0 := by
  simpa only [and_true] using setAll_isOk (s := s) (l := l) (p := True)

/-- The mailbox. -/
theorem stepwise_mailbox (H : Bytes → Bytes) (C : Codec) (lower : Char → Bool) : Stepwise (mailbox H C lower) where
  start s := by
    rintro ⟨v, hrp, d, o, h⟩
    obtain ⟨_, _, h⟩ := bind_eq_ok.1 h
    obtain ⟨_, _, h⟩ := bind_eq_ok.1 h
    cases h
    exact ⟨o, rfl⟩
  quiet s c s' h hn := by
    obtain ⟨r, h⟩ := stepOf_ok.1 h
    obtain ⟨e, a, fu, m⟩ := c
    cases m with
    | ownable m => exact absurd rfl (hn e.valid m)
    | setDefaultIsm x | setDefaultHook x | setRequiredHook x =>
      obtain ⟨p, h1, h2⟩ := bind_eq_ok.1 h
      cases h2
      obtain ⟨_, _, h1⟩ := bind_eq_ok.1 h1
      obtain ⟨_, _, h1⟩ := bind_eq_ok.1 h1
      obtain ⟨_, _, h1⟩ := bind_eq_ok.1 h1
      cases h1
      rfl
    | dispatch d =>
      obtain ⟨_, _, _, _, _, _, _, _, _, _, _, _, _, _, _, _, _, rfl, _⟩ := Mailbox.dispatch_ok.1 h
      rfl
    | process x y =>
      obtain ⟨_, _, _, _, _, _, _, _, _, _, _, _, rfl, _⟩ := Mailbox.process_ok.1 h
      rfl
  only s c s' v m h ha := by
    obtain ⟨r, h⟩ := stepOf_ok.1 h
    obtain ⟨e, a, fu, m'⟩ := c
    cases m' <;> cases ha
    obtain ⟨p, h1, h2⟩ := bind_eq_ok.1 h
    cases h2
    exact h1
  able s c v m o ha h := by
    obtain ⟨e, a, fu, m'⟩ := c
    cases m' <;> cases ha
    exact ⟨{ s with own := o }, stepOf_ok.2 ⟨{}, bind_eq_ok.2 ⟨o, h, rfl⟩⟩, rfl⟩
  settings s c f ha := by
    obtain ⟨e, a, fu, m⟩ := c
    have hs : ∀ c, (∃ s', stepOf (Mailbox.execute H C) s c = .ok s') ↔ ∃ x, Mailbox.execute H C s c = .ok x := by
      intro c
      constructor
      · rintro ⟨s', h⟩
        obtain ⟨r, h⟩ := stepOf_ok.1 h
        exact ⟨_, h⟩
      · rintro ⟨x, h⟩
        exact ⟨x.1, stepOf_ok.2 ⟨x.2, h⟩⟩
    cases m <;> cases ha <;>
    · refine (hs _).trans ?_
      simp only [Mailbox.execute, Mailbox.setDefaultIsm, Mailbox.setDefaultHook, Mailbox.setRequiredHook, bind_isOk,
        pure_eq_ok, isOk_ok, and_true]
      simp only [ensure_isOk, ensure_isOk', Ownable.getOwner_eq_ok, decide_eq_true_eq, owner_eq]
      exact Iff.rfl

set_option linter.unusedSimpArgs false in
/-- The steps of the settings, read as the conditions under which they succeed. -/
macro "settles" "[" d:Lean.Parser.Tactic.simpLemma "]" : tactic =>
  `(tactic| simp only [$d, bind_isOk, pure_eq_ok, isOk_ok, ensure_isOk, ensure_isOk', onlyOwner_isOk, onlyOwner_isOk', router_isOk,
    router_isOk', pause_isOk', connection_isOk, connection_isOk', registerAll_isOk, registerAll_isOk', clearAll_isOk,
    clearAll_isOk', setAll_isOk, setAll_isOk', Ownable.getOwner_eq_ok, owner_only, owner_only', owner_eq, owner_eq',
    decide_eq_true_eq, List.all_eq_true, id, and_true])

end Hpl
