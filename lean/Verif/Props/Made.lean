import Verif.Props.Start
import Verif.Spec.Made

/-! # C106: which contracts can be made -/

namespace Hpl

open Spec

theorem made_ensure {σ : Type} {b : Bool} {tag : String} {o : Addr} {x : σ} {P : σ → Prop} (h : P x) :
    Made (do ensure b tag; return (Ownable.init o, x)) (b = true) o P := by
  cases b
  · refine ⟨⟨?_, fun h => (Bool.noConfusion h)⟩, ?_⟩
    · rintro ⟨s, h⟩
      cases h
    · intro s h
      cases h
  · refine ⟨⟨fun _ => rfl, fun _ => ⟨_, rfl⟩⟩, ?_⟩
    intro s h
    cases h
    exact ⟨rfl, rfl, ‹_›⟩

theorem made_also {σ : Type} {b : Bool} {tag : String} {o : Addr} {r : Res (Ownable.State × σ)} {c : Prop} {P : σ → Prop}
    (h : Made r c o P) : Made (do ensure b tag; r) (b = true ∧ c) o P := by
  cases b
  · refine ⟨⟨?_, fun h => (Bool.noConfusion h.1)⟩, ?_⟩
    · rintro ⟨s, h⟩
      cases h
    · intro s h
      cases h
  · refine ⟨⟨fun h' => ⟨rfl, h.1.1 h'⟩, fun h' => h.1.2 h'.2⟩, fun s hs => h.2 s hs⟩

theorem Spec.Made.imp {σ : Type} {o : Addr} {r : Res (Ownable.State × σ)} {c c' : Prop} {P P' : σ → Prop}
    (h : Made r c o P) (hc : c ↔ c') (hP : ∀ x, P x → P' x) : Made r c' o P' :=
  ⟨h.1.trans hc, fun s hs => ⟨(h.2 s hs).1, (h.2 s hs).2.1, hP _ (h.2 s hs).2.2⟩⟩

/-- **C106** (hooks and gas). Each hook, the paymaster and the gas oracle are made exactly if the addresses named are valid (for the
paymaster: if moreover its prefix is in lower case and the chain answers how much there is of its token). They belong to the owner named; the settings named
by the creator are in force, and there are no others. -/
theorem C106_hooks (lower : Char → Bool) (valid : Addr → Bool) (owner : Addr) :
    (∀ fee, Made (FeeHook.instantiate valid owner fee) (valid owner = true) owner (· = fee)) ∧
    (∀ paused, Made (PausableHook.instantiate valid owner paused) (valid owner = true) owner (· = paused)) ∧
    (∀ hooks, Made (AggregateHook.instantiate valid owner hooks) (valid owner = true ∧ ∀ a ∈ hooks, valid a = true) owner
      (· = hooks)) ∧
    Made (RoutingHook.instantiate valid owner) (valid owner = true) owner (fun s => ∀ d, Router.getRoute s d = none) ∧
    Made (FallbackHook.instantiate valid owner) (valid owner = true) owner
      (fun s => (∀ d, Router.getRoute s.routes d = none) ∧ s.fallback = none) ∧
    Made (CustomHook.instantiate valid owner) (valid owner = true) owner
      (fun s => (∀ d, Router.getRoute s.routes d = none) ∧ ∀ k, s.custom.get k = none) ∧
    (∀ exists_ hrp token beneficiary gas,
      Made (Igp.instantiate lower valid exists_ hrp owner token beneficiary gas)
        ((∀ c ∈ hrp.toList, lower c = true) ∧ exists_ = true ∧ valid owner = true ∧ valid beneficiary = true) owner
        (fun s => s.hrp = hrp ∧ s.gasToken = token ∧ s.beneficiary = beneficiary ∧ (∀ d, Igp.gasFor s d = gas) ∧
          ∀ d, Router.getRoute s.routes d = none)) ∧
    Made (Oracle.instantiate valid owner) (valid owner = true) owner (fun s => ∀ d, s.get d = none) := by
  refine ⟨fun _ => made_ensure rfl, fun _ => made_ensure rfl, fun hooks => ?_, made_ensure fun _ => rfl,
    made_ensure ⟨fun _ => rfl, rfl⟩, made_ensure ⟨fun _ => rfl, fun _ => rfl⟩, fun e hrp t b g => ?_, made_ensure fun _ => rfl⟩
  · exact (made_also (made_ensure rfl)).imp (by rw [List.all_eq_true]) fun _ h => h.symm
  · exact (made_also (made_also (made_also (made_ensure (P := fun s : Igp.State => s.hrp = hrp ∧ s.gasToken = t ∧ s.beneficiary = b ∧
      (∀ d, Igp.gasFor s d = g) ∧ ∀ d, Router.getRoute s.routes d = none) ⟨rfl, rfl, rfl, fun _ => rfl, fun _ => rfl⟩)))).imp
      (by rw [List.all_eq_true]) fun _ => id

theorem setAll_some {valid : Addr → Bool} {l : List (UInt32 × Addr)} {s : RoutingIsm.State} :
    (∃ s', RoutingIsm.setAll valid s l = .ok s') ↔ ∀ p ∈ l, valid p.2 = true := by
  induction l generalizing s with
  | nil => simp [RoutingIsm.setAll]
  | cons x t ih =>
    obtain ⟨d, a⟩ := x
    simp only [RoutingIsm.setAll, List.forall_mem_cons]
    rw [← ih (s := s.insert d a)]
    constructor
    · rintro ⟨s', h⟩
      obtain ⟨_, h1, h2⟩ := bind_eq_ok.1 h
      exact ⟨ensure_eq_ok.1 h1, s', h2⟩
    · rintro ⟨h1, s', h2⟩
      exact ⟨s', bind_eq_ok.2 ⟨(), ensure_eq_ok.2 h1, h2⟩⟩

theorem setAll_get {valid : Addr → Bool} {l : List (UInt32 × Addr)} {s s' : RoutingIsm.State}
    (h : RoutingIsm.setAll valid s l = .ok s') (d : UInt32) : s'.get d = (lastNamed l d).or (s.get d) := by
  induction l generalizing s with
  | nil => cases h; rfl
  | cons x t ih =>
    obtain ⟨d', a⟩ := x
    obtain ⟨_, _, h2⟩ := bind_eq_ok.1 h
    rw [ih h2]
    simp only [lastNamed, List.reverse_cons, List.find?_append]
    cases List.find? (fun p => decide (p.1 = d)) t.reverse with
    | some p => rfl
    | none =>
      by_cases hd : d' = d
      · subst hd
        simp
      · rw [OMap.get_insert_ne _ _ (Ne.symm hd)]
        simp [hd]

/-- **C106** (security modules). The same for security modules. Of several initial modules for a domain the last one counts. The
threshold of an aggregate is not looked at (see C40). -/
theorem C106_modules (valid : Addr → Bool) (sender owner : Addr) :
    (∀ isms, Made (RoutingIsm.instantiate valid owner isms) (valid owner = true ∧ ∀ p ∈ isms, valid p.2 = true) owner
      (fun s => ∀ d, s.get d = lastNamed isms d)) ∧
    (∀ isms threshold, Made (AggregateIsm.instantiate valid owner isms threshold)
      (valid owner = true ∧ ∀ a ∈ isms, valid a = true) owner (· = ⟨isms, threshold⟩)) ∧
    Made ((Start.multisigIsm valid owner).map Prod.fst) (valid owner = true) owner
      (fun s => ∀ d, s.validators.get d = none ∧ s.threshold.get d = none) ∧
    ∀ paused, Made ((Start.pausableIsm valid sender owner paused).map Prod.fst) (valid owner = true) owner (· = paused) := by
  refine ⟨fun isms => ?_, fun isms t => ?_, ?_, fun p => ?_⟩
  · have h : Made (do let s ← RoutingIsm.setAll valid OMap.empty isms; return (Ownable.init owner, s))
        (∀ p ∈ isms, valid p.2 = true) owner (fun s => ∀ d, s.get d = lastNamed isms d) := by
      refine ⟨?_, ?_⟩
      · rw [← setAll_some (s := OMap.empty)]
        constructor
        · rintro ⟨s, h⟩
          obtain ⟨m, h1, _⟩ := bind_eq_ok.1 h
          exact ⟨m, h1⟩
        · rintro ⟨m, h⟩
          exact ⟨_, bind_eq_ok.2 ⟨m, h, rfl⟩⟩
      · intro s h
        obtain ⟨m, h1, h2⟩ := bind_eq_ok.1 h
        cases h2
        refine ⟨rfl, rfl, fun d => ?_⟩
        rw [setAll_get h1]
        simp
    exact made_also h
  · exact (made_also (made_ensure rfl)).imp (by rw [List.all_eq_true]) fun _ h => h.symm
  · unfold Start.multisigIsm
    cases h : valid owner
    · refine ⟨⟨?_, fun h => (Bool.noConfusion h)⟩, ?_⟩
      · rintro ⟨s, h⟩
        cases h
      · intro s h
        cases h
    · refine ⟨⟨fun _ => rfl, fun _ => ⟨_, rfl⟩⟩, ?_⟩
      intro s h
      cases h
      exact ⟨rfl, rfl, fun _ => ⟨rfl, rfl⟩⟩
  · unfold Start.pausableIsm
    cases h : valid owner
    · refine ⟨⟨?_, fun h => (Bool.noConfusion h)⟩, ?_⟩
      · rintro ⟨s, h⟩
        cases h
      · intro s h
        cases h
    · refine ⟨⟨fun _ => rfl, fun _ => ⟨_, rfl⟩⟩, ?_⟩
      intro s h
      cases h
      exact ⟨rfl, rfl, rfl⟩

/-- **C106** (mailbox, merkle hook, announcements, routers). The same for the others. The mailbox is made without default module and
hooks, and has announced and delivered nothing; the merkle hook has no leaves; nothing is announced; routers have no routes. -/
theorem C106_others (C : Codec) (zs : List Bytes) (lower : Char → Bool) (valid : Addr → Bool) (owner mailbox : Addr) :
    (∀ hrp domain, ((∃ s, Mailbox.instantiate lower valid hrp domain owner = .ok s) ↔
        (∀ c ∈ hrp.toList, lower c = true) ∧ valid owner = true) ∧
      ∀ s, Mailbox.instantiate lower valid hrp domain owner = .ok s → s.own = ⟨some owner, none⟩ ∧
        s.config = ⟨hrp, domain, none, none, none⟩ ∧ s.nonce = 0 ∧ s.latest = none ∧
        ∀ id, Mailbox.getDelivered s id = false) ∧
    (((∃ s, MerkleHook.instantiate zs valid mailbox = .ok s) ↔ valid mailbox = true) ∧
      ∀ s, MerkleHook.instantiate zs valid mailbox = .ok s → s.mailbox = mailbox ∧ s.tree.count = 0) ∧
    (∀ domain, ((∃ s, Va.instantiate C valid mailbox domain = .ok s) ↔
        valid mailbox = true ∧ (∃ raw, bech32Decode C mailbox = .ok raw) ∧ ∃ d, domain = .ok d) ∧
      ∀ s, Va.instantiate C valid mailbox domain = .ok s → bech32Decode C mailbox = .ok (Va.getMailbox s) ∧
        domain = .ok (Va.getLocalDomain s) ∧ Va.getValidators s = [] ∧ ∀ vs, Va.getAnnounce s vs = vs.map (·, [])) ∧
    ∀ hrp mode token, Made (Warp.instantiate valid hrp owner mailbox mode token) (valid owner = true ∧ valid mailbox = true) owner
      (fun s => s.token = token ∧ s.mode = mode ∧ s.hrp = hrp ∧ s.mailbox = mailbox ∧ ∀ d, Router.getRoute s.routes d = none) := by
  refine ⟨fun hrp domain => ⟨?_, ?_⟩, ⟨?_, ?_⟩, fun domain => ⟨?_, ?_⟩, fun hrp mode token => ?_⟩
  · constructor
    · rintro ⟨s, h⟩
      obtain ⟨_, h1, h⟩ := bind_eq_ok.1 h
      obtain ⟨_, h2, h⟩ := bind_eq_ok.1 h
      exact ⟨List.all_eq_true.1 (ensure_eq_ok.1 h1), ensure_eq_ok.1 h2⟩
    · rintro ⟨h1, h2⟩
      exact ⟨_, bind_eq_ok.2 ⟨(), ensure_eq_ok.2 (List.all_eq_true.2 h1), bind_eq_ok.2 ⟨(), ensure_eq_ok.2 h2, rfl⟩⟩⟩
  · intro s h
    obtain ⟨_, _, h⟩ := bind_eq_ok.1 h
    obtain ⟨_, _, h⟩ := bind_eq_ok.1 h
    cases h
    exact ⟨rfl, rfl, rfl, rfl, fun _ => rfl⟩
  · constructor
    · rintro ⟨s, h⟩
      obtain ⟨_, h1, h⟩ := bind_eq_ok.1 h
      exact ensure_eq_ok.1 h1
    · intro h
      exact ⟨_, bind_eq_ok.2 ⟨(), ensure_eq_ok.2 h, rfl⟩⟩
  · intro s h
    obtain ⟨_, _, h⟩ := bind_eq_ok.1 h
    cases h
    exact ⟨rfl, rfl⟩
  · constructor
    · rintro ⟨s, h⟩
      obtain ⟨_, h1, h⟩ := bind_eq_ok.1 h
      obtain ⟨raw, h2, h⟩ := bind_eq_ok.1 h
      obtain ⟨d, h3, h⟩ := bind_eq_ok.1 h
      exact ⟨ensure_eq_ok.1 h1, ⟨raw, h2⟩, d, h3⟩
    · rintro ⟨h1, ⟨raw, h2⟩, d, h3⟩
      exact ⟨_, bind_eq_ok.2 ⟨(), ensure_eq_ok.2 h1, bind_eq_ok.2 ⟨raw, h2, bind_eq_ok.2 ⟨d, h3, rfl⟩⟩⟩⟩
  · intro s h
    obtain ⟨_, _, h⟩ := bind_eq_ok.1 h
    obtain ⟨raw, h2, h⟩ := bind_eq_ok.1 h
    obtain ⟨d, h3, h⟩ := bind_eq_ok.1 h
    cases h
    exact ⟨h2, h3, rfl, fun _ => rfl⟩
  · exact made_also (made_ensure ⟨rfl, rfl, rfl, rfl, fun _ => rfl⟩)

/-- **C106** (collateral of routers). A router for existing tokens is made exactly if owner and mailbox are valid and, where the
token is a contract, so is its address. The token is as named and unchanged. -/
theorem C106_collateral (valid : Addr → Bool) (self : Addr) (i : Deploy.Init) (strict : Bool) (created : Addr) (data : Bytes)
    (b : Bank) (token : Cw20) (name : String) :
    ((∃ x, Deploy.native valid self i b (.collateral name) = .ok x) ↔ valid i.owner = true ∧ valid i.mailbox = true) ∧
    (∀ x, Deploy.native valid self i b (.collateral name) = .ok x → x.1.2.token = some name ∧ x.2 = b) ∧
    ((∃ x, Deploy.cw20 valid self i strict created data token (.collateral name) = .ok x) ↔
      valid name = true ∧ valid i.owner = true ∧ valid i.mailbox = true) ∧
    ∀ x, Deploy.cw20 valid self i strict created data token (.collateral name) = .ok x → x.1.2.token = some name ∧ x.2 = token := by
  have hw := (C106_others ⟨fun _ _ => none, fun _ => none⟩ [] (fun _ => true) valid i.owner i.mailbox).2.2.2 i.hrp .collateral (some name)
  refine ⟨⟨?_, ?_⟩, ?_, ⟨?_, ?_⟩, ?_⟩
  · rintro ⟨x, h⟩
    obtain ⟨s, h1, _⟩ := bind_eq_ok.1 h
    exact hw.1.1 ⟨s, h1⟩
  · intro h
    obtain ⟨s, h1⟩ := hw.1.2 h
    exact ⟨_, bind_eq_ok.2 ⟨s, h1, rfl⟩⟩
  · intro x h
    obtain ⟨s, h1, h2⟩ := bind_eq_ok.1 h
    cases h2
    exact ⟨(hw.2 s h1).2.2.1, rfl⟩
  · rintro ⟨x, h⟩
    obtain ⟨_, h0, h⟩ := bind_eq_ok.1 h
    obtain ⟨s, h1, _⟩ := bind_eq_ok.1 h
    exact ⟨ensure_eq_ok.1 h0, hw.1.1 ⟨s, h1⟩⟩
  · rintro ⟨h0, h⟩
    obtain ⟨s, h1⟩ := hw.1.2 h
    exact ⟨_, bind_eq_ok.2 ⟨(), ensure_eq_ok.2 h0, bind_eq_ok.2 ⟨s, h1, rfl⟩⟩⟩
  · intro x h
    obtain ⟨_, h0, h⟩ := bind_eq_ok.1 h
    obtain ⟨s, h1, h2⟩ := bind_eq_ok.1 h
    cases h2
    exact ⟨(hw.2 s h1).2.2.1, rfl⟩

/-- A routing module with two modules for domain one: the later one counts. With an address that is not valid it is not made. -/
example :
    let valid : Addr → Bool := fun a => a != "x"
    (RoutingIsm.instantiate valid "o" [(1, "a"), (2, "b"), (1, "c")]).toOption.map (fun s => (s.2.get 1, s.2.get 2, s.2.get 3)) =
      some (some "c", some "b", none) ∧
    lastNamed [(1, "a"), (2, "b"), (1, "c")] 1 = some "c" ∧
    (RoutingIsm.instantiate valid "o" [(1, "x"), (2, "b"), (1, "c")]).toOption.isSome = false ∧
    (Igp.instantiate Char.isLower valid true "osmo" "o" "uosmo" "p" 100).toOption.isSome = true ∧
    (Igp.instantiate Char.isLower valid true "osmo" "o" "uosmo" "x" 100).toOption.isSome = false ∧
    (Mailbox.instantiate Char.isLower valid "osmo" 1 "o").toOption.isSome = true := by
  decide +kernel

end Hpl
