import Verif.Examples.Mailbox
import Verif.Lemmas.Panics
import Verif.Props.Igp
import Verif.Props.Isms
import Verif.Props.MerkleHook
import Verif.Props.Va
import Verif.Props.Warp

/-! # When contracts panic: C92 -/

set_option linter.unusedSimpArgs false

namespace Hpl

open Spec

/-! ## Mailbox -/

theorem panics_expectSet (o : Option Addr) : Panics (Mailbox.expectSet o) ↔ o = none := by
  cases o with
  | none => simp only [iff_true]; exact panics_panic _
  | some a => simp only [reduceCtorEq, iff_false]; exact panics_ok _

theorem expectSet_ok {o : Option Addr} {a : Addr} : Mailbox.expectSet o = .ok a ↔ o = some a := by
  cases o <;> simp [Mailbox.expectSet]

theorem panics_getHookAddr (valid : Addr → Bool) (m : DispatchMsg) (a : Addr) :
    ¬ Panics (Mailbox.getHookAddr valid m a) := by
  unfold Mailbox.getHookAddr
  split
  · exact panics_ok _
  · simp only [panics_bind, panics_ensure, panics_pure, and_false, exists_false, or_self, not_false_eq_true]

theorem panics_nonceSucc (n : UInt32) : Panics (Mailbox.nonceSucc n) ↔ n.toNat = 2 ^ 32 - 1 := by
  have := n.toNat_lt
  unfold Mailbox.nonceSucc; split
  · simp only [panics_ok, false_iff]; omega
  · simp only [panics_panic, true_iff]; omega

/-- **C92**: the mailbox panics only when asked to process fewer than 77 bytes or without default ISM, or when asked to
dispatch for an account with an address longer than 32 bytes, without default or required hook, or after `2^32 - 1`
dispatches. -/
theorem C92_mailbox_why {H : Bytes → Bytes} {C : Codec} {s : Mailbox.State} {c : Mailbox.Call} (he : c.env.Calm)
    (h : Panics (Mailbox.execute H C s c)) :
    (∃ md b, c.msg = .process md b ∧ (b.length < 77 ∨ s.config.defaultIsm = none)) ∨
    (∃ q, c.msg = .dispatch q ∧ q.recipient.length = 32 ∧
      (¬ ShortAddress C c.sender ∨ s.config.defaultHook = none ∨ s.config.requiredHook = none ∨
        s.nonce.toNat = 2 ^ 32 - 1)) := by
  unfold Mailbox.execute at h
  cases hm : c.msg with
  | ownable m =>
    rw [hm] at h
    simp only [panics_bind, panics_ownable, panics_pure, and_false, exists_false, or_self] at h
  | setDefaultIsm a =>
    rw [hm] at h
    simp only [Mailbox.setDefaultIsm, panics_bind, panics_getOwner, panics_ensure, panics_pure, and_false,
      exists_false, or_self] at h
  | setDefaultHook a =>
    rw [hm] at h
    simp only [Mailbox.setDefaultHook, panics_bind, panics_getOwner, panics_ensure, panics_pure, and_false,
      exists_false, or_self] at h
  | setRequiredHook a =>
    rw [hm] at h
    simp only [Mailbox.setRequiredHook, panics_bind, panics_getOwner, panics_ensure, panics_pure, and_false,
      exists_false, or_self] at h
  | dispatch q =>
    rw [hm] at h
    right
    simp only [Mailbox.dispatch] at h
    rw [panics_guard] at h
    obtain ⟨hl, h⟩ := h
    refine ⟨q, rfl, of_decide_eq_true hl, ?_⟩
    simp only [panics_bind, panics_toMsg, panics_expectSet, panics_getHookAddr, he.quote, panics_tryFrom,
      panics_payFees, panics_nonceSucc, panics_pure, and_false, exists_false, or_false, false_or] at h
    rcases h with ⟨raw, h1, h2⟩ | ⟨_, _, h | ⟨_, _, _, _, h | ⟨_, _, _, _, _, _, _, _, h⟩⟩⟩
    · exact .inl (fun hs => absurd (hs raw h1) (by omega))
    · exact .inr (.inl h)
    · exact .inr (.inr (.inl h))
    · exact .inr (.inr (.inr h))
  | process md b =>
    rw [hm] at h
    left
    refine ⟨md, b, rfl, ?_⟩
    simp only [Mailbox.process, panics_bind, panics_decode, panics_bech32Encode, panics_ensure, he.recipientIsm,
      panics_expectSet, he.verify, panics_pure, and_false, exists_false, or_false, false_or] at h
    rcases h with h | ⟨_, _, _, _, _, _, _, _, _, _, h⟩
    · exact .inl h
    · exact .inr h

/-- **C92**: with its settings made, for an account with an ordinary address and nonces left, the mailbox panics exactly
when asked to process fewer than 77 bytes. -/
theorem C92_mailbox_ready {H : Bytes → Bytes} {C : Codec} {s : Mailbox.State} {c : Mailbox.Call} (he : c.env.Calm)
    (hs : s.config.Complete) (ha : ShortAddress C c.sender) (hn : s.nonce.toNat < 2 ^ 32 - 1) :
    Panics (Mailbox.execute H C s c) ↔ ∃ md b, c.msg = .process md b ∧ b.length < 77 := by
  obtain ⟨h1, h2, h3⟩ := hs
  constructor
  · intro h
    rcases C92_mailbox_why he h with ⟨md, b, hm, hb | hi⟩ | ⟨q, _, _, hx | hx | hx | hx⟩
    · exact ⟨md, b, hm, hb⟩
    · rw [hi] at h1; cases h1
    · exact absurd ha hx
    · rw [hx] at h2; cases h2
    · rw [hx] at h3; cases h3
    · omega
  · rintro ⟨md, b, hm, hb⟩
    unfold Mailbox.execute
    rw [hm]
    simp only [Mailbox.process, panics_bind, panics_decode]
    exact .inl hb

/-- **C92**: settings of the mailbox, once made, are never unset. -/
theorem C92_mailbox_stays_complete {H : Bytes → Bytes} {C : Codec} {s : Mailbox.State} (hs : s.config.Complete)
    (txs : List (List (Tx.Act Mailbox.Call))) :
    (Tx.history (Mailbox.execute H C) s txs).1.config.Complete := by
  have key : ∀ (log : List (Mailbox.Call × Response)) (s s' : Mailbox.State),
      Tx.Chain (Mailbox.execute H C) s log s' → s.config.Complete → s'.config.Complete := by
    intro log
    induction log with
    | nil => intro s s' hc h; simp only [Tx.Chain] at hc; exact hc ▸ h
    | cons e t ih =>
      intro s s' hc h
      obtain ⟨c, r⟩ := e
      obtain ⟨s1, h1, h2⟩ := hc
      refine ih s1 s' h2 ?_
      obtain ⟨g1, g2, g3⟩ := h
      unfold Mailbox.execute at h1
      cases hm : c.msg with
      | ownable m =>
        rw [hm] at h1
        obtain ⟨o, _, h1⟩ := bind_eq_ok.1 h1
        cases h1; exact ⟨g1, g2, g3⟩
      | setDefaultIsm a =>
        rw [hm] at h1
        obtain ⟨x, hx, h1⟩ := bind_eq_ok.1 h1
        cases h1
        unfold Mailbox.setDefaultIsm at hx
        obtain ⟨_, _, hx⟩ := bind_eq_ok.1 hx
        obtain ⟨_, _, hx⟩ := bind_eq_ok.1 hx
        obtain ⟨_, _, hx⟩ := bind_eq_ok.1 hx
        cases hx; exact ⟨rfl, g2, g3⟩
      | setDefaultHook a =>
        rw [hm] at h1
        obtain ⟨x, hx, h1⟩ := bind_eq_ok.1 h1
        cases h1
        unfold Mailbox.setDefaultHook at hx
        obtain ⟨_, _, hx⟩ := bind_eq_ok.1 hx
        obtain ⟨_, _, hx⟩ := bind_eq_ok.1 hx
        obtain ⟨_, _, hx⟩ := bind_eq_ok.1 hx
        cases hx; exact ⟨g1, rfl, g3⟩
      | setRequiredHook a =>
        rw [hm] at h1
        obtain ⟨x, hx, h1⟩ := bind_eq_ok.1 h1
        cases h1
        unfold Mailbox.setRequiredHook at hx
        obtain ⟨_, _, hx⟩ := bind_eq_ok.1 hx
        obtain ⟨_, _, hx⟩ := bind_eq_ok.1 hx
        obtain ⟨_, _, hx⟩ := bind_eq_ok.1 hx
        cases hx; exact ⟨g1, g2, rfl⟩
      | dispatch q =>
        rw [hm] at h1
        unfold Mailbox.dispatch at h1
        obtain ⟨_, _, h1⟩ := bind_eq_ok.1 h1
        obtain ⟨_, _, h1⟩ := bind_eq_ok.1 h1
        obtain ⟨_, _, h1⟩ := bind_eq_ok.1 h1
        obtain ⟨_, _, h1⟩ := bind_eq_ok.1 h1
        obtain ⟨_, _, h1⟩ := bind_eq_ok.1 h1
        obtain ⟨_, _, h1⟩ := bind_eq_ok.1 h1
        obtain ⟨_, _, h1⟩ := bind_eq_ok.1 h1
        obtain ⟨_, _, h1⟩ := bind_eq_ok.1 h1
        obtain ⟨_, _, h1⟩ := bind_eq_ok.1 h1
        cases h1; exact ⟨g1, g2, g3⟩
      | process md b =>
        rw [hm] at h1
        unfold Mailbox.process at h1
        obtain ⟨_, _, h1⟩ := bind_eq_ok.1 h1
        obtain ⟨_, _, h1⟩ := bind_eq_ok.1 h1
        obtain ⟨_, _, h1⟩ := bind_eq_ok.1 h1
        obtain ⟨_, _, h1⟩ := bind_eq_ok.1 h1
        obtain ⟨_, _, h1⟩ := bind_eq_ok.1 h1
        obtain ⟨_, _, h1⟩ := bind_eq_ok.1 h1
        obtain ⟨_, _, h1⟩ := bind_eq_ok.1 h1
        obtain ⟨_, _, h1⟩ := bind_eq_ok.1 h1
        obtain ⟨_, _, h1⟩ := bind_eq_ok.1 h1
        cases h1; exact ⟨g1, g2, g3⟩
  exact key _ _ _ (Tx.history_chain _ _ _) hs

/-- **C92**: the queries for the settings panic exactly when the setting is missing, and with all settings made no query
of the mailbox panics for a sender with an ordinary address. -/
theorem C92_mailbox_queries {C : Codec} {e : Mailbox.Env} (he : e.Calm) (s : Mailbox.State) :
    (Panics (Mailbox.getDefaultIsm s) ↔ s.config.defaultIsm = none) ∧
    (Panics (Mailbox.getDefaultHook s) ↔ s.config.defaultHook = none) ∧
    (Panics (Mailbox.getRequiredHook s) ↔ s.config.requiredHook = none) ∧
    ¬ Panics (Mailbox.getLatestDispatchId s) ∧
    (∀ a, Panics (Mailbox.getRecipientIsm e s a) ↔ s.config.defaultIsm = none) ∧
    (∀ a q, s.config.Complete → (Panics (Mailbox.quoteDispatch C e s a q) ↔ e.valid a = true ∧ ¬ ShortAddress C a)) := by
  refine ⟨panics_expectSet _, panics_expectSet _, panics_expectSet _, ?_, ?_, ?_⟩
  · unfold Mailbox.getLatestDispatchId
    split
    · exact panics_ok _
    · exact panics_err _
  · intro a
    simp only [Mailbox.getRecipientIsm, panics_bind, panics_expectSet, panics_ensure, he.recipientIsm, panics_pure,
      and_false, exists_false, or_false]
  · intro a q ⟨h1, h2, h3⟩
    have n2 : s.config.defaultHook ≠ none := by intro h; rw [h] at h2; cases h2
    have n3 : s.config.requiredHook ≠ none := by intro h; rw [h] at h3; cases h3
    simp only [Mailbox.quoteDispatch]
    rw [panics_guard]
    simp only [panics_bind, panics_toMsg, panics_expectSet, n2, n3, panics_getHookAddr, he.quote, panics_tryFrom,
      panics_addAll, panics_pure, and_false, exists_false, or_false, ShortAddress, not_forall, not_le, exists_prop]

/-! ## Hooks -/

/-- **C92**: a merkle hook, after any history, panics exactly when its mailbox answers and the message has fewer than 77
bytes; its checkpoint query never panics. -/
theorem C92_merkle {H : Bytes → Bytes} {zs : List Bytes} (hz : ZeroChain H zs) {valid : Addr → Bool} {mb : Addr}
    {k0 : MerkleHook.State} (hk : MerkleHook.instantiate zs valid mb = .ok k0)
    (txs : List (List (Tx.Act MerkleHook.Call))) :
    let s := (Tx.history (MerkleHook.execute H) k0 txs).1
    (∀ c : MerkleHook.Call, (∀ a, ¬ Panics (c.latestId a)) →
      (Panics (MerkleHook.execute H s c) ↔ (∃ id, c.latestId mb = .ok id) ∧ c.message.length < 77)) ∧
    ¬ Panics (MerkleHook.getCheckpoint H zs s) := by
  have hk0 : k0 = ⟨mb, Merkle.default zs⟩ := by
    unfold MerkleHook.instantiate at hk
    obtain ⟨_, _, hf⟩ := bind_eq_ok.1 hk
    cases hf
    rfl
  subst hk0
  intro s
  have hc : Tx.Chain (MerkleHook.execute H) ⟨mb, Merkle.default zs⟩
      (Tx.history (MerkleHook.execute H) ⟨mb, Merkle.default zs⟩ txs).2 s := Tx.history_chain _ _ _
  have hmb : s.mailbox = mb := by
    have key : ∀ (log : List (MerkleHook.Call × Nat)) (a b : MerkleHook.State),
        Tx.Chain (MerkleHook.execute H) a log b → b.mailbox = a.mailbox := by
      intro log
      induction log with
      | nil => intro a b h; simp only [Tx.Chain] at h; rw [h]
      | cons e t ih =>
        intro a b h
        obtain ⟨m, h1, h2⟩ := h
        rw [ih _ _ h2]
        exact (MerkleHook.execute_ok.1 h1).2.2.2.1
    exact key _ _ _ hc
  obtain ⟨b1, b2, b3, b4⟩ := Merkle.insertAll_default H zs hz.1 _ s.tree (hook_chain hc)
  constructor
  · intro c hl
    have hins : ∀ x, ¬ Panics (Merkle.insert H s.tree x) := by
      rintro x ⟨t, ht⟩
      exact (C13_insert_total H zs hz.1 _ s.tree (hook_chain hc) x).2.2.2 t ht
    unfold MerkleHook.execute
    rw [hmb]
    simp only [panics_bind, hl, panics_decode, panics_ensure, hins, panics_pure, and_false, exists_false, or_false,
      false_or]
    exact ⟨fun ⟨a, h1, h2⟩ => ⟨⟨a, h1⟩, h2⟩, fun ⟨⟨a, h1⟩, h2⟩ => ⟨a, h1, h2⟩⟩
  · obtain ⟨_, _, ⟨i, hi, _⟩, _⟩ := C47_queries hz (valid := valid) (mb := mb) hk txs
    intro h
    obtain ⟨t, ht⟩ := h
    rw [show MerkleHook.getCheckpoint H zs s = _ from hi] at ht
    cases ht

theorem panics_found (o : Option Addr) : ¬ Panics (RoutingHook.found o) := by
  unfold RoutingHook.found
  split
  · exact panics_ok _
  · exact panics_err _

theorem panics_postAll {quote : Addr → Bytes → Bytes → Res (List Coin)} (hq : ∀ a x y, ¬ Panics (quote a x y))
    (md b : Bytes) (l : List Addr) : ¬ Panics (AggregateHook.postAll quote md b l) := by
  induction l with
  | nil => exact panics_ok _
  | cons h t ih =>
    simp only [AggregateHook.postAll, panics_bind, hq, ih, panics_pure, and_false, exists_false, or_self,
      not_false_eq_true]

theorem postAll_total {quote : Addr → Bytes → Bytes → Res (List Coin)} (md b : Bytes) (l : List Addr) :
    (∃ x, AggregateHook.postAll quote md b l = .ok x) ↔ ∀ a ∈ l, ∃ f, quote a md b = .ok f := by
  induction l with
  | nil => exact ⟨fun _ _ h => (by cases h), fun _ => ⟨[], rfl⟩⟩
  | cons h t ih =>
    simp only [AggregateHook.postAll, List.forall_mem_cons, ← ih]
    constructor
    · rintro ⟨x, hx⟩
      obtain ⟨f, hf, hx⟩ := bind_eq_ok.1 hx
      obtain ⟨r, hr, hx⟩ := bind_eq_ok.1 hx
      exact ⟨⟨f, hf⟩, ⟨r, hr⟩⟩
    · rintro ⟨⟨f, hf⟩, ⟨r, hr⟩⟩
      exact ⟨_, by rw [hf, ok_bind, hr, ok_bind]; rfl⟩

theorem panics_quoteFold {quote : Addr → Bytes → Bytes → Res (List Coin)} (hq : ∀ a x y, ¬ Panics (quote a x y))
    (md b : Bytes) (l : List Addr) : ∀ acc, ¬ Panics (AggregateHook.quoteFold quote md b acc l) := by
  induction l with
  | nil => intro acc; exact panics_ok _
  | cons h t ih =>
    intro acc
    simp only [AggregateHook.quoteFold, panics_bind, hq, panics_addAll, ih, and_false, exists_false, or_self,
      not_false_eq_true]

/-- **C92**: fee and pausable hooks never panic. -/
theorem C92_plain_hooks :
    (∀ s c, ¬ Panics (FeeHook.execute s c)) ∧ (∀ s c, ¬ Panics (PausableHook.execute s c)) := by
  constructor
  · rintro s c h
    obtain ⟨m, _, h⟩ := (panics_execOwned _ _ _ _).1 h
    cases m <;> simp only [FeeHook.part, panics_bind, panics_onlyOwner, panics_getOwner, panics_ensure, panics_mustPay,
      panics_pure, and_false, exists_false, or_self] at h
  · rintro s c h
    obtain ⟨m, _, h⟩ := (panics_execOwned _ _ _ _).1 h
    cases m <;> simp only [PausableHook.part, panics_bind, panics_pausable, panics_ensure, panics_pure, and_false,
      exists_false, or_self] at h

/-- **C92**: an aggregate hook panics exactly when the quotes of all its hooks are answered and the message has fewer than
77 bytes; quoting never panics. -/
theorem C92_aggregate_hook :
    (∀ s c, c.env.Calm → (Panics (AggregateHook.execute s c) ↔ ∃ md b, c.msg = .inr (.postDispatch md b) ∧
      b.length < 77 ∧ ∀ a ∈ s.2, ∃ f, c.env.quote a md b = .ok f)) ∧
    (∀ quote s md b, (∀ a x y, ¬ Panics (quote a x y)) → ¬ Panics (AggregateHook.quoteDispatch quote s md b)) := by
  constructor
  · intro s c he
    unfold AggregateHook.execute
    rw [panics_execOwned]
    constructor
    · rintro ⟨m, hm, h⟩
      cases m with
      | setHooks l =>
        simp only [AggregateHook.part, panics_bind, panics_onlyOwner, panics_ensure, panics_pure, and_false,
          exists_false, or_self] at h
      | postDispatch md b =>
        simp only [AggregateHook.part, panics_bind, panics_postAll he.quote, panics_decode, panics_pure, and_false,
          exists_false, or_false, false_or] at h
        obtain ⟨x, hx, hb⟩ := h
        exact ⟨md, b, hm, hb, (postAll_total md b s.2).1 ⟨x, hx⟩⟩
    · rintro ⟨md, b, hm, hb, hq⟩
      refine ⟨_, hm, ?_⟩
      obtain ⟨x, hx⟩ := (postAll_total md b s.2).2 hq
      simp only [AggregateHook.part, panics_bind, panics_decode]
      exact .inr ⟨x, hx, .inl hb⟩
  · intro quote s md b hq
    simp only [AggregateHook.quoteDispatch, panics_bind, panics_quoteFold hq, panics_pure, and_false, exists_false,
      or_self, not_false_eq_true]

theorem panics_loadFallback (s : FallbackHook.State) : ¬ Panics (FallbackHook.loadFallback s) := by
  unfold FallbackHook.loadFallback
  split
  · exact panics_ok _
  · exact panics_err _

theorem panics_fromHexString (t : String) : ¬ Panics (fromHexString t) := by
  unfold fromHexString
  split
  · exact panics_ok _
  · exact panics_err _

theorem panics_registerAll (valid : Addr → Bool) (l : List CustomHook.Registration) :
    ∀ m, ¬ Panics (CustomHook.registerAll valid m l) := by
  induction l with
  | nil => intro m; exact panics_ok _
  | cons r t ih =>
    intro m
    simp only [CustomHook.registerAll, panics_bind, panics_fromHexString, panics_ensure, ih, and_false, exists_false,
      or_self, not_false_eq_true]

theorem panics_clearAll (l : List CustomHook.Clearing) : ∀ m, ¬ Panics (CustomHook.clearAll m l) := by
  induction l with
  | nil => intro m; exact panics_ok _
  | cons r t ih =>
    intro m
    simp only [CustomHook.clearAll, panics_bind, panics_fromHexString, ih, and_false, exists_false, or_self,
      not_false_eq_true]

theorem panics_pick (s : CustomHook.State) (m : Message) : ¬ Panics (CustomHook.pick s m) := by
  unfold CustomHook.pick
  split
  · exact panics_ok _
  · exact panics_found _

/-- **C92**: the three routing hooks panic exactly for messages of fewer than 77 bytes, in executions and in quotes. -/
theorem C92_routing_hooks :
    (∀ s c, Panics (RoutingHook.execute s c) ↔ ∃ md b, c.msg = .inr (.postDispatch md b) ∧ b.length < 77) ∧
    (∀ s c, Panics (FallbackHook.execute s c) ↔ ∃ md b, c.msg = .inr (.postDispatch md b) ∧ b.length < 77) ∧
    (∀ s c, Panics (CustomHook.execute s c) ↔ ∃ md b, c.msg = .inr (.postDispatch md b) ∧ b.length < 77) ∧
    (∀ quote md b, (∀ a x y, ¬ Panics (quote a x y)) →
      (∀ s, Panics (RoutingHook.quoteDispatch quote s md b) ↔ b.length < 77) ∧
      (∀ s, Panics (FallbackHook.quoteDispatch quote s md b) ↔ b.length < 77) ∧
      (∀ s, Panics (CustomHook.quoteDispatch quote s md b) ↔ b.length < 77)) := by
  refine ⟨?_, ?_, ?_, ?_⟩
  · intro s c
    unfold RoutingHook.execute
    rw [panics_execOwned]
    constructor
    · rintro ⟨m, hm, h⟩
      cases m <;> simp only [RoutingHook.part, RoutingHook.route, panics_bind, panics_router, panics_decode,
        panics_found, panics_pure, and_false, exists_false, or_false, or_self] at h
      exact ⟨_, _, hm, h⟩
    · rintro ⟨md, b, hm, hb⟩
      refine ⟨_, hm, ?_⟩
      simp only [RoutingHook.part, RoutingHook.route, panics_bind, panics_decode]
      exact .inl (.inl hb)
  · intro s c
    unfold FallbackHook.execute
    rw [panics_execOwned]
    constructor
    · rintro ⟨m, hm, h⟩
      cases m <;> simp only [FallbackHook.part, FallbackHook.route, panics_bind, panics_router, panics_onlyOwner,
        panics_ensure, panics_decode, panics_loadFallback, panics_pure, and_false, exists_false, or_false, or_self] at h
      exact ⟨_, _, hm, h⟩
    · rintro ⟨md, b, hm, hb⟩
      refine ⟨_, hm, ?_⟩
      simp only [FallbackHook.part, FallbackHook.route, panics_bind, panics_decode]
      exact .inl (.inl hb)
  · intro s c
    unfold CustomHook.execute
    rw [panics_execOwned]
    constructor
    · rintro ⟨m, hm, h⟩
      cases m <;> simp only [CustomHook.part, CustomHook.route, panics_bind, panics_router, panics_onlyOwner,
        panics_registerAll, panics_clearAll, panics_decode, panics_pick, panics_pure, and_false, exists_false, or_false,
        or_self] at h
      exact ⟨_, _, hm, h⟩
    · rintro ⟨md, b, hm, hb⟩
      refine ⟨_, hm, ?_⟩
      simp only [CustomHook.part, CustomHook.route, panics_bind, panics_decode]
      exact .inl (.inl hb)
  · intro quote md b hq
    refine ⟨?_, ?_, ?_⟩ <;> intro s
    · simp only [RoutingHook.quoteDispatch, RoutingHook.route, panics_bind, panics_decode, panics_found, hq, and_false,
        exists_false, or_false]
    · simp only [FallbackHook.quoteDispatch, FallbackHook.route, panics_bind, panics_decode, panics_loadFallback,
        panics_pure, hq, and_false, exists_false, or_false]
    · simp only [CustomHook.quoteDispatch, CustomHook.route, panics_bind, panics_decode, panics_pick, hq, and_false,
        exists_false, or_false]

/-! ## Gas paymaster and oracle -/

theorem panics_mul256 (a b : Nat) : Panics (mul256 a b) ↔ 2 ^ 256 ≤ a * b := by
  unfold mul256; split
  · simp only [panics_ok, false_iff]; omega
  · simp only [panics_panic, true_iff]; omega

theorem panics_oracleFor (s : Igp.State) (d : UInt32) : ¬ Panics (Igp.oracleFor s d) := by
  unfold Igp.oracleFor
  split
  · exact panics_ok _
  · exact panics_err _

theorem oracleFor_ok {s : Igp.State} {d : UInt32} {a : Addr} :
    Igp.oracleFor s d = .ok a ↔ Router.getRoute s.routes d = some a := by
  unfold Igp.oracleFor
  cases Router.getRoute s.routes d <;> simp

/-- The calculation of a gas price panics exactly when a gas oracle answers and the numbers leave 256 bits. -/
theorem panics_quoteGasPrice {o : Addr → UInt32 → Res Oracle.GasData} (ho : OracleCalm o) (s : Igp.State) (dest : UInt32)
    (gas : Nat) : Panics (Igp.quoteGasPrice o s dest gas) ↔
      ∃ a d, Router.getRoute s.routes dest = some a ∧ o a dest = .ok d ∧ GasOverflow gas d := by
  have ho' : ∀ a d, ¬ Panics (o a d) := ho
  simp only [Igp.quoteGasPrice, panics_bind, panics_oracleFor, ho', panics_mul256, panics_pure, and_false,
    exists_false, or_false, false_or, oracleFor_ok, GasOverflow]
  constructor
  · rintro ⟨a, h1, d, h2, h | ⟨x, hx, h⟩⟩
    · exact ⟨a, d, h1, h2, .inl h⟩
    · unfold mul256 at hx
      split at hx
      · cases hx; exact ⟨a, d, h1, h2, .inr h⟩
      · cases hx
  · rintro ⟨a, d, h1, h2, h⟩
    refine ⟨a, h1, d, h2, ?_⟩
    by_cases hl : 2 ^ 256 ≤ gas * d.price
    · exact .inl hl
    · refine .inr ⟨gas * d.price, if_pos (by omega), ?_⟩
      rcases h with h | h
      · exact absurd h hl
      · exact h

theorem panics_payForGas {e : IgpEnv} (ho : OracleCalm e.oracle) (s : Igp.State) (funds : List Coin) (dest : UInt32)
    (gas : Nat) (refund : Addr) : Panics (Igp.payForGas e s funds dest gas refund) ↔
      (∃ n, n ≠ 0 ∧ funds = [⟨s.gasToken, n⟩]) ∧
      ∃ a d, Router.getRoute s.routes dest = some a ∧ e.oracle a dest = .ok d ∧ GasOverflow gas d := by
  simp only [Igp.payForGas, panics_bind, panics_mustPay, panics_quoteGasPrice ho, panics_ensure, panics_pure, and_false,
    exists_false, or_false, false_or, mustPay_ok]
  exact ⟨fun ⟨n, ⟨h1, h2⟩, h3⟩ => ⟨⟨n, h2, h1⟩, h3⟩, fun ⟨⟨n, h2, h1⟩, h3⟩ => ⟨n, ⟨h1, h2⟩, h3⟩⟩

theorem panics_refundTo (C : Codec) (hrp : String) (g : Nat) (r : Bytes) (a : Addr) :
    Panics (IgpMeta.refundTo C ⟨g, r⟩ hrp a) ↔ BadRefund C hrp r := by
  unfold IgpMeta.refundTo BadRefund
  by_cases hl : r.length = 20 ∨ r.length = 32
  · rw [if_neg (by simp only; omega)]
    simp only [hl, true_and]
    have hz : ((r.take 16).all (· = 0)) = true ↔ r.take 16 = zeros 16 := by
      have h16 : (r.take 16).length = 16 := by rw [List.length_take]; omega
      rw [List.all_eq_true]
      constructor
      · intro h
        refine List.eq_replicate_of_mem ?_ |>.trans (by rw [h16]; rfl)
        intro b hb
        exact of_decide_eq_true (h b hb)
      · intro h b hb
        rw [h] at hb
        simp [List.eq_of_mem_replicate hb]
    by_cases h0 : r.take 16 = zeros 16
    · refine iff_of_true ?_ (.inl h0)
      rw [if_pos (hz.2 h0)]
      have : bech32Encode C hrp (r.drop 16) = .error (.err "invalid raw address length") := by
        unfold bech32Encode
        rw [if_pos (by rw [List.length_drop]; omega)]
      rw [this]
      exact panics_panic _
    · simp only [h0, false_or]
      rw [if_neg (by rw [hz]; exact h0)]
      unfold bech32Encode
      rw [if_neg (by omega)]
      dsimp only
      cases C.enc hrp (if r.length = 32 ∧ r.take 12 = zeros 12 then r.drop 12 else r) with
      | none => simp only [iff_true]; exact panics_panic _
      | some x => simp only [reduceCtorEq, iff_false]; exact panics_ok _
  · rw [if_pos (by simp only; omega)]
    simp only [hl, false_and, iff_false]
    exact panics_ok _

theorem igpMeta_parts {md : Bytes} (h : 32 ≤ md.length) :
    IgpMeta.decode md = .ok ⟨fromBE (md.take 32), md.drop 32⟩ := by
  unfold IgpMeta.decode
  have h1 : slice md 0 32 = .ok (md.take 32) := by
    unfold slice; rw [if_pos ⟨by omega, h⟩]; simp
  have h2 : sliceFrom md 32 = .ok (md.drop 32) := if_pos h
  rw [h1, h2]; rfl

theorem panics_gasAndRefund (C : Codec) (s : Igp.State) (md : Bytes) (m : Message) :
    Panics (Igp.gasAndRefund C s md m) ↔
      32 ≤ md.length ∧ (∃ a, bech32Encode C s.hrp m.sender = .ok a) ∧ BadRefund C s.hrp (md.drop 32) := by
  unfold Igp.gasAndRefund
  split
  · simp only [panics_bind, panics_bech32Encode, panics_pure, and_false, exists_false, or_self, false_iff]
    omega
  · rename_i h
    rw [igpMeta_parts (by omega)]
    simp only [ok_bind, panics_bind, panics_bech32Encode, panics_refundTo, panics_pure, and_false, exists_false,
      or_false, false_or]
    exact ⟨fun ⟨a, h1, h2⟩ => ⟨by omega, ⟨a, h1⟩, h2⟩, fun ⟨_, ⟨a, h1⟩, h2⟩ => ⟨a, h1, h2⟩⟩

theorem gasAndRefund_answers {C : Codec} {s : Igp.State} {md : Bytes} {m : Message} :
    (∃ g, Igp.gasAndRefund C s md m = .ok g) ↔ (∃ a, bech32Encode C s.hrp m.sender = .ok a) ∧
      ¬ (32 ≤ md.length ∧ BadRefund C s.hrp (md.drop 32)) := by
  unfold Igp.gasAndRefund
  split
  · constructor
    · rintro ⟨g, hg⟩
      obtain ⟨a, ha, _⟩ := bind_eq_ok.1 hg
      exact ⟨⟨a, ha⟩, fun h => by omega⟩
    · rintro ⟨⟨a, ha⟩, _⟩
      exact ⟨_, by rw [ha]; rfl⟩
  · rename_i h
    rw [igpMeta_parts (by omega)]
    simp only [ok_bind]
    constructor
    · rintro ⟨g, hg⟩
      obtain ⟨a, ha, hg⟩ := bind_eq_ok.1 hg
      obtain ⟨r, hr, _⟩ := bind_eq_ok.1 hg
      refine ⟨⟨a, ha⟩, fun hb => ?_⟩
      have := (panics_refundTo C s.hrp (fromBE (md.take 32)) (md.drop 32) a).2 hb.2
      rw [hr] at this
      exact panics_ok _ this
    · rintro ⟨⟨a, ha⟩, hb⟩
      rw [ha]
      cases hr : IgpMeta.refundTo C ⟨fromBE (md.take 32), md.drop 32⟩ s.hrp a with
      | ok r => exact ⟨_, by rw [ok_bind, hr]; rfl⟩
      | error e =>
        exfalso
        refine hb ⟨by omega, (panics_refundTo C s.hrp (fromBE (md.take 32)) (md.drop 32) a).1 ?_⟩
        unfold IgpMeta.refundTo at hr ⊢
        split
        · rename_i hl; rw [if_pos hl] at hr; cases hr
        · rename_i hl
          rw [if_neg hl] at hr
          dsimp only at hr ⊢
          split
          · rename_i x hx; rw [hx] at hr; cases hr
          · exact panics_panic _

theorem gasAndRefund_fst {C : Codec} {s : Igp.State} {md : Bytes} {m : Message} {g : Nat × Addr}
    (h : Igp.gasAndRefund C s md m = .ok g) : g.1 = gasAsked s md m.dest := by
  unfold Igp.gasAndRefund at h
  unfold gasAsked
  split at h
  · rename_i hl
    rw [if_pos hl]
    obtain ⟨a, ha, h⟩ := bind_eq_ok.1 h
    cases h; rfl
  · rename_i hl
    rw [if_neg hl]
    rw [igpMeta_parts (by omega)] at h
    simp only [ok_bind] at h
    obtain ⟨a, ha, h⟩ := bind_eq_ok.1 h
    obtain ⟨r, hr, h⟩ := bind_eq_ok.1 h
    cases h; rfl

/-- **C92**: the paymaster panics exactly when
* asked to pay for gas, properly paid, with numbers that leave 256 bits;
* told of a dispatch with fewer than 77 bytes;
* told of a dispatch by a sender it can name, with a refund address it cannot name (in particular one whose first 16
  bytes are zero);
* told of a dispatch with proper refund address and payment and numbers that leave 256 bits. -/
theorem C92_paymaster {C : Codec} {s : Ownable.State × Igp.State} {c : ExecCall IgpEnv Igp.Msg}
    (ho : OracleCalm c.env.oracle) :
    Panics (Igp.execute C s c) ↔
      (∃ id dest gas refund n a d, c.msg = .inr (.payForGas id dest gas refund) ∧
        n ≠ 0 ∧ c.funds = [⟨s.2.gasToken, n⟩] ∧
        Router.getRoute s.2.routes dest = some a ∧ c.env.oracle a dest = .ok d ∧ GasOverflow gas d) ∨
      (∃ md b, c.msg = .inr (.postDispatch md b) ∧
        (b.length < 77 ∨ ∃ m, WireFormat m b ∧ (∃ x, bech32Encode C s.2.hrp m.sender = .ok x) ∧
          ((32 ≤ md.length ∧ BadRefund C s.2.hrp (md.drop 32)) ∨
            ∃ n a d, n ≠ 0 ∧ c.funds = [⟨s.2.gasToken, n⟩] ∧
              Router.getRoute s.2.routes m.dest = some a ∧ c.env.oracle a m.dest = .ok d ∧
              GasOverflow (gasAsked s.2 md m.dest) d))) := by
  unfold Igp.execute
  rw [panics_execOwned]
  constructor
  · rintro ⟨m, hm, h⟩
    cases m with
    | payForGas id dest gas refund =>
      simp only [Igp.part, panics_bind, panics_payForGas ho, panics_pure, and_false, exists_false, or_false] at h
      obtain ⟨⟨n, h1, h2⟩, a, d, h3, h4, h5⟩ := h
      exact .inl ⟨id, dest, gas, refund, n, a, d, hm, h1, h2, h3, h4, h5⟩
    | postDispatch md b =>
      right
      refine ⟨md, b, hm, ?_⟩
      simp only [Igp.part, Igp.postDispatch, panics_bind, panics_decode, panics_gasAndRefund, panics_payForGas ho,
        panics_pure, and_false, exists_false, or_false] at h
      rcases h with h | ⟨m, hd, ⟨h1, h2, h3⟩ | ⟨g, hg, ⟨n, h1, h2⟩, a, d, h3, h4, h5⟩⟩
      · exact .inl h
      · exact .inr ⟨m, wireFormat_of_decode hd, h2, .inl ⟨h1, h3⟩⟩
      · refine .inr ⟨m, wireFormat_of_decode hd, (gasAndRefund_answers.1 ⟨g, hg⟩).1, .inr ⟨n, a, d, h1, h2, h3, h4, ?_⟩⟩
        rw [← gasAndRefund_fst hg]; exact h5
    | _ =>
      simp only [Igp.part, Igp.claim, panics_bind, panics_router, panics_onlyOwner, panics_ensure, panics_pure,
        and_false, exists_false, or_self] at h
  · rintro (⟨id, dest, gas, refund, n, a, d, hm, h1, h2, h3, h4, h5⟩ | ⟨md, b, hm, h⟩)
    · refine ⟨_, hm, ?_⟩
      simp only [Igp.part, panics_bind, panics_payForGas ho]
      exact .inl ⟨⟨n, h1, h2⟩, a, d, h3, h4, h5⟩
    · refine ⟨_, hm, ?_⟩
      simp only [Igp.part, Igp.postDispatch, panics_bind, panics_decode, panics_gasAndRefund, panics_payForGas ho]
      left
      rcases h with h | ⟨m, hw, hx, h⟩
      · exact .inl h
      · refine .inr ⟨m, decode_of_wireFormat hw, ?_⟩
        by_cases hb : 32 ≤ md.length ∧ BadRefund C s.2.hrp (md.drop 32)
        · exact .inl ⟨hb.1, hx, hb.2⟩
        · rcases h with h | ⟨n, a, d, h1, h2, h3, h4, h5⟩
          · exact absurd h hb
          · obtain ⟨g, hg⟩ := gasAndRefund_answers.2 ⟨hx, hb⟩
            refine .inr ⟨g, hg, ⟨n, h1, h2⟩, a, d, h3, h4, ?_⟩
            rw [gasAndRefund_fst hg]; exact h5

theorem panics_feeCoins (d : String) (n : Nat) : ¬ Panics (Igp.feeCoins d n) := by
  unfold Igp.feeCoins
  split
  · exact panics_ok _
  · split
    · exact panics_ok _
    · exact panics_err _

theorem quotedGas_eq (s : Igp.State) (md : Bytes) (d : UInt32) : Igp.quotedGas s md d = .ok (gasAsked s md d) := by
  unfold Igp.quotedGas gasAsked
  split
  · rfl
  · rename_i h
    rw [igpMeta_parts (by omega)]; rfl

/-- **C92**: quotes of the paymaster panic exactly for messages of fewer than 77 bytes or numbers that leave 256 bits; the
gas oracle never panics. -/
theorem C92_gas_quotes :
    (∀ o s md b, OracleCalm o → (Panics (Igp.quoteDispatch o s md b) ↔ b.length < 77 ∨
      ∃ m a d, WireFormat m b ∧ Router.getRoute s.2.routes m.dest = some a ∧ o a m.dest = .ok d ∧
        GasOverflow (gasAsked s.2 md m.dest) d)) ∧
    (∀ o s dest gas, OracleCalm o → (Panics (Igp.quoteGasPrice o s dest gas) ↔
      ∃ a d, Router.getRoute s.routes dest = some a ∧ o a dest = .ok d ∧ GasOverflow gas d)) ∧
    (∀ o s dest, OracleCalm o → ¬ Panics (Igp.getExchangeRate o s dest)) ∧
    (∀ s c, ¬ Panics (Oracle.execute s c)) ∧ (∀ s d, ¬ Panics (Oracle.getData s d)) := by
  refine ⟨?_, fun o s dest gas ho => panics_quoteGasPrice ho s dest gas, ?_, ?_, ?_⟩
  · intro o s md b ho
    simp only [Igp.quoteDispatch, panics_bind, panics_decode, quotedGas_eq, panics_ok, panics_quoteGasPrice ho,
      panics_feeCoins, and_false, exists_false, or_false, false_or, Except.ok.injEq]
    constructor
    · rintro (h | ⟨m, hm, g, rfl, a, d, h⟩)
      · exact .inl h
      · exact .inr ⟨m, a, d, wireFormat_of_decode hm, h⟩
    · rintro (h | ⟨m, a, d, hm, h⟩)
      · exact .inl h
      · exact .inr ⟨m, decode_of_wireFormat hm, _, rfl, a, d, h⟩
  · intro o s dest ho
    have ho' : ∀ a d, ¬ Panics (o a d) := ho
    simp only [Igp.getExchangeRate, panics_bind, panics_oracleFor, ho', and_false, exists_false, or_self,
      not_false_eq_true]
  · intro s c h
    obtain ⟨m, _, h⟩ := (panics_execOwned _ _ _ _).1 h
    have hs : ∀ (l : List Oracle.Config) (x : Oracle.State), ¬ Panics (Oracle.setAll x l) := by
      intro l
      induction l with
      | nil => intro x; exact panics_ok _
      | cons a t ih =>
        intro x
        simp only [Oracle.setAll, panics_bind, panics_ensure, ih, and_false, exists_false, or_self, not_false_eq_true]
    cases m <;> simp only [Oracle.part, panics_bind, panics_onlyOwner, hs, panics_pure, and_false, exists_false,
      or_self] at h
  · intro s d
    unfold Oracle.getData
    split
    · exact panics_ok _
    · exact panics_err _

/-! ## Security modules -/

theorem panics_load {κ ν : Type} [LinearOrder κ] (m : OMap κ ν) (k : κ) : ¬ Panics (Multisig.load m k) := by
  unfold Multisig.load
  split
  · exact panics_ok _
  · exact panics_err _

theorem panics_pred (t : UInt8) : Panics (Multisig.pred t) ↔ t = 0 := by
  unfold Multisig.pred
  split
  · rename_i h
    simp only [panics_ok, false_iff]
    rintro rfl
    exact absurd h (by decide)
  · rename_i h
    simp only [panics_panic, true_iff]
    by_contra hc
    exact h (Multisig.u8_ne_zero.1 hc)

theorem panics_messageIdDecode (v : Bytes) : Panics (MessageIdMeta.decode v) ↔ v.length < 68 := by
  unfold MessageIdMeta.decode
  simp only [panics_bind, panics_slice, panics_sliceFrom, panics_pure, and_false, exists_false, or_false]
  constructor
  · rintro (h | ⟨_, _, h | ⟨_, _, h | ⟨_, _, h⟩⟩⟩)
    all_goals omega
  · intro h; exact .inl h

theorem panics_multisigLoop {H : Bytes → Bytes} {R : Recover} (hg : GoodCrypto H R) {hash : Bytes} {vs : List Bytes} :
    ∀ (sigs : List Bytes) (t : UInt8) (matched : List Bytes), t ≠ 0 →
      Panics (Multisig.loop H R hash vs sigs t matched) → ∃ sig ∈ sigs, BadSignature sig := by
  intro sigs
  induction sigs with
  | nil => intro t matched _ h; exact absurd h (panics_ok _)
  | cons sig rest ih =>
    intro t matched ht h
    simp only [Multisig.loop] at h
    rw [panics_bind, panics_recoverSigner hg] at h
    rcases h with h | ⟨a, ha, h⟩
    · exact ⟨sig, by simp, h⟩
    · split at h
      · rw [panics_bind, panics_pred] at h
        rcases h with h | ⟨t', ht', h⟩
        · exact absurd h ht
        · split at h
          · exact absurd h (panics_ok _)
          · rename_i hne
            obtain ⟨x, hx, hb⟩ := ih t' _ hne h
            exact ⟨x, List.mem_cons_of_mem _ hx, hb⟩
      · obtain ⟨x, hx, hb⟩ := ih t _ ht h
        exact ⟨x, List.mem_cons_of_mem _ hx, hb⟩

/-- **C92**: a multisig module, after any history, panics while verifying only for metadata of fewer than 68 bytes, a
message of fewer than 77 bytes, or a signature in the metadata whose last byte is below 27; for the first two reasons it
always does, and so it does if the very first signature has such a last byte and the origin is enrolled. Its other entry
points panic only for short messages. -/
theorem C92_multisig {H : Bytes → Bytes} {R : Recover} (hg : GoodCrypto H R) (o0 : Addr)
    (h : List (OwnedCall Multisig.Msg)) (md b : Bytes) :
    (Panics (Multisig.verify H R (multisigAfter o0 h).2 md b) →
      md.length < 68 ∨ b.length < 77 ∨
        ∃ sig, SignatureIn md sig ∧ ∃ x, sig[64]? = some x ∧ x.toNat < 27) ∧
    (md.length < 68 ∨ b.length < 77 → Panics (Multisig.verify H R (multisigAfter o0 h).2 md b)) ∧
    (∀ m e x, WireFormat m b → Multisig.enrolled (multisigAfter o0 h).2 m.origin = .ok e →
      133 ≤ md.length → md[132]? = some x → x.toNat < 27 →
      Panics (Multisig.verify H R (multisigAfter o0 h).2 md b)) ∧
    (Panics (Multisig.verifyInfo (multisigAfter o0 h).2 b) ↔ b.length < 77) ∧
    (∀ c, ¬ Panics (Multisig.step (multisigAfter o0 h) c)) ∧
    (∀ d, ¬ Panics (Multisig.enrolled (multisigAfter o0 h).2 d)) := by
  have hidx : ∀ q, MessageIdMeta.decode md = .ok q → q.merkleIndex.length = 4 ∧
      q.signatures = chunksExact sigLen (md.drop 68) := by
    intro q hq
    unfold MessageIdMeta.decode at hq
    obtain ⟨s, hs, hq⟩ := bind_eq_ok.1 hq
    obtain ⟨a, ha, hq⟩ := bind_eq_ok.1 hq
    obtain ⟨b', hb, hq⟩ := bind_eq_ok.1 hq
    obtain ⟨c, hc, hq⟩ := bind_eq_ok.1 hq
    cases hq
    unfold sliceFrom at hs
    unfold slice at hc
    split at hs
    · split at hc
      · cases hs; cases hc
        refine ⟨?_, rfl⟩
        rw [List.length_take, List.length_drop]
        omega
      · cases hc
    · cases hs
  have hpi : ∀ q, MessageIdMeta.decode md = .ok q → ¬ Panics q.index := by
    intro q hq
    unfold MessageIdMeta.index
    rw [if_pos (hidx q hq).1]
    exact panics_ok _
  refine ⟨?_, ?_, ?_, ?_, ?_, ?_⟩
  · intro hp
    simp only [Multisig.verify, panics_bind, panics_messageIdDecode, panics_decode, panics_load, panics_pure, and_false,
      exists_false, or_false, false_or] at hp
    rcases hp with hp | ⟨q, hq, hp | ⟨m, hm, hp | ⟨i, hi, vs, hvs, t, ht, hp⟩⟩⟩
    · exact .inl hp
    · exact .inr (.inl hp)
    · exact absurd hp (hpi q hq)
    · right; right
      have ht0 : t ≠ 0 := by
        rcases multisig_inv o0 h m.origin with ⟨_, hn⟩ | ⟨vs', t', _, h2, h3, _⟩
        · rw [Multisig.load_ok, hn] at ht; cases ht
        · rw [Multisig.load_ok, h2] at ht; cases ht
          exact Multisig.u8_ne_zero.2 h3
      obtain ⟨sig, hs, hb⟩ := panics_multisigLoop hg _ _ _ ht0 hp
      rw [(hidx q hq).2] at hs
      have hl := chunksExact_mem_length hs
      refine ⟨sig, ?_, ?_⟩
      · unfold chunksExact at hs
        obtain ⟨i, _, hi⟩ := List.mem_map.1 hs
        refine ⟨i, ?_, hl⟩
        rw [← hi, List.drop_drop, show sigLen = 65 from rfl, Nat.mul_comm]
      · rcases hb with hb | hb
        · rw [hl] at hb; exact absurd hb (by decide)
        · exact hb
  · rintro hp
    simp only [Multisig.verify, panics_bind, panics_messageIdDecode, panics_decode]
    by_cases h68 : md.length < 68
    · exact .inl h68
    · right
      rcases hp with hp | hp
      · exact absurd hp h68
      · cases hq : MessageIdMeta.decode md with
        | ok q => exact ⟨q, rfl, .inl hp⟩
        | error e =>
          exfalso
          unfold MessageIdMeta.decode at hq
          have h1 : sliceFrom md 68 = .ok (md.drop 68) := if_pos (by omega)
          have sl : ∀ i j, i ≤ j → j ≤ md.length → ∃ x, slice md i j = .ok x := by
            intro i j h1 h2
            exact ⟨_, if_pos ⟨h1, h2⟩⟩
          obtain ⟨a, ha⟩ := sl 0 32 (by omega) (by omega)
          obtain ⟨b', hb⟩ := sl 32 64 (by omega) (by omega)
          obtain ⟨c, hc⟩ := sl 64 68 (by omega) (by omega)
          rw [h1, ha, hb, hc] at hq
          cases hq
  · intro m e x hw he hl hx hlt
    obtain ⟨vs, t⟩ := e
    obtain ⟨e1, e2⟩ := enrolled_ok.1 he
    have hq : MessageIdMeta.decode md = .ok ⟨md.take 32, (md.drop 32).take 32, (md.drop 64).take 4,
        chunksExact sigLen (md.drop 68)⟩ := by
      unfold MessageIdMeta.decode
      have h1 : sliceFrom md 68 = .ok (md.drop 68) := if_pos (by omega)
      have h2 : slice md 0 32 = .ok (md.take 32) := by
        unfold slice; rw [if_pos ⟨by omega, by omega⟩]; simp
      have h3 : slice md 32 64 = .ok ((md.drop 32).take 32) := if_pos ⟨by omega, by omega⟩
      have h4 : slice md 64 68 = .ok ((md.drop 64).take 4) := if_pos ⟨by omega, by omega⟩
      rw [h1, h2, h3, h4]; rfl
    have hsig : chunksExact sigLen (md.drop 68) =
        (md.drop 68).take 65 :: chunksExact sigLen ((md.drop 68).drop 65) := by
      conv_lhs => rw [← List.take_append_drop 65 (md.drop 68)]
      exact chunksExact_append (by decide) (by rw [List.length_take, List.length_drop]; show _ = 65; omega) _
    unfold Multisig.verify
    rw [hq, ok_bind, decode_of_wireFormat hw, ok_bind]
    have hix : ∃ i, MessageIdMeta.index ⟨md.take 32, (md.drop 32).take 32, (md.drop 64).take 4,
        chunksExact sigLen (md.drop 68)⟩ = .ok i := by
      unfold MessageIdMeta.index
      rw [if_pos (by simp only [List.length_take, List.length_drop]; omega)]
      exact ⟨_, rfl⟩
    obtain ⟨i, hix⟩ := hix
    rw [hix, ok_bind]
    dsimp only
    rw [Multisig.load_ok.2 e1, ok_bind, Multisig.load_ok.2 e2, ok_bind, hsig, panics_bind]
    left
    simp only [Multisig.loop]
    rw [panics_bind, panics_recoverSigner hg]
    left; right
    refine ⟨x, ?_, hlt⟩
    rw [List.getElem?_take_of_lt (by omega), List.getElem?_drop]
    exact hx
  · simp only [Multisig.verifyInfo, panics_bind, panics_decode, panics_load, panics_pure, and_false, exists_false,
      or_false]
  · intro c hp
    obtain ⟨m, _, hp⟩ := (panics_ownedStep _ _ _).1 hp
    cases m <;> simp only [Multisig.handle, panics_bind, panics_getOwner, panics_ensure, panics_pure, and_false,
      exists_false, or_self] at hp
  · intro d
    simp only [Multisig.enrolled, panics_bind, panics_load, panics_pure, and_false, exists_false, or_self,
      not_false_eq_true]

theorem panics_entryAt (v : Bytes) (i : Nat) : Panics (AggregateMeta.entryAt v i) ↔ ¬ ∃ p, PartAt v i p := by
  have h1 : ∀ p, AggregateMeta.entryAt v i = .ok p ↔ PartAt v i p := fun p => AggregateMeta.entryAt_ok
  constructor
  · rintro ⟨t, ht⟩ ⟨p, hp⟩
    rw [(h1 p).2 hp] at ht; cases ht
  · intro hn
    have key : ∀ (x : Res Bytes), (∀ e, x ≠ .error (.err e)) → (∀ p, x ≠ .ok p) → Panics x := by
      intro x hx hp
      cases x with
      | ok p => exact absurd rfl (hp p)
      | error e =>
        cases e with
        | err e => exact absurd rfl (hx e)
        | panic t => exact ⟨t, rfl⟩
    refine key _ ?_ (fun p hp => hn ⟨p, (h1 p).1 hp⟩)
    intro e he
    have sl : ∀ (v : Bytes) (i j : Nat) (e : String), slice v i j ≠ .error (.err e) := by
      intro v i j e h
      unfold slice at h
      split at h <;> cases h
    unfold AggregateMeta.entryAt at he
    dsimp only at he
    cases h2 : slice v (i * AggregateMeta.rangeSize * 2) (i * AggregateMeta.rangeSize * 2 + AggregateMeta.rangeSize) with
    | error e2 => rw [h2] at he; cases he; exact sl _ _ _ _ h2
    | ok a =>
      rw [h2, ok_bind] at he
      cases h3 : slice v (i * AggregateMeta.rangeSize * 2 + AggregateMeta.rangeSize)
          (i * AggregateMeta.rangeSize * 2 + AggregateMeta.rangeSize + AggregateMeta.rangeSize) with
      | error e2 => rw [h3] at he; cases he; exact sl _ _ _ _ h3
      | ok b => rw [h3, ok_bind] at he; exact sl _ _ _ _ he

theorem panics_entriesFrom (v : Bytes) (l : List Addr) : ∀ i, Panics (AggregateMeta.entriesFrom v i l) ↔
    ∃ j, j < l.length ∧ ¬ ∃ p, PartAt v (i + j) p := by
  induction l with
  | nil =>
    intro i
    simp only [AggregateMeta.entriesFrom, panics_ok, false_iff]
    rintro ⟨j, hj, _⟩
    exact absurd hj (by simp)
  | cons a t ih =>
    intro i
    simp only [AggregateMeta.entriesFrom, panics_bind, panics_entryAt, ih, panics_pure, and_false, exists_false,
      or_false]
    constructor
    · rintro (h | ⟨p, _, j, hj, h⟩)
      · exact ⟨0, by simp, h⟩
      · exact ⟨j + 1, by simpa using hj, by rw [← Nat.add_assoc, Nat.add_right_comm]; exact h⟩
    · rintro ⟨j, hj, h⟩
      by_cases h0 : ∃ p, PartAt v i p
      · obtain ⟨p, hp⟩ := h0
        right
        cases j with
        | zero => exact absurd ⟨p, hp⟩ h
        | succ j =>
          refine ⟨p, AggregateMeta.entryAt_ok.2 hp, j, by simpa using hj, ?_⟩
          rw [Nat.add_right_comm, Nat.add_assoc]; exact h
      · exact .inl h0

theorem panics_aggregateLoop {V : Verifier} (hV : VerifierCalm V) (b : Bytes) (l : List (Addr × Bytes)) :
    ∀ t : UInt8, t ≠ 0 → ¬ Panics (AggregateIsm.loop V b t l) := by
  induction l with
  | nil => intro t _; exact panics_ok _
  | cons x rest ih =>
    intro t ht hp
    obtain ⟨a, md⟩ := x
    simp only [AggregateIsm.loop] at hp
    rw [panics_bind] at hp
    rcases hp with hp | ⟨v, _, hp⟩
    · exact hV _ _ _ hp
    · rw [panics_bind] at hp
      rcases hp with hp | ⟨t', _, hp⟩
      · unfold AggregateIsm.lower at hp
        split at hp
        · exact ht ((panics_pred t).1 hp)
        · exact panics_ok _ hp
      · split at hp
        · exact panics_ok _ hp
        · rename_i hne
          exact ih t' hne hp

/-- **C92**: an aggregate module with a threshold other than zero panics exactly when the metadata does not contain a part
for one of its modules; its other entry points never panic. -/
theorem C92_aggregate_ism {V : Verifier} (hV : VerifierCalm V) :
    (∀ s md b, s.threshold ≠ 0 → (Panics (AggregateIsm.verify V s md b) ↔
      ∃ i, i < s.isms.length ∧ ¬ ∃ p, PartAt md i p)) ∧
    (∀ s c, ¬ Panics (AggregateIsm.step s c)) ∧ (∀ C s, ¬ Panics (AggregateIsm.verifyInfo C s)) := by
  refine ⟨?_, ?_, ?_⟩
  · intro s md b ht
    simp only [AggregateIsm.verify, AggregateMeta.fromHex, panics_bind, panics_entriesFrom,
      panics_aggregateLoop hV b _ _ ht, panics_pure, and_false, exists_false, or_false, Nat.zero_add]
  · intro s c hp
    obtain ⟨m, _, hp⟩ := (panics_ownedStep _ _ _).1 hp
    cases m
    simp only [AggregateIsm.handle, panics_bind, panics_getOwner, panics_ensure, panics_pure, and_false,
      exists_false, or_self] at hp
  · intro C s
    have hd : ∀ l : List Addr, ¬ Panics (AggregateIsm.decodeAll C l) := by
      intro l
      induction l with
      | nil => exact panics_ok _
      | cons a t ih =>
        simp only [AggregateIsm.decodeAll, panics_bind, panics_bech32Decode, ih, panics_pure, and_false, exists_false,
          or_self, not_false_eq_true]
    simp only [AggregateIsm.verifyInfo, panics_bind, hd, panics_pure, and_false, exists_false, or_self,
      not_false_eq_true]

theorem panics_moduleFor (s : RoutingIsm.State) (d : UInt32) : ¬ Panics (RoutingIsm.moduleFor s d) := by
  unfold RoutingIsm.moduleFor
  split
  · exact panics_ok _
  · exact panics_err _

/-- **C92**: a routing module panics exactly when asked about a message of fewer than 77 bytes, a pausable module never. -/
theorem C92_other_isms {V : Verifier} (hV : VerifierCalm V) :
    (∀ s md b, Panics (RoutingIsm.verify V s md b) ↔ b.length < 77) ∧
    (∀ s b, Panics (RoutingIsm.route s b) ↔ b.length < 77) ∧
    (∀ s c, ¬ Panics (RoutingIsm.step s c)) ∧
    (∀ p md b, ¬ Panics (PausableIsm.verify p md b)) ∧ (∀ s c, ¬ Panics (pausableStep s c)) := by
  have hV' : ∀ a x y, ¬ Panics (V a x y) := hV
  refine ⟨?_, ?_, ?_, ?_, ?_⟩
  · intro s md b
    simp only [RoutingIsm.verify, panics_bind, panics_decode, panics_moduleFor, hV', and_false, exists_false, or_false]
  · intro s b
    simp only [RoutingIsm.route, panics_bind, panics_decode, panics_moduleFor, and_false, exists_false, or_false]
  · intro s c hp
    obtain ⟨m, _, hp⟩ := (panics_ownedStep _ _ _).1 hp
    cases m <;> simp only [RoutingIsm.handle, panics_bind, panics_getOwner, panics_ensure, panics_pure, and_false,
      exists_false, or_self] at hp
  · intro p md b
    simp only [PausableIsm.verify, panics_bind, panics_ensure, panics_pure, and_false, exists_false, or_self,
      not_false_eq_true]
  · intro s c hp
    obtain ⟨m, _, hp⟩ := (panics_ownedStep _ _ _).1 hp
    exact panics_pausable _ _ _ _ hp

/-! ## Validator announce -/

/-- **C92**: an announcement panics exactly when it is of a 20-byte validator, is not a repetition, and either the mailbox
address has more than 32 bytes or the signature is too short or its 65th byte is below 27. -/
theorem C92_announce {H : Bytes → Bytes} {R : Recover} (hg : GoodCrypto H R) (s : Va.State) (c : Va.Call) :
    Panics (Va.announce H R s c) ↔
      c.validator.length = 20 ∧ s.replays.has (H (c.validator ++ c.location)) = false ∧
      (32 < s.mailbox.length ∨ BadSignature c.signature) := by
  unfold Va.announce Va.replayHash
  rw [panics_guard]
  dsimp only
  rw [panics_guard]
  have hd : ∀ d, Panics (Va.digest H s.localDomain s.mailbox d) ↔ 32 < s.mailbox.length := by
    intro d
    simp only [Va.digest, Va.domainHash, panics_bind, panics_padLeft32, panics_pure, and_false, exists_false, or_false]
  simp only [panics_bind, hd, panics_recoverSigner hg, panics_ensure, panics_pure, and_false, exists_false, or_false,
    decide_eq_true_eq, Bool.not_eq_true']
  refine and_congr_right fun _ => and_congr_right fun _ => ?_
  constructor
  · rintro (h | ⟨_, _, h⟩)
    · exact .inl h
    · exact .inr h
  · intro h
    by_cases hl : 32 < s.mailbox.length
    · exact .inl hl
    · rcases h with h | h
      · exact absurd h hl
      · refine .inr ⟨_, (Va.digest_ok hg.hash).2 ⟨by omega, rfl⟩, h⟩

/-! ## Token routers -/

theorem panics_expectRoute (s : Warp.State) (d : UInt32) :
    Panics (Warp.expectRoute s d) ↔ Router.getRoute s.routes d = none := by
  unfold Warp.expectRoute
  cases Router.getRoute s.routes d with
  | none => simp only [iff_true]; exact panics_panic _
  | some r => simp only [reduceCtorEq, iff_false]; exact panics_ok _

theorem expectRoute_ok {s : Warp.State} {d : UInt32} {r : Bytes} :
    Warp.expectRoute s d = .ok r ↔ Router.getRoute s.routes d = some r := by
  unfold Warp.expectRoute
  cases Router.getRoute s.routes d <;> simp

theorem panics_loadToken (s : Warp.State) : ¬ Panics (Warp.loadToken s) := by
  unfold Warp.loadToken
  split
  · exact panics_ok _
  · exact panics_err _

theorem loadToken_ok {s : Warp.State} {t : String} : Warp.loadToken s = .ok t ↔ s.token = some t := by
  unfold Warp.loadToken
  cases s.token <;> simp

theorem panics_toUint128 (n : Nat) : ¬ Panics (Warp.toUint128 n) := by
  unfold Warp.toUint128
  split
  · exact panics_ok _
  · exact panics_err _

theorem panics_checkHook (valid : Addr → Bool) (h : Option Addr) : ¬ Panics (Warp.checkHook valid h) := by
  unfold Warp.checkHook
  split
  · exact panics_ok _
  · exact panics_ensure _ _

theorem panics_takeCoin (token : String) (amount : Nat) (l : List Coin) :
    Panics (Warp.takeCoin token amount l) ↔ ∀ c ∈ l, c.denom ≠ token := by
  induction l with
  | nil => simp only [Warp.takeCoin, panics_panic, true_iff]; intro c hc; cases hc
  | cons c t ih =>
    simp only [Warp.takeCoin]
    split
    · rename_i hd
      have : ¬ ∀ x ∈ c :: t, x.denom ≠ token := fun h => h c (by simp) hd
      simp only [this, iff_false]
      split
      · exact panics_ok _
      · exact panics_err _
    · rename_i hd
      simp only [panics_bind, ih, panics_pure, and_false, exists_false, or_false, List.forall_mem_cons]
      exact ⟨fun h => ⟨hd, h⟩, fun h => h.2⟩

theorem takeCoin_total (token : String) (amount : Nat) (l : List Coin) :
    (∃ r, Warp.takeCoin token amount l = .ok r) ↔
      ∃ pre c post, l = pre ++ c :: post ∧ (∀ x ∈ pre, x.denom ≠ token) ∧ c.denom = token ∧ amount ≤ c.amount := by
  induction l with
  | nil =>
    constructor
    · rintro ⟨r, h⟩; cases h
    · rintro ⟨pre, c, post, h, _⟩; cases pre <;> cases h
  | cons c t ih =>
    simp only [Warp.takeCoin]
    split
    · rename_i hd
      constructor
      · rintro ⟨r, hr⟩
        split at hr
        · rename_i hle
          exact ⟨[], c, t, rfl, by simp, hd, hle⟩
        · cases hr
      · rintro ⟨pre, c', post, h, h1, h2, h3⟩
        cases pre with
        | nil => cases h; rw [if_pos h3]; exact ⟨_, rfl⟩
        | cons x pre => cases h; exact absurd hd (h1 c (by simp))
    · rename_i hd
      constructor
      · rintro ⟨r, hr⟩
        obtain ⟨t', ht, _⟩ := bind_eq_ok.1 hr
        obtain ⟨pre, c', post, h, h1, h2, h3⟩ := ih.1 ⟨t', ht⟩
        exact ⟨c :: pre, c', post, by rw [h]; rfl, by simpa using ⟨hd, h1⟩, h2, h3⟩
      · rintro ⟨pre, c', post, h, h1, h2, h3⟩
        cases pre with
        | nil => cases h; exact absurd h2 hd
        | cons x pre =>
          cases h
          obtain ⟨r, hr⟩ := ih.2 ⟨pre, c', post, rfl, fun y hy => h1 y (by simp [hy]), h2, h3⟩
          exact ⟨_, by rw [hr]; rfl⟩

theorem panics_handle {k : Warp.Kind} (hk : ∀ a t m r n, ¬ Panics (k.release a t m r n)) (C : Codec) (self : Addr)
    (s : Warp.State) (sender : Addr) (origin : UInt32) (from32 body : Bytes) :
    Panics (Warp.handle k C self s sender origin from32 body) ↔ PanicsOnArrival s sender origin from32 body := by
  unfold Warp.handle PanicsOnArrival
  rw [panics_guard, decide_eq_true_eq]
  refine and_congr_right fun _ => ?_
  rw [panics_bind, panics_expectRoute]
  refine or_congr_right ?_
  constructor
  · rintro ⟨r, hr, h⟩
    rw [panics_guard, decide_eq_true_eq] at h
    obtain ⟨rfl, h⟩ := h
    simp only [panics_bind, panics_warpDecode, panics_bech32Encode, panics_loadToken, hk, panics_pure, and_false,
      exists_false, or_false] at h
    exact ⟨expectRoute_ok.1 hr, h⟩
  · rintro ⟨hr, hb⟩
    refine ⟨from32, expectRoute_ok.2 hr, ?_⟩
    rw [panics_guard, decide_eq_true_eq]
    refine ⟨rfl, ?_⟩
    rw [panics_bind, panics_warpDecode]
    exact .inl hb

/-- **C92**: a native token router panics exactly when it is told by the mailbox of a message from a domain without route,
or of a message of fewer than 64 bytes from its remote router; or when a transfer is asked for without any coin of its
denomination, or with enough coins but to a domain without route. -/
theorem C92_native_router {C : Codec} {self : Addr} {s : Ownable.State × Warp.State}
    {c : ExecCall (Addr → Bool) Warp.Msg} :
    Panics (Warp.execute Warp.native C self s c) ↔
      (∃ origin from32 body, c.msg = .inr (.handle origin from32 body) ∧
        PanicsOnArrival s.2 c.sender origin from32 body) ∨
      (∃ dest r n hook md token, c.msg = .inr (.transferRemote dest r n hook md) ∧ n < 2 ^ 128 ∧
        s.2.token = some token ∧
        ((∀ x ∈ c.funds, x.denom ≠ token) ∨
          (Router.getRoute s.2.routes dest = none ∧ ∃ pre x post, c.funds = pre ++ x :: post ∧
            (∀ y ∈ pre, y.denom ≠ token) ∧ x.denom = token ∧ n ≤ x.amount))) := by
  have hrel : ∀ a t m r n, ¬ Panics (Warp.native.release a t m r n) := by
    intro a t m r n
    simp only [Warp.native, panics_bind, panics_toUint128, panics_pure, and_false, exists_false, or_self,
      not_false_eq_true]
  have htake : ∀ a t m x funds n, Panics (Warp.native.take a t m x funds n) ↔ ∀ y ∈ funds, y.denom ≠ t := by
    intro a t m x funds n
    simp only [Warp.native, panics_bind, panics_takeCoin, panics_pure, and_false, exists_false, or_false]
  have htake' : ∀ a t m x funds n, (∃ p, Warp.native.take a t m x funds n = .ok p) ↔
      ∃ r, Warp.takeCoin t n funds = .ok r := by
    intro a t m x funds n
    simp only [Warp.native]
    constructor
    · rintro ⟨p, hp⟩
      obtain ⟨r, hr, _⟩ := bind_eq_ok.1 hp
      exact ⟨r, hr⟩
    · rintro ⟨r, hr⟩
      exact ⟨_, by rw [hr]; rfl⟩
  unfold Warp.execute
  rw [panics_execOwned]
  constructor
  · rintro ⟨m, hm, h⟩
    cases m with
    | handle origin from32 body =>
      simp only [Warp.part, panics_bind, panics_handle hrel, panics_pure, and_false, exists_false, or_false] at h
      exact .inl ⟨origin, from32, body, hm, h⟩
    | transferRemote dest r n hook md =>
      right
      simp only [Warp.part, panics_bind, panics_pure, and_false, exists_false, or_false] at h
      unfold Warp.transferRemote at h
      rw [panics_guard, decide_eq_true_eq] at h
      obtain ⟨hn, h⟩ := h
      rw [panics_bind] at h
      rcases h with h | ⟨t, ht, h⟩
      · exact absurd h (panics_loadToken _)
      refine ⟨dest, r, n, hook, md, t, hm, hn, loadToken_ok.1 ht, ?_⟩
      rw [panics_bind, htake] at h
      rcases h with h | ⟨p, hp, h⟩
      · exact .inl h
      · simp only [panics_bind, panics_expectRoute, panics_checkHook, panics_pure, and_false, exists_false,
          or_false] at h
        exact .inr ⟨h, (takeCoin_total _ _ _).1 ((htake' _ _ _ _ _ _).1 ⟨p, hp⟩)⟩
    | router m =>
      simp only [Warp.part, panics_bind, panics_router, panics_pure, and_false, exists_false, or_self] at h
    | connection m =>
      simp only [Warp.part, panics_bind, panics_connection, panics_pure, and_false, exists_false, or_self] at h
  · rintro (⟨origin, from32, body, hm, h⟩ | ⟨dest, r, n, hook, md, t, hm, hn, ht, h⟩)
    · refine ⟨_, hm, ?_⟩
      simp only [Warp.part, panics_bind, panics_handle hrel]
      exact .inl h
    · refine ⟨_, hm, ?_⟩
      simp only [Warp.part, panics_bind]
      left
      unfold Warp.transferRemote
      rw [panics_guard, decide_eq_true_eq]
      refine ⟨hn, ?_⟩
      rw [loadToken_ok.2 ht, ok_bind, panics_bind, htake]
      rcases h with h | ⟨hr, h⟩
      · exact .inl h
      · obtain ⟨p, hp⟩ := (htake' self t s.2.mode c.sender c.funds n).2 ((takeCoin_total _ _ _).2 h)
        refine .inr ⟨p, hp, ?_⟩
        rw [panics_bind, panics_expectRoute]
        exact .inl hr

/-- **C92**: a cw20 token router panics exactly in the same cases of arriving messages, and when a transfer to a domain
without route is asked for. -/
theorem C92_cw20_router {C : Codec} {self : Addr} {s : Ownable.State × Warp.State}
    {c : ExecCall (Addr → Bool) Warp.Msg} :
    Panics (Warp.execute Warp.cw20 C self s c) ↔
      (∃ origin from32 body, c.msg = .inr (.handle origin from32 body) ∧
        PanicsOnArrival s.2 c.sender origin from32 body) ∨
      (∃ dest r n hook md token, c.msg = .inr (.transferRemote dest r n hook md) ∧ n < 2 ^ 128 ∧
        s.2.token = some token ∧ Router.getRoute s.2.routes dest = none) := by
  have hrel : ∀ a t m r n, ¬ Panics (Warp.cw20.release a t m r n) := by
    intro a t m r n
    simp only [Warp.cw20, panics_bind, panics_toUint128, panics_pure, and_false, exists_false, or_self,
      not_false_eq_true]
  unfold Warp.execute
  rw [panics_execOwned]
  constructor
  · rintro ⟨m, hm, h⟩
    cases m with
    | handle origin from32 body =>
      simp only [Warp.part, panics_bind, panics_handle hrel, panics_pure, and_false, exists_false, or_false] at h
      exact .inl ⟨origin, from32, body, hm, h⟩
    | transferRemote dest r n hook md =>
      right
      simp only [Warp.part, panics_bind, panics_pure, and_false, exists_false, or_false] at h
      unfold Warp.transferRemote at h
      rw [panics_guard, decide_eq_true_eq] at h
      obtain ⟨hn, h⟩ := h
      rw [panics_bind] at h
      rcases h with h | ⟨t, ht, h⟩
      · exact absurd h (panics_loadToken _)
      refine ⟨dest, r, n, hook, md, t, hm, hn, loadToken_ok.1 ht, ?_⟩
      simp only [Warp.cw20, panics_bind, panics_ok, panics_expectRoute, panics_checkHook, panics_pure, and_false,
        exists_false, or_false, false_or] at h
      obtain ⟨_, _, h⟩ := h
      exact h
    | router m =>
      simp only [Warp.part, panics_bind, panics_router, panics_pure, and_false, exists_false, or_self] at h
    | connection m =>
      simp only [Warp.part, panics_bind, panics_connection, panics_pure, and_false, exists_false, or_self] at h
  · rintro (⟨origin, from32, body, hm, h⟩ | ⟨dest, r, n, hook, md, t, hm, hn, ht, h⟩)
    · refine ⟨_, hm, ?_⟩
      simp only [Warp.part, panics_bind, panics_handle hrel]
      exact .inl h
    · refine ⟨_, hm, ?_⟩
      simp only [Warp.part, panics_bind]
      left
      unfold Warp.transferRemote
      rw [panics_guard, decide_eq_true_eq]
      refine ⟨hn, ?_⟩
      rw [loadToken_ok.2 ht, ok_bind, panics_bind]
      refine .inr ⟨_, rfl, ?_⟩
      rw [panics_bind, panics_expectRoute]
      exact .inl h

/-! ## The situations, one by one -/

namespace Ex

theorem calm : env.Calm :=
  ⟨fun _ _ _ => panics_ok _, fun _ => panics_ok _, fun _ _ _ => panics_ok _⟩

theorem alice_short : ShortAddress Bech.codec alice := by
  intro raw h
  have h1 : Bech.codec.dec alice = some aliceRaw := by decide +kernel
  rw [h1] at h
  cases h
  decide

theorem s1_complete : s1.config.Complete := ⟨rfl, rfl, rfl⟩

/-- The configured mailbox does not panic when alice dispatches, and does on a message of one byte. -/
example : ¬ Panics (Mailbox.execute toyHash Bech.codec s1 (call [] (.dispatch request))) ∧
    Panics (Mailbox.execute toyHash Bech.codec s1 (call [] (.process [] [3]))) := by
  constructor
  · rw [C92_mailbox_ready (c := call [] (.dispatch request)) calm s1_complete alice_short (by decide +kernel)]
    rintro ⟨md, b, h, _⟩
    cases h
  · exact (C92_mailbox_ready (c := call [] (.process [] [3])) calm s1_complete alice_short (by decide +kernel)).2
      ⟨[], [3], rfl, by decide⟩

/-- Every reason of `C92_mailbox_why` occurs: missing default ISM, missing default hook, missing required hook, no nonce
left, an address of 33 bytes. -/
example :
    Panics (Mailbox.execute toyHash Bech.codec { s1 with config := { s1.config with defaultIsm := none } }
      (call [] (.process [] message.encode))) ∧
    Panics (Mailbox.execute toyHash Bech.codec { s1 with config := { s1.config with defaultHook := none } }
      (call [] (.dispatch request))) ∧
    Panics (Mailbox.execute toyHash Bech.codec { s1 with config := { s1.config with requiredHook := none } }
      (call [] (.dispatch request))) ∧
    Panics (Mailbox.execute toyHash Bech.codec { s1 with nonce := 4294967295 }
      (call [⟨"uosmo", 9⟩] (.dispatch request))) ∧
    Panics (Mailbox.execute toyHash ⟨fun _ _ => none, fun _ => some (zeros 33)⟩ s1
      (call [⟨"uosmo", 9⟩] (.dispatch request))) := by decide +kernel

/-- After the history of `Ex.txs` from the configured mailbox, too. -/
example : (Tx.history (Mailbox.execute toyHash Bech.codec) s1 txs).1.config.Complete :=
  C92_mailbox_stays_complete s1_complete txs

example : (C92_mailbox_queries (C := Bech.codec) calm s0).1.mpr rfl = ⟨_, rfl⟩ := rfl

/-- A hook's view of the world in which nothing panics. -/
theorem hook_calm : HookEnv.Calm ⟨fun _ => true, [], fun _ _ _ => .ok [], fun _ => .ok []⟩ :=
  ⟨fun _ _ _ => panics_ok _, fun _ => panics_ok _⟩

example : Panics (AggregateHook.execute (Ownable.init alice, ["a", "b"])
    ⟨⟨fun _ => true, [], fun _ _ _ => .ok [], fun _ => .ok []⟩, alice, [], .inr (.postDispatch [] [1])⟩) :=
  (C92_aggregate_hook.1 _ _ hook_calm).2 ⟨[], [1], rfl, by decide, fun _ _ => ⟨[], rfl⟩⟩

/-- A merkle hook in the middle of its life panics for a short message. -/
example :
    let c : MerkleHook.Call := ⟨fun _ => .ok (toyHash (zeros 77)), [], zeros 77⟩
    Panics (MerkleHook.execute toyHash
      (Tx.history (MerkleHook.execute toyHash) ⟨"mb", Merkle.default toyZeros⟩ [[.call c []], [.call c []]]).1
      { c with message := zeros 76 }) :=
  ((C92_merkle toy_zeroChain (valid := fun _ => true) (mb := "mb") rfl _).1 _ (fun _ => panics_ok _)).2
    ⟨⟨_, rfl⟩, by decide⟩

/-- A paymaster with an oracle for domain 1. -/
def payer : Ownable.State × Igp.State :=
  (Ownable.init alice, ⟨"osmo", "uosmo", 100, OMap.empty, alice, OMap.empty.insert 1 (some "oracle")⟩)

def payerEnv (price : Nat) : IgpEnv := ⟨fun _ => true, fun _ => 0, fun _ _ => .ok ⟨10000000000, price⟩⟩

/-- Each reason of `C92_paymaster` occurs: overflow when paying for gas and when dispatching, a refund address of the
account with number one, and with a sensible one there is no panic. -/
example :
    let run (price : Nat) (m : Igp.Msg) := Igp.execute Bech.codec payer ⟨payerEnv price, alice, [⟨"uosmo", 900⟩], .inr m⟩
    Panics (run 1 (.payForGas [] 1 (2 ^ 255) alice)) ∧ Panics (run 1 (.postDispatch [] [])) ∧
    Panics (run (2 ^ 250) (.postDispatch [] message.encode)) ∧
    Panics (run 1 (.postDispatch (u256be 5 ++ (zeros 31 ++ [1])) message.encode)) ∧
    ¬ Panics (run 1 (.postDispatch (u256be 5 ++ aliceRaw) message.encode)) := by decide +kernel

theorem oracle_calm (p : Nat) : OracleCalm (payerEnv p).oracle := fun _ _ => panics_ok _

theorem good_crypto : GoodCrypto toyHash recover :=
  ⟨toyHash_length, fun _ _ _ _ h => by cases h; exact nofun⟩

/-- One signature with last byte 26 at the front of valid ones is a panic; at the end it is never looked at. -/
example :
    let bad : Bytes := List.replicate 64 1 ++ [26]
    let md (l : List Bytes) := List.replicate 68 9 ++ l.flatten
    Panics (Multisig.verify toyHash recover (multisigAfter "owner" msEnrol).2 (md [bad, vaSig 1, vaSig 3])
      message.encode) ∧
    ¬ Panics (Multisig.verify toyHash recover (multisigAfter "owner" msEnrol).2 (md [vaSig 1, vaSig 3, bad])
      message.encode) := by decide +kernel

example : Panics (Multisig.verify toyHash recover (multisigAfter "owner" msEnrol).2 (zeros 67) message.encode) :=
  (C92_multisig good_crypto "owner" msEnrol _ _).2.1 (.inl (by decide))

theorem agg_calm : VerifierCalm aggV := fun _ _ _ => panics_ok _

/-- Three modules with their parts, and metadata without them. -/
example : ¬ Panics (AggregateIsm.verify aggV ⟨["z", "x", "y"], 2⟩ aggMeta []) ∧
    Panics (AggregateIsm.verify aggV ⟨["z", "x", "y"], 2⟩ (aggMeta.take 23) []) := by
  refine ⟨by decide +kernel, ((C92_aggregate_ism agg_calm).1 _ _ _ (by decide)).2 ⟨2, by decide, ?_⟩⟩
  rintro ⟨p, h, _⟩
  exact absurd h (by decide)

example : Panics (RoutingIsm.verify aggV OMap.empty [] [1, 2]) :=
  ((C92_other_isms agg_calm).1 _ _ _).2 (by decide)

/-- An announcement with a signature of 64 bytes. -/
example : Panics (Va.announce toyHash recover vaS0 { vaCall 1 [1] with signature := List.replicate 64 1 }) ∧
    ¬ Panics (Va.announce toyHash recover vaS0 (vaCall 1 [1])) := by
  constructor
  · refine (C92_announce good_crypto _ _).2 ⟨by decide +kernel, by decide +kernel, .inr (.inl ?_)⟩
    simp
  · decide +kernel

/-- A native router with a route to domain 1 only. -/
def wallet : Ownable.State × Warp.State :=
  (Ownable.init alice, ⟨some "uosmo", .collateral, "osmo", "mb", Connection.empty, OMap.empty.insert 1 (some [7])⟩)

/-- Each reason of `C92_native_router` and `C92_cw20_router` occurs. -/
example :
    let run (k : Warp.Kind) (sender : Addr) (funds : List Coin) (m : Warp.Msg) :=
      Warp.execute k Bech.codec "self" wallet ⟨fun _ => true, sender, funds, .inr m⟩
    Panics (run Warp.native "mb" [] (.handle 2 [7] (zeros 64))) ∧
    Panics (run Warp.native "mb" [] (.handle 1 [7] (zeros 63))) ∧
    ¬ Panics (run Warp.native "mb" [] (.handle 1 [8] (zeros 63))) ∧
    Panics (run Warp.native alice [⟨"uatom", 5⟩] (.transferRemote 1 [] 5 none none)) ∧
    Panics (run Warp.native alice [⟨"uosmo", 5⟩] (.transferRemote 2 [] 5 none none)) ∧
    ¬ Panics (run Warp.native alice [⟨"uosmo", 4⟩] (.transferRemote 2 [] 5 none none)) ∧
    Panics (run Warp.cw20 alice [] (.transferRemote 2 [] 5 none none)) ∧
    ¬ Panics (run Warp.cw20 alice [] (.transferRemote 1 [] 5 none none)) := by decide +kernel

end Ex

end Hpl
