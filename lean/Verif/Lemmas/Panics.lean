import Verif.Lemmas.Merkle
import Verif.Spec.Panics

/-! # Lemmas about panics -/

set_option linter.unusedSimpArgs false

namespace Hpl

section Basics

variable {α β : Type}

theorem panics_ok (a : α) : ¬ Panics (Except.ok a : Res α) := by rintro ⟨t, h⟩; cases h

theorem panics_pure (a : α) : ¬ Panics (pure a : Res α) := panics_ok a

theorem panics_err (t : String) : ¬ Panics (Except.error (.err t) : Res α) := by rintro ⟨t, h⟩; cases h

theorem panics_panic (t : String) : Panics (Except.error (.panic t) : Res α) := ⟨t, rfl⟩

instance (r : Res α) : Decidable (Panics r) :=
  match r with
  | .ok a => .isFalse (panics_ok a)
  | .error (.err t) => .isFalse (panics_err t)
  | .error (.panic t) => .isTrue (panics_panic t)

theorem panics_bind (x : Res α) (f : α → Res β) :
    Panics (x >>= f) ↔ Panics x ∨ ∃ a, x = .ok a ∧ Panics (f a) := by
  cases x with
  | ok a =>
    constructor
    · intro h; exact .inr ⟨a, rfl, h⟩
    · rintro (h | ⟨b, hb, h⟩)
      · exact absurd h (panics_ok a)
      · cases hb; exact h
  | error e =>
    constructor
    · rintro ⟨t, h⟩
      refine .inl ⟨t, ?_⟩
      have : e = .panic t := by simpa [bind, Except.bind] using h
      rw [this]
    · rintro (⟨t, h⟩ | ⟨b, hb, _⟩)
      · exact ⟨t, by cases h; rfl⟩
      · cases hb

theorem panics_ensure (c : Bool) (t : String) : ¬ Panics (ensure c t) := by
  unfold ensure; split
  · exact panics_ok _
  · exact panics_err _

theorem panics_slice (v : Bytes) (i j : Nat) : Panics (slice v i j) ↔ ¬ (i ≤ j ∧ j ≤ v.length) := by
  unfold slice; split
  · rename_i h; simp [h, panics_ok]
  · rename_i h; simp [h, panics_panic]

theorem panics_sliceFrom (v : Bytes) (i : Nat) : Panics (sliceFrom v i) ↔ v.length < i := by
  unfold sliceFrom; split
  · rename_i h; simp [panics_ok, h]
  · rename_i h; simp only [panics_panic, true_iff]; omega

theorem panics_index (v : Bytes) (i : Nat) : Panics (index v i) ↔ v.length ≤ i := by
  unfold index
  split
  · rename_i x h
    have := (List.getElem?_eq_some_iff.mp h).1
    simp only [panics_ok, false_iff]; omega
  · rename_i h
    simpa [panics_panic] using h

theorem panics_padLeft32 (v : Bytes) : Panics (padLeft32 v) ↔ 32 < v.length := by
  unfold padLeft32; split
  · simp only [panics_ok, false_iff]; omega
  · simp only [panics_panic, true_iff]; omega

theorem panics_bech32Decode (C : Codec) (a : Addr) : ¬ Panics (bech32Decode C a) := by
  unfold bech32Decode; split
  · exact panics_ok _
  · exact panics_err _

theorem panics_bech32Encode (C : Codec) (hrp : String) (raw : Bytes) : ¬ Panics (bech32Encode C hrp raw) := by
  unfold bech32Encode
  split
  · exact panics_err _
  · dsimp only
    split
    · exact panics_ok _
    · exact panics_err _

theorem ensure_ok_iff (c : Bool) (t : String) (u : Unit) : ensure c t = .ok u ↔ c = true := by
  unfold ensure; cases c <;> simp

theorem panics_guard (c : Bool) (t : String) (f : Unit → Res β) :
    Panics (ensure c t >>= f) ↔ c = true ∧ Panics (f ()) := by
  simp only [panics_bind, panics_ensure, ensure_ok_iff, false_or]
  exact ⟨fun ⟨_, h⟩ => h, fun h => ⟨(), h⟩⟩

end Basics

/-! ## Formats -/

theorem panics_decode (v : Bytes) : Panics (Message.decode v) ↔ v.length < 77 := by
  unfold Message.decode
  simp only [panics_bind, panics_index, panics_slice, panics_sliceFrom, panics_pure]
  constructor
  · rintro (h | ⟨_, _, h | ⟨_, _, h | ⟨_, _, h | ⟨_, _, h | ⟨_, _, h | ⟨_, _, h | ⟨_, _, h⟩⟩⟩⟩⟩⟩⟩) <;>
      first | exact h.elim | omega
  · intro h
    have sl : ∀ i j, i ≤ j → j ≤ v.length → ∃ x, slice v i j = .ok x := by
      intro i j h1 h2
      exact ⟨_, if_pos ⟨h1, h2⟩⟩
    by_cases h0 : v.length ≤ 0
    · exact .inl h0
    right
    obtain ⟨x, hx⟩ : ∃ x, index v 0 = .ok x := by
      unfold index
      cases hv : v[0]? with
      | none => exact absurd (List.getElem?_eq_none_iff.mp hv) h0
      | some x => exact ⟨x, rfl⟩
    refine ⟨x, hx, ?_⟩
    by_cases h1 : v.length < 5
    · left; omega
    obtain ⟨a, ha⟩ := sl 1 5 (by omega) (by omega)
    refine .inr ⟨a, ha, ?_⟩
    by_cases h2 : v.length < 9
    · left; omega
    obtain ⟨b, hb⟩ := sl 5 9 (by omega) (by omega)
    refine .inr ⟨b, hb, ?_⟩
    by_cases h3 : v.length < 41
    · left; omega
    obtain ⟨c, hc⟩ := sl 9 41 (by omega) (by omega)
    refine .inr ⟨c, hc, ?_⟩
    by_cases h4 : v.length < 45
    · left; omega
    obtain ⟨d, hd⟩ := sl 41 45 (by omega) (by omega)
    refine .inr ⟨d, hd, ?_⟩
    left; omega

theorem decode_total {v : Bytes} (h : 77 ≤ v.length) : ∃ m, Message.decode v = .ok m := by
  cases hd : Message.decode v with
  | ok m => exact ⟨m, rfl⟩
  | error e =>
    exfalso
    cases e with
    | panic t => exact absurd ((panics_decode v).mp ⟨t, hd⟩) (by omega)
    | err t =>
      unfold Message.decode at hd
      have sl : ∀ i j, i ≤ j → j ≤ v.length → ∃ x, slice v i j = .ok x := by
        intro i j h1 h2
        exact ⟨_, if_pos ⟨h1, h2⟩⟩
      obtain ⟨a, ha⟩ := sl 1 5 (by omega) (by omega)
      obtain ⟨b, hb⟩ := sl 5 9 (by omega) (by omega)
      obtain ⟨c, hc⟩ := sl 9 41 (by omega) (by omega)
      obtain ⟨d, hd'⟩ := sl 41 45 (by omega) (by omega)
      obtain ⟨r, hr⟩ := sl 45 77 (by omega) (by omega)
      obtain ⟨x, hx⟩ : ∃ x, index v 0 = .ok x := by
        unfold index
        cases hv : v[0]? with
        | none => exact absurd (List.getElem?_eq_none_iff.mp hv) (by omega)
        | some x => exact ⟨x, rfl⟩
      have hf : sliceFrom v 77 = .ok (v.drop 77) := if_pos (by omega)
      rw [hx, ha, hb, hc, hd', hr, hf] at hd
      cases hd

theorem decode_ok_length {v : Bytes} {m : Message} (h : Message.decode v = .ok m) : 77 ≤ v.length := by
  by_contra hc
  obtain ⟨t, ht⟩ := (panics_decode v).mpr (by omega)
  rw [h] at ht; cases ht

/-- Everything that starts by reading a message. -/
theorem panics_reading {β : Type} (v : Bytes) (f : Message → Res β) :
    Panics (Message.decode v >>= f) ↔ v.length < 77 ∨ ∃ m, Message.decode v = .ok m ∧ Panics (f m) := by
  rw [panics_bind, panics_decode]

theorem panics_warpDecode (v : Bytes) : Panics (WarpMessage.decode v) ↔ v.length < 64 := by
  unfold WarpMessage.decode
  simp only [panics_bind, panics_slice, panics_sliceFrom, panics_pure]
  constructor
  · rintro (h | ⟨_, _, h | ⟨_, _, h | ⟨_, _, h⟩⟩⟩) <;> first | exact h.elim | omega
  · intro h
    by_cases h1 : v.length < 32
    · left; omega
    · refine .inr ⟨_, if_pos ⟨by omega, by omega⟩, ?_⟩
      left; omega

theorem panics_toMsg (C : Codec) (m : DispatchMsg) (ver : UInt8) (n o : UInt32) (a : Addr) :
    Panics (Mailbox.toMsg C m ver n o a) ↔ ∃ raw, C.dec a = some raw ∧ 32 < raw.length := by
  unfold Mailbox.toMsg bech32ToH256
  simp only [panics_bind, panics_pure, panics_bech32Decode, panics_padLeft32, false_or, and_false, exists_false,
    or_false]
  constructor
  · rintro ⟨raw, h, hl⟩
    unfold bech32Decode at h
    cases hd : C.dec a with
    | none => rw [hd] at h; cases h
    | some r => rw [hd] at h; cases h; exact ⟨_, rfl, hl⟩
  · rintro ⟨raw, h, hl⟩
    exact ⟨raw, by unfold bech32Decode; rw [h], hl⟩

/-! ## Packages -/

theorem panics_getOwner (s : Ownable.State) : ¬ Panics (Ownable.getOwner s) := by
  unfold Ownable.getOwner; split
  · exact panics_ok _
  · exact panics_err _

theorem panics_onlyOwner (s : Ownable.State) (a : Addr) : ¬ Panics (onlyOwner s a) := by
  unfold onlyOwner
  simp only [panics_bind, panics_getOwner, panics_ensure, or_self, false_or, or_false, and_false, exists_false,
    not_false_eq_true]

theorem panics_ownable (valid : Addr → Bool) (s : Ownable.State) (a : Addr) (m : Ownable.Msg) :
    ¬ Panics (Ownable.handle valid s a m) := by
  cases m <;> simp only [Ownable.handle, Ownable.initTransfer, Ownable.revoke, Ownable.claim]
  · simp only [panics_bind, panics_getOwner, panics_ensure, panics_pure, or_self, false_or, or_false, and_false,
      exists_false, not_false_eq_true]
  · simp only [panics_bind, panics_getOwner, panics_ensure, panics_pure, or_self, false_or, or_false, and_false,
      exists_false, not_false_eq_true]
  · split
    · exact panics_err _
    · simp only [panics_bind, panics_ensure, panics_pure, or_self, false_or, or_false, and_false, exists_false,
        not_false_eq_true]

theorem panics_pausable (own : Ownable.State) (p : Bool) (a : Addr) (m : Pausable.Msg) :
    ¬ Panics (Pausable.handle own p a m) := by
  unfold Pausable.handle
  cases m <;> simp only [panics_bind, panics_getOwner, panics_ensure, panics_pure, or_self, false_or, or_false,
    and_false, exists_false, not_false_eq_true]

theorem panics_router {τ : Type} (own : Ownable.State) (s : Router.State τ) (a : Addr) (m : Router.Msg τ) :
    ¬ Panics (Router.handle own s a m) := by
  unfold Router.handle
  cases m <;> simp only [panics_bind, panics_getOwner, panics_ensure, panics_pure, or_self, false_or, or_false,
    and_false, exists_false, not_false_eq_true]

theorem panics_connection (valid : Addr → Bool) (own : Ownable.State) (s : Connection.State) (a : Addr)
    (m : Connection.Msg) : ¬ Panics (Connection.handle valid own s a m) := by
  unfold Connection.handle
  cases m <;> simp only [panics_bind, panics_getOwner, panics_ensure, panics_pure, or_self, false_or, or_false,
    and_false, exists_false, not_false_eq_true]

/-- The entry point of a contract panics only in its own part. -/
theorem panics_execOwned {ε σ μ : Type} (valid : ε → Addr → Bool)
    (part : ε → Ownable.State → σ → Addr → List Coin → μ → Res (σ × Response)) (s : Ownable.State × σ)
    (c : ExecCall ε μ) :
    Panics (execOwned valid part s c) ↔ ∃ m, c.msg = .inr m ∧ Panics (part c.env s.1 s.2 c.sender c.funds m) := by
  unfold execOwned
  cases hm : c.msg with
  | inl m =>
    simp only [panics_bind, panics_ownable, panics_pure, and_false, exists_false, or_false, false_iff]
    rintro ⟨_, h, _⟩; cases h
  | inr m =>
    simp only [panics_bind, panics_pure, and_false, exists_false, or_false]
    exact ⟨fun h => ⟨m, rfl, h⟩, fun ⟨_, h, hp⟩ => by cases h; exact hp⟩

theorem panics_ownedStep {σ μ : Type} (part : (Addr → Bool) → Ownable.State → σ → Addr → μ → Res σ)
    (s : Ownable.State × σ) (c : OwnedCall μ) :
    Panics (ownedStep part s c) ↔ ∃ m, c.msg = .inr m ∧ Panics (part c.valid s.1 s.2 c.sender m) := by
  unfold ownedStep
  cases hm : c.msg with
  | inl m =>
    simp only [panics_bind, panics_ownable, panics_pure, and_false, exists_false, or_false, false_iff]
    rintro ⟨_, h, _⟩; cases h
  | inr m =>
    simp only [panics_bind, panics_pure, and_false, exists_false, or_false]
    exact ⟨fun h => ⟨m, rfl, h⟩, fun ⟨_, h, hp⟩ => by cases h; exact hp⟩

/-! ## Coins -/

theorem panics_tryFrom (l : List Coin) : ¬ Panics (Coins.tryFrom l) := by
  have : ∀ (l : List Coin) (m : Coins), ¬ Panics (Coins.tryFromAux m l) := by
    intro l
    induction l with
    | nil => intro m; exact panics_ok _
    | cons c t ih =>
      intro m
      simp only [Coins.tryFromAux]
      split
      · exact ih _
      · split
        · exact panics_err _
        · exact ih _
  exact this l _

theorem panics_add (m : Coins) (c : Coin) : ¬ Panics (Coins.add m c) := by
  unfold Coins.add
  split
  · exact panics_ok _
  · split
    · exact panics_ok _
    · split
      · exact panics_ok _
      · exact panics_err _

theorem panics_addAll (l : List Coin) : ∀ m : Coins, ¬ Panics (Coins.addAll m l) := by
  induction l with
  | nil => intro m; exact panics_ok _
  | cons c t ih => intro m; simp only [Coins.addAll]; simp only [panics_bind, panics_add, ih, or_self, false_or,
      or_false, and_false, exists_false, not_false_eq_true]

theorem panics_payFees (m : Coins) (l : List Coin) : ¬ Panics (Mailbox.payFees m l) := by
  unfold Mailbox.payFees
  split
  · exact panics_ok _
  · exact panics_err _

theorem panics_mustPay (funds : List Coin) (d : String) : ¬ Panics (mustPay funds d) := by
  unfold mustPay
  split
  · exact panics_err _
  · split
    · exact panics_err _
    · split
      · exact panics_ok _
      · exact panics_err _
  · exact panics_err _

/-! ## Signatures -/

theorem panics_recoverPubkey (R : Recover) (h s : Bytes) (v : UInt8) : ¬ Panics (recoverPubkey R h s v) := by
  unfold recoverPubkey; split
  · exact panics_ok _
  · exact panics_err _

theorem panics_sub27 (x : UInt8) : Panics (sub27 x) ↔ x.toNat < 27 := by
  unfold sub27; split
  · simp only [panics_ok, false_iff]; omega
  · simp only [panics_panic, true_iff]; omega

theorem panics_ethAddr {H : Bytes → Bytes} (hH : ∀ b, (H b).length = 32) {k : Bytes} (hk : k ≠ []) :
    ¬ Panics (ethAddr H k) := by
  have hl : 1 ≤ k.length := by
    cases k with
    | nil => exact absurd rfl hk
    | cons a t => simp
  unfold ethAddr
  have h1 : sliceFrom k 1 = .ok (k.drop 1) := if_pos hl
  have h2 : sliceFrom (H (k.drop 1)) 12 = .ok ((H (k.drop 1)).drop 12) := if_pos (by rw [hH]; omega)
  rw [h1]
  simp only [panics_bind, panics_ok, false_or]
  rintro ⟨a, ha, h | ⟨b, hb, h⟩⟩
  · cases ha; rw [h2] at h; exact panics_ok _ h
  · cases ha; rw [h2] at hb; cases hb
    rw [if_pos (by rw [List.length_drop, hH])] at h
    exact panics_ok _ h

theorem panics_recoverSigner {H : Bytes → Bytes} {R : Recover} (hg : GoodCrypto H R) (h sig : Bytes) :
    Panics (recoverSigner H R h sig) ↔ BadSignature sig := by
  unfold recoverSigner BadSignature
  simp only [panics_bind, panics_slice, panics_index, panics_sub27, panics_recoverPubkey, false_or]
  constructor
  · rintro (hl | ⟨rs, _, hl | ⟨x, hx, hs | ⟨v, _, pk, hpk, hp⟩⟩⟩)
    · left; omega
    · left; omega
    · right
      unfold index at hx
      cases hi : sig[64]? with
      | none => rw [hi] at hx; cases hx
      | some y => rw [hi] at hx; cases hx; exact ⟨_, rfl, hs⟩
    · exfalso
      refine panics_ethAddr hg.hash ?_ hp
      unfold recoverPubkey at hpk
      cases hr : R h rs v with
      | none => rw [hr] at hpk; cases hpk
      | some p => rw [hr] at hpk; cases hpk; exact hg.key _ _ _ _ hr
  · rintro (hl | ⟨x, hx, hs⟩)
    · by_cases h64 : sig.length < 64
      · left; omega
      · exact .inr ⟨_, if_pos ⟨by omega, by omega⟩, .inl (by omega)⟩
    · have := (List.getElem?_eq_some_iff.mp hx).1
      exact .inr ⟨_, if_pos ⟨by omega, by omega⟩, .inr ⟨x, by unfold index; rw [hx], .inl hs⟩⟩

end Hpl
