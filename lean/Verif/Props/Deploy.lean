import Verif.Examples.Deploy
import Verif.Spec.Deploy
import Verif.Props.Proto
import Verif.Props.TokenWorld

/-! # Deployment of token routers: C87 -/

namespace Hpl.Deploy

open Spec Bridge

/-! ## Replies -/

theorem parseVarint_varint (fuel : Nat) : ∀ (count n : Nat) (r : Bytes), n < 128 ^ (fuel + 1) → n < 128 ^ count → 0 < count →
    parseVarint count (Proto.varintAux fuel n ++ r) = .ok (n, r) := by
  induction fuel with
  | zero =>
    intro count n r h1 h2 h3
    obtain ⟨c, rfl⟩ : ∃ c, count = c + 1 := ⟨count - 1, by omega⟩
    have h : n < 128 := by simpa using h1
    have e : (UInt8.ofNat n).toNat = n := Proto.u8_toNat (by omega)
    show parseVarint (c + 1) (UInt8.ofNat n :: r) = _
    unfold parseVarint
    rw [e, if_pos h]
  | succ fuel ih =>
    intro count n r h1 h2 h3
    obtain ⟨c, rfl⟩ : ∃ c, count = c + 1 := ⟨count - 1, by omega⟩
    unfold Proto.varintAux
    by_cases h : n < 128
    · have e : (UInt8.ofNat n).toNat = n := Proto.u8_toNat (by omega)
      rw [if_pos h]
      show parseVarint (c + 1) (UInt8.ofNat n :: r) = _
      unfold parseVarint
      rw [e, if_pos h]
    · rw [if_neg h]
      have e : (UInt8.ofNat (n % 128 + 128)).toNat = n % 128 + 128 := Proto.u8_toNat (by omega)
      show parseVarint (c + 1) (UInt8.ofNat (n % 128 + 128) :: (Proto.varintAux fuel (n / 128) ++ r)) = _
      unfold parseVarint
      rw [e, if_neg (by omega)]
      have hc : 0 < c := by
        rcases Nat.eq_zero_or_pos c with rfl | hc
        · simp at h2; omega
        · exact hc
      rw [ih c (n / 128) r (Nat.div_lt_of_lt_mul (by rwa [Nat.pow_succ, Nat.mul_comm] at h1))
        (Nat.div_lt_of_lt_mul (by rwa [Nat.pow_succ, Nat.mul_comm] at h2)) hc]
      show Except.ok (n % 128 + 128 - 128 + 128 * (n / 128), r) = _
      congr 2
      omega

theorem parseField_encode {k : Nat} (hk : k = 1 ∨ k = 2) {b r : Bytes} (hb : b.length < 2 ^ 60) :
    parseField k (Proto.encodeField k (.bytes b) ++ r) = .ok (b, r) := by
  have hv : Proto.varint (8 * k + 2) = [UInt8.ofNat (8 * k + 2)] := by rcases hk with rfl | rfl <;> decide
  have e : Proto.encodeField k (.bytes b) ++ r = UInt8.ofNat (8 * k + 2) :: (Proto.varint b.length ++ (b ++ r)) := by
    simp [Proto.encodeField, hv]
  have h8 : (UInt8.ofNat (8 * k + 2)).toNat = 8 * k + 2 := Proto.u8_toNat (by omega)
  rw [e]
  simp only [parseField, h8]
  refine bind_eq_ok.2 ⟨(), ensure_eq_ok.2 (decide_eq_true (by omega)), bind_eq_ok.2 ⟨(),
    ensure_eq_ok.2 (decide_eq_true (by omega)), bind_eq_ok.2 ⟨(b.length, b ++ r),
      parseVarint_varint 9 9 _ _ (by omega) (by omega) (by omega), Proto.splitBytes_ok.2 ⟨rfl, rfl⟩⟩⟩⟩

/-- The address of the new contract is read as the chain wrote it. -/
theorem parseResponse_response {a : Addr} {data : Bytes} (ha : a ≠ "") (hl : (Proto.utf8 a).length < 2 ^ 60)
    (hd : data.length < 2 ^ 60) : parseResponse (instantiateResponse a data) = .ok a := by
  unfold parseResponse instantiateResponse Proto.string
  rw [if_neg ha]
  refine bind_eq_ok.2 ⟨_, parseField_encode (.inl rfl) hl, ?_⟩
  have : ∃ y, parseField 2 (if data = [] then [] else Proto.encodeField 2 (.bytes data)) = .ok y := by
    split
    · exact ⟨_, rfl⟩
    · have := parseField_encode (k := 2) (.inr rfl) (r := []) hd
      rw [List.append_nil] at this
      exact ⟨_, this⟩
  obtain ⟨y, hy⟩ := this
  refine bind_eq_ok.2 ⟨y, hy, ?_⟩
  simp only [Proto.ofUtf8_utf8]
  rfl

theorem cw20Reply_response {valid : Addr → Bool} {s s' : Ownable.State × Warp.State} {a : Addr} {data : Bytes}
    (ha : a ≠ "") (hl : (Proto.utf8 a).length < 2 ^ 60) (hd : data.length < 2 ^ 60)
    (h : cw20Reply valid s 0 (some (instantiateResponse a data)) = .ok s') :
    s' = (s.1, { s.2 with token := some a }) := by
  unfold cw20Reply at h
  rw [if_pos rfl] at h
  simp only [parseResponse_response ha hl hd] at h
  obtain ⟨a', h0, h⟩ := bind_eq_ok.1 h
  obtain rfl := Except.ok.inj h0
  obtain ⟨_, _, h⟩ := bind_eq_ok.1 h
  exact (Except.ok.inj h).symm

theorem nativeReply_response {s s' : Ownable.State × Warp.State} {denom : String}
    (hl : (Proto.utf8 denom).length < 2 ^ 60) (h : Proto.reply s 0 (some (createResponse denom)) = .ok s') :
    s' = (s.1, { s.2 with token := some denom }) := by
  obtain ⟨_, b, fs, denom', hb, hw, hs, rfl⟩ := (C73_reply s s' 0 _).1 h
  obtain rfl := Option.some.inj hb
  have hlen : (Proto.string 1 denom).length < 2 ^ 64 := by
    unfold Proto.string
    split
    · decide
    · have h1 := (Proto.varint_spec (n := (Proto.utf8 denom).length) (by omega)).2.1
      have h2 : (Proto.varint (8 * 1 + 2)).length = 1 := by decide
      simp only [Proto.encodeField, List.length_append]
      omega
  have := Proto.wire_unique hw (Proto.wire_string (k := 1) (by decide) (by decide) hlen)
  rw [this] at hs
  have h1 := Proto.lastString_str_same 1 denom
  unfold stringAt at hs
  rw [h1] at hs
  rw [Option.some.inj hs]

/-! ## Tokens -/

theorem initial_sum : ∀ (l : List (Addr × Nat)) (T : Finset Addr), (∀ e ∈ l, e.1 ∈ T) →
    ∑ a ∈ T, ((l.filter (fun p => p.1 = a)).map (·.2)).sum = (l.map (·.2)).sum
  | [], T, _ => by simp
  | e :: t, T, h => by
    have ih := initial_sum t T (fun x hx => h x (List.mem_cons_of_mem _ hx))
    have key : ∀ a, (((e :: t).filter (fun p => p.1 = a)).map (·.2)).sum =
        (if e.1 = a then e.2 else 0) + ((t.filter (fun p => p.1 = a)).map (·.2)).sum := by
      intro a
      by_cases ha : e.1 = a <;> simp [ha]
    simp only [key, List.map_cons, List.sum_cons]
    rw [Finset.sum_add_distrib, ih, Finset.sum_ite_eq, if_pos (h e (List.mem_cons_self ..))]

/-- A cw20 token created by a router: only the router can mint, without limit; nobody may spend for others; what
exists is what the deployer gave to accounts, and nothing else. -/
theorem cw20_created {strict : Bool} {valid : Addr → Bool} {self : Addr} {codeId : Nat} {init : Cw20.Init} {t : Cw20}
    (h : Cw20.instantiate strict valid (tokenMsg self codeId init).msg = .ok t) :
    t.minter = some (self, none) ∧ (∀ o s, t.allowance o s = none) ∧ t.supply = (init.balances.map (·.2)).sum ∧
      SaneToken t := by
  unfold Cw20.instantiate tokenMsg at h
  obtain ⟨_, h1, h⟩ := bind_eq_ok.1 h
  obtain ⟨_, h2, h⟩ := bind_eq_ok.1 h
  obtain ⟨_, h3, h⟩ := bind_eq_ok.1 h
  obtain ⟨_, h4, h⟩ := bind_eq_ok.1 h
  obtain ⟨_, h5, h⟩ := bind_eq_ok.1 h
  obtain rfl := Except.ok.inj h
  refine ⟨rfl, fun _ _ => rfl, rfl, ⟨(init.balances.map (·.1)).toFinset, ?_, ?_⟩, of_decide_eq_true (ensure_eq_ok.1 h3)⟩
  · intro a ha
    have : init.balances.filter (fun p => p.1 = a) = [] := by
      rw [List.filter_eq_nil_iff]
      intro e he hh
      exact ha (List.mem_toFinset.2 (List.mem_map.2 ⟨e, he, of_decide_eq_true hh⟩))
    show ((init.balances.filter (fun p => p.1 = a)).map (·.2)).sum = 0
    rw [this]
    rfl
  · exact initial_sum _ _ (fun e he => List.mem_toFinset.2 (List.mem_map.2 ⟨e, he, rfl⟩))

/-! ## Routers -/

theorem instantiate_ok {valid : Addr → Bool} {hrp : String} {owner mailbox : Addr} {mode : Warp.Mode}
    {token : Option String} {s : Ownable.State × Warp.State} (h : Warp.instantiate valid hrp owner mailbox mode token = .ok s) :
    s = (Ownable.init owner, ⟨token, mode, hrp, mailbox, Connection.empty, OMap.empty⟩) := by
  obtain ⟨_, _, h⟩ := bind_eq_ok.1 h
  obtain ⟨_, _, h⟩ := bind_eq_ok.1 h
  exact (Except.ok.inj h).symm

/-- What deployment achieves: the router uses the given mailbox and mode, has no routes and its owner is the one
named; its token is the existing one, or the new one, which the router alone can create and of which there is exactly
what a deployer of a cw20 token gave to accounts. -/
theorem deployed {Q : Cw20.Init → Prop} {p : Setup} {m : Warp.Mode} {c : TokenWorld.Chain} (h : Deployed Q p m c) :
    (c.router.2.token = some p.token ∧ c.router.2.mailbox = p.mailbox ∧ c.router.2.mode = m ∧
      ∀ o, Router.getRoute c.router.2.routes o = none) ∧
    TokenWorld.Own p m c ∧ TokenWorld.CoveredOne p c ∧
    (m = .bridged → (p.native = true → tokenSupply p c = 0) ∧
      (p.native = false → ∃ init, Q init ∧ tokenSupply p c = (init.balances.map (·.2)).sum)) := by
  have none_ : ∀ o, Router.getRoute (OMap.empty : Router.State Bytes) o = none := fun o => rfl
  cases h with
  | nativeBridged valid i b sub hp hm hi hb ht hl h =>
    obtain ⟨s, h1, h⟩ := bind_eq_ok.1 h
    obtain ⟨b', h2, h⟩ := bind_eq_ok.1 h
    obtain ⟨s', h3, h⟩ := bind_eq_ok.1 h
    obtain ⟨hs, hbank⟩ := Prod.mk.inj (Except.ok.inj h)
    have hd : Bank.factoryDenom p.router sub = p.token := ht.symm
    rw [hd] at h3
    have h4 := nativeReply_response hl h3
    rw [instantiate_ok h1] at h4
    subst hm
    unfold Bank.create at h2
    rw [hd] at h2
    split at h2
    · cases h2
    rename_i hk
    have hk : b.known p.token = false := by simpa using hk
    obtain rfl := Except.ok.inj h2
    obtain ⟨⟨T, hT1, hT2⟩, hz⟩ := hb p.token
    have hsup := hz hk
    rw [← hs, h4]
    refine ⟨⟨rfl, hi, rfl, none_⟩, ⟨fun _ => ?_, fun _ => ?_, fun hh => ?_, fun hh => ?_⟩, ⟨⟨T, ?_, ?_⟩, fun hh => ?_⟩,
      fun _ => ⟨fun _ => ?_, fun hh => by rw [hp] at hh; cases hh⟩⟩
    · rw [← hbank]; simp
    · rw [← hbank]; simp
    · rw [hp] at hh; cases hh
    · rw [hp] at hh; cases hh
    · intro a ha
      simp only [holding, hp, if_true, ← hbank]
      exact hT1 a ha
    · simp only [holding, tokenSupply, hp, if_true, ← hbank]
      exact hT2
    · rw [hp] at hh; cases hh
    · simp only [tokenSupply, hp, if_true, ← hbank]
      exact hsup
  | nativeCollateral valid i b hp hm hi hb hk ha h =>
    obtain ⟨s, h1, h⟩ := bind_eq_ok.1 h
    obtain ⟨hs, hbank⟩ := Prod.mk.inj (Except.ok.inj h)
    subst hm
    obtain ⟨⟨T, hT1, hT2⟩, _⟩ := hb p.token
    rw [← hs, instantiate_ok h1]
    refine ⟨⟨rfl, hi, rfl, none_⟩, ⟨fun _ => ?_, fun _ => ?_, fun hh => ?_, fun hh => ?_⟩, ⟨⟨T, ?_, ?_⟩, fun hh => ?_⟩,
      fun hh => by cases hh⟩
    · rw [← hbank]; exact hk
    · rw [← hbank]; exact ha
    · rw [hp] at hh; cases hh
    · rw [hp] at hh; cases hh
    · intro a ha
      simp only [holding, hp, if_true, ← hbank]
      exact hT1 a ha
    · simp only [holding, tokenSupply, hp, if_true, ← hbank]
      exact hT2
    · rw [hp] at hh; cases hh
  | cw20Bridged valid i strict data t codeId init hp hm hi hq hne hl hd h =>
    obtain ⟨s, h1, h⟩ := bind_eq_ok.1 h
    obtain ⟨t', h2, h⟩ := bind_eq_ok.1 h
    obtain ⟨s', h3, h⟩ := bind_eq_ok.1 h
    obtain ⟨hs, htok⟩ := Prod.mk.inj (Except.ok.inj h)
    have h4 := cw20Reply_response hne hl hd h3
    rw [instantiate_ok h1] at h4
    subst hm
    obtain ⟨k1, k2, k3, ⟨T, hT1, hT2⟩, k5⟩ := cw20_created h2
    rw [← hs, h4]
    refine ⟨⟨rfl, hi, rfl, none_⟩, ⟨fun hh => ?_, fun hh => ?_, fun _ _ => ?_, fun _ _ => ?_⟩, ⟨⟨T, ?_, ?_⟩, fun _ => ?_⟩,
      fun _ => ⟨fun hh => (by rw [hp] at hh; cases hh), fun _ => ⟨init, hq, ?_⟩⟩⟩
    · rw [hp] at hh; cases hh
    · rw [hp] at hh; cases hh
    · rw [← htok]; exact k1
    · rw [← htok]; exact k2 _ _
    · intro a ha
      simp only [holding, hp, ← htok]
      exact hT1 a ha
    · simp only [holding, tokenSupply, hp, ← htok]
      exact hT2
    · rw [← htok]; exact k5
    · simp only [tokenSupply, hp, ← htok]
      exact k3
  | cw20Collateral valid i strict created data t hp hm hi ht ha h =>
    obtain ⟨_, _, h⟩ := bind_eq_ok.1 h
    obtain ⟨s, h1, h⟩ := bind_eq_ok.1 h
    obtain ⟨hs, htok⟩ := Prod.mk.inj (Except.ok.inj h)
    subst hm
    obtain ⟨⟨T, hT1, hT2⟩, k5⟩ := ht
    rw [← hs, instantiate_ok h1]
    refine ⟨⟨rfl, hi, rfl, none_⟩, ⟨fun hh => ?_, fun hh => ?_, fun _ hh => ?_, fun _ _ => ?_⟩, ⟨⟨T, ?_, ?_⟩, fun _ => ?_⟩,
      fun hh => by cases hh⟩
    · rw [hp] at hh; cases hh
    · rw [hp] at hh; cases hh
    · cases hh
    · rw [← htok]; exact ha _
    · intro a ha
      simp only [holding, hp, ← htok]
      exact hT1 a ha
    · simp only [holding, tokenSupply, hp, ← htok]
      exact hT2
    · rw [← htok]; exact k5

variable {κ : Type}

/-- **C87.** Freshly deployed routers and their tokens are in order, as C84 and C85 require: whoever deployed them and
whatever the deployers of cw20 tokens wrote into the message for the token. -/
theorem C87_deployment_in_order {P : κ → Setup} {r : κ → Bytes} {d : κ → UInt32} {M : κ → Warp.Mode} {s0 : κ → TokenWorld.Chain}
    (hp : Placed P r d s0) {Q : Cw20.Init → Prop} (hd : ∀ x, Deployed Q (P x) (M x) (s0 x)) :
    Joined P r d M (view P M s0) ∧ OwnTokens P M s0 ∧ Covered P s0 := by
  refine ⟨⟨hp.codec, fun x y => hp.domains x y, hp.domain, hp.identity, hp.address, fun x => (deployed (hd x)).1.1,
    fun x => (deployed (hd x)).1.2.1, fun x o q h => ?_, fun x => (deployed (hd x)).1.2.2.1⟩,
    ⟨hp.distinct, fun x => (deployed (hd x)).1.2.2.1, fun x => (deployed (hd x)).2.1.exist,
      fun x => (deployed (hd x)).2.1.admin, fun x => (deployed (hd x)).2.1.minter,
      fun x => (deployed (hd x)).2.1.allowance⟩, fun x => (deployed (hd x)).2.2.1⟩
  have := (deployed (hd x)).1.2.2.2 o
  have h : Router.getRoute (s0 x).router.2.routes o = some q := h
  rw [this] at h
  cases h

variable [DecidableEq κ]

/-- The full claim: however the routers of a network were deployed, bridged tokens are backed from then on. -/
def C87_full : Prop :=
  ∀ (n : Nat) (H : Bytes → Bytes) (P : Fin n → Setup) (r : Fin n → Bytes) (d : Fin n → UInt32) (M : Fin n → Warp.Mode)
    (s0 : Fin n → TokenWorld.Chain) (txs : List (List (Tx.Act (TokenWorld.Act (Fin n))))) (A : Fin n → Finset Addr),
    Placed P r d s0 → (∀ x, Deployed AnyInitial (P x) (M x) (s0 x)) →
    HonestNet P r d (viewLog P M (Tx.history (TokenWorld.step H P) s0 txs).2) →
    RecipientsNet (· ≤ 32) (viewLog P M (Tx.history (TokenWorld.step H P) s0 txs).2) →
    bridgedHoldings P M (Tx.history (TokenWorld.step H P) s0 txs).1 A +
        inTransit r (viewLog P M (Tx.history (TokenWorld.step H P) s0 txs).2) ≤
      lockedCollateral P M (Tx.history (TokenWorld.step H P) s0 txs).1

/-- **C87.** Bridged tokens are backed from deployment on: in a network of freshly deployed routers, native or cw20,
holding collateral or creating tokens, after every execution what any accounts hold of bridged tokens, together with all
transfers in transit, is not more than what the collateral routers hold. Missing for the full claim, which is false:
deployers of cw20 routers must not give tokens to accounts. -/
theorem C87_backed_from_deployment_partial [Fintype κ] (H : Bytes → Bytes) (P : κ → Setup) (r : κ → Bytes) (d : κ → UInt32)
    (M : κ → Warp.Mode) (s0 : κ → TokenWorld.Chain) (txs : List (List (Tx.Act (TokenWorld.Act κ)))) (A : κ → Finset Addr)
    (hp : Placed P r d s0) (hd : ∀ x, Deployed NoInitial (P x) (M x) (s0 x))
    (hh : HonestNet P r d (viewLog P M (Tx.history (TokenWorld.step H P) s0 txs).2))
    (hr : RecipientsNet (· ≤ 32) (viewLog P M (Tx.history (TokenWorld.step H P) s0 txs).2)) :
    bridgedHoldings P M (Tx.history (TokenWorld.step H P) s0 txs).1 A +
        inTransit r (viewLog P M (Tx.history (TokenWorld.step H P) s0 txs).2) ≤
      lockedCollateral P M (Tx.history (TokenWorld.step H P) s0 txs).1 := by
  obtain ⟨h1, h2, h3⟩ := C87_deployment_in_order hp hd
  have h0 : bridgedSupply P M s0 = 0 := by
    unfold bridgedSupply
    apply Finset.sum_eq_zero
    intro x _
    split
    · rename_i hm
      obtain ⟨k1, k2⟩ := (deployed (hd x)).2.2.2 hm
      cases hn : (P x).native
      · obtain ⟨init, hq, h⟩ := k2 hn
        rw [h]
        exact hq
      · exact k1 hn
    · rfl
  exact (TokenWorld.C84_holders_backed H P r d M s0 txs h1 h2 h3 (by omega) hh hr A).1

/-- **C87.** The supply of a bridged token right after deployment: none if it is native, and what the deployer gave to
accounts if it is a cw20 token, of which no other tokens can be created except by the router. -/
theorem C87_initial_supply {Q : Cw20.Init → Prop} {p : Setup} {c : TokenWorld.Chain} (h : Deployed Q p .bridged c) :
    (p.native = true → tokenSupply p c = 0) ∧
    (p.native = false → c.token.minter = some (p.router, none) ∧
      ∃ init, Q init ∧ tokenSupply p c = (init.balances.map (·.2)).sum) := by
  obtain ⟨_, h1, _, h2⟩ := deployed h
  exact ⟨(h2 rfl).1, fun hn => ⟨h1.minter hn rfl, (h2 rfl).2 hn⟩⟩

/-- **C87** (replies). A reply about the new cw20 token is accepted only for the creation of the token, and stores a valid address and nothing
else; what the chain answers is accepted exactly if the address of the new token is valid, and that address is stored. -/
theorem C87_cw20_reply {valid : Addr → Bool} {s : Ownable.State × Warp.State} :
    (∀ id d s', cw20Reply valid s id d = .ok s' →
      id = 0 ∧ ∃ t, valid t = true ∧ s' = (s.1, { s.2 with token := some t })) ∧
    ∀ (a : Addr) (data : Bytes) s', a ≠ "" → (Proto.utf8 a).length < 2 ^ 60 → data.length < 2 ^ 60 →
      (cw20Reply valid s 0 (some (instantiateResponse a data)) = .ok s' ↔
        valid a = true ∧ s' = (s.1, { s.2 with token := some a })) := by
  constructor
  · intro id d s' h
    unfold cw20Reply at h
    split at h
    · rename_i hid
      cases d with
      | none => cases h
      | some b =>
        obtain ⟨t, _, h⟩ := bind_eq_ok.1 h
        obtain ⟨_, hv, h⟩ := bind_eq_ok.1 h
        exact ⟨hid, t, ensure_eq_ok.1 hv, (Except.ok.inj h).symm⟩
    · cases h
  · intro a data s' ha hl hd
    unfold cw20Reply
    rw [if_pos rfl]
    simp only [parseResponse_response ha hl hd, ok_bind]
    constructor
    · intro h
      obtain ⟨_, hv, h⟩ := bind_eq_ok.1 h
      exact ⟨ensure_eq_ok.1 hv, (Except.ok.inj h).symm⟩
    · rintro ⟨hv, rfl⟩
      exact bind_eq_ok.2 ⟨(), ensure_eq_ok.2 hv, rfl⟩

/-- A reply naming the new token is accepted, and refused under another id or where the address is not valid. -/
example :
    let reply (valid : Addr → Bool) (id : Nat) :=
      (cw20Reply valid ExDeploy.noRouter id (some (instantiateResponse "token" [1, 2]))).toOption.map (·.2.token)
    reply (· == "token") 0 = some (some "token") ∧ reply (· == "token") 1 = none ∧ reply (· == "other") 0 = none := by
  decide +kernel

namespace Launch

open ExDeploy
open Ex.Net (rid dom addr hub play playable honest_of honestFrom recipients_of recipientsOf history_play)

theorem facts : ((ExDeploy.cw20 []).toOption.isSome = true ∧ playable (TokenWorld.step toyHash setup) (start []) launch = true ∧
    honestFrom setup rid dom [] (viewLog setup hub (play (TokenWorld.step toyHash setup) (start []) launch).2) = true ∧
    (∀ n ∈ recipientsOf (viewLog setup hub (play (TokenWorld.step toyHash setup) (start []) launch).2), n ≤ 32)) ∧
    bridgedHoldings setup hub (play (TokenWorld.step toyHash setup) (start []) launch).1 (fun _ => {Ex.alice}) = 90 ∧
    inTransit rid (viewLog setup hub (play (TokenWorld.step toyHash setup) (start []) launch).2) = 10 ∧
    lockedCollateral setup hub (play (TokenWorld.step toyHash setup) (start []) launch).1 = 100 := by decide +kernel

/-- Three freshly deployed routers, which are then enrolled and used: alice has 90 bridged tokens, 10 are in transit and
100 are locked. -/
example : Placed setup rid dom (start []) ∧ (∀ x, Deployed NoInitial (setup x) (hub x) (start [] x)) ∧
    let h := Tx.history (TokenWorld.step toyHash setup) (start []) (launch.map (fun a => [.call a []]))
    HonestNet setup rid dom (viewLog setup hub h.2) ∧ RecipientsNet (· ≤ 32) (viewLog setup hub h.2) ∧
    bridgedHoldings setup hub h.1 (fun _ => {Ex.alice}) = 90 ∧ inTransit rid (viewLog setup hub h.2) = 10 ∧
    lockedCollateral setup hub h.1 = 100 := by
  obtain ⟨⟨h1, h2, h3, h4⟩, h5⟩ := facts
  refine ⟨start_placed [], start_deployed rfl h1, ?_⟩
  rw [history_play h2]
  exact ⟨honest_of h3, recipients_of h4, h5⟩

/-- What the deployer of the token of chain 1 gave to mallory. -/
def gift : List (Addr × Nat) := [("mallory", 90)]

theorem theft_facts : ((ExDeploy.cw20 gift).toOption.isSome = true ∧
    playable (TokenWorld.step toyHash setup) (start gift) theft = true ∧
    honestFrom setup rid dom [] (viewLog setup hub (play (TokenWorld.step toyHash setup) (start gift) theft).2) = true ∧
    (∀ n ∈ recipientsOf (viewLog setup hub (play (TokenWorld.step toyHash setup) (start gift) theft).2), n ≤ 32)) ∧
    bridgedHoldings setup hub (play (TokenWorld.step toyHash setup) (start gift) theft).1 (fun _ => {Ex.alice}) = 100 ∧
    lockedCollateral setup hub (play (TokenWorld.step toyHash setup) (start gift) theft).1 = 10 := by decide +kernel

/-- **C87.** The full claim is false: mallory, to whom the deployer of a cw20 token gave tokens, takes collateral alice
locked. Alice is left with 100 bridged tokens and 10 in collateral. -/
theorem _root_.Hpl.Deploy.C87_full_refuted : ¬ C87_full := by
  intro h
  obtain ⟨⟨h1, h2, h3, h4⟩, h5, h6⟩ := theft_facts
  have := h 3 toyHash setup rid dom hub (start gift) (theft.map (fun a => [.call a []])) (fun _ => {Ex.alice})
    (start_placed gift) (start_deployed trivial h1)
  rw [history_play h2] at this
  have := this (honest_of h3) (recipients_of h4)
  omega

/-- Both kinds of bridged tokens. -/
example : Deployed AnyInitial (setup 2) .bridged (start gift 2) ∧ (setup 2).native = true ∧
    Deployed AnyInitial (setup 1) .bridged (start gift 1) ∧ (setup 1).native = false ∧
    tokenSupply (setup 1) (start gift 1) = 90 :=
  ⟨start_deployed trivial theft_facts.1.1 2, rfl, start_deployed trivial theft_facts.1.1 1, rfl, by decide +kernel⟩

end Launch

end Hpl.Deploy
