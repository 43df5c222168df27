import Verif.Examples.TokenWorld
import Verif.Lemmas.TokenWorldSim
import Verif.Props.TokenNetLive
import Mathlib.Algebra.Order.BigOperators.Group.Finset

/-! # Tokens of networks: C84, C85 -/

namespace Hpl

/-- Calls that succeed one after the other are a history of transactions of one call each. -/
theorem Tx.history_of_chain {σ ι ρ : Type} {step : σ → ι → Res (σ × ρ)} {s0 s : σ} {log : List (Tx.Entry ι ρ)}
    (h : Tx.Chain step s0 log s) : Tx.history step s0 (log.map (fun e => [.call e.1 []])) = (s, log) := by
  have key : ∀ (l : List (Tx.Entry ι ρ)) s0 pre, Tx.Chain step s0 l s →
      (l.map (fun e => [Tx.Act.call e.1 []])).foldl
        (fun x tx => ((Tx.exec step (.attempt tx) x).getD x)) (s0, pre) = (s, pre ++ l) := by
    intro l
    induction l with
    | nil =>
      intro s0 pre h
      simp only [Tx.Chain] at h
      subst h
      simp
    | cons e t ih =>
      intro s0 pre h
      obtain ⟨c, r⟩ := e
      obtain ⟨m, h1, h2⟩ := h
      rw [List.map_cons, List.foldl_cons]
      have : (Tx.exec step (.attempt [.call c []]) (s0, pre)).getD (s0, pre) = (m, pre ++ [(c, r)]) := by
        simp only [Tx.exec, Tx.execList, h1, Option.getD_some]
      rw [this, ih _ _ h2, List.append_assoc]
      rfl
  have := key log s0 [] h
  rwa [List.nil_append] at this

namespace TokenWorld

open Spec
open Bridge (Setup Out)

variable {κ : Type} [DecidableEq κ]

/-- Executions with tokens are executions of `TokenNet`. -/
theorem chain_sim {H : Bytes → Bytes} {P : κ → Setup} {M : κ → Warp.Mode} :
    ∀ {log : List (Tx.Entry (Act κ) Out)} {s0 s : κ → Chain} (_ : OwnTokens P M s0) (_ : Tx.Chain (step H P) s0 log s),
    Tx.Chain (TokenNet.step H P) (view P M s0) (viewLog P M log) (view P M s) ∧ OwnTokens P M s ∧
      (Covered P s0 → Covered P s)
  | [], s0, s, ho, h => by
    simp only [Tx.Chain] at h
    subst h
    exact ⟨rfl, ho, id⟩
  | (a, o) :: t, s0, s, ho, h => by
    obtain ⟨m, h1, h2⟩ := h
    obtain ⟨a1, a2, a3⟩ := step_sim ho h1
    obtain ⟨b1, b2, b3⟩ := chain_sim a2 h2
    exact ⟨⟨_, a1, b1⟩, b2, fun hc => b3 (a3 hc)⟩

/-- The transactions of `TokenNet` that correspond to a log. -/
def viewTxs (P : κ → Setup) (M : κ → Warp.Mode) (log : List (Tx.Entry (Act κ) Out)) :
    List (List (Tx.Act (TokenNet.Act κ))) := (viewLog P M log).map (fun e => [.call e.1 []])

theorem history_sim {H : Bytes → Bytes} {P : κ → Setup} {M : κ → Warp.Mode} {s0 : κ → Chain} (ho : OwnTokens P M s0)
    (txs : List (List (Tx.Act (Act κ)))) :
    Tx.history (TokenNet.step H P) (view P M s0) (viewTxs P M (Tx.history (step H P) s0 txs).2) =
      (view P M (Tx.history (step H P) s0 txs).1, viewLog P M (Tx.history (step H P) s0 txs).2) ∧
    OwnTokens P M (Tx.history (step H P) s0 txs).1 ∧ (Covered P s0 → Covered P (Tx.history (step H P) s0 txs).1) := by
  obtain ⟨h1, h2, h3⟩ := chain_sim ho (Tx.history_chain (step H P) s0 txs)
  exact ⟨Tx.history_of_chain h1, h2, h3⟩

omit [DecidableEq κ] in
theorem totals_view [Fintype κ] {P : κ → Setup} {M : κ → Warp.Mode} (s : κ → Chain) :
    totalBridged M (view P M s) = bridgedSupply P M s ∧ totalCollateral M (view P M s) = lockedCollateral P M s := by
  constructor
  · refine Finset.sum_congr rfl (fun x _ => ?_)
    unfold view
    by_cases hm : M x = .bridged
    · simp only [if_pos hm]
    · simp only [if_neg hm]
  · exact Finset.sum_congr rfl (fun x _ => rfl)

theorem amounts_le {f : Addr → Nat} {n : Nat} (h : Amounts f n) (A : Finset Addr) : ∑ a ∈ A, f a ≤ n := by
  obtain ⟨T, h1, rfl⟩ := h
  calc ∑ a ∈ A, f a ≤ ∑ a ∈ A ∪ T, f a := Finset.sum_le_sum_of_subset Finset.subset_union_left
    _ = ∑ a ∈ T, f a := (Finset.sum_subset Finset.subset_union_right (fun a _ ha => h1 a ha)).symm

/-- **C84.** A network as in C81 with the tokens themselves. Bridged tokens are controlled by their routers, collateral
tokens are not in the hands of others, balances amount to the supplies, and the bridged supplies are backed at the start.
Then after every execution, in which anybody may also use the tokens as they like, this is still so: whatever any accounts
hold of bridged tokens, together with all transfers in transit, is not more than what the collateral routers hold. -/
theorem C84_holders_backed [Fintype κ] (H : Bytes → Bytes) (P : κ → Setup) (r : κ → Bytes) (d : κ → UInt32)
    (M : κ → Warp.Mode) (s0 : κ → Chain) (txs : List (List (Tx.Act (Act κ)))) (hj : Joined P r d M (view P M s0))
    (ho : OwnTokens P M s0) (hc : Covered P s0) (h0 : bridgedSupply P M s0 ≤ lockedCollateral P M s0)
    (hh : HonestNet P r d (viewLog P M (Tx.history (step H P) s0 txs).2))
    (hr : RecipientsNet (· ≤ 32) (viewLog P M (Tx.history (step H P) s0 txs).2)) (A : κ → Finset Addr) :
    bridgedHoldings P M (Tx.history (step H P) s0 txs).1 A +
        inTransit r (viewLog P M (Tx.history (step H P) s0 txs).2) ≤
      lockedCollateral P M (Tx.history (step H P) s0 txs).1 ∧
    bridgedSupply P M (Tx.history (step H P) s0 txs).1 + inTransit r (viewLog P M (Tx.history (step H P) s0 txs).2) ≤
      lockedCollateral P M (Tx.history (step H P) s0 txs).1 ∧
    OwnTokens P M (Tx.history (step H P) s0 txs).1 ∧ Covered P (Tx.history (step H P) s0 txs).1 := by
  obtain ⟨e, ho', hc'⟩ := history_sim (H := H) ho txs
  have hb := (TokenNet.C81_network_backing H P r d M (view P M s0) (viewTxs P M (Tx.history (step H P) s0 txs).2) hj
    (by rw [(totals_view s0).1, (totals_view s0).2]; exact h0) (by rw [e]; exact hh) (by rw [e]; exact hr)).1
  rw [e] at hb
  simp only at hb
  rw [(totals_view _).1, (totals_view _).2] at hb
  refine ⟨Nat.le_trans (Nat.add_le_add_right ?_ _) hb, hb, ho', hc' hc⟩
  refine Finset.sum_le_sum (fun x _ => ?_)
  by_cases hm : M x = .bridged
  · rw [if_pos hm, if_pos hm]
    exact amounts_le (hc' hc x).1 (A x)
  · rw [if_neg hm, if_neg hm]

/-- **C84.** If all recipients have 32 bytes the books balance exactly: apart from gifts to routers and tokens burned by
their holders, what the collateral routers hold moves with the bridged supplies and what is in transit. -/
theorem C84_exact [Fintype κ] (H : Bytes → Bytes) (P : κ → Setup) (r : κ → Bytes) (d : κ → UInt32)
    (M : κ → Warp.Mode) (s0 : κ → Chain) (txs : List (List (Tx.Act (Act κ)))) (hj : Joined P r d M (view P M s0))
    (ho : OwnTokens P M s0) (hh : HonestNet P r d (viewLog P M (Tx.history (step H P) s0 txs).2))
    (hr : RecipientsNet (· = 32) (viewLog P M (Tx.history (step H P) s0 txs).2)) :
    lockedCollateral P M (Tx.history (step H P) s0 txs).1 + bridgedSupply P M s0 =
      lockedCollateral P M s0 + bridgedSupply P M (Tx.history (step H P) s0 txs).1 +
        inTransit r (viewLog P M (Tx.history (step H P) s0 txs).2) +
        donatedNet P M (viewLog P M (Tx.history (step H P) s0 txs).2) +
        burnedByOthersNet M (viewLog P M (Tx.history (step H P) s0 txs).2) := by
  obtain ⟨e, _, _⟩ := history_sim (H := H) ho txs
  have hb := (TokenNet.C81_network_exact H P r d M (view P M s0) (viewTxs P M (Tx.history (step H P) s0 txs).2) hj
    (by rw [e]; exact hh) (by rw [e]; exact hr)).1
  rw [e] at hb
  simp only at hb
  rw [(totals_view _).1, (totals_view _).2, (totals_view _).1, (totals_view _).2] at hb
  exact hb

/-! ## Arrival -/

theorem move_nil (b : Bank) (src dst : Addr) : b.move src dst [] = .ok b := by
  rw [Bank.move_ok]
  refine ⟨fun t => Nat.zero_le _, ?_⟩
  have : (fun a d => (if a = src then b.balance a d - Bank.total d [] else b.balance a d) +
      if a = dst then Bank.total d [] else 0) = b.balance := by
    funext a d
    show (if a = src then b.balance a d - 0 else b.balance a d) + (if a = dst then 0 else 0) = b.balance a d
    simp
  rw [this]

theorem total_single (t denom : String) (n : Nat) : Bank.total t [⟨denom, n⟩] = if denom = t then n else 0 := by
  unfold Bank.total
  by_cases h : denom = t <;> simp [h]

theorem coins_single {p : Setup} (hp : p.native = true) (n : Nat) : p.coins [⟨p.token, n⟩] = n := by
  rw [coins_total hp, total_single, if_pos rfl]

theorem send_live {b : Bank} {src dst : Addr} {denom : String} {n : Nat} (hn : n ≠ 0) (hb : n ≤ b.balance src denom) :
    ∃ b', b.send src dst [⟨denom, n⟩] = .ok b' := by
  refine ⟨_, bind_eq_ok.2 ⟨(), ensure_eq_ok.2 (by simp [hn]), Bank.move_ok.2 ⟨fun t => ?_, rfl⟩⟩⟩
  rw [total_single]
  by_cases h : denom = t
  · rw [if_pos h, ← h]; exact hb
  · rw [if_neg h]; exact Nat.zero_le _

/-- The ledgers let a router pay out what it has or may create. -/
theorem payout_live {H : Bytes → Bytes} {p : Setup} {env : Mailbox.Env} {m : Warp.Mode} {c : Chain} {dst : Addr} {n : Nat}
    (hne : p.token ≠ p.mailbox) (o : Own p m c) (hc : CoveredOne p c) (hn : n ≠ 0)
    (hpay : m = .collateral → n ≤ holding p c p.router)
    (hcap : m = .bridged → p.native = false → tokenSupply p c + n < u128Lim) :
    ∃ c', performAll H p env c (Bridge.payout p m dst n) = .ok (c', []) ∧
      (dst ≠ p.router → holding p c' dst = holding p c dst + n) ∧
      ∀ a, a ≠ dst → a ≠ p.router → holding p c' a = holding p c a := by
  have one : ∀ {q : OutMsg} {c c' : Chain}, perform H p env c q = .ok (c', []) →
      performAll H p env c [q] = .ok (c', []) := by
    intro q c c' h
    exact bind_eq_ok.2 ⟨_, h, rfl⟩
  unfold Bridge.payout
  cases hp : p.native
  · have hpos : c.token.positive n = .ok () := ensure_eq_ok.2 (by simp [hn])
    have hexec : ∀ {q : Payload} {t : Cw20}, cw20 p c.token q = .ok t →
        perform H p env c (.execute p.token q []) = .ok ({ c with token := t }, []) := by
      intro q t h
      refine bind_eq_ok.2 ⟨_, move_nil _ _ _, ?_⟩
      rw [if_neg hne, if_pos ⟨hp, rfl⟩]
      exact bind_eq_ok.2 ⟨t, h, rfl⟩
    have hlt := hc.2 hp
    have hamt : ∀ A : Finset Addr, ∑ a ∈ A, c.token.balance a ≤ c.token.supply := by
      have := amounts_le hc.1
      simpa [holding, tokenSupply, hp] using this
    cases m with
    | bridged =>
      have hcap' : c.token.supply + n < u128Lim := by
        have := hcap rfl hp
        simpa [tokenSupply, hp] using this
      have hd : c.token.balance dst ≤ c.token.supply := by
        have := hamt {dst}
        simpa using this
      have hm : ∃ t, c.token.mint p.router dst n = .ok t := by
        obtain ⟨t, ht⟩ : ∃ t, ({ c.token with supply := c.token.supply + n } : Cw20).credit dst n = .ok t :=
          ⟨_, Cw20.credit_ok.2 ⟨Nat.lt_of_le_of_lt (Nat.add_le_add_right hd n) hcap', rfl⟩⟩
        refine ⟨t, bind_eq_ok.2 ⟨(), hpos, ?_⟩⟩
        rw [o.minter hp rfl]
        exact bind_eq_ok.2 ⟨(), ensure_eq_ok.2 (decide_eq_true rfl), bind_eq_ok.2 ⟨(),
          ensure_eq_ok.2 (decide_eq_true hcap'), bind_eq_ok.2 ⟨(), ensure_eq_ok.2 rfl,
            by rw [← o.minter hp rfl]; exact ht⟩⟩⟩
      obtain ⟨t, ht⟩ := hm
      obtain ⟨_, hlt', ht'⟩ := Cw20.mint_ok ht
      obtain ⟨e, _, _⟩ := created (p := p) (c := c) (t := t) (dst := dst) hp (by rw [ht']) (by rw [ht']) hlt'
      refine ⟨_, one (hexec ht), fun _ => ?_, fun a ha _ => ?_⟩
      · rw [e, if_pos rfl]
      · rw [e, if_neg ha]
    | collateral =>
      have hb : n ≤ c.token.balance p.router := by
        have := hpay rfl
        simpa [holding, hp] using this
      have hm : ∃ t, c.token.transfer p.router dst n = .ok t := by
        obtain ⟨u, hu⟩ : ∃ u, c.token.debit p.router n = .ok u := ⟨_, Cw20.debit_ok.2 ⟨hb, rfl⟩⟩
        obtain ⟨_, hu'⟩ := Cw20.debit_ok.1 hu
        suffices h : u.balance dst + n < u128Lim from
          ⟨_, bind_eq_ok.2 ⟨(), hpos, bind_eq_ok.2 ⟨u, hu, Cw20.credit_ok.2 ⟨h, rfl⟩⟩⟩⟩
        rw [hu']
        by_cases hd : dst = p.router
        · have := hamt {p.router}
          simp only [Finset.sum_singleton] at this
          simp only [hd, if_true]
          omega
        · have := hamt {dst, p.router}
          rw [Finset.sum_pair hd] at this
          simp only [if_neg hd]
          omega
      obtain ⟨t, ht⟩ := hm
      obtain ⟨h1, ht'⟩ := Cw20.transfer_ok ht
      obtain ⟨_, e, _, _⟩ := transferred (p := p) (c := c) (t := t) (src := p.router) (dst := dst) hp h1 (by rw [ht']) (by rw [ht'])
      refine ⟨_, one (hexec ht), fun hd => ?_, fun a ha hr => ?_⟩
      · rw [e, if_neg hd, if_pos rfl]
      · rw [e, if_neg hr, if_neg ha, Nat.add_zero]
  · cases m with
    | bridged =>
      have hadm := o.admin hp
      rw [if_pos rfl] at hadm
      obtain ⟨b, hb⟩ : ∃ b, c.bank.mint p.router p.token n p.router = .ok b := ⟨_, Bank.mint_ok.2 ⟨hn, hadm, rfl⟩⟩
      obtain ⟨_, e, _, _, _⟩ := minted_bank (p := p) (m := .bridged) hb
      have hle : n ≤ b.balance p.router p.token := by
        have := e p.router
        simp only [holding, hp, if_true, true_and] at this
        omega
      obtain ⟨b', hb'⟩ := send_live (dst := dst) hn hle
      obtain ⟨_, e2, _, _, _⟩ := moved_bank (p := p) (m := .bridged) (c := { c with bank := b }) (Bank.send_ok hb')
      rw [coins_single hp] at e2
      refine ⟨{ c with bank := b' }, bind_eq_ok.2 ⟨({ c with bank := b }, []),
        bind_eq_ok.2 ⟨(), ensure_eq_ok.2 (decide_eq_true rfl), bind_eq_ok.2 ⟨b, hb, rfl⟩⟩,
        bind_eq_ok.2 ⟨({ c with bank := b' }, []), one (bind_eq_ok.2 ⟨b', hb', rfl⟩), rfl⟩⟩, fun hd => ?_, fun a ha hr => ?_⟩
      · rw [e2, if_neg hd, if_pos rfl, e, if_neg hd]
      · rw [e2, if_neg hr, if_neg ha, e, if_neg hr, Nat.add_zero]
    | collateral =>
      have hle : n ≤ c.bank.balance p.router p.token := by
        have := hpay rfl
        simpa [holding, hp] using this
      obtain ⟨b', hb'⟩ := send_live (dst := dst) hn hle
      obtain ⟨_, e2, _, _, _⟩ := moved_bank (p := p) (m := .bridged) (c := c) (Bank.send_ok hb')
      rw [coins_single hp] at e2
      refine ⟨{ c with bank := b' }, one (bind_eq_ok.2 ⟨b', hb', rfl⟩), fun hd => ?_, fun a ha hr => ?_⟩
      · rw [e2, if_neg hd, if_pos rfl]
      · rw [e2, if_neg hr, if_neg ha, Nat.add_zero]

/-- A router that pays collateral has it. -/
theorem payout_needs {H : Bytes → Bytes} {p : Setup} {env : Mailbox.Env} {c : Bridge.Chain} {dst : Addr} {n : Nat}
    {x : Bridge.Chain × List Response} (hne : p.token ≠ p.mailbox)
    (h : Bridge.performAll H p env c (Bridge.payout p .collateral dst n) = .ok x) : n ≤ c.held := by
  unfold Bridge.payout at h
  cases hp : p.native
  · rw [if_neg (by rw [hp]; decide)] at h
    obtain ⟨y, h1, _⟩ := bind_eq_ok.1 h
    obtain ⟨k, h2, h1⟩ := bind_eq_ok.1 h1
    rw [if_neg hne, if_pos ⟨hp, rfl⟩] at h1
    obtain ⟨c', h3, _⟩ := bind_eq_ok.1 h1
    obtain ⟨_, h4, _⟩ := bind_eq_ok.1 h3
    obtain ⟨_, g⟩ := Bridge.sub_ok.1 h2
    have := (Bridge.sub_ok.1 h4).1
    simp only at this
    omega
  · rw [if_pos hp] at h
    obtain ⟨y, h1, _⟩ := bind_eq_ok.1 h
    obtain ⟨k, h2, h1⟩ := bind_eq_ok.1 h1
    have := (Bridge.sub_ok.1 h2).1
    rwa [coins_single hp] at this

theorem payout_ne {p : Setup} {m : Warp.Mode} {dst : Addr} {n : Nat} : Bridge.payout p m dst n ≠ [] := by
  unfold Bridge.payout
  cases p.native <;> cases m <;> simp [nativeRelease, cw20Release]

/-- **C85.** In a network with tokens as in C84, a transfer of `amount` (not zero) to an account of 32 bytes announced one
message for a chain `z` of the network. As long as it was not delivered, anybody can deliver it, if the module responsible
for the router of `z` approves it, that router knows the sending router, and it creates tokens or is the only one holding
collateral (less than 2^128 tokens, if `z` has a cw20 token to be created). The bank, the token factory and the cw20
token let the router pay, and the account has `amount` tokens more than before; unless another message with the same
hash was delivered on `z` before. -/
theorem C85_tokens_arrive [Fintype κ] (H : Bytes → Bytes) (P : κ → Setup) (r : κ → Bytes) (d : κ → UInt32)
    (M : κ → Warp.Mode) (s0 : κ → Chain) (txs : List (List (Tx.Act (Act κ)))) (hj : Joined P r d M (view P M s0))
    (ho : OwnTokens P M s0) (hc : Covered P s0) (htok : ∀ x, (P x).token ≠ (P x).mailbox)
    (h0 : bridgedSupply P M s0 ≤ lockedCollateral P M s0)
    (hh : HonestNet P r d (viewLog P M (Tx.history (step H P) s0 txs).2))
    (hr : RecipientsNet (· ≤ 32) (viewLog P M (Tx.history (step H P) s0 txs).2))
    {x : κ} {c : ExecCall (Addr → Bool) Warp.Msg} {env : Mailbox.Env} {o : Out} {dest : UInt32} {recipient : Bytes}
    {amount : Nat} {hook : Option Addr} {md : Option Bytes}
    (he : (Act.router x c env, o) ∈ (Tx.history (step H P) s0 txs).2)
    (hm : c.msg = .inr (.transferRemote dest recipient amount hook md)) (hlen : recipient.length = 32) (hne : amount ≠ 0) :
    ∃ z m, dest = d z ∧ o.mailbox.flatMap dispatchedIn = [m] ∧
      ∀ (call : Mailbox.Call) (metadata : Bytes) (ism dst : Addr),
        call.msg = .process metadata m → call.funds = [] → call.sender ≠ (P z).router →
        m ∉ deliveredAt z (viewLog P M (Tx.history (step H P) s0 txs).2) → (s0 z).box.deliveries.has (H m) = false →
        ((Tx.history (step H P) s0 txs).1 z).box.config.defaultIsm ≠ none →
        ResponsibleIsm call.env ((Tx.history (step H P) s0 txs).1 z).box (P z).router ism →
        call.env.verify ism metadata m = .ok true →
        bech32Encode (P z).codec ((Tx.history (step H P) s0 txs).1 z).router.2.hrp recipient = .ok dst →
        Router.getRoute ((Tx.history (step H P) s0 txs).1 z).router.2.routes (d x) = some (r x) →
        (M z = .collateral → ∀ y, M y = .collateral → y = z) →
        (M z = .bridged → (P z).native = false → lockedCollateral P M (Tx.history (step H P) s0 txs).1 < 2 ^ 128) →
        (∃ s' o', step H P (Tx.history (step H P) s0 txs).1 (.mailbox z call) = .ok (s', o') ∧
          o'.router.msgs = Bridge.payout (P z) (M z) dst amount ∧
          (dst ≠ (P z).router →
            holding (P z) (s' z) dst = holding (P z) ((Tx.history (step H P) s0 txs).1 z) dst + amount) ∧
          ∀ a, a ≠ dst → a ≠ (P z).router →
            holding (P z) (s' z) a = holding (P z) ((Tx.history (step H P) s0 txs).1 z) a) ∨
        ∃ m' ∈ deliveredAt z (viewLog P M (Tx.history (step H P) s0 txs).2), m' ≠ m ∧ H m' = H m := by
  obtain ⟨hback, hbs, ho', hc'⟩ := C84_holders_backed H P r d M s0 txs hj ho hc h0 hh hr (fun _ => ∅)
  obtain ⟨e, _, _⟩ := history_sim (H := H) ho txs
  have hmem : (TokenNet.Act.router x c env, o) ∈ viewLog P M (Tx.history (step H P) s0 txs).2 :=
    List.mem_map.2 ⟨_, he, rfl⟩
  have key := TokenNet.transfer_arrives H P r d M (view P M s0) (viewTxs P M (Tx.history (step H P) s0 txs).2) hj htok
    (by rw [(totals_view s0).1, (totals_view s0).2]; exact h0) (by rw [e]; exact hh) (by rw [e]; exact hr)
    (by rw [e]; exact hmem) hm hlen
  rw [e] at key
  simp only at key
  obtain ⟨z, m, k1, k2, key⟩ := key
  generalize Tx.history (step H P) s0 txs = hist at *
  obtain ⟨s, log⟩ := hist
  simp only at *
  refine ⟨z, m, k1, k2, fun call metadata ism dst g1 g2 g2' g3 g4 g5 g6 g7 g8 g9 g10 g11 => ?_⟩
  rcases key call metadata ism dst g1 g3 g4 g5 g6 g7 g8 g9 g10 with ⟨t, o', hstep, hmsgs, hle⟩ | h
  · left
    obtain ⟨y, hy, hstep⟩ := bind_eq_ok.1 hstep
    obtain ⟨w, hw, hstep⟩ := bind_eq_ok.1 hstep
    obtain ⟨_, rfl⟩ := Prod.mk.inj (Except.ok.inj hstep)
    obtain ⟨y1, y2⟩ := y
    have hproc : Mailbox.process H (P z).codec call.env (s z).box call.sender metadata m = .ok (y1, y2) := by
      have : Mailbox.execute H (P z).codec (s z).box call =
          Mailbox.process H (P z).codec call.env (s z).box call.sender metadata m := by
        unfold Mailbox.execute
        rw [g1]
      rw [← this]
      exact hy
    obtain ⟨msg, recip, named, dflt, _, _, _, _, _, _, _, _, _, hy2⟩ := Mailbox.process_ok.1 hproc
    have hmsgs2 : y2.msgs = [.execute recip (.handle msg.origin msg.sender msg.body) []] := by rw [hy2]
    simp only [hmsgs2] at hw
    unfold Bridge.deliver at hw
    simp only at hw
    split at hw
    · rename_i hrec
      obtain ⟨q, hq, hw⟩ := bind_eq_ok.1 hw
      obtain ⟨w2, hw2, hw⟩ := bind_eq_ok.1 hw
      obtain rfl := Except.ok.inj hw
      have hq2 : q.2.msgs = Bridge.payout (P z) (M z) dst amount := hmsgs
      rw [hq2] at hw2
      have g := own_good ho' z
      have hcz := hc' z
      obtain ⟨c', hc1, hc2, hc3⟩ := payout_live (H := H) (p := P z) (env := call.env) (m := M z)
        (c := { s z with box := y1, router := q.1 }) (dst := dst) (n := amount) (htok z)
        ⟨g.own.exist, g.own.admin, g.own.minter, g.own.allowance⟩ hcz hne
        (by
          intro hm
          rw [hm] at hw2
          have := payout_needs (htok z) hw2
          simp only at this
          have hcn : (P z).coins [] = 0 := by unfold Setup.coins; split <;> rfl
          rw [hcn] at this
          exact this)
        (by
          intro hmb hnat
          have h1 := g11 hmb hnat
          have h2 : tokenSupply (P z) (s z) ≤ bridgedSupply P M s := by
            unfold bridgedSupply
            have := Finset.single_le_sum (f := fun x => if M x = .bridged then tokenSupply (P x) (s x) else 0)
              (fun _ _ => Nat.zero_le _) (Finset.mem_univ z)
            simpa only [hmb, if_true] using this
          show tokenSupply (P z) (s z) + amount < u128Lim
          have h3 : u128Lim = 2 ^ 128 := rfl
          omega)
      refine ⟨Function.update s z c', ⟨q.2, y2 :: []⟩, ?_, hq2, ?_, ?_⟩
      · refine bind_eq_ok.2 ⟨(), ensure_eq_ok.2 (decide_eq_true g2'), bind_eq_ok.2 ⟨(s z).bank, ?_,
          bind_eq_ok.2 ⟨(y1, y2), hy, bind_eq_ok.2 ⟨(c', q.2, []), ?_, rfl⟩⟩⟩⟩
        · rw [g2]; exact move_nil _ _ _
        · show deliver H (P z) call.env _ y2.msgs = _
          rw [hmsgs2]
          unfold deliver
          simp only
          rw [if_pos hrec]
          refine bind_eq_ok.2 ⟨(), ensure_eq_ok.2 (decide_eq_true (ho'.distinct z)), bind_eq_ok.2 ⟨(s z).bank,
            move_nil _ _ _, bind_eq_ok.2 ⟨q, hq, bind_eq_ok.2 ⟨(c', []), ?_, rfl⟩⟩⟩⟩
          rw [hq2]
          exact hc1
      · rw [Function.update_self]
        exact hc2
      · rw [Function.update_self]
        exact hc3
    · obtain rfl := Except.ok.inj hw
      exact absurd hmsgs.symm payout_ne
  · exact .inr h

/-! ## Transfers of nothing -/

/-- Neither the bank nor the token factory lets a native router give nothing to anybody. -/
theorem payout_zero {H : Bytes → Bytes} {p : Setup} {env : Mailbox.Env} {c : Chain} {mode : Warp.Mode} {token : String}
    {dst : Addr} {l : List OutMsg} {x : Chain × List Response}
    (hl : Warp.native.release p.router token mode dst 0 = .ok l) : performAll H p env c l ≠ .ok x := by
  intro h
  cases mode with
  | bridged =>
    obtain rfl := Except.ok.inj hl
    obtain ⟨y, h1, _⟩ := bind_eq_ok.1 h
    obtain ⟨_, _, h1⟩ := bind_eq_ok.1 h1
    obtain ⟨b, h1, _⟩ := bind_eq_ok.1 h1
    exact (Bank.mint_ok.1 h1).1 rfl
  | collateral =>
    obtain rfl := Except.ok.inj hl
    obtain ⟨y, h1, _⟩ := bind_eq_ok.1 h
    obtain ⟨b, h1, _⟩ := bind_eq_ok.1 h1
    obtain ⟨_, h1, _⟩ := bind_eq_ok.1 h1
    exact absurd (ensure_eq_ok.1 h1) (by simp)

/-- **C85.** Why the amount must not be zero: routers accept transfers of zero, but a message with such a transfer can
never be delivered to a native router, whoever tries it in whatever state and with whatever modules. -/
theorem C85_zero_never_arrives (H : Bytes → Bytes) (P : κ → Setup) {s : κ → Chain} {z : κ} {call : Mailbox.Call}
    {metadata : Bytes} {m : Message} {recipient rest : Bytes} (hp : (P z).native = true)
    (hc : call.msg = .process metadata m.encode) (hs : m.sender.length = 32)
    (hr0 : m.recipient.length = 32)
    (hr : bech32Encode (P z).codec (s z).box.config.hrp m.recipient = .ok (P z).router)
    (hb : m.body = recipient ++ u256be 0 ++ rest) (hlen : recipient.length = 32) :
    ∀ x, step H P s (.mailbox z call) ≠ .ok x := by
  intro x h
  obtain ⟨_, _, h⟩ := bind_eq_ok.1 h
  obtain ⟨b, _, h⟩ := bind_eq_ok.1 h
  obtain ⟨⟨y1, y2⟩, hy, h⟩ := bind_eq_ok.1 h
  obtain ⟨w, hw, _⟩ := bind_eq_ok.1 h
  have hproc : Mailbox.process H (P z).codec call.env (s z).box call.sender metadata m.encode = .ok (y1, y2) := by
    have : Mailbox.execute H (P z).codec (s z).box call =
        Mailbox.process H (P z).codec call.env (s z).box call.sender metadata m.encode := by
      unfold Mailbox.execute
      rw [hc]
    rw [← this]
    exact hy
  obtain ⟨msg, recip, named, dflt, h1, h2, _, _, _, _, _, _, _, hy2⟩ := Mailbox.process_ok.1 hproc
  rw [Message.decode_encode m hs hr0] at h1
  obtain rfl := Except.ok.inj h1
  rw [hr] at h2
  obtain rfl := Except.ok.inj h2
  have hmsgs : y2.msgs = [.execute (P z).router (.handle m.origin m.sender m.body) []] := by rw [hy2]
  simp only [hmsgs] at hw
  unfold deliver at hw
  simp only [if_true] at hw
  obtain ⟨_, _, hw⟩ := bind_eq_ok.1 hw
  obtain ⟨b2, _, hw⟩ := bind_eq_ok.1 hw
  obtain ⟨q, hq, hw⟩ := bind_eq_ok.1 hw
  obtain ⟨v, hv, _⟩ := bind_eq_ok.1 hw
  obtain ⟨r, hh, rfl⟩ := execute_handle.1 hq
  obtain ⟨_, _, hh⟩ := bind_eq_ok.1 hh
  obtain ⟨_, _, hh⟩ := bind_eq_ok.1 hh
  obtain ⟨_, _, hh⟩ := bind_eq_ok.1 hh
  obtain ⟨wm, hd, hh⟩ := bind_eq_ok.1 hh
  obtain ⟨dst, _, hh⟩ := bind_eq_ok.1 hh
  obtain ⟨token, _, hh⟩ := bind_eq_ok.1 hh
  obtain ⟨msgs, hk, hh⟩ := bind_eq_ok.1 hh
  obtain rfl := Except.ok.inj hh
  have ha : wm.amount = 0 := by
    obtain ⟨_, rfl⟩ := Warp.decode_ok.1 hd
    show fromBE (bytesOf 32 64 m.body) = 0
    have : bytesOf 32 64 m.body = u256be 0 := by
      rw [hb]
      unfold bytesOf
      rw [List.append_assoc, ← hlen, List.drop_left]
      exact List.take_left' (by rw [hlen]; decide)
    rw [this]
    decide
  rw [ha] at hk
  unfold Setup.kind at hk
  rw [if_pos hp] at hk
  exact payout_zero hk hv

namespace Tour

open ExWorld
open Ex.Net (rid dom addr setup hub transferMsg play playable honest_of honestFrom recipients_of recipientsOf history_play)

/-- The state and the log after `ExWorld.tour`. -/
def result : (Fin 3 → Chain) × List (Tx.Entry (Act (Fin 3)) Out) := play (step toyHash setup) start tour

theorem facts : (playable (step toyHash setup) start tour = true ∧
    honestFrom setup rid dom [] (viewLog setup hub result.2) = true ∧
    (∀ n ∈ recipientsOf (viewLog setup hub result.2), n = 32)) ∧
    (lockedCollateral setup hub result.1 = 78 ∧ bridgedSupply setup hub result.1 = 65) ∧
    inTransit rid (viewLog setup hub result.2) = 5 ∧
    (donatedNet setup hub (viewLog setup hub result.2) = 3 ∧ burnedByOthersNet hub (viewLog setup hub result.2) = 5) ∧
    bridgedHoldings setup hub result.1 (fun _ => {Ex.alice, "bob", "carol"}) = 65 := by decide +kernel

theorem result_eq : Tx.history (step toyHash setup) start (tour.map (fun a => [.call a []])) = result :=
  history_play facts.1.1

theorem honest : HonestNet setup rid dom (viewLog setup hub result.2) := honest_of facts.1.2.1

theorem recipients : RecipientsNet (· = 32) (viewLog setup hub result.2) := recipients_of facts.1.2.2

/-- An execution with three chains and their tokens meeting all hypotheses: 78 tokens held by the collateral router, 65 by
alice, bob and carol on the other chains, 5 in transit, 3 given and 5 burned. -/
example : Joined setup rid dom hub (view setup hub start) ∧ OwnTokens setup hub start ∧ Covered setup start ∧
    bridgedSupply setup hub start ≤ lockedCollateral setup hub start ∧
    let x := Tx.history (step toyHash setup) start (tour.map (fun a => [.call a []]))
    HonestNet setup rid dom (viewLog setup hub x.2) ∧ RecipientsNet (· = 32) (viewLog setup hub x.2) ∧
    (lockedCollateral setup hub x.1 = 78 ∧ bridgedSupply setup hub x.1 = 65) ∧ inTransit rid (viewLog setup hub x.2) = 5 ∧
    (donatedNet setup hub (viewLog setup hub x.2) = 3 ∧ burnedByOthersNet hub (viewLog setup hub x.2) = 5) ∧
    bridgedHoldings setup hub x.1 (fun _ => {Ex.alice, "bob", "carol"}) = 65 := by
  refine ⟨start_joined, start_own, start_covered, by decide +kernel, ?_⟩
  rw [result_eq]
  exact ⟨honest, recipients, facts.2⟩

/-- The message of the last transfer of the tour. -/
def last : Bytes := transferMsg 2 1 1 Ex.aliceId 5

theorem last_facts : ((result.2[15]?).map (fun e => e.2.mailbox.flatMap dispatchedIn)) = some [last] ∧
    last ∉ deliveredAt 1 (viewLog setup hub result.2) ∧
    (∀ m ∈ deliveredAt 1 (viewLog setup hub result.2), toyHash m ≠ toyHash last) ∧
    ((result.1 1).box.config.defaultIsm = some "ism" ∧
      bech32Encode Bech.codec (result.1 1).router.2.hrp Ex.aliceId = .ok Ex.alice ∧
      Router.getRoute (result.1 1).router.2.routes (dom 2) = some (rid 2)) ∧
    (holding (setup 1) (result.1 1) Ex.alice = 30 ∧
      ((step toyHash setup result.1 (relay 1 last)).toOption.map (fun q => holding (setup 1) (q.1 1) Ex.alice)) =
        some 35) := by
  decide +kernel

/-- The last transfer of the tour, from chain 2 to chain 1, was not delivered, and everything needed to deliver it is
there: alice gets 5 tokens. -/
example : (∀ x, (setup x).token ≠ (setup x).mailbox) ∧ "relayer" ≠ (setup 1).router ∧
    let h := Tx.history (step toyHash setup) start (tour.map (fun a => [.call a []]))
    ((h.2[15]?).map (fun e => e.2.mailbox.flatMap dispatchedIn)) = some [last] ∧
    last ∉ deliveredAt 1 (viewLog setup hub h.2) ∧
    ((h.1 1).box.config.defaultIsm = some "ism" ∧
      bech32Encode Bech.codec (h.1 1).router.2.hrp Ex.aliceId = .ok Ex.alice ∧
      Router.getRoute (h.1 1).router.2.routes (dom 2) = some (rid 2)) ∧
    ResponsibleIsm Ex.freeEnv (h.1 1).box (setup 1).router "ism" ∧ Ex.freeEnv.verify "ism" [] last = .ok true ∧
    hub 1 = .bridged ∧ lockedCollateral setup hub h.1 < 2 ^ 128 ∧
    (∀ m ∈ deliveredAt 1 (viewLog setup hub h.2), toyHash m ≠ toyHash last) ∧
    (holding (setup 1) (h.1 1) Ex.alice = 30 ∧
      ((step toyHash setup h.1 (relay 1 last)).toOption.map (fun q => holding (setup 1) (q.1 1) Ex.alice)) = some 35) := by
  refine ⟨by decide +kernel, by decide +kernel, ?_⟩
  rw [result_eq]
  obtain ⟨h1, h2, h3, h4, h5⟩ := last_facts
  refine ⟨h1, h2, h4, .inr ⟨rfl, h4.1⟩, rfl, rfl, ?_, h3, h5⟩
  rw [facts.2.1.1]
  decide

/-- A transfer of zero from chain 1 to chain 2. -/
def nothing : Message := ⟨3, 0, dom 1, rid 1, dom 2, rid 2, Ex.aliceId ++ u256be 0⟩

/-- Alice attaches 4 tokens to a transfer of nothing from chain 0 to chain 2. The router accepts it, and the message cannot
be delivered. -/
example : ((step toyHash setup start (.router 0 ⟨fun _ => true, Ex.alice, [⟨"uosmo", 4⟩],
      .inr (.transferRemote (dom 2) Ex.aliceId 0 none none)⟩ Ex.freeEnv)).toOption.map
        (fun q => q.2.mailbox.flatMap dispatchedIn)) = some [transferMsg 0 0 2 Ex.aliceId 0] ∧
    nothing.sender.length = 32 ∧ nothing.recipient.length = 32 ∧ (setup 2).native = true ∧
    bech32Encode (setup 2).codec (start 2).box.config.hrp nothing.recipient = .ok (setup 2).router ∧
    nothing.body = Ex.aliceId ++ u256be 0 ++ [] ∧ Ex.aliceId.length = 32 := by
  decide +kernel

end Tour

end TokenWorld

end Hpl
