import Verif.Lemmas.TokenWorld
import Verif.Props.Warp

/-! Every step of a network with tokens is a step of `TokenNet`. -/

namespace Hpl.TokenWorld

open Spec
open Bridge (Setup Out)

variable {H : Bytes → Bytes} {p : Setup} {env : Mailbox.Env} {m : Warp.Mode} {c : Chain}

/-! ## Messages of the router -/

theorem cw20_sim (hp : p.native = false) (o : Own p m c) {q : Payload} {f : List Coin} {dst : Addr}
    (hf : Fitting m (.execute dst q f)) {t : Cw20} (h : cw20 p c.token q = .ok t) :
    Bridge.cw20 p (viewOne p m c) q = .ok (viewOne p m { c with token := t }) ∧ Own p m { c with token := t } ∧
      (CoveredOne p c → CoveredOne p { c with token := t }) := by
  cases q with
  | cw20Mint a n =>
    obtain ⟨_, hlt, ht⟩ := Cw20.mint_ok h
    obtain ⟨e, e', hc⟩ := created (p := p) (c := c) (t := t) hp (by rw [ht]) (by rw [ht]) hlt
    have hm : m = .bridged := hf
    refine ⟨?_, ?_, hc⟩
    · simp only [Bridge.cw20, viewOne, e, e', hm, if_true]
      by_cases ha : a = p.router
      · rw [if_pos ha, if_pos ha.symm]
      · rw [if_neg ha, if_neg (Ne.symm ha)]
    · rw [ht]
      exact ⟨o.exist, o.admin, o.minter, o.allowance⟩
  | cw20Burn n =>
    obtain ⟨h1, h2, ht⟩ := Cw20.burn_ok h
    obtain ⟨g1, g2, e, e', hc⟩ := destroyed (p := p) (c := c) (t := t) (src := p.router) hp h1 h2 (by rw [ht]) (by rw [ht])
    have hm : m = .bridged := hf
    refine ⟨?_, ?_, hc⟩
    · refine bind_eq_ok.2 ⟨_, Bridge.sub_ok.2 ⟨g1, rfl⟩, bind_eq_ok.2 ⟨_, Bridge.sub_ok.2 ⟨?_, rfl⟩, ?_⟩⟩
      · simpa only [viewOne, hm, if_true] using g2
      · simp only [viewOne, e, e', hm, if_true]
        rfl
    · rw [ht]
      exact ⟨o.exist, o.admin, o.minter, o.allowance⟩
  | cw20Transfer a n =>
    obtain ⟨h1, ht⟩ := Cw20.transfer_ok h
    obtain ⟨g1, e, e', hc⟩ := transferred (p := p) (c := c) (t := t) (src := p.router) (dst := a) hp h1 (by rw [ht]) (by rw [ht])
    refine ⟨?_, ?_, hc⟩
    · refine bind_eq_ok.2 ⟨_, Bridge.sub_ok.2 ⟨g1, rfl⟩, ?_⟩
      simp only [viewOne, e, e', if_true]
      by_cases ha : a = p.router
      · rw [if_pos ha, if_pos ha.symm, Nat.sub_add_cancel g1]
        rfl
      · rw [if_neg ha, if_neg (Ne.symm ha)]
        rfl
    · rw [ht]
      exact ⟨o.exist, o.admin, o.minter, o.allowance⟩
  | cw20TransferFrom w a n =>
    obtain ⟨k, h0, h1, ht⟩ := Cw20.transferFrom_ok h
    have hw : w ≠ p.router := by
      rintro rfl
      rw [o.allowance hp] at h0
      cases h0
    obtain ⟨g1, e, e', hc⟩ := transferred (p := p) (c := c) (t := t) (src := w) (dst := a) hp h1 (by rw [ht]) (by rw [ht]; rfl)
    refine ⟨?_, ?_, hc⟩
    · unfold Bridge.cw20
      simp only
      rw [if_neg hw]
      simp only [viewOne, e, e', if_neg hw.symm]
      by_cases ha : a = p.router
      · rw [if_pos ha, if_pos ha.symm]
      · rw [if_neg ha, if_neg (Ne.symm ha)]
        rfl
    · rw [ht]
      refine ⟨o.exist, o.admin, o.minter, fun hp a => ?_⟩
      show (if p.router = w ∧ a = p.router then _ else c.token.allowance p.router a) = none
      rw [if_neg (fun hh => hw hh.1.symm)]
      exact o.allowance hp a
  | dispatch q => cases h
  | handle x y z => cases h
  | postDispatch x y => cases h

theorem perform_sim (hd : p.mailbox ≠ p.router) (o : Own p m c) {q : OutMsg} (hf : Fitting m q) {x : Chain × List Response}
    (h : perform H p env c q = .ok x) :
    Bridge.perform H p env (viewOne p m c) q = .ok (viewOne p m x.1, x.2) ∧ Own p m x.1 ∧
      (CoveredOne p c → CoveredOne p x.1) := by
  cases q with
  | bankSend dst coins =>
    obtain ⟨b, h1, h⟩ := bind_eq_ok.1 h
    obtain rfl := Except.ok.inj h
    obtain ⟨g1, e, e', ho, hc⟩ := moved_bank (p := p) (m := m) (Bank.send_ok h1)
    have hle : p.coins coins ≤ holding p c p.router := by
      cases hp : p.native
      · rw [Bridge.coins_cw20 hp]; exact Nat.zero_le _
      · exact g1 hp
    refine ⟨bind_eq_ok.2 ⟨_, Bridge.sub_ok.2 ⟨hle, rfl⟩, ?_⟩, ho o, hc⟩
    simp only [viewOne, e, e', if_true]
    by_cases ha : dst = p.router
    · rw [if_pos ha, if_pos ha.symm, Nat.sub_add_cancel hle]
      rfl
    · rw [if_neg ha, if_neg (Ne.symm ha)]
      rfl
  | tfMint sender denom n =>
    obtain ⟨_, h0, h⟩ := bind_eq_ok.1 h
    obtain ⟨b, h1, h⟩ := bind_eq_ok.1 h
    obtain rfl := Except.ok.inj h
    have hs := of_decide_eq_true (ensure_eq_ok.1 h0)
    subst hs
    obtain ⟨g1, e, e', ho, hc⟩ := minted_bank (p := p) (m := m) h1
    refine ⟨?_, ho o, hc⟩
    unfold Bridge.perform
    simp only [viewOne, e, e', if_true]
    by_cases hh : p.native = true ∧ denom = p.token
    · have hm : m = .bridged := by
        have := o.admin hh.1
        rw [← hh.2, g1] at this
        by_contra hm
        rw [if_neg hm] at this
        cases this
      simp [hh, hm]
    · simp [hh]
  | tfBurn sender denom n =>
    obtain ⟨_, h0, h⟩ := bind_eq_ok.1 h
    obtain ⟨b, h1, h⟩ := bind_eq_ok.1 h
    obtain rfl := Except.ok.inj h
    have hs := of_decide_eq_true (ensure_eq_ok.1 h0)
    subst hs
    obtain ⟨g1, g2, e, e', ho, hc⟩ := burned_bank (p := p) (m := m) h1
    refine ⟨?_, ho o, hc⟩
    unfold Bridge.perform
    by_cases hh : p.native = true ∧ denom = p.token
    · have hm : m = .bridged := by
        have := o.admin hh.1
        rw [← hh.2, g1] at this
        by_contra hm
        rw [if_neg hm] at this
        cases this
      obtain ⟨g3, g4⟩ := g2 hh.1 hh.2
      simp only
      rw [if_pos hh]
      refine bind_eq_ok.2 ⟨_, Bridge.sub_ok.2 ⟨g3, rfl⟩, bind_eq_ok.2 ⟨_, Bridge.sub_ok.2 ⟨?_, rfl⟩, ?_⟩⟩
      · simpa only [viewOne, hm, if_true] using g4
      · simp only [viewOne, e, e', hm, if_true, if_pos hh]
        rfl
    · simp only [viewOne, e, e', if_true, if_neg hh]
      rfl
  | execute dst q f =>
    obtain ⟨b, h1, h⟩ := bind_eq_ok.1 h
    obtain ⟨g1, e, e', ho, hc⟩ := moved_bank (p := p) (m := m) h1
    have hle : p.coins f ≤ holding p c p.router := by
      cases hp : p.native
      · rw [Bridge.coins_cw20 hp]; exact Nat.zero_le _
      · exact g1 hp
    have hv : dst = p.mailbox ∨ p.native = false →
        holding p { c with bank := b } p.router = holding p c p.router - p.coins f := by
      intro hh
      rw [e, if_pos rfl]
      by_cases ha : p.router = dst
      · rcases hh with hh | hh
        · exact absurd (hh.symm.trans ha.symm) hd
        · rw [Bridge.coins_cw20 hh]; simp
      · rw [if_neg ha, Nat.add_zero]
    split at h
    · rename_i hb
      unfold Bridge.perform
      cases q with
      | dispatch q =>
        obtain ⟨y, h2, h⟩ := bind_eq_ok.1 h
        obtain rfl := Except.ok.inj h
        refine ⟨bind_eq_ok.2 ⟨_, Bridge.sub_ok.2 ⟨hle, rfl⟩, ?_⟩, ?_, ?_⟩
        · rw [if_pos hb]
          refine bind_eq_ok.2 ⟨y, h2, ?_⟩
          show Except.ok ((⟨y.1, c.router, holding p c p.router - p.coins f,
              if m = .bridged then tokenSupply p c else 0⟩ : Bridge.Chain), [y.2]) =
            Except.ok (⟨y.1, c.router, holding p { c with bank := b } p.router,
              if m = .bridged then tokenSupply p { c with bank := b } else 0⟩, [y.2])
          rw [hv (.inl hb), e']
        · have := ho o
          exact ⟨this.exist, this.admin, this.minter, this.allowance⟩
        · exact hc
      | cw20Mint a n => cases h
      | cw20Burn n => cases h
      | cw20Transfer a n => cases h
      | cw20TransferFrom w a n => cases h
      | handle x y z => cases h
      | postDispatch x y => cases h
    · rename_i hb
      split at h
      · rename_i hn
        obtain ⟨t, h2, h⟩ := bind_eq_ok.1 h
        obtain rfl := Except.ok.inj h
        obtain ⟨k1, k2, k3⟩ := cw20_sim (c := { c with bank := b }) hn.1 (ho o) hf h2
        refine ⟨bind_eq_ok.2 ⟨_, Bridge.sub_ok.2 ⟨hle, rfl⟩, ?_⟩, k2, fun hh => k3 (hc hh)⟩
        rw [if_neg hb, if_pos hn]
        refine bind_eq_ok.2 ⟨_, ?_, rfl⟩
        have k4 : (⟨c.box, c.router, holding p c p.router - p.coins f,
            if m = .bridged then tokenSupply p c else 0⟩ : Bridge.Chain) = viewOne p m { c with bank := b } := by
          simp only [viewOne, hv (.inr hn.1), e']
        exact (congrArg (fun v => Bridge.cw20 p v q) k4).trans k1
      · cases h

theorem performAll_sim (hd : p.mailbox ≠ p.router) : ∀ {l : List OutMsg} {c : Chain} (_ : Own p m c)
    (_ : ∀ q ∈ l, Fitting m q) {x : Chain × List Response} (_ : performAll H p env c l = .ok x),
    Bridge.performAll H p env (viewOne p m c) l = .ok (viewOne p m x.1, x.2) ∧ Own p m x.1 ∧
      (CoveredOne p c → CoveredOne p x.1)
  | [], _, o, _, _, h => by
    obtain rfl := Except.ok.inj h
    exact ⟨rfl, o, id⟩
  | q :: l, c, o, hf, x, h => by
    obtain ⟨y, h1, h⟩ := bind_eq_ok.1 h
    obtain ⟨z, h2, h⟩ := bind_eq_ok.1 h
    obtain rfl := Except.ok.inj h
    obtain ⟨a1, a2, a3⟩ := perform_sim hd o (hf q (List.mem_cons_self ..)) h1
    obtain ⟨b1, b2, b3⟩ := performAll_sim hd a2 (fun q hq => hf q (List.mem_cons_of_mem _ hq)) h2
    exact ⟨bind_eq_ok.2 ⟨_, a1, bind_eq_ok.2 ⟨_, b1, rfl⟩⟩, b2, fun hh => b3 (a3 hh)⟩

/-! ## Calls of the router -/

/-- A router mints and burns cw20 tokens only if they are bridged. -/
theorem execute_fitting {C : Codec} {self : Addr} {s : Ownable.State × Warp.State}
    {call : ExecCall (Addr → Bool) Warp.Msg} {x : (Ownable.State × Warp.State) × Response}
    (h : Warp.execute p.kind C self s call = .ok x) :
    x.1.2.mode = s.2.mode ∧ ∀ q ∈ x.2.msgs, Fitting s.2.mode q := by
  obtain ⟨e, sender, funds, msg⟩ := call
  cases msg with
  | inl o =>
    obtain ⟨_, _, rfl⟩ := execOwned_inl.1 h
    exact ⟨rfl, by simp⟩
  | inr w =>
    obtain ⟨q, hq, rfl⟩ := execute_inr.1 h
    cases w with
    | router w =>
      obtain ⟨_, _, hf⟩ := bind_eq_ok.1 hq
      cases hf
      exact ⟨rfl, by simp⟩
    | connection w =>
      obtain ⟨_, _, hf⟩ := bind_eq_ok.1 hq
      cases hf
      exact ⟨rfl, by simp⟩
    | handle o ms b =>
      obtain ⟨r, hr, hf⟩ := bind_eq_ok.1 hq
      obtain rfl := Except.ok.inj hf
      refine ⟨rfl, ?_⟩
      obtain ⟨_, _, hr⟩ := bind_eq_ok.1 hr
      obtain ⟨_, _, hr⟩ := bind_eq_ok.1 hr
      obtain ⟨_, _, hr⟩ := bind_eq_ok.1 hr
      obtain ⟨_, _, hr⟩ := bind_eq_ok.1 hr
      obtain ⟨_, _, hr⟩ := bind_eq_ok.1 hr
      obtain ⟨_, _, hr⟩ := bind_eq_ok.1 hr
      obtain ⟨ms, hk, hr⟩ := bind_eq_ok.1 hr
      obtain rfl := Except.ok.inj hr
      simp only
      unfold Setup.kind at hk
      split at hk
      · obtain ⟨n, _, hk⟩ := bind_eq_ok.1 hk
        obtain rfl := Except.ok.inj hk
        cases s.2.mode <;> simp [Fitting]
      · obtain ⟨n, _, hk⟩ := bind_eq_ok.1 hk
        obtain rfl := Except.ok.inj hk
        cases s.2.mode <;> simp [Fitting]
    | transferRemote d r a hk md =>
      obtain ⟨r, hr, hf⟩ := bind_eq_ok.1 hq
      obtain rfl := Except.ok.inj hf
      refine ⟨rfl, ?_⟩
      obtain ⟨_, _, hr⟩ := bind_eq_ok.1 hr
      obtain ⟨_, _, hr⟩ := bind_eq_ok.1 hr
      obtain ⟨t, ht, hr⟩ := bind_eq_ok.1 hr
      obtain ⟨_, _, hr⟩ := bind_eq_ok.1 hr
      obtain ⟨_, _, hr⟩ := bind_eq_ok.1 hr
      obtain rfl := Except.ok.inj hr
      simp only
      unfold Setup.kind at ht
      split at ht
      · obtain ⟨n, _, ht⟩ := bind_eq_ok.1 ht
        obtain rfl := Except.ok.inj ht
        cases s.2.mode <;> simp [Fitting, Warp.dispatchMsg]
      · obtain rfl := Except.ok.inj ht
        cases s.2.mode <;> simp [Fitting, Warp.dispatchMsg]

/-- What must not change about a chain. -/
structure Good (p : Setup) (m : Warp.Mode) (c : Chain) : Prop where
  own : Own p m c
  mode : c.router.2.mode = m

theorem performAll_router : ∀ {l : List OutMsg} {c : Chain} {x : Chain × List Response}
    (_ : performAll H p env c l = .ok x), x.1.router = c.router
  | [], _, _, h => by obtain rfl := Except.ok.inj h; rfl
  | q :: l, c, x, h => by
    obtain ⟨y, h1, h⟩ := bind_eq_ok.1 h
    obtain ⟨z, h2, h⟩ := bind_eq_ok.1 h
    obtain rfl := Except.ok.inj h
    refine (performAll_router h2).trans ?_
    cases q with
    | bankSend dst coins =>
      obtain ⟨b, _, h⟩ := bind_eq_ok.1 h1
      obtain rfl := Except.ok.inj h
      rfl
    | tfMint a d n =>
      obtain ⟨_, _, h⟩ := bind_eq_ok.1 h1
      obtain ⟨_, _, h⟩ := bind_eq_ok.1 h
      obtain rfl := Except.ok.inj h
      rfl
    | tfBurn a d n =>
      obtain ⟨_, _, h⟩ := bind_eq_ok.1 h1
      obtain ⟨_, _, h⟩ := bind_eq_ok.1 h
      obtain rfl := Except.ok.inj h
      rfl
    | execute dst q f =>
      obtain ⟨b, _, h⟩ := bind_eq_ok.1 h1
      split at h
      · cases q with
        | dispatch q =>
          obtain ⟨_, _, h⟩ := bind_eq_ok.1 h
          obtain rfl := Except.ok.inj h
          rfl
        | cw20Mint a n => cases h
        | cw20Burn n => cases h
        | cw20Transfer a n => cases h
        | cw20TransferFrom w a n => cases h
        | handle x y z => cases h
        | postDispatch x y => cases h
      · split at h
        · obtain ⟨_, _, h⟩ := bind_eq_ok.1 h
          obtain rfl := Except.ok.inj h
          rfl
        · cases h

theorem callRouter_sim (hd : p.mailbox ≠ p.router) (g : Good p m c) {call : ExecCall (Addr → Bool) Warp.Msg}
    {x : Chain × Response × List Response} (h : callRouter H p env c call = .ok x) :
    Bridge.callRouter H p env (viewOne p m c) call = .ok (viewOne p m x.1, x.2) ∧ Good p m x.1 ∧
      (CoveredOne p c → CoveredOne p x.1) := by
  obtain ⟨_, h0, h⟩ := bind_eq_ok.1 h
  obtain ⟨b, h1, h⟩ := bind_eq_ok.1 h
  obtain ⟨y, h2, h⟩ := bind_eq_ok.1 h
  obtain ⟨z, h3, h⟩ := bind_eq_ok.1 h
  obtain rfl := Except.ok.inj h
  have hs := of_decide_eq_true (ensure_eq_ok.1 h0)
  obtain ⟨_, e, e', ho, hc⟩ := moved_bank (p := p) (m := m) h1
  obtain ⟨k1, k2⟩ := execute_fitting h2
  rw [g.mode] at k1 k2
  have o1 : Own p m { c with router := y.1, bank := b } := by
    have := ho g.own
    exact ⟨this.exist, this.admin, this.minter, this.allowance⟩
  obtain ⟨a1, a2, a3⟩ := performAll_sim (H := H) (env := env) hd o1 k2 h3
  have hv : (⟨c.box, y.1, holding p c p.router + p.coins call.funds, if m = .bridged then tokenSupply p c else 0⟩ :
      Bridge.Chain) = viewOne p m { c with router := y.1, bank := b } := by
    have : holding p { c with router := y.1, bank := b } p.router = holding p c p.router + p.coins call.funds := by
      have := e p.router
      rw [if_neg (Ne.symm hs), if_pos rfl] at this
      exact this
    unfold viewOne
    rw [this, ← e']
    rfl
  refine ⟨bind_eq_ok.2 ⟨y, h2, bind_eq_ok.2 ⟨(viewOne p m z.1, z.2), ?_, rfl⟩⟩, ⟨a2, ?_⟩, fun hh => a3 (hc hh)⟩
  · exact (congrArg (fun v => Bridge.performAll H p env v y.2.msgs) hv).trans a1
  · show z.1.router.2.mode = m
    rw [performAll_router h3]
    exact k1

theorem deliver_sim (hd : p.mailbox ≠ p.router) (g : Good p m c) {l : List OutMsg}
    {x : Chain × Response × List Response} (h : deliver H p env c l = .ok x) :
    Bridge.deliver H p env (viewOne p m c) l = .ok (viewOne p m x.1, x.2) ∧ Good p m x.1 ∧
      (CoveredOne p c → CoveredOne p x.1) := by
  unfold deliver at h
  split at h
  · unfold Bridge.deliver
    simp only
    split at h
    · rename_i hr
      rw [if_pos hr]
      exact callRouter_sim hd g h
    · rename_i hr
      rw [if_neg hr]
      obtain rfl := Except.ok.inj h
      exact ⟨rfl, g, id⟩
  · rename_i hl
    obtain rfl := Except.ok.inj h
    refine ⟨?_, g, id⟩
    unfold Bridge.deliver
    split
    · exact absurd rfl (hl _ _ _ _ _)
    · rfl

/-! ## What others do -/

/-- What others do to the view of a chain. -/
def Effect (p : Setup) (m : Warp.Mode) (c c' : Chain) (e : Nat × Nat) : Prop :=
  (¬ (m = .bridged ∧ e.2 ≠ 0) → viewOne p m c' = { viewOne p m c with held := holding p c p.router + e.1 }) ∧
  (m = .bridged → e.2 ≠ 0 → e.2 ≤ tokenSupply p c ∧
    viewOne p m c' = { viewOne p m c with supply := tokenSupply p c - e.2 })

theorem effect_gift {c' : Chain} {n : Nat} (hb : c'.box = c.box) (hr : c'.router = c.router)
    (hh : holding p c' p.router = holding p c p.router + n) (hs : m = .bridged → tokenSupply p c' = tokenSupply p c) :
    Effect p m c c' (n, 0) := by
  refine ⟨fun _ => ?_, fun _ h => absurd rfl h⟩
  unfold viewOne
  rw [hb, hr, hh]
  by_cases hm : m = .bridged
  · rw [if_pos hm, if_pos hm, hs hm]
  · rw [if_neg hm, if_neg hm]

theorem effect_burn {c' : Chain} {n : Nat} (hb : c'.box = c.box) (hr : c'.router = c.router)
    (hh : holding p c' p.router = holding p c p.router) (hn : n ≤ tokenSupply p c)
    (hs : tokenSupply p c' = tokenSupply p c - n) : Effect p m c c' (0, n) := by
  refine ⟨fun h => ?_, fun hm _ => ⟨hn, ?_⟩⟩
  · unfold viewOne
    rw [hb, hr, hh, hs]
    by_cases hm : m = .bridged
    · have : n = 0 := by
        by_contra hne
        exact h ⟨hm, hne⟩
      rw [if_pos hm, if_pos hm, this]
      rfl
    · rw [if_neg hm, if_neg hm]
      rfl
  · unfold viewOne
    rw [hb, hr, hh, hs, if_pos hm]

theorem bank_sim (g : Good p m c) {sender : Addr} (hs : sender ≠ p.router) {op : Bank.Op} {b : Bank}
    (h : c.bank.run sender op = .ok b) :
    Effect p m c { c with bank := b } (bankEffect p op) ∧ Good p m { c with bank := b } ∧
      (CoveredOne p c → CoveredOne p { c with bank := b }) := by
  have notAdmin : ∀ {denom : String}, c.bank.admin denom = some sender → ¬ (p.native = true ∧ denom = p.token) := by
    rintro denom ha ⟨hp, rfl⟩
    rw [g.own.admin hp] at ha
    split at ha
    · exact hs (Option.some.inj ha).symm
    · cases ha
  cases op with
  | send dst coins =>
    obtain ⟨_, e, e', ho, hc⟩ := moved_bank (p := p) (m := m) (Bank.send_ok h)
    refine ⟨effect_gift rfl rfl ?_ (fun _ => e'), ⟨ho g.own, g.mode⟩, hc⟩
    rw [e, if_neg (Ne.symm hs)]
    unfold given
    by_cases hd : dst = p.router
    · rw [if_pos hd, if_pos hd.symm]
    · rw [if_neg hd, if_neg (Ne.symm hd)]
  | burnOwn coins =>
    obtain ⟨h1, e, e', ho, hc⟩ := burnedOwn_bank (p := p) (m := m) h
    refine ⟨effect_burn rfl rfl ?_ h1 e', ⟨ho g.own, g.mode⟩, hc⟩
    rw [e, if_neg (Ne.symm hs)]
  | issue denom dst n =>
    obtain ⟨h1, e, e', ho, hc⟩ := issued_bank (p := p) (m := m) h
    refine ⟨effect_gift rfl rfl ?_ (fun hm => ?_), ⟨ho g.own, g.mode⟩, hc⟩
    · rw [e]
      unfold given
      by_cases hd : dst = p.router
      · simp only [hd, if_true]
      · simp only [if_neg hd, if_neg (Ne.symm hd), ite_self, Nat.add_zero]
    · have : ¬ (p.native = true ∧ denom = p.token) := by
        rintro ⟨hp, rfl⟩
        have := g.own.admin hp
        rw [if_pos hm, h1] at this
        cases this
      rw [e', if_neg this, Nat.add_zero]
  | create sub =>
    change c.bank.create sender sub = .ok b at h
    unfold Bank.create at h
    split at h
    · cases h
    · rename_i hk
      obtain rfl := Except.ok.inj h
      refine ⟨effect_gift rfl rfl rfl (fun _ => rfl), ⟨⟨fun hp => ?_, fun hp => ?_, g.own.minter, g.own.allowance⟩, g.mode⟩, id⟩
      · show (if p.token = _ then true else c.bank.known p.token) = true
        rw [g.own.exist hp, ite_self]
      · show (if p.token = _ then some sender else c.bank.admin p.token) = _
        rw [if_neg (fun hh => hk (by rw [← hh]; exact g.own.exist hp))]
        exact g.own.admin hp
  | mint denom n dst =>
    obtain ⟨h1, e, e', ho, hc⟩ := minted_bank (p := p) (m := m) h
    have := notAdmin h1
    rw [if_neg this] at e'
    refine ⟨effect_gift rfl rfl ?_ (fun _ => e'), ⟨ho g.own, g.mode⟩, hc⟩
    rw [e, if_neg this, Nat.add_zero, ite_self]
  | burn denom n src =>
    obtain ⟨h1, _, e, e', ho, hc⟩ := burned_bank (p := p) (m := m) h
    have := notAdmin h1
    rw [if_neg this] at e'
    refine ⟨effect_gift rfl rfl ?_ (fun _ => e'), ⟨ho g.own, g.mode⟩, hc⟩
    rw [e, if_neg this, Nat.sub_zero, ite_self]
    rfl
  | force denom n src dst =>
    obtain ⟨_, h1, h⟩ := bind_eq_ok.1 h
    have := notAdmin (of_decide_eq_true (ensure_eq_ok.1 h1))
    obtain ⟨_, e, e', ho, hc⟩ := moved_bank (p := p) (m := m) h
    have hz : p.coins [⟨denom, n⟩] = 0 := by
      cases hp : p.native
      · exact Bridge.coins_cw20 hp _
      · rw [coins_total hp]
        exact Bank.total_of_not_mem (fun c hc => by
          rw [List.mem_singleton.1 hc]
          exact fun hh => this ⟨hp, hh⟩)
    refine ⟨effect_gift rfl rfl ?_ (fun _ => e'), ⟨ho g.own, g.mode⟩, hc⟩
    rw [e, hz, Nat.sub_zero, ite_self, ite_self]
  | changeAdmin denom new =>
    obtain ⟨_, h1, h⟩ := bind_eq_ok.1 h
    have := notAdmin (of_decide_eq_true (ensure_eq_ok.1 h1))
    obtain rfl := Except.ok.inj h
    refine ⟨effect_gift rfl rfl rfl (fun _ => rfl), ⟨⟨g.own.exist, fun hp => ?_, g.own.minter, g.own.allowance⟩, g.mode⟩, id⟩
    show (if p.token = denom then new else c.bank.admin p.token) = _
    rw [if_neg (fun hh => this ⟨hp, hh.symm⟩)]
    exact g.own.admin hp

theorem token_sim (hp : p.native = false) (g : Good p m c) {sender : Addr} (hs : sender ≠ p.router) {op : Cw20.Op}
    {t : Cw20} (h : c.token.run p.router sender op = .ok t) :
    Effect p m c { c with token := t } (tokenEffect p op) ∧ Good p m { c with token := t } ∧
      (CoveredOne p c → CoveredOne p { c with token := t }) := by
  have notMinter : m = .bridged → ∀ {cap}, c.token.minter ≠ some (sender, cap) := by
    intro hm cap hh
    rw [g.own.minter hp hm] at hh
    exact hs (congrArg Prod.fst (Option.some.inj hh)).symm
  have notOwner : ∀ {owner k}, c.token.allowance owner sender = some k → owner ≠ p.router := by
    rintro owner k hh rfl
    rw [g.own.allowance hp] at hh
    cases hh
  have allow : ∀ {t : Cw20} {owner spender v}, owner ≠ p.router → t.minter = c.token.minter →
      t.allowance = (c.token.setAllowance owner spender v).allowance → Good p m { c with token := t } := by
    intro t owner spender v hw h1 h2
    refine ⟨⟨g.own.exist, g.own.admin, fun hp hm => ?_, fun hp a => ?_⟩, g.mode⟩
    · show t.minter = _
      rw [h1]
      exact g.own.minter hp hm
    · show t.allowance p.router a = none
      rw [h2]
      show (if p.router = owner ∧ a = spender then v else c.token.allowance p.router a) = none
      rw [if_neg (fun hh => hw hh.1.symm)]
      exact g.own.allowance hp a
  have same : ∀ {t : Cw20}, t.minter = c.token.minter → t.allowance = c.token.allowance →
      Good p m { c with token := t } := by
    intro t h1 h2
    refine ⟨⟨g.own.exist, g.own.admin, fun hp hm => ?_, fun hp a => ?_⟩, g.mode⟩
    · show t.minter = _
      rw [h1]
      exact g.own.minter hp hm
    · show t.allowance p.router a = none
      rw [h2]
      exact g.own.allowance hp a
  have giv : ∀ {t : Cw20} {src dst : Addr} {n : Nat}, src ≠ p.router → n ≤ c.token.balance src →
      t.balance = Cw20.moved c.token src dst n → t.supply = c.token.supply →
      Effect p m c { c with token := t } (given p dst n, 0) ∧ (CoveredOne p c → CoveredOne p { c with token := t }) := by
    intro t src dst n hw h1 h2 h3
    obtain ⟨_, e, e', hc⟩ := transferred (p := p) (c := c) (t := t) hp h1 h2 h3
    refine ⟨effect_gift rfl rfl ?_ (fun _ => e'), hc⟩
    rw [e, if_neg (Ne.symm hw)]
    unfold given
    by_cases hd : dst = p.router
    · rw [if_pos hd, if_pos hd.symm]
    · rw [if_neg hd, if_neg (Ne.symm hd)]
  cases op with
  | transfer dst n =>
    obtain ⟨h1, ht⟩ := Cw20.transfer_ok h
    obtain ⟨a1, a2⟩ := giv (t := t) hs h1 (by rw [ht]) (by rw [ht])
    exact ⟨a1, same (by rw [ht]) (by rw [ht]), a2⟩
  | burn n =>
    obtain ⟨h1, h2, ht⟩ := Cw20.burn_ok h
    obtain ⟨_, g2, e, e', hc⟩ := destroyed (p := p) (c := c) (t := t) (src := sender) hp h1 h2 (by rw [ht]) (by rw [ht])
    exact ⟨effect_burn rfl rfl (by rw [e, if_neg (Ne.symm hs)]) g2 e', same (by rw [ht]) (by rw [ht]), hc⟩
  | send dst n =>
    change (if dst = p.router then _ else c.token.transfer sender dst n) = _ at h
    split at h
    · cases h
    · rename_i hd
      obtain ⟨h1, ht⟩ := Cw20.transfer_ok h
      obtain ⟨a1, a2⟩ := giv (t := t) hs h1 (by rw [ht]) (by rw [ht])
      unfold given at a1
      rw [if_neg hd] at a1
      exact ⟨a1, same (by rw [ht]) (by rw [ht]), a2⟩
  | mint dst n =>
    obtain ⟨⟨cap, h1⟩, hlt, ht⟩ := Cw20.mint_ok h
    obtain ⟨e, e', hc⟩ := created (p := p) (c := c) (t := t) hp (by rw [ht]) (by rw [ht]) hlt
    refine ⟨effect_gift rfl rfl ?_ (fun hm => absurd h1 (notMinter hm)), same (by rw [ht]) (by rw [ht]), hc⟩
    rw [e]
    unfold given
    by_cases hd : dst = p.router
    · rw [if_pos hd, if_pos hd.symm]
    · rw [if_neg hd, if_neg (Ne.symm hd), Nat.add_zero]
  | increaseAllowance spender n =>
    change (if _ then _ else _) = _ at h
    split at h
    · cases h
    · obtain rfl := Except.ok.inj h
      refine ⟨effect_gift rfl rfl ?_ (fun _ => ?_), allow hs rfl rfl, ?_⟩
      · simp [holding, hp, Cw20.setAllowance]
      · simp [tokenSupply, hp, Cw20.setAllowance]
      · intro hc
        simpa [CoveredOne, Amounts, holding, tokenSupply, hp, Cw20.setAllowance] using hc
  | decreaseAllowance spender n =>
    change (if _ then _ else _) = _ at h
    split at h
    · cases h
    · split at h
      · cases h
      · obtain rfl := Except.ok.inj h
        refine ⟨effect_gift rfl rfl ?_ (fun _ => ?_), allow hs rfl rfl, ?_⟩
        · simp [holding, hp, Cw20.setAllowance]
        · simp [tokenSupply, hp, Cw20.setAllowance]
        · intro hc
          simpa [CoveredOne, Amounts, holding, tokenSupply, hp, Cw20.setAllowance] using hc
  | transferFrom owner dst n =>
    obtain ⟨k, h0, h1, ht⟩ := Cw20.transferFrom_ok h
    have hw := notOwner h0
    obtain ⟨a1, a2⟩ := giv (t := t) hw h1 (by rw [ht]) (by rw [ht]; rfl)
    exact ⟨a1, allow hw (by rw [ht]; rfl) (by rw [ht]), a2⟩
  | burnFrom owner n =>
    obtain ⟨k, h0, h1, h2, ht⟩ := Cw20.burnFrom_ok h
    have hw := notOwner h0
    obtain ⟨_, g2, e, e', hc⟩ := destroyed (p := p) (c := c) (t := t) (src := owner) hp h1 h2 (by rw [ht]) (by rw [ht])
    exact ⟨effect_burn rfl rfl (by rw [e, if_neg (Ne.symm hw)]) g2 e', allow hw (by rw [ht]; rfl) (by rw [ht]), hc⟩
  | sendFrom owner dst n =>
    change (if dst = p.router then _ else c.token.transferFrom sender owner dst n) = _ at h
    split at h
    · cases h
    · rename_i hd
      obtain ⟨k, h0, h1, ht⟩ := Cw20.transferFrom_ok h
      have hw := notOwner h0
      obtain ⟨a1, a2⟩ := giv (t := t) hw h1 (by rw [ht]) (by rw [ht]; rfl)
      unfold given at a1
      rw [if_neg hd] at a1
      exact ⟨a1, allow hw (by rw [ht]; rfl) (by rw [ht]), a2⟩
  | updateMinter new =>
    change c.token.updateMinter sender new = _ at h
    unfold Cw20.updateMinter at h
    split at h
    · cases h
    · rename_i w cap hw
      obtain ⟨_, h1, h⟩ := bind_eq_ok.1 h
      obtain rfl := Except.ok.inj h
      have hws := of_decide_eq_true (ensure_eq_ok.1 h1)
      subst hws
      refine ⟨effect_gift rfl rfl rfl (fun _ => rfl),
        ⟨⟨g.own.exist, g.own.admin, fun _ hm => absurd hw (notMinter hm), g.own.allowance⟩, g.mode⟩, id⟩

/-! ## Steps -/

variable {κ : Type} [DecidableEq κ] {P : κ → Setup} {M : κ → Warp.Mode} {s s' : κ → Chain} {out : Out}

theorem view_update (x : κ) (c : Chain) :
    view P M (Function.update s x c) = Function.update (view P M s) x (viewOne (P x) (M x) c) := by
  funext y
  by_cases hy : y = x
  · subst hy
    rw [Function.update_self]
    unfold view viewOne
    rw [Function.update_self]
  · rw [Function.update_of_ne hy]
    unfold view
    rw [Function.update_of_ne hy]

omit [DecidableEq κ] in
theorem own_good (h : OwnTokens P M s) (x : κ) : Good (P x) (M x) (s x) :=
  ⟨⟨h.exist x, h.admin x, h.minter x, h.allowance x⟩, h.mode x⟩

theorem own_update (h : OwnTokens P M s) {x : κ} {c : Chain} (g : Good (P x) (M x) c) :
    OwnTokens P M (Function.update s x c) := by
  have : ∀ y, Good (P y) (M y) (Function.update s x c y) := by
    intro y
    by_cases hy : y = x
    · subst hy
      rw [Function.update_self]
      exact g
    · rw [Function.update_of_ne hy]
      exact own_good h y
  exact ⟨h.distinct, fun y => (this y).mode, fun y => (this y).own.exist, fun y => (this y).own.admin,
    fun y => (this y).own.minter, fun y => (this y).own.allowance⟩

theorem covered_update (h : Covered P s) {x : κ} {c : Chain} (g : CoveredOne (P x) c) :
    Covered P (Function.update s x c) := by
  intro y
  by_cases hy : y = x
  · subst hy
    rw [Function.update_self]
    exact g
  · rw [Function.update_of_ne hy]
    exact h y

theorem effect_step (x : κ) {c' : Chain} {e : Nat × Nat} (h : Effect (P x) (M x) (s x) c' e) :
    TokenNet.step H P (view P M s) (asAct M x e) = .ok (view P M (Function.update s x c'), {}) := by
  rw [view_update]
  unfold asAct
  by_cases hb : M x = .bridged ∧ e.2 ≠ 0
  · simp only
    rw [if_pos hb]
    obtain ⟨h1, h2⟩ := h.2 hb.1 hb.2
    have hsup : (view P M s x).supply = tokenSupply (P x) (s x) := if_pos hb.1
    refine bind_eq_ok.2 ⟨_, Bridge.sub_ok.2 ⟨?_, rfl⟩, ?_⟩
    · rw [hsup]; exact h1
    · rw [h2, hsup]
      rfl
  · simp only
    rw [if_neg hb, h.1 hb]
    rfl

/-- A step with tokens is a step of `TokenNet`, and the tokens stay what the routers need. -/
theorem step_sim (h : OwnTokens P M s) {a : Act κ} (hs : step H P s a = .ok (s', out)) :
    TokenNet.step H P (view P M s) (viewAct P M a) = .ok (view P M s', out) ∧ OwnTokens P M s' ∧
      (Covered P s → Covered P s') := by
  cases a with
  | router x c env =>
    obtain ⟨y, h1, hs⟩ := bind_eq_ok.1 hs
    obtain ⟨rfl, rfl⟩ := Prod.mk.inj (Except.ok.inj hs)
    obtain ⟨a1, a2, a3⟩ := callRouter_sim (h.distinct x) (own_good h x) h1
    refine ⟨bind_eq_ok.2 ⟨_, a1, ?_⟩, own_update h a2, fun hc => covered_update hc (a3 (hc x))⟩
    rw [view_update]
    rfl
  | mailbox x c =>
    obtain ⟨_, h0, hs⟩ := bind_eq_ok.1 hs
    obtain ⟨b, h1, hs⟩ := bind_eq_ok.1 hs
    obtain ⟨y, h2, hs⟩ := bind_eq_ok.1 hs
    obtain ⟨z, h3, hs⟩ := bind_eq_ok.1 hs
    obtain ⟨rfl, rfl⟩ := Prod.mk.inj (Except.ok.inj hs)
    have hn := of_decide_eq_true (ensure_eq_ok.1 h0)
    obtain ⟨_, e, e', ho, hc⟩ := moved_bank (p := P x) (m := M x) h1
    have g := own_good h x
    have o1 := ho g.own
    have g1 : Good (P x) (M x) { s x with box := y.1, bank := b } :=
      ⟨⟨o1.exist, o1.admin, o1.minter, o1.allowance⟩, g.mode⟩
    obtain ⟨a1, a2, a3⟩ := deliver_sim (h.distinct x) g1 h3
    refine ⟨bind_eq_ok.2 ⟨y, h2, bind_eq_ok.2 ⟨(viewOne (P x) (M x) z.1, z.2), ?_, ?_⟩⟩, own_update h a2,
      fun hh => covered_update hh (a3 (hc (hh x)))⟩
    · have hv : ({ view P M s x with box := y.1 } : Bridge.Chain) =
          viewOne (P x) (M x) { s x with box := y.1, bank := b } := by
        have k1 : holding (P x) { s x with box := y.1, bank := b } (P x).router = holding (P x) (s x) (P x).router := by
          have := e (P x).router
          rw [if_neg (Ne.symm hn), if_neg (Ne.symm (h.distinct x)), Nat.add_zero] at this
          exact this
        unfold viewOne
        rw [k1]
        show _ = Bridge.Chain.mk _ _ _ (if M x = .bridged then tokenSupply (P x) { s x with bank := b } else 0)
        rw [e']
        rfl
      exact (congrArg (fun v => Bridge.deliver H (P x) c.env v y.2.msgs) hv).trans a1
    · rw [view_update]
      rfl
  | bank x sender op =>
    obtain ⟨_, h0, hs⟩ := bind_eq_ok.1 hs
    obtain ⟨b, h1, hs⟩ := bind_eq_ok.1 hs
    obtain ⟨rfl, rfl⟩ := Prod.mk.inj (Except.ok.inj hs)
    obtain ⟨a1, a2, a3⟩ := bank_sim (own_good h x) (of_decide_eq_true (ensure_eq_ok.1 h0)) h1
    exact ⟨effect_step x a1, own_update h a2, fun hh => covered_update hh (a3 (hh x))⟩
  | token x sender op =>
    obtain ⟨_, h0, hs⟩ := bind_eq_ok.1 hs
    obtain ⟨t, h1, hs⟩ := bind_eq_ok.1 hs
    obtain ⟨rfl, rfl⟩ := Prod.mk.inj (Except.ok.inj hs)
    have g := own_good h x
    unfold viewAct
    simp only
    cases hp : (P x).native
    · obtain ⟨a1, a2, a3⟩ := token_sim hp g (of_decide_eq_true (ensure_eq_ok.1 h0)) h1
      exact ⟨effect_step x a1, own_update h a2, fun hh => covered_update hh (a3 (hh x))⟩
    · obtain ⟨e, e', ho, hc⟩ := token_irrelevant (p := P x) (m := M x) (c := s x) hp t
      exact ⟨effect_step x (effect_gift rfl rfl (e _) (fun _ => e')), own_update h ⟨ho g.own, g.mode⟩,
        fun hh => covered_update hh (hc (hh x))⟩

end Hpl.TokenWorld
