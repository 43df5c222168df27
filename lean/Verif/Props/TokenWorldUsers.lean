import Verif.Props.TokenWorld

/-! # Accounts in networks with tokens: C86 -/

namespace Hpl.TokenWorld

open Spec
open Bridge (Setup Out)

variable {H : Bytes → Bytes} {p : Setup} {env : Mailbox.Env} {c : Chain} {a : Addr}

/-- What a message of the router takes from an account. -/
def takenFrom (a : Addr) : OutMsg → Nat
  | .execute _ (.cw20TransferFrom w _ n) _ => if w = a then n else 0
  | _ => 0

/-- What an account has allowed to others than the router. -/
def OnlyRouter (p : Setup) (a : Addr) (c : Chain) : Prop :=
  p.native = false → ∀ sp, sp ≠ p.router → c.token.allowance a sp = none

theorem cw20_others (hp : p.native = false) (ha : a ≠ p.router) {q : Payload} {f : List Coin} {dst : Addr} {t : Cw20}
    (h : cw20 p c.token q = .ok t) :
    holding p c a ≤ holding p { c with token := t } a + takenFrom a (.execute dst q f) ∧
      (OnlyRouter p a c → OnlyRouter p a { c with token := t }) := by
  cases q with
  | cw20Mint b n =>
    obtain ⟨_, hlt, ht⟩ := Cw20.mint_ok h
    obtain ⟨e, _, _⟩ := created (p := p) (c := c) (t := t) hp (by rw [ht]) (by rw [ht]) hlt
    refine ⟨?_, fun g => by rw [ht]; exact g⟩
    rw [e]
    split <;> omega
  | cw20Burn n =>
    obtain ⟨h1, h2, ht⟩ := Cw20.burn_ok h
    obtain ⟨_, _, e, _, _⟩ := destroyed (p := p) (c := c) (t := t) (src := p.router) hp h1 h2 (by rw [ht]) (by rw [ht])
    refine ⟨?_, fun g => by rw [ht]; exact g⟩
    rw [e, if_neg ha]
    omega
  | cw20Transfer b n =>
    obtain ⟨h1, ht⟩ := Cw20.transfer_ok h
    obtain ⟨_, e, _, _⟩ := transferred (p := p) (c := c) (t := t) (src := p.router) (dst := b) hp h1 (by rw [ht]) (by rw [ht])
    refine ⟨?_, fun g => by rw [ht]; exact g⟩
    rw [e, if_neg ha]
    omega
  | cw20TransferFrom w b n =>
    obtain ⟨k, h0, h1, ht⟩ := Cw20.transferFrom_ok h
    obtain ⟨g1, e, _, _⟩ := transferred (p := p) (c := c) (t := t) (src := w) (dst := b) hp h1 (by rw [ht]) (by rw [ht]; rfl)
    refine ⟨?_, fun g hp sp hsp => ?_⟩
    · rw [e]
      simp only [takenFrom]
      by_cases hw : a = w
      · rw [if_pos hw, if_pos hw.symm]
        omega
      · rw [if_neg hw]
        omega
    · rw [ht]
      show (if a = w ∧ sp = p.router then _ else c.token.allowance a sp) = none
      rw [if_neg (fun hh => hsp hh.2)]
      exact g hp sp hsp
  | dispatch q => cases h
  | handle x y z => cases h
  | postDispatch x y => cases h

theorem perform_others (ha : a ≠ p.router) {q : OutMsg} {x : Chain × List Response}
    (h : perform H p env c q = .ok x) :
    holding p c a ≤ holding p x.1 a + takenFrom a q ∧ (OnlyRouter p a c → OnlyRouter p a x.1) := by
  cases q with
  | bankSend dst coins =>
    obtain ⟨b, h1, h⟩ := bind_eq_ok.1 h
    obtain rfl := Except.ok.inj h
    obtain ⟨_, e, _, _, _⟩ := moved_bank (p := p) (m := .bridged) (Bank.send_ok h1)
    refine ⟨?_, fun g => g⟩
    rw [e, if_neg ha]
    omega
  | tfMint sender denom n =>
    obtain ⟨_, _, h⟩ := bind_eq_ok.1 h
    obtain ⟨b, h1, h⟩ := bind_eq_ok.1 h
    obtain rfl := Except.ok.inj h
    obtain ⟨_, e, _, _, _⟩ := minted_bank (p := p) (m := .bridged) h1
    refine ⟨?_, fun g => g⟩
    rw [e]
    split <;> omega
  | tfBurn sender denom n =>
    obtain ⟨_, h0, h⟩ := bind_eq_ok.1 h
    obtain ⟨b, h1, h⟩ := bind_eq_ok.1 h
    obtain rfl := Except.ok.inj h
    have hs := of_decide_eq_true (ensure_eq_ok.1 h0)
    obtain ⟨_, _, e, _, _, _⟩ := burned_bank (p := p) (m := .bridged) h1
    refine ⟨?_, fun g => g⟩
    rw [e, if_neg (fun hh => ha (hh.trans hs))]
    omega
  | execute dst q f =>
    obtain ⟨b, h1, h⟩ := bind_eq_ok.1 h
    obtain ⟨_, e, _, _, _⟩ := moved_bank (p := p) (m := .bridged) h1
    have hm : holding p c a ≤ holding p { c with bank := b } a := by
      rw [e, if_neg ha]
      omega
    split at h
    · cases q with
      | dispatch q =>
        obtain ⟨y, h2, h⟩ := bind_eq_ok.1 h
        obtain rfl := Except.ok.inj h
        exact ⟨hm, fun g => g⟩
      | cw20Mint a n => cases h
      | cw20Burn n => cases h
      | cw20Transfer a n => cases h
      | cw20TransferFrom w a n => cases h
      | handle x y z => cases h
      | postDispatch x y => cases h
    · split at h
      · rename_i hn
        obtain ⟨t, h2, h⟩ := bind_eq_ok.1 h
        obtain rfl := Except.ok.inj h
        obtain ⟨k1, k2⟩ := cw20_others (c := { c with bank := b }) (f := f) (dst := dst) hn.1 ha h2
        exact ⟨Nat.le_trans hm k1, k2⟩
      · cases h

theorem performAll_others (ha : a ≠ p.router) : ∀ {l : List OutMsg} {c : Chain} {x : Chain × List Response}
    (_ : performAll H p env c l = .ok x),
    holding p c a ≤ holding p x.1 a + (l.map (takenFrom a)).sum ∧ (OnlyRouter p a c → OnlyRouter p a x.1)
  | [], _, _, h => by obtain rfl := Except.ok.inj h; exact ⟨Nat.le_refl _, fun g => g⟩
  | q :: l, c, x, h => by
    obtain ⟨y, h1, h⟩ := bind_eq_ok.1 h
    obtain ⟨z, h2, h⟩ := bind_eq_ok.1 h
    obtain rfl := Except.ok.inj h
    obtain ⟨a1, a2⟩ := perform_others ha h1
    obtain ⟨b1, b2⟩ := performAll_others ha h2
    refine ⟨?_, fun g => b2 (a2 g)⟩
    rw [List.map_cons, List.sum_cons]
    show _ ≤ holding p z.1 a + _
    omega

/-- A router takes tokens only from the caller, and not more than the caller named. -/
theorem execute_takes {C : Codec} {self : Addr} {s : Ownable.State × Warp.State}
    {call : ExecCall (Addr → Bool) Warp.Msg} {x : (Ownable.State × Warp.State) × Response}
    (h : Warp.execute p.kind C self s call = .ok x) :
    p.coins call.funds + (x.2.msgs.map (takenFrom a)).sum ≤
      p.coins call.funds + if a = call.sender then offered p call - p.coins call.funds else 0 := by
  apply Nat.add_le_add_left
  obtain ⟨e, sender, funds, msg⟩ := call
  cases msg with
  | inl o =>
    obtain ⟨_, _, rfl⟩ := execOwned_inl.1 h
    exact Nat.zero_le _
  | inr w =>
    obtain ⟨q, hq, rfl⟩ := execute_inr.1 h
    cases w with
    | router w =>
      obtain ⟨_, _, hf⟩ := bind_eq_ok.1 hq
      cases hf
      exact Nat.zero_le _
    | connection w =>
      obtain ⟨_, _, hf⟩ := bind_eq_ok.1 hq
      cases hf
      exact Nat.zero_le _
    | handle o ms b =>
      obtain ⟨r, hr, hf⟩ := bind_eq_ok.1 hq
      obtain rfl := Except.ok.inj hf
      obtain ⟨_, _, hr⟩ := bind_eq_ok.1 hr
      obtain ⟨_, _, hr⟩ := bind_eq_ok.1 hr
      obtain ⟨_, _, hr⟩ := bind_eq_ok.1 hr
      obtain ⟨_, _, hr⟩ := bind_eq_ok.1 hr
      obtain ⟨_, _, hr⟩ := bind_eq_ok.1 hr
      obtain ⟨_, _, hr⟩ := bind_eq_ok.1 hr
      obtain ⟨ms, hk, hr⟩ := bind_eq_ok.1 hr
      obtain rfl := Except.ok.inj hr
      unfold Setup.kind at hk
      split at hk
      · obtain ⟨n, _, hk⟩ := bind_eq_ok.1 hk
        obtain rfl := Except.ok.inj hk
        cases s.2.mode <;> simp [takenFrom]
      · obtain ⟨n, _, hk⟩ := bind_eq_ok.1 hk
        obtain rfl := Except.ok.inj hk
        cases s.2.mode <;> simp [takenFrom]
    | transferRemote d r n hk md =>
      obtain ⟨r, hr, hf⟩ := bind_eq_ok.1 hq
      obtain rfl := Except.ok.inj hf
      obtain ⟨_, _, hr⟩ := bind_eq_ok.1 hr
      obtain ⟨_, _, hr⟩ := bind_eq_ok.1 hr
      obtain ⟨t, ht, hr⟩ := bind_eq_ok.1 hr
      obtain ⟨_, _, hr⟩ := bind_eq_ok.1 hr
      obtain ⟨_, _, hr⟩ := bind_eq_ok.1 hr
      obtain rfl := Except.ok.inj hr
      unfold Setup.kind at ht
      split at ht
      · obtain ⟨n, _, ht⟩ := bind_eq_ok.1 ht
        obtain rfl := Except.ok.inj ht
        cases s.2.mode <;> simp [takenFrom, Warp.dispatchMsg]
      · rename_i hp
        obtain rfl := Except.ok.inj ht
        by_cases hs : sender = a
        · cases s.2.mode <;> simp [takenFrom, Warp.dispatchMsg, offered, hs, hp]
        · cases s.2.mode <;> simp [takenFrom, Warp.dispatchMsg, hs]

theorem callRouter_others (ha : a ≠ p.router) {call : ExecCall (Addr → Bool) Warp.Msg}
    {x : Chain × Response × List Response} (h : callRouter H p env c call = .ok x) :
    holding p c a ≤ holding p x.1 a + (if a = call.sender then offered p call else 0) ∧
      (OnlyRouter p a c → OnlyRouter p a x.1) := by
  obtain ⟨_, h0, h⟩ := bind_eq_ok.1 h
  obtain ⟨b, h1, h⟩ := bind_eq_ok.1 h
  obtain ⟨y, h2, h⟩ := bind_eq_ok.1 h
  obtain ⟨z, h3, h⟩ := bind_eq_ok.1 h
  obtain rfl := Except.ok.inj h
  obtain ⟨g1, e, _, _, _⟩ := moved_bank (p := p) (m := .bridged) h1
  obtain ⟨k1, k2⟩ := performAll_others (H := H) (env := env) ha h3
  refine ⟨?_, k2⟩
  have k3 := execute_takes (a := a) h2
  have k4 : holding p { c with router := y.1, bank := b } a =
      if a = call.sender then holding p c a - p.coins call.funds else holding p c a := by
    have := e a
    rw [if_neg ha, Nat.add_zero] at this
    exact this
  rw [k4] at k1
  have k5 : p.coins call.funds ≤ offered p call := Nat.le_add_right _ _
  by_cases hs : a = call.sender
  · simp only [if_pos hs] at k1 k3 ⊢
    omega
  · simp only [if_neg hs] at k1 k3 ⊢
    omega

theorem deliver_others (ha : a ≠ p.router) (hm : a ≠ p.mailbox) {l : List OutMsg}
    {x : Chain × Response × List Response} (h : deliver H p env c l = .ok x) :
    holding p c a ≤ holding p x.1 a ∧ (OnlyRouter p a c → OnlyRouter p a x.1) := by
  unfold deliver at h
  split at h
  · split at h
    · obtain ⟨k1, k2⟩ := callRouter_others ha h
      rw [if_neg hm] at k1
      exact ⟨k1, k2⟩
    · obtain rfl := Except.ok.inj h
      exact ⟨Nat.le_refl _, id⟩
  · obtain rfl := Except.ok.inj h
    exact ⟨Nat.le_refl _, id⟩

variable {κ : Type} [DecidableEq κ]

/-- **C86.** Whoever calls a router with whatever message, only the caller can lose tokens, and not more than they
attached or, with cw20 tokens, named as the amount of a transfer: an allowance given to the router is of no use to
others. -/
theorem C86_only_the_caller_pays (H : Bytes → Bytes) (P : κ → Setup) {s s' : κ → Chain} {x : κ}
    {c : ExecCall (Addr → Bool) Warp.Msg} {env : Mailbox.Env} {o : Out}
    (h : step H P s (.router x c env) = .ok (s', o)) {a : Addr} (ha : a ≠ (P x).router) :
    holding (P x) (s x) a ≤ holding (P x) (s' x) a + if a = c.sender then offered (P x) c else 0 := by
  obtain ⟨y, h1, h⟩ := bind_eq_ok.1 h
  obtain ⟨rfl, _⟩ := Prod.mk.inj (Except.ok.inj h)
  rw [Function.update_self]
  exact (callRouter_others ha h1).1

/-- What others do with the bank. -/
theorem bank_idle {m : Warp.Mode} (o : Own p m c) {sender : Addr} (hs : sender ≠ p.router) (ha : a ≠ sender) {op : Bank.Op}
    {b : Bank} (h : c.bank.run sender op = .ok b) : holding p c a ≤ holding p { c with bank := b } a := by
  have notAdmin : ∀ {denom : String}, c.bank.admin denom = some sender → ¬ (p.native = true ∧ denom = p.token) := by
    rintro denom ha ⟨hp, rfl⟩
    rw [o.admin hp] at ha
    split at ha
    · exact hs (Option.some.inj ha).symm
    · cases ha
  cases op with
  | send dst coins =>
    obtain ⟨_, e, _, _, _⟩ := moved_bank (p := p) (m := m) (Bank.send_ok h)
    rw [e, if_neg ha]
    omega
  | burnOwn coins =>
    obtain ⟨_, e, _, _, _⟩ := burnedOwn_bank (p := p) (m := m) h
    rw [e, if_neg ha]
  | issue denom dst n =>
    obtain ⟨_, e, _, _, _⟩ := issued_bank (p := p) (m := m) h
    rw [e]
    split <;> omega
  | create sub =>
    change c.bank.create sender sub = .ok b at h
    unfold Bank.create at h
    split at h
    · cases h
    · obtain rfl := Except.ok.inj h
      exact Nat.le_refl _
  | mint denom n dst =>
    obtain ⟨_, e, _, _, _⟩ := minted_bank (p := p) (m := m) h
    rw [e]
    split <;> omega
  | burn denom n src =>
    obtain ⟨h1, _, e, _, _, _⟩ := burned_bank (p := p) (m := m) h
    rw [e, if_neg (notAdmin h1), Nat.sub_zero, ite_self]
  | force denom n src dst =>
    obtain ⟨_, h1, h⟩ := bind_eq_ok.1 h
    have := notAdmin (of_decide_eq_true (ensure_eq_ok.1 h1))
    obtain ⟨_, e, _, _, _⟩ := moved_bank (p := p) (m := m) h
    have hz : p.coins [⟨denom, n⟩] = 0 := by
      cases hp : p.native
      · exact Bridge.coins_cw20 hp _
      · rw [coins_total hp, total_single, if_neg (fun hh => this ⟨hp, hh⟩)]
    rw [e, hz, Nat.sub_zero, ite_self, ite_self]
    exact Nat.le_refl _
  | changeAdmin denom new =>
    obtain ⟨_, _, h⟩ := bind_eq_ok.1 h
    obtain rfl := Except.ok.inj h
    exact Nat.le_refl _

/-- What others do with the cw20 token. -/
theorem token_idle (hp : p.native = false) {deaf sender : Addr} (hs : sender ≠ p.router) (ha : a ≠ sender)
    (hr : OnlyRouter p a c) {op : Cw20.Op} {t : Cw20} (h : c.token.run deaf sender op = .ok t) :
    holding p c a ≤ holding p { c with token := t } a ∧ OnlyRouter p a { c with token := t } := by
  have notOwner : ∀ {owner k}, c.token.allowance owner sender = some k → owner ≠ a := by
    rintro owner k hh rfl
    rw [hr hp sender hs] at hh
    cases hh
  have allow : ∀ {t : Cw20} {owner spender v}, owner ≠ a →
      t.allowance = (c.token.setAllowance owner spender v).allowance → OnlyRouter p a { c with token := t } := by
    intro t owner spender v hw h2 hp sp hsp
    show t.allowance a sp = none
    rw [h2]
    show (if a = owner ∧ sp = spender then v else c.token.allowance a sp) = none
    rw [if_neg (fun hh => hw hh.1.symm)]
    exact hr hp sp hsp
  have same : ∀ {t : Cw20}, t.allowance = c.token.allowance → OnlyRouter p a { c with token := t } := by
    intro t h2 hp sp hsp
    show t.allowance a sp = none
    rw [h2]
    exact hr hp sp hsp
  have move : ∀ {t : Cw20} {src dst : Addr} {n : Nat}, src ≠ a → n ≤ c.token.balance src →
      t.balance = Cw20.moved c.token src dst n → t.supply = c.token.supply →
      holding p c a ≤ holding p { c with token := t } a := by
    intro t src dst n hw h1 h2 h3
    obtain ⟨_, e, _, _⟩ := transferred (p := p) (c := c) (t := t) hp h1 h2 h3
    rw [e, if_neg (Ne.symm hw)]
    omega
  have kept : ∀ {owner spender : Addr} {v : Option Nat},
      holding p c a ≤ holding p { c with token := c.token.setAllowance owner spender v } a := by
    intro owner spender v
    simp [holding, hp, Cw20.setAllowance]
  cases op with
  | transfer dst n =>
    obtain ⟨h1, ht⟩ := Cw20.transfer_ok h
    exact ⟨move (Ne.symm ha) h1 (by rw [ht]) (by rw [ht]), same (by rw [ht])⟩
  | burn n =>
    obtain ⟨h1, h2, ht⟩ := Cw20.burn_ok h
    obtain ⟨_, _, e, _, _⟩ := destroyed (p := p) (c := c) (t := t) (src := sender) hp h1 h2 (by rw [ht]) (by rw [ht])
    exact ⟨by rw [e, if_neg ha], same (by rw [ht])⟩
  | send dst n =>
    change (if dst = deaf then _ else c.token.transfer sender dst n) = _ at h
    split at h
    · cases h
    · obtain ⟨h1, ht⟩ := Cw20.transfer_ok h
      exact ⟨move (Ne.symm ha) h1 (by rw [ht]) (by rw [ht]), same (by rw [ht])⟩
  | mint dst n =>
    obtain ⟨_, hlt, ht⟩ := Cw20.mint_ok h
    obtain ⟨e, _, _⟩ := created (p := p) (c := c) (t := t) hp (by rw [ht]) (by rw [ht]) hlt
    refine ⟨?_, same (by rw [ht])⟩
    rw [e]
    split <;> omega
  | increaseAllowance spender n =>
    change (if _ then _ else _) = _ at h
    split at h
    · cases h
    · obtain rfl := Except.ok.inj h
      exact ⟨kept, allow (Ne.symm ha) rfl⟩
  | decreaseAllowance spender n =>
    change (if _ then _ else _) = _ at h
    split at h
    · cases h
    · split at h
      · cases h
      · obtain rfl := Except.ok.inj h
        exact ⟨kept, allow (Ne.symm ha) rfl⟩
  | transferFrom owner dst n =>
    obtain ⟨k, h0, h1, ht⟩ := Cw20.transferFrom_ok h
    have hw := notOwner h0
    exact ⟨move hw h1 (by rw [ht]) (by rw [ht]; rfl), allow hw (by rw [ht])⟩
  | burnFrom owner n =>
    obtain ⟨k, h0, h1, h2, ht⟩ := Cw20.burnFrom_ok h
    have hw := notOwner h0
    obtain ⟨_, _, e, _, _⟩ := destroyed (p := p) (c := c) (t := t) (src := owner) hp h1 h2 (by rw [ht]) (by rw [ht])
    exact ⟨by rw [e, if_neg (Ne.symm hw)], allow hw (by rw [ht])⟩
  | sendFrom owner dst n =>
    change (if dst = deaf then _ else c.token.transferFrom sender owner dst n) = _ at h
    split at h
    · cases h
    · obtain ⟨k, h0, h1, ht⟩ := Cw20.transferFrom_ok h
      have hw := notOwner h0
      exact ⟨move hw h1 (by rw [ht]) (by rw [ht]; rfl), allow hw (by rw [ht])⟩
  | updateMinter new =>
    change c.token.updateMinter sender new = _ at h
    unfold Cw20.updateMinter at h
    split at h
    · cases h
    · obtain ⟨_, _, h⟩ := bind_eq_ok.1 h
      obtain rfl := Except.ok.inj h
      exact ⟨Nat.le_refl _, same rfl⟩

/-- An act of somebody else takes nothing from an account that has allowed only the router to spend its tokens. -/
theorem step_idle {P : κ → Setup} {M : κ → Warp.Mode} {s s' : κ → Chain} {act : Act κ} {o : Out} {x : κ}
    (ho : OwnTokens P M s) (h : step H P s act = .ok (s', o)) (ha : a ≠ (P x).router) (hm : a ≠ (P x).mailbox)
    (hi : actorOf act ≠ (x, a)) (hr : OnlyRouter (P x) a (s x)) :
    holding (P x) (s x) a ≤ holding (P x) (s' x) a ∧ OnlyRouter (P x) a (s' x) := by
  have other : ∀ {y : κ} {c' : Chain}, (y = x → holding (P x) (s x) a ≤ holding (P x) c' a ∧ OnlyRouter (P x) a c') →
      holding (P x) (s x) a ≤ holding (P x) (Function.update s y c' x) a ∧
        OnlyRouter (P x) a (Function.update s y c' x) := by
    intro y c' hh
    by_cases hy : x = y
    · subst hy
      rw [Function.update_self]
      exact hh rfl
    · rw [Function.update_of_ne hy]
      exact ⟨Nat.le_refl _, hr⟩
  cases act with
  | router y c env =>
    obtain ⟨z, h1, h⟩ := bind_eq_ok.1 h
    obtain ⟨rfl, _⟩ := Prod.mk.inj (Except.ok.inj h)
    refine other (fun hy => ?_)
    subst hy
    obtain ⟨k1, k2⟩ := callRouter_others ha h1
    rw [if_neg (fun hh => hi (by rw [hh]; rfl))] at k1
    exact ⟨k1, k2 hr⟩
  | mailbox y c =>
    obtain ⟨_, h0, h⟩ := bind_eq_ok.1 h
    obtain ⟨b, h1, h⟩ := bind_eq_ok.1 h
    obtain ⟨w, h2, h⟩ := bind_eq_ok.1 h
    obtain ⟨z, h3, h⟩ := bind_eq_ok.1 h
    obtain ⟨rfl, _⟩ := Prod.mk.inj (Except.ok.inj h)
    refine other (fun hy => ?_)
    subst hy
    obtain ⟨k1, k2⟩ := deliver_others ha hm h3
    obtain ⟨_, e, _, _, _⟩ := moved_bank (p := P y) (m := M y) h1
    have k3 : holding (P y) { s y with box := w.1, bank := b } a = holding (P y) (s y) a := by
      have := e a
      rw [if_neg (fun hh => hi (by rw [hh]; rfl)), if_neg hm, Nat.add_zero] at this
      exact this
    rw [k3] at k1
    exact ⟨k1, k2 hr⟩
  | bank y sender op =>
    obtain ⟨_, h0, h⟩ := bind_eq_ok.1 h
    obtain ⟨b, h1, h⟩ := bind_eq_ok.1 h
    obtain ⟨rfl, _⟩ := Prod.mk.inj (Except.ok.inj h)
    refine other (fun hy => ?_)
    subst hy
    exact ⟨bank_idle (own_good ho y).own (of_decide_eq_true (ensure_eq_ok.1 h0))
      (fun hh => hi (by rw [hh]; rfl)) h1, hr⟩
  | token y sender op =>
    obtain ⟨_, h0, h⟩ := bind_eq_ok.1 h
    obtain ⟨t, h1, h⟩ := bind_eq_ok.1 h
    obtain ⟨rfl, _⟩ := Prod.mk.inj (Except.ok.inj h)
    refine other (fun hy => ?_)
    subst hy
    cases hp : (P y).native
    · exact token_idle hp (of_decide_eq_true (ensure_eq_ok.1 h0)) (fun hh => hi (by rw [hh]; rfl)) hr h1
    · refine ⟨Nat.le_of_eq ?_, fun hh => by rw [hp] at hh; cases hh⟩
      exact ((token_irrelevant (p := P y) (m := M y) (c := s y) hp t).1 a).symm

/-- **C86.** An account that does nothing loses nothing: in every execution in which an account other than the router and
the mailbox of a chain does not act there, and has allowed nobody except the router to spend its cw20 tokens, it has at
least as many tokens afterwards as before, whatever everybody else does: owners, relayers, security modules, other
holders. Nothing is assumed about them or about remote routers, only that the token itself is in order. -/
theorem C86_idle_accounts_lose_nothing (H : Bytes → Bytes) (P : κ → Setup) (M : κ → Warp.Mode) (s0 : κ → Chain)
    (txs : List (List (Tx.Act (Act κ)))) (ho : OwnTokens P M s0) {x : κ} {a : Addr} (ha : a ≠ (P x).router)
    (hm : a ≠ (P x).mailbox)
    (hr : (P x).native = false → ∀ sp, sp ≠ (P x).router → (s0 x).token.allowance a sp = none)
    (hi : ∀ e ∈ (Tx.history (step H P) s0 txs).2, actorOf e.1 ≠ (x, a)) :
    holding (P x) (s0 x) a ≤ holding (P x) ((Tx.history (step H P) s0 txs).1 x) a := by
  have hchain := Tx.history_chain (step H P) s0 txs
  generalize Tx.history (step H P) s0 txs = hist at *
  obtain ⟨s, log⟩ := hist
  simp only at *
  induction log generalizing s0 with
  | nil =>
    simp only [Tx.Chain] at hchain
    subst hchain
    exact Nat.le_refl _
  | cons e t ih =>
    obtain ⟨act, o⟩ := e
    obtain ⟨s1, h1, h2⟩ := hchain
    obtain ⟨k1, k2⟩ := step_idle ho h1 ha hm (hi (act, o) (List.mem_cons_self ..)) hr
    exact Nat.le_trans k1 (ih s1 (step_sim ho h1).2.1 k2 (fun e he => hi e (List.mem_cons_of_mem _ he)) h2)

namespace Tour

open ExWorld
open Ex.Net (addr setup hub play playable history_play)

/-- The tour up to the tokens alice gives to bob. -/
def short : List (Act (Fin 3)) := tour.take 6

theorem short_facts : playable (step toyHash setup) start short = true ∧
    (∀ e ∈ (play (step toyHash setup) start short).2, actorOf e.1 ≠ ((1 : Fin 3), "bob")) ∧
    holding (setup 1) ((play (step toyHash setup) start short).1 1) "bob" = 10 := by decide +kernel

/-- Bob does nothing on chain 1 while alice moves tokens, and allows nobody to spend tokens: afterwards bob has what alice
gave. -/
example : OwnTokens setup hub start ∧ "bob" ≠ (setup 1).router ∧ "bob" ≠ (setup 1).mailbox ∧
    (∀ sp, (start 1).token.allowance "bob" sp = none) ∧
    let h := Tx.history (step toyHash setup) start (short.map (fun a => [.call a []]))
    (∀ e ∈ h.2, actorOf e.1 ≠ ((1 : Fin 3), "bob")) ∧ holding (setup 1) (start 1) "bob" = 0 ∧
    holding (setup 1) (h.1 1) "bob" = 10 := by
  refine ⟨start_own, by decide +kernel, by decide +kernel, fun _ => rfl, ?_⟩
  obtain ⟨h1, h2, h3⟩ := short_facts
  rw [history_play h1]
  exact ⟨h2, rfl, h3⟩

/-- Alice pays what alice offers, and nobody else pays. -/
example : ((step toyHash setup start (send 0 1 100)).toOption.map (fun q => (holding (setup 0) (q.1 0) Ex.alice,
      holding (setup 0) (q.1 0) "bob"))) = some (900, 0) ∧
    holding (setup 0) (start 0) Ex.alice = 1000 ∧
    offered (setup 0) ⟨fun _ => true, Ex.alice, [⟨"uosmo", 100⟩], .inr (.transferRemote 2 Ex.aliceId 100 none none)⟩ =
      100 := by
  decide +kernel

end Tour

end Hpl.TokenWorld
