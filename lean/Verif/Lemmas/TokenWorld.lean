import Verif.Spec.TokenWorld
import Verif.Lemmas.Bridge

/-! Lemmas about networks of token routers with their tokens: every step is a step of `TokenNet`. -/

namespace Hpl

open Spec

/-! ## The bank -/

namespace Bank

variable {b b' : Bank} {src dst r : Addr} {coins : List Coin} {t : String}

theorem total_of_not_mem (h : ∀ c ∈ coins, c.denom ≠ t) : total t coins = 0 := by
  unfold total
  rw [List.filter_eq_nil_iff.2 (by simpa using h)]
  rfl

theorem total_le {f : String → Nat} (h : ∀ c ∈ coins, total c.denom coins ≤ f c.denom) (t : String) :
    total t coins ≤ f t := by
  by_cases hm : ∃ c ∈ coins, c.denom = t
  · obtain ⟨c, hc, rfl⟩ := hm
    exact h c hc
  · rw [total_of_not_mem (fun c hc he => hm ⟨c, hc, he⟩)]
    exact Nat.zero_le _

theorem move_ok : b.move src dst coins = .ok b' ↔ (∀ t, total t coins ≤ b.balance src t) ∧
    b' = { b with balance := fun a d =>
      (if a = src then b.balance a d - total d coins else b.balance a d) + if a = dst then total d coins else 0 } := by
  unfold move
  by_cases h : coins.all (fun c => decide (total c.denom coins ≤ b.balance src c.denom)) = true
  · rw [if_pos h]
    have h' : ∀ c ∈ coins, total c.denom coins ≤ b.balance src c.denom := by simpa using h
    constructor
    · intro hh; cases hh; exact ⟨total_le h', rfl⟩
    · rintro ⟨_, rfl⟩; rfl
  · rw [if_neg h]
    constructor
    · intro hh; cases hh
    · rintro ⟨hh, _⟩
      exact absurd (by simpa using fun (c : Coin) (_ : c ∈ coins) => hh c.denom) h

theorem send_ok (h : b.send src dst coins = .ok b') : b.move src dst coins = .ok b' := by
  obtain ⟨_, _, h⟩ := bind_eq_ok.1 h
  exact h

theorem burnOwn_ok : b.burnOwn src coins = .ok b' ↔ (∀ t, total t coins ≤ b.balance src t ∧ total t coins ≤ b.supply t) ∧
    b' = { b with
      balance := fun a d => if a = src then b.balance a d - total d coins else b.balance a d
      supply := fun d => b.supply d - total d coins } := by
  unfold burnOwn
  by_cases h : coins.all (fun c => decide (total c.denom coins ≤ b.balance src c.denom ∧
      total c.denom coins ≤ b.supply c.denom)) = true
  · rw [if_pos h]
    have h' : ∀ c ∈ coins, total c.denom coins ≤ b.balance src c.denom ∧ total c.denom coins ≤ b.supply c.denom := by
      simpa using h
    constructor
    · intro hh; cases hh
      exact ⟨fun t => ⟨total_le (f := b.balance src) (fun c hc => (h' c hc).1) t, total_le (fun c hc => (h' c hc).2) t⟩, rfl⟩
    · rintro ⟨_, rfl⟩; rfl
  · rw [if_neg h]
    constructor
    · intro hh; cases hh
    · rintro ⟨hh, _⟩
      exact absurd (by simpa using fun (c : Coin) (_ : c ∈ coins) => hh c.denom) h

theorem mint_ok {sender : Addr} {denom : String} {n : Nat} : b.mint sender denom n dst = .ok b' ↔
    n ≠ 0 ∧ b.admin denom = some sender ∧ b' = { b with
      balance := fun a d => if a = dst ∧ d = denom then b.balance a d + n else b.balance a d
      supply := fun d => if d = denom then b.supply d + n else b.supply d } := by
  unfold mint
  constructor
  · intro h
    obtain ⟨_, h1, h⟩ := bind_eq_ok.1 h
    obtain ⟨_, h2, h⟩ := bind_eq_ok.1 h
    cases h
    exact ⟨of_decide_eq_true (ensure_eq_ok.1 h1), of_decide_eq_true (ensure_eq_ok.1 h2), rfl⟩
  · rintro ⟨h1, h2, rfl⟩
    exact bind_eq_ok.2 ⟨(), ensure_eq_ok.2 (decide_eq_true h1), bind_eq_ok.2 ⟨(), ensure_eq_ok.2 (decide_eq_true h2), rfl⟩⟩

theorem burn_ok {sender : Addr} {denom : String} {n : Nat} : b.burn sender denom n src = .ok b' ↔
    n ≠ 0 ∧ b.admin denom = some sender ∧ (n ≤ b.balance src denom ∧ n ≤ b.supply denom) ∧ b' = { b with
      balance := fun a d => if a = src ∧ d = denom then b.balance a d - n else b.balance a d
      supply := fun d => if d = denom then b.supply d - n else b.supply d } := by
  unfold burn
  constructor
  · intro h
    obtain ⟨_, h1, h⟩ := bind_eq_ok.1 h
    obtain ⟨_, h2, h⟩ := bind_eq_ok.1 h
    obtain ⟨_, h3, h⟩ := bind_eq_ok.1 h
    cases h
    exact ⟨of_decide_eq_true (ensure_eq_ok.1 h1), of_decide_eq_true (ensure_eq_ok.1 h2),
      of_decide_eq_true (ensure_eq_ok.1 h3), rfl⟩
  · rintro ⟨h1, h2, h3, rfl⟩
    exact bind_eq_ok.2 ⟨(), ensure_eq_ok.2 (decide_eq_true h1), bind_eq_ok.2 ⟨(), ensure_eq_ok.2 (decide_eq_true h2),
      bind_eq_ok.2 ⟨(), ensure_eq_ok.2 (decide_eq_true h3), rfl⟩⟩⟩

end Bank

/-! ## A cw20 token -/

namespace Cw20

variable {t t' : Cw20} {a dst sender owner : Addr} {n : Nat}

theorem debit_ok : t.debit a n = .ok t' ↔
    n ≤ t.balance a ∧ t' = { t with balance := fun x => if x = a then t.balance x - n else t.balance x } := by
  unfold debit
  by_cases h : n ≤ t.balance a
  · rw [if_pos h]
    exact ⟨fun hh => by cases hh; exact ⟨h, rfl⟩, fun ⟨_, hh⟩ => by rw [hh]⟩
  · rw [if_neg h]
    exact ⟨fun hh => (by cases hh), fun ⟨hh, _⟩ => absurd hh h⟩

theorem credit_ok : t.credit a n = .ok t' ↔ t.balance a + n < u128Lim ∧
    t' = { t with balance := fun x => if x = a then t.balance x + n else t.balance x } := by
  unfold credit
  by_cases h : t.balance a + n < u128Lim
  · rw [if_pos h]
    exact ⟨fun hh => by cases hh; exact ⟨h, rfl⟩, fun ⟨_, hh⟩ => by rw [hh]⟩
  · rw [if_neg h]
    exact ⟨fun hh => (by cases hh), fun ⟨hh, _⟩ => absurd hh h⟩

/-- What moving tokens makes of a balance. -/
def moved (t : Cw20) (src dst : Addr) (n : Nat) (x : Addr) : Nat :=
  (if x = src then t.balance x - n else t.balance x) + if x = dst then n else 0

theorem debit_credit (h : ∃ u, t.debit a n = .ok u ∧ u.credit dst n = .ok t') :
    n ≤ t.balance a ∧ t' = { t with balance := moved t a dst n } := by
  obtain ⟨u, h1, h2⟩ := h
  obtain ⟨g1, rfl⟩ := debit_ok.1 h1
  obtain ⟨_, rfl⟩ := credit_ok.1 h2
  refine ⟨g1, ?_⟩
  congr 1
  funext x
  unfold moved
  by_cases hx : x = dst <;> simp [hx]

theorem transfer_ok (h : t.transfer sender dst n = .ok t') :
    n ≤ t.balance sender ∧ t' = { t with balance := moved t sender dst n } := by
  obtain ⟨_, _, h⟩ := bind_eq_ok.1 h
  exact debit_credit (bind_eq_ok.1 h)

theorem burn_ok (h : t.burn sender n = .ok t') : n ≤ t.balance sender ∧ n ≤ t.supply ∧ t' = { t with
    balance := fun x => if x = sender then t.balance x - n else t.balance x, supply := t.supply - n } := by
  obtain ⟨_, _, h⟩ := bind_eq_ok.1 h
  obtain ⟨u, h1, h⟩ := bind_eq_ok.1 h
  obtain ⟨g1, rfl⟩ := debit_ok.1 h1
  simp only at h
  split at h
  · rename_i h2
    cases h
    exact ⟨g1, h2, rfl⟩
  · cases h

theorem mint_ok (h : t.mint sender dst n = .ok t') : (∃ cap, t.minter = some (sender, cap)) ∧
    t.supply + n < u128Lim ∧ t' = { t with
      balance := fun x => if x = dst then t.balance x + n else t.balance x, supply := t.supply + n } := by
  obtain ⟨_, _, h⟩ := bind_eq_ok.1 h
  split at h
  · cases h
  · rename_i m cap hm
    obtain ⟨_, h1, h'⟩ := bind_eq_ok.1 h
    obtain ⟨_, h2, h''⟩ := bind_eq_ok.1 h'
    obtain ⟨_, _, h3⟩ := bind_eq_ok.1 h''
    have := of_decide_eq_true (ensure_eq_ok.1 h1)
    subst this
    obtain ⟨_, rfl⟩ := credit_ok.1 h3
    exact ⟨⟨cap, hm⟩, of_decide_eq_true (ensure_eq_ok.1 h2), rfl⟩

theorem deduct_ok {spender : Addr} (h : t.deduct owner spender n = .ok t') :
    ∃ k, t.allowance owner spender = some k ∧ n ≤ k ∧ t' = t.setAllowance owner spender (some (k - n)) := by
  unfold deduct at h
  split at h
  · cases h
  · rename_i k hk
    split at h
    · rename_i hn
      cases h
      exact ⟨k, hk, hn, rfl⟩
    · cases h

theorem transferFrom_ok {spender : Addr} (h : t.transferFrom spender owner dst n = .ok t') :
    ∃ k, t.allowance owner spender = some k ∧ n ≤ t.balance owner ∧
      t' = { t.setAllowance owner spender (some (k - n)) with balance := moved t owner dst n } := by
  obtain ⟨u, h1, h⟩ := bind_eq_ok.1 h
  obtain ⟨k, g1, _, rfl⟩ := deduct_ok h1
  obtain ⟨h2, h3⟩ := debit_credit (bind_eq_ok.1 h)
  exact ⟨k, g1, h2, h3⟩

theorem burnFrom_ok {spender : Addr} (h : t.burnFrom spender owner n = .ok t') :
    ∃ k, t.allowance owner spender = some k ∧ n ≤ t.balance owner ∧ n ≤ t.supply ∧
      t' = { t.setAllowance owner spender (some (k - n)) with
        balance := fun x => if x = owner then t.balance x - n else t.balance x, supply := t.supply - n } := by
  obtain ⟨u, h1, h⟩ := bind_eq_ok.1 h
  obtain ⟨k, g1, _, rfl⟩ := deduct_ok h1
  obtain ⟨u, h2, h⟩ := bind_eq_ok.1 h
  obtain ⟨g2, rfl⟩ := debit_ok.1 h2
  simp only at h
  split at h
  · rename_i h3
    cases h
    exact ⟨k, g1, g2, h3, rfl⟩
  · cases h

end Cw20

namespace TokenWorld

open Bridge (Setup Out)

variable {κ : Type} [DecidableEq κ]

/-! ## One chain -/

/-- `view` of one chain. -/
def viewOne (p : Setup) (m : Warp.Mode) (c : Chain) : Bridge.Chain :=
  ⟨c.box, c.router, holding p c p.router, if m = .bridged then tokenSupply p c else 0⟩

/-- `OwnTokens` for one chain, as far as it concerns tokens. -/
structure Own (p : Setup) (m : Warp.Mode) (c : Chain) : Prop where
  exist : p.native = true → c.bank.known p.token = true
  admin : p.native = true → c.bank.admin p.token = if m = .bridged then some p.router else none
  minter : p.native = false → m = .bridged → c.token.minter = some (p.router, none)
  allowance : p.native = false → ∀ a, c.token.allowance p.router a = none

/-- Balances that amount to `n`. -/
def Amounts (f : Addr → Nat) (n : Nat) : Prop := ∃ T : Finset Addr, (∀ a, a ∉ T → f a = 0) ∧ ∑ a ∈ T, f a = n

/-- `Covered` for one chain. -/
def CoveredOne (p : Setup) (c : Chain) : Prop :=
  Amounts (holding p c) (tokenSupply p c) ∧ (p.native = false → c.token.supply < u128Lim)

theorem Amounts.with {f : Addr → Nat} {n : Nat} (h : Amounts f n) (a : Addr) :
    ∃ T : Finset Addr, a ∈ T ∧ (∀ a, a ∉ T → f a = 0) ∧ f a + ∑ x ∈ T.erase a, f x = n := by
  obtain ⟨T, h1, h2⟩ := h
  refine ⟨insert a T, Finset.mem_insert_self _ _, fun b hb => h1 b (fun hm => hb (Finset.mem_insert_of_mem hm)), ?_⟩
  rw [Finset.add_sum_erase _ _ (Finset.mem_insert_self a T), ← h2]
  by_cases ha : a ∈ T
  · rw [Finset.insert_eq_of_mem ha]
  · rw [Finset.sum_insert ha, h1 a ha, Nat.zero_add]

theorem Amounts.change {f g : Addr → Nat} {n : Nat} (h : Amounts f n) (a : Addr) (hg : ∀ x, x ≠ a → g x = f x) :
    f a ≤ n ∧ Amounts g (n - f a + g a) := by
  obtain ⟨T, h1, h2, h3⟩ := h.with a
  refine ⟨by omega, T, fun b hb => ?_, ?_⟩
  · rw [hg b (fun hh => hb (hh ▸ h1))]
    exact h2 b hb
  · rw [← Finset.add_sum_erase _ _ h1]
    have : ∑ x ∈ T.erase a, g x = ∑ x ∈ T.erase a, f x :=
      Finset.sum_congr rfl (fun x hx => hg x (Finset.ne_of_mem_erase hx))
    omega

theorem Amounts.add {f : Addr → Nat} {n : Nat} (h : Amounts f n) (a : Addr) (k : Nat) :
    Amounts (fun x => if x = a then f x + k else f x) (n + k) := by
  obtain ⟨h1, h2⟩ := h.change a (g := fun x => if x = a then f x + k else f x) (fun x hx => if_neg hx)
  have : n - f a + (if a = a then f a + k else f a) = n + k := by rw [if_pos rfl]; omega
  rwa [this] at h2

theorem Amounts.sub {f : Addr → Nat} {n : Nat} (h : Amounts f n) (a : Addr) {k : Nat} (hk : k ≤ f a) :
    k ≤ n ∧ Amounts (fun x => if x = a then f x - k else f x) (n - k) := by
  obtain ⟨h1, h2⟩ := h.change a (g := fun x => if x = a then f x - k else f x) (fun x hx => if_neg hx)
  have : n - f a + (if a = a then f a - k else f a) = n - k := by rw [if_pos rfl]; omega
  rw [this] at h2
  exact ⟨by omega, h2⟩

theorem Amounts.move {f : Addr → Nat} {n : Nat} (h : Amounts f n) (src dst : Addr) {k : Nat} (hk : k ≤ f src) :
    Amounts (fun x => (if x = src then f x - k else f x) + if x = dst then k else 0) n := by
  obtain ⟨h1, h2⟩ := h.sub src hk
  have h3 := h2.add dst k
  rw [Nat.sub_add_cancel h1] at h3
  have : (fun x => (if x = src then f x - k else f x) + if x = dst then k else 0) =
      (fun x => if x = dst then (if x = src then f x - k else f x) + k else if x = src then f x - k else f x) := by
    funext x
    by_cases hx : x = dst <;> simp [hx]
  rw [this]
  exact h3

/-- What a router may not ask of its token: to mint or burn collateral. -/
def Fitting (m : Warp.Mode) : OutMsg → Prop
  | .execute _ (.cw20Mint _ _) _ => m = .bridged
  | .execute _ (.cw20Burn _) _ => m = .bridged
  | _ => True

variable {H : Bytes → Bytes} {p : Setup} {env : Mailbox.Env} {m : Warp.Mode} {c c' : Chain}

theorem coins_total (hp : p.native = true) (l : List Coin) : p.coins l = Bank.total p.token l := by
  unfold Setup.coins Bank.total
  rw [if_pos hp]

/-- Moving coins. -/
theorem moved_bank {src dst : Addr} {coins : List Coin} {b : Bank} (h : c.bank.move src dst coins = .ok b) :
    (p.native = true → p.coins coins ≤ holding p c src) ∧
    (∀ a, holding p { c with bank := b } a = (if a = src then holding p c a - p.coins coins else holding p c a) +
      if a = dst then p.coins coins else 0) ∧
    tokenSupply p { c with bank := b } = tokenSupply p c ∧ (Own p m c → Own p m { c with bank := b }) ∧
    (CoveredOne p c → CoveredOne p { c with bank := b }) := by
  obtain ⟨h1, hb⟩ := Bank.move_ok.1 h
  have e : ∀ a, holding p { c with bank := b } a =
      (if a = src then holding p c a - p.coins coins else holding p c a) + if a = dst then p.coins coins else 0 := by
    intro a
    cases hp : p.native
    · simp [holding, hp, Bridge.coins_cw20 hp]
    · simp [holding, hp, coins_total hp, hb]
  have e' : tokenSupply p { c with bank := b } = tokenSupply p c := by rw [hb]; rfl
  refine ⟨?_, e, e', fun o => by rw [hb]; exact ⟨o.exist, o.admin, o.minter, o.allowance⟩, ?_⟩
  · intro hp
    rw [coins_total hp]
    simp only [holding, hp, if_true]
    exact h1 _
  · intro hc
    have hle : p.coins coins ≤ holding p c src := by
      cases hp : p.native
      · rw [Bridge.coins_cw20 hp]; exact Nat.zero_le _
      · rw [coins_total hp]
        simp only [holding, hp, if_true]
        exact h1 _
    unfold CoveredOne
    rw [funext e, e']
    exact ⟨hc.1.move src dst hle, hc.2⟩

/-- Creating coins. -/
theorem minted_bank {sender dst : Addr} {denom : String} {n : Nat} {b : Bank}
    (h : c.bank.mint sender denom n dst = .ok b) :
    c.bank.admin denom = some sender ∧
    (∀ a, holding p { c with bank := b } a =
      if a = dst then holding p c a + (if p.native ∧ denom = p.token then n else 0) else holding p c a) ∧
    tokenSupply p { c with bank := b } = tokenSupply p c + (if p.native ∧ denom = p.token then n else 0) ∧
    (Own p m c → Own p m { c with bank := b }) ∧ (CoveredOne p c → CoveredOne p { c with bank := b }) := by
  obtain ⟨_, h2, hb⟩ := Bank.mint_ok.1 h
  have e : ∀ a, holding p { c with bank := b } a =
      if a = dst then holding p c a + (if p.native ∧ denom = p.token then n else 0) else holding p c a := by
    intro a
    cases hp : p.native
    · simp [holding, hp]
    · by_cases hd : denom = p.token
      · simp [holding, hp, hb, hd]
      · have : ¬ p.token = denom := fun hh => hd hh.symm
        simp [holding, hp, hb, hd, this]
  have e' : tokenSupply p { c with bank := b } = tokenSupply p c + (if p.native ∧ denom = p.token then n else 0) := by
    cases hp : p.native
    · simp [tokenSupply, hp]
    · by_cases hd : denom = p.token
      · simp [tokenSupply, hp, hb, hd]
      · have : ¬ p.token = denom := fun hh => hd hh.symm
        simp [tokenSupply, hp, hb, hd, this]
  refine ⟨h2, e, e', fun o => by rw [hb]; exact ⟨o.exist, o.admin, o.minter, o.allowance⟩, fun hc => ?_⟩
  unfold CoveredOne
  rw [funext e, e']
  exact ⟨hc.1.add dst _, hc.2⟩

/-- Destroying coins with the token factory. -/
theorem burned_bank {sender src : Addr} {denom : String} {n : Nat} {b : Bank}
    (h : c.bank.burn sender denom n src = .ok b) :
    c.bank.admin denom = some sender ∧
    (p.native = true → denom = p.token → n ≤ holding p c src ∧ n ≤ tokenSupply p c) ∧
    (∀ a, holding p { c with bank := b } a =
      if a = src then holding p c a - (if p.native ∧ denom = p.token then n else 0) else holding p c a) ∧
    tokenSupply p { c with bank := b } = tokenSupply p c - (if p.native ∧ denom = p.token then n else 0) ∧
    (Own p m c → Own p m { c with bank := b }) ∧ (CoveredOne p c → CoveredOne p { c with bank := b }) := by
  obtain ⟨_, h2, ⟨h3, h4⟩, hb⟩ := Bank.burn_ok.1 h
  have e : ∀ a, holding p { c with bank := b } a =
      if a = src then holding p c a - (if p.native ∧ denom = p.token then n else 0) else holding p c a := by
    intro a
    cases hp : p.native
    · simp [holding, hp]
    · by_cases hd : denom = p.token
      · simp [holding, hp, hb, hd]
      · have : ¬ p.token = denom := fun hh => hd hh.symm
        simp [holding, hp, hb, hd, this]
  have e' : tokenSupply p { c with bank := b } = tokenSupply p c - (if p.native ∧ denom = p.token then n else 0) := by
    cases hp : p.native
    · simp [tokenSupply, hp]
    · by_cases hd : denom = p.token
      · simp [tokenSupply, hp, hb, hd]
      · have : ¬ p.token = denom := fun hh => hd hh.symm
        simp [tokenSupply, hp, hb, hd, this]
  have hle : p.native = true → denom = p.token → n ≤ holding p c src ∧ n ≤ tokenSupply p c := by
    intro hp hd
    subst hd
    simp only [holding, tokenSupply, hp, if_true]
    exact ⟨h3, h4⟩
  refine ⟨h2, hle, e, e', fun o => by rw [hb]; exact ⟨o.exist, o.admin, o.minter, o.allowance⟩, fun hc => ?_⟩
  unfold CoveredOne
  rw [funext e, e']
  refine ⟨(hc.1.sub src ?_).2, hc.2⟩
  by_cases hd : p.native = true ∧ denom = p.token
  · rw [if_pos hd]
    exact (hle hd.1 hd.2).1
  · rw [if_neg hd]
    exact Nat.zero_le _

/-- A holder destroys coins. -/
theorem burnedOwn_bank {src : Addr} {coins : List Coin} {b : Bank} (h : c.bank.burnOwn src coins = .ok b) :
    p.coins coins ≤ tokenSupply p c ∧
    (∀ a, holding p { c with bank := b } a = if a = src then holding p c a - p.coins coins else holding p c a) ∧
    tokenSupply p { c with bank := b } = tokenSupply p c - p.coins coins ∧
    (Own p m c → Own p m { c with bank := b }) ∧ (CoveredOne p c → CoveredOne p { c with bank := b }) := by
  obtain ⟨h1, hb⟩ := Bank.burnOwn_ok.1 h
  have e : ∀ a, holding p { c with bank := b } a =
      if a = src then holding p c a - p.coins coins else holding p c a := by
    intro a
    cases hp : p.native
    · simp [holding, hp, Bridge.coins_cw20 hp]
    · simp [holding, hp, coins_total hp, hb]
  have e' : tokenSupply p { c with bank := b } = tokenSupply p c - p.coins coins := by
    cases hp : p.native
    · simp [tokenSupply, hp, Bridge.coins_cw20 hp]
    · simp [tokenSupply, hp, coins_total hp, hb]
  have hle : p.coins coins ≤ tokenSupply p c ∧ p.coins coins ≤ holding p c src := by
    cases hp : p.native
    · rw [Bridge.coins_cw20 hp]; exact ⟨Nat.zero_le _, Nat.zero_le _⟩
    · rw [coins_total hp]
      simp only [tokenSupply, holding, hp, if_true]
      exact ⟨(h1 _).2, (h1 _).1⟩
  refine ⟨hle.1, e, e', fun o => by rw [hb]; exact ⟨o.exist, o.admin, o.minter, o.allowance⟩, fun hc => ?_⟩
  unfold CoveredOne
  rw [funext e, e']
  exact ⟨(hc.1.sub src hle.2).2, hc.2⟩

/-- Coins come into being. -/
theorem issued_bank {dst : Addr} {denom : String} {n : Nat} {b : Bank} (h : c.bank.issue denom dst n = .ok b) :
    c.bank.admin denom = none ∧
    (∀ a, holding p { c with bank := b } a =
      if a = dst then holding p c a + (if p.native ∧ denom = p.token then n else 0) else holding p c a) ∧
    tokenSupply p { c with bank := b } = tokenSupply p c + (if p.native ∧ denom = p.token then n else 0) ∧
    (Own p m c → Own p m { c with bank := b }) ∧ (CoveredOne p c → CoveredOne p { c with bank := b }) := by
  unfold Bank.issue at h
  split at h
  · rename_i h2
    have hb := (Except.ok.inj h).symm
    have e : ∀ a, holding p { c with bank := b } a =
        if a = dst then holding p c a + (if p.native ∧ denom = p.token then n else 0) else holding p c a := by
      intro a
      cases hp : p.native
      · simp [holding, hp]
      · by_cases hd : denom = p.token
        · simp [holding, hp, hb, hd]
        · have : ¬ p.token = denom := fun hh => hd hh.symm
          simp [holding, hp, hb, hd, this]
    have e' : tokenSupply p { c with bank := b } = tokenSupply p c + (if p.native ∧ denom = p.token then n else 0) := by
      cases hp : p.native
      · simp [tokenSupply, hp]
      · by_cases hd : denom = p.token
        · simp [tokenSupply, hp, hb, hd]
        · have : ¬ p.token = denom := fun hh => hd hh.symm
          simp [tokenSupply, hp, hb, hd, this]
    refine ⟨h2, e, e', fun o => ?_, fun hc => ?_⟩
    · rw [hb]
      refine ⟨fun hp => ?_, o.admin, o.minter, o.allowance⟩
      show (if p.token = denom then true else c.bank.known p.token) = true
      rw [o.exist hp, ite_self]
    · unfold CoveredOne
      rw [funext e, e']
      exact ⟨hc.1.add dst _, hc.2⟩
  · cases h

/-! ### Cw20 -/

theorem token_irrelevant (hp : p.native = true) (t : Cw20) :
    (∀ a, holding p { c with token := t } a = holding p c a) ∧ tokenSupply p { c with token := t } = tokenSupply p c ∧
    (Own p m c → Own p m { c with token := t }) ∧ (CoveredOne p c → CoveredOne p { c with token := t }) := by
  have e : ∀ a, holding p { c with token := t } a = holding p c a := by intro a; simp [holding, hp]
  have e' : tokenSupply p { c with token := t } = tokenSupply p c := by simp [tokenSupply, hp]
  refine ⟨e, e', fun o => ⟨o.exist, o.admin, fun h => ?_, fun h => ?_⟩, fun hc => ?_⟩
  · rw [hp] at h; cases h
  · rw [hp] at h; cases h
  · unfold CoveredOne
    rw [funext e, e']
    exact ⟨hc.1, fun h => by rw [hp] at h; cases h⟩

theorem transferred (hp : p.native = false) {src dst : Addr} {n : Nat} {t : Cw20} (hn : n ≤ c.token.balance src)
    (hb : t.balance = Cw20.moved c.token src dst n) (hs : t.supply = c.token.supply) :
    n ≤ holding p c src ∧
    (∀ a, holding p { c with token := t } a =
      (if a = src then holding p c a - n else holding p c a) + if a = dst then n else 0) ∧
    tokenSupply p { c with token := t } = tokenSupply p c ∧
    (CoveredOne p c → CoveredOne p { c with token := t }) := by
  have hle : n ≤ holding p c src := by simpa [holding, hp] using hn
  have e : ∀ a, holding p { c with token := t } a =
      (if a = src then holding p c a - n else holding p c a) + if a = dst then n else 0 := by
    intro a; simp [holding, hp, hb, Cw20.moved]
  have e' : tokenSupply p { c with token := t } = tokenSupply p c := by simp [tokenSupply, hp, hs]
  refine ⟨hle, e, e', fun hc => ?_⟩
  unfold CoveredOne
  rw [funext e, e']
  exact ⟨hc.1.move src dst hle, fun h => by rw [hs]; exact hc.2 h⟩

theorem destroyed (hp : p.native = false) {src : Addr} {n : Nat} {t : Cw20} (hn : n ≤ c.token.balance src)
    (hm : n ≤ c.token.supply)
    (hb : t.balance = fun x => if x = src then c.token.balance x - n else c.token.balance x)
    (hs : t.supply = c.token.supply - n) :
    n ≤ holding p c src ∧ n ≤ tokenSupply p c ∧
    (∀ a, holding p { c with token := t } a = if a = src then holding p c a - n else holding p c a) ∧
    tokenSupply p { c with token := t } = tokenSupply p c - n ∧
    (CoveredOne p c → CoveredOne p { c with token := t }) := by
  have hle : n ≤ holding p c src := by simpa [holding, hp] using hn
  have e : ∀ a, holding p { c with token := t } a = if a = src then holding p c a - n else holding p c a := by
    intro a; simp [holding, hp, hb]
  have e' : tokenSupply p { c with token := t } = tokenSupply p c - n := by simp [tokenSupply, hp, hs]
  refine ⟨hle, by simpa [tokenSupply, hp] using hm, e, e', fun hc => ?_⟩
  unfold CoveredOne
  rw [funext e, e']
  exact ⟨(hc.1.sub src hle).2, fun h => by rw [hs]; exact Nat.lt_of_le_of_lt (Nat.sub_le _ _) (hc.2 h)⟩

theorem created (hp : p.native = false) {dst : Addr} {n : Nat} {t : Cw20}
    (hb : t.balance = fun x => if x = dst then c.token.balance x + n else c.token.balance x)
    (hs : t.supply = c.token.supply + n) (hlt : c.token.supply + n < u128Lim) :
    (∀ a, holding p { c with token := t } a = if a = dst then holding p c a + n else holding p c a) ∧
    tokenSupply p { c with token := t } = tokenSupply p c + n ∧
    (CoveredOne p c → CoveredOne p { c with token := t }) := by
  have e : ∀ a, holding p { c with token := t } a = if a = dst then holding p c a + n else holding p c a := by
    intro a; simp [holding, hp, hb]
  have e' : tokenSupply p { c with token := t } = tokenSupply p c + n := by simp [tokenSupply, hp, hs]
  refine ⟨e, e', fun hc => ?_⟩
  unfold CoveredOne
  rw [funext e, e']
  exact ⟨hc.1.add dst n, fun _ => by rw [hs]; exact hlt⟩

end TokenWorld

end Hpl
