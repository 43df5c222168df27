import Verif.Spec.Ledger
import Verif.Props.Igp

/-! # Balances of the fee hook and the paymaster: C49 -/

namespace Hpl

open Spec Ledger

theorem performAll_amt {self : Addr} {b b' : Coins} {l : List OutMsg} (h : performAll self b l = .ok b')
    (d : String) : Coins.amt b' d + leaving self d l = Coins.amt b d := by
  induction l generalizing b with
  | nil => cases h; simp [leaving]
  | cons m t ih =>
    cases m with
    | bankSend dst coins =>
      obtain ⟨b1, h1, h2⟩ := bind_eq_ok.1 h
      have hs := Coins.subAll_ok h1 d
      have := ih h2
      simp only [leaving]
      by_cases hd : dst = self
      · rw [if_pos hd] at this ⊢
        omega
      · rw [if_neg hd] at this ⊢
        omega
    | execute a p f => exact ih h
    | tfMint a p f => exact ih h
    | tfBurn a p f => exact ih h

section

variable {ε σ μ : Type} {see : Coins → ε → ε} {exec : σ → ExecCall ε μ → Res (σ × Response)} {self : Addr}

theorem ledger_step_amt {x x' : σ × Coins} {a : Ledger.Act ε μ} {r : Response}
    (h : step see exec self x a = .ok (x', r)) (d : String) :
    Coins.amt x'.2 d + leaving self d r.msgs = Coins.amt x.2 d + arriving d a := by
  cases a with
  | call c =>
    obtain ⟨b, h1, h⟩ := bind_eq_ok.1 h
    obtain ⟨p, h2, h⟩ := bind_eq_ok.1 h
    obtain ⟨b', h3, hf⟩ := bind_eq_ok.1 h
    cases hf
    have e1 := Coins.addAll_ok h1 d
    have e2 := performAll_amt h3 d
    simp only [arriving]
    omega
  | gift coins =>
    obtain ⟨b, h1, hf⟩ := bind_eq_ok.1 h
    cases hf
    have e1 := Coins.addAll_ok h1 d
    simp only [arriving, leaving]
    omega

theorem ledger_conserve {x x' : σ × Coins} {log : List (Tx.Entry (Ledger.Act ε μ) Response)}
    (h : Tx.Chain (step see exec self) x log x') (d : String) :
    Coins.amt x'.2 d + left self d log = Coins.amt x.2 d + arrived d log := by
  induction log generalizing x with
  | nil =>
    simp only [Tx.Chain] at h
    subst h
    simp [left, arrived]
  | cons e t ih =>
    obtain ⟨a, r⟩ := e
    obtain ⟨m, h1, h2⟩ := h
    have e1 := ledger_step_amt h1 d
    have e2 := ih h2
    simp only [left, arrived, List.map_cons, List.sum_cons] at e2 ⊢
    omega

/-- An entry of a committed log is a step from a state reached by the entries before it. -/
theorem history_entry (step : σ → ι → Res (σ × ρ)) (s : σ) (txs : List (List (Tx.Act ι)))
    (pre post : List (Tx.Entry ι ρ)) (c : ι) (r : ρ) (h : (Tx.history step s txs).2 = pre ++ (c, r) :: post) :
    ∃ m m', Tx.Chain step s pre m ∧ step m c = .ok (m', r) ∧
      Tx.Chain step m' post (Tx.history step s txs).1 := by
  have hc := Tx.history_chain step s txs
  rw [h] at hc
  obtain ⟨m, h1, h2⟩ := hc.split
  obtain ⟨m', h3, h4⟩ := h2
  exact ⟨m, m', h1, h3, h4⟩

end

/-- **C49** for the fee hook. In every execution, with nested calls, aborts and rollbacks, starting with any balance:
nothing is created or lost in the account, and coins are sent only by claims of the account that is owner at that
time, each of which sends one transfer, to the recipient it names, or the owner, of everything the account has got
so far, including what was attached to the claim, and has not sent before. -/
theorem C49_fee_hook (self : Addr) (s0 : Ownable.State × Coin) (b0 : Coins)
    (txs : List (List (Tx.Act (Ledger.Act HookEnv FeeHook.Msg)))) :
    let final := (Tx.history (FeeHook.ledger self) (s0, b0) txs).1
    let log := (Tx.history (FeeHook.ledger self) (s0, b0) txs).2
    (∀ d, Coins.amt final.2 d + left self d log = Coins.amt b0 d + arrived d log) ∧
    (∀ pre a r post, log = pre ++ (a, r) :: post → r.msgs ≠ [] →
      ∃ c recipient coins m, a = .call c ∧ c.msg = .inr (.claim recipient) ∧
        Tx.Chain (FeeHook.ledger self) (s0, b0) pre m ∧ m.1.1.owner = some c.sender ∧
        r.msgs = [.bankSend (recipient.getD c.sender) coins] ∧
        (∀ d, amountOf d coins + left self d pre = Coins.amt b0 d + arrived d pre + amountOf d c.funds)) := by
  intro final log
  refine ⟨fun d => ledger_conserve (Tx.history_chain _ _ _) d, ?_⟩
  intro pre a r post hl hne
  obtain ⟨m, m', h1, h2, _⟩ := history_entry _ _ _ _ _ _ _ hl
  cases a with
  | gift coins =>
    obtain ⟨b, _, hf⟩ := bind_eq_ok.1 h2
    cases hf
    exact absurd rfl hne
  | call c =>
    obtain ⟨b, g1, h⟩ := bind_eq_ok.1 h2
    obtain ⟨p, g2, h⟩ := bind_eq_ok.1 h
    obtain ⟨b', g3, hf⟩ := bind_eq_ok.1 h
    cases hf
    obtain ⟨e, sender, funds, msg⟩ := c
    cases msg with
    | inl o =>
      obtain ⟨_, _, hp⟩ := execOwned_inl.1 g2
      rw [hp] at hne
      exact absurd rfl hne
    | inr msg =>
      obtain ⟨q, hq, hp⟩ := execOwned_inr.1 g2
      rw [hp] at hne ⊢
      cases msg with
      | setFee f =>
        obtain ⟨_, rfl⟩ := FeeHook.part_setFee.1 hq
        exact absurd rfl hne
      | postDispatch md bs =>
        obtain ⟨_, rfl⟩ := FeeHook.part_postDispatch.1 hq
        exact absurd rfl hne
      | claim recipient =>
        obtain ⟨ho, rfl⟩ := FeeHook.part_claim.1 hq
        refine ⟨_, recipient, Coins.toVec b, m, rfl, rfl, h1, ho, rfl, ?_⟩
        intro d
        rw [Coins.amountOf_toVec, Coins.addAll_ok g1 d]
        have := ledger_conserve h1 d
        simp only at this ⊢
        omega

namespace Ex

/-- A call of the fee hook. -/
def feeCall (sender : Addr) (funds : List Coin) (m : FeeHook.Msg) :
    Tx.Act (Ledger.Act HookEnv FeeHook.Msg) :=
  .call (.call ⟨⟨fun _ => true, [], fun _ _ _ => .ok [], fun _ => .ok []⟩, sender, funds, .inr m⟩) []

/-- Payments, a gift, a stranger's claim, which fails, a claim that is rolled back and a claim of the owner. -/
def feeTxs : List (List (Tx.Act (Ledger.Act HookEnv FeeHook.Msg))) :=
  [[feeCall "mailbox" [⟨"uosmo", 5⟩] (.postDispatch [] []), .call (.gift [⟨"uatom", 2⟩]) []],
   [feeCall "m" [] (.claim (some "m"))],
   [feeCall "o" [] (.claim none), .abort],
   [feeCall "mailbox" [⟨"uosmo", 7⟩] (.postDispatch [] []), feeCall "o" [] (.claim (some "bob"))]]

end Ex

example : ((Tx.history (FeeHook.ledger "self") ((Ownable.init "o", ⟨"uosmo", 5⟩), OMap.empty) Ex.feeTxs).2.map
    (fun e => e.2.msgs)) = [[], [], [], [.bankSend "bob" [⟨"uatom", 2⟩, ⟨"uosmo", 12⟩]]] := by decide +kernel

/-- **C49** for the paymaster. In every execution, with nested calls, aborts and rollbacks, starting with any balance:
nothing is created or lost in the account, and coins are sent only
* by claims of the account that is beneficiary at that time: one transfer to it of all of the gas token the account
  has got so far and has not sent before, and of nothing else; or
* by gas payments: one transfer, of gas token, of the surplus of the coin attached to that very call over the quote,
  to the refund address given in the call resp. determined by metadata and message.

So whatever is collected, i.e. the quote of every payment, leaves only by a claim: a step that is no claim never
lowers the balance. -/
theorem C49_paymaster (C : Codec) (self : Addr) (s0 : Ownable.State × Igp.State) (b0 : Coins)
    (txs : List (List (Tx.Act (Ledger.Act IgpEnv Igp.Msg)))) :
    let final := (Tx.history (Igp.ledger C self) (s0, b0) txs).1
    let log := (Tx.history (Igp.ledger C self) (s0, b0) txs).2
    (∀ d, Coins.amt final.2 d + left self d log = Coins.amt b0 d + arrived d log) ∧
    (∀ pre a r post, log = pre ++ (a, r) :: post → r.msgs ≠ [] →
      ∃ c m, a = .call c ∧ Tx.Chain (Igp.ledger C self) (s0, b0) pre m ∧
        ((c.msg = .inr .claim ∧ c.sender = Igp.getBeneficiary m.1 ∧
          ∃ n, r.msgs = [.bankSend c.sender [⟨s0.2.gasToken, n⟩]] ∧
            n + left self s0.2.gasToken pre =
              Coins.amt b0 s0.2.gasToken + arrived s0.2.gasToken pre + amountOf s0.2.gasToken c.funds) ∨
        ∃ n q d g to', ((∃ id, c.msg = .inr (.payForGas id d g to')) ∨
            ∃ md b, c.msg = .inr (.postDispatch md b) ∧ d = destOf b ∧ g = gasIn md (Igp.gasFor m.1.2 d) ∧
              refundAccount C m.1.2.hrp md b = some to') ∧
          c.funds = [⟨s0.2.gasToken, n⟩] ∧ q < n ∧ Igp.quoteGasPrice c.env.oracle m.1.2 d g = .ok q ∧
          r.msgs = [.bankSend to' [⟨s0.2.gasToken, n - q⟩]])) ∧
    (∀ pre a r post, log = pre ++ (a, r) :: post → (∀ c, a = .call c → c.msg ≠ .inr .claim) →
      ∀ d, leaving self d r.msgs ≤ arriving d a) := by
  intro final log
  have token : ∀ {pre m}, Tx.Chain (Igp.ledger C self) (s0, b0) pre m → m.1.2.gasToken = s0.2.gasToken := by
    intro pre m h1
    refine Tx.Chain.invariant (fun x => x.1.2.gasToken = s0.2.gasToken) ?_ h1 rfl
    intro x a x' r hx hstep
    cases a with
    | gift coins =>
      obtain ⟨b, _, hf⟩ := bind_eq_ok.1 hstep
      cases hf
      exact hx
    | call c =>
      obtain ⟨b, g1, h⟩ := bind_eq_ok.1 hstep
      obtain ⟨p, g2, h⟩ := bind_eq_ok.1 h
      obtain ⟨b', g3, hf⟩ := bind_eq_ok.1 h
      cases hf
      obtain ⟨e, sender, funds, msg⟩ := c
      cases msg with
      | inl o =>
        obtain ⟨_, _, hp⟩ := execOwned_inl.1 g2
        rw [hp]; exact hx
      | inr msg =>
        obtain ⟨q, hq, hp⟩ := execOwned_inr.1 g2
        rw [hp]
        change q.1.gasToken = _
        cases hk : igpCfg msg with
        | none => rw [Igp.part_rest (s' := q.1) (r := q.2) hk hq]; exact hx
        | some k =>
          have := ((Igp.part_cfg (s' := q.1) hk).1 ⟨q.2, hq⟩).2
          rw [← hx]
          generalize q.1 = q1 at this ⊢
          revert this
          cases k with
          | setBeneficiary a =>
            simp only [Igp.apply]
            split
            · intro h; cases h; rfl
            · intro h; cases h
          | router => intro h; cases h; rfl
          | setDefaultGas => intro h; cases h; rfl
          | setGasForDomain => intro h; cases h; rfl
          | unsetGasForDomain => intro h; cases h; rfl
          | postDispatch => intro h; cases h
          | payForGas => intro h; cases h
          | claim => intro h; cases h
  have main : ∀ pre a r post, log = pre ++ (a, r) :: post → r.msgs ≠ [] →
      ∃ c m, a = .call c ∧ Tx.Chain (Igp.ledger C self) (s0, b0) pre m ∧
        ((c.msg = .inr .claim ∧ c.sender = Igp.getBeneficiary m.1 ∧
          ∃ n, r.msgs = [.bankSend c.sender [⟨s0.2.gasToken, n⟩]] ∧
            n + left self s0.2.gasToken pre =
              Coins.amt b0 s0.2.gasToken + arrived s0.2.gasToken pre + amountOf s0.2.gasToken c.funds) ∨
        ∃ n q d g to', ((∃ id, c.msg = .inr (.payForGas id d g to')) ∨
            ∃ md b, c.msg = .inr (.postDispatch md b) ∧ d = destOf b ∧ g = gasIn md (Igp.gasFor m.1.2 d) ∧
              refundAccount C m.1.2.hrp md b = some to') ∧
          c.funds = [⟨s0.2.gasToken, n⟩] ∧ q < n ∧ Igp.quoteGasPrice c.env.oracle m.1.2 d g = .ok q ∧
          r.msgs = [.bankSend to' [⟨s0.2.gasToken, n - q⟩]]) := by
    intro pre a r post hl hne
    obtain ⟨m, m', h1, h2, _⟩ := history_entry _ _ _ _ _ _ _ hl
    have ht := token h1
    cases a with
    | gift coins =>
      obtain ⟨b, _, hf⟩ := bind_eq_ok.1 h2
      cases hf
      exact absurd rfl hne
    | call c =>
      obtain ⟨b, g1, h⟩ := bind_eq_ok.1 h2
      obtain ⟨p, g2, h⟩ := bind_eq_ok.1 h
      obtain ⟨b', g3, hf⟩ := bind_eq_ok.1 h
      cases hf
      refine ⟨c, m, rfl, h1, ?_⟩
      obtain ⟨e, sender, funds, msg⟩ := c
      have pay : ∀ d g to' (r' : Response),
          Igp.payForGas { e with balance := fun d => (b.get d).getD 0 } m.1.2 funds d g to' = .ok r' → r'.msgs ≠ [] →
          ∃ n q, funds = [⟨s0.2.gasToken, n⟩] ∧ q < n ∧
            Igp.quoteGasPrice e.oracle m.1.2 d g = .ok q ∧
            r'.msgs = [.bankSend to' [⟨s0.2.gasToken, n - q⟩]] := by
        intro d g to' r' hp hne'
        obtain ⟨n, q, k1, k2, k3, k4, rfl⟩ := Igp.payForGas_ok.1 hp
        rw [ht] at k1
        refine ⟨n, q, k1, ?_, k3, ?_⟩
        · simp only [Igp.refundMsgs] at hne'
          split at hne'
          · exact absurd rfl hne'
          · omega
        · simp only [Igp.refundMsgs, ht] at hne' ⊢
          split at hne'
          · exact absurd rfl hne'
          · rename_i hz
            rw [if_neg hz]
      cases msg with
      | inl o =>
        obtain ⟨_, _, hp⟩ := execOwned_inl.1 g2
        rw [hp] at hne
        exact absurd rfl hne
      | inr msg =>
        obtain ⟨q, hq, hp⟩ := execOwned_inr.1 g2
        rw [hp] at hne ⊢
        cases msg with
        | claim =>
          obtain ⟨r1, h3, hf⟩ := bind_eq_ok.1 hq
          cases hf
          obtain ⟨k1, rfl⟩ := Igp.claim_ok.1 h3
          refine .inl ⟨rfl, k1, Coins.amt b s0.2.gasToken, ?_, ?_⟩
          · have k1' : sender = m.1.2.beneficiary := k1
            simp only [ht, ← k1']; rfl
          · rw [Coins.addAll_ok g1]
            have := ledger_conserve h1 s0.2.gasToken
            simp only at this ⊢
            omega
        | postDispatch md bs =>
          obtain ⟨r1, h3, hf⟩ := bind_eq_ok.1 hq
          cases hf
          obtain ⟨mm, h4, h5⟩ := bind_eq_ok.1 h3
          obtain ⟨gg, h7, h6⟩ := bind_eq_ok.1 h5
          obtain ⟨j1, _, j3⟩ := (gasAndRefund_ok h4).1 h7
          obtain ⟨_, k2, _⟩ := decode_fields h4
          obtain ⟨n, q, hh⟩ := pay _ _ _ _ h6 hne
          exact .inr ⟨n, q, mm.dest, gg.1, gg.2, .inr ⟨md, bs, rfl, k2, j1, j3⟩, hh⟩
        | payForGas i d g to' =>
          obtain ⟨r1, h3, hf⟩ := bind_eq_ok.1 hq
          cases hf
          obtain ⟨n, q, hh⟩ := pay _ _ _ _ h3 hne
          exact .inr ⟨n, q, d, g, to', .inl ⟨i, rfl⟩, hh⟩
        | router mm =>
          obtain ⟨_, _, hf⟩ := bind_eq_ok.1 hq
          cases hf
          exact absurd rfl hne
        | setDefaultGas =>
          obtain ⟨_, _, hf⟩ := bind_eq_ok.1 hq
          cases hf
          exact absurd rfl hne
        | setGasForDomain =>
          obtain ⟨_, _, hf⟩ := bind_eq_ok.1 hq
          cases hf
          exact absurd rfl hne
        | unsetGasForDomain =>
          obtain ⟨_, _, hf⟩ := bind_eq_ok.1 hq
          cases hf
          exact absurd rfl hne
        | setBeneficiary =>
          obtain ⟨_, _, hh⟩ := bind_eq_ok.1 hq
          obtain ⟨_, _, hf⟩ := bind_eq_ok.1 hh
          cases hf
          exact absurd rfl hne
  refine ⟨fun d => ledger_conserve (Tx.history_chain _ _ _) d, main, ?_⟩
  intro pre a r post hl hnc d
  by_cases hne : r.msgs = []
  · rw [hne]; exact Nat.zero_le _
  · obtain ⟨c, m, rfl, _, h | ⟨n, q, _, _, to', _, h1, h2, _, h3⟩⟩ := main pre a r post hl hne
    · exact absurd h.1 (hnc c rfl)
    · rw [h3]
      simp only [leaving, arriving, h1, amountOf_cons, amountOf_nil]
      split <;> split <;> omega

namespace Ex

/-- A call of the paymaster. -/
def igpCall (sender : Addr) (funds : List Coin) (m : Igp.Msg) : Tx.Act (Ledger.Act IgpEnv Igp.Msg) :=
  .call (.call ⟨igpEnv, sender, funds, .inr m⟩) []

/-- Two payments, the second with a surplus; a claim of a stranger, which fails; a claim of the beneficiary. -/
def igpTxs : List (List (Tx.Act (Ledger.Act IgpEnv Igp.Msg))) :=
  [[igpCall "o" [] (.router (.setRoute (1, some "oracle")))],
   [igpCall "x" [⟨"uosmo", 15⟩] (.payForGas [] 1 2 "x"), igpCall "x" [⟨"uosmo", 40⟩] (.payForGas [] 1 4 "y")],
   [igpCall "o" [] .claim],
   [.attempt [igpCall "ben" [] .claim, .abort], igpCall "ben" [] .claim]]

end Ex

example : ((Tx.history (Igp.ledger Bech.codec "self") (Ex.igp0, OMap.empty) Ex.igpTxs).2.map
    (fun e => e.2.msgs)) =
    [[], [], [.bankSend "y" [⟨"uosmo", 10⟩]], [.bankSend "ben" [⟨"uosmo", 45⟩]]] := by decide +kernel

end Hpl
