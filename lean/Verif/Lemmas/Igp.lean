import Verif.Lemmas.Hooks
import Verif.Lemmas.Coins
import Verif.Spec.Igp

/-! Lemmas about the gas paymaster and the gas oracle. -/

namespace Hpl

open Spec

theorem mul256_ok {a b c : Nat} : mul256 a b = .ok c ↔ a * b < 2 ^ 256 ∧ c = a * b := by
  unfold mul256
  split
  · rename_i h
    simp only [Except.ok.injEq, h, true_and]
    exact eq_comm
  · rename_i h
    constructor
    · intro hc; cases hc
    · rintro ⟨h1, _⟩; exact absurd h1 h

/-- Writes a list of updates into a map. -/
def writeAll {κ ν : Type} [LinearOrder κ] (m : OMap κ ν) (l : List (κ × Option ν)) : OMap κ ν :=
  l.foldl (fun m x => match x.2 with
    | some a => m.insert x.1 a
    | none => m.erase x.1) m

section

variable {κ ν : Type} [LinearOrder κ]

theorem writeAll_append (m : OMap κ ν) (a b : List (κ × Option ν)) :
    writeAll m (a ++ b) = writeAll (writeAll m a) b := by simp [writeAll]

theorem get_writeAll (m : OMap κ ν) (l : List (κ × Option ν)) (k : κ) :
    (writeAll m l).get k = match lastFor k l with
      | some o => o
      | none => m.get k := by
  induction l using List.reverseRecOn with
  | nil => rfl
  | append_singleton t x ih =>
    rw [writeAll_append, lastFor_append, lastFor_singleton]
    obtain ⟨k', o⟩ := x
    cases o with
    | some a =>
      simp only [writeAll, List.foldl_cons, List.foldl_nil] at ih ⊢
      rw [OMap.get_insert, ih]
      by_cases h : k = k' <;> simp [h]
    | none =>
      simp only [writeAll, List.foldl_cons, List.foldl_nil] at ih ⊢
      rw [OMap.get_erase, ih]
      by_cases h : k = k' <;> simp [h]

theorem get_writeAll_empty [inst : DecidableEq κ] (l : List (κ × Option ν)) (k : κ) :
    (writeAll OMap.empty l).get k = (@lastFor κ ν inst k l).join := by
  have hi : inst = LinearOrder.toDecidableEq := Subsingleton.elim _ _
  subst hi
  rw [get_writeAll]
  rcases lastFor k l with _ | _ | a <;> simp

end

/-! ### Oracle -/

namespace Oracle

theorem setAll_eq (s : State) (l : List Config) :
    (∀ s', setAll s l = .ok s' → (∀ c ∈ l, c.rate ≠ 0) ∧
      s' = writeAll s (l.map (fun c => (c.domain, some ⟨c.rate, c.price⟩)))) ∧
    ((∀ c ∈ l, c.rate ≠ 0) → ∃ s', setAll s l = .ok s') := by
  induction l generalizing s with
  | nil => simp [setAll, writeAll]
  | cons c t ih =>
    constructor
    · intro s' h
      simp only [setAll] at h
      obtain ⟨_, h1, hf⟩ := bind_eq_ok.1 h
      have h1 := of_decide_eq_true (ensure_eq_ok.1 h1)
      obtain ⟨g1, g2⟩ := (ih _).1 s' hf
      refine ⟨by simpa [h1] using g1, ?_⟩
      rw [g2]
      simp [writeAll, insertGasData]
    · intro h
      obtain ⟨s', hs⟩ := (ih (insertGasData s c)).2 (fun c' hc => h c' (List.mem_cons_of_mem _ hc))
      refine ⟨s', ?_⟩
      have := h c List.mem_cons_self
      simp [setAll, this, hs]

theorem part_ok {valid : Addr → Bool} {own : Ownable.State} {s s' : State} {sender : Addr} {funds : List Coin}
    {m : Msg} {r : Response} :
    part valid own s sender funds m = .ok (s', r) ↔
      own.owner = some sender ∧ r = {} ∧ s' = writeAll s (oracleWrites m) ∧
        (∀ l, m = .setConfigs l → ∀ c ∈ l, c.rate ≠ 0) := by
  cases m with
  | setConfigs l =>
    unfold part
    rw [bind_eq_ok]
    constructor
    · rintro ⟨_, h1, h⟩
      obtain ⟨s1, h2, hf⟩ := bind_eq_ok.1 h
      obtain ⟨g1, rfl⟩ := (setAll_eq s l).1 s1 h2
      simp only [pure_eq_ok, Except.ok.injEq, Prod.mk.injEq] at hf
      refine ⟨onlyOwner_ok.1 h1, hf.2.symm, ?_, ?_⟩
      · rw [← hf.1]
        simp only [oracleWrites]
        rw [if_pos g1]
      · intro l' hl
        cases hl
        exact g1
    · rintro ⟨h1, rfl, rfl, h2⟩
      have h2 := h2 l rfl
      obtain ⟨s1, hs⟩ := (setAll_eq s l).2 h2
      obtain ⟨_, rfl⟩ := (setAll_eq s l).1 s1 hs
      refine ⟨(), onlyOwner_ok.2 h1, ?_⟩
      rw [hs]
      simp only [oracleWrites, ok_bind, pure_eq_ok]
      rw [if_pos h2]
  | setConfig c =>
    unfold part
    rw [bind_eq_ok]
    constructor
    · rintro ⟨_, h1, hf⟩
      simp only [pure_eq_ok, Except.ok.injEq, Prod.mk.injEq] at hf
      exact ⟨onlyOwner_ok.1 h1, hf.2.symm, hf.1.symm, by intro l hl; cases hl⟩
    · rintro ⟨h1, rfl, rfl, _⟩
      exact ⟨(), onlyOwner_ok.2 h1, rfl⟩

theorem run_state (own : Ownable.State) (s : State) (h : List (ExecCall (Addr → Bool) Msg)) :
    (run (stepOf execute) (own, s) h).2 =
      writeAll s ((ownerCalls id some own h).flatMap (fun x => oracleWrites x.2)) := by
  unfold execute
  classical
  rw [run_execOwned some (fun _ s m => if (∀ l, m = .setConfigs l → ∀ c ∈ l, c.rate ≠ 0)
    then .ok (writeAll s (oracleWrites m)) else .error (.err "zero rate"))]
  · generalize ownerCalls id some own h = c
    induction c using List.reverseRecOn with
    | nil => simp [writeAll]
    | append_singleton t x ih =>
      rw [run_snoc, ih, List.flatMap_append, writeAll_append]
      obtain ⟨e, m⟩ := x
      simp only [applyCall, List.flatMap_cons, List.flatMap_nil, List.append_nil]
      split
      · rename_i s' hs
        split at hs
        · cases hs; rfl
        · cases hs
      · rename_i hs
        split at hs
        · cases hs
        · rename_i hn
          cases m with
          | setConfigs l =>
            have : ¬ ∀ c ∈ l, c.rate ≠ 0 := by
              intro hc; apply hn; intro l' hl; cases hl; exact hc
            simp only [oracleWrites, if_neg this]
            rfl
          | setConfig c => exact absurd (by intro l hl; cases hl) hn
  · intro e own s sender funds m k s' hk
    simp only [Option.some.injEq] at hk
    subst hk
    simp only [part_ok]
    constructor
    · rintro ⟨r, h1, rfl, rfl, h2⟩
      exact ⟨h1, by rw [if_pos h2]⟩
    · rintro ⟨h1, h2⟩
      split at h2
      · rename_i h3
        cases h2
        exact ⟨{}, h1, rfl, rfl, h3⟩
      · cases h2
  · intro e own s sender funds m s' r hk
    cases hk

end Oracle

/-! ### Paymaster -/

namespace Igp

variable {C : Codec} {e : IgpEnv} {own : Ownable.State} {s : State} {sender : Addr} {funds : List Coin}

theorem quoteGasPrice_ok {oracle : Addr → UInt32 → Res Oracle.GasData} {dest : UInt32} {gas q : Nat} :
    quoteGasPrice oracle s dest gas = .ok q ↔
      ∃ a d, Router.getRoute s.routes dest = some a ∧ oracle a dest = .ok d ∧ gas * d.price < 2 ^ 256 ∧
        gas * d.price * d.rate < 2 ^ 256 ∧ q = gas * d.price * d.rate / 10 ^ 10 := by
  unfold quoteGasPrice
  rw [bind_eq_ok]
  have ho : ∀ a, oracleFor s dest = .ok a ↔ Router.getRoute s.routes dest = some a := by
    intro a
    unfold oracleFor
    cases Router.getRoute s.routes dest <;> simp
  constructor
  · rintro ⟨a, h1, h⟩
    obtain ⟨d, h2, h⟩ := bind_eq_ok.1 h
    obtain ⟨c, h3, h⟩ := bind_eq_ok.1 h
    obtain ⟨t, h4, hf⟩ := bind_eq_ok.1 h
    obtain ⟨h5, rfl⟩ := mul256_ok.1 h3
    obtain ⟨h6, rfl⟩ := mul256_ok.1 h4
    simp only [pure_eq_ok, Except.ok.injEq] at hf
    exact ⟨a, d, (ho a).1 h1, h2, h5, h6, hf.symm⟩
  · rintro ⟨a, d, h1, h2, h3, h4, rfl⟩
    refine ⟨a, (ho a).2 h1, ?_⟩
    rw [h2, ok_bind, mul256_ok.2 ⟨h3, rfl⟩, ok_bind, mul256_ok.2 ⟨h4, rfl⟩, ok_bind]
    rfl

theorem payForGas_ok {dest : UInt32} {gas : Nat} {refund : Addr} {r : Response} :
    payForGas e s funds dest gas refund = .ok r ↔
      ∃ n q, funds = [⟨s.gasToken, n⟩] ∧ n ≠ 0 ∧ quoteGasPrice e.oracle s dest gas = .ok q ∧ q ≤ n ∧
        r = { msgs := refundMsgs (n - q) s.gasToken refund } := by
  unfold payForGas
  rw [bind_eq_ok]
  constructor
  · rintro ⟨n, h1, h⟩
    obtain ⟨q, h2, h⟩ := bind_eq_ok.1 h
    obtain ⟨_, h3, hf⟩ := bind_eq_ok.1 h
    obtain ⟨h4, h5⟩ := mustPay_ok.1 h1
    simp only [pure_eq_ok, Except.ok.injEq] at hf
    exact ⟨n, q, h4, h5, h2, of_decide_eq_true (ensure_eq_ok.1 h3), hf.symm⟩
  · rintro ⟨n, q, h1, h2, h3, h4, rfl⟩
    refine ⟨n, mustPay_ok.2 ⟨h1, h2⟩, ?_⟩
    rw [h3]
    simp [h4]

theorem claim_ok {r : Response} :
    claim e s sender = .ok r ↔ sender = s.beneficiary ∧
      r = { msgs := [.bankSend s.beneficiary [⟨s.gasToken, e.balance s.gasToken⟩]] } := by
  unfold claim
  rw [bind_eq_ok]
  constructor
  · rintro ⟨_, h1, hf⟩
    simp only [pure_eq_ok, Except.ok.injEq] at hf
    exact ⟨of_decide_eq_true (ensure_eq_ok.1 h1), hf.symm⟩
  · rintro ⟨h1, rfl⟩
    exact ⟨(), by simp [h1], rfl⟩

/-- Effect of a setting by the owner. -/
def apply (e : IgpEnv) (s : State) : Msg → Res State
  | .router m => .ok { s with routes := Router.setRoutes s.routes (routesOf m) }
  | .setDefaultGas g => .ok { s with defaultGas := g }
  | .setGasForDomain l => .ok { s with gasFor := writeAll s.gasFor (gasUpdates (.setGasForDomain l)) }
  | .unsetGasForDomain l => .ok { s with gasFor := writeAll s.gasFor (gasUpdates (.unsetGasForDomain l)) }
  | .setBeneficiary a => if e.valid a then .ok { s with beneficiary := a } else .error (.err "invalid")
  | _ => .error (.err "not a setting")

theorem part_cfg {m k : Msg} {s' : State} (hk : igpCfg m = some k) :
    (∃ r, part C e own s sender funds m = .ok (s', r)) ↔ own.owner = some sender ∧ apply e s k = .ok s' := by
  have w1 : ∀ (l : List (UInt32 × Nat)) (g : OMap UInt32 Nat),
      l.foldl (fun m x => m.insert x.1 x.2) g = writeAll g (gasUpdates (.setGasForDomain l)) := by
    intro l
    induction l with
    | nil => intro g; rfl
    | cons x t ih => intro g; exact ih _
  have w2 : ∀ (l : List UInt32) (g : OMap UInt32 Nat),
      l.foldl (fun m x => m.erase x) g = writeAll g (gasUpdates (.unsetGasForDomain l)) := by
    intro l
    induction l with
    | nil => intro g; rfl
    | cons x t ih => intro g; exact ih _
  have ho : ∀ (f : State), (∃ r, (onlyOwner own sender >>= fun _ => pure (f, ({} : Response))) = .ok (s', r)) ↔
      own.owner = some sender ∧ (.ok f : Res State) = .ok s' := by
    intro f
    constructor
    · rintro ⟨r, h⟩
      obtain ⟨_, h1, hf⟩ := bind_eq_ok.1 h
      cases hf
      exact ⟨onlyOwner_ok.1 h1, rfl⟩
    · rintro ⟨h1, h2⟩
      cases h2
      exact ⟨{}, bind_eq_ok.2 ⟨(), onlyOwner_ok.2 h1, rfl⟩⟩
  cases m with
  | router m =>
    simp only [igpCfg, Option.some.injEq] at hk
    subst hk
    unfold part apply
    constructor
    · rintro ⟨r, h⟩
      obtain ⟨q, h1, hf⟩ := bind_eq_ok.1 h
      obtain ⟨h2, h3⟩ := Router.handle_ok.1 h1
      simp only [pure_eq_ok, Except.ok.injEq, Prod.mk.injEq] at hf
      refine ⟨h2, ?_⟩
      rw [← hf.1, h3]
      cases m <;> rfl
    · rintro ⟨h1, h2⟩
      simp only [Except.ok.injEq] at h2
      refine ⟨{}, bind_eq_ok.2 ⟨Router.setRoutes s.routes (routesOf m), Router.handle_ok.2 ⟨h1, ?_⟩, ?_⟩⟩
      · cases m <;> rfl
      · rw [← h2]; rfl
  | setDefaultGas g =>
    simp only [igpCfg, Option.some.injEq] at hk
    subst hk
    exact ho _
  | setGasForDomain l =>
    simp only [igpCfg, Option.some.injEq] at hk
    subst hk
    simp only [apply, ← w1]
    exact ho _
  | unsetGasForDomain l =>
    simp only [igpCfg, Option.some.injEq] at hk
    subst hk
    simp only [apply, ← w2]
    exact ho _
  | setBeneficiary a =>
    simp only [igpCfg, Option.some.injEq] at hk
    subst hk
    unfold part apply
    cases hv : e.valid a with
    | true =>
      constructor
      · rintro ⟨r, h⟩
        obtain ⟨_, h1, h⟩ := bind_eq_ok.1 h
        obtain ⟨_, _, hf⟩ := bind_eq_ok.1 h
        cases hf
        exact ⟨onlyOwner_ok.1 h1, by simp only [hv, if_true]⟩
      · rintro ⟨h1, h2⟩
        simp only [hv, if_true, Except.ok.injEq] at h2
        subst h2
        exact ⟨{}, bind_eq_ok.2 ⟨(), onlyOwner_ok.2 h1, by simp [hv]⟩⟩
    | false =>
      constructor
      · rintro ⟨r, h⟩
        obtain ⟨_, _, h⟩ := bind_eq_ok.1 h
        obtain ⟨_, h2, _⟩ := bind_eq_ok.1 h
        rw [hv] at h2
        cases ensure_eq_ok.1 h2
      · rintro ⟨_, h⟩
        simp only [hv, Bool.false_eq_true, if_false] at h
        cases h
  | postDispatch => cases hk
  | payForGas => cases hk
  | claim => cases hk

theorem part_rest {m : Msg} {s' : State} {r : Response} (hk : igpCfg m = none)
    (h : part C e own s sender funds m = .ok (s', r)) : s' = s := by
  cases m with
  | postDispatch md b =>
    obtain ⟨_, _, hf⟩ := bind_eq_ok.1 h
    cases hf; rfl
  | payForGas i d g a =>
    obtain ⟨_, _, hf⟩ := bind_eq_ok.1 h
    cases hf; rfl
  | claim =>
    obtain ⟨_, _, hf⟩ := bind_eq_ok.1 h
    cases hf; rfl
  | router => cases hk
  | setDefaultGas => cases hk
  | setGasForDomain => cases hk
  | unsetGasForDomain => cases hk
  | setBeneficiary => cases hk

theorem run_state (C : Codec) (own : Ownable.State) (s : State) (h : List (ExecCall IgpEnv Msg)) :
    (run (stepOf (execute C)) (own, s) h).2 =
      let l := ownerCalls IgpEnv.valid igpCfg own h
      { s with
        defaultGas := (l.flatMap (fun x => defaultGasOf x.2)).getLast?.getD s.defaultGas
        gasFor := writeAll s.gasFor (l.flatMap (fun x => gasUpdates x.2))
        beneficiary := (l.flatMap beneficiaryOf).getLast?.getD s.beneficiary
        routes := Router.setRoutes s.routes (l.flatMap (fun x => oracleUpdates x.2)) } := by
  unfold execute
  rw [run_execOwned igpCfg apply (fun _ _ _ _ _ _ _ _ hk => part_cfg hk)
    (fun _ _ _ _ _ _ _ _ hk hp => part_rest hk hp)]
  have hall : ∀ x ∈ ownerCalls IgpEnv.valid igpCfg own h, igpCfg x.2 = some x.2 := by
    intro x hx
    obtain ⟨m, hm⟩ := ownerCalls_mem hx
    revert hm
    cases m <;> simp only [igpCfg, Option.some.injEq, reduceCtorEq, false_implies] <;> intro hm <;> rw [← hm]
  revert hall
  generalize ownerCalls IgpEnv.valid igpCfg own h = c
  intro hall
  induction c using List.reverseRecOn with
  | nil => simp [writeAll, Router.setRoutes]
  | append_singleton t x ih =>
    rw [run_snoc, ih (fun y hy => hall y (List.mem_append_left _ hy))]
    have hx := hall x (by simp)
    obtain ⟨e, m⟩ := x
    simp only [List.flatMap_append, Router.setRoutes_append, writeAll_append]
    cases m with
    | router m => simp [applyCall, apply, oracleUpdates, defaultGasOf, gasUpdates, beneficiaryOf, writeAll]
    | setDefaultGas g =>
      simp [applyCall, apply, oracleUpdates, defaultGasOf, gasUpdates, beneficiaryOf, writeAll, Router.setRoutes]
    | setGasForDomain l =>
      simp [applyCall, apply, oracleUpdates, defaultGasOf, beneficiaryOf, Router.setRoutes]
    | unsetGasForDomain l =>
      simp [applyCall, apply, oracleUpdates, defaultGasOf, beneficiaryOf, Router.setRoutes]
    | setBeneficiary a =>
      by_cases hv : e.valid a = true <;>
        simp [applyCall, apply, oracleUpdates, defaultGasOf, gasUpdates, beneficiaryOf, writeAll,
          Router.setRoutes, hv]
    | postDispatch => cases hx
    | payForGas => cases hx
    | claim => cases hx

end Igp

end Hpl
