import Verif.Props.HookSystem
import Verif.Lemmas.MerkleHook
import Mathlib.Algebra.BigOperators.Group.Finset.Basic
import Mathlib.Algebra.BigOperators.Group.Finset.Piecewise

/-! # Coins and messages in any arrangement of hooks: C69, C70, C71 -/

namespace Hpl

open HookSystem Spec

variable {W : World}

/-! ### What a post-dispatch does -/

/-- What a contract at `self` did that post-dispatched: new contract and messages. -/
inductive Posted (W : World) (s : Sys) (self : Addr) (md b : Bytes) (funds : List Coin) :
    Contract → Contract → List OutMsg → Prop where
  | merkle {x t} (hl : MerkleSystem.latestId W.mb s.box x.mailbox = .ok (W.H b))
      (hi : Merkle.insert W.H x.tree (W.H b) = .ok t) :
      Posted W s self md b funds (.merkle x) (.merkle ⟨x.mailbox, t⟩) []
  | fee {x} : Posted W s self md b funds (.fee x) (.fee x) []
  | pausable {x} (hp : x.2 = false) : Posted W s self md b funds (.pausable x) (.pausable x) []
  | aggregate {x} {fees : List (List Coin)} (hf : x.2.length = fees.length) :
      Posted W s self md b funds (.aggregate x) (.aggregate x)
        ((x.2.zip fees).map (fun p => .execute p.1 (.postDispatch md b) p.2))
  | route {c y} (hn : ∀ x, c ≠ .merkle x) (ha : ∀ x, c ≠ .aggregate x)
      (hr : ∀ hooks : Contracts, hooks self = some c → ∀ z, RoutesTo hooks self (destOf b) (recipientOf b) z ↔ z = y) :
      Posted W s self md b funds c c [.execute y (.postDispatch md b) []]
  | igp {x} {n q : Nat} {dst : Addr} (hf : funds = [⟨x.2.gasToken, n⟩]) (hq : q ≤ n) :
      Posted W s self md b funds (.igp x) (.igp x) (Igp.refundMsgs (n - q) x.2.gasToken dst)

theorem routesTo_routing {hooks : Contracts} {a z : Addr} {d : UInt32} {r : Bytes}
    {s : Ownable.State × Router.State Addr} (h : hooks a = some (.routing s)) :
    RoutesTo hooks a d r z ↔ Router.getRoute s.2 d = some z := by
  constructor
  · intro hr
    cases hr with
    | routing hs hx => rw [h] at hs; cases hs; exact hx
    | fallbackRoute hs _ _ => rw [h] at hs; cases hs
    | fallback hs _ _ => rw [h] at hs; cases hs
    | custom hs _ => rw [h] at hs; cases hs
    | customRoute hs _ _ => rw [h] at hs; cases hs
  · exact fun hx => .routing h hx

theorem routesTo_fallback {hooks : Contracts} {a z : Addr} {d : UInt32} {r : Bytes}
    {s : Ownable.State × FallbackHook.State} (h : hooks a = some (.fallback s)) {f : Addr}
    (hf : s.2.fallback = some f) : RoutesTo hooks a d r z ↔ (Router.getRoute s.2.routes d).getD f = z := by
  constructor
  · intro hr
    cases hr with
    | routing hs hx => rw [h] at hs; cases hs
    | fallbackRoute hs _ hx => rw [h] at hs; cases hs; rw [hx]; rfl
    | fallback hs hf' hx => rw [h] at hs; cases hs; rw [hf] at hf'; cases hf'; rw [hx]; rfl
    | custom hs _ => rw [h] at hs; cases hs
    | customRoute hs _ _ => rw [h] at hs; cases hs
  · intro hx
    cases hg : Router.getRoute s.2.routes d with
    | none => rw [hg] at hx; cases hx; exact .fallback h hf hg
    | some y => rw [hg] at hx; cases hx; exact .fallbackRoute h hf hg

theorem routesTo_custom {hooks : Contracts} {a z : Addr} {d : UInt32} {r : Bytes}
    {s : Ownable.State × CustomHook.State} (h : hooks a = some (.custom s)) :
    RoutesTo hooks a d r z ↔
      ((s.2.custom.get (toLex (d, r))).or (Router.getRoute s.2.routes d)) = some z := by
  constructor
  · intro hr
    cases hr with
    | routing hs hx => rw [h] at hs; cases hs
    | fallbackRoute hs _ hx => rw [h] at hs; cases hs
    | fallback hs hf' hx => rw [h] at hs; cases hs
    | custom hs hx => rw [h] at hs; cases hs; rw [hx]; rfl
    | customRoute hs hn hx => rw [h] at hs; cases hs; rw [hn, hx]; rfl
  · intro hx
    cases hg : s.2.custom.get (toLex (d, r)) with
    | none => rw [hg] at hx; exact .customRoute h hg hx
    | some y => rw [hg] at hx; cases hx; exact .custom h hg

theorem posted {s : Sys} {caller self : Addr} {md b : Bytes} {funds : List Coin} {c c' : Contract} {r : Response}
    (h : HookSystem.postDispatch W s caller self md b funds c = .ok (c', r)) :
    Posted W s self md b funds c c' r.msgs := by
  cases c with
  | merkle x =>
    obtain ⟨⟨y, i⟩, h1, hf⟩ := bind_eq_ok.1 h
    cases hf
    obtain ⟨_, h2, _, h3, h4⟩ := MerkleHook.execute_ok.1 h1
    obtain ⟨mb, t⟩ := y
    simp only at h3 h4
    subst h3
    exact .merkle h2 h4
  | fee x =>
    obtain ⟨y, h1, hf⟩ := bind_eq_ok.1 h
    cases hf
    rw [FeeHook.execute, execOwned_inr] at h1
    obtain ⟨p, h2, rfl⟩ := h1
    obtain ⟨_, rfl⟩ := FeeHook.part_postDispatch.1 h2
    exact .fee
  | pausable x =>
    obtain ⟨y, h1, hf⟩ := bind_eq_ok.1 h
    cases hf
    rw [PausableHook.execute, execOwned_inr] at h1
    obtain ⟨p, h2, rfl⟩ := h1
    obtain ⟨h3, rfl⟩ := PausableHook.part_postDispatch.1 h2
    exact .pausable h3
  | aggregate x =>
    obtain ⟨y, h1, hf⟩ := bind_eq_ok.1 h
    cases hf
    rw [AggregateHook.execute, execOwned_inr] at h1
    obtain ⟨p, h2, rfl⟩ := h1
    obtain ⟨_, fees, h3, rfl⟩ := AggregateHook.part_postDispatch.1 h2
    exact .aggregate h3.length_eq
  | routing x =>
    obtain ⟨y, h1, hf⟩ := bind_eq_ok.1 h
    cases hf
    rw [RoutingHook.execute, execOwned_inr] at h1
    obtain ⟨p, h2, rfl⟩ := h1
    obtain ⟨hook, h3, rfl⟩ := RoutingHook.part_postDispatch.1 h2
    obtain ⟨m, hm, h4⟩ := bind_eq_ok.1 h3
    obtain ⟨_, hd, _⟩ := decode_fields hm
    rw [RoutingHook.found_ok, hd] at h4
    refine .route (by simp) (by simp) ?_
    intro hooks hs z
    rw [routesTo_routing hs, h4, Option.some.injEq, eq_comm]
  | fallback x =>
    obtain ⟨y, h1, hf⟩ := bind_eq_ok.1 h
    cases hf
    rw [FallbackHook.execute, execOwned_inr] at h1
    obtain ⟨p, h2, rfl⟩ := h1
    obtain ⟨hook, h3, rfl⟩ := FallbackHook.part_postDispatch.1 h2
    obtain ⟨m, hm, h4⟩ := bind_eq_ok.1 h3
    obtain ⟨f, h5, h4⟩ := bind_eq_ok.1 h4
    obtain ⟨_, hd, _⟩ := decode_fields hm
    simp only [pure_eq_ok, Except.ok.injEq, hd] at h4
    have hfb : x.2.fallback = some f := by
      unfold FallbackHook.loadFallback at h5
      cases hx : x.2.fallback with
      | none => rw [hx] at h5; cases h5
      | some g => rw [hx] at h5; cases h5; rfl
    refine .route (by simp) (by simp) ?_
    intro hooks hs z
    rw [routesTo_fallback hs hfb, h4, eq_comm]
  | custom x =>
    obtain ⟨y, h1, hf⟩ := bind_eq_ok.1 h
    cases hf
    rw [CustomHook.execute, execOwned_inr] at h1
    obtain ⟨p, h2, rfl⟩ := h1
    obtain ⟨hook, h3, rfl⟩ := CustomHook.part_postDispatch.1 h2
    obtain ⟨m, hm, h4⟩ := bind_eq_ok.1 h3
    obtain ⟨_, hd, hr⟩ := decode_fields hm
    refine .route (by simp) (by simp) ?_
    intro hooks hs z
    rw [routesTo_custom hs]
    unfold CustomHook.pick at h4
    rw [hd, hr] at h4
    cases hg : x.2.custom.get (toLex (destOf b, recipientOf b)) with
    | none =>
      rw [hg] at h4
      rw [RoutingHook.found_ok.1 h4]
      simp [eq_comm]
    | some y => rw [hg] at h4; cases h4; simp [eq_comm]
  | igp x =>
    obtain ⟨y, h1, hf⟩ := bind_eq_ok.1 h
    cases hf
    rw [Igp.execute, execOwned_inr] at h1
    obtain ⟨p, h2, rfl⟩ := h1
    obtain ⟨r, h3, hf⟩ := bind_eq_ok.1 h2
    cases hf
    obtain ⟨m, _, h4⟩ := bind_eq_ok.1 h3
    obtain ⟨g, _, h5⟩ := bind_eq_ok.1 h4
    obtain ⟨n, q, h6, _, _, h7, rfl⟩ := Igp.payForGas_ok.1 h5
    exact .igp h6 h7
  | oracle x => cases h

theorem step_execute {s : Sys} {src a : Addr} {md b : Bytes} {f : List Coin} {y : Sys × List (Addr × OutMsg)}
    (h : stepMsg W s src (.execute a (.postDispatch md b) f) = .ok y) :
    ∃ k c c' msgs, pay s.bank src a f = .ok k ∧ s.hooks a = some c ∧
      Posted W { s with bank := k } a md b f c c' msgs ∧
      y = ({ s with bank := k, hooks := store s.hooks a c' }, msgs.map (fun o => (a, o))) := by
  obtain ⟨k, h1, h⟩ := bind_eq_ok.1 h
  obtain ⟨c, h2, h⟩ := bind_eq_ok.1 h
  obtain ⟨⟨c', r⟩, h3, hf⟩ := bind_eq_ok.1 h
  cases hf
  refine ⟨k, c, c', r.msgs, h1, ?_, posted h3, rfl⟩
  unfold contractAt at h2
  cases hx : s.hooks a with
  | none => rw [hx] at h2; cases h2
  | some z => rw [hx] at h2; cases h2; rfl

theorem step_bankSend {s : Sys} {src a : Addr} {f : List Coin} {y : Sys × List (Addr × OutMsg)}
    (h : stepMsg W s src (.bankSend a f) = .ok y) :
    ∃ k, pay s.bank src a f = .ok k ∧ y = ({ s with bank := k }, []) := by
  obtain ⟨k, h1, hf⟩ := bind_eq_ok.1 h
  cases hf
  exact ⟨k, h1, rfl⟩

/-! ### Coins -/

theorem pay_moves {k k' : Bank} {src dst : Addr} {l : List Coin} (h : pay k src dst l = .ok k') (a : Addr) (d : String) :
    k' a d + (if a = src then amountOf d l else 0) = k a d + (if a = dst then amountOf d l else 0) := by
  induction l generalizing k with
  | nil => cases h; simp
  | cons c t ih =>
    obtain ⟨k1, h1, h2⟩ := bind_eq_ok.1 h
    have e2 := ih h2
    have hle : c.amount ≤ k src c.denom := by
      unfold payCoin at h1
      split at h1
      · assumption
      · cases h1
    obtain ⟨k1', h3, e1⟩ := payCoin_ok (dst := dst) hle
    rw [h1] at h3
    cases h3
    have e1 := e1 a d
    have hc : amountOf d (c :: t) = amountOf d [c] + amountOf d t := amountOf_append d [c] t
    rw [hc]
    split_ifs at e1 e2 ⊢ <;> omega

/-- Coins of denomination `d` that pending messages of `a` carry. -/
def pending (a : Addr) (d : String) (l : List (Addr × OutMsg)) : Nat :=
  outflow d ((l.filter (fun m => m.1 = a)).map (·.2))

theorem outflow_append (d : String) (l t : List OutMsg) : outflow d (l ++ t) = outflow d l + outflow d t := by
  induction l with
  | nil => simp [outflow]
  | cons o l ih => cases o <;> simp [outflow, ih, Nat.add_assoc]

theorem pending_append (a : Addr) (d : String) (l t : List (Addr × OutMsg)) :
    pending a d (l ++ t) = pending a d l + pending a d t := by simp [pending, outflow_append]

theorem pending_cons (a : Addr) (d : String) (src : Addr) (o : OutMsg) (t : List (Addr × OutMsg)) :
    pending a d ((src, o) :: t) = (if a = src then outflow d [o] else 0) + pending a d t := by
  unfold pending
  by_cases h : a = src
  · subst h
    have := outflow_append d [o] (t.filter (fun m => m.1 = a) |>.map (·.2))
    simpa using this
  · have h' : ¬ src = a := fun e => h e.symm
    simp [h, h']

theorem pending_map (x a : Addr) (d : String) (l : List OutMsg) :
    pending x d (l.map (fun o => (a, o))) = if x = a then outflow d l else 0 := by
  unfold pending
  by_cases h : x = a
  · subst h
    simp [List.filter_map, Function.comp_def]
  · have h' : ¬ a = x := fun e => h e.symm
    simp [h, h', List.filter_map, Function.comp_def, outflow]

/-- Unless it is an aggregate hook, a contract sends no more coins than it got. -/
theorem Posted.outflow_le {s : Sys} {self : Addr} {md b : Bytes} {funds : List Coin} {c c' : Contract}
    {msgs : List OutMsg} (h : Posted W s self md b funds c c' msgs) (hn : ∀ x, c ≠ .aggregate x) (d : String) :
    outflow d msgs ≤ amountOf d funds := by
  cases h with
  | merkle _ _ => simp [outflow]
  | fee => simp [outflow]
  | pausable _ => simp [outflow]
  | aggregate _ => exact absurd rfl (hn _)
  | route _ _ _ => simp [outflow, amountOf]
  | igp hf hq =>
    subst hf
    unfold Igp.refundMsgs
    split
    · simp [outflow]
    · simp only [outflow, amountOf_one]
      split_ifs <;> omega

/-- The kind of contract stays the same. -/
theorem Posted.aggregate_iff {s : Sys} {self : Addr} {md b : Bytes} {funds : List Coin} {c c' : Contract}
    {msgs : List OutMsg} (h : Posted W s self md b funds c c' msgs) :
    (∀ x, c ≠ .aggregate x) → ∀ x, c' ≠ .aggregate x := by
  cases h <;> first | (intro _ x hx; cases hx; done) | exact id

theorem run_account {gas : Nat} {s s' : Sys} {l : List (Addr × OutMsg)} (h : runMsgs W gas s l = .ok s') {a : Addr}
    (ha : ∀ x, s.hooks a ≠ some (.aggregate x)) (d : String) : s.bank a d ≤ s'.bank a d + pending a d l := by
  induction gas generalizing s l with
  | zero =>
    cases l with
    | nil => cases h; omega
    | cons m t => cases h
  | succ n ih =>
    cases l with
    | nil => cases h; omega
    | cons m t =>
      obtain ⟨src, o⟩ := m
      obtain ⟨y, h1, h2⟩ := bind_eq_ok.1 h
      rw [pending_cons]
      cases o with
      | execute dst p f =>
        cases p with
        | postDispatch md b =>
          obtain ⟨k, c, c', msgs, h3, h4, h5, rfl⟩ := step_execute h1
          have e1 := ih h2 (by
            intro x
            simp only [store]
            split
            · rename_i e
              subst e
              intro hx
              refine h5.aggregate_iff ?_ x (Option.some.inj hx)
              intro z hz
              exact ha z (by rw [h4, hz])
            · exact ha x)
          rw [pending_append, pending_map] at e1
          have e2 := pay_moves h3 a d
          simp only [outflow, Nat.add_zero]
          simp only at e1
          by_cases hd : a = dst
          · have := h5.outflow_le (by intro z hz; exact ha z (by rw [hd, h4, hz])) d
            rw [if_pos hd] at e1 e2
            split_ifs at e2 ⊢ <;> omega
          · rw [if_neg hd] at e1 e2
            split_ifs at e2 ⊢ <;> omega
        | _ => cases h1
      | bankSend dst f =>
        obtain ⟨k, h3, rfl⟩ := step_bankSend h1
        have e1 := ih h2 ha
        have e2 := pay_moves h3 a d
        simp only [outflow, Nat.add_zero, List.nil_append] at e1 ⊢
        split_ifs at e2 ⊢ <;> omega
      | _ => cases h1

open Finset in
/-- Coins only change hands: outside of the accounts `A` nothing happens, and together they have what they had. -/
def Redistributed (A : Finset Addr) (k k' : Bank) : Prop :=
  ∀ d, (∀ a, a ∉ A → k' a d = k a d) ∧ ∀ B, A ⊆ B → ∑ a ∈ B, k' a d = ∑ a ∈ B, k a d

theorem Redistributed.refl (k : Bank) : Redistributed ∅ k k := fun _ => ⟨fun _ _ => rfl, fun _ _ => rfl⟩

theorem Redistributed.trans {A A' : Finset Addr} {k k' k'' : Bank} (h1 : Redistributed A k k')
    (h2 : Redistributed A' k' k'') : Redistributed (A ∪ A') k k'' := by
  intro d
  obtain ⟨u1, v1⟩ := h1 d
  obtain ⟨u2, v2⟩ := h2 d
  refine ⟨?_, ?_⟩
  · intro a ha
    rw [Finset.mem_union, not_or] at ha
    rw [u2 a ha.2, u1 a ha.1]
  · intro B hB
    rw [v2 B (Finset.union_subset_right hB), v1 B (Finset.union_subset_left hB)]

theorem pay_redistributed {k k' : Bank} {src dst : Addr} {l : List Coin} (h : pay k src dst l = .ok k') :
    Redistributed {src, dst} k k' := by
  intro d
  have e := fun a => pay_moves h a d
  refine ⟨?_, ?_⟩
  · intro a ha
    simp only [Finset.mem_insert, Finset.mem_singleton, not_or] at ha
    have := e a
    rw [if_neg ha.1, if_neg ha.2] at this
    exact this
  · intro B hB
    have hs : src ∈ B := hB (by simp)
    have hd : dst ∈ B := hB (by simp)
    have := Finset.sum_congr (s₁ := B) rfl (fun a _ => e a)
    rw [Finset.sum_add_distrib, Finset.sum_add_distrib, Finset.sum_ite_eq' B src, Finset.sum_ite_eq' B dst,
      if_pos hs, if_pos hd] at this
    omega

theorem run_redistributed {gas : Nat} {s s' : Sys} {l : List (Addr × OutMsg)} (h : runMsgs W gas s l = .ok s') :
    ∃ A, Redistributed A s.bank s'.bank := by
  induction gas generalizing s l with
  | zero =>
    cases l with
    | nil => cases h; exact ⟨∅, .refl _⟩
    | cons m t => cases h
  | succ n ih =>
    cases l with
    | nil => cases h; exact ⟨∅, .refl _⟩
    | cons m t =>
      obtain ⟨src, o⟩ := m
      obtain ⟨y, h1, h2⟩ := bind_eq_ok.1 h
      obtain ⟨A, hA⟩ := ih h2
      cases o with
      | execute dst p f =>
        cases p with
        | postDispatch md b =>
          obtain ⟨k, c, c', msgs, h3, h4, h5, rfl⟩ := step_execute h1
          exact ⟨_, (pay_redistributed h3).trans hA⟩
        | _ => cases h1
      | bankSend dst f =>
        obtain ⟨k, h3, rfl⟩ := step_bankSend h1
        exact ⟨_, (pay_redistributed h3).trans hA⟩
      | _ => cases h1

/-- **C69.** Whatever hooks a mailbox has, however they are connected and whoever they belong to: a dispatch neither
makes nor destroys coins, the sender loses at most what it attached, and no other account loses anything, unless it is
that of an aggregate hook (which pays quotes from its account, C66). -/
theorem C69_dispatch_coins {W : World} {gas : Nat} {s s' : Sys} {sender : Addr} {funds : List Coin} {q : DispatchMsg}
    (h : HookSystem.dispatch W gas s sender funds q = .ok s') :
    (∃ A : Finset Addr, ∀ d, (∀ a, a ∉ A → s'.bank a d = s.bank a d) ∧
      ∑ a ∈ A, s'.bank a d = ∑ a ∈ A, s.bank a d) ∧
    (∀ a d, (∀ x, s.hooks a ≠ some (.aggregate x)) →
      s.bank a d ≤ s'.bank a d + if a = sender then amountOf d funds else 0) := by
  obtain ⟨k, h1, h⟩ := bind_eq_ok.1 h
  obtain ⟨⟨box, r⟩, h2, h3⟩ := bind_eq_ok.1 h
  refine ⟨?_, ?_⟩
  · obtain ⟨A, hA⟩ := run_redistributed h3
    have := (pay_redistributed h1).trans hA
    exact ⟨_, fun d => ⟨(this d).1, (this d).2 _ (Finset.Subset.refl _)⟩⟩
  · intro a d ha
    have e1 := run_account h3 (a := a) ha d
    have e2 := pay_moves h1 a d
    obtain ⟨h32, dflt, hook, required, fees, attached, rest, n, _, _, _, _, _, _, g1, g2, _, _, rfl⟩ :=
      Mailbox.dispatch_ok.1 h2
    rw [pending_map] at e1
    simp only [outflow, Nat.add_zero] at e1
    have e3 : Coins.amt attached d = amountOf d funds := Coins.tryFrom_ok g1 d
    have e4 := Coins.subAll_ok g2 d
    rw [Coins.amountOf_toVec] at e1
    split_ifs at e1 e2 ⊢ <;> omega

/-- The same for a call of a hook by anybody. -/
theorem C69_hook_call_coins {W : World} {gas : Nat} {s s' : Sys} {sender hook : Addr} {md b : Bytes} {funds : List Coin}
    (h : callHook W gas s sender hook md b funds = .ok s') :
    (∃ A : Finset Addr, ∀ d, (∀ a, a ∉ A → s'.bank a d = s.bank a d) ∧
      ∑ a ∈ A, s'.bank a d = ∑ a ∈ A, s.bank a d) ∧
    (∀ a d, (∀ x, s.hooks a ≠ some (.aggregate x)) →
      s.bank a d ≤ s'.bank a d + if a = sender then amountOf d funds else 0) := by
  refine ⟨?_, ?_⟩
  · obtain ⟨A, hA⟩ := run_redistributed h
    exact ⟨_, fun d => ⟨(hA d).1, (hA d).2 _ (Finset.Subset.refl _)⟩⟩
  · intro a d ha
    have e1 := run_account h (a := a) ha d
    rw [pending_cons] at e1
    simpa [pending, outflow] using e1

/-! ### Which hooks are called -/

/-- Contracts that differ in merkle trees only. -/
def Alike (x y : Contracts) : Prop := ∀ a,
  x a = y a ∨ ∃ s t, x a = some (.merkle s) ∧ y a = some (.merkle t)

theorem Alike.symm {x y : Contracts} (h : Alike x y) : Alike y x := by
  intro a
  rcases h a with h | ⟨s, t, h1, h2⟩
  · exact .inl h.symm
  · exact .inr ⟨t, s, h2, h1⟩

theorem Alike.same {x y : Contracts} (h : Alike x y) {a : Addr} {c : Contract} (hc : x a = some c)
    (hn : ∀ s, c ≠ .merkle s) : y a = some c := by
  rcases h a with h | ⟨s, t, h1, h2⟩
  · rw [← h, hc]
  · rw [hc] at h1
    exact absurd (Option.some.inj h1) (hn s)

theorem Alike.routesTo {x y : Contracts} (h : Alike x y) {a z : Addr} {d : UInt32} {r : Bytes}
    (hr : RoutesTo x a d r z) : RoutesTo y a d r z := by
  cases hr with
  | routing hs hx => exact .routing (h.same hs (by intro s; simp)) hx
  | fallbackRoute hs hf hx => exact .fallbackRoute (h.same hs (by intro s; simp)) hf hx
  | fallback hs hf hx => exact .fallback (h.same hs (by intro s; simp)) hf hx
  | custom hs hx => exact .custom (h.same hs (by intro s; simp)) hx
  | customRoute hs hn hx => exact .customRoute (h.same hs (by intro s; simp)) hn hx

theorem Alike.reaches {x y : Contracts} (h : Alike x y) {a z : Addr} {b : Bytes} (hr : Reaches x b a z) :
    Reaches y b a z := by
  induction hr with
  | here a => exact .here a
  | member hs hm _ ih => exact .member (h.same hs (by intro s; simp)) hm ih
  | route hm _ ih => exact .route (h.routesTo hm) ih

theorem RoutesTo.kind {x : Contracts} {a z : Addr} {d : UInt32} {r : Bytes} (hr : RoutesTo x a d r z) :
    ∃ c, x a = some c ∧ (∀ s, c ≠ .merkle s) ∧ (∀ s, c ≠ .fee s) ∧ (∀ s, c ≠ .pausable s) ∧
      (∀ s, c ≠ .aggregate s) ∧ (∀ s, c ≠ .igp s) := by
  cases hr <;> exact ⟨_, by assumption, by simp, by simp, by simp, by simp, by simp⟩

/-- Hooks reached from pending messages. -/
def ReachedFrom (hooks : Contracts) (b : Bytes) (l : List (Addr × OutMsg)) (x : Addr) : Prop :=
  ∃ m ∈ l, ∃ dst md f, m.2 = .execute dst (.postDispatch md b) f ∧ Reaches hooks b dst x

theorem Reaches.step {s : Sys} {self : Addr} {md b : Bytes} {funds : List Coin} {c c' : Contract} {msgs : List OutMsg}
    {hooks : Contracts} (h : Posted W s self md b funds c c' msgs) (hc : hooks self = some c) (x : Addr) :
    Reaches hooks b self x ↔ x = self ∨ ReachedFrom hooks b (msgs.map (fun o => (self, o))) x := by
  constructor
  · intro hr
    cases hr with
    | here => exact .inl rfl
    | member hs hm hx =>
      rename_i m y
      rw [hc] at hs
      cases hs
      cases h with
      | aggregate hf =>
        rename_i fees
        refine .inr ?_
        obtain ⟨i, hi, rfl⟩ := List.getElem_of_mem hm
        refine ⟨(self, .execute y.2[i] (.postDispatch md b) (fees[i]'(by omega))), ?_, y.2[i], md, fees[i]'(by omega),
          rfl, hx⟩
        refine List.mem_map.2 ⟨_, List.mem_map.2 ⟨(y.2[i], fees[i]'(by omega)), ?_, rfl⟩, rfl⟩
        rw [List.mem_iff_getElem]
        exact ⟨i, by simp; omega, by simp⟩
      | route hn ha hr => exact absurd rfl (ha _)
    | route hm hx =>
      rename_i m
      obtain ⟨c2, k1, k2, k3, k4, k5, k6⟩ := RoutesTo.kind hm
      rw [hc] at k1
      cases k1
      cases h with
      | merkle _ _ => exact absurd rfl (k2 _)
      | fee => exact absurd rfl (k3 _)
      | pausable _ => exact absurd rfl (k4 _)
      | aggregate _ => exact absurd rfl (k5 _)
      | igp _ _ => exact absurd rfl (k6 _)
      | route hn ha hr =>
        have := (hr hooks hc m).1 hm
        subst this
        exact .inr ⟨(self, .execute m (.postDispatch md b) []), by simp, m, md, [], rfl, hx⟩
  · rintro (rfl | ⟨o, ho, dst, md', f, e, hx⟩)
    · exact .here _
    · obtain ⟨o', ho', rfl⟩ := List.mem_map.1 ho
      simp only at e
      subst e
      cases h with
      | merkle _ _ => cases ho'
      | fee => cases ho'
      | pausable _ => cases ho'
      | aggregate hf =>
        obtain ⟨p, hp, e⟩ := List.mem_map.1 ho'
        cases e
        exact .member hc (List.of_mem_zip hp).1 hx
      | igp _ _ =>
        unfold Igp.refundMsgs at ho'
        split at ho' <;> simp at ho'
      | route hn ha hr =>
        simp only [List.mem_singleton, OutMsg.execute.injEq, Payload.postDispatch.injEq] at ho'
        obtain ⟨rfl, _, _⟩ := ho'
        exact .route ((hr hooks hc _).2 rfl) hx

theorem Recorded.cons {H : Bytes → Bytes} {id : Bytes} {r t t' : Merkle.Tree} {n : Nat}
    (hi : Merkle.insert H r id = .ok t) (h : Recorded H id t n t') : Recorded H id r (n + 1) t' := by
  induction h with
  | none => exact .more (.none r) hi
  | more _ hi' ih => exact .more ih hi'

/-- The messages that follow from a post-dispatch are post-dispatches of the same message, or refunds. -/
def Same (b : Bytes) (l : List (Addr × OutMsg)) : Prop :=
  ∀ m ∈ l, (∃ dst md f, m.2 = .execute dst (.postDispatch md b) f) ∨ ∃ dst f, m.2 = .bankSend dst f

theorem Posted.same {s : Sys} {self : Addr} {md b : Bytes} {funds : List Coin} {c c' : Contract} {msgs : List OutMsg}
    (h : Posted W s self md b funds c c' msgs) : Same b (msgs.map (fun o => (self, o))) := by
  intro m hm
  obtain ⟨o, ho, rfl⟩ := List.mem_map.1 hm
  cases h with
  | merkle _ _ => cases ho
  | fee => cases ho
  | pausable _ => cases ho
  | aggregate hf =>
    obtain ⟨p, hp, e⟩ := List.mem_map.1 ho
    exact .inl ⟨_, _, _, e.symm⟩
  | igp _ _ =>
    unfold Igp.refundMsgs at ho
    split at ho
    · cases ho
    · simp only [List.mem_singleton] at ho
      exact .inr ⟨_, _, ho⟩
  | route hn ha hr =>
    simp only [List.mem_singleton] at ho
    exact .inl ⟨_, _, _, ho⟩

theorem Posted.alike {s : Sys} {self : Addr} {md b : Bytes} {funds : List Coin} {c c' : Contract} {msgs : List OutMsg}
    (h : Posted W s self md b funds c c' msgs) {hooks : Contracts} (hc : hooks self = some c) :
    Alike hooks (store hooks self c') := by
  intro a
  by_cases ha : a = self
  · subst ha
    simp only [store, if_true]
    cases h with
    | merkle _ _ => exact .inr ⟨_, _, hc, rfl⟩
    | _ => exact .inl hc
  · simp [store, ha]

theorem Posted.inService {s : Sys} {self : Addr} {md b : Bytes} {funds : List Coin} {c c' : Contract}
    {msgs : List OutMsg} (h : Posted W s self md b funds c c' msgs) : InService W c := by
  cases h with
  | merkle hl _ =>
    unfold MerkleSystem.latestId at hl
    split at hl
    · assumption
    · cases hl
  | fee => trivial
  | pausable hp => exact hp
  | aggregate _ => trivial
  | igp _ _ => trivial
  | route hn ha hr =>
    rename_i y
    have h1 := (hr (fun _ => some c) rfl y).2 rfl
    cases h1 with
    | routing hs _ => cases hs; trivial
    | fallbackRoute hs hf _ =>
      cases hs
      simp only [InService, hf]
      simp
    | fallback hs hf _ =>
      cases hs
      simp only [InService, hf]
      simp
    | custom hs _ => cases hs; trivial
    | customRoute hs _ _ => cases hs; trivial

theorem run_visits {gas : Nat} {s s' : Sys} {l : List (Addr × OutMsg)} {b : Bytes} (h : runMsgs W gas s l = .ok s')
    (hl : Same b l) :
    (∀ x, ReachedFrom s.hooks b l x → ∃ c, s.hooks x = some c ∧ InService W c) ∧
    (∀ a y, s.hooks a = some (.merkle y) → ∃ n t, s'.hooks a = some (.merkle ⟨y.mailbox, t⟩) ∧
      Recorded W.H (W.H b) y.tree n t ∧ (n ≠ 0 ↔ ReachedFrom s.hooks b l a)) ∧
    (∀ a, (∀ y, s.hooks a ≠ some (.merkle y)) → s'.hooks a = s.hooks a) ∧ s'.box = s.box := by
  have base : ∀ s : Sys, (∀ x, ReachedFrom s.hooks b [] x → ∃ c, s.hooks x = some c ∧ InService W c) ∧
      (∀ a y, s.hooks a = some (.merkle y) → ∃ n t, s.hooks a = some (.merkle ⟨y.mailbox, t⟩) ∧
        Recorded W.H (W.H b) y.tree n t ∧ (n ≠ 0 ↔ ReachedFrom s.hooks b [] a)) ∧
      (∀ a, (∀ y, s.hooks a ≠ some (.merkle y)) → s.hooks a = s.hooks a) ∧ s.box = s.box := by
    intro s
    have hno : ∀ x, ¬ ReachedFrom s.hooks b [] x := by
      rintro x ⟨m, hm, _⟩
      cases hm
    refine ⟨fun x hx => absurd hx (hno x), ?_, fun _ _ => rfl, rfl⟩
    intro a y hy
    exact ⟨0, y.tree, hy, .none _, by simpa using hno a⟩
  induction gas generalizing s l with
  | zero =>
    cases l with
    | nil => cases h; exact base _
    | cons m t => cases h
  | succ n ih =>
    cases l with
    | nil => cases h; exact base _
    | cons m t =>
      obtain ⟨src, o⟩ := m
      obtain ⟨y, h1, h2⟩ := bind_eq_ok.1 h
      have ht : Same b t := fun m hm => hl m (List.mem_cons_of_mem _ hm)
      have happ : ∀ (hooks : Contracts) (u v : List (Addr × OutMsg)) (x : Addr),
          ReachedFrom hooks b (u ++ v) x ↔ ReachedFrom hooks b u x ∨ ReachedFrom hooks b v x := by
        intro hooks u v x
        simp only [ReachedFrom, List.mem_append, or_and_right, exists_or]
      rcases hl (src, o) (by simp) with ⟨dst, md, f, e⟩ | ⟨dst, f, e⟩
      · simp only at e
        subst e
        obtain ⟨k, c, c', msgs, h3, h4, h5, rfl⟩ := step_execute h1
        have hal := h5.alike h4
        obtain ⟨i1, i2, i3, i4⟩ := ih h2 (by
          intro m hm
          rcases List.mem_append.1 hm with hm | hm
          · exact h5.same m hm
          · exact ht m hm)
        simp only at i1 i2 i3 i4
        have htr : ∀ (u : List (Addr × OutMsg)) (x : Addr),
            ReachedFrom (store s.hooks dst c') b u x ↔ ReachedFrom s.hooks b u x := by
          intro u x
          constructor
          · rintro ⟨m, hm, d, md, f, e, hx⟩
            exact ⟨m, hm, d, md, f, e, hal.symm.reaches hx⟩
          · rintro ⟨m, hm, d, md, f, e, hx⟩
            exact ⟨m, hm, d, md, f, e, hal.reaches hx⟩
        have hhead : ∀ x, ReachedFrom s.hooks b ((src, .execute dst (.postDispatch md b) f) :: t) x ↔
            x = dst ∨ ReachedFrom s.hooks b (msgs.map (fun o => (dst, o)) ++ t) x := by
          intro x
          rw [happ, ← or_assoc, ← Reaches.step h5 h4]
          constructor
          · rintro ⟨m, hm, d, md', f', e, hx⟩
            rcases List.mem_cons.1 hm with rfl | hm
            · simp only [OutMsg.execute.injEq] at e
              obtain ⟨rfl, _, _⟩ := e
              exact .inl hx
            · exact .inr ⟨m, hm, d, md', f', e, hx⟩
          · rintro (hx | ⟨m, hm, d, md', f', e, hx⟩)
            · exact ⟨(src, .execute dst (.postDispatch md b) f), by simp, dst, md, f, rfl, hx⟩
            · exact ⟨m, by simp [hm], d, md', f', e, hx⟩
        refine ⟨?_, ?_, ?_, i4⟩
        · intro x hx
          rcases (hhead x).1 hx with rfl | hx
          · exact ⟨c, h4, h5.inService⟩
          · obtain ⟨c2, j1, j2⟩ := i1 x ((htr _ x).2 hx)
            rcases hal x with e | ⟨s1, s2, e1, e2⟩
            · exact ⟨c2, by rw [e, j1], j2⟩
            · by_cases hxd : x = dst
              · subst hxd
                exact ⟨c, h4, h5.inService⟩
              · simp only [store, hxd, if_false] at j1
                exact ⟨c2, j1, j2⟩
        · intro a y hy
          by_cases ha : a = dst
          · subst ha
            rw [h4] at hy
            cases hy
            cases h5 with
            | merkle hlast hi =>
              rename_i t1
              obtain ⟨n, t2, k1, k2, k3⟩ := i2 a ⟨y.mailbox, t1⟩ (by simp [store])
              refine ⟨n + 1, t2, k1, Recorded.cons hi k2, ?_⟩
              simp only [ne_eq, Nat.add_eq_zero_iff, one_ne_zero, and_false, not_false_eq_true, true_iff]
              exact (hhead a).2 (.inl rfl)
            | route hn _ _ => exact absurd rfl (hn _)
          · obtain ⟨n, t2, k1, k2, k3⟩ := i2 a y (by simpa [store, ha] using hy)
            refine ⟨n, t2, k1, k2, ?_⟩
            rw [k3, htr, hhead]
            simp [ha]
        · intro a hn
          have e : store s.hooks dst c' a = s.hooks a := by
            rcases hal a with e | ⟨s1, s2, e1, e2⟩
            · exact e.symm
            · exact absurd e1 (hn s1)
          rw [i3 a (by rw [e]; exact hn), e]
      · simp only at e
        subst e
        obtain ⟨k, h3, rfl⟩ := step_bankSend h1
        obtain ⟨i1, i2, i3, i4⟩ := ih h2 ht
        have hhead : ∀ x, ReachedFrom s.hooks b ((src, .bankSend dst f) :: t) x ↔ ReachedFrom s.hooks b t x := by
          intro x
          constructor
          · rintro ⟨m, hm, d, md', f', e, hx⟩
            rcases List.mem_cons.1 hm with rfl | hm
            · cases e
            · exact ⟨m, hm, d, md', f', e, hx⟩
          · rintro ⟨m, hm, d, md', f', e, hx⟩
            exact ⟨m, by simp [hm], d, md', f', e, hx⟩
        refine ⟨fun x hx => i1 x ((hhead x).1 hx), ?_, i3, i4⟩
        intro a y hy
        obtain ⟨n, t2, k1, k2, k3⟩ := i2 a y hy
        exact ⟨n, t2, k1, k2, by rw [hhead]; exact k3⟩

theorem dispatch_visits {gas : Nat} {s s' : Sys} {sender : Addr} {funds : List Coin} {q : DispatchMsg}
    (h : HookSystem.dispatch W gas s sender funds q = .ok s') :
    ∃ from32 required dflt, bech32ToH256 W.C sender = .ok from32 ∧ s.box.config.requiredHook = some required ∧
      s.box.config.defaultHook = some dflt ∧
      s'.box.latest = some (W.H (requestMessage s.box from32 q)) ∧
      (∀ x, (Reaches s.hooks (requestMessage s.box from32 q) required x ∨
          Reaches s.hooks (requestMessage s.box from32 q) (q.hook.getD dflt) x) →
        ∃ c, s.hooks x = some c ∧ InService W c) ∧
      (∀ a y, s.hooks a = some (.merkle y) → ∃ n t, s'.hooks a = some (.merkle ⟨y.mailbox, t⟩) ∧
        Recorded W.H (W.H (requestMessage s.box from32 q)) y.tree n t ∧
        (n ≠ 0 ↔ Reaches s.hooks (requestMessage s.box from32 q) required a ∨
          Reaches s.hooks (requestMessage s.box from32 q) (q.hook.getD dflt) a)) ∧
      (∀ a, (∀ y, s.hooks a ≠ some (.merkle y)) → s'.hooks a = s.hooks a) := by
  obtain ⟨k, h1, h⟩ := bind_eq_ok.1 h
  obtain ⟨⟨box, r⟩, h2, h3⟩ := bind_eq_ok.1 h
  obtain ⟨h32, dflt, hook, required, fees, attached, rest, n, g1, g2, g3, g4, g5, g6, g7, g8, g9, rfl, rfl⟩ :=
    Mailbox.dispatch_ok.1 h2
  have hhook : hook = q.hook.getD dflt := by
    unfold Mailbox.getHookAddr at g4
    cases hq : q.hook with
    | none => rw [hq] at g4; cases g4; rfl
    | some a =>
      rw [hq] at g4
      obtain ⟨_, _, hf⟩ := bind_eq_ok.1 g4
      cases hf
      rfl
  subst hhook
  obtain ⟨i1, i2, i3, i4⟩ := run_visits (b := requestMessage s.box h32 q) h3 (by
    intro m hm
    simp only [List.map_cons, List.map_nil, List.mem_cons, List.not_mem_nil, or_false] at hm
    rcases hm with rfl | rfl <;> exact .inl ⟨_, _, _, rfl⟩)
  have hreach : ∀ x, ReachedFrom s.hooks (requestMessage s.box h32 q)
      (List.map (fun o => (W.mb, o)) [.execute required (.postDispatch (q.metadata.getD [])
        (requestMessage s.box h32 q)) fees, .execute (q.hook.getD dflt) (.postDispatch (q.metadata.getD [])
        (requestMessage s.box h32 q)) (Coins.toVec rest)]) x ↔
      Reaches s.hooks (requestMessage s.box h32 q) required x ∨
        Reaches s.hooks (requestMessage s.box h32 q) (q.hook.getD dflt) x := by
    intro x
    constructor
    · rintro ⟨m, hm, d, md', f', e, hx⟩
      simp only [List.map_cons, List.map_nil, List.mem_cons, List.not_mem_nil, or_false] at hm
      rcases hm with rfl | rfl
      · cases e; exact .inl hx
      · cases e; exact .inr hx
    · rintro (hx | hx)
      · exact ⟨_, List.mem_cons_self, _, _, _, rfl, hx⟩
      · exact ⟨_, List.mem_cons_of_mem _ List.mem_cons_self, _, _, _, rfl, hx⟩
  refine ⟨h32, required, dflt, g2, g5, g3, by rw [i4]; rfl, ?_, ?_, i3⟩
  · intro x hx
    exact i1 x ((hreach x).2 hx)
  · intro a y hy
    obtain ⟨n, t, k1, k2, k3⟩ := i2 a y hy
    exact ⟨n, t, k1, k2, k3.trans (hreach a)⟩

/-- **C70.** No dispatch gets past a hook that is out of service. If a paused hook, a merkle hook of another mailbox, a
fallback hook without a fallback, a contract that is no hook, or no contract at all is reached from the required hook or
from the hook chosen, through any number of aggregate and routing hooks, then the dispatch fails, whoever sends it, with
whatever coins. -/
theorem C70_out_of_service {W : World} {gas : Nat} {s : Sys} {sender x required dflt : Addr} {from32 : Bytes}
    {funds : List Coin} {q : DispatchMsg} (hfrom : bech32ToH256 W.C sender = .ok from32)
    (hreq : s.box.config.requiredHook = some required) (hdef : s.box.config.defaultHook = some dflt)
    (hx : Reaches s.hooks (requestMessage s.box from32 q) required x ∨
      Reaches s.hooks (requestMessage s.box from32 q) (q.hook.getD dflt) x)
    (hout : ∀ c, s.hooks x = some c → ¬ InService W c) :
    ∃ e, HookSystem.dispatch W gas s sender funds q = .error e := by
  cases h : HookSystem.dispatch W gas s sender funds q with
  | error e => exact ⟨e, rfl⟩
  | ok s' =>
    obtain ⟨f, r, d, h1, h2, h3, _, h4, _⟩ := dispatch_visits h
    rw [hfrom] at h1
    rw [hreq] at h2
    rw [hdef] at h3
    cases h1
    cases h2
    cases h3
    obtain ⟨c, h5, h6⟩ := h4 x hx
    exact absurd h6 (hout c h5)

/-- **C71.** After a dispatch every merkle hook on the chain has recorded the message at least once if it is reached
from the required hook or from the hook chosen, and has not changed otherwise; it has recorded nothing else; and no
other hook has changed. So a mailbox whose required hook reaches its merkle hook dispatches no message that is not
recorded, whatever the sender does. -/
theorem C71_dispatch_recorded {W : World} {gas : Nat} {s s' : Sys} {sender : Addr} {funds : List Coin} {q : DispatchMsg}
    (h : HookSystem.dispatch W gas s sender funds q = .ok s') :
    ∃ from32 required dflt, bech32ToH256 W.C sender = .ok from32 ∧ s.box.config.requiredHook = some required ∧
      s.box.config.defaultHook = some dflt ∧ s'.box.latest = some (W.H (requestMessage s.box from32 q)) ∧
      (∀ a y, s.hooks a = some (.merkle y) → ∃ n t, s'.hooks a = some (.merkle ⟨y.mailbox, t⟩) ∧
        Recorded W.H (W.H (requestMessage s.box from32 q)) y.tree n t ∧
        (n ≠ 0 ↔ Reaches s.hooks (requestMessage s.box from32 q) required a ∨
          Reaches s.hooks (requestMessage s.box from32 q) (q.hook.getD dflt) a)) ∧
      (∀ a, (∀ y, s.hooks a ≠ some (.merkle y)) → s'.hooks a = s.hooks a) := by
  obtain ⟨f, r, d, h1, h2, h3, h4, _, h5, h6⟩ := dispatch_visits h
  exact ⟨f, r, d, h1, h2, h3, h4, h5, h6⟩

/-! ### Examples -/

/-- A dispatch with a surplus: alice loses exactly the coins attached, in total nothing is lost. -/
example : ∃ s', HookSystem.dispatch Ex.hookWorld 20 Ex.hookSys Ex.alice [⟨"uatom", 28⟩, ⟨"uosmo", 900⟩]
      { Ex.request with hook := some "inner" } = .ok s' ∧ s'.bank Ex.alice "uosmo" = 100 ∧
    ∃ A : Finset Addr, ∑ a ∈ A, s'.bank a "uosmo" = ∑ a ∈ A, Ex.hookSys.bank a "uosmo" := by
  have h := C66_surplus_spent_by_others.1
  cases hs : Ex.overpaid with
  | error e => rw [hs] at h; cases h
  | ok s' =>
    refine ⟨s', hs, ?_, ?_⟩
    · have : Ex.overpaid.toOption.map (fun s => s.bank Ex.alice "uosmo") = some 100 := by decide +kernel
      rw [hs] at this
      simpa [Except.toOption] using this
    · obtain ⟨A, hA⟩ := (C69_dispatch_coins hs).1
      exact ⟨A, (hA "uosmo").2⟩

/-- The same chain after its owner has paused the gate in the default hook. -/
def Ex.pausedSys : Sys :=
  { Ex.hookSys with hooks := store Ex.hookContracts "gate" (.pausable (Ownable.init Ex.alice, true)) }

/-- Every dispatch through the default hook fails now. -/
example (gas : Nat) (funds : List Coin) :
    ∃ e, HookSystem.dispatch Ex.hookWorld gas Ex.pausedSys Ex.alice funds Ex.request = .error e := by
  refine C70_out_of_service (x := "gate") (required := "req") (dflt := "hook") (from32 := Ex.request.recipient)
    (CustomHook.toOption_eq_some.1 (by decide +kernel)) rfl rfl (.inr ?_) ?_
  · exact .member (s := (Ownable.init Ex.alice, ["igp", "gate", "inner"])) (m := "gate") rfl (by simp) (.here _)
  · intro c hc
    simp only [Ex.pausedSys, store, if_true, Option.some.injEq] at hc
    subst hc
    simp [InService]

/-- The merkle hook is reached through the required hook, which is a fallback routing hook. -/
example : Reaches Ex.hookSys.hooks (requestMessage Ex.hookSys.box Ex.request.recipient Ex.request) "req" "tree" :=
  .route (m := "tree") (.fallback (f := "tree") rfl rfl (by decide +kernel)) (.here _)

end Hpl
