import Verif.Lemmas.Exec
import Verif.Spec.Hooks

/-! Lemmas about the hooks other than the merkle hook. -/

namespace Hpl

open Spec

variable {own : Ownable.State} {sender : Addr} {funds : List Coin} {e : HookEnv}

/-! ### Fee hook -/

theorem mustPay_ok {denom : String} {n : Nat} :
    mustPay funds denom = .ok n ↔ funds = [⟨denom, n⟩] ∧ n ≠ 0 := by
  unfold mustPay
  split
  · simp
  · rename_i c
    obtain ⟨d, a⟩ := c
    simp only [List.cons.injEq, Coin.mk.injEq, and_true]
    by_cases h0 : a = 0
    · simp only [h0, if_true]
      constructor
      · intro h; cases h
      · rintro ⟨⟨_, h⟩, h'⟩; exact absurd h.symm h'
    · rw [if_neg h0]
      by_cases hd : d = denom
      · rw [if_pos hd]
        simp only [Except.ok.injEq]
        constructor
        · rintro rfl; exact ⟨⟨hd, rfl⟩, h0⟩
        · rintro ⟨⟨_, h⟩, _⟩; exact h
      · rw [if_neg hd]
        constructor
        · intro h; cases h
        · rintro ⟨⟨h, _⟩, _⟩; exact absurd h hd
  · rename_i h1 h2
    constructor
    · intro h; cases h
    · rintro ⟨h, _⟩; exact absurd h (h2 _)

namespace FeeHook

theorem part_setFee {fee f : Coin} {x : Coin × Response} :
    part e own fee sender funds (.setFee f) = .ok x ↔ own.owner = some sender ∧ x = (f, {}) := by
  unfold part
  rw [bind_eq_ok]
  simp only [onlyOwner_ok, pure_eq_ok, Except.ok.injEq, @eq_comm _ _ x, exists_and_left]
  simp

theorem part_claim {fee : Coin} {r : Option Addr} {x : Coin × Response} :
    part e own fee sender funds (.claim r) = .ok x ↔
      own.owner = some sender ∧ x = (fee, { msgs := [.bankSend (r.getD sender) e.balances] }) := by
  unfold part
  rw [bind_eq_ok]
  constructor
  · rintro ⟨o, h1, h⟩
    obtain ⟨_, h2, hf⟩ := bind_eq_ok.1 h
    have h2 := of_decide_eq_true (ensure_eq_ok.1 h2)
    subst h2
    exact ⟨Ownable.getOwner_eq_ok.1 h1, by simpa using hf.symm⟩
  · rintro ⟨h1, rfl⟩
    exact ⟨sender, Ownable.getOwner_eq_ok.2 h1, by simp⟩

theorem part_postDispatch {fee : Coin} {md b : Bytes} {x : Coin × Response} :
    part e own fee sender funds (.postDispatch md b) = .ok x ↔
      (∃ n, funds = [⟨fee.denom, n⟩] ∧ n ≠ 0 ∧ fee.amount ≤ n) ∧ x = (fee, {}) := by
  unfold part
  rw [bind_eq_ok]
  constructor
  · rintro ⟨n, h1, h⟩
    obtain ⟨_, h2, hf⟩ := bind_eq_ok.1 h
    obtain ⟨h3, h4⟩ := mustPay_ok.1 h1
    exact ⟨⟨n, h3, h4, of_decide_eq_true (ensure_eq_ok.1 h2)⟩, by simpa using hf.symm⟩
  · rintro ⟨⟨n, h1, h2, h3⟩, rfl⟩
    exact ⟨n, mustPay_ok.2 ⟨h1, h2⟩, by simp [h3]⟩

/-- The fee after a history. -/
theorem run_fee (own : Ownable.State) (fee : Coin) (h : List (ExecCall HookEnv Msg)) :
    (run (stepOf execute) (own, fee) h).2 =
      ((ownerCalls HookEnv.valid feeCfg own h).map Prod.snd).getLast?.getD fee := by
  unfold execute
  rw [run_execOwned feeCfg (fun _ _ f => .ok f), run_set_last]
  · intro e own s sender funds m k s' hk
    cases m <;> simp only [feeCfg, Option.some.injEq] at hk <;> try cases hk
    simp only [part_setFee, Except.ok.injEq, Prod.mk.injEq, @eq_comm _ s']
    simp
  · intro e own s sender funds m s' r hk hp
    cases m with
    | setFee f => cases hk
    | claim r' =>
      obtain ⟨_, h2⟩ := part_claim.1 hp
      cases h2; rfl
    | postDispatch md b =>
      obtain ⟨_, h2⟩ := part_postDispatch.1 hp
      cases h2; rfl

end FeeHook

/-! ### Pausable hook -/

namespace PausableHook

theorem part_pausable {p : Bool} {m : Pausable.Msg} {x : Bool × Response} :
    part e own p sender funds (.pausable m) = .ok x ↔
      own.owner = some sender ∧ x = (!p, {}) ∧ (m = .pause ↔ p = false) := by
  unfold part
  rw [bind_eq_ok]
  constructor
  · rintro ⟨q, h1, hf⟩
    obtain ⟨h2, h3, h4⟩ := Pausable.handle_ok.1 h1
    refine ⟨h2, by rw [← h3]; simpa using hf.symm, ?_⟩
    rw [← h4, h3]
    simp
  · rintro ⟨h1, rfl, h2⟩
    refine ⟨!p, Pausable.handle_ok.2 ⟨h1, rfl, ?_⟩, rfl⟩
    rw [h2]
    simp

theorem part_postDispatch {p : Bool} {md b : Bytes} {x : Bool × Response} :
    part e own p sender funds (.postDispatch md b) = .ok x ↔ p = false ∧ x = (p, {}) := by
  unfold part
  rw [bind_eq_ok]
  simp only [pure_eq_ok, Except.ok.injEq, @eq_comm _ _ x, exists_and_right]
  cases p <;> simp

/-- The flag after a history. -/
theorem run_flag (own : Ownable.State) (p : Bool) (h : List (ExecCall HookEnv Msg)) :
    (run (stepOf execute) (own, p) h).2 =
      (((ownerCalls HookEnv.valid pauseCfg own h).map Prod.snd).getLast?.map (fun m => decide (m = .pause))).getD p := by
  unfold execute
  rw [run_execOwned pauseCfg (fun _ p m => if m = .pause ↔ p = false then .ok (!p) else .error (.err "same"))]
  · generalize ownerCalls HookEnv.valid pauseCfg own h = l
    induction l using List.reverseRecOn with
    | nil => rfl
    | append_singleton t x ih =>
      rw [run_snoc, ih]
      obtain ⟨e', m⟩ := x
      simp only [List.map_append, List.map_cons, List.map_nil, List.getLast?_append, List.getLast?_singleton,
        Option.some_or, Option.map_some, Option.getD_some]
      generalize (Option.map (fun m => decide (m = Pausable.Msg.pause)) (t.map Prod.snd).getLast?).getD p = q
      unfold applyCall
      cases m <;> cases q <;> simp
  · intro e own s sender funds m k s' hk
    cases m <;> simp only [pauseCfg, Option.some.injEq] at hk <;> try cases hk
    simp only [part_pausable, Prod.mk.injEq]
    constructor
    · rintro ⟨r, h1, ⟨rfl, _⟩, h2⟩
      exact ⟨h1, by simp only [if_pos h2]⟩
    · rintro ⟨h1, h2⟩
      split at h2
      · rename_i h3
        cases h2
        exact ⟨{}, h1, ⟨rfl, rfl⟩, h3⟩
      · cases h2
  · intro e own s sender funds m s' r hk hp
    cases m with
    | pausable f => cases hk
    | postDispatch md b =>
      obtain ⟨_, h2⟩ := part_postDispatch.1 hp
      cases h2; rfl

end PausableHook

/-! ### Aggregate hook -/

namespace AggregateHook

theorem part_setHooks {l0 l : List Addr} {x : List Addr × Response} :
    part e own l0 sender funds (.setHooks l) = .ok x ↔
      own.owner = some sender ∧ l.all e.valid = true ∧ x = (l, {}) := by
  unfold part
  rw [bind_eq_ok]
  constructor
  · rintro ⟨_, h1, h⟩
    obtain ⟨_, h2, hf⟩ := bind_eq_ok.1 h
    exact ⟨onlyOwner_ok.1 h1, ensure_eq_ok.1 h2, by simpa using hf.symm⟩
  · rintro ⟨h1, h2, rfl⟩
    exact ⟨(), onlyOwner_ok.2 h1, by rw [h2]; simp⟩

theorem postAll_ok {quote : Addr → Bytes → Bytes → Res (List Coin)} {md b : Bytes} {l : List Addr}
    {msgs : List OutMsg} :
    postAll quote md b l = .ok msgs ↔
      ∃ fees : List (List Coin), List.Forall₂ (fun h f => quote h md b = .ok f) l fees ∧
        msgs = (l.zip fees).map (fun p => .execute p.1 (.postDispatch md b) p.2) := by
  induction l generalizing msgs with
  | nil =>
    simp only [postAll, Except.ok.injEq]
    constructor
    · rintro rfl; exact ⟨[], .nil, rfl⟩
    · rintro ⟨f, h1, h2⟩; cases h1; exact h2.symm
  | cons h t ih =>
    simp only [postAll]
    rw [bind_eq_ok]
    constructor
    · rintro ⟨f, h1, h⟩
      obtain ⟨r, h2, hf⟩ := bind_eq_ok.1 h
      obtain ⟨fs, h3, rfl⟩ := ih.1 h2
      simp only [pure_eq_ok, Except.ok.injEq] at hf
      exact ⟨f :: fs, .cons h1 h3, by rw [← hf]; rfl⟩
    · rintro ⟨fs, h1, rfl⟩
      cases h1 with
      | cons h1 h2 =>
        rename_i f fs
        refine ⟨f, h1, ?_⟩
        rw [bind_eq_ok]
        exact ⟨_, ih.2 ⟨fs, h2, rfl⟩, rfl⟩

theorem part_postDispatch {l : List Addr} {md b : Bytes} {x : List Addr × Response} :
    part e own l sender funds (.postDispatch md b) = .ok x ↔
      77 ≤ b.length ∧ ∃ fees : List (List Coin), List.Forall₂ (fun h f => e.quote h md b = .ok f) l fees ∧
        x = (l, { msgs := (l.zip fees).map (fun p => .execute p.1 (.postDispatch md b) p.2) }) := by
  unfold part
  rw [bind_eq_ok]
  constructor
  · rintro ⟨msgs, h1, h⟩
    obtain ⟨m, h2, hf⟩ := bind_eq_ok.1 h
    obtain ⟨fees, h3, rfl⟩ := postAll_ok.1 h1
    refine ⟨?_, fees, h3, by simpa using hf.symm⟩
    by_contra hn
    obtain ⟨t, ht⟩ := Message.decode_short (v := b) (by omega)
    rw [ht] at h2; cases h2
  · rintro ⟨h1, fees, h2, rfl⟩
    obtain ⟨m, hm⟩ := Message.decode_long h1
    exact ⟨_, postAll_ok.2 ⟨fees, h2, rfl⟩, by rw [hm]; rfl⟩

theorem quoteFold_ok {quote : Addr → Bytes → Bytes → Res (List Coin)} {md b : Bytes} {l : List Addr}
    {acc t : Coins} (h : quoteFold quote md b acc l = .ok t) :
    ∃ fees : List (List Coin), List.Forall₂ (fun h f => quote h md b = .ok f) l fees ∧
      Coins.addAll acc fees.flatten = .ok t := by
  induction l generalizing acc with
  | nil =>
    simp only [quoteFold, Except.ok.injEq] at h
    subst h
    exact ⟨[], .nil, rfl⟩
  | cons a l ih =>
    simp only [quoteFold] at h
    obtain ⟨f, h1, h⟩ := bind_eq_ok.1 h
    obtain ⟨acc', h2, hf⟩ := bind_eq_ok.1 h
    obtain ⟨fees, h3, h4⟩ := ih hf
    refine ⟨f :: fees, .cons h1 h3, ?_⟩
    have app : ∀ (x y : List Coin) (m m1 : Coins), Coins.addAll m x = .ok m1 →
        Coins.addAll m (x ++ y) = Coins.addAll m1 y := by
      intro x y
      induction x with
      | nil => intro m m1 hx; cases hx; rfl
      | cons c x ihx =>
        intro m m1 hx
        simp only [Coins.addAll] at hx
        obtain ⟨m2, g1, g2⟩ := bind_eq_ok.1 hx
        simp only [List.cons_append, Coins.addAll, g1, ok_bind]
        exact ihx m2 m1 g2
    rw [List.flatten_cons, app f fees.flatten acc acc' h2]
    exact h4

theorem quoteFold_isOk {quote : Addr → Bytes → Bytes → Res (List Coin)} {md b : Bytes} {l : List Addr}
    {acc : Coins} {fees : List (List Coin)} (h : List.Forall₂ (fun h f => quote h md b = .ok f) l fees)
    (hlim : ∀ d, Coins.amt acc d + amountOf d fees.flatten < u128Lim) :
    ∃ t, quoteFold quote md b acc l = .ok t := by
  induction h generalizing acc with
  | nil => exact ⟨acc, rfl⟩
  | @cons a f l fees h1 h2 ih =>
    obtain ⟨acc', ha⟩ := Coins.addAll_isOk (m := acc) (l := f) (by
      intro d
      have := hlim d
      rw [List.flatten_cons, amountOf_append] at this
      omega)
    obtain ⟨t, ht⟩ := ih (acc := acc') (by
      intro d
      have := hlim d
      rw [List.flatten_cons, amountOf_append] at this
      rw [Coins.addAll_ok ha]
      omega)
    exact ⟨t, by simp only [quoteFold, h1, ok_bind, ha, ht]⟩

theorem quotes_unique {quote : Addr → Bytes → Bytes → Res (List Coin)} {md b : Bytes} {l : List Addr}
    {f g : List (List Coin)} (hf : List.Forall₂ (fun h f => quote h md b = .ok f) l f)
    (hg : List.Forall₂ (fun h f => quote h md b = .ok f) l g) : f = g := by
  induction hf generalizing g with
  | nil => cases hg; rfl
  | cons a _ ih =>
    cases hg with
    | cons a' b' =>
      rw [a] at a'; cases a'
      rw [ih b']

theorem outflow_zip (md b : Bytes) (d : String) (l : List Addr) (fees : List (List Coin))
    (h : l.length = fees.length) :
    outflow d ((l.zip fees).map (fun p => .execute p.1 (.postDispatch md b) p.2)) = amountOf d fees.flatten := by
  induction l generalizing fees with
  | nil =>
    cases fees with
    | nil => rfl
    | cons f t => cases h
  | cons a l ih =>
    cases fees with
    | nil => cases h
    | cons f t =>
      simp only [List.zip_cons_cons, List.map_cons, outflow, List.flatten_cons, amountOf_append]
      rw [ih t (by simpa using h)]

/-- The hook list after a history. -/
theorem run_hooks (own : Ownable.State) (l : List Addr) (h : List (ExecCall HookEnv Msg)) :
    (run (stepOf execute) (own, l) h).2 =
      (((ownerCalls HookEnv.valid hooksCfg own h).filter (fun x => x.2.all x.1.valid)).map Prod.snd).getLast?.getD
        l := by
  unfold execute
  rw [run_execOwned hooksCfg (fun e _ l => if l.all e.valid then .ok l else .error (.err "invalid"))]
  · generalize ownerCalls HookEnv.valid hooksCfg own h = c
    induction c using List.reverseRecOn with
    | nil => rfl
    | append_singleton t x ih =>
      rw [run_snoc, ih, List.filter_append]
      unfold applyCall
      by_cases hv : x.2.all x.1.valid = true
      · simp [hv]
      · simp [hv]
  · intro e own s sender funds m k s' hk
    cases m <;> simp only [hooksCfg, Option.some.injEq] at hk <;> try cases hk
    simp only [part_setHooks, Prod.mk.injEq]
    constructor
    · rintro ⟨r, h1, h2, rfl, _⟩
      exact ⟨h1, by simp only [h2, if_true]⟩
    · rintro ⟨h1, h2⟩
      split at h2
      · rename_i h3
        cases h2
        exact ⟨{}, h1, h3, rfl, rfl⟩
      · cases h2
  · intro e own s sender funds m s' r hk hp
    cases m with
    | setHooks f => cases hk
    | postDispatch md b =>
      obtain ⟨_, _, _, h2⟩ := part_postDispatch.1 hp
      cases h2; rfl

end AggregateHook

/-! ### Routing hooks -/

theorem RoutingHook.found_ok {o : Option Addr} {a : Addr} : RoutingHook.found o = .ok a ↔ o = some a := by
  unfold RoutingHook.found
  cases o <;> simp

theorem applyCall_setRoutes_routesOf (s : Router.State Addr) (m : Router.Msg Addr) :
    (match m with
      | .setRoute x => Router.setRoute s x
      | .setRoutes l => Router.setRoutes s l) = Router.setRoutes s (routesOf m) := by
  cases m <;> rfl

theorem getRoute_setRoutes {τ : Type} (s : Router.State τ) (l : List (UInt32 × Option τ)) (d : UInt32) :
    Router.getRoute (Router.setRoutes s l) d =
      match lastFor d l with
      | some o => o
      | none => Router.getRoute s d := by
  have hg : (Router.setRoutes s l).get d = (lastFor d l).or (s.get d) := by
    induction l using List.reverseRecOn with
    | nil => simp [Router.setRoutes]
    | append_singleton t x ih =>
      rw [Router.setRoutes_append]
      show ((Router.setRoutes s t).insert x.1 x.2).get d = _
      rw [OMap.get_insert, ih, lastFor_append, lastFor_singleton]
      by_cases hd : d = x.1 <;> simp [hd]
  unfold Router.getRoute
  rw [hg]
  rcases lastFor d l with _ | _ | a <;> simp

namespace RoutingHook

theorem part_router {s : Router.State Addr} {m : Router.Msg Addr} {x : Router.State Addr × Response} :
    part e own s sender funds (.router m) = .ok x ↔
      own.owner = some sender ∧ x = (Router.setRoutes s (routesOf m), {}) := by
  unfold part
  rw [bind_eq_ok]
  constructor
  · rintro ⟨q, h1, hf⟩
    obtain ⟨h2, h3⟩ := Router.handle_ok.1 h1
    refine ⟨h2, ?_⟩
    simp only [pure_eq_ok, Except.ok.injEq] at hf
    rw [← hf, h3]
    cases m <;> rfl
  · rintro ⟨h1, rfl⟩
    refine ⟨Router.setRoutes s (routesOf m), Router.handle_ok.2 ⟨h1, ?_⟩, rfl⟩
    cases m <;> rfl

theorem part_postDispatch {s : Router.State Addr} {md b : Bytes} {x : Router.State Addr × Response} :
    part e own s sender funds (.postDispatch md b) = .ok x ↔
      ∃ hook, route s b = .ok hook ∧ x = (s, forwardTo hook md b) := by
  unfold part
  rw [bind_eq_ok]
  simp only [pure_eq_ok, Except.ok.injEq, @eq_comm _ _ x]

theorem run_routes (own : Ownable.State) (s : Router.State Addr) (h : List (ExecCall HookEnv Msg)) :
    (run (stepOf execute) (own, s) h).2 =
      Router.setRoutes s ((ownerCalls HookEnv.valid routingCfg own h).flatMap (fun x => routesOf x.2)) := by
  unfold execute
  rw [run_execOwned routingCfg (fun _ s m => .ok (Router.setRoutes s (routesOf m)))]
  · generalize ownerCalls HookEnv.valid routingCfg own h = c
    induction c using List.reverseRecOn with
    | nil => rfl
    | append_singleton t x ih =>
      rw [run_snoc, ih, List.flatMap_append, Router.setRoutes_append]
      simp [applyCall]
  · intro e own s sender funds m k s' hk
    cases m <;> simp only [routingCfg, Option.some.injEq] at hk <;> try cases hk
    simp only [part_router, Except.ok.injEq, Prod.mk.injEq, @eq_comm _ s']
    simp
  · intro e own s sender funds m s' r hk hp
    cases m with
    | router f => cases hk
    | postDispatch md b =>
      obtain ⟨_, _, h2⟩ := part_postDispatch.1 hp
      cases h2; rfl

end RoutingHook

namespace FallbackHook

theorem part_router {s : State} {m : Router.Msg Addr} {x : State × Response} :
    part e own s sender funds (.router m) = .ok x ↔
      own.owner = some sender ∧ x = ({ s with routes := Router.setRoutes s.routes (routesOf m) }, {}) := by
  unfold part
  rw [bind_eq_ok]
  constructor
  · rintro ⟨q, h1, hf⟩
    obtain ⟨h2, h3⟩ := Router.handle_ok.1 h1
    refine ⟨h2, ?_⟩
    simp only [pure_eq_ok, Except.ok.injEq] at hf
    rw [← hf, h3]
    cases m <;> rfl
  · rintro ⟨h1, rfl⟩
    refine ⟨Router.setRoutes s.routes (routesOf m), Router.handle_ok.2 ⟨h1, ?_⟩, rfl⟩
    cases m <;> rfl

theorem part_setFallback {s : State} {a : Addr} {x : State × Response} :
    part e own s sender funds (.setFallback a) = .ok x ↔
      own.owner = some sender ∧ e.valid a = true ∧ x = ({ s with fallback := some a }, {}) := by
  unfold part
  rw [bind_eq_ok]
  constructor
  · rintro ⟨_, h1, h⟩
    obtain ⟨_, h2, hf⟩ := bind_eq_ok.1 h
    exact ⟨onlyOwner_ok.1 h1, ensure_eq_ok.1 h2, by simpa using hf.symm⟩
  · rintro ⟨h1, h2, rfl⟩
    exact ⟨(), onlyOwner_ok.2 h1, by rw [h2]; simp⟩

theorem part_postDispatch {s : State} {md b : Bytes} {x : State × Response} :
    part e own s sender funds (.postDispatch md b) = .ok x ↔
      ∃ hook, route s b = .ok hook ∧ x = (s, forwardTo hook md b) := by
  unfold part
  rw [bind_eq_ok]
  simp only [pure_eq_ok, Except.ok.injEq, @eq_comm _ _ x]

theorem run_state (own : Ownable.State) (s : State) (h : List (ExecCall HookEnv Msg)) :
    (run (stepOf execute) (own, s) h).2 =
      ⟨Router.setRoutes s.routes ((ownerCalls HookEnv.valid fallbackCfg own h).flatMap (fun x => customRoutes x.2)),
       ((ownerCalls HookEnv.valid fallbackCfg own h).flatMap fallbackOf).getLast?.or s.fallback⟩ := by
  unfold execute
  rw [run_execOwned fallbackCfg (fun e s m => match m with
    | .inl m => .ok { s with routes := Router.setRoutes s.routes (routesOf m) }
    | .inr a => if e.valid a then .ok { s with fallback := some a } else .error (.err "invalid"))]
  · generalize ownerCalls HookEnv.valid fallbackCfg own h = c
    induction c using List.reverseRecOn with
    | nil => cases s; simp [Router.setRoutes]
    | append_singleton t x ih =>
      rw [run_snoc, ih, List.flatMap_append, List.flatMap_append, Router.setRoutes_append]
      obtain ⟨e', m | a⟩ := x
      · simp [applyCall, customRoutes, fallbackOf]
      · by_cases hv : e'.valid a = true
        · simp [applyCall, customRoutes, fallbackOf, hv, Router.setRoutes]
        · simp [applyCall, customRoutes, fallbackOf, hv, Router.setRoutes]
  · intro e own s sender funds m k s' hk
    cases m <;> simp only [fallbackCfg, Option.some.injEq] at hk <;> try cases hk
    · simp only [part_router, Except.ok.injEq, Prod.mk.injEq, @eq_comm _ s']
      simp
    · simp only [part_setFallback, Prod.mk.injEq]
      constructor
      · rintro ⟨r, h1, h2, rfl, _⟩
        exact ⟨h1, by simp only [h2, if_true]⟩
      · rintro ⟨h1, h2⟩
        split at h2
        · rename_i h3
          cases h2
          exact ⟨{}, h1, h3, rfl, rfl⟩
        · cases h2
  · intro e own s sender funds m s' r hk hp
    cases m with
    | router f => cases hk
    | setFallback f => cases hk
    | postDispatch md b =>
      obtain ⟨_, _, h2⟩ := part_postDispatch.1 hp
      cases h2; rfl

end FallbackHook

namespace CustomHook

/-- Writes a list of updates into the custom table. -/
def writeAll (m : OMap Key Addr) (l : List ((UInt32 × Bytes) × Option Addr)) : OMap Key Addr :=
  l.foldl (fun m x => match x.2 with
    | some a => m.insert (toLex x.1) a
    | none => m.erase (toLex x.1)) m

theorem writeAll_append (m : OMap Key Addr) (a b : List ((UInt32 × Bytes) × Option Addr)) :
    writeAll m (a ++ b) = writeAll (writeAll m a) b := by simp [writeAll]

theorem get_writeAll (m : OMap Key Addr) (l : List ((UInt32 × Bytes) × Option Addr)) (k : UInt32 × Bytes) :
    (writeAll m l).get (toLex k) = match lastFor k l with
      | some o => o
      | none => m.get (toLex k) := by
  induction l using List.reverseRecOn with
  | nil => rfl
  | append_singleton t x ih =>
    rw [writeAll_append, lastFor_append, lastFor_singleton]
    obtain ⟨k', o⟩ := x
    have hk : toLex k = toLex k' ↔ k = k' := by simp
    cases o with
    | some a =>
      simp only [writeAll, List.foldl_cons, List.foldl_nil] at ih ⊢
      rw [OMap.get_insert, ih]
      by_cases h : k = k'
      · simp [h]
      · simp only [hk, h, if_false, Option.none_or]
    | none =>
      simp only [writeAll, List.foldl_cons, List.foldl_nil] at ih ⊢
      rw [OMap.get_erase, ih]
      by_cases h : k = k'
      · simp [h]
      · simp only [hk, h, if_false, Option.none_or]

theorem toOption_eq_some {α : Type} {x : Res α} {a : α} : x.toOption = some a ↔ x = .ok a := by
  cases x <;> simp [Except.toOption]

theorem registerAll_eq (valid : Addr → Bool) (m : OMap Key Addr) (l : List Registration) :
    (∀ m', registerAll valid m l = .ok m' → (l.map (registrationEntry valid)).all Option.isSome = true ∧
      m' = writeAll m ((l.map (registrationEntry valid)).filterMap id)) ∧
    ((l.map (registrationEntry valid)).all Option.isSome = true → ∃ m', registerAll valid m l = .ok m') := by
  induction l generalizing m with
  | nil => simp [registerAll, writeAll]
  | cons r t ih =>
    constructor
    · intro m' h
      simp only [registerAll] at h
      obtain ⟨b, h1, h⟩ := bind_eq_ok.1 h
      obtain ⟨_, h2, h⟩ := bind_eq_ok.1 h
      obtain ⟨_, h3, hf⟩ := bind_eq_ok.1 h
      have h2 := of_decide_eq_true (ensure_eq_ok.1 h2)
      have h3 := ensure_eq_ok.1 h3
      have he : registrationEntry valid r = some ((r.dest, b), some r.hook) := by
        unfold registrationEntry
        rw [h1]
        simp [Except.toOption, h2, h3]
      obtain ⟨g1, g2⟩ := (ih _).1 m' hf
      refine ⟨by simpa [he] using g1, ?_⟩
      rw [g2]
      simp [he, writeAll]
    · intro h
      simp only [List.map_cons, List.all_cons, Bool.and_eq_true] at h
      obtain ⟨h1, h2⟩ := h
      obtain ⟨x, hx⟩ := Option.isSome_iff_exists.1 h1
      unfold registrationEntry at hx
      obtain ⟨b, hb, hx⟩ := Option.bind_eq_some_iff.1 hx
      split at hx
      · rename_i hc
        obtain ⟨m', hm⟩ := (ih (m.insert (toLex (r.dest, b)) r.hook)).2 h2
        refine ⟨m', ?_⟩
        simp only [registerAll, toOption_eq_some.1 hb, ok_bind, hc.1, hc.2, decide_true, ensure_true, hm]
      · cases hx

theorem clearAll_eq (m : OMap Key Addr) (l : List Clearing) :
    (∀ m', clearAll m l = .ok m' → (l.map clearingEntry).all Option.isSome = true ∧
      m' = writeAll m ((l.map clearingEntry).filterMap id)) ∧
    ((l.map clearingEntry).all Option.isSome = true → ∃ m', clearAll m l = .ok m') := by
  induction l generalizing m with
  | nil => simp [clearAll, writeAll]
  | cons r t ih =>
    constructor
    · intro m' h
      simp only [clearAll] at h
      obtain ⟨b, h1, hf⟩ := bind_eq_ok.1 h
      have he : clearingEntry r = some ((r.dest, b), none) := by
        unfold clearingEntry
        rw [h1]
        simp [Except.toOption]
      obtain ⟨g1, g2⟩ := (ih _).1 m' hf
      refine ⟨by simpa [he] using g1, ?_⟩
      rw [g2]
      simp [he, writeAll]
    · intro h
      simp only [List.map_cons, List.all_cons, Bool.and_eq_true] at h
      obtain ⟨h1, h2⟩ := h
      obtain ⟨x, hx⟩ := Option.isSome_iff_exists.1 h1
      unfold clearingEntry at hx
      obtain ⟨b, hb, hx⟩ := Option.map_eq_some_iff.1 hx
      obtain ⟨m', hm⟩ := (ih (m.erase (toLex (r.dest, b)))).2 h2
      refine ⟨m', ?_⟩
      simp only [clearAll, toOption_eq_some.1 hb, ok_bind, hm]

theorem part_router {s : State} {m : Router.Msg Addr} {x : State × Response} :
    part e own s sender funds (.router m) = .ok x ↔
      own.owner = some sender ∧ x = ({ s with routes := Router.setRoutes s.routes (routesOf m) }, {}) := by
  unfold part
  rw [bind_eq_ok]
  constructor
  · rintro ⟨q, h1, hf⟩
    obtain ⟨h2, h3⟩ := Router.handle_ok.1 h1
    refine ⟨h2, ?_⟩
    simp only [pure_eq_ok, Except.ok.injEq] at hf
    rw [← hf, h3]
    cases m <;> rfl
  · rintro ⟨h1, rfl⟩
    refine ⟨Router.setRoutes s.routes (routesOf m), Router.handle_ok.2 ⟨h1, ?_⟩, rfl⟩
    cases m <;> rfl

theorem part_register {s : State} {l : List Registration} {x : State × Response} :
    part e own s sender funds (.register l) = .ok x ↔
      own.owner = some sender ∧ (l.map (registrationEntry e.valid)).all Option.isSome = true ∧
      x = ({ s with custom := writeAll s.custom ((l.map (registrationEntry e.valid)).filterMap id) }, {}) := by
  unfold part
  rw [bind_eq_ok]
  constructor
  · rintro ⟨_, h1, h⟩
    obtain ⟨m, h2, hf⟩ := bind_eq_ok.1 h
    obtain ⟨g1, rfl⟩ := (registerAll_eq e.valid s.custom l).1 m h2
    exact ⟨onlyOwner_ok.1 h1, g1, by simpa using hf.symm⟩
  · rintro ⟨h1, h2, rfl⟩
    obtain ⟨m, hm⟩ := (registerAll_eq e.valid s.custom l).2 h2
    obtain ⟨_, rfl⟩ := (registerAll_eq e.valid s.custom l).1 m hm
    exact ⟨(), onlyOwner_ok.2 h1, by rw [hm]; rfl⟩

theorem part_clear {s : State} {l : List Clearing} {x : State × Response} :
    part e own s sender funds (.clear l) = .ok x ↔
      own.owner = some sender ∧ (l.map clearingEntry).all Option.isSome = true ∧
      x = ({ s with custom := writeAll s.custom ((l.map clearingEntry).filterMap id) }, {}) := by
  unfold part
  rw [bind_eq_ok]
  constructor
  · rintro ⟨_, h1, h⟩
    obtain ⟨m, h2, hf⟩ := bind_eq_ok.1 h
    obtain ⟨g1, rfl⟩ := (clearAll_eq s.custom l).1 m h2
    exact ⟨onlyOwner_ok.1 h1, g1, by simpa using hf.symm⟩
  · rintro ⟨h1, h2, rfl⟩
    obtain ⟨m, hm⟩ := (clearAll_eq s.custom l).2 h2
    obtain ⟨_, rfl⟩ := (clearAll_eq s.custom l).1 m hm
    exact ⟨(), onlyOwner_ok.2 h1, by rw [hm]; rfl⟩

theorem part_postDispatch {s : State} {md b : Bytes} {x : State × Response} :
    part e own s sender funds (.postDispatch md b) = .ok x ↔
      ∃ hook, route s b = .ok hook ∧ x = (s, forwardTo hook md b) := by
  unfold part
  rw [bind_eq_ok]
  simp only [pure_eq_ok, Except.ok.injEq, @eq_comm _ _ x]

/-- Effect of one setting by the owner. -/
def apply (e : HookEnv) (s : State) : Router.Msg Addr ⊕ (List Registration ⊕ List Clearing) → Res State
  | .inl m => .ok { s with routes := Router.setRoutes s.routes (routesOf m) }
  | .inr (.inl l) =>
    if (l.map (registrationEntry e.valid)).all Option.isSome = true then
      .ok { s with custom := writeAll s.custom ((l.map (registrationEntry e.valid)).filterMap id) }
    else .error (.err "invalid")
  | .inr (.inr l) =>
    if (l.map clearingEntry).all Option.isSome = true then
      .ok { s with custom := writeAll s.custom ((l.map clearingEntry).filterMap id) }
    else .error (.err "invalid")

theorem run_state (own : Ownable.State) (s : State) (h : List (ExecCall HookEnv Msg)) :
    (run (stepOf execute) (own, s) h).2 =
      ⟨Router.setRoutes s.routes ((ownerCalls HookEnv.valid customCfg own h).flatMap (fun x => customRoutes x.2)),
       writeAll s.custom ((ownerCalls HookEnv.valid customCfg own h).flatMap
         (fun x => customUpdates x.1.valid x.2))⟩ := by
  unfold execute
  rw [run_execOwned customCfg apply]
  · generalize ownerCalls HookEnv.valid customCfg own h = c
    induction c using List.reverseRecOn with
    | nil => cases s; simp [Router.setRoutes, writeAll]
    | append_singleton t x ih =>
      rw [run_snoc, ih, List.flatMap_append, List.flatMap_append, Router.setRoutes_append, writeAll_append]
      obtain ⟨e', m | l | l⟩ := x
      · simp [applyCall, apply, customRoutes, customUpdates, writeAll]
      · have hu : customUpdates e'.valid (.inr (.inl l)) = if (l.map (registrationEntry e'.valid)).all Option.isSome
            then (l.map (registrationEntry e'.valid)).filterMap id else [] := rfl
        simp only [List.flatMap_cons, List.flatMap_nil, List.append_nil, hu, applyCall, apply]
        generalize hc : List.all _ _ = c
        cases c <;> rfl
      · have hu : customUpdates e'.valid (.inr (.inr l)) = if (l.map clearingEntry).all Option.isSome
            then (l.map clearingEntry).filterMap id else [] := rfl
        simp only [List.flatMap_cons, List.flatMap_nil, List.append_nil, hu, applyCall, apply]
        generalize hc : List.all _ _ = c
        cases c <;> rfl
  · intro e own s sender funds m k s' hk
    cases m <;> simp only [customCfg, Option.some.injEq] at hk <;> try cases hk
    · simp only [part_router, apply, Except.ok.injEq, Prod.mk.injEq, @eq_comm _ s']
      simp
    · simp only [part_register, apply, Prod.mk.injEq]
      constructor
      · rintro ⟨r, h1, h2, rfl, _⟩
        exact ⟨h1, by rw [if_pos h2]⟩
      · rintro ⟨h1, h2⟩
        split at h2
        · rename_i h3
          cases h2
          exact ⟨{}, h1, h3, rfl, rfl⟩
        · cases h2
    · simp only [part_clear, apply, Prod.mk.injEq]
      constructor
      · rintro ⟨r, h1, h2, rfl, _⟩
        exact ⟨h1, by rw [if_pos h2]⟩
      · rintro ⟨h1, h2⟩
        split at h2
        · rename_i h3
          cases h2
          exact ⟨{}, h1, h3, rfl, rfl⟩
        · cases h2
  · intro e own s sender funds m s' r hk hp
    cases m with
    | router f => cases hk
    | register f => cases hk
    | clear f => cases hk
    | postDispatch md b =>
      obtain ⟨_, _, h2⟩ := part_postDispatch.1 hp
      cases h2; rfl

end CustomHook

end Hpl
