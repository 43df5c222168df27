import Verif.Props.EventsOthers

/-! # Settings of hooks, modules and oracles as their events tell them, and what they do not tell (C90) -/

namespace Hpl

open Spec Events Tx

/-! ## Security modules -/

theorem EnrolmentTold.same {d : UInt32} {v : Option (List Bytes)} {t : Option UInt8} {evs : List TextEvent} {e : TextEvent}
    (I : EnrolmentTold d v t evs) (h : ¬ EnrolsDomain d e) : EnrolmentTold d v t (evs ++ [e]) := by
  unfold EnrolmentTold at I ⊢
  rw [lastOf_skip h]
  exact I

/-- **C90**, multisig module. For every domain the last event about it tells whether validators are enrolled, how many and with
which threshold. Missing is who they are, see `C90_untold`. -/
theorem C90_enrolment_partial (owner : Addr) (txs : List (List (Act (OwnedCall Multisig.Msg)))) (d : UInt32) :
    let h := history (logged (silent Multisig.step) multisigIsm) (Ownable.init owner, Multisig.init) txs
    EnrolmentTold d (h.1.2.validators.get d) (h.1.2.threshold.get d) (all h.2) := by
  refine owned_induct (fun (s : Ownable.State × Multisig.State) evs =>
    EnrolmentTold d (s.2.validators.get d) (s.2.threshold.get d) evs) ⟨rfl, rfl⟩ ?_ ?_ txs
  · intro o s valid sender m o' evs I _
    refine EnrolmentTold.same I ?_
    rintro ⟨h | h, _⟩
    · exact not_ownership_of (by decide) _ (List.mem_singleton.2 rfl) h
    · exact not_ownership_of (by decide) _ (List.mem_singleton.2 rfl) h
  · intro o s valid sender m s' evs I h
    cases m with
    | setValidators d' t vs =>
      obtain ⟨_, _, h⟩ := bind_eq_ok.1 h
      obtain ⟨_, _, h⟩ := bind_eq_ok.1 h
      obtain ⟨_, _, h⟩ := bind_eq_ok.1 h
      obtain ⟨_, _, hf⟩ := bind_eq_ok.1 h
      cases hf
      show EnrolmentTold d ((s.validators.insert d' vs).get d) ((s.threshold.insert d' t).get d) (evs ++ [_])
      rw [OMap.get_insert, OMap.get_insert]
      by_cases hd : d = d'
      · subst hd
        rw [if_pos rfl, if_pos rfl]
        unfold EnrolmentTold
        rw [lastOf_snoc (⟨.inl rfl, rfl⟩ : EnrolsDomain d _)]
        simp only
        rw [if_neg (by decide : ¬ "ism_multisig_set_validators" = "ism_multisig_unset_domain")]
        exact ⟨vs, t, rfl, rfl, ⟨_, rfl, number_decimal _⟩, ⟨_, rfl, number_decimal _⟩⟩
      · rw [if_neg hd, if_neg hd]
        refine EnrolmentTold.same I ?_
        rintro ⟨_, h⟩
        exact hd (decimal32_inj (Option.some.inj h)).symm
    | unsetDomain d' =>
      obtain ⟨_, _, h⟩ := bind_eq_ok.1 h
      obtain ⟨_, _, hf⟩ := bind_eq_ok.1 h
      cases hf
      show EnrolmentTold d ((s.validators.erase d').get d) ((s.threshold.erase d').get d) (evs ++ [_])
      rw [OMap.get_erase, OMap.get_erase]
      by_cases hd : d = d'
      · subst hd
        rw [if_pos rfl, if_pos rfl]
        unfold EnrolmentTold
        rw [lastOf_snoc (⟨.inr rfl, rfl⟩ : EnrolsDomain d _)]
        simp
      · rw [if_neg hd, if_neg hd]
        refine EnrolmentTold.same I ?_
        rintro ⟨_, h⟩
        exact hd (decimal32_inj (Option.some.inj h)).symm

/-- Two of three validators, then none. -/
example :
    let c (m : Multisig.Msg) : List (Act (OwnedCall Multisig.Msg)) := [.call ⟨fun _ => true, "o", .inr m⟩ []]
    let v (x : UInt8) : Bytes := List.replicate 20 x
    let h := history (logged (silent Multisig.step) multisigIsm) (Ownable.init "o", Multisig.init)
      [c (.setValidators 1 2 [v 1, v 2, v 3]), c (.setValidators 2 1 [v 1]), c (.unsetDomain 2)]
    h.1.2.threshold.get 1 = some 2 ∧ (lastOf (EnrolsDomain 1) (all h.2)).bind (attr "validators") = some "3" ∧
    (lastOf (EnrolsDomain 1) (all h.2)).bind (attr "threshold") = some "2" ∧
    h.1.2.threshold.get 2 = none ∧ (lastOf (EnrolsDomain 2) (all h.2)).map TextEvent.ty = some "ism_multisig_unset_domain" := by
  decide +kernel

theorem get_all_erased {κ ν : Type} [LinearOrder κ] (l : List κ) (s : OMap κ ν) (k : κ) :
    (l.foldl OMap.erase s).get k = if k ∈ l then none else s.get k := by
  induction l generalizing s with
  | nil => rfl
  | cons a t ih =>
    rw [List.foldl_cons, ih, OMap.get_erase]
    by_cases h1 : k ∈ t
    · rw [if_pos h1, if_pos (List.mem_cons_of_mem _ h1)]
    · rw [if_neg h1]
      by_cases h2 : k = a
      · rw [if_pos h2, if_pos (by rw [h2]; exact List.mem_cons_self)]
      · rw [if_neg h2, if_neg (by rintro h; rcases List.mem_cons.1 h with h | h; exacts [h2 h, h1 h])]

theorem moduleTold_same {d : UInt32} {first : Option Addr} {evs : List TextEvent} {e : TextEvent} (h : ¬ RoutesDomain d e) :
    moduleTold d first (evs ++ [e]) = moduleTold d first evs := by
  unfold moduleTold
  rw [lastOf_skip h]

/-- **C90**, routing module. The module of a domain is the last one the events tell for it, none if the last event about the
domain unset it, and the one it was made with if there is no event about it. Missing are the modules it was made with. -/
theorem C90_modules_partial (owner : Addr) (modules : RoutingIsm.State) (txs : List (List (Act (OwnedCall RoutingIsm.Msg))))
    (d : UInt32) :
    let h := history (logged (silent RoutingIsm.step) routingIsm) (Ownable.init owner, modules) txs
    h.1.2.get d = moduleTold d (modules.get d) (all h.2) := by
  refine owned_induct (fun (s : Ownable.State × RoutingIsm.State) evs => s.2.get d = moduleTold d (modules.get d) evs) rfl
    ?_ ?_ txs
  · intro o s valid sender m o' evs I _
    rw [moduleTold_same]
    · exact I
    · rintro (⟨h, _⟩ | ⟨h, _⟩)
      · exact not_ownership_of (by decide) _ (List.mem_singleton.2 rfl) h
      · exact not_ownership_of (by decide) _ (List.mem_singleton.2 rfl) h
  · intro o s valid sender m s' evs I h
    cases m with
    | set d' a =>
      obtain ⟨_, _, h⟩ := bind_eq_ok.1 h
      obtain ⟨_, _, h⟩ := bind_eq_ok.1 h
      obtain ⟨_, _, hf⟩ := bind_eq_ok.1 h
      cases hf
      show (OMap.insert s d' a).get d = moduleTold d _ (evs ++ [_])
      rw [OMap.get_insert]
      by_cases hd : d = d'
      · subst hd
        rw [if_pos rfl]
        unfold moduleTold
        rw [lastOf_snoc (.inl ⟨rfl, rfl⟩ : RoutesDomain d _)]
        rfl
      · rw [if_neg hd, moduleTold_same]
        · exact I
        · rintro (⟨_, h⟩ | ⟨h, _⟩)
          · exact hd (decimal32_inj (Option.some.inj h)).symm
          · exact absurd h (by decide : ¬ "hpl_ism_routing::set" = "hpl_ism_routing::unset")
    | unset l =>
      obtain ⟨_, _, h⟩ := bind_eq_ok.1 h
      obtain ⟨_, _, hf⟩ := bind_eq_ok.1 h
      cases hf
      show (l.foldl OMap.erase s).get d = moduleTold d _ (evs ++ [_])
      rw [get_all_erased]
      by_cases hd : d ∈ l
      · rw [if_pos hd]
        unfold moduleTold
        rw [lastOf_snoc (.inr ⟨rfl, _, rfl, mem_listed_domains.2 hd⟩ : RoutesDomain d _)]
        rfl
      · rw [if_neg hd, moduleTold_same]
        · exact I
        · rintro (⟨h, _⟩ | ⟨_, t, h, hm⟩)
          · exact absurd h (by decide : ¬ "hpl_ism_routing::unset" = "hpl_ism_routing::set")
          · cases h
            exact hd (mem_listed_domains.1 hm)

/-- Set, unset and set again. -/
example :
    let c (m : RoutingIsm.Msg) : List (Act (OwnedCall RoutingIsm.Msg)) := [.call ⟨fun _ => true, "o", .inr m⟩ []]
    let s0 : RoutingIsm.State := OMap.insert (OMap.insert OMap.empty 1 "a") 2 "b"
    let h := history (logged (silent RoutingIsm.step) routingIsm) (Ownable.init "o", s0)
      [c (.set 13 "x"), c (.unset [1, 13]), c (.set 1 "y")]
    [1, 2, 13, 3].map h.1.2.get = [some "y", some "b", none, none] ∧
    [1, 2, 13, 3].map (fun d => moduleTold d (s0.get d) (all h.2)) = [some "y", some "b", none, none] := by decide +kernel

theorem ListTold.same {ty k : String} {first l : List Addr} {evs new : List TextEvent} (I : ListTold ty k first l evs)
    (h : ∀ e ∈ new, e.ty ≠ ty) : ListTold ty k first l (evs ++ new) := by
  unfold ListTold at I ⊢
  rw [lastOf_none h]
  exact I

theorem ListTold.step {ty k : String} {first l : List Addr} {evs : List TextEvent} {e : TextEvent} (h1 : e.ty = ty)
    (h2 : attr k e = some (joined l)) : ListTold ty k first l (evs ++ [e]) := by
  unfold ListTold
  rw [lastOf_snoc h1]
  rw [joined_eq] at h2
  exact ⟨h2, fun hn => ⟨_, h2, listed_commas hn⟩⟩

/-- **C90**, aggregate module and aggregate hook. Modules resp. hooks are those the last event lists, separated by commas, or
those it was made with; they can be told apart if no address is empty or has a comma inside. Missing is the threshold of the
module. -/
theorem C90_lists_partial (H : Bytes → Bytes) (owner : Addr) :
    (∀ (first : AggregateIsm.State) (txs : List (List (Act (OwnedCall AggregateIsm.Msg)))),
      let h := history (logged (silent AggregateIsm.step) aggregateIsm) (Ownable.init owner, first) txs
      ListTold "hpl_ism_aggregate::set_isms" "isms" first.isms h.1.2.isms (all h.2)) ∧
    (∀ (first : List Addr) (txs : List (List (Act (ExecCall HookEnv AggregateHook.Msg)))),
      let h := history (logged AggregateHook.execute (aggregateHook H)) (Ownable.init owner, first) txs
      ListTold "hpl_hook_aggregate::set_hooks" "hooks" first (AggregateHook.getHooks h.1) (all h.2)) := by
  refine ⟨fun first txs => ?_, fun first txs => ?_⟩
  · refine owned_induct (fun (s : Ownable.State × AggregateIsm.State) evs =>
      ListTold "hpl_ism_aggregate::set_isms" "isms" first.isms s.2.isms evs) ?_ ?_ ?_ txs
    · exact rfl
    · intro o s valid sender m o' evs I _
      exact ListTold.same I (not_ownership_of (by decide))
    · intro o s valid sender m s' evs I h
      cases m with
      | setIsms l t =>
        obtain ⟨_, _, h⟩ := bind_eq_ok.1 h
        obtain ⟨_, _, h⟩ := bind_eq_ok.1 h
        obtain ⟨_, _, h⟩ := bind_eq_ok.1 h
        obtain ⟨_, _, h⟩ := bind_eq_ok.1 h
        obtain ⟨_, _, hf⟩ := bind_eq_ok.1 h
        cases hf
        exact ListTold.step rfl rfl
  · refine exec_induct (fun (s : Ownable.State × List Addr) evs =>
      ListTold "hpl_hook_aggregate::set_hooks" "hooks" first s.2 evs) ?_ (fun _ _ _ _ _ _ => rfl) ?_ ?_ txs
    · exact rfl
    · intro o s valid sender m o' evs I _
      exact ListTold.same I (not_ownership_of (by decide))
    · intro o s e sender funds m s' r evs I h
      cases m with
      | setHooks l =>
        obtain ⟨_, _, h⟩ := bind_eq_ok.1 h
        obtain ⟨_, _, hf⟩ := bind_eq_ok.1 h
        cases hf
        exact ListTold.step rfl rfl
      | postDispatch a b =>
        obtain ⟨_, _, h⟩ := bind_eq_ok.1 h
        obtain ⟨_, _, hf⟩ := bind_eq_ok.1 h
        cases hf
        refine ListTold.same I ?_
        intro x hx
        rw [List.mem_singleton.1 hx]
        exact (by decide : "hpl_hook_aggregate::post_dispatch" ≠ "hpl_hook_aggregate::set_hooks")

/-- Two modules instead of one. -/
example :
    let h := history (logged (silent AggregateIsm.step) aggregateIsm) (Ownable.init "o", ⟨["a"], 1⟩)
      [[.call ⟨fun _ => true, "o", .inr (.setIsms ["b", "c"] 2)⟩ []]]
    h.1.2.isms = ["b", "c"] ∧ (all h.2).map (attr "isms") = [some "b,c"] ∧ listed "b,c" = ["b", "c"] := by decide +kernel

/-! ## Gas oracle -/

theorem setAll_has {s s' : Oracle.State} {l : List Oracle.Config} (h : Oracle.setAll s l = .ok s') (d : UInt32) :
    s'.has d = true ↔ d ∈ l.map Oracle.Config.domain ∨ s.has d = true := by
  induction l generalizing s with
  | nil =>
    cases h
    simp
  | cons c t ih =>
    obtain ⟨_, _, h⟩ := bind_eq_ok.1 h
    rw [ih h]
    unfold Oracle.insertGasData
    rw [OMap.has_insert]
    simp only [List.map_cons, List.mem_cons, Bool.or_eq_true, decide_eq_true_eq]
    tauto

/-- **C90**, gas oracle. It has data for a domain exactly if some event tells that data for it was set. Missing is the data. -/
theorem C90_gas_domains_partial {valid : Addr → Bool} {owner : Addr} {s0 : Ownable.State × Oracle.State}
    (h0 : Oracle.instantiate valid owner = .ok s0) (txs : List (List (Act (ExecCall (Addr → Bool) Oracle.Msg)))) (d : UInt32) :
    let h := history (logged Oracle.execute oracle) s0 txs
    (∃ x, Oracle.getData h.1 d = .ok x) ↔ ∃ e ∈ all h.2, SetsGasOf d e := by
  obtain ⟨_, _, hf⟩ := bind_eq_ok.1 h0
  cases hf
  have key := exec_induct (valid := id) (part := Oracle.part) (ev := oracle) (s0 := (Ownable.init owner, OMap.empty))
    (fun (s : Ownable.State × Oracle.State) evs => (s.2.has d = true ↔ ∃ e ∈ evs, SetsGasOf d e))
    (by simp [OMap.has, OMap.empty, OMap.get, findKey]) (fun _ _ _ _ _ _ => rfl) ?_ ?_ txs
  · intro h
    have key' : h.1.2.has d = true ↔ ∃ e ∈ all h.2, SetsGasOf d e := key
    rw [← key', OMap.has_iff]
    unfold Oracle.getData
    cases h.1.2.get d with
    | none => simp
    | some v => simp
  · intro o s valid sender m o' evs I _
    show s.has d = true ↔ _
    rw [I]
    have : ¬ SetsGasOf d (ownable sender m) := by
      rintro (⟨h, _⟩ | ⟨h, _⟩)
      · exact not_ownership_of (by decide) _ (List.mem_singleton.2 rfl) h
      · exact not_ownership_of (by decide) _ (List.mem_singleton.2 rfl) h
    simp [this]
  · intro o s e sender funds m s' r evs I h
    cases m with
    | setConfigs l =>
      obtain ⟨_, _, h⟩ := bind_eq_ok.1 h
      obtain ⟨x, hs, hf⟩ := bind_eq_ok.1 h
      cases hf
      show s'.has d = true ↔ ∃ e ∈ evs ++ [_], SetsGasOf d e
      rw [setAll_has hs d]
      have hh : SetsGasOf d ⟨"set-gas-configs", [("owner", sender), ("domains", domains (l.map Oracle.Config.domain))]⟩ ↔
          d ∈ l.map Oracle.Config.domain := by
        constructor
        · rintro (⟨h, _⟩ | ⟨_, t, h, hm⟩)
          · exact absurd h (by decide : ¬ "set-gas-configs" = "set-gas-config")
          · cases h
            exact mem_listed_domains.1 hm
        · intro h
          exact .inr ⟨rfl, _, rfl, mem_listed_domains.2 h⟩
      simp only [List.mem_append, List.mem_singleton, or_and_right, exists_or, exists_eq_left, hh]
      rw [or_comm]
      exact or_congr I Iff.rfl
    | setConfig c =>
      obtain ⟨_, _, hf⟩ := bind_eq_ok.1 h
      cases hf
      show (Oracle.insertGasData s c).has d = true ↔ ∃ e ∈ evs ++ [_], SetsGasOf d e
      unfold Oracle.insertGasData
      rw [OMap.has_insert]
      have hh : SetsGasOf d ⟨"set-gas-config", [("domain", number c.domain.toNat)]⟩ ↔ d = c.domain := by
        constructor
        · rintro (⟨_, h⟩ | ⟨h, _⟩)
          · exact (decimal32_inj (Option.some.inj h)).symm
          · exact absurd h (by decide : ¬ "set-gas-config" = "set-gas-configs")
        · rintro rfl
          exact .inl ⟨rfl, rfl⟩
      simp only [List.mem_append, List.mem_singleton, or_and_right, exists_or, exists_eq_left, hh, Bool.or_eq_true,
        decide_eq_true_eq]
      rw [or_comm]
      exact or_congr I Iff.rfl

/-- Data for 1 and 17 but not for 7. -/
example :
    let h := history (logged Oracle.execute oracle) (Ownable.init "o", OMap.empty)
      [[.call ⟨fun _ => true, "o", [], .inr (.setConfigs [⟨1, 5, 6⟩, ⟨17, 7, 8⟩])⟩ []]]
    Oracle.instantiate (fun _ => true) "o" = .ok (Ownable.init "o", OMap.empty) ∧
    [1, 17, 7].map (fun d => (Oracle.getData h.1 d).toOption) = [some ⟨5, 6⟩, some ⟨7, 8⟩, none] ∧
    (all h.2).map (attr "domains") = [some "1,17"] := by
  refine ⟨rfl, ?_⟩
  decide +kernel

/-! ## Hooks -/

/-- **C90**, fee hook and fallback hook. The fee is the last one told, or the one it was made with; the fallback hook is the last
one told. -/
theorem C90_fee_and_fallback_partial (H : Bytes → Bytes) (owner : Addr) :
    (∀ (first : Coin) (txs : List (List (Act (ExecCall HookEnv FeeHook.Msg)))),
      let h := history (logged FeeHook.execute feeHook) (Ownable.init owner, first) txs
      FeeTold first (FeeHook.getFee h.1) (all h.2)) ∧
    (∀ valid s0, FallbackHook.instantiate valid owner = .ok s0 →
      ∀ txs, let h := history (logged FallbackHook.execute (fallbackHook H)) s0 txs
      h.1.2.fallback = latest "hpl_hook_routing::set_fallback_hook" "fallback-hook" (all h.2)) := by
  refine ⟨fun first txs => ?_, fun valid s0 h0 txs => ?_⟩
  · refine exec_induct (fun (s : Ownable.State × Coin) evs => FeeTold first s.2 evs) ?_ (fun _ _ _ _ _ _ => rfl) ?_ ?_ txs
    · exact rfl
    · intro o s valid sender m o' evs I _
      unfold FeeTold
      rw [lastOf_skip (not_ownership_of (by decide) _ (List.mem_singleton.2 rfl))]
      exact I
    · intro o s e sender funds m s' r evs I h
      have skip : ∀ x : TextEvent, x.ty ≠ "hpl_hook_fee::set_fee" → FeeTold first s (evs ++ [x]) := by
        intro x hx
        unfold FeeTold
        rw [lastOf_skip hx]
        exact I
      cases m with
      | setFee f =>
        obtain ⟨_, _, hf⟩ := bind_eq_ok.1 h
        cases hf
        show FeeTold first s' (evs ++ [_])
        unfold FeeTold
        rw [lastOf_snoc (p := fun e : TextEvent => e.ty = "hpl_hook_fee::set_fee") rfl]
        exact ⟨rfl, _, rfl, number_decimal _⟩
      | claim a =>
        obtain ⟨_, _, h⟩ := bind_eq_ok.1 h
        obtain ⟨_, _, hf⟩ := bind_eq_ok.1 h
        cases hf
        exact skip _ (by decide : "hpl_hook_fee::claim" ≠ _)
      | postDispatch a b =>
        obtain ⟨_, _, h⟩ := bind_eq_ok.1 h
        obtain ⟨_, _, hf⟩ := bind_eq_ok.1 h
        cases hf
        exact skip _ (by decide : "hpl_hook_fee::post_dispatch" ≠ _)
  · obtain ⟨_, _, hf⟩ := bind_eq_ok.1 h0
    cases hf
    refine exec_induct (fun (s : Ownable.State × FallbackHook.State) evs =>
      s.2.fallback = latest "hpl_hook_routing::set_fallback_hook" "fallback-hook" evs) rfl (fun _ _ _ _ _ _ => rfl) ?_ ?_ txs
    · intro o s valid sender m o' evs I _
      rw [latest_append_none]
      · exact I
      · refine List.filter_eq_nil_iff.2 fun e he => ?_
        have := not_ownership_of (t := "hpl_hook_routing::set_fallback_hook") (by decide) e he
        simpa using this
    · intro o s e sender funds m s' r evs I h
      cases m with
      | router m =>
        obtain ⟨p, _, hf⟩ := bind_eq_ok.1 h
        cases hf
        rw [latest_append_none]
        · exact I
        · refine List.filter_eq_nil_iff.2 fun e he => ?_
          rw [List.mem_singleton.1 he]
          rcases router_types id sender m with h | h <;> rw [h] <;> decide
      | setFallback a =>
        obtain ⟨_, _, h⟩ := bind_eq_ok.1 h
        obtain ⟨_, _, hf⟩ := bind_eq_ok.1 h
        cases hf
        rw [latest_snoc rfl]
        rfl
      | postDispatch a b =>
        obtain ⟨_, _, hf⟩ := bind_eq_ok.1 h
        cases hf
        rw [latest_append_none]
        · exact I
        · refine List.filter_eq_nil_iff.2 fun e he => ?_
          rw [routed_types he]; decide

/-- A new fee is told, and so is a fallback hook. -/
example :
    let e : HookEnv := ⟨fun _ => true, [], fun _ _ _ => .ok [], fun _ => .ok []⟩
    let h := history (logged FeeHook.execute feeHook) (Ownable.init "o", ⟨"uatom", 1⟩)
      [[.call ⟨e, "o", [], .inr (.setFee ⟨"uosmo", 50⟩)⟩ []], [.call ⟨e, "x", [⟨"uosmo", 60⟩], .inr (.postDispatch [] [])⟩ []]]
    let g := history (logged FallbackHook.execute (fallbackHook id)) (Ownable.init "o", ⟨OMap.empty, none⟩)
      [[.call ⟨e, "o", [], .inr (.setFallback "f")⟩ []]]
    FeeHook.getFee h.1 = ⟨"uosmo", 50⟩ ∧ (all h.2).map (attr "fee_amount") = [some "50", none] ∧
    (all h.2).map (attr "paid_amount") = [none, some "60"] ∧ g.1.2.fallback = some "f" ∧
    latest "hpl_hook_routing::set_fallback_hook" "fallback-hook" (all g.2) = some "f" := by decide +kernel

end Hpl
