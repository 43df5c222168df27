import Verif.Lemmas.EventsOthers
import Verif.Lemmas.Hooks
import Verif.Lemmas.Warp
import Verif.Props.Events
import Verif.Props.EventsMoney

/-! # Settings of hooks, modules, routers and oracles as their events tell them (C90) -/

namespace Hpl

open Spec Events Tx

/-! ## Ownership -/

theorem owned_owners {σ μ : Type} {part : (Addr → Bool) → Ownable.State → σ → Addr → μ → Res σ}
    {f : Addr → μ → List TextEvent} (hf : ∀ sender m, ∀ e ∈ f sender m, e.ty ∉ ownershipTypes) (owner : Addr) (x : σ)
    (txs : List (List (Act (OwnedCall μ)))) :
    OwnersTold owner (history (logged (silent (ownedStep part)) (owned f)) (Ownable.init owner, x) txs).1.1.owner
      (history (logged (silent (ownedStep part)) (owned f)) (Ownable.init owner, x) txs).1.1.pending
      (all (history (logged (silent (ownedStep part)) (owned f)) (Ownable.init owner, x) txs).2) := by
  refine owned_induct (fun s evs => OwnersTold owner s.1.owner s.1.pending evs) (OwnersTold.init owner) ?_ ?_ txs
  · intro o s valid sender m o' evs I h
    exact OwnersTold.step I h
  · intro o s valid sender m s' evs I _
    exact OwnersTold.same I (hf sender m)

theorem exec_owners {ε σ μ : Type} {valid : ε → Addr → Bool}
    {part : ε → Ownable.State → σ → Addr → List Coin → μ → Res (σ × Response)}
    {ev : Ownable.State × σ → ExecCall ε μ → Response → List TextEvent}
    (he : ∀ s e sender funds m r, ev s ⟨e, sender, funds, .inl m⟩ r = [ownable sender m])
    (hf : ∀ s e sender funds m r, ∀ x ∈ ev s ⟨e, sender, funds, .inr m⟩ r, x.ty ∉ ownershipTypes) (owner : Addr) (x : σ)
    (txs : List (List (Act (ExecCall ε μ)))) :
    OwnersTold owner (history (logged (execOwned valid part) ev) (Ownable.init owner, x) txs).1.1.owner
      (history (logged (execOwned valid part) ev) (Ownable.init owner, x) txs).1.1.pending
      (all (history (logged (execOwned valid part) ev) (Ownable.init owner, x) txs).2) := by
  refine exec_induct (fun s evs => OwnersTold owner s.1.owner s.1.pending evs) (OwnersTold.init owner) he ?_ ?_ txs
  · intro o s valid sender m o' evs I h
    exact OwnersTold.step I h
  · intro o s e sender funds m s' r evs I _
    exact OwnersTold.same I (hf _ _ _ _ _ _)

theorem notOwnership_router {τ : Type} (text : τ → String) (sender : Addr) (m : Router.Msg τ) :
    (router text sender m).ty ∉ ownershipTypes := by
  rcases router_types text sender m with h | h <;> rw [h] <;> decide

theorem routed_types {H : Bytes → Bytes} {name : String} {message : Bytes} {hook : Res Addr} {e : TextEvent}
    (h : e ∈ routed H name message hook) : e.ty = name := by
  unfold routed at h
  split at h
  · rw [List.mem_singleton.1 h]
  · cases h

theorem warpHandle_types {n : WarpNames} {C : Codec} {s : Warp.State} {b : Bytes} {x : TextEvent}
    (hx : x ∈ warpHandle n C s b) : x.ty = n.name ++ "handle" := by
  unfold warpHandle at hx
  split at hx
  · cases hx
  · split at hx
    · cases hx
    · rw [List.mem_singleton.1 hx]

/-- **C90**, owners of security modules. Whoever has seen the events of a module knows who owns it and who may claim it. -/
theorem C90_module_owners_partial (owner : Addr) :
    (∀ paused txs, let h := history (logged (silent pausableStep) pausableIsm) (Ownable.init owner, paused) txs
      OwnersTold owner h.1.1.owner h.1.1.pending (all h.2)) ∧
    (∀ txs, let h := history (logged (silent Multisig.step) multisigIsm) (Ownable.init owner, Multisig.init) txs
      OwnersTold owner h.1.1.owner h.1.1.pending (all h.2)) ∧
    (∀ modules txs, let h := history (logged (silent RoutingIsm.step) routingIsm) (Ownable.init owner, modules) txs
      OwnersTold owner h.1.1.owner h.1.1.pending (all h.2)) ∧
    (∀ isms txs, let h := history (logged (silent AggregateIsm.step) aggregateIsm) (Ownable.init owner, isms) txs
      OwnersTold owner h.1.1.owner h.1.1.pending (all h.2)) := by
  refine ⟨fun _ txs => owned_owners ?_ owner _ txs, fun txs => owned_owners ?_ owner _ txs,
    fun _ txs => owned_owners ?_ owner _ txs, fun _ txs => owned_owners ?_ owner _ txs⟩
  · intro sender m e he
    rw [List.mem_singleton.1 he]
    cases m
    · exact (by decide : "hpl_pausable::pause" ∉ ownershipTypes)
    · exact (by decide : "hpl_pausable::release" ∉ ownershipTypes)
  · intro sender m e he
    cases m with
    | setValidators d t vs =>
      rw [List.mem_singleton.1 he]
      exact (by decide : "ism_multisig_set_validators" ∉ ownershipTypes)
    | unsetDomain d =>
      rw [List.mem_singleton.1 he]
      exact (by decide : "ism_multisig_unset_domain" ∉ ownershipTypes)
  · intro sender m e he
    cases m with
    | set d a => rw [List.mem_singleton.1 he]; exact (by decide : "hpl_ism_routing::set" ∉ ownershipTypes)
    | unset l => rw [List.mem_singleton.1 he]; exact (by decide : "hpl_ism_routing::unset" ∉ ownershipTypes)
  · intro sender m e he
    cases m with
    | setIsms l t => rw [List.mem_singleton.1 he]; exact (by decide : "hpl_ism_aggregate::set_isms" ∉ ownershipTypes)

/-- **C90**, owners of hooks, gas oracle and token routers. The same for these. -/
theorem C90_hook_owners_partial (H : Bytes → Bytes) (C : Codec) (owner : Addr) :
    (∀ x txs, let h := history (logged Oracle.execute oracle) (Ownable.init owner, x) txs
      OwnersTold owner h.1.1.owner h.1.1.pending (all h.2)) ∧
    (∀ x txs, let h := history (logged FeeHook.execute feeHook) (Ownable.init owner, x) txs
      OwnersTold owner h.1.1.owner h.1.1.pending (all h.2)) ∧
    (∀ x txs, let h := history (logged PausableHook.execute pausableHook) (Ownable.init owner, x) txs
      OwnersTold owner h.1.1.owner h.1.1.pending (all h.2)) ∧
    (∀ x txs, let h := history (logged AggregateHook.execute (aggregateHook H)) (Ownable.init owner, x) txs
      OwnersTold owner h.1.1.owner h.1.1.pending (all h.2)) ∧
    (∀ x txs, let h := history (logged RoutingHook.execute (routingHook H)) (Ownable.init owner, x) txs
      OwnersTold owner h.1.1.owner h.1.1.pending (all h.2)) ∧
    (∀ x txs, let h := history (logged FallbackHook.execute (fallbackHook H)) (Ownable.init owner, x) txs
      OwnersTold owner h.1.1.owner h.1.1.pending (all h.2)) ∧
    (∀ x txs, let h := history (logged CustomHook.execute (customHook H)) (Ownable.init owner, x) txs
      OwnersTold owner h.1.1.owner h.1.1.pending (all h.2)) ∧
    (∀ self x txs, let h := history (logged (Warp.execute Warp.native C self) (warp warpNative C)) (Ownable.init owner, x) txs
      OwnersTold owner h.1.1.owner h.1.1.pending (all h.2)) ∧
    (∀ self x txs, let h := history (logged (Warp.execute Warp.cw20 C self) (warp warpCw20 C)) (Ownable.init owner, x) txs
      OwnersTold owner h.1.1.owner h.1.1.pending (all h.2)) := by
  have hw : ∀ n : WarpNames, (n.name ++ "handle") ∉ ownershipTypes → (n.name ++ "transfer-remote") ∉ ownershipTypes →
      ∀ s e sender funds m r, ∀ x ∈ warp n C s ⟨e, sender, funds, .inr m⟩ r, x.ty ∉ ownershipTypes := by
    intro n h1 h2 s e sender funds m r x hx
    cases m with
    | router m => rw [List.mem_singleton.1 hx]; exact notOwnership_router _ _ _
    | connection m =>
      rw [List.mem_singleton.1 hx]
      cases m
      · exact (by decide : "hpl_connection::set_mailbox" ∉ ownershipTypes)
      · exact (by decide : "hpl_connection::set_ism" ∉ ownershipTypes)
      · exact (by decide : "hpl_connection::set_hook" ∉ ownershipTypes)
    | handle o ms b =>
      rw [warpHandle_types hx]; exact h1
    | transferRemote d rc k hook md => rw [List.mem_singleton.1 hx]; exact h2
  refine ⟨fun _ txs => exec_owners (fun _ _ _ _ _ _ => rfl) ?_ owner _ txs,
    fun _ txs => exec_owners (fun _ _ _ _ _ _ => rfl) ?_ owner _ txs,
    fun _ txs => exec_owners (fun _ _ _ _ _ _ => rfl) ?_ owner _ txs,
    fun _ txs => exec_owners (fun _ _ _ _ _ _ => rfl) ?_ owner _ txs,
    fun _ txs => exec_owners (fun _ _ _ _ _ _ => rfl) ?_ owner _ txs,
    fun _ txs => exec_owners (fun _ _ _ _ _ _ => rfl) ?_ owner _ txs,
    fun _ txs => exec_owners (fun _ _ _ _ _ _ => rfl) ?_ owner _ txs,
    fun _ _ txs => exec_owners (fun _ _ _ _ _ _ => rfl) (hw warpNative (by decide) (by decide)) owner _ txs,
    fun _ _ txs => exec_owners (fun _ _ _ _ _ _ => rfl) (hw warpCw20 (by decide) (by decide)) owner _ txs⟩
  · intro s e sender funds m r x hx
    cases m with
    | setConfigs l => rw [List.mem_singleton.1 hx]; exact (by decide : "set-gas-configs" ∉ ownershipTypes)
    | setConfig l => rw [List.mem_singleton.1 hx]; exact (by decide : "set-gas-config" ∉ ownershipTypes)
  · intro s e sender funds m r x hx
    cases m with
    | setFee f => rw [List.mem_singleton.1 hx]; exact (by decide : "hpl_hook_fee::set_fee" ∉ ownershipTypes)
    | claim f => rw [List.mem_singleton.1 hx]; exact (by decide : "hpl_hook_fee::claim" ∉ ownershipTypes)
    | postDispatch a b => rw [List.mem_singleton.1 hx]; exact (by decide : "hpl_hook_fee::post_dispatch" ∉ ownershipTypes)
  · intro s e sender funds m r x hx
    cases m with
    | pausable m =>
      rw [List.mem_singleton.1 hx]
      cases m
      · exact (by decide : "hpl_pausable::pause" ∉ ownershipTypes)
      · exact (by decide : "hpl_pausable::release" ∉ ownershipTypes)
    | postDispatch a b => cases hx
  · intro s e sender funds m r x hx
    cases m with
    | setHooks f => rw [List.mem_singleton.1 hx]; exact (by decide : "hpl_hook_aggregate::set_hooks" ∉ ownershipTypes)
    | postDispatch a b =>
      rw [List.mem_singleton.1 hx]; exact (by decide : "hpl_hook_aggregate::post_dispatch" ∉ ownershipTypes)
  · intro s e sender funds m r x hx
    cases m with
    | router m => rw [List.mem_singleton.1 hx]; exact notOwnership_router _ _ _
    | postDispatch a b =>
      rw [routed_types hx]; decide
  · intro s e sender funds m r x hx
    cases m with
    | router m => rw [List.mem_singleton.1 hx]; exact notOwnership_router _ _ _
    | setFallback a =>
      rw [List.mem_singleton.1 hx]; exact (by decide : "hpl_hook_routing::set_fallback_hook" ∉ ownershipTypes)
    | postDispatch a b => rw [routed_types hx]; decide
  · intro s e sender funds m r x hx
    cases m with
    | router m => rw [List.mem_singleton.1 hx]; exact notOwnership_router _ _ _
    | register l =>
      rw [List.mem_singleton.1 hx]; exact (by decide : "hpl_hook_routing_custom::register" ∉ ownershipTypes)
    | clear l =>
      rw [List.mem_singleton.1 hx]; exact (by decide : "hpl_hook_routing_custom::clear" ∉ ownershipTypes)
    | postDispatch a b => rw [routed_types hx]; decide

/-- `b` is named, a stranger fails to claim, `b` claims and names `c`. -/
example :
    let c (a : Addr) (m : Ownable.Msg) : List (Act (OwnedCall Multisig.Msg)) := [.call ⟨fun _ => true, a, .inl m⟩ []]
    let h := history (logged (silent Multisig.step) multisigIsm) (Ownable.init "o", Multisig.init)
      [c "o" (.initTransfer "b"), c "x" .claim, c "b" .claim, c "b" (.initTransfer "c")]
    h.1.1.owner = some "b" ∧ h.1.1.pending = some "c" ∧ latest "hpl_ownable::claim" "owner" (all h.2) = some "b" ∧
    (lastOf (fun e => e.ty ∈ ownershipTypes) (all h.2)).bind (attr "next_owner") = some "c" := by decide +kernel

/-! ## Pausing -/

theorem pausedTold_step {first : Bool} {own : Ownable.State} {p p' : Bool} {sender : Addr} {m : Pausable.Msg}
    {evs : List TextEvent} (h : Pausable.handle own p sender m = .ok p') : p' = pausedTold first (evs ++ [pausable sender m]) := by
  obtain ⟨_, _, h⟩ := Pausable.handle_ok.1 h
  unfold pausedTold
  cases m with
  | pause =>
    rw [lastOf_snoc (.inl rfl)]
    simp only [iff_true] at h
    rw [h]
    rfl
  | release =>
    rw [lastOf_snoc (.inr rfl)]
    have : p' = false := by
      cases p' with
      | false => rfl
      | true => exact absurd (h.1 rfl) (by decide)
    rw [this]
    rfl

theorem pausedTold_same {first : Bool} {evs new : List TextEvent}
    (h : ∀ e ∈ new, e.ty ≠ "hpl_pausable::pause" ∧ e.ty ≠ "hpl_pausable::release") :
    pausedTold first (evs ++ new) = pausedTold first evs := by
  unfold pausedTold
  rw [lastOf_none (by intro e he; have := h e he; rintro (h | h); exacts [this.1 h, this.2 h])]

theorem not_ownership_of {sender : Addr} {m : Ownable.Msg} {t : String} (h : t ∉ ownershipTypes) :
    ∀ e ∈ [ownable sender m], e.ty ≠ t := by
  intro e he hh
  rw [List.mem_singleton.1 he] at hh
  exact h (hh ▸ ownable_types sender m)

/-- **C90**, pausing. The pausable module and the pausable hook are paused exactly if the last event about pausing says so; with
no such event they are as they were made. -/
theorem C90_paused_partial (owner : Addr) (paused : Bool) :
    (∀ txs, let h := history (logged (silent pausableStep) pausableIsm) (Ownable.init owner, paused) txs
      h.1.2 = pausedTold paused (all h.2)) ∧
    (∀ txs, let h := history (logged PausableHook.execute pausableHook) (Ownable.init owner, paused) txs
      h.1.2 = pausedTold paused (all h.2)) := by
  have ho : ∀ sender m, ∀ e ∈ [ownable sender m], e.ty ≠ "hpl_pausable::pause" ∧ e.ty ≠ "hpl_pausable::release" :=
    fun sender m e he => ⟨not_ownership_of (by decide) e he, not_ownership_of (by decide) e he⟩
  refine ⟨fun txs => ?_, fun txs => ?_⟩
  · refine owned_induct (fun s evs => s.2 = pausedTold paused evs) rfl ?_ ?_ txs
    · intro o s valid sender m o' evs I _
      rw [pausedTold_same (ho sender m)]; exact I
    · intro o s valid sender m s' evs _ h
      exact pausedTold_step h
  · refine exec_induct (fun s evs => s.2 = pausedTold paused evs) rfl (fun _ _ _ _ _ _ => rfl) ?_ ?_ txs
    · intro o s valid sender m o' evs I _
      rw [pausedTold_same (ho sender m)]; exact I
    · intro o s e sender funds m s' r evs I h
      cases m with
      | pausable m =>
        obtain ⟨p, h1, hf⟩ := bind_eq_ok.1 h
        cases hf
        exact pausedTold_step h1
      | postDispatch a b =>
        obtain ⟨_, _, hf⟩ := bind_eq_ok.1 h
        cases hf
        show s = pausedTold paused (evs ++ [])
        rw [List.append_nil]; exact I

/-! ## Routes and connections -/

/-- Paused, released and paused again. -/
example :
    let c (m : Pausable.Msg) : List (Act (OwnedCall Pausable.Msg)) := [.call ⟨fun _ => true, "o", .inr m⟩ []]
    let h := history (logged (silent pausableStep) pausableIsm) (Ownable.init "o", false) [c .pause, c .release, c .pause]
    h.1.2 = true ∧ pausedTold false (all h.2) = true ∧
    (all h.2).map TextEvent.ty = ["hpl_pausable::pause", "hpl_pausable::release", "hpl_pausable::pause"] := by decide +kernel

theorem not_routes_ownable (sender : Addr) (m : Ownable.Msg) :
    ∀ e ∈ [ownable sender m], e.ty ≠ "hpl_router::set_route" ∧ e.ty ≠ "hpl_router::set_routes" :=
  fun e he => ⟨not_ownership_of (by decide) e he, not_ownership_of (by decide) e he⟩

theorem not_routes_of_ty {new : List TextEvent} {t : String} (ht : ∀ e ∈ new, e.ty = t)
    (h1 : t ≠ "hpl_router::set_route") (h2 : t ≠ "hpl_router::set_routes") :
    ∀ e ∈ new, e.ty ≠ "hpl_router::set_route" ∧ e.ty ≠ "hpl_router::set_routes" :=
  fun e he => by rw [ht e he]; exact ⟨h1, h2⟩

/-- **C90**, routes. The route a hook, the paymaster or a token router has for a domain is the last one its events tell for it;
a route told as `null` is none. -/
theorem C90_routes_partial (H : Bytes → Bytes) (C : Codec) :
    (∀ valid owner s0, RoutingHook.instantiate valid owner = .ok s0 →
      ∀ txs d, let h := history (logged RoutingHook.execute (routingHook H)) s0 txs
      Router.getRoute h.1.2 d = routeTold d (all h.2)) ∧
    (∀ valid owner s0, FallbackHook.instantiate valid owner = .ok s0 →
      ∀ txs d, let h := history (logged FallbackHook.execute (fallbackHook H)) s0 txs
      Router.getRoute h.1.2.routes d = routeTold d (all h.2)) ∧
    (∀ valid owner s0, CustomHook.instantiate valid owner = .ok s0 →
      ∀ txs d, let h := history (logged CustomHook.execute (customHook H)) s0 txs
      Router.getRoute h.1.2.routes d = routeTold d (all h.2)) ∧
    (∀ lower valid sup hrp owner token ben dg s0, Igp.instantiate lower valid sup hrp owner token ben dg = .ok s0 →
      ∀ txs d, let h := history (logged (Igp.execute C) (igp C H)) s0 txs
      Router.getRoute h.1.2.routes d = routeTold d (all h.2)) ∧
    (∀ k n self valid hrp owner mailbox mode token s0, n ∈ [warpNative, warpCw20] →
      Warp.instantiate valid hrp owner mailbox mode token = .ok s0 →
      ∀ txs d, let h := history (logged (Warp.execute k C self) (warp n C)) s0 txs
      (Router.getRoute h.1.2.routes d).map hexText = routeTold d (all h.2)) := by
  have hid : ∀ (s : Router.State Addr) (d : UInt32), Router.getRoute s d = (Router.getRoute s d).map id := by
    intro s d; rw [Option.map_id]; rfl
  have hhex : (hex : Bytes → String) = hexText := funext hex_eq
  refine ⟨?_, ?_, ?_, ?_, ?_⟩
  · intro valid owner s0 h0 txs d
    obtain ⟨_, _, hf⟩ := bind_eq_ok.1 h0
    cases hf
    show Router.getRoute _ d = _
    rw [hid]
    refine RoutesTold.get (text := id) ?_ d
    refine exec_induct (fun s evs => RoutesTold id s.2 evs) (RoutesTold.init id) (fun _ _ _ _ _ _ => rfl) ?_ ?_ txs
    · intro o s valid sender m o' evs I _
      exact RoutesTold.same I (not_routes_ownable sender m)
    · intro o s e sender funds m s' r evs I h
      cases m with
      | router m =>
        obtain ⟨p, h1, hf⟩ := bind_eq_ok.1 h
        cases hf
        exact RoutesTold.step I h1
      | postDispatch a b =>
        obtain ⟨_, _, hf⟩ := bind_eq_ok.1 h
        cases hf
        exact RoutesTold.same I (not_routes_of_ty (fun e he => routed_types he) (by decide) (by decide))
  · intro valid owner s0 h0 txs d
    obtain ⟨_, _, hf⟩ := bind_eq_ok.1 h0
    cases hf
    show Router.getRoute _ d = _
    rw [hid]
    refine RoutesTold.get (text := id) ?_ d
    refine exec_induct (fun (s : Ownable.State × FallbackHook.State) evs => RoutesTold id s.2.routes evs) (RoutesTold.init id) (fun _ _ _ _ _ _ => rfl) ?_ ?_ txs
    · intro o s valid sender m o' evs I _
      exact RoutesTold.same I (not_routes_ownable sender m)
    · intro o s e sender funds m s' r evs I h
      cases m with
      | router m =>
        obtain ⟨p, h1, hf⟩ := bind_eq_ok.1 h
        cases hf
        exact RoutesTold.step I h1
      | setFallback a =>
        obtain ⟨_, _, h⟩ := bind_eq_ok.1 h
        obtain ⟨_, _, hf⟩ := bind_eq_ok.1 h
        cases hf
        exact RoutesTold.same I (not_routes_of_ty (t := "hpl_hook_routing::set_fallback_hook")
          (fun e he => by rw [List.mem_singleton.1 he]) (by decide) (by decide))
      | postDispatch a b =>
        obtain ⟨_, _, hf⟩ := bind_eq_ok.1 h
        cases hf
        exact RoutesTold.same I (not_routes_of_ty (fun e he => routed_types he) (by decide) (by decide))
  · intro valid owner s0 h0 txs d
    obtain ⟨_, _, hf⟩ := bind_eq_ok.1 h0
    cases hf
    show Router.getRoute _ d = _
    rw [hid]
    refine RoutesTold.get (text := id) ?_ d
    refine exec_induct (fun (s : Ownable.State × CustomHook.State) evs => RoutesTold id s.2.routes evs) (RoutesTold.init id) (fun _ _ _ _ _ _ => rfl) ?_ ?_ txs
    · intro o s valid sender m o' evs I _
      exact RoutesTold.same I (not_routes_ownable sender m)
    · intro o s e sender funds m s' r evs I h
      cases m with
      | router m =>
        obtain ⟨p, h1, hf⟩ := bind_eq_ok.1 h
        cases hf
        exact RoutesTold.step I h1
      | register l =>
        obtain ⟨_, _, h⟩ := bind_eq_ok.1 h
        obtain ⟨_, _, hf⟩ := bind_eq_ok.1 h
        cases hf
        exact RoutesTold.same I (not_routes_of_ty (t := "hpl_hook_routing_custom::register")
          (fun e he => by rw [List.mem_singleton.1 he]) (by decide) (by decide))
      | clear l =>
        obtain ⟨_, _, h⟩ := bind_eq_ok.1 h
        obtain ⟨_, _, hf⟩ := bind_eq_ok.1 h
        cases hf
        exact RoutesTold.same I (not_routes_of_ty (t := "hpl_hook_routing_custom::clear")
          (fun e he => by rw [List.mem_singleton.1 he]) (by decide) (by decide))
      | postDispatch a b =>
        obtain ⟨_, _, hf⟩ := bind_eq_ok.1 h
        cases hf
        exact RoutesTold.same I (not_routes_of_ty (fun e he => routed_types he) (by decide) (by decide))
  · intro lower valid sup hrp owner token ben dg s0 h0 txs d
    obtain ⟨_, _, h0⟩ := bind_eq_ok.1 h0
    obtain ⟨_, _, h0⟩ := bind_eq_ok.1 h0
    obtain ⟨_, _, h0⟩ := bind_eq_ok.1 h0
    obtain ⟨_, _, hf⟩ := bind_eq_ok.1 h0
    cases hf
    show Router.getRoute _ d = _
    rw [hid]
    refine RoutesTold.get (text := id) ?_ d
    refine exec_induct (fun (s : Ownable.State × Igp.State) evs => RoutesTold id s.2.routes evs) (RoutesTold.init id) (fun _ _ _ _ _ _ => rfl) ?_ ?_ txs
    · intro o s valid sender m o' evs I _
      exact RoutesTold.same I (not_routes_ownable sender m)
    · intro o s e sender funds m s' r evs I h
      have one : ∀ (x : TextEvent), x.ty ≠ "hpl_router::set_route" → x.ty ≠ "hpl_router::set_routes" →
          RoutesTold id s.routes (evs ++ [x]) := fun x h1 h2 =>
        RoutesTold.same I (not_routes_of_ty (t := x.ty) (fun e he => by rw [List.mem_singleton.1 he]) h1 h2)
      cases m with
      | router m =>
        obtain ⟨p, h1, hf⟩ := bind_eq_ok.1 h
        cases hf
        exact RoutesTold.step I h1
      | postDispatch a b =>
        obtain ⟨_, _, hf⟩ := bind_eq_ok.1 h
        cases hf
        refine RoutesTold.same I ?_
        intro x hx
        rcases List.mem_append.1 hx with hx | hx
        · rw [paymentFor_types x hx]; decide
        · rw [List.mem_singleton.1 hx]
          exact (by decide : "igp-core-post-dispatch" ≠ "hpl_router::set_route" ∧
            "igp-core-post-dispatch" ≠ "hpl_router::set_routes")
      | setDefaultGas g =>
        obtain ⟨_, _, hf⟩ := bind_eq_ok.1 h
        cases hf
        exact one _ (by decide : "igp-core-set-default-gas" ≠ _) (by decide : "igp-core-set-default-gas" ≠ _)
      | setGasForDomain l =>
        obtain ⟨_, _, hf⟩ := bind_eq_ok.1 h
        cases hf
        exact one _ (by decide : "igp-core-set-gas-for-domain" ≠ _) (by decide : "igp-core-set-gas-for-domain" ≠ _)
      | unsetGasForDomain l =>
        obtain ⟨_, _, hf⟩ := bind_eq_ok.1 h
        cases hf
        exact one _ (by decide : "igp-core-unset-gas-for-domain" ≠ _) (by decide : "igp-core-unset-gas-for-domain" ≠ _)
      | setBeneficiary a =>
        obtain ⟨_, _, h⟩ := bind_eq_ok.1 h
        obtain ⟨_, _, hf⟩ := bind_eq_ok.1 h
        cases hf
        exact one _ (by decide : "igp-core-set-beneficiary" ≠ _) (by decide : "igp-core-set-beneficiary" ≠ _)
      | payForGas i d g a =>
        obtain ⟨_, _, hf⟩ := bind_eq_ok.1 h
        cases hf
        exact RoutesTold.same I (not_routes_of_ty payment_types (by decide) (by decide))
      | claim =>
        obtain ⟨_, _, hf⟩ := bind_eq_ok.1 h
        cases hf
        exact one _ (by decide : "igp-core-claim" ≠ _) (by decide : "igp-core-claim" ≠ _)
  · intro k n self valid hrp owner mailbox mode token s0 hn h0 txs d
    obtain ⟨_, _, h0⟩ := bind_eq_ok.1 h0
    obtain ⟨_, _, hf⟩ := bind_eq_ok.1 h0
    cases hf
    show (Router.getRoute _ d).map hexText = _
    rw [← hhex]
    refine RoutesTold.get (text := hex) ?_ d
    refine exec_induct (fun (s : Ownable.State × Warp.State) evs => RoutesTold hex s.2.routes evs) (RoutesTold.init hex) (fun _ _ _ _ _ _ => rfl) ?_ ?_ txs
    · intro o s valid sender m o' evs I _
      exact RoutesTold.same I (not_routes_ownable sender m)
    · intro o s e sender funds m s' r evs I h
      have names : n.name ++ "handle" ≠ "hpl_router::set_route" ∧ n.name ++ "handle" ≠ "hpl_router::set_routes" ∧
          n.name ++ "transfer-remote" ≠ "hpl_router::set_route" ∧ n.name ++ "transfer-remote" ≠ "hpl_router::set_routes" := by
        rcases List.mem_cons.1 hn with rfl | hn
        · decide
        · rw [List.mem_singleton.1 hn]; decide
      cases m with
      | router m =>
        obtain ⟨p, h1, hf⟩ := bind_eq_ok.1 h
        cases hf
        exact RoutesTold.step I h1
      | connection m =>
        obtain ⟨_, _, hf⟩ := bind_eq_ok.1 h
        cases hf
        refine RoutesTold.same I ?_
        intro x hx
        rw [List.mem_singleton.1 hx]
        cases m
        · exact (by decide : "hpl_connection::set_mailbox" ≠ "hpl_router::set_route" ∧
            "hpl_connection::set_mailbox" ≠ "hpl_router::set_routes")
        · exact (by decide : "hpl_connection::set_ism" ≠ "hpl_router::set_route" ∧
            "hpl_connection::set_ism" ≠ "hpl_router::set_routes")
        · exact (by decide : "hpl_connection::set_hook" ≠ "hpl_router::set_route" ∧
            "hpl_connection::set_hook" ≠ "hpl_router::set_routes")
      | handle ori ms b =>
        obtain ⟨_, _, hf⟩ := bind_eq_ok.1 h
        cases hf
        exact RoutesTold.same I (not_routes_of_ty (fun x hx => warpHandle_types hx) names.1 names.2.1)
      | transferRemote dd rc kk hook md =>
        obtain ⟨_, _, hf⟩ := bind_eq_ok.1 h
        cases hf
        exact RoutesTold.same I (not_routes_of_ty (fun x hx => by rw [List.mem_singleton.1 hx]; rfl) names.2.2.1 names.2.2.2)

/-- Routes are set, replaced and removed. -/
example :
    let e : HookEnv := ⟨fun _ => true, [], fun _ _ _ => .ok [], fun _ => .ok []⟩
    let c (m : Router.Msg Addr) : List (Act (ExecCall HookEnv RoutingHook.Msg)) := [.call ⟨e, "o", [], .inr (.router m)⟩ []]
    let h := history (logged RoutingHook.execute (routingHook id)) (Ownable.init "o", OMap.empty)
      [c (.setRoute (1, some "a")), c (.setRoutes [(2, some "b"), (1, some "d")]), c (.setRoute (2, none))]
    Router.getRoute h.1.2 1 = some "d" ∧ routeTold 1 (all h.2) = some "d" ∧
    Router.getRoute h.1.2 2 = none ∧ routeTold 2 (all h.2) = none ∧
    (all h.2).map (attr "set") = [some "{\"domain\":1,\"route\":\"a\"}",
      some "[{\"domain\":2,\"route\":\"b\"},{\"domain\":1,\"route\":\"d\"}]", some "{\"domain\":2,\"route\":null}"] := by
  decide +kernel

/-- **C90**, connections. Mailbox, security module and hook a token router is connected to are the last ones its events tell;
before that there are none. -/
theorem C90_connections_partial (C : Codec) (k : Warp.Kind) (n : WarpNames) (self : Addr) (hn : n ∈ [warpNative, warpCw20])
    {valid : Addr → Bool} {hrp : String} {owner mailbox : Addr} {mode : Warp.Mode} {token : Option String}
    {s0 : Ownable.State × Warp.State} (h0 : Warp.instantiate valid hrp owner mailbox mode token = .ok s0)
    (txs : List (List (Act (ExecCall (Addr → Bool) Warp.Msg)))) :
    let h := history (logged (Warp.execute k C self) (warp n C)) s0 txs
    h.1.2.conn.mailbox = latest "hpl_connection::set_mailbox" "mailbox" (all h.2) ∧
    h.1.2.conn.ism = latest "hpl_connection::set_ism" "ism" (all h.2) ∧
    h.1.2.conn.hook = latest "hpl_connection::set_hook" "hook" (all h.2) := by
  obtain ⟨_, _, h0⟩ := bind_eq_ok.1 h0
  obtain ⟨_, _, hf⟩ := bind_eq_ok.1 h0
  cases hf
  have skip : ∀ (evs new : List TextEvent) (t : String) (s : Connection.State), (∀ e ∈ new, e.ty = t) →
      t ≠ "hpl_connection::set_mailbox" → t ≠ "hpl_connection::set_ism" → t ≠ "hpl_connection::set_hook" →
      (s.mailbox = latest "hpl_connection::set_mailbox" "mailbox" evs ∧ s.ism = latest "hpl_connection::set_ism" "ism" evs ∧
        s.hook = latest "hpl_connection::set_hook" "hook" evs) →
      s.mailbox = latest "hpl_connection::set_mailbox" "mailbox" (evs ++ new) ∧
        s.ism = latest "hpl_connection::set_ism" "ism" (evs ++ new) ∧
        s.hook = latest "hpl_connection::set_hook" "hook" (evs ++ new) := by
    intro evs new t s ht a b c I
    have no : ∀ u, t ≠ u → ofType u new = [] := fun u hu =>
      List.filter_eq_nil_iff.2 fun e he => by simp [ht e he, hu]
    rw [latest_append_none (no _ a), latest_append_none (no _ b), latest_append_none (no _ c)]
    exact I
  have names : ∀ x ∈ [n.name ++ "handle", n.name ++ "transfer-remote"], x ≠ "hpl_connection::set_mailbox" ∧
      x ≠ "hpl_connection::set_ism" ∧ x ≠ "hpl_connection::set_hook" := by
    rcases List.mem_cons.1 hn with rfl | hn
    · decide
    · rw [List.mem_singleton.1 hn]; decide
  refine exec_induct (fun (s : Ownable.State × Warp.State) evs => s.2.conn.mailbox = latest "hpl_connection::set_mailbox" "mailbox" evs ∧
    s.2.conn.ism = latest "hpl_connection::set_ism" "ism" evs ∧
    s.2.conn.hook = latest "hpl_connection::set_hook" "hook" evs) ⟨rfl, rfl, rfl⟩ (fun _ _ _ _ _ _ => rfl) ?_ ?_ txs
  · intro o s valid sender m o' evs I _
    have ht : ∀ e ∈ [ownable sender m], e.ty = (ownable sender m).ty := fun e he => by rw [List.mem_singleton.1 he]
    have hne := fun t (h : t ∉ ownershipTypes) => not_ownership_of h (ownable sender m) (List.mem_singleton.2 rfl)
    exact skip evs _ _ s.conn ht (hne _ (by decide)) (hne _ (by decide)) (hne _ (by decide)) I
  · intro o s e sender funds m s' r evs I h
    cases m with
    | router m =>
      obtain ⟨p, _, hf⟩ := bind_eq_ok.1 h
      cases hf
      refine skip evs _ (router hex sender m).ty s.conn (fun e he => by rw [List.mem_singleton.1 he]) ?_ ?_ ?_ I <;>
        rcases router_types hex sender m with h | h <;> rw [h] <;> decide
    | connection m =>
      obtain ⟨c, hc, hf⟩ := bind_eq_ok.1 h
      cases hf
      obtain ⟨_, hc⟩ := Connection.handle_ok.1 hc
      show c.mailbox = latest _ _ (evs ++ [Events.connection m]) ∧ c.ism = latest _ _ (evs ++ [Events.connection m]) ∧
        c.hook = latest _ _ (evs ++ [Events.connection m])
      cases m with
      | setMailbox a =>
        obtain ⟨_, rfl⟩ := hc
        refine ⟨?_, ?_, ?_⟩
        · rw [latest_snoc rfl]; rfl
        · rw [latest_append_none rfl]; exact I.2.1
        · rw [latest_append_none rfl]; exact I.2.2
      | setIsm a =>
        obtain ⟨_, rfl⟩ := hc
        refine ⟨?_, ?_, ?_⟩
        · rw [latest_append_none rfl]; exact I.1
        · rw [latest_snoc rfl]; rfl
        · rw [latest_append_none rfl]; exact I.2.2
      | setHook a =>
        obtain ⟨_, rfl⟩ := hc
        refine ⟨?_, ?_, ?_⟩
        · rw [latest_append_none rfl]; exact I.1
        · rw [latest_append_none rfl]; exact I.2.1
        · rw [latest_snoc rfl]; rfl
    | handle ori ms b =>
      obtain ⟨_, _, hf⟩ := bind_eq_ok.1 h
      cases hf
      obtain ⟨a, b, c⟩ := names (n.name ++ "handle") (by simp)
      exact skip evs _ _ s.conn (fun x hx => warpHandle_types hx) a b c I
    | transferRemote dd rc kk hook md =>
      obtain ⟨_, _, hf⟩ := bind_eq_ok.1 h
      cases hf
      obtain ⟨a, b, c⟩ := names (n.name ++ "transfer-remote") (by simp)
      exact skip evs _ _ s.conn (fun x hx => by rw [List.mem_singleton.1 hx]; rfl) a b c I

/-- The module is replaced. -/
example :
    let c (m : Connection.Msg) : List (Act (ExecCall (Addr → Bool) Warp.Msg)) :=
      [.call ⟨fun _ => true, "o", [], .inr (.connection m)⟩ []]
    let s0 : Ownable.State × Warp.State := (Ownable.init "o", ⟨some "uosmo", .collateral, "osmo", "mb", Connection.empty, OMap.empty⟩)
    let h := history (logged (Warp.execute Warp.native Bech.codec "self") (warp warpNative Bech.codec)) s0
      [c (.setIsm "i"), c (.setHook "k"), c (.setIsm "j")]
    (h.1.2.conn.mailbox, h.1.2.conn.ism, h.1.2.conn.hook) = (none, some "j", some "k") ∧
    latest "hpl_connection::set_ism" "ism" (all h.2) = some "j" := by decide +kernel

end Hpl
