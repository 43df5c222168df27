import Verif.Lemmas.Start
import Verif.Props.Deploy
import Verif.Props.Events
import Verif.Props.EventsHooks
import Verif.Props.EventsMoney
import Verif.Props.EventsOthers
import Verif.Props.EventsSettings
import Verif.Props.Va

/-! # Making contracts (C95, C96) -/

namespace Hpl

open Spec Events Tx

namespace Start

section Made

variable {valid : Addr → Bool} {sender owner : Addr} {evs : List TextEvent}

theorem made_ok {σ : Type} {r : Res σ} {f : σ → List TextEvent} {s : σ}
    (h : (do let s ← r; return (s, f s)) = (.ok (s, evs) : Res (σ × List TextEvent))) : r = .ok s ∧ evs = f s := by
  obtain ⟨x, h1, h2⟩ := bind_eq_ok.1 h
  cases h2
  exact ⟨h1, rfl⟩

theorem valid_ok {σ : Type} {b : Bool} {tag : String} {x s : σ} (h : (do ensure b tag; return x) = (.ok s : Res σ)) :
    b = true ∧ s = x := by
  obtain ⟨_, h1, h2⟩ := bind_eq_ok.1 h
  cases h2
  exact ⟨ensure_eq_ok.1 h1, rfl⟩

theorem aggregateHook_ok {hooks : List Addr} {s : Ownable.State × List Addr}
    (h : aggregateHook valid sender owner hooks = .ok (s, evs)) : s = (Ownable.init owner, hooks) ∧
    evs = [⟨"hpl_hook_aggregate::initialize", [("sender", sender), ("owner", owner), ("hooks", joined hooks)]⟩] ∧
    ∀ a ∈ hooks, valid a = true := by
  obtain ⟨h1, h2⟩ := made_ok h
  obtain ⟨_, _, h1⟩ := bind_eq_ok.1 h1
  obtain ⟨h3, h4⟩ := valid_ok h1
  exact ⟨h4, h2, List.all_eq_true.1 h3⟩

theorem feeHook_ok {fee : Coin} {s : Ownable.State × Coin} (h : feeHook valid sender owner fee = .ok (s, evs)) :
    s = (Ownable.init owner, fee) ∧ evs = [⟨"hpl_hook_fee::initialize",
      [("sender", sender), ("owner", owner), ("fee_denom", fee.denom), ("fee_amount", number fee.amount)]⟩] := by
  obtain ⟨h1, h2⟩ := made_ok h
  exact ⟨(valid_ok h1).2, h2⟩

theorem pausableHook_ok {paused : Bool} {s : Ownable.State × Bool}
    (h : pausableHook valid sender owner paused = .ok (s, evs)) :
    s = (Ownable.init owner, paused) ∧
    evs = [⟨"hpl_hook_pausable::initialize", [("sender", sender), ("owner", owner)]⟩] := by
  obtain ⟨h1, h2⟩ := made_ok h
  exact ⟨(valid_ok h1).2, h2⟩

theorem routingHook_ok {s : Ownable.State × Router.State Addr} (h : routingHook valid sender owner = .ok (s, evs)) :
    s = (Ownable.init owner, OMap.empty) ∧
    evs = [⟨"hpl_hook_routing::initialize", [("sender", sender), ("owner", owner)]⟩] := by
  obtain ⟨h1, h2⟩ := made_ok h
  exact ⟨(valid_ok h1).2, h2⟩

theorem fallbackHook_ok {s : Ownable.State × FallbackHook.State} (h : fallbackHook valid sender owner = .ok (s, evs)) :
    s = (Ownable.init owner, ⟨OMap.empty, none⟩) ∧
    evs = [⟨"hpl_hook_routing::initialize", [("sender", sender), ("owner", owner)]⟩] := by
  obtain ⟨h1, h2⟩ := made_ok h
  exact ⟨(valid_ok h1).2, h2⟩

theorem customHook_ok {s : Ownable.State × CustomHook.State} (h : customHook valid sender owner = .ok (s, evs)) :
    s = (Ownable.init owner, ⟨OMap.empty, OMap.empty⟩) ∧
    evs = [⟨"hpl_hook_routing_custom::initialize", [("sender", sender), ("owner", owner)]⟩] := by
  obtain ⟨h1, h2⟩ := made_ok h
  exact ⟨(valid_ok h1).2, h2⟩

theorem oracle_ok {s : Ownable.State × Oracle.State} (h : oracle valid owner = .ok (s, evs)) :
    s = (Ownable.init owner, OMap.empty) ∧ evs = [⟨"init-igp-gas-oracle", [("owner", owner)]⟩] := by
  obtain ⟨h1, h2⟩ := made_ok h
  exact ⟨(valid_ok h1).2, h2⟩

theorem aggregateIsm_ok {isms : List Addr} {threshold : UInt8} {s : Ownable.State × AggregateIsm.State}
    (h : aggregateIsm valid sender owner isms threshold = .ok (s, evs)) : s = (Ownable.init owner, ⟨isms, threshold⟩) ∧
    evs = [⟨"hpl_ism_aggregate::instantiate",
      [("sender", sender), ("owner", owner), ("isms", joined isms), ("threshold", number threshold.toNat)]⟩] ∧
    ∀ a ∈ isms, valid a = true := by
  obtain ⟨h1, h2⟩ := made_ok h
  obtain ⟨_, _, h1⟩ := bind_eq_ok.1 h1
  obtain ⟨h3, h4⟩ := valid_ok h1
  exact ⟨h4, h2, List.all_eq_true.1 h3⟩

theorem pausableIsm_ok {paused : Bool} {s : Ownable.State × Bool}
    (h : pausableIsm valid sender owner paused = .ok (s, evs)) :
    s = (Ownable.init owner, paused) ∧
    evs = [⟨"hpl_ism_pausable::initialize", [("sender", sender), ("owner", owner)]⟩] := by
  obtain ⟨_, h2⟩ := valid_ok h
  cases h2
  exact ⟨rfl, rfl⟩

theorem routingIsm_ok {isms : List (UInt32 × Addr)} {s : Ownable.State × RoutingIsm.State}
    (h : routingIsm valid owner isms = .ok (s, evs)) :
    (∃ modules, s = (Ownable.init owner, modules)) ∧ evs = [⟨"wasm", [("method", "instantiate"), ("owner", owner)]⟩] := by
  obtain ⟨h1, h2⟩ := made_ok h
  obtain ⟨_, _, h1⟩ := bind_eq_ok.1 h1
  obtain ⟨m, _, h1⟩ := bind_eq_ok.1 h1
  cases h1
  exact ⟨⟨m, rfl⟩, h2⟩

theorem merkleHook_ok {zs : List Bytes} {mailbox : Addr} {s : MerkleHook.State}
    (h : merkleHook zs valid sender mailbox = .ok (s, evs)) : s = ⟨mailbox, Merkle.default zs⟩ ∧
    evs = [⟨"hpl_hook_merkle::initialize", [("sender", sender), ("mailbox", mailbox)]⟩] := by
  obtain ⟨h1, h2⟩ := made_ok h
  exact ⟨(valid_ok h1).2, h2⟩

theorem va_ok {C : Codec} {mailbox : Addr} {domain : Res UInt32} {s : Va.State}
    (h : va C valid sender mailbox domain = .ok (s, evs)) :
    (∃ raw d, bech32Decode C mailbox = .ok raw ∧ domain = .ok d ∧ s = ⟨raw, d, OMap.empty, OMap.empty, OMap.empty⟩) ∧
    evs = [⟨"init-validator-announce",
      [("creator", sender), ("mailbox", mailbox), ("local-domain", number s.localDomain.toNat)]⟩] := by
  obtain ⟨h1, h2⟩ := made_ok h
  obtain ⟨raw, d, k1, k2, k3⟩ := va_instantiate_ok h1
  exact ⟨⟨raw, d, k1, k2, k3⟩, h2⟩

/-- The first event of a router, and the one of the reply if there is one. -/
theorem warpNative_ok {self : Addr} {i : Deploy.Init} {b : Bank} {t : NativeToken} {s : Ownable.State × Warp.State}
    (h : warpNative valid self sender i b t = .ok (s, evs)) :
    (∃ x, s = (Ownable.init i.owner, x)) ∧ TokenKnown "hpl_warp_native::reply-init" "denom" s.2.token s.2.mode evs ∧
    ∃ e r, evs = e :: r ∧ attr "owner" e = some i.owner ∧
      ∀ x ∈ e :: r, x.ty = "hpl_warp_native::instantiate" ∨ x.ty = "hpl_warp_native::reply-init" := by
  obtain ⟨⟨s', b'⟩, h1, h2⟩ := bind_eq_ok.1 h
  cases h2
  cases t with
  | bridged d m =>
    obtain ⟨x, k1, k2⟩ := bind_eq_ok.1 h1
    obtain ⟨b'', k3, k4⟩ := bind_eq_ok.1 k2
    obtain ⟨y, k5, k6⟩ := bind_eq_ok.1 k4
    cases k6
    obtain ⟨_, b, fs, denom, hb, hw, hs, rfl⟩ := (C73_reply x _ 0 _).1 k5
    rw [Deploy.instantiate_ok k1]
    refine ⟨⟨_, rfl⟩, ⟨rfl, ?_, rfl⟩, _, _, rfl, rfl, ?_⟩
    · rfl
    · intro x hx
      rcases List.mem_cons.1 hx with rfl | hx
      · exact .inl rfl
      · rw [List.mem_singleton.1 hx]; exact .inr rfl
  | collateral d =>
    obtain ⟨x, k1, k2⟩ := bind_eq_ok.1 h1
    cases k2
    rw [Deploy.instantiate_ok k1]
    refine ⟨⟨_, rfl⟩, ⟨rfl, rfl, rfl⟩, _, _, rfl, rfl, ?_⟩
    intro x hx
    rw [List.mem_singleton.1 hx]; exact .inl rfl

theorem warpCw20_ok {self : Addr} {i : Deploy.Init} {strict : Bool} {created : Addr} {data : Bytes} {token : Cw20}
    {t : Cw20Token} {s : Ownable.State × Warp.State}
    (h : warpCw20 valid self sender i strict created data token t = .ok (s, evs)) :
    (∃ x, s = (Ownable.init i.owner, x)) ∧ TokenKnown "hpl_warp_cw20::reply-init" "new_token" s.2.token s.2.mode evs ∧
    ∃ e r, evs = e :: r ∧ attr "owner" e = some i.owner ∧
      ∀ x ∈ e :: r, x.ty = "hpl_warp_cw20::instantiate" ∨ x.ty = "hpl_warp_cw20::reply-init" := by
  obtain ⟨⟨s', b'⟩, h1, h2⟩ := bind_eq_ok.1 h
  cases h2
  cases t with
  | bridged d m =>
    obtain ⟨x, k1, k2⟩ := bind_eq_ok.1 h1
    obtain ⟨b'', k3, k4⟩ := bind_eq_ok.1 k2
    obtain ⟨y, k5, k6⟩ := bind_eq_ok.1 k4
    cases k6
    unfold Deploy.cw20Reply at k5
    rw [if_pos rfl] at k5
    obtain ⟨a, _, k7⟩ := bind_eq_ok.1 k5
    obtain ⟨_, rfl⟩ := valid_ok k7
    rw [Deploy.instantiate_ok k1]
    refine ⟨⟨_, rfl⟩, ⟨rfl, rfl, rfl⟩, _, _, rfl, rfl, ?_⟩
    intro x hx
    rcases List.mem_cons.1 hx with rfl | hx
    · exact .inl rfl
    · rw [List.mem_singleton.1 hx]; exact .inr rfl
  | collateral d =>
    obtain ⟨_, _, h1⟩ := bind_eq_ok.1 h1
    obtain ⟨x, k1, k2⟩ := bind_eq_ok.1 h1
    cases k2
    rw [Deploy.instantiate_ok k1]
    refine ⟨⟨_, rfl⟩, ⟨rfl, rfl, rfl⟩, _, _, rfl, rfl, ?_⟩
    intro x hx
    rw [List.mem_singleton.1 hx]; exact .inl rfl

end Made

end Start

/-! ## Owners -/

section Owners

open Start

/-- Events of the making that are not about ownership. -/
theorem one_event {t : List String} {e : TextEvent} (h : e.ty ∉ t) : ∀ x ∈ e :: [], x.ty ∉ t := by
  intro x hx
  rw [List.mem_singleton.1 hx]
  exact h

theorem one_event' {t : String} {e : TextEvent} (h : e.ty ≠ t) : ∀ x ∈ e :: [], x.ty ≠ t := by
  intro x hx
  rw [List.mem_singleton.1 hx]
  exact h

/-- **C95**, owners of hooks and gas oracle. Whoever has seen all events of such a contract, beginning with that of its making,
knows who owns it and who may claim it. -/
theorem C95_hook_owners_partial (H : Bytes → Bytes) (valid : Addr → Bool) (sender owner : Addr) :
    (∀ hooks s0 evs0, Start.aggregateHook valid sender owner hooks = .ok (s0, evs0) → ∀ txs,
      let h := history (logged AggregateHook.execute (Events.aggregateHook H)) s0 txs
      OwnersKnown h.1.1.owner h.1.1.pending (evs0 ++ all h.2)) ∧
    (∀ fee s0 evs0, Start.feeHook valid sender owner fee = .ok (s0, evs0) → ∀ txs,
      let h := history (logged FeeHook.execute Events.feeHook) s0 txs
      OwnersKnown h.1.1.owner h.1.1.pending (evs0 ++ all h.2)) ∧
    (∀ paused s0 evs0, Start.pausableHook valid sender owner paused = .ok (s0, evs0) → ∀ txs,
      let h := history (logged PausableHook.execute Events.pausableHook) s0 txs
      OwnersKnown h.1.1.owner h.1.1.pending (evs0 ++ all h.2)) ∧
    (∀ s0 evs0, Start.routingHook valid sender owner = .ok (s0, evs0) → ∀ txs,
      let h := history (logged RoutingHook.execute (Events.routingHook H)) s0 txs
      OwnersKnown h.1.1.owner h.1.1.pending (evs0 ++ all h.2)) ∧
    (∀ s0 evs0, Start.fallbackHook valid sender owner = .ok (s0, evs0) → ∀ txs,
      let h := history (logged FallbackHook.execute (Events.fallbackHook H)) s0 txs
      OwnersKnown h.1.1.owner h.1.1.pending (evs0 ++ all h.2)) ∧
    (∀ s0 evs0, Start.customHook valid sender owner = .ok (s0, evs0) → ∀ txs,
      let h := history (logged CustomHook.execute (Events.customHook H)) s0 txs
      OwnersKnown h.1.1.owner h.1.1.pending (evs0 ++ all h.2)) ∧
    (∀ s0 evs0, Start.oracle valid owner = .ok (s0, evs0) → ∀ txs,
      let h := history (logged Oracle.execute Events.oracle) s0 txs
      OwnersKnown h.1.1.owner h.1.1.pending (evs0 ++ all h.2)) := by
  obtain ⟨k1, k2, k3, k4, k5, k6, k7, -⟩ := C90_hook_owners_partial H Bech.codec owner
  refine ⟨?_, ?_, ?_, ?_, ?_, ?_, ?_⟩
  · intro hooks s0 evs0 h0 txs
    obtain ⟨rfl, rfl, _⟩ := aggregateHook_ok h0
    exact OwnersKnown.of (k4 hooks txs) (one_event (by dsimp only; decide)) rfl
  · intro fee s0 evs0 h0 txs
    obtain ⟨rfl, rfl⟩ := feeHook_ok h0
    exact OwnersKnown.of (k2 fee txs) (one_event (by dsimp only; decide)) rfl
  · intro p s0 evs0 h0 txs
    obtain ⟨rfl, rfl⟩ := pausableHook_ok h0
    exact OwnersKnown.of (k3 p txs) (one_event (by dsimp only; decide)) rfl
  · intro s0 evs0 h0 txs
    obtain ⟨rfl, rfl⟩ := routingHook_ok h0
    exact OwnersKnown.of (k5 _ txs) (one_event (by dsimp only; decide)) rfl
  · intro s0 evs0 h0 txs
    obtain ⟨rfl, rfl⟩ := fallbackHook_ok h0
    exact OwnersKnown.of (k6 _ txs) (one_event (by dsimp only; decide)) rfl
  · intro s0 evs0 h0 txs
    obtain ⟨rfl, rfl⟩ := customHook_ok h0
    exact OwnersKnown.of (k7 _ txs) (one_event (by dsimp only; decide)) rfl
  · intro s0 evs0 h0 txs
    obtain ⟨rfl, rfl⟩ := oracle_ok h0
    exact OwnersKnown.of (k1 _ txs) (one_event (by dsimp only; decide)) rfl

/-- **C95**, owners of security modules. The same for these, except the multisig module. -/
theorem C95_module_owners_partial (valid : Addr → Bool) (sender owner : Addr) :
    (∀ paused s0 evs0, Start.pausableIsm valid sender owner paused = .ok (s0, evs0) → ∀ txs,
      let h := history (logged (silent pausableStep) Events.pausableIsm) s0 txs
      OwnersKnown h.1.1.owner h.1.1.pending (evs0 ++ all h.2)) ∧
    (∀ isms s0 evs0, Start.routingIsm valid owner isms = .ok (s0, evs0) → ∀ txs,
      let h := history (logged (silent RoutingIsm.step) Events.routingIsm) s0 txs
      OwnersKnown h.1.1.owner h.1.1.pending (evs0 ++ all h.2)) ∧
    (∀ isms threshold s0 evs0, Start.aggregateIsm valid sender owner isms threshold = .ok (s0, evs0) → ∀ txs,
      let h := history (logged (silent AggregateIsm.step) Events.aggregateIsm) s0 txs
      OwnersKnown h.1.1.owner h.1.1.pending (evs0 ++ all h.2)) := by
  obtain ⟨k1, k2, k3, k4⟩ := C90_module_owners_partial owner
  refine ⟨?_, ?_, ?_⟩
  · intro p s0 evs0 h0 txs
    obtain ⟨rfl, rfl⟩ := pausableIsm_ok h0
    exact OwnersKnown.of (k1 p txs) (one_event (by dsimp only; decide)) rfl
  · intro isms s0 evs0 h0 txs
    obtain ⟨⟨m, rfl⟩, rfl⟩ := routingIsm_ok h0
    exact OwnersKnown.of (k3 m txs) (one_event (by dsimp only; decide)) rfl
  · intro isms t s0 evs0 h0 txs
    obtain ⟨rfl, rfl, _⟩ := aggregateIsm_ok h0
    exact OwnersKnown.of (k4 _ txs) (one_event (by dsimp only; decide)) rfl

theorem lastOwnership_eq (evs : List TextEvent) : lastOwnership evs = lastOf (fun e => e.ty ∈ ownershipTypes) evs := by
  unfold lastOwnership lastOf
  congr 2
  funext e
  simp [ownershipTypes]

theorem owner_some {o : Ownable.State} {a : Addr} (h : Ownable.getOwner o = .ok a) : o.owner = some a := by
  unfold Ownable.getOwner at h
  cases ho : o.owner with
  | none => rw [ho] at h; cases h
  | some x => rw [ho] at h; cases h; rfl

/-- **C95**, mailbox. The same for the mailbox, whose default ISM and hooks are told too (`C79_mailbox_events`). -/
theorem C95_mailbox_partial {H : Bytes → Bytes} {C : Codec} {lower : Char → Bool} {valid : Addr → Bool} {hrp : String}
    {domain : UInt32} {owner : Addr} {s0 : Mailbox.State} {evs0 : List TextEvent}
    (h0 : Start.mailbox lower valid hrp domain owner = .ok (s0, evs0)) (txs : List (List (Act Mailbox.Call))) :
    let h := history (logged (Mailbox.execute H C) Events.mailbox) s0 txs
    OwnersKnown h.1.own.owner h.1.own.pending (evs0 ++ all h.2) := by
  intro h
  obtain ⟨h1, rfl⟩ := made_ok h0
  have k := C79_mailbox_events (H := H) (C := C) h1 txs
  obtain ⟨-, -, -, -, -, -, -, -, -, -, -, -, k1, k2⟩ := k
  refine OwnersKnown.of (first := owner) ⟨owner_some k1, ?_⟩ (one_event (by dsimp only; decide)) rfl
  rw [← lastOwnership_eq]
  exact k2

end Owners

/-! ## Settings -/

section Settings

open Start

/-- **C95**, paymaster. Whoever has seen all its events knows its owner, its pending owner, its beneficiary and its default gas. -/
theorem C95_paymaster_partial {H : Bytes → Bytes} {C : Codec} {lower : Char → Bool} {valid : Addr → Bool} {sup : Bool}
    {sender owner ben : Addr} {hrp token : String} {dg : Nat} {s0 : Ownable.State × Igp.State} {evs0 : List TextEvent}
    (h0 : Start.igp lower valid sup sender hrp owner token ben dg = .ok (s0, evs0))
    (txs : List (List (Act (ExecCall IgpEnv Igp.Msg)))) :
    let h := history (logged (Igp.execute C) (Events.igp C H)) s0 txs
    OwnersKnown h.1.1.owner h.1.1.pending (evs0 ++ all h.2) ∧
    toldSince "igp-core-set-beneficiary" "beneficiary" "beneficiary" (evs0 ++ all h.2) = some (Igp.getBeneficiary h.1) ∧
    ∃ t, toldSince "igp-core-set-default-gas" "default-gas" "default_gas" (evs0 ++ all h.2) = some t ∧
      Decimal t (Igp.getDefaultGas h.1) := by
  intro h
  obtain ⟨h1, rfl⟩ := made_ok h0
  obtain ⟨-, k1, k2, k3, k4⟩ := C80_gas_settings_events (C := C) (H := H) h1 txs
  refine ⟨OwnersKnown.of (first := owner) ⟨owner_some k3, ?_⟩ (one_event (by dsimp only; decide)) rfl, ?_, ?_⟩
  · rw [← lastOwnership_eq]
    exact k4
  · rw [toldSince_of (x := ben) (one_event' (by dsimp only; decide)) rfl]
    exact congrArg some k2.symm
  · refine ⟨_, toldSince_of (x := number dg) (one_event' (by dsimp only; decide)) rfl, ?_⟩
    rcases k1 with ⟨k1, k5⟩ | ⟨e, k1, t, k5, k6⟩
    · unfold latest
      rw [k1]
      show Decimal (number dg) (Igp.getDefaultGas h.1)
      rw [k5]
      exact number_decimal dg
    · unfold latest
      rw [k1]
      show Decimal (((attr "default-gas") e).getD _) _
      rw [k5]
      exact k6

/-- **C95**, fee hook, aggregate hook and aggregate module. Whoever has seen all their events knows the fee, and the hooks resp.
modules. -/
theorem C95_fee_and_lists_partial (H : Bytes → Bytes) (valid : Addr → Bool) (sender owner : Addr) :
    (∀ fee s0 evs0, Start.feeHook valid sender owner fee = .ok (s0, evs0) → ∀ txs,
      let h := history (logged FeeHook.execute Events.feeHook) s0 txs
      FeeKnown (FeeHook.getFee h.1) (evs0 ++ all h.2)) ∧
    (∀ hooks s0 evs0, Start.aggregateHook valid sender owner hooks = .ok (s0, evs0) → ∀ txs,
      let h := history (logged AggregateHook.execute (Events.aggregateHook H)) s0 txs
      ListKnown "hpl_hook_aggregate::set_hooks" "hooks" (AggregateHook.getHooks h.1) (evs0 ++ all h.2)) ∧
    (∀ isms threshold s0 evs0, Start.aggregateIsm valid sender owner isms threshold = .ok (s0, evs0) → ∀ txs,
      let h := history (logged (silent AggregateIsm.step) Events.aggregateIsm) s0 txs
      ListKnown "hpl_ism_aggregate::set_isms" "isms" h.1.2.isms (evs0 ++ all h.2)) := by
  refine ⟨?_, ?_, ?_⟩
  · intro fee s0 evs0 h0 txs
    obtain ⟨rfl, rfl⟩ := feeHook_ok h0
    exact FeeKnown.of ((C90_fee_and_fallback_partial H owner).1 fee txs) (one_event' (by dsimp only; decide)) rfl rfl
  · intro hooks s0 evs0 h0 txs
    obtain ⟨rfl, rfl, _⟩ := aggregateHook_ok h0
    exact ListKnown.of ((C90_lists_partial H owner).2 hooks txs) (one_event' (by dsimp only; decide)) (congrArg some (joined_eq hooks))
  · intro isms t s0 evs0 h0 txs
    obtain ⟨rfl, rfl, _⟩ := aggregateIsm_ok h0
    exact ListKnown.of ((C90_lists_partial H owner).1 ⟨isms, t⟩ txs) (one_event' (by dsimp only; decide)) (congrArg some (joined_eq isms))

/-- **C95**, merkle hook and validator announce. Their first event tells the mailbox they belong to, for ever, and that of the
validator announce the domain. -/
theorem C95_mailbox_of_partial (H : Bytes → Bytes) (valid : Addr → Bool) (sender mailbox : Addr) :
    (∀ zs s0 evs0, Start.merkleHook zs valid sender mailbox = .ok (s0, evs0) → ∀ txs,
      let h := history (logged (MerkleHook.execute H) (Events.merkle H)) s0 txs
      (evs0 ++ all h.2).head?.bind (attr "mailbox") = some (MerkleHook.getMailbox h.1)) ∧
    (∀ C R domain s0 evs0, Start.va C valid sender mailbox domain = .ok (s0, evs0) → ∀ txs,
      let h := history (logged (Events.announce H R) Events.announcement) s0 txs
      ∃ e a, (evs0 ++ all h.2).head? = some e ∧ attr "mailbox" e = some a ∧ bech32Decode C a = .ok (Va.getMailbox h.1) ∧
        NumberAt "local-domain" e (Va.getLocalDomain h.1).toNat) := by
  refine ⟨?_, ?_⟩
  · intro zs s0 evs0 h0 txs
    obtain ⟨rfl, rfl⟩ := merkleHook_ok h0
    have : (history (logged (MerkleHook.execute H) (Events.merkle H)) ⟨mailbox, Merkle.default zs⟩ txs).1.mailbox = mailbox := by
      refine logged_induct (fun (s : MerkleHook.State) _ => s.mailbox = mailbox) (history_chain _ _ _) rfl ?_
      intro s c s' r l I hs
      obtain ⟨_, _, hs⟩ := bind_eq_ok.1 hs
      obtain ⟨_, _, hs⟩ := bind_eq_ok.1 hs
      obtain ⟨_, _, hs⟩ := bind_eq_ok.1 hs
      obtain ⟨_, _, hs⟩ := bind_eq_ok.1 hs
      cases hs
      exact I
    exact congrArg some this.symm
  · intro C R domain s0 evs0 h0 txs
    obtain ⟨⟨raw, d, k1, k2, rfl⟩, rfl⟩ := va_ok h0
    have : ∀ s0 : Va.State, (history (logged (Events.announce H R) Events.announcement) s0 txs).1.mailbox = s0.mailbox ∧
        (history (logged (Events.announce H R) Events.announcement) s0 txs).1.localDomain = s0.localDomain := by
      intro s0
      refine logged_induct (fun (s : Va.State) _ => s.mailbox = s0.mailbox ∧ s.localDomain = s0.localDomain) (history_chain _ _ _)
        ⟨rfl, rfl⟩ ?_
      intro s c s' r l I hs
      unfold Events.announce Va.announce at hs
      repeat (obtain ⟨_, _, hs⟩ := bind_eq_ok.1 hs)
      cases hs
      exact I
    obtain ⟨j1, j2⟩ := this ⟨raw, d, OMap.empty, OMap.empty, OMap.empty⟩
    refine ⟨_, mailbox, rfl, rfl, ?_, _, rfl, ?_⟩
    · unfold Va.getMailbox
      rw [j1]
      exact k1
    · unfold Va.getLocalDomain
      rw [j2]
      exact number_decimal _

end Settings

/-! ## Token routers -/

section Routers

open Start

/-- Routers never change their token nor their mode, and tell of no reply after they were made. -/
theorem router_token {k : Warp.Kind} {n : WarpNames} {C : Codec} {self : Addr} {ty : String} {s0 : Ownable.State × Warp.State}
    (ht : ty ≠ n.name ++ "handle" ∧ ty ≠ n.name ++ "transfer-remote" ∧
      ty ∉ ["hpl_ownable::init", "hpl_ownable::revoke", "hpl_ownable::claim", "hpl_router::set_route",
        "hpl_router::set_routes", "hpl_connection::set_mailbox", "hpl_connection::set_ism", "hpl_connection::set_hook"])
    (txs : List (List (Act (ExecCall (Addr → Bool) Warp.Msg)))) :
    let h := history (logged (Warp.execute k C self) (Events.warp n C)) s0 txs
    h.1.2.token = s0.2.token ∧ h.1.2.mode = s0.2.mode ∧ ∀ e ∈ all h.2, e.ty ≠ ty := by
  refine logged_induct (fun (s : Ownable.State × Warp.State) l => s.2.token = s0.2.token ∧ s.2.mode = s0.2.mode ∧
    ∀ e ∈ all l, e.ty ≠ ty) (history_chain _ _ _) ⟨rfl, rfl, by intro e he; cases he⟩ ?_
  intro s c s' r l I hs
  have hf : s'.2.token = s.2.token ∧ s'.2.mode = s.2.mode := by
    by_cases hm : ∃ m, c.msg = .inr (.router m)
    · obtain ⟨m, hm⟩ := hm
      obtain ⟨e, sender, funds, msg⟩ := c
      cases hm
      obtain ⟨q, hq, hx⟩ := Hpl.execute_inr.1 hs
      obtain ⟨_, _, hq⟩ := bind_eq_ok.1 hq
      cases hq
      cases hx
      exact ⟨rfl, rfl⟩
    · have := Bridge.router_fixed hs (fun m h => hm ⟨m, h⟩)
      exact ⟨this.1, this.2.1⟩
  refine ⟨hf.1.trans I.1, hf.2.trans I.2.1, ?_⟩
  intro e he
  unfold all at he
  rw [List.flatMap_append, List.mem_append] at he
  rcases he with he | he
  · exact I.2.2 e he
  · rw [List.flatMap_singleton] at he
    rintro rfl
    obtain ⟨e', sender, funds, msg⟩ := c
    rcases msg with m | m
    · cases m <;> (rw [List.mem_singleton.1 he] at ht; exact ht.2.2 (by simp [Events.ownable]))
    · cases m with
      | router m => cases m <;> (rw [List.mem_singleton.1 he] at ht; exact ht.2.2 (by simp [Events.router]))
      | connection m => cases m <;> (rw [List.mem_singleton.1 he] at ht; exact ht.2.2 (by simp [Events.connection]))
      | handle o ms b => exact ht.1 (warpHandle_types he)
      | transferRemote d rc a hk md => rw [List.mem_singleton.1 he] at ht; exact ht.2.1 rfl

theorem TokenKnown.of {ty k : String} {token : Option String} {mode : Warp.Mode} {e : TextEvent} {r b : List TextEvent}
    (h : TokenKnown ty k token mode (e :: r)) (hb : ∀ x ∈ b, x.ty ≠ ty) : TokenKnown ty k token mode (e :: r ++ b) := by
  refine ⟨h.1, ?_, h.2.2⟩
  have hn : b.filter (fun x => decide (x.ty = ty)) = [] := by
    rw [List.filter_eq_nil_iff]
    intro x hx
    simpa using hb x hx
  rw [h.2.1]
  unfold toldSince latest ofType
  rw [List.filter_append, hn, List.append_nil]
  rfl

/-- **C95**, routers. Whoever has seen all their events knows their owner, their pending owner, their mode and their token. -/
theorem C95_routers_partial (C : Codec) (valid : Addr → Bool) (self sender : Addr) (i : Deploy.Init) :
    (∀ b t s0 evs0, Start.warpNative valid self sender i b t = .ok (s0, evs0) → ∀ txs,
      let h := history (logged (Warp.execute Warp.native C self) (Events.warp Events.warpNative C)) s0 txs
      OwnersKnown h.1.1.owner h.1.1.pending (evs0 ++ all h.2) ∧
      TokenKnown "hpl_warp_native::reply-init" "denom" h.1.2.token h.1.2.mode (evs0 ++ all h.2)) ∧
    (∀ strict created data token t s0 evs0,
      Start.warpCw20 valid self sender i strict created data token t = .ok (s0, evs0) → ∀ txs,
      let h := history (logged (Warp.execute Warp.cw20 C self) (Events.warp Events.warpCw20 C)) s0 txs
      OwnersKnown h.1.1.owner h.1.1.pending (evs0 ++ all h.2) ∧
      TokenKnown "hpl_warp_cw20::reply-init" "new_token" h.1.2.token h.1.2.mode (evs0 ++ all h.2)) := by
  obtain ⟨-, -, -, -, -, -, -, k1, k2⟩ := C90_hook_owners_partial (fun b => b) C i.owner
  refine ⟨?_, ?_⟩
  · intro b t s0 evs0 h0 txs
    obtain ⟨⟨x, rfl⟩, j1, e, r, rfl, j2, j3⟩ := warpNative_ok h0
    refine ⟨OwnersKnown.of (k1 _ x txs) (fun y hy => ?_) j2, ?_⟩
    · rcases j3 y hy with j | j <;> (rw [j]; decide)
    · obtain ⟨f1, f2, f3⟩ := router_token (k := Warp.native) (n := Events.warpNative) (C := C) (self := self)
        (ty := "hpl_warp_native::reply-init") (s0 := (Ownable.init i.owner, x)) (by decide) txs
      rw [f1, f2]
      exact TokenKnown.of j1 f3
  · intro strict created data token t s0 evs0 h0 txs
    obtain ⟨⟨x, rfl⟩, j1, e, r, rfl, j2, j3⟩ := warpCw20_ok h0
    refine ⟨OwnersKnown.of (k2 _ x txs) (fun y hy => ?_) j2, ?_⟩
    · rcases j3 y hy with j | j <;> (rw [j]; decide)
    · obtain ⟨f1, f2, f3⟩ := router_token (k := Warp.cw20) (n := Events.warpCw20) (C := C) (self := self)
        (ty := "hpl_warp_cw20::reply-init") (s0 := (Ownable.init i.owner, x)) (by decide) txs
      rw [f1, f2]
      exact TokenKnown.of j1 f3

end Routers

/-! ## What the making tells -/

section Told

open Start

/-- **C95**, what is told. Of these contracts the event of the making tells all there is to know: if two of them are made with
the same event, they are made the same. Addresses are taken to have at least one character and no comma. -/
theorem C95_tells_partial (zs : List Bytes) (C : Codec) (valid : Addr → Bool) (hv : ∀ a, valid a = true → Name a) :
    Tells (fun i : Addr × Addr × List Addr => Start.aggregateHook valid i.1 i.2.1 i.2.2) ∧
    Tells (fun i : Addr × Addr × Coin => Start.feeHook valid i.1 i.2.1 i.2.2) ∧
    Tells (fun i : Addr × Addr => Start.routingHook valid i.1 i.2) ∧
    Tells (fun i : Addr × Addr => Start.fallbackHook valid i.1 i.2) ∧
    Tells (fun i : Addr × Addr => Start.customHook valid i.1 i.2) ∧
    Tells (fun i : Addr => Start.oracle valid i) ∧
    Tells (fun i : Addr × Addr × List Addr × UInt8 => Start.aggregateIsm valid i.1 i.2.1 i.2.2.1 i.2.2.2) ∧
    Tells (fun i : Addr × Addr => Start.merkleHook zs valid i.1 i.2) ∧
    Tells (fun i : Addr × Addr × Res UInt32 => Start.va C valid i.1 i.2.1 i.2.2) := by
  have hl : ∀ {l l' : List Addr}, (∀ a ∈ l, valid a = true) → (∀ a ∈ l', valid a = true) → joined l = joined l' → l = l' := by
    intro l l' h1 h2 h
    rw [joined_eq, joined_eq] at h
    rw [← listed_commas (fun a ha => hv a (h1 a ha)), h, listed_commas (fun a ha => hv a (h2 a ha))]
  have hn : ∀ {m n : Nat}, number m = number n → m = n := fun h => decimal_inj h
  refine ⟨?_, ?_, ?_, ?_, ?_, ?_, ?_, ?_, ?_⟩
  · intro i j s t evs h1 h2
    obtain ⟨rfl, rfl, f1⟩ := aggregateHook_ok h1
    obtain ⟨rfl, e, f2⟩ := aggregateHook_ok h2
    simp only [List.cons.injEq, TextEvent.mk.injEq, Prod.mk.injEq, and_true, true_and] at e
    rw [e.2.1, hl f1 f2 e.2.2]
  · intro i j s t evs h1 h2
    obtain ⟨rfl, rfl⟩ := feeHook_ok h1
    obtain ⟨rfl, e⟩ := feeHook_ok h2
    simp only [List.cons.injEq, TextEvent.mk.injEq, Prod.mk.injEq, and_true, true_and] at e
    obtain ⟨_, e1, e2, e3⟩ := e
    have : i.2.2 = j.2.2 := by
      cases hi : i.2.2; cases hj : j.2.2
      rw [hi, hj] at e2 e3
      cases e2
      cases hn e3
      rfl
    rw [e1, this]
  · intro i j s t evs h1 h2
    obtain ⟨rfl, rfl⟩ := routingHook_ok h1
    obtain ⟨rfl, e⟩ := routingHook_ok h2
    simp only [List.cons.injEq, TextEvent.mk.injEq, Prod.mk.injEq, and_true, true_and] at e
    rw [e.2]
  · intro i j s t evs h1 h2
    obtain ⟨rfl, rfl⟩ := fallbackHook_ok h1
    obtain ⟨rfl, e⟩ := fallbackHook_ok h2
    simp only [List.cons.injEq, TextEvent.mk.injEq, Prod.mk.injEq, and_true, true_and] at e
    rw [e.2]
  · intro i j s t evs h1 h2
    obtain ⟨rfl, rfl⟩ := customHook_ok h1
    obtain ⟨rfl, e⟩ := customHook_ok h2
    simp only [List.cons.injEq, TextEvent.mk.injEq, Prod.mk.injEq, and_true, true_and] at e
    rw [e.2]
  · intro i j s t evs h1 h2
    obtain ⟨rfl, rfl⟩ := oracle_ok h1
    obtain ⟨rfl, e⟩ := oracle_ok h2
    simp only [List.cons.injEq, TextEvent.mk.injEq, Prod.mk.injEq, and_true, true_and] at e
    rw [e]
  · intro i j s t evs h1 h2
    obtain ⟨rfl, rfl, f1⟩ := aggregateIsm_ok h1
    obtain ⟨rfl, e, f2⟩ := aggregateIsm_ok h2
    simp only [List.cons.injEq, TextEvent.mk.injEq, Prod.mk.injEq, and_true, true_and] at e
    rw [e.2.1, hl f1 f2 e.2.2.1, UInt8.toNat_inj.1 (hn e.2.2.2)]
  · intro i j s t evs h1 h2
    obtain ⟨rfl, rfl⟩ := merkleHook_ok h1
    obtain ⟨rfl, e⟩ := merkleHook_ok h2
    simp only [List.cons.injEq, TextEvent.mk.injEq, Prod.mk.injEq, and_true, true_and] at e
    rw [e.2]
  · intro i j s t evs h1 h2
    obtain ⟨⟨raw, d, k1, k2, rfl⟩, rfl⟩ := va_ok h1
    obtain ⟨⟨raw', d', k1', k2', rfl⟩, e⟩ := va_ok h2
    simp only [List.cons.injEq, TextEvent.mk.injEq, Prod.mk.injEq, and_true, true_and] at e
    rw [e.2.1, k1'] at k1
    cases k1
    rw [UInt32.toNat_inj.1 (hn e.2.2)]

/-- What a reader of events would like: that the making of every contract tells how it was made. -/
def C95_full : Prop :=
  ∀ (zs : List Bytes) (C : Codec) (lower : Char → Bool) (valid : Addr → Bool), (∀ a, valid a = true → Name a) →
    Tells (fun i : String × UInt32 × Addr => Start.mailbox lower valid i.1 i.2.1 i.2.2) ∧
    Tells (fun i : Addr × Addr × List Addr => Start.aggregateHook valid i.1 i.2.1 i.2.2) ∧
    Tells (fun i : Addr × Addr × Coin => Start.feeHook valid i.1 i.2.1 i.2.2) ∧
    Tells (fun i : Addr × Addr × Bool => Start.pausableHook valid i.1 i.2.1 i.2.2) ∧
    Tells (fun i : Addr × Addr => Start.routingHook valid i.1 i.2) ∧
    Tells (fun i : Addr × Addr => Start.fallbackHook valid i.1 i.2) ∧
    Tells (fun i : Addr × Addr => Start.customHook valid i.1 i.2) ∧
    Tells (fun i : Addr × String × Addr × String × Addr × Nat =>
      Start.igp lower valid true i.1 i.2.1 i.2.2.1 i.2.2.2.1 i.2.2.2.2.1 i.2.2.2.2.2) ∧
    Tells (fun i : Addr => Start.oracle valid i) ∧
    Tells (fun i : Addr × Addr × List Addr × UInt8 => Start.aggregateIsm valid i.1 i.2.1 i.2.2.1 i.2.2.2) ∧
    Tells (fun i : Addr => Start.multisigIsm valid i) ∧
    Tells (fun i : Addr × Addr × Bool => Start.pausableIsm valid i.1 i.2.1 i.2.2) ∧
    Tells (fun i : Addr × List (UInt32 × Addr) => Start.routingIsm valid i.1 i.2) ∧
    Tells (fun i : Addr × Addr => Start.merkleHook zs valid i.1 i.2) ∧
    Tells (fun i : Addr × Addr × Res UInt32 => Start.va C valid i.1 i.2.1 i.2.2) ∧
    (∀ self b, Tells (fun i : Addr × Deploy.Init × NativeToken => Start.warpNative valid self i.1 i.2.1 b i.2.2)) ∧
    (∀ self strict created data token, Tells (fun i : Addr × Deploy.Init × Cw20Token =>
      Start.warpCw20 valid self i.1 i.2.1 strict created data token i.2.2))

/-- Two makings with the same events and different results. -/
theorem not_tells {ι σ : Type} {make : ι → Res (σ × List TextEvent)} (i j : ι) {s t : σ} {evs : List TextEvent}
    (h1 : make i = .ok (s, evs)) (h2 : make j = .ok (t, evs)) (h : s ≠ t) : ¬ Tells make := fun H => h (H i j s t evs h1 h2)

/-- A few addresses. -/
def few (a : Addr) : Bool := ["o", "p", "b", "m", "n", "t"].contains a

theorem few_name {a : Addr} (h : few a = true) : Name a := by
  simp only [few, List.contains_eq_mem, List.mem_cons, List.not_mem_nil, or_false, decide_eq_true_eq] at h
  rcases h with rfl | rfl | rfl | rfl | rfl | rfl <;> exact ⟨by decide, by decide⟩

/-- **C95**, what is not told. The event of making a mailbox tells neither its domain nor its prefix, that of the multisig module
not its owner, those of pausable hook and module not whether they are paused, that of the routing module not its modules, that
of the paymaster neither its gas token nor its prefix, those of the routers neither their mailbox nor their prefix. -/
theorem C95_untold :
    ¬ Tells (fun i : String × UInt32 × Addr => Start.mailbox (fun _ => true) few i.1 i.2.1 i.2.2) ∧
    ¬ Tells (fun i : Addr × Addr × Bool => Start.pausableHook few i.1 i.2.1 i.2.2) ∧
    ¬ Tells (fun i : Addr × String × Addr × String × Addr × Nat =>
      Start.igp (fun _ => true) few true i.1 i.2.1 i.2.2.1 i.2.2.2.1 i.2.2.2.2.1 i.2.2.2.2.2) ∧
    ¬ Tells (fun i : Addr => Start.multisigIsm few i) ∧
    ¬ Tells (fun i : Addr × Addr × Bool => Start.pausableIsm few i.1 i.2.1 i.2.2) ∧
    ¬ Tells (fun i : Addr × List (UInt32 × Addr) => Start.routingIsm few i.1 i.2) ∧
    ¬ Tells (fun i : Addr × Deploy.Init × NativeToken =>
      Start.warpNative few "router" i.1 i.2.1 ⟨fun _ _ => 0, fun _ => 0, fun _ => none, fun _ => true⟩ i.2.2) ∧
    ¬ Tells (fun i : Addr × Deploy.Init × Cw20Token =>
      Start.warpCw20 few "router" i.1 i.2.1 true "token" []
        ⟨true, 0, fun _ => 0, fun _ _ => none, none⟩ i.2.2) := by
  refine ⟨?_, ?_, ?_, ?_, ?_, ?_, ?_, ?_⟩
  · exact not_tells ("a", 1, "o") ("a", 2, "o") rfl rfl (by intro h; cases h)
  · exact not_tells ("s", "o", true) ("s", "o", false) rfl rfl (by intro h; cases h)
  · exact not_tells ("s", "a", "o", "t", "b", 1) ("s", "a", "o", "u", "b", 1) rfl rfl
      (fun h => absurd (congrArg (fun x => x.2.gasToken) h) (by decide))
  · exact not_tells "o" "p" rfl rfl (fun h => absurd (congrArg (fun x => x.1.owner) h) (by decide))
  · exact not_tells ("s", "o", true) ("s", "o", false) rfl rfl (by intro h; cases h)
  · exact not_tells ("o", []) ("o", [(1, "m")]) rfl rfl (by intro h; cases h)
  · exact not_tells ("s", ⟨"a", "o", "m"⟩, .collateral "t") ("s", ⟨"a", "o", "n"⟩, .collateral "t") rfl rfl
      (fun h => absurd (congrArg (fun x => x.2.mailbox) h) (by decide))
  · exact not_tells ("s", ⟨"a", "o", "m"⟩, .collateral "t") ("s", ⟨"a", "o", "n"⟩, .collateral "t") rfl rfl
      (fun h => absurd (congrArg (fun x => x.2.mailbox) h) (by decide))

theorem C95_full_refuted : ¬ C95_full := fun h =>
  C95_untold.2.2.2.1 (h [] Bech.codec (fun _ => true) few (fun _ => few_name)).2.2.2.2.2.2.2.2.2.2.1

end Told

/-! ## Messages -/

section Messages

open Start Schema Interface

theorem instantiate_types (c : Contract) : sub (instantiateTy c) (instantiateTy c) = true ∧ wf (instantiateTy c) = true := by
  cases c <;> decide +kernel

/-- **C96**, messages. Every message with which a contract is made has a text. The contract reads it as the very message, and no
other message for the contract has that text. -/
theorem C96_texts (m : Start.Msg) (hm : StartFits m) :
    ∃ b, m.text = some b ∧ receive (instantiateTy m.contract) b = some m.val ∧
      ∀ n : Start.Msg, n.contract = m.contract → (n.text = some b ∨ n.val = m.val) → n = m := by
  obtain ⟨j, hj⟩ := Enc.msg m hm
  have hb : m.text = some (Json.toBinary j) := by
    unfold Start.Msg.text send
    rw [hj]; rfl
  have hr := receive_send (instantiate_types _).1 (instantiate_types _).2 hb
  refine ⟨_, hb, hr, ?_⟩
  intro n hc h
  rcases h with h | h
  · refine Msg.val_inj hc ?_
    have := receive_send (instantiate_types _).1 (instantiate_types _).2 h
    rw [hc, hr] at this
    exact (Option.some.inj this).symm
  · exact Msg.val_inj hc h

/-- **C96**, texts. If nothing in the message must be escaped, the text is the one of the table `startText`. -/
theorem C96_written (m : Start.Msg) (hm : StartFits m) (hp : StartPlain m) : m.text = some (Proto.utf8 (startText m)) := by
  obtain ⟨j, hj, hs⟩ := Wr.msg m hm hp
  unfold Start.Msg.text send Json.toBinary
  rw [hj, Option.map_some, hs, String.ofList_toList]

/-- **C96**, token of the cw20 router. The message the router sends for its token is read by the token as the one its creator
gave, only that the router is the minter, without a cap. What the ledger of the token takes from it is what `Deploy.cw20` takes. -/
theorem C96_token (self : Addr) (codeId : UInt64) (init : Start.Cw20Init) (hm : TokenFits init) :
    ∃ b, (Start.Msg.cw20 (tokenInit self init)).text = some b ∧
      receive (instantiateTy .cw20) b =
        some (cw20InitVal ⟨init.name, init.symbol, init.decimals, init.balances, some (self, none), init.marketing⟩) ∧
      (tokenInit self init).ledger = (Deploy.tokenMsg self codeId.toNat init.ledger).msg := by
  have hf : StartFits (.cw20 (tokenInit self init)) := by
    refine ⟨hm.1, ?_⟩
    intro a n h
    cases h
  obtain ⟨b, h1, h2, -⟩ := C96_texts _ hf
  exact ⟨b, h1, h2, rfl⟩

/-! ## Examples -/

/-- A token with two holders. -/
def exToken : Start.Cw20Init :=
  ⟨"Wrapped", "WRP", 6, [("alice", 5), ("bob", 7)], some ("mallory", some 100), some ⟨some "p", none, some "m", some "u"⟩⟩

example : StartFits (.warpCw20 (.bridged 3 exToken) "osmo" "o" "m") ∧ StartPlain (.warpCw20 (.bridged 3 exToken) "osmo" "o" "m") ∧
    TokenFits exToken := by
  have h : TokenFits exToken := by
    refine ⟨by decide, ?_⟩
    intro a n h
    cases h
    decide
  refine ⟨h, ⟨⟨by decide, by decide, by decide, ?_, ?_⟩, by decide, by decide, by decide⟩, h⟩
  · intro x hx; cases hx; decide
  · intro x hx; cases hx
    refine ⟨?_, ?_, ?_, ?_⟩ <;> (intro a ha; cases ha; try decide)

example : startText (.warpNative (.bridged "uw" none) "osmo" "o" "m") =
    "{\"token\":{\"bridged\":{\"denom\":\"uw\",\"metadata\":null}},\"hrp\":\"osmo\",\"owner\":\"o\",\"mailbox\":\"m\"}" := by
  decide +kernel

example : startText (.cw20 (tokenInit "router" ⟨"W", "WRP", 6, [("a", 5)], some ("mallory", some 9), none⟩)) =
    "{\"name\":\"W\",\"symbol\":\"WRP\",\"decimals\":6,\"initial_balances\":[{\"address\":\"a\",\"amount\":\"5\"}]," ++
    "\"mint\":{\"minter\":\"router\",\"cap\":null},\"marketing\":null}" := by
  decide +kernel

end Messages

/-! ## Examples of events -/

section Examples

open Start

example : (∀ a, few a = true → Name a) ∧ few "o" = true ∧ few "b" = true := ⟨fun _ => few_name, rfl, rfl⟩

/-- A fee hook that changed hands and fee. -/
example : ∃ s0 evs0, Start.feeHook (fun _ => true) "s" "o" ⟨"atom", 3⟩ = .ok (s0, evs0) ∧
    let e : HookEnv := ⟨fun _ => true, [], fun _ _ _ => .ok [], fun _ => .ok []⟩
    let h := history (logged FeeHook.execute Events.feeHook) s0
      [[.call ⟨e, "o", [], .inr (.setFee ⟨"osmo", 4⟩)⟩ []],
       [.call ⟨e, "o", [], .inl (.initTransfer "p")⟩ []], [.call ⟨e, "p", [], .inl .claim⟩ []]]
    h.2.length = 3 ∧ h.1.1.owner = some "p" ∧ FeeHook.getFee h.1 = ⟨"osmo", 4⟩ :=
  ⟨_, _, rfl, by decide +kernel⟩

/-- Routers with a new token. -/
example : (∃ s0 evs0, Start.warpNative (fun _ => true) "router" "s" ⟨"osmo", "o", "m"⟩
      ⟨fun _ _ => 0, fun _ => 0, fun _ => none, fun _ => false⟩ (.bridged "uw" none) = .ok (s0, evs0) ∧
      s0.2.token = some "factory/router/uw" ∧ evs0.length = 2) ∧
    (∃ s0 evs0, Start.warpCw20 (fun _ => true) "router" "s" ⟨"osmo", "o", "m"⟩ true "token" []
      ⟨true, 0, fun _ => 0, fun _ _ => none, none⟩ (.bridged 3 exToken) = .ok (s0, evs0) ∧
      s0.2.token = some "token" ∧ evs0.length = 2) := by
  refine ⟨?_, ?_⟩
  · have h : ((Start.warpNative (fun _ => true) "router" "s" ⟨"osmo", "o", "m"⟩
      ⟨fun _ _ => 0, fun _ => 0, fun _ => none, fun _ => false⟩ (.bridged "uw" none)).toOption.map
        (fun x => (x.1.2.token, x.2.length))) = some (some "factory/router/uw", 2) := by decide +kernel
    match hx : Start.warpNative (fun _ => true) "router" "s" ⟨"osmo", "o", "m"⟩
      ⟨fun _ _ => 0, fun _ => 0, fun _ => none, fun _ => false⟩ (.bridged "uw" none), h with
    | .ok (s, l), h =>
      simp only [Except.toOption, Option.map_some, Option.some.injEq, Prod.mk.injEq] at h
      exact ⟨s, l, rfl, h.1, h.2⟩
  · have h : ((Start.warpCw20 (fun _ => true) "router" "s" ⟨"osmo", "o", "m"⟩ true "token" []
      ⟨true, 0, fun _ => 0, fun _ _ => none, none⟩ (.bridged 3 exToken)).toOption.map
        (fun x => (x.1.2.token, x.2.length))) = some (some "token", 2) := by decide +kernel
    match hx : Start.warpCw20 (fun _ => true) "router" "s" ⟨"osmo", "o", "m"⟩ true "token" []
      ⟨true, 0, fun _ => 0, fun _ _ => none, none⟩ (.bridged 3 exToken), h with
    | .ok (s, l), h =>
      simp only [Except.toOption, Option.map_some, Option.some.injEq, Prod.mk.injEq] at h
      exact ⟨s, l, rfl, h.1, h.2⟩

/-- The other contracts that tell their owner can be made. -/
example : (Start.mailbox (fun _ => true) (fun _ => true) "osmo" 7 "o").toOption.isSome = true ∧
    (Start.igp (fun _ => true) (fun _ => true) true "s" "osmo" "o" "uosmo" "b" 9).toOption.isSome = true ∧
    (Start.aggregateHook (fun _ => true) "s" "o" ["m", "n"]).toOption.isSome = true ∧
    (Start.aggregateIsm (fun _ => true) "s" "o" ["m", "n"] 2).toOption.isSome = true ∧
    (Start.routingIsm (fun _ => true) "o" [(1, "m")]).toOption.isSome = true ∧
    (Start.merkleHook [] (fun _ => true) "s" "m").toOption.isSome = true ∧
    (Start.va Bech.codec (fun _ => true) "s" Ex.alice (.ok 7)).toOption.isSome = true := by decide +kernel

end Examples

end Hpl
