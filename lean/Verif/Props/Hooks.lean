import Verif.Lemmas.Hooks
import Verif.Props.Packages
import Verif.Examples.Mailbox
import Mathlib.Data.List.Forall2

/-! # Fee, pausable, routing and aggregate hooks: C48, C50 - C53 -/

namespace Hpl

open Spec

/-- Calling a hook's entry point for post-dispatching. -/
abbrev postCall {μ : Type} (post : Bytes → Bytes → μ) (e : HookEnv) (sender : Addr) (funds : List Coin)
    (md b : Bytes) : ExecCall HookEnv μ := ⟨e, sender, funds, .inr (post md b)⟩

theorem decode_fields {b : Bytes} {m : Message} :
    Message.decode b = .ok m → 77 ≤ b.length ∧ m.dest = destOf b ∧ m.recipient = recipientOf b := by
  intro h
  unfold Message.decode at h
  obtain ⟨ver, h0, h⟩ := bind_eq_ok.1 h
  obtain ⟨n, h1, h⟩ := bind_eq_ok.1 h
  obtain ⟨o, h2, h⟩ := bind_eq_ok.1 h
  obtain ⟨s, h3, h⟩ := bind_eq_ok.1 h
  obtain ⟨d, h4, h⟩ := bind_eq_ok.1 h
  obtain ⟨r, h5, h⟩ := bind_eq_ok.1 h
  obtain ⟨c, h6, h⟩ := bind_eq_ok.1 h
  obtain ⟨_, g4, rfl⟩ := slice_eq_ok.1 h4
  obtain ⟨_, g5, rfl⟩ := slice_eq_ok.1 h5
  cases h
  exact ⟨g5, rfl, rfl⟩

theorem decode_then {α : Type} {b : Bytes} {f : Message → Res α} {a : α} :
    (Message.decode b >>= f) = .ok a ↔
      77 ≤ b.length ∧ ∃ m, m.dest = destOf b ∧ m.recipient = recipientOf b ∧ Message.decode b = .ok m ∧
        f m = .ok a := by
  rw [bind_eq_ok]
  constructor
  · rintro ⟨m, h1, h2⟩
    obtain ⟨g1, g2, g3⟩ := decode_fields h1
    exact ⟨g1, m, g2, g3, h1, h2⟩
  · rintro ⟨_, m, _, _, h1, h2⟩
    exact ⟨m, h1, h2⟩

/-! ## Fee hook -/

section Fee

open FeeHook

/-- The fee the owner asked for last, or the initial one. -/
def Spec.feeAfter (owner : Addr) (fee0 : Coin) (h : List (ExecCall HookEnv FeeHook.Msg)) : Coin :=
  ((ownerCalls HookEnv.valid feeCfg (Ownable.init owner) h).map Prod.snd).getLast?.getD fee0

/-- **C48**, full statement: besides the characterisation proved below, paying the quote is always enough. -/
def C48_full : Prop :=
  ∀ (valid : Addr → Bool) (owner : Addr) (fee0 : Coin) (s0 : Ownable.State × Coin),
    instantiate valid owner fee0 = .ok s0 → ∀ h : List (ExecCall HookEnv FeeHook.Msg),
    let s := run (stepOf execute) s0 h
    ∀ e sender md b, ∃ x, execute s (postCall .postDispatch e sender (quoteDispatch s) md b) = .ok x

/-- A fee hook with fee zero does not accept any payment of its quote. -/
theorem C48_full_refuted : ¬ C48_full := by
  intro h
  obtain ⟨x, hx⟩ := h (fun _ => true) "owner" ⟨"uosmo", 0⟩ _ rfl [] ⟨fun _ => true, [], fun _ _ _ => .ok [],
    fun _ => .ok []⟩ "sender" [] []
  cases hx

/-- **C48**, except that paying the quote is enough only if the fee is not zero. After any history the fee and the
quote are what the owner set last; a post-dispatch call succeeds exactly if one coin is attached, of the fee
denomination, not zero and at least the fee, and then has no effect; so paying a non-zero quote is enough. -/
theorem C48_fee_partial {valid : Addr → Bool} {owner : Addr} {fee0 : Coin} {s0 : Ownable.State × Coin}
    (h0 : instantiate valid owner fee0 = .ok s0) (h : List (ExecCall HookEnv FeeHook.Msg)) :
    let s := run (stepOf execute) s0 h
    let fee := feeAfter owner fee0 h
    getFee s = fee ∧ quoteDispatch s = [fee] ∧
    (∀ e sender funds md b s' r, execute s (postCall .postDispatch e sender funds md b) = .ok (s', r) ↔
      (∃ n, funds = [⟨fee.denom, n⟩] ∧ n ≠ 0 ∧ fee.amount ≤ n) ∧ s' = s ∧ r = {}) ∧
    (fee.amount ≠ 0 → ∀ e sender md b, ∃ x,
      execute s (postCall .postDispatch e sender (quoteDispatch s) md b) = .ok x) := by
  have hs0 : s0 = (Ownable.init owner, fee0) := by
    unfold instantiate at h0
    obtain ⟨_, _, hf⟩ := bind_eq_ok.1 h0
    cases hf; rfl
  subst hs0
  intro s fee
  have hfee : s.2 = fee := run_fee _ _ h
  have key : ∀ e sender funds md b s' r, execute s (postCall .postDispatch e sender funds md b) = .ok (s', r) ↔
      (∃ n, funds = [⟨fee.denom, n⟩] ∧ n ≠ 0 ∧ fee.amount ≤ n) ∧ s' = s ∧ r = {} := by
    intro e sender funds md b s' r
    unfold execute
    rw [execOwned_inr]
    simp only [part_postDispatch, hfee, Prod.mk.injEq]
    constructor
    · rintro ⟨p, ⟨h1, rfl⟩, rfl, rfl⟩
      exact ⟨h1, by rw [← hfee], rfl⟩
    · rintro ⟨h1, rfl, rfl⟩
      exact ⟨(fee, {}), ⟨h1, rfl⟩, by rw [← hfee], rfl⟩
  refine ⟨hfee, by unfold quoteDispatch; rw [hfee], key, ?_⟩
  intro hne e sender md b
  exact ⟨(s, {}), (key e sender _ md b s {}).2
    ⟨⟨fee.amount, by unfold quoteDispatch; rw [hfee], hne, le_refl _⟩, rfl, rfl⟩⟩

/-- A history in which the owner changes the fee, a stranger fails to, and the ownership moves. -/
example : feeAfter "o" ⟨"uosmo", 5⟩
    [⟨⟨fun _ => true, [], fun _ _ _ => .ok [], fun _ => .ok []⟩, "o", [], .inr (.setFee ⟨"uosmo", 7⟩)⟩,
     ⟨⟨fun _ => true, [], fun _ _ _ => .ok [], fun _ => .ok []⟩, "m", [], .inr (.setFee ⟨"uosmo", 1⟩)⟩,
     ⟨⟨fun _ => true, [], fun _ _ _ => .ok [], fun _ => .ok []⟩, "o", [], .inl (.initTransfer "p")⟩,
     ⟨⟨fun _ => true, [], fun _ _ _ => .ok [], fun _ => .ok []⟩, "p", [], .inl .claim⟩,
     ⟨⟨fun _ => true, [], fun _ _ _ => .ok [], fun _ => .ok []⟩, "o", [], .inr (.setFee ⟨"uosmo", 2⟩)⟩,
     ⟨⟨fun _ => true, [], fun _ _ _ => .ok [], fun _ => .ok []⟩, "p", [], .inr (.setFee ⟨"uatom", 3⟩)⟩] =
    ⟨"uatom", 3⟩ := by decide +kernel

end Fee

/-! ## Pausable hook -/

section Pause

open PausableHook

/-- Whether the owner last asked to pause; the initial flag if they never asked for anything. -/
def Spec.pausedAfter (owner : Addr) (p0 : Bool) (h : List (ExecCall HookEnv PausableHook.Msg)) : Bool :=
  (((ownerCalls HookEnv.valid pauseCfg (Ownable.init owner) h).map Prod.snd).getLast?.map
    (fun m => decide (m = .pause))).getD p0

/-- **C50.** After any history post-dispatching fails if the owner paused the hook (or it was created paused), and
otherwise succeeds, whatever is attached, without any effect. No fee is asked for. -/
theorem C50_pausable {valid : Addr → Bool} {owner : Addr} {p0 : Bool} {s0 : Ownable.State × Bool}
    (h0 : instantiate valid owner p0 = .ok s0) (h : List (ExecCall HookEnv PausableHook.Msg)) :
    let s := run (stepOf execute) s0 h
    (∀ e sender funds md b s' r, execute s (postCall .postDispatch e sender funds md b) = .ok (s', r) ↔
      pausedAfter owner p0 h = false ∧ s' = s ∧ r = {}) ∧
    quoteDispatch = [] := by
  have hs0 : s0 = (Ownable.init owner, p0) := by
    unfold instantiate at h0
    obtain ⟨_, _, hf⟩ := bind_eq_ok.1 h0
    cases hf; rfl
  subst hs0
  intro s
  have hp : s.2 = pausedAfter owner p0 h := run_flag _ _ h
  refine ⟨?_, rfl⟩
  intro e sender funds md b s' r
  unfold execute
  rw [execOwned_inr]
  simp only [part_postDispatch, ← hp, Prod.mk.injEq]
  constructor
  · rintro ⟨p, ⟨h1, rfl⟩, rfl, rfl⟩
    exact ⟨h1, rfl, rfl⟩
  · rintro ⟨h1, rfl, rfl⟩
    exact ⟨(s.2, {}), ⟨h1, rfl⟩, rfl, rfl⟩

example : pausedAfter "o" false
    [⟨⟨fun _ => true, [], fun _ _ _ => .ok [], fun _ => .ok []⟩, "o", [], .inr (.pausable .pause)⟩,
     ⟨⟨fun _ => true, [], fun _ _ _ => .ok [], fun _ => .ok []⟩, "m", [], .inr (.pausable .release)⟩] = true ∧
    pausedAfter "o" true
    [⟨⟨fun _ => true, [], fun _ _ _ => .ok [], fun _ => .ok []⟩, "o", [], .inr (.pausable .release)⟩] = false := by
  decide +kernel

end Pause

/-! ## Routing hooks -/

section Routing

open RoutingHook

/-- The route updates of the owner. -/
def Spec.routeUpdates (owner : Addr) (h : List (ExecCall HookEnv RoutingHook.Msg)) :
    List (UInt32 × Option Addr) :=
  (ownerCalls HookEnv.valid routingCfg (Ownable.init owner) h).flatMap (fun x => routesOf x.2)

theorem getRoute_run {τ : Type} (l : List (UInt32 × Option τ)) (d : UInt32) :
    Router.getRoute (Router.setRoutes OMap.empty l) d = (lastFor d l).join := by
  rw [getRoute_setRoutes]
  rcases lastFor d l with _ | _ | a <;> rfl

theorem routing_route {s : Router.State Addr} {b : Bytes} {hook : Addr} :
    route s b = .ok hook ↔ 77 ≤ b.length ∧ Router.getRoute s (destOf b) = some hook := by
  unfold route
  rw [decode_then]
  constructor
  · rintro ⟨h1, m, h2, _, _, h3⟩
    exact ⟨h1, by rw [← h2]; exact found_ok.1 h3⟩
  · rintro ⟨h1, h2⟩
    obtain ⟨m, hm⟩ := Message.decode_long h1
    obtain ⟨_, g2, g3⟩ := decode_fields hm
    exact ⟨h1, m, g2, g3, hm, found_ok.2 (by rw [g2]; exact h2)⟩

/-- **C51**, plain routing hook. After any history, post-dispatching succeeds exactly if the owner has set a hook for
the destination domain and not removed it since, and then does nothing but pass on metadata and message to that hook.
The quote is that of the same hook for the same metadata and message. -/
theorem C51_routing {valid : Addr → Bool} {owner : Addr} {s0 : Ownable.State × Router.State Addr}
    (h0 : instantiate valid owner = .ok s0) (h : List (ExecCall HookEnv RoutingHook.Msg)) (md b : Bytes) :
    let s := run (stepOf execute) s0 h
    let hook? := (lastFor (destOf b) (routeUpdates owner h)).join
    (∀ e sender funds s' r, execute s (postCall .postDispatch e sender funds md b) = .ok (s', r) ↔
      77 ≤ b.length ∧ ∃ hook, hook? = some hook ∧ s' = s ∧
        r = { msgs := [.execute hook (.postDispatch md b) []] }) ∧
    (∀ quote fees, quoteDispatch quote s md b = .ok fees ↔
      77 ≤ b.length ∧ ∃ hook, hook? = some hook ∧ quote hook md b = .ok fees) := by
  have hs0 : s0 = (Ownable.init owner, OMap.empty) := by
    unfold instantiate at h0
    obtain ⟨_, _, hf⟩ := bind_eq_ok.1 h0
    cases hf; rfl
  subst hs0
  intro s hook?
  have hs : s.2 = Router.setRoutes OMap.empty (routeUpdates owner h) := run_routes _ _ h
  have hr : ∀ hook, route s.2 b = .ok hook ↔ 77 ≤ b.length ∧ hook? = some hook := by
    intro hook
    rw [routing_route, hs, getRoute_run]
  constructor
  · intro e sender funds s' r
    unfold execute
    rw [execOwned_inr]
    simp only [part_postDispatch, hr, Prod.mk.injEq]
    constructor
    · rintro ⟨p, ⟨hook, ⟨h1, h2⟩, rfl⟩, rfl, rfl⟩
      exact ⟨h1, hook, h2, rfl, rfl⟩
    · rintro ⟨h1, hook, h2, rfl, rfl⟩
      exact ⟨(s.2, forwardTo hook md b), ⟨hook, ⟨h1, h2⟩, rfl⟩, rfl, rfl⟩
  · intro quote fees
    unfold quoteDispatch
    rw [bind_eq_ok]
    simp only [hr, and_assoc, exists_and_left]

end Routing

section Fallback

open FallbackHook

/-- The route updates of the owner. -/
def Spec.fallbackRoutes (owner : Addr) (h : List (ExecCall HookEnv FallbackHook.Msg)) :
    List (UInt32 × Option Addr) :=
  (ownerCalls HookEnv.valid fallbackCfg (Ownable.init owner) h).flatMap (fun x => customRoutes x.2)

/-- The fallback the owner set last. -/
def Spec.fallbackHook? (owner : Addr) (h : List (ExecCall HookEnv FallbackHook.Msg)) : Option Addr :=
  ((ownerCalls HookEnv.valid fallbackCfg (Ownable.init owner) h).flatMap fallbackOf).getLast?

theorem fallback_route {s : FallbackHook.State} {b : Bytes} {hook : Addr} :
    route s b = .ok hook ↔ 77 ≤ b.length ∧ ∃ f, s.fallback = some f ∧
      hook = (Router.getRoute s.routes (destOf b)).getD f := by
  unfold route
  rw [decode_then]
  constructor
  · rintro ⟨h1, m, h2, _, _, h3⟩
    obtain ⟨f, h4, h5⟩ := bind_eq_ok.1 h3
    refine ⟨h1, f, ?_, ?_⟩
    · unfold loadFallback at h4
      cases hf : s.fallback with
      | none => rw [hf] at h4; cases h4
      | some g => rw [hf] at h4; cases h4; rfl
    · cases h5
      rw [h2]
  · rintro ⟨h1, f, h2, rfl⟩
    obtain ⟨m, hm⟩ := Message.decode_long h1
    obtain ⟨_, g2, g3⟩ := decode_fields hm
    refine ⟨h1, m, g2, g3, hm, ?_⟩
    unfold loadFallback
    rw [h2, g2]
    rfl

/-- **C51**, fallback routing hook. Once the owner has set a fallback, post-dispatching passes on metadata and message
to the hook the owner has set for the destination domain, and to the fallback exactly if there is none. (Before a
fallback is set every post-dispatch call fails.) The quote is that of the same hook for the same metadata and
message. -/
theorem C51_fallback {valid : Addr → Bool} {owner : Addr} {s0 : Ownable.State × FallbackHook.State}
    (h0 : instantiate valid owner = .ok s0) (h : List (ExecCall HookEnv FallbackHook.Msg)) (md b : Bytes) :
    let s := run (stepOf execute) s0 h
    let hook? := (fallbackHook? owner h).map (fun f => ((lastFor (destOf b) (fallbackRoutes owner h)).join).getD f)
    (∀ e sender funds s' r, execute s (postCall .postDispatch e sender funds md b) = .ok (s', r) ↔
      77 ≤ b.length ∧ ∃ hook, hook? = some hook ∧ s' = s ∧
        r = { msgs := [.execute hook (.postDispatch md b) []] }) ∧
    (∀ quote fees, quoteDispatch quote s md b = .ok fees ↔
      77 ≤ b.length ∧ ∃ hook, hook? = some hook ∧ quote hook md b = .ok fees) := by
  have hs0 : s0 = (Ownable.init owner, ⟨OMap.empty, none⟩) := by
    unfold instantiate at h0
    obtain ⟨_, _, hf⟩ := bind_eq_ok.1 h0
    cases hf; rfl
  subst hs0
  intro s hook?
  have hs : s.2 = ⟨Router.setRoutes OMap.empty (fallbackRoutes owner h), fallbackHook? owner h⟩ := by
    have := run_state (Ownable.init owner) ⟨OMap.empty, none⟩ h
    rw [Option.or_none] at this
    exact this
  have hr : ∀ hook, route s.2 b = .ok hook ↔ 77 ≤ b.length ∧ hook? = some hook := by
    intro hook
    rw [fallback_route, hs]
    simp only [getRoute_run]
    rw [Option.map_eq_some_iff]
    simp only [@eq_comm _ hook]
  constructor
  · intro e sender funds s' r
    unfold execute
    rw [execOwned_inr]
    simp only [part_postDispatch, hr, Prod.mk.injEq]
    constructor
    · rintro ⟨p, ⟨hook, ⟨h1, h2⟩, rfl⟩, rfl, rfl⟩
      exact ⟨h1, hook, h2, rfl, rfl⟩
    · rintro ⟨h1, hook, h2, rfl, rfl⟩
      exact ⟨(s.2, forwardTo hook md b), ⟨hook, ⟨h1, h2⟩, rfl⟩, rfl, rfl⟩
  · intro quote fees
    unfold quoteDispatch
    rw [bind_eq_ok]
    simp only [hr, and_assoc, exists_and_left]

end Fallback

section Custom

open CustomHook

/-- The route updates of the owner. -/
def Spec.customRouteUpdates (owner : Addr) (h : List (ExecCall HookEnv CustomHook.Msg)) :
    List (UInt32 × Option Addr) :=
  (ownerCalls HookEnv.valid customCfg (Ownable.init owner) h).flatMap (fun x => customRoutes x.2)

/-- The registrations and clearings of the owner. -/
def Spec.registrations (owner : Addr) (h : List (ExecCall HookEnv CustomHook.Msg)) :
    List ((UInt32 × Bytes) × Option Addr) :=
  (ownerCalls HookEnv.valid customCfg (Ownable.init owner) h).flatMap (fun x => customUpdates x.1.valid x.2)

theorem custom_route {s : CustomHook.State} {b : Bytes} {hook : Addr} :
    route s b = .ok hook ↔ 77 ≤ b.length ∧
      ((s.custom.get (toLex (destOf b, recipientOf b))).or (Router.getRoute s.routes (destOf b))) = some hook := by
  have hp : ∀ m : Message, pick s m = .ok hook ↔
      (s.custom.get (toLex (m.dest, m.recipient))).or (Router.getRoute s.routes m.dest) = some hook := by
    intro m
    unfold pick
    cases s.custom.get (toLex (m.dest, m.recipient)) with
    | some a => simp
    | none => simp [RoutingHook.found_ok]
  unfold route
  rw [decode_then]
  simp only [hp]
  constructor
  · rintro ⟨h1, m, h2, h3, _, h4⟩
    exact ⟨h1, by rw [← h2, ← h3]; exact h4⟩
  · rintro ⟨h1, h2⟩
    obtain ⟨m, hm⟩ := Message.decode_long h1
    obtain ⟨_, g2, g3⟩ := decode_fields hm
    exact ⟨h1, m, g2, g3, hm, by rw [g2, g3]; exact h2⟩

/-- **C51**, custom routing hook. After any history, post-dispatching passes on metadata and message to the hook the
owner has registered for destination and recipient (and not cleared since), otherwise to the one set for the
destination domain, and fails if there is neither. The quote is that of the same hook for the same metadata and
message. -/
theorem C51_custom {valid : Addr → Bool} {owner : Addr} {s0 : Ownable.State × CustomHook.State}
    (h0 : instantiate valid owner = .ok s0) (h : List (ExecCall HookEnv CustomHook.Msg)) (md b : Bytes) :
    let s := run (stepOf execute) s0 h
    let hook? := (lastFor (destOf b, recipientOf b) (registrations owner h)).join.or
      (lastFor (destOf b) (customRouteUpdates owner h)).join
    (∀ e sender funds s' r, execute s (postCall .postDispatch e sender funds md b) = .ok (s', r) ↔
      77 ≤ b.length ∧ ∃ hook, hook? = some hook ∧ s' = s ∧
        r = { msgs := [.execute hook (.postDispatch md b) []] }) ∧
    (∀ quote fees, quoteDispatch quote s md b = .ok fees ↔
      77 ≤ b.length ∧ ∃ hook, hook? = some hook ∧ quote hook md b = .ok fees) := by
  have hs0 : s0 = (Ownable.init owner, ⟨OMap.empty, OMap.empty⟩) := by
    unfold instantiate at h0
    obtain ⟨_, _, hf⟩ := bind_eq_ok.1 h0
    cases hf; rfl
  subst hs0
  intro s hook?
  have hs : s.2 = ⟨Router.setRoutes OMap.empty (customRouteUpdates owner h),
      writeAll OMap.empty (registrations owner h)⟩ := run_state _ _ h
  have hg : ∀ k, (writeAll OMap.empty (registrations owner h)).get (toLex k) =
      (lastFor k (registrations owner h)).join := by
    intro k
    rw [get_writeAll]
    rcases lastFor k (registrations owner h) with _ | _ | a <;> simp
  have hr : ∀ hook, route s.2 b = .ok hook ↔ 77 ≤ b.length ∧ hook? = some hook := by
    intro hook
    rw [custom_route, hs]
    simp only [getRoute_run, hg, hook?]
  constructor
  · intro e sender funds s' r
    unfold execute
    rw [execOwned_inr]
    simp only [part_postDispatch, hr, Prod.mk.injEq]
    constructor
    · rintro ⟨p, ⟨hook, ⟨h1, h2⟩, rfl⟩, rfl, rfl⟩
      exact ⟨h1, hook, h2, rfl, rfl⟩
    · rintro ⟨h1, hook, h2, rfl, rfl⟩
      exact ⟨(s.2, forwardTo hook md b), ⟨hook, ⟨h1, h2⟩, rfl⟩, rfl, rfl⟩
  · intro quote fees
    unfold quoteDispatch
    rw [bind_eq_ok]
    simp only [hr, and_assoc, exists_and_left]

/-- Hexadecimal digit of a number below 16. -/
def Spec.digit (n : Nat) : Char := ("0123456789abcdef".toList[n]?).getD '0'

/-- Hexadecimal form of a byte string. -/
def Spec.toHex (b : Bytes) : String := String.ofList (b.flatMap (fun x => [digit (x.toNat / 16), digit (x.toNat % 16)]))

/-- The recipients of registrations and clearings are read as hexadecimal. -/
theorem fromHexString_toHex (b : Bytes) : fromHexString (toHex b) = .ok b := by
  have hd : ∀ n, n < 16 → hexDigit (digit n) = some n := by decide +kernel
  have : hexBytes (b.flatMap (fun x => [digit (x.toNat / 16), digit (x.toNat % 16)])) = some b := by
    induction b with
    | nil => rfl
    | cons x t ih =>
      have hx := x.toNat_lt
      rw [List.flatMap_cons]
      simp only [List.cons_append, List.nil_append, hexBytes, ih, hd _ (show x.toNat / 16 < 16 by omega),
        hd _ (show x.toNat % 16 < 16 by omega)]
      rw [Nat.div_add_mod]
      simp
  unfold fromHexString toHex
  rw [String.toList_ofList, this]

/-- A registration for domain 1 and Alice, in hexadecimal. -/
example : registrations Ex.alice
    [⟨⟨fun _ => true, [], fun _ _ _ => .ok [], fun _ => .ok []⟩, Ex.alice, [],
      .inr (.register [⟨1, toHex Ex.message.recipient, "mine"⟩])⟩] =
    [((1, Ex.message.recipient), some "mine")] ∧
    (destOf Ex.message.encode, recipientOf Ex.message.encode) = (1, Ex.message.recipient) := by
  decide +kernel

end Custom

/-! ## Routing hooks and coins -/

/-- A routing hook hands the coins it is paid to the hook it routes to: in every state that some history leads to, if
the quote is paid and the call succeeds then what it sends on is the message with these coins. -/
def Spec.PaysRouted {σ μ : Type} (s0 : Ownable.State × σ) (post : Bytes → Bytes → μ)
    (exec : Ownable.State × σ → ExecCall HookEnv μ → Res ((Ownable.State × σ) × Response))
    (quote : (Addr → Bytes → Bytes → Res (List Coin)) → Ownable.State × σ → Bytes → Bytes → Res (List Coin)) :
    Prop :=
  ∀ (h : List (ExecCall HookEnv μ)) (e : HookEnv) (sender : Addr) (md b : Bytes) (fees : List Coin),
    let s := run (stepOf exec) s0 h
    quote e.quote s md b = .ok fees →
    ∀ s' r, exec s (postCall post e sender fees md b) = .ok (s', r) →
      ∃ hook, r.msgs = [.execute hook (.postDispatch md b) fees]

/-- **C52**, full statement. -/
def C52_full : Prop :=
  ∀ owner : Addr,
    PaysRouted (Ownable.init owner, (OMap.empty : Router.State Addr)) RoutingHook.Msg.postDispatch
      RoutingHook.execute RoutingHook.quoteDispatch ∧
    PaysRouted (Ownable.init owner, (⟨OMap.empty, none⟩ : FallbackHook.State)) FallbackHook.Msg.postDispatch
      FallbackHook.execute FallbackHook.quoteDispatch ∧
    PaysRouted (Ownable.init owner, (⟨OMap.empty, OMap.empty⟩ : CustomHook.State)) CustomHook.Msg.postDispatch
      CustomHook.execute CustomHook.quoteDispatch

namespace Ex

/-- A world in which every hook asks for five coins. -/
def hookEnv : HookEnv := ⟨fun _ => true, [], fun _ _ _ => .ok [⟨"uosmo", 5⟩], fun _ => .ok []⟩

/-- The owner of a routing hook sets a route for domain 1. -/
def routingHistory : List (ExecCall HookEnv RoutingHook.Msg) :=
  [⟨hookEnv, alice, [], .inr (.router (.setRoute (1, some "hook")))⟩]

/-- ... for a fallback routing hook ... -/
def fallbackHistory : List (ExecCall HookEnv FallbackHook.Msg) :=
  [⟨hookEnv, alice, [], .inr (.router (.setRoute (2, some "other")))⟩,
   ⟨hookEnv, alice, [], .inr (.setFallback "hook")⟩]

/-- ... and for a custom one, besides a registration for another recipient. -/
def customHistory : List (ExecCall HookEnv CustomHook.Msg) :=
  [⟨hookEnv, alice, [], .inr (.router (.setRoute (1, some "hook")))⟩,
   ⟨hookEnv, alice, [], .inr (.register
     [⟨1, "0000000000000000000000000000000000000000000000000000000000000001", "other"⟩])⟩,
   ⟨hookEnv, "mallory", [], .inr (.clear
     [⟨1, "0000000000000000000000000000000000000000000000000000000000000001"⟩])⟩]

end Ex

/-- None of the three routing hooks forwards the coins it was quoted and paid. -/
theorem C52_full_refuted : ¬ C52_full ∧
    ¬ PaysRouted (Ownable.init Ex.alice, (OMap.empty : Router.State Addr)) RoutingHook.Msg.postDispatch
      RoutingHook.execute RoutingHook.quoteDispatch ∧
    ¬ PaysRouted (Ownable.init Ex.alice, (⟨OMap.empty, none⟩ : FallbackHook.State)) FallbackHook.Msg.postDispatch
      FallbackHook.execute FallbackHook.quoteDispatch ∧
    ¬ PaysRouted (Ownable.init Ex.alice, (⟨OMap.empty, OMap.empty⟩ : CustomHook.State))
      CustomHook.Msg.postDispatch CustomHook.execute CustomHook.quoteDispatch := by
  have hl : 77 ≤ Ex.message.encode.length := by decide +kernel
  have h1 : ¬ PaysRouted (Ownable.init Ex.alice, (OMap.empty : Router.State Addr)) RoutingHook.Msg.postDispatch
      RoutingHook.execute RoutingHook.quoteDispatch := by
    intro h
    obtain ⟨c1, c2⟩ := C51_routing (valid := fun _ => true) (owner := Ex.alice) rfl Ex.routingHistory []
      Ex.message.encode
    have ht : (lastFor (destOf Ex.message.encode) (routeUpdates Ex.alice Ex.routingHistory)).join = some "hook" := by
      decide +kernel
    obtain ⟨hook, hh⟩ := h Ex.routingHistory Ex.hookEnv Ex.alice [] Ex.message.encode [⟨"uosmo", 5⟩]
      ((c2 _ _).2 ⟨hl, "hook", ht, rfl⟩) _ _ ((c1 _ _ _ _ _).2 ⟨hl, "hook", ht, rfl, rfl⟩)
    simp at hh
  refine ⟨fun h => h1 (h Ex.alice).1, h1, ?_, ?_⟩
  · intro h
    obtain ⟨c1, c2⟩ := C51_fallback (valid := fun _ => true) (owner := Ex.alice) rfl Ex.fallbackHistory []
      Ex.message.encode
    have ht : (fallbackHook? Ex.alice Ex.fallbackHistory).map (fun f => ((lastFor (destOf Ex.message.encode)
        (fallbackRoutes Ex.alice Ex.fallbackHistory)).join).getD f) = some "hook" := by decide +kernel
    obtain ⟨hook, hh⟩ := h Ex.fallbackHistory Ex.hookEnv Ex.alice [] Ex.message.encode [⟨"uosmo", 5⟩]
      ((c2 _ _).2 ⟨hl, "hook", ht, rfl⟩) _ _ ((c1 _ _ _ _ _).2 ⟨hl, "hook", ht, rfl, rfl⟩)
    simp at hh
  · intro h
    obtain ⟨c1, c2⟩ := C51_custom (valid := fun _ => true) (owner := Ex.alice) rfl Ex.customHistory []
      Ex.message.encode
    have ht : (lastFor (destOf Ex.message.encode, recipientOf Ex.message.encode)
        (registrations Ex.alice Ex.customHistory)).join.or
        (lastFor (destOf Ex.message.encode) (customRouteUpdates Ex.alice Ex.customHistory)).join = some "hook" := by
      decide +kernel
    obtain ⟨hook, hh⟩ := h Ex.customHistory Ex.hookEnv Ex.alice [] Ex.message.encode [⟨"uosmo", 5⟩]
      ((c2 _ _).2 ⟨hl, "hook", ht, rfl⟩) _ _ ((c1 _ _ _ _ _).2 ⟨hl, "hook", ht, rfl, rfl⟩)
    simp at hh

/-- No message of a list carries coins or sends any. -/
def Spec.NoCoins (l : List OutMsg) : Prop := ∀ d, outflow d l = 0

theorem noCoins_of {l : List OutMsg}
    (h : l = [] ∨ ∃ hook md b, l = [.execute hook (.postDispatch md b) []]) :
    NoCoins l ∧ ∀ hook md b funds, .execute hook (.postDispatch md b) funds ∈ l →
        ∀ (fs : Ownable.State × Coin) e router x,
          FeeHook.execute fs (postCall .postDispatch e router funds md b) ≠ .ok x := by
  rcases h with rfl | ⟨hook, md, b, rfl⟩
  · exact ⟨fun d => rfl, by simp⟩
  · refine ⟨fun d => rfl, ?_⟩
    intro hook' md' b' funds hmem fs e router x hx
    simp only [List.mem_singleton, OutMsg.execute.injEq] at hmem
    obtain ⟨_, _, rfl⟩ := hmem
    unfold FeeHook.execute at hx
    obtain ⟨p, hp, _⟩ := execOwned_inr.1 hx
    obtain ⟨⟨n, hn, _⟩, _⟩ := FeeHook.part_postDispatch.1 hp
    cases hn

/-- What is left of C52 for a routing hook in a given state. If the routed hook asks for nothing, what it is owed is
indeed forwarded; otherwise never: no call whatsoever makes a routing hook send coins, so what is attached to a
post-dispatch call stays in the routing hook for good, and a fee hook behind a routing hook rejects every message. -/
def Spec.KeepsCoins {σ μ : Type} (s : Ownable.State × σ) (post : Bytes → Bytes → μ)
    (exec : Ownable.State × σ → ExecCall HookEnv μ → Res ((Ownable.State × σ) × Response))
    (quote : (Addr → Bytes → Bytes → Res (List Coin)) → Ownable.State × σ → Bytes → Bytes → Res (List Coin)) :
    Prop :=
  (∀ e sender md b, quote e.quote s md b = .ok [] →
    ∃ hook, exec s (postCall post e sender [] md b) =
      .ok (s, { msgs := [.execute hook (.postDispatch md b) []] }) ∧ e.quote hook md b = .ok []) ∧
  (∀ c s' r, exec s c = .ok (s', r) → NoCoins r.msgs ∧
    ∀ hook md b funds, .execute hook (.postDispatch md b) funds ∈ r.msgs →
      ∀ (fs : Ownable.State × Coin) e router x,
        FeeHook.execute fs (postCall .postDispatch e router funds md b) ≠ .ok x)

/-- **C52**, what holds of it for the routing hook, see `Spec.KeepsCoins`. -/
theorem C52_routing_partial (s : Ownable.State × Router.State Addr) :
    KeepsCoins s RoutingHook.Msg.postDispatch RoutingHook.execute RoutingHook.quoteDispatch := by
  constructor
  · intro e sender md b h
    unfold RoutingHook.quoteDispatch at h
    obtain ⟨hook, h1, h2⟩ := bind_eq_ok.1 h
    refine ⟨hook, ?_, h2⟩
    unfold RoutingHook.execute
    rw [execOwned_inr]
    exact ⟨_, RoutingHook.part_postDispatch.2 ⟨hook, h1, rfl⟩, rfl⟩
  · intro c s' r h
    apply noCoins_of
    rcases execOwned_ok h with ⟨m, _, _, _, rfl⟩ | ⟨m, _, h2, _⟩
    · exact .inl rfl
    · cases m with
      | router m =>
        obtain ⟨_, h3⟩ := RoutingHook.part_router.1 h2
        exact .inl (congrArg (fun y => Response.msgs (Prod.snd y)) h3)
      | postDispatch md b =>
        obtain ⟨hook, _, h3⟩ := RoutingHook.part_postDispatch.1 h2
        exact .inr ⟨hook, md, b, congrArg (fun y => Response.msgs (Prod.snd y)) h3⟩

/-- **C52**, what holds of it for the fallback routing hook, see `Spec.KeepsCoins`. -/
theorem C52_fallback_partial (s : Ownable.State × FallbackHook.State) :
    KeepsCoins s FallbackHook.Msg.postDispatch FallbackHook.execute FallbackHook.quoteDispatch := by
  constructor
  · intro e sender md b h
    unfold FallbackHook.quoteDispatch at h
    obtain ⟨hook, h1, h2⟩ := bind_eq_ok.1 h
    refine ⟨hook, ?_, h2⟩
    unfold FallbackHook.execute
    rw [execOwned_inr]
    exact ⟨_, FallbackHook.part_postDispatch.2 ⟨hook, h1, rfl⟩, rfl⟩
  · intro c s' r h
    apply noCoins_of
    rcases execOwned_ok h with ⟨m, _, _, _, rfl⟩ | ⟨m, _, h2, _⟩
    · exact .inl rfl
    · cases m with
      | router m =>
        obtain ⟨_, h3⟩ := FallbackHook.part_router.1 h2
        exact .inl (congrArg (fun y => Response.msgs (Prod.snd y)) h3)
      | setFallback m =>
        obtain ⟨_, _, h3⟩ := FallbackHook.part_setFallback.1 h2
        exact .inl (congrArg (fun y => Response.msgs (Prod.snd y)) h3)
      | postDispatch md b =>
        obtain ⟨hook, _, h3⟩ := FallbackHook.part_postDispatch.1 h2
        exact .inr ⟨hook, md, b, congrArg (fun y => Response.msgs (Prod.snd y)) h3⟩

/-- **C52**, what holds of it for the custom routing hook, see `Spec.KeepsCoins`. -/
theorem C52_custom_partial (s : Ownable.State × CustomHook.State) :
    KeepsCoins s CustomHook.Msg.postDispatch CustomHook.execute CustomHook.quoteDispatch := by
  constructor
  · intro e sender md b h
    unfold CustomHook.quoteDispatch at h
    obtain ⟨hook, h1, h2⟩ := bind_eq_ok.1 h
    refine ⟨hook, ?_, h2⟩
    unfold CustomHook.execute
    rw [execOwned_inr]
    exact ⟨_, CustomHook.part_postDispatch.2 ⟨hook, h1, rfl⟩, rfl⟩
  · intro c s' r h
    apply noCoins_of
    rcases execOwned_ok h with ⟨m, _, _, _, rfl⟩ | ⟨m, _, h2, _⟩
    · exact .inl rfl
    · cases m with
      | router m =>
        obtain ⟨_, h3⟩ := CustomHook.part_router.1 h2
        exact .inl (congrArg (fun y => Response.msgs (Prod.snd y)) h3)
      | register m =>
        obtain ⟨_, _, h3⟩ := CustomHook.part_register.1 h2
        exact .inl (congrArg (fun y => Response.msgs (Prod.snd y)) h3)
      | clear m =>
        obtain ⟨_, _, h3⟩ := CustomHook.part_clear.1 h2
        exact .inl (congrArg (fun y => Response.msgs (Prod.snd y)) h3)
      | postDispatch md b =>
        obtain ⟨hook, _, h3⟩ := CustomHook.part_postDispatch.1 h2
        exact .inr ⟨hook, md, b, congrArg (fun y => Response.msgs (Prod.snd y)) h3⟩

/-! ## Aggregate hook -/

section Aggregate

open AggregateHook

/-- The hook list the owner set last (a list with an invalid address is rejected), or the initial one. -/
def Spec.hooksAfter (owner : Addr) (l0 : List Addr) (h : List (ExecCall HookEnv AggregateHook.Msg)) : List Addr :=
  (((ownerCalls HookEnv.valid hooksCfg (Ownable.init owner) h).filter (fun x => x.2.all x.1.valid)).map
    Prod.snd).getLast?.getD l0

/-- Total of one denomination in the quotes of several hooks. -/
def Spec.totalOf (d : String) (fees : List (List Coin)) : Nat := (fees.map (amountOf d)).sum

theorem totalOf_eq (d : String) (fees : List (List Coin)) : totalOf d fees = amountOf d fees.flatten := by
  induction fees with
  | nil => rfl
  | cons f t ih =>
    rw [List.flatten_cons, amountOf_append, ← ih]
    rfl

/-- **C53.** After any history the hooks are those the owner set last. Let each of them answer a quote. Then
post-dispatching a message (of at least the size of a header) calls each of them once, in order, with the same
metadata and message and with exactly what it quoted, and does nothing else; if one of them does not answer it fails.
The aggregate quote is, per denomination, the sum of their quotes, without repeated denominations or zero amounts; it
is answered if no sum exceeds 128 bits. So what goes out is exactly the aggregate quote. -/
theorem C53_aggregate {valid : Addr → Bool} {owner : Addr} {l0 : List Addr} {s0 : Ownable.State × List Addr}
    (h0 : instantiate valid owner l0 = .ok s0) (h : List (ExecCall HookEnv AggregateHook.Msg)) (md b : Bytes) :
    let s := run (stepOf execute) s0 h
    let hooks := hooksAfter owner l0 h
    getHooks s = hooks ∧
    (∀ e sender funds s' r, execute s (postCall .postDispatch e sender funds md b) = .ok (s', r) ↔
      77 ≤ b.length ∧ ∃ fees, List.Forall₂ (fun hook f => e.quote hook md b = .ok f) hooks fees ∧ s' = s ∧
        r = { msgs := (hooks.zip fees).map (fun p => .execute p.1 (.postDispatch md b) p.2) }) ∧
    (∀ quote q, quoteDispatch quote s md b = .ok q →
      ∃ fees, List.Forall₂ (fun hook f => quote hook md b = .ok f) hooks fees ∧
        (∀ d, amountOf d q = totalOf d fees) ∧ DistinctDenoms q ∧ ∀ c ∈ q, c.amount ≠ 0) ∧
    (∀ quote fees, List.Forall₂ (fun hook f => quote hook md b = .ok f) hooks fees →
      (∀ d, totalOf d fees < 2 ^ 128) → ∃ q, quoteDispatch quote s md b = .ok q) ∧
    (∀ e sender funds s' r q, execute s (postCall .postDispatch e sender funds md b) = .ok (s', r) →
      quoteDispatch e.quote s md b = .ok q → ∀ d, outflow d r.msgs = amountOf d q) := by
  have hs0 : s0 = (Ownable.init owner, l0) := by
    unfold instantiate at h0
    obtain ⟨_, _, h0⟩ := bind_eq_ok.1 h0
    obtain ⟨_, _, hf⟩ := bind_eq_ok.1 h0
    cases hf; rfl
  subst hs0
  intro s hooks
  have hs : s.2 = hooks := run_hooks _ _ h
  have k1 : ∀ e sender funds s' r, execute s (postCall .postDispatch e sender funds md b) = .ok (s', r) ↔
      77 ≤ b.length ∧ ∃ fees, List.Forall₂ (fun hook f => e.quote hook md b = .ok f) hooks fees ∧ s' = s ∧
        r = { msgs := (hooks.zip fees).map (fun p => .execute p.1 (.postDispatch md b) p.2) } := by
    intro e sender funds s' r
    unfold execute
    rw [execOwned_inr]
    simp only [part_postDispatch, hs, Prod.mk.injEq]
    constructor
    · rintro ⟨p, ⟨h1, fees, h2, rfl⟩, rfl, rfl⟩
      exact ⟨h1, fees, h2, by rw [← hs], rfl⟩
    · rintro ⟨h1, fees, h2, rfl, rfl⟩
      exact ⟨_, ⟨h1, fees, h2, rfl⟩, by rw [← hs], rfl⟩
  have k2 : ∀ quote q, quoteDispatch quote s md b = .ok q →
      ∃ fees, List.Forall₂ (fun hook f => quote hook md b = .ok f) hooks fees ∧
        (∀ d, amountOf d q = totalOf d fees) ∧ DistinctDenoms q ∧ ∀ c ∈ q, c.amount ≠ 0 := by
    intro quote q hq
    unfold quoteDispatch at hq
    obtain ⟨t, h1, hf⟩ := bind_eq_ok.1 hq
    rw [hs] at h1
    obtain ⟨fees, h2, h3⟩ := quoteFold_ok h1
    cases hf
    refine ⟨fees, h2, ?_, ?_, ?_⟩
    · intro d
      rw [Coins.amountOf_toVec, Coins.addAll_ok h3, totalOf_eq]
      simp [Coins.amt]
    · exact Coins.distinct_toVec t
    · exact Coins.toVec_pos (Coins.addAll_pos h3 Coins.pos_empty)
  refine ⟨hs, k1, k2, ?_, ?_⟩
  · intro quote fees hf hlim
    obtain ⟨t, ht⟩ := quoteFold_isOk (acc := OMap.empty) hf (by
      intro d
      rw [← totalOf_eq]
      simpa [Coins.amt, u128Lim] using hlim d)
    exact ⟨t.toVec, by unfold quoteDispatch; rw [hs, ht]; rfl⟩
  · intro e sender funds s' r q h1 h2 d
    obtain ⟨_, fees, g1, _, rfl⟩ := (k1 _ _ _ _ _).1 h1
    obtain ⟨fees', g2, g3, _⟩ := k2 _ _ h2
    have hff : fees = fees' := quotes_unique g1 g2
    subst hff
    rw [g3, totalOf_eq]
    exact outflow_zip md b d hooks fees (List.Forall₂.length_eq g1)

namespace Ex

/-- Two hooks with quotes in overlapping denominations. -/
def aggEnv : HookEnv := ⟨fun a => decide (a ≠ "bad"), [],
  fun a _ _ => .ok (if a = "h1" then [⟨"uosmo", 5⟩, ⟨"uatom", 1⟩] else [⟨"uosmo", 3⟩]), fun _ => .ok []⟩

/-- The owner sets two hooks, then tries an invalid list; a stranger tries too. -/
def aggHistory : List (ExecCall HookEnv AggregateHook.Msg) :=
  [⟨aggEnv, "o", [], .inr (.setHooks ["h1", "h2", "h1"])⟩, ⟨aggEnv, "o", [], .inr (.setHooks ["h1", "bad"])⟩,
   ⟨aggEnv, "m", [], .inr (.setHooks [])⟩]

end Ex

example : hooksAfter "o" [] Ex.aggHistory = ["h1", "h2", "h1"] := by decide +kernel

example : (∃ x, execute (run (stepOf execute) (Ownable.init "o", []) Ex.aggHistory)
      (postCall .postDispatch Ex.aggEnv "s" [] [] Ex.message.encode) = .ok x) ∧
    quoteDispatch Ex.aggEnv.quote (run (stepOf execute) (Ownable.init "o", []) Ex.aggHistory) [] Ex.message.encode =
      .ok [⟨"uatom", 2⟩, ⟨"uosmo", 13⟩] := by
  refine ⟨⟨_, ((C53_aggregate (valid := fun _ => true) (owner := "o") (l0 := []) rfl Ex.aggHistory []
    Ex.message.encode).2.1 Ex.aggEnv "s" [] _ _).2 ⟨by decide +kernel,
      [[⟨"uosmo", 5⟩, ⟨"uatom", 1⟩], [⟨"uosmo", 3⟩], [⟨"uosmo", 5⟩, ⟨"uatom", 1⟩]], ?_, rfl, rfl⟩⟩, ?_⟩
  · have : hooksAfter "o" [] Ex.aggHistory = ["h1", "h2", "h1"] := by decide +kernel
    rw [this]
    exact .cons rfl (.cons rfl (.cons rfl .nil))
  · decide +kernel

end Aggregate

end Hpl
