import Verif.Props.EventsSettings

/-! # Custom hooks and post-dispatching as the events tell them, and what they do not tell (C90) -/

namespace Hpl

open Spec Events Tx

/-! ## Custom hooks -/

theorem hexDigit_lower {c : Char} {x : Nat} (h : hexDigit c = some x) :
    x < 16 ∧ c.toLower = "0123456789abcdef".toList[x]! := by
  have key : ∀ n, n < 103 → ∀ x, x ∈ hexDigit (Char.ofNat n) →
      x < 16 ∧ (Char.ofNat n).toLower = "0123456789abcdef".toList[x]! := by decide +kernel
  have hn : c.toNat < 103 := by
    unfold hexDigit at h
    simp only at h
    split at h
    · omega
    · split at h
      · omega
      · split at h
        · omega
        · cases h
  have := key c.toNat hn x (by rw [Char.ofNat_toNat]; exact h)
  rwa [Char.ofNat_toNat] at this

theorem hexBytes_lower : ∀ {l : List Char} {b : Bytes}, hexBytes l = some b → l.map Char.toLower = (hexText b).toList
  | [], b, h => by cases h; rfl
  | [_], b, h => by cases h
  | a :: c :: t, b, h => by
    rw [hexBytes] at h
    split at h
    · rename_i x y r hx hy hr
      cases h
      have ih := hexBytes_lower hr
      obtain ⟨x1, x2⟩ := hexDigit_lower hx
      obtain ⟨y1, y2⟩ := hexDigit_lower hy
      have hb : (UInt8.ofNat (16 * x + y)).toNat = 16 * x + y := by
        rw [UInt8.toNat_ofNat']; exact Nat.mod_eq_of_lt (by omega)
      rw [List.map_cons, List.map_cons, ih, x2, y2]
      unfold hexText
      rw [List.flatMap_cons, hb, show (16 * x + y) / 16 = x by omega, show (16 * x + y) % 16 = y by omega]
      simp only [String.toList_ofList, List.cons_append, List.nil_append]
    · cases h

theorem lowered_hex {t : String} {b : Bytes} (h : fromHexString t = .ok b) : lowered t = hexText b := by
  unfold fromHexString at h
  split at h
  · rename_i r hr
    cases h
    unfold lowered
    rw [hexBytes_lower hr, String.ofList_toList]
  · cases h

theorem lowered_append (a b : String) : lowered (a ++ b) = lowered a ++ lowered b := by
  unfold lowered
  rw [String.toList_append, List.map_append, String.ofList_append]

theorem lowered_decimal (n : Nat) : lowered (number n) = inDecimal n := by
  unfold lowered
  rw [← decimal_eq]
  conv_rhs => rw [← String.ofList_toList (s := inDecimal n)]
  congr 1
  refine (List.map_congr_left (g := id) fun c hc => ?_).trans (List.map_id _)
  have := decimal_digits hc
  unfold Char.isDigit at this
  unfold Char.toLower
  simp only [Bool.and_eq_true, decide_eq_true_eq, ge_iff_le] at this
  split
  · rename_i h
    exfalso
    have h1 := this.2
    have h2 := h.1
    simp only [UInt32.le_iff_toNat_le] at h1 h2
    revert h1 h2
    simp
    omega
  · rfl

theorem colon_inj {a a' x x' : List Char} (h : ':' ∉ a) (h' : ':' ∉ a') (he : a ++ (":".toList ++ x) = a' ++ (":".toList ++ x')) :
    a = a' ∧ x = x' := by
  have : ":".toList = [':'] := by decide
  rw [this] at he
  have he : a ++ ':' :: x = a' ++ ':' :: x' := he
  induction a generalizing a' with
  | nil =>
    cases a' with
    | nil => exact ⟨rfl, (List.cons.inj he).2⟩
    | cons c t => exact absurd (by rw [(List.cons.inj he).1]; exact List.mem_cons_self) h'
  | cons c t ih =>
    cases a' with
    | nil => exact absurd (by rw [(List.cons.inj he).1]; exact List.mem_cons_self) h
    | cons c' t' =>
      obtain ⟨h1, h2⟩ := List.cons.inj he
      obtain ⟨h3, h4⟩ := ih (fun h0 => h (List.mem_cons_of_mem _ h0)) (fun h0 => h' (List.mem_cons_of_mem _ h0)) h2 h2
      exact ⟨by rw [h1, h3], h4⟩

/-- The texts of the keys. -/
theorem key_inj {d d' : UInt32} {b b' : Bytes} {t : String} (h : fromHexString t = .ok b') :
    inDecimal d.toNat ++ ":" ++ hexText b = lowered (number d'.toNat ++ ":" ++ t) ↔ d' = d ∧ b' = b := by
  rw [lowered_append, lowered_append, lowered_decimal, lowered_hex h]
  have hc : ∀ n, ':' ∉ (inDecimal n).toList := fun n h => absurd (decimal_digits h) (by decide)
  have hl : lowered ":" = ":" := by decide
  rw [hl]
  constructor
  · intro h
    have h := congrArg String.toList h
    rw [String.toList_append, String.toList_append, String.toList_append, String.toList_append, List.append_assoc,
      List.append_assoc] at h
    have := colon_inj (hc _) (hc _) h
    exact ⟨(decimal32_inj (String.toList_injective this.1)).symm, (hexText_inj (String.toList_injective this.2)).symm⟩
  · rintro ⟨rfl, rfl⟩
    rfl

theorem registerAll_get {valid : Addr → Bool} {l : List CustomHook.Registration} {s s' : OMap CustomHook.Key Addr}
    (h : CustomHook.registerAll valid s l = .ok s') (d : UInt32) (b : Bytes) :
    (s'.get (toLex (d, b))).isSome = true ↔
      inDecimal d.toNat ++ ":" ++ hexText b ∈ l.map (fun r => lowered (number r.dest.toNat ++ ":" ++ r.recipient)) ∨
      (s.get (toLex (d, b))).isSome = true := by
  induction l generalizing s with
  | nil => cases h; simp
  | cons r t ih =>
    obtain ⟨b', hb, h⟩ := bind_eq_ok.1 h
    obtain ⟨_, _, h⟩ := bind_eq_ok.1 h
    obtain ⟨_, _, h⟩ := bind_eq_ok.1 h
    rw [ih h, OMap.get_insert, List.map_cons, List.mem_cons, key_inj hb]
    by_cases hk : r.dest = d ∧ b' = b
    · obtain ⟨rfl, rfl⟩ := hk
      simp
    · rw [if_neg]
      · simp only [hk, false_or]
      · intro he
        have := toLex.injective he
        simp only [Prod.mk.injEq] at this
        exact hk ⟨this.1.symm, this.2.symm⟩

theorem clearAll_get {l : List CustomHook.Clearing} {s s' : OMap CustomHook.Key Addr}
    (h : CustomHook.clearAll s l = .ok s') (d : UInt32) (b : Bytes) :
    (s'.get (toLex (d, b))).isSome = true ↔
      inDecimal d.toNat ++ ":" ++ hexText b ∉ l.map (fun r => lowered (number r.dest.toNat ++ ":" ++ r.recipient)) ∧
      (s.get (toLex (d, b))).isSome = true := by
  induction l generalizing s with
  | nil => cases h; simp
  | cons r t ih =>
    obtain ⟨b', hb, h⟩ := bind_eq_ok.1 h
    rw [ih h, OMap.get_erase, List.map_cons, List.mem_cons, key_inj hb]
    by_cases hk : r.dest = d ∧ b' = b
    · obtain ⟨rfl, rfl⟩ := hk
      simp
    · rw [if_neg]
      · simp only [hk, false_or]
      · intro he
        have := toLex.injective he
        simp only [Prod.mk.injEq] at this
        exact hk ⟨this.1.symm, this.2.symm⟩

theorem textsAt_keys {α : Type} (f : α → String) (l : List α) {e : TextEvent}
    (h : attr "keys" e = some (String.ofList (Json.arr (l.map (fun r => .str (f r)))).print)) :
    (textsAt "keys" e).map lowered = l.map (fun r => lowered (f r)) := by
  unfold textsAt
  rw [jsonAt_print h]
  simp only [List.filterMap_map]
  rw [show (List.filterMap _ l) = l.map f from ?_, List.map_map]
  · rfl
  · rw [← List.filterMap_eq_map]
    rfl

theorem customTold_same {d : UInt32} {b : Bytes} {evs new : List TextEvent}
    (h : ∀ e ∈ new, e.ty ≠ "hpl_hook_routing_custom::register" ∧ e.ty ≠ "hpl_hook_routing_custom::clear") :
    customTold d b (evs ++ new) = customTold d b evs := by
  unfold customTold
  rw [lastOf_none]
  rintro e he ⟨h1 | h1, _⟩
  · exact (h e he).1 h1
  · exact (h e he).2 h1

theorem customTold_step {d : UInt32} {b : Bytes} {evs : List TextEvent} {e : TextEvent} {l : List String}
    (h1 : e.ty = "hpl_hook_routing_custom::register" ∨ e.ty = "hpl_hook_routing_custom::clear")
    (h2 : (textsAt "keys" e).map lowered = l) :
    customTold d b (evs ++ [e]) = if inDecimal d.toNat ++ ":" ++ hexText b ∈ l then
      decide (e.ty = "hpl_hook_routing_custom::register") else customTold d b evs := by
  by_cases h : inDecimal d.toNat ++ ":" ++ hexText b ∈ l
  · rw [if_pos h]
    unfold customTold
    rw [lastOf_snoc (⟨h1, by rw [h2]; exact h⟩ : NamesRecipient d b e)]
  · rw [if_neg h]
    unfold customTold
    rw [lastOf_skip]
    rintro ⟨_, h'⟩
    rw [h2] at h'
    exact h h'

theorem customTold_register (H : Bytes → Bytes) {d : UInt32} {b : Bytes} {o : Ownable.State} {s : CustomHook.State} {e : HookEnv}
    {sender : Addr} {funds : List Coin} {l : List CustomHook.Registration} {m : OMap CustomHook.Key Addr} {r : Response}
    {evs : List TextEvent} (hm : CustomHook.registerAll e.valid s.custom l = .ok m)
    (I : (s.custom.get (toLex (d, b))).isSome = customTold d b evs) :
    (m.get (toLex (d, b))).isSome =
      customTold d b (evs ++ customHook H (o, s) ⟨e, sender, funds, .inr (.register l)⟩ r) := by
  have hk := registerAll_get hm d b
  refine Eq.trans ?_ (customTold_step (.inl rfl) (textsAt_keys
    (fun r : CustomHook.Registration => number r.dest.toNat ++ ":" ++ r.recipient) l rfl)).symm
  split
  · rename_i hin
    rw [hk.2 (.inl hin)]
    rfl
  · rename_i hin
    rw [← I, Bool.eq_iff_iff, hk]
    exact ⟨fun h => h.resolve_left hin, .inr⟩

theorem customTold_clear (H : Bytes → Bytes) {d : UInt32} {b : Bytes} {o : Ownable.State} {s : CustomHook.State} {e : HookEnv}
    {sender : Addr} {funds : List Coin} {l : List CustomHook.Clearing} {m : OMap CustomHook.Key Addr} {r : Response}
    {evs : List TextEvent} (hm : CustomHook.clearAll s.custom l = .ok m)
    (I : (s.custom.get (toLex (d, b))).isSome = customTold d b evs) :
    (m.get (toLex (d, b))).isSome =
      customTold d b (evs ++ customHook H (o, s) ⟨e, sender, funds, .inr (.clear l)⟩ r) := by
  have hk := clearAll_get hm d b
  refine Eq.trans ?_ (customTold_step (.inr rfl) (textsAt_keys
    (fun r : CustomHook.Clearing => number r.dest.toNat ++ ":" ++ r.recipient) l rfl)).symm
  split
  · rename_i hin
    have : (m.get (toLex (d, b))).isSome = false := by
      rw [Bool.eq_false_iff]
      intro h
      exact (hk.1 h).1 hin
    rw [this]
    exact (by decide : false = decide ("hpl_hook_routing_custom::clear" = "hpl_hook_routing_custom::register"))
  · rename_i hin
    rw [← I, Bool.eq_iff_iff, hk]
    exact ⟨fun h => h.2, fun h => ⟨hin, h⟩⟩

/-- **C90**, custom hooks. A recipient has a custom hook exactly if the last event that names it registers one. Missing is which
hook. -/
theorem C90_custom_partial (H : Bytes → Bytes) {valid : Addr → Bool} {owner : Addr} {s0 : Ownable.State × CustomHook.State}
    (h0 : CustomHook.instantiate valid owner = .ok s0) (txs : List (List (Act (ExecCall HookEnv CustomHook.Msg))))
    (d : UInt32) (b : Bytes) :
    let h := history (logged CustomHook.execute (customHook H)) s0 txs
    (h.1.2.custom.get (toLex (d, b))).isSome = customTold d b (all h.2) := by
  obtain ⟨_, _, hf⟩ := bind_eq_ok.1 h0
  cases hf
  refine exec_induct (fun (s : Ownable.State × CustomHook.State) evs =>
    (s.2.custom.get (toLex (d, b))).isSome = customTold d b evs) rfl (fun _ _ _ _ _ _ => rfl) ?_ ?_ txs
  · intro o s valid sender m o' evs I _
    rw [customTold_same]
    · exact I
    · exact fun e he => ⟨not_ownership_of (by decide) e he, not_ownership_of (by decide) e he⟩
  · intro o s e sender funds m s' r evs I h
    cases m with
    | router m =>
      obtain ⟨p, _, hf⟩ := bind_eq_ok.1 h
      cases hf
      rw [customTold_same]
      · exact I
      · intro e he
        rw [List.mem_singleton.1 he]
        rcases router_types id sender m with h | h <;> rw [h] <;> decide
    | register l =>
      obtain ⟨_, _, h⟩ := bind_eq_ok.1 h
      obtain ⟨m, hm, hf⟩ := bind_eq_ok.1 h
      cases hf
      exact customTold_register H hm I
    | clear l =>
      obtain ⟨_, _, h⟩ := bind_eq_ok.1 h
      obtain ⟨m, hm, hf⟩ := bind_eq_ok.1 h
      cases hf
      exact customTold_clear H hm I
    | postDispatch x y =>
      obtain ⟨_, _, hf⟩ := bind_eq_ok.1 h
      cases hf
      rw [customTold_same]
      · exact I
      · intro e he
        rw [routed_types he]; decide

/-- Registered in upper case, and cleared for another recipient. -/
example :
    let e : HookEnv := ⟨fun _ => true, [], fun _ _ _ => .ok [], fun _ => .ok []⟩
    let b : Bytes := List.replicate 32 0xab
    let h := history (logged CustomHook.execute (customHook id)) (Ownable.init "o", ⟨OMap.empty, OMap.empty⟩)
      [[.call ⟨e, "o", [], .inr (.register [⟨7, String.ofList ((hexText b).toList.map Char.toUpper), "a"⟩,
        ⟨8, hexText b, "c"⟩])⟩ []], [.call ⟨e, "o", [], .inr (.clear [⟨8, hexText b⟩])⟩ []]]
    [7, 8, 9].map (fun d => h.1.2.custom.get (toLex (d, b))) = [some "a", none, none] ∧
    [7, 8, 9].map (fun d => customTold d b (all h.2)) = [true, false, false] := by decide +kernel

/-! ## Post-dispatching -/

theorem routed_told {H : Bytes → Bytes} {name : String} {message : Bytes} {m : Message} {hook : Addr} {a : Res Addr}
    (hm : Message.decode message = .ok m) (ha : a = .ok hook) :
    ∃ ev, routed H name message a = [ev] ∧ RoutedTold name hook m.dest (H message) ev := by
  have he : m.encode = message := (Message.decode_eq_ok.1 hm).1
  refine ⟨⟨name, [("domain", number m.dest.toNat), ("route", hook), ("message_id", hex (m.id H))]⟩, ?_, rfl, rfl,
    ⟨_, rfl, number_decimal _⟩, ?_⟩
  · unfold routed
    rw [hm, ha]
  · show some (hex (H m.encode)) = _
    rw [hex_eq, he]

/-- **C90**, routing hooks. A message that is passed on is told with its id, its destination and the hook it goes to, in one event
of its own type. -/
theorem C90_passed_on_partial (H : Bytes → Bytes) (e : HookEnv) (sender : Addr) (funds : List Coin) (md message : Bytes) :
    (∀ s s' r, RoutingHook.execute s ⟨e, sender, funds, .inr (.postDispatch md message)⟩ = .ok (s', r) →
      ∃ m hook ev, Message.decode message = .ok m ∧ r.msgs = [.execute hook (.postDispatch md message) []] ∧
        routingHook H s ⟨e, sender, funds, .inr (.postDispatch md message)⟩ r = [ev] ∧
        RoutedTold "hpl_hook_routing::post_dispatch" hook m.dest (H message) ev) ∧
    (∀ s s' r, FallbackHook.execute s ⟨e, sender, funds, .inr (.postDispatch md message)⟩ = .ok (s', r) →
      ∃ m hook ev, Message.decode message = .ok m ∧ r.msgs = [.execute hook (.postDispatch md message) []] ∧
        fallbackHook H s ⟨e, sender, funds, .inr (.postDispatch md message)⟩ r = [ev] ∧
        RoutedTold "hpl_hook_routing::post_dispatch" hook m.dest (H message) ev) ∧
    (∀ s s' r, CustomHook.execute s ⟨e, sender, funds, .inr (.postDispatch md message)⟩ = .ok (s', r) →
      ∃ m hook ev, Message.decode message = .ok m ∧ r.msgs = [.execute hook (.postDispatch md message) []] ∧
        customHook H s ⟨e, sender, funds, .inr (.postDispatch md message)⟩ r = [ev] ∧
        RoutedTold "hpl_hook_routing_custom::post_dispatch" hook m.dest (H message) ev) ∧
    (∀ s c r, (∀ a b, c.msg ≠ .inr (.postDispatch a b)) →
      ∀ x ∈ routingHook H s c r, x.ty ≠ "hpl_hook_routing::post_dispatch") ∧
    (∀ s c r, (∀ a b, c.msg ≠ .inr (.postDispatch a b)) →
      ∀ x ∈ fallbackHook H s c r, x.ty ≠ "hpl_hook_routing::post_dispatch") ∧
    (∀ s c r, (∀ a b, c.msg ≠ .inr (.postDispatch a b)) →
      ∀ x ∈ customHook H s c r, x.ty ≠ "hpl_hook_routing_custom::post_dispatch") := by
  have hr : ∀ (sender : Addr) (m : Router.Msg Addr), ∀ x ∈ [router id sender m],
      x.ty ≠ "hpl_hook_routing::post_dispatch" ∧ x.ty ≠ "hpl_hook_routing_custom::post_dispatch" := by
    intro sender m x hx
    rw [List.mem_singleton.1 hx]
    rcases router_types id sender m with h | h <;> rw [h] <;> decide
  refine ⟨?_, ?_, ?_, ?_, ?_, ?_⟩
  · intro s s' r h
    obtain ⟨x, h, hf⟩ := bind_eq_ok.1 h
    obtain ⟨hook, hh, hg⟩ := bind_eq_ok.1 h
    cases hf
    cases hg
    obtain ⟨m, hm, _⟩ := bind_eq_ok.1 hh
    obtain ⟨ev, h1, h2⟩ := routed_told (H := H) (name := "hpl_hook_routing::post_dispatch") hm hh
    exact ⟨m, hook, ev, hm, rfl, h1, h2⟩
  · intro s s' r h
    obtain ⟨x, h, hf⟩ := bind_eq_ok.1 h
    obtain ⟨hook, hh, hg⟩ := bind_eq_ok.1 h
    cases hf
    cases hg
    obtain ⟨m, hm, _⟩ := bind_eq_ok.1 hh
    obtain ⟨ev, h1, h2⟩ := routed_told (H := H) (name := "hpl_hook_routing::post_dispatch") hm hh
    exact ⟨m, hook, ev, hm, rfl, h1, h2⟩
  · intro s s' r h
    obtain ⟨x, h, hf⟩ := bind_eq_ok.1 h
    obtain ⟨hook, hh, hg⟩ := bind_eq_ok.1 h
    cases hf
    cases hg
    obtain ⟨m, hm, _⟩ := bind_eq_ok.1 hh
    obtain ⟨ev, h1, h2⟩ := routed_told (H := H) (name := "hpl_hook_routing_custom::post_dispatch") hm hh
    exact ⟨m, hook, ev, hm, rfl, h1, h2⟩
  · rintro s ⟨e, sender, funds, m | m⟩ r hc x hx
    · exact not_ownership_of (by decide) x hx
    · cases m with
      | router m => exact (hr _ _ x hx).1
      | postDispatch a b => exact absurd rfl (hc a b)
  · rintro s ⟨e, sender, funds, m | m⟩ r hc x hx
    · exact not_ownership_of (by decide) x hx
    · cases m with
      | router m => exact (hr _ _ x hx).1
      | setFallback a =>
        rw [List.mem_singleton.1 hx]
        exact (by decide : "hpl_hook_routing::set_fallback_hook" ≠ "hpl_hook_routing::post_dispatch")
      | postDispatch a b => exact absurd rfl (hc a b)
  · rintro s ⟨e, sender, funds, m | m⟩ r hc x hx
    · exact not_ownership_of (by decide) x hx
    · cases m with
      | router m => exact (hr _ _ x hx).2
      | register l =>
        rw [List.mem_singleton.1 hx]
        exact (by decide : "hpl_hook_routing_custom::register" ≠ "hpl_hook_routing_custom::post_dispatch")
      | clear l =>
        rw [List.mem_singleton.1 hx]
        exact (by decide : "hpl_hook_routing_custom::clear" ≠ "hpl_hook_routing_custom::post_dispatch")
      | postDispatch a b => exact absurd rfl (hc a b)

/-- A message to domain 9 is passed on to the hook of its route. -/
example :
    let e : HookEnv := ⟨fun _ => true, [], fun _ _ _ => .ok [], fun _ => .ok []⟩
    let msg : Message := ⟨3, 0, 5, List.replicate 32 1, 9, List.replicate 32 2, [7]⟩
    let h := history (logged RoutingHook.execute (routingHook (fun _ => [0xca, 0xfe]))) (Ownable.init "o", OMap.empty)
      [[.call ⟨e, "o", [], .inr (.router (.setRoute (9, some "a")))⟩ []], [.call ⟨e, "x", [], .inr (.postDispatch [] msg.encode)⟩ []]]
    (all h.2).map (fun x => (attr "domain" x, attr "route" x, attr "message_id" x)) =
      [(none, none, none), (some "9", some "a", some "cafe")] := by decide +kernel

/-- **C90**, fee hook, aggregate hook and pausable hook. The fee hook tells the coin it was paid, the aggregate hook the id of the
message, the pausable hook nothing. -/
theorem C90_post_dispatch_partial (H : Bytes → Bytes) (e : HookEnv) (sender : Addr) (funds : List Coin) (md message : Bytes) :
    (∀ s s' r, FeeHook.execute s ⟨e, sender, funds, .inr (.postDispatch md message)⟩ = .ok (s', r) →
      ∃ c ev, funds = [c] ∧ s.2.amount ≤ c.amount ∧
        feeHook s ⟨e, sender, funds, .inr (.postDispatch md message)⟩ r = [ev] ∧ ev.ty = "hpl_hook_fee::post_dispatch" ∧
        attr "paid_denom" ev = some c.denom ∧ NumberAt "paid_amount" ev c.amount) ∧
    (∀ s s' r, AggregateHook.execute s ⟨e, sender, funds, .inr (.postDispatch md message)⟩ = .ok (s', r) →
      ∃ ev, aggregateHook H s ⟨e, sender, funds, .inr (.postDispatch md message)⟩ r = [ev] ∧
        ev.ty = "hpl_hook_aggregate::post_dispatch" ∧ HexAt "message_id" ev (H message)) ∧
    (∀ s r, pausableHook s ⟨e, sender, funds, .inr (.postDispatch md message)⟩ r = []) := by
  refine ⟨?_, ?_, fun _ _ => rfl⟩
  · intro s s' r h
    obtain ⟨x, h, hf⟩ := bind_eq_ok.1 h
    obtain ⟨n, hn, h⟩ := bind_eq_ok.1 h
    obtain ⟨_, hl, _⟩ := bind_eq_ok.1 h
    refine ⟨⟨s.2.denom, n⟩, _, (mustPay_ok.1 hn).1, by simpa using ensure_eq_ok.1 hl, rfl, rfl, rfl, _, rfl, ?_⟩
    have : supplied funds s.2.denom = n := by
      unfold supplied
      rw [hn]
    rw [this]
    exact number_decimal _
  · intro s s' r h
    obtain ⟨x, h, hf⟩ := bind_eq_ok.1 h
    obtain ⟨_, _, h⟩ := bind_eq_ok.1 h
    obtain ⟨m, hm, _⟩ := bind_eq_ok.1 h
    have he : m.encode = message := (Message.decode_eq_ok.1 hm).1
    refine ⟨_, rfl, rfl, ?_⟩
    show some (hex (messageId H message)) = _
    unfold messageId
    rw [hm]
    show some (hex (H m.encode)) = _
    rw [hex_eq, he]

/-! ## What is not told -/

/-- The claim in full: the events tell all settings of every contract. -/
def C90_full : Prop :=
  ∀ (H : Bytes → Bytes) (owner : Addr),
    (∀ paused, Readable (silent pausableStep) pausableIsm (Ownable.init owner, paused) id) ∧
    Readable (silent Multisig.step) multisigIsm (Ownable.init owner, Multisig.init) id ∧
    (∀ modules, Readable (silent RoutingIsm.step) routingIsm (Ownable.init owner, modules) id) ∧
    (∀ isms, Readable (silent AggregateIsm.step) aggregateIsm (Ownable.init owner, isms) id) ∧
    Readable Oracle.execute oracle (Ownable.init owner, OMap.empty) id ∧
    (∀ fee, Readable FeeHook.execute feeHook (Ownable.init owner, fee) id) ∧
    (∀ paused, Readable PausableHook.execute pausableHook (Ownable.init owner, paused) id) ∧
    (∀ hooks, Readable AggregateHook.execute (aggregateHook H) (Ownable.init owner, hooks) id) ∧
    Readable RoutingHook.execute (routingHook H) (Ownable.init owner, OMap.empty) id ∧
    Readable FallbackHook.execute (fallbackHook H) (Ownable.init owner, ⟨OMap.empty, none⟩) id ∧
    Readable CustomHook.execute (customHook H) (Ownable.init owner, ⟨OMap.empty, OMap.empty⟩) id

namespace Ex.Untold

/-- A call by the owner. -/
def owned {μ : Type} (m : μ) : List (List (Act (OwnedCall μ))) := [[.call ⟨fun _ => true, "o", .inr m⟩ []]]

def hookEnv : HookEnv := ⟨fun _ => true, [], fun _ _ _ => .ok [], fun _ => .ok []⟩

def exec {ε μ : Type} (e : ε) (m : μ) : List (List (Act (ExecCall ε μ))) := [[.call ⟨e, "o", [], .inr m⟩ []]]

def validators (x : UInt8) : Multisig.Msg := .setValidators 7 1 [List.replicate 20 x]

def isms (t : UInt8) : AggregateIsm.Msg := .setIsms ["a", "b"] t

def gas (n : Nat) : Oracle.Msg := .setConfig ⟨7, n, 1⟩

def custom (a : Addr) : CustomHook.Msg := .register [⟨7, hexText (List.replicate 32 1), a⟩]

end Ex.Untold

open Ex.Untold in
/-- **C90**, what is missing. The events do not tell who the validators of a domain are, what the threshold of an aggregate module
is, which gas data a domain has and which hook a recipient has: there are two calls with the same events and different settings
afterwards. -/
theorem C90_untold (H : Bytes → Bytes) :
    ¬ Readable (silent Multisig.step) multisigIsm (Ownable.init "o", Multisig.init) (fun s => s.2.validators.get 7) ∧
    ¬ Readable (silent AggregateIsm.step) aggregateIsm (Ownable.init "o", ⟨["a", "b"], 1⟩) (fun s => s.2.threshold) ∧
    ¬ Readable Oracle.execute oracle (Ownable.init "o", OMap.empty) (fun s => s.2.get 7) ∧
    ¬ Readable CustomHook.execute (customHook H) (Ownable.init "o", ⟨OMap.empty, OMap.empty⟩)
      (fun s => s.2.custom.get (toLex (7, List.replicate 32 1))) := by
  refine ⟨fun h => ?_, fun h => ?_, fun h => ?_, fun h => ?_⟩
  · exact absurd (h (owned (validators 1)) (owned (validators 2)) (by decide +kernel)) (by decide +kernel)
  · exact absurd (h (owned (isms 1)) (owned (isms 2)) (by decide +kernel)) (by decide +kernel)
  · exact absurd (h (exec (fun _ => true) (gas 1)) (exec (fun _ => true) (gas 2)) (by decide +kernel)) (by decide +kernel)
  · have h1 : some "a" = some "b" := h (exec hookEnv (custom "a")) (exec hookEnv (custom "b")) (by rfl)
    exact absurd h1 (by decide)

/-- Such a setting matters: the claim in full is false. -/
theorem C90_full_refuted : ¬ C90_full := by
  intro h
  refine (C90_untold id).1 fun txs txs' he => ?_
  exact congrArg (fun s => s.2.validators.get 7) ((h id "o").2.1 txs txs' he)

end Hpl
