import Verif.Lemmas.Mouthpiece
import Verif.Props.Interface
import Verif.Examples.Mailbox

/-! # Contracts are nobody's mouthpiece (C93) -/

namespace Hpl

open Interface Schema Spec Ex

/-- **C93 (duties).** Whatever anyone asks of a contract, in whatever state, it sends only what it is there to send. -/
theorem C93_duties (k : Contract) (self : Addr) (m : OutMsg) (h : Sends k self m) : Duty self k m := by
  cases k with
  | mailbox => obtain ⟨_, _, _, _, _, h, hm⟩ := h; exact mailbox_duty h hm
  | aggregateHook => obtain ⟨_, _, _, h, hm⟩ := h; exact aggregate_duty h hm
  | feeHook => obtain ⟨_, _, _, h, hm⟩ := h; exact fee_duty h hm
  | pausableHook => obtain ⟨_, _, _, h, hm⟩ := h; exact (pausable_silent h hm).elim
  | routingHook => obtain ⟨_, _, _, h, hm⟩ := h; exact routing_duty h hm
  | customHook => obtain ⟨_, _, _, h, hm⟩ := h; exact custom_duty h hm
  | fallbackHook => obtain ⟨_, _, _, h, hm⟩ := h; exact fallback_duty h hm
  | igp => obtain ⟨_, _, _, _, h, hm⟩ := h; exact igp_duty h hm
  | oracle => obtain ⟨_, _, _, h, hm⟩ := h; exact (oracle_silent h hm).elim
  | warpNative => obtain ⟨_, _, _, _, h, hm⟩ := h; exact native_duty h hm
  | warpCw20 => obtain ⟨_, _, _, _, h, hm⟩ := h; exact cw20_duty h hm
  | _ => exact h.elim

/-- Alice dispatches, and the mailbox sends the message to its required hook, here with 5 coins. -/
theorem alice_speaks : ∃ md msg, Sends .mailbox "mailbox" (.execute "req" (.postDispatch md msg) [⟨"uosmo", 5⟩]) := by
  have key : ((Mailbox.execute toyHash Bech.codec s1
      (call [⟨"uosmo", 9⟩, ⟨"uatom", 1⟩] (.dispatch request))).toOption.bind (·.2.msgs.head?)) =
      some (.execute "req" (.postDispatch [] message.encode) [⟨"uosmo", 5⟩]) := by decide +kernel
  cases hx : Mailbox.execute toyHash Bech.codec s1 (call [⟨"uosmo", 9⟩, ⟨"uatom", 1⟩] (.dispatch request)) with
  | ok x => rw [hx] at key; exact ⟨_, _, toyHash, Bech.codec, s1, _, x, hx, List.mem_of_head? key⟩
  | error _ => rw [hx] at key; cases key

example : ∃ md msg, Duty "mailbox" .mailbox (.execute "req" (.postDispatch md msg) [⟨"uosmo", 5⟩]) := by
  obtain ⟨md, msg, h⟩ := alice_speaks
  exact ⟨md, msg, C93_duties _ _ _ h⟩

/-- A router of bridged tokens. -/
def routerState : Ownable.State × Warp.State :=
  (Ownable.init alice, ⟨some "token", .bridged, "osmo", "mailbox", Connection.empty,
    Router.setRoutes OMap.empty [(2, some (zeros 32))]⟩)

/-- A transfer of 7 tokens to Alice arrives. -/
def routerCall : ExecCall (Addr → Bool) Warp.Msg :=
  ⟨fun _ => true, "mailbox", [], .inr (.handle 2 (zeros 32) (zeros 12 ++ aliceRaw ++ zeros 31 ++ [7]))⟩

/-- A router of bridged tokens that is told by its mailbox of 7 tokens that were sent to Alice: it has them minted. -/
theorem router_speaks : ∃ dst, Sends .warpCw20 "router" (.execute "token" (.cw20Mint dst 7) []) := by
  have key : ((Warp.execute Warp.cw20 Bech.codec "router" routerState routerCall).toOption.bind (·.2.msgs.head?)) =
      some (.execute "token" (.cw20Mint alice 7) []) := by decide +kernel
  cases hx : Warp.execute Warp.cw20 Bech.codec "router" routerState routerCall with
  | ok x => rw [hx] at key; exact ⟨_, Bech.codec, _, _, x, hx, List.mem_of_head? key⟩
  | error _ => rw [hx] at key; cases key

/-- **C93 (refused elsewhere).** A message for one kind of contract is refused by every contract of another kind: the text
cannot be read as any message that contract takes. -/
theorem C93_refused (p : Payload) (hf : payloadFits p) (c : Contract) (h : c ∉ addressees p) :
    ∃ b, send (payloadTy p) (payloadVal p) = some b ∧ receive (executeTy c) b = none :=
  payload_refused p hf c h

/-- A message for hooks, had it been addressed to a token contract or to a mailbox: not among the addressees. -/
example : payloadFits (.postDispatch [1] [2]) ∧ Contract.cw20 ∉ addressees (.postDispatch [1] [2]) ∧
    Contract.mailbox ∉ addressees (.postDispatch [1] [2]) := ⟨trivial, by decide +kernel, by decide +kernel⟩

/-- **C93 (what is heard).** A message of any contract of the repository, addressed by whomever to any contract of the
repository or a token contract, is either refused or one of: `PostDispatch` of the mailbox or a forwarding hook, heard by
a hook; `Handle` of the mailbox, heard by a router; `Dispatch` of a router, heard by a mailbox; and the four messages of the
router for token contracts, heard by a token contract. No contract can be made to use what another contract lets it do as
an owner, beneficiary or holder of tokens. -/
theorem C93_heard (k : Contract) (self dst : Addr) (p : Payload) (f : List Coin)
    (h : Sends k self (.execute dst p f)) :
    ∃ b, send (payloadTy p) (payloadVal p) = some b ∧
      ∀ c, receive (executeTy c) b = none ∨
        ∃ name w, receive (executeTy c) b = some (.variant name w) ∧ payloadVal p = .variant name w ∧ Heard k c name := by
  have hd := C93_duties k self _ h
  have hf : payloadFits p := by cases hd <;> first | assumption | trivial
  obtain ⟨b, hs, -, hr⟩ := C74_messages p hf
  refine ⟨b, hs, fun c => ?_⟩
  by_cases hc : c ∈ addressees p
  · right
    rw [hr c hc]
    cases hd with
    | announce => exact ⟨_, _, rfl, rfl, .inl ⟨by decide, hc, rfl⟩⟩
    | deliver => exact ⟨_, _, rfl, rfl, .inr (.inl ⟨rfl, hc, rfl⟩)⟩
    | all => exact ⟨_, _, rfl, rfl, .inl ⟨by decide, hc, rfl⟩⟩
    | route => exact ⟨_, _, rfl, rfl, .inl ⟨by decide, hc, rfl⟩⟩
    | custom => exact ⟨_, _, rfl, rfl, .inl ⟨by decide, hc, rfl⟩⟩
    | fallback => exact ⟨_, _, rfl, rfl, .inl ⟨by decide, hc, rfl⟩⟩
    | nativeOut => exact ⟨_, _, rfl, rfl, .inr (.inr (.inl ⟨by decide, List.mem_singleton.1 hc, rfl⟩))⟩
    | cw20Out => exact ⟨_, _, rfl, rfl, .inr (.inr (.inl ⟨by decide, List.mem_singleton.1 hc, rfl⟩))⟩
    | cw20Mint => exact ⟨_, _, rfl, rfl, .inr (.inr (.inr ⟨rfl, List.mem_singleton.1 hc, by decide⟩))⟩
    | cw20Pay => exact ⟨_, _, rfl, rfl, .inr (.inr (.inr ⟨rfl, List.mem_singleton.1 hc, by decide⟩))⟩
    | cw20Take => exact ⟨_, _, rfl, rfl, .inr (.inr (.inr ⟨rfl, List.mem_singleton.1 hc, by decide⟩))⟩
    | cw20Burn => exact ⟨_, _, rfl, rfl, .inr (.inr (.inr ⟨rfl, List.mem_singleton.1 hc, by decide⟩))⟩
  · left
    obtain ⟨b', hs', hn⟩ := C93_refused p hf c hc
    rw [hs] at hs'
    cases hs'
    exact hn

/-- The router has tokens minted: the token contract hears it, a mailbox at the same address would refuse it. -/
example : ∃ dst b, send (payloadTy (.cw20Mint dst 7)) (payloadVal (.cw20Mint dst 7)) = some b ∧
    receive (executeTy .cw20) b = some (payloadVal (.cw20Mint dst 7)) ∧ receive (executeTy .mailbox) b = none := by
  obtain ⟨dst, h⟩ := router_speaks
  obtain ⟨b, hs, hr⟩ := C93_heard _ _ _ _ _ h
  refine ⟨dst, b, hs, ?_, ?_⟩
  · obtain ⟨b', hs', _, hr'⟩ := C74_messages (.cw20Mint dst 7) (by decide : 7 < 2 ^ 128)
    rw [hs] at hs'
    cases hs'
    exact hr' _ List.mem_cons_self
  · rcases hr .mailbox with h | ⟨n, w, _, e, h⟩
    · exact h
    · cases e
      revert h
      simp [Heard]

/-- **C93 (in its own name only).** What a router creates and burns with the token factory, and what it takes of a token
contract, it creates, burns and takes for its own account. -/
theorem C93_own_name (k : Contract) (self : Addr) (m : OutMsg) (h : Sends k self m) :
    (∀ a d n, m = .tfMint a d n → a = self) ∧ (∀ a d n, m = .tfBurn a d n → a = self) ∧
    (∀ t o r n f, m = .execute t (.cw20TransferFrom o r n) f → r = self) := by
  have hd := C93_duties k self m h
  refine ⟨?_, ?_, ?_⟩
  · rintro a d n rfl; cases hd; rfl
  · rintro a d n rfl; cases hd; rfl
  · rintro t o r n f rfl; cases hd; rfl

end Hpl
