import Verif.Spec.Mouthpiece
import Verif.Lemmas.Interface
import Verif.Lemmas.Mailbox
import Verif.Lemmas.Hooks
import Verif.Lemmas.Igp
import Verif.Lemmas.Warp

/-! # Reading the message of somebody else -/

namespace Hpl.Interface

open Schema Spec

/-- A variant that the enum does not have is refused. -/
theorem decodeVariant_absent {vs : Fields} {k : String} {j : Option Json}
    (h : k ∉ (Fields.names vs).map snake) : decodeVariant vs k j = none := by
  induction vs using Fields.rec (motive_1 := fun _ => True) with
  | nil => rw [decodeVariant]
  | cons n t r _ ih =>
    simp only [Fields.names, List.map_cons, List.mem_cons, not_or] at h
    rw [decodeVariant, if_neg (fun e => h.1 e.symm), ih h.2]
  | _ => trivial

/-- The variants of an enum, as written. -/
def keys : Ty → List String
  | .enum vs => (Fields.names vs).map snake
  | _ => []

/-- The key of a message. -/
def payloadKey : Payload → String
  | .postDispatch .. => "post_dispatch"
  | .handle .. => "handle"
  | .dispatch _ => "dispatch"
  | .cw20Mint .. => "mint"
  | .cw20Burn _ => "burn"
  | .cw20Transfer .. => "transfer"
  | .cw20TransferFrom .. => "transfer_from"

theorem payloadJson_key (p : Payload) : ∃ j, payloadJson p = .obj [(payloadKey p, j)] := by
  cases p <;> exact ⟨_, rfl⟩

theorem executeTy_enum (c : Contract) : ∃ vs, executeTy c = .enum vs := by
  cases c <;> exact ⟨_, rfl⟩

theorem absent_key (p : Payload) (c : Contract) (h : c ∉ addressees p) : payloadKey p ∉ keys (executeTy c) := by
  revert h
  cases p <;> cases c <;> simp only [addressees, payloadKey] <;> decide +kernel

theorem payload_refused (p : Payload) (hf : payloadFits p) (c : Contract) (h : c ∉ addressees p) :
    ∃ b, send (payloadTy p) (payloadVal p) = some b ∧ receive (executeTy c) b = none := by
  have hs : send (payloadTy p) (payloadVal p) = some (Json.toBinary (payloadJson p)) := by
    rw [send, payload_encode p hf]; rfl
  refine ⟨_, hs, ?_⟩
  obtain ⟨j, hj⟩ := payloadJson_key p
  obtain ⟨vs, hv⟩ := executeTy_enum c
  have ha := absent_key p c h
  rw [hv] at ha
  rw [receive, Json.ofBinary_toBinary, hj, hv]
  exact decodeVariant_absent ha

end Hpl.Interface

namespace Hpl

open Spec

theorem postAll_duty {quote : Addr → Bytes → Bytes → Res (List Coin)} {md msg : Bytes} {l : List Addr}
    {ms : List OutMsg} (h : AggregateHook.postAll quote md msg l = .ok ms) :
    ∀ m ∈ ms, ∃ a f, m = .execute a (.postDispatch md msg) f := by
  induction l generalizing ms with
  | nil => cases h; intro m hm; cases hm
  | cons a t ih =>
    obtain ⟨f, _, h⟩ := bind_eq_ok.1 h
    obtain ⟨r, h2, h⟩ := bind_eq_ok.1 h
    cases h
    intro m hm
    rcases List.mem_cons.1 hm with rfl | hm
    · exact ⟨a, f, rfl⟩
    · exact ih h2 m hm

/-- The messages of a contract with an owner are those of its own part. -/
theorem execOwned_msgs {ε σ μ : Type} {valid : ε → Addr → Bool}
    {part : ε → Ownable.State → σ → Addr → List Coin → μ → Res (σ × Response)} {s : Ownable.State × σ}
    {c : ExecCall ε μ} {x : (Ownable.State × σ) × Response} {m : OutMsg} (h : execOwned valid part s c = .ok x)
    (hm : m ∈ x.2.msgs) : ∃ q y, c.msg = .inr q ∧ part c.env s.1 s.2 c.sender c.funds q = .ok y ∧ m ∈ y.2.msgs := by
  unfold execOwned at h
  split at h
  · obtain ⟨_, _, hf⟩ := bind_eq_ok.1 h
    cases hf; cases hm
  · rename_i q hq
    obtain ⟨y, hy, hf⟩ := bind_eq_ok.1 h
    cases hf
    exact ⟨q, y, hq, hy, hm⟩

theorem mailbox_duty {H : Bytes → Bytes} {C : Codec} {s : Mailbox.State} {c : Mailbox.Call} {x} {m : OutMsg}
    {self : Addr} (h : Mailbox.execute H C s c = .ok x) (hm : m ∈ x.2.msgs) : Duty self .mailbox m := by
  obtain ⟨s', r⟩ := x
  rcases Mailbox.execute_cases h with ⟨_, _, _, _, _, rfl⟩ | ⟨_, _, _, _, _, rfl⟩ | ⟨_, _, _, _, _, rfl⟩ |
    ⟨_, _, _, _, _, rfl⟩ | ⟨_, _, h⟩ | ⟨_, _, _, h⟩
  · cases hm
  · cases hm
  · cases hm
  · cases hm
  · obtain ⟨_, _, _, _, _, _, _, _, _, _, _, _, _, _, _, _, _, _, rfl⟩ := Mailbox.dispatch_ok.1 h
    simp only [List.mem_cons, List.not_mem_nil, or_false] at hm
    rcases hm with rfl | rfl <;> exact .announce ..
  · obtain ⟨_, _, _, _, _, _, _, _, _, _, _, _, _, rfl⟩ := Mailbox.process_ok.1 h
    simp only [List.mem_cons, List.not_mem_nil, or_false] at hm
    subst hm
    exact .deliver ..

theorem aggregate_duty {s} {c : ExecCall HookEnv AggregateHook.Msg} {x} {m : OutMsg} {self : Addr}
    (h : AggregateHook.execute s c = .ok x) (hm : m ∈ x.2.msgs) : Duty self .aggregateHook m := by
  obtain ⟨q, y, -, h, hm⟩ := execOwned_msgs h hm
  cases q with
  | setHooks l =>
    obtain ⟨_, _, h⟩ := bind_eq_ok.1 h
    obtain ⟨_, _, h⟩ := bind_eq_ok.1 h
    cases h; cases hm
  | postDispatch md msg =>
    obtain ⟨ms, h1, h⟩ := bind_eq_ok.1 h
    obtain ⟨_, _, h⟩ := bind_eq_ok.1 h
    cases h
    obtain ⟨a, f, rfl⟩ := postAll_duty h1 m hm
    exact .all ..

theorem fee_duty {s} {c : ExecCall HookEnv FeeHook.Msg} {x} {m : OutMsg} {self : Addr}
    (h : FeeHook.execute s c = .ok x) (hm : m ∈ x.2.msgs) : Duty self .feeHook m := by
  obtain ⟨q, y, -, h, hm⟩ := execOwned_msgs h hm
  cases q with
  | setFee f =>
    obtain ⟨_, _, h⟩ := bind_eq_ok.1 h
    cases h; cases hm
  | claim r =>
    obtain ⟨_, _, h⟩ := bind_eq_ok.1 h
    obtain ⟨_, _, h⟩ := bind_eq_ok.1 h
    cases h
    rcases List.mem_cons.1 hm with rfl | hm
    · exact .fee ..
    · cases hm
  | postDispatch md msg =>
    obtain ⟨_, _, h⟩ := bind_eq_ok.1 h
    obtain ⟨_, _, h⟩ := bind_eq_ok.1 h
    cases h; cases hm

theorem pausable_silent {s} {c : ExecCall HookEnv PausableHook.Msg} {x} {m : OutMsg}
    (h : PausableHook.execute s c = .ok x) (hm : m ∈ x.2.msgs) : False := by
  obtain ⟨q, y, -, h, hm⟩ := execOwned_msgs h hm
  cases q <;> (obtain ⟨_, _, h⟩ := bind_eq_ok.1 h; cases h; cases hm)

theorem routing_duty {s} {c : ExecCall HookEnv RoutingHook.Msg} {x} {m : OutMsg} {self : Addr}
    (h : RoutingHook.execute s c = .ok x) (hm : m ∈ x.2.msgs) : Duty self .routingHook m := by
  obtain ⟨q, y, -, h, hm⟩ := execOwned_msgs h hm
  cases q with
  | router _ => obtain ⟨_, _, h⟩ := bind_eq_ok.1 h; cases h; cases hm
  | postDispatch md msg =>
    obtain ⟨_, _, h⟩ := bind_eq_ok.1 h
    cases h
    rcases List.mem_cons.1 hm with rfl | hm
    · exact .route ..
    · cases hm

theorem fallback_duty {s} {c : ExecCall HookEnv FallbackHook.Msg} {x} {m : OutMsg} {self : Addr}
    (h : FallbackHook.execute s c = .ok x) (hm : m ∈ x.2.msgs) : Duty self .fallbackHook m := by
  obtain ⟨q, y, -, h, hm⟩ := execOwned_msgs h hm
  cases q with
  | router _ => obtain ⟨_, _, h⟩ := bind_eq_ok.1 h; cases h; cases hm
  | setFallback _ =>
    obtain ⟨_, _, h⟩ := bind_eq_ok.1 h
    obtain ⟨_, _, h⟩ := bind_eq_ok.1 h
    cases h; cases hm
  | postDispatch md msg =>
    obtain ⟨_, _, h⟩ := bind_eq_ok.1 h
    cases h
    rcases List.mem_cons.1 hm with rfl | hm
    · exact .fallback ..
    · cases hm

theorem custom_duty {s} {c : ExecCall HookEnv CustomHook.Msg} {x} {m : OutMsg} {self : Addr}
    (h : CustomHook.execute s c = .ok x) (hm : m ∈ x.2.msgs) : Duty self .customHook m := by
  obtain ⟨q, y, -, h, hm⟩ := execOwned_msgs h hm
  cases q with
  | router _ => obtain ⟨_, _, h⟩ := bind_eq_ok.1 h; cases h; cases hm
  | register _ =>
    obtain ⟨_, _, h⟩ := bind_eq_ok.1 h
    obtain ⟨_, _, h⟩ := bind_eq_ok.1 h
    cases h; cases hm
  | clear _ =>
    obtain ⟨_, _, h⟩ := bind_eq_ok.1 h
    obtain ⟨_, _, h⟩ := bind_eq_ok.1 h
    cases h; cases hm
  | postDispatch md msg =>
    obtain ⟨_, _, h⟩ := bind_eq_ok.1 h
    cases h
    rcases List.mem_cons.1 hm with rfl | hm
    · exact .custom ..
    · cases hm

theorem refund_duty {g : Nat} {d : String} {a self : Addr} {m : OutMsg} (hm : m ∈ Igp.refundMsgs g d a) :
    Duty self .igp m := by
  unfold Igp.refundMsgs at hm
  split at hm
  · cases hm
  · rcases List.mem_cons.1 hm with rfl | hm
    · exact .gas ..
    · cases hm

theorem igp_duty {C : Codec} {s} {c : ExecCall IgpEnv Igp.Msg} {x} {m : OutMsg} {self : Addr}
    (h : Igp.execute C s c = .ok x) (hm : m ∈ x.2.msgs) : Duty self .igp m := by
  obtain ⟨q, y, -, h, hm⟩ := execOwned_msgs h hm
  cases q with
  | router _ => obtain ⟨_, _, h⟩ := bind_eq_ok.1 h; cases h; cases hm
  | setDefaultGas _ => obtain ⟨_, _, h⟩ := bind_eq_ok.1 h; cases h; cases hm
  | setGasForDomain _ => obtain ⟨_, _, h⟩ := bind_eq_ok.1 h; cases h; cases hm
  | unsetGasForDomain _ => obtain ⟨_, _, h⟩ := bind_eq_ok.1 h; cases h; cases hm
  | setBeneficiary _ =>
    obtain ⟨_, _, h⟩ := bind_eq_ok.1 h
    obtain ⟨_, _, h⟩ := bind_eq_ok.1 h
    cases h; cases hm
  | postDispatch md msg =>
    obtain ⟨r, h1, h⟩ := bind_eq_ok.1 h
    cases h
    obtain ⟨_, _, h1⟩ := bind_eq_ok.1 h1
    obtain ⟨_, _, h1⟩ := bind_eq_ok.1 h1
    obtain ⟨_, _, _, _, _, _, rfl⟩ := Igp.payForGas_ok.1 h1
    exact refund_duty hm
  | payForGas _ _ _ _ =>
    obtain ⟨r, h1, h⟩ := bind_eq_ok.1 h
    cases h
    obtain ⟨_, _, _, _, _, _, rfl⟩ := Igp.payForGas_ok.1 h1
    exact refund_duty hm
  | claim =>
    obtain ⟨r, h1, h⟩ := bind_eq_ok.1 h
    cases h
    obtain ⟨_, rfl⟩ := Igp.claim_ok.1 h1
    rcases List.mem_cons.1 hm with rfl | hm
    · exact .gas ..
    · cases hm

theorem oracle_silent {s} {c : ExecCall (Addr → Bool) Oracle.Msg} {x} {m : OutMsg}
    (h : Oracle.execute s c = .ok x) (hm : m ∈ x.2.msgs) : False := by
  obtain ⟨q, y, -, h, hm⟩ := execOwned_msgs h hm
  cases q with
  | setConfigs l =>
    obtain ⟨_, _, h⟩ := bind_eq_ok.1 h
    obtain ⟨_, _, h⟩ := bind_eq_ok.1 h
    cases h; cases hm
  | setConfig d => obtain ⟨_, _, h⟩ := bind_eq_ok.1 h; cases h; cases hm

/-- What a router sends is either for an arriving transfer or for a transfer to another chain. -/
theorem warp_sends {k : Warp.Kind} {C : Codec} {self : Addr} {s} {c : ExecCall (Addr → Bool) Warp.Msg} {x} {m : OutMsg}
    (h : Warp.execute k C self s c = .ok x) (hm : m ∈ x.2.msgs) :
    (∃ token mode dst n l, k.release self token mode dst n = .ok l ∧ m ∈ l) ∨
    (∃ token mode sender funds n p, n < 2 ^ 128 ∧ k.take self token mode sender funds n = .ok p ∧ m ∈ p.2) ∨
    (∃ a q f, m = .execute a (.dispatch q) f) := by
  obtain ⟨q, y, -, h, hm⟩ := execOwned_msgs h hm
  cases q with
  | router _ => obtain ⟨_, _, h⟩ := bind_eq_ok.1 h; cases h; cases hm
  | connection _ => obtain ⟨_, _, h⟩ := bind_eq_ok.1 h; cases h; cases hm
  | handle _ _ _ =>
    obtain ⟨r, h1, h⟩ := bind_eq_ok.1 h
    cases h
    obtain ⟨_, _, _, dst, token, l, _, _, hr, rfl⟩ := Warp.handle_ok.1 h1
    exact .inl ⟨_, _, _, _, l, hr, hm⟩
  | transferRemote _ _ _ _ _ =>
    obtain ⟨r, h1, h⟩ := bind_eq_ok.1 h
    cases h
    obtain ⟨hn, _, token, p, rt, _, ht, _, rfl⟩ := Warp.transferRemote_ok.1 h1
    rcases List.mem_append.1 hm with hm | hm
    · exact .inr (.inl ⟨_, _, _, _, _, p, hn, ht, hm⟩)
    · rcases List.mem_cons.1 hm with rfl | hm
      · exact .inr (.inr ⟨_, _, _, rfl⟩)
      · cases hm

theorem native_duty {C : Codec} {self : Addr} {s} {c : ExecCall (Addr → Bool) Warp.Msg} {x} {m : OutMsg}
    (h : Warp.execute Warp.native C self s c = .ok x) (hm : m ∈ x.2.msgs) : Duty self .warpNative m := by
  rcases warp_sends h hm with ⟨t, md, a, n, l, h, hm⟩ | ⟨t, md, a, f, n, p, hn, h, hm⟩ | ⟨a, q, f, rfl⟩
  · obtain ⟨n', h1, h⟩ := bind_eq_ok.1 h
    obtain ⟨hn, rfl⟩ := Warp.toUint128_ok.1 h1
    cases h
    rcases List.mem_append.1 hm with hm | hm
    · cases md
      · rcases List.mem_cons.1 hm with rfl | hm
        · exact .nativeMint _ _ hn
        · cases hm
      · cases hm
    · rcases List.mem_cons.1 hm with rfl | hm
      · exact .nativePay _ _ _ hn
      · cases hm
  · obtain ⟨r, _, h⟩ := bind_eq_ok.1 h
    cases h
    cases md
    · rcases List.mem_cons.1 hm with rfl | hm
      · exact .nativeBurn _ _ hn
      · cases hm
    · cases hm
  · exact .nativeOut ..

theorem cw20_duty {C : Codec} {self : Addr} {s} {c : ExecCall (Addr → Bool) Warp.Msg} {x} {m : OutMsg}
    (h : Warp.execute Warp.cw20 C self s c = .ok x) (hm : m ∈ x.2.msgs) : Duty self .warpCw20 m := by
  rcases warp_sends h hm with ⟨t, md, a, n, l, h, hm⟩ | ⟨t, md, a, f, n, p, hn, h, hm⟩ | ⟨a, q, f, rfl⟩
  · obtain ⟨n', h1, h2⟩ := bind_eq_ok.1 h
    obtain ⟨hn, rfl⟩ := Warp.toUint128_ok.1 h1
    cases h2
    cases md
    · rcases List.mem_cons.1 hm with rfl | hm
      · exact .cw20Mint _ _ _ hn
      · cases hm
    · rcases List.mem_cons.1 hm with rfl | hm
      · exact .cw20Pay _ _ _ hn
      · cases hm
  · cases h
    rcases List.mem_cons.1 hm with rfl | hm
    · exact .cw20Take _ _ _ hn
    · cases md
      · rcases List.mem_cons.1 hm with rfl | hm
        · exact .cw20Burn _ _ hn
        · cases hm
      · cases hm
  · exact .cw20Out ..

end Hpl
