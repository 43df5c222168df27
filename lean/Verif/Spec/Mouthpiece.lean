import Verif.Spec.Interface
import Verif.Model.Mailbox
import Verif.Model.Igp
import Verif.Model.Warp

/-! # What contracts say to other contracts

`Sends` collects the messages that the entry point `execute` of a contract returns; `Duty` lists, independently of the
code, what each of them may say, and `Heard` what the contract that is spoken to may hear. -/

namespace Hpl.Spec

open Interface

/-- In some state, some call by somebody succeeds and has the contract send `m`; `self` is its address. The announce, the
merkle hook and the security modules send nothing, their responses have no messages (`/repo/contracts/core/va/src/contract.rs`
210, `/repo/contracts/hooks/merkle/src/lib.rs` 110, `/repo/contracts/isms/aggregate/src/lib.rs` 100, multisig
`src/contract.rs` 77 and 95, routing `src/contract.rs` 68 and 86), and their models have none either. -/
def Sends (k : Contract) (self : Addr) (m : OutMsg) : Prop :=
  match k with
  | .mailbox => ∃ H C s c x, Mailbox.execute H C s c = .ok x ∧ m ∈ x.2.msgs
  | .aggregateHook => ∃ s c x, AggregateHook.execute s c = .ok x ∧ m ∈ x.2.msgs
  | .feeHook => ∃ s c x, FeeHook.execute s c = .ok x ∧ m ∈ x.2.msgs
  | .pausableHook => ∃ s c x, PausableHook.execute s c = .ok x ∧ m ∈ x.2.msgs
  | .routingHook => ∃ s c x, RoutingHook.execute s c = .ok x ∧ m ∈ x.2.msgs
  | .customHook => ∃ s c x, CustomHook.execute s c = .ok x ∧ m ∈ x.2.msgs
  | .fallbackHook => ∃ s c x, FallbackHook.execute s c = .ok x ∧ m ∈ x.2.msgs
  | .igp => ∃ C s c x, Igp.execute C s c = .ok x ∧ m ∈ x.2.msgs
  | .oracle => ∃ s c x, Oracle.execute s c = .ok x ∧ m ∈ x.2.msgs
  | .warpNative => ∃ C s c x, Warp.execute Warp.native C self s c = .ok x ∧ m ∈ x.2.msgs
  | .warpCw20 => ∃ C s c x, Warp.execute Warp.cw20 C self s c = .ok x ∧ m ∈ x.2.msgs
  | .va | .merkleHook | .aggregateIsm | .multisigIsm | .pausableIsm | .routingIsm | .cw20 => False

/-- What a contract is there to say. -/
inductive Duty (self : Addr) : Contract → OutMsg → Prop where
  /-- The mailbox has hooks look at messages that leave, -/
  | announce (a md msg f) : Duty self .mailbox (.execute a (.postDispatch md msg) f)
  /-- and hands over messages that arrive, without coins. -/
  | deliver (a o s b) : Duty self .mailbox (.execute a (.handle o s b) [])
  /-- The aggregate and the routing hooks pass on what they are told, the latter without coins. -/
  | all (a md msg f) : Duty self .aggregateHook (.execute a (.postDispatch md msg) f)
  | route (a md msg) : Duty self .routingHook (.execute a (.postDispatch md msg) [])
  | custom (a md msg) : Duty self .customHook (.execute a (.postDispatch md msg) [])
  | fallback (a md msg) : Duty self .fallbackHook (.execute a (.postDispatch md msg) [])
  /-- The fee hook and the paymaster pay out coins. -/
  | fee (a l) : Duty self .feeHook (.bankSend a l)
  | gas (a l) : Duty self .igp (.bankSend a l)
  /-- The routers dispatch, -/
  | nativeOut (a m f) : Duty self .warpNative (.execute a (.dispatch m) f)
  | cw20Out (a m f) : Duty self .warpCw20 (.execute a (.dispatch m) f)
  /-- and create, burn and pay out tokens: coins in their own name, -/
  | nativePay (a d n) : n < 2 ^ 128 → Duty self .warpNative (.bankSend a [⟨d, n⟩])
  | nativeMint (d n) : n < 2 ^ 128 → Duty self .warpNative (.tfMint self d n)
  | nativeBurn (d n) : n < 2 ^ 128 → Duty self .warpNative (.tfBurn self d n)
  /-- and those of a token contract, which they take for themselves only. -/
  | cw20Mint (a b n) : n < 2 ^ 128 → Duty self .warpCw20 (.execute a (.cw20Mint b n) [])
  | cw20Pay (a b n) : n < 2 ^ 128 → Duty self .warpCw20 (.execute a (.cw20Transfer b n) [])
  | cw20Take (a b n) : n < 2 ^ 128 → Duty self .warpCw20 (.execute a (.cw20TransferFrom b self n) [])
  | cw20Burn (a n) : n < 2 ^ 128 → Duty self .warpCw20 (.execute a (.cw20Burn n) [])

/-- What a contract may hear from another one: the variant of its `ExecuteMsg`. -/
def Heard (speaker hearer : Contract) (name : String) : Prop :=
  (speaker ∈ [.mailbox, .aggregateHook, .routingHook, .customHook, .fallbackHook] ∧
    hearer ∈ [.aggregateHook, .feeHook, .merkleHook, .pausableHook, .routingHook, .customHook, .fallbackHook, .igp] ∧
    name = "PostDispatch") ∨
  (speaker = .mailbox ∧ hearer ∈ [.warpNative, .warpCw20] ∧ name = "Handle") ∨
  (speaker ∈ [.warpNative, .warpCw20] ∧ hearer = .mailbox ∧ name = "Dispatch") ∨
  (speaker = .warpCw20 ∧ hearer = .cw20 ∧ name ∈ ["Mint", "Burn", "Transfer", "TransferFrom"])

end Hpl.Spec
