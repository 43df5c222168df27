import Verif.Model.Coins

/-! # Messages contracts emit, and responses -/

namespace Hpl

/-- `DispatchMsg`, `/repo/packages/interface/src/core/mailbox.rs` 18-25. -/
structure DispatchMsg where
  dest : UInt32
  recipient : Bytes
  body : Bytes
  hook : Option Addr
  metadata : Option Bytes
deriving DecidableEq, Repr

/-- The execute messages the contracts of this repository send to other contracts. -/
inductive Payload where
  /-- `PostDispatchMsg`, `/repo/packages/interface/src/hook/mod.rs` 76-91. -/
  | postDispatch (metadata message : Bytes)
  /-- `HandleMsg`, `/repo/packages/interface/src/core/mod.rs` 9-24. -/
  | handle (origin : UInt32) (sender body : Bytes)
  /-- `mailbox::ExecuteMsg::Dispatch`, `/repo/packages/interface/src/core/mailbox.rs` 106-127. -/
  | dispatch (m : DispatchMsg)
  /-- `Cw20ExecuteMsg::Mint`, `/repo/contracts/warp/cw20/src/conv.rs` 8-21. -/
  | cw20Mint (recipient : Addr) (amount : Nat)
  /-- `Cw20ExecuteMsg::Burn`, conv.rs 23-25. -/
  | cw20Burn (amount : Nat)
  /-- `Cw20ExecuteMsg::Transfer`, conv.rs 27-40. -/
  | cw20Transfer (recipient : Addr) (amount : Nat)
  /-- `Cw20ExecuteMsg::TransferFrom`, `/repo/contracts/warp/cw20/src/contract.rs` 213-221. -/
  | cw20TransferFrom (owner recipient : Addr) (amount : Nat)
deriving DecidableEq, Repr

/-- `CosmosMsg` as far as the contracts use it. -/
inductive OutMsg where
  /-- `WasmMsg::Execute` (`wasm_execute`). -/
  | execute (dst : Addr) (payload : Payload) (funds : List Coin)
  /-- `BankMsg::Send`. -/
  | bankSend (dst : Addr) (coins : List Coin)
  /-- token factory `MsgMint`, `/repo/contracts/warp/native/src/conv.rs` 8-16 (the amount is a decimal string of a
  `Uint256`). -/
  | tfMint (sender : Addr) (denom : String) (amount : Nat)
  /-- token factory `MsgBurn`, conv.rs 18-26. -/
  | tfBurn (sender : Addr) (denom : String) (amount : Nat)
deriving DecidableEq, Repr

/-- Events with the attributes the code attaches (only those observable facts that the properties mention; other
events are dropped, see each contract model). -/
inductive Event where
  /-- `emit_dispatch_id`, `/repo/contracts/core/mailbox/src/event.rs` 26-28. -/
  | dispatchId (id : Bytes)
  /-- `emit_dispatch`, event.rs 30-36. -/
  | dispatch (sender : Bytes) (dest : UInt32) (recipient message : Bytes)
  /-- `emit_process_id`, event.rs 38-40. -/
  | processId (id : Bytes)
  /-- `emit_process`, event.rs 42-47. -/
  | process (origin : UInt32) (sender recipient : Bytes)
deriving DecidableEq, Repr

/-- `cosmwasm_std::Response`. All messages are added with `add_message`, i.e. a failing one fails the whole call. -/
structure Response where
  msgs : List OutMsg := []
  events : List Event := []
  data : Option Bytes := none
deriving DecidableEq, Repr

end Hpl
