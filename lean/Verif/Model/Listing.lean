import Verif.Model.Hooks
import Verif.Model.Schema

/-! # The listing of custom hooks, `/repo/contracts/hooks/routing-custom/src/lib.rs` -/

namespace Hpl.CustomHook

/-- `CUSTOM_HOOKS.prefix(dest_domain)`, lib.rs 158-159: the entries of a destination by recipient. -/
def under (m : OMap Key Addr) (dest : UInt32) : OMap Bytes Addr :=
  OMap.ofList ((m.entries.filter (fun p => (ofLex p.1).1 = dest)).map (fun p => ((ofLex p.1).2, p.2)))

/-- `CustomHookResponse`, `/repo/packages/interface/src/hook/routing_custom.rs` 71-76. -/
structure Entry where
  dest : UInt32
  recipient : String
  hook : Addr
deriving DecidableEq, Repr

/-- `offset.as_deref().map(HexBinary::from_hex).transpose()?`, lib.rs 149-153. -/
def readOffset : Option String → Res (Option Bytes)
  | none => .ok none
  | some t => do
    let b ← fromHexString t
    return some b

/-- `list_custom_hooks`, lib.rs 142-173. -/
def listCustomHooks (s : Ownable.State × State) (dest : UInt32) (offset : Option String) (limit : Option UInt32)
    (order : Option Order) : Res (List Entry) := do
  let start ← readOffset offset
  let l ← rangePage (under s.2.custom dest) start limit order
  return l.map (fun p => ⟨dest, Schema.toHex p.1, p.2⟩)

/-- `get_custom_hook`, lib.rs 126-140: the whole answer. -/
def customHook (s : Ownable.State × State) (dest : UInt32) (recipient : String) : Res Entry := do
  let b ← fromHexString recipient
  let hook ← getCustomHook s dest recipient
  return ⟨dest, Schema.toHex b, hook⟩

end Hpl.CustomHook
