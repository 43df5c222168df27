import Verif.Model.Warp
import Verif.Spec.Exec
import Verif.Spec.Hooks

/-! # What token routers were told, and what their messages do -/

namespace Hpl.Spec

/-- Settings of a token router. -/
def warpCfg : Warp.Msg → Option Warp.Msg
  | .router m => some (.router m)
  | .connection m => some (.connection m)
  | .handle _ _ _ => none
  | .transferRemote _ _ _ _ _ => none

/-- Route updates of a router message. -/
def remoteUpdates : Warp.Msg → List (UInt32 × Option Bytes)
  | .router (.setRoute x) => [x]
  | .router (.setRoutes l) => l
  | _ => []

/-- The mailbox a setting names, if it is a valid address. -/
def connMailboxOf (x : (Addr → Bool) × Warp.Msg) : List Addr :=
  match x.2 with
  | .connection (.setMailbox a) => if x.1 a then [a] else []
  | _ => []

/-- The ISM a setting names, if it is a valid address. -/
def connIsmOf (x : (Addr → Bool) × Warp.Msg) : List Addr :=
  match x.2 with
  | .connection (.setIsm a) => if x.1 a then [a] else []
  | _ => []

/-- The hook a setting names, if it is a valid address. -/
def connHookOf (x : (Addr → Bool) × Warp.Msg) : List Addr :=
  match x.2 with
  | .connection (.setHook a) => if x.1 a then [a] else []
  | _ => []

/-- What the owner told a token router. -/
def warpCalls (owner : Addr) (h : List (ExecCall (Addr → Bool) Warp.Msg)) : List ((Addr → Bool) × Warp.Msg) :=
  ownerCalls id warpCfg (Ownable.init owner) h

/-- The remote router enrolled for a domain after a history. -/
def enrolledAfter (owner : Addr) (h : List (ExecCall (Addr → Bool) Warp.Msg)) (d : UInt32) : Option Bytes :=
  (lastFor d ((warpCalls owner h).flatMap (fun x => remoteUpdates x.2))).join

/-- The hook set by the owner after a history. -/
def hookAfter (owner : Addr) (h : List (ExecCall (Addr → Bool) Warp.Msg)) : Option Addr :=
  ((warpCalls owner h).flatMap connHookOf).getLast?

/-- The ISM set by the owner after a history. -/
def ismAfter (owner : Addr) (h : List (ExecCall (Addr → Bool) Warp.Msg)) : Option Addr :=
  ((warpCalls owner h).flatMap connIsmOf).getLast?

/-- The connection mailbox set by the owner after a history. -/
def connMailboxAfter (owner : Addr) (h : List (ExecCall (Addr → Bool) Warp.Msg)) : Option Addr :=
  ((warpCalls owner h).flatMap connMailboxOf).getLast?

/-- Messages that create tokens or give tokens of the contract to somebody. -/
def releases : OutMsg → Bool
  | .bankSend _ _ => true
  | .tfMint _ _ _ => true
  | .execute _ (.cw20Mint _ _) _ => true
  | .execute _ (.cw20Transfer _ _) _ => true
  | _ => false

/-- Bytes `i` to `j` of a payload. -/
def bytesOf (i j : Nat) (b : Bytes) : Bytes := (b.drop i).take (j - i)

end Hpl.Spec
