import Verif.Model.OMap
import Verif.Model.Run

/-! # Shared packages: ownable, pausable, router, connection, pagination, migration -/

namespace Hpl

/-! ## `/repo/packages/ownable/src/lib.rs` -/

namespace Ownable

/-- `OWNER` and `PENDING_OWNER`, lib.rs 11-15. -/
structure State where
  owner : Option Addr
  pending : Option Addr
deriving DecidableEq, Repr

/-- `initialize`, lib.rs 25-29, on empty storage. -/
def init (owner : Addr) : State := ⟨some owner, none⟩

/-- `OwnableMsg` (`/repo/packages/interface/src/ownable.rs`). -/
inductive Msg where
  | initTransfer (nextOwner : Addr)
  | revoke
  | claim
deriving DecidableEq, Repr

/-- `Item::load`: error when unset; `get_owner`, lib.rs 135-139. -/
def getOwner (s : State) : Res Addr :=
  match s.owner with
  | some o => .ok o
  | none => .error (.err "not found")

/-- `init_ownership_transfer`, lib.rs 62-83. -/
def initTransfer (s : State) (sender next : Addr) : Res State := do
  let o ← getOwner s
  ensure (decide (sender = o)) "unauthorized"
  ensure (!s.pending.isSome) "ownership is transferring"
  return { s with pending := some next }

/-- `revoke_ownership_transfer`, lib.rs 85-100. -/
def revoke (s : State) (sender : Addr) : Res State := do
  let o ← getOwner s
  ensure (decide (sender = o)) "unauthorized"
  ensure s.pending.isSome "ownership is not transferring"
  return { s with pending := none }

/-- `claim_ownership`, lib.rs 102-118. -/
def claim (s : State) (sender : Addr) : Res State :=
  match s.pending with
  | none => .error (.err "ownership is not transferring")
  | some p => do
    ensure (decide (sender = p)) "unauthorized"
    return { owner := some sender, pending := none }

/-- `handle`, lib.rs 31-60. `valid` is `deps.api.addr_validate` succeeding (it returns the same address). -/
def handle (valid : Addr → Bool) (s : State) (sender : Addr) : Msg → Res State
  | .initTransfer next => do
    ensure (valid next) "invalid address"
    initTransfer s sender next
  | .revoke => revoke s sender
  | .claim => claim s sender

end Ownable

/-! ## `/repo/packages/pausable/src/lib.rs` -/

namespace Pausable

/-- `PausableMsg`. -/
inductive Msg where
  | pause
  | release
deriving DecidableEq, Repr

/-- `handle`, `pause`, `release`, lib.rs 28-64; the state is the item `PAUSE` (set by `initialize`, 22-26). -/
def handle (own : Ownable.State) (paused : Bool) (sender : Addr) (m : Msg) : Res Bool := do
  let o ← Ownable.getOwner own
  ensure (decide (o = sender)) "unauthorized"
  match m with
  | .pause => do
    ensure (!paused) "already paused"
    return true
  | .release => do
    ensure paused "already released"
    return false

end Pausable

/-! ## Pagination, `/repo/packages/interface/src/lib.rs` -/

/-- `Order`. -/
inductive Order where
  | asc
  | desc
deriving DecidableEq, Repr

/-- `MAX_LIMIT`, lib.rs 43. -/
def maxLimit : UInt32 := 30
/-- `DEFAULT_LIMIT`, lib.rs 44. -/
def defaultLimit : UInt32 := 10

/-- `get_and_check_limit`, lib.rs 46-60. -/
def getAndCheckLimit (limit : Option UInt32) : Res UInt32 :=
  match limit with
  | some l => if l ≤ maxLimit then .ok l else .error (.err "oversized request")
  | none => .ok defaultLimit

/-- `range_option` (lib.rs 69-82) followed by `Map::range(min, max, order).take(limit)`, as at all call sites
(e.g. `/repo/packages/router/src/lib.rs` 171-183). -/
def rangePage {κ ν : Type} [LinearOrder κ] (m : OMap κ ν) (start : Option κ)
    (limit : Option UInt32) (order : Option Order) : Res (List (κ × ν)) := do
  let l ← getAndCheckLimit limit
  match order.getD .asc with
  | .asc =>
    let es := match start with
      | none => m.entries
      | some k => m.entries.filter (fun p => k < p.1)
    return es.take l.toNat
  | .desc =>
    let es := match start with
      | none => m.entries
      | some k => m.entries.filter (fun p => p.1 < k)
    return es.reverse.take l.toNat

/-! ## `/repo/packages/router/src/lib.rs` -/

namespace Router

/-- `get_route_map`, lib.rs 28-33. The map stores `Option<T>` (a cleared route is stored as JSON `null`,
see `set_route`, lib.rs 74). -/
abbrev State (τ : Type) := OMap UInt32 (Option τ)

/-- `RouterMsg`; a `DomainRouteSet` is a pair of a domain and an optional route. -/
inductive Msg (τ : Type) where
  | setRoute (set : UInt32 × Option τ)
  | setRoutes (set : List (UInt32 × Option τ))
deriving Repr

/-- `set_route`, lib.rs 66-83. -/
def setRoute {τ : Type} (s : State τ) (set : UInt32 × Option τ) : State τ := s.insert set.1 set.2

/-- `set_routes`, lib.rs 85-108. -/
def setRoutes {τ : Type} (s : State τ) (set : List (UInt32 × Option τ)) : State τ :=
  set.foldl setRoute s

/-- `handle`, lib.rs 35-64. -/
def handle {τ : Type} (own : Ownable.State) (s : State τ) (sender : Addr) (m : Msg τ) :
    Res (State τ) := do
  let o ← Ownable.getOwner own
  ensure (decide (o = sender)) "unauthorized"
  match m with
  | .setRoute set => return setRoute s set
  | .setRoutes set => return setRoutes s set

/-- `is_router`, lib.rs 136-141: loading a missing key or a `null` as `T` is an error. -/
def isRouter {τ : Type} [DecidableEq τ] (s : State τ) (domain : UInt32) (r : τ) : Res Bool :=
  match s.get domain with
  | some (some r') => .ok (decide (r = r'))
  | _ => .error (.err "not found")

/-- `get_domains`, lib.rs 143-150. -/
def getDomains {τ : Type} (s : State τ) : List UInt32 := s.keys

/-- `get_route`, lib.rs 152-160: `load(..).ok()`, so missing and `null` both give `None`. -/
def getRoute {τ : Type} (s : State τ) (domain : UInt32) : Option τ :=
  match s.get domain with
  | some (some r) => some r
  | _ => none

/-- `get_routes`, lib.rs 162-184. -/
def getRoutes {τ : Type} (s : State τ) (offset : Option UInt32) (limit : Option UInt32)
    (order : Option Order) : Res (List (UInt32 × Option τ)) := rangePage s offset limit order

end Router

/-! ## `/repo/packages/connection/src/lib.rs` -/

namespace Connection

/-- Items `conn::mailbox`, `conn::ism`, `conn::hook`, lib.rs 10-17. -/
structure State where
  mailbox : Option Addr
  ism : Option Addr
  hook : Option Addr
deriving DecidableEq, Repr

/-- Fresh storage. -/
def empty : State := ⟨none, none, none⟩

/-- `ConnectionMsg`. -/
inductive Msg where
  | setMailbox (a : Addr)
  | setIsm (a : Addr)
  | setHook (a : Addr)
deriving DecidableEq, Repr

/-- `handle`, lib.rs 27-70. Getters (90-100) are the fields. -/
def handle (valid : Addr → Bool) (own : Ownable.State) (s : State) (sender : Addr) (m : Msg) :
    Res State := do
  let o ← Ownable.getOwner own
  ensure (decide (o = sender)) "unauthorized"
  match m with
  | .setMailbox a => do
    ensure (valid a) "invalid address"
    return { s with mailbox := some a }
  | .setIsm a => do
    ensure (valid a) "invalid address"
    return { s with ism := some a }
  | .setHook a => do
    ensure (valid a) "invalid address"
    return { s with hook := some a }

end Connection

/-! ## `/repo/packages/utils/src/lib.rs` -/

namespace Migrate

/-- `cw2::ContractVersion`. -/
structure Stored where
  contract : String
  version : String
deriving DecidableEq, Repr

/-- `migrate`, lib.rs 20-45. `parse` is `str::parse::<semver::Version>` into the ordered type `V`; the stored item is
`None` before instantiation (then `get_contract_version` fails). -/
def migrate {V : Type} [LT V] [DecidableLT V] (parse : String → Option V) (st : Option Stored)
    (name version : String) : Res (Option Stored) :=
  match st with
  | none => .error (.err "not found")
  | some s => do
    ensure (decide (s.contract = name)) "contract name mismatch"
    match parse version, parse s.version with
    | some v, some sv =>
      if sv < v then return some ⟨name, version⟩ else throw (.err "invalid version")
    | _, _ => throw (.err "semver")

end Migrate

end Hpl
