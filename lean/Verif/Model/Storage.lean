import Verif.Model.Crypto
import Verif.Model.Packages

/-! # Storage

The storage of a contract is one table from byte strings to byte strings. `cw_storage_plus` 1.2.0 (a dependency, transcribed
from its documentation and source as known) places items and maps in it. Values stay bytes here (serialised by serde, see
`Json`). -/

namespace Hpl.Storage

/-- The storage of a contract, ordered by keys. -/
abbrev Raw := OMap Bytes Bytes

/-- `encode_length` followed by the bytes (`to_length_prefixed`). The library panics for more than 65535 bytes; names of maps
and the keys used as prefixes here are shorter. -/
def lengthPrefixed (b : Bytes) : Bytes := beN 2 b.length ++ b

/-- Types of map keys. -/
inductive Shape where
  | u32
  | bytes
  | u32Bytes
deriving DecidableEq, Repr

/-- The items and maps a contract declares (constants of type `Item` and `Map`), in the order of the declarations. -/
structure Layout where
  items : List String
  maps : List (String × Shape)

/-- A place: the `i`-th item, or an entry of the `i`-th map. Keys of maps consist of prefixes and a last part. -/
inductive Cell where
  | item (i : Nat)
  | entry (i : Nat) (prefixes : List Bytes) (last : Bytes)
deriving DecidableEq, Repr

/-- `Prefix::new`: the part of the keys of a map that entries with these prefixes share. -/
def prefixKey (name : String) (prefixes : List Bytes) : Bytes :=
  lengthPrefixed (ascii name) ++ prefixes.flatMap lengthPrefixed

/-- The names. Declared items and maps only are used (`Spec.Has`), others read as unnamed here. -/
def itemName (L : Layout) (i : Nat) : String := (L.items[i]?).getD ""
def mapName (L : Layout) (i : Nat) : String := ((L.maps[i]?).map (·.1)).getD ""

/-- `Item::as_slice` and `Path::new` (`nested_namespaces_with_key`). -/
def rawKey (L : Layout) : Cell → Bytes
  | .item i => ascii (itemName L i)
  | .entry i prefixes last => prefixKey (mapName L i) prefixes ++ last

/-- `save` and `remove`. -/
def write (L : Layout) (s : Raw) (op : Cell × Option Bytes) : Raw :=
  match op.2 with
  | some v => s.insert (rawKey L op.1) v
  | none => s.erase (rawKey L op.1)

/-- `may_load`. -/
def read (L : Layout) (s : Raw) (c : Cell) : Option Bytes := s.get (rawKey L c)

/-- `namespace_upper_bound`: from the end, 255 becomes 0 and the first other byte is incremented. On the reversed string. -/
def bump : Bytes → Bytes
  | [] => []
  | x :: t => if x = 255 then 0 :: bump t else (x + 1) :: t

def upperBound (b : Bytes) : Bytes := (bump b.reverse).reverse

/-- `RawBound`. -/
inductive Bound where
  | inclusive (k : Bytes)
  | exclusive (k : Bytes)

/-- `calc_start_bound`. -/
def startBound (pre : Bytes) : Option Bound → Bytes
  | none => pre
  | some (.inclusive k) => pre ++ k
  | some (.exclusive k) => pre ++ (k ++ [0])

/-- `calc_end_bound`. -/
def endBound (pre : Bytes) : Option Bound → Bytes
  | none => upperBound pre
  | some (.inclusive k) => pre ++ (k ++ [0])
  | some (.exclusive k) => pre ++ k

/-- `Storage::range` of the host: keys from the start, before the end. -/
def hostRange (s : Raw) (start fin : Bytes) (order : Order) : List (Bytes × Bytes) :=
  let l := s.entries.filter (fun p => start ≤ p.1 ∧ p.1 < fin)
  match order with
  | .asc => l
  | .desc => l.reverse

/-- `range_with_prefix`: the prefix is cut off (`trim`). -/
def rangeWithPrefix (s : Raw) (pre : Bytes) (min max : Option Bound) (order : Order) : List (Bytes × Bytes) :=
  (hostRange s (startBound pre min) (endBound pre max) order).map (fun p => (p.1.drop pre.length, p.2))

/-- `KeyDeserialize::from_vec` for the keys used: `u32` wants four bytes, `Vec<u8>` takes any. -/
def keyU32 (b : Bytes) : Res UInt32 :=
  if b.length = 4 then .ok (ofU32be b) else .error (.err "invalid key length")

def keyBytes (b : Bytes) : Res Bytes := .ok b

/-- `.collect::<StdResult<Vec<_>>>()`. -/
def readAll {κ : Type} (dec : Bytes → Res κ) : List (Bytes × Bytes) → Res (List (κ × Bytes))
  | [] => .ok []
  | (k, v) :: t => do
    let k' ← dec k
    let r ← readAll dec t
    return (k', v) :: r

/-- `range_option`, `/repo/packages/interface/src/lib.rs` 69-82, with `.range(storage, min, max, order).take(limit)` and
`.collect()`, as at all call sites. -/
def page {κ : Type} (enc : κ → Bytes) (dec : Bytes → Res κ) (s : Raw) (pre : Bytes) (start : Option κ)
    (limit : Option UInt32) (order : Option Order) : Res (List (κ × Bytes)) := do
  let l ← getAndCheckLimit limit
  let bound := start.map (fun k => Bound.exclusive (enc k))
  let es := match order.getD .asc with
    | .asc => rangeWithPrefix s pre bound none .asc
    | .desc => rangeWithPrefix s pre none bound .desc
  readAll dec (es.take l.toNat)

/-- `.range(storage, None, None, Ascending).collect()`, and with `.map` the `.keys(..)` of
`/repo/packages/router/src/lib.rs` 147-149 and `/repo/contracts/core/va/src/contract.rs` 103-106. -/
def listAll {κ : Type} (dec : Bytes → Res κ) (s : Raw) (pre : Bytes) : Res (List (κ × Bytes)) :=
  readAll dec (rangeWithPrefix s pre none none .asc)

/-- `CONTRACT` of the dependency cw2, set by every `instantiate`. -/
def cw2 : List String := ["contract_info"]

/-- `/repo/packages/ownable/src/lib.rs` 11-15. -/
def ownable : List String := ["owner", "pending_owner"]

/-- `/repo/packages/pausable/src/lib.rs` 11-12. -/
def pausable : List String := ["pause"]

/-- `/repo/packages/router/src/lib.rs` 18 and 28-33. -/
def router : List (String × Shape) := [("routes", .u32)]

/-- `/repo/packages/connection/src/lib.rs` 10-17. -/
def connection : List String := ["conn::mailbox", "conn::ism", "conn::hook"]

/-- `/repo/contracts/core/mailbox/src/state.rs` 55-65. -/
def mailbox : Layout :=
  ⟨cw2 ++ ownable ++ ["config", "nonce", "latest_dispatched_id"], [("deliveries", .bytes)]⟩

/-- `/repo/contracts/core/va/src/state.rs` 4-17. -/
def va : Layout :=
  ⟨cw2 ++ ["mailbox", "local_domain"],
    [("validators", .bytes), ("storage_locations", .bytes), ("replay_protections", .bytes)]⟩

/-- `/repo/contracts/hooks/aggregate/src/lib.rs` 41-42. -/
def aggregateHook : Layout := ⟨cw2 ++ ownable ++ ["hooks"], []⟩

/-- `/repo/contracts/hooks/fee/src/lib.rs` 38-39. -/
def feeHook : Layout := ⟨cw2 ++ ownable ++ ["coin_fee"], []⟩

/-- `/repo/contracts/hooks/merkle/src/lib.rs` 46-50. -/
def merkleHook : Layout := ⟨cw2 ++ ["mailbox", "message_tree"], []⟩

/-- `/repo/contracts/hooks/pausable/src/lib.rs` and `/repo/contracts/isms/pausable/src/lib.rs`. -/
def pausableContract : Layout := ⟨cw2 ++ ownable ++ pausable, []⟩

/-- `/repo/contracts/hooks/routing/src/lib.rs`. -/
def routingHook : Layout := ⟨cw2 ++ ownable, router⟩

/-- `/repo/contracts/hooks/routing-custom/src/lib.rs` 49-50. -/
def customHook : Layout := ⟨cw2 ++ ownable, router ++ [("custom_hooks", .u32Bytes)]⟩

/-- `/repo/contracts/hooks/routing-fallback/src/lib.rs` 39-40. -/
def fallbackHook : Layout := ⟨cw2 ++ ownable ++ ["fallback_hook"], router⟩

/-- `/repo/contracts/igps/core/src/lib.rs` 21-34. -/
def igp : Layout :=
  ⟨cw2 ++ ownable ++ ["hrp", "gas_token", "default_gas_usage", "beneficiary"], router ++ [("gas_for_domain", .u32)]⟩

/-- `/repo/contracts/igps/oracle/src/state.rs` 12-13. -/
def oracle : Layout := ⟨cw2 ++ ownable, [("remote_gas_data", .u32)]⟩

/-- `/repo/contracts/isms/aggregate/src/lib.rs` 26-30. -/
def aggregateIsm : Layout := ⟨cw2 ++ ownable ++ ["isms", "threshold"], []⟩

/-- `/repo/contracts/isms/multisig/src/state.rs` 4-8. -/
def multisigIsm : Layout := ⟨cw2 ++ ownable, [("validators", .u32), ("threshold", .u32)]⟩

/-- `/repo/contracts/isms/routing/src/state.rs` 4-5. -/
def routingIsm : Layout := ⟨cw2 ++ ownable, [("modules", .u32)]⟩

/-- `/repo/contracts/warp/native/src/lib.rs` 18-31 and `/repo/contracts/warp/cw20/src/lib.rs` 17-30. -/
def warp : Layout := ⟨cw2 ++ ownable ++ connection ++ ["token", "mode", "hrp", "mailbox"], router⟩

/-- All contracts. -/
def layouts : List Layout :=
  [mailbox, va, aggregateHook, feeHook, merkleHook, pausableContract, routingHook, customHook, fallbackHook, igp, oracle,
   aggregateIsm, multisigIsm, routingIsm, warp]

end Hpl.Storage
