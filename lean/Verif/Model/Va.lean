import Verif.Model.Bech32
import Verif.Model.Crypto
import Verif.Model.OMap

/-! # Validator announce (`/repo/contracts/core/va/src`) -/

namespace Hpl.Va

/-- Storage, state.rs 4-17. -/
structure State where
  mailbox : Bytes
  localDomain : UInt32
  validators : OMap Bytes Unit
  locations : OMap Bytes (List Bytes)
  replays : OMap Bytes Unit

/-- `ExecuteMsg::Announce` (the only call). A storage location is a Rust `String`, here its UTF-8 bytes. -/
structure Call where
  sender : Addr
  validator : Bytes
  location : Bytes
  signature : Bytes

/-- `instantiate`, contract.rs 27-55; `domain` is the mailbox's answer to the local domain query. -/
def instantiate (C : Codec) (valid : Addr → Bool) (mailbox : Addr) (domain : Res UInt32) : Res State := do
  ensure (valid mailbox) "invalid address"
  let raw ← bech32Decode C mailbox
  let d ← domain
  return ⟨raw, d, OMap.empty, OMap.empty, OMap.empty⟩

/-- `replay_hash`, contract.rs 123-129. -/
def replayHash (H : Bytes → Bytes) (validator location : Bytes) : Bytes := H (validator ++ location)

/-- `domain_hash`, contract.rs 131-143. -/
def domainHash (H : Bytes → Bytes) (domain : UInt32) (mailbox : Bytes) : Res Bytes := do
  let a ← padLeft32 mailbox
  return H (u32be domain ++ a ++ ascii "HYPERLANE_ANNOUNCEMENT")

/-- `announcement_hash`, contract.rs 145-151. -/
def announcementHash (H : Bytes → Bytes) (domainHash location : Bytes) : Bytes := H (domainHash ++ location)

/-- The digest of `announce`, contract.rs 176-183. -/
def digest (H : Bytes → Bytes) (domain : UInt32) (mailbox location : Bytes) : Res Bytes := do
  let d ← domainHash H domain mailbox
  return ethHash H (announcementHash H d location)

/-- `announce`, contract.rs 153-216. The event is dropped. -/
def announce (H : Bytes → Bytes) (R : Recover) (s : State) (c : Call) : Res (State × Unit) := do
  ensure (decide (c.validator.length = 20)) "length should be 20"
  let rid := replayHash H c.validator c.location
  ensure (!s.replays.has rid) "replay protection triggered"
  let replays := s.replays.insert rid ()
  let d ← digest H s.localDomain s.mailbox c.location
  let signer ← recoverSigner H R d c.signature
  ensure (decide (signer = c.validator)) "verify failed"
  let validators := if s.validators.has c.validator then s.validators else s.validators.insert c.validator ()
  let old := (s.locations.get c.validator).getD []
  return ({ s with
    replays := replays
    validators := validators
    locations := s.locations.insert c.validator (old ++ [c.location]) }, ())

/-- `get_announce`, contract.rs 85-100, answering raw bytes instead of their hex text. -/
def getAnnounce (s : State) (vs : List Bytes) : List (Bytes × List Bytes) :=
  vs.map (fun v => (v, (s.locations.get v).getD []))

/-- `get_validators`, contract.rs 102-109, answering raw bytes instead of their hex text. -/
def getValidators (s : State) : List Bytes := s.validators.keys

/-- `get_mailbox`, contract.rs 111-115. -/
def getMailbox (s : State) : Bytes := s.mailbox

/-- `get_local_domain`, contract.rs 117-121. -/
def getLocalDomain (s : State) : UInt32 := s.localDomain

end Hpl.Va
