import Verif.Model.Deploy
import Verif.Spec.TokenWorld

/-! # What is claimed of networks of freshly deployed token routers -/

namespace Hpl.Spec

open Bridge

/-- For every denomination the balances amount to the supply, and there is nothing of those that do not exist. -/
def SaneBank (b : Bank) : Prop :=
  ∀ d, (∃ T : Finset Addr, (∀ a, a ∉ T → b.balance a d = 0) ∧ ∑ a ∈ T, b.balance a d = b.supply d) ∧
    (b.known d = false → b.supply d = 0)

/-- The balances amount to the supply, a `Uint128`. -/
def SaneToken (t : Cw20) : Prop :=
  (∃ T : Finset Addr, (∀ a, a ∉ T → t.balance a = 0) ∧ ∑ a ∈ T, t.balance a = t.supply) ∧ t.supply < 2 ^ 128

/-- The router of a chain has just been deployed, in one of four ways: with a new denomination, with an existing one that
has no administrator, with a new cw20 token initialized as `Q` says, or with an existing one, of which the router has not
yet allowed anybody to spend anything. Bank and existing token are in order. -/
inductive Deployed (Q : Cw20.Init → Prop) (p : Setup) (m : Warp.Mode) (c : TokenWorld.Chain) : Prop
  | nativeBridged (valid : Addr → Bool) (i : Deploy.Init) (b : Bank) (sub : String) :
      p.native = true → m = .bridged → i.mailbox = p.mailbox → SaneBank b →
      p.token = "factory/" ++ p.router ++ "/" ++ sub → (Proto.utf8 p.token).length < 2 ^ 60 →
      Deploy.native valid p.router i b (.bridged sub) = .ok (c.router, c.bank) → Deployed Q p m c
  | nativeCollateral (valid : Addr → Bool) (i : Deploy.Init) (b : Bank) :
      p.native = true → m = .collateral → i.mailbox = p.mailbox → SaneBank b →
      b.known p.token = true → b.admin p.token = none →
      Deploy.native valid p.router i b (.collateral p.token) = .ok (c.router, c.bank) → Deployed Q p m c
  | cw20Bridged (valid : Addr → Bool) (i : Deploy.Init) (strict : Bool) (data : Bytes) (t : Cw20) (codeId : Nat)
      (init : Cw20.Init) :
      p.native = false → m = .bridged → i.mailbox = p.mailbox → Q init →
      p.token ≠ "" → (Proto.utf8 p.token).length < 2 ^ 60 → data.length < 2 ^ 60 →
      Deploy.cw20 valid p.router i strict p.token data t (.bridged codeId init) = .ok (c.router, c.token) → Deployed Q p m c
  | cw20Collateral (valid : Addr → Bool) (i : Deploy.Init) (strict : Bool) (created : Addr) (data : Bytes) (t : Cw20) :
      p.native = false → m = .collateral → i.mailbox = p.mailbox → SaneToken t →
      (∀ a, t.allowance p.router a = none) →
      Deploy.cw20 valid p.router i strict created data t (.collateral p.token) = .ok (c.router, c.token) → Deployed Q p m c

/-- What `Joined` says that does not depend on the routers: addresses stand for identities, and domains differ. -/
structure Placed {κ : Type} (P : κ → Setup) (r : κ → Bytes) (d : κ → UInt32) (s : κ → TokenWorld.Chain) : Prop where
  codec : ∀ x, (P x).codec.Lawful
  domains : ∀ x y, d x = d y → x = y
  domain : ∀ x, (s x).box.config.localDomain = d x
  identity : ∀ x, bech32ToH256 (P x).codec (P x).router = .ok (r x)
  address : ∀ x, bech32Encode (P x).codec (s x).box.config.hrp (r x) = .ok (P x).router
  distinct : ∀ x, (P x).mailbox ≠ (P x).router

/-- A deployer gave tokens to nobody. -/
def NoInitial (init : Cw20.Init) : Prop := (init.balances.map (·.2)).sum = 0

/-- A deployer may do anything. -/
def AnyInitial (_ : Cw20.Init) : Prop := True

end Hpl.Spec
