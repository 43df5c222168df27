import Verif.Props.Message
import Verif.Props.Metadata
import Verif.Props.Bech32
import Verif.Props.Merkle
import Verif.Props.Keccak
import Verif.Props.Packages
import Verif.Props.Mailbox
import Verif.Props.Va
import Verif.Props.Multisig
import Verif.Props.Isms
import Verif.Props.MerkleHook
import Verif.Props.Hooks
import Verif.Props.Igp
import Verif.Props.Ledger
import Verif.Props.Bridge
import Verif.Props.BridgeLive
import Verif.Props.Warp
import Verif.Props.Security
import Verif.Props.BridgeSecurity
import Verif.Props.HookSystem
import Verif.Props.Network
import Verif.Props.HookMoney
import Verif.Props.HookUsers
import Verif.Props.Panics
import Verif.Props.Proto
import Verif.Props.Interface
import Verif.Examples.Interface
import Verif.Props.Governance
import Verif.Props.Relay
import Verif.Props.Listing
import Verif.Props.Storage
import Verif.Props.Events
import Verif.Props.EventsMoney
import Verif.Model.TokenNet
import Verif.Spec.TokenNet
import Verif.Spec.TokenNetSecurity
import Verif.Examples.TokenNet
import Verif.Props.TokenNet
import Verif.Props.TokenNetLive
import Verif.Props.TokenNetSecurity
import Verif.Model.Ledgers
import Verif.Model.TokenWorld
import Verif.Model.Deploy
import Verif.Spec.TokenWorld
import Verif.Spec.Deploy
import Verif.Lemmas.TokenWorld
import Verif.Lemmas.TokenWorldSim
import Verif.Examples.TokenWorld
import Verif.Examples.Deploy
import Verif.Props.TokenWorld
import Verif.Props.TokenWorldUsers
import Verif.Props.Deploy
import Verif.Props.DeploySecurity
import Verif.Props.Order
import Verif.Model.EventsOthers
import Verif.Spec.EventsOthers
import Verif.Lemmas.EventsOthers
import Verif.Props.EventsOthers
import Verif.Props.EventsSettings
import Verif.Props.EventsHooks
import Verif.Props.Mouthpiece
import Verif.Model.Semver
import Verif.Spec.Semver
import Verif.Lemmas.Semver
import Verif.Props.Semver
import Verif.Model.Start
import Verif.Spec.Start
import Verif.Lemmas.Start
import Verif.Props.Start
import Verif.Model.Secp
import Verif.Spec.Secp
import Verif.Lemmas.SecpPrimes
import Verif.Lemmas.Secp
import Verif.Lemmas.SecpGroup
import Verif.Props.Secp
import Verif.Props.SecpVectors
import Verif.Props.SecpSecurity
import Verif.Props.Pages
import Verif.Spec.Circular
import Verif.Props.Circular
import Verif.Props.Observer
import Verif.Props.SecpRelay
import Verif.Props.SecpTokens
import Verif.Props.Charges
import Verif.Props.Typed
import Verif.Props.Locations
import Verif.Props.Made
