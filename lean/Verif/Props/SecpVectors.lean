import Verif.Model.Secp
import Verif.Model.Keccak
import Verif.Props.Multisig
import Verif.Props.Va

/-! # The signatures in the tests of the repository, checked by the model

Nothing is assumed of the recovery here: the kernel computes it. -/

namespace Hpl

open Keccak (keccak256)

namespace Ex

/-- `/repo/contracts/isms/multisig/src/query.rs` 121: a message from domain 80001. -/
def mumbaiMessage : Bytes :=
  beN 83 0x03000000240001388100000000000000000000000004980c17e2ce26578c82f81207e706e4505fae3b0000a8690000000000000000000000000b1c1b54f45e02552331d3106e71f5e0b573d5d448656c6c6f21

/-- query.rs 122. -/
def mumbaiMetadata : Bytes :=
  beN 68 0x0000000000000000000000009af85731edd41e2e50f81ef8a0a69d2fb836edf9a84430f822e0e9b5942faace72bd5b97f0b59a58a9b8281231d9e5c393b5859c00000024 ++
  beN 65 0x539feceace17782697e29e74151006dc7b47227cf48aba02926336cb5f7fa38b3d05e8293045f7b5811eda3ae8aa070116bb5fbf57c79e143a69e909df90cefa1b ++
  beN 65 0x6e6ead7180e0415c36642ee4bc5454bc4f5ca250ca77a1a83562035544e0e898734d6541a20404e05fd53eb1c75b0bd21851c3bd8122cfa3550d7b6fb94d7cee1b

/-- query.rs 123-127 and 143-145. -/
def mumbaiEnrol : List (OwnedCall Multisig.Msg) :=
  [⟨fun _ => true, "owner", .inr (.setValidators 80001 1 [beN 20 0xebc301013b6cd2548e347c28d2dc43ec20c068f2,
    beN 20 0x315db9868fc8813b221b1694f8760ece39f45447, beN 20 0x17517c98358c5937c5d9ee47ce1f5b4c2b7fc9f5])⟩]

/-- `Announcement::preset_20_byte_address`, `/repo/contracts/core/va/src/contract.rs` 269-283. -/
def goerliCall : Va.Call :=
  ⟨"anybody", beN 20 0x05a9b5efe9f61f9142453d8e9f61565f333c6768, ascii "s3://hyperlane-testnet4-goerli-validator-0/us-east-1",
    beN 65 0xdc47d48744fdb42b983f0244ed397feac08ee556eb48416582b5b638ada7b5322c8822e56a9020de7fe663ad43070f04b341514faf430ebf880bb1932434027d1c⟩

def goerliState (domain : UInt32) : Va.State :=
  ⟨beN 20 0x49cfd6ef774acab14814d699e3f7ee36fdfba932, domain, OMap.empty, OMap.empty, OMap.empty⟩

end Ex

/-- `test_verify_with_e2e_data`, second case. -/
example : Multisig.verify keccak256 (Secp.recover false) (multisigAfter "owner" Ex.mumbaiEnrol).2 Ex.mumbaiMetadata
    Ex.mumbaiMessage = .ok true := by decide +kernel

/-- `test_announce` with the 20-byte preset. -/
example : ((Va.announce keccak256 (Secp.recover false) (Ex.goerliState 5) Ex.goerliCall).toOption.map
    (fun r => Va.getValidators r.1)) = some [Ex.goerliCall.validator] := by decide +kernel

end Hpl
