import Verif.Props.Secp
import Verif.Props.Security
import Verif.Props.Relay

/-! # C99: from dispatch to delivery with keccak256 and secp256k1 -/

namespace Hpl

open Spec Secp
open Keccak (keccak256)

namespace Spec

/-- (A part of) the metadata contains a signature of the digest looked for, valid for the secret key of an honest validator, who
never signed anything with that digest. -/
def KeyBroken (g : secp256k1.Point) (high : Bool) (key : Bytes → ℕ) (honest : Bytes → Prop)
    (signed : Bytes → Attestation → Prop) (origin : UInt32) (metadata message : Bytes) : Prop :=
  ∃ v part sig, honest v ∧ part <:+: metadata ∧ SignatureIn part sig ∧
    EthSigned g high (key v) ((sought origin part message).digest keccak256) sig ∧
    ∀ a, signed v a → a.digest keccak256 ≠ (sought origin part message).digest keccak256

/-- (A part of) the metadata contains a signature of the digest looked for, which no honest validator with this address made:
it is valid for another secret key than the validator's, whose public key has the validator's address. Since there are fewer
addresses than keys, such keys exist; the signature in the metadata tells one (the public key recovered from it). -/
def AddressBroken (g : secp256k1.Point) (high : Bool) (key : Bytes → ℕ) (honest : Bytes → Prop)
    (signed : Bytes → Attestation → Prop) (origin : UInt32) (metadata message : Bytes) : Prop :=
  ∃ v part sig d, honest v ∧ part <:+: metadata ∧ SignatureIn part sig ∧ 0 < d ∧ d < n ∧ d ≠ key v ∧
    AddressOf keccak256 g d v ∧ EthSigned g high d ((sought origin part message).digest keccak256) sig ∧
    ∀ a, signed v a → a.digest keccak256 ≠ (sought origin part message).digest keccak256

end Spec

/-- A forged signature is one valid for the validator's secret key, or for another one with its address. -/
theorem forged_broken {g : secp256k1.Point} (hg : IsGenerator g) (norm : Bool) {honest : Bytes → Prop} {key : Bytes → ℕ}
    {signed : Bytes → Attestation → Prop} {origin : UInt32} {metadata message : Bytes}
    (h : Forged keccak256 (recover norm) honest signed origin metadata message) :
    KeyBroken g norm key honest signed origin metadata message ∨
      AddressBroken g norm key honest signed origin metadata message := by
  obtain ⟨v, part, sig, h1, h2, h3, h4, h5⟩ := h
  obtain ⟨_, _, hl⟩ := id h3
  obtain ⟨d, d1, d2, d3, d4⟩ := (C98_signer hg length_keccak256 norm (length_keccak256 _) hl).1 h4
  by_cases hd : d = key v
  · subst hd
    exact .inl ⟨v, part, sig, h1, h2, h3, d4, h5⟩
  · exact .inr ⟨v, part, sig, d, h1, h2, h3, d1, d2, hd, d3, d4, h5⟩

/-- **C99** (safety). As C63, with keccak256 and secp256k1, honest validators being known by their secret keys. The mailbox of
chain A has gone through any history; the mailbox of chain B, in any state, delivers a message that names A's domain as its
origin; the modules responsible are guarded and honest validators truthful. Then an account on A dispatched this message, and B
emits the call it asked for; or the metadata have a signature valid for an honest validator's secret key of a digest the
validator never signed; or they have one valid for another secret key with the address of an honest validator; or two strings named
are a collision of keccak256. -/
theorem C99_end_to_end {g : secp256k1.Point} (hg : IsGenerator g) (norm : Bool) {world : Addr → Option IsmContract}
    (hw : ∀ a c, world a = some c → Reachable c) {honest : Bytes → Prop} {key : Bytes → ℕ}
    {signed : Bytes → Attestation → Prop} {CA CB : Codec} {dA : UInt32} {sA0 : Mailbox.State}
    (txs : List (List (Tx.Act Mailbox.Call)))
    (htruth : ∀ v, honest v → Truthful
      (fun o b => o = dA → b ∈ announced (Tx.history (Mailbox.execute keccak256 CA) sA0 txs).2) signed v)
    {depth : Nat} {c : Mailbox.Call} (henv : c.env.verify = askIsm keccak256 (recover norm) world depth)
    {s s' : Mailbox.State} {m : Message} {metadata message : Bytes} {r : Response} (hc : c.msg = .process metadata message)
    (hm : WireFormat m message) (ho : m.origin = dA)
    (hgd : ∀ rc ism, bech32Encode CB s.config.hrp m.recipient = .ok rc → ResponsibleIsm c.env s rc ism →
      Guarded world honest dA ism)
    (h : Mailbox.execute keccak256 CB s c = .ok (s', r)) :
    (∃ e ∈ (Tx.history (Mailbox.execute keccak256 CA) sA0 txs).2, ∃ q sender32 rc, e.1.msg = .dispatch q ∧
      bech32ToH256 CA e.1.sender = .ok sender32 ∧ q.dest = s.config.localDomain ∧
      bech32Encode CB s.config.hrp q.recipient = .ok rc ∧
      r.msgs = [.execute rc (.handle dA sender32 q.body) []]) ∨
    KeyBroken g norm key honest signed dA metadata message ∨
    AddressBroken g norm key honest signed dA metadata message ∨
    HashBroken keccak256 honest signed dA metadata message := by
  rcases C63_end_to_end length_keccak256 hw txs htruth henv hc hm ho hgd h with h | h | h
  · exact .inl h
  · exact .inr ((forged_broken hg norm h).elim .inl (fun h => .inr (.inl h)))
  · exact .inr (.inr (.inr h))

/-- **C99** (liveness). A message for a chain, not delivered there yet, whose responsible module is a multisig contract: if holders
of secret keys of threshold many different validators named by the module sign a checkpoint with this message, then anybody who
has the signatures delivers it, with metadata of 68 bytes and 65 more for each of them, and the recipient is called. -/
theorem C99_attested_delivered {g : secp256k1.Point} (hg : IsGenerator g) (norm : Bool)
    {world : Addr → Option IsmContract} {C : Codec} {s : Mailbox.State} {sender recipient ism : Addr} {m : Message}
    {message : Bytes} {env : Mailbox.Env} {funds : List Coin} (hm : WireFormat m message) (hv : m.version = 3)
    (hd : m.dest = s.config.localDomain) (hr : bech32Encode C s.config.hrp m.recipient = .ok recipient)
    (hs : s.config.defaultIsm ≠ none) (hf : Mailbox.getDelivered s (keccak256 message) = false)
    (hi : ResponsibleIsm env s recipient ism) {ms : Multisig.State} (hw : world ism = some (.multisig ms))
    {t : UInt8} {vs : List Bytes} (hinfo : Multisig.verifyInfo ms message = .ok (t, vs)) (ht : 1 ≤ t.toNat)
    {tree root : Bytes} {index : UInt32} (h1 : tree.length = 32) (h2 : root.length = 32)
    (keys : Bytes → ℕ) (sig : Bytes → Bytes) (q : List Bytes) (hq : q.Nodup) (hl : q.length = t.toNat)
    (hsig : ∀ v ∈ q, v ∈ vs ∧ 0 < keys v ∧ keys v < n ∧ AddressOf keccak256 g (keys v) v ∧
      EthSigned g false (keys v) (checkpointDigest keccak256 m.origin tree root index (keccak256 message)) (sig v)) :
    ∃ md depth, md.length ≤ 68 + 65 * t.toNat ∧ ∀ k, ∃ s' r,
      Mailbox.execute keccak256 C s
        ⟨{ env with verify := askIsm keccak256 (recover norm) world (depth + k) }, sender, funds, .process md message⟩ =
        .ok (s', r) ∧
      r.msgs = [.execute recipient (.handle m.origin m.sender m.body) []] ∧
      Mailbox.getDelivered s' (keccak256 message) = true := by
  refine C76_deliverable length_keccak256 recover_ne hm hv hd hr hs hf hi ?_
  refine .signed (index := index) sig hw hinfo ht hm h1 h2 hq hl ?_ (le_refl _)
  intro v hv
  obtain ⟨k1, k2, k3, k4, k, r, t, odd, w1, w2, w3⟩ := hsig v hv
  have hl : (sig v).length = 65 := by rw [w3]; simp
  exact ⟨k1, hl, (C98_signer hg length_keccak256 norm (length_checkpointDigest length_keccak256 ..) hl).2
    ⟨_, k2, k3, k4, k, r, t, odd, w1, .inl (w2.resolve_right (by decide)), w3⟩⟩

/-! ## Example: the validator with the secret key two -/

namespace Ex

def secpOnly : List (OwnedCall Multisig.Msg) :=
  [⟨fun _ => true, "owner", .inr (.setValidators 1 1 [secpAddr])⟩]

def secpWorld : Addr → Option IsmContract := fun _ => some (.multisig (multisigAfter "owner" secpOnly).2)

/-- What the validator attests. -/
def secpCheckpoint : Attestation := .checkpoint 1 (zeros 32) (zeros 32) 0 message.encode

def secpSignature : Bytes := beN 32 secpR ++ beN 32 ((fromBE (secpCheckpoint.digest keccak256) + secpR * 2) % n) ++ [27]

theorem secp_attested {g : secp256k1.Point} (hg : IsGenerator g) :
    EthSigned g false 2 (secpCheckpoint.digest keccak256) secpSignature :=
  ⟨1, secpR, _, false, secp_signed hg _ (by decide +kernel), .inl (by decide +kernel), rfl⟩

/-- Its signature suffices to deliver the message. -/
theorem secp_delivered {g : secp256k1.Point} (hg : IsGenerator g) (norm : Bool) : ∃ md depth, md.length ≤ 133 ∧ ∀ k, ∃ s' r,
    Mailbox.execute keccak256 Bech.codec Ex.s1 ⟨{ relayEnv with
      verify := askIsm keccak256 (Secp.recover norm) secpWorld (depth + k) }, "relayer", [], .process md message.encode⟩ =
      .ok (s', r) ∧
    r.msgs = [.execute alice (.handle 1 message.sender [1, 2, 3]) []] ∧
    Mailbox.getDelivered s' (keccak256 message.encode) = true :=
  C99_attested_delivered (env := relayEnv) (m := message) (t := 1) (vs := [secpAddr]) (tree := zeros 32) (root := zeros 32)
    (index := 0) hg norm (wireFormat_of_decode (by decide +kernel)) rfl rfl (by decide +kernel) (by decide +kernel) (by decide +kernel) (.inl rfl)
    (ms := (multisigAfter "owner" secpOnly).2) rfl (by decide +kernel) (by decide) rfl rfl (fun _ => 2) (fun _ => secpSignature)
    [secpAddr] (by simp) rfl (by
      intro v hv
      rw [List.mem_singleton.1 hv]
      exact ⟨by simp, by decide, by decide, secp_address hg, secp_attested hg⟩)

theorem secp_guarded : Guarded secpWorld (· = secpAddr) 1 "route" := by
  refine .multisig (s := (multisigAfter "owner" secpOnly).2) rfl ?_
  intro vs t hv ht q _ hall
  have hv' : (multisigAfter "owner" secpOnly).2.validators.get 1 = some [secpAddr] := by decide +kernel
  rw [hv'] at hv
  cases hv
  have ht' : (multisigAfter "owner" secpOnly).2.threshold.get 1 = some 1 := by decide +kernel
  rw [ht'] at ht
  cases ht
  match q, hall with
  | [], _ => decide
  | a :: _, hall => exact absurd (List.mem_singleton.1 (hall a (by simp)).1) (hall a (by simp)).2

end Ex

/-- The premises of `C99_end_to_end` are met by the delivery of the message dispatched in `Ex.txs`, attested by the one validator. -/
example {g : secp256k1.Point} (hg : IsGenerator g) (norm : Bool) :
    (∀ a c, Ex.secpWorld a = some c → Reachable c) ∧
    (∀ v, v = Ex.secpAddr → Truthful
      (fun o b => o = 1 → b ∈ announced (Tx.history (Mailbox.execute keccak256 Bech.codec) Ex.s0 Ex.txs).2)
      (fun _ a => a = Ex.secpCheckpoint) v) ∧
    Guarded Ex.secpWorld (· = Ex.secpAddr) 1 "route" ∧
    ∃ md depth s' r, Mailbox.execute keccak256 Bech.codec Ex.s1 ⟨{ Ex.relayEnv with
      verify := askIsm keccak256 (Secp.recover norm) Ex.secpWorld depth }, "relayer", [], .process md Ex.message.encode⟩ =
      .ok (s', r) := by
  refine ⟨?_, ?_, Ex.secp_guarded, ?_⟩
  · intro a c h
    cases h
    exact ⟨"owner", Ex.secpOnly, rfl⟩
  · intro v _ o tree root i b hs
    cases hs
    refine ⟨rfl, rfl, fun _ => ?_⟩
    have : announced (Tx.history (Mailbox.execute keccak256 Bech.codec) Ex.s0 Ex.txs).2 = [Ex.message.encode] := by
      decide +kernel
    rw [this]
    simp
  · obtain ⟨md, depth, _, h⟩ := Ex.secp_delivered hg norm
    obtain ⟨s', r, h, _⟩ := h 0
    exact ⟨md, _, s', r, h⟩

end Hpl
