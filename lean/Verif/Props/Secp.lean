import Verif.Lemmas.SecpGroup
import Verif.Props.Multisig
import Verif.Props.Va
import Verif.Props.Keccak

/-! # C97, C98: signatures recover to those who made them -/

namespace Hpl

open Spec Secp

theorem SignedWith.mod {g : secp256k1.Point} {d k z r s : ℕ} {odd : Bool} :
    SignedWith g d k (z % n) r s odd ↔ SignedWith g d k z r s odd := by
  have e : z % n + r * d ≡ z + r * d [MOD n] := Nat.ModEq.add_right _ (Nat.mod_modEq z n)
  exact ⟨fun h => { h with eq := h.eq.trans e }, fun h => { h with eq := h.eq.trans e.symm }⟩

/-- **C97.** A public key is recovered from a hash, a signature and a parity exactly if the hash is 32 bytes, the signature
consists of two numbers of 32 bytes, and the key is that of some secret key with which the hash was signed, with some nonce,
giving these numbers and this parity. In addition the second number has to be in the lower half, unless the host
normalizes. -/
theorem C97_recover_iff {g : secp256k1.Point} (hg : IsGenerator g) (norm : Bool) (hash sig : Bytes) (v : UInt8)
    (b : Bytes) :
    recover norm hash sig v = some b ↔
      hash.length = 32 ∧ ∃ d k r s odd, 0 < d ∧ d < n ∧ IsKey (d • g) b ∧
        SignedWith g d k (fromBE hash) r s odd ∧ (s ≤ n / 2 ∨ norm = true) ∧
        sig = beN 32 r ++ beN 32 s ∧ v = (if odd then 1 else 0) := by
  constructor
  · intro h
    unfold recover at h
    simp only at h
    split at h
    · next hc =>
      obtain ⟨c1, c2, c3, r1, r2, s1, s2⟩ := hc
      obtain ⟨⟨x, y⟩, hk, rfl⟩ := Option.map_eq_some_iff.1 h
      have hsig : sig = beN 32 (fromBE (sig.take 32)) ++ beN 32 (fromBE (sig.drop 32)) := by
        have e1 := beN_fromBE (sig.take 32)
        have e2 := beN_fromBE (sig.drop 32)
        rw [List.length_take, c2] at e1
        rw [List.length_drop, c2] at e2
        exact (List.take_append_drop 32 sig).symm.trans (congrArg₂ _ e1.symm e2.symm)
      have hv : v = (if decide (v = 1) then 1 else 0) := by
        rcases c3 with rfl | rfl <;> decide
      generalize fromBE (sig.take 32) = r at *
      generalize fromBE (sig.drop 32) = s at *
      refine ⟨c1, ?_⟩
      split at hk
      · next hn =>
        rw [Bool.and_eq_true, decide_eq_true_eq] at hn
        obtain ⟨_, d, k, d1, d2, hP, hs⟩ := recoverKey_sound hg r1 r2 (by omega) (by omega) hk
        have := SignedWith.mod.1 (SignedWith.neg hg hs)
        rw [Nat.sub_sub_self s2.le, Bool.not_not] at this
        exact ⟨d, _, r, s, _, d1, d2, ⟨x, y, hP, rfl⟩, this, .inr hn.1, hsig, hv⟩
      · obtain ⟨hl, d, k, d1, d2, hP, hs⟩ := recoverKey_sound hg r1 r2 s1 s2 hk
        exact ⟨d, _, r, s, _, d1, d2, ⟨x, y, hP, rfl⟩, SignedWith.mod.1 hs, .inl hl, hsig, hv⟩
    · exact absurd h (by simp)
  · rintro ⟨h32, d, k, r, s, odd, d1, d2, ⟨x, y, hP, hb⟩, hs, hl, hsig, hv⟩
    rw [hb, hsig, hv]
    have r3 : r < 256 ^ 32 := hs.r_lt.trans (by decide)
    have s3 : s < 256 ^ 32 := hs.s_lt.trans (by decide)
    unfold recover
    simp only
    rw [List.take_left' (length_beN _ _), List.drop_left' (length_beN _ _), fromBE_beN_of_lt r3, fromBE_beN_of_lt s3,
      if_pos ⟨h32, by simp, by cases odd <;> simp, hs.r_pos, hs.r_lt, hs.s_pos, hs.s_lt⟩]
    have ho : decide ((if odd = true then (1 : UInt8) else 0) = 1) = odd := by cases odd <;> decide
    rw [ho]
    by_cases hh : s ≤ n / 2
    · rw [if_neg (by simp [hh]), recoverKey_signed hg (SignedWith.mod.2 hs) hh hP]
      rfl
    · obtain rfl : norm = true := hl.resolve_left hh
      have := hs.s_lt
      have hn : n - s ≤ n / 2 := by
        have : n % 2 = 1 := by decide
        omega
      rw [if_pos (by simp; omega), recoverKey_signed hg (SignedWith.mod.2 (SignedWith.neg hg hs)) hn hP]
      rfl

/-- **C97** (keys). Each secret key between one and `n - 1` has a public key, which is that of no other secret key, and every
point of the curve but the neutral one is the public key of one of them. -/
theorem C97_keys {g : secp256k1.Point} (hg : IsGenerator g) :
    (∀ d, 0 < d → d < n → ∃ b, IsKey (d • g) b) ∧
    (∀ d d' b, d < n → d' < n → IsKey (d • g) b → IsKey (d' • g) b → d = d') ∧
    (∀ P : secp256k1.Point, P ≠ 0 → ∃ d, 0 < d ∧ d < n ∧ P = d • g) := by
  refine ⟨fun d h0 h1 => ?_, ?_, fun P hP => ?_⟩
  · obtain ⟨x, y, h⟩ := point_of_ne (smul_ne hg h0 h1)
    exact ⟨_, x, y, h, rfl⟩
  · rintro d d' b h1 h2 ⟨x, y, hP, rfl⟩ ⟨x', y', hP', e⟩
    obtain ⟨e1, e2⟩ := List.append_inj (List.cons.inj e).2 (by simp)
    have lt : ∀ {a : ℕ}, a < p → a < 256 ^ 32 := fun h => h.trans (by decide)
    have k1 := congrArg fromBE e1
    have k2 := congrArg fromBE e2
    rw [fromBE_beN_of_lt (lt hP.1), fromBE_beN_of_lt (lt hP'.1)] at k1
    rw [fromBE_beN_of_lt (lt hP.2.1), fromBE_beN_of_lt (lt hP'.2.1)] at k2
    subst k1 k2
    obtain ⟨_, _, _, e3⟩ := hP
    obtain ⟨_, _, _, e4⟩ := hP'
    have := (smul_eq_iff hg).1 (e3.trans e4.symm)
    rw [ZMod.natCast_eq_natCast_iff', Nat.mod_eq_of_lt h1, Nat.mod_eq_of_lt h2] at this
    exact this
  · obtain ⟨d, h1, rfl⟩ := exists_smul hg P
    refine ⟨d, Nat.pos_of_ne_zero ?_, h1, rfl⟩
    rintro rfl
    exact hP (zero_nsmul g)

/-- **C97** (the two forms). With every signature of a hash there is the one with `n - s` and the other parity, for the same
secret key. Exactly one of the two has its second number in the lower half. -/
theorem C97_twin {g : secp256k1.Point} (hg : IsGenerator g) {d k z r s : ℕ} {odd : Bool}
    (h : SignedWith g d k z r s odd) :
    (∃ k', SignedWith g d k' z r (n - s) (!odd)) ∧ (s ≤ n / 2 ↔ ¬ n - s ≤ n / 2) := by
  refine ⟨⟨_, SignedWith.neg hg h⟩, ?_⟩
  have := h.s_lt
  have : n % 2 = 1 := by decide
  omega

/-- There is a generator, so that none of this is about nothing. -/
theorem C97_generator : ∃ g, IsGenerator g := exists_generator

/-! ## The contracts -/

section

variable {H : Bytes → Bytes}

/-- **C98.** The address that the contracts recover from a signature of 65 bytes is that of a secret key with which the digest was
signed, and for each such secret key they recover its address. -/
theorem C98_signer {g : secp256k1.Point} (hg : IsGenerator g) (hH : ∀ x, (H x).length = 32) (norm : Bool)
    {digest sig a : Bytes} (hd : digest.length = 32) (hs : sig.length = 65) :
    SignedBy H (recover norm) digest sig a ↔ ∃ d, 0 < d ∧ d < n ∧ AddressOf H g d a ∧ EthSigned g norm d digest sig := by
  constructor
  · rintro ⟨v, bit, pk, _, hv, hb, hR, ha, _⟩
    obtain ⟨_, d, k, r, s, odd, d1, d2, ⟨x, y, hP, hk⟩, hw, hl, hsig, hbit⟩ := (C97_recover_iff hg _ _ _ _ _).1 hR
    subst ha hk hbit
    refine ⟨d, d1, d2, ⟨x, y, hP, rfl⟩, k, r, s, odd, hw, hl, ?_⟩
    have hdrop : sig.drop 64 = [v] := by
      have h1 : (sig.drop 64).length = 1 := by simp [hs]
      obtain ⟨w, hw⟩ := List.length_eq_one_iff.1 h1
      have : (sig.drop 64)[0]? = some v := by rw [List.getElem?_drop]; exact hv
      rw [hw] at this ⊢
      simpa using this
    rw [← List.take_append_drop 64 sig, hsig, hdrop]
    congr 2
    rw [← UInt8.toNat_inj, hb]
    cases odd <;> rfl
  · rintro ⟨d, d1, d2, ⟨x, y, hP, ha⟩, k, r, s, odd, hw, hl, hsig⟩
    rw [ha, hsig]
    refine ⟨if odd then 28 else 27, if odd then 1 else 0, 4 :: (beN 32 x ++ beN 32 y), by simp, ?_, ?_, ?_, rfl, by simp [hH]⟩
    · rw [List.getElem?_append_right (by simp)]
      simp
    · cases odd <;> rfl
    · rw [List.take_left' (by simp)]
      exact (C97_recover_iff hg _ _ _ _ _).2 ⟨hd, d, k, r, s, odd, d1, d2, ⟨x, y, hP, rfl⟩, hw, hl, rfl, rfl⟩

theorem recover_ne {norm : Bool} : ∀ h s v q, recover norm h s v = some q → q ≠ [] := by
  intro h s v q hq
  unfold recover at hq
  simp only at hq
  split at hq
  · obtain ⟨_, _, rfl⟩ := Option.map_eq_some_iff.1 hq
    simp
  · exact absurd hq (by simp)

theorem length_checkpointDigest (hH : ∀ x, (H x).length = 32) (o : UInt32) (t r : Bytes) (i : UInt32) (x : Bytes) :
    (checkpointDigest H o t r i x).length = 32 := hH _

end

open Keccak (keccak256)

/-- **C98** (multisig, soundness). In any reachable state of the multisig module: if verification with keccak256 and recovery on
secp256k1 answers true, there are as many different enrolled addresses as the threshold tells, and for each of them the metadata
has a signature of the checkpoint digest of this message made with a secret key of that address. -/
theorem C98_quorum_sound {g : secp256k1.Point} (hg : IsGenerator g) (norm : Bool) (o0 : Addr)
    (h : List (OwnedCall Multisig.Msg)) {metadata message : Bytes}
    (hv : Multisig.verify keccak256 (recover norm) (multisigAfter o0 h).2 metadata message = .ok true) :
    ∃ m vs t, ∃ q : List Bytes, WireFormat m message ∧
      Multisig.enrolled (multisigAfter o0 h).2 m.origin = .ok (vs, t) ∧ 1 ≤ t.toNat ∧ q.length = t.toNat ∧ q.Nodup ∧
      ∀ a ∈ q, a ∈ vs ∧ ∃ sig d, SignatureIn metadata sig ∧ 0 < d ∧ d < n ∧ AddressOf keccak256 g d a ∧
        EthSigned g norm d (digestFor keccak256 m.origin metadata message) sig := by
  obtain ⟨m, vs, t, q, h1, h2, h3, h4, h5, h6⟩ := C36_quorum_sound length_keccak256 o0 h hv
  refine ⟨m, vs, t, q, h1, h2, h3, h4, h5, fun a ha => ?_⟩
  obtain ⟨h7, sig, h8, h9⟩ := h6 a ha
  obtain ⟨_, _, hl⟩ := id h8
  obtain ⟨d, d1, d2, d3, d4⟩ := (C98_signer hg length_keccak256 norm (length_checkpointDigest length_keccak256 ..) hl).1 h9
  exact ⟨h7, sig, d, h8, d1, d2, d3, d4⟩

/-- **C98** (multisig, completeness). In any reachable state: if the holders of secret keys of threshold many different enrolled
addresses sign the checkpoint digest of a message, then 68 bytes naming the checkpoint followed by their signatures, in any order
and together with signatures of the digest by anybody else, make verification answer true. Nothing else has to be assumed:
neither about the hash function, nor about the recovery, nor about which half the host accepts. -/
theorem C98_quorum_complete {g : secp256k1.Point} (hg : IsGenerator g) (norm : Bool) (o0 : Addr)
    (h : List (OwnedCall Multisig.Msg)) {m : Message} {message head : Bytes} {vs : List Bytes} {t : UInt8}
    (hm : WireFormat m message) (he : Multisig.enrolled (multisigAfter o0 h).2 m.origin = .ok (vs, t))
    (hh : head.length = 68) (sigs : List Bytes)
    (hs : ∀ sig ∈ sigs, ∃ d, 0 < d ∧ d < n ∧ EthSigned g false d (digestFor keccak256 m.origin head message) sig)
    (q : List Bytes) (hq : q.Nodup) (ht : t.toNat ≤ q.length)
    (hsign : ∀ a ∈ q, a ∈ vs ∧ ∃ sig ∈ sigs, ∃ d, 0 < d ∧ d < n ∧ AddressOf keccak256 g d a ∧
      EthSigned g false d (digestFor keccak256 m.origin head message) sig) :
    Multisig.verify keccak256 (recover norm) (multisigAfter o0 h).2 (head ++ sigs.flatten) message = .ok true := by
  have hdig : digestFor keccak256 m.origin (head ++ sigs.flatten) message = digestFor keccak256 m.origin head message := by
    unfold digestFor
    rw [List.take_append_of_le_length (by omega), List.drop_append_of_le_length (by omega),
      List.drop_append_of_le_length (by omega), List.take_append_of_le_length (by rw [List.length_drop]; omega),
      List.take_append_of_le_length (by rw [List.length_drop]; omega)]
  have hlen : ∀ {d sig}, EthSigned g false d (digestFor keccak256 m.origin head message) sig → sig.length = 65 := by
    rintro d sig ⟨k, r, s, odd, _, _, e⟩
    rw [e]
    simp
  have hnorm : ∀ {d sig}, EthSigned g false d (digestFor keccak256 m.origin head message) sig →
      EthSigned g norm d (digestFor keccak256 m.origin head message) sig := by
    rintro d sig ⟨k, r, s, odd, h1, h2, h3⟩
    exact ⟨k, r, s, odd, h1, .inl (h2.resolve_right (by decide)), h3⟩
  have hsb := fun {sig a : Bytes} (hl : sig.length = 65) => C98_signer (a := a) hg length_keccak256 norm
    (length_checkpointDigest length_keccak256 m.origin (head.take 32) ((head.drop 32).take 32)
      (ofU32be ((head.drop 64).take 4)) (keccak256 message)) hl
  refine C37_quorum_prefix (post := []) (pre := sigs) length_keccak256 recover_ne o0 h hm he hh (by simp) ?_ ?_ ht ⟨hq, ?_⟩
  · intro s hs'
    rw [List.append_nil] at hs'
    obtain ⟨d, _, _, e⟩ := hs s hs'
    exact hlen e
  · intro sig hsig
    obtain ⟨d, d1, d2, e⟩ := hs sig hsig
    obtain ⟨x, y, hP⟩ := point_of_ne (smul_ne hg d1 d2)
    rw [hdig]
    exact ⟨_, (hsb (hlen e)).2 ⟨d, d1, d2, ⟨x, y, hP, rfl⟩, hnorm e⟩⟩
  · intro a ha
    obtain ⟨hv, sig, hsig, d, d1, d2, da, e⟩ := hsign a ha
    rw [hdig]
    exact ⟨hv, sig, hsig, (hsb (hlen e)).2 ⟨d, d1, d2, da, hnorm e⟩⟩

/-- **C98** (announcements). After any history from the making of the contract: every committed announcement carries a signature
made with a secret key of the validator's address, over this domain, this mailbox and this location. And the holder of a secret
key can announce each location not yet announced for its address, unless an explicit collision of keccak256 is known. -/
theorem C98_announce {g : secp256k1.Point} (hg : IsGenerator g) (norm : Bool) {C : Codec} {valid : Addr → Bool}
    {mailbox : Addr} {dom : UInt32} {raw : Bytes} {s0 : Va.State}
    (h0 : Va.instantiate C valid mailbox (.ok dom) = .ok s0) (hraw : bech32Decode C mailbox = .ok raw)
    (hlen : raw.length ≤ 32) (txs : List (List (Tx.Act Va.Call))) :
    let s := (Tx.history (Va.announce keccak256 (recover norm)) s0 txs).1
    let log := (Tx.history (Va.announce keccak256 (recover norm)) s0 txs).2
    let dig := announcementDigest keccak256 dom (zeros (32 - raw.length) ++ raw)
    (∀ e ∈ log, ∃ d, 0 < d ∧ d < n ∧ AddressOf keccak256 g d e.1.validator ∧
      EthSigned g norm d (dig e.1.location) (e.1.signature.take 65)) ∧
    (∀ c d, 0 < d → d < n → AddressOf keccak256 g d c.validator → EthSigned g false d (dig c.location) c.signature →
      (c.validator, c.location) ∉ announcements log →
      (∃ x, Va.announce keccak256 (recover norm) s c = .ok x) ∨
      ∃ q ∈ announcements log, Collision keccak256 (q.1 ++ q.2) (c.validator ++ c.location)) := by
  intro s log dig
  have hdl : ∀ l, (dig l).length = 32 := fun l => length_keccak256 _
  refine ⟨?_, ?_⟩
  · intro e he
    obtain ⟨h1, h2⟩ := (C33_announcements_signed length_keccak256 h0 hraw txs).1 e he
    refine (C98_signer hg length_keccak256 norm (hdl _) ?_).1 ?_
    · obtain ⟨_, _, _, k, _⟩ := h2
      rw [List.length_take]
      omega
    · obtain ⟨v, bit, pk, k1, k2, k3, k4, k5⟩ := h2
      refine ⟨v, bit, pk, by rw [List.length_take]; omega, ?_, k3, ?_, k5⟩
      · rw [List.getElem?_take_of_lt (by decide)]
        exact k2
      · rw [List.take_take]
        exact k4
  · intro c d d1 d2 ha hsig hn
    have hl : c.validator.length = 20 := by
      obtain ⟨x, y, _, e⟩ := ha
      rw [e, List.length_drop, length_keccak256]
    obtain ⟨k, r, t, odd, w1, w2, w3⟩ := hsig
    refine (C34_no_replay length_keccak256 recover_ne h0 hraw hlen txs).2.2 c hl ?_ hn
    exact (C98_signer hg length_keccak256 norm (hdl _) (by rw [w3]; simp)).2
      ⟨d, d1, d2, ha, k, r, t, odd, w1, .inl (w2.resolve_right (by decide)), w3⟩

/-! ## Examples: the secret key two and the nonce one -/

namespace Ex

def secpR : ℕ := 0x79BE667EF9DCBBAC55A06295CE870B07029BFCDB2DCE28D959F2815B16F81798

def secpX : ℕ := 0xC6047F9441ED7D6D3045406E95C07CD85C778E4B8CEF3CA7ABAC09B95C709EE5

def secpY : ℕ := 0x1AE168FEA63DC339A3C58419466CEAEEF7F632653266D0E1236431A950CFE52A

theorem secp_two {g : secp256k1.Point} (hg : IsGenerator g) : IsPoint (2 • g) secpX secpY := by
  have h1 := add_rep (generator_rep hg) (generator_rep hg)
  rw [← two_nsmul, show add G G = some (secpX, secpY) by decide +kernel] at h1
  exact h1

/-- Any number is signed like this. -/
theorem secp_signed {g : secp256k1.Point} (hg : IsGenerator g) (z : ℕ) (h : 0 < (z + secpR * 2) % n) :
    SignedWith g 2 1 z secpR ((z + secpR * 2) % n) false := by
  refine ⟨⟨0x483ADA7726A3C4655DA4FBFC0E1108A8FD17B448A68554199C47D08FFB10D4B8, ?_, ?_⟩, by decide, by decide, h, Nat.mod_lt _ n_pos, ?_⟩
  · rw [one_nsmul]
    exact hg
  · decide
  · rw [mul_one]
    exact Nat.mod_modEq _ _

/-- A message from domain one. -/
def secpMessage : Message := ⟨3, 7, 1, zeros 32, 2, zeros 32, [104, 101, 108, 108, 111]⟩

def secpDigest : Bytes := digestFor keccak256 1 (zeros 68) secpMessage.encode

def secpS : ℕ := (fromBE secpDigest + secpR * 2) % n

def secpSig : Bytes := beN 32 secpR ++ beN 32 secpS ++ [27]

/-- The address of the secret key two. -/
def secpAddr : Bytes := beN 20 0x2B5AD5c4795c026514f8317c7a215E218DcCD6cF

theorem secpS_low : 0 < secpS ∧ secpS ≤ n / 2 := by decide +kernel

theorem secp_ethSigned {g : secp256k1.Point} (hg : IsGenerator g) : EthSigned g false 2 secpDigest secpSig :=
  ⟨1, secpR, secpS, false, secp_signed hg _ secpS_low.1, .inl secpS_low.2, rfl⟩

theorem secp_address {g : secp256k1.Point} (hg : IsGenerator g) : AddressOf keccak256 g 2 secpAddr :=
  ⟨_, _, secp_two hg, by decide +kernel⟩

def secpEnrol : List (OwnedCall Multisig.Msg) :=
  [⟨fun _ => true, "owner", .inr (.setValidators 1 1 [zeros 20, secpAddr])⟩]

end Ex

/-- The key of the secret key two is recovered, whatever the host does with high numbers. -/
example {g : secp256k1.Point} (hg : IsGenerator g) (norm : Bool) :
    ∃ b, IsKey (2 • g) b ∧ recover norm Ex.secpDigest (beN 32 Ex.secpR ++ beN 32 Ex.secpS) 0 = some b :=
  ⟨_, ⟨_, _, Ex.secp_two hg, rfl⟩, (C97_recover_iff hg _ _ _ _ _).2 ⟨length_keccak256 _, 2, 1, _, _, false, by decide, by decide,
    ⟨_, _, Ex.secp_two hg, rfl⟩, Ex.secp_signed hg _ Ex.secpS_low.1, .inl Ex.secpS_low.2, rfl, rfl⟩⟩

/-- Its signature makes the module accept the message. -/
example {g : secp256k1.Point} (hg : IsGenerator g) (norm : Bool) :
    Multisig.verify keccak256 (recover norm) (multisigAfter "owner" Ex.secpEnrol).2 (zeros 68 ++ [Ex.secpSig].flatten)
      Ex.secpMessage.encode = .ok true := by
  refine C98_quorum_complete hg norm "owner" Ex.secpEnrol (m := Ex.secpMessage) (vs := [zeros 20, Ex.secpAddr]) (t := 1)
    ((C01_message_layout _ rfl rfl _).1 rfl) (by decide +kernel) (by decide) [Ex.secpSig] ?_ [Ex.secpAddr] (by simp) (by decide) ?_
  · intro sig h
    rw [List.mem_singleton.1 h]
    exact ⟨2, by decide, by decide, Ex.secp_ethSigned hg⟩
  · intro a h
    rw [List.mem_singleton.1 h]
    exact ⟨by simp, _, List.mem_singleton_self _, 2, by decide, by decide, Ex.secp_address hg, Ex.secp_ethSigned hg⟩

end Hpl
