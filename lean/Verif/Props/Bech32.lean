import Verif.Lemmas.Bech32

/-! # C08: account address to bytes32 and back -/

namespace Hpl

/-- The concrete bech32 codec is lawful. -/
theorem bech32_codec_lawful : Bech.codec.Lawful := fun _ _ _ h => Bech.dec_enc h

/-- Raw forms an account (20 bytes) or contract (32 bytes, not starting with 12 zero bytes) has. -/
def Spec.AccountBytes (raw : Bytes) : Prop :=
  raw.length = 20 ∨ (raw.length = 32 ∧ raw.take 12 ≠ List.replicate 12 0)

/-- Formatting the left-padded bytes of an account or contract gives its address (any codec). -/
theorem bech32Encode_padded {C : Codec} {hrp : String} {raw : Bytes} {a : Addr}
    (hraw : Spec.AccountBytes raw) (ha : C.enc hrp raw = some a) :
    bech32Encode C hrp (List.replicate (32 - raw.length) 0 ++ raw) = .ok a := by
  have hle : raw.length ≤ 32 := by rcases hraw with h | h <;> omega
  unfold bech32Encode
  have hl : (List.replicate (32 - raw.length) (0 : UInt8) ++ raw).length = 32 := by simp; omega
  rw [if_neg (by omega)]
  simp only [hl, true_and]
  rcases hraw with h | ⟨h, hz⟩
  · have h12 : (List.replicate (32 - raw.length) (0 : UInt8) ++ raw).take 12 = zeros 12 := by
      rw [h]; simp [zeros]
    rw [if_pos h12, h, List.drop_append, List.drop_eq_nil_of_le (by simp)]
    simp [ha]
  · have h12 : (List.replicate (32 - raw.length) (0 : UInt8) ++ raw).take 12 ≠ zeros 12 := by
      rw [h]; simpa [zeros] using hz
    rw [if_neg h12, h]
    simp [ha]

/-- 32-byte values with the same address are equal. -/
theorem bech32Encode_inj {C : Codec} (hC : C.Lawful) {hrp : String} {x y : Bytes} {a : Addr} (hx : x.length = 32)
    (hy : y.length = 32) (h1 : bech32Encode C hrp x = .ok a) (h2 : bech32Encode C hrp y = .ok a) : x = y := by
  have key : ∀ z : Bytes, z.length = 32 → bech32Encode C hrp z = .ok a →
      C.dec a = some (if z.take 12 = zeros 12 then z.drop 12 else z) := by
    intro z hz h
    unfold bech32Encode at h
    rw [if_neg (by omega)] at h
    simp only [hz, true_and] at h
    split at h
    · rename_i b hb
      cases h
      exact hC _ _ _ hb
    · cases h
  have k := key x hx h1
  rw [key y hy h2, Option.some.injEq] at k
  by_cases cx : x.take 12 = zeros 12 <;> by_cases cy : y.take 12 = zeros 12
  · rw [if_pos cx, if_pos cy] at k
    rw [← List.take_append_drop 12 x, ← List.take_append_drop 12 y, cx, cy, k]
  · rw [if_pos cx, if_neg cy] at k
    have := congrArg List.length k
    simp at this; omega
  · rw [if_neg cx, if_pos cy] at k
    have := congrArg List.length k
    simp at this; omega
  · rw [if_neg cx, if_neg cy] at k
    exact k.symm

theorem bech32_roundtrip_lawful {C : Codec} (hC : C.Lawful) {hrp : String} {raw : Bytes} {a : Addr}
    (hraw : Spec.AccountBytes raw) (ha : C.enc hrp raw = some a) :
    bech32ToH256 C a = .ok (List.replicate (32 - raw.length) 0 ++ raw) ∧
    bech32Encode C hrp (List.replicate (32 - raw.length) 0 ++ raw) = .ok a := by
  have hle : raw.length ≤ 32 := by rcases hraw with h | h <;> omega
  refine ⟨?_, bech32Encode_padded hraw ha⟩
  unfold bech32ToH256 bech32Decode
  rw [hC _ _ _ ha]
  exact padLeft32_ok hle

/-- C08. For every prefix and every account or contract address formatted with it (concrete bech32 codec):
converting to 32 bytes gives the left-padded raw address, formatting that again gives the original string, and
two different addresses of the same prefix never have the same 32 bytes. -/
theorem C08_bech32_identity (hrp : String) (raw : Bytes) (a : Addr)
    (hraw : Spec.AccountBytes raw) (ha : Bech.codec.enc hrp raw = some a) :
    (∃ h, bech32ToH256 Bech.codec a = .ok h ∧
      h = List.replicate (32 - raw.length) 0 ++ raw ∧ h.length = 32 ∧
      bech32Encode Bech.codec hrp h = .ok a) ∧
    (∀ raw' a', Spec.AccountBytes raw' → Bech.codec.enc hrp raw' = some a' →
      bech32ToH256 Bech.codec a' = bech32ToH256 Bech.codec a → a' = a) := by
  obtain ⟨h1, h2⟩ := bech32_roundtrip_lawful bech32_codec_lawful hraw ha
  have hle : raw.length ≤ 32 := by rcases hraw with h | h <;> omega
  refine ⟨⟨_, h1, rfl, by simp; omega, h2⟩, ?_⟩
  intro raw' a' hr' ha' he
  obtain ⟨h1', h2'⟩ := bech32_roundtrip_lawful bech32_codec_lawful hr' ha'
  rw [h1', h1] at he
  injection he with he
  rw [he, h2] at h2'
  injection h2' with h2'
  exact h2'.symm

/-- C08 (total on valid prefixes). Any non-empty prefix of at most 83 printable ASCII characters of
one case can format every address. -/
theorem C08_bech32_total (hrp : String) (raw : Bytes) (h1 : hrp.toList ≠ [])
    (h2 : hrp.toList.length ≤ 83) (h3 : ∀ c ∈ hrp.toList, 33 ≤ c.toNat ∧ c.toNat ≤ 126)
    (h4 : ¬ ((∃ c ∈ hrp.toList, c.isLower = true) ∧ (∃ c ∈ hrp.toList, c.isUpper = true))) :
    ∃ a, Bech.codec.enc hrp raw = some a := by
  have : Bech.checkHrp hrp.toList = true := by
    rw [Bech.checkHrp_iff]
    refine ⟨h1, h2, h3, ?_⟩
    simpa [List.any_eq_true] using h4
  show ∃ a, Bech.enc hrp raw = some a
  unfold Bech.enc
  rw [if_pos this]
  exact ⟨_, rfl⟩

/-- The test vector of the repository (bech32.rs test module): `osmo1d6a3...` -/
example : Bech.codec.enc "osmo" [110, 187, 25, 62, 214, 14, 15, 158, 225, 242, 61, 244, 64, 147, 44,
    72, 143, 118, 196, 19] = some "osmo1d6a3j0kkpc8eac0j8h6ypyevfz8hd3qnuqjrc5" := by decide +kernel

end Hpl
