import Verif.Spec.Crypto
import Verif.Lemmas.Bytes
import Verif.Lemmas.Res

namespace Hpl

open Spec

theorem decimal_32 : decimal 32 = ascii "32" := by decide +kernel

theorem ethHash_32 {H : Bytes → Bytes} {m : Bytes} (h : m.length = 32) :
    ethHash H m = personalDigest H m := by
  unfold ethHash personalDigest ethPrefix
  rw [h, decimal_32]

theorem sub27_ok {x v : UInt8} : sub27 x = .ok v ↔ x.toNat = 27 + v.toNat := by
  unfold sub27
  split
  · rename_i h
    have hx : (x - 27).toNat = x.toNat - 27 := by
      rw [UInt8.toNat_sub_of_le]
      · rfl
      · exact UInt8.le_iff_toNat_le.2 h
    constructor
    · intro he
      cases he
      omega
    · intro he
      congr 1
      apply UInt8.toNat_inj.1
      omega
  · rename_i h
    constructor
    · intro he; cases he
    · intro he; omega

theorem recoverPubkey_ok {R : Recover} {h s : Bytes} {v : UInt8} {p : Bytes} :
    recoverPubkey R h s v = .ok p ↔ R h s v = some p := by
  unfold recoverPubkey
  cases R h s v <;> simp

theorem ethAddr_ok {H : Bytes → Bytes} (hH : ∀ x, (H x).length = 32) {pk a : Bytes} :
    ethAddr H pk = .ok a ↔ 1 ≤ pk.length ∧ a = (H (pk.drop 1)).drop 12 := by
  unfold ethAddr
  constructor
  · intro h
    obtain ⟨b, h1, h⟩ := bind_eq_ok.1 h
    obtain ⟨hl, rfl⟩ := sliceFrom_eq_ok.1 h1
    obtain ⟨c, h2, h⟩ := bind_eq_ok.1 h
    obtain ⟨_, rfl⟩ := sliceFrom_eq_ok.1 h2
    rw [if_pos (by simp [hH])] at h
    simp only [pure_eq_ok, Except.ok.injEq] at h
    exact ⟨hl, h.symm⟩
  · rintro ⟨h1, rfl⟩
    rw [sliceFrom_ok h1, ok_bind, sliceFrom_ok (by rw [hH]; omega), ok_bind, if_pos (by simp [hH])]
    rfl

/-- A recovered signer did sign. -/
theorem recoverSigner_sound {H : Bytes → Bytes} {R : Recover} (hH : ∀ x, (H x).length = 32)
    {digest sig a : Bytes} (h : recoverSigner H R digest sig = .ok a) : SignedBy H R digest sig a := by
  unfold recoverSigner at h
  obtain ⟨rs, h1, h⟩ := bind_eq_ok.1 h
  obtain ⟨_, hl, rfl⟩ := slice_eq_ok.1 h1
  obtain ⟨x, h2, h⟩ := bind_eq_ok.1 h
  have hx : sig[64]? = some x := by
    unfold index at h2
    cases hs : sig[64]? with
    | none => rw [hs] at h2; cases h2
    | some y => rw [hs] at h2; cases h2; rfl
  obtain ⟨v, h3, h⟩ := bind_eq_ok.1 h
  obtain ⟨pk, h4, h⟩ := bind_eq_ok.1 h
  obtain ⟨_, rfl⟩ := (ethAddr_ok hH).1 h
  have h4 := recoverPubkey_ok.1 h4
  refine ⟨x, v, pk, ?_, hx, sub27_ok.1 h3, by simpa using h4, rfl, by simp [hH]⟩
  have := (List.getElem?_eq_some_iff.1 hx).1
  omega

/-- Recovery succeeds exactly on signatures of the signer (recovered keys being non-empty). -/
theorem recoverSigner_ok {H : Bytes → Bytes} {R : Recover} (hH : ∀ x, (H x).length = 32)
    (hR : ∀ h s v p, R h s v = some p → p ≠ []) {digest sig a : Bytes} :
    recoverSigner H R digest sig = .ok a ↔ SignedBy H R digest sig a := by
  refine ⟨recoverSigner_sound hH, ?_⟩
  unfold recoverSigner
  rintro ⟨x, v, pk, hl, hx, hv, hp, rfl, _⟩
  have h1 : slice sig 0 64 = .ok (sig.take 64) := slice_ok (by omega) (by omega)
  have h2 : index sig 64 = .ok x := by unfold index; rw [hx]
  rw [h1, ok_bind, h2, ok_bind, sub27_ok.2 hv, ok_bind, recoverPubkey_ok.2 hp, ok_bind]
  refine (ethAddr_ok hH).2 ⟨?_, rfl⟩
  have := hR _ _ _ _ hp
  exact List.length_pos_iff.2 this

/-- A signature has at most one signer. -/
theorem SignedBy.unique {H : Bytes → Bytes} {R : Recover} {d sig a b : Bytes}
    (ha : SignedBy H R d sig a) (hb : SignedBy H R d sig b) : a = b := by
  obtain ⟨x, v, pk, hl, hx, hv, hp, rfl, _⟩ := ha
  obtain ⟨x', v', pk', hl', hx', hv', hp', rfl, _⟩ := hb
  rw [hx] at hx'
  cases hx'
  have : v = v' := UInt8.toNat_inj.1 (by omega)
  subst this
  rw [hp] at hp'
  cases hp'
  rfl

/-- Equal images are equal preimages or a collision. -/
theorem eq_or_collision {H : Bytes → Bytes} {x y : Bytes} (h : H x = H y) : x = y ∨ Collision H x y := by
  by_cases he : x = y
  · exact .inl he
  · exact .inr ⟨he, h⟩

theorem personalDigest_inj {H : Bytes → Bytes} {x y : Bytes} (h : personalDigest H x = personalDigest H y) :
    x = y ∨ Collision H ([0x19] ++ ascii "Ethereum Signed Message:" ++ [0x0a] ++ ascii "32" ++ x)
      ([0x19] ++ ascii "Ethereum Signed Message:" ++ [0x0a] ++ ascii "32" ++ y) := by
  unfold personalDigest at h
  rcases eq_or_collision h with he | hc
  · exact .inl (List.append_cancel_left he)
  · exact .inr hc

end Hpl
