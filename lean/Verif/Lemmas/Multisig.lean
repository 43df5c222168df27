import Verif.Model.Multisig
import Verif.Spec.Multisig
import Verif.Lemmas.Crypto
import Verif.Lemmas.Message
import Verif.Lemmas.Metadata
import Verif.Lemmas.OMap
import Verif.Lemmas.Packages
import Mathlib.Data.List.Nodup

namespace Hpl.Multisig

open Spec

theorem load_ok {κ ν : Type} [LinearOrder κ] {m : OMap κ ν} {k : κ} {v : ν} :
    load m k = .ok v ↔ m.get k = some v := by
  unfold load
  cases m.get k <;> simp

theorem pred_ok {t t' : UInt8} : pred t = .ok t' ↔ t.toNat = t'.toNat + 1 := by
  unfold pred
  split
  · rename_i h
    have hx : (t - 1).toNat = t.toNat - 1 := by
      rw [UInt8.toNat_sub_of_le]
      · rfl
      · exact UInt8.le_iff_toNat_le.2 h
    constructor
    · intro he; cases he; omega
    · intro he
      congr 1
      apply UInt8.toNat_inj.1
      omega
  · rename_i h
    constructor
    · intro he; cases he
    · intro he; omega

variable {H : Bytes → Bytes} {R : Recover} {hash : Bytes} {vals : List Bytes}

theorem u8_ne_zero {t : UInt8} : t ≠ 0 ↔ 1 ≤ t.toNat := by
  constructor
  · intro h
    by_contra hc
    exact h (UInt8.toNat_inj.1 (by simpa using Nat.lt_one_iff.1 (Nat.not_le.1 hc)))
  · rintro h rfl
    simp at h

/-- What the loop counts it did find. -/
theorem loop_sound (hH : ∀ x, (H x).length = 32) {sigs : List Bytes} {t r : UInt8}
    {matched : List Bytes} (ht : t ≠ 0) (h : loop H R hash vals sigs t matched = .ok r) :
    ∃ q : List Bytes, q.Nodup ∧ (∀ a ∈ q, a ∉ matched) ∧ q.length + r.toNat = t.toNat ∧
      ∀ a ∈ q, a ∈ vals ∧ ∃ sig ∈ sigs, SignedBy H R hash sig a := by
  induction sigs generalizing t matched with
  | nil =>
    simp only [loop, Except.ok.injEq] at h
    subst h
    exact ⟨[], by simp, by simp, by simp, by simp⟩
  | cons sig rest ih =>
    simp only [loop] at h
    obtain ⟨a, ha, h⟩ := bind_eq_ok.1 h
    have ha := recoverSigner_sound hH ha
    split at h
    · rename_i hc
      simp only [Bool.and_eq_true, List.contains_iff_mem, Bool.not_eq_true',
        ] at hc
      have hnm : a ∉ matched := by
        intro hm
        rw [← List.contains_iff_mem] at hm
        rw [hm] at hc
        exact absurd hc.2 (by simp)
      obtain ⟨t', ht', h⟩ := bind_eq_ok.1 h
      have hp := pred_ok.1 ht'
      split at h
      · rename_i hz
        simp only [pure_eq_ok, Except.ok.injEq] at h
        subst h
        refine ⟨[a], by simp, by simpa using hnm, ?_, ?_⟩
        · simp [hp, Nat.add_comm]
        · intro b hb
          rw [List.mem_singleton] at hb
          subst hb
          exact ⟨hc.1, sig, by simp, ha⟩
      · rename_i hz
        obtain ⟨q, q1, q2, q3, q4⟩ := ih hz h
        refine ⟨a :: q, ?_, ?_, ?_, ?_⟩
        · rw [List.nodup_cons]
          exact ⟨fun hm => q2 a hm (by simp), q1⟩
        · intro b hb
          rcases List.mem_cons.1 hb with rfl | hb
          · exact hnm
          · exact fun hm => q2 b hb (List.mem_cons_of_mem _ hm)
        · rw [List.length_cons]; omega
        · intro b hb
          rcases List.mem_cons.1 hb with rfl | hb
          · exact ⟨hc.1, sig, by simp, ha⟩
          · obtain ⟨b1, s, hs, b2⟩ := q4 b hb
            exact ⟨b1, s, List.mem_cons_of_mem _ hs, b2⟩
    · obtain ⟨q, q1, q2, q3, q4⟩ := ih ht h
      refine ⟨q, q1, q2, q3, ?_⟩
      intro b hb
      obtain ⟨b1, s, hs, b2⟩ := q4 b hb
      exact ⟨b1, s, List.mem_cons_of_mem _ hs, b2⟩

/-- The loop finds what is there, whatever follows. -/
theorem loop_complete (hH : ∀ x, (H x).length = 32) (hR : ∀ h s v p, R h s v = some p → p ≠ [])
    {sigs : List Bytes} {t : UInt8} {matched : List Bytes} (ht : t ≠ 0)
    (hrec : ∀ sig ∈ sigs, ∃ a, SignedBy H R hash sig a) {q : List Bytes} (q1 : q.Nodup)
    (q2 : ∀ a ∈ q, a ∉ matched) (q3 : t.toNat ≤ q.length)
    (q4 : ∀ a ∈ q, a ∈ vals ∧ ∃ sig ∈ sigs, SignedBy H R hash sig a) (post : List Bytes) :
    loop H R hash vals (sigs ++ post) t matched = .ok 0 := by
  induction sigs generalizing t matched q with
  | nil =>
    exfalso
    have := u8_ne_zero.1 ht
    obtain ⟨a, q', rfl⟩ : ∃ a q', q = a :: q' := by
      cases q with
      | nil => simp at q3; omega
      | cons a q' => exact ⟨a, q', rfl⟩
    obtain ⟨_, s, hs, _⟩ := q4 a (by simp)
    cases hs
  | cons sig rest ih =>
    obtain ⟨a, ha⟩ := hrec sig (by simp)
    rw [List.cons_append]
    simp only [loop]
    rw [(recoverSigner_ok hH hR).2 ha, ok_bind]
    have hrec' : ∀ sig ∈ rest, ∃ a, SignedBy H R hash sig a :=
      fun s hs => hrec s (List.mem_cons_of_mem _ hs)
    split
    · rename_i hc
      obtain ⟨t', ht'⟩ : ∃ t', pred t = .ok t' := by
        refine ⟨t - 1, ?_⟩
        unfold pred
        rw [if_pos (u8_ne_zero.1 ht)]
      rw [ht', ok_bind]
      have hp := pred_ok.1 ht'
      split
      · rename_i hz; rw [hz]; rfl
      · rename_i hz
        refine ih (q := q.erase a) hz hrec' (q1.erase a) ?_ ?_ ?_
        · intro b hb
          have hbq := List.mem_of_mem_erase hb
          intro hm
          rcases List.mem_cons.1 hm with rfl | hm
          · exact (List.Nodup.not_mem_erase q1) hb
          · exact q2 b hbq hm
        · have : q.length ≤ (q.erase a).length + 1 := by
            rw [List.length_erase]; split <;> omega
          omega
        · intro b hb
          obtain ⟨b1, s, hs, b2⟩ := q4 b (List.mem_of_mem_erase hb)
          refine ⟨b1, ?_⟩
          rcases List.mem_cons.1 hs with rfl | hs
          · exfalso
            have := SignedBy.unique ha b2
            subst this
            exact (List.Nodup.not_mem_erase q1) hb
          · exact ⟨s, hs, b2⟩
    · rename_i hc
      have hna : a ∉ q := by
        intro hm
        apply hc
        have h1 := List.contains_iff_mem.2 (q4 a hm).1
        have h2 : matched.contains a = false := by
          rw [Bool.eq_false_iff]
          intro h
          exact q2 a hm (List.contains_iff_mem.1 h)
        rw [h1, h2]
        rfl
      refine ih ht hrec' q1 q2 q3 ?_
      intro b hb
      obtain ⟨b1, s, hs, b2⟩ := q4 b hb
      refine ⟨b1, ?_⟩
      rcases List.mem_cons.1 hs with rfl | hs
      · exfalso
        have := SignedBy.unique ha b2
        subst this
        exact hna hb
      · exact ⟨s, hs, b2⟩

/-- Recoverable signatures never make the loop fail. -/
theorem loop_total (hH : ∀ x, (H x).length = 32) (hR : ∀ h s v p, R h s v = some p → p ≠ [])
    {sigs : List Bytes} {t : UInt8} {matched : List Bytes} (ht : t ≠ 0)
    (hrec : ∀ sig ∈ sigs, ∃ a, SignedBy H R hash sig a) :
    ∃ r, loop H R hash vals sigs t matched = .ok r := by
  induction sigs generalizing t matched with
  | nil => exact ⟨t, rfl⟩
  | cons sig rest ih =>
    obtain ⟨a, ha⟩ := hrec sig (by simp)
    simp only [loop]
    rw [(recoverSigner_ok hH hR).2 ha, ok_bind]
    have hrec' : ∀ sig ∈ rest, ∃ a, SignedBy H R hash sig a :=
      fun s hs => hrec s (List.mem_cons_of_mem _ hs)
    split
    · obtain ⟨t', ht'⟩ : ∃ t', pred t = .ok t' := by
        refine ⟨t - 1, ?_⟩
        unfold pred
        rw [if_pos (u8_ne_zero.1 ht)]
      rw [ht', ok_bind]
      split
      · exact ⟨_, rfl⟩
      · rename_i hz
        exact ih hz hrec'
    · exact ih ht hrec'

theorem decode_meta_ok {v : Bytes} {m : MessageIdMeta} :
    MessageIdMeta.decode v = .ok m ↔ 68 ≤ v.length ∧
      m = ⟨v.take 32, (v.drop 32).take 32, (v.drop 64).take 4, chunksExact 65 (v.drop 68)⟩ := by
  unfold MessageIdMeta.decode
  constructor
  · intro h
    obtain ⟨a, h1, h⟩ := bind_eq_ok.1 h
    obtain ⟨b, h2, h⟩ := bind_eq_ok.1 h
    obtain ⟨c, h3, h⟩ := bind_eq_ok.1 h
    obtain ⟨d, h4, h⟩ := bind_eq_ok.1 h
    obtain ⟨hl, rfl⟩ := sliceFrom_eq_ok.1 h1
    obtain ⟨_, _, rfl⟩ := slice_eq_ok.1 h2
    obtain ⟨_, _, rfl⟩ := slice_eq_ok.1 h3
    obtain ⟨_, _, rfl⟩ := slice_eq_ok.1 h4
    simp only [pure_eq_ok, Except.ok.injEq] at h
    exact ⟨hl, by rw [← h]; rfl⟩
  · rintro ⟨hl, rfl⟩
    rw [slice_ok (by decide) (by omega), slice_ok (by decide) (by omega),
      slice_ok (by decide) (by omega), sliceFrom_ok (by omega)]
    rfl

/-- The chunks are the complete 65-byte blocks. -/
theorem mem_chunks {v sig : Bytes} :
    sig ∈ chunksExact 65 (v.drop 68) ↔ SignatureIn v sig := by
  unfold chunksExact SignatureIn
  simp only [List.mem_map, List.mem_range, List.drop_drop]
  constructor
  · rintro ⟨i, hi, rfl⟩
    refine ⟨i, by rw [Nat.mul_comm i 65], ?_⟩
    have := (Nat.le_div_iff_mul_le (by decide : 0 < 65)).1 hi
    simp only [List.length_take, List.length_drop] at *
    omega
  · rintro ⟨i, rfl, hl⟩
    refine ⟨i, ?_, by rw [Nat.mul_comm i 65]⟩
    simp only [List.length_take, List.length_drop] at *
    have : (i + 1) * 65 ≤ v.length - 68 := by omega
    exact (Nat.le_div_iff_mul_le (by decide : 0 < 65)).2 this

/-- Unfolding of a successful verification. -/
theorem verify_ok (hH : ∀ x, (H x).length = 32) {s : State} {metadata message : Bytes} {b : Bool} :
    verify H R s metadata message = .ok b ↔
      68 ≤ metadata.length ∧ ∃ msg vs t r, Message.decode message = .ok msg ∧
        s.validators.get msg.origin = some vs ∧ s.threshold.get msg.origin = some t ∧
        loop H R (digestFor H msg.origin metadata message) vs
          (chunksExact 65 (metadata.drop 68)) t [] = .ok r ∧ b = decide (r = 0) := by
  have hdig : ∀ msg, Message.decode message = .ok msg →
      ethHash H (multisigHash H (domainHash H msg.origin (metadata.take 32))
        ((metadata.drop 32).take 32) (ofU32be ((metadata.drop 64).take 4)) (msg.id H)) =
      digestFor H msg.origin metadata message := by
    intro msg hm
    unfold digestFor checkpointDigest
    rw [ethHash_32]
    · unfold multisigHash domainHash Message.id
      rw [(Message.decode_eq_ok.1 hm).1]
    · exact hH _
  unfold verify
  constructor
  · intro h
    obtain ⟨md, h1, h⟩ := bind_eq_ok.1 h
    obtain ⟨hl, rfl⟩ := decode_meta_ok.1 h1
    obtain ⟨msg, h2, h⟩ := bind_eq_ok.1 h
    obtain ⟨idx, h3, h⟩ := bind_eq_ok.1 h
    obtain ⟨vs, h4, h⟩ := bind_eq_ok.1 h
    obtain ⟨t, h5, h⟩ := bind_eq_ok.1 h
    obtain ⟨r, h6, hf⟩ := bind_eq_ok.1 h
    unfold MessageIdMeta.index at h3
    rw [if_pos (by simp; omega)] at h3
    cases h3
    simp only at h6
    rw [hdig msg h2] at h6
    simp only [pure_eq_ok, Except.ok.injEq] at hf
    exact ⟨hl, msg, vs, t, r, h2, load_ok.1 h4, load_ok.1 h5, h6, hf.symm⟩
  · rintro ⟨hl, msg, vs, t, r, h2, h4, h5, h6, rfl⟩
    rw [decode_meta_ok.2 ⟨hl, rfl⟩, ok_bind, h2, ok_bind]
    unfold MessageIdMeta.index
    rw [if_pos (by simp; omega), ok_bind, load_ok.2 h4, ok_bind, load_ok.2 h5, ok_bind]
    simp only
    rw [hdig msg h2, h6]
    rfl

end Hpl.Multisig
