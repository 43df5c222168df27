import Verif.Model.Va
import Verif.Lemmas.Crypto
import Verif.Lemmas.OMap

namespace Hpl.Va

open Spec

theorem digest_ok {H : Bytes → Bytes} (hH : ∀ x, (H x).length = 32) {d : UInt32} {m l x : Bytes} :
    digest H d m l = .ok x ↔
      m.length ≤ 32 ∧ x = announcementDigest H d (zeros (32 - m.length) ++ m) l := by
  unfold digest domainHash
  by_cases hm : m.length ≤ 32
  · rw [padLeft32_ok hm]
    simp only [ok_bind, pure_eq_ok, Except.ok.injEq, hm, true_and, announcementDigest,
      announcementHash]
    rw [ethHash_32 (hH _)]
    exact eq_comm
  · have : padLeft32 m = .error (.panic "sub overflow") := by simp [padLeft32, hm]
    rw [this]
    simp [hm]

theorem announce_ok {H : Bytes → Bytes} {R : Recover} {s s' : State} {c : Call} {u : Unit} :
    announce H R s c = .ok (s', u) ↔
      c.validator.length = 20 ∧ s.replays.has (H (c.validator ++ c.location)) = false ∧
      (∃ d, digest H s.localDomain s.mailbox c.location = .ok d ∧
        recoverSigner H R d c.signature = .ok c.validator) ∧
      s' = { s with
        replays := s.replays.insert (H (c.validator ++ c.location)) ()
        validators := if s.validators.has c.validator then s.validators
          else s.validators.insert c.validator ()
        locations := s.locations.insert c.validator
          ((s.locations.get c.validator).getD [] ++ [c.location]) } := by
  unfold announce replayHash
  constructor
  · intro h
    obtain ⟨_, h1, h⟩ := bind_eq_ok.1 h
    obtain ⟨_, h2, h⟩ := bind_eq_ok.1 h
    obtain ⟨d, h3, h⟩ := bind_eq_ok.1 h
    obtain ⟨sg, h4, h⟩ := bind_eq_ok.1 h
    obtain ⟨_, h5, hf⟩ := bind_eq_ok.1 h
    clear h
    have h1 := of_decide_eq_true (ensure_eq_ok.1 h1)
    have h2 := ensure_eq_ok.1 h2
    have h5 := of_decide_eq_true (ensure_eq_ok.1 h5)
    subst h5
    simp only [pure_eq_ok, Except.ok.injEq, Prod.mk.injEq, and_true] at hf
    exact ⟨h1, by simpa using h2, ⟨d, h3, h4⟩, hf.symm⟩
  · rintro ⟨h1, h2, ⟨d, h3, h4⟩, rfl⟩
    simp [h1, h2, h3, h4]

end Hpl.Va
