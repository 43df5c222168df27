import Verif.Lemmas.Va
import Verif.Model.Tx
import Verif.Props.Keccak
import Verif.Examples.Mailbox
import Mathlib.Data.List.Nodup

/-! # Validator announcements: C33 - C35 -/

namespace Hpl

open Va Spec

section

variable {H : Bytes → Bytes} {R : Recover}

/-- Validator and location of the announcements in a log, in order. -/
def Spec.announcements (log : List (Va.Call × Unit)) : List (Bytes × Bytes) :=
  log.map (fun e => (e.1.validator, e.1.location))

/-- What a log of successful announcements does. -/
theorem va_chain (hH : ∀ x, (H x).length = 32) {s s' : Va.State} {log : List (Va.Call × Unit)}
    (h : Tx.Chain (announce H R) s log s') :
    s'.mailbox = s.mailbox ∧ s'.localDomain = s.localDomain ∧
    (∀ v, (s'.locations.get v).getD [] = (s.locations.get v).getD [] ++
      ((announcements log).filter (fun p => p.1 = v)).map Prod.snd) ∧
    (∀ v, s'.validators.has v = true ↔ s.validators.has v = true ∨ ∃ l, (v, l) ∈ announcements log) ∧
    (∀ i, s'.replays.has i = true ↔ s.replays.has i = true ∨
      ∃ p ∈ announcements log, H (p.1 ++ p.2) = i) ∧
    (announcements log).Nodup ∧
    (∀ p ∈ announcements log, s.replays.has (H (p.1 ++ p.2)) = false) ∧
    (∀ e ∈ log, e.1.validator.length = 20 ∧ SignedBy H R (announcementDigest H s.localDomain
      (zeros (32 - s.mailbox.length) ++ s.mailbox) e.1.location) e.1.signature e.1.validator) := by
  induction log generalizing s with
  | nil =>
    simp only [Tx.Chain] at h
    subst h
    simp [announcements]
  | cons e t ih =>
    obtain ⟨c, u⟩ := e
    obtain ⟨m, h1, h2⟩ := h
    obtain ⟨i1, i2, i3, i4, i5, i6, i7, i8⟩ := ih h2
    obtain ⟨g1, g2, ⟨d, g3, g4⟩, rfl⟩ := announce_ok.1 h1
    obtain ⟨_, rfl⟩ := (digest_ok hH).1 g3
    have g4 := recoverSigner_sound hH g4
    simp only at i1 i2 i3 i4 i5 i7 i8
    have ha : announcements ((c, u) :: t) = (c.validator, c.location) :: announcements t := rfl
    rw [ha]
    refine ⟨i1, i2, ?_, ?_, ?_, ?_, ?_, ?_⟩
    · intro v
      rw [i3, List.filter_cons]
      by_cases hv : c.validator = v
      · subst hv
        simp
      · rw [OMap.get_insert_ne _ _ (Ne.symm hv)]
        simp [hv]
    · intro v
      have : (if s.validators.has c.validator then s.validators
          else s.validators.insert c.validator ()).has v = true ↔
          s.validators.has v = true ∨ v = c.validator := by
        split
        · constructor
          · exact .inl
          · rintro (h | rfl) <;> assumption
        · rw [OMap.has_insert]; simp [or_comm]
      rw [i4, this]
      simp only [List.mem_cons, Prod.mk.injEq]
      constructor
      · rintro ((h | h) | ⟨l, h⟩)
        · exact .inl h
        · exact .inr ⟨c.location, .inl ⟨h, rfl⟩⟩
        · exact .inr ⟨l, .inr h⟩
      · rintro (h | ⟨l, h | h⟩)
        · exact .inl (.inl h)
        · exact .inl (.inr h.1)
        · exact .inr ⟨l, h⟩
    · intro i
      rw [i5, OMap.has_insert]
      simp only [Bool.or_eq_true, decide_eq_true_eq, List.mem_cons, exists_eq_or_imp]
      constructor
      · rintro ((rfl | h) | h)
        · exact .inr (.inl rfl)
        · exact .inl h
        · exact .inr (.inr h)
      · rintro (h | rfl | h)
        · exact .inl (.inr h)
        · exact .inl (.inl rfl)
        · exact .inr h
    · rw [List.nodup_cons]
      refine ⟨fun hm => ?_, i6⟩
      have := i7 _ hm
      rw [OMap.has_insert] at this
      simp at this
    · intro p hp
      rcases List.mem_cons.1 hp with rfl | hp
      · exact g2
      · have := i7 p hp
        rw [OMap.has_insert] at this
        exact (Bool.or_eq_false_iff.1 this).2
    · intro e he
      rcases List.mem_cons.1 he with rfl | he
      · exact ⟨g1, g4⟩
      · exact i8 e he

theorem va_instantiate_ok {C : Codec} {valid : Addr → Bool} {mailbox : Addr} {domain : Res UInt32}
    {s : Va.State} (h : instantiate C valid mailbox domain = .ok s) :
    ∃ raw d, bech32Decode C mailbox = .ok raw ∧ domain = .ok d ∧
      s = ⟨raw, d, OMap.empty, OMap.empty, OMap.empty⟩ := by
  unfold instantiate at h
  obtain ⟨_, _, h⟩ := bind_eq_ok.1 h
  obtain ⟨raw, h1, h⟩ := bind_eq_ok.1 h
  obtain ⟨d, h2, h⟩ := bind_eq_ok.1 h
  exact ⟨raw, d, h1, h2, by simpa using h.symm⟩

/-- **C33.** After any history of transactions from instantiation with a mailbox of domain `d` and address bytes `raw`:
every committed announcement carries a signature by the validator (20 bytes) over the announcement digest of `d`, the
padded `raw` and the location; the locations query lists, for each validator asked, exactly the locations it announced,
in order; the validators query lists exactly the validators that announced something, each once, in byte order. -/
theorem C33_announcements_signed (hH : ∀ x, (H x).length = 32) {C : Codec} {valid : Addr → Bool}
    {mailbox : Addr} {d : UInt32} {raw : Bytes} {s0 : Va.State}
    (h0 : instantiate C valid mailbox (.ok d) = .ok s0) (hraw : bech32Decode C mailbox = .ok raw)
    (txs : List (List (Tx.Act Va.Call))) :
    let s := (Tx.history (announce H R) s0 txs).1
    let log := (Tx.history (announce H R) s0 txs).2
    (∀ e ∈ log, e.1.validator.length = 20 ∧
      SignedBy H R (announcementDigest H d (zeros (32 - raw.length) ++ raw) e.1.location)
        e.1.signature e.1.validator) ∧
    (∀ vs, getAnnounce s vs = vs.map (fun v =>
      (v, ((announcements log).filter (fun p => p.1 = v)).map Prod.snd))) ∧
    (∀ v, v ∈ getValidators s ↔ ∃ l, (v, l) ∈ announcements log) ∧
    (getValidators s).Pairwise (· < ·) ∧
    getMailbox s = raw ∧ getLocalDomain s = d := by
  intro s log
  obtain ⟨raw', d', k1, k2, rfl⟩ := va_instantiate_ok h0
  rw [hraw] at k1
  cases k1
  cases k2
  obtain ⟨i1, i2, i3, i4, i5, i6, i7, i8⟩ := va_chain hH (Tx.history_chain (announce H R) _ txs)
  refine ⟨i8, ?_, ?_, OMap.keys_sorted _, i1, i2⟩
  · intro vs
    unfold getAnnounce
    apply List.map_congr_left
    intro v _
    rw [i3 v]
    rfl
  · intro v
    unfold getValidators
    rw [← OMap.has_iff_mem_keys, i4]
    have : (OMap.empty : OMap Bytes Unit).has v = false := rfl
    simp [this, log]

/-- **C34.** Over any history from instantiation no validator/location pair is announced twice, so no listing repeats a
location. And in the state reached, a signed announcement by a 20-byte validator of a pair not yet announced succeeds,
unless the pair and an earlier one are an explicit collision of the hash (mailbox address of at most 32 bytes,
recovered keys non-empty). -/
theorem C34_no_replay (hH : ∀ x, (H x).length = 32) (hR : ∀ h s v p, R h s v = some p → p ≠ [])
    {C : Codec} {valid : Addr → Bool} {mailbox : Addr} {d : UInt32} {raw : Bytes} {s0 : Va.State}
    (h0 : instantiate C valid mailbox (.ok d) = .ok s0) (hraw : bech32Decode C mailbox = .ok raw)
    (hlen : raw.length ≤ 32) (txs : List (List (Tx.Act Va.Call))) :
    let s := (Tx.history (announce H R) s0 txs).1
    let log := (Tx.history (announce H R) s0 txs).2
    (announcements log).Nodup ∧
    (∀ vs p, p ∈ getAnnounce s vs → p.2.Nodup) ∧
    (∀ c, c.validator.length = 20 →
      SignedBy H R (announcementDigest H d (zeros (32 - raw.length) ++ raw) c.location)
        c.signature c.validator →
      (c.validator, c.location) ∉ announcements log →
      (∃ x, announce H R s c = .ok x) ∨
      ∃ p ∈ announcements log, Collision H (p.1 ++ p.2) (c.validator ++ c.location)) := by
  intro s log
  obtain ⟨_, hq, _⟩ := C33_announcements_signed (R := R) hH h0 hraw txs |>.2
  obtain ⟨raw', d', k1, k2, rfl⟩ := va_instantiate_ok h0
  rw [hraw] at k1
  cases k1
  cases k2
  obtain ⟨i1, i2, i3, i4, i5, i6, i7, i8⟩ := va_chain hH (Tx.history_chain (announce H R) _ txs)
  refine ⟨i6, ?_, ?_⟩
  · intro vs p hp
    unfold getAnnounce at hp
    obtain ⟨v, _, rfl⟩ := List.mem_map.1 hp
    simp only
    rw [i3 v]
    simp only [OMap.get_empty, Option.getD_none, List.nil_append]
    have hf := i6.filter (fun p => decide (p.1 = v))
    refine List.Nodup.map_on ?_ hf
    rintro ⟨a, b⟩ ha ⟨a', b'⟩ ha' hb
    have e1 := of_decide_eq_true (List.mem_filter.1 ha).2
    have e2 := of_decide_eq_true (List.mem_filter.1 ha').2
    simp only at e1 e2 hb
    rw [e1, e2, hb]
  · intro c hc hs hn
    by_cases hrep : s.replays.has (H (c.validator ++ c.location)) = true
    · right
      rcases (i5 _).1 hrep with h | ⟨p, hp, he⟩
      · cases h
      · refine ⟨p, hp, ?_, he⟩
        intro hcat
        obtain ⟨e, hel, hpe⟩ := List.mem_map.1 hp
        have hl := (i8 e hel).1
        have hpl : p.1.length = 20 := by rw [← hpe]; exact hl
        obtain ⟨a1, a2⟩ := List.append_inj hcat (by rw [hpl, hc])
        apply hn
        rw [← a1, ← a2]
        exact hp
    · left
      refine ⟨(_, ()), announce_ok.2 ⟨hc, by simpa using hrep, ⟨_, (digest_ok hH).2 ⟨?_, rfl⟩,
        (recoverSigner_ok hH hR).2 ?_⟩, rfl⟩⟩
      · rw [i1]; exact hlen
      · rw [i1, i2]; exact hs

/-- **C35.** If the digests computed for two announcements agree, then domain, padded mailbox address and location agree,
or one of the three named pairs of preimages is a collision of the hash. -/
theorem C35_digest_binding (hH : ∀ x, (H x).length = 32) {d1 d2 : UInt32} {m1 m2 l1 l2 x : Bytes}
    (h1 : digest H d1 m1 l1 = .ok x) (h2 : digest H d2 m2 l2 = .ok x) :
    (d1 = d2 ∧ zeros (32 - m1.length) ++ m1 = zeros (32 - m2.length) ++ m2 ∧ l1 = l2) ∨
    (let tag := ascii "HYPERLANE_ANNOUNCEMENT"
     let p1 := u32be d1 ++ (zeros (32 - m1.length) ++ m1) ++ tag
     let p2 := u32be d2 ++ (zeros (32 - m2.length) ++ m2) ++ tag
     let w := [0x19] ++ ascii "Ethereum Signed Message:" ++ [0x0a] ++ ascii "32"
     Collision H p1 p2 ∨ Collision H (H p1 ++ l1) (H p2 ++ l2) ∨
     Collision H (w ++ H (H p1 ++ l1)) (w ++ H (H p2 ++ l2))) := by
  obtain ⟨k1, e1⟩ := (digest_ok hH).1 h1
  obtain ⟨k2, e2⟩ := (digest_ok hH).1 h2
  rw [e1] at e2
  rcases personalDigest_inj e2 with he | hc
  · rcases eq_or_collision he with he | hc
    · obtain ⟨he, hl⟩ := List.append_inj he (by rw [hH, hH])
      rcases eq_or_collision he with he | hc
      · obtain ⟨he, _⟩ := List.append_inj he (by simp; omega)
        obtain ⟨hd, hm⟩ := List.append_inj he (by simp)
        exact .inl ⟨u32be_inj hd, hm, hl⟩
      · exact .inr (.inl hc)
    · exact .inr (.inr (.inl hc))
  · exact .inr (.inr (.inr hc))

/-- Addresses of the same length are told apart. -/
theorem C35_mailbox_of_padded {m1 m2 : Bytes} (hl : m1.length = m2.length)
    (h : zeros (32 - m1.length) ++ m1 = zeros (32 - m2.length) ++ m2) : m1 = m2 := by
  rw [hl] at h
  exact List.append_cancel_left h

end

/-! Concrete cases: a toy recovery function under which the 65-byte signature `x ‖ 27` recovers to the key
`4 ‖ x`. Three announcements are tried, the second is a replay. -/

/-- Recovery that answers the signature itself, after a format byte. -/
def Ex.recover : Recover := fun _ sig _ => some (4 :: sig)

def Ex.vaSig (x : UInt8) : Bytes := List.replicate 64 x ++ [27]

def Ex.vaValidator (x : UInt8) : Bytes := (toyHash (List.replicate 64 x)).drop 12

def Ex.vaCall (x : UInt8) (l : Bytes) : Va.Call := ⟨Ex.alice, Ex.vaValidator x, l, Ex.vaSig x⟩

def Ex.vaTxs : List (List (Tx.Act Va.Call)) :=
  [[.call (Ex.vaCall 1 [5]) []], [.call (Ex.vaCall 1 [5]) []], [.call (Ex.vaCall 1 [6]) []],
   [.call (Ex.vaCall 2 [5]) []]]

def Ex.vaS0 : Va.State := ⟨Ex.aliceRaw, 7, OMap.empty, OMap.empty, OMap.empty⟩

theorem Ex.vaS0_fresh : Va.instantiate Bech.codec (fun _ => true) Ex.alice (.ok 7) = .ok Ex.vaS0 := by
  have : bech32Decode Bech.codec Ex.alice = .ok Ex.aliceRaw := by decide +kernel
  unfold Va.instantiate
  rw [this]
  rfl

example : bech32Decode Bech.codec Ex.alice = .ok Ex.aliceRaw ∧ Ex.aliceRaw.length ≤ 32 ∧
    (∀ h s v p, Ex.recover h s v = some p → p ≠ []) := by
  refine ⟨by decide +kernel, by decide, ?_⟩
  intro h s v p hp
  cases hp
  simp

/-- Three of the four commit. -/
example : announcements (Tx.history (announce toyHash Ex.recover) Ex.vaS0 Ex.vaTxs).2 =
    [(Ex.vaValidator 1, [5]), (Ex.vaValidator 1, [6]), (Ex.vaValidator 2, [5])] := by decide +kernel

/-- The codec, hash and length hypotheses hold for keccak-256. -/
example : (∀ x, (Keccak.keccak256 x).length = 32) ∧ (∀ x, (toyHash x).length = 32) :=
  ⟨length_keccak256, toyHash_length⟩

example : ∃ x, digest toyHash 7 Ex.aliceRaw [5] = .ok x :=
  ⟨_, (digest_ok toyHash_length).2 ⟨by decide, rfl⟩⟩

end Hpl
