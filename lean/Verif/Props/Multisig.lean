import Verif.Lemmas.Multisig
import Verif.Props.Message
import Verif.Props.Packages
import Verif.Props.Va

/-! # Multisig ISM: C36 - C39 -/

namespace Hpl

open Multisig Spec

/-- The multisig contract after instantiation with owner `o0` and a history of calls. -/
def multisigAfter (o0 : Addr) (h : List (OwnedCall Multisig.Msg)) : Ownable.State × Multisig.State :=
  run Multisig.step (Ownable.init o0, Multisig.init) h

theorem multisig_handle_ok {valid : Addr → Bool} {own : Ownable.State} {s s' : Multisig.State}
    {sender : Addr} {m : Multisig.Msg} (h : Multisig.handle valid own s sender m = .ok s') :
    own.owner = some sender ∧
    ((∃ d t vs, m = .setValidators d t vs ∧ (∀ v ∈ vs, v.length = 20) ∧ t.toNat ≤ vs.length ∧
        1 ≤ t.toNat ∧ s' = ⟨s.validators.insert d vs, s.threshold.insert d t⟩) ∨
     (∃ d, m = .unsetDomain d ∧ s' = ⟨s.validators.erase d, s.threshold.erase d⟩)) := by
  cases m with
  | setValidators d t vs =>
    unfold Multisig.handle at h
    obtain ⟨o, h1, h⟩ := bind_eq_ok.1 h
    obtain ⟨_, h2, h⟩ := bind_eq_ok.1 h
    obtain ⟨_, h3, h⟩ := bind_eq_ok.1 h
    obtain ⟨_, h4, hf⟩ := bind_eq_ok.1 h
    have h2 := of_decide_eq_true (ensure_eq_ok.1 h2)
    have h3 := ensure_eq_ok.1 h3
    have h4 := ensure_eq_ok.1 h4
    simp only [List.all_eq_true, decide_eq_true_eq] at h3
    simp only [Bool.and_eq_true, decide_eq_true_eq] at h4
    simp only [pure_eq_ok, Except.ok.injEq] at hf
    refine ⟨by rw [h2]; exact Ownable.getOwner_eq_ok.1 h1, .inl ⟨d, t, vs, rfl, h3, h4.1, h4.2, hf.symm⟩⟩
  | unsetDomain d =>
    unfold Multisig.handle at h
    obtain ⟨o, h1, h⟩ := bind_eq_ok.1 h
    obtain ⟨_, h2, hf⟩ := bind_eq_ok.1 h
    have h2 := of_decide_eq_true (ensure_eq_ok.1 h2)
    simp only [pure_eq_ok, Except.ok.injEq] at hf
    exact ⟨by rw [h2]; exact Ownable.getOwner_eq_ok.1 h1, .inr ⟨d, rfl, hf.symm⟩⟩

/-- Configuration invariant of reachable states. -/
theorem multisig_inv (o0 : Addr) (h : List (OwnedCall Multisig.Msg)) (d : UInt32) :
    ((multisigAfter o0 h).2.validators.get d = none ∧ (multisigAfter o0 h).2.threshold.get d = none) ∨
    ∃ vs t, (multisigAfter o0 h).2.validators.get d = some vs ∧
      (multisigAfter o0 h).2.threshold.get d = some t ∧ 1 ≤ t.toNat ∧ t.toNat ≤ vs.length ∧
      ∀ v ∈ vs, v.length = 20 := by
  refine run_invariant (step := Multisig.step) (fun st : Ownable.State × Multisig.State =>
    ((st.2.validators.get d = none ∧ st.2.threshold.get d = none) ∨
    ∃ vs t, st.2.validators.get d = some vs ∧
      st.2.threshold.get d = some t ∧ 1 ≤ t.toNat ∧ t.toNat ≤ vs.length ∧
      ∀ v ∈ vs, v.length = 20)) ?_ _ _ (.inl ⟨rfl, rfl⟩)
  intro s c s' hs hstep
  rcases ownedStep_ok _ hstep with ⟨m, _, _, he⟩ | ⟨m, _, hm, _⟩
  · rw [he]; exact hs
  · obtain ⟨_, ⟨d', t, vs, _, k1, k2, k3, he⟩ | ⟨d', _, he⟩⟩ := multisig_handle_ok hm
    · rw [he]
      simp only [OMap.get_insert]
      by_cases hd : d = d'
      · subst hd
        exact .inr ⟨vs, t, by simp, by simp, k3, k2, k1⟩
      · simpa [hd] using hs
    · rw [he]
      simp only [OMap.get_erase]
      by_cases hd : d = d'
      · exact .inl (by simp [hd])
      · simpa [hd] using hs

theorem enrolled_ok {s : Multisig.State} {d : UInt32} {vs : List Bytes} {t : UInt8} :
    enrolled s d = .ok (vs, t) ↔ s.validators.get d = some vs ∧ s.threshold.get d = some t := by
  unfold enrolled
  constructor
  · intro h
    obtain ⟨v', h1, h⟩ := bind_eq_ok.1 h
    obtain ⟨t', h2, h⟩ := bind_eq_ok.1 h
    cases h
    exact ⟨load_ok.1 h1, load_ok.1 h2⟩
  · rintro ⟨h1, h2⟩
    rw [load_ok.2 h1, load_ok.2 h2]
    rfl

section

variable {H : Bytes → Bytes} {R : Recover}

/-- **C36.** In any reachable state: if verification answers true, the message bytes are a message `m`, the enrolment
query for its origin answers validators `vs` and threshold `t`, `t` is at least one, and there are `t` pairwise
different members of `vs`, each of which signed (with a signature contained in the metadata) the checkpoint digest of
this origin, of the tree, root and index in the metadata, and of this message's id. -/
theorem C36_quorum_sound (hH : ∀ x, (H x).length = 32) (o0 : Addr)
    (h : List (OwnedCall Multisig.Msg)) {metadata message : Bytes}
    (hv : verify H R (multisigAfter o0 h).2 metadata message = .ok true) :
    ∃ m vs t q, WireFormat m message ∧ enrolled (multisigAfter o0 h).2 m.origin = .ok (vs, t) ∧
      1 ≤ t.toNat ∧ q.length = t.toNat ∧
      Quorum H R (digestFor H m.origin metadata message) (SignatureIn metadata) vs q := by
  obtain ⟨hl, m, vs, t, r, h1, h2, h3, h4, h5⟩ := (verify_ok hH).1 hv
  have hr : r = 0 := of_decide_eq_true h5.symm
  rcases multisig_inv o0 h m.origin with ⟨hn, _⟩ | ⟨vs', t', k1, k2, k3, _⟩
  · rw [hn] at h2; cases h2
  · rw [k1] at h2; cases h2
    rw [k2] at h3; cases h3
    obtain ⟨q, q1, _, q3, q4⟩ := loop_sound hH (u8_ne_zero.2 k3) h4
    refine ⟨m, vs, t, q, wireFormat_of_decode h1, enrolled_ok.2 ⟨k1, k2⟩, k3, ?_, q1, ?_⟩
    · rw [hr] at q3; simpa using q3
    · intro a ha
      obtain ⟨a1, s, hs, a2⟩ := q4 a ha
      exact ⟨a1, s, mem_chunks.1 hs, a2⟩

/-- **C37.** In any reachable state, for a message from an enrolled domain and metadata of at least 68 bytes whose
signatures are all recoverable: verification answers without error, and it answers true exactly when some `q` of at
least threshold many different enrolled validators signed. (Which signatures come first, are repeated or stem from
outsiders does not matter, as the right-hand side does not mention order or number.) -/
theorem C37_quorum_complete (hH : ∀ x, (H x).length = 32)
    (hR : ∀ h s v p, R h s v = some p → p ≠ []) (o0 : Addr) (h : List (OwnedCall Multisig.Msg))
    {m : Message} {metadata message : Bytes} {vs : List Bytes} {t : UInt8}
    (hm : WireFormat m message) (he : enrolled (multisigAfter o0 h).2 m.origin = .ok (vs, t))
    (hl : 68 ≤ metadata.length)
    (hrec : ∀ sig, SignatureIn metadata sig →
      ∃ a, SignedBy H R (digestFor H m.origin metadata message) sig a) :
    ∃ b, verify H R (multisigAfter o0 h).2 metadata message = .ok b ∧
      (b = true ↔ ∃ q, t.toNat ≤ q.length ∧
        Quorum H R (digestFor H m.origin metadata message) (SignatureIn metadata) vs q) := by
  obtain ⟨k1, k2⟩ := enrolled_ok.1 he
  have ht : t ≠ 0 := by
    rcases multisig_inv o0 h m.origin with ⟨hn, _⟩ | ⟨vs', t', e1, e2, e3, _⟩
    · rw [hn] at k1; cases k1
    · rw [e2] at k2; cases k2
      exact u8_ne_zero.2 e3
  have hdec := decode_of_wireFormat hm
  have hrec' : ∀ sig ∈ chunksExact 65 (metadata.drop 68), ∃ a,
      SignedBy H R (digestFor H m.origin metadata message) sig a :=
    fun s hs => hrec s (mem_chunks.1 hs)
  obtain ⟨r, hr⟩ := loop_total (vals := vs) (matched := []) hH hR ht hrec'
  refine ⟨decide (r = 0), (verify_ok hH).2 ⟨hl, m, vs, t, r, hdec, k1, k2, hr, rfl⟩, ?_⟩
  rw [decide_eq_true_eq]
  constructor
  · intro hz
    obtain ⟨q, q1, _, q3, q4⟩ := loop_sound hH ht hr
    refine ⟨q, by rw [hz] at q3; simp at q3; omega, q1, ?_⟩
    intro a ha
    obtain ⟨a1, s, hs, a2⟩ := q4 a ha
    exact ⟨a1, s, mem_chunks.1 hs, a2⟩
  · rintro ⟨q, q3, q1, q4⟩
    have := loop_complete (vals := vs) (matched := []) hH hR ht hrec' q1 (by simp) q3 (fun a ha => by
      obtain ⟨a1, s, hs, a2⟩ := q4 a ha
      exact ⟨a1, s, mem_chunks.2 hs, a2⟩) []
    rw [List.append_nil, hr] at this
    cases this
    rfl

/-- **C37** (signatures after a quorum). If the signatures are `pre ++ post`, all of `pre` recoverable and a quorum
signed within `pre`, verification answers true whatever `post` is, even if it is not recoverable. -/
theorem C37_quorum_prefix (hH : ∀ x, (H x).length = 32)
    (hR : ∀ h s v p, R h s v = some p → p ≠ []) (o0 : Addr) (h : List (OwnedCall Multisig.Msg))
    {m : Message} {metadata message head : Bytes} {pre post : List Bytes} {vs q : List Bytes}
    {t : UInt8} (hm : WireFormat m message)
    (he : enrolled (multisigAfter o0 h).2 m.origin = .ok (vs, t))
    (hhead : head.length = 68) (hmd : metadata = head ++ (pre ++ post).flatten)
    (hlen : ∀ s ∈ pre ++ post, s.length = 65)
    (hrec : ∀ sig ∈ pre, ∃ a, SignedBy H R (digestFor H m.origin metadata message) sig a)
    (hq : t.toNat ≤ q.length)
    (hquo : Quorum H R (digestFor H m.origin metadata message) (· ∈ pre) vs q) :
    verify H R (multisigAfter o0 h).2 metadata message = .ok true := by
  obtain ⟨k1, k2⟩ := enrolled_ok.1 he
  have ht : t ≠ 0 := by
    rcases multisig_inv o0 h m.origin with ⟨hn, _⟩ | ⟨vs', t', e1, e2, e3, _⟩
    · rw [hn] at k1; cases k1
    · rw [e2] at k2; cases k2
      exact u8_ne_zero.2 e3
  have hch : chunksExact 65 (metadata.drop 68) = pre ++ post := by
    rw [hmd, List.drop_append, List.drop_eq_nil_of_le (by omega), hhead]
    simp only [Nat.sub_self, List.drop_zero, List.nil_append]
    exact chunksExact_flatten (by decide) _ hlen
  have := loop_complete (vals := vs) (matched := []) hH hR ht hrec hquo.1 (by simp) hq hquo.2 post
  exact (verify_ok hH).2 ⟨by rw [hmd, List.length_append]; omega, m, vs, t, 0,
    decode_of_wireFormat hm, k1, k2, by rw [hch]; exact this, rfl⟩

/-! ## Configuration -/

/-- **C38**, last part, as claimed: in every reachable state there are enough different validators to reach the
threshold. -/
def C38_full : Prop := ∀ (o0 : Addr) (h : List (OwnedCall Multisig.Msg)) (d : UInt32)
    (vs : List Bytes) (t : UInt8), enrolled (multisigAfter o0 h).2 d = .ok (vs, t) →
    ∃ q : List Bytes, q.Nodup ∧ (∀ a ∈ q, a ∈ vs) ∧ t.toNat ≤ q.length

/-- The owner enrolling one validator twice with threshold two. -/
def Ex.dupValidators : List (OwnedCall Multisig.Msg) :=
  [⟨fun _ => true, "owner", .inr (.setValidators 1 2 [zeros 20, zeros 20])⟩]

theorem Ex.dup_enrolled : enrolled (multisigAfter "owner" Ex.dupValidators).2 1 =
    .ok ([zeros 20, zeros 20], 2) := by decide +kernel

/-- The claim fails: a list with a repeated validator is accepted. -/
theorem C38_full_refuted : ¬ C38_full := by
  intro h
  obtain ⟨q, q1, q2, q3⟩ := h "owner" Ex.dupValidators 1 _ _ Ex.dup_enrolled
  match q, q1, q2, q3 with
  | a :: b :: _, q1, q2, _ =>
    have ha := q2 a (by simp)
    have hb := q2 b (by simp)
    simp only [List.mem_cons, List.not_mem_nil, or_false, or_self] at ha hb
    rw [ha, hb] at q1
    simp at q1
  | [], _, _, q3 => simp at q3
  | [_], _, _, q3 => simp at q3

/-- In that state no metadata whatever makes any message from the domain pass. -/
theorem C38_unattainable (hH : ∀ x, (H x).length = 32) {m : Message} {metadata message : Bytes}
    (hm : WireFormat m message) (ho : m.origin = 1) :
    verify H R (multisigAfter "owner" Ex.dupValidators).2 metadata message ≠ .ok true := by
  intro hv
  obtain ⟨m', vs, t, q, w, e, _, ql, q1, q2⟩ := C36_quorum_sound hH _ _ hv
  have : m' = m := by
    have h1 := decode_of_wireFormat w
    rw [decode_of_wireFormat hm] at h1
    cases h1
    rfl
  subst this
  rw [ho, Ex.dup_enrolled] at e
  cases e
  match q, q1, q2, ql with
  | a :: b :: _, q1, q2, _ =>
    have ha := (q2 a (by simp)).1
    have hb := (q2 b (by simp)).1
    simp only [List.mem_cons, List.not_mem_nil, or_false, or_self] at ha hb
    rw [ha, hb] at q1
    simp at q1
  | [], _, _, q3 => simp at q3
  | [_], _, _, q3 => simp at q3

end

/-- **C38** (what does hold). After any history: for each domain either validators and threshold are both set, the
threshold is between one and the number of listed validators and every validator is 20 bytes, or neither is set. One
further call changes a domain's enrolment only if its sender is the owner and it sets exactly this domain (which then
has exactly the given values) or unsets it. A quorum is attainable if the list has no repetition. Missing: lists with
repetition, for which the claim is false. -/
theorem C38_config_partial (o0 : Addr) (h : List (OwnedCall Multisig.Msg)) (d : UInt32) :
    ((∃ vs t, enrolled (multisigAfter o0 h).2 d = .ok (vs, t) ∧ 1 ≤ t.toNat ∧
        t.toNat ≤ vs.length ∧ (∀ v ∈ vs, v.length = 20) ∧
        (vs.Nodup → ∃ q : List Bytes, q.Nodup ∧ (∀ a ∈ q, a ∈ vs) ∧ t.toNat ≤ q.length)) ∨
     ((multisigAfter o0 h).2.validators.get d = none ∧
        (multisigAfter o0 h).2.threshold.get d = none)) ∧
    (∀ c, enrolled (multisigAfter o0 (h ++ [c])).2 d ≠ enrolled (multisigAfter o0 h).2 d →
      (multisigAfter o0 h).1.owner = some c.sender ∧
      ((∃ t vs, c.msg = .inr (.setValidators d t vs) ∧
          enrolled (multisigAfter o0 (h ++ [c])).2 d = .ok (vs, t)) ∨
       (c.msg = .inr (.unsetDomain d) ∧
          ∃ e, enrolled (multisigAfter o0 (h ++ [c])).2 d = .error e))) := by
  refine ⟨?_, ?_⟩
  · rcases multisig_inv o0 h d with hn | ⟨vs, t, e1, e2, e3, e4, e5⟩
    · exact .inr hn
    · exact .inl ⟨vs, t, enrolled_ok.2 ⟨e1, e2⟩, e3, e4, e5, fun hd => ⟨vs, hd, fun a ha => ha, e4⟩⟩
  · intro c hne
    have hsn : multisigAfter o0 (h ++ [c]) = applyCall Multisig.step (multisigAfter o0 h) c :=
      run_snoc _ _ _ _
    rcases applyCall_cases Multisig.step (multisigAfter o0 h) c with ⟨e, _, he⟩ | ⟨s', hs, he⟩
    · rw [hsn, he] at hne; exact absurd rfl hne
    · rw [hsn, he] at hne ⊢
      rcases ownedStep_ok _ hs with ⟨m, _, _, hq⟩ | ⟨m, hcm, hm, _⟩
      · rw [hq] at hne; exact absurd rfl hne
      · obtain ⟨ho, ⟨d', t, vs, rfl, k1, k2, k3, hq⟩ | ⟨d', rfl, hq⟩⟩ := multisig_handle_ok hm
        · refine ⟨ho, .inl ?_⟩
          by_cases hd : d = d'
          · subst hd
            exact ⟨t, vs, hcm, enrolled_ok.2 (by rw [hq]; simp)⟩
          · rw [hq] at hne
            unfold enrolled load at hne
            simp only [OMap.get_insert_ne _ _ hd] at hne
            exact absurd rfl hne
        · refine ⟨ho, .inr ?_⟩
          by_cases hd : d = d'
          · subst hd
            refine ⟨hcm, ?_⟩
            rw [hq]
            unfold enrolled load
            simp [OMap.get_erase]
          · rw [hq] at hne
            unfold enrolled load at hne
            simp only [OMap.get_erase, hd, if_false] at hne
            exact absurd rfl hne

/-! ## Digest -/

section

variable {H : Bytes → Bytes}

/-- **C39.** If the checkpoint digests the code computes for two sets of 32-byte tree address, 32-byte root, index and
32-byte id agree, then origin, tree, root, index and id all agree, or one of the three named pairs of preimages is a
collision of the hash. -/
theorem C39_digest_binding (hH : ∀ x, (H x).length = 32) {o1 o2 i1 i2 : UInt32}
    {t1 t2 r1 r2 d1 d2 : Bytes} (ht1 : t1.length = 32) (ht2 : t2.length = 32)
    (hr1 : r1.length = 32) (hr2 : r2.length = 32)
    (h : ethHash H (multisigHash H (domainHash H o1 t1) r1 i1 d1) =
      ethHash H (multisigHash H (domainHash H o2 t2) r2 i2 d2)) :
    (o1 = o2 ∧ t1 = t2 ∧ r1 = r2 ∧ i1 = i2 ∧ d1 = d2) ∨
    (let p1 := u32be o1 ++ t1 ++ ascii "HYPERLANE"
     let p2 := u32be o2 ++ t2 ++ ascii "HYPERLANE"
     let q1 := H p1 ++ r1 ++ u32be i1 ++ d1
     let q2 := H p2 ++ r2 ++ u32be i2 ++ d2
     let w := [0x19] ++ ascii "Ethereum Signed Message:" ++ [0x0a] ++ ascii "32"
     Collision H p1 p2 ∨ Collision H q1 q2 ∨ Collision H (w ++ H q1) (w ++ H q2)) := by
  unfold multisigHash domainHash at h
  rw [ethHash_32 (hH _), ethHash_32 (hH _)] at h
  rcases personalDigest_inj h with he | hc
  · rcases eq_or_collision he with he | hc
    · obtain ⟨he, hd⟩ := List.append_inj he (by simp [hH, hr1, hr2])
      obtain ⟨he, hi⟩ := List.append_inj he (by simp [hH, hr1, hr2])
      obtain ⟨he, hr⟩ := List.append_inj he (by simp [hH])
      rcases eq_or_collision he with he | hc
      · obtain ⟨he, _⟩ := List.append_inj he (by simp [ht1, ht2])
        obtain ⟨ho, ht⟩ := List.append_inj he (by simp)
        exact .inl ⟨u32be_inj ho, ht, hr, u32be_inj hi, hd⟩
      · exact .inr (.inl hc)
    · exact .inr (.inr (.inl hc))
  · exact .inr (.inr (.inr hc))

/-- **C39** (messages). If the digests under which two messages are checked agree, the two messages are the same bytes
from the same origin with metadata of the same first 68 bytes, or the two messages, or two of the strings hashed on the
way to the digests, are a collision of the hash. -/
theorem C39_no_reuse (hH : ∀ x, (H x).length = 32) {o1 o2 : UInt32} {md1 md2 m1 m2 : Bytes}
    (h1 : 68 ≤ md1.length) (h2 : 68 ≤ md2.length)
    (h : digestFor H o1 md1 m1 = digestFor H o2 md2 m2) :
    (o1 = o2 ∧ md1.take 68 = md2.take 68 ∧ m1 = m2) ∨ Collision H m1 m2 ∨
    ∃ x ∈ checkpointInputs H o1 (md1.take 32) ((md1.drop 32).take 32) (ofU32be ((md1.drop 64).take 4)) (H m1),
    ∃ y ∈ checkpointInputs H o2 (md2.take 32) ((md2.drop 32).take 32) (ofU32be ((md2.drop 64).take 4)) (H m2),
      Collision H x y := by
  unfold digestFor checkpointDigest at h
  rcases C39_digest_binding (H := H) hH (o1 := o1) (o2 := o2) (t1 := md1.take 32) (t2 := md2.take 32)
    (r1 := (md1.drop 32).take 32) (r2 := (md2.drop 32).take 32)
    (i1 := ofU32be ((md1.drop 64).take 4)) (i2 := ofU32be ((md2.drop 64).take 4)) (d1 := H m1)
    (d2 := H m2) (by simp; omega) (by simp; omega) (by simp; omega) (by simp; omega)
    (by unfold multisigHash domainHash; rw [ethHash_32 (hH _), ethHash_32 (hH _)]; exact h) with ⟨ho, ht, hr, hi, hd⟩ | hc
  · rcases eq_or_collision hd with hd | hd
    · refine .inl ⟨ho, ?_, hd⟩
      have hi' : (md1.drop 64).take 4 = (md2.drop 64).take 4 := by
        rw [← u32be_ofU32be (b := (md1.drop 64).take 4) (by simp; omega), hi,
          u32be_ofU32be (by simp; omega)]
      have split : ∀ v : Bytes, v.take 68 = v.take 32 ++ ((v.drop 32).take 32 ++ (v.drop 64).take 4) := by
        intro v
        rw [show 68 = 32 + (32 + 4) from rfl, List.take_add, List.take_add, List.drop_drop]
      rw [split, split, ht, hr, hi']
    · exact .inr (.inl hd)
  · rcases hc with hc | hc | hc
    · exact .inr (.inr ⟨_, .head _, _, .head _, hc⟩)
    · exact .inr (.inr ⟨_, .tail _ (.head _), _, .tail _ (.head _), hc⟩)
    · exact .inr (.inr ⟨_, .tail _ (.tail _ (.head _)), _, .tail _ (.tail _ (.head _)), hc⟩)

end

/-! Concrete cases: three enrolled validators with threshold two, with the toy recovery of `Verif/Props/Va.lean`.
Metadata with a repeated signature, an outsider's and a second validator's is accepted, with the repeat alone not. -/

def Ex.msEnrol : List (OwnedCall Multisig.Msg) :=
  [⟨fun _ => true, "owner", .inr (.setValidators 1 2 [Ex.vaValidator 1, Ex.vaValidator 2, Ex.vaValidator 3])⟩]

def Ex.msMeta (sigs : List UInt8) : Bytes := List.replicate 68 9 ++ (sigs.map Ex.vaSig).flatten

example : verify toyHash Ex.recover (multisigAfter "owner" Ex.msEnrol).2 (Ex.msMeta [1, 1, 7, 3])
    Ex.message.encode = .ok true := by decide +kernel

example : verify toyHash Ex.recover (multisigAfter "owner" Ex.msEnrol).2 (Ex.msMeta [1, 1, 7])
    Ex.message.encode = .ok false := by decide +kernel

/-- Every signature is recoverable under the toy recovery, and its keys are not empty. -/
example : (∀ d sig, sig.length = 65 → sig[64]? = some 27 →
      ∃ a, SignedBy toyHash Ex.recover d sig a) ∧
    (∀ h s v p, Ex.recover h s v = some p → p ≠ []) := by
  refine ⟨?_, ?_⟩
  · intro d sig h1 h2
    exact ⟨_, 27, 0, 4 :: sig.take 64, by omega, h2, rfl, rfl, rfl, by simp [toyHash_length]⟩
  · intro h s v p hp
    cases hp
    simp

example : WireFormat Ex.message Ex.message.encode ∧ Ex.message.origin = 1 :=
  ⟨(C01_message_layout _ rfl rfl _).1 rfl, rfl⟩

example : enrolled (multisigAfter "owner" Ex.msEnrol).2 1 =
    .ok ([Ex.vaValidator 1, Ex.vaValidator 2, Ex.vaValidator 3], 2) := by decide +kernel

end Hpl
