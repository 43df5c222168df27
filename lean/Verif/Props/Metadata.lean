import Verif.Lemmas.Metadata
import Verif.Model.WarpMessage

/-! # C03 - C07: payload and metadata formats -/

namespace Hpl

/-! ## C03 -/

/-- C03. Warp payloads round-trip in both directions; input shorter than 64 bytes aborts. The encoder writes
recipient (32 bytes), then the amount as 32 big-endian bytes, then the metadata. -/
theorem C03_warp_payload_roundtrip :
    (∀ m : WarpMessage, m.recipient.length = 32 → m.amount < 2 ^ 256 →
      WarpMessage.decode m.encode = .ok m ∧
      m.encode.take 32 = m.recipient ∧ fromBE ((m.encode.drop 32).take 32) = m.amount ∧
      m.encode.drop 64 = m.metadata) ∧
    (∀ v : Bytes, 64 ≤ v.length → ∃ m, WarpMessage.decode v = .ok m ∧ m.encode = v ∧
      m.recipient.length = 32 ∧ m.amount < 2 ^ 256) ∧
    (∀ v : Bytes, v.length < 64 → ∃ t, WarpMessage.decode v = .error (.panic t)) := by
  refine ⟨?_, ?_, ?_⟩
  · intro m hr ha
    have hl : m.encode.length = 64 + m.metadata.length := by simp [WarpMessage.encode, hr]; omega
    have e1 : m.encode.take 32 = m.recipient := by
      simp [WarpMessage.encode, ← hr]
    have e2 : (m.encode.drop 32).take 32 = u256be m.amount := by
      exact drop_take_append _ _ _ _ _ hr (by simp)
    have e3 : m.encode.drop 64 = m.metadata := by
      rw [WarpMessage.encode, ← List.append_assoc, List.drop_append,
        List.drop_eq_nil_of_le (by simp [hr])]
      simp [hr]
    have e4 : fromBE ((m.encode.drop 32).take 32) = m.amount := by rw [e2, fromBE_u256be ha]
    refine ⟨?_, e1, e4, e3⟩
    unfold WarpMessage.decode
    rw [slice_ok (by decide) (by omega), slice_ok (by decide) (by omega), sliceFrom_ok (by omega)]
    simp only [ok_bind, pure_eq_ok]
    have e1' : (m.encode.drop 0).take (32 - 0) = m.recipient := e1
    rw [e1', e3, show (64 - 32 : Nat) = 32 from rfl, e4]
  · intro v h
    have hl32 : ((v.drop 32).take (64 - 32)).length = 32 := by simp; omega
    refine ⟨⟨(v.drop 0).take (32 - 0), fromBE ((v.drop 32).take (64 - 32)), v.drop 64⟩, ?_, ?_, ?_, ?_⟩
    · unfold WarpMessage.decode
      rw [slice_ok (by decide) (by omega), slice_ok (by decide) (by omega),
        sliceFrom_ok (by omega)]
      rfl
    · simp only [WarpMessage.encode]
      rw [u256be_fromBE hl32, take_slice_append_drop v (by decide),
        take_slice_append_drop v (by decide)]
      rfl
    · simp; omega
    · exact fromBE_lt_256 hl32
  · intro v h
    unfold WarpMessage.decode slice sliceFrom
    split
    · simp only [ok_bind]
      split
      · omega
      · exact ⟨_, rfl⟩
    · exact ⟨_, rfl⟩

example : WarpMessage.decode (WarpMessage.encode ⟨List.replicate 32 7, 1000000, [1, 2]⟩) =
    .ok ⟨List.replicate 32 7, 1000000, [1, 2]⟩ := by decide +kernel

/-! ## C04 -/

/-- C04. Message-id multisig metadata. -/
theorem C04_message_id_metadata :
    (∀ m : MessageIdMeta, m.originMerkleTree.length = 32 → m.merkleRoot.length = 32 →
      m.merkleIndex.length = 4 → (∀ s ∈ m.signatures, s.length = 65) →
      ∃ v, m.encode = .ok v ∧ MessageIdMeta.decode v = .ok m ∧
        v.length = 68 + 65 * m.signatures.length) ∧
    (∀ v : Bytes, 68 ≤ v.length → ∃ m tail, MessageIdMeta.decode v = .ok m ∧
      (∀ s ∈ m.signatures, s.length = 65) ∧ tail.length < 65 ∧
      m.originMerkleTree = v.take 32 ∧ m.merkleRoot = (v.drop 32).take 32 ∧
      m.merkleIndex = (v.drop 64).take 4 ∧
      (∃ i, m.index = .ok i ∧ i.toNat = fromBE ((v.drop 64).take 4)) ∧
      v = m.originMerkleTree ++ m.merkleRoot ++ m.merkleIndex ++ m.signatures.flatten ++ tail) ∧
    (∀ v : Bytes, v.length < 68 → ∃ t, MessageIdMeta.decode v = .error (.panic t)) := by
  refine ⟨?_, ?_, ?_⟩
  · intro m h1 h2 h3 h4
    refine ⟨m.originMerkleTree ++ (m.merkleRoot ++ (m.merkleIndex ++ m.signatures.flatten)), ?_, ?_, ?_⟩
    · unfold MessageIdMeta.encode; rw [padLeft32_32 h1]; rfl
    · unfold MessageIdMeta.decode
      rw [slice_ok (by decide) (by simp; omega), slice_ok (by decide) (by simp; omega),
        slice_ok (by decide) (by simp; omega), sliceFrom_ok (by simp; omega)]
      simp only [ok_bind, pure_eq_ok]
      have a1 : ∀ r : Bytes, ((m.originMerkleTree ++ r).drop 0).take (32 - 0) =
          m.originMerkleTree := by intro r; simp [← h1]
      have a2 : ∀ r : Bytes, ((m.originMerkleTree ++ (m.merkleRoot ++ r)).drop 32).take (64 - 32) =
          m.merkleRoot := fun r => drop_take_append _ _ _ _ _ h1 h2
      have a3 : ∀ r : Bytes, ((m.originMerkleTree ++ (m.merkleRoot ++ (m.merkleIndex ++ r))).drop
          64).take (68 - 64) = m.merkleIndex := by
        intro r
        rw [← List.append_assoc]
        exact drop_take_append _ _ _ _ _ (by simp [h1, h2]) h3
      have a4 : ∀ r : Bytes, (m.originMerkleTree ++ (m.merkleRoot ++ (m.merkleIndex ++ r))).drop
          68 = r := by
        intro r
        rw [← List.append_assoc, ← List.append_assoc, List.drop_append,
          List.drop_eq_nil_of_le (by simp [h1, h2, h3])]
        simp [h1, h2, h3]
      rw [a1, a2, a3, a4, sigLen, chunksExact_flatten (by decide) _ h4]
    · have : ∀ l : List Bytes, (∀ s ∈ l, s.length = 65) → l.flatten.length = 65 * l.length := by
        intro l hl
        induction l with
        | nil => rfl
        | cons a t ih =>
          rw [List.flatten_cons, List.length_append, hl a (by simp), ih (fun s hs => hl s
            (List.mem_cons_of_mem _ hs)), List.length_cons]; omega
      simp only [List.length_append, h1, h2, h3, this _ h4]; omega
  · intro v h
    obtain ⟨tail, t1, t2⟩ := chunksExact_flatten_tail (n := 65) (by decide) (v.drop 68)
    refine ⟨⟨(v.drop 0).take (32 - 0), (v.drop 32).take (64 - 32), (v.drop 64).take (68 - 64),
      chunksExact 65 (v.drop 68)⟩, tail, ?_, ?_, t2, rfl, rfl, rfl, ⟨ofU32be ((v.drop 64).take 4), ?_, ?_⟩, ?_⟩
    · unfold MessageIdMeta.decode
      rw [slice_ok (by decide) (by omega), slice_ok (by decide) (by omega),
        slice_ok (by decide) (by omega), sliceFrom_ok (by omega)]
      rfl
    · intro s hs; exact chunksExact_mem_length hs
    · unfold MessageIdMeta.index
      rw [if_pos (by simp; omega)]
    · exact toNat_ofU32be (by simp; omega)
    · simp only [List.append_assoc]
      rw [← t1, take_slice_append_drop v (by decide), take_slice_append_drop v (by decide),
        take_slice_append_drop v (by decide)]
      rfl
  · intro v h
    unfold MessageIdMeta.decode sliceFrom
    rw [if_neg (by omega)]
    exact ⟨_, rfl⟩

/-- C04 (short tree address). A tree address shorter than 32 bytes is transmitted left padded. -/
theorem C04_short_tree_padded (m : MessageIdMeta) (h1 : m.originMerkleTree.length ≤ 32)
    (h2 : m.merkleRoot.length = 32) (h3 : m.merkleIndex.length = 4)
    (h4 : ∀ s ∈ m.signatures, s.length = 65) :
    ∃ v, m.encode = .ok v ∧ MessageIdMeta.decode v = .ok { m with
      originMerkleTree := List.replicate (32 - m.originMerkleTree.length) 0 ++ m.originMerkleTree } := by
  have hp : (List.replicate (32 - m.originMerkleTree.length) (0 : UInt8) ++
      m.originMerkleTree).length = 32 := by simp; omega
  obtain ⟨v, hv, hd, _⟩ := C04_message_id_metadata.1 { m with
      originMerkleTree := List.replicate (32 - m.originMerkleTree.length) 0 ++
        m.originMerkleTree } hp h2 h3 h4
  refine ⟨v, ?_, hd⟩
  rw [← hv]
  unfold MessageIdMeta.encode
  rw [padLeft32_32 hp, padLeft32_ok h1]
  rfl

example : ∃ m : MessageIdMeta, m.originMerkleTree.length = 32 ∧ m.merkleRoot.length = 32 ∧
    m.merkleIndex.length = 4 ∧ m.signatures.length = 2 ∧ (∀ s ∈ m.signatures, s.length = 65) :=
  ⟨⟨List.replicate 32 1, List.replicate 32 2, [0, 0, 0, 9],
    [List.replicate 65 3, List.replicate 65 4]⟩, by decide, by decide, by decide, by decide,
    by decide⟩

/-! ## C05 -/

/-- C05. Merkle-root multisig metadata: round trip, layout, and signature lookup. -/
theorem C05_merkle_root_metadata :
    (∀ m : MerkleRootMeta, m.originMailbox.length = 32 → m.messageId.length = 32 →
      m.proof.length = 1024 → MerkleRootMeta.decode m.encode = .ok m) ∧
    (∀ v : Bytes, 1092 ≤ v.length → ∃ m, MerkleRootMeta.decode v = .ok m ∧ m.encode = v ∧
      m.originMailbox = v.take 32 ∧ m.checkpointIndex.toNat = fromBE ((v.drop 32).take 4) ∧
      m.messageId = (v.drop 36).take 32 ∧
      m.proof = (v.drop 68).take 1024 ∧ m.signatures = v.drop 1092) ∧
    (∀ v : Bytes, v.length < 1092 → ∃ t, MerkleRootMeta.decode v = .error (.panic t)) ∧
    (∀ (m : MerkleRootMeta) (sigs : List Bytes), (∀ s ∈ sigs, s.length = 65) →
      m.signatures = sigs.flatten →
      m.signaturesLen = .ok sigs.length ∧
      (∀ i s, sigs[i]? = some s → m.signatureAt i = .ok s) ∧
      (∀ i, sigs.length ≤ i → ∃ t, m.signatureAt i = .error (.panic t))) ∧
    (∀ m : MerkleRootMeta, m.signatures.length % 65 ≠ 0 →
      ∃ t, m.signaturesLen = .error (.err t)) := by
  refine ⟨?_, ?_, ?_, ?_, ?_⟩
  · intro m h1 h2 h3
    have hl : m.encode.length = 1092 + m.signatures.length := by
      simp [MerkleRootMeta.encode, h1, h2, h3]; omega
    unfold MerkleRootMeta.decode
    rw [slice_ok (by decide) (by omega), slice_ok (by decide) (by omega),
      slice_ok (by decide) (by omega), slice_ok (by decide) (by omega), sliceFrom_ok (by omega)]
    simp only [ok_bind, pure_eq_ok]
    have a1 : (m.encode.drop 0).take (32 - 0) = m.originMailbox := by
      simp [MerkleRootMeta.encode, ← h1]
    have a2 : (m.encode.drop 32).take (36 - 32) = u32be m.checkpointIndex :=
      drop_take_append _ _ _ _ _ h1 (by simp)
    have a3 : (m.encode.drop 36).take (68 - 36) = m.messageId := by
      rw [MerkleRootMeta.encode, ← List.append_assoc]
      exact drop_take_append _ _ _ _ _ (by simp [h1]) h2
    have a4 : (m.encode.drop 68).take (1092 - 68) = m.proof := by
      rw [MerkleRootMeta.encode, ← List.append_assoc, ← List.append_assoc]
      exact drop_take_append _ _ _ _ _ (by simp [h1, h2]) h3
    have a5 : m.encode.drop 1092 = m.signatures := by
      rw [MerkleRootMeta.encode, ← List.append_assoc, ← List.append_assoc, ← List.append_assoc,
        List.drop_append, List.drop_eq_nil_of_le (by simp [h1, h2, h3])]
      simp [h1, h2, h3]
    rw [a1, a2, a3, a4, a5, ofU32be_u32be]
  · intro v h
    have hidx : ((v.drop 32).take (36 - 32)).length = 4 := by simp; omega
    refine ⟨⟨(v.drop 0).take (32 - 0), ofU32be ((v.drop 32).take (36 - 32)),
      (v.drop 36).take (68 - 36), (v.drop 68).take (1092 - 68), v.drop 1092⟩, ?_, ?_, rfl, toNat_ofU32be hidx, rfl, rfl,
      rfl⟩
    · unfold MerkleRootMeta.decode
      rw [slice_ok (by decide) (by omega), slice_ok (by decide) (by omega),
        slice_ok (by decide) (by omega), slice_ok (by decide) (by omega), sliceFrom_ok (by omega)]
      rfl
    · simp only [MerkleRootMeta.encode]
      rw [u32be_ofU32be hidx, take_slice_append_drop v (by decide),
        take_slice_append_drop v (by decide), take_slice_append_drop v (by decide),
        take_slice_append_drop v (by decide)]
      rfl
  · intro v h
    unfold MerkleRootMeta.decode slice sliceFrom
    split
    · simp only [ok_bind]
      split
      · simp only [ok_bind]
        split
        · simp only [ok_bind]
          split
          · omega
          · exact ⟨_, rfl⟩
        · exact ⟨_, rfl⟩
      · exact ⟨_, rfl⟩
    · exact ⟨_, rfl⟩
  · intro m sigs hs he
    have hlen : ∀ l : List Bytes, (∀ s ∈ l, s.length = 65) → l.flatten.length = 65 * l.length := by
      intro l hl
      induction l with
      | nil => rfl
      | cons a t ih =>
        rw [List.flatten_cons, List.length_append, hl a (by simp), ih (fun s hs => hl s
          (List.mem_cons_of_mem _ hs)), List.length_cons]; omega
    have hl := hlen sigs hs
    refine ⟨?_, ?_, ?_⟩
    · unfold MerkleRootMeta.signaturesLen sigLen
      rw [he, hl, if_neg (by omega)]
      congr 1; omega
    · intro i s hi
      have hil : i < sigs.length := by
        rcases Nat.lt_or_ge i sigs.length with hh | hh
        · exact hh
        · rw [List.getElem?_eq_none hh] at hi; cases hi
      unfold MerkleRootMeta.signatureAt sigLen
      rw [he, slice_ok (by omega) (by omega)]
      congr 1
      have h1 := AggregateMeta.take_succ_flatten hi
      have hsplit : sigs.flatten = (sigs.take i).flatten ++ (s ++ (sigs.drop (i + 1)).flatten) := by
        conv_lhs => rw [← List.take_append_drop (i + 1) sigs]
        rw [List.flatten_append, h1, List.append_assoc]
      rw [hsplit]
      apply drop_take_append
      · rw [hlen _ (fun s hs' => hs s (List.mem_of_mem_take hs'))]
        simp; omega
      · rw [hs s (List.mem_of_getElem? hi)]; omega
    · intro i hi
      unfold MerkleRootMeta.signatureAt sigLen slice
      rw [he, if_neg (by omega)]
      exact ⟨_, rfl⟩
  · intro m h
    unfold MerkleRootMeta.signaturesLen sigLen
    rw [if_pos h]
    exact ⟨_, rfl⟩

example : ∃ m : MerkleRootMeta, m.originMailbox.length = 32 ∧ m.messageId.length = 32 ∧
    m.proof.length = 1024 ∧
    m.signatures = [List.replicate 65 (3 : UInt8), List.replicate 65 4].flatten :=
  ⟨⟨List.replicate 32 1, 7, List.replicate 32 2, List.replicate 1024 0,
    [List.replicate 65 3, List.replicate 65 4].flatten⟩, List.length_replicate,
    List.length_replicate, List.length_replicate, rfl⟩

/-! ## C06 -/

/-- The full claim of C06: packing and unpacking is the identity for every stored order of the
ISM list. `w` is the byte width of `usize` on the target that packs. -/
def C06_full (w : Nat) : Prop :=
  ∀ (m : AggregateMeta) (addrs : List Addr), addrs.Perm m.keys →
    8 * m.entries.length + m.values.flatten.length < 2 ^ 32 →
    ∃ v, AggregateMeta.encode w m = .ok v ∧ AggregateMeta.fromHex v addrs = .ok m

/-- C06, partial: (1) packing in the order of the ISM list (what the contract's reader expects) and
reading against that list gives each ISM exactly its blob, for every list order; (2) the library's
own packer agrees with the reader when the ISM list is in ascending address order. Missing: the
library packer with a list stored in another order, which is false, see `C06_full_refuted`. -/
theorem C06_aggregate_roundtrip_partial :
    (∀ l : List (Addr × Bytes), (l.map (·.1)).Nodup →
      8 * l.length + (l.map (·.2)).flatten.length < 2 ^ 32 →
      ∃ v r, AggregateMeta.encodeList 8 (l.map (·.2)) = .ok v ∧
        AggregateMeta.fromHex v (l.map (·.1)) = .ok r ∧
        (∀ a b, (a, b) ∈ l → r.get a = some b) ∧ (∀ a, a ∉ l.map (·.1) → r.get a = none)) ∧
    (∀ m : AggregateMeta, 8 * m.entries.length + m.values.flatten.length < 2 ^ 32 →
      ∃ v, AggregateMeta.encode 8 m = .ok v ∧ AggregateMeta.fromHex v m.keys = .ok m) := by
  have main : ∀ l : List (Addr × Bytes),
      8 * l.length + (l.map (·.2)).flatten.length < 2 ^ 32 →
      ∃ v, AggregateMeta.encodeList 8 (l.map (·.2)) = .ok v ∧
        AggregateMeta.fromHex v (l.map (·.1)) = .ok (OMap.ofList l) := by
    intro l hb
    obtain ⟨v, h1, h2⟩ := AggregateMeta.encodeList_8 (l.map (·.2)) (by simpa using hb)
    refine ⟨v, h1, ?_⟩
    unfold AggregateMeta.fromHex
    rw [AggregateMeta.entriesFrom_zip v (l.map (·.1)) (l.map (·.2)) (by simp) 0 (by simpa using h2)]
    have : (l.map (·.1)).zip (l.map (·.2)) = l := by
      rw [← List.unzip_fst, ← List.unzip_snd]; exact List.zip_unzip l
    rw [this]; rfl
  constructor
  · intro l hn hb
    obtain ⟨v, h1, h2⟩ := main l hb
    refine ⟨v, _, h1, h2, ?_, ?_⟩
    · intro a b hab
      rw [OMap.get_ofList _ hn]
      exact findKey_of_nodup hn hab
    · intro a ha
      rw [OMap.get_ofList _ hn, findKey_eq_none]
      intro p hp he
      exact ha (List.mem_map.2 ⟨p, hp, he⟩)
  · intro m hb
    obtain ⟨v, h1, h2⟩ := main m.entries hb
    exact ⟨v, h1, by rw [OMap.ofList_entries] at h2; exact h2⟩

/-- C06 (layout). The reader takes for the i-th ISM of the list the bytes between the offsets found, as four big-endian
bytes each, at positions 8i and 8i+4; it succeeds iff all these offsets exist, are in order and within the metadata. -/
theorem C06_reader_layout (v : Bytes) (addrs : List Addr) (hn : addrs.Nodup) :
    ((∃ r, AggregateMeta.fromHex v addrs = .ok r) ↔ ∀ i < addrs.length, 8 * i + 8 ≤ v.length ∧
      fromBE ((v.drop (8 * i)).take 4) ≤ fromBE ((v.drop (8 * i + 4)).take 4) ∧
      fromBE ((v.drop (8 * i + 4)).take 4) ≤ v.length) ∧
    ∀ r, AggregateMeta.fromHex v addrs = .ok r →
      (∀ i a, addrs[i]? = some a → r.get a = some ((v.drop (fromBE ((v.drop (8 * i)).take 4))).take
        (fromBE ((v.drop (8 * i + 4)).take 4) - fromBE ((v.drop (8 * i)).take 4)))) ∧
      ∀ a, a ∉ addrs → r.get a = none := by
  have hfrom : ∀ r, AggregateMeta.fromHex v addrs = .ok r ↔
      (∀ i < addrs.length, ∃ m, AggregateMeta.entryAt v i = .ok m) ∧
      ∃ ms : List Bytes, ms.length = addrs.length ∧
        (∀ i m, ms[i]? = some m → AggregateMeta.entryAt v i = .ok m) ∧ r = OMap.ofList (addrs.zip ms) := by
    intro r
    unfold AggregateMeta.fromHex
    rw [bind_eq_ok]
    constructor
    · rintro ⟨l, h1, h2⟩
      obtain ⟨ms, m1, m2, rfl⟩ := AggregateMeta.entriesFrom_bytes.1 h1
      simp only [pure_eq_ok, Except.ok.injEq] at h2
      simp only [Nat.zero_add] at m2
      refine ⟨fun i hi => ?_, ms, m1, m2, h2.symm⟩
      obtain ⟨m, hm⟩ : ∃ m, ms[i]? = some m := ⟨_, List.getElem?_eq_getElem (by omega)⟩
      exact ⟨m, m2 i m hm⟩
    · rintro ⟨_, ms, m1, m2, rfl⟩
      exact ⟨_, AggregateMeta.entriesFrom_bytes.2 ⟨ms, m1, by simpa using m2, rfl⟩, rfl⟩
  have hall : (∃ r, AggregateMeta.fromHex v addrs = .ok r) ↔
      ∀ i < addrs.length, ∃ m, AggregateMeta.entryAt v i = .ok m := by
    constructor
    · rintro ⟨r, hr⟩; exact ((hfrom r).1 hr).1
    · intro h
      refine ⟨_, (hfrom _).2 ⟨h, (List.range addrs.length).map (fun i => (AggregateMeta.entryAt v i).toOption.getD []),
        by simp, ?_, rfl⟩⟩
      intro i m hm
      simp only [List.getElem?_map, Option.map_eq_some_iff] at hm
      obtain ⟨j, hj, hm⟩ := hm
      obtain ⟨hlt, rfl⟩ := List.getElem?_eq_some_iff.1 hj
      rw [List.getElem_range] at hm
      obtain ⟨m', hm'⟩ := h i (by simpa using hlt)
      rw [hm'] at hm ⊢
      simp only [Except.toOption, Option.getD_some] at hm
      rw [hm]
  refine ⟨?_, ?_⟩
  · rw [hall]
    simp only [AggregateMeta.entryAt_bytes]
    constructor
    · intro h i hi
      obtain ⟨m, h1, h2, h3, _⟩ := h i hi
      exact ⟨h1, h2, h3⟩
    · intro h i hi
      obtain ⟨h1, h2, h3⟩ := h i hi
      exact ⟨_, h1, h2, h3, rfl⟩
  · intro r hr
    obtain ⟨_, ms, m1, m2, rfl⟩ := (hfrom r).1 hr
    have hk : ((addrs.zip ms).map (·.1)) = addrs := List.map_fst_zip (by omega)
    constructor
    · intro i a ha
      obtain ⟨hi, rfl⟩ := List.getElem?_eq_some_iff.1 ha
      have hm : ms[i]? = some (ms[i]'(by omega)) := List.getElem?_eq_getElem (by omega)
      obtain ⟨_, _, _, h4⟩ := AggregateMeta.entryAt_bytes.1 (m2 i _ hm)
      rw [OMap.get_ofList _ (by rw [hk]; exact hn), h4]
      apply findKey_of_nodup (by rw [hk]; exact hn)
      refine List.mem_iff_getElem.2 ⟨i, by rw [List.length_zip]; omega, by simp⟩
    · intro a ha
      rw [OMap.get_ofList _ (by rw [hk]; exact hn), findKey_eq_none]
      rintro p hp rfl
      exact ha (by rw [← hk]; exact List.mem_map.2 ⟨p, hp, rfl⟩)

/-- Two ISMs with the blobs [7] and []. -/
example : ["b", "a"].Nodup ∧
    AggregateMeta.fromHex [0, 0, 0, 16, 0, 0, 0, 17, 0, 0, 0, 2, 0, 0, 0, 2, 7] ["b", "a"] =
      .ok ((OMap.empty.insert "b" [7]).insert "a" []) := by decide +kernel

/-- The map used as counterexample: two ISMs with different blobs. -/
def c06Map : AggregateMeta := (OMap.empty.insert "ism1" [1]).insert "ism2" [2]

/-- C06 is false in full: with the ISM list stored in descending order the blobs are swapped. -/
theorem C06_full_refuted : ¬ C06_full 8 := by
  intro h
  obtain ⟨v, h1, h2⟩ := h c06Map ["ism2", "ism1"] (by decide +kernel) (by decide +kernel)
  have hv : AggregateMeta.encode 8 c06Map =
      .ok [0, 0, 0, 16, 0, 0, 0, 17, 0, 0, 0, 17, 0, 0, 0, 18, 1, 2] := by decide +kernel
  rw [hv] at h1
  injection h1 with h1
  subst h1
  exact absurd h2 (by decide +kernel)

/-- The packer's `usize` assumption: compiled for a target with 4-byte `usize` (wasm32) it panics
for every non-empty map, so it is usable only off chain. -/
theorem C06_wasm32_packer_panics (m : AggregateMeta) (h : m.entries ≠ []) :
    ∃ t, AggregateMeta.encode 4 m = .error (.panic t) := by
  unfold AggregateMeta.encode AggregateMeta.encodeList OMap.values
  cases hm : m.entries with
  | nil => exact absurd hm h
  | cons a t =>
    simp only [List.map_cons, AggregateMeta.ranges, AggregateMeta.table, AggregateMeta.usizeTail_4]
    exact ⟨_, rfl⟩

example : (8 * c06Map.entries.length + c06Map.values.flatten.length < 2 ^ 32) ∧
    c06Map.keys = ["ism1", "ism2"] := by decide +kernel

/-! ## C07 -/

/-- Full claim of C07's refund part: whatever 20-byte address the user writes (plain or padded) is
refunded to that account, provided the address can be formatted at all. -/
def C07_full : Prop :=
  ∀ (C : Codec) (hrp : String) (gas : Nat) (r : Bytes) (dflt a : Addr), r.length = 20 →
    C.enc hrp r = some a →
    IgpMeta.refundTo C ⟨gas, r⟩ hrp dflt = .ok a ∧
    IgpMeta.refundTo C ⟨gas, List.replicate 12 0 ++ r⟩ hrp dflt = .ok a

/-- C07, codec part: gas metadata round-trips and short input aborts. -/
theorem C07_igp_metadata_roundtrip :
    (∀ m : IgpMeta, m.gasLimit < 2 ^ 256 → IgpMeta.decode m.encode = .ok m) ∧
    (∀ v : Bytes, 32 ≤ v.length → ∃ m, IgpMeta.decode v = .ok m ∧ m.encode = v ∧
      m.gasLimit = fromBE (v.take 32) ∧ m.refundAddress = v.drop 32) ∧
    (∀ v : Bytes, v.length < 32 → ∃ t, IgpMeta.decode v = .error (.panic t)) := by
  refine ⟨?_, ?_, ?_⟩
  · intro m h
    unfold IgpMeta.decode IgpMeta.encode
    rw [slice_ok (by decide) (by simp), sliceFrom_ok (by simp)]
    simp only [ok_bind, pure_eq_ok]
    have a1 : ((u256be m.gasLimit ++ m.refundAddress).drop 0).take (32 - 0) = u256be m.gasLimit := by
      rw [List.drop_zero, List.take_append_of_le_length (by simp)]
      rw [List.take_of_length_le (by simp)]
    have a2 : (u256be m.gasLimit ++ m.refundAddress).drop 32 = m.refundAddress := by
      rw [List.drop_append, List.drop_eq_nil_of_le (by simp)]; simp
    rw [a1, a2, fromBE_u256be h]
  · intro v h
    refine ⟨⟨fromBE ((v.drop 0).take (32 - 0)), v.drop 32⟩, ?_, ?_, rfl, rfl⟩
    · unfold IgpMeta.decode
      rw [slice_ok (by decide) (by omega), sliceFrom_ok (by omega)]; rfl
    · simp only [IgpMeta.encode]
      rw [u256be_fromBE (by simp; omega), take_slice_append_drop v (by decide)]; rfl
  · intro v h
    unfold IgpMeta.decode slice
    rw [if_neg (by omega)]
    exact ⟨_, rfl⟩

theorem all_zero_take_iff (l : Bytes) : (l.all (· = 0)) = true ↔ l = zeros l.length := by
  rw [List.all_eq_true, zeros, List.eq_replicate_iff]
  simp

/-- C07, partial: the refund goes to the account written by the user, plain or padded, as long as the
20-byte address does not start with four (padded) resp. sixteen (plain) zero bytes; a 32-byte contract
address (not starting with 12 zero bytes) is refunded to that contract; any other length falls back to the
default. Missing: addresses with those leading zeros, for which the claim is false. -/
theorem C07_refund_address_partial (C : Codec) (hrp : String) (gas : Nat) (dflt : Addr) :
    (∀ r a, r.length = 20 → C.enc hrp r = some a → r.take 16 ≠ List.replicate 16 0 →
      IgpMeta.refundTo C ⟨gas, r⟩ hrp dflt = .ok a) ∧
    (∀ r a, r.length = 20 → C.enc hrp r = some a → r.take 4 ≠ List.replicate 4 0 →
      IgpMeta.refundTo C ⟨gas, List.replicate 12 0 ++ r⟩ hrp dflt = .ok a) ∧
    (∀ r a, r.length = 32 → C.enc hrp r = some a → r.take 12 ≠ List.replicate 12 0 →
      IgpMeta.refundTo C ⟨gas, r⟩ hrp dflt = .ok a) ∧
    (∀ r, r.length ≠ 20 → r.length ≠ 32 → IgpMeta.refundTo C ⟨gas, r⟩ hrp dflt = .ok dflt) := by
  refine ⟨?_, ?_, ?_, ?_⟩
  · intro r a hr ha hz
    unfold IgpMeta.refundTo
    simp only [hr]
    have h16 : ((r.take 16).all (· = 0)) = false := by
      rw [Bool.eq_false_iff, Ne, all_zero_take_iff]
      simp only [List.length_take, hr]
      exact hz
    rw [h16]
    simp [bech32Encode, hr, ha]
  · intro r a hr ha hz
    unfold IgpMeta.refundTo
    simp only [List.length_append, List.length_replicate, hr]
    have h16 : (((List.replicate 12 0 ++ r).take 16).all (· = 0)) = false := by
      rw [Bool.eq_false_iff, Ne, all_zero_take_iff]
      rw [List.take_append]
      simp only [List.length_replicate, List.length_append, List.length_take, hr]
      intro hc
      apply hz
      have : zeros (min 16 12 + min (16 - 12) 20) = List.replicate 12 (0 : UInt8) ++ List.replicate 4 0 := by
        decide
      rw [this] at hc
      have := List.append_inj hc (by simp)
      exact this.2
    rw [h16]
    simp [bech32Encode, hr, ha, zeros]
  · intro r a hr ha hz
    unfold IgpMeta.refundTo
    simp only [hr]
    have h16 : ((r.take 16).all (· = 0)) = false := by
      rw [Bool.eq_false_iff, Ne, all_zero_take_iff]
      simp only [List.length_take, hr]
      intro hc
      apply hz
      have h3 : r.take 12 = (r.take 16).take 12 := by rw [List.take_take]; rfl
      rw [h3, hc]; decide
    rw [h16]
    have hz' : r.take 12 ≠ zeros 12 := hz
    simp [bech32Encode, hr, ha, hz']
  · intro r h1 h2
    unfold IgpMeta.refundTo
    simp [h1, h2]

/-- The zero prefix panics: with the first 16 bytes zero the call aborts, whatever the codec. -/
theorem C07_zero_prefix_aborts (C : Codec) (hrp : String) (gas : Nat) (dflt : Addr) (r : Bytes)
    (hl : r.length = 20 ∨ r.length = 32) (hz : r.take 16 = List.replicate 16 0) :
    ∃ t, IgpMeta.refundTo C ⟨gas, r⟩ hrp dflt = .error (.panic t) := by
  unfold IgpMeta.refundTo
  simp only
  rw [if_neg (by omega)]
  have h16 : ((r.take 16).all (· = 0)) = true := by
    rw [all_zero_take_iff, hz]; decide
  rw [h16]
  have : (r.drop 16).length = r.length - 16 := by simp
  simp only [if_true]
  unfold bech32Encode
  rw [if_pos (by rw [this]; omega)]
  exact ⟨_, rfl⟩

/-- C07's refund claim is false in full. -/
theorem C07_full_refuted : ¬ C07_full := by
  intro h
  obtain ⟨h1, _⟩ := h ⟨fun _ _ => some "acc", fun _ => none⟩ "osmo" 0 (List.replicate 20 0) "d" "acc"
    (by decide) rfl
  obtain ⟨t, ht⟩ := C07_zero_prefix_aborts ⟨fun _ _ => some "acc", fun _ => none⟩ "osmo" 0 "d"
    (List.replicate 20 0) (.inl (by decide)) (by decide)
  rw [ht] at h1
  cases h1

example : (List.replicate 20 (7 : UInt8)).length = 20 ∧
    (List.replicate 20 (7 : UInt8)).take 4 ≠ List.replicate 4 0 := by decide

end Hpl
