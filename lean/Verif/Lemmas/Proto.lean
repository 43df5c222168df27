import Verif.Lemmas.Res
import Verif.Spec.Proto

/-! Lemmas about the protobuf wire format. -/

namespace Hpl.Proto

open Spec

/-! ## Varints -/

theorem u8_toNat {n : Nat} (h : n < 256) : (UInt8.ofNat n).toNat = n := by
  simp [UInt8.toNat_ofNat']
  omega

theorem varintAux_spec (fuel : Nat) : ∀ n, n < 128 ^ (fuel + 1) →
    Base128 n (varintAux fuel n) ∧ (varintAux fuel n).length ≤ fuel + 1 := by
  induction fuel with
  | zero =>
    intro n h
    have h' : n < 128 := by simpa using h
    have e := u8_toNat (n := n) (by omega)
    refine ⟨?_, by simp [varintAux]⟩
    have := Base128.last (UInt8.ofNat n) (by omega)
    rwa [e] at this
  | succ f ih =>
    intro n h
    unfold varintAux
    by_cases hn : n < 128
    · have e := u8_toNat (n := n) (by omega)
      rw [if_pos hn]
      refine ⟨?_, by simp⟩
      have := Base128.last (UInt8.ofNat n) (by omega)
      rwa [e] at this
    · rw [if_neg hn]
      have hd : n / 128 < 128 ^ (f + 1) := by
        rw [Nat.div_lt_iff_lt_mul (by decide)]
        rw [Nat.pow_succ] at h
        exact h
      obtain ⟨i1, i2⟩ := ih _ hd
      have e := u8_toNat (n := n % 128 + 128) (by omega)
      refine ⟨?_, by simp only [List.length_cons]; omega⟩
      have := Base128.more (UInt8.ofNat (n % 128 + 128)) (n / 128) _ (by omega) i1
      rw [e] at this
      have h2 : n % 128 + 128 - 128 + 128 * (n / 128) = n := by omega
      rwa [h2] at this

theorem varint_spec {n : Nat} (h : n < 2 ^ 64) : Varint n (varint n) := by
  obtain ⟨h1, h2⟩ := varintAux_spec 9 n (Nat.lt_trans h (by decide))
  exact ⟨h1, h2, h⟩

theorem base128_ne_nil {n : Nat} {b : Bytes} (h : Base128 n b) : b ≠ [] := by cases h <;> simp

theorem decodeVarint_ok (count : Nat) : ∀ (b : Bytes) (n : Nat) (r : Bytes),
    decodeVarint count b = .ok (n, r) ↔
      ∃ p, b = p ++ r ∧ Base128 n p ∧ p.length ≤ count ∧ n < 2 * 128 ^ (count - 1) := by
  induction count with
  | zero =>
    intro b n r
    constructor
    · intro h; unfold decodeVarint at h; cases h
    · rintro ⟨p, _, h, hl, _⟩
      exact absurd (List.length_eq_zero_iff.1 (Nat.le_zero.1 hl)) (base128_ne_nil h)
  | succ c ih =>
    intro b n r
    cases b with
    | nil =>
      constructor
      · intro h; unfold decodeVarint at h; cases h
      · rintro ⟨p, hp, h, _⟩
        have := (List.append_eq_nil_iff.1 hp.symm).1
        exact absurd this (base128_ne_nil h)
    | cons b t =>
      unfold decodeVarint
      by_cases hb : b.toNat < 128
      · rw [if_pos hb]
        constructor
        · intro h
          by_cases hc : c = 0 ∧ 2 ≤ b.toNat
          · rw [if_pos hc] at h; cases h
          · rw [if_neg hc] at h
            cases h
            refine ⟨[b], rfl, .last b hb, by simp, ?_⟩
            simp only [Nat.add_sub_cancel]
            cases c with
            | zero => simp only [Nat.pow_zero]; omega
            | succ k =>
              have : 1 ≤ 128 ^ k := Nat.one_le_two_pow.trans (Nat.pow_le_pow_left (by decide) k)
              rw [Nat.pow_succ]
              omega
        · rintro ⟨p, hp, h, hl, hn⟩
          cases h with
          | last b' hb' =>
            simp only [List.cons_append, List.nil_append, List.cons.injEq] at hp
            obtain ⟨rfl, rfl⟩ := hp
            rw [if_neg]
            rintro ⟨rfl, h2⟩
            simp at hn
            omega
          | more b' n' t' hb' _ =>
            simp only [List.cons_append, List.cons.injEq] at hp
            obtain ⟨rfl, _⟩ := hp
            omega
      · rw [if_neg hb, bind_eq_ok]
        constructor
        · rintro ⟨⟨n', r'⟩, h1, hf⟩
          cases hf
          obtain ⟨p, rfl, h2, h3, h4⟩ := (ih t n' _).1 h1
          refine ⟨b :: p, rfl, .more b n' p (by omega) h2, by simp only [List.length_cons]; omega, ?_⟩
          have hc : c ≠ 0 := by
            rintro rfl
            exact absurd (List.length_eq_zero_iff.1 (Nat.le_zero.1 h3)) (base128_ne_nil h2)
          obtain ⟨k, rfl⟩ := Nat.exists_eq_succ_of_ne_zero hc
          have hlt : b.toNat < 256 := b.toNat_lt
          simp only [Nat.succ_eq_add_one, Nat.add_sub_cancel] at h4 ⊢
          rw [Nat.pow_succ]
          omega
        · rintro ⟨p, hp, h, hl, hn⟩
          cases h with
          | last b' hb' =>
            simp only [List.cons_append, List.nil_append, List.cons.injEq] at hp
            obtain ⟨rfl, _⟩ := hp
            exact absurd hb' hb
          | more b' n' t' hb' ht' =>
            simp only [List.cons_append, List.cons.injEq] at hp
            obtain ⟨rfl, rfl⟩ := hp
            refine ⟨(n', r), (ih _ _ _).2 ⟨t', rfl, ht', by simp only [List.length_cons] at hl; omega, ?_⟩, rfl⟩
            have hc : c ≠ 0 := by
              rintro rfl
              simp only [List.length_cons] at hl
              exact absurd (List.length_eq_zero_iff.1 (by omega)) (base128_ne_nil ht')
            obtain ⟨k, rfl⟩ := Nat.exists_eq_succ_of_ne_zero hc
            simp only [Nat.succ_eq_add_one, Nat.add_sub_cancel] at hn ⊢
            rw [Nat.pow_succ] at hn
            omega

theorem decodeVarint_iff {b : Bytes} {n : Nat} {r : Bytes} :
    decodeVarint 10 b = .ok (n, r) ↔ ∃ p, b = p ++ r ∧ Varint n p := by
  rw [decodeVarint_ok]
  have : 2 * 128 ^ (10 - 1) = 2 ^ 64 := by decide
  rw [this]
  rfl

/-- Varints are self-delimiting. -/
theorem varint_unique {n n' : Nat} {p p' r r' : Bytes} (h : Varint n p) (h' : Varint n' p')
    (e : p ++ r = p' ++ r') : n = n' ∧ p = p' ∧ r = r' := by
  have h1 : decodeVarint 10 (p ++ r) = .ok (n, r) := decodeVarint_iff.2 ⟨p, rfl, h⟩
  have h2 : decodeVarint 10 (p ++ r) = .ok (n', r') := decodeVarint_iff.2 ⟨p', e, h'⟩
  rw [h1] at h2
  simp only [Except.ok.injEq, Prod.mk.injEq] at h2
  obtain ⟨rfl, rfl⟩ := h2
  exact ⟨rfl, List.append_cancel_right e, rfl⟩

/-! ## Fields and messages -/

theorem content_unique {v v' : WireVal} {c c' r r' : Bytes} (hw : v.wireType = v'.wireType) (h : Spec.Content v c)
    (h' : Spec.Content v' c') (e : c ++ r = c' ++ r') : v = v' ∧ c = c' ∧ r = r' := by
  cases h with
  | number n b hb =>
    cases h' with
    | number n' b' hb' =>
      obtain ⟨rfl, rfl, rfl⟩ := varint_unique hb hb' e
      exact ⟨rfl, rfl, rfl⟩
    | _ => cases hw
  | eight _ hb =>
    cases h' with
    | eight _ hb' =>
      obtain ⟨rfl, rfl⟩ := List.append_inj e (hb.trans hb'.symm)
      exact ⟨rfl, rfl, rfl⟩
    | _ => cases hw
  | bytes b l hb =>
    cases h' with
    | bytes b' l' hb' =>
      rw [List.append_assoc, List.append_assoc] at e
      obtain ⟨hlen, rfl, e'⟩ := varint_unique hb hb' e
      obtain ⟨rfl, rfl⟩ := List.append_inj e' hlen
      exact ⟨rfl, rfl, rfl⟩
    | _ => cases hw
  | four _ hb =>
    cases h' with
    | four _ hb' =>
      obtain ⟨rfl, rfl⟩ := List.append_inj e (hb.trans hb'.symm)
      exact ⟨rfl, rfl, rfl⟩
    | _ => cases hw

theorem wireType_lt (v : WireVal) : v.wireType < 8 := by cases v <;> simp [WireVal.wireType]

theorem field_unique {k k' : Nat} {v v' : WireVal} {b b' r r' : Bytes} (h : Field k v b) (h' : Field k' v' b')
    (e : b ++ r = b' ++ r') : k = k' ∧ v = v' ∧ r = r' := by
  obtain ⟨key, c, rfl, h1, h2, _, _⟩ := h
  obtain ⟨key', c', rfl, h1', h2', _, _⟩ := h'
  rw [List.append_assoc, List.append_assoc] at e
  obtain ⟨hk, rfl, e'⟩ := varint_unique h1 h1' e
  have a := wireType_lt v
  have a' := wireType_lt v'
  have hw : v.wireType = v'.wireType := by omega
  obtain ⟨rfl, rfl, rfl⟩ := content_unique hw h2 h2' e'
  exact ⟨by omega, rfl, rfl⟩

theorem field_ne_nil {k : Nat} {v : WireVal} {b : Bytes} (h : Field k v b) : b ≠ [] := by
  obtain ⟨key, c, rfl, h1, _⟩ := h
  intro hh
  exact base128_ne_nil h1.1 (List.append_eq_nil_iff.1 hh).1

/-- A message can be read in only one way. -/
theorem wire_unique {fs : List (Nat × WireVal)} {b : Bytes} (h : Wire fs b) :
    ∀ {fs' : List (Nat × WireVal)}, Wire fs' b → fs = fs' := by
  induction h with
  | nil =>
    intro fs' h'
    generalize he : ([] : Bytes) = b at h'
    cases h' with
    | nil => rfl
    | cons k v b fs t hf _ => exact absurd (List.append_eq_nil_iff.1 he.symm).1 (field_ne_nil hf)
  | cons k v b fs t hf _ ih =>
    intro fs' h'
    generalize he : b ++ t = bb at h'
    cases h' with
    | nil => exact absurd (List.append_eq_nil_iff.1 he).1 (field_ne_nil hf)
    | cons k' v' b' fs'' t' hf' ht' =>
      obtain ⟨rfl, rfl, rfl⟩ := field_unique hf hf' he
      rw [ih ht']

theorem wire_append {a b : List (Nat × WireVal)} {x y : Bytes} (h : Wire a x) (h' : Wire b y) :
    Wire (a ++ b) (x ++ y) := by
  induction h with
  | nil => exact h'
  | cons k v b fs t hf _ ih =>
    rw [List.append_assoc]
    exact .cons k v b _ _ hf ih

theorem wire_single {k : Nat} {v : WireVal} {b : Bytes} (h : Field k v b) : Wire [(k, v)] b := by
  have := Wire.cons k v b [] [] h .nil
  rwa [List.append_nil] at this

theorem readAs_of {b : Bytes} {Q : List (Nat × WireVal) → Prop} {fs : List (Nat × WireVal)} (h : Wire fs b)
    (hq : Q fs) : ReadAs b Q := ⟨⟨fs, h⟩, fun _ h' => wire_unique h h' ▸ hq⟩

/-! ## Encoder -/

theorem field_bytes {k : Nat} {b : Bytes} (h1 : 1 ≤ k) (h2 : k < 2 ^ 29) (hb : b.length < 2 ^ 64) :
    Field k (.bytes b) (encodeField k (.bytes b)) := by
  refine ⟨varint (8 * k + 2), varint b.length ++ b, ?_, varint_spec (n := 8 * k + 2) (by omega), .bytes b _ (varint_spec hb), h1, h2⟩
  simp [encodeField]

theorem field_number {k n : Nat} (h1 : 1 ≤ k) (h2 : k < 2 ^ 29) (hn : n < 2 ^ 64) :
    Field k (.number n) (encodeField k (.number n)) :=
  ⟨varint (8 * k), varint n, rfl, varint_spec (n := 8 * k) (by omega), .number n _ (varint_spec hn), h1, h2⟩

theorem length_le_encodeField (k : Nat) (b : Bytes) : b.length ≤ (encodeField k (.bytes b)).length := by
  simp only [encodeField, List.length_append]
  omega

/-- The fields of a string. -/
def strFields (k : Nat) (s : String) : List (Nat × WireVal) := if s = "" then [] else [(k, .bytes (utf8 s))]

theorem wire_string {k : Nat} {s : String} (h1 : 1 ≤ k) (h2 : k < 2 ^ 29) (hs : (string k s).length < 2 ^ 64) :
    Wire (strFields k s) (string k s) := by
  unfold string strFields at *
  by_cases h : s = ""
  · rw [if_pos h, if_pos h]; exact .nil
  · rw [if_neg h] at hs ⊢
    rw [if_neg h]
    exact wire_single (field_bytes h1 h2 (Nat.lt_of_le_of_lt (length_le_encodeField _ _) hs))

/-- The fields of a number. -/
def numFields (k : Nat) (n : UInt32) : List (Nat × WireVal) := if n = 0 then [] else [(k, .number n.toNat)]

theorem wire_uint32 {k : Nat} {n : UInt32} (h1 : 1 ≤ k) (h2 : k < 2 ^ 29) : Wire (numFields k n) (uint32 k n) := by
  unfold uint32 numFields
  by_cases h : n = 0
  · rw [if_pos h, if_pos h]; exact .nil
  · rw [if_neg h, if_neg h]
    have := n.toNat_lt
    exact wire_single (field_number h1 h2 (by omega))

theorem wire_messages {k : Nat} (h1 : 1 ≤ k) (h2 : k < 2 ^ 29) : ∀ l : List Bytes,
    (messages k l).length < 2 ^ 64 → Wire (l.map (fun b => (k, .bytes b))) (messages k l)
  | [], _ => .nil
  | b :: t, h => by
    have e : messages k (b :: t) = encodeField k (.bytes b) ++ messages k t := rfl
    rw [e, List.length_append] at h
    rw [e]
    have hl := length_le_encodeField k b
    exact .cons k _ _ _ _ (field_bytes h1 h2 (by omega)) (wire_messages h1 h2 t (by omega))

theorem strings_eq (k : Nat) (l : List String) : strings k l = messages k (l.map utf8) := by
  simp [strings, messages, List.flatMap_map]

theorem length_mem_messages {k : Nat} {l : List Bytes} {b : Bytes} (h : b ∈ l) : b.length ≤ (messages k l).length := by
  induction l with
  | nil => cases h
  | cons a t ih =>
    have e : messages k (a :: t) = encodeField k (.bytes a) ++ messages k t := rfl
    rw [e, List.length_append]
    rcases List.mem_cons.1 h with rfl | h
    · have := length_le_encodeField k b; omega
    · have := ih h; omega

/-! ## Reading -/

theorem ofUtf8_utf8 (s : String) : ofUtf8 (utf8 s) = some s := by
  have h : (⟨(utf8 s).toArray⟩ : ByteArray) = s.toByteArray := by simp [utf8]
  unfold ofUtf8 String.fromUTF8?
  rw [h, dif_pos s.isValidUTF8]
  rfl

theorem ofUtf8_eq_some {b : Bytes} {s : String} : ofUtf8 b = some s ↔ b = utf8 s := by
  constructor
  · intro h
    unfold ofUtf8 String.fromUTF8? at h
    by_cases hv : (⟨b.toArray⟩ : ByteArray).IsValidUTF8
    · rw [dif_pos hv, Option.some.injEq] at h
      rw [← h]
      simp [utf8, String.fromUTF8]
    · rw [dif_neg hv] at h; cases h
  · rintro rfl; exact ofUtf8_utf8 s

theorem lastString_append (k : Nat) : ∀ (a b : List (Nat × WireVal)) (d : String),
    lastString k d (a ++ b) = (lastString k d a).bind (fun s => lastString k s b)
  | [], b, d => rfl
  | (k', v) :: t, b, d => by
    simp only [List.cons_append, lastString]
    by_cases h : k' = k
    · rw [if_pos h, if_pos h]
      cases v with
      | bytes c =>
        simp only
        cases ofUtf8 c with
        | none => rfl
        | some s => exact lastString_append k t b s
      | _ => rfl
    · rw [if_neg h, if_neg h]; exact lastString_append k t b d

theorem lastString_str_same (k : Nat) (s : String) : lastString k "" (strFields k s) = some s := by
  unfold strFields
  by_cases h : s = ""
  · rw [if_pos h, h]; rfl
  · rw [if_neg h]; simp [lastString, ofUtf8_utf8]

theorem lastString_str_other {k k' : Nat} (h : k' ≠ k) (s d : String) :
    lastString k d (strFields k' s) = some d := by
  unfold strFields
  split
  · rfl
  · simp [lastString, h]

theorem lastString_bytes_other {k k' : Nat} (h : k' ≠ k) (d : String) (l : List WireVal) :
    lastString k d (l.map (fun v => (k', v))) = some d := by
  induction l with
  | nil => rfl
  | cons a t ih => simp only [List.map_cons, lastString, if_neg h]; exact ih

theorem lastString_num_other {k k' : Nat} (h : k' ≠ k) (d : String) (n : UInt32) :
    lastString k d (numFields k' n) = some d := by
  unfold numFields
  split
  · rfl
  · simp [lastString, h]

theorem valuesAt_append (k : Nat) (a b : List (Nat × WireVal)) : valuesAt k (a ++ b) = valuesAt k a ++ valuesAt k b := by
  simp [valuesAt]

theorem valuesAt_str_other {k k' : Nat} (h : k' ≠ k) (s : String) : valuesAt k (strFields k' s) = [] := by
  unfold strFields
  split <;> simp [valuesAt, h]

theorem valuesAt_num_other {k k' : Nat} (h : k' ≠ k) (n : UInt32) : valuesAt k (numFields k' n) = [] := by
  unfold numFields
  split <;> simp [valuesAt, h]

theorem valuesAt_map_other {k k' : Nat} (h : k' ≠ k) (l : List WireVal) :
    valuesAt k (l.map (fun v => (k', v))) = [] := by
  simp [valuesAt, h]

theorem valuesAt_map_same (k : Nat) (l : List WireVal) : valuesAt k (l.map (fun v => (k, v))) = l := by
  induction l with
  | nil => rfl
  | cons a t ih =>
    unfold valuesAt at ih ⊢
    rw [List.map_cons, List.filter_cons_of_pos (by simp), List.map_cons, ih]

theorem tags_str {k : Nat} {s : String} {f : Nat × WireVal} (h : f ∈ strFields k s) : f.1 = k := by
  unfold strFields at h
  split at h
  · cases h
  · rw [List.mem_singleton] at h; rw [h]

theorem tags_num {k : Nat} {n : UInt32} {f : Nat × WireVal} (h : f ∈ numFields k n) : f.1 = k := by
  unfold numFields at h
  split at h
  · cases h
  · rw [List.mem_singleton] at h; rw [h]

theorem tags_map {k : Nat} {l : List WireVal} {f : Nat × WireVal} (h : f ∈ l.map (fun v => (k, v))) : f.1 = k := by
  obtain ⟨v, _, rfl⟩ := List.mem_map.1 h
  rfl

theorem decimal_repr (n : Nat) : Decimal n.repr n := by
  refine ⟨by rw [Nat.toList_repr]; exact Nat.toDigits_ne_nil, ?_, ?_⟩
  · intro c hc
    rw [Nat.toList_repr] at hc
    exact Nat.isDigit_of_mem_toDigits (by decide) (by decide) hc
  · rw [Nat.toList_repr]
    have := Nat.ofDigitChars_ten_toDigits (n := n)
    rw [Nat.ofDigitChars_eq_foldl] at this
    exact this

end Hpl.Proto
