import Verif.Model.Schema
import Verif.Lemmas.Json

/-! # What is sent with one type is received with another -/

namespace Hpl.Schema

/-! ## Strings -/

theorem ofHexChars_toHex (b : Bytes) :
    ofHexChars (b.flatMap (fun x => [Json.hexDigit (x.toNat / 16), Json.hexDigit (x.toNat % 16)])) = some b := by
  induction b with
  | nil => rfl
  | cons x t ih =>
    have hx := x.toNat_lt
    simp only [List.flatMap_cons, List.cons_append, List.nil_append, ofHexChars]
    rw [Json.hexValue_hexDigit _ (by omega), Json.hexValue_hexDigit _ (by omega), ih]
    have h1 : UInt8.ofNat (x.toNat / 16 * 16 + x.toNat % 16) = x := by
      rw [show x.toNat / 16 * 16 + x.toNat % 16 = x.toNat by omega]; exact UInt8.ofNat_toNat
    simp only [Option.bind_eq_bind, Option.bind_some, h1]
    rfl

theorem ofHex_toHex (b : Bytes) : ofHex (toHex b) = some b := by
  unfold ofHex toHex
  rw [String.toList_ofList]
  exact ofHexChars_toHex b

theorem ofDecimal_repr {bits n : Nat} (h : n < 2 ^ bits) : ofDecimal bits n.repr = some n := by
  have hd := Proto.decimal_repr n
  have hval : Nat.ofDigitChars 10 n.repr.toList 0 = n := by
    rw [Nat.toList_repr]; exact Nat.ofDigitChars_ten_toDigits
  unfold ofDecimal
  rw [if_pos ⟨hd.1, by rw [List.all_eq_true]; exact hd.2.1, by rw [hval]; exact h⟩, hval]

/-! ## Types -/

/-- Not an `Option`. -/
def notOpt : Ty → Bool
  | .opt _ => false
  | _ => true

/-- The type of a variant. -/
def find (n : String) : Fields → Option Ty
  | .nil => none
  | .cons m t r => if m = n then some t else find n r

mutual
/-- Values are determined by their texts: names are distinct, and options are not nested. -/
def wf : Ty → Bool
  | .opt t => notOpt t && wf t
  | .list t => wf t
  | .tuple ts => wfAll ts
  | .struct fs => distinct (Fields.names fs) && wfAll fs
  | .enum vs => distinct ((Fields.names vs).map snake) && wfAll vs
  | _ => true

def wfAll : Fields → Bool
  | .nil => true
  | .cons _ t r => wf t && wfAll r
end

mutual
/-- Every value of the first type is a value of the second. -/
def sub : Ty → Ty → Bool
  | .bool, .bool => true
  | .uint a, .uint b => a ≤ b
  | .decimal a, .decimal b => a ≤ b
  | .text, .text => true
  | .hex, .hex => true
  | .opt s, .opt t => sub s t
  | .list s, .list t => sub s t
  | .tuple ss, .tuple ts => subAll ss ts
  | .struct ss, .struct ts => subAll ss ts
  | .enum ss, .enum ts => subVariants ss ts
  | .unit, .unit => true
  | _, _ => false

/-- Same names, and each type in the other. -/
def subAll : Fields → Fields → Bool
  | .nil, .nil => true
  | .cons n s r, .cons m t q => n = m && sub s t && subAll r q
  | _, _ => false

/-- The second has all variants of the first. -/
def subVariants : Fields → Fields → Bool
  | .nil, _ => true
  | .cons n s r, q => (match find n q with
      | some t => sub s t
      | none => false) && subVariants r q
end

/-! ## Lemmas -/

theorem mapAll_compose {f : α → Option β} {g : β → Option α} {l : List α} {r : List β}
    (h : ∀ a ∈ l, ∀ b, f a = some b → g b = some a) (hm : mapAll f l = some r) : mapAll g r = some l := by
  induction l generalizing r with
  | nil => cases hm; rfl
  | cons a t ih =>
    rw [mapAll] at hm
    simp only [Option.bind_eq_bind, Option.bind_eq_some_iff, Option.pure_def, Option.some.injEq] at hm
    obtain ⟨b, h1, r', h2, rfl⟩ := hm
    rw [mapAll, h a List.mem_cons_self b h1, ih (fun a ha => h a (List.mem_cons_of_mem _ ha)) h2]
    rfl

theorem encode_ne_null {t : Ty} (ht : notOpt t = true) {v : Val} {j : Json} (h : encode t v = some j) :
    j ≠ .null := by
  rintro rfl
  cases t with
  | opt t => cases ht
  | bool => cases v <;> simp [encode] at h
  | uint b => cases v <;> simp [encode] at h
  | decimal b => cases v <;> simp [encode] at h
  | text => cases v <;> simp [encode] at h
  | hex => cases v <;> simp [encode] at h
  | list t => cases v <;> simp [encode] at h
  | tuple t => cases v <;> simp [encode] at h
  | struct t => cases v <;> simp [encode] at h
  | unit => cases v <;> simp [encode] at h
  | enum vs =>
    cases v with
    | variant n v =>
      rw [encode] at h
      have key : ∀ fs, encodeVariant fs n v ≠ some .null := by
        intro fs
        induction fs using Fields.rec (motive_1 := fun _ => True) with
        | nil => simp [encodeVariant]
        | cons m t r _ ih =>
          rw [encodeVariant]
          split
          · split
            · split <;> simp
            · simp
          · exact ih
        | _ => trivial
      exact key vs h
    | _ => simp [encode] at h

theorem decode_opt {t : Ty} {j : Json} (h : j ≠ .null) : decode (.opt t) j = (decode t j).map .some := by
  cases j with
  | null => exact absurd rfl h
  | _ => rw [decode]; exact h

theorem notOpt_of_sub {s t : Ty} (h : sub s t = true) (ht : notOpt t = true) : notOpt s = true := by
  cases s with
  | opt s => cases t <;> simp [sub] at h; cases ht
  | _ => rfl

theorem distinct_cons {a : String} {l : List String} (h : distinct (a :: l) = true) : a ∉ l ∧ distinct l = true := by
  simpa [distinct] using h

theorem encodeStruct_names {fs : Fields} {l : List Val} {js : List (String × Json)}
    (h : encodeStruct fs l = some js) : js.map (·.1) = Fields.names fs := by
  induction fs using Fields.rec (motive_1 := fun _ => True) generalizing l js with
  | nil =>
    cases l with
    | nil => rw [encodeStruct] at h; cases h; rfl
    | cons => simp [encodeStruct] at h
  | cons n t r _ ih =>
    cases l with
    | nil => simp [encodeStruct] at h
    | cons v l =>
      rw [encodeStruct] at h
      simp only [Option.bind_eq_bind, Option.bind_eq_some_iff, Option.pure_def, Option.some.injEq] at h
      obtain ⟨j, h1, r', h2, rfl⟩ := h
      simp [Fields.names, ih h2]
  | _ => trivial

theorem subAll_names : ∀ (fs gs : Fields), subAll fs gs = true → Fields.names fs = Fields.names gs
  | .nil, .nil, _ => rfl
  | .nil, .cons .., h => by simp [subAll] at h
  | .cons .., .nil, h => by simp [subAll] at h
  | .cons n s r, .cons m t q, h => by
    simp only [subAll, Bool.and_eq_true, decide_eq_true_eq] at h
    simp [Fields.names, h.1.1, subAll_names r q h.2]

theorem lookup_of_mem {l : List (String × Json)} (hd : distinct (l.map (·.1)) = true) {n : String} {j : Json}
    (h : (n, j) ∈ l) : lookup n l = some j := by
  induction l with
  | nil => cases h
  | cons p t ih =>
    obtain ⟨m, j'⟩ := p
    obtain ⟨h1, h2⟩ := distinct_cons hd
    rw [lookup]
    rcases List.mem_cons.1 h with h | h
    · cases h; rw [if_pos rfl]
    · have hn : m ≠ n := by
        rintro rfl
        exact h1 (List.mem_map.2 ⟨_, h, rfl⟩)
      rw [if_neg hn]
      exact ih h2 h

/-- The content of a variant. -/
def decodeContent (t : Ty) (n : String) (j : Option Json) : Option Val :=
  if isUnit t then (if j.isNone then some (.variant n .unit) else none)
  else j.bind (fun j => (decode t j).map (.variant n))

theorem isUnit_sub {s t : Ty} (h : sub s t = true) : isUnit s = isUnit t := by
  cases s <;> cases t <;> simp [sub] at h <;> rfl

theorem decodeVariant_find {vs : Fields} {n : String} {t : Ty} (hd : distinct ((Fields.names vs).map snake) = true)
    (h : find n vs = some t) (j : Option Json) : decodeVariant vs (snake n) j = decodeContent t n j := by
  induction vs using Fields.rec (motive_1 := fun _ => True) with
  | nil => cases h
  | cons m s r _ ih =>
    rw [find] at h
    simp only [Fields.names, List.map_cons] at hd
    obtain ⟨h1, h2⟩ := distinct_cons hd
    by_cases hm : m = n
    · rw [if_pos hm] at h
      cases h
      subst hm
      rw [decodeVariant, if_pos rfl]
      rfl
    · rw [if_neg hm] at h
      have hs : snake m ≠ snake n := by
        intro he
        apply h1
        have : n ∈ Fields.names r := by
          clear ih h1 h2 hd
          induction r using Fields.rec (motive_1 := fun _ => True) with
          | nil => cases h
          | cons a b c _ ih =>
            rw [find] at h
            by_cases ha : a = n
            · rw [ha]; simp [Fields.names]
            · rw [if_neg ha] at h
              simp [Fields.names, ih h]
          | _ => trivial
        rw [he]
        exact List.mem_map.2 ⟨n, this, rfl⟩
      rw [decodeVariant, if_neg hs]
      exact ih h2 h
  | _ => trivial

theorem wf_find {vs : Fields} {n : String} {t : Ty} (hw : wfAll vs = true) (h : find n vs = some t) : wf t = true := by
  induction vs using Fields.rec (motive_1 := fun _ => True) with
  | nil => cases h
  | cons m s r _ ih =>
    rw [find] at h
    simp only [wfAll, Bool.and_eq_true] at hw
    by_cases hm : m = n
    · rw [if_pos hm] at h; cases h; exact hw.1
    · rw [if_neg hm] at h; exact ih hw.2 h
  | _ => trivial

mutual
/-- What is written with a type is read with every larger type as the same value. -/
theorem decode_encode (s t : Ty) (hs : sub s t = true) (hw : wf t = true) (v : Val) (j : Json)
    (h : encode s v = some j) : decode t j = some v := by
  match s, t with
  | .bool, .bool =>
    cases v <;> simp only [encode, reduceCtorEq] at h
    cases h; rfl
  | .uint a, .uint b =>
    cases v <;> simp only [encode, reduceCtorEq] at h
    rename_i n
    simp only [sub, decide_eq_true_eq] at hs
    split at h
    · rename_i hn
      cases h
      rw [decode, if_pos (Nat.lt_of_lt_of_le hn (Nat.pow_le_pow_right (by decide) hs))]
    · cases h
  | .decimal a, .decimal b =>
    cases v <;> simp only [encode, reduceCtorEq] at h
    rename_i n
    simp only [sub, decide_eq_true_eq] at hs
    split at h
    · rename_i hn
      cases h
      rw [decode, ofDecimal_repr (Nat.lt_of_lt_of_le hn (Nat.pow_le_pow_right (by decide) hs))]
      rfl
    · cases h
  | .text, .text =>
    cases v <;> simp only [encode, reduceCtorEq] at h
    cases h; rfl
  | .hex, .hex =>
    cases v <;> simp only [encode, reduceCtorEq] at h
    cases h
    rw [decode, ofHex_toHex]; rfl
  | .opt s, .opt t =>
    simp only [wf, Bool.and_eq_true] at hw
    rw [sub] at hs
    cases v with
    | none => rw [encode] at h; cases h; rfl
    | some v =>
      rw [encode] at h
      rw [decode_opt (encode_ne_null (notOpt_of_sub hs hw.1) h), decode_encode s t hs hw.2 v j h]
      rfl
    | _ => simp [encode] at h
  | .list s, .list t =>
    rw [wf] at hw
    rw [sub] at hs
    cases v with
    | seq l =>
      rw [encode] at h
      obtain ⟨r, h1, rfl⟩ := Option.map_eq_some_iff.1 h
      rw [decode, mapAll_compose (fun a _ b hb => decode_encode s t hs hw a b hb) h1]
      rfl
    | _ => simp [encode] at h
  | .tuple ss, .tuple ts =>
    rw [wf] at hw
    rw [sub] at hs
    cases v with
    | seq l =>
      rw [encode] at h
      obtain ⟨r, h1, rfl⟩ := Option.map_eq_some_iff.1 h
      rw [decode, decode_encode_tuple ss ts hs hw l r h1]
      rfl
    | _ => simp [encode] at h
  | .struct ss, .struct ts =>
    simp only [wf, Bool.and_eq_true] at hw
    rw [sub] at hs
    cases v with
    | seq l =>
      rw [encode] at h
      obtain ⟨r, h1, rfl⟩ := Option.map_eq_some_iff.1 h
      have hn := (encodeStruct_names h1).trans (subAll_names ss ts hs)
      have hd : distinct (r.map (·.1)) = true := by rw [hn]; exact hw.1
      have hk : r.all (fun p => (Fields.names ts).contains p.1) = true := by
        rw [List.all_eq_true]
        intro p hp
        rw [List.contains_iff_mem, ← hn]
        exact List.mem_map.2 ⟨p, hp, rfl⟩
      rw [decode, if_pos (by rw [hd, hk]; rfl),
        decode_encode_struct ss ts hs hw.2 l r h1 r (fun n j hj => lookup_of_mem hd hj)]
      rfl
    | _ => simp [encode] at h
  | .enum ss, .enum ts =>
    simp only [wf, Bool.and_eq_true] at hw
    rw [sub] at hs
    cases v with
    | variant n v =>
      rw [encode] at h
      exact decode_encode_variant ss ts hs hw.1 hw.2 n v j h
    | _ => simp [encode] at h
  | .unit, _ => cases v <;> simp [encode] at h

theorem decode_encode_tuple (ss ts : Fields) (hs : subAll ss ts = true) (hw : wfAll ts = true) (l : List Val)
    (r : List Json) (h : encodeTuple ss l = some r) : decodeTuple ts r = some l := by
  match ss, ts, l with
  | .nil, .nil, [] => rw [encodeTuple] at h; cases h; rfl
  | .nil, .nil, _ :: _ => simp [encodeTuple] at h
  | .cons _ _ _, .nil, _ => simp [subAll] at hs
  | .nil, .cons _ _ _, _ => simp [subAll] at hs
  | .cons _ _ _, .cons _ _ _, [] => simp [encodeTuple] at h
  | .cons n s q, .cons m t p, v :: l =>
    rw [encodeTuple] at h
    simp only [Option.bind_eq_bind, Option.bind_eq_some_iff, Option.pure_def, Option.some.injEq] at h
    obtain ⟨j, h1, r', h2, rfl⟩ := h
    simp only [subAll, Bool.and_eq_true, decide_eq_true_eq] at hs
    simp only [wfAll, Bool.and_eq_true] at hw
    rw [decodeTuple, decode_encode s t hs.1.2 hw.1 v j h1, decode_encode_tuple q p hs.2 hw.2 l r' h2]
    rfl

theorem decode_encode_struct (ss ts : Fields) (hs : subAll ss ts = true) (hw : wfAll ts = true) (l : List Val)
    (r : List (String × Json)) (h : encodeStruct ss l = some r) (all : List (String × Json))
    (hl : ∀ n j, (n, j) ∈ r → lookup n all = some j) : decodeStruct ts all = some l := by
  match ss, ts, l with
  | .nil, .nil, [] => rfl
  | .nil, .nil, _ :: _ => simp [encodeStruct] at h
  | .cons _ _ _, .nil, _ => simp [subAll] at hs
  | .nil, .cons _ _ _, _ => simp [subAll] at hs
  | .cons _ _ _, .cons _ _ _, [] => simp [encodeStruct] at h
  | .cons n s q, .cons m t p, v :: l =>
    rw [encodeStruct] at h
    simp only [Option.bind_eq_bind, Option.bind_eq_some_iff, Option.pure_def, Option.some.injEq] at h
    obtain ⟨j, h1, r', h2, rfl⟩ := h
    simp only [subAll, Bool.and_eq_true, decide_eq_true_eq] at hs
    simp only [wfAll, Bool.and_eq_true] at hw
    rw [decodeStruct, ← hs.1.1, hl n j List.mem_cons_self]
    simp only
    rw [decode_encode s t hs.1.2 hw.1 v j h1, decode_encode_struct q p hs.2 hw.2 l r' h2 all
      (fun n j hj => hl n j (List.mem_cons_of_mem _ hj))]
    rfl

theorem decode_encode_variant (ss ts : Fields) (hs : subVariants ss ts = true)
    (hd : distinct ((Fields.names ts).map snake) = true) (hw : wfAll ts = true) (n : String) (v : Val) (j : Json)
    (h : encodeVariant ss n v = some j) : decode (.enum ts) j = some (.variant n v) := by
  match ss with
  | .nil => simp [encodeVariant] at h
  | .cons m s r =>
    simp only [subVariants, Bool.and_eq_true] at hs
    rw [encodeVariant] at h
    by_cases hm : m = n
    · rw [if_pos hm] at h
      subst hm
      cases hf : find m ts with
      | none => rw [hf] at hs; exact absurd hs.1 (by simp)
      | some t =>
        rw [hf] at hs
        have hsub : sub s t = true := hs.1
        cases hu : isUnit s with
        | true =>
          rw [hu, if_pos rfl] at h
          split at h
          · rename_i hv
            cases h
            cases v <;> simp [Val.isUnit] at hv
            rw [decode, decodeVariant_find hd hf, decodeContent, ← isUnit_sub hsub, hu]
            rfl
          · cases h
        | false =>
          rw [hu, if_neg (by decide)] at h
          obtain ⟨j', h1, rfl⟩ := Option.map_eq_some_iff.1 h
          rw [decode, decodeVariant_find hd hf, decodeContent, ← isUnit_sub hsub, hu, if_neg (by decide),
            Option.bind_some, decode_encode s t hsub (wf_find hw hf) v j' h1]
          rfl
    · rw [if_neg hm] at h
      exact decode_encode_variant r ts hs.2 hd hw n v j h
end

/-- What is sent with a type is received with every larger type as the same value. -/
theorem receive_send {s t : Ty} (hs : sub s t = true) (hw : wf t = true) {v : Val} {b : Bytes}
    (h : send s v = some b) : receive t b = some v := by
  unfold send at h
  obtain ⟨j, h1, rfl⟩ := Option.map_eq_some_iff.1 h
  unfold receive
  rw [Json.ofBinary_toBinary]
  exact decode_encode s t hs hw v j h1

end Hpl.Schema
