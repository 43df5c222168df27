import Verif.Lemmas.Exec
import Verif.Lemmas.Storage
import Verif.Spec.Storage

/-! # The layout of storage (C78) -/

namespace Hpl

open Spec Storage

namespace Storage

/-- What the proofs need of the names. -/
def Good (L : Layout) : Prop :=
  (L.items.map ascii).Nodup ∧ (L.maps.map (fun p => ascii p.1)).Nodup ∧
    (∀ n ∈ L.items, ∃ x ∈ (ascii n).head?, x ≠ 0) ∧
    ∀ p ∈ L.maps, (ascii p.1).length < 256 ∧ ∃ x ∈ (ascii p.1).getLast?, x ≠ 255

theorem good_layouts : ∀ L ∈ layouts, Good L := by
  unfold Good
  decide +kernel

theorem lengthPrefixed_inj {a b r r' : Bytes} (ha : a.length < 65536) (hb : b.length < 65536)
    (h : lengthPrefixed a ++ r = lengthPrefixed b ++ r') : a = b ∧ r = r' := by
  unfold lengthPrefixed at h
  rw [List.append_assoc, List.append_assoc] at h
  obtain ⟨h1, h2⟩ := List.append_inj h (by simp)
  have h3 := congrArg fromBE h1
  rw [fromBE_beN_of_lt (by omega), fromBE_beN_of_lt (by omega)] at h3
  exact List.append_inj h2 h3

theorem head_lengthPrefixed {a : Bytes} (ha : a.length < 256) (r : Bytes) : (lengthPrefixed a ++ r).head? = some 0 := by
  have h0 : a.length / 256 = 0 := by omega
  simp [lengthPrefixed, beN, h0]

theorem index_inj {α β : Type} {l : List α} {f : α → β} (h : (l.map f).Nodup) {i j : Nat} {a b : α}
    (hi : l[i]? = some a) (hj : l[j]? = some b) (hab : f a = f b) : i = j := by
  have hi' : (l.map f)[i]? = some (f a) := by rw [List.getElem?_map, hi]; rfl
  have hj' : (l.map f)[j]? = some (f a) := by rw [List.getElem?_map, hj, hab]; rfl
  obtain ⟨h1, h2⟩ := List.getElem?_eq_some_iff.1 hi'
  obtain ⟨h3, h4⟩ := List.getElem?_eq_some_iff.1 hj'
  exact (List.getElem_inj h).1 (h2.trans h4.symm)

theorem mapName_eq {L : Layout} {i : Nat} {name : String} {shape : Shape} (h : L.maps[i]? = some (name, shape)) :
    mapName L i = name := by
  simp [mapName, h]

theorem itemName_eq {L : Layout} {i : Nat} {name : String} (h : L.items[i]? = some name) : itemName L i = name := by
  simp [itemName, h]

/-- A key that starts like those of a map is one of that map. -/
theorem of_prefix {L : Layout} (hL : Good L) {i : Nat} {name : String} {shape : Shape} (hi : L.maps[i]? = some (name, shape))
    {c : Cell} (hc : Has L c) (h : lengthPrefixed (ascii name) <+: rawKey L c) :
    ∃ prefixes last, c = .entry i prefixes last ∧ KeyOf shape prefixes last := by
  obtain ⟨_, hmaps, hitem, hmap⟩ := hL
  have hlen := (hmap _ (List.mem_of_getElem? hi)).1
  obtain ⟨r, hr⟩ := h
  cases c with
  | item j =>
    exfalso
    obtain ⟨n, hn⟩ : ∃ n, L.items[j]? = some n := ⟨_, List.getElem?_eq_getElem hc⟩
    obtain ⟨x, hx, hx0⟩ := hitem n (List.mem_of_getElem? hn)
    have h1 := head_lengthPrefixed hlen r
    rw [hr, rawKey, itemName_eq hn, hx] at h1
    cases h1
    exact hx0 rfl
  | entry j prefixes last =>
    obtain ⟨name', shape', hj, hk⟩ := hc
    have hlen' := (hmap _ (List.mem_of_getElem? hj)).1
    rw [rawKey, mapName_eq hj, prefixKey, List.append_assoc] at hr
    have h1 := (lengthPrefixed_inj (by simp only at hlen; omega) (by simp only at hlen'; omega) hr).1
    have hij := index_inj hmaps hi hj h1
    subst hij
    rw [hi] at hj
    cases hj
    exact ⟨_, _, rfl, hk⟩

/-- Different places have different keys. -/
theorem rawKey_inj {L : Layout} (hL : Good L) {c c' : Cell} (hc : Has L c) (hc' : Has L c') (h : rawKey L c = rawKey L c') :
    c = c' := by
  have entries : ∀ i prefixes last, ∀ {c'}, Has L (.entry i prefixes last) → Has L c' →
      rawKey L (.entry i prefixes last) = rawKey L c' → Cell.entry i prefixes last = c' := by
    intro i prefixes last c' hc hc' h
    obtain ⟨name, shape, hi, hk⟩ := hc
    have hlen := (hL.2.2.2 _ (List.mem_of_getElem? hi)).1
    have h0 := h
    rw [rawKey, mapName_eq hi, prefixKey, List.append_assoc] at h
    obtain ⟨prefixes', last', rfl, hk'⟩ := of_prefix hL hi hc' ⟨_, h⟩
    rw [rawKey, mapName_eq hi, prefixKey, List.append_assoc, List.append_cancel_left_eq] at h
    cases shape with
    | u32 =>
      obtain ⟨rfl, _⟩ := hk
      obtain ⟨rfl, _⟩ := hk'
      simp only [List.flatMap_nil, List.nil_append] at h
      rw [h]
    | bytes =>
      cases hk
      cases hk'
      simp only [List.flatMap_nil, List.nil_append] at h
      rw [h]
    | u32Bytes =>
      obtain ⟨d, rfl⟩ := hk
      obtain ⟨d', rfl⟩ := hk'
      simp only [List.flatMap_cons, List.flatMap_nil, List.append_nil] at h
      obtain ⟨h1, rfl⟩ := lengthPrefixed_inj (by simp) (by simp) h
      rw [h1]
  cases c with
  | entry i prefixes last => exact entries i prefixes last hc hc' h
  | item i =>
    cases c' with
    | entry j prefixes last => exact (entries j prefixes last hc' hc h.symm).symm
    | item j =>
      have hi := List.getElem?_eq_getElem hc
      have hj := List.getElem?_eq_getElem hc'
      rw [rawKey, rawKey, itemName_eq hi, itemName_eq hj] at h
      rw [index_inj hL.1 hi hj h]

theorem holds_nil (c : Cell) : holds [] c = none := rfl

theorem holds_append (ops : List (Cell × Option Bytes)) (op : Cell × Option Bytes) (c : Cell) :
    holds (ops ++ [op]) c = if op.1 = c then op.2 else holds ops c := by
  unfold holds lastFor
  rw [List.reverse_append, List.reverse_singleton, List.singleton_append, List.find?_cons]
  by_cases h : op.1 = c
  · simp [h]
  · simp [h]

/-- Reading and the keys in use after a history. -/
theorem history {L : Layout} (hL : Good L) (ops : List (Cell × Option Bytes)) (hops : ∀ op ∈ ops, Has L op.1) :
    (∀ c, Has L c → read L (ops.foldl (write L) OMap.empty) c = holds ops c) ∧
      ∀ k ∈ (ops.foldl (write L) OMap.empty).keys, ∃ c, Has L c ∧ k = rawKey L c := by
  induction ops using List.reverseRecOn with
  | nil =>
    refine ⟨fun c _ => rfl, fun k hk => ?_⟩
    cases hk
  | append_singleton ops op ih =>
    obtain ⟨ih1, ih2⟩ := ih fun o ho => hops o (by simp [ho])
    have hop := hops op (by simp)
    rw [List.foldl_append, List.foldl_cons, List.foldl_nil]
    obtain ⟨c0, v⟩ := op
    constructor
    · intro c hc
      rw [holds_append]
      have h1 := ih1 c hc
      have hk : rawKey L c = rawKey L c0 ↔ c0 = c :=
        ⟨fun h => (rawKey_inj hL hc hop h).symm, fun h => by rw [h]⟩
      cases v with
      | none =>
        simp only [write, read, OMap.get_erase, hk]
        split
        · rfl
        · exact h1
      | some v =>
        simp only [write, read, OMap.get_insert, hk]
        split
        · rfl
        · exact h1
    · intro k hk
      cases v with
      | none => exact ih2 k ((OMap.keys_erase_mem _ _ _).1 hk).2
      | some v =>
        rcases (OMap.keys_insert_mem _ _ _ _).1 hk with rfl | hk
        · exact ⟨c0, hop, rfl⟩
        · exact ih2 k hk

theorem concat_of_getLast {a : Bytes} {x : UInt8} (h : x ∈ a.getLast?) : ∃ A, a = A ++ [x] :=
  ⟨_, (List.dropLast_append_getLast? x h).symm⟩

theorem prefix_good {L : Layout} (hL : Good L) {i : Nat} {name : String} {shape : Shape}
    (hi : L.maps[i]? = some (name, shape)) : ∃ A x, lengthPrefixed (ascii name) = A ++ [x] ∧ x ≠ 255 := by
  obtain ⟨x, hx, hx'⟩ := (hL.2.2.2 _ (List.mem_of_getElem? hi)).2
  obtain ⟨A, hA⟩ := concat_of_getLast hx
  exact ⟨beN 2 (ascii name).length ++ A, x, by rw [lengthPrefixed, List.append_assoc, ← hA], hx'⟩

end Storage

/-- C78. In every contract, different items and map entries are kept under different keys of the storage. After any history
of saves and removals, reading a place gives what was last saved there, and the listings of a map (pages in both directions
and all keys) are those of a map with exactly these entries: entries of other maps, items and entries under other prefixes
never show up, and none is left out. -/
theorem C78_storage (L : Layout) (hL : L ∈ layouts) (ops : List (Cell × Option Bytes)) (hops : ∀ op ∈ ops, Has L op.1) :
    (∀ c c', Has L c → Has L c' → rawKey L c = rawKey L c' → c = c') ∧
    (∀ c, Has L c → Storage.read L (ops.foldl (write L) OMap.empty) c = holds ops c) ∧
    (∀ i name, L.maps[i]? = some (name, .u32) → ∃ m : OMap UInt32 Bytes,
      (∀ d, m.get d = holds ops (.entry i [] (u32be d))) ∧
      listAll keyU32 (ops.foldl (write L) OMap.empty) (prefixKey name []) = .ok m.entries ∧
      ∀ start limit order, page u32be keyU32 (ops.foldl (write L) OMap.empty) (prefixKey name []) start limit order =
        rangePage m start limit order) ∧
    (∀ i name, L.maps[i]? = some (name, .bytes) → ∃ m : OMap Bytes Bytes,
      (∀ k, m.get k = holds ops (.entry i [] k)) ∧
      listAll keyBytes (ops.foldl (write L) OMap.empty) (prefixKey name []) = .ok m.entries ∧
      ∀ start limit order, page id keyBytes (ops.foldl (write L) OMap.empty) (prefixKey name []) start limit order =
        rangePage m start limit order) ∧
    (∀ i name, L.maps[i]? = some (name, .u32Bytes) → ∀ d : UInt32, ∃ m : OMap Bytes Bytes,
      (∀ k, m.get k = holds ops (.entry i [u32be d] k)) ∧
      listAll keyBytes (ops.foldl (write L) OMap.empty) (prefixKey name [u32be d]) = .ok m.entries ∧
      ∀ start limit order, page id keyBytes (ops.foldl (write L) OMap.empty) (prefixKey name [u32be d]) start limit order =
        rangePage m start limit order) := by
  have hL := good_layouts L hL
  obtain ⟨hread, hkeys⟩ := history hL ops hops
  refine ⟨fun c c' hc hc' h => rawKey_inj hL hc hc' h, hread, ?_, ?_, ?_⟩
  · intro i name hi
    obtain ⟨A, x, hA, hx⟩ := prefix_good hL hi
    have hP : ∃ y ∈ prefixKey name [], y ≠ 255 := ⟨x, by simp [prefixKey, hA], hx⟩
    obtain ⟨m, h1, h2⟩ := typed (s := ops.foldl (write L) OMap.empty) (P := prefixKey name []) (fun x y => u32be_lt (a := x) (b := y)) hP (by
      intro k hk h1 h2
      obtain ⟨c, hc, rfl⟩ := hkeys k hk
      simp only [prefixKey, List.flatMap_nil, List.append_nil] at h1 h2 ⊢
      obtain ⟨prefixes, last, rfl, hp, d, rfl⟩ := of_prefix hL hi hc (by
        rw [hA] at h1 h2 ⊢
        exact prefix_of_range_concat hx h1 h2)
      subst hp
      exact ⟨d, by simp [rawKey, mapName_eq hi, prefixKey]⟩)
    have hdec : ∀ x, keyU32 (u32be x) = .ok x := fun x => by simp [keyU32]
    refine ⟨m, fun d => ?_, listAll_typed hdec h1, page_typed (fun x y => u32be_lt) hdec hP h1⟩
    rw [h2, ← hread (.entry i [] (u32be d)) ⟨name, _, hi, rfl, d, rfl⟩, Storage.read, rawKey, mapName_eq hi]
  · intro i name hi
    obtain ⟨A, x, hA, hx⟩ := prefix_good hL hi
    have hP : ∃ y ∈ prefixKey name [], y ≠ 255 := ⟨x, by simp [prefixKey, hA], hx⟩
    obtain ⟨m, h1, h2⟩ := typed (s := ops.foldl (write L) OMap.empty) (P := prefixKey name []) (enc := id) (fun x y => Iff.rfl) hP (by
      intro k hk h1 h2
      obtain ⟨c, hc, rfl⟩ := hkeys k hk
      simp only [prefixKey, List.flatMap_nil, List.append_nil] at h1 h2 ⊢
      obtain ⟨prefixes, last, rfl, hp⟩ := of_prefix hL hi hc (by
        rw [hA] at h1 h2 ⊢
        exact prefix_of_range_concat hx h1 h2)
      cases hp
      exact ⟨last, by simp [rawKey, mapName_eq hi, prefixKey]⟩)
    refine ⟨m, fun d => ?_, listAll_typed (enc := id) (fun _ => rfl) h1,
      page_typed (enc := id) (fun x y => Iff.rfl) (fun _ => rfl) hP h1⟩
    rw [h2, ← hread (.entry i [] d) ⟨name, _, hi, rfl⟩, Storage.read, rawKey, mapName_eq hi]
    rfl
  · intro i name hi dest
    obtain ⟨A, x, hA, hx⟩ := prefix_good hL hi
    have hpk : prefixKey name [u32be dest] = lengthPrefixed (ascii name) ++ ([0, 4] ++ u32be dest) := by
      simp [prefixKey, lengthPrefixed, beN]
    have hP : ∃ y ∈ prefixKey name [u32be dest], y ≠ 255 := ⟨x, by simp [hpk, hA], hx⟩
    have hup : lengthPrefixed (ascii name) <+: upperBound (prefixKey name [u32be dest]) := by
      rw [hpk, upperBound_append _ ⟨4, by simp, by decide⟩]
      exact List.prefix_append _ _
    obtain ⟨m, h1, h2⟩ := typed (s := ops.foldl (write L) OMap.empty) (P := prefixKey name [u32be dest]) (enc := id)
      (fun x y => Iff.rfl) hP (by
      intro k hk h1 h2
      obtain ⟨c, hc, rfl⟩ := hkeys k hk
      have hpre : lengthPrefixed (ascii name) <+: rawKey L c :=
        prefix_of_between (by rw [hpk]; exact List.prefix_append _ _) hup h1 (le_of_lt h2)
      obtain ⟨prefixes, last, rfl, d, rfl⟩ := of_prefix hL hi hc hpre
      have : prefixKey name [u32be dest] <+: rawKey L (.entry i [u32be d] last) :=
        prefix_of_range hP (by simp [rawKey, mapName_eq hi, prefixKey, lengthPrefixed]; omega) h1 h2
      obtain ⟨r, hr⟩ := this
      exact ⟨r, hr.symm⟩)
    refine ⟨m, fun d => ?_, listAll_typed (enc := id) (fun _ => rfl) h1,
      page_typed (enc := id) (fun x y => Iff.rfl) (fun _ => rfl) hP h1⟩
    rw [h2, ← hread (.entry i [u32be dest] d) ⟨name, _, hi, dest, rfl⟩, Storage.read, rawKey, mapName_eq hi]
    rfl

namespace Ex

/-- A history of the custom routing hook: its owner, routes, and custom hooks for the last domain and the one before. One is
replaced, one removed. -/
def storageHistory : List (Cell × Option Bytes) :=
  [(.item 0, some [1]), (.item 1, some [2]), (.entry 0 [] (u32be 4294967295), some [3]), (.entry 0 [] (u32be 7), some [4]),
   (.entry 1 [u32be 4294967295] [255, 255], some [5]), (.entry 1 [u32be 4294967295] [], some [6]),
   (.entry 1 [u32be 4294967294] [255, 255], some [7]), (.entry 1 [u32be 4294967295] [255, 255], some [8]),
   (.entry 1 [u32be 4294967295] [0], some [9]), (.entry 1 [u32be 4294967295] [0], none)]

def storageNow : Raw := storageHistory.foldl (write Storage.customHook) OMap.empty

theorem storageHistory_has : ∀ op ∈ storageHistory, Has Storage.customHook op.1 := by
  intro op h
  simp only [storageHistory, List.mem_cons, List.not_mem_nil, or_false] at h
  rcases h with rfl | rfl | rfl | rfl | rfl | rfl | rfl | rfl | rfl | rfl
  · exact (by decide +kernel : 0 < Storage.customHook.items.length)
  · exact (by decide +kernel : 1 < Storage.customHook.items.length)
  · exact ⟨_, _, rfl, rfl, _, rfl⟩
  · exact ⟨_, _, rfl, rfl, _, rfl⟩
  all_goals exact ⟨_, _, rfl, _, rfl⟩

end Ex

/-- The hypotheses are met by a history that writes to items, to both maps, and under the last prefix, whose upper bound
carries. Seven places are in use, and the listings show the right ones. -/
example : Storage.customHook ∈ layouts ∧ (∀ op ∈ Ex.storageHistory, Has Storage.customHook op.1) ∧
    Ex.storageNow.entries.length = 7 ∧
    Storage.customHook.maps[1]? = some ("custom_hooks", .u32Bytes) ∧
    upperBound [0, 4, 255, 255, 255, 255] = [0, 5, 0, 0, 0, 0] ∧
    Storage.read Storage.customHook Ex.storageNow (.entry 1 [u32be 4294967295] [255, 255]) = some [8] ∧
    page id keyBytes Ex.storageNow (prefixKey "custom_hooks" [u32be 4294967295]) none none none =
      .ok [([], [6]), ([255, 255], [8])] ∧
    page id keyBytes Ex.storageNow (prefixKey "custom_hooks" [u32be 4294967295]) (some []) none none =
      .ok [([255, 255], [8])] ∧
    page id keyBytes Ex.storageNow (prefixKey "custom_hooks" [u32be 4294967294]) none none (some .desc) =
      .ok [([255, 255], [7])] ∧
    page u32be keyU32 Ex.storageNow (prefixKey "routes" []) none none none = .ok [(7, [4]), (4294967295, [3])] := by
  refine ⟨by simp [layouts], Ex.storageHistory_has, ?_⟩
  decide +kernel

end Hpl
