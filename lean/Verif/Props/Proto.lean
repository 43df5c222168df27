import Verif.Lemmas.Proto
import Verif.Lemmas.Warp
import Verif.Props.Warp

/-! # Messages to the token factory: C73 -/

namespace Hpl

open Spec Proto

namespace Proto

/-! ## Decoder -/

theorem splitBytes_ok {n : Nat} {b x r : Bytes} : splitBytes n b = .ok (x, r) ↔ b = x ++ r ∧ x.length = n := by
  unfold splitBytes
  constructor
  · intro h
    by_cases hn : n ≤ b.length
    · rw [if_pos hn] at h
      cases h
      exact ⟨(List.take_append_drop n b).symm, by rw [List.length_take]; omega⟩
    · rw [if_neg hn] at h; cases h
  · rintro ⟨rfl, rfl⟩
    rw [if_pos (by rw [List.length_append]; omega)]
    simp

theorem lengthDelimited_ok {b x r : Bytes} :
    lengthDelimited b = .ok (x, r) ↔ ∃ c, b = c ++ r ∧ Spec.Content (.bytes x) c := by
  unfold lengthDelimited
  rw [bind_eq_ok]
  constructor
  · rintro ⟨⟨n, t⟩, h1, h2⟩
    obtain ⟨p, rfl, h3⟩ := decodeVarint_iff.1 h1
    obtain ⟨h4, rfl⟩ := splitBytes_ok.1 h2
    simp only at h4
    subst h4
    exact ⟨p ++ x, (List.append_assoc _ _ _).symm, .bytes x p h3⟩
  · rintro ⟨c, rfl, h⟩
    cases h with
    | bytes _ l hl =>
      exact ⟨(x.length, x ++ r), decodeVarint_iff.2 ⟨l, List.append_assoc _ _ _, hl⟩, splitBytes_ok.2 ⟨rfl, rfl⟩⟩

theorem skipField_ok {w : Nat} {b r : Bytes} :
    skipField w b = .ok r ↔ ∃ v c, b = c ++ r ∧ Spec.Content v c ∧ v.wireType = w := by
  unfold skipField
  constructor
  · intro h
    by_cases h0 : w = 0
    · rw [if_pos h0] at h
      obtain ⟨⟨n, t⟩, h1, hf⟩ := bind_eq_ok.1 h
      cases hf
      obtain ⟨p, rfl, h3⟩ := decodeVarint_iff.1 h1
      exact ⟨.number n, p, rfl, .number n p h3, h0.symm⟩
    rw [if_neg h0] at h
    by_cases h1 : w = 1
    · rw [if_pos h1] at h
      obtain ⟨⟨x, t⟩, h2, hf⟩ := bind_eq_ok.1 h
      cases hf
      obtain ⟨rfl, h3⟩ := splitBytes_ok.1 h2
      exact ⟨.eight x, x, rfl, .eight x h3, h1.symm⟩
    rw [if_neg h1] at h
    by_cases h2 : w = 2
    · rw [if_pos h2] at h
      obtain ⟨⟨x, t⟩, h3, hf⟩ := bind_eq_ok.1 h
      cases hf
      obtain ⟨c, rfl, h4⟩ := lengthDelimited_ok.1 h3
      exact ⟨.bytes x, c, rfl, h4, h2.symm⟩
    rw [if_neg h2] at h
    by_cases h5 : w = 5
    · rw [if_pos h5] at h
      obtain ⟨⟨x, t⟩, h3, hf⟩ := bind_eq_ok.1 h
      cases hf
      obtain ⟨rfl, h4⟩ := splitBytes_ok.1 h3
      exact ⟨.four x, x, rfl, .four x h4, h5.symm⟩
    rw [if_neg h5] at h
    cases h
  · rintro ⟨v, c, rfl, h, rfl⟩
    cases h with
    | number n b hb =>
      exact bind_eq_ok.2 ⟨(n, r), decodeVarint_iff.2 ⟨_, rfl, hb⟩, rfl⟩
    | eight b hb =>
      exact bind_eq_ok.2 ⟨(c, r), splitBytes_ok.2 ⟨rfl, hb⟩, rfl⟩
    | bytes b l hl =>
      exact bind_eq_ok.2 ⟨(b, r), lengthDelimited_ok.2 ⟨_, rfl, .bytes b l hl⟩, rfl⟩
    | four b hb =>
      exact bind_eq_ok.2 ⟨(c, r), splitBytes_ok.2 ⟨rfl, hb⟩, rfl⟩

theorem mergeString_ok {w : Nat} {b r : Bytes} {s : String} :
    mergeString w b = .ok (s, r) ↔ ∃ x c, b = c ++ r ∧ Spec.Content (.bytes x) c ∧ w = 2 ∧ ofUtf8 x = some s := by
  unfold mergeString
  constructor
  · intro h
    by_cases hw : w = 2
    · rw [if_pos hw] at h
      obtain ⟨⟨x, t⟩, h1, h2⟩ := bind_eq_ok.1 h
      obtain ⟨c, rfl, h3⟩ := lengthDelimited_ok.1 h1
      simp only at h2
      cases hx : ofUtf8 x with
      | none => rw [hx] at h2; cases h2
      | some s' =>
        rw [hx] at h2
        cases h2
        exact ⟨x, c, rfl, h3, hw, hx⟩
    · rw [if_neg hw] at h; cases h
  · rintro ⟨x, c, rfl, h, rfl, hx⟩
    rw [if_pos rfl]
    refine bind_eq_ok.2 ⟨(x, r), lengthDelimited_ok.2 ⟨c, rfl, h⟩, ?_⟩
    simp only [hx]
    rfl

theorem mergeField_ok {d s : String} {b r : Bytes} :
    mergeField d b = .ok (s, r) ↔ ∃ k v p, b = p ++ r ∧ Field k v p ∧ lastString 1 d [(k, v)] = some s := by
  unfold mergeField
  constructor
  · intro h
    obtain ⟨⟨key, t⟩, h1, ha⟩ := bind_eq_ok.1 h
    obtain ⟨_, h2, hb⟩ := bind_eq_ok.1 ha
    obtain ⟨_, h3, hc⟩ := bind_eq_ok.1 hb
    clear h ha hb
    obtain ⟨p, rfl, h4⟩ := decodeVarint_iff.1 h1
    replace h2 := of_decide_eq_true (ensure_eq_ok.1 h2)
    replace h3 := of_decide_eq_true (ensure_eq_ok.1 h3)
    simp only at h2 h3 hc
    by_cases hk : key / 8 = 1
    · rw [if_pos hk] at hc
      obtain ⟨x, c, rfl, h5, h6, h7⟩ := mergeString_ok.1 hc
      refine ⟨1, .bytes x, p ++ c, (List.append_assoc _ _ _).symm, ⟨p, c, rfl, ?_, h5, Nat.le_refl _, by decide⟩, ?_⟩
      · have : 8 * 1 + (WireVal.bytes x).wireType = key := by simp only [WireVal.wireType]; omega
        rw [this]; exact h4
      · simp [lastString, h7]
    · rw [if_neg hk] at hc
      obtain ⟨rest, h5, hf⟩ := bind_eq_ok.1 hc
      cases hf
      obtain ⟨v, c, rfl, h6, h7⟩ := skipField_ok.1 h5
      refine ⟨key / 8, v, p ++ c, (List.append_assoc _ _ _).symm, ⟨p, c, rfl, ?_, h6, h3, by omega⟩, ?_⟩
      · have : 8 * (key / 8) + v.wireType = key := by omega
        rw [this]; exact h4
      · simp [lastString, hk]
  · rintro ⟨k, v, _, rfl, ⟨p, c, rfl, h1, h2, h3, h4⟩, hs⟩
    have hv := wireType_lt v
    rw [List.append_assoc]
    have hdiv : (8 * k + v.wireType) / 8 = k := by omega
    have hmod : (8 * k + v.wireType) % 8 = v.wireType := by omega
    refine bind_eq_ok.2 ⟨(8 * k + v.wireType, c ++ r), decodeVarint_iff.2 ⟨p, rfl, h1⟩, bind_eq_ok.2 ⟨(),
      ensure_eq_ok.2 (decide_eq_true (by simp only; omega)), bind_eq_ok.2 ⟨(), ensure_eq_ok.2 (decide_eq_true (by
      simp only; omega)), ?_⟩⟩⟩
    simp only [hdiv, hmod]
    by_cases hk : k = 1
    · rw [if_pos hk]
      simp only [lastString, if_pos hk] at hs
      cases v with
      | bytes x =>
        simp only at hs
        cases hx : ofUtf8 x with
        | none => rw [hx] at hs; cases hs
        | some s' =>
          rw [hx] at hs
          simp only [Option.bind_some, Option.some.injEq] at hs
          subst hs
          exact mergeString_ok.2 ⟨x, c, rfl, h2, rfl, hx⟩
      | _ => cases hs
    · rw [if_neg hk]
      simp only [lastString, if_neg hk, Option.some.injEq] at hs
      subst hs
      exact bind_eq_ok.2 ⟨r, skipField_ok.2 ⟨v, c, rfl, h2, rfl⟩, rfl⟩

theorem mergeAll_ok : ∀ (fuel : Nat) (b : Bytes) (d s : String), b.length ≤ fuel →
    (mergeAll fuel d b = .ok s ↔ ∃ fs, Wire fs b ∧ lastString 1 d fs = some s) := by
  have base : ∀ (fuel : Nat) (d s : String),
      (mergeAll fuel d [] = .ok s ↔ ∃ fs, Wire fs [] ∧ lastString 1 d fs = some s) := by
    intro fuel d s
    have e : mergeAll fuel d [] = .ok d := by cases fuel <;> rfl
    rw [e]
    constructor
    · intro h; cases h; exact ⟨[], .nil, rfl⟩
    · rintro ⟨fs, h1, h2⟩
      rw [← wire_unique .nil h1] at h2
      simp only [lastString, Option.some.injEq] at h2
      rw [h2]
  intro fuel
  induction fuel with
  | zero =>
    intro b d s hb
    rw [List.length_eq_zero_iff.1 (Nat.le_zero.1 hb)]
    exact base 0 d s
  | succ f ih =>
    intro b d s hb
    cases b with
    | nil => exact base _ d s
    | cons x t =>
      rw [mergeAll, bind_eq_ok]
      constructor
      · rintro ⟨⟨d', r⟩, h1, h2⟩
        obtain ⟨k, v, p, hp, hf, hs⟩ := mergeField_ok.1 h1
        have hne := field_ne_nil hf
        have hlen : r.length ≤ f := by
          have h1 := congrArg List.length hp
          rw [List.length_append] at h1
          have : p.length ≠ 0 := fun h => hne (List.length_eq_zero_iff.1 h)
          have hb' : List.length (x :: t) ≤ f + 1 := hb
          omega
        obtain ⟨fs, h3, h4⟩ := (ih r d' s hlen).1 h2
        refine ⟨(k, v) :: fs, by rw [hp]; exact .cons k v p fs r hf h3, ?_⟩
        have := lastString_append 1 [(k, v)] fs d
        rw [List.singleton_append, hs] at this
        rw [this]
        exact h4
      · rintro ⟨fs, h1, h2⟩
        generalize he : x :: t = bb at h1
        cases h1 with
        | nil => cases he
        | cons k v p fs r hf ht =>
          have hne := field_ne_nil hf
          have hlen : r.length ≤ f := by
            have h1 := congrArg List.length he
            rw [List.length_append] at h1
            have : p.length ≠ 0 := fun h => hne (List.length_eq_zero_iff.1 h)
            have hb' : List.length (x :: t) ≤ f + 1 := hb
            omega
          have happ := lastString_append 1 [(k, v)] fs d
          rw [List.singleton_append, h2] at happ
          cases hd : lastString 1 d [(k, v)] with
          | none => rw [hd] at happ; cases happ
          | some d' =>
            rw [hd] at happ
            exact ⟨(d', r), mergeField_ok.2 ⟨k, v, p, rfl, hf, hd⟩, (ih r d' s hlen).2 ⟨fs, ht, happ.symm⟩⟩

/-! ## Encoder -/

theorem lastString_skip {k : Nat} {d : String} {a b : List (Nat × WireVal)} (h : lastString k d a = some d) :
    lastString k d (a ++ b) = lastString k d b := by
  rw [lastString_append, h]; rfl

theorem lastString_keep {k : Nat} {d s : String} {a b : List (Nat × WireVal)} (h : lastString k d a = some s)
    (hb : lastString k s b = some s) : lastString k d (a ++ b) = some s := by
  rw [lastString_append, h]; exact hb

theorem coin_read {denom : String} {n : Nat} (h : (coin denom n.repr).length < 2 ^ 64) :
    ReadAs (coin denom n.repr) (IsCoin denom n) := by
  unfold coin at *
  rw [List.length_append] at h
  refine readAs_of (wire_append (wire_string (by decide) (by decide) (by omega))
    (wire_string (by decide) (by decide) (by omega))) ⟨?_, ⟨n.repr, ?_, decimal_repr n⟩, ?_⟩
  · exact lastString_keep (lastString_str_same 1 denom) (lastString_str_other (by decide) _ _)
  · exact (lastString_skip (lastString_str_other (by decide) _ _)).trans (lastString_str_same 2 _)
  · intro f hf
    rcases List.mem_append.1 hf with hf | hf
    · exact .inl (tags_str hf)
    · exact .inr (tags_str hf)

theorem senderCoin_read {sender denom : String} {n : Nat}
    (h : (senderCoin sender (coin denom n.repr)).length < 2 ^ 64) :
    ReadAs (senderCoin sender (coin denom n.repr)) (IsSenderCoin sender denom n) := by
  unfold senderCoin message at *
  rw [List.length_append] at h
  have hl := length_le_encodeField 2 (coin denom n.repr)
  refine readAs_of (wire_append (wire_string (by decide) (by decide) (by omega))
    (wire_single (field_bytes (by decide) (by decide) (by omega)))) ⟨?_, ⟨coin denom n.repr, ?_, coin_read (by omega)⟩, ?_⟩
  · refine lastString_keep (lastString_str_same 1 sender) ?_
    simp [lastString]
  · rw [valuesAt_append, valuesAt_str_other (by decide)]
    simp [valuesAt]
  · intro f hf
    rcases List.mem_append.1 hf with hf | hf
    · exact .inl (tags_str hf)
    · rw [List.mem_singleton] at hf; rw [hf]; exact .inr rfl

theorem unit_read {u : DenomUnit} (h : (denomUnit u).length < 2 ^ 64) : ReadAs (denomUnit u) (IsUnit u) := by
  unfold denomUnit at *
  rw [strings_eq] at *
  simp only [List.length_append] at h
  have hm := wire_messages (k := 3) (by decide) (by decide) (u.aliases.map utf8) (by omega)
  have hmap : (u.aliases.map utf8).map (fun b => (3, WireVal.bytes b)) =
      (u.aliases.map (fun s => WireVal.bytes (utf8 s))).map (fun v => (3, v)) := by simp
  rw [hmap] at hm
  refine readAs_of (wire_append (wire_append (wire_string (by decide) (by decide) (by omega))
    (wire_uint32 (by decide) (by decide))) hm) ⟨?_, ?_, ?_, ?_⟩
  · refine lastString_keep (lastString_keep (lastString_str_same 1 _) (lastString_num_other (by decide) _ _)) ?_
    exact lastString_bytes_other (by decide) _ _
  · unfold numberAt
    rw [valuesAt_append, valuesAt_append, valuesAt_str_other (by decide), valuesAt_map_other (by decide)]
    unfold numFields
    by_cases h0 : u.exponent = 0
    · rw [if_pos h0, h0]; rfl
    · rw [if_neg h0]; rfl
  · rw [valuesAt_append, valuesAt_append, valuesAt_str_other (by decide), valuesAt_num_other (by decide),
      valuesAt_map_same]
    rfl
  · intro f hf
    rcases List.mem_append.1 hf with hf | hf
    · rcases List.mem_append.1 hf with hf | hf
      · exact .inl (tags_str hf)
      · exact .inr (.inl (tags_num hf))
    · exact .inr (.inr (tags_map hf))

theorem metadata_read {m : Metadata} (h : (metadata m).length < 2 ^ 64) : ReadAs (metadata m) (IsMetadata m) := by
  unfold metadata at *
  simp only [List.length_append] at h
  have hm := wire_messages (k := 2) (by decide) (by decide) (m.denomUnits.map denomUnit) (by omega)
  have hmap : (m.denomUnits.map denomUnit).map (fun b => (2, WireVal.bytes b)) =
      ((m.denomUnits.map denomUnit).map WireVal.bytes).map (fun v => (2, v)) := by simp
  rw [hmap] at hm
  have so : ∀ {k k' : Nat}, k' ≠ k → ∀ s d, lastString k d (strFields k' s) = some d := fun h s d =>
    lastString_str_other h s d
  have vo : ∀ {k k' : Nat}, k' ≠ k → ∀ s, valuesAt k (strFields k' s) = [] := fun h s => valuesAt_str_other h s
  have mo : ∀ {k : Nat}, 2 ≠ k → ∀ (d : String) (l : List WireVal), lastString k d (l.map (fun v => (2, v))) = some d :=
    fun h d l => lastString_bytes_other h d l
  refine readAs_of (wire_append (wire_append (wire_append (wire_append (wire_append
    (wire_string (by decide) (by decide) (by omega)) hm) (wire_string (by decide) (by decide) (by omega)))
    (wire_string (by decide) (by decide) (by omega))) (wire_string (by decide) (by decide) (by omega)))
    (wire_string (by decide) (by decide) (by omega))) ⟨?_, ⟨m.denomUnits.map denomUnit, ?_, ?_⟩, ?_, ?_, ?_, ?_, ?_⟩
  · exact lastString_keep (lastString_keep (lastString_keep (lastString_keep (lastString_keep
      (lastString_str_same 1 _) (mo (by decide) _ _)) (so (by decide) _ _)) (so (by decide) _ _)) (so (by decide) _ _))
      (so (by decide) _ _)
  · simp only [valuesAt_append, vo (by decide : 1 ≠ 2), vo (by decide : 3 ≠ 2), vo (by decide : 4 ≠ 2),
      vo (by decide : 5 ≠ 2), vo (by decide : 6 ≠ 2), valuesAt_map_same, List.append_nil, List.nil_append]
  · rw [List.forall₂_map_right_iff, List.forall₂_same]
    intro u hu
    have := length_mem_messages (k := 2) (List.mem_map.2 ⟨u, hu, rfl⟩ : denomUnit u ∈ m.denomUnits.map denomUnit)
    exact unit_read (by omega)
  · exact lastString_keep (lastString_keep (lastString_keep ((lastString_skip (lastString_keep
      (so (by decide) _ _) (mo (by decide) _ _))).trans (lastString_str_same 3 _)) (so (by decide) _ _))
      (so (by decide) _ _)) (so (by decide) _ _)
  · exact lastString_keep (lastString_keep ((lastString_skip (lastString_keep (lastString_keep
      (so (by decide) _ _) (mo (by decide) _ _)) (so (by decide) _ _))).trans (lastString_str_same 4 _))
      (so (by decide) _ _)) (so (by decide) _ _)
  · exact lastString_keep ((lastString_skip (lastString_keep (lastString_keep (lastString_keep
      (so (by decide) _ _) (mo (by decide) _ _)) (so (by decide) _ _)) (so (by decide) _ _))).trans
      (lastString_str_same 5 _)) (so (by decide) _ _)
  · exact (lastString_skip (lastString_keep (lastString_keep (lastString_keep (lastString_keep
      (so (by decide) _ _) (mo (by decide) _ _)) (so (by decide) _ _)) (so (by decide) _ _)) (so (by decide) _ _))).trans
      (lastString_str_same 6 _)
  · intro f hf
    simp only [List.mem_append] at hf
    rcases hf with ((((hf | hf) | hf) | hf) | hf) | hf
    · rw [tags_str hf]; decide
    · rw [tags_map hf]; decide
    · rw [tags_str hf]; decide
    · rw [tags_str hf]; decide
    · rw [tags_str hf]; decide
    · rw [tags_str hf]; decide

end Proto

/-! ## C73 -/

/-- **C73** (mint and burn). Whoever reads the mint and burn messages by the rules of protobuf finds the sender, the
denomination and the amount, and nothing else. (No encoding is longer than 2^64 bytes on any machine.) -/
theorem C73_token_factory_messages (self : Addr) (denom : String) (amount : Nat) :
    (∃ b, stargate (.tfMint self denom amount) = some ⟨"/osmosis.tokenfactory.v1beta1.MsgMint", b⟩ ∧
      (b.length < 2 ^ 64 → ReadAs b (IsSenderCoin self denom amount))) ∧
    (∃ b, stargate (.tfBurn self denom amount) = some ⟨"/osmosis.tokenfactory.v1beta1.MsgBurn", b⟩ ∧
      (b.length < 2 ^ 64 → ReadAs b (IsSenderCoin self denom amount))) :=
  ⟨⟨_, rfl, fun h => senderCoin_read h⟩, ⟨_, rfl, fun h => senderCoin_read h⟩⟩

/-- **C73** (routers). The only messages to the token factory a native router sends after deployment are: `MsgMint` for a
delivery, of the amount in the message delivered, and `MsgBurn` for a transfer, of the amount transferred; both in the
name of the router and of its token, and only in bridged mode. -/
theorem C73_router_messages (C : Codec) (self : Addr) (s : Ownable.State × Warp.State)
    (c : ExecCall (Addr → Bool) Warp.Msg) (x : (Ownable.State × Warp.State) × Response)
    (hx : Warp.execute Warp.native C self s c = .ok x) (m : OutMsg) (hm : m ∈ x.2.msgs) (g : Stargate)
    (hg : stargate m = some g) (hlen : g.value.length < 2 ^ 64) :
    s.2.mode = .bridged ∧ ∃ t, s.2.token = some t ∧
      ((∃ origin msgSender body, c.msg = .inr (.handle origin msgSender body) ∧
          g.typeUrl = "/osmosis.tokenfactory.v1beta1.MsgMint" ∧
          ReadAs g.value (IsSenderCoin self t (fromBE (bytesOf 32 64 body)))) ∨
        ∃ dest recipient amount hook metadata, c.msg = .inr (.transferRemote dest recipient amount hook metadata) ∧
          g.typeUrl = "/osmosis.tokenfactory.v1beta1.MsgBurn" ∧ ReadAs g.value (IsSenderCoin self t amount)) := by
  obtain ⟨e, sender, funds, msg⟩ := c
  have load : ∀ {t}, Warp.loadToken s.2 = .ok t → s.2.token = some t := by
    intro t h
    unfold Warp.loadToken at h
    split at h
    · cases h; assumption
    · cases h
  match msg with
  | .inl o =>
    obtain ⟨o', _, rfl⟩ := execOwned_inl.1 hx
    cases hm
  | .inr (.router r) =>
    obtain ⟨p, h, rfl⟩ := execute_inr.1 hx
    obtain ⟨_, _, hf⟩ := bind_eq_ok.1 h
    cases hf; cases hm
  | .inr (.connection r) =>
    obtain ⟨p, h, rfl⟩ := execute_inr.1 hx
    obtain ⟨_, _, hf⟩ := bind_eq_ok.1 h
    cases hf; cases hm
  | .inr (.handle origin msgSender body) =>
    obtain ⟨r, h, rfl⟩ := execute_handle.1 hx
    unfold Warp.handle at h
    obtain ⟨_, _, h⟩ := bind_eq_ok.1 h
    obtain ⟨_, _, h⟩ := bind_eq_ok.1 h
    obtain ⟨_, _, h⟩ := bind_eq_ok.1 h
    obtain ⟨wm, hwm, h⟩ := bind_eq_ok.1 h
    obtain ⟨dst, _, h⟩ := bind_eq_ok.1 h
    obtain ⟨t, ht, h⟩ := bind_eq_ok.1 h
    obtain ⟨l, hl, hf⟩ := bind_eq_ok.1 h
    cases hf
    obtain ⟨_, rfl⟩ := native_release.1 hl
    have ham : wm.amount = fromBE (bytesOf 32 64 body) := by rw [(Warp.decode_ok.1 hwm).2]
    simp only at hm
    unfold nativeRelease at hm
    cases hmode : s.2.mode with
    | collateral =>
      rw [hmode] at hm
      simp only [List.mem_singleton] at hm
      subst hm; cases hg
    | bridged =>
      rw [hmode] at hm
      simp only [List.mem_cons, List.not_mem_nil, or_false] at hm
      rcases hm with rfl | rfl
      · cases hg
        refine ⟨rfl, t, load ht, .inl ⟨_, _, _, rfl, rfl, ?_⟩⟩
        rw [← ham]
        exact senderCoin_read hlen
      · cases hg
  | .inr (.transferRemote dest recipient amount hook metadata) =>
    obtain ⟨r, h, rfl⟩ := execute_transfer.1 hx
    unfold Warp.transferRemote at h
    obtain ⟨_, _, h⟩ := bind_eq_ok.1 h
    obtain ⟨t, ht, h⟩ := bind_eq_ok.1 h
    obtain ⟨p, hp, h⟩ := bind_eq_ok.1 h
    obtain ⟨_, _, h⟩ := bind_eq_ok.1 h
    obtain ⟨_, _, hf⟩ := bind_eq_ok.1 h
    cases hf
    have hp2 := (native_take.1 hp).2
    simp only at hm
    rw [hp2] at hm
    rcases List.mem_append.1 hm with hm | hm
    · unfold nativeTake at hm
      cases hmode : s.2.mode with
      | collateral => rw [hmode] at hm; cases hm
      | bridged =>
        rw [hmode] at hm
        simp only [List.mem_singleton] at hm
        subst hm
        cases hg
        exact ⟨rfl, t, load ht, .inr ⟨_, _, _, _, _, rfl, rfl, senderCoin_read hlen⟩⟩
    · rw [List.mem_singleton] at hm
      subst hm; cases hg

/-- **C73** (no two requests share their bytes). -/
theorem C73_requests_differ (self self' : Addr) (denom denom' : String) (n n' : Nat)
    (hl : (mint self denom n).length < 2 ^ 64) :
    (mint self denom n = mint self' denom' n' → self = self' ∧ denom = denom' ∧ n = n') ∧
    (burn self denom n = burn self' denom' n' → self = self' ∧ denom = denom' ∧ n = n') := by
  have key : senderCoin self (coin denom n.repr) = senderCoin self' (coin denom' n'.repr) →
      self = self' ∧ denom = denom' ∧ n = n' := by
    intro h
    have h1 := senderCoin_read (sender := self) (denom := denom) (n := n) hl
    have h2 := senderCoin_read (sender := self') (denom := denom') (n := n') (by rw [← h]; exact hl)
    rw [← h] at h2
    obtain ⟨⟨fs, hw⟩, h1⟩ := h1
    obtain ⟨a1, ⟨c, a2, a3⟩, _⟩ := h1 fs hw
    obtain ⟨b1, ⟨c', b2, b3⟩, _⟩ := h2.2 fs hw
    rw [a2] at b2
    cases b2
    obtain ⟨⟨gs, hw'⟩, a3⟩ := a3
    obtain ⟨x1, ⟨d, x2, x3⟩, _⟩ := a3 gs hw'
    obtain ⟨y1, ⟨d', y2, y3⟩, _⟩ := b3.2 gs hw'
    rw [a1] at b1; rw [x1] at y1; rw [x2] at y2
    cases b1; cases y1; cases y2
    exact ⟨rfl, rfl, x3.2.2.symm.trans y3.2.2⟩
  exact ⟨key, key⟩

/-- **C73** (deployment). A bridged token is created with the router as sender and the given name, and its metadata, if
given, arrives unchanged. -/
theorem C73_deployment_messages (self : Addr) (denom : String) (m : Option Proto.Metadata) :
    ∃ create rest, instantiateMsgs self denom m =
        ⟨"/osmosis.tokenfactory.v1beta1.MsgCreateDenom", create⟩ :: rest ∧
      (create.length < 2 ^ 64 → ReadAs create (fun fs => stringAt 1 fs = some self ∧ stringAt 2 fs = some denom ∧
        ∀ f ∈ fs, f.1 = 1 ∨ f.1 = 2)) ∧
      (m = none → rest = []) ∧
      ∀ md, m = some md → ∃ b, rest = [⟨"/osmosis.tokenfactory.v1beta1.MsgSetDenomMetadata", b⟩] ∧
        (b.length < 2 ^ 64 → ReadAs b (fun fs => stringAt 1 fs = some self ∧
          (∃ c, valuesAt 2 fs = [.bytes c] ∧ ReadAs c (IsMetadata md)) ∧ ∀ f ∈ fs, f.1 = 1 ∨ f.1 = 2)) := by
  refine ⟨createDenom self denom, _, rfl, ?_, ?_, ?_⟩
  · intro h
    unfold createDenom at *
    rw [List.length_append] at h
    refine readAs_of (wire_append (wire_string (by decide) (by decide) (by omega))
      (wire_string (by decide) (by decide) (by omega))) ⟨?_, ?_, ?_⟩
    · exact lastString_keep (lastString_str_same 1 _) (lastString_str_other (by decide) _ _)
    · exact (lastString_skip (lastString_str_other (by decide) _ _)).trans (lastString_str_same 2 _)
    · intro f hf
      rcases List.mem_append.1 hf with hf | hf
      · exact .inl (tags_str hf)
      · exact .inr (tags_str hf)
  · rintro rfl; rfl
  · rintro md rfl
    refine ⟨_, rfl, fun h => ?_⟩
    unfold setDenomMetadata message at *
    rw [List.length_append] at h
    have hl := length_le_encodeField 2 (Proto.metadata md)
    refine readAs_of (wire_append (wire_string (by decide) (by decide) (by omega))
      (wire_single (field_bytes (by decide) (by decide) (by omega)))) ⟨?_, ⟨_, ?_, metadata_read (by omega)⟩, ?_⟩
    · refine lastString_keep (lastString_str_same 1 _) ?_
      simp [lastString]
    · rw [valuesAt_append, valuesAt_str_other (by decide)]
      simp [valuesAt]
    · intro f hf
      rcases List.mem_append.1 hf with hf | hf
      · exact .inl (tags_str hf)
      · rw [List.mem_singleton] at hf; rw [hf]; exact .inr rfl

/-- **C73** (reply). The reply of the token factory is accepted exactly if its data is a protobuf message whose field 1
is a string, and then exactly this string becomes the token of the router and nothing else changes. -/
theorem C73_reply (s s' : Ownable.State × Warp.State) (id : Nat) (data : Option Bytes) :
    Proto.reply s id data = .ok s' ↔
      id = 0 ∧ ∃ b fs denom, data = some b ∧ Wire fs b ∧ stringAt 1 fs = some denom ∧
        s' = (s.1, { s.2 with token := some denom }) := by
  unfold Proto.reply
  cases data with
  | none =>
    constructor
    · intro h; cases h
    · rintro ⟨_, b, _, _, h, _⟩; cases h
  | some b =>
    simp only
    by_cases hid : id = 0
    · rw [if_pos hid, bind_eq_ok]
      constructor
      · rintro ⟨denom, h1, hf⟩
        cases hf
        obtain ⟨fs, h2, h3⟩ := (mergeAll_ok _ b "" denom (Nat.le_refl _)).1 h1
        exact ⟨hid, b, fs, denom, rfl, h2, h3, rfl⟩
      · rintro ⟨_, b', fs, denom, h1, h2, h3, rfl⟩
        cases h1
        exact ⟨denom, (mergeAll_ok _ b "" denom (Nat.le_refl _)).2 ⟨fs, h2, h3⟩, rfl⟩
    · rw [if_neg hid]
      constructor
      · intro h; cases h
      · rintro ⟨h, _⟩; exact absurd h hid

/-- **C73** (amounts). Printing a 256-bit amount and parsing it as a 128-bit one succeeds exactly for amounts that fit,
and gives the same amount. -/
theorem C73_to_uint128 (n k : Nat) : Proto.toUint128 n = .ok k ↔ n < 2 ^ 128 ∧ k = n := by
  have hd := decimal_repr n
  have hval : Nat.ofDigitChars 10 n.repr.toList 0 = n := by
    rw [Nat.toList_repr]; exact Nat.ofDigitChars_ten_toDigits
  unfold Proto.toUint128 parseU128
  rw [if_pos ⟨hd.1, by rw [List.all_eq_true]; exact hd.2.1⟩, hval]
  by_cases h : n < 2 ^ 128
  · rw [if_pos h]
    constructor
    · intro hh; cases hh; exact ⟨h, rfl⟩
    · rintro ⟨_, rfl⟩; rfl
  · rw [if_neg h]
    constructor
    · intro hh; cases hh
    · rintro ⟨hh, _⟩; exact absurd hh h

/-- The model of the routers uses the direct check. -/
theorem toUint128_eq (n : Nat) : (Proto.toUint128 n).toOption = (Warp.toUint128 n).toOption := by
  unfold Warp.toUint128
  by_cases h : n < u128Lim
  · rw [if_pos h, (C73_to_uint128 n n).2 ⟨h, rfl⟩]
  · rw [if_neg h]
    cases hh : Proto.toUint128 n with
    | error e => rfl
    | ok k => exact absurd ((C73_to_uint128 n k).1 hh).1 h

/-- The bytes of a mint message, and what the reply to a creation says. -/
example : (stargate (.tfMint "osmo1xyz" "factory/osmo1xyz/uhpl" 1500)).map (fun x => x.value) =
    some ([10, 8] ++ utf8 "osmo1xyz" ++ [18, 29, 10, 21] ++ utf8 "factory/osmo1xyz/uhpl" ++ [18, 4] ++ utf8 "1500") ∧
    (mint "osmo1xyz" "factory/osmo1xyz/uhpl" 1500).length < 2 ^ 64 ∧
    (decodeResponse ([10, 21] ++ utf8 "factory/osmo1xyz/uhpl")).toOption = some "factory/osmo1xyz/uhpl" ∧
    (decodeResponse ([16, 200, 1, 10, 3] ++ utf8 "abc")).toOption = some "abc" ∧
    (decodeResponse ([10, 4] ++ utf8 "abc")).toOption = none ∧
    (decodeResponse [10, 1, 255]).toOption = none := by decide +kernel

/-- A router in bridged mode with a route, a transfer and a delivery: one burn and one mint message. -/
example :
    let s : Ownable.State × Warp.State :=
      (Ownable.init "o", ⟨some "factory/self/t", .bridged, "osmo", "mb", Connection.empty,
        OMap.insert OMap.empty 7 (some (List.replicate 32 1))⟩)
    (Warp.execute Warp.native ⟨fun _ _ => some "acc", fun _ => none⟩ "self" s
        ⟨fun _ => true, "alice", [⟨"factory/self/t", 5⟩], .inr (.transferRemote 7 (List.replicate 32 2) 5 none none)⟩).toOption.map
          (fun x => x.2.msgs.filterMap stargate) =
      some [⟨"/osmosis.tokenfactory.v1beta1.MsgBurn", burn "self" "factory/self/t" 5⟩] ∧
    (Warp.execute Warp.native ⟨fun _ _ => some "acc", fun _ => none⟩ "self" s
        ⟨fun _ => true, "mb", [], .inr (.handle 7 (List.replicate 32 1) (List.replicate 32 2 ++ u256be 9))⟩).toOption.map
          (fun x => x.2.msgs.filterMap stargate) =
      some [⟨"/osmosis.tokenfactory.v1beta1.MsgMint", mint "self" "factory/self/t" 9⟩] := by decide +kernel

end Hpl
