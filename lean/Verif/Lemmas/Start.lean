import Verif.Lemmas.EventsOthers
import Verif.Lemmas.Interface
import Verif.Spec.Start

/-! # Lemmas about making contracts -/

namespace Hpl.Start

open Interface Schema Spec Events

/-! ## Logs -/

section Logs

variable {a b : List TextEvent} {e : TextEvent}

theorem lastOf_pre {p : TextEvent → Prop} [DecidablePred p] (h : ∀ e ∈ a, ¬ p e) : lastOf p (a ++ b) = lastOf p b := by
  have : a.filter (fun e => p e) = [] := List.filter_eq_nil_iff.2 fun e he => by simp [h e he]
  unfold lastOf
  rw [List.filter_append, this, List.nil_append]

theorem ofType_pre {t : String} (h : ∀ e ∈ a, e.ty ≠ t) : ofType t (a ++ b) = ofType t b := by
  have : ofType t a = [] := List.filter_eq_nil_iff.2 fun e he => by simp [h e he]
  rw [ofType_append, this, List.nil_append]

theorem latest_pre {t k : String} (h : ∀ e ∈ a, e.ty ≠ t) : latest t k (a ++ b) = latest t k b := by
  unfold latest
  rw [ofType_pre h]

theorem toldSince_of {ty k k0 x : String} (h : ∀ x ∈ e :: a, x.ty ≠ ty) (hx : attr k0 e = some x) :
    toldSince ty k k0 (e :: a ++ b) = some ((latest ty k b).getD x) := by
  unfold toldSince
  rw [latest_pre h]
  show Option.or _ (attr k0 e) = _
  rw [hx]
  cases latest ty k b <;> rfl

theorem OwnersKnown.of {first : Addr} {owner pending : Option Addr} (h : OwnersTold first owner pending b)
    (ht : ∀ x ∈ e :: a, x.ty ∉ ownershipTypes) (hx : attr "owner" e = some first) :
    OwnersKnown owner pending (e :: a ++ b) := by
  refine ⟨?_, ?_⟩
  · rw [h.1, toldSince_of (fun x hx' heq => ht x hx' (by rw [heq]; decide)) hx]
  · rw [h.2, lastOf_pre ht]

theorem lastOrFirst_none {ty : String} (h : ∀ x ∈ e :: a, x.ty ≠ ty) (hb : lastOf (fun e => e.ty = ty) b = none) :
    lastOrFirst ty (e :: a ++ b) = some e := by
  unfold lastOrFirst
  rw [lastOf_pre h, hb]
  rfl

theorem lastOrFirst_some {ty : String} {x : TextEvent} (h : ∀ x ∈ e :: a, x.ty ≠ ty)
    (hb : lastOf (fun e => e.ty = ty) b = some x) : lastOrFirst ty (e :: a ++ b) = some x := by
  unfold lastOrFirst
  rw [lastOf_pre h, hb]
  rfl

theorem ListKnown.of {ty k : String} {first l : List Addr} (h : ListTold ty k first l b) (ht : ∀ x ∈ e :: a, x.ty ≠ ty)
    (hx : attr k e = some (commas first)) : ListKnown ty k l (e :: a ++ b) := by
  unfold ListTold at h
  split at h
  · rename_i hn
    subst h
    exact ⟨e, _, lastOrFirst_none ht hn, hx, rfl, listed_commas⟩
  · rename_i x hn
    refine ⟨x, _, lastOrFirst_some ht hn, h.1, rfl, listed_commas⟩

theorem FeeKnown.of {first fee : Coin} (h : FeeTold first fee b) (ht : ∀ x ∈ e :: a, x.ty ≠ "hpl_hook_fee::set_fee")
    (hd : attr "fee_denom" e = some first.denom) (hn : attr "fee_amount" e = some (number first.amount)) :
    FeeKnown fee (e :: a ++ b) := by
  unfold FeeTold at h
  split at h
  · rename_i h0
    subst h
    exact ⟨e, lastOrFirst_none ht h0, hd, _, hn, number_decimal _⟩
  · rename_i x h0
    exact ⟨x, lastOrFirst_some ht h0, h⟩

end Logs

/-! ## Texts -/

section Texts

/-- The value has the type. -/
def Enc (t : Ty) (v : Val) : Prop := ∃ j, encode t v = some j

/-- The values have the types. -/
def EncAll (fs : Fields) (l : List Val) : Prop := ∃ js, encodeStruct fs l = some js

theorem EncAll.nil : EncAll .nil [] := ⟨[], by rw [encodeStruct]⟩

theorem EncAll.cons {n : String} {t : Ty} {v : Val} {r : Fields} {l : List Val} (h : Enc t v) (hr : EncAll r l) :
    EncAll (.cons n t r) (v :: l) := by
  obtain ⟨j, hj⟩ := h
  obtain ⟨js, hjs⟩ := hr
  exact ⟨(n, j) :: js, by rw [encodeStruct, hj, hjs]; rfl⟩

theorem Enc.struct {fs : Fields} {l : List Val} (h : EncAll fs l) : Enc (.struct fs) (.seq l) := by
  obtain ⟨js, hjs⟩ := h
  exact ⟨.obj js, by rw [encode_struct, hjs]; rfl⟩

theorem Enc.text (s : String) : Enc .text (.text s) := ⟨_, encode_text s⟩

theorem Enc.bool (b : Bool) : Enc .bool (.bool b) := ⟨.bool b, by rw [encode]⟩

theorem Enc.uint {bits n : Nat} (h : n < 2 ^ bits) : Enc (.uint bits) (.nat n) := ⟨.num n, by rw [encode, if_pos h]⟩

theorem Enc.decimal {bits n : Nat} (h : n < 2 ^ bits) : Enc (.decimal bits) (.nat n) :=
  ⟨.str n.repr, by rw [encode, if_pos h]⟩

theorem Enc.list {α : Type} {t : Ty} {g : α → Val} {l : List α} (h : ∀ a ∈ l, Enc t (g a)) :
    Enc (.list t) (.seq (l.map g)) := by
  have : ∃ r, mapAll (encode t) (l.map g) = some r := by
    induction l with
    | nil => exact ⟨[], rfl⟩
    | cons a l ih =>
      obtain ⟨c, hc⟩ := h a List.mem_cons_self
      obtain ⟨r, hr⟩ := ih (fun x hx => h x (List.mem_cons_of_mem _ hx))
      exact ⟨c :: r, by rw [List.map_cons, mapAll, hc, hr]; rfl⟩
  obtain ⟨r, hr⟩ := this
  exact ⟨.arr r, by rw [encode, hr]; rfl⟩

theorem Enc.texts (l : List String) : Enc (.list .text) (textsVal l) := Enc.list (fun a _ => Enc.text a)

theorem Enc.opt {α : Type} {t : Ty} {g : α → Val} {o : Option α} (h : ∀ a, o = some a → Enc t (g a)) :
    Enc (.opt t) (option g o) := by
  cases o with
  | none => exact ⟨.null, by rw [option, encode]⟩
  | some a =>
    obtain ⟨c, hc⟩ := h a rfl
    exact ⟨c, by rw [option, encode, hc]⟩

theorem Enc.opt_text (o : Option String) : Enc (.opt .text) (option .text o) := Enc.opt (fun a _ => Enc.text a)

theorem Enc.first {n : String} {t : Ty} {r : Fields} {v : Val} (hu : isUnit t = false) (h : Enc t v) :
    Enc (.enum (.cons n t r)) (.variant n v) := by
  obtain ⟨j, hj⟩ := h
  exact ⟨.obj [(snake n, j)], by rw [encode_enum, encodeVariant, if_pos rfl, hu, hj]; rfl⟩

theorem Enc.next {n m : String} {t : Ty} {r : Fields} {v : Val} (hn : n ≠ m) (h : Enc (.enum r) (.variant m v)) :
    Enc (.enum (.cons n t r)) (.variant m v) := by
  obtain ⟨j, hj⟩ := h
  exact ⟨j, by rw [encode_enum, encodeVariant, if_neg hn, ← encode_enum, hj]⟩

theorem Enc.denomUnit (u : Proto.DenomUnit) : Enc denomUnitTy (denomUnitVal u) :=
  .struct (.cons (.text _) (.cons (.decimal u.exponent.toNat_lt) (.cons (.texts _) .nil)))

theorem Enc.metadata (m : Proto.Metadata) : Enc metadataTy (metadataVal m) :=
  .struct (.cons (.text _) (.cons (.list (fun u _ => .denomUnit u)) (.cons (.text _) (.cons (.text _) (.cons (.text _)
    (.cons (.text _) .nil))))))

theorem Enc.nativeToken (t : NativeToken) : Enc nativeTokenTy (nativeTokenVal t) := by
  cases t with
  | bridged d m =>
    exact Enc.first rfl (.struct (.cons (.text _) (.cons (.opt (fun m _ => .metadata m)) .nil)))
  | collateral d => exact Enc.next (by decide) (Enc.first rfl (.struct (.cons (.text _) .nil)))

theorem Enc.marketing (m : Marketing) : Enc (st [("project", .opt .text), ("description", .opt .text),
    ("marketing", .opt .text), ("logo", .opt (en [("Url", .text)]))]) (marketingVal m) :=
  .struct (.cons (.opt_text _) (.cons (.opt_text _) (.cons (.opt_text _) (.cons (.opt (fun l _ => Enc.first rfl (.text l))) .nil))))

theorem Enc.cw20Init {m : Cw20Init} (h : TokenFits m) : Enc cw20InitTy (cw20InitVal m) := by
  refine .struct (.cons (.text _) (.cons (.text _) (.cons (.uint m.decimals.toNat_lt) (.cons (.list fun b hb => ?_)
    (.cons (.opt fun x hx => ?_) (.cons (.opt fun x _ => .marketing x) .nil))))))
  · exact .struct (.cons (.text _) (.cons (.decimal (h.1 b hb)) .nil))
  · exact .struct (.cons (.text _) (.cons (.opt fun n hn => .decimal (h.2 x.1 n (by rw [hx, ← hn]))) .nil))

theorem Enc.cw20Token {t : Cw20Token} (h : ∀ c m, t = .bridged c m → TokenFits m) : Enc cw20TokenTy (cw20TokenVal t) := by
  cases t with
  | bridged c m => exact Enc.first rfl (.struct (.cons (.uint c.toNat_lt) (.cons (.cw20Init (h c m rfl)) .nil)))
  | collateral a => exact Enc.next (by decide) (Enc.first rfl (.struct (.cons (.text _) .nil)))

theorem Enc.msg (m : Msg) (h : StartFits m) : Enc (instantiateTy m.contract) m.val := by
  cases m with
  | mailbox a b d => exact .struct (.cons (.text _) (.cons (.text _) (.cons (.uint d.toNat_lt) .nil)))
  | va a b => exact .struct (.cons (.text _) (.cons (.text _) .nil))
  | aggregateHook o l => exact .struct (.cons (.text _) (.cons (.texts _) .nil))
  | feeHook o c => exact .struct (.cons (.text _) (.cons (.struct (.cons (.text _) (.cons (.decimal h) .nil))) .nil))
  | merkleHook a => exact .struct (.cons (.text _) .nil)
  | pausableHook o p => exact .struct (.cons (.text _) (.cons (.bool _) .nil))
  | routingHook o => exact .struct (.cons (.text _) .nil)
  | customHook o => exact .struct (.cons (.text _) .nil)
  | fallbackHook o => exact .struct (.cons (.text _) .nil)
  | igp a b c d g =>
    exact .struct (.cons (.text _) (.cons (.text _) (.cons (.text _) (.cons (.text _) (.cons (.decimal h) .nil)))))
  | oracle o => exact .struct (.cons (.text _) .nil)
  | aggregateIsm o l t => exact .struct (.cons (.text _) (.cons (.texts _) (.cons (.uint t.toNat_lt) .nil)))
  | multisigIsm o => exact .struct (.cons (.text _) .nil)
  | pausableIsm o p => exact .struct (.cons (.text _) (.cons (.bool _) .nil))
  | routingIsm o l =>
    exact .struct (.cons (.text _) (.cons (.list fun x _ => .struct (.cons (.uint x.1.toNat_lt) (.cons (.text _) .nil))) .nil))
  | warpNative t a b c =>
    exact .struct (.cons (.nativeToken t) (.cons (.text _) (.cons (.text _) (.cons (.text _) .nil))))
  | warpCw20 t a b c =>
    refine .struct (.cons (.cw20Token ?_) (.cons (.text _) (.cons (.text _) (.cons (.text _) .nil))))
    rintro x m rfl
    exact h
  | cw20 m => exact .cw20Init h

/-! ### Different messages have different values -/

theorem option_inj {α : Type} {f : α → Val} (hf : ∀ a b, f a = f b → a = b) {o p : Option α} (h : option f o = option f p) :
    o = p := by
  cases o <;> cases p <;> simp [option] at h ⊢
  exact hf _ _ h

theorem seq_inj {α : Type} {f : α → Val} (hf : ∀ a b, f a = f b → a = b) {l m : List α}
    (h : Val.seq (l.map f) = .seq (m.map f)) : l = m :=
  List.map_injective_iff.2 (fun a b => hf a b) (Val.seq.inj h)

theorem text_inj (a b : String) (h : Val.text a = .text b) : a = b := Val.text.inj h

theorem nat_inj (a b : Nat) (h : Val.nat a = .nat b) : a = b := Val.nat.inj h

theorem textsVal_inj {l m : List String} (h : textsVal l = textsVal m) : l = m := seq_inj text_inj h

theorem denomUnitVal_inj (a b : Proto.DenomUnit) (h : denomUnitVal a = denomUnitVal b) : a = b := by
  obtain ⟨_, x, _⟩ := a
  obtain ⟨_, y, _⟩ := b
  simp only [denomUnitVal, Val.seq.injEq, List.cons.injEq, Val.text.injEq, Val.nat.injEq, and_true] at h
  obtain ⟨rfl, h1, h2⟩ := h
  rw [textsVal_inj h2, UInt32.toNat_inj.1 h1]

theorem metadataVal_inj (a b : Proto.Metadata) (h : metadataVal a = metadataVal b) : a = b := by
  cases a; cases b
  simp only [metadataVal, Val.seq.injEq, List.cons.injEq, Val.text.injEq, and_true] at h
  obtain ⟨rfl, h1, rfl, rfl, rfl, rfl⟩ := h
  rw [List.map_injective_iff.2 (fun a b => denomUnitVal_inj a b) h1]

theorem nativeTokenVal_inj {a b : NativeToken} (h : nativeTokenVal a = nativeTokenVal b) : a = b := by
  cases a <;> cases b <;> simp [nativeTokenVal] at h ⊢
  · exact ⟨h.1, option_inj metadataVal_inj h.2⟩
  · exact h

theorem minterVal_inj (a b : Addr × Option Nat) (h : minterVal a = minterVal b) : a = b := by
  simp only [minterVal, Val.seq.injEq, List.cons.injEq, Val.text.injEq, and_true] at h
  exact Prod.ext h.1 (option_inj nat_inj h.2)

theorem balanceVal_inj (a b : Addr × Nat) (h : balanceVal a = balanceVal b) : a = b := by
  simp only [balanceVal, Val.seq.injEq, List.cons.injEq, Val.text.injEq, Val.nat.injEq, and_true] at h
  exact Prod.ext h.1 h.2

theorem marketingVal_inj (a b : Marketing) (h : marketingVal a = marketingVal b) : a = b := by
  cases a; cases b
  simp only [marketingVal, Val.seq.injEq, List.cons.injEq, and_true] at h
  obtain ⟨h1, h2, h3, h4⟩ := h
  rw [option_inj text_inj h1, option_inj text_inj h2, option_inj text_inj h3,
    option_inj (f := logoVal) (fun a b h => by simpa [logoVal] using h) h4]

theorem cw20InitVal_inj {a b : Cw20Init} (h : cw20InitVal a = cw20InitVal b) : a = b := by
  cases a; cases b
  simp only [cw20InitVal, Val.seq.injEq, List.cons.injEq, Val.text.injEq, Val.nat.injEq, and_true] at h
  obtain ⟨rfl, rfl, h1, h2, h3, h4⟩ := h
  rw [UInt8.toNat_inj.1 h1, List.map_injective_iff.2 (fun a b => balanceVal_inj a b) h2, option_inj minterVal_inj h3,
    option_inj marketingVal_inj h4]

theorem cw20TokenVal_inj {a b : Cw20Token} (h : cw20TokenVal a = cw20TokenVal b) : a = b := by
  cases a <;> cases b <;> simp [cw20TokenVal] at h ⊢
  · exact ⟨UInt64.toNat_inj.1 h.1, cw20InitVal_inj h.2⟩
  · exact h

theorem ismVal_inj (a b : UInt32 × String) (h : ismVal a = ismVal b) : a = b := by
  simp only [ismVal, Val.seq.injEq, List.cons.injEq, Val.text.injEq, Val.nat.injEq, and_true] at h
  exact Prod.ext (UInt32.toNat_inj.1 h.1) h.2

theorem Msg.val_inj {m n : Msg} (hc : m.contract = n.contract) (h : m.val = n.val) : m = n := by
  cases m <;> cases n <;> cases hc
  case mailbox => simp [Msg.val] at h ⊢; exact ⟨h.1, h.2.1, UInt32.toNat_inj.1 h.2.2⟩
  case va => simpa [Msg.val] using h
  case aggregateHook => simp [Msg.val] at h ⊢; exact ⟨h.1, textsVal_inj h.2⟩
  case feeHook => simp [Msg.val] at h ⊢; exact ⟨h.1, by cases ‹Coin›; cases ‹Coin›; simpa using h.2⟩
  case merkleHook => simpa [Msg.val] using h
  case pausableHook => simpa [Msg.val] using h
  case routingHook => simpa [Msg.val] using h
  case customHook => simpa [Msg.val] using h
  case fallbackHook => simpa [Msg.val] using h
  case igp => simpa [Msg.val] using h
  case oracle => simpa [Msg.val] using h
  case aggregateIsm => simp [Msg.val] at h ⊢; exact ⟨h.1, textsVal_inj h.2.1, UInt8.toNat_inj.1 h.2.2⟩
  case multisigIsm => simpa [Msg.val] using h
  case pausableIsm => simpa [Msg.val] using h
  case routingIsm =>
    simp only [Msg.val, Val.seq.injEq, List.cons.injEq, Val.text.injEq, and_true] at h
    rw [h.1, List.map_injective_iff.2 (fun a b => ismVal_inj a b) h.2]
  case warpNative => simp [Msg.val] at h ⊢; exact ⟨nativeTokenVal_inj h.1, h.2⟩
  case warpCw20 => simp [Msg.val] at h ⊢; exact ⟨cw20TokenVal_inj h.1, h.2⟩
  case cw20 => simp [Msg.val] at h ⊢; exact cw20InitVal_inj h

end Texts

/-! ### What is written -/

section Written

/-- The value is written as this text. -/
def Wr (t : Ty) (v : Val) (s : String) : Prop := ∃ j, encode t v = some j ∧ Json.print j = s.toList

/-- The values are written as these texts. -/
def WrAll (fs : Fields) (l : List Val) (ms : List (String × String)) : Prop :=
  ∃ js, encodeStruct fs l = some js ∧ js.map (fun p => (p.1, Json.print p.2)) = ms.map (fun p => (p.1, p.2.toList)) ∧
    ∀ p ∈ js, Plain p.1

theorem WrAll.nil : WrAll .nil [] [] := ⟨[], by rw [encodeStruct], rfl, by simp⟩

theorem WrAll.cons {n : String} {t : Ty} {v : Val} {r : Fields} {l : List Val} {s : String} {ms : List (String × String)}
    (hn : Plain n) (h : Wr t v s) (hr : WrAll r l ms) : WrAll (.cons n t r) (v :: l) ((n, s) :: ms) := by
  obtain ⟨j, hj, hp⟩ := h
  obtain ⟨js, hjs, hps, hpl⟩ := hr
  refine ⟨(n, j) :: js, by rw [encodeStruct, hj, hjs]; rfl, by simp [hp, hps], ?_⟩
  intro p hm
  rcases List.mem_cons.1 hm with rfl | hm
  · exact hn
  · exact hpl p hm

theorem print_members : ∀ (js : List (String × Json)) (ms : List (String × String)),
    js.map (fun p => (p.1, Json.print p.2)) = ms.map (fun p => (p.1, p.2.toList)) → (∀ p ∈ js, Plain p.1) →
    Json.print (.obj js) = (members ms).toList
  | [], [], _, _ => rfl
  | [], m :: ms, h, _ => by simp at h
  | p :: js, [], h, _ => by simp at h
  | (k, j) :: js, (k', s) :: ms, h, hp => by
    simp only [List.map_cons, List.cons.injEq, Prod.mk.injEq] at h
    obtain ⟨⟨rfl, h1⟩, h2⟩ := h
    have hk : Plain k := hp (k, j) List.mem_cons_self
    have key : ∀ (js : List (String × Json)) (ms : List (String × String)) (a : String),
        js.map (fun p => (p.1, Json.print p.2)) = ms.map (fun p => (p.1, p.2.toList)) → (∀ p ∈ js, Plain p.1) →
        a.toList ++ Json.printMembers js =
          (commas (a :: ms.map (fun p => quoted p.1 ++ ":" ++ p.2))).toList ++ ['}'] := by
      intro js
      induction js with
      | nil =>
        intro ms a h _
        cases ms with
        | nil => simp [Json.printMembers, commas]
        | cons => simp at h
      | cons p js ih =>
        intro ms a h hp
        cases ms with
        | nil => simp at h
        | cons m ms =>
          obtain ⟨k, j⟩ := p
          obtain ⟨k', s⟩ := m
          simp only [List.map_cons, List.cons.injEq, Prod.mk.injEq] at h
          obtain ⟨⟨rfl, h1⟩, h2⟩ := h
          have := ih ms (quoted k ++ ":" ++ s) h2 (fun p hm => hp p (List.mem_cons_of_mem _ hm))
          rw [Json.printMembers, closeString_plain (hp (k, j) List.mem_cons_self), h1]
          have hs : commas (a :: List.map (fun p => quoted p.1 ++ ":" ++ p.2) ((k, s) :: ms)) =
              a ++ "," ++ commas ((quoted k ++ ":" ++ s) :: ms.map (fun p => quoted p.1 ++ ":" ++ p.2)) := rfl
          rw [hs, String.toList_append, String.toList_append, List.append_assoc (a.toList ++ _), ← this]
          simp [quoted]
    have := key js ms (quoted k ++ ":" ++ s) h2 (fun p hm => hp p (List.mem_cons_of_mem _ hm))
    rw [Json.print, closeString_plain hk, h1]
    have hs : members ((k, s) :: ms) =
        "{" ++ commas ((quoted k ++ ":" ++ s) :: ms.map (fun p => quoted p.1 ++ ":" ++ p.2)) ++ "}" := rfl
    rw [hs, String.toList_append, String.toList_append, List.append_assoc "{".toList]
    have hb : "}".toList = ['}'] := rfl
    rw [hb, ← this]
    simp [quoted]

theorem print_items : ∀ (js : List Json) (ms : List String), js.map Json.print = ms.map String.toList →
    Json.print (.arr js) = (items ms).toList
  | [], [], _ => rfl
  | [], m :: ms, h => by simp at h
  | p :: js, [], h => by simp at h
  | j :: js, s :: ms, h => by
    simp only [List.map_cons, List.cons.injEq] at h
    obtain ⟨h1, h2⟩ := h
    have key : ∀ (js : List Json) (ms : List String) (a : String), js.map Json.print = ms.map String.toList →
        a.toList ++ Json.printItems js = (commas (a :: ms)).toList ++ [']'] := by
      intro js
      induction js with
      | nil =>
        intro ms a h
        cases ms with
        | nil => simp [Json.printItems, commas]
        | cons => simp at h
      | cons j js ih =>
        intro ms a h
        cases ms with
        | nil => simp at h
        | cons s ms =>
          simp only [List.map_cons, List.cons.injEq] at h
          rw [Json.printItems, h.1, ih ms s h.2]
          have hs : commas (a :: s :: ms) = a ++ "," ++ commas (s :: ms) := rfl
          rw [hs]
          simp
    rw [Json.print, h1, key js ms s h2]
    simp [items]

theorem Wr.struct {fs : Fields} {l : List Val} {ms : List (String × String)} (h : WrAll fs l ms) :
    Wr (.struct fs) (.seq l) (members ms) := by
  obtain ⟨js, hjs, hp, hpl⟩ := h
  exact ⟨.obj js, by rw [encode_struct, hjs]; rfl, print_members js ms hp hpl⟩

theorem Wr.text {s : String} (h : Plain s) : Wr .text (.text s) (quoted s) := ⟨_, encode_text s, print_str h⟩

theorem Wr.bool (b : Bool) : Wr .bool (.bool b) (if b then "true" else "false") :=
  ⟨.bool b, by rw [encode], by cases b <;> rfl⟩

theorem Wr.uint {bits n : Nat} (h : n < 2 ^ bits) : Wr (.uint bits) (.nat n) (toString n) :=
  ⟨.num n, by rw [encode, if_pos h], by rw [Json.print]; rfl⟩

theorem Wr.decimal {bits n : Nat} (h : n < 2 ^ bits) : Wr (.decimal bits) (.nat n) (quoted (toString n)) :=
  ⟨.str n.repr, by rw [encode, if_pos h], print_str (plain_repr n)⟩

theorem Wr.list {α : Type} {t : Ty} {g : α → Val} {f : α → String} {l : List α} (h : ∀ a ∈ l, Wr t (g a) (f a)) :
    Wr (.list t) (.seq (l.map g)) (items (l.map f)) := by
  have : ∃ r, mapAll (encode t) (l.map g) = some r ∧ r.map Json.print = (l.map f).map String.toList := by
    induction l with
    | nil => exact ⟨[], rfl, rfl⟩
    | cons a l ih =>
      obtain ⟨c, hc, hp⟩ := h a List.mem_cons_self
      obtain ⟨r, hr, hq⟩ := ih (fun x hx => h x (List.mem_cons_of_mem _ hx))
      exact ⟨c :: r, by rw [List.map_cons, mapAll, hc, hr]; rfl, by rw [List.map_cons, hp, hq]; rfl⟩
  obtain ⟨r, hr, hq⟩ := this
  exact ⟨.arr r, by rw [encode, hr]; rfl, print_items r _ hq⟩

theorem Wr.texts {l : List String} (h : ∀ a ∈ l, Plain a) : Wr (.list .text) (textsVal l) (items (l.map quoted)) :=
  Wr.list (fun a ha => Wr.text (h a ha))

theorem Wr.opt {α : Type} {t : Ty} {g : α → Val} {f : α → String} {o : Option α} (h : ∀ a, o = some a → Wr t (g a) (f a)) :
    Wr (.opt t) (option g o) (orNull f o) := by
  cases o with
  | none => exact ⟨.null, by rw [option, encode], by simp [Json.print, orNull]⟩
  | some a =>
    obtain ⟨c, hc, hp⟩ := h a rfl
    exact ⟨c, by rw [option, encode, hc], hp⟩

theorem Wr.opt_text {o : Option String} (h : ∀ a, o = some a → Plain a) :
    Wr (.opt .text) (option .text o) (orNull quoted o) := Wr.opt (fun a ha => Wr.text (h a ha))

theorem Wr.first {n k : String} {t : Ty} {r : Fields} {v : Val} {s : String} (hu : isUnit t = false) (hk : snake n = k)
    (hp : Plain k) (h : Wr t v s) : Wr (.enum (.cons n t r)) (.variant n v) (members [(k, s)]) := by
  obtain ⟨j, hj, hs⟩ := h
  refine ⟨.obj [(k, j)], by rw [encode_enum, encodeVariant, if_pos rfl, hu, hj, hk]; rfl, ?_⟩
  exact print_members _ _ (by simp [hs]) (by simpa using hp)

theorem Wr.next {n m : String} {t : Ty} {r : Fields} {v : Val} {s : String} (hn : n ≠ m)
    (h : Wr (.enum r) (.variant m v) s) : Wr (.enum (.cons n t r)) (.variant m v) s := by
  obtain ⟨j, hj, hs⟩ := h
  exact ⟨j, by rw [encode_enum, encodeVariant, if_neg hn, ← encode_enum, hj], hs⟩

theorem Wr.metadata {m : Proto.Metadata} (h : MetadataPlain m) : Wr metadataTy (metadataVal m) (metadataText m) := by
  obtain ⟨h1, h2, h3, h4, h5, h6⟩ := h
  refine .struct (.cons (by decide) (.text h1) (.cons (by decide) (.list (g := denomUnitVal) fun u hu => ?_)
    (.cons (by decide) (.text h3) (.cons (by decide) (.text h4) (.cons (by decide) (.text h5)
    (.cons (by decide) (.text h6) .nil))))))
  exact .struct (.cons (by decide) (.text (h2 u hu).1) (.cons (by decide) (.decimal u.exponent.toNat_lt)
    (.cons (by decide) (.texts (h2 u hu).2) .nil)))

theorem Wr.cw20Init {m : Cw20Init} (h : TokenFits m) (hp : TokenPlain m) : Wr cw20InitTy (cw20InitVal m) (tokenText m) := by
  obtain ⟨h1, h2, h3, h4, h5⟩ := hp
  refine .struct (.cons (by decide) (.text h1) (.cons (by decide) (.text h2) (.cons (by decide) (.uint m.decimals.toNat_lt)
    (.cons (by decide) (.list (g := balanceVal) fun b hb => ?_) (.cons (by decide) (.opt (g := minterVal) fun x hx => ?_)
    (.cons (by decide) (.opt (g := marketingVal) fun x hx => ?_) .nil))))))
  · exact .struct (.cons (by decide) (.text (h3 b hb)) (.cons (by decide) (.decimal (h.1 b hb)) .nil))
  · exact .struct (.cons (by decide) (.text (h4 x hx))
      (.cons (by decide) (.opt fun n hn => .decimal (h.2 x.1 n (by rw [hx, ← hn]))) .nil))
  · obtain ⟨p1, p2, p3, p4⟩ := h5 x hx
    exact .struct (.cons (by decide) (.opt_text p1) (.cons (by decide) (.opt_text p2) (.cons (by decide) (.opt_text p3)
      (.cons (by decide) (.opt (g := logoVal) fun l hl => Wr.first rfl (by decide) (by decide) (.text (p4 l hl))) .nil))))

theorem Wr.owner {a : String} (h : Plain a) : Wr (st [("owner", .text)]) (.seq [.text a]) (members [("owner", quoted a)]) :=
  .struct (.cons (by decide) (.text h) .nil)

theorem Wr.msg (m : Msg) (h : StartFits m) (hp : StartPlain m) : Wr (instantiateTy m.contract) m.val (startText m) := by
  have d : ∀ s ∈ ["hrp", "owner", "domain", "mailbox", "hooks", "fee", "denom", "amount", "paused", "gas_token", "beneficiary",
    "default_gas_usage", "isms", "threshold", "address", "token", "metadata", "code_id", "init_msg", "bridged", "collateral"],
    Plain s := by decide +kernel
  have rest {t : Ty} {v : Val} {s a b c : String} (ht : Wr t v s) (ha : Plain a) (hb : Plain b) (hc : Plain c) :
      Wr (st [("token", t), ("hrp", .text), ("owner", .text), ("mailbox", .text)]) (.seq [v, .text a, .text b, .text c])
        (members [("token", s), ("hrp", quoted a), ("owner", quoted b), ("mailbox", quoted c)]) :=
    .struct (.cons (d _ (by simp)) ht (.cons (d _ (by simp)) (.text ha) (.cons (d _ (by simp)) (.text hb)
      (.cons (d _ (by simp)) (.text hc) .nil))))
  cases m with
  | mailbox a b x =>
    exact .struct (.cons (d _ (by simp)) (.text hp.1) (.cons (d _ (by simp)) (.text hp.2)
      (.cons (d _ (by simp)) (.uint x.toNat_lt) .nil)))
  | va a b => exact .struct (.cons (d _ (by simp)) (.text hp.1) (.cons (d _ (by simp)) (.text hp.2) .nil))
  | aggregateHook o l => exact .struct (.cons (d _ (by simp)) (.text hp.1) (.cons (d _ (by simp)) (.texts hp.2) .nil))
  | feeHook o c =>
    exact .struct (.cons (d _ (by simp)) (.text hp.1) (.cons (d _ (by simp)) (.struct (.cons (d _ (by simp)) (.text hp.2)
      (.cons (d _ (by simp)) (.decimal h) .nil))) .nil))
  | merkleHook a => exact .struct (.cons (d _ (by simp)) (.text hp) .nil)
  | pausableHook o p => exact .struct (.cons (d _ (by simp)) (.text hp) (.cons (d _ (by simp)) (.bool _) .nil))
  | routingHook o => exact .owner hp
  | customHook o => exact .owner hp
  | fallbackHook o => exact .owner hp
  | igp a b c x g =>
    obtain ⟨p1, p2, p3, p4⟩ := hp
    exact .struct (.cons (d _ (by simp)) (.text p1) (.cons (d _ (by simp)) (.text p2) (.cons (d _ (by simp)) (.text p3)
      (.cons (d _ (by simp)) (.text p4) (.cons (d _ (by simp)) (.decimal h) .nil)))))
  | oracle o => exact .owner hp
  | aggregateIsm o l t =>
    exact .struct (.cons (d _ (by simp)) (.text hp.1) (.cons (d _ (by simp)) (.texts hp.2)
      (.cons (d _ (by simp)) (.uint t.toNat_lt) .nil)))
  | multisigIsm o => exact .owner hp
  | pausableIsm o p => exact .struct (.cons (d _ (by simp)) (.text hp) (.cons (d _ (by simp)) (.bool _) .nil))
  | routingIsm o l =>
    exact .struct (.cons (d _ (by simp)) (.text hp.1) (.cons (d _ (by simp)) (.list (g := ismVal) fun x hx =>
      .struct (.cons (d _ (by simp)) (.uint x.1.toNat_lt) (.cons (d _ (by simp)) (.text (hp.2 x hx)) .nil))) .nil))
  | warpNative t a b c =>
    cases t with
    | bridged x m =>
      obtain ⟨p1, p2, p3, p4, p5⟩ := hp
      exact rest (Wr.first rfl (by decide) (d _ (by simp)) (.struct (.cons (d _ (by simp)) (.text p1)
        (.cons (d _ (by simp)) (.opt fun m hm => .metadata (p2 m hm)) .nil)))) p3 p4 p5
    | collateral x =>
      obtain ⟨p1, p3, p4, p5⟩ := hp
      exact rest (Wr.next (by decide) (Wr.first rfl (by decide) (d _ (by simp))
        (.struct (.cons (d _ (by simp)) (.text p1) .nil)))) p3 p4 p5
  | warpCw20 t a b c =>
    cases t with
    | bridged x m =>
      obtain ⟨p1, p3, p4, p5⟩ := hp
      exact rest (Wr.first rfl (by decide) (d _ (by simp)) (.struct (.cons (d _ (by simp)) (.uint x.toNat_lt)
        (.cons (d _ (by simp)) (.cw20Init h p1) .nil)))) p3 p4 p5
    | collateral x =>
      obtain ⟨p1, p3, p4, p5⟩ := hp
      exact rest (Wr.next (by decide) (Wr.first rfl (by decide) (d _ (by simp))
        (.struct (.cons (d _ (by simp)) (.text p1) .nil)))) p3 p4 p5
  | cw20 m => exact .cw20Init h hp

end Written

end Hpl.Start
