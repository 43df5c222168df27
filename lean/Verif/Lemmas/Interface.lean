import Verif.Spec.Interface
import Verif.Lemmas.Schema

/-! # Texts of messages -/

namespace Hpl.Interface

open Schema Spec

theorem hexText_eq (b : Bytes) : toHex b = hexText b := by
  have key : ∀ n, n < 16 → Json.hexDigit n = "0123456789abcdef".toList[n]! := by decide
  unfold toHex hexText
  congr 1
  apply List.flatMap_congr
  intro x _
  have hx := x.toNat_lt
  rw [key _ (by omega), key _ (by omega)]

theorem closeString_plain {s : String} (h : Plain s) : Json.closeString s.toList = s.toList ++ ['"'] := by
  unfold Json.closeString
  congr 1
  have : ∀ l : List Char, (∀ c ∈ l, 32 ≤ c.toNat ∧ c ≠ '"' ∧ c ≠ '\\') → l.flatMap Json.escape = l := by
    intro l hl
    induction l with
    | nil => rfl
    | cons c t ih =>
      obtain ⟨h1, h2, h3⟩ := hl c List.mem_cons_self
      rw [List.flatMap_cons, ih (fun c hc => hl c (List.mem_cons_of_mem _ hc))]
      have : Json.escape c = [c] := by
        unfold Json.escape
        rw [if_neg h2, if_neg h3, if_neg (by omega), if_neg (by omega), if_neg (by omega), if_neg (by omega),
          if_neg (by omega), if_neg (by omega)]
      rw [this]; rfl
  exact this _ h

theorem plain_hex (b : Bytes) : Plain (hexText b) := by
  intro c hc
  rw [← hexText_eq, toHex, String.toList_ofList, List.mem_flatMap] at hc
  obtain ⟨x, _, hc⟩ := hc
  have key : ∀ n, n < 16 → (32 ≤ (Json.hexDigit n).toNat ∧ Json.hexDigit n ≠ '"' ∧ Json.hexDigit n ≠ '\\') := by decide
  have hx := x.toNat_lt
  simp only [List.mem_cons, List.not_mem_nil, or_false] at hc
  rcases hc with rfl | rfl
  · exact key _ (by omega)
  · exact key _ (by omega)

theorem plain_repr (n : Nat) : Plain n.repr := by
  intro c hc
  have hd := (Proto.decimal_repr n).2.1 c hc
  have h : 48 ≤ c.toNat ∧ c.toNat ≤ 57 := by
    simp only [Char.isDigit, Bool.and_eq_true, decide_eq_true_eq] at hd
    exact ⟨UInt32.le_iff_toNat_le.1 hd.1, UInt32.le_iff_toNat_le.1 hd.2⟩
  refine ⟨by omega, ?_, ?_⟩
  · rintro rfl; revert h; decide
  · rintro rfl; revert h; decide

theorem print_str {s : String} (h : Plain s) : Json.print (.str s) = (quoted s).toList := by
  rw [Json.print, closeString_plain h]
  simp [quoted]

/-! ## Trees -/

def strOr : Option String → Json
  | none => .null
  | some s => .str s

def payloadJson : Payload → Json
  | .postDispatch m g => .obj [("post_dispatch", .obj [("metadata", .str (toHex m)), ("message", .str (toHex g))])]
  | .handle o s b =>
    .obj [("handle", .obj [("origin", .num o.toNat), ("sender", .str (toHex s)), ("body", .str (toHex b))])]
  | .dispatch m => .obj [("dispatch", .obj [("dest_domain", .num m.dest.toNat), ("recipient_addr", .str (toHex m.recipient)),
      ("msg_body", .str (toHex m.body)), ("hook", strOr m.hook), ("metadata", strOr (m.metadata.map toHex))])]
  | .cw20Mint a n => .obj [("mint", .obj [("recipient", .str a), ("amount", .str n.repr)])]
  | .cw20Burn n => .obj [("burn", .obj [("amount", .str n.repr)])]
  | .cw20Transfer a n => .obj [("transfer", .obj [("recipient", .str a), ("amount", .str n.repr)])]
  | .cw20TransferFrom a b n =>
    .obj [("transfer_from", .obj [("owner", .str a), ("recipient", .str b), ("amount", .str n.repr)])]

theorem encode_u32 (d : UInt32) : encode u32 (.nat d.toNat) = some (.num d.toNat) := by
  rw [u32, encode, if_pos (show d.toNat < 2 ^ 32 from d.toNat_lt)]

theorem encode_uint128 {n : Nat} (h : n < 2 ^ 128) : encode uint128 (.nat n) = some (.str n.repr) := by
  rw [uint128, encode, if_pos h]

theorem encode_hex (b : Bytes) : encode .hex (.bytes b) = some (.str (toHex b)) := by rw [encode]

theorem encode_text (s : String) : encode .text (.text s) = some (.str s) := by rw [encode]

theorem encode_opt_text (s : Option String) : encode (.opt .text) (option .text s) = some (strOr s) := by
  cases s <;> rfl

theorem encode_opt_hex (b : Option Bytes) : encode (.opt .hex) (option .bytes b) = some (strOr (b.map toHex)) := by
  cases b <;> rfl

theorem encode_struct (fs : Fields) (l : List Val) : encode (.struct fs) (.seq l) = (encodeStruct fs l).map .obj := by
  rw [encode]

theorem encode_enum (fs : Fields) (n : String) (v : Val) : encode (.enum fs) (.variant n v) = encodeVariant fs n v := by
  rw [encode]

theorem isUnit_struct (fs : Fields) : isUnit (.struct fs) = false := rfl
theorem isUnit_enum (fs : Fields) : isUnit (.enum fs) = false := rfl

theorem payload_encode (p : Payload) (h : payloadFits p) : encode (payloadTy p) (payloadVal p) = some (payloadJson p) := by
  cases p with
  | postDispatch m g => rfl
  | handle o s b =>
    simp [payloadTy, payloadVal, payloadJson, expectedHandleMsg, handleMsg, en, st, fields, encode_enum, encode_struct,
      encodeVariant, encodeStruct, isUnit_struct, encode_u32, encode_hex]
    decide
  | dispatch m =>
    obtain ⟨d, r, b, hk, md⟩ := m
    simp [payloadTy, payloadVal, payloadJson, dispatchVal, mailboxMsg, dispatchMsg, en, st, fields, encode_enum,
      encode_struct, encodeVariant, encodeStruct, isUnit_struct, encode_u32, encode_hex, encode_opt_text, encode_opt_hex]
    decide
  | cw20Mint a n =>
    simp [payloadTy, payloadVal, payloadJson, cw20Msg, en, st, fields, encode_enum, encode_struct, encodeVariant,
      encodeStruct, isUnit_struct, encode_text, encode_uint128 h]
    decide
  | cw20Burn n =>
    simp [payloadTy, payloadVal, payloadJson, cw20Msg, en, st, fields, encode_enum, encode_struct, encodeVariant,
      encodeStruct, isUnit_struct, encode_uint128 h]
    decide
  | cw20Transfer a n =>
    simp [payloadTy, payloadVal, payloadJson, cw20Msg, en, st, fields, encode_enum, encode_struct, encodeVariant,
      encodeStruct, isUnit_struct, encode_text, encode_uint128 h]
    decide
  | cw20TransferFrom a b n =>
    simp [payloadTy, payloadVal, payloadJson, cw20Msg, en, st, fields, encode_enum, encode_struct, encodeVariant,
      encodeStruct, isUnit_struct, encode_text, encode_uint128 h]
    decide

theorem print_strOr {s : Option String} (h : ∀ a, s = some a → Plain a) :
    Json.print (strOr s) = (quotedOr s).toList := by
  cases s with
  | none => rfl
  | some a => exact print_str (h a rfl)

theorem print_obj1 (k : String) (j : Json) (h : Plain k) :
    Json.print (.obj [(k, j)]) = '{' :: (quoted k).toList ++ ':' :: Json.print j ++ ['}'] := by
  rw [Json.print, Json.printMembers, closeString_plain h]
  simp [quoted]

theorem print_obj2 (k l : String) (i j : Json) (h : Plain k) (h' : Plain l) :
    Json.print (.obj [(k, i), (l, j)]) =
      '{' :: (quoted k).toList ++ ':' :: Json.print i ++ ',' :: (quoted l).toList ++ ':' :: Json.print j ++ ['}'] := by
  rw [Json.print, Json.printMembers, Json.printMembers, closeString_plain h, closeString_plain h']
  simp [quoted]

theorem print_obj3 (a b c : String) (i j k : Json) (ha : Plain a) (hb : Plain b) (hc : Plain c) :
    Json.print (.obj [(a, i), (b, j), (c, k)]) =
      '{' :: (quoted a).toList ++ ':' :: Json.print i ++ ',' :: (quoted b).toList ++ ':' :: Json.print j ++
        ',' :: (quoted c).toList ++ ':' :: Json.print k ++ ['}'] := by
  rw [Json.print, Json.printMembers, Json.printMembers, Json.printMembers, closeString_plain ha, closeString_plain hb,
    closeString_plain hc]
  simp [quoted]

instance (s : String) : Decidable (Plain s) := inferInstanceAs (Decidable (∀ c ∈ s.toList, _))

theorem payload_print (p : Payload) (h : payloadPlain p) : Json.print (payloadJson p) = (payloadText p).toList := by
  cases p with
  | postDispatch m g =>
    unfold payloadText postDispatchText
    rw [payloadJson, print_obj1 _ _ (by decide), print_obj2 _ _ _ _ (by decide) (by decide), hexText_eq,
      hexText_eq, print_str (plain_hex _), print_str (plain_hex _)]
    simp [quoted]
  | handle o s b =>
    unfold payloadText handleText
    rw [payloadJson, print_obj1 _ _ (by decide), print_obj3 _ _ _ _ _ _ (by decide) (by decide) (by decide),
      hexText_eq, hexText_eq, print_str (plain_hex _), print_str (plain_hex _)]
    simp [quoted, Json.print]
  | dispatch m =>
    have hm : m.metadata.map toHex = m.metadata.map hexText := by
      congr 1; funext b; exact hexText_eq b
    unfold payloadText dispatchText
    rw [payloadJson, print_obj1 _ _ (by decide), Json.print, Json.printMembers, Json.printMembers,
      Json.printMembers, Json.printMembers, Json.printMembers, closeString_plain (by decide), closeString_plain (by decide),
      closeString_plain (by decide), closeString_plain (by decide), closeString_plain (by decide), hm, hexText_eq, hexText_eq,
      print_str (plain_hex _), print_str (plain_hex _), print_strOr h, print_strOr (by
        intro a ha
        obtain ⟨b, _, rfl⟩ := Option.map_eq_some_iff.1 ha
        exact plain_hex b)]
    simp [quoted, Json.print]
  | cw20Mint a n =>
    unfold payloadText mintText
    rw [payloadJson, print_obj1 _ _ (by decide), print_obj2 _ _ _ _ (by decide) (by decide), print_str h,
      print_str (plain_repr _)]
    simp [quoted]
  | cw20Burn n =>
    unfold payloadText burnText
    rw [payloadJson, print_obj1 _ _ (by decide), print_obj1 _ _ (by decide), print_str (plain_repr _)]
    simp [quoted]
  | cw20Transfer a n =>
    unfold payloadText transferText
    rw [payloadJson, print_obj1 _ _ (by decide), print_obj2 _ _ _ _ (by decide) (by decide), print_str h,
      print_str (plain_repr _)]
    simp [quoted]
  | cw20TransferFrom a b n =>
    unfold payloadText transferFromText
    rw [payloadJson, print_obj1 _ _ (by decide), print_obj3 _ _ _ _ _ _ (by decide) (by decide) (by decide),
      print_str h.1, print_str h.2, print_str (plain_repr _)]
    simp [quoted]

/-! ## Queries -/

def requestJson : Request → Json
  | .quoteDispatch m g =>
    .obj [("hook", .obj [("quote_dispatch", .obj [("metadata", .str (toHex m)), ("message", .str (toHex g))])])]
  | .interchainSecurityModule => .obj [("ism_specifier", .obj [("interchain_security_module", .arr [])])]
  | .verify m g => .obj [("ism", .obj [("verify", .obj [("metadata", .str (toHex m)), ("message", .str (toHex g))])])]
  | .verifyInfo g => .obj [("verify_info", .obj [("message", .str (toHex g))])]
  | .latestDispatchId => .obj [("mailbox", .obj [("latest_dispatch_id", .obj [])])]
  | .localDomain => .obj [("mailbox", .obj [("local_domain", .obj [])])]
  | .exchangeRate d =>
    .obj [("oracle", .obj [("get_exchange_rate_and_gas_price", .obj [("dest_domain", .num d.toNat)])])]

theorem request_encode (r : Request) : encode (requestTy r) (requestVal r) = some (requestJson r) := by
  cases r with
  | exchangeRate d =>
    simp [requestTy, requestVal, requestJson, oracleQueryMsg, queryTy, queries, Queries.ty, oracleQuery, en, st, fields,
      encode_enum, encode_struct, encodeVariant, encodeStruct, isUnit_struct, isUnit_enum, encode_u32]
    decide
  | _ => rfl

theorem request_print (r : Request) (h : ∀ g, r ≠ .verifyInfo g) :
    Json.print (requestJson r) = (requestText r).toList := by
  cases r with
  | quoteDispatch m g =>
    unfold requestText quoteDispatchText
    rw [requestJson, print_obj1 _ _ (by decide), print_obj1 _ _ (by decide),
      print_obj2 _ _ _ _ (by decide) (by decide), hexText_eq, hexText_eq, print_str (plain_hex _), print_str (plain_hex _)]
    simp [quoted]
  | verify m g =>
    unfold requestText verifyText
    rw [requestJson, print_obj1 _ _ (by decide), print_obj1 _ _ (by decide),
      print_obj2 _ _ _ _ (by decide) (by decide), hexText_eq, hexText_eq, print_str (plain_hex _), print_str (plain_hex _)]
    simp [quoted]
  | verifyInfo g => exact absurd rfl (h g)
  | exchangeRate d =>
    unfold requestText exchangeRateText
    rw [requestJson, print_obj1 _ _ (by decide), print_obj1 _ _ (by decide), print_obj1 _ _ (by decide)]
    simp [quoted, Json.print]
  | interchainSecurityModule => decide +kernel
  | latestDispatchId => decide +kernel
  | localDomain => decide +kernel

/-! ## Answers -/

def coinJson (c : Coin) : Json := .obj [("denom", .str c.denom), ("amount", .str c.amount.repr)]

def replyJson : Reply → Json
  | .fees l => .obj [("fees", .arr (l.map coinJson))]
  | .ism a => .obj [("ism", strOr a)]
  | .verified b => .obj [("verified", .bool b)]
  | .messageId b => .obj [("message_id", .str (toHex b))]
  | .localDomain d => .obj [("local_domain", .num d.toNat)]
  | .rate g e => .obj [("gas_price", .str g.repr), ("exchange_rate", .str e.repr)]

/-- The type of an answer. -/
def replyTy : Reply → Ty
  | .fees _ => quoteDispatchResponse
  | .ism _ => ismResponse
  | .verified _ => verifyResponse
  | .messageId _ => latestDispatchedIdResponse
  | .localDomain _ => localDomainResponse
  | .rate .. => exchangeRateResponse

theorem encode_coins (l : List Coin) (h : ∀ c ∈ l, c.amount < 2 ^ 128) :
    mapAll (encode coin) (l.map (fun c => Val.seq [.text c.denom, .nat c.amount])) = some (l.map coinJson) := by
  induction l with
  | nil => rfl
  | cons c t ih =>
    have hc : encode coin (.seq [.text c.denom, .nat c.amount]) = some (coinJson c) := by
      simp [coin, coinJson, st, fields, encode_struct, encodeStruct, encode_text, encode_uint128 (h c List.mem_cons_self)]
    rw [List.map_cons, mapAll, hc, ih (fun c hc => h c (List.mem_cons_of_mem _ hc))]
    rfl

theorem reply_encode (r : Reply) (h : replyFits r) : encode (replyTy r) (replyVal r) = some (replyJson r) := by
  cases r with
  | fees l =>
    have := encode_coins l h
    simp [replyTy, replyVal, replyJson, quoteDispatchResponse, st, fields, encode_struct, encodeStruct]
    rw [encode, this]
    rfl
  | ism a =>
    simp [replyTy, replyVal, replyJson, ismResponse, st, fields, encode_struct, encodeStruct, encode_opt_text]
  | verified b => rfl
  | messageId b => rfl
  | localDomain d =>
    simp [replyTy, replyVal, replyJson, localDomainResponse, st, fields, encode_struct, encodeStruct, encode_u32]
  | rate g e =>
    simp [replyTy, replyVal, replyJson, exchangeRateResponse, st, fields, encode_struct, encodeStruct,
      encode_uint128 h.1, encode_uint128 h.2]

theorem print_coin (c : Coin) (h : Plain c.denom) : Json.print (coinJson c) = (coinText c).toList := by
  rw [coinJson, coinText, print_obj2 _ _ _ _ (by decide) (by decide), print_str h, print_str (plain_repr _)]
  simp [quoted]

theorem print_coins (l : List Coin) (h : ∀ c ∈ l, Plain c.denom) :
    Json.print (.arr (l.map coinJson)) = '[' :: (commas (l.map coinText)).toList ++ [']'] := by
  have key : ∀ (l : List Coin) (c : Coin), (∀ c ∈ l, Plain c.denom) → Plain c.denom →
      Json.print (coinJson c) ++ Json.printItems (l.map coinJson) =
        (commas ((c :: l).map coinText)).toList ++ [']'] := by
    intro l
    induction l with
    | nil =>
      intro c _ hc
      simp [print_coin c hc, Json.printItems, commas]
    | cons d t ih =>
      intro c ht hc
      rw [List.map_cons, Json.printItems, ih d (fun c hc => ht c (List.mem_cons_of_mem _ hc)) (ht d List.mem_cons_self),
        print_coin c hc]
      have hs : commas ((c :: d :: t).map coinText) = coinText c ++ "," ++ commas ((d :: t).map coinText) := rfl
      rw [hs]
      simp
  cases l with
  | nil => rfl
  | cons c t =>
    rw [List.map_cons, Json.print, key t c (fun c hc => h c (List.mem_cons_of_mem _ hc)) (h c List.mem_cons_self)]
    rfl

theorem reply_print (r : Reply) (h : replyPlain r) : Json.print (replyJson r) = (replyText r).toList := by
  cases r with
  | fees l =>
    unfold replyText feesText
    rw [replyJson, print_obj1 _ _ (by decide), print_coins l h]
    simp [quoted]
  | ism a =>
    unfold replyText ismText
    rw [replyJson, print_obj1 _ _ (by decide), print_strOr h]
    simp [quoted]
  | verified b => cases b <;> decide +kernel
  | messageId b =>
    unfold replyText messageIdText
    rw [replyJson, print_obj1 _ _ (by decide), hexText_eq, print_str (plain_hex _)]
    simp [quoted]
  | localDomain d =>
    unfold replyText domainText
    rw [replyJson, print_obj1 _ _ (by decide)]
    simp [quoted, Json.print]
  | rate g e =>
    unfold replyText rateText
    rw [replyJson, print_obj2 _ _ _ _ (by decide) (by decide), print_str (plain_repr _),
      print_str (plain_repr _)]
    simp [quoted]

end Hpl.Interface
