import Verif.Lemmas.Interface

/-! # Contracts understand each other (C74) -/

namespace Hpl

open Interface Schema Spec

/-- **C74 (messages).** Every execute message that a contract of the repository sends is written as the text of the
interface, and every contract it may be addressed to reads it as the same message. -/
theorem C74_messages (p : Payload) (hf : payloadFits p) :
    ∃ b, send (payloadTy p) (payloadVal p) = some b ∧
      (payloadPlain p → b = Proto.utf8 (payloadText p)) ∧
      ∀ c ∈ addressees p, receive (executeTy c) b = some (payloadVal p) := by
  have he := payload_encode p hf
  have hs : send (payloadTy p) (payloadVal p) = some (Json.toBinary (payloadJson p)) := by rw [send, he]; rfl
  refine ⟨_, hs, ?_, ?_⟩
  · intro hp
    rw [Json.toBinary, payload_print p hp, String.ofList_toList]
  · intro c hc
    have key : sub (payloadTy p) (executeTy c) = true ∧ wf (executeTy c) = true := by
      cases p with
      | postDispatch m g =>
        have : ∀ c ∈ hookContracts, sub expectedHookMsg (executeTy c) = true ∧ wf (executeTy c) = true := by
          decide +kernel
        exact this c hc
      | handle o s b =>
        have : ∀ c ∈ recipientContracts, sub expectedHandleMsg (executeTy c) = true ∧ wf (executeTy c) = true := by
          decide +kernel
        exact this c hc
      | dispatch m =>
        obtain rfl := List.mem_singleton.1 hc
        exact (by decide +kernel : sub mailboxMsg mailboxMsg = true ∧ wf mailboxMsg = true)
      | cw20Mint a n =>
        obtain rfl := List.mem_singleton.1 hc
        exact (by decide +kernel : sub cw20Msg cw20Msg = true ∧ wf cw20Msg = true)
      | cw20Burn n =>
        obtain rfl := List.mem_singleton.1 hc
        exact (by decide +kernel : sub cw20Msg cw20Msg = true ∧ wf cw20Msg = true)
      | cw20Transfer a n =>
        obtain rfl := List.mem_singleton.1 hc
        exact (by decide +kernel : sub cw20Msg cw20Msg = true ∧ wf cw20Msg = true)
      | cw20TransferFrom a b n =>
        obtain rfl := List.mem_singleton.1 hc
        exact (by decide +kernel : sub cw20Msg cw20Msg = true ∧ wf cw20Msg = true)
    exact receive_send key.1 key.2 hs

/-- The message with which a token router has 5 tokens minted: it fits and is plain, and the token contract is among those
addressed. -/
example : payloadFits (.cw20Mint "neutron1abc" 5) ∧ payloadPlain (.cw20Mint "neutron1abc" 5) ∧
    Contract.cw20 ∈ addressees (.cw20Mint "neutron1abc" 5) ∧
    payloadText (.cw20Mint "neutron1abc" 5) = "{\"mint\":{\"recipient\":\"neutron1abc\",\"amount\":\"5\"}}" := by
  refine ⟨(by decide : 5 < 2 ^ 128), ?_, by decide +kernel, by decide +kernel⟩
  show ∀ c ∈ "neutron1abc".toList, _
  decide +kernel

/-- The full claim about queries: whatever a contract of the repository asks is accepted by those it may ask, and every
query of the interface is answered, with a text that can be read with the type the interface declares. -/
def C74_full : Prop :=
  (∀ r, ∀ c ∈ asked r, ∃ b v, send (requestTy r) (requestVal r) = some b ∧ receive (queryTy c) b = some v) ∧
  (∀ c, ∀ g ∈ queries c, ∀ q ∈ g.2, ∃ a, answer c g.1 q.1 = some a ∧
    ∀ v b, send a v = some b → receive q.2.2 b = some v)

/-- **C74 (a query that nobody understands).** The routing module asks the module of the domain for `VerifyInfo` without
wrapping the query. Every security module of the repository refuses the text. -/
theorem C74_verify_info_refused (message : Bytes) :
    ∃ b, send (requestTy (.verifyInfo message)) (requestVal (.verifyInfo message)) = some b ∧
      ∀ c ∈ ismContracts, receive (queryTy c) b = none := by
  refine ⟨Json.toBinary (requestJson (.verifyInfo message)), by rw [send, request_encode]; rfl, ?_⟩
  intro c hc
  rw [receive, Json.ofBinary_toBinary]
  simp only [ismContracts, List.mem_cons, List.not_mem_nil, or_false] at hc
  rcases hc with rfl | rfl | rfl | rfl <;> rfl

theorem C74_full_refuted : ¬ C74_full := by
  rintro ⟨h, _⟩
  obtain ⟨b, v, hs, hr⟩ := h (.verifyInfo []) .multisigIsm (by decide)
  obtain ⟨b', hs', hn⟩ := C74_verify_info_refused []
  rw [hs'] at hs
  cases hs
  rw [hn .multisigIsm (by decide)] at hr
  cases hr

/-- **C74 (queries).** Every other query that a contract of the repository makes is written as the text of the interface;
every contract that may be asked reads it as the same query; it answers with a type that the asking contract reads as the
same answer. Missing from the full claim: the query `VerifyInfo` of the routing module (`C74_full_refuted`). -/
theorem C74_queries_partial (r : Request) (hr : ∀ m, r ≠ .verifyInfo m) :
    ∃ b, send (requestTy r) (requestVal r) = some b ∧
      b = Proto.utf8 (requestText r) ∧
      ∀ c ∈ asked r, receive (queryTy c) b = some (requestVal r) ∧
        ∃ a, answerTo c (requestVal r) = some a ∧
          ∀ y, answers r y → replyFits y →
            ∃ d, send a (replyVal y) = some d ∧
              (replyPlain y → d = Proto.utf8 (replyText y)) ∧
              receive (expectedTy r) d = some (replyVal y) := by
  have hs : send (requestTy r) (requestVal r) = some (Json.toBinary (requestJson r)) := by
    rw [send, request_encode]; rfl
  refine ⟨_, hs, by rw [Json.toBinary, request_print r hr, String.ofList_toList], ?_⟩
  intro c hc
  have key : (sub (requestTy r) (queryTy c) = true ∧ wf (queryTy c) = true) ∧
      ∃ a, answerTo c (requestVal r) = some a ∧ ∀ y, answers r y → a = replyTy y ∧ expectedTy r = replyTy y := by
    cases r with
    | quoteDispatch m g =>
      have h1 : ∀ c ∈ hookContracts, sub expectedHookQuery (queryTy c) = true ∧ wf (queryTy c) = true := by
        decide +kernel
      refine ⟨h1 c hc, quoteDispatchResponse, ?_, ?_⟩
      · simp only [asked, hookContracts, List.mem_cons, List.not_mem_nil, or_false] at hc
        rcases hc with rfl | rfl | rfl | rfl | rfl | rfl | rfl | rfl <;> rfl
      · intro y hy
        cases y <;> first | exact ⟨rfl, rfl⟩ | exact hy.elim
    | interchainSecurityModule =>
      have h1 : ∀ c ∈ recipientContracts, sub expectedIsmSpecifierQuery (queryTy c) = true ∧ wf (queryTy c) = true := by
        decide +kernel
      refine ⟨h1 c hc, ismResponse, ?_, ?_⟩
      · simp only [asked, recipientContracts, List.mem_cons, List.not_mem_nil, or_false] at hc
        rcases hc with rfl | rfl <;> rfl
      · intro y hy
        cases y <;> first | exact ⟨rfl, rfl⟩ | exact hy.elim
    | verify m g =>
      have h1 : ∀ c ∈ ismContracts, sub expectedIsmQuery (queryTy c) = true ∧ wf (queryTy c) = true := by
        decide +kernel
      refine ⟨h1 c hc, verifyResponse, ?_, ?_⟩
      · simp only [asked, ismContracts, List.mem_cons, List.not_mem_nil, or_false] at hc
        rcases hc with rfl | rfl | rfl | rfl <;> rfl
      · intro y hy
        cases y <;> first | exact ⟨rfl, rfl⟩ | exact hy.elim
    | verifyInfo m => exact absurd rfl (hr m)
    | latestDispatchId =>
      obtain rfl := List.mem_singleton.1 hc
      refine ⟨(by decide +kernel : sub mailboxQueryMsg mailboxQueryMsg = true ∧ wf mailboxQueryMsg = true),
        latestDispatchedIdResponse, rfl, ?_⟩
      intro y hy
      cases y <;> first | exact ⟨rfl, rfl⟩ | exact hy.elim
    | localDomain =>
      obtain rfl := List.mem_singleton.1 hc
      refine ⟨(by decide +kernel : sub mailboxQueryMsg mailboxQueryMsg = true ∧ wf mailboxQueryMsg = true),
        localDomainResponse, rfl, ?_⟩
      intro y hy
      cases y <;> first | exact ⟨rfl, rfl⟩ | exact hy.elim
    | exchangeRate d =>
      have h1 : ∀ c ∈ oracleContracts, sub oracleQueryMsg (queryTy c) = true ∧ wf (queryTy c) = true := by
        decide +kernel
      refine ⟨h1 c hc, exchangeRateResponse, ?_, ?_⟩
      · simp only [asked, oracleContracts, List.mem_cons, List.not_mem_nil, or_false] at hc
        rcases hc with rfl | rfl <;> rfl
      · intro y hy
        cases y <;> first | exact ⟨rfl, rfl⟩ | exact hy.elim
  obtain ⟨⟨h1, h2⟩, a, h3, h4⟩ := key
  refine ⟨receive_send h1 h2 hs, a, h3, ?_⟩
  intro y hy hf
  obtain ⟨rfl, he⟩ := h4 y hy
  have hd : send (replyTy y) (replyVal y) = some (Json.toBinary (replyJson y)) := by rw [send, reply_encode y hf]; rfl
  refine ⟨_, hd, ?_, ?_⟩
  · intro hp
    rw [Json.toBinary, reply_print y hp, String.ofList_toList]
  · have hw : sub (replyTy y) (replyTy y) = true ∧ wf (replyTy y) = true := by
      cases y <;> exact ⟨rfl, rfl⟩
    rw [he]
    exact receive_send hw.1 hw.2 hd

/-- The query for a quote, of eight contracts, and an answer of two coins that meets the hypotheses. -/
example : (∀ m, Request.quoteDispatch [1] [2] ≠ .verifyInfo m) ∧ (asked (.quoteDispatch [1] [2])).length = 8 ∧
    answers (.quoteDispatch [1] [2]) (.fees [⟨"a", 7⟩, ⟨"b", 8⟩]) ∧ replyFits (.fees [⟨"a", 7⟩, ⟨"b", 8⟩]) ∧
    replyPlain (.fees [⟨"a", 7⟩, ⟨"b", 8⟩]) ∧
    replyText (.fees [⟨"a", 7⟩, ⟨"b", 8⟩]) =
      "{\"fees\":[{\"denom\":\"a\",\"amount\":\"7\"},{\"denom\":\"b\",\"amount\":\"8\"}]}" := by
  refine ⟨(fun m h => nomatch h), by decide +kernel, trivial, ?_, ?_, by decide +kernel⟩
  · show ∀ c ∈ [(⟨"a", 7⟩ : Coin), ⟨"b", 8⟩], c.amount < 2 ^ 128
    decide +kernel
  · show ∀ c ∈ [(⟨"a", 7⟩ : Coin), ⟨"b", 8⟩], ∀ x ∈ c.denom.toList, _
    decide +kernel

/-- **C74 (declared answers).** Every query of every contract, except `VerifyInfo` of the routing and pausable modules, is
answered with a type whose texts can be read with the type the interface declares for the query. Missing from the full
claim: the routing module answers `VerifyInfo` with another type, and the pausable module panics. -/
theorem C74_answers_partial (c : Contract) (g : String × Queries) (hg : g ∈ queries c) (q : String × Ty × Ty)
    (hq : q ∈ g.2) (hv : ¬ ((c = .routingIsm ∨ c = .pausableIsm) ∧ q.1 = "VerifyInfo")) :
    ∃ a, answer c g.1 q.1 = some a ∧ ∀ v b, send a v = some b → receive q.2.2 b = some v := by
  have key : ∀ c : Contract, ∀ g ∈ queries c, ∀ q ∈ g.2,
      (((c = .routingIsm ∨ c = .pausableIsm) ∧ q.1 = "VerifyInfo") ∨
        (match answer c g.1 q.1 with
          | some a => sub a q.2.2 && wf q.2.2
          | none => false) = true) := by
    intro c
    cases c <;> decide +kernel
  rcases key c g hg q hq with h | h
  · exact absurd h hv
  · cases ha : answer c g.1 q.1 with
    | none => rw [ha] at h; cases h
    | some a =>
      rw [ha] at h
      simp only [Bool.and_eq_true] at h
      exact ⟨a, rfl, fun v b hb => receive_send h.1 h.2 hb⟩

/-- The number of queries that are declared; the claim is about all but two of them. -/
example : (([Contract.mailbox, .va, .aggregateHook, .feeHook, .merkleHook, .pausableHook, .routingHook, .customHook,
      .fallbackHook, .igp, .oracle, .aggregateIsm, .multisigIsm, .pausableIsm, .routingIsm, .warpNative,
      .warpCw20].flatMap (fun c => (queries c).flatMap (fun g => g.2))).length) = 123 := by decide +kernel

/-- The two exceptions. -/
theorem C74_verify_info_answers :
    answer .pausableIsm "Ism" "VerifyInfo" = none ∧
    ∃ a, answer .routingIsm "Ism" "VerifyInfo" = some a ∧ ∀ v b, send a v = some b → receive verifyInfoResponse b = none := by
  refine ⟨rfl, verifyResponse, rfl, ?_⟩
  intro v b h
  unfold send at h
  obtain ⟨j, h1, rfl⟩ := Option.map_eq_some_iff.1 h
  rw [receive, Json.ofBinary_toBinary]
  cases v with
  | seq l =>
    rw [verifyResponse, st, encode] at h1
    obtain ⟨js, h2, rfl⟩ := Option.map_eq_some_iff.1 h1
    have hn := encodeStruct_names h2
    match js, hn with
    | [(k, i)], hn =>
      obtain rfl : k = "verified" := by simpa [fields, Fields.names] using hn
      rfl
  | _ => simp [verifyResponse, st, encode] at h1

/-- **C74 (texts are unambiguous).** No two messages or queries that a contract takes have the same text. -/
theorem C74_texts_distinct (c : Contract) (v v' : Val) (b : Bytes) :
    (send (executeTy c) v = some b → send (executeTy c) v' = some b → v = v') ∧
    (send (queryTy c) v = some b → send (queryTy c) v' = some b → v = v') := by
  have key : ∀ c : Contract, (sub (executeTy c) (executeTy c) = true ∧ wf (executeTy c) = true) ∧
      (sub (queryTy c) (queryTy c) = true ∧ wf (queryTy c) = true) := by
    intro c
    cases c <;> decide +kernel
  obtain ⟨⟨h1, h2⟩, h3, h4⟩ := key c
  constructor
  · intro h h'
    have e := receive_send h1 h2 h
    rw [receive_send h1 h2 h'] at e
    exact (Option.some.inj e).symm
  · intro h h'
    have e := receive_send h3 h4 h
    rw [receive_send h3 h4 h'] at e
    exact (Option.some.inj e).symm

/-- A text that a contract takes: the premise of the last theorem can be met. -/
example : (send (executeTy .mailbox) (payloadVal (.dispatch ⟨7, [1], [2], some "h", none⟩))).isSome := by decide +kernel

end Hpl
