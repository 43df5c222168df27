import Verif.Lemmas.Mailbox
import Verif.Spec.Mailbox
import Verif.Examples.Mailbox
import Verif.Props.Message
import Verif.Props.Bech32
import Mathlib.Data.List.Nodup

/-! # The mailbox: C15 - C26 -/

namespace Hpl

open Mailbox Spec

section

variable {H : Bytes → Bytes} {C : Codec}

/-! ## Delivery -/

/-- What a log of successful calls does to the delivery table. -/
theorem deliveries_chain {s s' : State} {log : MailboxLog}
    (h : Tx.Chain (execute H C) s log s') :
    (processedIds H log).Nodup ∧
    (∀ i ∈ processedIds H log, s.deliveries.has i = false) ∧
    (∀ i, s'.deliveries.has i = true ↔ s.deliveries.has i = true ∨ i ∈ processedIds H log) ∧
    (∀ i d, s.deliveries.get i = some d → s'.deliveries.get i = some d) ∧
    (∀ e ∈ log, ∀ metadata message, e.1.msg = .process metadata message →
      s'.deliveries.get (H message) = some ⟨e.1.sender, e.1.env.height⟩) ∧
    (handed H log).map Prod.fst = (processedIds H log).map some := by
  induction log generalizing s with
  | nil =>
    simp only [Tx.Chain] at h
    subst h
    simp [processedIds, handed]
  | cons e t ih =>
    obtain ⟨c, r⟩ := e
    obtain ⟨m, h1, h2⟩ := h
    obtain ⟨i1, i2, i3, i4, i5, i6⟩ := ih h2
    have keep : ∀ {o : Mailbox.Msg}, c.msg = o → (∀ a b, o ≠ .process a b) →
        m.deliveries = s.deliveries → r.msgs.filter isHandle = [] →
        (processedIds H ((c, r) :: t)).Nodup ∧
        (∀ i ∈ processedIds H ((c, r) :: t), s.deliveries.has i = false) ∧
        (∀ i, s'.deliveries.has i = true ↔
          s.deliveries.has i = true ∨ i ∈ processedIds H ((c, r) :: t)) ∧
        (∀ i d, s.deliveries.get i = some d → s'.deliveries.get i = some d) ∧
        (∀ e ∈ (c, r) :: t, ∀ metadata message, e.1.msg = .process metadata message →
          s'.deliveries.get (H message) = some ⟨e.1.sender, e.1.env.height⟩) ∧
        (handed H ((c, r) :: t)).map Prod.fst = (processedIds H ((c, r) :: t)).map some := by
      intro o ho hne hd hm
      have hp : processedIds H ((c, r) :: t) = processedIds H t := by
        unfold processedIds
        rw [List.filterMap_cons]
        rw [ho]
        cases o with
        | process a b => exact absurd rfl (hne a b)
        | _ => rfl
      have hh : handed H ((c, r) :: t) = handed H t := by
        unfold handed
        rw [List.flatMap_cons]
        simp [hm]
      rw [hp, hh]
      rw [hd] at i2 i3 i4
      refine ⟨i1, i2, i3, i4, ?_, i6⟩
      intro e he metadata message hmsg
      rcases List.mem_cons.1 he with rfl | he
      · simp only at hmsg
        rw [ho] at hmsg
        exact absurd hmsg (hne _ _)
      · exact i5 e he metadata message hmsg
    rcases execute_cases h1 with ⟨x, o, hm, _, rfl, rfl⟩ | ⟨a, hm, _, _, rfl, rfl⟩ |
      ⟨a, hm, _, _, rfl, rfl⟩ | ⟨a, hm, _, _, rfl, rfl⟩ | ⟨x, hm, hx⟩ | ⟨md, msg, hm, hx⟩
    · exact keep hm (by simp) rfl rfl
    · exact keep hm (by simp) rfl rfl
    · exact keep hm (by simp) rfl rfl
    · exact keep hm (by simp) rfl rfl
    · obtain ⟨_, _, _, _, _, _, _, _, _, _, _, _, _, _, _, _, _, rfl, rfl⟩ := dispatch_ok.1 hx
      exact keep hm (by simp) rfl rfl
    · obtain ⟨dm, rc, named, dflt, _, _, _, _, _, _, hnot, _, rfl, rfl⟩ := process_ok.1 hx
      have hp : ∀ r0, processedIds H ((c, r0) :: t) = H msg :: processedIds H t := by
        intro r0
        unfold processedIds
        rw [List.filterMap_cons]
        simp only [hm]
      rw [hp]
      simp only at i2 i3 i4
      have hget : s'.deliveries.get (H msg) = some ⟨c.sender, c.env.height⟩ :=
        i4 _ _ (OMap.get_insert_self _ _ _)
      refine ⟨?_, ?_, ?_, ?_, ?_, ?_⟩
      · rw [List.nodup_cons]
        refine ⟨fun hmem => ?_, i1⟩
        have := i2 _ hmem
        rw [OMap.has_insert] at this
        simp at this
      · intro i hi
        rcases List.mem_cons.1 hi with rfl | hi
        · exact hnot
        · have := i2 i hi
          rw [OMap.has_insert] at this
          simp only [Bool.or_eq_false_iff] at this
          exact this.2
      · intro i
        rw [i3, OMap.has_insert]
        simp only [Bool.or_eq_true, decide_eq_true_eq, List.mem_cons]
        tauto
      · intro i d hd
        apply i4
        rw [OMap.get_insert_ne]
        · exact hd
        · rintro rfl
          rw [OMap.has_iff.2 ⟨d, hd⟩] at hnot
          cases hnot
      · intro e he metadata message hmsg
        rcases List.mem_cons.1 he with rfl | he
        · simp only at hmsg
          rw [hm] at hmsg
          cases hmsg
          exact hget
        · exact i5 e he metadata message hmsg
      · have ha : ∀ x, handed H (x :: t) = handed H [x] ++ handed H t := fun x => by simp [handed]
        rw [ha, List.map_append, i6]
        simp only [handed, List.flatMap_cons, List.flatMap_nil, List.append_nil, hm]
        rfl

theorem instantiate_ok {lower : Char → Bool} {valid : Addr → Bool} {hrp : String} {domain : UInt32}
    {owner : Addr} {s : State} (h : instantiate lower valid hrp domain owner = .ok s) :
    s = ⟨⟨hrp, domain, none, none, none⟩, Ownable.init owner, 0, none, OMap.empty⟩ := by
  unfold instantiate at h
  obtain ⟨_, _, h⟩ := bind_eq_ok.1 h
  obtain ⟨_, _, h⟩ := bind_eq_ok.1 h
  simpa using h.symm

/-- **C15.** Over any history of transactions with arbitrary nesting, reentrancy, aborts and caught failures, starting
from any state: every handler call that is not rolled back was emitted by the processing of a message, and no two of
them belong to the same message id. -/
theorem C15_at_most_once (s0 : State) (txs : List (List (Tx.Act Call))) :
    let log := (Tx.history (execute H C) s0 txs).2
    (∀ p ∈ handed H log, ∃ i, p.1 = some i) ∧ ((handed H log).map Prod.fst).Nodup := by
  intro log
  obtain ⟨h1, _, _, _, _, h6⟩ := deliveries_chain (Tx.history_chain (execute H C) s0 txs)
  refine ⟨?_, ?_⟩
  · intro p hp
    have : p.1 ∈ (handed H log).map Prod.fst := List.mem_map.2 ⟨p, hp, rfl⟩
    rw [h6] at this
    obtain ⟨i, _, hi⟩ := List.mem_map.1 this
    exact ⟨i, hi.symm⟩
  · rw [h6]
    exact List.Nodup.map (Option.some_injective _) h1

/-- Five calls commit, one of them a delivery although three were tried, one nested in another. -/
example : (Tx.history (execute toyHash Bech.codec) Ex.s0 Ex.txs).2.length = 5 ∧
    (handed toyHash (Tx.history (execute toyHash Bech.codec) Ex.s0 Ex.txs).2).map Prod.fst =
      [some (toyHash Ex.message.encode)] := by decide +kernel

/-- **C18.** After any history of transactions the delivered query says yes exactly for the ids of messages whose
processing was committed, the record kept for such an id is the submitter and block height of that call, and later
transactions never remove or alter a record. -/
theorem C18_delivered_is_history {lower : Char → Bool} {valid : Addr → Bool} {hrp : String}
    {domain : UInt32} {owner : Addr} {s0 : State}
    (h0 : instantiate lower valid hrp domain owner = .ok s0) (txs : List (List (Tx.Act Call))) :
    let s := (Tx.history (execute H C) s0 txs).1
    let log := (Tx.history (execute H C) s0 txs).2
    (∀ i, getDelivered s i = true ↔
      ∃ e ∈ log, ∃ metadata message, e.1.msg = .process metadata message ∧ H message = i) ∧
    (∀ e ∈ log, ∀ metadata message, e.1.msg = .process metadata message →
      s.deliveries.get (H message) = some ⟨e.1.sender, e.1.env.height⟩) ∧
    (∀ i d, s.deliveries.get i = some d → ∀ more,
      (Tx.history (execute H C) s0 (txs ++ more)).1.deliveries.get i = some d ∧
      getDelivered (Tx.history (execute H C) s0 (txs ++ more)).1 i = true) := by
  intro s log
  obtain ⟨_, _, h3, _, h5, _⟩ := deliveries_chain (Tx.history_chain (execute H C) s0 txs)
  refine ⟨?_, h5, ?_⟩
  · intro i
    unfold getDelivered
    rw [h3]
    have : s0.deliveries.has i = false := by rw [instantiate_ok h0]; rfl
    simp only [this, Bool.false_eq_true, false_or]
    unfold processedIds
    rw [List.mem_filterMap]
    constructor
    · rintro ⟨e, he, hi⟩
      refine ⟨e, he, ?_⟩
      rcases hm : e.1.msg with _ | _ | _ | _ | _ | ⟨md, m⟩ <;> rw [hm] at hi <;> simp at hi
      exact ⟨md, m, rfl, hi⟩
    · rintro ⟨e, he, md, m, hm, hi⟩
      exact ⟨e, he, by rw [hm]; simp [hi]⟩
  · intro i d hd more
    obtain ⟨new, _, hc⟩ := Tx.history_append (execute H C) s0 txs more
    obtain ⟨_, _, _, h4, _, _⟩ := deliveries_chain hc
    have := h4 i d hd
    exact ⟨this, OMap.has_iff.2 ⟨d, this⟩⟩

example : getDelivered (Tx.history (execute toyHash Bech.codec) Ex.s0 Ex.txs).1
    (toyHash Ex.message.encode) = true ∧
    getDelivered (Tx.history (execute toyHash Bech.codec) Ex.s0 (Ex.txs.take 4)).1
      (toyHash Ex.message.encode) = false := by decide +kernel

/-- **C16.** In any state and for any caller: if submitting metadata and message bytes for processing succeeds, the
bytes are a version 3 message for the local domain, its id was not delivered before, and the ISM responsible for the
recipient said it is verified for exactly these metadata and bytes. -/
theorem C16_ism_approval {s s' : State} {c : Call} {r : Response} {metadata message : Bytes}
    (hc : c.msg = .process metadata message) (h : execute H C s c = .ok (s', r)) :
    ∃ m recipient ism, WireFormat m message ∧ m.version = 3 ∧ m.dest = s.config.localDomain ∧
      getDelivered s (H message) = false ∧
      bech32Encode C s.config.hrp m.recipient = .ok recipient ∧
      ResponsibleIsm c.env s recipient ism ∧
      c.env.verify ism metadata message = .ok true := by
  unfold execute at h
  rw [hc] at h
  obtain ⟨m, rc, named, dflt, h1, h2, h3, h4, h5, h6, h7, h8, _, _⟩ := process_ok.1 h
  refine ⟨m, rc, named.getD dflt, wireFormat_of_decode h1, h3, h4, h7, h2, ?_, h8⟩
  unfold ResponsibleIsm
  cases named with
  | some a => exact .inl h5
  | none => exact .inr ⟨h5, h6⟩

example : ∃ s c metadata message x, c.msg = .process metadata message ∧
    execute toyHash Bech.codec s c = .ok x :=
  ⟨Ex.s1, _, _, _, Ex.process_ok.choose, rfl, Ex.process_ok.choose_spec⟩

/-- **C17.** If processing succeeds, exactly one message is emitted: the handler call of the recipient, without funds,
with the origin, sender and body that the submitted bytes contain. The recipient is the account whose 32-byte form the
message names: if an account or contract address `a` with the mailbox's prefix has that 32-byte form, it is `a`. -/
theorem C17_handle_fidelity {s s' : State} {c : Call} {r : Response} {metadata message : Bytes}
    (hc : c.msg = .process metadata message) (h : execute H C s c = .ok (s', r)) :
    ∃ m recipient, WireFormat m message ∧
      r.msgs = [.execute recipient (.handle m.origin m.sender m.body) []] ∧
      bech32Encode C s.config.hrp m.recipient = .ok recipient ∧
      (∀ raw a, AccountBytes raw → C.enc s.config.hrp raw = some a →
        m.recipient = List.replicate (32 - raw.length) 0 ++ raw → recipient = a) := by
  unfold execute at h
  rw [hc] at h
  obtain ⟨m, rc, named, dflt, h1, h2, _, _, _, _, _, _, _, rfl⟩ := process_ok.1 h
  refine ⟨m, rc, wireFormat_of_decode h1, rfl, h2, ?_⟩
  intro raw a hraw ha he
  have hle : raw.length ≤ 32 := by rcases hraw with h | h <;> omega
  have := (bech32Encode_padded (C := C) hraw ha)
  rw [← he, h2] at this
  simpa using this

/-- The last clause of C17 applies to alice. -/
example : AccountBytes Ex.aliceRaw ∧ Bech.codec.enc "osmo" Ex.aliceRaw = some Ex.alice ∧
    Ex.message.recipient = List.replicate (32 - Ex.aliceRaw.length) 0 ++ Ex.aliceRaw :=
  ⟨.inl rfl, by decide +kernel, rfl⟩

/-! ## Dispatch -/

/-- What a log of successful calls announces. -/
theorem announced_chain {s s' : State} {log : MailboxLog}
    (h : Tx.Chain (execute H C) s log s') :
    s'.nonce.toNat = s.nonce.toNat + (announced log).length ∧
    dispatches log = (announced log).length ∧
    s'.config.localDomain = s.config.localDomain ∧ s'.config.hrp = s.config.hrp ∧
    (∀ k b, (announced log)[k]? = some b → ∃ m, WireFormat m b ∧
      m.nonce.toNat = s.nonce.toNat + k ∧ m.version = 3 ∧ m.origin = s.config.localDomain) ∧
    (s'.latest = ((announced log).getLast?.map H).or s.latest) := by
  induction log generalizing s with
  | nil =>
    simp only [Tx.Chain] at h
    subst h
    simp [announced, dispatches]
  | cons e t ih =>
    obtain ⟨c, r⟩ := e
    obtain ⟨m, h1, h2⟩ := h
    obtain ⟨i1, i2, i3, i4, i5, i6⟩ := ih h2
    have keep : ∀ {o : Mailbox.Msg}, c.msg = o → (∀ a, o ≠ .dispatch a) →
        m.nonce = s.nonce → m.config.localDomain = s.config.localDomain →
        m.config.hrp = s.config.hrp → m.latest = s.latest →
        announced [(c, r)] = [] →
        s'.nonce.toNat = s.nonce.toNat + (announced ((c, r) :: t)).length ∧
        dispatches ((c, r) :: t) = (announced ((c, r) :: t)).length ∧
        s'.config.localDomain = s.config.localDomain ∧ s'.config.hrp = s.config.hrp ∧
        (∀ k b, (announced ((c, r) :: t))[k]? = some b → ∃ m, WireFormat m b ∧
          m.nonce.toNat = s.nonce.toNat + k ∧ m.version = 3 ∧ m.origin = s.config.localDomain) ∧
        (s'.latest = ((announced ((c, r) :: t)).getLast?.map H).or s.latest) := by
      intro o ho hne hn hl hh hla hev
      have ha : announced ((c, r) :: t) = announced t := by
        have : announced ((c, r) :: t) = announced [(c, r)] ++ announced t := by
          simp [announced]
        rw [this, hev, List.nil_append]
      have hd : dispatches ((c, r) :: t) = dispatches t := by
        unfold dispatches
        rw [List.filter_cons]
        rw [ho]
        cases o with
        | dispatch a => exact absurd rfl (hne a)
        | _ => rfl
      rw [ha, hd, ← hn, ← hl, ← hh, ← hla]
      exact ⟨i1, i2, i3, i4, i5, i6⟩
    rcases execute_cases h1 with ⟨x, o, hm, _, rfl, rfl⟩ | ⟨a, hm, _, _, rfl, rfl⟩ |
      ⟨a, hm, _, _, rfl, rfl⟩ | ⟨a, hm, _, _, rfl, rfl⟩ | ⟨x, hm, hx⟩ | ⟨md, msg, hm, hx⟩
    · exact keep hm (by simp) rfl rfl rfl rfl rfl
    · exact keep hm (by simp) rfl rfl rfl rfl rfl
    · exact keep hm (by simp) rfl rfl rfl rfl rfl
    · exact keep hm (by simp) rfl rfl rfl rfl rfl
    · obtain ⟨h32, dflt, hook, required, fees, attached, rest, n, hr, hb, _, _, _, _, _, _, hn,
        hs, hre⟩ := dispatch_ok.1 hx
      have hwf := wireFormat_of_decode (Message.decode_encode
        ⟨version, s.nonce, s.config.localDomain, h32, x.dest, x.recipient, x.body⟩
        (length_bech32ToH256 hb) hr)
      generalize hmsg : (⟨version, s.nonce, s.config.localDomain, h32, x.dest, x.recipient,
        x.body⟩ : Message) = dm at hs hre hwf
      have hmn : m.nonce = n := by rw [hs]
      have hml : m.config = s.config := by rw [hs]
      have hmla : m.latest = some (H dm.encode) := by rw [hs]
      have ha : announced ((c, r) :: t) = dm.encode :: announced t := by
        have : announced ((c, r) :: t) = announced [(c, r)] ++ announced t := by
          simp [announced]
        rw [this, hre]
        simp [announced]
      have hd : dispatches ((c, r) :: t) = dispatches t + 1 := by
        unfold dispatches
        rw [List.filter_cons]
        simp [hm]
      rw [hmn] at i1 i5
      rw [hml] at i3 i4 i5
      rw [hmla] at i6
      rw [ha, hd]
      refine ⟨?_, ?_, i3, i4, ?_, ?_⟩
      · rw [i1, hn, List.length_cons]; omega
      · rw [i2, List.length_cons]
      · intro k b hk
        cases k with
        | zero =>
          simp only [List.getElem?_cons_zero, Option.some.injEq] at hk
          subst hk
          exact ⟨dm, hwf, by rw [← hmsg]; simp, by rw [← hmsg]; rfl, by rw [← hmsg]⟩
        | succ k =>
          rw [List.getElem?_cons_succ] at hk
          obtain ⟨m', w1, w2, w3, w4⟩ := i5 k b hk
          exact ⟨m', w1, by rw [w2, hn]; omega, w3, w4⟩
      · rw [i6, List.getLast?_cons]
        cases (announced t).getLast? <;> simp
    · obtain ⟨dm, rc, named, dflt, _, _, _, _, _, _, hnot, _, rfl, rfl⟩ := process_ok.1 hx
      exact keep hm (by simp) rfl rfl rfl rfl rfl

/-- **C19.** Over any history from a fresh mailbox: each successful dispatch announces one message, the `k`-th announced
message carries nonce `k` (counting from 0), the nonce query is the number of successful dispatches, and all announced
messages are different byte strings. -/
theorem C19_nonces {lower : Char → Bool} {valid : Addr → Bool} {hrp : String}
    {domain : UInt32} {owner : Addr} {s0 : State}
    (h0 : instantiate lower valid hrp domain owner = .ok s0) (txs : List (List (Tx.Act Call))) :
    let s := (Tx.history (execute H C) s0 txs).1
    let log := (Tx.history (execute H C) s0 txs).2
    (getNonce s).toNat = dispatches log ∧ (announced log).length = dispatches log ∧
    (∀ k b, (announced log)[k]? = some b → ∃ m, WireFormat m b ∧ m.nonce.toNat = k) ∧
    (announced log).Nodup := by
  intro s log
  obtain ⟨h1, h2, _, _, h5, _⟩ := announced_chain (Tx.history_chain (execute H C) s0 txs)
  have hz : s0.nonce.toNat = 0 := by rw [instantiate_ok h0]; rfl
  rw [hz, Nat.zero_add] at h1
  have key : ∀ k b, (announced log)[k]? = some b → ∃ m, WireFormat m b ∧ m.nonce.toNat = k := by
    intro k b hk
    obtain ⟨m, w1, w2, _⟩ := h5 k b hk
    exact ⟨m, w1, by omega⟩
  refine ⟨?_, h2.symm, key, ?_⟩
  · show s.nonce.toNat = _
    rw [h1, h2]
  · rw [List.nodup_iff_injective_getElem]
    rintro ⟨i, hi⟩ ⟨j, hj⟩ he
    obtain ⟨m1, w1, n1⟩ := key i _ (List.getElem?_eq_getElem hi)
    obtain ⟨m2, w2, n2⟩ := key j _ (List.getElem?_eq_getElem hj)
    simp only at he
    rw [he] at w1
    have := w1.nonce
    rw [w2.nonce] at this
    simp only [Fin.mk.injEq]
    omega

example : dispatches (Tx.history (execute toyHash Bech.codec) Ex.s0 (Ex.txs ++ Ex.txs)).2 = 2 ∧
    getNonce (Tx.history (execute toyHash Bech.codec) Ex.s0 (Ex.txs ++ Ex.txs)).1 = 2 := by
  decide +kernel

/-- **C20.** In any state and for any caller, a successful dispatch announces, exactly once, bytes that are a version 3
message from the mailbox's domain whose sender is the caller's address as 32 bytes and whose destination, recipient and
body are the requested ones; the announced id, the returned id and the latest-dispatched-id query afterwards are the
hash of those bytes. A recipient that is not 32 bytes long is refused. -/
theorem C20_dispatched_contents {s : State} {c : Call} {q : DispatchMsg} (hc : c.msg = .dispatch q) :
    (∀ s' r, execute H C s c = .ok (s', r) →
      ∃ m b, WireFormat m b ∧ m.version = 3 ∧ m.nonce = s.nonce ∧
        m.origin = s.config.localDomain ∧ bech32ToH256 C c.sender = .ok m.sender ∧
        m.dest = q.dest ∧ m.recipient = q.recipient ∧ m.body = q.body ∧
        r.events = [.dispatchId (H b), .dispatch m.sender m.dest m.recipient b] ∧
        r.data = some (H b) ∧ getLatestDispatchId s' = .ok (H b)) ∧
    (q.recipient.length ≠ 32 → ∃ e, execute H C s c = .error e) := by
  refine ⟨?_, ?_⟩
  · intro s' r h
    unfold execute at h
    rw [hc] at h
    obtain ⟨h32, dflt, hook, required, fees, attached, rest, n, hr, hb, _, _, _, _, _, _, hn,
        rfl, rfl⟩ := dispatch_ok.1 h
    exact ⟨⟨version, s.nonce, s.config.localDomain, h32, q.dest, q.recipient, q.body⟩, _,
      wireFormat_of_decode (Message.decode_encode _ (length_bech32ToH256 hb) hr), rfl, rfl, rfl, hb,
      rfl, rfl, rfl, rfl, rfl, rfl⟩
  · intro hl
    rw [← not_ok_iff]
    rintro ⟨s', r⟩ h
    unfold execute at h
    rw [hc] at h
    obtain ⟨h32, dflt, hook, required, fees, attached, rest, n, hr, _⟩ := dispatch_ok.1 h
    exact hl hr

example : ∃ s c q x, c.msg = .dispatch q ∧ execute toyHash Bech.codec s c = .ok x :=
  ⟨Ex.s1, _, _, Ex.dispatch_ok.choose, rfl, Ex.dispatch_ok.choose_spec⟩

/-- **C20** (no impersonation). Two callers with account or contract addresses of the same prefix under whose dispatches
the same sender is announced are the same caller (any codec that decodes what it encodes, e.g. the concrete bech32
one). -/
theorem C20_sender_identifies_caller (hC : C.Lawful) {hrp : String} {s1 s2 s1' s2' : State}
    {c1 c2 : Call} {q1 q2 : DispatchMsg} {r1 r2 : Response} {raw1 raw2 : Bytes} {sd rc1 b1 rc2 b2}
    {d1 d2 : UInt32} {i1 i2 : Bytes}
    (hc1 : c1.msg = .dispatch q1) (hc2 : c2.msg = .dispatch q2)
    (ha1 : AccountBytes raw1) (he1 : C.enc hrp raw1 = some c1.sender)
    (ha2 : AccountBytes raw2) (he2 : C.enc hrp raw2 = some c2.sender)
    (h1 : execute H C s1 c1 = .ok (s1', r1)) (h2 : execute H C s2 c2 = .ok (s2', r2))
    (hr1 : r1.events = [.dispatchId i1, .dispatch sd d1 rc1 b1])
    (hr2 : r2.events = [.dispatchId i2, .dispatch sd d2 rc2 b2]) :
    c1.sender = c2.sender := by
  obtain ⟨m1, b1', _, _, _, _, hs1, _, _, _, hev1, _⟩ := (C20_dispatched_contents hc1).1 _ _ h1
  obtain ⟨m2, b2', _, _, _, _, hs2, _, _, _, hev2, _⟩ := (C20_dispatched_contents hc2).1 _ _ h2
  rw [hr1] at hev1
  rw [hr2] at hev2
  simp only [List.cons.injEq, Event.dispatchId.injEq, Event.dispatch.injEq, and_true] at hev1 hev2
  obtain ⟨p1, q1'⟩ := bech32_roundtrip_lawful hC ha1 he1
  obtain ⟨p2, q2'⟩ := bech32_roundtrip_lawful hC ha2 he2
  rw [hs1] at p1
  rw [hs2] at p2
  simp only [Except.ok.injEq] at p1 p2
  have : m1.sender = m2.sender := by rw [← hev1.2.1, ← hev2.2.1]
  rw [← p1, this, p2, q2'] at q1'
  simpa using q1'.symm

/-- The codec hypothesis holds for bech32, and alice is such a caller. -/
example : Bech.codec.Lawful ∧ AccountBytes Ex.aliceRaw ∧
    Bech.codec.enc "osmo" Ex.aliceRaw = some Ex.alice :=
  ⟨bech32_codec_lawful, .inl rfl, by decide +kernel⟩

/-- **C20** (history). After any history the latest-dispatched-id query is the id of the last announced message. -/
theorem C20_latest_id {lower : Char → Bool} {valid : Addr → Bool} {hrp : String}
    {domain : UInt32} {owner : Addr} {s0 : State}
    (h0 : instantiate lower valid hrp domain owner = .ok s0) (txs : List (List (Tx.Act Call))) (i : Bytes) :
    getLatestDispatchId (Tx.history (execute H C) s0 txs).1 = .ok i ↔
      ∃ b, (announced (Tx.history (execute H C) s0 txs).2).getLast? = some b ∧ H b = i := by
  obtain ⟨_, _, _, _, _, h6⟩ := announced_chain (Tx.history_chain (execute H C) s0 txs)
  have hz : s0.latest = none := by rw [instantiate_ok h0]
  rw [hz] at h6
  unfold getLatestDispatchId
  rw [h6]
  cases (announced (Tx.history (execute H C) s0 txs).2).getLast? with
  | none => simp
  | some b => simp

example : (Tx.history (execute toyHash Bech.codec) Ex.s0 Ex.txs).1.latest =
    some (toyHash Ex.message.encode) := by decide +kernel

/-- **C21.** A successful dispatch emits exactly two messages, first the required hook's with exactly the fees it quoted,
then the selected hook's; per denomination the funds of the two add up to the funds attached; the second carries no
zero coins and no repeated denominations. -/
theorem C21_forwards_all_funds {s s' : State} {c : Call} {q : DispatchMsg} {r : Response}
    (hc : c.msg = .dispatch q) (h : execute H C s c = .ok (s', r)) :
    ∃ required hook b fees rest,
      s.config.requiredHook = some required ∧
      (q.hook = some hook ∨ (q.hook = none ∧ s.config.defaultHook = some hook)) ∧
      c.env.quote required (q.metadata.getD []) b = .ok fees ∧
      r.msgs = [.execute required (.postDispatch (q.metadata.getD []) b) fees,
                .execute hook (.postDispatch (q.metadata.getD []) b) rest] ∧
      announced [(c, r)] = [b] ∧
      (∀ d, amountOf d fees + amountOf d rest = amountOf d c.funds) ∧
      (∀ x ∈ rest, x.amount ≠ 0) ∧ (rest.map (·.denom)).Nodup := by
  unfold execute at h
  rw [hc] at h
  obtain ⟨h32, dflt, hook, required, fees, attached, rest, n, hr, hb, h3, h4, h5, h6, h7, h8, hn,
        rfl, rfl⟩ := dispatch_ok.1 h
  refine ⟨required, hook, _, fees, _, h5, ?_, h6, rfl, rfl, ?_, ?_, ?_⟩
  · unfold getHookAddr at h4
    cases hq : q.hook with
    | none =>
      rw [hq] at h4
      simp only [Except.ok.injEq] at h4
      exact .inr ⟨rfl, by rw [h3, h4]⟩
    | some x =>
      rw [hq] at h4
      obtain ⟨_, _, h4⟩ := bind_eq_ok.1 h4
      simp only [pure_eq_ok, Except.ok.injEq] at h4
      exact .inl (by rw [h4])
  · intro d
    rw [Coins.amountOf_toVec, ← Coins.tryFrom_ok h7 d, ← Coins.subAll_ok h8 d]
    omega
  · exact Coins.toVec_pos (Coins.subAll_pos h8 (Coins.tryFrom_pos h7))
  · exact Coins.toVec_denoms_nodup _

/-- 9 uosmo and 1 uatom attached: 5 uosmo go to the required hook, the other 4 and the uatom to the selected one. -/
example : (execute toyHash Bech.codec Ex.s1 (Ex.call [⟨"uosmo", 9⟩, ⟨"uatom", 1⟩]
    (.dispatch Ex.request))).toOption.map (fun x => x.2.msgs) =
    some [.execute "req" (.postDispatch [] Ex.message.encode) [⟨"uosmo", 5⟩],
      .execute "hook" (.postDispatch [] Ex.message.encode) [⟨"uatom", 1⟩, ⟨"uosmo", 4⟩]] := by
  decide +kernel

/-- **C22.** Take a dispatch that is acceptable apart from payment: 32-byte recipient, hooks configured, caller-chosen
hook valid if given, the required hook quotes `fees`, nonces not exhausted, attached funds without repeated
denominations. It succeeds exactly when for every denomination the attached amount is at least the total quoted amount;
otherwise it fails with the payment error. -/
theorem C22_payment_check {s : State} {c : Call} {q : DispatchMsg} {h32 : Bytes}
    {dflt required : Addr} {fees : List Coin} (hc : c.msg = .dispatch q)
    (h1 : q.recipient.length = 32) (h2 : bech32ToH256 C c.sender = .ok h32)
    (h3 : s.config.defaultHook = some dflt) (h4 : ∀ a, q.hook = some a → c.env.valid a = true)
    (h5 : s.config.requiredHook = some required)
    (h6 : c.env.quote required (q.metadata.getD []) (Message.encode ⟨3, s.nonce,
      s.config.localDomain, h32, q.dest, q.recipient, q.body⟩) = .ok fees)
    (h7 : s.nonce.toNat + 1 < 2 ^ 32) (h8 : DistinctDenoms c.funds) :
    ((∃ x, execute H C s c = .ok x) ↔ ∀ d, amountOf d fees ≤ amountOf d c.funds) ∧
    ((∃ d, amountOf d c.funds < amountOf d fees) →
      execute H C s c = .error (.err "hook payment")) := by
  obtain ⟨att, hatt⟩ := Coins.tryFrom_isOk.2 h8
  obtain ⟨hook, hhook⟩ : ∃ hook, getHookAddr c.env.valid q dflt = .ok hook := by
    unfold getHookAddr
    cases hq : q.hook with
    | none => exact ⟨_, rfl⟩
    | some a => exact ⟨a, by simp [h4 a hq]⟩
  have hex : execute H C s c = dispatch H C c.env s c.sender c.funds q := by
    unfold execute; rw [hc]
  have hiff : (∃ x, execute H C s c = .ok x) ↔ ∀ d, amountOf d fees ≤ amountOf d c.funds := by
    rw [hex]
    constructor
    · rintro ⟨⟨s', r⟩, h⟩ d
      obtain ⟨h32', dflt', hook', required', fees', attached, rest, n, hr, hb, k3, k4, k5, k6, k7,
        k8, hn, _, _⟩ := dispatch_ok.1 h
      rw [h2] at hb; cases hb
      rw [h5] at k5; cases k5
      rw [show version = 3 from rfl, h6] at k6; cases k6
      have e1 := Coins.tryFrom_ok k7 d
      have e2 := Coins.subAll_ok k8 d
      omega
    · intro hle
      obtain ⟨rest, hrest⟩ := Coins.subAll_isOk.2 (fun d => by
        rw [Coins.tryFrom_ok hatt d]; exact hle d : ∀ d, amountOf d fees ≤ Coins.amt att d)
      have hn : (s.nonce + 1).toNat = s.nonce.toNat + 1 := by
        rw [UInt32.toNat_add]
        simpa using h7
      exact ⟨(_, _), dispatch_ok.2 ⟨h32, dflt, hook, required, fees, att, rest, s.nonce + 1, h1, h2,
        h3, hhook, h5, h6, hatt, hrest, hn, rfl, rfl⟩⟩
  refine ⟨hiff, ?_⟩
  rintro ⟨d, hd⟩
  rw [hex]
  unfold dispatch
  have hp : payFees att fees = .error (.err "hook payment") := by
    unfold payFees
    cases hs : Coins.subAll att fees with
    | error e => rfl
    | ok r =>
      have e1 := Coins.tryFrom_ok hatt d
      have e2 := Coins.subAll_ok hs d
      omega
  rw [toMsg_ok.2 ⟨h32, h2, rfl⟩, expectSet_ok.2 h3, expectSet_ok.2 h5]
  simp only [h1, decide_true, ensure_true, ok_bind, hhook, show version = 3 from rfl, h6, hatt, hp,
    error_bind]

/-- A request that meets the hypotheses, with funds that do and funds that do not cover the fee. -/
example : Ex.request.recipient.length = 32 ∧
    bech32ToH256 Bech.codec Ex.alice = .ok (zeros 12 ++ Ex.aliceRaw) ∧
    Ex.s1.config.defaultHook = some "hook" ∧ Ex.s1.config.requiredHook = some "req" ∧
    (∀ md b, Ex.env.quote "req" md b = .ok [⟨"uosmo", 5⟩]) ∧
    DistinctDenoms [⟨"uosmo", 9⟩, ⟨"uatom", 1⟩] ∧ DistinctDenoms [⟨"uosmo", 4⟩] :=
  ⟨rfl, by decide +kernel, rfl, rfl, fun _ _ => rfl, by simp [DistinctDenoms], by simp [DistinctDenoms]⟩

/-- **C23.** If the quote query returns `total` for a caller and a request with a 32-byte recipient, then the same
request by that caller with exactly `total` attached succeeds against the same answers of the hooks (nonces not
exhausted), the required hook is sent exactly its own quote, and the selected hook is sent, per denomination, exactly
its own quote. -/
theorem C23_quote_exact {env : Env} {s : State} {sender : Addr} {q : DispatchMsg}
    {total : List Coin} (hq : quoteDispatch C env s sender q = .ok total)
    (h32 : q.recipient.length = 32) (hn : s.nonce.toNat + 1 < 2 ^ 32) :
    ∃ s' required hook b feesR feesH rest ev data,
      execute H C s ⟨env, sender, total, .dispatch q⟩ = .ok (s',
        { msgs := [.execute required (.postDispatch (q.metadata.getD []) b) feesR,
                   .execute hook (.postDispatch (q.metadata.getD []) b) rest]
          events := ev, data := data }) ∧
      env.quote required (q.metadata.getD []) b = .ok feesR ∧
      env.quote hook (q.metadata.getD []) b = .ok feesH ∧
      (∀ d, amountOf d rest = amountOf d feesH) ∧
      (∀ d, amountOf d total = amountOf d feesR + amountOf d feesH) := by
  unfold quoteDispatch at hq
  obtain ⟨_, _, hq⟩ := bind_eq_ok.1 hq
  obtain ⟨msg, h2, hq⟩ := bind_eq_ok.1 hq
  obtain ⟨dflt, h3, hq⟩ := bind_eq_ok.1 hq
  obtain ⟨required, h4, hq⟩ := bind_eq_ok.1 hq
  obtain ⟨hook, h5, hq⟩ := bind_eq_ok.1 hq
  obtain ⟨feesH, h6, hq⟩ := bind_eq_ok.1 hq
  obtain ⟨feesR, h7, hq⟩ := bind_eq_ok.1 hq
  obtain ⟨base, h8, hq⟩ := bind_eq_ok.1 hq
  obtain ⟨tot, h9, hq⟩ := bind_eq_ok.1 hq
  have htv : Coins.toVec tot = total := by simpa using hq
  clear hq
  obtain ⟨h32', hb, rfl⟩ := toMsg_ok.1 h2
  have htot : ∀ d, amountOf d total = amountOf d feesR + amountOf d feesH := by
    intro d
    rw [← htv, Coins.amountOf_toVec, Coins.addAll_ok h9 d, Coins.tryFrom_ok h8 d]
    omega
  obtain ⟨att, hatt⟩ := Coins.tryFrom_isOk.2 (show DistinctDenoms total by
    rw [← htv]; exact Coins.distinct_toVec _)
  obtain ⟨rest, hrest⟩ := Coins.subAll_isOk.2 (fun d => by
    rw [Coins.tryFrom_ok hatt d, htot d]; omega : ∀ d, amountOf d feesR ≤ Coins.amt att d)
  have hns : (s.nonce + 1).toNat = s.nonce.toNat + 1 := by
    rw [UInt32.toNat_add]
    simpa using hn
  refine ⟨_, required, hook, _, feesR, feesH, Coins.toVec rest, _, _,
    dispatch_ok.2 ⟨h32', dflt, hook, required, feesR, att, rest, s.nonce + 1, h32, hb,
      expectSet_ok.1 h3, h5, expectSet_ok.1 h4, h7, hatt, hrest, hns, rfl, rfl⟩, h7, h6, ?_, htot⟩
  intro d
  have e1 := Coins.tryFrom_ok hatt d
  have e2 := Coins.subAll_ok hrest d
  have e3 := htot d
  rw [Coins.amountOf_toVec]
  omega

example : quoteDispatch Bech.codec Ex.env Ex.s1 Ex.alice Ex.request =
    .ok [⟨"uatom", 1⟩, ⟨"uosmo", 8⟩] := by decide +kernel

/-! ## Configuration -/

/-- **C24.** One successful call changes a configuration entry only if it is the owner's call for that entry with an
address the chain accepts, and then it becomes that address and nothing else of the mailbox changes; over any history
of transactions the local domain and the address prefix stay what instantiation set. -/
theorem C24_owner_only_config :
    (∀ (s s' : State) (c : Call) (r : Response), execute H C s c = .ok (s', r) →
      (s'.config.defaultIsm ≠ s.config.defaultIsm →
        ∃ a, c.msg = .setDefaultIsm a ∧ s.own.owner = some c.sender ∧ c.env.valid a = true ∧
          s' = { s with config := { s.config with defaultIsm := some a } }) ∧
      (s'.config.defaultHook ≠ s.config.defaultHook →
        ∃ a, c.msg = .setDefaultHook a ∧ s.own.owner = some c.sender ∧ c.env.valid a = true ∧
          s' = { s with config := { s.config with defaultHook := some a } }) ∧
      (s'.config.requiredHook ≠ s.config.requiredHook →
        ∃ a, c.msg = .setRequiredHook a ∧ s.own.owner = some c.sender ∧ c.env.valid a = true ∧
          s' = { s with config := { s.config with requiredHook := some a } }) ∧
      (s'.own ≠ s.own → ∃ m, c.msg = .ownable m ∧
        Ownable.handle c.env.valid s.own c.sender m = .ok s'.own ∧ s' = { s with own := s'.own })) ∧
    (∀ (lower : Char → Bool) (valid : Addr → Bool) (hrp : String) (domain : UInt32) (owner : Addr)
      (s0 : State) (txs : List (List (Tx.Act Call))),
      instantiate lower valid hrp domain owner = .ok s0 →
      (Tx.history (execute H C) s0 txs).1.config.localDomain = domain ∧
      (Tx.history (execute H C) s0 txs).1.config.hrp = hrp) := by
  refine ⟨?_, ?_⟩
  · intro s s' c r h
    rcases execute_cases h with ⟨x, o, hm, ho, rfl, rfl⟩ | ⟨a, hm, h1, h2, rfl, rfl⟩ |
      ⟨a, hm, h1, h2, rfl, rfl⟩ | ⟨a, hm, h1, h2, rfl, rfl⟩ | ⟨x, hm, hx⟩ | ⟨md, msg, hm, hx⟩
    · exact ⟨fun hne => absurd rfl hne, fun hne => absurd rfl hne, fun hne => absurd rfl hne,
        fun _ => ⟨x, hm, ho, rfl⟩⟩
    · exact ⟨fun _ => ⟨a, hm, h1, h2, rfl⟩, fun hne => absurd rfl hne, fun hne => absurd rfl hne,
        fun hne => absurd rfl hne⟩
    · exact ⟨fun hne => absurd rfl hne, fun _ => ⟨a, hm, h1, h2, rfl⟩, fun hne => absurd rfl hne,
        fun hne => absurd rfl hne⟩
    · exact ⟨fun hne => absurd rfl hne, fun hne => absurd rfl hne, fun _ => ⟨a, hm, h1, h2, rfl⟩,
        fun hne => absurd rfl hne⟩
    · obtain ⟨_, _, _, _, _, _, _, _, _, _, _, _, _, _, _, _, _, rfl, rfl⟩ := dispatch_ok.1 hx
      exact ⟨fun hne => absurd rfl hne, fun hne => absurd rfl hne, fun hne => absurd rfl hne,
        fun hne => absurd rfl hne⟩
    · obtain ⟨dm, rc, named, dflt, _, _, _, _, _, _, hnot, _, rfl, rfl⟩ := process_ok.1 hx
      exact ⟨fun hne => absurd rfl hne, fun hne => absurd rfl hne, fun hne => absurd rfl hne,
        fun hne => absurd rfl hne⟩
  · intro lower valid hrp domain owner s0 txs h0
    obtain ⟨_, _, h3, h4, _⟩ := announced_chain (Tx.history_chain (execute H C) s0 txs)
    rw [h3, h4, instantiate_ok h0]
    exact ⟨rfl, rfl⟩

/-- Three configuration calls of the owner succeed in the example history. -/
example : (Tx.history (execute toyHash Bech.codec) Ex.s0 Ex.txs).1.config =
    ⟨"osmo", 1, some "ism", some "hook", some "req"⟩ := by decide +kernel

/-- **C25** (processing), as claimed: when the recipient names an ISM, whether processing succeeds does not depend on
the default ISM. -/
def C25_process_full : Prop := ∀ (H : Bytes → Bytes) (C : Codec) (s : State) (c : Call)
    (d : Option Addr) (metadata message : Bytes) (m : Message) (rc ism : Addr),
    c.msg = .process metadata message → WireFormat m message →
    bech32Encode C s.config.hrp m.recipient = .ok rc → c.env.recipientIsm rc = .ok (some ism) →
    ((∃ x, execute H C s c = .ok x) ↔
      ∃ x, execute H C { s with config := { s.config with defaultIsm := d } } c = .ok x)

/-- **C25** (dispatch), as claimed: when the caller names a hook, whether dispatch succeeds does not depend on the
default hook. -/
def C25_dispatch_full : Prop := ∀ (H : Bytes → Bytes) (C : Codec) (s : State) (c : Call)
    (d : Option Addr) (q : DispatchMsg) (hook : Addr),
    c.msg = .dispatch q → q.hook = some hook →
    ((∃ x, execute H C s c = .ok x) ↔
      ∃ x, execute H C { s with config := { s.config with defaultHook := d } } c = .ok x)

theorem isSome_of_ok {α : Type} {x : Res α} (h : ∃ y, x = .ok y) : x.toOption.isSome = true := by
  obtain ⟨y, rfl⟩ := h
  rfl

theorem ok_of_isSome {α : Type} {x : Res α} (h : x.toOption.isSome = true) : ∃ y, x = .ok y := by
  cases x with
  | ok y => exact ⟨y, rfl⟩
  | error e => cases h

/-- The claim fails: with the default ISM unset, processing aborts although the recipient names an ISM. -/
theorem C25_process_full_refuted : ¬ C25_process_full := by
  intro h
  have := isSome_of_ok ((h toyHash Bech.codec Ex.s1
    ⟨{ Ex.env with recipientIsm := fun _ => .ok (some "own") }, Ex.alice, [],
      .process [] Ex.message.encode⟩ none [] Ex.message.encode Ex.message Ex.alice "own" rfl
    (wireFormat_of_decode (by decide +kernel)) (by decide +kernel) rfl).1
    (ok_of_isSome (by decide +kernel)))
  revert this
  decide +kernel

/-- The claim fails: with the default hook unset, dispatch aborts although the caller names a hook. -/
theorem C25_dispatch_full_refuted : ¬ C25_dispatch_full := by
  intro h
  have := isSome_of_ok ((h toyHash Bech.codec Ex.s1
    (Ex.call [⟨"uosmo", 9⟩] (.dispatch { Ex.request with hook := some "own" })) none _ "own" rfl
    rfl).1 (ok_of_isSome (by decide +kernel)))
  revert this
  decide +kernel

/-- **C25** (what does hold). Between two set values of a default the result is the same when the recipient (or caller)
names its own: same success, same response, same new state apart from that setting. Missing: the case that the default
is unset, where the claim is false. -/
theorem C25_named_wins_partial {s : State} {c : Call} {d d0 : Addr} :
    (∀ metadata message m rc ism, c.msg = .process metadata message → WireFormat m message →
      bech32Encode C s.config.hrp m.recipient = .ok rc → c.env.recipientIsm rc = .ok (some ism) →
      s.config.defaultIsm = some d0 → ∀ s' r,
      (execute H C s c = .ok (s', r) ↔
        execute H C { s with config := { s.config with defaultIsm := some d } } c =
          .ok ({ s' with config := { s.config with defaultIsm := some d } }, r) ∧
        s'.config = s.config)) ∧
    (∀ q hook, c.msg = .dispatch q → q.hook = some hook → s.config.defaultHook = some d0 → ∀ s' r,
      (execute H C s c = .ok (s', r) ↔
        execute H C { s with config := { s.config with defaultHook := some d } } c =
          .ok ({ s' with config := { s.config with defaultHook := some d } }, r) ∧
        s'.config = s.config)) := by
  refine ⟨?_, ?_⟩
  · intro metadata message m rc ism hc hw hrc hism hd0 s' r
    have hdec : Message.decode message = .ok m := decode_of_wireFormat hw
    unfold execute
    rw [hc]
    simp only
    unfold process
    rw [hdec]
    simp only [ok_bind, hrc, hism, hd0, expectSet, Option.getD_some]
    cases ensure (decide (m.version = version)) "invalid message version" with
    | error e => simp
    | ok _ =>
    cases ensure (decide (m.dest = s.config.localDomain)) "invalid destination domain" with
    | error e => simp
    | ok _ =>
    cases ensure (!s.deliveries.has (m.id H)) "message already delivered" with
    | error e => simp
    | ok _ =>
    cases c.env.verify ism metadata m.encode with
    | error e => simp
    | ok v =>
    cases hv : ensure v "verify failed" with
    | error e => simp [hv]
    | ok _ =>
      simp only [ok_bind, hv]
      obtain ⟨c1, c2, c3, c4, c5⟩ := s'
      simp only [pure_eq_ok, Except.ok.injEq, Prod.mk.injEq, State.mk.injEq, true_and]
      constructor
      · rintro ⟨⟨rfl, rfl, rfl, rfl, rfl⟩, rfl⟩; simp
      · rintro ⟨⟨⟨rfl, rfl, rfl, rfl⟩, rfl⟩, rfl⟩; simp
  · intro q hook hc hq hd0 s' r
    unfold execute
    rw [hc]
    simp only
    unfold dispatch
    simp only [hd0, expectSet, ok_bind, getHookAddr, hq]
    cases ensure (decide (q.recipient.length = 32)) "invalid address length" with
    | error e => simp
    | ok _ =>
    cases toMsg C q version s.nonce s.config.localDomain c.sender with
    | error e => simp
    | ok msg =>
    cases he : ensure (c.env.valid hook) "invalid address" with
    | error e => simp
    | ok _ =>
    simp only [ok_bind]
    cases s.config.requiredHook with
    | none => simp
    | some required =>
    simp only [ok_bind]
    cases c.env.quote required (q.metadata.getD []) msg.encode with
    | error e => simp
    | ok fees =>
    simp only [ok_bind]
    cases Coins.tryFrom c.funds with
    | error e => simp
    | ok att =>
    simp only [ok_bind]
    cases payFees att fees with
    | error e => simp
    | ok rest =>
    simp only [ok_bind]
    cases nonceSucc s.nonce with
    | error e => simp
    | ok n =>
      obtain ⟨c1, c2, c3, c4, c5⟩ := s'
      simp only [ok_bind, pure_eq_ok, Except.ok.injEq, Prod.mk.injEq, State.mk.injEq, true_and]
      constructor
      · rintro ⟨⟨rfl, rfl, rfl, rfl, rfl⟩, rfl⟩; simp
      · rintro ⟨⟨⟨rfl, rfl, rfl, rfl⟩, rfl⟩, rfl⟩; simp

/-! ## End to end -/

/-- **C26.** Mailbox A (state `sA`) dispatches a request `q` of account `cA.sender` whose destination is the domain of
mailbox B, announcing bytes `b`. If B processes `b` successfully, the only message emitted on B is the call of the
requested recipient's handler with A's domain, the dispatching account's 32-byte address and the requested body. And B
does process `b` successfully if the id is fresh, the recipient bytes denote an address `rc`, B has a default ISM, and
the ISM responsible for `rc` approves. -/
theorem C26_end_to_end {HA HB : Bytes → Bytes} {CA CB : Codec} {sA sA' sB : State} {cA cB : Call}
    {q : DispatchMsg} {rA : Response} {b metadata : Bytes}
    (hcA : cA.msg = .dispatch q) (hA : execute HA CA sA cA = .ok (sA', rA))
    (hb : announced [(cA, rA)] = [b]) (hdest : q.dest = sB.config.localDomain)
    (hcB : cB.msg = .process metadata b) :
    ∃ sender32, bech32ToH256 CA cA.sender = .ok sender32 ∧
    (∀ sB' rB, execute HB CB sB cB = .ok (sB', rB) →
      ∃ rc, bech32Encode CB sB.config.hrp q.recipient = .ok rc ∧
        rB.msgs = [.execute rc (.handle sA.config.localDomain sender32 q.body) []]) ∧
    (∀ rc ism, bech32Encode CB sB.config.hrp q.recipient = .ok rc →
      getDelivered sB (HB b) = false → sB.config.defaultIsm ≠ none →
      ResponsibleIsm cB.env sB rc ism → cB.env.verify ism metadata b = .ok true →
      ∃ x, execute HB CB sB cB = .ok x) := by
  unfold execute at hA
  rw [hcA] at hA
  obtain ⟨h32, dflt, hook, required, fees, attached, rest, n, hr, hs, _, _, _, _, _, _, hn,
        rfl, rfl⟩ := dispatch_ok.1 hA
  have hbe : b = Message.encode ⟨version, sA.nonce, sA.config.localDomain, h32, q.dest, q.recipient,
      q.body⟩ := by
    simpa [announced] using hb.symm
  have hdec : Message.decode b = .ok ⟨version, sA.nonce, sA.config.localDomain, h32, q.dest,
      q.recipient, q.body⟩ := by
    rw [hbe]
    exact Message.decode_encode _ (length_bech32ToH256 hs) hr
  have hex : execute HB CB sB cB = process HB CB cB.env sB cB.sender metadata b := by
    unfold execute; rw [hcB]
  refine ⟨h32, hs, ?_, ?_⟩
  · intro sB' rB hB
    rw [hex] at hB
    obtain ⟨m, rc, named, dflt, h1, h2, _, _, _, _, _, _, _, rfl⟩ := process_ok.1 hB
    rw [hdec] at h1
    cases h1
    exact ⟨rc, h2, rfl⟩
  · intro rc ism h1 h2 h3 h4 h5
    obtain ⟨dflt, hd⟩ := Option.ne_none_iff_exists'.1 h3
    rw [hex]
    rcases h4 with h4 | ⟨h4, h4'⟩
    · exact ⟨(_, _), process_ok.2 ⟨_, rc, some ism, dflt, hdec, h1, rfl, hdest, h4, hd, h2, h5, rfl,
        rfl⟩⟩
    · exact ⟨(_, _), process_ok.2 ⟨_, rc, none, ism, hdec, h1, rfl, hdest, h4, h4', h2, h5, rfl,
        rfl⟩⟩

/-- Alice dispatches from domain 1 to domain 1; the announced bytes are processed. -/
example : (∃ x, execute toyHash Bech.codec Ex.s1 (Ex.call [⟨"uosmo", 9⟩, ⟨"uatom", 1⟩] (.dispatch Ex.request)) = .ok x ∧
      announced [(Ex.call [⟨"uosmo", 9⟩, ⟨"uatom", 1⟩] (.dispatch Ex.request), x.2)] =
        [Ex.message.encode]) ∧
    Ex.request.dest = Ex.s1.config.localDomain ∧
    bech32Encode Bech.codec "osmo" Ex.request.recipient = .ok Ex.alice ∧
    ResponsibleIsm Ex.env Ex.s1 Ex.alice "ism" ∧ Ex.env.verify "ism" [] Ex.message.encode = .ok true := by
  refine ⟨?_, rfl, by decide +kernel, .inr ⟨rfl, rfl⟩, rfl⟩
  have h : (execute toyHash Bech.codec Ex.s1 (Ex.call [⟨"uosmo", 9⟩, ⟨"uatom", 1⟩]
    (.dispatch Ex.request))).toOption.map (fun x => announced
      [(Ex.call [⟨"uosmo", 9⟩, ⟨"uatom", 1⟩] (.dispatch Ex.request), x.2)]) =
      some [Ex.message.encode] := by decide +kernel
  generalize execute toyHash Bech.codec Ex.s1 (Ex.call [⟨"uosmo", 9⟩, ⟨"uatom", 1⟩]
    (.dispatch Ex.request)) = y at h
  cases y with
  | ok x => exact ⟨x, rfl, by simpa [Except.toOption] using h⟩
  | error e => cases h

end

end Hpl
