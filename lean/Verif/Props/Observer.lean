import Verif.Props.Events
import Verif.Props.SecpSecurity
import Verif.Props.Hooks

/-! # C101: validators and relayers who see nothing but events -/

namespace Hpl

open Spec Secp Events Mailbox
open Keccak (keccak256)

namespace Spec

/-- An event of the mailbox shows the dispatch of message `b`. -/
def SeenDispatched (evs : List TextEvent) (b : Bytes) : Prop := ∃ e ∈ ofType "mailbox_dispatch" evs, HexAt "message" e b

/-- An event of the mailbox shows the delivery of a message with this id. -/
def SeenDelivered (evs : List TextEvent) (id : Bytes) : Prop := ∃ e ∈ ofType "mailbox_process_id" evs, HexAt "message_id" e id

end Spec

variable {H : Bytes → Bytes} {C : Codec}

theorem call_told {s s' : Mailbox.State} {c : Mailbox.Call} {r : Response} (h : execute H C s c = .ok (s', r)) :
    (ofType "mailbox_dispatch" (Events.mailbox s c r)).map (attr "message") =
      (r.events.filterMap (fun ev => match ev with
        | .dispatch _ _ _ message => some message
        | _ => none)).map (fun b => some (hexText b)) := by
  have key : ∀ l : List Event, (ofType "mailbox_dispatch" (l.map ofMailbox)).map (attr "message") =
      (l.filterMap (fun ev => match ev with
        | .dispatch _ _ _ message => some message
        | _ => none)).map (fun b => some (hexText b)) := by
    intro l
    induction l with
    | nil => rfl
    | cons e t ih =>
      cases e with
      | dispatch a b c d =>
        simp only [ofType, List.map_cons, List.filterMap_cons] at ih ⊢
        rw [List.filter_cons_of_pos (by rfl), List.map_cons, ih, ← hex_eq]
        rfl
      | _ =>
        simp only [ofType, List.map_cons, List.filterMap_cons] at ih ⊢
        rw [List.filter_cons_of_neg (by simp [ofMailbox]), ih]
  obtain ⟨env, sender, funds, m⟩ := c
  unfold execute at h
  cases m with
  | ownable m =>
    obtain ⟨o, _, hf⟩ := bind_eq_ok.1 h
    cases hf
    cases m <;> rfl
  | setDefaultIsm a => obtain ⟨o, _, hf⟩ := bind_eq_ok.1 h; cases hf; rfl
  | setDefaultHook a => obtain ⟨o, _, hf⟩ := bind_eq_ok.1 h; cases hf; rfl
  | setRequiredHook a => obtain ⟨o, _, hf⟩ := bind_eq_ok.1 h; cases hf; rfl
  | dispatch q => exact key r.events
  | process a b => exact key r.events

theorem chain_told {s s' : Mailbox.State} {log : List (Mailbox.Call × (Response × List TextEvent))}
    (h : Tx.Chain (logged (execute H C) Events.mailbox) s log s') :
    (ofType "mailbox_dispatch" (all log)).map (attr "message") = (announced (bare log)).map (fun b => some (hexText b)) := by
  induction log generalizing s with
  | nil => rfl
  | cons e t ih =>
    obtain ⟨c, r, l⟩ := e
    obtain ⟨m, h1, h2⟩ := h
    obtain ⟨h3, rfl⟩ := logged_ok.1 h1
    have ht := ih h2
    unfold ofType all announced bare at ht ⊢
    simp only [List.flatMap_cons, List.map_cons, List.filter_append, List.map_append, ht]
    congr 1
    exact call_told h3

/-- **C101** (events). After any history the `mailbox_dispatch` events of a mailbox show, in order, the bytes of exactly the messages
it announced. -/
theorem C101_dispatches_seen (s0 : Mailbox.State) (txs : List (List (Tx.Act Mailbox.Call))) :
    let evs := all (Tx.history (logged (execute H C) Events.mailbox) s0 txs).2
    (ofType "mailbox_dispatch" evs).map (attr "message") =
      (announced (Tx.history (execute H C) s0 txs).2).map (fun b => some (hexText b)) ∧
    ∀ b, SeenDispatched evs b ↔ b ∈ announced (Tx.history (execute H C) s0 txs).2 := by
  intro evs
  have h1 : (ofType "mailbox_dispatch" evs).map (attr "message") =
      (announced (Tx.history (execute H C) s0 txs).2).map (fun b => some (hexText b)) := by
    rw [(history_logged (execute H C) Events.mailbox s0 txs).2]
    exact chain_told (Tx.history_chain (logged (execute H C) Events.mailbox) s0 txs)
  refine ⟨h1, fun b => ?_⟩
  constructor
  · rintro ⟨e, he, hb⟩
    have := List.mem_map_of_mem (f := attr "message") he
    rw [h1, hb] at this
    obtain ⟨b', hb', e'⟩ := List.mem_map.1 this
    rw [← hexText_inj (Option.some.inj e')]
    exact hb'
  · intro hb
    have : some (hexText b) ∈ (announced (Tx.history (execute H C) s0 txs).2).map (fun b => some (hexText b)) :=
      List.mem_map.2 ⟨b, hb, rfl⟩
    rw [← h1] at this
    obtain ⟨e, he, hb⟩ := List.mem_map.1 this
    exact ⟨e, he, hb⟩

/-- **C101** (safety). As C99, with honest validators who look at nothing but the events of the mailbox of chain A and attest only
messages shown there. Whatever metadata are submitted on chain B: if a message with A's domain as its origin is delivered, then an
event of A shows it, and the recipient is called with the sender and the body shown; or a key, an address or the hash is broken. -/
theorem C101_observers_safe {g : secp256k1.Point} (hg : IsGenerator g) (norm : Bool) {world : Addr → Option IsmContract}
    (hw : ∀ a c, world a = some c → Reachable c) {honest : Bytes → Prop} (key : Bytes → ℕ)
    {signed : Bytes → Attestation → Prop} {lower : Char → Bool} {valid : Addr → Bool} {hrp : String} {dA : UInt32} {owner : Addr}
    {CA CB : Codec} {sA0 : Mailbox.State} (hA : instantiate lower valid hrp dA owner = .ok sA0)
    (txs : List (List (Tx.Act Mailbox.Call))) :
    let evs := all (Tx.history (logged (execute keccak256 CA) Events.mailbox) sA0 txs).2
    (∀ v, honest v → Truthful (fun o b => o = dA → SeenDispatched evs b) signed v) →
    ∀ {depth : Nat} {c : Mailbox.Call} {s s' : Mailbox.State} {m : Message} {metadata message : Bytes} {r : Response},
      c.env.verify = askIsm keccak256 (recover norm) world depth → c.msg = .process metadata message →
      WireFormat m message → m.origin = dA →
      (∀ rc ism, bech32Encode CB s.config.hrp m.recipient = .ok rc → ResponsibleIsm c.env s rc ism →
        Guarded world honest dA ism) →
      execute keccak256 CB s c = .ok (s', r) →
      (∃ e ∈ ofType "mailbox_dispatch" evs, ∃ from32 to32 rc, HexAt "message" e message ∧ HexAt "sender" e from32 ∧
        HexAt "recipient" e to32 ∧ NumberAt "destination" e s.config.localDomain.toNat ∧
        bech32Encode CB s.config.hrp to32 = .ok rc ∧
        r.msgs = [.execute rc (.handle dA from32 (message.drop 77)) []]) ∨
      KeyBroken g norm key honest signed dA metadata message ∨
        AddressBroken g norm key honest signed dA metadata message ∨ HashBroken keccak256 honest signed dA metadata message := by
  intro evs htruth depth c s s' m metadata message r henv hc hm ho hgd h
  obtain ⟨m', hm', k⟩ := C63_delivery_sound (R := recover norm) length_keccak256 hw htruth henv hc (by
    intro m2 rc ism h1 h2 h3
    have e := wireFormat_unique h1 hm
    subst e
    rw [ho]
    exact hgd rc ism h2 h3) h
  have e := wireFormat_unique hm' hm
  subst e
  rw [ho] at k
  rcases k with k | k | k
  · obtain ⟨e, he, hb⟩ := k rfl
    obtain ⟨i, hk⟩ := List.getElem?_of_mem he
    obtain ⟨m, b', e', w1, w2, _, w4, w5, w6, w7, w8, _⟩ := (C79_mailbox_events (H := keccak256) (C := CA) hA txs).2.2.1 i e hk
    have hbb : b' = message := hexText_inj (Option.some.inj (w5.symm.trans hb))
    subst hbb
    have em := wireFormat_unique w1 hm'
    subst em
    obtain ⟨env, sender, funds, msg⟩ := c
    cases hc
    obtain ⟨m2, rc, named, dflt, h1, h2, h3, h4, _, _, _, _, _, rfl⟩ := process_ok.1 h
    have em := wireFormat_unique (wireFormat_of_decode h1) w1
    subst em
    refine .inl ⟨e, he, m2.sender, m2.recipient, rc, hb, w6, w8, by rw [← h4]; exact w7, h2, ?_⟩
    rw [ho, w1.body]
  · exact .inr ((forged_broken hg norm k).elim .inl (fun h => .inr (.inl h)))
  · exact .inr (.inr (.inr k))

/-- **C101** (liveness). A relayer who sees nothing but events of the mailboxes of chains A and B, and signatures. An event of A shows a
message for B, no event of B shows its delivery, the responsible module on B is a multisig contract, and holders of secret keys of
threshold many different validators named by the module have signed a checkpoint with the id of the bytes shown. Then the relayer
delivers the message, and the recipient is called with A's domain, the sender shown and the body shown. -/
theorem C101_observers_deliver {g : secp256k1.Point} (hg : IsGenerator g) (norm : Bool)
    {lowerA lowerB : Char → Bool} {validA validB : Addr → Bool} {hrpA hrpB : String} {dA dB : UInt32} {ownerA ownerB : Addr}
    {CA CB : Codec} {sA0 sB0 : Mailbox.State} (hA : instantiate lowerA validA hrpA dA ownerA = .ok sA0)
    (hB : instantiate lowerB validB hrpB dB ownerB = .ok sB0) (txsA txsB : List (List (Tx.Act Mailbox.Call))) :
    let evsA := all (Tx.history (logged (execute keccak256 CA) Events.mailbox) sA0 txsA).2
    let evsB := all (Tx.history (logged (execute keccak256 CB) Events.mailbox) sB0 txsB).2
    let s := (Tx.history (execute keccak256 CB) sB0 txsB).1
    ∀ {e : TextEvent} {b from32 : Bytes} {world : Addr → Option IsmContract} {sender recipient ism : Addr} {env : Mailbox.Env}
      {funds : List Coin} {ms : Multisig.State} {t : UInt8} {vs : List Bytes} {tree root : Bytes} {index : UInt32}
      (keys : Bytes → ℕ) (sig : Bytes → Bytes) (q : List Bytes),
      e ∈ ofType "mailbox_dispatch" evsA → HexAt "message" e b → HexAt "sender" e from32 →
      destOf b = s.config.localDomain → bech32Encode CB s.config.hrp (recipientOf b) = .ok recipient →
      latest "mailbox_default_ism_set" "new_default_ism" evsB ≠ none → ¬ SeenDelivered evsB (keccak256 b) →
      ResponsibleIsm env s recipient ism → world ism = some (.multisig ms) → Multisig.verifyInfo ms b = .ok (t, vs) →
      1 ≤ t.toNat → tree.length = 32 → root.length = 32 → q.Nodup → q.length = t.toNat →
      (∀ v ∈ q, v ∈ vs ∧ 0 < keys v ∧ keys v < n ∧ AddressOf keccak256 g (keys v) v ∧
        EthSigned g false (keys v) (checkpointDigest keccak256 dA tree root index (keccak256 b)) (sig v)) →
      ∃ md depth, md.length ≤ 68 + 65 * t.toNat ∧ ∀ k, ∃ s' r,
        execute keccak256 CB s
          ⟨{ env with verify := askIsm keccak256 (recover norm) world (depth + k) }, sender, funds, .process md b⟩ =
          .ok (s', r) ∧
        r.msgs = [.execute recipient (.handle dA from32 (b.drop 77)) []] ∧
        Mailbox.getDelivered s' (keccak256 b) = true := by
  intro evsA evsB s e b from32 world sender recipient ism env funds ms t vs tree root index keys sig q he hb hf hd hr hi hn hresp
    hw hinfo ht h1 h2 hq hl hsig
  obtain ⟨k, hk⟩ := List.getElem?_of_mem he
  obtain ⟨m, b', e', w1, w2, _, w4, w5, w6, _⟩ := (C79_mailbox_events (H := keccak256) (C := CA) hA txsA).2.2.1 k e hk
  have hbb : b' = b := hexText_inj (Option.some.inj (w5.symm.trans hb))
  subst hbb
  have hff : m.sender = from32 := hexText_inj (Option.some.inj (w6.symm.trans hf))
  obtain ⟨_, hd', hr'⟩ := decode_fields (decode_of_wireFormat w1)
  obtain ⟨hs, _, _, _, _, hdel, _, _, _, hism, _⟩ := C79_mailbox_events (H := keccak256) (C := CB) hB txsB
  rw [hs] at hdel hism
  have hfalse : getDelivered s (keccak256 b') = false := by
    by_contra hc
    exact hn ((hdel _).1 (by simpa using hc))
  have hdef : s.config.defaultIsm ≠ none := by
    intro hc
    obtain ⟨a, ha⟩ := Option.ne_none_iff_exists'.1 hi
    have := (hism a).2 ha
    unfold getDefaultIsm at this
    rw [expectSet_ok, hc] at this
    cases this
  rw [← w4] at hsig ⊢
  rw [← hff, w1.body]
  exact C99_attested_delivered hg norm w1 w2 (hd'.trans hd) (by rw [hr']; exact hr) hdef hfalse hresp hw hinfo ht h1 h2 keys sig q hq hl
    hsig

/-! ### Example: alice's message, the validator with the secret key two -/

/-- The event of the dispatch in `Ex.txs`. -/
def Ex.dispatchEvent : TextEvent := ofMailbox (.dispatch Ex.message.sender 1 Ex.message.recipient Ex.message.encode)

theorem Ex.dispatch_seen : ofType "mailbox_dispatch"
    (all (Tx.history (logged (execute keccak256 Bech.codec) Events.mailbox) Ex.s0 Ex.txs).2) = [Ex.dispatchEvent] := by
  decide +kernel

/-- Validators who attested the message shown are truthful; the other premises of `C101_observers_safe` are those of the example
for C99. -/
example (v : Bytes) : Truthful (fun o b => o = 1 → SeenDispatched
      (all (Tx.history (logged (execute keccak256 Bech.codec) Events.mailbox) Ex.s0 Ex.txs).2) b)
    (fun _ a => a = Ex.secpCheckpoint) v := by
  intro o tree root i b hs
  cases hs
  refine ⟨rfl, rfl, fun _ => ⟨Ex.dispatchEvent, by rw [Ex.dispatch_seen]; simp, ?_⟩⟩
  show some (hex _) = _
  rw [hex_eq]

/-- The message shown is delivered on a chain whose mailbox has been configured and has delivered nothing. -/
example {g : secp256k1.Point} (hg : IsGenerator g) (norm : Bool) : ∃ md depth, md.length ≤ 133 ∧ ∀ k, ∃ s' r,
    execute keccak256 Bech.codec (Tx.history (execute keccak256 Bech.codec) Ex.s0 (Ex.txs.take 2)).1 ⟨{ Ex.relayEnv with
      verify := askIsm keccak256 (Secp.recover norm) Ex.secpWorld (depth + k) }, "relayer", [], .process md Ex.message.encode⟩ =
      .ok (s', r) ∧
    r.msgs = [.execute Ex.alice (.handle 1 Ex.message.sender (Ex.message.encode.drop 77)) []] ∧
    Mailbox.getDelivered s' (keccak256 Ex.message.encode) = true := by
  refine C101_observers_deliver (e := Ex.dispatchEvent) (t := 1) (vs := [Ex.secpAddr]) (ms := (multisigAfter "owner" Ex.secpOnly).2)
    (tree := zeros 32) (root := zeros 32) (index := 0) (ism := "route") hg norm Ex.s0_fresh Ex.s0_fresh Ex.txs (Ex.txs.take 2) (fun _ => 2)
    (fun _ => Ex.secpSignature) [Ex.secpAddr] (by rw [Ex.dispatch_seen]; simp) ?_ ?_ (by decide +kernel) (by decide +kernel)
    (by decide +kernel) ?_ (.inl rfl) rfl (by decide +kernel) (by decide) rfl rfl (by simp) rfl ?_
  · show some (hex _) = _
    rw [hex_eq]
  · show some (hex _) = _
    rw [hex_eq]
  · rintro ⟨e, he, _⟩
    rw [show ofType "mailbox_process_id" (all (Tx.history (logged (execute keccak256 Bech.codec) Events.mailbox) Ex.s0
      (Ex.txs.take 2)).2) = [] by decide +kernel] at he
    cases he
  · intro v hv
    rw [List.mem_singleton.1 hv]
    exact ⟨by simp, by decide, by decide, Ex.secp_address hg, Ex.secp_attested hg⟩

end Hpl
