import Verif.Props.Observer

/-! # C99, C101: holders of keys and trees of modules

`C99_attested_delivered` and `C101_observers_deliver` for any arrangement of security modules. -/

namespace Hpl

open Spec Secp Events Mailbox
open Keccak (keccak256)

namespace Spec

/-- `KeyCan a true n`: with signatures made with secret keys of validators a relayer can bring module `a` to approve the message,
with metadata of at most `n` bytes. `KeyCan a false n`: the relayer can bring it to answer at all. As `Can`, with signatures as they
are made instead of signatures as they are checked. -/
inductive KeyCan (g : secp256k1.Point) (world : Addr → Option IsmContract) (message : Bytes) : Addr → Bool → Nat → Prop where
  | answer {a k} (h : KeyCan g world message a true k) : KeyCan g world message a false k
  /-- Holders of secret keys of as many of the validators named by the module as it asks for signed the same checkpoint. -/
  | signed {a s m t vs k} {tree root : Bytes} {index : UInt32} {q : List Bytes} (keys : Bytes → ℕ) (sig : Bytes → Bytes)
      (hw : world a = some (.multisig s)) (hi : Multisig.verifyInfo s message = .ok (t, vs)) (ht : 1 ≤ t.toNat)
      (hm : WireFormat m message) (h1 : tree.length = 32) (h2 : root.length = 32)
      (hq : q.Nodup) (hl : q.length = t.toNat)
      (hs : ∀ v ∈ q, v ∈ vs ∧ 0 < keys v ∧ keys v < n ∧ AddressOf keccak256 g (keys v) v ∧
        EthSigned g false (keys v) (checkpointDigest keccak256 m.origin tree root index (keccak256 message)) (sig v))
      (hn : 68 + 65 * t.toNat ≤ k) : KeyCan g world message a true k
  | unsigned {a s i k} (hw : world a = some (.multisig s)) (hi : Multisig.verifyInfo s message = .ok i) (hn : 68 ≤ k) :
      KeyCan g world message a false k
  | unpaused {a k} (hw : world a = some (.pausable false)) : KeyCan g world message a true k
  | other {a f md b k} (hw : world a = some (.other f)) (hf : f md message = .ok b) (hn : md.length ≤ k) :
      KeyCan g world message a b k
  | routed {a s b w k} (hw : world a = some (.routing s)) (hr : RoutingIsm.route s message = .ok b)
      (h : KeyCan g world message b w k) : KeyCan g world message a w k
  /-- As many modules as the aggregate asks for can be brought to approve, and those with smaller addresses than the last of them to
  answer. -/
  | quorum {a s k} {q : List Addr} (size : Addr → Nat) (hw : world a = some (.aggregate s))
      (ht : 1 ≤ s.threshold.toNat) (hq : q.Nodup) (hl : q.length = s.threshold.toNat)
      (hm : ∀ b ∈ q, b ∈ s.isms) (ha : ∀ b ∈ q, KeyCan g world message b true (size b))
      (hb : ∀ b ∈ s.isms, ∀ c ∈ q, b < c → KeyCan g world message b false (size b))
      (hn : 8 * s.isms.length + (s.isms.map size).sum ≤ k) (hn' : k < 2 ^ 32) : KeyCan g world message a true k
  | all {a s k} (size : Addr → Nat) (hw : world a = some (.aggregate s)) (ht : 1 ≤ s.threshold.toNat)
      (hb : ∀ b ∈ s.isms, KeyCan g world message b false (size b))
      (hn : 8 * s.isms.length + (s.isms.map size).sum ≤ k) (hn' : k < 2 ^ 32) : KeyCan g world message a false k

end Spec

theorem can_of_keyCan {g : secp256k1.Point} (hg : IsGenerator g) (norm : Bool) {world : Addr → Option IsmContract} {message : Bytes}
    {a : Addr} {w : Bool} {k : Nat} (h : KeyCan g world message a w k) : Can keccak256 (recover norm) world message a w k := by
  induction h with
  | answer _ ih => exact .answer ih
  | @signed _ _ _ _ _ _ tree root index _ keys sig hw hi ht hm h1 h2 hq hl hs hn =>
    refine .signed (tree := tree) (root := root) (index := index) sig hw hi ht hm h1 h2 hq hl (fun v hv => ?_) hn
    obtain ⟨k1, k2, k3, k4, k, r, t, odd, w1, w2, w3⟩ := hs v hv
    have hl : (sig v).length = 65 := by rw [w3]; simp
    exact ⟨k1, hl, (C98_signer hg length_keccak256 norm (length_checkpointDigest length_keccak256 ..) hl).2
      ⟨_, k2, k3, k4, k, r, t, odd, w1, .inl (w2.resolve_right (by decide)), w3⟩⟩
  | unsigned hw hi hn => exact .unsigned hw hi hn
  | unpaused hw => exact .unpaused hw
  | other hw hf hn => exact .other hw hf hn
  | routed hw hr _ ih => exact .routed hw hr ih
  | quorum size hw ht hq hl hm _ _ hn hn' ia ib => exact .quorum size hw ht hq hl hm ia ib hn hn'
  | all size hw ht _ hn hn' ib => exact .all size hw ht ib hn hn'

/-- **C99** (liveness, any arrangement of modules). A message for a chain, not delivered there yet, is delivered by anybody who has
signatures, made with the secret keys, that suffice for the responsible module, whatever the tree of modules below it. -/
theorem C99_keys_deliver {g : secp256k1.Point} (hg : IsGenerator g) (norm : Bool)
    {world : Addr → Option IsmContract} {C : Codec} {s : Mailbox.State} {sender recipient ism : Addr} {m : Message}
    {message : Bytes} {env : Mailbox.Env} {funds : List Coin} {size : Nat} (hm : WireFormat m message) (hv : m.version = 3)
    (hd : m.dest = s.config.localDomain) (hr : bech32Encode C s.config.hrp m.recipient = .ok recipient)
    (hs : s.config.defaultIsm ≠ none) (hf : Mailbox.getDelivered s (keccak256 message) = false)
    (hi : ResponsibleIsm env s recipient ism) (hc : KeyCan g world message ism true size) :
    ∃ md depth, md.length ≤ size ∧ ∀ k, ∃ s' r,
      Mailbox.execute keccak256 C s
        ⟨{ env with verify := askIsm keccak256 (recover norm) world (depth + k) }, sender, funds, .process md message⟩ =
        .ok (s', r) ∧
      r.msgs = [.execute recipient (.handle m.origin m.sender m.body) []] ∧
      Mailbox.getDelivered s' (keccak256 message) = true :=
  C76_deliverable length_keccak256 recover_ne hm hv hd hr hs hf hi (can_of_keyCan hg norm hc)

/-- **C101** (liveness, any arrangement of modules). As `C101_observers_deliver`. -/
theorem C101_keys_deliver {g : secp256k1.Point} (hg : IsGenerator g) (norm : Bool)
    {lowerA lowerB : Char → Bool} {validA validB : Addr → Bool} {hrpA hrpB : String} {dA dB : UInt32} {ownerA ownerB : Addr}
    {CA CB : Codec} {sA0 sB0 : Mailbox.State} (hA : instantiate lowerA validA hrpA dA ownerA = .ok sA0)
    (hB : instantiate lowerB validB hrpB dB ownerB = .ok sB0) (txsA txsB : List (List (Tx.Act Mailbox.Call))) :
    let evsA := all (Tx.history (logged (execute keccak256 CA) Events.mailbox) sA0 txsA).2
    let evsB := all (Tx.history (logged (execute keccak256 CB) Events.mailbox) sB0 txsB).2
    let s := (Tx.history (execute keccak256 CB) sB0 txsB).1
    ∀ {e : TextEvent} {b from32 : Bytes} {world : Addr → Option IsmContract} {sender recipient ism : Addr} {env : Mailbox.Env}
      {funds : List Coin} {size : Nat},
      e ∈ ofType "mailbox_dispatch" evsA → HexAt "message" e b → HexAt "sender" e from32 →
      destOf b = s.config.localDomain → bech32Encode CB s.config.hrp (recipientOf b) = .ok recipient →
      latest "mailbox_default_ism_set" "new_default_ism" evsB ≠ none → ¬ SeenDelivered evsB (keccak256 b) →
      ResponsibleIsm env s recipient ism → KeyCan g world b ism true size →
      ∃ md depth, md.length ≤ size ∧ ∀ k, ∃ s' r,
        execute keccak256 CB s
          ⟨{ env with verify := askIsm keccak256 (recover norm) world (depth + k) }, sender, funds, .process md b⟩ =
          .ok (s', r) ∧
        r.msgs = [.execute recipient (.handle dA from32 (b.drop 77)) []] ∧
        Mailbox.getDelivered s' (keccak256 b) = true := by
  intro evsA evsB s e b from32 world sender recipient ism env funds size he hb hf hd hr hi hn hresp hcan
  obtain ⟨k, hk⟩ := List.getElem?_of_mem he
  obtain ⟨m, b', e', w1, w2, _, w4, w5, w6, _⟩ := (C79_mailbox_events (H := keccak256) (C := CA) hA txsA).2.2.1 k e hk
  have hbb : b' = b := hexText_inj (Option.some.inj (w5.symm.trans hb))
  subst hbb
  have hff : m.sender = from32 := hexText_inj (Option.some.inj (w6.symm.trans hf))
  obtain ⟨_, hd', hr'⟩ := decode_fields (decode_of_wireFormat w1)
  obtain ⟨hs, _, _, _, _, hdel, _, _, _, hism, _⟩ := C79_mailbox_events (H := keccak256) (C := CB) hB txsB
  rw [hs] at hdel hism
  have hfalse : getDelivered s (keccak256 b') = false := by
    by_contra hc
    exact hn ((hdel _).1 (by simpa using hc))
  have hdef : s.config.defaultIsm ≠ none := by
    intro hc
    obtain ⟨a, ha⟩ := Option.ne_none_iff_exists'.1 hi
    have := (hism a).2 ha
    unfold getDefaultIsm at this
    rw [expectSet_ok, hc] at this
    cases this
  rw [← hff, w1.body, ← w4]
  exact C99_keys_deliver hg norm w1 w2 (hd'.trans hd) (by rw [hr']; exact hr) hdef hfalse hresp hcan

/-! ### Example: a routing module, behind it an aggregate of a pausable module and the multisig contract of the validator with the
secret key two -/

namespace Ex

def secpTree : Addr → Option IsmContract := fun a =>
  if a = "route" then some (.routing (OMap.empty.insert 1 "agg"))
  else if a = "agg" then some (.aggregate ⟨["multi", "pause"], 2⟩)
  else if a = "multi" then some (.multisig (multisigAfter "owner" secpOnly).2)
  else if a = "pause" then some (.pausable false)
  else none

theorem secpTree_can {g : secp256k1.Point} (hg : IsGenerator g) : KeyCan g secpTree message.encode "route" true 149 := by
  have hm : KeyCan g secpTree message.encode "multi" true 133 := by
    refine .signed (s := (multisigAfter "owner" secpOnly).2) (m := message) (t := 1) (vs := [secpAddr]) (tree := zeros 32)
      (root := zeros 32) (index := 0) (q := [secpAddr]) (fun _ => 2) (fun _ => secpSignature) rfl (by decide +kernel) (by decide)
      (wireFormat_of_decode (by decide +kernel)) rfl rfl (by simp) rfl ?_ (by decide)
    intro v hv
    rw [List.mem_singleton.1 hv]
    exact ⟨by simp, by decide, by decide, secp_address hg, secp_attested hg⟩
  have hp : KeyCan g secpTree message.encode "pause" true 0 := .unpaused rfl
  have hall : ∀ b ∈ ["multi", "pause"], KeyCan g secpTree message.encode b true (if b = "multi" then 133 else 0) := by
    intro b hb
    rcases List.mem_cons.1 hb with rfl | hb
    · exact hm
    · rw [List.mem_singleton.1 hb]
      exact hp
  exact .routed (b := "agg") (s := OMap.empty.insert 1 "agg") rfl (by decide +kernel) (.quorum (s := ⟨["multi", "pause"], 2⟩) (q := ["multi", "pause"])
    (fun b => if b = "multi" then 133 else 0) rfl (by decide) (by decide) rfl (fun b hb => hb) hall
    (fun b hb _ _ _ => .answer (hall b hb)) (by decide) (by decide))

end Ex

/-- The message dispatched in `Ex.txs` is delivered through these modules. -/
example {g : secp256k1.Point} (hg : IsGenerator g) (norm : Bool) : ∃ md depth, md.length ≤ 149 ∧ ∀ k, ∃ s' r,
    execute keccak256 Bech.codec (Tx.history (execute keccak256 Bech.codec) Ex.s0 (Ex.txs.take 2)).1 ⟨{ Ex.relayEnv with
      verify := askIsm keccak256 (Secp.recover norm) Ex.secpTree (depth + k) }, "relayer", [], .process md Ex.message.encode⟩ =
      .ok (s', r) ∧
    r.msgs = [.execute Ex.alice (.handle 1 Ex.message.sender (Ex.message.encode.drop 77)) []] ∧
    Mailbox.getDelivered s' (keccak256 Ex.message.encode) = true := by
  refine C101_keys_deliver (e := Ex.dispatchEvent) (ism := "route") hg norm Ex.s0_fresh Ex.s0_fresh Ex.txs (Ex.txs.take 2)
    (by rw [Ex.dispatch_seen]; simp) ?_ ?_ (by decide +kernel) (by decide +kernel) (by decide +kernel) ?_ (.inl rfl) (Ex.secpTree_can hg)
  · show some (hex _) = _
    rw [hex_eq]
  · show some (hex _) = _
    rw [hex_eq]
  · rintro ⟨e, he, _⟩
    rw [show ofType "mailbox_process_id" (all (Tx.history (logged (execute keccak256 Bech.codec) Events.mailbox) Ex.s0
      (Ex.txs.take 2)).2) = [] by decide +kernel] at he
    cases he

end Hpl
