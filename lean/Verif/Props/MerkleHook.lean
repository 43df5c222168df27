import Verif.Lemmas.MerkleHook
import Verif.Examples.Mailbox
import Verif.Spec.Crypto

/-! # Merkle hook: C45 - C47 -/

namespace Hpl

open Spec Merkle

/-! ## One mailbox and one hook -/

section System

open MerkleSystem

variable {H : Bytes → Bytes} {C : Codec} {mb : Addr}

theorem system_step_ok {s s' : Mailbox.State × MerkleHook.State} {c : MerkleSystem.Call} {o : Out}
    (h : step H C mb s c = .ok (s', o)) :
    (∃ mc r, c = .mailbox mc ∧ o = .mailbox r ∧ Mailbox.execute H C s.1 mc = .ok (s'.1, r) ∧ s'.2 = s.2) ∨
    (∃ md b i, c = .hook md b ∧ o = .hook i ∧ s'.1 = s.1 ∧
      MerkleHook.execute H s.2 ⟨latestId mb s.1, md, b⟩ = .ok (s'.2, i)) := by
  cases c with
  | mailbox mc =>
    obtain ⟨x, h1, hf⟩ := bind_eq_ok.1 h
    simp only [pure_eq_ok, Except.ok.injEq, Prod.mk.injEq] at hf
    obtain ⟨rfl, rfl⟩ := hf
    exact .inl ⟨mc, x.2, rfl, rfl, h1, rfl⟩
  | hook md b =>
    obtain ⟨x, h1, hf⟩ := bind_eq_ok.1 h
    simp only [pure_eq_ok, Except.ok.injEq, Prod.mk.injEq] at hf
    obtain ⟨rfl, rfl⟩ := hf
    exact .inr ⟨md, b, x.2, rfl, rfl, rfl, h1⟩

theorem mailboxPart_append (a b : SystemLog) : mailboxPart (a ++ b) = mailboxPart a ++ mailboxPart b := by
  simp [mailboxPart]

theorem announced_append (a b : MailboxLog) : announced (a ++ b) = announced a ++ announced b := by
  simp [announced]

theorem dispatched_append (a b : SystemLog) : dispatched (a ++ b) = dispatched a ++ dispatched b := by
  unfold dispatched
  rw [mailboxPart_append, announced_append]

theorem hookMessages_append (a b : SystemLog) : hookMessages (a ++ b) = hookMessages a ++ hookMessages b := by
  simp [hookMessages]

/-- What a log of successful calls of the two contracts says about their states. -/
theorem system_chain {s s' : Mailbox.State × MerkleHook.State} {log : SystemLog}
    (h : Tx.Chain (step H C mb) s log s') :
    Tx.Chain (Mailbox.execute H C) s.1 (mailboxPart log) s'.1 ∧
    s'.2.mailbox = s.2.mailbox ∧
    insertAll H s.2.tree ((hookMessages log).map H) = .ok s'.2.tree := by
  induction log generalizing s with
  | nil =>
    simp only [Tx.Chain] at h
    subst h
    exact ⟨rfl, rfl, rfl⟩
  | cons e t ih =>
    obtain ⟨c, o⟩ := e
    obtain ⟨m, h1, h2⟩ := h
    obtain ⟨i1, i2, i3⟩ := ih h2
    rcases system_step_ok h1 with ⟨mc, r, rfl, rfl, g1, g2⟩ | ⟨md, b, i, rfl, rfl, g1, g2⟩
    · rw [g2] at i2 i3
      exact ⟨⟨m.1, g1, i1⟩, i2, i3⟩
    · obtain ⟨_, _, _, k1, k2⟩ := MerkleHook.execute_ok.1 g2
      rw [g1] at i1
      refine ⟨i1, by rw [i2, k1], ?_⟩
      show insertAll H s.2.tree (H b :: (hookMessages t).map H) = _
      rw [insertAll, k2]
      exact i3

/-- When a hook call succeeds. -/
theorem hook_call_iff {s : Mailbox.State × MerkleHook.State} {log : SystemLog} {s0 : Mailbox.State × MerkleHook.State}
    {zs : List Bytes} (hz : zs.length = 32) (hmb : s0.2 = ⟨mb, Merkle.default zs⟩) (hl : s0.1.latest = none)
    (h : Tx.Chain (step H C mb) s0 log s) (md b : Bytes) :
    (∃ x, step H C mb s (.hook md b) = .ok x) ↔
      77 ≤ b.length ∧ (∃ last, (dispatched log).getLast? = some last ∧ H last = H b) ∧
      (hookMessages log).length < 2 ^ 32 - 1 := by
  obtain ⟨c1, c2, c3⟩ := system_chain h
  rw [hmb] at c2 c3
  obtain ⟨_, _, _, _, _, a6⟩ := announced_chain c1
  rw [hl] at a6
  obtain ⟨_, t1, t2, _⟩ := C13_insert_total H zs hz _ _ c3 (H b)
  rw [List.length_map] at t1 t2
  have hlat : latestId mb s.1 s.2.mailbox = .ok (H b) ↔
      ∃ last, (dispatched log).getLast? = some last ∧ H last = H b := by
    unfold latestId
    rw [if_pos c2]
    unfold Mailbox.getLatestDispatchId
    rw [a6]
    unfold dispatched
    cases (announced (mailboxPart log)).getLast? with
    | none => simp
    | some x => simp
  constructor
  · rintro ⟨⟨s', o⟩, hx⟩
    rcases system_step_ok hx with ⟨_, _, hc, _⟩ | ⟨md', b', i, hc, _, _, g⟩
    · cases hc
    · cases hc
      obtain ⟨k1, k2, _, _, k3⟩ := MerkleHook.execute_ok.1 g
      refine ⟨k1, hlat.1 k2, ?_⟩
      by_contra hn
      rw [t2 hn] at k3
      cases k3
  · rintro ⟨k1, k2, k3⟩
    obtain ⟨t', ht, _⟩ := t1 k3
    refine ⟨((s.1, ⟨s.2.mailbox, t'⟩), .hook s.2.tree.count), ?_⟩
    have : MerkleHook.execute H s.2 ⟨latestId mb s.1, md, b⟩ = .ok (⟨s.2.mailbox, t'⟩, s.2.tree.count) :=
      MerkleHook.execute_ok.2 ⟨k1, hlat.2 k2, rfl, rfl, ht⟩
    simp only [step, this, ok_bind, pure_eq_ok]

/-- Every hook call of a log was for the message dispatched last before it. -/
theorem hook_calls_latest {s : Mailbox.State × MerkleHook.State} {log : SystemLog}
    {s0 : Mailbox.State × MerkleHook.State} {zs : List Bytes} (hz : zs.length = 32)
    (hmb : s0.2 = ⟨mb, Merkle.default zs⟩) (hl : s0.1.latest = none)
    (h : Tx.Chain (step H C mb) s0 log s) {pre post : SystemLog} {md b : Bytes} {o : Out}
    (hs : log = pre ++ (.hook md b, o) :: post) :
    77 ≤ b.length ∧ ∃ last, (dispatched pre).getLast? = some last ∧ H last = H b := by
  subst hs
  obtain ⟨m, h1, x, h2, _⟩ := h.split
  obtain ⟨k1, k2, _⟩ := (hook_call_iff hz hmb hl h1 md b).1 ⟨_, h2⟩
  exact ⟨k1, k2⟩

theorem repeated_append_zero (ks : List Nat) (l r : List Bytes) (h : ks.length = l.length) :
    repeated (ks ++ List.replicate r.length 0) (l ++ r) = repeated ks l := by
  unfold repeated
  rw [List.zip_append h, List.flatMap_append]
  have : ((List.replicate r.length 0).zip r).flatMap (fun p => List.replicate p.1 p.2) = [] := by
    rw [List.flatMap_eq_nil_iff]
    intro p hp
    obtain ⟨k, x⟩ := p
    have := (List.of_mem_zip hp).1
    rw [List.eq_of_mem_replicate this]
    rfl
  rw [this, List.append_nil]

theorem repeated_snoc (ks : List Nat) (k : Nat) (l : List Bytes) (x : Bytes) (h : ks.length = l.length) :
    repeated (ks ++ [k]) (l ++ [x]) = repeated ks l ++ List.replicate k x := by
  unfold repeated
  rw [List.zip_append h, List.flatMap_append]
  simp

/-- **C45.** A mailbox and a merkle hook that points to it, in any history of transactions with nested calls,
rollbacks and calls to either by anyone: the tree is the one built from the ids of the messages the hook was called
with; these ids are the ids of the dispatched messages, in dispatch order, each some number of times; each was, when
recorded, the id of the message dispatched last; and a call of the hook succeeds exactly if its message is well
formed, has the id of the message dispatched last, and the tree is not full (otherwise it fails and changes
nothing). -/
theorem C45_only_dispatched {lower : Char → Bool} {valid : Addr → Bool} {hrp : String} {domain : UInt32}
    {owner : Addr} {m0 : Mailbox.State} {k0 : MerkleHook.State} {zs : List Bytes} (hz : zs.length = 32)
    (hm : Mailbox.instantiate lower valid hrp domain owner = .ok m0)
    (hk : MerkleHook.instantiate zs valid mb = .ok k0)
    (txs : List (List (Tx.Act MerkleSystem.Call))) :
    let st := (Tx.history (step H C mb) (m0, k0) txs).1
    let log := (Tx.history (step H C mb) (m0, k0) txs).2
    insertAll H (Merkle.default zs) ((hookMessages log).map H) = .ok st.2.tree ∧
    (∃ ks, ks.length = (dispatched log).length ∧
      (hookMessages log).map H = repeated ks ((dispatched log).map H)) ∧
    (∀ pre md b o post, log = pre ++ (.hook md b, o) :: post →
      ∃ last, (dispatched pre).getLast? = some last ∧ H last = H b) ∧
    (∀ md b, (∃ x, step H C mb st (.hook md b) = .ok x) ↔
      77 ≤ b.length ∧ (∃ last, (dispatched log).getLast? = some last ∧ H last = H b) ∧
        (hookMessages log).length < 2 ^ 32 - 1) := by
  have hl : m0.latest = none := by rw [instantiate_ok hm]
  have hk0 : k0 = ⟨mb, Merkle.default zs⟩ := by
    unfold MerkleHook.instantiate at hk
    obtain ⟨_, _, hf⟩ := bind_eq_ok.1 hk
    cases hf
    rfl
  intro st log
  have hc : Tx.Chain (step H C mb) (m0, k0) log st := Tx.history_chain _ _ _
  refine ⟨?_, ?_, ?_, ?_⟩
  · have := (system_chain hc).2.2
    rw [hk0] at this
    exact this
  · have gen : ∀ (l : SystemLog) (s : Mailbox.State × MerkleHook.State),
        Tx.Chain (step H C mb) (m0, k0) l s → ∃ ks, ks.length = (dispatched l).length ∧
          (hookMessages l).map H = repeated ks ((dispatched l).map H) := by
      intro l
      induction l using List.reverseRecOn with
      | nil => intro s _; exact ⟨[], rfl, rfl⟩
      | append_singleton t e ih =>
        intro s h
        obtain ⟨m, h1, h2⟩ := Tx.Chain.snoc.1 h
        obtain ⟨ks, i1, i2⟩ := ih m h1
        obtain ⟨c, o⟩ := e
        rw [dispatched_append, hookMessages_append]
        rcases system_step_ok h2 with ⟨mc, r, rfl, rfl, _, _⟩ | ⟨md, b, i, rfl, rfl, _, _⟩
        · have hh : hookMessages [((MerkleSystem.Call.mailbox mc, Out.mailbox r) :
              MerkleSystem.Call × Out)] = [] := rfl
          refine ⟨ks ++ List.replicate (dispatched [(MerkleSystem.Call.mailbox mc, Out.mailbox r)]).length 0,
            by simp [i1], ?_⟩
          rw [hh, List.append_nil, i2, List.map_append]
          have := repeated_append_zero ks ((dispatched t).map H)
            ((dispatched [(MerkleSystem.Call.mailbox mc, Out.mailbox r)]).map H) (by simpa using i1)
          rw [List.length_map] at this
          rw [this]
        · obtain ⟨_, last, g1, g2⟩ := hook_calls_latest hz (s0 := (m0, k0)) (by rw [hk0]) hl h
            (pre := t) (post := []) (md := md) (b := b) (o := .hook i) rfl
          have hd : dispatched [((MerkleSystem.Call.hook md b, Out.hook i) :
              MerkleSystem.Call × Out)] = [] := rfl
          have hh : hookMessages [((MerkleSystem.Call.hook md b, Out.hook i) :
              MerkleSystem.Call × Out)] = [b] := rfl
          rw [hd, hh, List.append_nil, List.map_append, i2]
          rcases List.eq_nil_or_concat' (dispatched t) with he | ⟨d', x, he⟩
          · rw [he] at g1; cases g1
          · rw [he] at g1 i1 ⊢
            simp only [List.getLast?_append, List.getLast?_singleton, Option.some_or, Option.some.injEq] at g1
            subst g1
            rcases List.eq_nil_or_concat' ks with hks | ⟨ks', k, hks⟩
            · rw [hks] at i1; simp at i1
            · subst hks
              have hlen : ks'.length = d'.length := by simpa using i1
              refine ⟨ks' ++ [k + 1], by simp [hlen], ?_⟩
              rw [List.map_append, List.map_singleton,
                repeated_snoc _ _ _ _ (by simpa using hlen), repeated_snoc _ _ _ _ (by simpa using hlen),
                List.replicate_succ', List.map_singleton, g2, List.append_assoc]
    exact gen log st hc
  · intro pre md b o post hs
    exact (hook_calls_latest hz (s0 := (m0, k0)) (by rw [hk0]) hl hc hs).2
  · intro md b
    exact hook_call_iff hz (s0 := (m0, k0)) (by rw [hk0]) hl hc md b

/-- **C46** as claimed: if every dispatch calls the hook, every dispatched id is in the tree exactly once (or two
dispatched messages have the same hash). -/
def C46_full : Prop := ∀ (H : Bytes → Bytes) (C : Codec) (mb : Addr) (lower : Char → Bool) (valid : Addr → Bool)
    (hrp : String) (domain : UInt32) (owner : Addr) (m0 : Mailbox.State) (k0 : MerkleHook.State) (zs : List Bytes)
    (txs : List (List (Tx.Act MerkleSystem.Call))),
    zs.length = 32 → Mailbox.instantiate lower valid hrp domain owner = .ok m0 →
    MerkleHook.instantiate zs valid mb = .ok k0 →
    let log := (Tx.history (step H C mb) (m0, k0) txs).2
    HookDriven log → ∀ b ∈ dispatched log,
      ((hookMessages log).map H).count (H b) = 1 ∨ ∃ x ∈ dispatched log, ∃ y ∈ dispatched log, Collision H x y

/-- A fresh system. -/
def Ex.sys0 : Mailbox.State × MerkleHook.State := (Ex.s0, ⟨"mb", Merkle.default toyZeros⟩)

/-- Configuration and a dispatch that calls the hook; afterwards `extra` more calls of the hook by anybody. -/
def Ex.sysTxs (extra : Nat) : List (List (Tx.Act MerkleSystem.Call)) :=
  [[.call (.mailbox (Ex.call [] (.setDefaultHook "hook"))) [],
    .call (.mailbox (Ex.call [] (.setRequiredHook "req"))) []],
   [.call (.mailbox (Ex.call [⟨"uosmo", 9⟩, ⟨"uatom", 1⟩] (.dispatch Ex.request)))
     [.call (.hook [] Ex.message.encode) []]]] ++
  List.replicate extra [.call (.hook [] Ex.message.encode) []]

theorem Ex.sys_driven : HookDriven (Tx.history (step toyHash Bech.codec "mb") Ex.sys0 (Ex.sysTxs 1)).2 := by
  intro pre e post h b hb
  have hlen : pre.length < 5 := by
    have h5 : (Tx.history (step toyHash Bech.codec "mb") Ex.sys0 (Ex.sysTxs 1)).2.length = 5 := by decide +kernel
    rw [h] at h5
    simp at h5
    omega
  have hpost : hookMessages post = hookMessages (((Tx.history (step toyHash Bech.codec "mb") Ex.sys0
      (Ex.sysTxs 1)).2).drop (pre.length + 1)) := by rw [h]; simp
  have he : dispatched [e] = dispatched ((((Tx.history (step toyHash Bech.codec "mb") Ex.sys0
      (Ex.sysTxs 1)).2).drop pre.length).take 1) := by rw [h]; simp
  rw [hpost]
  rw [he] at hb
  revert hb
  have all : ∀ n, n < 5 → ∀ b ∈ dispatched ((((Tx.history (step toyHash Bech.codec "mb") Ex.sys0
      (Ex.sysTxs 1)).2).drop n).take 1), b ∈ hookMessages (((Tx.history (step toyHash Bech.codec "mb") Ex.sys0
      (Ex.sysTxs 1)).2).drop (n + 1)) := by decide +kernel
  exact all _ hlen b

/-- It fails: after a dispatch that called the hook anybody can call it again with the same message, which records the
id once more. -/
theorem C46_full_refuted : ¬ C46_full := by
  intro h
  have hd : dispatched (Tx.history (step toyHash Bech.codec "mb") Ex.sys0 (Ex.sysTxs 1)).2 =
      [Ex.message.encode] := by decide +kernel
  rcases h toyHash Bech.codec "mb" Char.isLower (fun _ => true) "osmo" 1 Ex.alice Ex.s0
      ⟨"mb", Merkle.default toyZeros⟩ toyZeros (Ex.sysTxs 1) toy_zeroChain.1 Ex.s0_fresh rfl Ex.sys_driven
      Ex.message.encode (by
        show _ ∈ dispatched (Tx.history (step toyHash Bech.codec "mb") Ex.sys0 (Ex.sysTxs 1)).2
        rw [hd]; simp) with h1 | ⟨x, hx, y, hy, hne, _⟩
  · have h2 : ((hookMessages (Tx.history (step toyHash Bech.codec "mb") Ex.sys0 (Ex.sysTxs 1)).2).map
        toyHash).count (toyHash Ex.message.encode) = 2 := by decide +kernel
    change ((hookMessages (Tx.history (step toyHash Bech.codec "mb") Ex.sys0 (Ex.sysTxs 1)).2).map
        toyHash).count (toyHash Ex.message.encode) = 1 at h1
    rw [h2] at h1
    cases h1
  · change x ∈ dispatched (Tx.history (step toyHash Bech.codec "mb") Ex.sys0 (Ex.sysTxs 1)).2 at hx
    change y ∈ dispatched (Tx.history (step toyHash Bech.codec "mb") Ex.sys0 (Ex.sysTxs 1)).2 at hy
    rw [hd] at hx hy
    simp only [List.mem_singleton] at hx hy
    exact hne (by rw [hx, hy])

theorem dispatched_nodup {s s0 : Mailbox.State × MerkleHook.State} {log : SystemLog}
    (h : Tx.Chain (step H C mb) s0 log s) : (dispatched log).Nodup := by
  obtain ⟨_, _, _, _, a5, _⟩ := announced_chain (system_chain h).1
  rw [List.nodup_iff_getElem?_ne_getElem?]
  intro i j hij hj he
  have hi : i < (dispatched log).length := by omega
  obtain ⟨m1, w1, n1, _⟩ := a5 i _ (List.getElem?_eq_getElem hi)
  obtain ⟨m2, w2, n2, _⟩ := a5 j _ (List.getElem?_eq_getElem hj)
  rw [List.getElem?_eq_getElem hi, List.getElem?_eq_getElem hj, Option.some.injEq] at he
  have e1 := w1.nonce
  have e2 := w2.nonce
  rw [he] at e1
  omega

/-- **C46** (what does hold). If every dispatch calls the hook, every dispatched id is in the tree, and as often as the
hook was successfully called with that message; so exactly once if nobody else calls the hook with it (hash collisions
among the messages concerned excepted). Missing: the tree may contain it several times, because anyone may call the
hook again before the next dispatch. -/
theorem C46_recorded_partial {valid : Addr → Bool} {m0 : Mailbox.State} {k0 : MerkleHook.State} {zs : List Bytes}
    (hk : MerkleHook.instantiate zs valid mb = .ok k0)
    (txs : List (List (Tx.Act MerkleSystem.Call))) :
    let log := (Tx.history (step H C mb) (m0, k0) txs).2
    HookDriven log →
    insertAll H (Merkle.default zs) ((hookMessages log).map H) =
      .ok (Tx.history (step H C mb) (m0, k0) txs).1.2.tree ∧
    (dispatched log).Nodup ∧ ∀ b ∈ dispatched log,
      1 ≤ ((hookMessages log).map H).count (H b) ∧
      (((hookMessages log).map H).count (H b) = (hookMessages log).count b ∨
        ∃ x ∈ dispatched log, ∃ y ∈ hookMessages log, Collision H x y) := by
  have hk0 : k0 = ⟨mb, Merkle.default zs⟩ := by
    unfold MerkleHook.instantiate at hk
    obtain ⟨_, _, hf⟩ := bind_eq_ok.1 hk
    cases hf
    rfl
  intro log hdr
  have hc : Tx.Chain (step H C mb) (m0, k0) log (Tx.history (step H C mb) (m0, k0) txs).1 :=
    Tx.history_chain _ _ _
  refine ⟨by subst hk0; exact (system_chain hc).2.2, dispatched_nodup hc, ?_⟩
  intro b hb
  constructor
  · have : b ∈ hookMessages log := by
      have split : ∀ l : SystemLog, b ∈ dispatched l → ∃ pre e post, l = pre ++ e :: post ∧ b ∈ dispatched [e] := by
        intro l
        induction l with
        | nil => intro h; cases h
        | cons e t ih =>
          intro h
          rw [← List.singleton_append, dispatched_append] at h
          rcases List.mem_append.1 h with h | h
          · exact ⟨[], e, t, rfl, h⟩
          · obtain ⟨pre, e', post, rfl, h'⟩ := ih h
            exact ⟨e :: pre, e', post, rfl, h'⟩
      obtain ⟨pre, e, post, hs, he⟩ := split log hb
      have := hdr pre e post hs b he
      rw [hs, ← List.singleton_append, hookMessages_append, hookMessages_append]
      simp [this]
    exact List.count_pos_iff.2 (List.mem_map.2 ⟨b, this, rfl⟩)
  · by_cases hcol : ∃ y ∈ hookMessages log, H y = H b ∧ y ≠ b
    · obtain ⟨y, hy, h1, h2⟩ := hcol
      exact .inr ⟨b, hb, y, hy, fun h => h2 h.symm, h1.symm⟩
    · left
      push Not at hcol
      have gen : ∀ l : List Bytes, (∀ y ∈ l, H y = H b → y = b) → (l.map H).count (H b) = l.count b := by
        intro l
        induction l with
        | nil => intro _; rfl
        | cons y t ih =>
          intro h
          rw [List.map_cons, List.count_cons, List.count_cons, ih (fun z hz => h z (by simp [hz]))]
          by_cases e : y = b
          · simp [e]
          · have : ¬ H y = H b := fun h' => e (h y (by simp) h')
            simp [e, this]
      exact gen _ (fun y hy => hcol y hy)

/-- The same history without and with the extra call. -/
example :
    (Tx.history (step toyHash Bech.codec "mb") Ex.sys0 (Ex.sysTxs 0)).1.2.tree.count = 1 ∧
    (Tx.history (step toyHash Bech.codec "mb") Ex.sys0 (Ex.sysTxs 1)).1.2.tree.count = 2 ∧
    dispatched (Tx.history (step toyHash Bech.codec "mb") Ex.sys0 (Ex.sysTxs 1)).2 = [Ex.message.encode] ∧
    hookMessages (Tx.history (step toyHash Bech.codec "mb") Ex.sys0 (Ex.sysTxs 1)).2 =
      [Ex.message.encode, Ex.message.encode] := by decide +kernel

end System

/-! ## Queries -/

section Queries

open MerkleHook

/-- Ids recorded by a log of successful hook calls. -/
def Spec.recorded (H : Bytes → Bytes) (log : List (MerkleHook.Call × Nat)) : List Bytes :=
  log.map (fun e => H e.1.message)

theorem hook_chain {H : Bytes → Bytes} {s s' : MerkleHook.State} {log : List (MerkleHook.Call × Nat)}
    (h : Tx.Chain (MerkleHook.execute H) s log s') :
    insertAll H s.tree (recorded H log) = .ok s'.tree := by
  induction log generalizing s with
  | nil =>
    simp only [Tx.Chain] at h
    subst h
    rfl
  | cons e t ih =>
    obtain ⟨c, i⟩ := e
    obtain ⟨m, h1, h2⟩ := h
    obtain ⟨_, _, _, _, k⟩ := MerkleHook.execute_ok.1 h1
    show insertAll H s.tree (H c.message :: recorded H t) = _
    rw [insertAll, k]
    exact ih h2

/-- **C47.** Whatever the mailbox answers, after any history the queries describe the tree of the recorded ids: the
count is their number, the root is the root of the depth 32 tree over them, the checkpoint is that root with the
number of ids minus one (zero if there is none), the branch entry at each height where the count has a one bit is the
node of the last complete subtree of that height, and the event of the n-th call reported index n. -/
theorem C47_queries {H : Bytes → Bytes} {zs : List Bytes} (hz : ZeroChain H zs) {valid : Addr → Bool} {mb : Addr}
    {k0 : MerkleHook.State} (hk : MerkleHook.instantiate zs valid mb = .ok k0)
    (txs : List (List (Tx.Act MerkleHook.Call))) :
    let s := (Tx.history (MerkleHook.execute H) k0 txs).1
    let log := (Tx.history (MerkleHook.execute H) k0 txs).2
    let ids := recorded H log
    (getCount s).toNat = ids.length ∧
    getRoot H zs s = treeRoot H 32 (leafOf ids) ∧
    (∃ i, getCheckpoint H zs s = .ok (treeRoot H 32 (leafOf ids), i) ∧ i.toNat = ids.length - 1) ∧
    getTree s = (getBranch s, getCount s) ∧
    (getBranch s).length = 32 ∧
    (∀ i, i < 32 → (ids.length / 2 ^ i) % 2 = 1 →
      (getBranch s)[i]? = some (node H (leafOf ids) i (ids.length / 2 ^ i - 1))) ∧
    (∀ (n : Nat) (e : MerkleHook.Call × Nat), log[n]? = some e → e.2 = n) := by
  have hk0 : k0 = ⟨mb, Merkle.default zs⟩ := by
    unfold MerkleHook.instantiate at hk
    obtain ⟨_, _, hf⟩ := bind_eq_ok.1 hk
    cases hf
    rfl
  subst hk0
  intro s log ids
  have hc : Tx.Chain (MerkleHook.execute H) ⟨mb, Merkle.default zs⟩ log s := Tx.history_chain _ _ _
  have hi : insertAll H (Merkle.default zs) ids = .ok s.tree := hook_chain hc
  obtain ⟨b1, b2, b3, b4⟩ := insertAll_default H zs hz.1 ids s.tree hi
  have hroot := C09_root_correct H zs hz ids s.tree hi
  have hcount : (getCount s).toNat = ids.length := by
    unfold getCount
    rw [b2]
    simp only [UInt32.toNat_ofNat']
    omega
  refine ⟨hcount, hroot, ?_, rfl, b1, ?_, ?_⟩
  · unfold getCheckpoint checkpointIndex
    unfold getCount at hcount
    rw [hroot]
    split
    · exact ⟨0, rfl, by simp; omega⟩
    · rw [if_neg (by omega)]
      refine ⟨_, rfl, ?_⟩
      rw [UInt32.toNat_sub_of_le, hcount]
      · rfl
      · rw [UInt32.le_iff_toNat_le, hcount]
        have : (1 : UInt32).toNat = 1 := rfl
        omega
  · intro i hi' hodd
    refine inv_branch s.tree.branch ids (leafOf ids) b3 ?_ i (by rw [b1]; exact hi') hodd
    intro j hj
    simp [leafOf, List.getD_eq_getElem?_getD, hj]
  · intro n e he
    have hlt : n < log.length := (List.getElem?_eq_some_iff.1 he).1
    have hsplit : log = log.take n ++ e :: log.drop (n + 1) := by
      have h2 := (List.getElem?_eq_some_iff.1 he).2
      conv_lhs => rw [← List.take_append_drop n log, List.drop_eq_getElem_cons hlt, h2]
    rw [hsplit] at hc
    obtain ⟨m, h1, x, h2, _⟩ := hc.split
    obtain ⟨_, _, h3, _, _⟩ := MerkleHook.execute_ok.1 h2
    rw [h3, (insertAll_default H zs hz.1 _ _ (hook_chain h1)).2.1]
    simp [recorded]
    omega

/-- Three recorded messages, with a rejected one in between. -/
example :
    let c : MerkleHook.Call := ⟨fun _ => .ok (toyHash (zeros 77)), [], zeros 77⟩
    let bad : MerkleHook.Call := ⟨fun _ => .ok [], [], zeros 77⟩
    let s := (Tx.history (MerkleHook.execute toyHash) ⟨"mb", Merkle.default toyZeros⟩
      [[.call c []], [.call bad []], [.call c [], .call c []]]).1
    getCount s = 3 ∧ (getCheckpoint toyHash toyZeros s).toOption.map Prod.snd = some 2 := by decide +kernel

end Queries

end Hpl
