import Verif.Spec.Security
import Verif.Props.Isms
import Verif.Props.Mailbox

/-! # Honest validators make delivery sound: C63 -/

namespace Hpl

open Spec

section

variable {H : Bytes → Bytes} {R : Recover}

theorem wireFormat_unique {b : Bytes} {m m' : Message} (h : WireFormat m b) (h' : WireFormat m' b) : m = m' := by
  have h1 := decode_of_wireFormat h
  rw [decode_of_wireFormat h'] at h1
  cases h1
  rfl

theorem sig_length {metadata sig : Bytes} (h : SignatureIn metadata sig) : 133 ≤ metadata.length := by
  obtain ⟨i, rfl, h⟩ := h
  simp at h
  omega

theorem part_infix {metadata part : Bytes} {isms : List Addr} {a : Addr} (h : PartFor metadata isms a part) :
    part <:+: metadata := by
  obtain ⟨i, _, _, _, b, e, _, _, _, _, rfl⟩ := h
  exact (List.take_prefix _ _).isInfix.trans (List.drop_suffix _ _).isInfix

theorem announcement_ne_checkpoint (hH : ∀ x, (H x).length = 32) {d o i : UInt32} {mb loc tree root id : Bytes}
    (h : announcementDigest H d mb loc = checkpointDigest H o tree root i id) :
    ∃ x ∈ announcementInputs H d mb loc, ∃ y ∈ checkpointInputs H o tree root i id, Collision H x y := by
  unfold announcementDigest checkpointDigest at h
  rcases personalDigest_inj h with he | hc
  · rcases eq_or_collision he with he | hc
    · simp only [List.append_assoc] at he
      obtain ⟨he, _⟩ := List.append_inj he (by simp [hH])
      rcases eq_or_collision he with he | hc
      · exfalso
        have := congrArg List.getLast? he
        rw [List.getLast?_append, List.getLast?_append, List.getLast?_append, List.getLast?_append] at this
        exact absurd this (by
          rw [show (ascii "HYPERLANE_ANNOUNCEMENT").getLast? = some 84 by decide +kernel,
            show (ascii "HYPERLANE").getLast? = some 69 by decide +kernel]
          simp)
      · exact ⟨_, .head _, _, .head _, by simpa only [List.append_assoc] using hc⟩
    · exact ⟨_, .tail _ (.head _), _, .tail _ (.head _), hc⟩
  · exact ⟨_, .tail _ (.tail _ (.head _)), _, .tail _ (.tail _ (.head _)), hc⟩

theorem checkpoint_binding (hH : ∀ x, (H x).length = 32) {o1 o2 i1 i2 : UInt32} {t1 t2 r1 r2 d1 d2 : Bytes}
    (ht1 : t1.length = 32) (ht2 : t2.length = 32) (hr1 : r1.length = 32) (hr2 : r2.length = 32)
    (h : checkpointDigest H o1 t1 r1 i1 d1 = checkpointDigest H o2 t2 r2 i2 d2) :
    (o1 = o2 ∧ d1 = d2) ∨
    ∃ x ∈ checkpointInputs H o1 t1 r1 i1 d1, ∃ y ∈ checkpointInputs H o2 t2 r2 i2 d2, Collision H x y := by
  rcases C39_digest_binding hH ht1 ht2 hr1 hr2 (i1 := i1) (i2 := i2) (d1 := d1) (d2 := d2) (o1 := o1) (o2 := o2)
    (by unfold Multisig.multisigHash Multisig.domainHash; rw [ethHash_32 (hH _), ethHash_32 (hH _)]; exact h) with
    ⟨ho, _, _, _, hd⟩ | hc
  · exact .inl ⟨ho, hd⟩
  · rcases hc with hc | hc | hc
    · exact .inr ⟨_, .head _, _, .head _, hc⟩
    · exact .inr ⟨_, .tail _ (.head _), _, .tail _ (.head _), hc⟩
    · exact .inr ⟨_, .tail _ (.tail _ (.head _)), _, .tail _ (.tail _ (.head _)), hc⟩

theorem Spec.Forged.mono {honest : Bytes → Prop} {signed : Bytes → Attestation → Prop} {o : UInt32} {a b m : Bytes}
    (hab : a <:+: b) (h : Forged H R honest signed o a m) : Forged H R honest signed o b m := by
  obtain ⟨v, d, sig, h1, h2, h3⟩ := h
  exact ⟨v, d, sig, h1, h2.trans hab, h3⟩

theorem Spec.HashBroken.mono {honest : Bytes → Prop} {signed : Bytes → Attestation → Prop} {o : UInt32} {a b m : Bytes}
    (hab : a <:+: b) (h : HashBroken H honest signed o a m) : HashBroken H honest signed o b m := by
  obtain ⟨v, d, p, h1, h2, h3, h4⟩ := h
  exact ⟨v, d, p, h1, h2, h3.trans hab, h4⟩

/-- **C63** (modules). In any world of contracts: if a guarded module approves a message from an origin and honest
validators are truthful, then the origin's mailbox announced exactly these message bytes, or a signature was forged,
or the hash is broken. -/
theorem C63_guarded_sound (hH : ∀ x, (H x).length = 32) {world : Addr → Option IsmContract} {honest : Bytes → Prop}
    {signed : Bytes → Attestation → Prop} {announcedBy : UInt32 → Bytes → Prop}
    (htruth : ∀ v, honest v → Truthful announcedBy signed v) {m : Message} {a : Addr} {metadata message : Bytes}
    (hm : WireFormat m message) (hg : Guarded world honest m.origin a) (ha : Approved H R world message a metadata) :
    announcedBy m.origin message ∨ Forged H R honest signed m.origin metadata message ∨
      HashBroken H honest signed m.origin metadata message := by
  induction hg generalizing metadata with
  | @multisig a s hw h =>
    cases ha with
    | @multisig _ _ s' m' vs t q hw' hm' hv ht hq hs =>
      rw [hw] at hw'
      cases hw'
      have := wireFormat_unique hm hm'
      subst this
      obtain ⟨q1, q2⟩ := hs
      have : ∃ v ∈ q, honest v := by
        by_contra hno
        have := h vs t hv ht q q1 (fun v hv => ⟨(q2 v hv).1, fun hh => hno ⟨v, hv, hh⟩⟩)
        omega
      obtain ⟨v, hvq, hh⟩ := this
      obtain ⟨_, sig, hsig, hby⟩ := q2 v hvq
      have hlen := sig_length hsig
      by_cases hatt : ∃ att, signed v att ∧ att.digest H = digestFor H m.origin metadata message
      · obtain ⟨att, hs1, hs2⟩ := hatt
        cases att with
        | checkpoint o tree root i b =>
          obtain ⟨l1, l2, l3⟩ := htruth v hh _ _ _ _ _ hs1
          rcases checkpoint_binding hH l1 (by simp; omega) l2 (by simp; omega) hs2 with ⟨ho, hd⟩ | ⟨x, hx, y, hy, hc⟩
          · rcases eq_or_collision hd with hd | hc
            · subst ho hd
              exact .inl l3
            · exact .inr (.inr ⟨v, _, metadata, hh, hs1, List.infix_rfl, _, .head _, _, .head _, hc⟩)
          · exact .inr (.inr ⟨v, _, metadata, hh, hs1, List.infix_rfl, x, .tail _ hx, y, .tail _ hy, hc⟩)
        | announcement d mb loc =>
          obtain ⟨x, hx, y, hy, hc⟩ := announcement_ne_checkpoint hH hs2
          exact .inr (.inr ⟨v, _, metadata, hh, hs1, List.infix_rfl, x, hx, y, .tail _ hy, hc⟩)
      · exact .inr (.inl ⟨v, metadata, sig, hh, List.infix_rfl, hsig, hby, fun att h1 h2 => hatt ⟨att, h1, h2⟩⟩)
    | pausable hw' => rw [hw] at hw'; cases hw'
    | other hw' => rw [hw] at hw'; cases hw'
    | routing hw' => rw [hw] at hw'; cases hw'
    | aggregate _ hw' => rw [hw] at hw'; cases hw'
  | routing hw _ ih =>
    cases ha with
    | routing hw' hm' hr h =>
      rw [hw] at hw'
      cases hw'
      have := wireFormat_unique hm hm'
      subst this
      exact ih _ hr h
    | multisig hw' => rw [hw] at hw'; cases hw'
    | pausable hw' => rw [hw] at hw'; cases hw'
    | other hw' => rw [hw] at hw'; cases hw'
    | aggregate _ hw' => rw [hw] at hw'; cases hw'
  | aggregate g hw _ hg ih =>
    cases ha with
    | aggregate part hw' hq hl hmem hp h =>
      rw [hw] at hw'
      cases hw'
      obtain ⟨b, hb, hbg⟩ := hg _ hq hmem hl
      rcases ih b hbg (h b hb) with k | k | k
      · exact .inl k
      · exact .inr (.inl (Spec.Forged.mono (part_infix (hp b hb)) k))
      · exact .inr (.inr (Spec.HashBroken.mono (part_infix (hp b hb)) k))
    | multisig hw' => rw [hw] at hw'; cases hw'
    | pausable hw' => rw [hw] at hw'; cases hw'
    | other hw' => rw [hw] at hw'; cases hw'
    | routing hw' => rw [hw] at hw'; cases hw'

/-- **C63** (delivery). If the mailbox of a chain delivers a message, security modules answer as the modelled contracts do,
every module responsible for the message is guarded for its origin, and honest validators are truthful, then the
mailbox of the origin announced exactly these message bytes, or a signature was forged, or the hash is broken. -/
theorem C63_delivery_sound (hH : ∀ x, (H x).length = 32) {world : Addr → Option IsmContract}
    (hw : ∀ a c, world a = some c → Reachable c) {honest : Bytes → Prop} {signed : Bytes → Attestation → Prop}
    {announcedBy : UInt32 → Bytes → Prop} (htruth : ∀ v, honest v → Truthful announcedBy signed v)
    {depth : Nat} {C : Codec} {c : Mailbox.Call} (henv : c.env.verify = askIsm H R world depth)
    {s s' : Mailbox.State} {metadata message : Bytes} {r : Response} (hc : c.msg = .process metadata message)
    (hg : ∀ m rc ism, WireFormat m message → bech32Encode C s.config.hrp m.recipient = .ok rc →
      ResponsibleIsm c.env s rc ism → Guarded world honest m.origin ism)
    (h : Mailbox.execute H C s c = .ok (s', r)) :
    ∃ m, WireFormat m message ∧ (announcedBy m.origin message ∨ Forged H R honest signed m.origin metadata message ∨
      HashBroken H honest signed m.origin metadata message) := by
  obtain ⟨m, rc, ism, h1, h2, h3, h4⟩ := C44_delivery_backed hH hw henv hc h
  exact ⟨m, h1, C63_guarded_sound hH htruth h1 (hg m rc ism h1 h2 h3) h4⟩

/-- What a log announces was asked for by a dispatch in it. -/
theorem dispatchedIn_of_announced {C : Codec} {s s' : Mailbox.State} {log : MailboxLog}
    (h : Tx.Chain (Mailbox.execute H C) s log s') {b : Bytes} (hb : b ∈ announced log) :
    ∃ m, WireFormat m b ∧ DispatchedIn C log m := by
  induction log generalizing s with
  | nil => simp [announced] at hb
  | cons e t ih =>
    obtain ⟨c, r⟩ := e
    obtain ⟨s1, h1, h2⟩ := h
    have hsplit : announced ((c, r) :: t) = announced [(c, r)] ++ announced t := by simp [announced]
    rw [hsplit, List.mem_append] at hb
    rcases hb with hb | hb
    · rcases Mailbox.execute_cases h1 with ⟨x, o, hm, _, rfl, rfl⟩ | ⟨a, hm, _, _, rfl, rfl⟩ |
        ⟨a, hm, _, _, rfl, rfl⟩ | ⟨a, hm, _, _, rfl, rfl⟩ | ⟨x, hm, hx⟩ | ⟨md, msg, hm, hx⟩
      · simp [announced] at hb
      · simp [announced] at hb
      · simp [announced] at hb
      · simp [announced] at hb
      · obtain ⟨m, b', k1, _, _, _, k2, k3, k4, k5, k6, _⟩ := (C20_dispatched_contents hm).1 _ _ h1
        simp only [announced, List.flatMap_cons, List.flatMap_nil, List.append_nil, k6, List.filterMap_cons,
          List.filterMap_nil, List.mem_singleton] at hb
        subst hb
        exact ⟨m, k1, (c, r), by simp, x, hm, k2, k3.symm, k4.symm, k5.symm⟩
      · obtain ⟨dm, rc, named, dflt, _, _, _, _, _, _, hnot, _, rfl, rfl⟩ := Mailbox.process_ok.1 hx
        simp [announced] at hb
    · obtain ⟨m, k1, e, k2, k3⟩ := ih h2 hb
      exact ⟨m, k1, e, List.mem_cons_of_mem _ k2, k3⟩

/-- **C63.** The mailbox of chain A, with domain `dA`, has gone through any history from any state; the mailbox of chain B, in
any state, delivers a message that names `dA` as its origin. B's security modules answer as the modelled contracts do,
those responsible are guarded for `dA`, and honest validators attested, of messages from `dA`, only ones announced by
A's mailbox. Then, unless a signature was forged or the hash is broken, an account on A dispatched this message for B's
domain, and what B emits is the call of the recipient it asked for, with A's domain, the account and the body it asked
for. -/
theorem C63_end_to_end (hH : ∀ x, (H x).length = 32) {world : Addr → Option IsmContract}
    (hw : ∀ a c, world a = some c → Reachable c) {honest : Bytes → Prop} {signed : Bytes → Attestation → Prop}
    {CA CB : Codec} {dA : UInt32} {sA0 : Mailbox.State}
    (txs : List (List (Tx.Act Mailbox.Call)))
    (htruth : ∀ v, honest v → Truthful
      (fun o b => o = dA → b ∈ announced (Tx.history (Mailbox.execute H CA) sA0 txs).2) signed v)
    {depth : Nat} {c : Mailbox.Call} (henv : c.env.verify = askIsm H R world depth) {s s' : Mailbox.State}
    {m : Message} {metadata message : Bytes} {r : Response} (hc : c.msg = .process metadata message)
    (hm : WireFormat m message) (ho : m.origin = dA)
    (hg : ∀ rc ism, bech32Encode CB s.config.hrp m.recipient = .ok rc → ResponsibleIsm c.env s rc ism → Guarded world honest dA ism)
    (h : Mailbox.execute H CB s c = .ok (s', r)) :
    (∃ e ∈ (Tx.history (Mailbox.execute H CA) sA0 txs).2, ∃ q sender32 rc, e.1.msg = .dispatch q ∧
      bech32ToH256 CA e.1.sender = .ok sender32 ∧ q.dest = s.config.localDomain ∧
      bech32Encode CB s.config.hrp q.recipient = .ok rc ∧
      r.msgs = [.execute rc (.handle dA sender32 q.body) []]) ∨
    Forged H R honest signed dA metadata message ∨ HashBroken H honest signed dA metadata message := by
  obtain ⟨m', k1, k2⟩ := C63_delivery_sound hH hw htruth henv hc
    (fun m'' rc ism hm'' he hr => by
      have := wireFormat_unique hm hm''
      subst this
      rw [ho]; exact hg rc ism he hr) h
  have := wireFormat_unique hm k1
  subst this
  rw [ho] at k2
  rcases k2 with k2 | k2
  · left
    obtain ⟨m2, j1, e, je, q, j2, j3, j4, j5, j6⟩ :=
      dispatchedIn_of_announced (Tx.history_chain _ _ _) (k2 rfl)
    have := wireFormat_unique hm j1
    subst this
    obtain ⟨m3, rc, l1, l2, l3, _⟩ := C17_handle_fidelity hc h
    have := wireFormat_unique hm l1
    subst this
    obtain ⟨m4, _, _, n1, _, n3, _⟩ := C16_ism_approval hc h
    have := wireFormat_unique hm n1
    subst this
    exact ⟨e, je, q, m.sender, rc, j2, j3, by rw [j4, n3], by rw [j5]; exact l3, by rw [l2, ho, j6]⟩
  · exact .inr k2

end

/-! A concrete case: of the three validators of `Ex.world` (threshold two) the third is dishonest; the mailbox of domain 1
dispatched a message, the first validator attested it, and the mailbox, as destination, delivers it with signatures
of the first and the third. -/

def Ex.honest (v : Bytes) : Prop := v = Ex.vaValidator 1 ∨ v = Ex.vaValidator 2

def Ex.signed (v : Bytes) (a : Attestation) : Prop :=
  v = Ex.vaValidator 1 ∧ a = sought 1 (Ex.msMeta [1, 3]) Ex.message.encode

theorem nodup_all_eq {α : Type} {l : List α} {x : α} (hn : l.Nodup) (h : ∀ y ∈ l, y = x) : l.length ≤ 1 := by
  match l with
  | [] => simp
  | [_] => simp
  | a :: b :: t =>
    have h1 := h a (by simp)
    have h2 := h b (by simp)
    subst h1 h2
    simp at hn

theorem Ex.guarded : Guarded Ex.world Ex.honest 1 "route" := by
  have hms : Guarded Ex.world Ex.honest 1 "ms" := by
    refine .multisig (s := (multisigAfter "owner" Ex.msEnrol).2) (by simp [Ex.world]) ?_
    intro vs t hv ht q hq hall
    have hv' : (multisigAfter "owner" Ex.msEnrol).2.validators.get 1 =
      some [Ex.vaValidator 1, Ex.vaValidator 2, Ex.vaValidator 3] := by decide +kernel
    have ht' : (multisigAfter "owner" Ex.msEnrol).2.threshold.get 1 = some 2 := by decide +kernel
    rw [hv'] at hv
    rw [ht'] at ht
    cases hv
    cases ht
    have : q.length ≤ 1 := nodup_all_eq (x := Ex.vaValidator 3) hq (by
      intro y hy
      obtain ⟨h1, h2⟩ := hall y hy
      simp only [List.mem_cons, List.not_mem_nil, or_false] at h1
      rcases h1 with h1 | h1 | h1
      · exact absurd (.inl h1) h2
      · exact absurd (.inr h1) h2
      · exact h1)
    show q.length < 2
    omega
  refine .routing (s := OMap.empty.insert 1 "agg") (by simp [Ex.world]) ?_
  intro b hb
  have : (OMap.empty.insert 1 "agg" : OMap UInt32 Addr).get 1 = some "agg" := by decide +kernel
  rw [this] at hb
  cases hb
  refine .aggregate (s := ⟨["ms", "pause"], 2⟩) ["ms"] (by simp [Ex.world]) (by simpa using hms) ?_
  intro q hq hmem hlen
  by_contra hno
  have : q.length ≤ 1 := nodup_all_eq (x := "pause") hq (by
    intro y hy
    have h1 := hmem y hy
    simp only [List.mem_cons, List.not_mem_nil, or_false] at h1
    rcases h1 with h1 | h1
    · exact absurd ⟨y, hy, by simp [h1]⟩ hno
    · exact h1)
  have : q.length = 2 := hlen
  omega

example : ∀ v, Ex.honest v → Truthful
    (fun o b => o = 1 → b ∈ announced (Tx.history (Mailbox.execute toyHash Bech.codec) Ex.s0 Ex.txs).2) Ex.signed v := by
  intro v _ o tree root i b hs
  obtain ⟨_, h⟩ := hs
  cases h
  refine ⟨by decide +kernel, by decide +kernel, fun _ => ?_⟩
  have : announced (Tx.history (Mailbox.execute toyHash Bech.codec) Ex.s0 Ex.txs).2 = [Ex.message.encode] := by
    decide +kernel
  rw [this]
  simp

example : (Mailbox.execute toyHash Bech.codec
      { Ex.s1 with config := { Ex.s1.config with defaultIsm := some "route" } }
      ⟨{ Ex.env with verify := askIsm toyHash Ex.recover Ex.world 3 }, Ex.alice, [],
        .process Ex.nestedMeta Ex.message.encode⟩).toOption.map (fun x => x.2.msgs) =
    some [.execute Ex.alice (.handle 1 Ex.message.sender [1, 2, 3]) []] := by decide +kernel

end Hpl
