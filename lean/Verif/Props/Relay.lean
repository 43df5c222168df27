import Mathlib.Tactic.Choose
import Verif.Lemmas.Mailbox
import Verif.Lemmas.Relay
import Verif.Props.Isms

/-! # Relayers can get attested messages approved (C76) -/

namespace Hpl

open Spec Multisig

variable {H : Bytes → Bytes} {R : Recover} {world : Addr → Option IsmContract} {message : Bytes}

theorem verifyInfo_ok {s : Multisig.State} {t : UInt8} {vs : List Bytes} (h : verifyInfo s message = .ok (t, vs)) :
    ∃ m, Message.decode message = .ok m ∧ s.threshold.get m.origin = some t ∧ s.validators.get m.origin = some vs := by
  obtain ⟨m, h1, h⟩ := bind_eq_ok.1 h
  obtain ⟨t', h2, h⟩ := bind_eq_ok.1 h
  obtain ⟨vs', h3, h⟩ := bind_eq_ok.1 h
  cases h
  exact ⟨m, h1, load_ok.1 h2, load_ok.1 h3⟩

/-- The metadata for a multisig module. -/
theorem signed_approves (hH : ∀ x, (H x).length = 32) (hR : ∀ h s v p, R h s v = some p → p ≠ [])
    {s : Multisig.State} {t : UInt8} {vs q : List Bytes} {m : Message} {tree root : Bytes} {index : UInt32} (sig : Bytes → Bytes)
    (hi : verifyInfo s message = .ok (t, vs)) (ht : 1 ≤ t.toNat) (hm : WireFormat m message)
    (h1 : tree.length = 32) (h2 : root.length = 32) (hq : q.Nodup) (hl : q.length = t.toNat)
    (hs : ∀ v ∈ q, v ∈ vs ∧ (sig v).length = 65 ∧
      SignedBy H R (checkpointDigest H m.origin tree root index (H message)) (sig v) v) :
    ∃ md, md.length = 68 + 65 * t.toNat ∧ Multisig.verify H R s md message = .ok true := by
  obtain ⟨m', d1, d2, d3⟩ := verifyInfo_ok hi
  have hmm : m' = m := by
    have := decode_of_wireFormat hm
    rw [d1] at this
    exact Except.ok.inj this
  subst hmm
  have hix : (u32be index).length = 4 := by simp
  have h65 : ∀ x ∈ q.map sig, x.length = 65 := by
    intro x hx
    obtain ⟨v, hv, rfl⟩ := List.mem_map.1 hx
    exact (hs v hv).2.1
  have hflat : ∀ l : List Bytes, (∀ x ∈ l, x.length = 65) → l.flatten.length = 65 * l.length := by
    intro l hl
    induction l with
    | nil => rfl
    | cons x t ih =>
      rw [List.flatten_cons, List.length_append, hl x (by simp), ih (fun y hy => hl y (by simp [hy])), List.length_cons]
      omega
  have hdig : digestFor H m'.origin (tree ++ (root ++ (u32be index ++ (q.map sig).flatten))) message =
      checkpointDigest H m'.origin tree root index (H message) := by
    unfold digestFor
    have e1 : (tree ++ (root ++ (u32be index ++ (q.map sig).flatten))).take 32 = tree := by
      rw [List.take_append_of_le_length (by omega), List.take_of_length_le (by omega)]
    have e2 : ((tree ++ (root ++ (u32be index ++ (q.map sig).flatten))).drop 32).take 32 = root := by
      rw [List.drop_append, List.drop_of_length_le (by omega), h1, Nat.sub_self, List.drop_zero, List.nil_append,
        List.take_append_of_le_length (by omega), List.take_of_length_le (by omega)]
    have e3 : ((tree ++ (root ++ (u32be index ++ (q.map sig).flatten))).drop 64).take 4 = u32be index := by
      rw [List.drop_append, List.drop_of_length_le (by omega), h1, List.nil_append, List.drop_append,
        List.drop_of_length_le (by omega), h2, List.nil_append, List.drop_zero,
        List.take_append_of_le_length (by omega), List.take_of_length_le (by omega)]
    rw [e1, e2, e3, ofU32be_u32be]
  refine ⟨tree ++ (root ++ (u32be index ++ (q.map sig).flatten)), ?_, ?_⟩
  · simp only [List.length_append, h1, h2, hix, hflat _ h65, List.length_map, hl]
    omega
  · refine (verify_ok hH).2 ⟨by simp only [List.length_append, h1, h2, hix]; omega, m', vs, t, 0, d1, d3, d2, ?_, by simp⟩
    have e4 : (tree ++ (root ++ (u32be index ++ (q.map sig).flatten))).drop 68 = (q.map sig).flatten := by
      rw [List.drop_append, List.drop_of_length_le (by omega), h1, List.nil_append, List.drop_append,
        List.drop_of_length_le (by omega), h2, List.nil_append, List.drop_append, List.drop_of_length_le (by omega),
        hix, List.nil_append, List.drop_zero]
    rw [hdig, e4, chunksExact_flatten (by decide) _ h65]
    have := loop_complete (vals := vs) (matched := []) (t := t) (sigs := q.map sig) (q := q) hH hR (u8_ne_zero.2 ht)
      (hash := checkpointDigest H m'.origin tree root index (H message)) (by
        intro x hx
        obtain ⟨v, hv, rfl⟩ := List.mem_map.1 hx
        exact ⟨v, (hs v hv).2.2⟩) hq (by simp) (by omega) (by
        intro v hv
        exact ⟨(hs v hv).1, sig v, List.mem_map.2 ⟨v, hv, rfl⟩, (hs v hv).2.2⟩) []
    rwa [List.append_nil] at this

theorem sum_parts {isms : List Addr} {part : Addr → Bytes} {size : Addr → Nat} (h : ∀ b, (part b).length ≤ size b) :
    (isms.map part).flatten.length ≤ (isms.map size).sum := by
  induction isms with
  | nil => simp
  | cons a t ih =>
    rw [List.map_cons, List.flatten_cons, List.length_append, List.map_cons, List.sum_cons]
    have := h a
    omega

theorem le_sum {isms : List Addr} {f : Addr → Nat} {a : Addr} (h : a ∈ isms) : f a ≤ (isms.map f).sum := by
  induction isms with
  | nil => cases h
  | cons b t ih =>
    rw [List.map_cons, List.sum_cons]
    rcases List.mem_cons.1 h with rfl | h
    · omega
    · have := ih h
      omega

/-- **C76** (possible, part of `C76_full`). What a relayer can do by the rules of `Can` works, whatever the nesting: there
are metadata of at most the given length for which the module approves (or answers). Missing from `C76_full`: the
modules an aggregate asks before the last of the approving ones must be able to answer. -/
theorem C76_relayable_partial (hH : ∀ x, (H x).length = 32) (hR : ∀ h s v p, R h s v = some p → p ≠ [])
    {a : Addr} {w : Bool} {n : Nat} (h : Can H R world message a w n) :
    ∃ md depth b, md.length ≤ n ∧ (w = true → b = true) ∧ ∀ k, askIsm H R world (depth + k) a md message = .ok b := by
  have key : ∃ md depth b, md.length ≤ n ∧ (w = true → b = true) ∧ askIsm H R world depth a md message = .ok b := by
    induction h with
    | answer h ih =>
      obtain ⟨md, d, b, h1, h2, h3⟩ := ih
      exact ⟨md, d, b, h1, nofun, h3⟩
    | @signed a s m t vs n tree root index q sig hw hi ht hm h1 h2 hq hl hs hn =>
      obtain ⟨md, l1, l2⟩ := signed_approves hH hR sig hi ht hm h1 h2 hq hl hs
      refine ⟨md, 1, true, by omega, fun _ => rfl, ?_⟩
      simp only [askIsm, hw]
      exact l2
    | @unsigned a s i n hw hi hn =>
      obtain ⟨t, vs⟩ := i
      obtain ⟨m, d1, d2, d3⟩ := verifyInfo_ok hi
      refine ⟨List.replicate 68 0, 1, decide (t = 0), by simpa using hn, nofun, ?_⟩
      simp only [askIsm, hw]
      refine (verify_ok hH).2 ⟨by simp, m, vs, t, t, d1, d3, d2, ?_, rfl⟩
      rw [show (List.replicate 68 (0 : UInt8)).drop 68 = [] from rfl]
      rfl
    | unpaused hw =>
      refine ⟨[], 1, true, by simp, fun _ => rfl, ?_⟩
      simp only [askIsm, hw]
      rfl
    | @other a f md b n hw hf hn =>
      refine ⟨md, 1, b, hn, fun h => h, ?_⟩
      simp only [askIsm, hw]
      exact hf
    | @routed a s b w n hw hr _ ih =>
      obtain ⟨md, d, r, h1, h2, h3⟩ := ih
      refine ⟨md, d + 1, r, h1, h2, ?_⟩
      simp only [askIsm, hw, RoutingIsm.verify]
      obtain ⟨m, r1, r2⟩ := bind_eq_ok.1 hr
      rw [r1, ok_bind, r2, ok_bind]
      exact h3
    | @quorum a s n q size hw ht hq hl hm _ _ hn hn' iha ihb =>
      have hpick : ∀ b, ∃ md depth, md.length ≤ size b ∧ (b ∈ q → askIsm H R world depth b md message = .ok true) ∧
          (b ∈ s.isms → (∃ c ∈ q, b < c) → ∃ r, askIsm H R world depth b md message = .ok r) := by
        intro b
        by_cases h1 : b ∈ q
        · obtain ⟨md, d, r, e1, e2, e3⟩ := iha b h1
          rw [e2 rfl] at e3
          exact ⟨md, d, e1, fun _ => e3, fun _ _ => ⟨true, e3⟩⟩
        · by_cases h2 : b ∈ s.isms ∧ ∃ c ∈ q, b < c
          · obtain ⟨h3, c, h4, h5⟩ := h2
            obtain ⟨md, d, r, e1, _, e3⟩ := ihb b h3 c h4 h5
            exact ⟨md, d, e1, fun h => absurd h h1, fun _ _ => ⟨r, e3⟩⟩
          · exact ⟨[], 0, by simp, fun h => absurd h h1, fun h3 h4 => absurd ⟨h3, h4⟩ h2⟩
      choose part dep hlen happ hans using hpick
      have hsum := sum_parts (isms := s.isms) hlen
      obtain ⟨v, v1, ⟨mm, v2⟩, v3⟩ := assemble s.isms part (by omega)
      refine ⟨v, (s.isms.map dep).sum + 1, true, by omega, fun _ => rfl, ?_⟩
      simp only [askIsm, hw]
      have mono : ∀ b r, b ∈ s.isms → askIsm H R world (dep b) b (part b) message = .ok r →
          askIsm H R world (s.isms.map dep).sum b (part b) message = .ok r := by
        intro b r hb h
        have := C44_depth_irrelevant h ((s.isms.map dep).sum - dep b)
        rwa [show dep b + ((s.isms.map dep).sum - dep b) = (s.isms.map dep).sum by
          have := le_sum (f := dep) hb
          omega] at this
      refine AggregateIsm.verify_ok.2 ⟨mm, 0, v2, ?_, by simp⟩
      have hent := AggregateMeta.fromHex_ok v2
      refine AggregateIsm.loop_reaches (q := q) mm.sorted (u8_ne_zero.2 ht) hq (by omega) ?_ ?_
      · intro b hb
        obtain ⟨p, hp⟩ := OMap.mem_keys_iff.1 ((hent.2 b).2 (hm b hb))
        have hp' := OMap.get_eq_some_iff.1 hp
        obtain ⟨k1, k2⟩ := v3 mm v2 b p hp'
        exact ⟨p, hp', by rw [k2]; exact mono b true (hm b hb) (happ b hb)⟩
      · intro b p hp c hc hlt
        obtain ⟨k1, k2⟩ := v3 mm v2 b p hp
        obtain ⟨r, hr⟩ := hans b k1 ⟨c, hc, hlt⟩
        exact ⟨r, by rw [k2]; exact mono b r k1 hr⟩
    | @all a s n size hw ht _ hn hn' ihb =>
      have hpick : ∀ b, ∃ md depth, md.length ≤ size b ∧
          (b ∈ s.isms → ∃ r, askIsm H R world depth b md message = .ok r) := by
        intro b
        by_cases h2 : b ∈ s.isms
        · obtain ⟨md, d, r, e1, _, e3⟩ := ihb b h2
          exact ⟨md, d, e1, fun _ => ⟨r, e3⟩⟩
        · exact ⟨[], 0, by simp, fun h3 => absurd h3 h2⟩
      choose part dep hlen hans using hpick
      have hsum := sum_parts (isms := s.isms) hlen
      obtain ⟨v, v1, ⟨mm, v2⟩, v3⟩ := assemble s.isms part (by omega)
      have mono : ∀ b r, b ∈ s.isms → askIsm H R world (dep b) b (part b) message = .ok r →
          askIsm H R world (s.isms.map dep).sum b (part b) message = .ok r := by
        intro b r hb h
        have := C44_depth_irrelevant h ((s.isms.map dep).sum - dep b)
        rwa [show dep b + ((s.isms.map dep).sum - dep b) = (s.isms.map dep).sum by
          have := le_sum (f := dep) hb
          omega] at this
      obtain ⟨r, hr, _⟩ := AggregateIsm.loop_count (V := askIsm H R world (s.isms.map dep).sum) (message := message)
        (es := mm.entries) (u8_ne_zero.2 ht) (by
          intro b p hp
          obtain ⟨k1, k2⟩ := v3 mm v2 b p hp
          obtain ⟨r, hr⟩ := hans b k1
          exact ⟨r, by rw [k2]; exact mono b r k1 hr⟩)
      refine ⟨v, (s.isms.map dep).sum + 1, decide (r = 0), by omega, nofun, ?_⟩
      simp only [askIsm, hw]
      exact AggregateIsm.verify_ok.2 ⟨mm, r, v2, hr, rfl⟩
  obtain ⟨md, d, b, h1, h2, h3⟩ := key
  exact ⟨md, d, b, h1, h2, C44_depth_irrelevant h3⟩

/-- **C76** (blocked). If a module listed in an aggregate never answers for the message, then the aggregate approves it
only by as many modules as its threshold whose addresses are smaller than that module's. -/
theorem C76_blocked {a c : Addr} {s : AggregateIsm.State} {depth : Nat} {md : Bytes} (hw : world a = some (.aggregate s))
    (ht : 1 ≤ s.threshold.toNat) (hc : c ∈ s.isms) (hn : NeverAnswers H R world message c)
    (h : askIsm H R world depth a md message = .ok true) :
    ∃ q : List Addr, q.Nodup ∧ q.length = s.threshold.toNat ∧
      ∀ b ∈ q, b ∈ s.isms ∧ b < c ∧ CanApprove H R world message b md.length := by
  cases depth with
  | zero => simp [askIsm] at h
  | succ n =>
    simp only [askIsm, hw] at h
    obtain ⟨m, r, h1, h2, h3⟩ := AggregateIsm.verify_ok.1 h
    have hr : r = 0 := by simpa using h3.symm
    subst hr
    obtain ⟨g1, g2⟩ := AggregateMeta.fromHex_ok h1
    obtain ⟨p, hp⟩ := OMap.mem_keys_iff.1 ((g2 c).2 hc)
    obtain ⟨q, q1, q2, q3⟩ := AggregateIsm.loop_blocked m.sorted (u8_ne_zero.2 ht) (OMap.get_eq_some_iff.1 hp)
      (fun b => hn n p b) h2
    refine ⟨q, q1, q2, fun b hb => ?_⟩
    obtain ⟨k1, x, k2, k3⟩ := q3 b hb
    refine ⟨(g2 b).1 (List.mem_map.2 ⟨_, k2, rfl⟩), k1, n, x, ?_, k3⟩
    obtain ⟨_, _, _, _, _, _, _, _, _, _, rfl⟩ := (g1 b x).1 k2
    simp

/-- **C76** (full statement). If as many different modules listed in an aggregate as its threshold can each be brought to
approve the message, then so can the aggregate. -/
def C76_full : Prop :=
  ∀ (H : Bytes → Bytes) (R : Recover) (world : Addr → Option IsmContract) (message : Bytes) (a : Addr)
    (s : AggregateIsm.State) (q : List Addr) (n : Nat),
    (∀ x, (H x).length = 32) → (∀ h s v p, R h s v = some p → p ≠ []) → (∀ b c, world b = some c → Reachable c) →
    world a = some (.aggregate s) → q.Nodup → q.length = s.threshold.toNat → (∀ b ∈ q, b ∈ s.isms) →
    (∀ b ∈ q, CanApprove H R world message b n) → 8 * s.isms.length + q.length * n < 2 ^ 32 →
    ∃ k, CanApprove H R world message a k

/-- A paused module before an approving one in an aggregate of threshold one. -/
def Ex.pausedFirst : Addr → Option IsmContract := fun a =>
  if a = "agg" then some (.aggregate ⟨["p1", "p2"], 1⟩)
  else if a = "p1" then some (.pausable true)
  else if a = "p2" then some (.pausable false)
  else none

theorem Ex.pausedFirst_reachable : ∀ a c, Ex.pausedFirst a = some c → Reachable c := by
  intro a c h
  unfold Ex.pausedFirst at h
  split at h
  · cases h
    exact ⟨fun _ => true, "owner", ["p1", "p2"], 1, (Ownable.init "owner", ⟨["p1", "p2"], 1⟩), [],
      by decide +kernel, by decide, rfl⟩
  · split at h
    · cases h; exact trivial
    · split at h
      · cases h; exact trivial
      · cases h

theorem Ex.p1_never {H : Bytes → Bytes} {R : Recover} {message : Bytes} :
    NeverAnswers H R Ex.pausedFirst message "p1" := by
  intro depth md b h
  cases depth with
  | zero => simp [askIsm] at h
  | succ n =>
    rw [askIsm, show Ex.pausedFirst "p1" = some (.pausable true) from rfl] at h
    cases h

/-- **C76.** The full statement is false: a module that fails makes the aggregate fail, even if the metadata need it for
nothing. -/
theorem C76_full_refuted : ¬ C76_full := by
  intro h
  obtain ⟨k, depth, md, _, hmd⟩ := h (fun _ => List.replicate 32 0) (fun _ _ _ => none) Ex.pausedFirst [] "agg"
    ⟨["p1", "p2"], 1⟩ ["p2"] 0 (by simp) nofun Ex.pausedFirst_reachable rfl (by decide) rfl (by decide) (by
      intro b hb
      rw [List.mem_singleton] at hb
      subst hb
      exact ⟨1, [], by simp, rfl⟩) (by decide)
  obtain ⟨q, q1, q2, q3⟩ := C76_blocked (c := "p1") rfl (by decide) (by decide) Ex.p1_never hmd
  cases q with
  | nil => cases q2
  | cons b t =>
    obtain ⟨k1, k2, _⟩ := q3 b (by simp)
    simp only [List.mem_cons, List.not_mem_nil, or_false] at k1
    rcases k1 with rfl | rfl
    · exact absurd k2 (by decide)
    · exact absurd k2 (by decide)

/-- **C76** (delivery). A message for this chain that is not delivered yet and for which the responsible module can be
brought to approve is delivered by a call of `Process` with suitable metadata. -/
theorem C76_deliverable (hH : ∀ x, (H x).length = 32) (hR : ∀ h s v p, R h s v = some p → p ≠ []) {C : Codec}
    {s : Mailbox.State} {sender recipient ism : Addr} {m : Message} {env : Mailbox.Env} {funds : List Coin} {n : Nat}
    (hm : WireFormat m message) (hv : m.version = 3) (hd : m.dest = s.config.localDomain)
    (hr : bech32Encode C s.config.hrp m.recipient = .ok recipient) (hs : s.config.defaultIsm ≠ none)
    (hf : Mailbox.getDelivered s (H message) = false) (hi : ResponsibleIsm env s recipient ism)
    (hc : Can H R world message ism true n) :
    ∃ md depth, md.length ≤ n ∧ ∀ k, ∃ s' r,
      Mailbox.execute H C s ⟨{ env with verify := askIsm H R world (depth + k) }, sender, funds, .process md message⟩ =
        .ok (s', r) ∧
      r.msgs = [.execute recipient (.handle m.origin m.sender m.body) []] ∧
      Mailbox.getDelivered s' (H message) = true := by
  obtain ⟨md, depth, b, h1, h2, h3⟩ := C76_relayable_partial hH hR hc
  cases h2 rfl
  obtain ⟨d, hs⟩ := Option.ne_none_iff_exists'.1 hs
  refine ⟨md, depth, h1, fun k => ?_⟩
  obtain ⟨named, hnamed, hd'⟩ : ∃ named, env.recipientIsm recipient = .ok named ∧ named.getD d = ism := by
    rcases hi with hi | ⟨hi, hi'⟩
    · exact ⟨some ism, hi, rfl⟩
    · rw [hs] at hi'
      cases hi'
      exact ⟨none, hi, rfl⟩
  refine ⟨_, _, Mailbox.process_ok.2 ⟨m, recipient, named, d, decode_of_wireFormat hm, hr, hv, hd, hnamed, hs, hf,
    hd' ▸ h3 k, rfl, rfl⟩, rfl, ?_⟩
  simp [Mailbox.getDelivered, OMap.has_insert]

/-! Concrete cases: in the world of `Verif/Props/Isms.lean` a relayer with the signatures of two of three validators gets
the message through the routing module and the aggregate; an approving module before a paused one suffices. -/

def Ex.relaySig (v : Bytes) : Bytes := if v = Ex.vaValidator 1 then Ex.vaSig 1 else Ex.vaSig 3

def Ex.relaySize (a : Addr) : Nat := if a = "ms" then 198 else 0

theorem Ex.ms_can : Can toyHash Ex.recover Ex.world Ex.message.encode "ms" true 198 := by
  refine .signed (s := (multisigAfter "owner" Ex.msEnrol).2) (m := Ex.message) (t := 2)
    (vs := [Ex.vaValidator 1, Ex.vaValidator 2, Ex.vaValidator 3]) (tree := List.replicate 32 9)
    (root := List.replicate 32 9) (index := 7) (q := [Ex.vaValidator 1, Ex.vaValidator 3]) Ex.relaySig rfl
    (by decide +kernel) (by decide) (wireFormat_of_decode (by decide +kernel)) (by decide) (by decide)
    (by decide +kernel) rfl ?_ (by decide)
  intro v hv
  simp only [List.mem_cons, List.not_mem_nil, or_false] at hv
  rcases hv with rfl | rfl
  · exact ⟨by decide +kernel, by decide +kernel, 27, 0, _, by decide +kernel, by decide +kernel, by decide +kernel, rfl,
      by decide +kernel, by decide +kernel⟩
  · exact ⟨by decide +kernel, by decide +kernel, 27, 0, _, by decide +kernel, by decide +kernel, by decide +kernel, rfl,
      by decide +kernel, by decide +kernel⟩

theorem Ex.route_can : Can toyHash Ex.recover Ex.world Ex.message.encode "route" true 214 := by
  refine .routed (b := "agg") rfl (by decide +kernel) ?_
  refine .quorum (q := ["ms", "pause"]) Ex.relaySize rfl (by decide) (by decide) rfl (by decide) ?_ ?_ (by decide)
    (by decide)
  · intro b hb
    simp only [List.mem_cons, List.not_mem_nil, or_false] at hb
    rcases hb with rfl | rfl
    · exact Ex.ms_can
    · exact .unpaused rfl
  · intro b hb c hc _
    simp only [List.mem_cons, List.not_mem_nil, or_false] at hb
    rcases hb with rfl | rfl
    · exact .answer Ex.ms_can
    · exact .answer (.unpaused rfl)

example : ∃ md depth, md.length ≤ 214 ∧ askIsm toyHash Ex.recover Ex.world depth "route" md Ex.message.encode = .ok true := by
  obtain ⟨md, d, b, h1, h2, h3⟩ := C76_relayable_partial toyHash_length (fun _ _ _ _ h => by cases h; exact nofun)
    Ex.route_can
  cases h2 rfl
  exact ⟨md, d, h1, h3 0⟩

/-- `C76_blocked` and the rule `quorum`: the aggregate approves once the paused module comes last. -/
example : askIsm toyHash Ex.recover (fun a => if a = "agg" then some (.aggregate ⟨["p3", "p2"], 1⟩)
      else if a = "p3" then some (.pausable true) else Ex.pausedFirst a) 2 "agg" (List.replicate 16 0) [] = .ok true := by
  decide +kernel

/-- Recipients name the routing module. -/
def Ex.relayEnv : Mailbox.Env := { Ex.env with recipientIsm := fun _ => .ok (some "route") }

/-- `C76_deliverable`: the recipient names the routing module. -/
example : ∃ md depth, md.length ≤ 214 ∧ ∀ k, ∃ s' r,
    Mailbox.execute toyHash Bech.codec Ex.s1 ⟨{ Ex.relayEnv with
      verify := askIsm toyHash Ex.recover Ex.world (depth + k) }, "relayer", [], .process md Ex.message.encode⟩ =
      .ok (s', r) ∧
    r.msgs = [.execute Ex.alice (.handle 1 Ex.message.sender [1, 2, 3]) []] ∧
    Mailbox.getDelivered s' (toyHash Ex.message.encode) = true :=
  C76_deliverable (env := Ex.relayEnv) toyHash_length
    (fun _ _ _ _ h => by cases h; exact nofun) (wireFormat_of_decode (m := Ex.message) (by decide +kernel)) rfl rfl
    (by decide +kernel) nofun rfl (.inl rfl) Ex.route_can

end Hpl
