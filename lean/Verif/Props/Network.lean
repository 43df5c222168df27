import Verif.Model.Network
import Verif.Spec.Network
import Verif.Props.Mailbox

/-! # Any number of chains: C67; exactly when dispatching and processing succeed: C68 -/

namespace Hpl

open Mailbox Spec

section

variable {κ : Type} [DecidableEq κ] {H : Bytes → Bytes} {C : κ → Codec}

namespace Network

theorem step_ok {s s' : κ → State} {c : Call κ} {r : Response} :
    step H C s c = .ok (s', r) ↔
      ∃ m, execute H (C c.chain) (s c.chain) c.call = .ok (m, r) ∧ s' = Function.update s c.chain m := by
  unfold step
  rw [bind_eq_ok]
  constructor
  · rintro ⟨⟨m, r'⟩, h1, h2⟩
    simp only [pure_eq_ok, Except.ok.injEq, Prod.mk.injEq] at h2
    obtain ⟨rfl, rfl⟩ := h2
    exact ⟨m, h1, rfl⟩
  · rintro ⟨m, h1, rfl⟩
    exact ⟨(m, r), h1, rfl⟩

/-- The part of a log that happened on one chain. -/
def on (k : κ) (log : NetLog κ) : MailboxLog :=
  log.filterMap (fun e => if e.1.chain = k then some (e.1.call, e.2) else none)

/-- Seen from one chain a log of the network is a log of that chain. -/
theorem chain_on {s s' : κ → State} {log : NetLog κ} (h : Tx.Chain (step H C) s log s') (k : κ) :
    Tx.Chain (execute H (C k)) (s k) (on k log) (s' k) := by
  induction log generalizing s with
  | nil =>
    simp only [Tx.Chain] at h
    subst h
    rfl
  | cons e t ih =>
    obtain ⟨c, r⟩ := e
    obtain ⟨m, h1, h2⟩ := h
    obtain ⟨m', h3, rfl⟩ := step_ok.1 h1
    have h4 := ih h2
    unfold on
    rw [List.filterMap_cons]
    by_cases hk : c.chain = k
    · subst hk
      rw [Function.update_self] at h4
      simp only [if_true]
      exact ⟨m', h3, h4⟩
    · rw [Function.update_of_ne (Ne.symm hk)] at h4
      simp only [hk, if_false]
      exact h4

/-- The domain of a mailbox never changes. -/
theorem domain_step {s s' : State} {c : Mailbox.Call} {r : Response} {D : Codec}
    (h : execute H D s c = .ok (s', r)) : s'.config.localDomain = s.config.localDomain :=
  (announced_chain (log := [(c, r)]) (show Tx.Chain (execute H D) s _ s' from ⟨s', h, rfl⟩)).2.2.1

/-- What one call of a chain hands over: nothing, or one handler call for the submitted message, which is for the domain
of that chain. -/
theorem handed_step {s s' : State} {c : Mailbox.Call} {r : Response} {D : Codec}
    (h : execute H D s c = .ok (s', r)) :
    (r.msgs.filter isHandle = [] ∧ ∀ metadata message, c.msg ≠ .process metadata message) ∨
    (∃ metadata message m o, c.msg = .process metadata message ∧ r.msgs.filter isHandle = [o] ∧
      WireFormat m message ∧ m.dest = s.config.localDomain) := by
  rcases execute_cases h with ⟨x, o, hm, _, rfl, rfl⟩ | ⟨a, hm, _, _, rfl, rfl⟩ |
      ⟨a, hm, _, _, rfl, rfl⟩ | ⟨a, hm, _, _, rfl, rfl⟩ | ⟨x, hm, hx⟩ | ⟨md, msg, hm, hx⟩
  · exact .inl ⟨rfl, by simp [hm]⟩
  · exact .inl ⟨rfl, by simp [hm]⟩
  · exact .inl ⟨rfl, by simp [hm]⟩
  · exact .inl ⟨rfl, by simp [hm]⟩
  · obtain ⟨_, _, _, _, _, _, _, _, _, _, _, _, _, _, _, _, _, rfl, rfl⟩ := dispatch_ok.1 hx
    exact .inl ⟨rfl, by simp [hm]⟩
  · obtain ⟨dm, rc, named, dflt, h1, _, _, h4, _, _, hnot, _, rfl, rfl⟩ := process_ok.1 hx
    exact .inr ⟨md, msg, dm, _, hm, rfl, wireFormat_of_decode h1, h4⟩

end Network

open Network in
/-- All that C67 says about a log. -/
theorem netHanded_chain {s s' : κ → State} {log : NetLog κ} (h : Tx.Chain (Network.step H C) s log s') :
    ∀ p ∈ netHanded log, ∃ b m, p.2.1 = some b ∧ WireFormat m b ∧
      m.dest = (s p.1).config.localDomain ∧ H b ∈ processedIds H (on p.1 log) := by
  induction log generalizing s with
  | nil => intro p hp; simp [netHanded] at hp
  | cons e t ih =>
    obtain ⟨c, r⟩ := e
    obtain ⟨m, h1, h2⟩ := h
    obtain ⟨m', h3, rfl⟩ := step_ok.1 h1
    intro p hp
    have hp' : p ∈ netHanded [(c, r)] ∨ p ∈ netHanded t := by
      rw [← List.mem_append]
      simpa [netHanded] using hp
    rcases hp' with hp' | hp'
    · rcases handed_step h3 with ⟨h4, _⟩ | ⟨md, b, dm, o, h4, h5, h6, h7⟩
      · simp [netHanded, h4] at hp'
      · simp only [netHanded, List.flatMap_cons, List.flatMap_nil, List.append_nil, h5,
          List.map_cons, List.map_nil, List.mem_singleton, h4] at hp'
        subst hp'
        refine ⟨b, dm, rfl, h6, h7, ?_⟩
        unfold on processedIds
        rw [List.filterMap_cons]
        simp only [if_true]
        rw [List.filterMap_cons]
        simp [h4]
    · obtain ⟨b, dm, g1, g2, g3, g4⟩ := ih h2 p hp'
      have hd : (Function.update s c.chain m' p.1).config.localDomain =
          (s p.1).config.localDomain := by
        by_cases hk : p.1 = c.chain
        · rw [hk, Function.update_self]
          exact domain_step h3
        · rw [Function.update_of_ne hk]
      rw [hd] at g3
      refine ⟨b, dm, g1, g2, g3, ?_⟩
      unfold on processedIds at g4 ⊢
      rw [List.filterMap_cons]
      by_cases hk : c.chain = p.1
      · simp only [hk, if_true, List.filterMap_cons]
        cases c.call.msg <;> first | exact g4 | exact List.mem_cons_of_mem _ g4
      · simp only [hk, if_false]
        exact g4

open Network in
theorem netHanded_nodup {s s' : κ → State} {log : NetLog κ} (h : Tx.Chain (Network.step H C) s log s')
    (hdom : Function.Injective (fun k => (s k).config.localDomain)) :
    ((netHanded log).map (fun p => p.2.1)).Nodup := by
  induction log generalizing s with
  | nil => simp [netHanded]
  | cons e t ih =>
    have hall := netHanded_chain h
    obtain ⟨c, r⟩ := e
    have hc := chain_on h c.chain
    obtain ⟨m, h1, h2⟩ := h
    obtain ⟨m', h3, rfl⟩ := step_ok.1 h1
    have hd : ∀ k, (Function.update s c.chain m' k).config.localDomain =
        (s k).config.localDomain := by
      intro k
      by_cases hk : k = c.chain
      · rw [hk, Function.update_self]
        exact domain_step h3
      · rw [Function.update_of_ne hk]
    have h5 := ih h2 (by simpa only [hd] using hdom)
    have hs : netHanded ((c, r) :: t) = netHanded [(c, r)] ++ netHanded t := by simp [netHanded]
    rw [hs, List.map_append]
    rcases handed_step h3 with ⟨h4, _⟩ | ⟨md, b, dm, o, h4, h6, h7, h8⟩
    · have : netHanded [(c, r)] = [] := by simp [netHanded, h4]
      rw [this]
      exact h5
    · have : netHanded [(c, r)] = [(c.chain, some b, o)] := by
        simp [netHanded, h4, h6]
      rw [this]
      simp only [List.map_cons, List.map_nil, List.singleton_append, List.nodup_cons]
      refine ⟨fun hmem => ?_, h5⟩
      obtain ⟨p, hp, hpb⟩ := List.mem_map.1 hmem
      obtain ⟨b', dm', g1, g2, g3, g4⟩ := netHanded_chain h2 p hp
      rw [g1] at hpb
      cases hpb
      rw [hd] at g3
      have hk : p.1 = c.chain := by
        apply hdom
        show (s p.1).config.localDomain = (s c.chain).config.localDomain
        rw [← g3, ← h8]
        apply UInt32.toNat_inj.1
        rw [← g2.dest, ← h7.dest]
      rw [hk] at g4
      obtain ⟨n1, _⟩ := deliveries_chain hc
      have : processedIds H (on c.chain ((c, r) :: t)) = H b :: processedIds H (on c.chain t) := by
        unfold on processedIds
        rw [List.filterMap_cons]
        simp only [if_true]
        rw [List.filterMap_cons]
        simp [h4]
      rw [this, List.nodup_cons] at n1
      exact n1.1 g4

open Network in
theorem netAnnounced_chain {s s' : κ → State} {log : NetLog κ} (h : Tx.Chain (Network.step H C) s log s') :
    ∀ b ∈ netAnnounced log, ∃ k m, WireFormat m b ∧ m.origin = (s k).config.localDomain ∧
      (s k).nonce.toNat ≤ m.nonce.toNat := by
  induction log generalizing s with
  | nil => intro b hb; simp [netAnnounced, announced] at hb
  | cons e t ih =>
    obtain ⟨c, r⟩ := e
    obtain ⟨m, h1, h2⟩ := h
    obtain ⟨m', h3, rfl⟩ := step_ok.1 h1
    have hone := announced_chain (log := [(c.call, r)])
      (show Tx.Chain (execute H (C c.chain)) (s c.chain) _ m' from ⟨m', h3, rfl⟩)
    intro b hb
    have hb' : b ∈ netAnnounced [(c, r)] ∨ b ∈ netAnnounced t := by
      rw [← List.mem_append]
      simpa [netAnnounced, announced] using hb
    rcases hb' with hb' | hb'
    · have : netAnnounced [(c, r)] = announced [(c.call, r)] := by simp [netAnnounced, announced]
      rw [this] at hb'
      obtain ⟨k, hk⟩ := List.mem_iff_getElem?.1 hb'
      obtain ⟨dm, w1, w2, _, w4⟩ := hone.2.2.2.2.1 k b hk
      exact ⟨c.chain, dm, w1, w4, by omega⟩
    · obtain ⟨k, dm, w1, w2, w3⟩ := ih h2 b hb'
      refine ⟨k, dm, w1, ?_, ?_⟩
      · by_cases hk : k = c.chain
        · subst hk
          rw [Function.update_self] at w2
          rw [w2, domain_step h3]
        · rw [Function.update_of_ne hk] at w2
          exact w2
      · by_cases hk : k = c.chain
        · subst hk
          rw [Function.update_self] at w3
          have := hone.1
          omega
        · rw [Function.update_of_ne hk] at w3
          exact w3

open Network in
theorem netAnnounced_nodup {s s' : κ → State} {log : NetLog κ} (h : Tx.Chain (Network.step H C) s log s')
    (hdom : Function.Injective (fun k => (s k).config.localDomain)) : (netAnnounced log).Nodup := by
  induction log generalizing s with
  | nil => simp [netAnnounced, announced]
  | cons e t ih =>
    obtain ⟨c, r⟩ := e
    obtain ⟨m, h1, h2⟩ := h
    obtain ⟨m', h3, rfl⟩ := step_ok.1 h1
    have hd : ∀ k, (Function.update s c.chain m' k).config.localDomain =
        (s k).config.localDomain := by
      intro k
      by_cases hk : k = c.chain
      · rw [hk, Function.update_self]
        exact domain_step h3
      · rw [Function.update_of_ne hk]
    have h5 := ih h2 (by simpa only [hd] using hdom)
    have hone := announced_chain (log := [(c.call, r)])
      (show Tx.Chain (execute H (C c.chain)) (s c.chain) _ m' from ⟨m', h3, rfl⟩)
    have hs : netAnnounced ((c, r) :: t) = announced [(c.call, r)] ++ netAnnounced t := by
      simp [netAnnounced, announced]
    rw [hs]
    rw [List.nodup_append]
    have hlen : (announced [(c.call, r)]).length ≤ 1 := by
      rw [← hone.2.1]
      unfold dispatches
      exact List.length_filter_le _ _
    refine ⟨?_, h5, ?_⟩
    · match announced [(c.call, r)], hlen with
      | [], _ => simp
      | [x], _ => simp
    · intro b hb b' hb' hbb
      subst hbb
      obtain ⟨i, hi⟩ := List.mem_iff_getElem?.1 hb
      obtain ⟨dm, w1, w2, _, w4⟩ := hone.2.2.2.2.1 i b hi
      obtain ⟨k, dm', v1, v2, v3⟩ := netAnnounced_chain h2 b hb'
      rw [hd] at v2
      have ho : dm.origin = dm'.origin := by
        apply UInt32.toNat_inj.1
        rw [← w1.origin, ← v1.origin]
      have hk : k = c.chain := hdom (by
        show (s k).config.localDomain = (s c.chain).config.localDomain
        rw [← v2, ← w4, ho])
      subst hk
      rw [Function.update_self] at v3
      have hn : dm.nonce.toNat = dm'.nonce.toNat := by rw [← w1.nonce, ← v1.nonce]
      have hz : i < (announced [(c.call, r)]).length := by
        rw [List.getElem?_eq_some_iff] at hi
        exact hi.1
      have := hone.1
      omega

/-- **C67.** Any number of chains with different domains, in any states, and any history of transactions on them, with
arbitrary nesting, reentrancy, aborts and caught failures. Every handler call that is not rolled back was caused by
submitting a message which is for the domain of the chain it happened on. In the whole network no message is handed over
twice. No two dispatches in the whole network announce the same message. -/
theorem C67_network_at_most_once (s0 : κ → State)
    (hdom : Function.Injective (fun k => (s0 k).config.localDomain))
    (txs : List (List (Tx.Act (Network.Call κ)))) :
    let log := (Tx.history (Network.step H C) s0 txs).2
    (∀ p ∈ netHanded log, ∃ b m, p.2.1 = some b ∧ WireFormat m b ∧
      m.dest = (s0 p.1).config.localDomain) ∧
    ((netHanded log).map (fun p => p.2.1)).Nodup ∧
    (netAnnounced log).Nodup := by
  intro log
  have h := Tx.history_chain (Network.step H C) s0 txs
  refine ⟨?_, netHanded_nodup h hdom, netAnnounced_nodup h hdom⟩
  intro p hp
  obtain ⟨b, m, h1, h2, h3, _⟩ := netHanded_chain h p hp
  exact ⟨b, m, h1, h2, h3⟩

end

namespace Ex

/-- Two chains, with domains 1 and 2. -/
def net : Bool → State
  | true => s1
  | false => { s1 with config := { s1.config with localDomain := 2 } }

/-- Messages from each chain to the other, submitted everywhere and twice. -/
def netTxs : List (List (Tx.Act (Network.Call Bool))) :=
  let send (k : Bool) (d : UInt32) : Tx.Act (Network.Call Bool) :=
    .call ⟨k, call [⟨"uosmo", 9⟩, ⟨"uatom", 1⟩] (.dispatch { request with dest := d })⟩ []
  let m1 : Message := { message with dest := 2 }
  let m2 : Message := { message with origin := 2 }
  let put (k : Bool) (m : Message) : Tx.Act (Network.Call Bool) :=
    .call ⟨k, call [] (.process [] m.encode)⟩ []
  [[send true 2], [send false 1], [put true m1], [put false m1], [put false m1], [put true m2, put true m2],
    [put true m2], [put false m2]]

end Ex

/-- Two messages announced and two handed over, one on each chain, though messages were submitted seven times. -/
example : Function.Injective (fun k => (Ex.net k).config.localDomain) ∧
    (netAnnounced (Tx.history (Network.step toyHash (fun _ => Bech.codec)) Ex.net Ex.netTxs).2).length = 2 ∧
    (netHanded (Tx.history (Network.step toyHash (fun _ => Bech.codec)) Ex.net Ex.netTxs).2).map Prod.fst =
      [false, true] := by
  refine ⟨?_, by decide +kernel, by decide +kernel⟩
  intro a b h
  cases a <;> cases b <;> first | rfl | (revert h; decide)

/-! ## Exactly when dispatching and processing succeed -/

section

variable {H : Bytes → Bytes} {C : Codec}

/-- **C68** (processing). In any state and for any caller, submitting metadata and message bytes succeeds exactly if the
bytes are a version 3 message for the local domain that was not delivered before, its recipient can be written as an
address, a default ISM is set, and the ISM responsible for the recipient approves. Who submits and with which coins makes
no difference to the outcome. -/
theorem C68_process_iff {s : State} {c : Call} {metadata message : Bytes}
    (hc : c.msg = .process metadata message) :
    ((∃ x, execute H C s c = .ok x) ↔
      ∃ m recipient ism, WireFormat m message ∧ m.version = 3 ∧ m.dest = s.config.localDomain ∧
        getDelivered s (H message) = false ∧
        bech32Encode C s.config.hrp m.recipient = .ok recipient ∧
        s.config.defaultIsm ≠ none ∧ ResponsibleIsm c.env s recipient ism ∧
        c.env.verify ism metadata message = .ok true) ∧
    (∀ sender funds, (execute H C s { c with sender := sender, funds := funds }).map Prod.snd =
      (execute H C s c).map Prod.snd) := by
  constructor
  · constructor
    · rintro ⟨⟨s', r⟩, h⟩
      unfold execute at h
      rw [hc] at h
      obtain ⟨m, rc, named, dflt, h1, h2, h3, h4, h5, h6, h7, h8, _, _⟩ := process_ok.1 h
      refine ⟨m, rc, named.getD dflt, wireFormat_of_decode h1, h3, h4, h7, h2, by simp [h6], ?_, h8⟩
      unfold ResponsibleIsm
      cases named with
      | some a => exact .inl h5
      | none => exact .inr ⟨h5, h6⟩
    · rintro ⟨m, rc, ism, h1, h3, h4, h7, h2, h6, h5, h8⟩
      obtain ⟨dflt, h6⟩ := Option.ne_none_iff_exists'.1 h6
      have hd := decode_of_wireFormat h1
      unfold execute
      rw [hc]
      rcases h5 with h5 | ⟨h5, h9⟩
      · exact ⟨(_, _), process_ok.2 ⟨m, rc, some ism, dflt, hd, h2, h3, h4, h5, h6, h7, h8, rfl, rfl⟩⟩
      · rw [h6] at h9
        cases h9
        exact ⟨(_, _), process_ok.2 ⟨m, rc, none, ism, hd, h2, h3, h4, h5, h6, h7, h8, rfl, rfl⟩⟩
  · intro sender funds
    unfold execute
    simp only [hc]
    unfold process
    cases Message.decode message with
    | error e => rfl
    | ok m =>
      simp only [ok_bind]
      cases bech32Encode C s.config.hrp m.recipient with
      | error e => rfl
      | ok rc =>
        simp only [ok_bind]
        cases ensure (decide (m.version = version)) "invalid message version" with
        | error e => rfl
        | ok _ =>
          simp only [ok_bind]
          cases ensure (decide (m.dest = s.config.localDomain)) "invalid destination domain" with
          | error e => rfl
          | ok _ =>
            simp only [ok_bind]
            cases c.env.recipientIsm rc with
            | error e => rfl
            | ok named =>
              simp only [ok_bind]
              cases expectSet s.config.defaultIsm with
              | error e => rfl
              | ok dflt =>
                simp only [ok_bind]
                cases ensure (!s.deliveries.has (m.id H)) "message already delivered" with
                | error e => rfl
                | ok _ =>
                  simp only [ok_bind]
                  cases c.env.verify (named.getD dflt) metadata m.encode with
                  | error e => rfl
                  | ok v =>
                    simp only [ok_bind]
                    cases ensure v "verify failed" with
                    | error e => rfl
                    | ok _ => rfl

/-- The conditions hold for the message of the examples. -/
example : ∃ (s : State) (c : Call) (metadata message : Bytes) (m : Message) (recipient ism : Addr),
    c.msg = .process metadata message ∧
    WireFormat m message ∧ m.version = 3 ∧ m.dest = s.config.localDomain ∧
    getDelivered s (toyHash message) = false ∧
    bech32Encode Bech.codec s.config.hrp m.recipient = .ok recipient ∧
    s.config.defaultIsm ≠ none ∧ ResponsibleIsm c.env s recipient ism ∧
    c.env.verify ism metadata message = .ok true := by
  obtain ⟨m, rc, ism, h⟩ := (C68_process_iff (H := toyHash) (C := Bech.codec) (s := Ex.s1)
    (c := Ex.call [] (.process [] Ex.message.encode)) rfl).1.1 Ex.process_ok
  exact ⟨_, _, _, _, m, rc, ism, rfl, h⟩

/-- **C68** (dispatching). In any state and for any caller, a dispatch succeeds exactly if the recipient has 32 bytes, the
caller's address can be decoded, both hooks are set, the hook named in the request (if any) is a valid address, the
required hook quotes, no denomination is attached twice, the attached coins cover the quote, and nonces are not used
up. -/
theorem C68_dispatch_iff {s : State} {c : Call} {q : DispatchMsg} (hc : c.msg = .dispatch q) :
    (∃ x, execute H C s c = .ok x) ↔
      q.recipient.length = 32 ∧ s.config.defaultHook ≠ none ∧
      (∀ a, q.hook = some a → c.env.valid a = true) ∧ s.nonce.toNat < 2 ^ 32 - 1 ∧
      DistinctDenoms c.funds ∧
      ∃ h32 required fees m b, bech32ToH256 C c.sender = .ok h32 ∧
        s.config.requiredHook = some required ∧
        WireFormat m b ∧ m.version = 3 ∧ m.nonce = s.nonce ∧ m.origin = s.config.localDomain ∧
        m.sender = h32 ∧ m.dest = q.dest ∧ m.recipient = q.recipient ∧ m.body = q.body ∧
        c.env.quote required (q.metadata.getD []) b = .ok fees ∧
        ∀ d, amountOf d fees ≤ amountOf d c.funds := by
  constructor
  · rintro ⟨⟨s', r⟩, h⟩
    have h0 := h
    unfold execute at h
    rw [hc] at h
    obtain ⟨h32, dflt, hook, required, fees, attached, rest, n, hr, hb, k3, k4, k5, k6, k7,
      k8, hn, _, _⟩ := dispatch_ok.1 h
    have hlt := n.toNat_lt
    have hd := Coins.tryFrom_isOk.1 ⟨_, k7⟩
    have hval : ∀ a, q.hook = some a → c.env.valid a = true := by
      intro a ha
      unfold getHookAddr at k4
      rw [ha] at k4
      obtain ⟨_, k, _⟩ := bind_eq_ok.1 k4
      exact ensure_eq_ok.1 k
    refine ⟨hr, by simp [k3], hval, by omega, hd, h32, required, fees,
      ⟨3, s.nonce, s.config.localDomain, h32, q.dest, q.recipient, q.body⟩, _, hb, k5,
      wireFormat_of_decode (Message.decode_encode _ (length_bech32ToH256 hb) hr),
      rfl, rfl, rfl, rfl, rfl, rfl, rfl, k6, ?_⟩
    exact (C22_payment_check hc hr hb k3 hval k5 k6 (by omega) hd).1.1 ⟨_, h0⟩
  · rintro ⟨h1, h2, h3, h4, h5, h32, required, fees, m, b, g1, g2, g3, g4, g5, g6, g7, g8, g9, g10,
      g11, g12⟩
    obtain ⟨dflt, h2⟩ := Option.ne_none_iff_exists'.1 h2
    have hm : m = ⟨3, s.nonce, s.config.localDomain, h32, q.dest, q.recipient, q.body⟩ := by
      cases m
      simp only at g4 g5 g6 g7 g8 g9 g10
      rw [g4, g5, g6, g7, g8, g9, g10]
    have hb := (Message.decode_eq_ok.1 (decode_of_wireFormat g3)).1
    subst hm
    rw [← hb] at g11
    exact (C22_payment_check hc h1 g1 h2 h3 g2 g11 (by omega) h5).1.2 g12

/-- The conditions hold for the request of the examples. -/
example : ∃ x, execute toyHash Bech.codec Ex.s1
    (Ex.call [⟨"uosmo", 9⟩, ⟨"uatom", 1⟩] (.dispatch Ex.request)) = .ok x := Ex.dispatch_ok

/-- **C68** (addresses). With bech32 addresses and a prefix of lower-case letters that is neither empty nor longer than
83 characters, every recipient can be written as an address. -/
theorem C68_recipient_total {hrp : String} (h1 : hrp.toList ≠ []) (h2 : hrp.toList.length ≤ 83)
    (h3 : ∀ c ∈ hrp.toList, 'a' ≤ c ∧ c ≤ 'z') (raw : Bytes) (hraw : raw.length = 32) :
    ∃ a, bech32Encode Bech.codec hrp raw = .ok a := by
  have h4 : ∀ c ∈ hrp.toList, 97 ≤ c.toNat ∧ c.toNat ≤ 122 := fun c hc => h3 c hc
  have h5 : ∀ r, ∃ a, Bech.codec.enc hrp r = some a := fun r => by
    apply C08_bech32_total hrp r h1 h2 (fun c hc => by have := h4 c hc; omega)
    rintro ⟨_, c, hc, hu⟩
    have h6 := h4 c hc
    simp only [Char.isUpper, decide_eq_true_eq, UInt32.le_iff_toNat_le] at hu
    have : c.val.toNat ≤ 90 := hu.2
    have : c.toNat = c.val.toNat := rfl
    omega
  unfold bech32Encode
  rw [if_neg (by omega)]
  obtain ⟨a, ha⟩ := h5 (if raw.length = 32 ∧ raw.take 12 = zeros 12 then raw.drop 12 else raw)
  exact ⟨a, by simp only [ha]⟩

example : "osmo".toList ≠ [] ∧ "osmo".toList.length ≤ 83 ∧ ∀ c ∈ "osmo".toList, 'a' ≤ c ∧ c ≤ 'z' := by
  decide

end

end Hpl
