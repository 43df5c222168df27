import Verif.Props.BridgeLive
import Verif.Props.TokenNet

/-! # Transfers in networks arrive: C82 -/

namespace Hpl.TokenNet

open Spec Bridge

variable {κ : Type} [DecidableEq κ]

theorem deliveredAt_append (x : κ) (a b : TokenLog κ) : deliveredAt x (a ++ b) = deliveredAt x a ++ deliveredAt x b := by
  simp [deliveredAt]

/-- Only what is submitted is marked as delivered. -/
theorem step_deliveries {H : Bytes → Bytes} {P : κ → Setup} {s s' : κ → Chain} {a : Act κ} {o : Out}
    (h : step H P s a = .ok (s', o)) {y : κ} {i : Bytes} (hi : (s' y).box.deliveries.has i = true) :
    (s y).box.deliveries.has i = true ∨ ∃ m ∈ deliveredAt y [(a, o)], H m = i := by
  cases a with
  | gift x n =>
    cases h
    by_cases hy : y = x
    · subst hy; rw [Function.update_self] at hi; exact .inl hi
    · rw [Function.update_of_ne hy] at hi; exact .inl hi
  | burn x n =>
    obtain ⟨t, _, hf⟩ := bind_eq_ok.1 h
    cases hf
    by_cases hy : y = x
    · subst hy; rw [Function.update_self] at hi; exact .inl hi
    · rw [Function.update_of_ne hy] at hi; exact .inl hi
  | router x c env =>
    obtain ⟨z, h1, hf⟩ := bind_eq_ok.1 h
    cases hf
    by_cases hy : y = x
    · subst hy; rw [Function.update_self, callRouter_deliveries h1] at hi; exact .inl hi
    · rw [Function.update_of_ne hy] at hi; exact .inl hi
  | mailbox x c =>
    obtain ⟨⟨b, resp⟩, h1, h⟩ := bind_eq_ok.1 h
    obtain ⟨z, h2, hf⟩ := bind_eq_ok.1 h
    cases hf
    by_cases hy : y = x
    · subst hy
      rw [Function.update_self, deliver_deliveries h2] at hi
      simp only at hi
      rcases Mailbox.execute_cases h1 with ⟨m, ow, e1, e2, rfl, rfl⟩ | ⟨ad, e1, e2, e3, rfl, rfl⟩ |
        ⟨ad, e1, e2, e3, rfl, rfl⟩ | ⟨ad, e1, e2, e3, rfl, rfl⟩ | ⟨q, e1, e2⟩ | ⟨md, m, e1, e2⟩
      · exact .inl hi
      · exact .inl hi
      · exact .inl hi
      · exact .inl hi
      · obtain ⟨_, _, _, _, e, _⟩ := dispatch_effect e2
        rw [e] at hi; exact .inl hi
      · obtain ⟨msg, recipient, named, dflt, g1, g2, g3, g4, g5, g6, g7, g8, rfl, rfl⟩ := Mailbox.process_ok.1 e2
        rw [OMap.has_insert] at hi
        simp only [Bool.or_eq_true, decide_eq_true_eq] at hi
        rcases hi with hi | hi
        · refine .inr ⟨m, ?_, hi.symm⟩
          obtain ⟨c1, c2, c3, c4⟩ := c
          simp only at e1
          subst e1
          simp [deliveredAt, chainOf, submittedTo]
        · exact .inl hi
    · rw [Function.update_of_ne hy] at hi; exact .inl hi

theorem chain_deliveries {H : Bytes → Bytes} {P : κ → Setup} {s0 : κ → Chain} {y : κ} {i : Bytes} (log : TokenLog κ) :
    ∀ s, Tx.Chain (step H P) s0 log s → (s y).box.deliveries.has i = true →
      (s0 y).box.deliveries.has i = true ∨ ∃ m ∈ deliveredAt y log, H m = i := by
  induction log using List.reverseRecOn with
  | nil => intro s h hi; simp only [Tx.Chain] at h; subst h; exact .inl hi
  | append_singleton log e ih =>
    intro s' h hi
    obtain ⟨s, k1, k2⟩ := Tx.Chain.snoc.1 h
    rcases step_deliveries (o := e.2) k2 hi with hi | ⟨m, hm, he⟩
    · rcases ih s k1 hi with hi | ⟨m, hm, he⟩
      · exact .inl hi
      · exact .inr ⟨m, by rw [deliveredAt_append]; exact List.mem_append_left _ hm, he⟩
    · exact .inr ⟨m, by rw [deliveredAt_append]; exact List.mem_append_right _ hm, he⟩

/-- The message of a transfer in a log. -/
theorem transfer_message {H : Bytes → Bytes} {P : κ → Setup} {r : κ → Bytes} {d : κ → UInt32} {M : κ → Warp.Mode}
    {s s' : κ → Chain} {x : κ} {c : ExecCall (Addr → Bool) Warp.Msg} {env : Mailbox.Env} {o : Out}
    {dest : UInt32} {recipient : Bytes} {amount : Nat} {hook : Option Addr} {md : Option Bytes}
    (hj : Joined P r d M s) (h : step H P s (.router x c env) = .ok (s', o))
    (hc : c.msg = .inr (.transferRemote dest recipient amount hook md)) :
    amount < 2 ^ 128 ∧ ∃ z, dest = d z ∧ ∃ n, o.mailbox.flatMap dispatchedIn =
      [Message.encode ⟨3, n, d x, r x, d z, r z, recipient ++ u256be amount⟩] := by
  obtain ⟨⟨c', rr, mr⟩, h1, hf⟩ := bind_eq_ok.1 h
  cases hf
  obtain ⟨e, sender, funds, msg⟩ := c
  simp only at hc
  subst hc
  obtain ⟨f1, f2, f3, ⟨router, f4, f5, f6⟩, f7, f8, f9⟩ :=
    callRouter_transfer h1 (hj.token x) (hj.mailbox x) (hj.identity x)
  obtain ⟨z, hz1, hz2⟩ := hj.routes x dest router f4
  refine ⟨f7, z, hz1, (s x).box.nonce, ?_⟩
  rw [← hz1, ← hz2, ← hj.domain x]
  exact f6

/-- C82, and the amount is in transit. -/
theorem transfer_arrives [Fintype κ] (H : Bytes → Bytes) (P : κ → Setup) (r : κ → Bytes) (d : κ → UInt32)
    (M : κ → Warp.Mode) (s0 : κ → Chain) (txs : List (List (Tx.Act (Act κ)))) (hj : Joined P r d M s0)
    (htok : ∀ x, (P x).token ≠ (P x).mailbox)
    (h0 : totalBridged M s0 ≤ totalCollateral M s0) (hh : HonestNet P r d (Tx.history (step H P) s0 txs).2)
    (hr : RecipientsNet (· ≤ 32) (Tx.history (step H P) s0 txs).2)
    {x : κ} {c : ExecCall (Addr → Bool) Warp.Msg} {env : Mailbox.Env} {o : Out} {dest : UInt32} {recipient : Bytes}
    {amount : Nat} {hook : Option Addr} {md : Option Bytes}
    (he : (Act.router x c env, o) ∈ (Tx.history (step H P) s0 txs).2)
    (hc : c.msg = .inr (.transferRemote dest recipient amount hook md)) (hlen : recipient.length = 32) :
    ∃ z m, dest = d z ∧ o.mailbox.flatMap dispatchedIn = [m] ∧
      ∀ (call : Mailbox.Call) (metadata : Bytes) (ism dst : Addr),
        call.msg = .process metadata m →
        m ∉ deliveredAt z (Tx.history (step H P) s0 txs).2 → (s0 z).box.deliveries.has (H m) = false →
        ((Tx.history (step H P) s0 txs).1 z).box.config.defaultIsm ≠ none →
        ResponsibleIsm call.env ((Tx.history (step H P) s0 txs).1 z).box (P z).router ism →
        call.env.verify ism metadata m = .ok true →
        bech32Encode (P z).codec ((Tx.history (step H P) s0 txs).1 z).router.2.hrp recipient = .ok dst →
        Router.getRoute ((Tx.history (step H P) s0 txs).1 z).router.2.routes (d x) = some (r x) →
        (M z = .collateral → ∀ y, M y = .collateral → y = z) →
        (∃ s' o', step H P (Tx.history (step H P) s0 txs).1 (.mailbox z call) = .ok (s', o') ∧
          o'.router.msgs = payout (P z) (M z) dst amount ∧
          amount ≤ inTransit r (Tx.history (step H P) s0 txs).2) ∨
        ∃ m' ∈ deliveredAt z (Tx.history (step H P) s0 txs).2, m' ≠ m ∧ H m' = H m := by
  have hchain := Tx.history_chain (step H P) s0 txs
  have hback := (C81_network_backing H P r d M s0 txs hj h0 hh hr).1
  have I := inv_chain (Q := (· ≤ 32)) (fun _ h => h) hj _ _ hchain hh hr
  generalize Tx.history (step H P) s0 txs = hist at *
  obtain ⟨s, log⟩ := hist
  simp only at *
  obtain ⟨pre, post, hsplit⟩ := List.append_of_mem he
  rw [hsplit] at hchain
  obtain ⟨s1, g1, s2, g2, _⟩ := Tx.Chain.split hchain
  have I1 := inv_chain (Q := (· ≤ 32)) (fun _ h => h) hj pre s1 g1 (honest_prefix (hsplit ▸ hh))
    (fun e he => hr e (by rw [hsplit]; exact List.mem_append_left _ he))
  obtain ⟨hamt, z, hdst, n, hm⟩ := transfer_message I1.joined g2 hc
  rw [← hsplit] at hchain
  refine ⟨z, _, hdst, hm, ?_⟩
  have hwf := (C01_message_layout ⟨3, n, d x, r x, d z, r z, recipient ++ u256be amount⟩
    (Mailbox.length_bech32ToH256 (hj.identity x)) (Mailbox.length_bech32ToH256 (hj.identity z)) _).1 rfl
  generalize hmm : Message.encode ⟨3, n, d x, r x, d z, r z, recipient ++ u256be amount⟩ = m at hwf hm
  intro call metadata ism dst hcall hnot hfresh hdef hism hver hacc hroute hcoll
  by_cases hcol : ∃ m' ∈ deliveredAt z log, m' ≠ m ∧ H m' = H m
  · exact .inr hcol
  left
  have hundel : (s z).box.deliveries.has (H m) = false := by
    cases hd : (s z).box.deliveries.has (H m) with
    | false => rfl
    | true =>
      exfalso
      rcases chain_deliveries log s hchain hd with h | ⟨m', h1, h2⟩
      · rw [hfresh] at h; cases h
      · by_cases hmm' : m' = m
        · rw [hmm'] at h1; exact hnot h1
        · exact hcol ⟨m', h1, hmm', h2⟩
  have hbody : amountIn m = amount ∧ fromBE (bytesOf 32 64 (recipient ++ u256be amount)) = amount ∧
      bytesOf 0 32 (recipient ++ u256be amount) = recipient ∧ (recipient ++ u256be amount).length = 64 := by
    obtain ⟨b1, b2, b3⟩ := transfer_body hlen hamt
    refine ⟨?_, b3, b2, b1⟩
    unfold amountIn
    rw [hwf.body]
    exact b3
  obtain ⟨b1, b2, b3, b4⟩ := hbody
  have hsent : m ∈ sentInNet r log := by
    refine List.mem_flatMap.2 ⟨_, he, List.mem_filter.2 ⟨by rw [hm]; simp, ?_⟩⟩
    have : senderOf m = r x := hwf.sender
    simp [chainOf, this]
  have hnowhere : m ∉ deliveredInNet log := by
    intro hd
    obtain ⟨z', i1, i2, _⟩ := I.delivered m hd
    have : z' = z := hj.domains (i1.symm.trans (destOf_eq hwf))
    subst this
    rw [hundel] at i2
    cases i2
  have hle : amount ≤ inTransit r log := by
    rw [inTransit_eq, ← b1]
    exact le_pending hsent hnowhere
  have hpay : (s z).router.2.mode = .collateral → amount ≤ (s z).held := by
    intro hmode
    rw [I.joined.mode z] at hmode
    have htot : totalCollateral M s = (s z).held := by
      unfold totalCollateral
      rw [Finset.sum_eq_single z]
      · rw [if_pos hmode]
      · intro y _ hy
        rw [if_neg (fun h => hy (hcoll hmode y h))]
      · intro h; exact absurd (Finset.mem_univ z) h
    omega
  -- the mailbox
  have hdec := decode_of_wireFormat hwf
  obtain ⟨dflt, hdf⟩ := Option.ne_none_iff_exists'.1 hdef
  have hproc : ∃ named, call.env.recipientIsm (P z).router = .ok named ∧ named.getD dflt = ism := by
    rcases hism with h | ⟨h, h'⟩
    · exact ⟨some ism, h, rfl⟩
    · rw [hdf] at h'
      cases h'
      exact ⟨none, h, rfl⟩
  obtain ⟨named, hn1, hn2⟩ := hproc
  have hex : Mailbox.execute H (P z).codec (s z).box call =
      Mailbox.process H (P z).codec call.env (s z).box call.sender metadata m := by
    unfold Mailbox.execute
    rw [hcall]
  rw [Mailbox.process_ok.2 ⟨_, (P z).router, named, dflt, hdec, I.joined.address z, rfl,
      (I.joined.domain z).symm, hn1, hdf, hundel, by rw [hn2]; exact hver, rfl, rfl⟩] at hex
  obtain ⟨c', hlive⟩ := callRouter_handle_live (H := H) (p := P z) (env := call.env)
    (c := { s z with box := { (s z).box with
      deliveries := (s z).box.deliveries.insert (H m) ⟨call.sender, call.env.height⟩ } })
    (e := call.env.valid) (origin := d x) (ms := r x) (body := recipient ++ u256be amount) (dst := dst)
    (I.joined.token z) (I.joined.mailbox z) (htok z) hroute (by rw [b4])
    (by rw [b3]; exact hacc) (by rw [b2]; exact hamt) (by rw [b2]; exact hpay)
  rw [b2] at hlive
  simp only [I.joined.mode z] at hlive
  have hq : ∃ q : Mailbox.State × Response, Mailbox.execute H (P z).codec (s z).box call = .ok q ∧
      q.1 = { (s z).box with
        deliveries := (s z).box.deliveries.insert (H m) ⟨call.sender, call.env.height⟩ } ∧
      q.2.msgs = [.execute (P z).router (.handle (d x) (r x) (recipient ++ u256be amount)) []] :=
    ⟨_, hex, rfl, rfl⟩
  obtain ⟨q, q1, q2, q3⟩ := hq
  refine ⟨Function.update s z c', ⟨{ msgs := payout (P z) (M z) dst amount }, [q.2]⟩,
    bind_eq_ok.2 ⟨q, q1, bind_eq_ok.2 ⟨(c', { msgs := payout (P z) (M z) dst amount }, []),
      ?_, rfl⟩⟩, rfl, hle⟩
  rw [q2, q3]
  simp only [deliver, if_true]
  exact hlive

/-- **C82.** In a network as in C81 a transfer of `amount` to an account of 32 bytes announced one message for a chain `z`
of the network. As long as it was not delivered, anybody can deliver it, if the module responsible for the router of `z`
approves it, that router knows the sending router, and it creates tokens or is the only one holding collateral. The
delivery succeeds and pays exactly `amount` to that account, whatever happened in between; unless another message with
the same hash was delivered on `z` before. -/
theorem C82_network_transfer_arrives [Fintype κ] (H : Bytes → Bytes) (P : κ → Setup) (r : κ → Bytes) (d : κ → UInt32)
    (M : κ → Warp.Mode) (s0 : κ → Chain) (txs : List (List (Tx.Act (Act κ)))) (hj : Joined P r d M s0)
    (htok : ∀ x, (P x).token ≠ (P x).mailbox)
    (h0 : totalBridged M s0 ≤ totalCollateral M s0) (hh : HonestNet P r d (Tx.history (step H P) s0 txs).2)
    (hr : RecipientsNet (· ≤ 32) (Tx.history (step H P) s0 txs).2)
    {x : κ} {c : ExecCall (Addr → Bool) Warp.Msg} {env : Mailbox.Env} {o : Out} {dest : UInt32} {recipient : Bytes}
    {amount : Nat} {hook : Option Addr} {md : Option Bytes}
    (he : (Act.router x c env, o) ∈ (Tx.history (step H P) s0 txs).2)
    (hc : c.msg = .inr (.transferRemote dest recipient amount hook md)) (hlen : recipient.length = 32) :
    ∃ z m, dest = d z ∧ o.mailbox.flatMap dispatchedIn = [m] ∧
      ∀ (call : Mailbox.Call) (metadata : Bytes) (ism dst : Addr),
        call.msg = .process metadata m →
        m ∉ deliveredAt z (Tx.history (step H P) s0 txs).2 → (s0 z).box.deliveries.has (H m) = false →
        ((Tx.history (step H P) s0 txs).1 z).box.config.defaultIsm ≠ none →
        ResponsibleIsm call.env ((Tx.history (step H P) s0 txs).1 z).box (P z).router ism →
        call.env.verify ism metadata m = .ok true →
        bech32Encode (P z).codec ((Tx.history (step H P) s0 txs).1 z).router.2.hrp recipient = .ok dst →
        Router.getRoute ((Tx.history (step H P) s0 txs).1 z).router.2.routes (d x) = some (r x) →
        (M z = .collateral → ∀ y, M y = .collateral → y = z) →
        (∃ s' o', step H P (Tx.history (step H P) s0 txs).1 (.mailbox z call) = .ok (s', o') ∧
          o'.router.msgs = payout (P z) (M z) dst amount) ∨
        ∃ m' ∈ deliveredAt z (Tx.history (step H P) s0 txs).2, m' ≠ m ∧ H m' = H m := by
  obtain ⟨z, m, h1, h2, h3⟩ := transfer_arrives H P r d M s0 txs hj htok h0 hh hr he hc hlen
  refine ⟨z, m, h1, h2, fun call metadata ism dst g1 g2 g3 g4 g5 g6 g7 g8 g9 => ?_⟩
  rcases h3 call metadata ism dst g1 g2 g3 g4 g5 g6 g7 g8 g9 with ⟨s', o', k1, k2, _⟩ | h
  · exact .inl ⟨s', o', k1, k2⟩
  · exact .inr h

namespace Tour

open Ex.Net

/-- The message of the last transfer of the tour. -/
def last : Bytes := transferMsg 2 1 1 Ex.aliceId 5

theorem last_sent : ((result.2[10]?).map (fun e => e.2.mailbox.flatMap dispatchedIn)) = some [last] := by decide +kernel

theorem last_open : last ∉ deliveredAt 1 result.2 := by decide +kernel

theorem last_unlike : ∀ m ∈ deliveredAt 1 result.2, toyHash m ≠ toyHash last := by decide +kernel

theorem chain_one : (result.1 1).box.config.defaultIsm = some "ism" ∧
    bech32Encode Bech.codec (result.1 1).router.2.hrp Ex.aliceId = .ok Ex.alice ∧
    Router.getRoute (result.1 1).router.2.routes (dom 2) = some (rid 2) := by decide +kernel

theorem approved (ism : Addr) (md m : Bytes) : Ex.freeEnv.verify ism md m = .ok true := rfl

theorem last_pays : ((step toyHash setup result.1 (relay 1 last)).toOption.map (fun q => q.2.router.msgs)) =
    some [.execute "cw" (.cw20Mint Ex.alice 5) []] := by decide +kernel

/-- The last transfer of the tour, from chain 2 to chain 1, was not delivered, and everything needed to deliver it is
there: it pays 5 tokens to alice. -/
example : Joined setup rid dom hub (start hub) ∧ (∀ x, (setup x).token ≠ (setup x).mailbox) ∧
    totalBridged hub (start hub) ≤ totalCollateral hub (start hub) ∧
    let h := Tx.history (step toyHash setup) (start hub) (tour.map (fun a => [.call a []]))
    HonestNet setup rid dom h.2 ∧ RecipientsNet (· = 32) h.2 ∧
    ((h.2[10]?).map (fun e => e.2.mailbox.flatMap dispatchedIn)) = some [last] ∧ last ∉ deliveredAt 1 h.2 ∧
    ((h.1 1).box.config.defaultIsm = some "ism" ∧
      bech32Encode Bech.codec (h.1 1).router.2.hrp Ex.aliceId = .ok Ex.alice ∧
      Router.getRoute (h.1 1).router.2.routes (dom 2) = some (rid 2)) ∧
    ResponsibleIsm Ex.freeEnv (h.1 1).box (setup 1).router "ism" ∧ Ex.freeEnv.verify "ism" [] last = .ok true ∧
    hub 1 = .bridged ∧ (∀ m ∈ deliveredAt 1 h.2, toyHash m ≠ toyHash last) ∧
    ((step toyHash setup h.1 (relay 1 last)).toOption.map (fun q => q.2.router.msgs)) =
      some [.execute "cw" (.cw20Mint Ex.alice 5) []] := by
  refine ⟨start_joined _, by decide +kernel, by decide +kernel, ?_⟩
  rw [result_eq]
  refine ⟨honest, recipients, last_sent, last_open, chain_one, .inr ⟨rfl, chain_one.1⟩, approved _ _ _, rfl, last_unlike,
    last_pays⟩

/-- All three routers hold collateral. -/
def pools (_ : Fin 3) : Warp.Mode := .collateral

/-- The state and the log after alice locked 100 tokens on chain 0 for chain 2. -/
def stuck : (Fin 3 → Chain) × List (Tx.Entry (Act (Fin 3)) Out) := play (step toyHash setup) (start pools) [send 0 2 100]

/-- The message of that transfer. -/
def stuckMsg : Bytes := transferMsg 0 0 2 Ex.aliceId 100

theorem stuck_eq : Tx.history (step toyHash setup) (start pools) [[.call (send 0 2 100) []]] = stuck :=
  history_play (l := [send 0 2 100]) (by decide +kernel)

theorem stuck_honest : HonestNet setup rid dom stuck.2 := honest_of (by decide +kernel)

theorem stuck_recipients : RecipientsNet (· = 32) stuck.2 := recipients_of (by decide +kernel)

theorem stuck_log : announcedAt 0 stuck.2 = [stuckMsg] ∧ deliveredInNet stuck.2 = [] ∧ inTransit rid stuck.2 = 100 := by
  decide +kernel

theorem stuck_route : Router.getRoute (stuck.1 2).router.2.routes (dom 0) = some (rid 0) := by decide +kernel

theorem stuck_fails : (step toyHash setup stuck.1 (relay 2 stuckMsg)).toOption.isNone = true := by decide +kernel

end Tour

/-- Why C82 asks for a single collateral router: all three routers hold collateral, alice locks 100 tokens on chain 0 for
chain 2, whose router holds nothing; the message is announced, approved and not delivered, the router knows the sender,
and delivering fails: what alice paid is stuck until somebody locks tokens on chain 2. -/
theorem C82_empty_pool :
    Joined Ex.Net.setup Ex.Net.rid Ex.Net.dom Tour.pools (Ex.Net.start Tour.pools) ∧
    let h := Tx.history (step toyHash Ex.Net.setup) (Ex.Net.start Tour.pools) [[.call (Ex.Net.send 0 2 100) []]]
    HonestNet Ex.Net.setup Ex.Net.rid Ex.Net.dom h.2 ∧ RecipientsNet (· = 32) h.2 ∧
      (announcedAt 0 h.2 = [Tour.stuckMsg] ∧ deliveredInNet h.2 = [] ∧ inTransit Ex.Net.rid h.2 = 100) ∧
      Router.getRoute (h.1 2).router.2.routes (Ex.Net.dom 0) = some (Ex.Net.rid 0) ∧
      (∀ ism md, Ex.freeEnv.verify ism md Tour.stuckMsg = .ok true) ∧
      ∀ s' o', step toyHash Ex.Net.setup h.1 (Ex.Net.relay 2 Tour.stuckMsg) ≠ .ok (s', o') := by
  refine ⟨Ex.Net.start_joined _, ?_⟩
  rw [Tour.stuck_eq]
  refine ⟨Tour.stuck_honest, Tour.stuck_recipients, Tour.stuck_log, Tour.stuck_route, fun _ _ => Tour.approved _ _ _, fun s' o' h => ?_⟩
  have := Tour.stuck_fails
  rw [h] at this
  cases this

end Hpl.TokenNet
