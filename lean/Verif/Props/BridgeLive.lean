import Verif.Props.Bridge

/-! # Transfers arrive: C72 -/

namespace Hpl.Bridge

open Spec

section deliveries

variable {H : Bytes → Bytes} {p : Setup} {env : Mailbox.Env} {c c' : Chain}

/-- Messages of a router do not mark anything as delivered. -/
theorem perform_deliveries {m : OutMsg} {l : List Response} (h : perform H p env c m = .ok (c', l)) :
    c'.box.deliveries = c.box.deliveries := by
  cases m with
  | bankSend dst coins =>
    obtain ⟨_, _, hf⟩ := bind_eq_ok.1 h
    cases hf; rfl
  | tfMint a denom n =>
    simp only [perform, Except.ok.injEq, Prod.mk.injEq] at h
    obtain ⟨rfl, _⟩ := h
    split <;> rfl
  | tfBurn a denom n =>
    simp only [perform] at h
    split at h
    · obtain ⟨_, _, h⟩ := bind_eq_ok.1 h
      obtain ⟨_, _, hf⟩ := bind_eq_ok.1 h
      cases hf; rfl
    · cases h; rfl
  | execute dst payload funds =>
    simp only [perform] at h
    obtain ⟨hd, _, h⟩ := bind_eq_ok.1 h
    split at h
    · cases payload with
      | dispatch q =>
        obtain ⟨x, h3, hf⟩ := bind_eq_ok.1 h
        cases hf
        obtain ⟨_, _, _, _, e, _⟩ := dispatch_effect (b := c.box) (b' := x.1) (resp := x.2) h3
        exact e
      | _ => cases h
    · split at h
      · obtain ⟨c1, h3, hf⟩ := bind_eq_ok.1 h
        cases hf
        cases payload with
        | cw20Mint a n => cases h3; rfl
        | cw20Burn n =>
          obtain ⟨_, _, h⟩ := bind_eq_ok.1 h3
          obtain ⟨_, _, hf⟩ := bind_eq_ok.1 h
          cases hf; rfl
        | cw20Transfer a n =>
          obtain ⟨_, _, hf⟩ := bind_eq_ok.1 h3
          cases hf; rfl
        | cw20TransferFrom a b n =>
          simp only [cw20] at h3
          split at h3
          · cases h3
          · cases h3; rfl
        | _ => cases h3
      · cases h; rfl

theorem performAll_deliveries {l : List OutMsg} : ∀ {c : Chain} {x : Chain × List Response},
    performAll H p env c l = .ok x → x.1.box.deliveries = c.box.deliveries := by
  induction l with
  | nil => intro c x h; rw [performAll_nil.1 h]
  | cons m t ih =>
    intro c x h
    obtain ⟨y, z, h1, h2, rfl⟩ := performAll_cons.1 h
    exact (ih h2).trans (perform_deliveries h1)

theorem callRouter_deliveries {call : ExecCall (Addr → Bool) Warp.Msg} {x : Chain × Response × List Response}
    (h : callRouter H p env c call = .ok x) : x.1.box.deliveries = c.box.deliveries := by
  obtain ⟨_, _, h⟩ := bind_eq_ok.1 h
  obtain ⟨_, h2, hf⟩ := bind_eq_ok.1 h
  cases hf
  rw [performAll_deliveries h2]

theorem deliver_deliveries {l : List OutMsg} {x : Chain × Response × List Response}
    (h : deliver H p env c l = .ok x) : x.1.box.deliveries = c.box.deliveries := by
  unfold deliver at h
  split at h
  · split at h
    · exact callRouter_deliveries h
    · cases h; rfl
  · cases h; rfl

/-- Only what is submitted is marked as delivered. -/
theorem step_deliveries {P : Side → Setup} {s s' : Side → Chain} {a : Act} {o : Out} (h : step H P s a = .ok (s', o))
    {y : Side} {i : Bytes} (hi : (s' y).box.deliveries.has i = true) :
    (s y).box.deliveries.has i = true ∨ ∃ m ∈ deliveredOn y [(a, o)], H m = i := by
  cases a with
  | gift x n =>
    cases h
    by_cases hy : y = x
    · subst hy; rw [set_same] at hi; exact .inl hi
    · rw [set_other s _ hy] at hi; exact .inl hi
  | burn x n =>
    obtain ⟨t, _, hf⟩ := bind_eq_ok.1 h
    cases hf
    by_cases hy : y = x
    · subst hy; rw [set_same] at hi; exact .inl hi
    · rw [set_other s _ hy] at hi; exact .inl hi
  | router x c env =>
    obtain ⟨z, h1, hf⟩ := bind_eq_ok.1 h
    cases hf
    by_cases hy : y = x
    · subst hy; rw [set_same, callRouter_deliveries h1] at hi; exact .inl hi
    · rw [set_other s _ hy] at hi; exact .inl hi
  | mailbox x c =>
    obtain ⟨⟨b, resp⟩, h1, h⟩ := bind_eq_ok.1 h
    obtain ⟨z, h2, hf⟩ := bind_eq_ok.1 h
    cases hf
    by_cases hy : y = x
    · subst hy
      rw [set_same, deliver_deliveries h2] at hi
      simp only at hi
      rcases Mailbox.execute_cases h1 with ⟨m, ow, e1, e2, rfl, rfl⟩ | ⟨ad, e1, e2, e3, rfl, rfl⟩ |
        ⟨ad, e1, e2, e3, rfl, rfl⟩ | ⟨ad, e1, e2, e3, rfl, rfl⟩ | ⟨q, e1, e2⟩ | ⟨md, m, e1, e2⟩
      · exact .inl hi
      · exact .inl hi
      · exact .inl hi
      · exact .inl hi
      · obtain ⟨_, _, _, _, e, _⟩ := dispatch_effect e2
        rw [e] at hi; exact .inl hi
      · obtain ⟨msg, recipient, named, dflt, g1, g2, g3, g4, g5, g6, g7, g8, rfl, rfl⟩ := Mailbox.process_ok.1 e2
        rw [OMap.has_insert] at hi
        simp only [Bool.or_eq_true, decide_eq_true_eq] at hi
        rcases hi with hi | hi
        · exact .inr ⟨m, by simp [deliveredOn, submitted, e1], hi.symm⟩
        · exact .inl hi
    · rw [set_other s _ hy] at hi; exact .inl hi

theorem chain_deliveries {P : Side → Setup} {s0 : Side → Chain} {y : Side} {i : Bytes} (log : BridgeLog) :
    ∀ s, Tx.Chain (step H P) s0 log s → (s y).box.deliveries.has i = true →
      (s0 y).box.deliveries.has i = true ∨ ∃ m ∈ deliveredOn y log, H m = i := by
  induction log using List.reverseRecOn with
  | nil => intro s h hi; simp only [Tx.Chain] at h; subst h; exact .inl hi
  | append_singleton log e ih =>
    intro s' h hi
    obtain ⟨s, k1, k2⟩ := Tx.Chain.snoc.1 h
    rcases step_deliveries (o := e.2) k2 hi with hi | ⟨m, hm, he⟩
    · rcases ih s k1 hi with hi | ⟨m, hm, he⟩
      · exact .inl hi
      · exact .inr ⟨m, by rw [deliveredOn_append]; exact List.mem_append_left _ hm, he⟩
    · exact .inr ⟨m, by rw [deliveredOn_append]; exact List.mem_append_right _ hm, he⟩

end deliveries

/-- What a router does to give tokens to an account: `nativeRelease` or `cw20Release`. -/
def payout (p : Setup) (mode : Warp.Mode) (dst : Addr) (n : Nat) : List OutMsg :=
  if p.native then nativeRelease p.router p.token mode dst n else cw20Release p.router p.token mode dst n

/-- A delivery from the mailbox succeeds if the router can pay. -/
theorem callRouter_handle_live {H : Bytes → Bytes} {p : Setup} {env : Mailbox.Env} {c : Chain} {e : Addr → Bool}
    {origin : UInt32} {ms body : Bytes} {dst : Addr} (htk : c.router.2.token = some p.token)
    (hmb : c.router.2.mailbox = p.mailbox) (hne : p.token ≠ p.mailbox)
    (hrt : Router.getRoute c.router.2.routes origin = some ms) (hlen : 64 ≤ body.length)
    (hdst : bech32Encode p.codec c.router.2.hrp (bytesOf 0 32 body) = .ok dst)
    (hn : fromBE (bytesOf 32 64 body) < 2 ^ 128)
    (hpay : c.router.2.mode = .collateral → fromBE (bytesOf 32 64 body) ≤ c.held) :
    ∃ c', callRouter H p env c ⟨e, p.mailbox, [], .inr (.handle origin ms body)⟩ =
      .ok (c', { msgs := payout p c.router.2.mode dst (fromBE (bytesOf 32 64 body)) }, []) := by
  have hz : p.coins [] = 0 := by unfold Setup.coins; split <;> rfl
  have hc : ({ c with router := c.router, held := c.held + p.coins [] } : Chain) = c := by rw [hz]; rfl
  have hx : Warp.execute p.kind p.codec p.router c.router ⟨e, p.mailbox, [], .inr (.handle origin ms body)⟩ =
      .ok (c.router, { msgs := payout p c.router.2.mode dst (fromBE (bytesOf 32 64 body)) }) := by
    refine execute_handle.2 ⟨_, Warp.handle_ok.2 ⟨hmb.symm, hrt, hlen, dst, p.token, _, hdst, htk, ?_, rfl⟩, rfl⟩
    unfold Setup.kind payout
    split
    · exact native_release.2 ⟨hn, rfl⟩
    · exact cw20_release.2 ⟨hn, rfl⟩
  have key : ∃ c', performAll H p env c (payout p c.router.2.mode dst (fromBE (bytesOf 32 64 body))) = .ok (c', []) := by
    generalize fromBE (bytesOf 32 64 body) = n at hpay
    have one : ∀ {m : OutMsg} {c1 c2 : Chain}, perform H p env c1 m = .ok (c2, []) →
        performAll H p env c1 [m] = .ok (c2, []) := fun h =>
      performAll_cons.2 ⟨_, _, h, performAll_nil.2 rfl, rfl⟩
    cases hp : p.native with
    | true =>
      have hcn : p.coins [⟨p.token, n⟩] = n := by
        rw [coins_native hp, amountOf_cons]; simp
      have send : ∀ c1 : Chain, n ≤ c1.held → perform H p env c1 (.bankSend dst [⟨p.token, n⟩]) =
          .ok ({ c1 with held := if dst = p.router then c1.held else c1.held - n }, []) := by
        intro c1 hle
        simp only [perform, hcn]
        exact bind_eq_ok.2 ⟨_, sub_ok.2 ⟨hle, rfl⟩, rfl⟩
      cases hmo : c.router.2.mode with
      | collateral =>
        simp only [payout, hp, if_true, nativeRelease]
        exact ⟨_, one (send c (hpay hmo))⟩
      | bridged =>
        simp only [payout, hp, if_true, nativeRelease]
        have hm : perform H p env c (.tfMint p.router p.token n) =
            .ok ({ c with held := c.held + n, supply := c.supply + n }, []) := by
          simp only [perform, hp, and_self, if_true]
        exact ⟨_, performAll_cons.2 ⟨_, _, hm, one (send _ (Nat.le_add_left _ _)), rfl⟩⟩
    | false =>
      have hcw : ∀ {m : Payload} {c1 : Chain}, cw20 p c m = .ok c1 →
          performAll H p env c [.execute p.token m []] = .ok (c1, []) := by
        intro m c1 h
        apply one
        simp only [perform, if_neg hne, hp, and_self, if_true]
        refine bind_eq_ok.2 ⟨c.held, sub_ok.2 ⟨by rw [coins_cw20 hp]; exact Nat.zero_le _, by rw [coins_cw20 hp]; rfl⟩, ?_⟩
        exact bind_eq_ok.2 ⟨c1, h, rfl⟩
      cases hmo : c.router.2.mode with
      | collateral =>
        have hle := hpay hmo
        simp only [payout, hp, cw20Release]
        have h1 : cw20 p c (.cw20Transfer dst n) =
            .ok { c with held := if dst = p.router then c.held else c.held - n } :=
          bind_eq_ok.2 ⟨_, sub_ok.2 ⟨hle, rfl⟩, rfl⟩
        exact ⟨_, hcw h1⟩
      | bridged =>
        simp only [payout, hp, cw20Release]
        have h1 : cw20 p c (.cw20Mint dst n) =
            .ok { c with held := (if dst = p.router then c.held + n else c.held), supply := c.supply + n } := rfl
        exact ⟨_, hcw h1⟩
  obtain ⟨c', hk⟩ := key
  refine ⟨c', bind_eq_ok.2 ⟨_, hx, ?_⟩⟩
  rw [hc]
  exact bind_eq_ok.2 ⟨_, hk, rfl⟩

theorem le_pending {f : Bytes → Nat} {S D : List Bytes} {m : Bytes} (h1 : m ∈ S) (h2 : m ∉ D) :
    f m ≤ pending f S D := by
  have key : ∀ l : List Nat, ∀ n ∈ l, n ≤ l.sum := by
    intro l
    induction l with
    | nil => intro n h; cases h
    | cons a t ih =>
      intro n h
      rw [List.sum_cons]
      rcases List.mem_cons.1 h with rfl | h
      · exact Nat.le_add_right _ _
      · exact Nat.le_trans (ih n h) (Nat.le_add_left _ _)
  exact key _ _ <| List.mem_map.2 ⟨m, List.mem_filter.2 ⟨h1, by simpa using h2⟩, rfl⟩

/-- The message of a transfer in a log. -/
theorem transfer_message {H : Bytes → Bytes} {P : Side → Setup} {r : Side → Bytes} {d : Side → UInt32}
    {s s' : Side → Chain} {x : Side} {c : ExecCall (Addr → Bool) Warp.Msg} {env : Mailbox.Env} {o : Out}
    {dest : UInt32} {recipient : Bytes} {amount : Nat} {hook : Option Addr} {md : Option Bytes}
    (hl : Linked P r d s) (h : step H P s (.router x c env) = .ok (s', o))
    (hc : c.msg = .inr (.transferRemote dest recipient amount hook md)) :
    amount < 2 ^ 128 ∧ dest = d x.other ∧ ∃ n, o.mailbox.flatMap dispatchedIn =
      [Message.encode ⟨3, n, d x, r x, d x.other, r x.other, recipient ++ u256be amount⟩] := by
  obtain ⟨⟨c', rr, mr⟩, h1, hf⟩ := bind_eq_ok.1 h
  cases hf
  obtain ⟨e, sender, funds, msg⟩ := c
  simp only at hc
  subst hc
  obtain ⟨f1, f2, f3, ⟨router, f4, f5, f6⟩, f7, f8, f9⟩ :=
    callRouter_transfer h1 (hl.token x) (hl.mailbox x) (hl.identity x)
  have hroute := hl.routes x dest
  rw [f4] at hroute
  by_cases hdst : dest = d x.other
  swap
  · rw [if_neg hdst] at hroute; cases hroute
  rw [if_pos hdst, Option.some.injEq] at hroute
  subst hroute
  refine ⟨f7, hdst, (s x).box.nonce, ?_⟩
  rw [← hdst, ← hl.domain x]
  exact f6

/-- **C72.** From any linked state in which the bridged supply is backed, after every execution of the two chains (any
nesting of calls, any rollbacks) whose transfers name recipients of at most 32 bytes: a transfer of `amount` to an
account of 32 bytes announced one message, and as long as this message was not delivered, anybody can deliver it. If the
module responsible for the remote router approves it, the delivery succeeds and the remote router pays exactly `amount`
to that account, whatever happened in between; unless another message with the same hash was delivered before. -/
theorem C72_transfer_arrives (H : Bytes → Bytes) (P : Side → Setup) (r : Side → Bytes) (d : Side → UInt32)
    (s0 : Side → Chain) (txs : List (List (Tx.Act Act))) (hl : Linked P r d s0)
    (htok : ∀ x, (P x).token ≠ (P x).mailbox)
    (h0 : (s0 .right).supply ≤ (s0 .left).held) (hh : Honest P r d (Tx.history (step H P) s0 txs).2)
    (hr : Recipients (· ≤ 32) (Tx.history (step H P) s0 txs).2)
    {x : Side} {c : ExecCall (Addr → Bool) Warp.Msg} {env : Mailbox.Env} {o : Out} {dest : UInt32} {recipient : Bytes}
    {amount : Nat} {hook : Option Addr} {md : Option Bytes}
    (he : (Act.router x c env, o) ∈ (Tx.history (step H P) s0 txs).2)
    (hc : c.msg = .inr (.transferRemote dest recipient amount hook md)) (hlen : recipient.length = 32) :
    dest = d x.other ∧ ∃ m, o.mailbox.flatMap dispatchedIn = [m] ∧
      ∀ (call : Mailbox.Call) (metadata : Bytes) (ism dst : Addr),
        call.msg = .process metadata m →
        m ∉ deliveredOn x.other (Tx.history (step H P) s0 txs).2 → (s0 x.other).box.deliveries.has (H m) = false →
        ((Tx.history (step H P) s0 txs).1 x.other).box.config.defaultIsm ≠ none →
        ResponsibleIsm call.env ((Tx.history (step H P) s0 txs).1 x.other).box (P x.other).router ism →
        call.env.verify ism metadata m = .ok true →
        bech32Encode (P x.other).codec ((Tx.history (step H P) s0 txs).1 x.other).router.2.hrp recipient = .ok dst →
        (∃ s' o', step H P (Tx.history (step H P) s0 txs).1 (.mailbox x.other call) = .ok (s', o') ∧
          o'.router.msgs = payout (P x.other) ((Tx.history (step H P) s0 txs).1 x.other).router.2.mode dst amount) ∨
        ∃ m' ∈ deliveredOn x.other (Tx.history (step H P) s0 txs).2, m' ≠ m ∧ H m' = H m := by
  have hchain := Tx.history_chain (step H P) s0 txs
  have hback := (C61_backing_partial H P r d s0 txs hl h0 hh hr).1
  have I := inv_chain (Q := (· ≤ 32)) (fun _ h => h) hl _ _ hchain hh hr
  generalize Tx.history (step H P) s0 txs = hist at *
  obtain ⟨s, log⟩ := hist
  simp only at *
  obtain ⟨pre, post, hsplit⟩ := List.append_of_mem he
  rw [hsplit] at hchain
  obtain ⟨s1, g1, s2, g2, _⟩ := Tx.Chain.split hchain
  have I1 := inv_chain (Q := (· ≤ 32)) (fun _ h => h) hl pre s1 g1 (honest_prefix (hsplit ▸ hh))
    (fun e he => hr e (by rw [hsplit]; exact List.mem_append_left _ he))
  obtain ⟨hamt, hdst, n, hm⟩ := transfer_message I1.linked g2 hc
  rw [← hsplit] at hchain
  refine ⟨hdst, _, hm, ?_⟩
  have hwf := (C01_message_layout ⟨3, n, d x, r x, d x.other, r x.other, recipient ++ u256be amount⟩
    (Mailbox.length_bech32ToH256 (hl.identity x)) (Mailbox.length_bech32ToH256 (hl.identity x.other)) _).1 rfl
  generalize hmm : Message.encode ⟨3, n, d x, r x, d x.other, r x.other, recipient ++ u256be amount⟩ = m at hwf hm
  intro call metadata ism dst hcall hnot hfresh hdef hism hver hacc
  by_cases hcol : ∃ m' ∈ deliveredOn x.other log, m' ≠ m ∧ H m' = H m
  · exact .inr hcol
  left
  have hundel : (s x.other).box.deliveries.has (H m) = false := by
    cases hd : (s x.other).box.deliveries.has (H m) with
    | false => rfl
    | true =>
      exfalso
      rcases chain_deliveries log s hchain hd with h | ⟨m', h1, h2⟩
      · rw [hfresh] at h; cases h
      · by_cases hmm' : m' = m
        · rw [hmm'] at h1; exact hnot h1
        · exact hcol ⟨m', h1, hmm', h2⟩
  have hbody : amountIn m = amount ∧ fromBE (bytesOf 32 64 (recipient ++ u256be amount)) = amount ∧
      bytesOf 0 32 (recipient ++ u256be amount) = recipient ∧ (recipient ++ u256be amount).length = 64 := by
    obtain ⟨b1, b2, b3⟩ := transfer_body hlen hamt
    refine ⟨?_, b3, b2, b1⟩
    unfold amountIn
    rw [hwf.body]
    exact b3
  obtain ⟨b1, b2, b3, b4⟩ := hbody
  have hsent : m ∈ sentBy r x log := by
    refine List.mem_filter.2 ⟨List.mem_flatMap.2 ⟨_, he, ?_⟩, ?_⟩
    · simp only [sideOf, if_true, hm, List.mem_singleton]
    · have : senderOf m = r x := hwf.sender
      simp [this]
  have hle : amount ≤ inFlight r x log := by
    rw [inFlight_eq, ← b1]
    exact le_pending hsent hnot
  have hpay : (s x.other).router.2.mode = .collateral → amount ≤ (s x.other).held := by
    intro hmode
    cases x with
    | left => rw [Side.other, I.linked.bridged] at hmode; cases hmode
    | right => simp only [Side.other]; omega
  -- the mailbox
  have hdec := decode_of_wireFormat hwf
  obtain ⟨dflt, hdf⟩ := Option.ne_none_iff_exists'.1 hdef
  have hproc : ∃ named, call.env.recipientIsm (P x.other).router = .ok named ∧ named.getD dflt = ism := by
    rcases hism with h | ⟨h, h'⟩
    · exact ⟨some ism, h, rfl⟩
    · rw [hdf] at h'
      cases h'
      exact ⟨none, h, rfl⟩
  obtain ⟨named, hn1, hn2⟩ := hproc
  have hex : Mailbox.execute H (P x.other).codec (s x.other).box call =
      Mailbox.process H (P x.other).codec call.env (s x.other).box call.sender metadata m := by
    unfold Mailbox.execute
    rw [hcall]
  rw [Mailbox.process_ok.2 ⟨_, (P x.other).router, named, dflt, hdec, I.linked.address x.other, rfl,
      (I.linked.domain x.other).symm, hn1, hdf, hundel, by rw [hn2]; exact hver, rfl, rfl⟩] at hex
  have hroute := I.linked.routes x.other (d x)
  rw [other_other, if_pos rfl] at hroute
  obtain ⟨c', hlive⟩ := callRouter_handle_live (H := H) (p := P x.other) (env := call.env)
    (c := { s x.other with box := { (s x.other).box with
      deliveries := (s x.other).box.deliveries.insert (H m) ⟨call.sender, call.env.height⟩ } })
    (e := call.env.valid) (origin := d x) (ms := r x) (body := recipient ++ u256be amount) (dst := dst)
    (I.linked.token x.other) (I.linked.mailbox x.other) (htok x.other) hroute (by rw [b4])
    (by rw [b3]; exact hacc) (by rw [b2]; exact hamt) (by rw [b2]; exact hpay)
  rw [b2] at hlive
  have hq : ∃ q : Mailbox.State × Response, Mailbox.execute H (P x.other).codec (s x.other).box call = .ok q ∧
      q.1 = { (s x.other).box with
        deliveries := (s x.other).box.deliveries.insert (H m) ⟨call.sender, call.env.height⟩ } ∧
      q.2.msgs = [.execute (P x.other).router (.handle (d x) (r x) (recipient ++ u256be amount)) []] :=
    ⟨_, hex, rfl, rfl⟩
  obtain ⟨q, q1, q2, q3⟩ := hq
  refine ⟨Bridge.set s x.other c', ⟨{ msgs := payout (P x.other) (s x.other).router.2.mode dst amount }, [q.2]⟩,
    bind_eq_ok.2 ⟨q, q1, bind_eq_ok.2 ⟨(c', { msgs := payout (P x.other) (s x.other).router.2.mode dst amount }, []),
      ?_, rfl⟩⟩, rfl⟩
  rw [q2, q3]
  simp only [deliver, if_true]
  exact hlive

/-- The second transfer to the right in `Ex.fairActs` was not delivered, and everything needed to deliver it is there:
the last step pays 20 tokens to alice. -/
example : Linked Ex.setup Ex.routerId Ex.domainOf Ex.bridge0 ∧ (∀ x, (Ex.setup x).token ≠ (Ex.setup x).mailbox) ∧
    let h := Tx.history (step toyHash Ex.setup) Ex.bridge0 (Ex.fairActs.map (fun a => [.call a []]))
    Honest Ex.setup Ex.routerId Ex.domainOf h.2 ∧ Recipients (· ≤ 32) h.2 ∧
    (∃ e ∈ h.2, e.1 = Ex.sendRight Ex.aliceId 20 ∧
      e.2.mailbox.flatMap dispatchedIn = [Ex.transferMsg .left 1 Ex.aliceId 20]) ∧
    Ex.transferMsg .left 1 Ex.aliceId 20 ∉ deliveredOn .right h.2 ∧
    (h.1 .right).box.config.defaultIsm = some "ism" ∧
    ResponsibleIsm Ex.freeEnv (h.1 .right).box (Ex.setup .right).router "ism" ∧
    Ex.freeEnv.verify "ism" [] (Ex.transferMsg .left 1 Ex.aliceId 20) = .ok true ∧
    bech32Encode Bech.codec (h.1 .right).router.2.hrp Ex.aliceId = .ok Ex.alice ∧
    (∀ m ∈ deliveredOn .right h.2, toyHash m ≠ toyHash (Ex.transferMsg .left 1 Ex.aliceId 20)) ∧
    ((step toyHash Ex.setup h.1 (Ex.relay .right (Ex.transferMsg .left 1 Ex.aliceId 20))).toOption.map
      (fun q => q.2.router.msgs)) = some [.execute "cw" (.cw20Mint Ex.alice 20) []] := by
  have hp : Ex.playable toyHash Ex.bridge0 Ex.fairActs = true := by decide +kernel
  refine ⟨Ex.bridge0_linked, by intro x; cases x <;> decide +kernel, ?_⟩
  simp only [Ex.history_play hp]
  refine ⟨Ex.honest_of (by decide +kernel), Ex.recipients_of (by decide +kernel), ?_, by decide +kernel,
    by decide +kernel, ?_, by decide +kernel, by decide +kernel, by decide +kernel, by decide +kernel⟩
  · refine ⟨(Ex.play toyHash Ex.bridge0 Ex.fairActs).2[2]'(by decide +kernel), List.getElem_mem _, rfl, by decide +kernel⟩
  · first
      | exact .inl (by decide +kernel)
      | exact .inr ⟨by decide +kernel, by decide +kernel⟩

end Hpl.Bridge
