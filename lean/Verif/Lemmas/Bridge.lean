import Verif.Spec.Bridge
import Verif.Props.Warp
import Verif.Props.Mailbox

/-! Lemmas about the two-chain system. -/

namespace Hpl.Bridge

open Spec

variable {H : Bytes → Bytes} {p : Setup} {env : Mailbox.Env} {c c' : Chain}

theorem sub_ok {a n b : Nat} : sub a n = .ok b ↔ n ≤ a ∧ b = a - n := by
  unfold sub
  by_cases h : n ≤ a
  · rw [if_pos h]
    constructor
    · intro h'; cases h'; exact ⟨h, rfl⟩
    · rintro ⟨_, rfl⟩; rfl
  · rw [if_neg h]
    constructor
    · intro h'; cases h'
    · rintro ⟨h', _⟩; exact absurd h' h

theorem coins_native (hp : p.native = true) (l : List Coin) : p.coins l = amountOf p.token l := by
  unfold Setup.coins amountOf
  rw [if_pos hp]

theorem coins_cw20 (hp : p.native = false) (l : List Coin) : p.coins l = 0 := by
  unfold Setup.coins
  rw [if_neg (by rw [hp]; decide)]

theorem performAll_nil {x : Chain × List Response} : performAll H p env c [] = .ok x ↔ x = (c, []) := by
  unfold performAll
  constructor
  · intro h; cases h; rfl
  · rintro rfl; rfl

theorem performAll_cons {m : OutMsg} {t : List OutMsg} {x : Chain × List Response} :
    performAll H p env c (m :: t) = .ok x ↔
      ∃ y z, perform H p env c m = .ok y ∧ performAll H p env y.1 t = .ok z ∧ x = (z.1, y.2 ++ z.2) := by
  rw [performAll, bind_eq_ok]
  constructor
  · rintro ⟨y, h1, h⟩
    obtain ⟨z, h2, hf⟩ := bind_eq_ok.1 h
    cases hf
    exact ⟨y, z, h1, h2, rfl⟩
  · rintro ⟨y, z, h1, h2, rfl⟩
    exact ⟨y, h1, bind_eq_ok.2 ⟨z, h2, rfl⟩⟩

theorem perform_dispatch {q : DispatchMsg} {funds : List Coin} {l : List Response}
    (h : perform H p env c (.execute p.mailbox (.dispatch q) funds) = .ok (c', l)) :
    p.coins funds ≤ c.held ∧ ∃ b resp, Mailbox.dispatch H p.codec env c.box p.router funds q = .ok (b, resp) ∧
      c' = { c with held := c.held - p.coins funds, box := b } ∧ l = [resp] := by
  simp only [perform] at h
  obtain ⟨hd, h1, h⟩ := bind_eq_ok.1 h
  obtain ⟨h2, rfl⟩ := sub_ok.1 h1
  simp only [if_true, callMailbox] at h
  obtain ⟨x, h3, hf⟩ := bind_eq_ok.1 h
  cases hf
  exact ⟨h2, x.1, x.2, h3, rfl, rfl⟩

theorem perform_cw20 (hp : p.native = false) {m : Payload} (hm : ∀ q, m ≠ .dispatch q) {l : List Response}
    (h : perform H p env c (.execute p.token m []) = .ok (c', l)) : cw20 p c m = .ok c' ∧ l = [] := by
  simp only [perform] at h
  obtain ⟨hd, h1, h⟩ := bind_eq_ok.1 h
  obtain ⟨h2, rfl⟩ := sub_ok.1 h1
  rw [coins_cw20 hp] at h
  simp only [Nat.sub_zero] at h
  by_cases hx : p.token = p.mailbox
  · rw [if_pos hx] at h
    cases m with
    | dispatch q => exact absurd rfl (hm q)
    | _ => cases h
  · rw [if_neg hx, if_pos ⟨hp, trivial⟩] at h
    obtain ⟨x, h3, hf⟩ := bind_eq_ok.1 h
    cases hf
    exact ⟨h3, rfl⟩

/-- The parts of the state that never change. -/
structure Fixed (c c' : Chain) : Prop where
  token : c'.router.2.token = c.router.2.token
  mode : c'.router.2.mode = c.router.2.mode
  mailbox : c'.router.2.mailbox = c.router.2.mailbox
  routes : c'.router.2.routes = c.router.2.routes
  hrp : c'.box.config.hrp = c.box.config.hrp
  domain : c'.box.config.localDomain = c.box.config.localDomain

theorem router_fixed {k : Warp.Kind} {C : Codec} {self : Addr} {s : Ownable.State × Warp.State}
    {call : ExecCall (Addr → Bool) Warp.Msg} {x : (Ownable.State × Warp.State) × Response}
    (h : Warp.execute k C self s call = .ok x) (hm : ∀ m, call.msg ≠ .inr (.router m)) :
    x.1.2.token = s.2.token ∧ x.1.2.mode = s.2.mode ∧ x.1.2.mailbox = s.2.mailbox ∧ x.1.2.routes = s.2.routes := by
  obtain ⟨e, sender, funds, msg⟩ := call
  cases msg with
  | inl o =>
    obtain ⟨_, _, rfl⟩ := execOwned_inl.1 h
    exact ⟨rfl, rfl, rfl, rfl⟩
  | inr m =>
    obtain ⟨q, hq, rfl⟩ := execute_inr.1 h
    cases m with
    | router m => exact absurd rfl (hm m)
    | connection m =>
      obtain ⟨_, _, hf⟩ := bind_eq_ok.1 hq
      cases hf
      exact ⟨rfl, rfl, rfl, rfl⟩
    | handle o ms b =>
      have := Warp.part_rest (s' := q.1) (r := q.2) rfl hq
      simp only [this, and_self]
    | transferRemote d r a hk md =>
      have := Warp.part_rest (s' := q.1) (r := q.2) rfl hq
      simp only [this, and_self]

/-- Calls that are neither transfers nor deliveries only take the attached coins. -/
theorem callRouter_quiet {call : ExecCall (Addr → Bool) Warp.Msg} {rr : Response} {mr : List Response}
    (h : callRouter H p env c call = .ok (c', rr, mr)) (hmb : c.router.2.mailbox = p.mailbox)
    (hs : call.sender ≠ p.mailbox) (hm : ∀ m, call.msg ≠ .inr (.router m))
    (ht : ∀ d r a hk md, call.msg ≠ .inr (.transferRemote d r a hk md)) :
    Fixed c c' ∧ c'.box = c.box ∧ c'.held = c.held + p.coins call.funds ∧ c'.supply = c.supply ∧ rr.msgs = [] ∧
      mr = [] := by
  obtain ⟨x, h1, h⟩ := bind_eq_ok.1 h
  obtain ⟨y, h2, hf⟩ := bind_eq_ok.1 h
  cases hf
  have hh : ∀ o ms b, call.msg ≠ .inr (.handle o ms b) := by
    intro o ms b hh
    obtain ⟨e, sender, funds, msg⟩ := call
    simp only at hh
    subst hh
    obtain ⟨r, h3, _⟩ := execute_handle.1 h1
    exact hs ((Warp.handle_ok.1 h3).1.trans hmb)
  have hq := execute_quiet h1 hh ht
  rw [hq] at h2
  obtain ⟨f1, f2, f3, f4⟩ := router_fixed h1 hm
  rw [performAll_nil.1 h2]
  exact ⟨⟨f1, f2, f3, f4, rfl, rfl⟩, rfl, rfl, rfl, hq, rfl⟩

/-- Dispatching changes of the mailbox only the nonce and the latest id. -/
theorem dispatch_effect {b b' : Mailbox.State} {C : Codec} {sender : Addr} {funds : List Coin} {q : DispatchMsg}
    {resp : Response} (h : Mailbox.dispatch H C env b sender funds q = .ok (b', resp)) :
    ∃ h32, bech32ToH256 C sender = .ok h32 ∧ q.recipient.length = 32 ∧ b'.config = b.config ∧
      b'.deliveries = b.deliveries ∧ b'.nonce.toNat = b.nonce.toNat + 1 ∧
      dispatchedIn resp = [Message.encode ⟨3, b.nonce, b.config.localDomain, h32, q.dest, q.recipient, q.body⟩] ∧
      resp.msgs.length = 2 := by
  obtain ⟨h32, dflt, hook, required, fees, attached, rest, n, h1, h2, h3, h4, h5, h6, h7, h8, h9, rfl, rfl⟩ :=
    Mailbox.dispatch_ok.1 h
  exact ⟨h32, h2, h1, rfl, rfl, h9, rfl, rfl⟩

/-- Transfers. -/
theorem callRouter_transfer {e : Addr → Bool} {sender : Addr} {funds : List Coin} {dest : UInt32} {recipient : Bytes}
    {amount : Nat} {hook : Option Addr} {md : Option Bytes} {rr : Response} {mr : List Response} {rx : Bytes}
    (h : callRouter H p env c ⟨e, sender, funds, .inr (.transferRemote dest recipient amount hook md)⟩ =
      .ok (c', rr, mr))
    (htk : c.router.2.token = some p.token) (hmb : c.router.2.mailbox = p.mailbox)
    (hid : bech32ToH256 p.codec p.router = .ok rx) :
    Fixed c c' ∧ c'.box.deliveries = c.box.deliveries ∧ c'.box.nonce.toNat = c.box.nonce.toNat + 1 ∧
    (∃ router, Router.getRoute c.router.2.routes dest = some router ∧ router.length = 32 ∧
      mr.flatMap dispatchedIn = [Message.encode ⟨3, c.box.nonce, c.box.config.localDomain, rx, dest, router,
        recipient ++ u256be amount⟩]) ∧ amount < 2 ^ 128 ∧
    (c.router.2.mode = .collateral → c'.held = c.held + amount ∧
      p.coins funds + (rr.msgs.map (fetchedBy p)).sum - (rr.msgs.map (passedOn p)).sum = amount ∧
      (rr.msgs.map (paidBy p)).sum = 0 ∧ (rr.msgs.map (paidToSelf p)).sum = 0) ∧
    (c.router.2.mode = .bridged → c'.supply + amount = c.supply ∧ (rr.msgs.map (burnedBy p)).sum = amount ∧
      (rr.msgs.map (mintedBy p)).sum = 0) := by
  obtain ⟨x, h1, h⟩ := bind_eq_ok.1 h
  obtain ⟨y, h2, hf⟩ := bind_eq_ok.1 h
  cases hf
  obtain ⟨r, h3, rfl⟩ := execute_transfer.1 h1
  obtain ⟨h4, h5, token, q, router, h6, h7, h8, rfl⟩ := Warp.transferRemote_ok.1 h3
  rw [htk, Option.some.injEq] at h6
  subst h6
  -- the dispatch at the end
  have key : ∀ (c1 : Chain) (y : Chain × List Response),
      performAll H p env c1 [Warp.dispatchMsg c.router.2 dest router recipient amount hook md q.1] = .ok y →
      c1.box = c.box → c1.router = c.router →
      p.coins q.1 ≤ c1.held ∧ Fixed c y.1 ∧ y.1.box.deliveries = c.box.deliveries ∧
      y.1.box.nonce.toNat = c.box.nonce.toNat + 1 ∧ router.length = 32 ∧
      y.2.flatMap dispatchedIn = [Message.encode ⟨3, c.box.nonce, c.box.config.localDomain, rx, dest, router,
        recipient ++ u256be amount⟩] ∧ y.1.held = c1.held - p.coins q.1 ∧ y.1.supply = c1.supply := by
    intro c1 y hy hb hr
    obtain ⟨u, v, g1, g2, rfl⟩ := performAll_cons.1 hy
    rw [performAll_nil.1 g2]
    unfold Warp.dispatchMsg at g1
    rw [hmb] at g1
    obtain ⟨u1, u2⟩ := u
    obtain ⟨k1, b, resp, k2, rfl, rfl⟩ := perform_dispatch g1
    rw [hb] at k2
    obtain ⟨h32, j1, j2, j3, j4, j5, j6, _⟩ := dispatch_effect k2
    rw [hid, Except.ok.injEq] at j1
    subst j1
    refine ⟨k1, ⟨?_, ?_, ?_, ?_, ?_, ?_⟩, j4, j5, j2, ?_, rfl, rfl⟩
    · simp only [hr]
    · simp only [hr]
    · simp only [hr]
    · simp only [hr]
    · simp only [j3]
    · simp only [j3]
    · simp only [List.append_nil, List.flatMap_cons, List.flatMap_nil, j6, WarpMessage.encode]
  cases hp : p.native with
  | true =>
    have hk : p.kind = Warp.native := by simp [Setup.kind, hp]
    rw [hk] at h7
    obtain ⟨t1, t2⟩ := native_take.1 h7
    obtain ⟨pre, n, post, rfl, t3, t4, t5⟩ := Warp.takeCoin_ok.1 t1
    have hc : p.coins (pre ++ ⟨p.token, n⟩ :: post) = amount + p.coins q.1 := by
      rw [t5, coins_native hp, coins_native hp, amountOf_append, amountOf_append, amountOf_cons, amountOf_cons]
      simp only [if_true]
      omega
    rw [hc] at h2 ⊢
    simp only [t2] at h2 ⊢
    cases hmo : c.router.2.mode with
    | collateral =>
      rw [hmo] at h2
      simp only [nativeTake, List.nil_append] at h2
      obtain ⟨k1, k2, k3, k4, k5, k6, k7, k8⟩ := key { c with held := c.held + (amount + p.coins q.1) } y h2 rfl rfl
      refine ⟨k2, k3, k4, ⟨router, h8, k5, k6⟩, h4, fun _ => ⟨?_, ?_, ?_, ?_⟩, fun hh => by cases hh⟩
      · rw [k7]; simp only; omega
      · simp [nativeTake, Warp.dispatchMsg, fetchedBy, passedOn]
      · simp [nativeTake, Warp.dispatchMsg, paidBy]
      · simp [nativeTake, Warp.dispatchMsg, paidToSelf]
    | bridged =>
      rw [hmo] at h2
      simp only [nativeTake, List.singleton_append] at h2
      obtain ⟨u, v, g1, g2, rfl⟩ := performAll_cons.1 h2
      simp only [perform, hp, and_self, if_true] at g1
      obtain ⟨hd, g3, g1⟩ := bind_eq_ok.1 g1
      obtain ⟨sp, g4, gf⟩ := bind_eq_ok.1 g1
      cases gf
      obtain ⟨g5, rfl⟩ := sub_ok.1 g3
      obtain ⟨g6, rfl⟩ := sub_ok.1 g4
      simp only at g2 g5 g6
      obtain ⟨k1, k2, k3, k4, k5, k6, k7, k8⟩ := key _ v g2 rfl rfl
      refine ⟨k2, k3, k4, ⟨router, h8, k5, k6⟩, h4, (fun hh => by cases hh), fun _ => ⟨?_, ?_, ?_⟩⟩
      · rw [k8]; simp only; omega
      · simp [nativeTake, Warp.dispatchMsg, burnedBy, hp]
      · simp [nativeTake, Warp.dispatchMsg, mintedBy]
  | false =>
    have hk : p.kind = Warp.cw20 := by simp [Setup.kind, hp]
    rw [hk] at h7
    have t2 := cw20_take.1 h7
    subst t2
    simp only [coins_cw20 hp] at h2 key ⊢
    simp only [Nat.add_zero, Nat.sub_zero, Nat.zero_add] at h2 key ⊢
    cases hmo : c.router.2.mode with
    | collateral =>
      rw [hmo] at h2
      simp only [cw20Take, List.cons_append, List.nil_append] at h2
      obtain ⟨u, v, g1, g2, rfl⟩ := performAll_cons.1 h2
      obtain ⟨u1, u2⟩ := u
      obtain ⟨g3, rfl⟩ := perform_cw20 hp (by simp) g1
      simp only [cw20] at g3
      split at g3
      · cases g3
      · simp only [if_true] at g3
        cases g3
        obtain ⟨k1, k2, k3, k4, k5, k6, k7, k8⟩ := key _ v g2 rfl rfl
        refine ⟨k2, k3, k4, ⟨router, h8, k5, k6⟩, h4, fun _ => ⟨?_, ?_, ?_, ?_⟩, fun hh => by cases hh⟩
        · rw [k7]
        · simp [cw20Take, Warp.dispatchMsg, fetchedBy, passedOn, hp, coins_cw20 hp]
        · simp [cw20Take, Warp.dispatchMsg, paidBy]
        · simp [cw20Take, Warp.dispatchMsg, paidToSelf]
    | bridged =>
      rw [hmo] at h2
      simp only [cw20Take, List.cons_append, List.nil_append] at h2
      obtain ⟨u, v, g1, g2, rfl⟩ := performAll_cons.1 h2
      obtain ⟨u1, u2⟩ := u
      obtain ⟨g3, rfl⟩ := perform_cw20 hp (by simp) g1
      simp only [cw20] at g3
      split at g3
      · cases g3
      · simp only [if_true] at g3
        cases g3
        obtain ⟨u, w, g1, g2', rfl⟩ := performAll_cons.1 g2
        clear g2
        obtain ⟨u1, u2⟩ := u
        obtain ⟨g3, rfl⟩ := perform_cw20 hp (by simp) g1
        simp only [cw20] at g3
        obtain ⟨hd, g4, g3⟩ := bind_eq_ok.1 g3
        obtain ⟨sp, g5, gf⟩ := bind_eq_ok.1 g3
        cases gf
        obtain ⟨g6, rfl⟩ := sub_ok.1 g4
        obtain ⟨g7, rfl⟩ := sub_ok.1 g5
        simp only at g2' g6 g7
        obtain ⟨k1, k2, k3, k4, k5, k6, k7, k8⟩ := key _ w g2' rfl rfl
        refine ⟨k2, k3, k4, ⟨router, h8, k5, by simpa using k6⟩, h4, (fun hh => by cases hh), fun _ => ⟨?_, ?_, ?_⟩⟩
        · rw [k8]; simp only; omega
        · simp [cw20Take, Warp.dispatchMsg, burnedBy, hp]
        · simp [cw20Take, Warp.dispatchMsg, mintedBy]

/-- Deliveries. -/
theorem callRouter_handle {e : Addr → Bool} {origin : UInt32} {ms body : Bytes} {rr : Response} {mr : List Response}
    (h : callRouter H p env c ⟨e, p.mailbox, [], .inr (.handle origin ms body)⟩ = .ok (c', rr, mr))
    (htk : c.router.2.token = some p.token) :
    Fixed c c' ∧ c'.box = c.box ∧ Router.getRoute c.router.2.routes origin = some ms ∧ mr = [] ∧
    (c.router.2.mode = .collateral →
      c'.held + fromBE (bytesOf 32 64 body) = c.held + (rr.msgs.map (paidToSelf p)).sum ∧
      (rr.msgs.map (paidBy p)).sum = fromBE (bytesOf 32 64 body)) ∧
    (c.router.2.mode = .bridged → c'.supply = c.supply + fromBE (bytesOf 32 64 body) ∧
      (rr.msgs.map (burnedBy p)).sum = 0 ∧ (rr.msgs.map (mintedBy p)).sum = fromBE (bytesOf 32 64 body)) := by
  obtain ⟨x, h1, h⟩ := bind_eq_ok.1 h
  obtain ⟨y, h2, hf⟩ := bind_eq_ok.1 h
  cases hf
  obtain ⟨r, h3, rfl⟩ := execute_handle.1 h1
  obtain ⟨_, h4, h5, dst, token, msgs, h6, h7, h8, rfl⟩ := Warp.handle_ok.1 h3
  rw [htk, Option.some.injEq] at h7
  subst h7
  have hz : p.coins [] = 0 := by unfold Setup.coins; split <;> rfl
  simp only [hz, Nat.add_zero] at h2
  generalize fromBE (bytesOf 32 64 body) = n at h8 ⊢
  cases hp : p.native with
  | true =>
    have hk : p.kind = Warp.native := by simp [Setup.kind, hp]
    rw [hk] at h8
    obtain ⟨t1, rfl⟩ := native_release.1 h8
    have hn : p.coins [⟨p.token, n⟩] = n := by
      rw [coins_native hp, amountOf_cons]; simp
    cases hmo : c.router.2.mode with
    | collateral =>
      rw [hmo] at h2
      simp only [nativeRelease] at h2 ⊢
      obtain ⟨u, v, g1, g2, rfl⟩ := performAll_cons.1 h2
      rw [performAll_nil.1 g2]
      simp only [perform, hn] at g1
      obtain ⟨hd, g3, gf⟩ := bind_eq_ok.1 g1
      cases gf
      obtain ⟨g5, rfl⟩ := sub_ok.1 g3
      refine ⟨⟨rfl, rfl, rfl, rfl, rfl, rfl⟩, rfl, h4, rfl, fun _ => ⟨?_, ?_⟩, fun hh => by cases hh⟩
      · simp only [List.map_cons, List.map_nil, paidToSelf, List.sum_cons, List.sum_nil, hn]
        by_cases hd : dst = p.router
        · rw [if_pos hd, if_pos hd]; rfl
        · rw [if_neg hd, if_neg hd]; omega
      · simp [paidBy, hn]
    | bridged =>
      rw [hmo] at h2
      simp only [nativeRelease] at h2 ⊢
      obtain ⟨u, v, g1, g2, rfl⟩ := performAll_cons.1 h2
      simp only [perform, hp, and_self, if_true, Except.ok.injEq] at g1
      subst g1
      obtain ⟨u, w, g1, g2', rfl⟩ := performAll_cons.1 g2
      rw [performAll_nil.1 g2']
      simp only [perform, hn] at g1
      obtain ⟨hd, g3, gf⟩ := bind_eq_ok.1 g1
      cases gf
      refine ⟨⟨rfl, rfl, rfl, rfl, rfl, rfl⟩, rfl, h4, rfl, (fun hh => by cases hh), fun _ => ⟨rfl, ?_, ?_⟩⟩
      · simp [burnedBy]
      · simp [mintedBy, hp]
  | false =>
    have hk : p.kind = Warp.cw20 := by simp [Setup.kind, hp]
    rw [hk] at h8
    obtain ⟨t1, rfl⟩ := cw20_release.1 h8
    cases hmo : c.router.2.mode with
    | collateral =>
      rw [hmo] at h2
      simp only [cw20Release] at h2 ⊢
      obtain ⟨u, v, g1, g2, rfl⟩ := performAll_cons.1 h2
      rw [performAll_nil.1 g2]
      obtain ⟨u1, u2⟩ := u
      obtain ⟨g3, rfl⟩ := perform_cw20 hp (by simp) g1
      simp only [cw20] at g3
      obtain ⟨hd, g4, gf⟩ := bind_eq_ok.1 g3
      cases gf
      obtain ⟨g5, rfl⟩ := sub_ok.1 g4
      refine ⟨⟨rfl, rfl, rfl, rfl, rfl, rfl⟩, rfl, h4, rfl, fun _ => ⟨?_, ?_⟩, fun hh => by cases hh⟩
      · simp only [List.map_cons, List.map_nil, paidToSelf, List.sum_cons, List.sum_nil, hp, true_and]
        by_cases hd : dst = p.router
        · rw [if_pos hd, if_pos hd]; rfl
        · rw [if_neg hd, if_neg hd]; omega
      · simp [paidBy, hp]
    | bridged =>
      rw [hmo] at h2
      simp only [cw20Release] at h2 ⊢
      obtain ⟨u, v, g1, g2, rfl⟩ := performAll_cons.1 h2
      rw [performAll_nil.1 g2]
      obtain ⟨u1, u2⟩ := u
      obtain ⟨g3, rfl⟩ := perform_cw20 hp (by simp) g1
      simp only [cw20] at g3
      cases g3
      refine ⟨⟨rfl, rfl, rfl, rfl, rfl, rfl⟩, rfl, h4, rfl, (fun hh => by cases hh), fun _ => ⟨rfl, ?_, ?_⟩⟩
      · simp [burnedBy]
      · simp [mintedBy, hp]

end Hpl.Bridge
