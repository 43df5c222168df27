import Verif.Lemmas.Warp
import Verif.Props.Igp
import Verif.Props.Metadata

/-! # Properties of token routers: C59, C60, C62 -/

namespace Hpl

open Spec Warp

namespace Spec

/-- The messages with which the native router gives `n` tokens to `dst`. -/
def nativeRelease (self : Addr) (token : String) (mode : Mode) (dst : Addr) (n : Nat) : List OutMsg :=
  match mode with
  | .bridged => [.tfMint self token n, .bankSend dst [⟨token, n⟩]]
  | .collateral => [.bankSend dst [⟨token, n⟩]]

/-- The message with which the cw20 router gives `n` tokens to `dst`. -/
def cw20Release (_self : Addr) (token : String) (mode : Mode) (dst : Addr) (n : Nat) : List OutMsg :=
  match mode with
  | .bridged => [.execute token (.cw20Mint dst n) []]
  | .collateral => [.execute token (.cw20Transfer dst n) []]

/-- The messages, other than announcing the transfer, with which the native router takes `n` tokens attached to a call:
burning them or just keeping them. -/
def nativeTake (self : Addr) (token : String) (mode : Mode) (n : Nat) : List OutMsg :=
  match mode with
  | .bridged => [.tfBurn self token n]
  | .collateral => []

/-- The messages with which the cw20 router takes `n` tokens of `sender`: fetching and then burning or keeping them. -/
def cw20Take (self : Addr) (token : String) (mode : Mode) (sender : Addr) (n : Nat) : List OutMsg :=
  .execute token (.cw20TransferFrom sender self n) [] ::
    (match mode with
    | .bridged => [.execute token (.cw20Burn n) []]
    | .collateral => [])

end Spec

section

variable {k : Kind} {C : Codec} {self : Addr} {valid : Addr → Bool} {vt : Bool} {hrp : String} {owner mailbox : Addr}
  {mode : Mode} {token : Option String} {s0 : Ownable.State × State}

theorem deploy_ok : deploy valid vt hrp owner mailbox mode token = .ok s0 ↔
    valid owner = true ∧ valid mailbox = true ∧ (mode = .collateral → vt = true) ∧
      ∃ t, token = some t ∧ s0 = (Ownable.init owner, ⟨some t, mode, hrp, mailbox, Connection.empty, OMap.empty⟩) := by
  have hi : ∀ m t s, instantiate valid hrp owner mailbox m t = .ok s ↔ valid owner = true ∧ valid mailbox = true ∧
      s = (Ownable.init owner, ⟨t, m, hrp, mailbox, Connection.empty, OMap.empty⟩) := by
    intro m t s
    unfold instantiate
    by_cases h1 : valid owner = true <;> by_cases h2 : valid mailbox = true <;> simp [h1, h2, eq_comm, ensure]
  unfold deploy
  cases mode with
  | collateral =>
    cases token with
    | none => cases vt <;> simp [ensure]
    | some t => cases vt <;> simp [ensure, hi]
  | bridged =>
    rw [bind_eq_ok]
    simp only [hi]
    cases token with
    | none => simp [reply]
    | some t =>
      constructor
      · rintro ⟨s, ⟨h1, h2, rfl⟩, h3⟩
        cases h3
        exact ⟨h1, h2, by simp, t, rfl, rfl⟩
      · rintro ⟨h1, h2, _, t', h3, rfl⟩
        cases h3
        exact ⟨_, ⟨h1, h2, rfl⟩, rfl⟩

/-- The state of a router after a history. -/
theorem warp_state (hd : deploy valid vt hrp owner mailbox mode token = .ok s0) (k : Kind) (C : Codec) (self : Addr)
    (h : List (ExecCall (Addr → Bool) Msg)) :
    (run (stepOf (execute k C self)) s0 h).2 =
      ⟨token, mode, hrp, mailbox, ⟨connMailboxAfter owner h, ismAfter owner h, hookAfter owner h⟩,
        Router.setRoutes OMap.empty ((warpCalls owner h).flatMap (fun x => remoteUpdates x.2))⟩ := by
  obtain ⟨_, _, _, t, rfl, rfl⟩ := deploy_ok.1 hd
  rw [run_state]
  simp only [Connection.empty, Option.or_none]
  rfl

theorem warp_route (hd : deploy valid vt hrp owner mailbox mode token = .ok s0) (k : Kind) (C : Codec) (self : Addr)
    (h : List (ExecCall (Addr → Bool) Msg)) (d : UInt32) :
    Router.getRoute (run (stepOf (execute k C self)) s0 h).2.routes d = enrolledAfter owner h d := by
  rw [warp_state hd]
  exact getRoute_run _ d

theorem execute_inr {s : Ownable.State × State} {e : Addr → Bool} {sender : Addr} {funds : List Coin} {m : Msg}
    {x : (Ownable.State × State) × Response} :
    execute k C self s ⟨e, sender, funds, .inr m⟩ = .ok x ↔
      ∃ p, part k C self e s.1 s.2 sender funds m = .ok p ∧ x = ((s.1, p.1), p.2) := by
  unfold execute; exact execOwned_inr

theorem execute_handle {s : Ownable.State × State} {e : Addr → Bool} {sender : Addr} {funds : List Coin}
    {origin : UInt32} {msgSender body : Bytes} {x : (Ownable.State × State) × Response} :
    execute k C self s ⟨e, sender, funds, .inr (.handle origin msgSender body)⟩ = .ok x ↔
      ∃ r, handle k C self s.2 sender origin msgSender body = .ok r ∧ x = (s, r) := by
  rw [execute_inr]
  unfold part
  constructor
  · rintro ⟨p, h, rfl⟩
    obtain ⟨r, h1, hf⟩ := bind_eq_ok.1 h
    cases hf
    exact ⟨r, h1, rfl⟩
  · rintro ⟨r, h1, rfl⟩
    exact ⟨(s.2, r), bind_eq_ok.2 ⟨r, h1, rfl⟩, rfl⟩

theorem execute_transfer {s : Ownable.State × State} {e : Addr → Bool} {sender : Addr} {funds : List Coin}
    {dest : UInt32} {recipient : Bytes} {amount : Nat} {hook : Option Addr} {metadata : Option Bytes}
    {x : (Ownable.State × State) × Response} :
    execute k C self s ⟨e, sender, funds, .inr (.transferRemote dest recipient amount hook metadata)⟩ = .ok x ↔
      ∃ r, transferRemote k e self s.2 sender funds dest recipient amount hook metadata = .ok r ∧ x = (s, r) := by
  rw [execute_inr]
  unfold part
  constructor
  · rintro ⟨p, h, rfl⟩
    obtain ⟨r, h1, hf⟩ := bind_eq_ok.1 h
    cases hf
    exact ⟨r, h1, rfl⟩
  · rintro ⟨r, h1, rfl⟩
    exact ⟨(s.2, r), bind_eq_ok.2 ⟨r, h1, rfl⟩, rfl⟩

/-- A call that is neither a delivery nor a transfer sends no message. -/
theorem execute_quiet {s : Ownable.State × State} {c : ExecCall (Addr → Bool) Msg}
    {x : (Ownable.State × State) × Response} (h : execute k C self s c = .ok x)
    (h1 : ∀ o ms b, c.msg ≠ .inr (.handle o ms b)) (h2 : ∀ d r a hk md, c.msg ≠ .inr (.transferRemote d r a hk md)) :
    x.2.msgs = [] := by
  obtain ⟨e, sender, funds, msg⟩ := c
  cases msg with
  | inl o =>
    obtain ⟨_, _, rfl⟩ := execOwned_inl.1 h
    rfl
  | inr m =>
    obtain ⟨p, hp, rfl⟩ := execute_inr.1 h
    cases m with
    | router m => rw [part_cfg_msgs (c := .router m) rfl hp]
    | connection m => rw [part_cfg_msgs (c := .connection m) rfl hp]
    | handle o ms b => exact absurd rfl (h1 o ms b)
    | transferRemote d r a hk md => exact absurd rfl (h2 d r a hk md)

/-! ## C59 -/

/-- What both kinds of routers have in common: `rel` are the messages for a release. -/
theorem release_generic {rel : Addr → String → Mode → Addr → Nat → List OutMsg}
    (hrel : ∀ self t m dst n l, k.release self t m dst n = .ok l ↔ n < 2 ^ 128 ∧ l = rel self t m dst n)
    (htake : ∀ self t m snd f n p, k.take self t m snd f n = .ok p → ∀ x ∈ p.2, releases x = false)
    (hd : deploy valid vt hrp owner mailbox mode token = .ok s0) (h : List (ExecCall (Addr → Bool) Msg)) :
    (∀ (e : Addr → Bool) (sender : Addr) (funds : List Coin) (origin : UInt32) (msgSender body : Bytes)
        (x : (Ownable.State × State) × Response),
      execute k C self (run (stepOf (execute k C self)) s0 h) ⟨e, sender, funds, .inr (.handle origin msgSender body)⟩ =
          .ok x ↔
        ∃ t dst, token = some t ∧ sender = mailbox ∧ enrolledAfter owner h origin = some msgSender ∧
          64 ≤ body.length ∧ accountOf C hrp (bytesOf 0 32 body) = some dst ∧
          fromBE (bytesOf 32 64 body) < 2 ^ 128 ∧
          x = (run (stepOf (execute k C self)) s0 h, { msgs := rel self t mode dst (fromBE (bytesOf 32 64 body)) })) ∧
    (∀ (c : ExecCall (Addr → Bool) Msg) (x : (Ownable.State × State) × Response),
      execute k C self (run (stepOf (execute k C self)) s0 h) c = .ok x →
      (∀ origin msgSender body, c.msg ≠ .inr (.handle origin msgSender body)) →
      ∀ m ∈ x.2.msgs, releases m = false) := by
  constructor
  · intro e sender funds origin msgSender body x
    rw [execute_handle]
    simp only [handle_ok, warp_route hd, hrel, accountOf_eq]
    rw [warp_state hd]
    constructor
    · rintro ⟨r, ⟨h1, h2, h3, dst, t, ms, h4, h5, ⟨h6, rfl⟩, rfl⟩, rfl⟩
      exact ⟨t, dst, h5, h1, h2, h3, h4, h6, rfl⟩
    · rintro ⟨t, dst, h5, h1, h2, h3, h4, h6, rfl⟩
      exact ⟨_, ⟨h1, h2, h3, dst, t, _, h4, h5, ⟨h6, rfl⟩, rfl⟩, rfl⟩
  · intro c x hx hn m hm
    by_cases ht : ∃ d r a hk md, c.msg = .inr (.transferRemote d r a hk md)
    · obtain ⟨d, r, a, hk, md, ht⟩ := ht
      obtain ⟨e, sender, funds, msg⟩ := c
      simp only at ht
      subst ht
      obtain ⟨r', hr, rfl⟩ := execute_transfer.1 hx
      obtain ⟨_, _, t, p, rt, _, h3, _, rfl⟩ := transferRemote_ok.1 hr
      rcases List.mem_append.1 hm with hm | hm
      · exact htake _ _ _ _ _ _ _ h3 m hm
      · rw [List.mem_singleton.1 hm]; rfl
    · rw [execute_quiet hx hn (fun d r a hk md hh => ht ⟨d, r, a, hk, md, hh⟩)] at hm
      cases hm

theorem native_release {self : Addr} {t : String} {m : Mode} {dst : Addr} {n : Nat} {l : List OutMsg} :
    native.release self t m dst n = .ok l ↔ n < 2 ^ 128 ∧ l = nativeRelease self t m dst n := by
  simp only [native, bind_eq_ok, toUint128_ok]
  constructor
  · rintro ⟨n', ⟨h1, rfl⟩, hf⟩
    simp only [pure_eq_ok, Except.ok.injEq] at hf
    refine ⟨h1, hf.symm.trans ?_⟩
    cases m <;> rfl
  · rintro ⟨h1, rfl⟩
    refine ⟨n, ⟨h1, rfl⟩, ?_⟩
    cases m <;> rfl

theorem cw20_release {self : Addr} {t : String} {m : Mode} {dst : Addr} {n : Nat} {l : List OutMsg} :
    cw20.release self t m dst n = .ok l ↔ n < 2 ^ 128 ∧ l = cw20Release self t m dst n := by
  simp only [cw20, bind_eq_ok, toUint128_ok]
  constructor
  · rintro ⟨n', ⟨h1, rfl⟩, hf⟩
    simp only [pure_eq_ok, Except.ok.injEq] at hf
    refine ⟨h1, hf.symm.trans ?_⟩
    cases m <;> rfl
  · rintro ⟨h1, rfl⟩
    refine ⟨n, ⟨h1, rfl⟩, ?_⟩
    cases m <;> rfl

theorem native_take {self : Addr} {t : String} {m : Mode} {sender : Addr} {funds : List Coin} {n : Nat}
    {p : List Coin × List OutMsg} :
    native.take self t m sender funds n = .ok p ↔
      takeCoin t n funds = .ok p.1 ∧ p.2 = nativeTake self t m n := by
  simp only [native, bind_eq_ok]
  constructor
  · rintro ⟨rest, h1, hf⟩
    simp only [pure_eq_ok, Except.ok.injEq] at hf
    subst hf
    refine ⟨h1, ?_⟩
    cases m <;> rfl
  · rintro ⟨h1, h2⟩
    refine ⟨p.1, h1, ?_⟩
    obtain ⟨a, b⟩ := p
    simp only at h2
    subst h2
    cases m <;> rfl

theorem cw20_take {self : Addr} {t : String} {m : Mode} {sender : Addr} {funds : List Coin} {n : Nat}
    {p : List Coin × List OutMsg} :
    cw20.take self t m sender funds n = .ok p ↔ p = (funds, cw20Take self t m sender n) := by
  simp only [cw20, Except.ok.injEq]
  rw [eq_comm]
  cases m <;> rfl

theorem native_take_quiet (self : Addr) (t : String) (m : Mode) (sender : Addr) (funds : List Coin) (n : Nat)
    (p : List Coin × List OutMsg) (h : native.take self t m sender funds n = .ok p) :
    ∀ x ∈ p.2, releases x = false := by
  rw [(native_take.1 h).2]
  cases m <;> simp [nativeTake, releases]

theorem cw20_take_quiet (self : Addr) (t : String) (m : Mode) (sender : Addr) (funds : List Coin) (n : Nat)
    (p : List Coin × List OutMsg) (h : cw20.take self t m sender funds n = .ok p) :
    ∀ x ∈ p.2, releases x = false := by
  rw [cw20_take.1 h]
  cases m <;> simp [cw20Take, releases]

/-- **C59**, native router. After any history a delivery succeeds exactly if it comes from the mailbox named at
deployment, its sender is the router the owner last enrolled for the origin, and its body names an account and an amount
below 2^128; then the only messages are those giving this amount to this account. No other call releases or mints
anything. -/
theorem C59_native (hd : deploy valid vt hrp owner mailbox mode token = .ok s0)
    (h : List (ExecCall (Addr → Bool) Msg)) :
    (∀ (e : Addr → Bool) (sender : Addr) (funds : List Coin) (origin : UInt32) (msgSender body : Bytes)
        (x : (Ownable.State × State) × Response),
      execute native C self (run (stepOf (execute native C self)) s0 h)
          ⟨e, sender, funds, .inr (.handle origin msgSender body)⟩ = .ok x ↔
        ∃ t dst, token = some t ∧ sender = mailbox ∧ enrolledAfter owner h origin = some msgSender ∧
          64 ≤ body.length ∧ accountOf C hrp (bytesOf 0 32 body) = some dst ∧
          fromBE (bytesOf 32 64 body) < 2 ^ 128 ∧
          x = (run (stepOf (execute native C self)) s0 h,
            { msgs := nativeRelease self t mode dst (fromBE (bytesOf 32 64 body)) })) ∧
    (∀ (c : ExecCall (Addr → Bool) Msg) (x : (Ownable.State × State) × Response),
      execute native C self (run (stepOf (execute native C self)) s0 h) c = .ok x →
      (∀ origin msgSender body, c.msg ≠ .inr (.handle origin msgSender body)) →
      ∀ m ∈ x.2.msgs, releases m = false) :=
  release_generic (fun _ _ _ _ _ _ => native_release) native_take_quiet hd h

/-- **C59**, cw20 router. -/
theorem C59_cw20 (hd : deploy valid vt hrp owner mailbox mode token = .ok s0)
    (h : List (ExecCall (Addr → Bool) Msg)) :
    (∀ (e : Addr → Bool) (sender : Addr) (funds : List Coin) (origin : UInt32) (msgSender body : Bytes)
        (x : (Ownable.State × State) × Response),
      execute cw20 C self (run (stepOf (execute cw20 C self)) s0 h)
          ⟨e, sender, funds, .inr (.handle origin msgSender body)⟩ = .ok x ↔
        ∃ t dst, token = some t ∧ sender = mailbox ∧ enrolledAfter owner h origin = some msgSender ∧
          64 ≤ body.length ∧ accountOf C hrp (bytesOf 0 32 body) = some dst ∧
          fromBE (bytesOf 32 64 body) < 2 ^ 128 ∧
          x = (run (stepOf (execute cw20 C self)) s0 h,
            { msgs := cw20Release self t mode dst (fromBE (bytesOf 32 64 body)) })) ∧
    (∀ (c : ExecCall (Addr → Bool) Msg) (x : (Ownable.State × State) × Response),
      execute cw20 C self (run (stepOf (execute cw20 C self)) s0 h) c = .ok x →
      (∀ origin msgSender body, c.msg ≠ .inr (.handle origin msgSender body)) →
      ∀ m ∈ x.2.msgs, releases m = false) :=
  release_generic (fun _ _ _ _ _ _ => cw20_release) cw20_take_quiet hd h

namespace Ex

/-- A collateral router of the native token "uosmo", owner "o". -/
def warp0 : Ownable.State × State :=
  (Ownable.init "o", ⟨some "uosmo", .collateral, "osmo", "mb", Connection.empty, OMap.empty⟩)

theorem warp0_deployed : deploy (fun _ => true) true "osmo" "o" "mb" .collateral (some "uosmo") = .ok warp0 := rfl

/-- A remote router. -/
def remote : Bytes := List.replicate 31 0 ++ [7]

/-- The payload giving 5 tokens to the account of 20 bytes 9. -/
def payload : Bytes := List.replicate 12 0 ++ List.replicate 20 9 ++ List.replicate 31 0 ++ [5]

/-- A stranger's enrolment, which fails, the owner's enrolment for two domains, one of them removed again, and
settings of connections. -/
def warpHistory : List (ExecCall (Addr → Bool) Msg) :=
  [⟨fun _ => true, "x", [], .inr (.router (.setRoute (1, some [1])))⟩,
   ⟨fun _ => true, "o", [], .inr (.router (.setRoutes [(1, some remote), (2, some remote)]))⟩,
   ⟨fun _ => true, "o", [], .inr (.router (.setRoute (2, none)))⟩,
   ⟨fun _ => true, "o", [], .inr (.connection (.setMailbox "mb2"))⟩,
   ⟨fun _ => true, "o", [], .inr (.connection (.setHook "hk"))⟩,
   ⟨fun _ => false, "o", [], .inr (.connection (.setHook "bad"))⟩,
   ⟨fun _ => true, "o", [], .inr (.connection (.setIsm "ism"))⟩]

end Ex

/-- The delivery the history allows. -/
example : ∃ x, execute native Bech.codec "self" (run (stepOf (execute native Bech.codec "self")) Ex.warp0 Ex.warpHistory)
    ⟨fun _ => true, "mb", [], .inr (.handle 1 Ex.remote Ex.payload)⟩ = .ok x := by
  obtain ⟨dst, hdst⟩ : ∃ dst, accountOf Bech.codec "osmo" (bytesOf 0 32 Ex.payload) = some dst := by
    refine ⟨((accountOf Bech.codec "osmo" (bytesOf 0 32 Ex.payload)).getD ""), ?_⟩
    decide +kernel
  exact ⟨_, ((C59_native Ex.warp0_deployed Ex.warpHistory).1 _ _ _ _ _ _ _).2
    ⟨"uosmo", dst, rfl, rfl, by decide +kernel, by decide, hdst, by decide +kernel, rfl⟩⟩

/-! ## C60 -/

/-- What both kinds of routers have in common: `take` says what is taken and passed on. -/
theorem transfer_generic {tk : Addr → String → Mode → Addr → List Coin → Nat → List Coin → List OutMsg → Prop}
    (htake : ∀ self t m snd f n p, k.take self t m snd f n = .ok p ↔ tk self t m snd f n p.1 p.2)
    (hd : deploy valid vt hrp owner mailbox mode token = .ok s0) (h : List (ExecCall (Addr → Bool) Msg))
    (e : Addr → Bool) (sender : Addr) (funds : List Coin) (dest : UInt32) (recipient : Bytes) (amount : Nat)
    (hook : Option Addr) (metadata : Option Bytes) (x : (Ownable.State × State) × Response) :
    execute k C self (run (stepOf (execute k C self)) s0 h)
        ⟨e, sender, funds, .inr (.transferRemote dest recipient amount hook metadata)⟩ = .ok x ↔
      ∃ t rest ms router, token = some t ∧ amount < 2 ^ 128 ∧ (∀ a, hook = some a → e a = true) ∧
        tk self t mode sender funds amount rest ms ∧ enrolledAfter owner h dest = some router ∧
        x = (run (stepOf (execute k C self)) s0 h,
          { msgs := ms ++ [.execute mailbox (.dispatch ⟨dest, router, recipient ++ u256be amount,
              hook.or (hookAfter owner h), metadata⟩) rest] }) := by
  rw [execute_transfer]
  simp only [transferRemote_ok, warp_route hd, htake]
  rw [warp_state hd]
  simp only [dispatchMsg, WarpMessage.encode, List.append_nil]
  constructor
  · rintro ⟨r, ⟨h1, h2, t, p, rt, h3, h4, h5, rfl⟩, rfl⟩
    exact ⟨t, p.1, p.2, rt, h3, h1, h2, h4, h5, rfl⟩
  · rintro ⟨t, rest, ms, rt, h3, h1, h2, h4, h5, rfl⟩
    exact ⟨_, ⟨h1, h2, t, (rest, ms), rt, h3, h4, h5, rfl⟩, rfl⟩

/-- The payload of a transfer to a recipient of 32 bytes. -/
theorem transfer_body {recipient : Bytes} {amount : Nat} (hr : recipient.length = 32) (ha : amount < 2 ^ 128) :
    (recipient ++ u256be amount).length = 64 ∧ bytesOf 0 32 (recipient ++ u256be amount) = recipient ∧
      fromBE (bytesOf 32 64 (recipient ++ u256be amount)) = amount := by
  obtain ⟨_, h1, h2, _⟩ := C03_warp_payload_roundtrip.1 ⟨recipient, amount, []⟩ hr (by
    show amount < 2 ^ 256
    exact Nat.lt_trans ha (by decide))
  simp only [WarpMessage.encode, List.append_nil] at h1 h2
  refine ⟨by simp [hr], ?_, ?_⟩
  · simpa [bytesOf] using h1
  · simpa [bytesOf] using h2

/-- **C60**, native router. After any history a transfer succeeds exactly if the funds hold a coin of the token of at
least the amount, a router is enrolled for the destination and a hook given is a valid address. Then the amount is
burned (bridged) or kept (collateral), one dispatch is sent to the mailbox, with all funds less the amount, to the
enrolled router, and its body decodes to the recipient and the amount. -/
theorem C60_native (hd : deploy valid vt hrp owner mailbox mode token = .ok s0)
    (h : List (ExecCall (Addr → Bool) Msg)) (e : Addr → Bool) (sender : Addr) (funds : List Coin) (dest : UInt32)
    (recipient : Bytes) (hr : recipient.length = 32) (amount : Nat) (hook : Option Addr) (metadata : Option Bytes)
    (x : (Ownable.State × State) × Response) :
    (execute native C self (run (stepOf (execute native C self)) s0 h)
        ⟨e, sender, funds, .inr (.transferRemote dest recipient amount hook metadata)⟩ = .ok x ↔
      ∃ t pre n post router body, token = some t ∧ amount < 2 ^ 128 ∧ (∀ a, hook = some a → e a = true) ∧
        funds = pre ++ ⟨t, n⟩ :: post ∧ (∀ c ∈ pre, c.denom ≠ t) ∧ amount ≤ n ∧
        enrolledAfter owner h dest = some router ∧
        body = recipient ++ u256be amount ∧
        x = (run (stepOf (execute native C self)) s0 h,
          { msgs := nativeTake self t mode amount ++
              [.execute mailbox (.dispatch ⟨dest, router, body, hook.or (hookAfter owner h), metadata⟩)
                (pre ++ ⟨t, n - amount⟩ :: post)] })) ∧
    (execute native C self (run (stepOf (execute native C self)) s0 h)
        ⟨e, sender, funds, .inr (.transferRemote dest recipient amount hook metadata)⟩ = .ok x →
      ∃ t router body rest, token = some t ∧ enrolledAfter owner h dest = some router ∧
        body.length = 64 ∧ bytesOf 0 32 body = recipient ∧ fromBE (bytesOf 32 64 body) = amount ∧
        amountOf t funds = amount + amountOf t rest ∧ (∀ d, d ≠ t → amountOf d funds = amountOf d rest) ∧
        x.2.msgs = nativeTake self t mode amount ++
          [.execute mailbox (.dispatch ⟨dest, router, body, hook.or (hookAfter owner h), metadata⟩) rest]) := by
  have key := transfer_generic (k := native) (C := C) (self := self)
    (tk := fun self t m _ f n rest ms => takeCoin t n f = .ok rest ∧ ms = nativeTake self t m n)
    (fun _ _ _ _ _ _ _ => native_take) hd h e sender funds dest recipient amount hook metadata x
  simp only [takeCoin_ok] at key
  constructor
  · rw [key]
    constructor
    · rintro ⟨t, rest, ms, rt, h1, h2, h3, ⟨⟨pre, n, post, h4, h5, h6, rfl⟩, rfl⟩, h7, rfl⟩
      exact ⟨t, pre, n, post, rt, _, h1, h2, h3, h4, h5, h6, h7, rfl, rfl⟩
    · rintro ⟨t, pre, n, post, rt, _, h1, h2, h3, h4, h5, h6, h7, rfl, rfl⟩
      exact ⟨t, _, _, rt, h1, h2, h3, ⟨⟨pre, n, post, h4, h5, h6, rfl⟩, rfl⟩, h7, rfl⟩
  · intro hx
    obtain ⟨t, rest, ms, rt, h1, h2, h3, ⟨⟨pre, n, post, rfl, h5, h6, rfl⟩, rfl⟩, h7, rfl⟩ := key.1 hx
    obtain ⟨b1, b2, b3⟩ := transfer_body hr h2
    refine ⟨t, rt, _, _, h1, h7, b1, b2, b3, ?_, ?_, rfl⟩
    · rw [amountOf_append, amountOf_append, amountOf_cons, amountOf_cons]
      simp only [if_true]
      omega
    · intro d hd'
      rw [amountOf_append, amountOf_append, amountOf_cons, amountOf_cons]
      simp only [if_neg (Ne.symm hd')]

/-- **C60**, cw20 router. After any history a transfer succeeds exactly if a router is enrolled for the destination and
a hook given is a valid address. Then exactly the amount is fetched from the caller (this message fails if the token
contract refuses it) and burned or kept, and one dispatch is sent to the mailbox with all funds, to the enrolled router;
its body decodes to the recipient and the amount. -/
theorem C60_cw20 (hd : deploy valid vt hrp owner mailbox mode token = .ok s0)
    (h : List (ExecCall (Addr → Bool) Msg)) (e : Addr → Bool) (sender : Addr) (funds : List Coin) (dest : UInt32)
    (recipient : Bytes) (hr : recipient.length = 32) (amount : Nat) (hook : Option Addr) (metadata : Option Bytes)
    (x : (Ownable.State × State) × Response) :
    (execute cw20 C self (run (stepOf (execute cw20 C self)) s0 h)
        ⟨e, sender, funds, .inr (.transferRemote dest recipient amount hook metadata)⟩ = .ok x ↔
      ∃ t router body, token = some t ∧ amount < 2 ^ 128 ∧ (∀ a, hook = some a → e a = true) ∧
        enrolledAfter owner h dest = some router ∧ body = recipient ++ u256be amount ∧
        x = (run (stepOf (execute cw20 C self)) s0 h,
          { msgs := cw20Take self t mode sender amount ++
              [.execute mailbox (.dispatch ⟨dest, router, body, hook.or (hookAfter owner h), metadata⟩) funds] })) ∧
    (execute cw20 C self (run (stepOf (execute cw20 C self)) s0 h)
        ⟨e, sender, funds, .inr (.transferRemote dest recipient amount hook metadata)⟩ = .ok x →
      ∃ t router body, token = some t ∧ enrolledAfter owner h dest = some router ∧
        body.length = 64 ∧ bytesOf 0 32 body = recipient ∧ fromBE (bytesOf 32 64 body) = amount ∧
        x.2.msgs = cw20Take self t mode sender amount ++
          [.execute mailbox (.dispatch ⟨dest, router, body, hook.or (hookAfter owner h), metadata⟩) funds]) := by
  have key := transfer_generic (k := cw20) (C := C) (self := self)
    (tk := fun self t m snd f n rest ms => (rest, ms) = (f, cw20Take self t m snd n))
    (fun _ _ _ _ _ _ _ => cw20_take) hd h e sender funds dest recipient amount hook metadata x
  simp only [Prod.mk.injEq] at key
  constructor
  · rw [key]
    constructor
    · rintro ⟨t, rest, ms, rt, h1, h2, h3, ⟨rfl, rfl⟩, h7, rfl⟩
      exact ⟨t, rt, _, h1, h2, h3, h7, rfl, rfl⟩
    · rintro ⟨t, rt, _, h1, h2, h3, h7, rfl, rfl⟩
      exact ⟨t, _, _, rt, h1, h2, h3, ⟨rfl, rfl⟩, h7, rfl⟩
  · intro hx
    obtain ⟨t, rest, ms, rt, h1, h2, h3, ⟨rfl, rfl⟩, h7, rfl⟩ := key.1 hx
    obtain ⟨b1, b2, b3⟩ := transfer_body hr h2
    exact ⟨t, rt, _, h1, h7, b1, b2, b3, rfl⟩

/-- A transfer of 5 of 8 attached tokens. -/
example : ∃ x, execute native Bech.codec "self" (run (stepOf (execute native Bech.codec "self")) Ex.warp0 Ex.warpHistory)
    ⟨fun _ => true, "x", [⟨"uatom", 3⟩, ⟨"uosmo", 8⟩], .inr (.transferRemote 1 Ex.remote 5 none none)⟩ = .ok x :=
  ⟨_, (C60_native Ex.warp0_deployed Ex.warpHistory _ _ _ _ _ (by decide) _ _ _ _).1.2
    ⟨"uosmo", [⟨"uatom", 3⟩], 8, [], Ex.remote, _, rfl, by decide, by simp, rfl, by decide, by decide,
      by decide +kernel, rfl, rfl⟩⟩

/-- C60 needs the length of the recipient: the code does not check it. Whatever amount a caller pays (even zero), with a
recipient of 64 bytes the body decodes to the first 32 of them as recipient and the last 32 as amount. -/
theorem C60_long_recipient (hd : deploy valid vt hrp owner mailbox mode token = .ok s0)
    (h : List (ExecCall (Addr → Bool) Msg)) (e : Addr → Bool) (sender : Addr) (dest : UInt32) (router thief : Bytes)
    (ht : thief.length = 32) (loot : Nat) (hl : loot < 2 ^ 256) (t : String) (htk : token = some t)
    (hrt : enrolledAfter owner h dest = some router) :
    ∃ body,
      execute native C self (run (stepOf (execute native C self)) s0 h)
        ⟨e, sender, [⟨t, 0⟩], .inr (.transferRemote dest (thief ++ u256be loot) 0 none none)⟩ =
          .ok (run (stepOf (execute native C self)) s0 h,
            { msgs := nativeTake self t mode 0 ++
              [.execute mailbox (.dispatch ⟨dest, router, body, hookAfter owner h, none⟩) [⟨t, 0⟩]] }) ∧
      execute cw20 C self (run (stepOf (execute cw20 C self)) s0 h)
        ⟨e, sender, [], .inr (.transferRemote dest (thief ++ u256be loot) 0 none none)⟩ =
          .ok (run (stepOf (execute cw20 C self)) s0 h,
            { msgs := cw20Take self t mode sender 0 ++
              [.execute mailbox (.dispatch ⟨dest, router, body, hookAfter owner h, none⟩) []] }) ∧
      bytesOf 0 32 body = thief ∧ fromBE (bytesOf 32 64 body) = loot := by
  refine ⟨thief ++ u256be loot ++ u256be 0, ?_, ?_, ?_, ?_⟩
  · refine (transfer_generic (tk := fun self t m _ f n rest ms => takeCoin t n f = .ok rest ∧
      ms = nativeTake self t m n) (fun _ _ _ _ _ _ _ => native_take) hd h e sender _ dest _ 0 none none _).2
      ⟨t, [⟨t, 0⟩], _, router, htk, by decide, by simp, ⟨by simp [takeCoin], rfl⟩, hrt, rfl⟩
  · refine (transfer_generic (tk := fun self t m snd f n rest ms => (rest, ms) = (f, cw20Take self t m snd n))
      (fun _ _ _ _ _ _ _ => cw20_take) hd h e sender _ dest _ 0 none none _).2
      ⟨t, [], _, router, htk, by decide, by simp, rfl, hrt, rfl⟩
  · simp [bytesOf, ht]
  · obtain ⟨_, _, h2, _⟩ := C03_warp_payload_roundtrip.1 ⟨thief, loot, u256be 0⟩ ht hl
    simpa [bytesOf, WarpMessage.encode] using h2

end

/-! ## C62 -/

/-- **C62**, full statement: once the owner set a mailbox in the connection settings, deliveries are accepted only from
it and transfers are dispatched only through it. -/
def C62_full : Prop :=
  ∀ (k : Kind), k = native ∨ k = cw20 → ∀ (C : Codec) (self : Addr) (valid : Addr → Bool) (vt : Bool) (hrp : String)
    (owner mailbox : Addr) (mode : Mode) (token : Option String) (s0 : Ownable.State × State),
    deploy valid vt hrp owner mailbox mode token = .ok s0 →
    ∀ (h : List (ExecCall (Addr → Bool) Msg)) (new : Addr), connMailboxAfter owner h = some new →
    ∀ (c : ExecCall (Addr → Bool) Msg) (x : (Ownable.State × State) × Response),
      execute k C self (run (stepOf (execute k C self)) s0 h) c = .ok x →
      (∀ origin msgSender body, c.msg = .inr (.handle origin msgSender body) → c.sender = new) ∧
      (∀ dst d funds, .execute dst (.dispatch d) funds ∈ x.2.msgs → dst = new)

/-- **C62** does not hold: the mailbox of the connection settings is a different storage item from the one used. -/
theorem C62_full_refuted : ¬ C62_full := by
  intro hc
  have h1 := (C60_native (C := Bech.codec) (self := "self") Ex.warp0_deployed Ex.warpHistory (fun _ => true) "x"
    [⟨"uosmo", 8⟩] 1 Ex.remote (by decide) 5 none none _).1.2
    ⟨"uosmo", [], 8, [], Ex.remote, _, rfl, by decide, by simp, rfl, by simp, by decide, by decide +kernel, rfl, rfl⟩
  have h2 := (hc native (.inl rfl) _ _ _ _ _ _ _ _ _ _ Ex.warp0_deployed Ex.warpHistory "mb2" (by decide +kernel) _ _
    h1).2 "mb" _ _ (List.mem_append_right _ (List.mem_singleton.2 rfl))
  exact absurd h2 (by decide)

/-- **C62**, what holds instead: after any history deliveries are accepted only from, and transfers dispatched only
through, the mailbox named at deployment. The connection settings answer what the owner last set; its ISM and hook take
effect: the ISM is what the router tells the mailbox, the hook is used for transfers that name none. -/
theorem C62_mailbox_fixed_partial {k : Kind} (hk : k = native ∨ k = cw20) {C : Codec} {self : Addr}
    {valid : Addr → Bool} {vt : Bool} {hrp : String} {owner mailbox : Addr} {mode : Mode} {token : Option String}
    {s0 : Ownable.State × State} (hd : deploy valid vt hrp owner mailbox mode token = .ok s0)
    (h : List (ExecCall (Addr → Bool) Msg)) :
    (∀ (c : ExecCall (Addr → Bool) Msg) (x : (Ownable.State × State) × Response),
      execute k C self (run (stepOf (execute k C self)) s0 h) c = .ok x →
      (∀ origin msgSender body, c.msg = .inr (.handle origin msgSender body) → c.sender = mailbox) ∧
      (∀ dst d funds, .execute dst (.dispatch d) funds ∈ x.2.msgs → dst = mailbox ∧
        ∃ dest recipient amount hook md, c.msg = .inr (.transferRemote dest recipient amount hook md) ∧
          d.hook = hook.or (hookAfter owner h))) ∧
    (run (stepOf (execute k C self)) s0 h).2.conn.mailbox = connMailboxAfter owner h ∧
    interchainSecurityModule (run (stepOf (execute k C self)) s0 h) = ismAfter owner h := by
  refine ⟨?_, by rw [warp_state hd], by unfold interchainSecurityModule; rw [warp_state hd]⟩
  intro c x hx
  constructor
  · intro o ms b hm
    obtain ⟨e, sender, funds, msg⟩ := c
    simp only at hm
    subst hm
    rcases hk with rfl | rfl
    · obtain ⟨_, _, _, h1, _⟩ := ((C59_native hd h).1 _ _ _ _ _ _ _).1 hx
      exact h1
    · obtain ⟨_, _, _, h1, _⟩ := ((C59_cw20 hd h).1 _ _ _ _ _ _ _).1 hx
      exact h1
  · intro dst d funds hm
    by_cases ht : ∃ d r a hk md, c.msg = .inr (.transferRemote d r a hk md)
    · obtain ⟨d', r, a, hk', md, ht⟩ := ht
      refine ⟨?_, d', r, a, hk', md, ht, ?_⟩ <;>
      · obtain ⟨e, sender, funds, msg⟩ := c
        simp only at ht
        subst ht
        obtain ⟨r', hr, rfl⟩ := execute_transfer.1 hx
        obtain ⟨_, _, t, p, rt, _, h3, _, rfl⟩ := transferRemote_ok.1 hr
        rcases List.mem_append.1 hm with hm' | hm'
        · clear hm
          rcases hk with rfl | rfl
          · rw [(native_take.1 h3).2] at hm'
            revert hm'
            generalize (run (stepOf (execute native C self)) s0 h).2.mode = m
            cases m <;> simp [nativeTake]
          · rw [cw20_take.1 h3] at hm'
            revert hm'
            generalize (run (stepOf (execute cw20 C self)) s0 h).2.mode = m
            cases m <;> simp [cw20Take]
        · have := List.mem_singleton.1 hm'
          rw [dispatchMsg, warp_state hd] at this
          cases this
          rfl
    · exfalso
      by_cases hh : ∃ o ms b, c.msg = .inr (.handle o ms b)
      · obtain ⟨o, ms, b, hh⟩ := hh
        obtain ⟨e, sender, funds, msg⟩ := c
        simp only at hh
        subst hh
        rcases hk with rfl | rfl
        · obtain ⟨t, dst', _, _, _, _, _, _, rfl⟩ := ((C59_native hd h).1 _ _ _ _ _ _ _).1 hx
          revert hm
          cases mode <;> simp [nativeRelease]
        · obtain ⟨t, dst', _, _, _, _, _, _, rfl⟩ := ((C59_cw20 hd h).1 _ _ _ _ _ _ _).1 hx
          revert hm
          cases mode <;> simp [cw20Release]
      · rw [execute_quiet hx (fun o ms b hm => hh ⟨o, ms, b, hm⟩)
          (fun d r a hk md hm => ht ⟨d, r, a, hk, md, hm⟩)] at hm
        cases hm

example : (connMailboxAfter "o" Ex.warpHistory, ismAfter "o" Ex.warpHistory, hookAfter "o" Ex.warpHistory,
    enrolledAfter "o" Ex.warpHistory 1, enrolledAfter "o" Ex.warpHistory 2) =
    (some "mb2", some "ism", some "hk", some Ex.remote, none) := by decide +kernel

end Hpl
