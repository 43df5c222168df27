import Verif.Examples.TokenNet
import Verif.Props.Bridge
import Verif.Spec.TokenNet
import Mathlib.Data.Fintype.Basic
import Mathlib.Algebra.BigOperators.Ring.Finset

/-! # Backing of tokens in networks of routers: C81 -/

namespace Hpl

open Spec Bridge

namespace TokenNet

variable {κ : Type}

section append

variable (P : κ → Setup) (r : κ → Bytes) (M : κ → Warp.Mode) (x : κ) (a b : TokenLog κ)

theorem announcedAt_append [DecidableEq κ] : announcedAt x (a ++ b) = announcedAt x a ++ announcedAt x b := by simp [announcedAt]
theorem sentInNet_append : sentInNet r (a ++ b) = sentInNet r a ++ sentInNet r b := by simp [sentInNet]
theorem deliveredInNet_append : deliveredInNet (a ++ b) = deliveredInNet a ++ deliveredInNet b := by
  simp [deliveredInNet]
theorem sumOver_append (mode : Warp.Mode) (f : κ → Act κ × Out → Nat) :
    sumOver M mode f (a ++ b) = sumOver M mode f a + sumOver M mode f b := by simp [sumOver]
theorem mintedNet_append : mintedNet P M (a ++ b) = mintedNet P M a + mintedNet P M b := sumOver_append ..
theorem burnedNet_append : burnedNet P M (a ++ b) = burnedNet P M a + burnedNet P M b := sumOver_append ..
theorem releasedNet_append : releasedNet P M (a ++ b) = releasedNet P M a + releasedNet P M b := sumOver_append ..
theorem lockedNet_append : lockedNet P M (a ++ b) = lockedNet P M a + lockedNet P M b := sumOver_append ..
theorem donatedNet_append : donatedNet P M (a ++ b) = donatedNet P M a + donatedNet P M b := sumOver_append ..
theorem burnedByOthersNet_append :
    burnedByOthersNet M (a ++ b) = burnedByOthersNet M a + burnedByOthersNet M b := sumOver_append ..

end append

/-- Taken for transfers: locked or burned. -/
def took (P : κ → Setup) (M : κ → Warp.Mode) (log : TokenLog κ) : Nat := lockedNet P M log + burnedNet P M log

/-- Given for transfers: released or minted. -/
def gave (P : κ → Setup) (M : κ → Warp.Mode) (log : TokenLog κ) : Nat := releasedNet P M log + mintedNet P M log

theorem took_append (P : κ → Setup) (M : κ → Warp.Mode) (a b : TokenLog κ) :
    took P M (a ++ b) = took P M a + took P M b := by
  unfold took; rw [lockedNet_append, burnedNet_append]; omega

theorem gave_append (P : κ → Setup) (M : κ → Warp.Mode) (a b : TokenLog κ) :
    gave P M (a ++ b) = gave P M a + gave P M b := by
  unfold gave; rw [releasedNet_append, mintedNet_append]; omega

variable [DecidableEq κ]

/-- What counts as collateral on a chain. -/
def heldAt (M : κ → Warp.Mode) (s : κ → Chain) (x : κ) : Nat := if M x = .collateral then (s x).held else 0

/-- What counts as bridged supply on a chain. -/
def supplyAt (M : κ → Warp.Mode) (s : κ → Chain) (x : κ) : Nat := if M x = .bridged then (s x).supply else 0

/-- Route updates of a router message. -/
theorem part_router_routes {k : Warp.Kind} {C : Codec} {self : Addr} {valid : Addr → Bool} {own : Ownable.State}
    {st : Warp.State} {sender : Addr} {funds : List Coin} {m : Router.Msg Bytes} {q : Warp.State × Response}
    (h : Warp.part k C self valid own st sender funds (.router m) = .ok q) :
    q = ({ st with routes := Router.setRoutes st.routes (remoteUpdates (.router m)) }, {}) := by
  obtain ⟨t, h1, hf⟩ := bind_eq_ok.1 h
  cases hf
  have : t = Router.setRoutes st.routes (remoteUpdates (.router m)) := by
    unfold Router.handle at h1
    cases m with
    | setRoute x =>
      obtain ⟨_, _, h2⟩ := bind_eq_ok.1 h1
      obtain ⟨_, _, h2⟩ := bind_eq_ok.1 h2
      cases h2
      rfl
    | setRoutes l =>
      obtain ⟨_, _, h2⟩ := bind_eq_ok.1 h1
      obtain ⟨_, _, h2⟩ := bind_eq_ok.1 h2
      cases h2
      rfl
  rw [this]

theorem lastFor_mem {τ : Type} {d : UInt32} {l : List (UInt32 × Option τ)} {v : Option τ} (h : lastFor d l = some v) : (d, v) ∈ l := by
  induction l using List.reverseRecOn with
  | nil => cases h
  | append_singleton t x ih =>
    rw [lastFor_append, lastFor_singleton] at h
    by_cases hx : d = x.1
    · subst hx
      simp at h
      subst h
      simp
    · simp [hx] at h
      exact List.mem_append_left _ (ih h)

/-- Calls that are neither transfers nor deliveries only take the attached coins and may change routes as told. -/
theorem callRouter_settings {H : Bytes → Bytes} {p : Setup} {env : Mailbox.Env} {c c' : Chain}
    {call : ExecCall (Addr → Bool) Warp.Msg} {rr : Response} {mr : List Response}
    (h : callRouter H p env c call = .ok (c', rr, mr)) (hmb : c.router.2.mailbox = p.mailbox)
    (hs : call.sender ≠ p.mailbox) (ht : ∀ d r a hk md, call.msg ≠ .inr (.transferRemote d r a hk md)) :
    (c'.router.2.token = c.router.2.token ∧ c'.router.2.mode = c.router.2.mode ∧
      c'.router.2.mailbox = c.router.2.mailbox) ∧
    (∀ o q, Router.getRoute c'.router.2.routes o = some q → Router.getRoute c.router.2.routes o = some q ∨
      ∃ m, call.msg = .inr m ∧ (o, some q) ∈ remoteUpdates m) ∧
    c'.box = c.box ∧ c'.held = c.held + p.coins call.funds ∧ c'.supply = c.supply ∧ rr.msgs = [] ∧ mr = [] := by
  by_cases hm : ∃ m, call.msg = .inr (.router m)
  · obtain ⟨m, hm⟩ := hm
    obtain ⟨x, h1, h⟩ := bind_eq_ok.1 h
    obtain ⟨y, h2, hf⟩ := bind_eq_ok.1 h
    cases hf
    obtain ⟨e, sender, funds, msg⟩ := call
    simp only at hm
    subst hm
    obtain ⟨q, hq, rfl⟩ := execute_inr.1 h1
    have hp := part_router_routes hq
    subst hp
    rw [performAll_nil.1 h2]
    refine ⟨⟨rfl, rfl, rfl⟩, ?_, rfl, rfl, rfl, rfl, rfl⟩
    intro o q hg
    simp only at hg
    rw [getRoute_setRoutes] at hg
    cases hl : lastFor o (remoteUpdates (.router m)) with
    | none => rw [hl] at hg; exact .inl hg
    | some v =>
      rw [hl] at hg
      simp only at hg
      subst hg
      exact .inr ⟨_, rfl, lastFor_mem hl⟩
  · obtain ⟨f1, f2, f3, f4, f5, f6⟩ := callRouter_quiet h hmb hs (fun m hh => hm ⟨m, hh⟩) ht
    exact ⟨⟨f1.token, f1.mode, f1.mailbox⟩, fun o q hg => .inl (by rw [f1.routes] at hg; exact hg), f2, f3, f4, f5, f6⟩

theorem joined_update {P : κ → Setup} {r : κ → Bytes} {d : κ → UInt32} {M : κ → Warp.Mode} {s : κ → Chain} {x : κ}
    {c : Chain} (hj : Joined P r d M s) (h1 : c.router.2.token = (s x).router.2.token)
    (h2 : c.router.2.mode = (s x).router.2.mode) (h3 : c.router.2.mailbox = (s x).router.2.mailbox)
    (h4 : ∀ o q, Router.getRoute c.router.2.routes o = some q → ∃ y, o = d y ∧ q = r y)
    (h5 : c.box.config.hrp = (s x).box.config.hrp) (h6 : c.box.config.localDomain = (s x).box.config.localDomain) :
    Joined P r d M (Function.update s x c) := by
  have hget : ∀ (A : κ → Chain → Prop), (∀ y, A y (s y)) → A x c → ∀ y, A y (Function.update s x c y) := by
    intro A g1 g2 y
    by_cases hy : y = x
    · subst hy; rw [Function.update_self]; exact g2
    · rw [Function.update_of_ne hy]; exact g1 y
  refine ⟨hj.codec, hj.domains, ?_, hj.identity, ?_, ?_, ?_, ?_, ?_⟩
  · exact hget (fun y c => c.box.config.localDomain = d y) hj.domain (h6.trans (hj.domain x))
  · exact hget (fun y c => bech32Encode (P y).codec c.box.config.hrp (r y) = .ok (P y).router) hj.address
      (by rw [h5]; exact hj.address x)
  · exact hget (fun y c => c.router.2.token = some (P y).token) hj.token (h1.trans (hj.token x))
  · exact hget (fun y c => c.router.2.mailbox = (P y).mailbox) hj.mailbox (h3.trans (hj.mailbox x))
  · exact hget (fun y c => ∀ o q, Router.getRoute c.router.2.routes o = some q → ∃ y, o = d y ∧ q = r y) hj.routes h4
  · exact hget (fun y c => c.router.2.mode = M y) hj.mode (h2.trans (hj.mode x))

theorem joined_fixed {P : κ → Setup} {r : κ → Bytes} {d : κ → UInt32} {M : κ → Warp.Mode} {s : κ → Chain} {x : κ}
    {c : Chain} (hj : Joined P r d M s) (hf : Fixed (s x) c) : Joined P r d M (Function.update s x c) :=
  joined_update hj hf.token hf.mode hf.mailbox (fun o q h => hj.routes x o q (by rw [hf.routes] at h; exact h)) hf.hrp
    hf.domain

theorem destOf_eq {m : Bytes} {msg : Message} (h : WireFormat msg m) : destOf m = msg.dest := by
  unfold destOf
  rw [h.dest]
  simp

/-- What one step does to the books. -/
theorem step_books {H : Bytes → Bytes} {P : κ → Setup} {r : κ → Bytes} {d : κ → UInt32} {M : κ → Warp.Mode}
    {s s' : κ → Chain} {a : Act κ} {o : Out} (hj : Joined P r d M s) (h : step H P s a = .ok (s', o))
    (hcall : ∀ x c env, a = .router x c env → c.sender ≠ (P x).mailbox)
    (hrt : ∀ x c env m, a = .router x c env → c.msg = .inr m →
      ∀ o q, (o, some q) ∈ remoteUpdates m → ∃ y, o = d y ∧ q = r y)
    (hsnd : ∀ x c q, a = .mailbox x c → c.msg = .dispatch q → bech32ToH256 (P x).codec c.sender ≠ .ok (r x)) :
    Joined P r d M s' ∧ (∀ y, y ≠ chainOf a → s' y = s y) ∧
    (s (chainOf a)).box.nonce.toNat ≤ (s' (chainOf a)).box.nonce.toNat ∧
    (∀ i, (s (chainOf a)).box.deliveries.has i = true → (s' (chainOf a)).box.deliveries.has i = true) ∧
    heldAt M s' (chainOf a) + releasedNet P M [(a, o)] =
      heldAt M s (chainOf a) + lockedNet P M [(a, o)] + donatedNet P M [(a, o)] ∧
    supplyAt M s' (chainOf a) + burnedNet P M [(a, o)] + burnedByOthersNet M [(a, o)] =
      supplyAt M s (chainOf a) + mintedNet P M [(a, o)] ∧
    ((∃ m c env dest recipient amount hook md z, a = .router (chainOf a) c env ∧
        c.msg = .inr (.transferRemote dest recipient amount hook md) ∧ amount < 2 ^ 128 ∧
        sentInNet r [(a, o)] = [m] ∧ submittedTo a = [] ∧
        nonceOf m = (s (chainOf a)).box.nonce.toNat ∧
        (s' (chainOf a)).box.nonce.toNat = (s (chainOf a)).box.nonce.toNat + 1 ∧
        originOf m = (d (chainOf a)).toNat ∧ senderOf m = r (chainOf a) ∧ destOf m = d z ∧ recipientOf m = r z ∧
        amountIn m = fromBE (bytesOf 32 64 (recipient ++ u256be amount)) ∧
        took P M [(a, o)] = amount ∧ gave P M [(a, o)] = 0) ∨
     (∃ c md m y, a = .mailbox (chainOf a) c ∧ c.msg = .process md m ∧ sentInNet r [(a, o)] = [] ∧ submittedTo a = [m] ∧
        (s (chainOf a)).box.deliveries.has (H m) = false ∧ (s' (chainOf a)).box.deliveries.has (H m) = true ∧
        destOf m = d (chainOf a) ∧ originOf m = (d y).toNat ∧ senderOf m = r y ∧
        recipientOf m = r (chainOf a) ∧ took P M [(a, o)] = 0 ∧ gave P M [(a, o)] = amountIn m) ∨
     (sentInNet r [(a, o)] = [] ∧ took P M [(a, o)] = 0 ∧ gave P M [(a, o)] = 0 ∧
       (submittedTo a = [] ∨
        ∃ m, submittedTo a = [m] ∧ (s (chainOf a)).box.deliveries.has (H m) = false ∧
          (s' (chainOf a)).box.deliveries.has (H m) = true ∧ destOf m = d (chainOf a) ∧
          recipientOf m ≠ r (chainOf a)))) := by
  cases a with
  | gift x n =>
    simp only [step, Except.ok.injEq, Prod.mk.injEq] at h
    obtain ⟨rfl, rfl⟩ := h
    refine ⟨joined_fixed hj ⟨rfl, rfl, rfl, rfl, rfl, rfl⟩, fun y hy => Function.update_of_ne hy _ _, ?_, ?_, ?_, ?_,
      .inr (.inr ⟨by simp [sentInNet], ?_, ?_, .inl rfl⟩)⟩
    · simp only [chainOf, Function.update_self]; exact Nat.le_refl _
    · simp only [chainOf, Function.update_self]; exact fun _ h => h
    · cases hM : M x <;>
        simp [heldAt, releasedNet, lockedNet, donatedNet, sumOver, chainOf, hM, giftIn, isTransferAct, attachedTo]
    · cases hM : M x <;> simp [supplyAt, burnedNet, mintedNet, burnedByOthersNet, sumOver, chainOf, hM, burnIn]
    · simp [took, lockedNet, burnedNet, sumOver, isTransferAct]
    · simp [gave, releasedNet, mintedNet, sumOver]
  | burn x n =>
    obtain ⟨t, h1, hf⟩ := bind_eq_ok.1 h
    obtain ⟨h2, rfl⟩ := sub_ok.1 h1
    simp only [pure_eq_ok, Except.ok.injEq, Prod.mk.injEq] at hf
    obtain ⟨rfl, rfl⟩ := hf
    refine ⟨joined_fixed hj ⟨rfl, rfl, rfl, rfl, rfl, rfl⟩, fun y hy => Function.update_of_ne hy _ _, ?_, ?_, ?_, ?_,
      .inr (.inr ⟨by simp [sentInNet], ?_, ?_, .inl rfl⟩)⟩
    · simp only [chainOf, Function.update_self]; exact Nat.le_refl _
    · simp only [chainOf, Function.update_self]; exact fun _ h => h
    · cases hM : M x <;>
        simp [heldAt, releasedNet, lockedNet, donatedNet, sumOver, chainOf, hM, giftIn, isTransferAct, attachedTo]
    · cases hM : M x <;> simp [supplyAt, burnedNet, mintedNet, burnedByOthersNet, sumOver, chainOf, hM, burnIn]
      omega
    · simp [took, lockedNet, burnedNet, sumOver, isTransferAct]
    · simp [gave, releasedNet, mintedNet, sumOver]
  | router x c env =>
    obtain ⟨⟨c', rr, mr⟩, h1, hf⟩ := bind_eq_ok.1 h
    simp only [pure_eq_ok, Except.ok.injEq, Prod.mk.injEq] at hf
    obtain ⟨rfl, rfl⟩ := hf
    have hmb : (s x).router.2.mailbox = (P x).mailbox := hj.mailbox x
    have hmode := hj.mode x
    by_cases ht : ∃ dest recipient amount hook md, c.msg = .inr (.transferRemote dest recipient amount hook md)
    · obtain ⟨dest, recipient, amount, hook, md, ht⟩ := ht
      obtain ⟨e, sender, funds, msg⟩ := c
      simp only at ht
      subst ht
      obtain ⟨f1, f2, f3, ⟨router, f4, f5, f6⟩, f7, f8, f9⟩ :=
        callRouter_transfer h1 (hj.token x) hmb (hj.identity x)
      obtain ⟨z, rfl, rfl⟩ := hj.routes x dest router f4
      have hwf := (C01_message_layout ⟨3, (s x).box.nonce, (s x).box.config.localDomain, r x, d z, r z,
        recipient ++ u256be amount⟩ (Mailbox.length_bech32ToH256 (hj.identity x)) f5 _).1 rfl
      generalize hmm : Message.encode ⟨3, (s x).box.nonce, (s x).box.config.localDomain, r x, d z, r z,
        recipient ++ u256be amount⟩ = m at hwf f6
      have hms : senderOf m = r x := hwf.sender
      refine ⟨joined_fixed hj f1, fun y hy => Function.update_of_ne hy _ _, ?_, ?_, ?_, ?_, .inl ⟨m, _, env, d z,
        recipient, amount, hook, md, z, rfl, rfl, f7, by simp [sentInNet, chainOf, f6, hms], rfl, hwf.nonce, ?_,
        ?_, hms, destOf_eq hwf, hwf.recipient, ?_, ?_, ?_⟩⟩
      · simp only [chainOf, Function.update_self]; omega
      · simp only [chainOf, Function.update_self, f2]; exact fun _ h => h
      · cases hM : M x with
        | collateral =>
          obtain ⟨g1, g2, g3, g4⟩ := f8 (hmode.trans hM)
          simp [heldAt, releasedNet, lockedNet, donatedNet, sumOver, chainOf, hM, giftIn, isTransferAct, attachedTo, g1,
            g2, g3, g4]
        | bridged => simp [heldAt, releasedNet, lockedNet, donatedNet, sumOver, chainOf, hM]
      · cases hM : M x with
        | collateral => simp [supplyAt, burnedNet, mintedNet, burnedByOthersNet, sumOver, chainOf, hM]
        | bridged =>
          obtain ⟨g1, g2, g3⟩ := f9 (hmode.trans hM)
          simp [supplyAt, burnedNet, mintedNet, burnedByOthersNet, sumOver, chainOf, hM, burnIn, g1, g2, g3]
      · simp only [chainOf, Function.update_self]; exact f3
      · show originOf m = (d x).toNat
        rw [← hj.domain x]; exact hwf.origin
      · unfold amountIn; rw [hwf.body]
      · cases hM : M x with
        | collateral =>
          obtain ⟨g1, g2, g3, g4⟩ := f8 (hmode.trans hM)
          simp [took, lockedNet, burnedNet, sumOver, chainOf, hM, isTransferAct, attachedTo, g2]
        | bridged =>
          obtain ⟨g1, g2, g3⟩ := f9 (hmode.trans hM)
          simp [took, lockedNet, burnedNet, sumOver, chainOf, hM, g2]
      · cases hM : M x with
        | collateral =>
          obtain ⟨g1, g2, g3, g4⟩ := f8 (hmode.trans hM)
          simp [gave, releasedNet, mintedNet, sumOver, chainOf, hM, g3]
        | bridged =>
          obtain ⟨g1, g2, g3⟩ := f9 (hmode.trans hM)
          simp [gave, releasedNet, mintedNet, sumOver, chainOf, hM, g3]
    · obtain ⟨⟨f1, f1', f1''⟩, fr, f2, f3, f4, f5, rfl⟩ := callRouter_settings h1 hmb (hcall x c env rfl)
        (fun d r a hk md hh => ht ⟨d, r, a, hk, md, hh⟩)
      have hnt : isTransferAct (.router x c env) = false := by
        obtain ⟨e, sender, funds, msg⟩ := c
        cases msg with
        | inl => rfl
        | inr m =>
          cases m with
          | transferRemote d r a hk md => exact absurd ⟨d, r, a, hk, md, rfl⟩ ht
          | _ => rfl
      refine ⟨joined_update hj f1 f1' f1'' ?_ (by rw [f2]) (by rw [f2]), fun y hy => Function.update_of_ne hy _ _, ?_, ?_,
        ?_, ?_, .inr (.inr ⟨by simp [sentInNet], ?_, ?_, .inl rfl⟩)⟩
      · intro o q hg
        rcases fr o q hg with hg | ⟨m, hm, hg⟩
        · exact hj.routes x o q hg
        · exact hrt x c env m rfl hm o q hg
      · simp only [chainOf, Function.update_self, f2]; exact Nat.le_refl _
      · simp only [chainOf, Function.update_self, f2]; exact fun _ h => h
      · cases hM : M x <;>
          simp [heldAt, releasedNet, lockedNet, donatedNet, sumOver, chainOf, hM, giftIn, hnt, attachedTo, f5, f3]
      · cases hM : M x <;>
          simp [supplyAt, burnedNet, mintedNet, burnedByOthersNet, sumOver, chainOf, hM, burnIn, f5, f4]
      · simp [took, lockedNet, burnedNet, sumOver, hnt, f5]
      · simp [gave, releasedNet, mintedNet, sumOver, f5]
  | mailbox x c =>
    obtain ⟨⟨b, resp⟩, h1, h⟩ := bind_eq_ok.1 h
    obtain ⟨⟨c', rr, mr⟩, h2, hf⟩ := bind_eq_ok.1 h
    simp only [pure_eq_ok, Except.ok.injEq, Prod.mk.injEq] at hf
    obtain ⟨rfl, rfl⟩ := hf
    simp only at h2
    have hmode := hj.mode x
    have split : (resp.msgs.length ≠ 1 ∧ (s x).box.nonce.toNat ≤ b.nonce.toNat ∧
        b.deliveries = (s x).box.deliveries ∧ b.config.hrp = (s x).box.config.hrp ∧
        b.config.localDomain = (s x).box.config.localDomain ∧ submittedTo (.mailbox x c) = [] ∧
        (dispatchedIn resp).filter (fun m => senderOf m = r x) = []) ∨
        (∃ md m, c.msg = .process md m ∧
          Mailbox.process H (P x).codec c.env (s x).box c.sender md m = .ok (b, resp)) := by
      have hsub : ∀ {k}, c.msg = k → (∀ md m, k ≠ .process md m) → submittedTo (.mailbox x c) = [] := by
        intro k hk hne
        obtain ⟨c1, c2, c3, c4⟩ := c
        simp only at hk
        subst hk
        cases c4 with
        | process md m => exact absurd rfl (hne md m)
        | _ => rfl
      rcases Mailbox.execute_cases h1 with ⟨m, ow, e1, e2, rfl, rfl⟩ | ⟨ad, e1, e2, e3, rfl, rfl⟩ |
        ⟨ad, e1, e2, e3, rfl, rfl⟩ | ⟨ad, e1, e2, e3, rfl, rfl⟩ | ⟨q, e1, e2⟩ | ⟨md, m, e1, e2⟩
      · exact .inl ⟨by simp, Nat.le_refl _, rfl, rfl, rfl, hsub e1 (by simp), rfl⟩
      · exact .inl ⟨by simp, Nat.le_refl _, rfl, rfl, rfl, hsub e1 (by simp), rfl⟩
      · exact .inl ⟨by simp, Nat.le_refl _, rfl, rfl, rfl, hsub e1 (by simp), rfl⟩
      · exact .inl ⟨by simp, Nat.le_refl _, rfl, rfl, rfl, hsub e1 (by simp), rfl⟩
      · obtain ⟨h32, g1, g2, g3, g4, g5, g6, g7⟩ := dispatch_effect e2
        refine .inl ⟨by omega, by omega, g4, by rw [g3], by rw [g3], hsub e1 (by simp), ?_⟩
        rw [g6]
        have hwf := (C01_message_layout ⟨3, (s x).box.nonce, (s x).box.config.localDomain, h32, q.dest, q.recipient,
          q.body⟩ (Mailbox.length_bech32ToH256 g1) g2 _).1 rfl
        have hs : senderOf (Message.encode ⟨3, (s x).box.nonce, (s x).box.config.localDomain, h32, q.dest,
          q.recipient, q.body⟩) = h32 := hwf.sender
        have hne : h32 ≠ r x := by
          rintro rfl
          exact hsnd x c q rfl e1 g1
        simp [hs, hne]
      · exact .inr ⟨md, m, e1, e2⟩
    rcases split with ⟨k1, k2, k3, k4, k5, k6, k7⟩ | ⟨md, m, e1, e2⟩
    · rw [deliver_other k1] at h2
      cases h2
      refine ⟨joined_fixed hj ⟨rfl, rfl, rfl, rfl, k4, k5⟩, fun y hy => Function.update_of_ne hy _ _, ?_, ?_, ?_, ?_,
        .inr (.inr ⟨?_, ?_, ?_, .inl k6⟩)⟩
      · simp only [chainOf, Function.update_self]; exact k2
      · simp only [chainOf, Function.update_self, k3]; exact fun _ h => h
      · cases hM : M x <;>
          simp [heldAt, releasedNet, lockedNet, donatedNet, sumOver, chainOf, hM, giftIn, isTransferAct, attachedTo]
      · cases hM : M x <;> simp [supplyAt, burnedNet, mintedNet, burnedByOthersNet, sumOver, chainOf, hM, burnIn]
      · simp only [sentInNet, chainOf, List.flatMap_cons, List.flatMap_nil, List.append_nil]
        exact k7
      · simp [took, lockedNet, burnedNet, sumOver, isTransferAct]
      · simp [gave, releasedNet, mintedNet, sumOver]
    · obtain ⟨msg, recipient, named, dflt, g1, g2, g3, g4, g5, g6, g7, g8, rfl, rfl⟩ := Mailbox.process_ok.1 e2
      have hwf := wireFormat_of_decode g1
      have hsub : submittedTo (.mailbox x c) = [m] := by
        obtain ⟨c1, c2, c3, c4⟩ := c
        simp only at e1
        subst e1
        rfl
      have hdest : destOf m = d x := by rw [destOf_eq hwf, g4, hj.domain x]
      have hhas : ∀ i, ((s x).box.deliveries.insert (H m) ⟨c.sender, c.env.height⟩).has i = true ↔
          i = H m ∨ (s x).box.deliveries.has i = true := by
        intro i; rw [OMap.has_insert]; simp
      by_cases hr : recipient = (P x).router
      · simp only [deliver, if_pos hr] at h2
        obtain ⟨f1, f2, f3, rfl, f5, f6⟩ := callRouter_handle h2 (hj.token x)
        simp only at f2 f3 f5 f6
        obtain ⟨y, hy1, hy2⟩ := hj.routes x msg.origin msg.sender f3
        have hbody : fromBE (bytesOf 32 64 msg.body) = amountIn m := by unfold amountIn; rw [hwf.body]
        rw [hbody] at f5 f6
        refine ⟨joined_fixed hj ⟨f1.token, f1.mode, f1.mailbox, f1.routes, f1.hrp, f1.domain⟩,
          fun y hy => Function.update_of_ne hy _ _, ?_, ?_, ?_, ?_,
          .inr (.inl ⟨c, md, m, y, rfl, e1, by simp [sentInNet, dispatchedIn], hsub, g7, ?_, hdest, ?_, ?_, ?_, ?_, ?_⟩)⟩
        · simp only [chainOf, Function.update_self, f2]; exact Nat.le_refl _
        · simp only [chainOf, Function.update_self, f2]; exact fun i hi => (hhas i).2 (.inr hi)
        · cases hM : M x with
          | collateral =>
            obtain ⟨k1, k2⟩ := f5 (hmode.trans hM)
            simp [heldAt, releasedNet, lockedNet, donatedNet, sumOver, chainOf, hM, giftIn, isTransferAct, attachedTo, k2,
              k1]
          | bridged => simp [heldAt, releasedNet, lockedNet, donatedNet, sumOver, chainOf, hM]
        · cases hM : M x with
          | collateral => simp [supplyAt, burnedNet, mintedNet, burnedByOthersNet, sumOver, chainOf, hM]
          | bridged =>
            obtain ⟨k1, k2, k3⟩ := f6 (hmode.trans hM)
            simp [supplyAt, burnedNet, mintedNet, burnedByOthersNet, sumOver, chainOf, hM, burnIn, k1, k2, k3]
        · simp only [chainOf, Function.update_self, f2]; exact (hhas _).2 (.inl rfl)
        · rw [← hy1]; exact hwf.origin
        · rw [← hy2]; exact hwf.sender
        · show recipientOf m = r x
          rw [hr] at g2
          have h32 : (r x).length = 32 := Mailbox.length_bech32ToH256 (hj.identity x)
          exact hwf.recipient.trans (bech32Encode_inj (hj.codec x)
            (by rw [← hwf.recipient]; have := hwf.size; simp; omega) h32 g2 (hj.address x))
        · cases hM : M x with
          | collateral => simp [took, lockedNet, burnedNet, sumOver, chainOf, hM, isTransferAct]
          | bridged =>
            obtain ⟨k1, k2, k3⟩ := f6 (hmode.trans hM)
            simp [took, lockedNet, burnedNet, sumOver, chainOf, hM, k2]
        · cases hM : M x with
          | collateral =>
            obtain ⟨k1, k2⟩ := f5 (hmode.trans hM)
            simp [gave, releasedNet, mintedNet, sumOver, chainOf, hM, k2]
          | bridged =>
            obtain ⟨k1, k2, k3⟩ := f6 (hmode.trans hM)
            simp [gave, releasedNet, mintedNet, sumOver, chainOf, hM, k3]
      · simp only [deliver, if_neg hr] at h2
        cases h2
        refine ⟨joined_fixed hj ⟨rfl, rfl, rfl, rfl, rfl, rfl⟩, fun y hy => Function.update_of_ne hy _ _, ?_, ?_, ?_, ?_,
          .inr (.inr ⟨by simp [sentInNet, dispatchedIn], ?_, ?_, .inr ⟨m, hsub, g7, ?_, hdest, ?_⟩⟩)⟩
        · simp only [chainOf, Function.update_self]; exact Nat.le_refl _
        · simp only [chainOf, Function.update_self]; exact fun i hi => (hhas i).2 (.inr hi)
        · cases hM : M x <;>
            simp [heldAt, releasedNet, lockedNet, donatedNet, sumOver, chainOf, hM, giftIn, isTransferAct, attachedTo]
        · cases hM : M x <;> simp [supplyAt, burnedNet, mintedNet, burnedByOthersNet, sumOver, chainOf, hM, burnIn]
        · simp [took, lockedNet, burnedNet, sumOver, isTransferAct]
        · simp [gave, releasedNet, mintedNet, sumOver]
        · simp only [chainOf, Function.update_self]; exact (hhas _).2 (.inl rfl)
        · intro hh
          have h3 : msg.recipient = r x := hwf.recipient.symm.trans hh
          rw [h3, hj.address x] at g2
          cases g2
          exact hr rfl

omit [DecidableEq κ] in
theorem inTransit_eq {r : κ → Bytes} {log : TokenLog κ} :
    inTransit r log = pending amountIn (sentInNet r log) (deliveredInNet log) := rfl

theorem honest_prefix {P : κ → Setup} {r : κ → Bytes} {d : κ → UInt32} {a b : TokenLog κ}
    (h : HonestNet P r d (a ++ b)) : HonestNet P r d a :=
  ⟨fun e he => h.callers e (List.mem_append_left _ he), fun e he => h.routes e (List.mem_append_left _ he),
   fun e he => h.senders e (List.mem_append_left _ he),
   fun pre x c out post md m hl => h.ism pre x c out (post ++ b) md m (by rw [hl]; simp)⟩

theorem announced_sent {r : κ → Bytes} {log : TokenLog κ} {y : κ} {m : Bytes} (h : m ∈ announcedAt y log)
    (hs : senderOf m = r y) : m ∈ sentInNet r log := by
  obtain ⟨e, he, hm⟩ := List.mem_flatMap.1 h
  by_cases hy : chainOf e.1 = y
  · rw [if_pos hy] at hm
    exact List.mem_flatMap.2 ⟨e, he, List.mem_filter.2 ⟨hm, by rw [hy]; simpa using hs⟩⟩
  · rw [if_neg hy] at hm; cases hm

/-- What holds after every execution. -/
structure Inv (H : Bytes → Bytes) (P : κ → Setup) (r : κ → Bytes) (d : κ → UInt32) (M : κ → Warp.Mode) (Q : Nat → Prop)
    (s : κ → Chain) (log : TokenLog κ) : Prop where
  joined : Joined P r d M s
  sent : ∀ m ∈ sentInNet r log, ∃ y z, originOf m = (d y).toNat ∧ senderOf m = r y ∧
    nonceOf m < (s y).box.nonce.toNat ∧ destOf m = d z ∧ recipientOf m = r z
  nodup : (sentInNet r log).Nodup
  delivered : ∀ m ∈ deliveredInNet log, ∃ x, destOf m = d x ∧ (s x).box.deliveries.has (H m) = true ∧
    ∀ y, originOf m = (d y).toNat → senderOf m = r y → recipientOf m = r x → m ∈ sentInNet r log
  books : ∃ slack, took P M log = gave P M log + inTransit r log + slack ∧ ((∀ n, Q n → n = 32) → slack = 0)

/-- The invariant holds after every execution whose transfers name recipients of at most 32 bytes. -/
theorem inv_chain {H : Bytes → Bytes} {P : κ → Setup} {r : κ → Bytes} {d : κ → UInt32} {M : κ → Warp.Mode}
    {Q : Nat → Prop} (hQ : ∀ n, Q n → n ≤ 32) {s0 : κ → Chain} (hj : Joined P r d M s0) (log : TokenLog κ) :
    ∀ s, Tx.Chain (step H P) s0 log s → HonestNet P r d log → RecipientsNet Q log → Inv H P r d M Q s log := by
  induction log using List.reverseRecOn with
  | nil =>
    intro s hc _ _
    simp only [Tx.Chain] at hc
    subst hc
    exact ⟨hj, by simp [sentInNet], by simp [sentInNet], by simp [deliveredInNet],
      0, by simp [took, gave, inTransit, sentInNet, lockedNet, burnedNet, releasedNet, mintedNet, sumOver], fun _ => rfl⟩
  | append_singleton log e ih =>
    intro s' hc hh hq
    obtain ⟨a, o⟩ := e
    obtain ⟨s, h1, h2⟩ := Tx.Chain.snoc.1 hc
    have h2 : step H P s a = .ok (s', o) := h2
    have hh' := honest_prefix hh
    have I := ih s h1 hh' (fun e' he' => hq e' (List.mem_append_left _ he'))
    have hmem : (a, o) ∈ log ++ [(a, o)] := by simp
    obtain ⟨e1, e2, e3, e4, _, _, e7⟩ := step_books I.joined h2
      (fun x c env ha => hh.callers _ hmem x c env ha) (fun x c env m ha => hh.routes _ hmem x c env m ha)
      (fun x c q ha => hh.senders _ hmem x c q ha)
    generalize hx : chainOf a = x at *
    have hnonce : ∀ y, (s y).box.nonce.toNat ≤ (s' y).box.nonce.toNat := by
      intro y
      by_cases hy : y = x
      · rw [hy]; exact e3
      · rw [e2 y hy]
    have hhas : ∀ y i, (s y).box.deliveries.has i = true → (s' y).box.deliveries.has i = true := by
      intro y i hi
      by_cases hy : y = x
      · rw [hy] at hi ⊢; exact e4 i hi
      · rw [e2 y hy]; exact hi
    -- what is known of old messages stays
    have hsent : ∀ m ∈ sentInNet r log, ∃ y z, originOf m = (d y).toNat ∧ senderOf m = r y ∧
        nonceOf m < (s' y).box.nonce.toNat ∧ destOf m = d z ∧ recipientOf m = r z := by
      intro m hm
      obtain ⟨y, z, i1, i2, i3, i4, i5⟩ := I.sent m hm
      exact ⟨y, z, i1, i2, Nat.lt_of_lt_of_le i3 (hnonce y), i4, i5⟩
    have hdel : ∀ m ∈ deliveredInNet log, ∃ x, destOf m = d x ∧ (s' x).box.deliveries.has (H m) = true ∧
        ∀ y, originOf m = (d y).toNat → senderOf m = r y → recipientOf m = r x →
          m ∈ sentInNet r (log ++ [(a, o)]) := by
      intro m hm
      obtain ⟨z, i1, i2, i3⟩ := I.delivered m hm
      refine ⟨z, i1, hhas _ _ i2, fun y j1 j2 j3 => ?_⟩
      rw [sentInNet_append]
      exact List.mem_append_left _ (i3 y j1 j2 j3)
    have hD : deliveredInNet (log ++ [(a, o)]) = deliveredInNet log ++ submittedTo a := by simp [deliveredInNet]
    have hfresh : ∀ m, destOf m = d x → (s x).box.deliveries.has (H m) = false → m ∉ deliveredInNet log := by
      intro m k1 k2 hd
      obtain ⟨z, i1, i2, _⟩ := I.delivered m hd
      have : z = x := hj.domains (i1.symm.trans k1)
      subst this
      rw [k2] at i2
      cases i2
    obtain ⟨k, b1, c1⟩ := I.books
    rw [inTransit_eq] at b1
    rcases e7 with ⟨m, c, env, dest, recipient, amount, hook, md, z, t1, t2, t3, t4, t5, t6, t7, t8, t9, t10, t10', t11,
      t12, t13⟩ | ⟨c, md, m, y, t0, t0', t1, t2, t3, t4, t5, t6, t6', t6'', t7, t8⟩ | ⟨t1, t2, t3, t4⟩
    · -- transfer
      have hold : ∀ m' ∈ sentInNet r log, m' ≠ m := by
        rintro m' hm' rfl
        obtain ⟨y, _, i1, _, i3, _, _⟩ := I.sent _ hm'
        have : y = x := hj.domains (UInt32.toNat_inj.1 (i1.symm.trans t8))
        subst this
        omega
      have hnew : m ∉ deliveredInNet log := by
        intro hd
        obtain ⟨z', i1, _, i3⟩ := I.delivered m hd
        have : z' = z := hj.domains (i1.symm.trans t10)
        subst this
        exact hold m (i3 x t8 t9 t10') rfl
      have hlen := hQ _ (hq _ hmem x c env dest recipient amount hook md t1 t2)
      have hamt := amount_le hlen t3
      have hS : sentInNet r (log ++ [(a, o)]) = sentInNet r log ++ [m] := by rw [sentInNet_append, t4]
      rw [t5, List.append_nil] at hD
      refine ⟨e1, ?_, ?_, by rw [hD]; exact hdel, ?_⟩
      · intro m' hm'
        rw [hS, List.mem_append, List.mem_singleton] at hm'
        rcases hm' with hm' | rfl
        · exact hsent _ hm'
        · exact ⟨x, z, t8, t9, by omega, t10, t10'⟩
      · rw [hS, List.nodup_append]
        refine ⟨I.nodup, by simp, ?_⟩
        rintro m1 hm1 m2 hm2 rfl
        rw [List.mem_singleton] at hm2
        exact hold _ hm1 hm2
      · refine ⟨k + (amount - amountIn m), ?_, ?_⟩
        · rw [inTransit_eq, took_append, gave_append, hS, hD, pending_send hnew, t12, t13, t11]
          omega
        · intro h32
          have hr32 := h32 _ (hq _ hmem x c env dest recipient amount hook md t1 t2)
          rw [c1 h32, t11, (transfer_body hr32 t3).2.2]
          omega
    · -- delivery
      have hin : m ∈ sentInNet r log := by
        rw [t0] at hh
        exact announced_sent (hh.ism log x c o [] md m rfl t0' y t6 t6' t6'') t6'
      have hout : m ∉ deliveredInNet log := hfresh m t5 t3
      have hS : sentInNet r (log ++ [(a, o)]) = sentInNet r log := by rw [sentInNet_append, t1, List.append_nil]
      rw [t2] at hD
      refine ⟨e1, by rw [hS]; exact hsent, by rw [hS]; exact I.nodup, ?_, ?_⟩
      · intro m' hm'
        rw [hD, List.mem_append, List.mem_singleton] at hm'
        rcases hm' with hm' | rfl
        · exact hdel _ hm'
        · exact ⟨x, t5, t4, fun _ _ _ _ => by rw [hS]; exact hin⟩
      · refine ⟨k, ?_, c1⟩
        rw [inTransit_eq, took_append, gave_append, hS, hD, t7, t8]
        have := pending_deliver (f := amountIn) I.nodup hin hout
        omega
    · -- other
      have hS : sentInNet r (log ++ [(a, o)]) = sentInNet r log := by rw [sentInNet_append, t1, List.append_nil]
      refine ⟨e1, by rw [hS]; exact hsent, by rw [hS]; exact I.nodup, ?_, ?_⟩
      · intro m' hm'
        rw [hD, List.mem_append] at hm'
        rcases hm' with hm' | hm'
        · exact hdel _ hm'
        · rcases t4 with t4 | ⟨m, t4, t5, t6, t7, t8⟩
          · rw [t4] at hm'; cases hm'
          · rw [t4, List.mem_singleton] at hm'
            subst hm'
            exact ⟨x, t7, t6, fun _ _ _ hr => absurd hr t8⟩
      · refine ⟨k, ?_, c1⟩
        have hp : pending amountIn (sentInNet r log) (deliveredInNet (log ++ [(a, o)])) =
            pending amountIn (sentInNet r log) (deliveredInNet log) := by
          rw [hD]
          rcases t4 with t4 | ⟨m, t4, t5, t6, t7, t8⟩
          · rw [t4, List.append_nil]
          · rw [t4]
            apply pending_foreign
            intro hm
            obtain ⟨_, z, _, _, _, i4, i5⟩ := I.sent m hm
            have : z = x := hj.domains (i4.symm.trans t7)
            subst this
            exact t8 i5
        rw [inTransit_eq, took_append, gave_append, hS, hp, t2, t3]
        omega

/-! ## Totals over all chains -/

theorem sum_change [Fintype κ] (f g : κ → Nat) (x : κ) (h : ∀ y, y ≠ x → f y = g y) :
    (∑ y, f y) + g x = (∑ y, g y) + f x := by
  rw [← Finset.add_sum_erase Finset.univ f (Finset.mem_univ x), ← Finset.add_sum_erase Finset.univ g (Finset.mem_univ x)]
  have : ∑ y ∈ Finset.univ.erase x, f y = ∑ y ∈ Finset.univ.erase x, g y :=
    Finset.sum_congr rfl (fun y hy => h y (Finset.ne_of_mem_erase hy))
  rw [this]
  omega

/-- What all routers hold and all bridged supplies follow from the log. -/
theorem totals_chain [Fintype κ] {H : Bytes → Bytes} {P : κ → Setup} {r : κ → Bytes} {d : κ → UInt32}
    {M : κ → Warp.Mode} {s0 : κ → Chain} (hj : Joined P r d M s0) (log : TokenLog κ) :
    ∀ s, Tx.Chain (step H P) s0 log s → HonestNet P r d log → Joined P r d M s ∧
      totalCollateral M s + releasedNet P M log = totalCollateral M s0 + lockedNet P M log + donatedNet P M log ∧
      totalBridged M s + burnedNet P M log + burnedByOthersNet M log = totalBridged M s0 + mintedNet P M log := by
  induction log using List.reverseRecOn with
  | nil =>
    intro s hc _
    simp only [Tx.Chain] at hc
    subst hc
    exact ⟨hj, by simp [releasedNet, lockedNet, donatedNet, sumOver],
      by simp [burnedNet, burnedByOthersNet, mintedNet, sumOver]⟩
  | append_singleton log e ih =>
    intro s' hc hh
    obtain ⟨a, o⟩ := e
    obtain ⟨s, h1, h2⟩ := Tx.Chain.snoc.1 hc
    have h2 : step H P s a = .ok (s', o) := h2
    obtain ⟨i1, i2, i3⟩ := ih s h1 (honest_prefix hh)
    have hmem : (a, o) ∈ log ++ [(a, o)] := by simp
    obtain ⟨e1, e2, _, _, e5, e6, _⟩ := step_books i1 h2
      (fun x c env ha => hh.callers _ hmem x c env ha) (fun x c env m ha => hh.routes _ hmem x c env m ha)
      (fun x c q ha => hh.senders _ hmem x c q ha)
    have t1 : totalCollateral M s' + heldAt M s (chainOf a) = totalCollateral M s + heldAt M s' (chainOf a) :=
      sum_change (heldAt M s') (heldAt M s) (chainOf a) (fun y hy => by unfold heldAt; rw [e2 y hy])
    have t2 : totalBridged M s' + supplyAt M s (chainOf a) = totalBridged M s + supplyAt M s' (chainOf a) :=
      sum_change (supplyAt M s') (supplyAt M s) (chainOf a) (fun y hy => by unfold supplyAt; rw [e2 y hy])
    refine ⟨e1, ?_, ?_⟩
    · rw [releasedNet_append, lockedNet_append, donatedNet_append]
      omega
    · rw [burnedNet_append, burnedByOthersNet_append, mintedNet_append]
      omega

/-! ## C81 -/

/-- **C81.** Any number of chains whose routers know only each other (which of them, owners may change at any time). If
the bridged supplies together are backed by the collateral at the start, then after every execution (any nesting of
calls, any rollbacks) whose transfers name recipients of at most 32 bytes, the collateral of all chains covers the
bridged supplies of all chains and all transfers in transit, and no more was minted and released than locked and
burned. -/
theorem C81_network_backing [Fintype κ] (H : Bytes → Bytes) (P : κ → Setup) (r : κ → Bytes) (d : κ → UInt32)
    (M : κ → Warp.Mode) (s0 : κ → Chain) (txs : List (List (Tx.Act (Act κ)))) (hj : Joined P r d M s0)
    (h0 : totalBridged M s0 ≤ totalCollateral M s0) (hh : HonestNet P r d (Tx.history (step H P) s0 txs).2)
    (hr : RecipientsNet (· ≤ 32) (Tx.history (step H P) s0 txs).2) :
    totalBridged M (Tx.history (step H P) s0 txs).1 + inTransit r (Tx.history (step H P) s0 txs).2 ≤
      totalCollateral M (Tx.history (step H P) s0 txs).1 ∧
    mintedNet P M (Tx.history (step H P) s0 txs).2 + releasedNet P M (Tx.history (step H P) s0 txs).2 ≤
      lockedNet P M (Tx.history (step H P) s0 txs).2 + burnedNet P M (Tx.history (step H P) s0 txs).2 := by
  have hc := Tx.history_chain (step H P) s0 txs
  obtain ⟨k, b, _⟩ := (inv_chain (Q := (· ≤ 32)) (fun _ h => h) hj _ _ hc hh hr).books
  obtain ⟨_, t1, t2⟩ := totals_chain hj _ _ hc hh
  unfold took gave at b
  omega

/-- **C81.** If all recipients have 32 bytes, the books balance exactly: what was locked or burned is released, minted or
in transit, and the collateral of all chains is the bridged supplies, all transfers in transit, what was given to
routers and what others burned (plus what there was more of it at the start). -/
theorem C81_network_exact [Fintype κ] (H : Bytes → Bytes) (P : κ → Setup) (r : κ → Bytes) (d : κ → UInt32)
    (M : κ → Warp.Mode) (s0 : κ → Chain) (txs : List (List (Tx.Act (Act κ)))) (hj : Joined P r d M s0)
    (hh : HonestNet P r d (Tx.history (step H P) s0 txs).2)
    (hr : RecipientsNet (· = 32) (Tx.history (step H P) s0 txs).2) :
    totalCollateral M (Tx.history (step H P) s0 txs).1 + totalBridged M s0 =
      totalCollateral M s0 + totalBridged M (Tx.history (step H P) s0 txs).1 +
        inTransit r (Tx.history (step H P) s0 txs).2 + donatedNet P M (Tx.history (step H P) s0 txs).2 +
        burnedByOthersNet M (Tx.history (step H P) s0 txs).2 ∧
    lockedNet P M (Tx.history (step H P) s0 txs).2 + burnedNet P M (Tx.history (step H P) s0 txs).2 =
      mintedNet P M (Tx.history (step H P) s0 txs).2 + releasedNet P M (Tx.history (step H P) s0 txs).2 +
        inTransit r (Tx.history (step H P) s0 txs).2 := by
  have hc := Tx.history_chain (step H P) s0 txs
  obtain ⟨k, b, c⟩ := (inv_chain (Q := (· = 32)) (fun _ h => Nat.le_of_eq h) hj _ _ hc hh hr).books
  have := c (fun _ h => h)
  obtain ⟨_, t1, t2⟩ := totals_chain hj _ _ hc hh
  unfold took gave at b
  omega

namespace Tour

open Ex.Net

/-- The state and the log after `Ex.Net.tour`. -/
def result : (Fin 3 → Chain) × List (Tx.Entry (Act (Fin 3)) Out) := play (step toyHash setup) (start hub) tour

theorem result_eq : Tx.history (step toyHash setup) (start hub) (tour.map (fun a => [.call a []])) = result :=
  history_play (by decide +kernel)

theorem honest : HonestNet setup rid dom result.2 := honest_of (by decide +kernel)

theorem recipients : RecipientsNet (· = 32) result.2 := recipients_of (by decide +kernel)

theorem state : totalCollateral hub result.1 = 78 ∧ totalBridged hub result.1 = 66 := by decide +kernel

theorem transit : inTransit rid result.2 = 5 := by decide +kernel

theorem totals : donatedNet setup hub result.2 = 3 ∧ burnedByOthersNet hub result.2 = 4 ∧
    lockedNet setup hub result.2 = 100 ∧ releasedNet setup hub result.2 = 25 ∧
    mintedNet setup hub result.2 = 160 ∧ burnedNet setup hub result.2 = 90 := by decide +kernel

/-- An execution on three chains meeting all hypotheses: 78 tokens held, 66 in circulation, 5 in transit, 3 given and 4
burned. -/
example : Joined setup rid dom hub (start hub) ∧ totalBridged hub (start hub) ≤ totalCollateral hub (start hub) ∧
    let x := Tx.history (step toyHash setup) (start hub) (tour.map (fun a => [.call a []]))
    HonestNet setup rid dom x.2 ∧ RecipientsNet (· = 32) x.2 ∧ RecipientsNet (· ≤ 32) x.2 ∧
    (totalCollateral hub x.1 = 78 ∧ totalBridged hub x.1 = 66) ∧ inTransit rid x.2 = 5 ∧
    (donatedNet setup hub x.2 = 3 ∧ burnedByOthersNet hub x.2 = 4 ∧ lockedNet setup hub x.2 = 100 ∧
      releasedNet setup hub x.2 = 25 ∧ mintedNet setup hub x.2 = 160 ∧ burnedNet setup hub x.2 = 90) := by
  refine ⟨start_joined _, by decide +kernel, ?_⟩
  rw [result_eq]
  exact ⟨honest, recipients, fun e he x c env dest recipient amount hook md h1 h2 =>
    Nat.le_of_eq (recipients e he x c env dest recipient amount hook md h1 h2), state, transit, totals⟩

end Tour

end TokenNet

end Hpl
