import Verif.Examples.Bridge
import Verif.Lemmas.Bridge
import Mathlib.Tactic.Ring

/-! # Backing of bridged tokens: C61 -/

namespace Hpl

open Spec Bridge

namespace Bridge

/-- Taken for transfers to the other chain: locked on the left, burned on the right. -/
def took (P : Side → Setup) : Side → BridgeLog → Nat
  | .left => locked P .left
  | .right => burned P .right

/-- Given for transfers from the other chain: released on the left, minted on the right. -/
def gave (P : Side → Setup) : Side → BridgeLog → Nat
  | .left => released P .left
  | .right => minted P .right

/-- Nonce in an encoded message. -/
def nonceOf (b : Bytes) : Nat := fromBE ((b.drop 1).take 4)

theorem other_ne (x : Side) : x.other ≠ x := by cases x <;> decide

theorem other_other (x : Side) : x.other.other = x := by cases x <;> rfl

theorem eq_other {x y : Side} (h : y ≠ x) : y = x.other := by
  cases x <;> cases y <;> first | rfl | exact absurd rfl h

section append

variable (P : Side → Setup) (r : Side → Bytes) (x : Side) (a b : BridgeLog)

theorem announcedOn_append : announcedOn x (a ++ b) = announcedOn x a ++ announcedOn x b := by simp [announcedOn]
theorem sentBy_append : sentBy r x (a ++ b) = sentBy r x a ++ sentBy r x b := by simp [sentBy, announcedOn_append]
theorem deliveredOn_append : deliveredOn x (a ++ b) = deliveredOn x a ++ deliveredOn x b := by simp [deliveredOn]
theorem total_append (f : OutMsg → Nat) : total f x (a ++ b) = total f x a + total f x b := by simp [total]
theorem locked_append : locked P x (a ++ b) = locked P x a + locked P x b := by simp [locked]
theorem donated_append : donated P x (a ++ b) = donated P x a + donated P x b := by simp [donated]
theorem burnedByOthers_append : burnedByOthers x (a ++ b) = burnedByOthers x a + burnedByOthers x b := by
  simp [burnedByOthers]
theorem minted_append : minted P x (a ++ b) = minted P x a + minted P x b := total_append x a b _
theorem burned_append : burned P x (a ++ b) = burned P x a + burned P x b := total_append x a b _
theorem released_append : released P x (a ++ b) = released P x a + released P x b := total_append x a b _

theorem took_append : took P x (a ++ b) = took P x a + took P x b := by
  cases x
  · exact locked_append P _ a b
  · exact burned_append P _ a b

theorem gave_append : gave P x (a ++ b) = gave P x a + gave P x b := by
  cases x
  · exact released_append P _ a b
  · exact minted_append P _ a b

end append

/-- Acts on one chain say nothing about the other. -/
theorem single_other (P : Side → Setup) (r : Side → Bytes) {a : Act} {o : Out} {y : Side} (h : sideOf a ≠ y) :
    announcedOn y [(a, o)] = [] ∧ sentBy r y [(a, o)] = [] ∧ deliveredOn y [(a, o)] = [] ∧ took P y [(a, o)] = 0 ∧
      gave P y [(a, o)] = 0 ∧ donated P y [(a, o)] = 0 ∧ burnedByOthers y [(a, o)] = 0 := by
  have h1 : announcedOn y [(a, o)] = [] := by simp [announcedOn, h]
  refine ⟨h1, by simp [sentBy, h1], ?_, ?_, ?_, by simp [donated, h], ?_⟩
  · cases a <;> simp_all [deliveredOn, submitted, sideOf]
  · cases y <;> simp [took, locked, burned, total, h]
  · cases y <;> simp [gave, released, minted, total, h]
  · cases a <;> simp_all [burnedByOthers, sideOf]

/-- Sums over one entry. -/
theorem total_single {f : OutMsg → Nat} {a : Act} {o : Out} :
    total f (sideOf a) [(a, o)] = (o.router.msgs.map f).sum := by simp [total]

theorem linked_fixed {P : Side → Setup} {r : Side → Bytes} {d : Side → UInt32} {s : Side → Chain} {x : Side}
    {c : Chain} (hl : Linked P r d s) (hf : Fixed (s x) c) : Linked P r d (Bridge.set s x c) := by
  have hget : ∀ y, Fixed (s y) (Bridge.set s x c y) := by
    intro y
    unfold Bridge.set
    by_cases hy : y = x
    · subst hy; rw [if_pos rfl]; exact hf
    · rw [if_neg hy]; exact ⟨rfl, rfl, rfl, rfl, rfl, rfl⟩
  obtain ⟨l0, l1, l2, l3, l4, l5, l6, l7, l8, l9⟩ := hl
  refine ⟨l0, l1, fun y => ?_, l3, fun y => ?_, fun y => ?_, fun y => ?_, fun y o => ?_, ?_, ?_⟩
  · rw [(hget y).domain]; exact l2 y
  · rw [(hget y).hrp]; exact l4 y
  · rw [(hget y).token]; exact l5 y
  · rw [(hget y).mailbox]; exact l6 y
  · rw [(hget y).routes]; exact l7 y o
  · rw [(hget _).mode]; exact l8
  · rw [(hget _).mode]; exact l9

theorem set_same (s : Side → Chain) (x : Side) (c : Chain) : Bridge.set s x c x = c := by simp [Bridge.set]

theorem set_other (s : Side → Chain) {x y : Side} (c : Chain) (h : y ≠ x) : Bridge.set s x c y = s y := by
  simp [Bridge.set, h]

theorem deliver_other {H : Bytes → Bytes} {p : Setup} {env : Mailbox.Env} {ch : Chain} {l : List OutMsg}
    (h : l.length ≠ 1) : deliver H p env ch l = .ok (ch, {}, []) := by
  match l with
  | [] => rfl
  | [_] => exact absurd rfl h
  | a :: b :: t => rw [deliver]; simp

/-- The four totals of an entry that moves nothing for transfers. -/
theorem quiet_totals {P : Side → Setup} {a : Act} {o : Out} (hm : o.router.msgs = []) (ht : isTransfer a = false) :
    took P (sideOf a) [(a, o)] = 0 ∧ gave P (sideOf a) [(a, o)] = 0 := by
  constructor
  · cases h : sideOf a <;> simp [took, locked, burned, total, hm, ht]
  · cases h : sideOf a <;> simp [gave, released, minted, total, hm]

/-- What one step does. -/
theorem step_effect {H : Bytes → Bytes} {P : Side → Setup} {r : Side → Bytes} {d : Side → UInt32}
    {s s' : Side → Chain} {a : Act} {o : Out} (hl : Linked P r d s) (h : step H P s a = .ok (s', o))
    (hcall : ∀ x c env, a = .router x c env → c.sender ≠ (P x).mailbox)
    (hrt : ∀ x c env, a = .router x c env → ∀ m, c.msg ≠ .inr (.router m))
    (hsnd : ∀ x c q, a = .mailbox x c → c.msg = .dispatch q → bech32ToH256 (P x).codec c.sender ≠ .ok (r x)) :
    Linked P r d s' ∧ (∀ y, y ≠ sideOf a → s' y = s y) ∧
    (s (sideOf a)).box.nonce.toNat ≤ (s' (sideOf a)).box.nonce.toNat ∧
    (∀ i, (s (sideOf a)).box.deliveries.has i = true → (s' (sideOf a)).box.deliveries.has i = true) ∧
    (s' .left).held + released P .left [(a, o)] =
      (s .left).held + locked P .left [(a, o)] + donated P .left [(a, o)] ∧
    (s' .right).supply + burned P .right [(a, o)] + burnedByOthers .right [(a, o)] =
      (s .right).supply + minted P .right [(a, o)] ∧
    ((∃ m c env dest recipient amount hook md, a = .router (sideOf a) c env ∧
        c.msg = .inr (.transferRemote dest recipient amount hook md) ∧ amount < 2 ^ 128 ∧
        sentBy r (sideOf a) [(a, o)] = [m] ∧ deliveredOn (sideOf a) [(a, o)] = [] ∧
        nonceOf m = (s (sideOf a)).box.nonce.toNat ∧
        (s' (sideOf a)).box.nonce.toNat = (s (sideOf a)).box.nonce.toNat + 1 ∧
        originOf m = (d (sideOf a)).toNat ∧ senderOf m = r (sideOf a) ∧ recipientOf m = r (sideOf a).other ∧
        amountIn m = fromBE (bytesOf 32 64 (recipient ++ u256be amount)) ∧
        took P (sideOf a) [(a, o)] = amount ∧ gave P (sideOf a) [(a, o)] = 0) ∨
     (∃ m, sentBy r (sideOf a) [(a, o)] = [] ∧ deliveredOn (sideOf a) [(a, o)] = [m] ∧
        (s (sideOf a)).box.deliveries.has (H m) = false ∧ (s' (sideOf a)).box.deliveries.has (H m) = true ∧
        originOf m = (d (sideOf a).other).toNat ∧ senderOf m = r (sideOf a).other ∧
        recipientOf m = r (sideOf a) ∧ took P (sideOf a) [(a, o)] = 0 ∧ gave P (sideOf a) [(a, o)] = amountIn m) ∨
     (sentBy r (sideOf a) [(a, o)] = [] ∧ took P (sideOf a) [(a, o)] = 0 ∧ gave P (sideOf a) [(a, o)] = 0 ∧
       (deliveredOn (sideOf a) [(a, o)] = [] ∨
        ∃ m, deliveredOn (sideOf a) [(a, o)] = [m] ∧ (s (sideOf a)).box.deliveries.has (H m) = false ∧
          (s' (sideOf a)).box.deliveries.has (H m) = true ∧ recipientOf m ≠ r (sideOf a)))) := by
  cases a with
  | gift x n =>
    simp only [step, Except.ok.injEq, Prod.mk.injEq] at h
    obtain ⟨rfl, rfl⟩ := h
    obtain ⟨q1, q2⟩ := quiet_totals (P := P) (a := .gift x n) (o := {}) rfl rfl
    refine ⟨linked_fixed hl ⟨rfl, rfl, rfl, rfl, rfl, rfl⟩, fun y hy => set_other s _ hy, ?_, ?_, ?_, ?_, .inr (.inr
      ⟨by simp [sentBy, announcedOn], q1, q2, .inl (by simp [deliveredOn, submitted])⟩)⟩
    · simp only [sideOf, set_same]; exact Nat.le_refl _
    · simp only [sideOf, set_same]; exact fun _ h => h
    · cases x <;> simp [Bridge.set, released, total, locked, donated, sideOf, isTransfer, attached]
    · cases x <;> simp [Bridge.set, burned, minted, total, burnedByOthers, sideOf]
  | burn x n =>
    obtain ⟨t, h1, hf⟩ := bind_eq_ok.1 h
    obtain ⟨h2, rfl⟩ := sub_ok.1 h1
    simp only [pure_eq_ok, Except.ok.injEq, Prod.mk.injEq] at hf
    obtain ⟨rfl, rfl⟩ := hf
    obtain ⟨q1, q2⟩ := quiet_totals (P := P) (a := .burn x n) (o := {}) rfl rfl
    refine ⟨linked_fixed hl ⟨rfl, rfl, rfl, rfl, rfl, rfl⟩, fun y hy => set_other s _ hy, ?_, ?_, ?_, ?_, .inr (.inr
      ⟨by simp [sentBy, announcedOn], q1, q2, .inl (by simp [deliveredOn, submitted])⟩)⟩
    · simp only [sideOf, set_same]; exact Nat.le_refl _
    · simp only [sideOf, set_same]; exact fun _ h => h
    · cases x <;> simp [Bridge.set, released, total, locked, donated, sideOf, isTransfer, attached]
    · cases x <;> simp [Bridge.set, burned, minted, total, burnedByOthers, sideOf]
      omega
  | router x c env =>
    obtain ⟨⟨c', rr, mr⟩, h1, hf⟩ := bind_eq_ok.1 h
    simp only [pure_eq_ok, Except.ok.injEq, Prod.mk.injEq] at hf
    obtain ⟨rfl, rfl⟩ := hf
    have hmb : (s x).router.2.mailbox = (P x).mailbox := hl.mailbox x
    by_cases ht : ∃ dest recipient amount hook md, c.msg = .inr (.transferRemote dest recipient amount hook md)
    · obtain ⟨dest, recipient, amount, hook, md, ht⟩ := ht
      obtain ⟨e, sender, funds, msg⟩ := c
      simp only at ht
      subst ht
      obtain ⟨f1, f2, f3, ⟨router, f4, f5, f6⟩, f7, f8, f9⟩ :=
        callRouter_transfer h1 (hl.token x) hmb (hl.identity x)
      have hroute := hl.routes x dest
      rw [f4] at hroute
      by_cases hdst : dest = d x.other
      swap
      · rw [if_neg hdst] at hroute; cases hroute
      rw [if_pos hdst, Option.some.injEq] at hroute
      subst hroute
      have hwf := (C01_message_layout ⟨3, (s x).box.nonce, (s x).box.config.localDomain, r x, dest, r x.other,
        recipient ++ u256be amount⟩ (Mailbox.length_bech32ToH256 (hl.identity x)) f5 _).1 rfl
      generalize hmm : Message.encode ⟨3, (s x).box.nonce, (s x).box.config.localDomain, r x, dest, r x.other,
        recipient ++ u256be amount⟩ = m at hwf f6
      have hms : senderOf m = r x := hwf.sender
      have ann : announcedOn x [(.router x ⟨e, sender, funds, .inr (.transferRemote dest recipient amount hook md)⟩ env,
          ⟨rr, mr⟩)] = [m] := by simp [announcedOn, sideOf, f6]
      refine ⟨linked_fixed hl f1, fun y hy => set_other s _ hy, ?_, ?_, ?_, ?_, .inl ⟨m, _, env, dest, recipient, amount,
        hook, md, rfl, rfl, f7, by simp [sentBy, sideOf, ann, hms], by simp [deliveredOn, submitted], hwf.nonce, ?_,
        ?_, hms, hwf.recipient, ?_, ?_, ?_⟩⟩
      · simp only [sideOf, set_same]; omega
      · simp only [sideOf, set_same, f2]; exact fun _ h => h
      · cases x with
        | left =>
          obtain ⟨g1, g2, g3, g4⟩ := f8 hl.collateral
          simp [Bridge.set, released, total, locked, donated, sideOf, isTransfer, attached, g1, g2, g3, g4]
        | right => simp [Bridge.set, released, total, locked, donated, sideOf]
      · cases x with
        | left => simp [Bridge.set, burned, minted, total, burnedByOthers, sideOf]
        | right =>
          obtain ⟨g1, g2, g3⟩ := f9 hl.bridged
          simp [Bridge.set, burned, minted, total, burnedByOthers, sideOf, g1, g2, g3]
      · simp only [sideOf, set_same]; exact f3
      · show originOf m = (d x).toNat
        rw [← hl.domain x]; exact hwf.origin
      · unfold amountIn; rw [hwf.body]
      · cases x with
        | left =>
          obtain ⟨g1, g2, g3, g4⟩ := f8 hl.collateral
          simp [took, locked, sideOf, isTransfer, attached, g2]
        | right =>
          obtain ⟨g1, g2, g3⟩ := f9 hl.bridged
          simp [took, burned, total, sideOf, g2]
      · cases x with
        | left =>
          obtain ⟨g1, g2, g3, g4⟩ := f8 hl.collateral
          simp [gave, released, total, sideOf, g3]
        | right =>
          obtain ⟨g1, g2, g3⟩ := f9 hl.bridged
          simp [gave, minted, total, sideOf, g3]
    · obtain ⟨f1, f2, f3, f4, f5, rfl⟩ := callRouter_quiet h1 hmb (hcall x c env rfl) (hrt x c env rfl)
        (fun d r a hk md hh => ht ⟨d, r, a, hk, md, hh⟩)
      have hnt : isTransfer (.router x c env) = false := by
        obtain ⟨e, sender, funds, msg⟩ := c
        cases msg with
        | inl => rfl
        | inr m =>
          cases m with
          | transferRemote d r a hk md => exact absurd ⟨d, r, a, hk, md, rfl⟩ ht
          | _ => rfl
      obtain ⟨q1, q2⟩ := quiet_totals (P := P) (a := .router x c env) (o := ⟨rr, []⟩) f5 hnt
      refine ⟨linked_fixed hl f1, fun y hy => set_other s _ hy, ?_, ?_, ?_, ?_, .inr (.inr
        ⟨by simp [sentBy, announcedOn], q1, q2, .inl (by simp [deliveredOn, submitted])⟩)⟩
      · simp only [sideOf, set_same, f2]; exact Nat.le_refl _
      · simp only [sideOf, set_same, f2]; exact fun _ h => h
      · cases x <;> simp [Bridge.set, released, total, locked, donated, sideOf, hnt, attached, f5, f3]
      · cases x <;> simp [Bridge.set, burned, minted, total, burnedByOthers, sideOf, f5, f4]
  | mailbox x c =>
    obtain ⟨⟨b, resp⟩, h1, h⟩ := bind_eq_ok.1 h
    obtain ⟨⟨c', rr, mr⟩, h2, hf⟩ := bind_eq_ok.1 h
    simp only [pure_eq_ok, Except.ok.injEq, Prod.mk.injEq] at hf
    obtain ⟨rfl, rfl⟩ := hf
    simp only at h2
    -- calls that are not deliveries
    have plain : resp.msgs.length ≠ 1 → (s x).box.nonce.toNat ≤ b.nonce.toNat →
        b.deliveries = (s x).box.deliveries → b.config.hrp = (s x).box.config.hrp →
        b.config.localDomain = (s x).box.config.localDomain → (∀ md m, c.msg ≠ .process md m) →
        (dispatchedIn resp).filter (fun m => senderOf m = r x) = [] →
        c' = { s x with box := b } ∧ Fixed (s x) c' ∧ rr.msgs = [] ∧
        sentBy r x [(.mailbox x c, ⟨rr, resp :: mr⟩)] = [] ∧
        deliveredOn x [(.mailbox x c, ⟨rr, resp :: mr⟩)] = [] := by
      intro k1 _ _ k4 k5 k6 k7
      rw [deliver_other k1] at h2
      cases h2
      refine ⟨rfl, ⟨rfl, rfl, rfl, rfl, k4, k5⟩, rfl, ?_, ?_⟩
      · simpa [sentBy, announcedOn, sideOf] using k7
      · simp only [deliveredOn, submitted, List.flatMap_cons, List.flatMap_nil, if_true, List.append_nil]
    have split : (resp.msgs.length ≠ 1 ∧ (s x).box.nonce.toNat ≤ b.nonce.toNat ∧
        b.deliveries = (s x).box.deliveries ∧ b.config.hrp = (s x).box.config.hrp ∧
        b.config.localDomain = (s x).box.config.localDomain ∧ (∀ md m, c.msg ≠ .process md m) ∧
        (dispatchedIn resp).filter (fun m => senderOf m = r x) = []) ∨
        (∃ md m, c.msg = .process md m ∧
          Mailbox.process H (P x).codec c.env (s x).box c.sender md m = .ok (b, resp)) := by
      rcases Mailbox.execute_cases h1 with ⟨m, ow, e1, e2, rfl, rfl⟩ | ⟨ad, e1, e2, e3, rfl, rfl⟩ |
        ⟨ad, e1, e2, e3, rfl, rfl⟩ | ⟨ad, e1, e2, e3, rfl, rfl⟩ | ⟨q, e1, e2⟩ | ⟨md, m, e1, e2⟩
      · exact .inl ⟨by simp, Nat.le_refl _, rfl, rfl, rfl, by simp [e1], rfl⟩
      · exact .inl ⟨by simp, Nat.le_refl _, rfl, rfl, rfl, by simp [e1], rfl⟩
      · exact .inl ⟨by simp, Nat.le_refl _, rfl, rfl, rfl, by simp [e1], rfl⟩
      · exact .inl ⟨by simp, Nat.le_refl _, rfl, rfl, rfl, by simp [e1], rfl⟩
      · obtain ⟨h32, g1, g2, g3, g4, g5, g6, g7⟩ := dispatch_effect e2
        refine .inl ⟨by omega, by omega, g4, by rw [g3], by rw [g3], by simp [e1], ?_⟩
        rw [g6]
        have hwf := (C01_message_layout ⟨3, (s x).box.nonce, (s x).box.config.localDomain, h32, q.dest, q.recipient,
          q.body⟩ (Mailbox.length_bech32ToH256 g1) g2 _).1 rfl
        have hs : senderOf (Message.encode ⟨3, (s x).box.nonce, (s x).box.config.localDomain, h32, q.dest,
          q.recipient, q.body⟩) = h32 := hwf.sender
        have hne : h32 ≠ r x := by
          rintro rfl
          exact hsnd x c q rfl e1 g1
        simp [hs, hne]
      · exact .inr ⟨md, m, e1, e2⟩
    rcases split with ⟨k1, k2, k3, k4, k5, k6, k7⟩ | ⟨md, m, e1, e2⟩
    · obtain ⟨rfl, f1, f2, f3, f4⟩ := plain k1 k2 k3 k4 k5 k6 k7
      obtain ⟨q1, q2⟩ := quiet_totals (P := P) (a := .mailbox x c) (o := ⟨rr, resp :: mr⟩) f2 rfl
      refine ⟨linked_fixed hl f1, fun y hy => set_other s _ hy, ?_, ?_, ?_, ?_, .inr (.inr
        ⟨f3, q1, q2, .inl f4⟩)⟩
      · simp only [sideOf, set_same]; exact k2
      · simp only [sideOf, set_same, k3]; exact fun _ h => h
      · cases x <;> simp [Bridge.set, released, total, locked, donated, sideOf, isTransfer, attached, f2]
      · cases x <;> simp [Bridge.set, burned, minted, total, burnedByOthers, sideOf, f2]
    · obtain ⟨msg, recipient, named, dflt, g1, g2, g3, g4, g5, g6, g7, g8, rfl, rfl⟩ := Mailbox.process_ok.1 e2
      have hwf := wireFormat_of_decode g1
      have hdel : deliveredOn x [(.mailbox x c, ⟨rr, ⟨[OutMsg.execute recipient (.handle msg.origin msg.sender
          msg.body) []], [.processId (H m), .process msg.origin msg.sender msg.recipient], none⟩ :: mr⟩)] = [m] := by
        simp [deliveredOn, submitted, e1]
      have hhas : ∀ i, ((s x).box.deliveries.insert (H m) ⟨c.sender, c.env.height⟩).has i = true ↔
          i = H m ∨ (s x).box.deliveries.has i = true := by
        intro i; rw [OMap.has_insert]; simp
      by_cases hr : recipient = (P x).router
      · simp only [deliver, if_pos hr] at h2
        obtain ⟨f1, f2, f3, rfl, f5, f6⟩ := callRouter_handle h2 (hl.token x)
        simp only at f2 f3 f5 f6
        have hroute := hl.routes x msg.origin
        rw [f3] at hroute
        by_cases hdst : msg.origin = d x.other
        swap
        · rw [if_neg hdst] at hroute; cases hroute
        rw [if_pos hdst, Option.some.injEq] at hroute
        have hbody : fromBE (bytesOf 32 64 msg.body) = amountIn m := by unfold amountIn; rw [hwf.body]
        rw [hbody] at f5 f6
        refine ⟨linked_fixed hl ⟨f1.token, f1.mode, f1.mailbox, f1.routes, f1.hrp, f1.domain⟩,
          fun y hy => set_other s _ hy, ?_, ?_, ?_, ?_,
          .inr (.inl ⟨m, by simp [sentBy, announcedOn, dispatchedIn], hdel, g7, ?_, ?_, ?_, ?_, ?_, ?_⟩)⟩
        · simp only [sideOf, set_same, f2]; exact Nat.le_refl _
        · simp only [sideOf, set_same, f2]; exact fun i hi => (hhas i).2 (.inr hi)
        · cases x with
          | left =>
            obtain ⟨k1, k2⟩ := f5 hl.collateral
            simp only [Bridge.set, released, total, locked, donated, sideOf, isTransfer, attached, k2, List.map_cons,
              List.map_nil, List.sum_cons, List.sum_nil, if_true]
            simpa using k1
          | right => simp [Bridge.set, released, total, locked, donated, sideOf]
        · cases x with
          | left => simp [Bridge.set, burned, minted, total, burnedByOthers, sideOf]
          | right =>
            obtain ⟨k1, k2, k3⟩ := f6 hl.bridged
            simp [Bridge.set, burned, minted, total, burnedByOthers, sideOf, k1, k2, k3]
        · simp only [sideOf, set_same, f2]; exact (hhas _).2 (.inl rfl)
        · show originOf m = (d x.other).toNat
          rw [← hdst]; exact hwf.origin
        · show senderOf m = r x.other
          rw [← hroute]; exact hwf.sender
        · show recipientOf m = r x
          rw [hr] at g2
          have h32 : (r x).length = 32 := Mailbox.length_bech32ToH256 (hl.identity x)
          exact hwf.recipient.trans (bech32Encode_inj (hl.codec x) (by rw [← hwf.recipient]; have := hwf.size; simp; omega) h32 g2 (hl.address x))
        · cases x with
          | left => simp [took, locked, sideOf, isTransfer]
          | right =>
            obtain ⟨k1, k2, k3⟩ := f6 hl.bridged
            simp [took, burned, total, sideOf, k2]
        · cases x with
          | left =>
            obtain ⟨k1, k2⟩ := f5 hl.collateral
            simp [gave, released, total, sideOf, k2]
          | right =>
            obtain ⟨k1, k2, k3⟩ := f6 hl.bridged
            simp [gave, minted, total, sideOf, k3]
      · simp only [deliver, if_neg hr] at h2
        cases h2
        obtain ⟨q1, q2⟩ := quiet_totals (P := P) (a := .mailbox x c) (o := ⟨{}, ⟨[OutMsg.execute recipient
          (.handle msg.origin msg.sender msg.body) []], [.processId (H m), .process msg.origin msg.sender
          msg.recipient], none⟩ :: []⟩) rfl rfl
        refine ⟨linked_fixed hl ⟨rfl, rfl, rfl, rfl, rfl, rfl⟩, fun y hy => set_other s _ hy, ?_, ?_, ?_, ?_,
          .inr (.inr ⟨by simp [sentBy, announcedOn, dispatchedIn], q1, q2, .inr ⟨m, hdel, g7, ?_, ?_⟩⟩)⟩
        · simp only [sideOf, set_same]; exact Nat.le_refl _
        · simp only [sideOf, set_same]; exact fun i hi => (hhas i).2 (.inr hi)
        · cases x <;> simp [Bridge.set, released, total, locked, donated, sideOf, isTransfer, attached]
        · cases x <;> simp [Bridge.set, burned, minted, total, burnedByOthers, sideOf]
        · simp only [sideOf, set_same]; exact (hhas _).2 (.inl rfl)
        · intro hh
          have h3 : msg.recipient = r x := hwf.recipient.symm.trans hh
          rw [h3, hl.address x] at g2
          cases g2
          exact hr rfl

/-! ## Sums of outstanding amounts -/

section pending

variable {f : Bytes → Nat} {S D : List Bytes} {m : Bytes}

/-- Sum over the elements of `S` that are not in `D`. -/
def pending (f : Bytes → Nat) (S D : List Bytes) : Nat := ((S.filter (fun m => m ∉ D)).map f).sum

theorem pending_send (h : m ∉ D) : pending f (S ++ [m]) D = pending f S D + f m := by
  simp [pending, List.filter_append, h]

theorem pending_foreign (h : m ∉ S) : pending f S (D ++ [m]) = pending f S D := by
  unfold pending
  congr 2
  apply List.filter_congr
  intro a ha
  have : a ≠ m := fun hh => h (hh ▸ ha)
  simp [this]

theorem pending_deliver (hS : S.Nodup) (h1 : m ∈ S) (h2 : m ∉ D) : pending f S (D ++ [m]) + f m = pending f S D := by
  induction S with
  | nil => cases h1
  | cons a t ih =>
    obtain ⟨n1, n2⟩ := List.nodup_cons.1 hS
    have hc : ∀ E, pending f (a :: t) E = (if a ∉ E then f a else 0) + pending f t E := by
      intro E
      unfold pending
      by_cases ha : a ∈ E <;> simp [ha]
    rw [hc, hc]
    by_cases ha : a = m
    · subst ha
      rw [pending_foreign n1, if_neg (by simp), if_pos h2]
      omega
    · have hm : m ∈ t := by
        rcases List.mem_cons.1 h1 with h | h
        · exact absurd h.symm ha
        · exact h
      have hi : (a ∉ D ++ [m]) ↔ a ∉ D := by simp [ha]
      have := ih n2 hm
      simp only [hi]
      omega

end pending

theorem inFlight_eq (r : Side → Bytes) (x : Side) (log : BridgeLog) :
    inFlight r x log = pending amountIn (sentBy r x log) (deliveredOn x.other log) := rfl

/-- Everything delivered in the name of a router was sent by it. -/
theorem delivered_sent {P : Side → Setup} {r : Side → Bytes} {d : Side → UInt32} {log : BridgeLog}
    (hh : Honest P r d log) {x : Side} {m : Bytes} (hm : m ∈ deliveredOn x log)
    (h1 : originOf m = (d x.other).toNat) (h2 : senderOf m = r x.other) (h3 : recipientOf m = r x) :
    ∃ pre post, log = pre ++ post ∧ m ∈ sentBy r x.other pre ∧ post ≠ [] := by
  obtain ⟨e, he, hs⟩ := List.mem_flatMap.1 hm
  clear hm
  rename' hs => hm
  obtain ⟨pre, post, rfl⟩ := List.append_of_mem he
  obtain ⟨a, o⟩ := e
  cases a with
  | mailbox y c =>
    simp only [submitted] at hm
    by_cases hy : y = x
    · subst hy
      rw [if_pos rfl] at hm
      split at hm
      · rename_i md m' hc
        rw [List.mem_singleton] at hm
        subst hm
        have := hh.ism pre y c o post md m rfl hc h1 h2 h3
        exact ⟨pre, _, rfl, List.mem_filter.2 ⟨this, by simpa using h2⟩, by simp⟩
      · cases hm
    · rw [if_neg hy] at hm; cases hm
  | _ => cases hm

theorem honest_prefix {P : Side → Setup} {r : Side → Bytes} {d : Side → UInt32} {a b : BridgeLog}
    (h : Honest P r d (a ++ b)) : Honest P r d a :=
  ⟨fun e he => h.callers e (List.mem_append_left _ he), fun e he => h.routes e (List.mem_append_left _ he),
   fun e he => h.senders e (List.mem_append_left _ he),
   fun pre x c out post md m hl => h.ism pre x c out (post ++ b) md m (by rw [hl]; simp)⟩

theorem mem_sentBy {r : Side → Bytes} {x : Side} {log : BridgeLog} {m : Bytes} (h : m ∈ sentBy r x log) :
    senderOf m = r x := by
  simpa using (List.mem_filter.1 h).2

/-- What holds after every execution. -/
structure Inv (H : Bytes → Bytes) (P : Side → Setup) (r : Side → Bytes) (d : Side → UInt32) (Q : Nat → Prop)
    (s0 s : Side → Chain) (log : BridgeLog) : Prop where
  linked : Linked P r d s
  nonce : ∀ x, ∀ m ∈ sentBy r x log, nonceOf m < (s x).box.nonce.toNat
  nodup : ∀ x, (sentBy r x log).Nodup
  shape : ∀ x, ∀ m ∈ sentBy r x log, originOf m = (d x).toNat ∧ recipientOf m = r x.other
  has : ∀ x, ∀ m ∈ deliveredOn x log, (s x).box.deliveries.has (H m) = true
  left : (s .left).held + released P .left log = (s0 .left).held + locked P .left log + donated P .left log
  right : (s .right).supply + burned P .right log + burnedByOthers .right log =
    (s0 .right).supply + minted P .right log
  books : ∀ x, ∃ slack, took P x log = gave P x.other log + inFlight r x log + slack ∧
    ((∀ n, Q n → n = 32) → slack = 0)

theorem fromBE_append (a b : Bytes) : fromBE (a ++ b) = fromBE a * 256 ^ b.length + fromBE b := by
  induction b using List.reverseRecOn with
  | nil => simp [fromBE]
  | append_singleton t x ih =>
    rw [← List.append_assoc, fromBE_append_singleton, fromBE_append_singleton, ih]
    simp only [List.length_append, List.length_singleton, Nat.pow_succ]
    ring

/-- A recipient of at most 32 bytes leaves at most the amount paid for where the amount is read. -/
theorem amount_le {recipient : Bytes} {amount : Nat} (hr : recipient.length ≤ 32) (ha : amount < 2 ^ 128) :
    fromBE (bytesOf 32 64 (recipient ++ u256be amount)) ≤ amount := by
  have h1 : (u256be amount).length = 32 := by simp
  have h2 : bytesOf 32 64 (recipient ++ u256be amount) = (u256be amount).drop (32 - recipient.length) := by
    unfold bytesOf
    rw [List.drop_append, List.drop_eq_nil_of_le hr, List.nil_append]
    apply List.take_of_length_le
    rw [List.length_drop, h1]
    omega
  rw [h2]
  have h3 : fromBE (u256be amount) = amount := fromBE_u256be (Nat.lt_trans ha (by decide))
  have h4 := fromBE_append ((u256be amount).take (32 - recipient.length)) ((u256be amount).drop (32 - recipient.length))
  rw [List.take_append_drop, h3] at h4
  exact Nat.le_trans (Nat.le_add_left _ _) (Nat.le_of_eq h4.symm)

/-- The invariant holds after every execution whose transfers name recipients of at most 32 bytes. -/
theorem inv_chain {H : Bytes → Bytes} {P : Side → Setup} {r : Side → Bytes} {d : Side → UInt32} {Q : Nat → Prop}
    (hQ : ∀ n, Q n → n ≤ 32) {s0 : Side → Chain} (hl : Linked P r d s0) (log : BridgeLog) :
    ∀ s, Tx.Chain (step H P) s0 log s → Honest P r d log → Recipients Q log → Inv H P r d Q s0 s log := by
  induction log using List.reverseRecOn with
  | nil =>
    intro s hc _ _
    simp only [Tx.Chain] at hc
    subst hc
    exact ⟨hl, by simp [sentBy, announcedOn], by simp [sentBy, announcedOn], by simp [sentBy, announcedOn],
      by simp [deliveredOn], by simp [released, total, locked, donated],
      by simp [burned, minted, total, burnedByOthers],
      fun x => ⟨0, by cases x <;>
        simp [took, gave, inFlight, sentBy, announcedOn, locked, released, burned, minted, total, Side.other],
        fun _ => rfl⟩⟩
  | append_singleton log e ih =>
    intro s' hc hh hq
    obtain ⟨a, o⟩ := e
    obtain ⟨s, h1, h2⟩ := Tx.Chain.snoc.1 hc
    have h2 : step H P s a = .ok (s', o) := h2
    have hh' := honest_prefix hh
    have I := ih s h1 hh' (fun e' he' => hq e' (List.mem_append_left _ he'))
    have hmem : (a, o) ∈ log ++ [(a, o)] := by simp
    obtain ⟨e1, e2, e3, e4, e5, e6, e7⟩ := step_effect I.linked h2
      (fun x c env ha => hh.callers _ hmem x c env ha) (fun x c env ha => hh.routes _ hmem x c env ha)
      (fun x c q ha => hh.senders _ hmem x c q ha)
    generalize hx : sideOf a = x at *
    -- the other chain
    have hne : sideOf a ≠ x.other := by rw [hx]; exact fun h => other_ne x h.symm
    obtain ⟨o1, o2, o3, o4, o5, o6, o7⟩ := single_other P r (o := o) hne
    have hso : s' x.other = s x.other := e2 _ (other_ne x)
    have hleft : (s' .left).held + released P .left (log ++ [(a, o)]) =
        (s0 .left).held + locked P .left (log ++ [(a, o)]) + donated P .left (log ++ [(a, o)]) := by
      rw [released_append, locked_append, donated_append]
      have := I.left
      omega
    have hright : (s' .right).supply + burned P .right (log ++ [(a, o)]) + burnedByOthers .right (log ++ [(a, o)]) =
        (s0 .right).supply + minted P .right (log ++ [(a, o)]) := by
      rw [burned_append, minted_append, burnedByOthers_append]
      have := I.right
      omega
    have hnonce : ∀ y, (s y).box.nonce.toNat ≤ (s' y).box.nonce.toNat := by
      intro y
      by_cases hy : y = x
      · rw [hy]; exact e3
      · rw [e2 y hy]
    have hhas : ∀ y i, (s y).box.deliveries.has i = true → (s' y).box.deliveries.has i = true := by
      intro y i hi
      by_cases hy : y = x
      · rw [hy] at hi ⊢; exact e4 i hi
      · rw [e2 y hy]; exact hi
    obtain ⟨k1, b1, c1⟩ := I.books x
    obtain ⟨k2, b2, c2⟩ := I.books x.other
    rw [other_other] at b2
    rw [inFlight_eq] at b1 b2
    rw [other_other] at b2
    -- assembling, given the lists of the entry
    rcases e7 with ⟨m, c, env, dest, recipient, amount, hook, md, t1, t2, t3, t4, t5, t6, t7, t8, t9, t10, t11, t12,
      t13⟩ | ⟨m, t1, t2, t3, t4, t5, t6, t6', t7, t8⟩ | ⟨t1, t2, t3, t4⟩
    · -- transfer
      have hnew : m ∉ deliveredOn x.other log := by
        intro hd
        obtain ⟨pre, post, hlog, hm, _⟩ := delivered_sent hh' hd (by rw [other_other]; exact t8)
          (by rw [other_other]; exact t9) t10
        rw [other_other] at hm
        have := I.nonce x m (by rw [hlog, sentBy_append]; exact List.mem_append_left _ hm)
        omega
      have hlen := hQ _ (hq _ hmem x c env dest recipient amount hook md t1 t2)
      have hamt := amount_le hlen t3
      have hS : sentBy r x (log ++ [(a, o)]) = sentBy r x log ++ [m] := by rw [sentBy_append, t4]
      have hS' : sentBy r x.other (log ++ [(a, o)]) = sentBy r x.other log := by
        rw [sentBy_append, o2, List.append_nil]
      have hD : deliveredOn x (log ++ [(a, o)]) = deliveredOn x log := by rw [deliveredOn_append, t5, List.append_nil]
      have hD' : deliveredOn x.other (log ++ [(a, o)]) = deliveredOn x.other log := by
        rw [deliveredOn_append, o3, List.append_nil]
      refine ⟨e1, ?_, ?_, ?_, ?_, hleft, hright, ?_⟩
      · intro y m' hm'
        by_cases hy : y = x
        · subst hy
          rw [hS, List.mem_append, List.mem_singleton] at hm'
          rcases hm' with hm' | rfl
          · exact Nat.lt_of_lt_of_le (I.nonce _ _ hm') (hnonce _)
          · omega
        · rw [eq_other hy] at hm' ⊢
          rw [hS'] at hm'
          exact Nat.lt_of_lt_of_le (I.nonce _ _ hm') (hnonce _)
      · intro y
        by_cases hy : y = x
        · subst hy
          rw [hS, List.nodup_append]
          refine ⟨I.nodup _, by simp, ?_⟩
          rintro m1 hm1 m2 hm2 rfl
          rw [List.mem_singleton] at hm2
          subst hm2
          have := I.nonce _ _ hm1
          omega
        · rw [eq_other hy, hS']
          exact I.nodup _
      · intro y m' hm'
        by_cases hy : y = x
        · subst hy
          rw [hS, List.mem_append, List.mem_singleton] at hm'
          rcases hm' with hm' | rfl
          · exact I.shape _ _ hm'
          · exact ⟨t8, t10⟩
        · rw [eq_other hy] at hm' ⊢
          rw [hS'] at hm'
          exact I.shape _ _ hm'
      · intro y m' hm'
        by_cases hy : y = x
        · rw [hy] at hm' ⊢
          rw [hD] at hm'
          exact hhas _ _ (I.has _ _ hm')
        · rw [eq_other hy] at hm' ⊢
          rw [hD'] at hm'
          exact hhas _ _ (I.has _ _ hm')
      · intro y
        by_cases hy : y = x
        · subst hy
          refine ⟨k1 + (amount - amountIn m), ?_, ?_⟩
          · rw [inFlight_eq, took_append, gave_append, hS, hD', pending_send hnew, t12, o5, t11]
            omega
          · intro h32
            have hr32 := h32 _ (hq _ hmem y c env dest recipient amount hook md t1 t2)
            rw [c1 h32, t11, (transfer_body hr32 t3).2.2]
            omega
        · rw [eq_other hy]
          refine ⟨k2, ?_, c2⟩
          rw [inFlight_eq, other_other, took_append, gave_append, hS', hD, o4, t13]
          omega
    · -- delivery
      have hin : m ∈ sentBy r x.other log := by
        have hd : m ∈ deliveredOn x (log ++ [(a, o)]) := by rw [deliveredOn_append, t2]; simp
        obtain ⟨pre, post, hlog, hm, hp⟩ := delivered_sent hh hd t5 t6 t6'
        obtain ⟨post', l, rfl⟩ := List.eq_nil_or_concat post |>.resolve_left hp
        rw [List.concat_eq_append, ← List.append_assoc] at hlog
        have := (List.append_inj' hlog rfl).1
        rw [this, sentBy_append]
        exact List.mem_append_left _ hm
      have hout : m ∉ deliveredOn x log := by
        intro hd
        have := I.has _ _ hd
        rw [t3] at this
        cases this
      have hS : sentBy r x (log ++ [(a, o)]) = sentBy r x log := by rw [sentBy_append, t1, List.append_nil]
      have hS' : sentBy r x.other (log ++ [(a, o)]) = sentBy r x.other log := by
        rw [sentBy_append, o2, List.append_nil]
      have hSy : ∀ y, sentBy r y (log ++ [(a, o)]) = sentBy r y log := by
        intro y
        by_cases hy : y = x
        · rw [hy]; exact hS
        · rw [eq_other hy]; exact hS'
      have hD : deliveredOn x (log ++ [(a, o)]) = deliveredOn x log ++ [m] := by rw [deliveredOn_append, t2]
      have hD' : deliveredOn x.other (log ++ [(a, o)]) = deliveredOn x.other log := by
        rw [deliveredOn_append, o3, List.append_nil]
      refine ⟨e1, ?_, ?_, ?_, ?_, hleft, hright, ?_⟩
      · intro y m' hm'
        rw [hSy] at hm'
        exact Nat.lt_of_lt_of_le (I.nonce _ _ hm') (hnonce _)
      · intro y; rw [hSy]; exact I.nodup _
      · intro y m' hm'
        rw [hSy] at hm'
        exact I.shape _ _ hm'
      · intro y m' hm'
        by_cases hy : y = x
        · rw [hy] at hm' ⊢
          rw [hD, List.mem_append, List.mem_singleton] at hm'
          rcases hm' with hm' | rfl
          · exact hhas _ _ (I.has _ _ hm')
          · exact t4
        · rw [eq_other hy] at hm' ⊢
          rw [hD'] at hm'
          exact hhas _ _ (I.has _ _ hm')
      · intro y
        by_cases hy : y = x
        · subst hy
          refine ⟨k1, ?_, c1⟩
          rw [inFlight_eq, took_append, gave_append, hS, hD', t7, o5]
          omega
        · rw [eq_other hy]
          refine ⟨k2, ?_, c2⟩
          rw [inFlight_eq, other_other, took_append, gave_append, hS', hD, o4, t8]
          have := pending_deliver (f := amountIn) (I.nodup x.other) hin hout
          omega
    · -- other
      have hS : sentBy r x (log ++ [(a, o)]) = sentBy r x log := by rw [sentBy_append, t1, List.append_nil]
      have hS' : sentBy r x.other (log ++ [(a, o)]) = sentBy r x.other log := by
        rw [sentBy_append, o2, List.append_nil]
      have hSy : ∀ y, sentBy r y (log ++ [(a, o)]) = sentBy r y log := by
        intro y
        by_cases hy : y = x
        · rw [hy]; exact hS
        · rw [eq_other hy]; exact hS'
      have hD' : deliveredOn x.other (log ++ [(a, o)]) = deliveredOn x.other log := by
        rw [deliveredOn_append, o3, List.append_nil]
      have hpend : pending amountIn (sentBy r x.other log) (deliveredOn x (log ++ [(a, o)])) =
          pending amountIn (sentBy r x.other log) (deliveredOn x log) := by
        rcases t4 with t4 | ⟨m, t4, _, _, t5⟩
        · rw [deliveredOn_append, t4, List.append_nil]
        · rw [deliveredOn_append, t4]
          apply pending_foreign
          intro hm
          have := (I.shape _ _ hm).2
          rw [other_other] at this
          exact t5 this
      refine ⟨e1, ?_, ?_, ?_, ?_, hleft, hright, ?_⟩
      · intro y m' hm'
        rw [hSy] at hm'
        exact Nat.lt_of_lt_of_le (I.nonce _ _ hm') (hnonce _)
      · intro y; rw [hSy]; exact I.nodup _
      · intro y m' hm'
        rw [hSy] at hm'
        exact I.shape _ _ hm'
      · intro y m' hm'
        by_cases hy : y = x
        · rw [hy] at hm' ⊢
          rw [deliveredOn_append, List.mem_append] at hm'
          rcases hm' with hm' | hm'
          · exact hhas _ _ (I.has _ _ hm')
          · rcases t4 with t4 | ⟨m, t4, _, t6, _⟩
            · rw [t4] at hm'; cases hm'
            · rw [t4, List.mem_singleton] at hm'
              rw [hm']; exact t6
        · rw [eq_other hy] at hm' ⊢
          rw [hD'] at hm'
          exact hhas _ _ (I.has _ _ hm')
      · intro y
        by_cases hy : y = x
        · subst hy
          refine ⟨k1, ?_, c1⟩
          rw [inFlight_eq, took_append, gave_append, hS, hD', t2, o5]
          omega
        · rw [eq_other hy]
          refine ⟨k2, ?_, c2⟩
          rw [inFlight_eq, other_other, took_append, gave_append, hS', hpend, o4, t3]
          omega

/-! ## C61 -/

/-- C61 as stated: from any linked state in which the bridged supply is backed, after every execution of the two chains
(any nesting of calls, any rollbacks) the collateral covers the bridged supply and all transfers in flight, and no more
was minted than locked and no more released than burned. -/
def C61_full : Prop :=
  ∀ (H : Bytes → Bytes) (P : Side → Setup) (r : Side → Bytes) (d : Side → UInt32) (s0 : Side → Chain)
    (txs : List (List (Tx.Act Act))),
    Linked P r d s0 → (s0 .right).supply ≤ (s0 .left).held →
    Honest P r d (Tx.history (step H P) s0 txs).2 →
    ((Tx.history (step H P) s0 txs).1 .right).supply + inFlight r .left (Tx.history (step H P) s0 txs).2 +
        inFlight r .right (Tx.history (step H P) s0 txs).2 ≤ ((Tx.history (step H P) s0 txs).1 .left).held ∧
    minted P .right (Tx.history (step H P) s0 txs).2 ≤ locked P .left (Tx.history (step H P) s0 txs).2 ∧
    released P .left (Tx.history (step H P) s0 txs).2 ≤ burned P .right (Tx.history (step H P) s0 txs).2

/-- It is false: alice pays one token, names a recipient of 64 bytes, and gets 1000. -/
theorem C61_full_refuted : ¬ C61_full := by
  intro h
  have hp : Ex.playable toyHash Ex.bridge0 Ex.attackActs = true := by decide +kernel
  have h1 := h toyHash Ex.setup Ex.routerId Ex.domainOf Ex.bridge0 (Ex.attackActs.map (fun a => [.call a []]))
    Ex.bridge0_linked (Nat.le_refl _)
    (by rw [Ex.history_play hp]; exact Ex.honest_of (by decide +kernel))
  rw [Ex.history_play hp] at h1
  exact absurd h1.2.1 (by decide +kernel)

/-- Part of C61: it holds as long as transfers name recipients of at most 32 bytes (which the routers do not check). -/
theorem C61_backing_partial (H : Bytes → Bytes) (P : Side → Setup) (r : Side → Bytes) (d : Side → UInt32)
    (s0 : Side → Chain) (txs : List (List (Tx.Act Act))) (hl : Linked P r d s0)
    (h0 : (s0 .right).supply ≤ (s0 .left).held) (hh : Honest P r d (Tx.history (step H P) s0 txs).2)
    (hr : Recipients (· ≤ 32) (Tx.history (step H P) s0 txs).2) :
    ((Tx.history (step H P) s0 txs).1 .right).supply + inFlight r .left (Tx.history (step H P) s0 txs).2 +
        inFlight r .right (Tx.history (step H P) s0 txs).2 ≤ ((Tx.history (step H P) s0 txs).1 .left).held ∧
    minted P .right (Tx.history (step H P) s0 txs).2 ≤ locked P .left (Tx.history (step H P) s0 txs).2 ∧
    released P .left (Tx.history (step H P) s0 txs).2 ≤ burned P .right (Tx.history (step H P) s0 txs).2 := by
  have I := inv_chain (Q := (· ≤ 32)) (fun _ h => h) hl _ _ (Tx.history_chain (step H P) s0 txs) hh hr
  obtain ⟨k1, b1, _⟩ := I.books .left
  obtain ⟨k2, b2, _⟩ := I.books .right
  simp only [took, gave, Side.other] at b1 b2
  have := I.left
  have := I.right
  omega

/-- Part of C61: if all recipients have 32 bytes, the books balance exactly. What was locked is minted or in flight, what
was burned is released or in flight, and the collateral is the bridged supply, all transfers in flight, what was given
to the router and what others burned (plus what there was more of it at the start). -/
theorem C61_equality_partial (H : Bytes → Bytes) (P : Side → Setup) (r : Side → Bytes) (d : Side → UInt32)
    (s0 : Side → Chain) (txs : List (List (Tx.Act Act))) (hl : Linked P r d s0)
    (hh : Honest P r d (Tx.history (step H P) s0 txs).2)
    (hr : Recipients (· = 32) (Tx.history (step H P) s0 txs).2) :
    ((Tx.history (step H P) s0 txs).1 .left).held + (s0 .right).supply =
      (s0 .left).held + ((Tx.history (step H P) s0 txs).1 .right).supply +
        inFlight r .left (Tx.history (step H P) s0 txs).2 + inFlight r .right (Tx.history (step H P) s0 txs).2 +
        donated P .left (Tx.history (step H P) s0 txs).2 + burnedByOthers .right (Tx.history (step H P) s0 txs).2 ∧
    locked P .left (Tx.history (step H P) s0 txs).2 =
      minted P .right (Tx.history (step H P) s0 txs).2 + inFlight r .left (Tx.history (step H P) s0 txs).2 ∧
    burned P .right (Tx.history (step H P) s0 txs).2 =
      released P .left (Tx.history (step H P) s0 txs).2 + inFlight r .right (Tx.history (step H P) s0 txs).2 := by
  have I := inv_chain (Q := (· = 32)) (fun _ h => Nat.le_of_eq h) hl _ _ (Tx.history_chain (step H P) s0 txs) hh hr
  obtain ⟨k1, b1, c1⟩ := I.books .left
  obtain ⟨k2, b2, c2⟩ := I.books .right
  have := c1 (fun _ h => h)
  have := c2 (fun _ h => h)
  simp only [took, gave, Side.other] at b1 b2
  have := I.left
  have := I.right
  omega

/-- An execution meeting all hypotheses, with 93 tokens held, 59 in circulation, 20 and 7 in flight, 3 given and 4
burned. -/
example : Linked Ex.setup Ex.routerId Ex.domainOf Ex.bridge0 ∧
    let x := Tx.history (step toyHash Ex.setup) Ex.bridge0 (Ex.fairActs.map (fun a => [.call a []]))
    Honest Ex.setup Ex.routerId Ex.domainOf x.2 ∧ Recipients (· = 32) x.2 ∧ Recipients (· ≤ 32) x.2 ∧
    (x.1 .left).held = 93 ∧ (x.1 .right).supply = 59 ∧ inFlight Ex.routerId .left x.2 = 20 ∧
    inFlight Ex.routerId .right x.2 = 7 ∧ donated Ex.setup .left x.2 = 3 ∧ burnedByOthers .right x.2 = 4 := by
  have hp : Ex.playable toyHash Ex.bridge0 Ex.fairActs = true := by decide +kernel
  refine ⟨Ex.bridge0_linked, ?_⟩
  simp only [Ex.history_play hp]
  exact ⟨Ex.honest_of (by decide +kernel), Ex.recipients_of (by decide +kernel), Ex.recipients_of (by decide +kernel),
    by decide +kernel, by decide +kernel, by decide +kernel, by decide +kernel, by decide +kernel, by decide +kernel⟩

end Bridge

end Hpl
