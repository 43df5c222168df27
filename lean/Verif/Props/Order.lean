import Verif.Spec.Order
import Verif.Props.TokenWorld

/-! # The order of deliveries: C89 -/

namespace Hpl.TokenWorld

open Spec
open Bridge (Setup Out)

variable {H : Bytes → Bytes} {p : Setup} {env : Mailbox.Env} {c c' : Chain} {dst : Addr} {n : Nat} {token : String}
  {mode : Warp.Mode}

/-- Paying `n` tokens to an account other than the router. -/
def Paid (p : Setup) (token : String) (mode : Warp.Mode) (dst : Addr) (n : Nat) (c c' : Chain) : Prop :=
  match p.native, mode with
  | true, .collateral => n ≠ 0 ∧ n ≤ c.bank.balance p.router token ∧ c' = { c with bank := { c.bank with
      balance := fun a d => if d = token then
        (if a = p.router then c.bank.balance a d - n else if a = dst then c.bank.balance a d + n else c.bank.balance a d)
        else c.bank.balance a d } }
  | true, .bridged => n ≠ 0 ∧ c.bank.admin token = some p.router ∧ c' = { c with bank := { c.bank with
      balance := fun a d => if a = dst ∧ d = token then c.bank.balance a d + n else c.bank.balance a d
      supply := fun d => if d = token then c.bank.supply d + n else c.bank.supply d } }
  | false, .collateral => (token ≠ p.mailbox ∧ token = p.token) ∧ (c.token.strict = true → n ≠ 0) ∧
      n ≤ c.token.balance p.router ∧ c.token.balance dst + n < u128Lim ∧ c' = { c with token := { c.token with
        balance := fun a => if a = p.router then c.token.balance a - n else if a = dst then c.token.balance a + n
          else c.token.balance a } }
  | false, .bridged => (token ≠ p.mailbox ∧ token = p.token) ∧ (c.token.strict = true → n ≠ 0) ∧
      (∃ cap, c.token.minter = some (p.router, cap) ∧ Cw20.capped cap (c.token.supply + n) = true) ∧
      c.token.supply + n < u128Lim ∧ c.token.balance dst + n < u128Lim ∧ c' = { c with token := { c.token with
        balance := fun a => if a = dst then c.token.balance a + n else c.token.balance a
        supply := c.token.supply + n } }

theorem positive_iff {t : Cw20} : t.positive n = .ok () ↔ (t.strict = true → n ≠ 0) := by
  unfold Cw20.positive
  rw [ensure_eq_ok]
  cases t.strict <;> simp

theorem performAll_one {q : OutMsg} {x : Chain × List Response} :
    performAll H p env c [q] = .ok x ↔ perform H p env c q = .ok x := by
  constructor
  · intro h
    obtain ⟨y, h1, h⟩ := bind_eq_ok.1 h
    obtain rfl := Except.ok.inj h
    rw [h1, List.append_nil]
  · intro h
    refine bind_eq_ok.2 ⟨x, h, ?_⟩
    show Except.ok (x.1, x.2 ++ []) = _
    rw [List.append_nil]

theorem send_iff {b b' : Bank} {src : Addr} (hd : dst ≠ src) : b.send src dst [⟨token, n⟩] = .ok b' ↔
    n ≠ 0 ∧ n ≤ b.balance src token ∧ b' = { b with
      balance := fun a d => if d = token then
        (if a = src then b.balance a d - n else if a = dst then b.balance a d + n else b.balance a d)
        else b.balance a d } := by
  have hb : (fun a d => (if a = src then b.balance a d - Bank.total d [⟨token, n⟩] else b.balance a d) +
      if a = dst then Bank.total d [⟨token, n⟩] else 0) = fun a d => if d = token then
        (if a = src then b.balance a d - n else if a = dst then b.balance a d + n else b.balance a d)
        else b.balance a d := by
    funext a d
    rw [total_single]
    by_cases h : token = d
    · subst h
      simp only [if_true]
      by_cases h1 : a = src
      · have : a ≠ dst := fun h2 => hd (h2.symm.trans h1)
        rw [if_pos h1, if_neg this, if_pos h1, Nat.add_zero]
      · by_cases h2 : a = dst
        · rw [if_neg h1, if_pos h2, if_neg h1, if_pos h2]
        · rw [if_neg h1, if_neg h2, if_neg h1, if_neg h2, Nat.add_zero]
    · simp [h, Ne.symm h]
  unfold Bank.send
  rw [bind_eq_ok]
  constructor
  · rintro ⟨_, h1, h2⟩
    obtain ⟨h3, rfl⟩ := Bank.move_ok.1 h2
    have := h3 token
    rw [total_single, if_pos rfl] at this
    exact ⟨by simpa using ensure_eq_ok.1 h1, this, by rw [hb]⟩
  · rintro ⟨h1, h2, rfl⟩
    refine ⟨(), ensure_eq_ok.2 (by simp [h1]), Bank.move_ok.2 ⟨fun t => ?_, by rw [hb]⟩⟩
    rw [total_single]
    by_cases h : token = t
    · rw [if_pos h, ← h]; exact h2
    · rw [if_neg h]; exact Nat.zero_le _

theorem execute_iff {q : Payload} (hq : ∀ m, q ≠ .dispatch m) {x : Chain × List Response} :
    perform H p env c (.execute token q []) = .ok x ↔
      token ≠ p.mailbox ∧ p.native = false ∧ token = p.token ∧ ∃ t, cw20 p c.token q = .ok t ∧ x = ({ c with token := t }, []) := by
  constructor
  · intro h
    obtain ⟨b, h1, h⟩ := bind_eq_ok.1 h
    rw [move_nil] at h1
    obtain rfl := Except.ok.inj h1
    split at h
    · cases q with
      | dispatch m => exact absurd rfl (hq m)
      | _ => cases h
    · rename_i hm
      split at h
      · rename_i hn
        obtain ⟨t, h2, h⟩ := bind_eq_ok.1 h
        obtain rfl := Except.ok.inj h
        exact ⟨hm, hn.1, hn.2, t, h2, rfl⟩
      · cases h
  · rintro ⟨h1, h2, h3, t, h4, rfl⟩
    refine bind_eq_ok.2 ⟨_, move_nil _ _ _, ?_⟩
    rw [if_neg h1, if_pos ⟨h2, h3⟩]
    exact bind_eq_ok.2 ⟨t, h4, rfl⟩

theorem transfer_iff {t t' : Cw20} {src : Addr} (hd : dst ≠ src) : t.transfer src dst n = .ok t' ↔
    (t.strict = true → n ≠ 0) ∧ n ≤ t.balance src ∧ t.balance dst + n < u128Lim ∧ t' = { t with
        balance := fun a => if a = src then t.balance a - n else if a = dst then t.balance a + n else t.balance a } := by
  have hb : (fun x => if x = dst then (if x = src then t.balance x - n else t.balance x) + n else
      if x = src then t.balance x - n else t.balance x) =
      fun a => if a = src then t.balance a - n else if a = dst then t.balance a + n else t.balance a := by
    funext a
    by_cases h1 : a = src
    · have : a ≠ dst := fun h2 => hd (h2.symm.trans h1)
      rw [if_neg this, if_pos h1, if_pos h1]
    · by_cases h2 : a = dst
      · rw [if_pos h2, if_neg h1, if_neg h1, if_pos h2]
      · rw [if_neg h2, if_neg h1, if_neg h1, if_neg h2]
  constructor
  · intro h
    obtain ⟨_, h1, h⟩ := bind_eq_ok.1 h
    obtain ⟨u, h2, h⟩ := bind_eq_ok.1 h
    obtain ⟨g1, rfl⟩ := Cw20.debit_ok.1 h2
    obtain ⟨g2, rfl⟩ := Cw20.credit_ok.1 h
    simp only [if_neg hd] at g2
    exact ⟨positive_iff.1 h1, g1, g2, by simp only [hb]⟩
  · rintro ⟨h1, h2, h3, rfl⟩
    refine bind_eq_ok.2 ⟨(), positive_iff.2 h1, bind_eq_ok.2 ⟨_, Cw20.debit_ok.2 ⟨h2, rfl⟩, Cw20.credit_ok.2 ⟨?_, ?_⟩⟩⟩
    · simp only [if_neg hd]
      exact h3
    · simp only [hb]

theorem mint_iff {t t' : Cw20} {src : Addr} : t.mint src dst n = .ok t' ↔
    (t.strict = true → n ≠ 0) ∧ (∃ cap, t.minter = some (src, cap) ∧ Cw20.capped cap (t.supply + n) = true) ∧
      t.supply + n < u128Lim ∧ t.balance dst + n < u128Lim ∧ t' = { t with
        balance := fun a => if a = dst then t.balance a + n else t.balance a
        supply := t.supply + n } := by
  constructor
  · intro h
    obtain ⟨_, h1, h⟩ := bind_eq_ok.1 h
    split at h
    · cases h
    · rename_i m cap hm
      obtain ⟨_, h2, h'⟩ := bind_eq_ok.1 h
      obtain ⟨_, h3, h''⟩ := bind_eq_ok.1 h'
      obtain ⟨_, h4, h5⟩ := bind_eq_ok.1 h''
      have := of_decide_eq_true (ensure_eq_ok.1 h2)
      subst this
      obtain ⟨g, rfl⟩ := Cw20.credit_ok.1 h5
      exact ⟨positive_iff.1 h1, ⟨cap, hm, ensure_eq_ok.1 h4⟩, of_decide_eq_true (ensure_eq_ok.1 h3), g, rfl⟩
  · rintro ⟨h1, ⟨cap, h2, h3⟩, h4, h5, rfl⟩
    refine bind_eq_ok.2 ⟨(), positive_iff.2 h1, ?_⟩
    rw [h2]
    exact bind_eq_ok.2 ⟨(), ensure_eq_ok.2 (decide_eq_true rfl), bind_eq_ok.2 ⟨(), ensure_eq_ok.2 (decide_eq_true h4),
      bind_eq_ok.2 ⟨(), ensure_eq_ok.2 h3, Cw20.credit_ok.2 ⟨h5, by rw [← h2]⟩⟩⟩⟩

/-- What the messages for an arriving transfer do. -/
theorem release_iff {l : List OutMsg} (hl : p.kind.release p.router token mode dst n = .ok l) (hd : dst ≠ p.router)
    {x : Chain × List Response} : performAll H p env c l = .ok x ↔ ∃ c', Paid p token mode dst n c c' ∧ x = (c', []) := by
  unfold Setup.kind at hl
  unfold Paid
  cases hp : p.native
  · rw [hp] at hl
    obtain ⟨k, hk, hl'⟩ := bind_eq_ok.1 hl
    clear hl
    have : k = n := by
      unfold Warp.toUint128 at hk
      split at hk
      · exact (Except.ok.inj hk).symm
      · cases hk
    subst this
    obtain rfl := Except.ok.inj hl'
    cases mode with
    | bridged =>
      simp only
      rw [performAll_one, execute_iff (by intro _ h; cases h)]
      simp only [cw20, mint_iff, hp]
      constructor
      · rintro ⟨h1, _, h2, t, ⟨h3, h4, h5, h6, rfl⟩, rfl⟩
        exact ⟨_, ⟨⟨h1, h2⟩, h3, h4, h5, h6, rfl⟩, rfl⟩
      · rintro ⟨_, ⟨⟨h1, h2⟩, h3, h4, h5, h6, rfl⟩, rfl⟩
        exact ⟨h1, trivial, h2, _, ⟨h3, h4, h5, h6, rfl⟩, rfl⟩
    | collateral =>
      simp only
      rw [performAll_one, execute_iff (by intro _ h; cases h)]
      simp only [cw20, transfer_iff hd, hp]
      constructor
      · rintro ⟨h1, _, h2, t, ⟨h3, h4, h5, rfl⟩, rfl⟩
        exact ⟨_, ⟨⟨h1, h2⟩, h3, h4, h5, rfl⟩, rfl⟩
      · rintro ⟨_, ⟨⟨h1, h2⟩, h3, h4, h5, rfl⟩, rfl⟩
        exact ⟨h1, trivial, h2, _, ⟨h3, h4, h5, rfl⟩, rfl⟩
  · rw [hp] at hl
    obtain ⟨k, hk, hl'⟩ := bind_eq_ok.1 hl
    clear hl
    have : k = n := by
      unfold Warp.toUint128 at hk
      split at hk
      · exact (Except.ok.inj hk).symm
      · cases hk
    subst this
    obtain rfl := Except.ok.inj hl'
    cases mode with
    | bridged =>
      simp only [List.cons_append, List.nil_append]
      have hb : ∀ b : Bank, (fun a d => if d = token then
          (if a = p.router then (if a = p.router ∧ d = token then b.balance a d + k else b.balance a d) - k
            else if a = dst then (if a = p.router ∧ d = token then b.balance a d + k else b.balance a d) + k
            else if a = p.router ∧ d = token then b.balance a d + k else b.balance a d)
          else if a = p.router ∧ d = token then b.balance a d + k else b.balance a d) =
          fun a d => if a = dst ∧ d = token then b.balance a d + k else b.balance a d := by
        intro b
        funext a d
        by_cases h : d = token
        · by_cases h1 : a = p.router
          · have : a ≠ dst := fun h2 => hd (h2.symm.trans h1)
            simp only [h, h1, if_true, true_and]
            rw [if_neg (fun hh => hd hh.1.symm)]
            omega
          · simp [h, h1]
        · simp [h]
      constructor
      · intro h
        obtain ⟨y, h1, h⟩ := bind_eq_ok.1 h
        obtain ⟨_, _, h2⟩ := bind_eq_ok.1 h1
        obtain ⟨b, h3, h4⟩ := bind_eq_ok.1 h2
        obtain rfl := Except.ok.inj h4
        obtain ⟨g1, g2, rfl⟩ := Bank.mint_ok.1 h3
        obtain ⟨z, h5, h6⟩ := bind_eq_ok.1 h
        obtain rfl := Except.ok.inj h6
        rw [performAll_one] at h5
        obtain ⟨b2, h7, h8⟩ := bind_eq_ok.1 h5
        obtain rfl := Except.ok.inj h8
        obtain ⟨_, _, rfl⟩ := (send_iff hd).1 h7
        refine ⟨_, ⟨g1, g2, ?_⟩, rfl⟩
        simp only [hb]
      · rintro ⟨c', ⟨h1, h2, rfl⟩, rfl⟩
        refine bind_eq_ok.2 ⟨_, bind_eq_ok.2 ⟨(), ensure_eq_ok.2 (decide_eq_true rfl), bind_eq_ok.2 ⟨_,
          Bank.mint_ok.2 ⟨h1, h2, rfl⟩, rfl⟩⟩, bind_eq_ok.2 ⟨_, performAll_one.2 (bind_eq_ok.2 ⟨_, (send_iff hd).2
            ⟨h1, ?_, rfl⟩, rfl⟩), ?_⟩⟩
        · simp
        · simp only [hb]
          rfl
    | collateral =>
      simp only [List.nil_append]
      rw [performAll_one]
      constructor
      · intro h
        obtain ⟨b, h1, h2⟩ := bind_eq_ok.1 h
        obtain rfl := Except.ok.inj h2
        obtain ⟨g1, g2, rfl⟩ := (send_iff hd).1 h1
        exact ⟨_, ⟨g1, g2, rfl⟩, rfl⟩
      · rintro ⟨c', ⟨h1, h2, rfl⟩, rfl⟩
        exact bind_eq_ok.2 ⟨_, (send_iff hd).2 ⟨h1, h2, rfl⟩, rfl⟩

/-- What a delivery pays: token, account and amount, if its recipient is the router. -/
def PaidAll (p : Setup) (mode : Warp.Mode) (c c' : Chain) : Option (String × Addr × Nat) → Prop
  | none => c' = c
  | some q => q.2.1 ≠ p.router ∧ Paid p q.1 mode q.2.1 q.2.2 c c'

/-- What a delivery needs besides that it is the first of its message and that the tokens are there: this depends on
configuration, router and call only. `q` is what it pays, `o` what it answers. -/
def Due (H : Bytes → Bytes) (p : Setup) (cfg : Mailbox.Config) (router : Ownable.State × Warp.State) (call : Mailbox.Call)
    (md m : Bytes) (q : Option (String × Addr × Nat)) (o : Out) : Prop :=
  call.sender ≠ p.router ∧ ∃ msg recipient named dflt,
    Message.decode m = .ok msg ∧
    bech32Encode p.codec cfg.hrp msg.recipient = .ok recipient ∧
    msg.version = Mailbox.version ∧ msg.dest = cfg.localDomain ∧
    call.env.recipientIsm recipient = .ok named ∧
    cfg.defaultIsm = some dflt ∧
    call.env.verify (named.getD dflt) md m = .ok true ∧
    o.mailbox = [{ msgs := [.execute recipient (.handle msg.origin msg.sender msg.body) []]
                   events := [.processId (H m), .process msg.origin msg.sender msg.recipient] }] ∧
    ((recipient ≠ p.router ∧ q = none ∧ o.router = {}) ∨
      (recipient = p.router ∧ p.mailbox ≠ p.router ∧ p.mailbox = router.2.mailbox ∧
        Router.getRoute router.2.routes msg.origin = some msg.sender ∧ 64 ≤ msg.body.length ∧
        ∃ dst token msgs, bech32Encode p.codec router.2.hrp (bytesOf 0 32 msg.body) = .ok dst ∧ router.2.token = some token ∧
          p.kind.release p.router token router.2.mode dst (fromBE (bytesOf 32 64 msg.body)) = .ok msgs ∧
          o.router = { msgs := msgs } ∧ q = some (token, dst, fromBE (bytesOf 32 64 msg.body))))

/-- The box after a delivery. -/
def marked (H : Bytes → Bytes) (call : Mailbox.Call) (m : Bytes) (b : Mailbox.State) : Mailbox.State :=
  { b with deliveries := b.deliveries.insert (H m) ⟨call.sender, call.env.height⟩ }

/-- The message for an arriving transfer tells whom it pays. -/
theorem release_pays {l : List OutMsg} (hl : p.kind.release p.router token mode dst n = .ok l)
    (h : ∀ q ∈ l, paysTo q ≠ some p.router) : dst ≠ p.router := by
  rintro rfl
  unfold Setup.kind at hl
  cases hp : p.native <;> rw [hp] at hl <;> obtain ⟨k, hk, hl'⟩ := bind_eq_ok.1 hl <;>
    obtain rfl := Except.ok.inj hl'
  · cases mode <;> exact h _ (List.mem_singleton.2 rfl) rfl
  · cases mode <;> exact h _ (List.mem_append_right _ (List.mem_singleton.2 rfl)) rfl

variable {κ : Type} [DecidableEq κ] {P : κ → Setup} {s s' : κ → Chain} {x : κ} {call : Mailbox.Call} {md m : Bytes} {o : Out}

/-- What a delivery is. -/
theorem delivery_iff (hm : call.msg = .process md m) (hf : call.funds = [])
    (ho : ∀ q ∈ o.router.msgs, paysTo q ≠ some (P x).router) :
    step H P s (.mailbox x call) = .ok (s', o) ↔
      ∃ q c', Due H (P x) (s x).box.config (s x).router call md m q o ∧
        (s x).box.deliveries.has (H m) = false ∧
        PaidAll (P x) (s x).router.2.mode { s x with box := marked H call m (s x).box } c' q ∧
        s' = Function.update s x c' := by
  obtain ⟨env, sender, funds, msg⟩ := call
  simp only at hm hf
  subst hm hf
  constructor
  · intro h
    obtain ⟨_, h1, h⟩ := bind_eq_ok.1 h
    have e1 := of_decide_eq_true (ensure_eq_ok.1 h1)
    obtain ⟨b, h2, h⟩ := bind_eq_ok.1 h
    rw [move_nil] at h2
    obtain rfl := Except.ok.inj h2
    obtain ⟨y, h3, h⟩ := bind_eq_ok.1 h
    obtain ⟨msg, recipient, named, dflt, g1, g2, g3, g4, g5, g6, g7, g8, g9, g10⟩ := Mailbox.process_ok.1 h3
    obtain ⟨z, h4, h⟩ := bind_eq_ok.1 h
    obtain ⟨rfl, rfl⟩ := Prod.mk.inj (Except.ok.inj h)
    rw [g10] at h4
    by_cases hr : recipient = (P x).router
    · rw [deliver, if_pos hr] at h4
      obtain ⟨_, k1, h4⟩ := bind_eq_ok.1 h4
      have e2 := of_decide_eq_true (ensure_eq_ok.1 k1)
      obtain ⟨b, k2, h4⟩ := bind_eq_ok.1 h4
      rw [move_nil] at k2
      obtain rfl := Except.ok.inj k2
      obtain ⟨w, k3, h4⟩ := bind_eq_ok.1 h4
      obtain ⟨v, k4, h4⟩ := bind_eq_ok.1 h4
      obtain rfl := Except.ok.inj h4
      obtain ⟨r, k5, rfl⟩ := execute_handle.1 k3
      obtain ⟨f1, f2, f3, dst, token, msgs, f4, f5, f6, rfl⟩ := Warp.handle_ok.1 k5
      have hd := release_pays f6 ho
      obtain ⟨c', f7, rfl⟩ := (release_iff f6 hd).1 k4
      refine ⟨_, c', ⟨e1, msg, recipient, named, dflt, g1, g2, g3, g4, g5, g6, g8, ?_, .inr ⟨hr, e2, f1, f2, f3, dst, token,
        msgs, f4, f5, f6, rfl, rfl⟩⟩, g7, ⟨hd, ?_⟩, rfl⟩
      · simp only [g10]
      · rw [g9] at f7
        exact f7
    · rw [deliver, if_neg hr] at h4
      obtain rfl := Except.ok.inj h4
      refine ⟨none, _, ⟨e1, msg, recipient, named, dflt, g1, g2, g3, g4, g5, g6, g8, ?_, .inl ⟨hr, rfl, rfl⟩⟩, g7, ?_, rfl⟩
      · simp only [g10]
      · rw [g9]
        rfl
  · rintro ⟨q, c', ⟨e1, msg, recipient, named, dflt, g1, g2, g3, g4, g5, g6, g8, g10, hc⟩, g7, hp, rfl⟩
    obtain ⟨orouter, omailbox⟩ := o
    simp only at g10 hc ho
    subst g10
    refine bind_eq_ok.2 ⟨(), ensure_eq_ok.2 (decide_eq_true e1), bind_eq_ok.2 ⟨_, move_nil _ _ _, bind_eq_ok.2 ⟨_,
      Mailbox.process_ok.2 ⟨msg, recipient, named, dflt, g1, g2, g3, g4, g5, g6, g7, g8, rfl, rfl⟩, ?_⟩⟩⟩
    rcases hc with ⟨hr, rfl, rfl⟩ | ⟨hr, e2, f1, f2, f3, dst, token, msgs, f4, f5, f6, rfl, rfl⟩
    · obtain rfl := hp
      refine bind_eq_ok.2 ⟨({ s x with box := marked H ⟨env, sender, [], .process md m⟩ m (s x).box }, {}, []), ?_, rfl⟩
      rw [deliver, if_neg hr]
      rfl
    · refine bind_eq_ok.2 ⟨(c', { msgs := msgs }, []), ?_, rfl⟩
      rw [deliver, if_pos hr]
      refine bind_eq_ok.2 ⟨(), ensure_eq_ok.2 (decide_eq_true e2), bind_eq_ok.2 ⟨_, move_nil _ _ _, bind_eq_ok.2 ⟨_,
        execute_handle.2 ⟨_, Warp.handle_ok.2 ⟨f1, f2, f3, dst, token, msgs, f4, f5, f6, rfl⟩, rfl⟩, bind_eq_ok.2 ⟨_,
          (release_iff f6 hp.1).2 ⟨c', hp.2, rfl⟩, rfl⟩⟩⟩⟩

/-! ## Two payments can be made in either order -/

theorem capped_mono {cap : Option Nat} {a b : Nat} (h : Cw20.capped cap b = true) (hab : a ≤ b) :
    Cw20.capped cap a = true := by
  cases cap with
  | none => rfl
  | some k => exact decide_eq_true (le_trans hab (of_decide_eq_true h))

theorem paid_comm {d1 d2 : Addr} {n1 n2 : Nat} {c1 c2 : Chain} (hd1 : d1 ≠ p.router) (hd2 : d2 ≠ p.router)
    (h1 : Paid p token mode d1 n1 c c1) (h2 : Paid p token mode d2 n2 c1 c2) :
    ∃ c', Paid p token mode d2 n2 c c' ∧ Paid p token mode d1 n1 c' c2 := by
  unfold Paid at *
  cases hp : p.native <;> cases mode <;> simp only [hp] at h1 h2 ⊢
  · obtain ⟨a1, a2, ⟨cap, a3, a4⟩, a5, a6, rfl⟩ := h1
    obtain ⟨-, b2, ⟨cap', b3, b4⟩, b5, b6, rfl⟩ := h2
    simp only at b2 b3 b4 b5 b6
    rw [a3] at b3
    obtain ⟨-, rfl⟩ := Prod.mk.inj (Option.some.inj b3)
    refine ⟨_, ⟨a1, b2, ⟨cap, a3, capped_mono b4 (by omega)⟩, by omega, ?_, rfl⟩, a1, a2,
      ⟨cap, a3, ?_⟩, ?_, ?_, ?_⟩
    · split at b6 <;> omega
    · show Cw20.capped cap (c.token.supply + n2 + n1) = true
      rw [show c.token.supply + n2 + n1 = c.token.supply + n1 + n2 by omega]
      exact b4
    · show c.token.supply + n2 + n1 < u128Lim
      omega
    · show (if d1 = d2 then c.token.balance d1 + n2 else c.token.balance d1) + n1 < u128Lim
      split
      · rename_i h
        subst h
        rw [if_pos rfl] at b6
        omega
      · exact a6
    · congr 2
      · simp only
        omega
      · funext a
        simp only
        split <;> split <;> omega
  · obtain ⟨a1, a2, a3, a4, rfl⟩ := h1
    obtain ⟨-, b2, b3, b4, rfl⟩ := h2
    simp only [if_true, if_neg hd2] at b2 b3 b4
    refine ⟨_, ⟨a1, b2, by omega, ?_, rfl⟩, a1, a2, ?_, ?_, ?_⟩
    · split at b4 <;> omega
    · show n1 ≤ if p.router = p.router then c.token.balance p.router - n2 else _
      rw [if_pos rfl]
      omega
    · show (if d1 = p.router then c.token.balance d1 - n2 else if d1 = d2 then c.token.balance d1 + n2
        else c.token.balance d1) + n1 < u128Lim
      rw [if_neg hd1]
      split
      · rename_i h
        subst h
        rw [if_pos rfl] at b4
        omega
      · exact a4
    · congr 2
      funext a
      simp only
      split
      · omega
      · split <;> split <;> omega
  · obtain ⟨a1, a2, rfl⟩ := h1
    obtain ⟨b1, b2, rfl⟩ := h2
    refine ⟨_, ⟨b1, a2, rfl⟩, a1, a2, ?_⟩
    congr 2
    · funext a d
      simp only
      split <;> split <;> omega
    · funext d
      simp only
      split <;> omega
  · obtain ⟨a1, a2, rfl⟩ := h1
    obtain ⟨b1, b2, rfl⟩ := h2
    simp only [if_true] at b2
    refine ⟨_, ⟨b1, by omega, rfl⟩, a1, ?_, ?_⟩
    · simp only [if_true]
      omega
    · congr 2
      funext a d
      simp only
      split
      · split
        · omega
        · split <;> split <;> omega
      · rfl

theorem paid_frame {q : Option (String × Addr × Nat)} (h : PaidAll p mode c c' q) :
    c'.router = c.router ∧ c'.box = c.box ∧ ∀ b, PaidAll p mode { c with box := b } { c' with box := b } q := by
  cases q with
  | none =>
    obtain rfl := h
    exact ⟨rfl, rfl, fun _ => rfl⟩
  | some q =>
    obtain ⟨hd, h⟩ := h
    unfold PaidAll
    unfold Paid at *
    cases hp : p.native <;> cases mode <;> simp only [hp] at h ⊢
    · obtain ⟨a1, a2, a3, a5, a6, rfl⟩ := h
      exact ⟨rfl, rfl, fun b => ⟨hd, a1, a2, a3, a5, a6, rfl⟩⟩
    · obtain ⟨a1, a2, a3, a5, rfl⟩ := h
      exact ⟨rfl, rfl, fun b => ⟨hd, a1, a2, a3, a5, rfl⟩⟩
    · obtain ⟨a1, a2, rfl⟩ := h
      exact ⟨rfl, rfl, fun b => ⟨hd, a1, a2, rfl⟩⟩
    · obtain ⟨a1, a2, rfl⟩ := h
      exact ⟨rfl, rfl, fun b => ⟨hd, a1, a2, rfl⟩⟩

/-! ## Two deliveries can be made in either order -/

theorem marked_comm {a b : Mailbox.Call} {m1 m2 : Bytes} (h : H m1 ≠ H m2) (box : Mailbox.State) :
    marked H a m1 (marked H b m2 box) = marked H b m2 (marked H a m1 box) := by
  unfold marked
  congr 1
  apply OMap.ext_get
  intro k
  simp only [OMap.get_insert]
  split <;> split <;> simp_all

theorem paidAll_comm {q1 q2 : Option (String × Addr × Nat)} {c1 c2 : Chain}
    (hq : ∀ x ∈ q1, ∀ y ∈ q2, x.1 = y.1)
    (h1 : PaidAll p mode c c1 q1) (h2 : PaidAll p mode c1 c2 q2) :
    ∃ c', PaidAll p mode c c' q2 ∧ PaidAll p mode c' c2 q1 := by
  cases q1 with
  | none =>
    obtain rfl := h1
    exact ⟨c2, h2, rfl⟩
  | some q1 =>
    cases q2 with
    | none =>
      obtain rfl := h2
      exact ⟨c, rfl, h1⟩
    | some q2 =>
      obtain ⟨d1, h1⟩ := h1
      obtain ⟨d2, h2⟩ := h2
      have ht := hq q1 rfl q2 rfl
      rw [← ht] at h2
      obtain ⟨c', g1, g2⟩ := paid_comm d1 d2 h1 h2
      exact ⟨c', ⟨d2, by rw [← ht]; exact g1⟩, ⟨d1, g2⟩⟩

theorem due_token {cfg : Mailbox.Config} {router : Ownable.State × Warp.State} {q : Option (String × Addr × Nat)}
    (h : Due H p cfg router call md m q o) : ∀ x ∈ q, router.2.token = some x.1 := by
  obtain ⟨-, _, _, _, _, -, -, -, -, -, -, -, -, ⟨-, rfl, -⟩ | ⟨-, -, -, -, -, _, _, _, -, h, -, -, rfl⟩⟩ := h
  · nofun
  · rintro x ⟨⟩
    exact h

theorem swap_deliveries {e1 e2 : Tx.Entry (Act κ) Out} {s1 s2 : κ → Chain} (hd1 : Delivery P e1) (hd2 : Delivery P e2)
    (h1 : step H P s e1.1 = .ok (s1, e1.2)) (h2 : step H P s1 e2.1 = .ok (s2, e2.2)) :
    ∃ s', step H P s e2.1 = .ok (s', e2.2) ∧ step H P s' e1.1 = .ok (s2, e1.2) := by
  obtain ⟨a1, o1⟩ := e1
  obtain ⟨a2, o2⟩ := e2
  obtain ⟨x1, c1, md1, m1, rfl, hm1, hf1, ho1⟩ := hd1
  obtain ⟨x2, c2, md2, m2, rfl, hm2, hf2, ho2⟩ := hd2
  obtain ⟨q1, d1, hdue1, hn1, hp1, rfl⟩ := (delivery_iff hm1 hf1 ho1).1 h1
  obtain ⟨q2, d2, hdue2, hn2, hp2, rfl⟩ := (delivery_iff hm2 hf2 ho2).1 h2
  by_cases hx : x1 = x2
  · subst hx
    simp only [Function.update_self] at hdue2 hn2 hp2
    obtain ⟨f1, f2, f3⟩ := paid_frame hp1
    obtain ⟨f4, f5, f6⟩ := paid_frame hp2
    simp only at f1 f2
    rw [f1, f2] at hdue2
    rw [f2] at hn2
    rw [f1, f2] at hp2
    have hne : H m2 ≠ H m1 ∧ (s x1).box.deliveries.has (H m2) = false := by
      have : ((s x1).box.deliveries.insert (H m1) ⟨c1.sender, c1.env.height⟩).has (H m2) = false := hn2
      rw [OMap.has_insert, Bool.or_eq_false_iff] at this
      exact ⟨by simpa using this.1, this.2⟩
    -- both payments on the chain where both deliveries are recorded
    have g1 := f3 (marked H c2 m2 (marked H c1 m1 (s x1).box))
    rw [f1] at g1
    obtain ⟨c', g2, g3⟩ := paidAll_comm (fun y hy z hz => Option.some.inj ((due_token hdue1 y hy).symm.trans (due_token hdue2 z hz)))
      g1 hp2
    obtain ⟨k1, k2, k3⟩ := paid_frame g2
    refine ⟨Function.update s x1 { c' with box := marked H c2 m2 (s x1).box }, (delivery_iff hm2 hf2 ho2).2 ⟨q2, _, hdue2,
      hne.2, k3 _, rfl⟩, (delivery_iff hm1 hf1 ho1).2 ⟨q1, d2, ?_, ?_, ?_, ?_⟩⟩
    · rw [Function.update_self]
      show Due H (P x1) (s x1).box.config c'.router c1 md1 m1 q1 o1
      rw [k1]
      exact hdue1
    · rw [Function.update_self]
      show ((s x1).box.deliveries.insert (H m2) _).has (H m1) = false
      rw [OMap.has_insert, hn1]
      simpa using hne.1.symm
    · rw [Function.update_self]
      show PaidAll (P x1) c'.router.2.mode { c' with box := marked H c1 m1 (marked H c2 m2 (s x1).box) } d2 q1
      have e : { c' with box := marked H c1 m1 (marked H c2 m2 (s x1).box) } = c' := by
        rw [marked_comm hne.1.symm]
        cases c'
        simp only at k2
        rw [k2]
      rw [e, k1]
      exact g3
    · rw [Function.update_idem, Function.update_idem]
  · rw [Function.update_of_ne (Ne.symm hx)] at hdue2 hn2 hp2
    refine ⟨Function.update s x2 d2, (delivery_iff hm2 hf2 ho2).2 ⟨q2, d2, hdue2, hn2, hp2, rfl⟩,
      (delivery_iff hm1 hf1 ho1).2 ⟨q1, d1, ?_, ?_, ?_, ?_⟩⟩
    · rw [Function.update_of_ne hx]; exact hdue1
    · rw [Function.update_of_ne hx]; exact hn1
    · rw [Function.update_of_ne hx]; exact hp1
    · rw [Function.update_comm hx]

/-- **C89.** Deliveries can be made in any order. If a list of deliveries of messages to any chains, by anybody, succeeds
one after the other, then in every other order each of them succeeds too, with the same answers, and at the end all
mailboxes, routers, banks and tokens are as after the first order. The only deliveries excluded are those which come with
coins for the mailbox (see `C86`) and those which pay the router itself. -/
theorem C89_deliveries_in_any_order (H : Bytes → Bytes) (P : κ → Setup) {s s' : κ → Chain}
    {log log' : List (Tx.Entry (Act κ) Out)} (hd : ∀ e ∈ log, Delivery P e) (hp : log.Perm log')
    (h : Tx.Chain (step H P) s log s') : Tx.Chain (step H P) s log' s' := by
  induction hp generalizing s with
  | nil => exact h
  | cons e _ ih =>
    obtain ⟨m, h1, h2⟩ := h
    exact ⟨m, h1, ih (fun e he => hd e (List.mem_cons_of_mem _ he)) h2⟩
  | swap a b l =>
    obtain ⟨m1, h1, m2, h2, h3⟩ := h
    obtain ⟨s', g1, g2⟩ := swap_deliveries (hd b (by simp)) (hd a (by simp)) h1 h2
    exact ⟨s', g1, m2, g2, h3⟩
  | trans p1 _ ih1 ih2 =>
    exact ih2 (fun e he => hd e (p1.mem_iff.2 he)) (ih1 hd h)

/-- **C89.** No delivery needs another one: of deliveries which succeed one after the other, those in any part of the list
succeed too without the others, in any order and with the same answers. -/
theorem C89_no_delivery_needs_another (H : Bytes → Bytes) (P : κ → Setup) {s s' : κ → Chain}
    {log log' : List (Tx.Entry (Act κ) Out)} (hd : ∀ e ∈ log, Delivery P e) (hp : log'.Subperm log)
    (h : Tx.Chain (step H P) s log s') : ∃ m, Tx.Chain (step H P) s log' m := by
  obtain ⟨l, h1, h2⟩ := hp
  obtain ⟨rest, h3⟩ := h2.exists_perm_append
  obtain ⟨m, h4, -⟩ := (C89_deliveries_in_any_order H P hd (h3.trans (h1.append_right rest)) h).split
  exact ⟨m, h4⟩

namespace Orders

open ExWorld
open Ex.Net (rid dom addr setup hub transferMsg play playable history_play)

/-- A check of deliveries. -/
def isDelivery (P : Fin 3 → Setup) (e : Tx.Entry (Act (Fin 3)) Out) : Bool :=
  match e.1 with
  | .mailbox x c =>
    match c.msg with
    | .process _ _ => c.funds.isEmpty && e.2.router.msgs.all (fun q => decide (paysTo q ≠ some (P x).router))
    | _ => false
  | _ => false

theorem isDelivery_ok {P : Fin 3 → Setup} {e : Tx.Entry (Act (Fin 3)) Out} (h : isDelivery P e = true) :
    Delivery P e := by
  unfold isDelivery at h
  split at h
  · rename_i x c hx
    split at h
    · rename_i md m hm
      rw [Bool.and_eq_true, List.all_eq_true] at h
      exact ⟨x, c, md, m, hx, hm, List.isEmpty_iff.1 h.1, fun q hq => of_decide_eq_true (h.2 q hq)⟩
    · cases h
  · cases h

/-- The router of chain 0 got 50 tokens. -/
def funded : Fin 3 → Chain := (play (step toyHash setup) start [.bank 0 Ex.alice (.send (addr 0) [⟨"uosmo", 50⟩])]).1

/-- Deliveries on all three chains: cw20 tokens are minted twice, native tokens once, and collateral is released. -/
def arrivals : List (Act (Fin 3)) :=
  [relay 1 (transferMsg 0 0 1 Ex.aliceId 100), relay 2 (transferMsg 1 0 2 Ex.aliceId 60),
   relay 1 (transferMsg 0 1 1 (rid 2) 5), relay 0 (transferMsg 2 0 0 Ex.aliceId 25), relay 0 (transferMsg 2 1 0 (rid 1) 25)]

/-- What they do. -/
def result : (Fin 3 → Chain) × List (Tx.Entry (Act (Fin 3)) Out) := play (step toyHash setup) funded arrivals

theorem facts : playable (step toyHash setup) funded arrivals = true ∧ result.2.all (isDelivery setup) = true ∧
    result.2.length = 5 ∧ holding (setup 0) (result.1 0) (addr 0) = 0 ∧
    holding (setup 0) (result.1 0) Ex.alice = 975 ∧ holding (setup 1) (result.1 1) Ex.alice = 100 ∧
    holding (setup 2) (result.1 2) Ex.alice = 60 := by decide +kernel

theorem play_chain {l : List (Act κ)} {s : κ → Chain} (h : playable (step H P) s l = true) :
    Tx.Chain (step H P) s (play (step H P) s l).2 (play (step H P) s l).1 := by
  have := Tx.history_chain (step H P) s (l.map (fun a => [.call a []]))
  rwa [history_play h] at this

theorem result_chain : Tx.Chain (step toyHash setup) funded result.2 result.1 := play_chain facts.1

theorem result_deliveries : ∀ e ∈ result.2, Delivery setup e :=
  fun e he => isDelivery_ok (List.all_eq_true.1 facts.2.1 e he)

/-- The five deliveries meet the hypotheses, so they succeed in the opposite order, and the last two succeed
without the others. -/
example : Tx.Chain (step toyHash setup) funded result.2.reverse result.1 ∧
    ∃ m, Tx.Chain (step toyHash setup) funded (result.2.drop 3) m :=
  ⟨C89_deliveries_in_any_order toyHash setup result_deliveries (List.reverse_perm _).symm result_chain,
    C89_no_delivery_needs_another toyHash setup result_deliveries
      (List.drop_sublist 3 _).subperm result_chain⟩

/-- Deliveries that pay the router itself are rightly excluded: of two deliveries, 50 tokens for the router itself and then
25 for alice succeed, but after those for alice the router has too few to pay 50 to itself. -/
example :
    playable (step toyHash setup) funded
      [relay 0 (transferMsg 2 0 0 (rid 0) 50), relay 0 (transferMsg 2 1 0 Ex.aliceId 25)] = true ∧
    playable (step toyHash setup) funded
      [relay 0 (transferMsg 2 1 0 Ex.aliceId 25), relay 0 (transferMsg 2 0 0 (rid 0) 50)] = false := by decide +kernel

end Orders

end Hpl.TokenWorld
