import Verif.Props.Events
import Verif.Props.Hooks
import Verif.Props.Igp
import Verif.Props.Warp

/-! # Events tell what money moves (C80) -/

namespace Hpl

open Spec Events

section GasEvents

open Igp

variable {C : Codec} {H : Bytes → Bytes}

/-- The event of a gas payment: `n` was attached for `gas` units of gas, `q` was due, the rest goes back. -/
structure Spec.GasPaid (ev : TextEvent) (sender : Addr) (dest : UInt32) (id : Bytes) (gas n q : Nat) : Prop where
  ty : ev.ty = "igp-core-pay-for-gas"
  sender : attr "sender" ev = some sender
  dest : NumberAt "dest_domain" ev dest.toNat
  id : HexAt "message_id" ev id
  gas : NumberAt "gas_amount" ev gas
  payment : NumberAt "payment" ev n
  required : NumberAt "gas_required" ev q
  refunded : ∃ g, NumberAt "gas_refunded" ev g ∧ q + g = n

theorem payForGas_told (sender : Addr) (dest : UInt32) (id : Bytes) (gas : Nat) {n q : Nat} (h : q ≤ n) :
    GasPaid (Events.payForGas sender dest id gas (n - q) q n) sender dest id gas n q where
  ty := rfl
  sender := rfl
  dest := ⟨_, rfl, number_decimal _⟩
  id := by show some (hex _) = _; rw [hex_eq]
  gas := ⟨_, rfl, number_decimal _⟩
  payment := ⟨_, rfl, number_decimal _⟩
  required := ⟨_, rfl, number_decimal _⟩
  refunded := ⟨_, ⟨_, rfl, number_decimal _⟩, by omega⟩

theorem payment_of_ok {e : IgpEnv} {s : Igp.State} {sender : Addr} {funds : List Coin} {id : Bytes} {dest : UInt32}
    {gas n q : Nat} (h1 : funds = [⟨s.gasToken, n⟩]) (h2 : n ≠ 0) (h3 : quoteGasPrice e.oracle s dest gas = .ok q) :
    Events.payment e s sender funds id dest gas = [Events.payForGas sender dest id gas (n - q) q n] := by
  unfold Events.payment
  rw [mustPay_ok.2 ⟨h1, h2⟩, h3]

/-- **C80**, gas payments. A gas payment emits one `igp-core-pay-for-gas` event: it names payer, destination and message, the
payment shown is the coin attached, the amount required is the quote, and the amount refunded is what is sent back, which
together with the amount required makes the payment. Post-dispatching emits this event for the message posted and then an
`igp-core-post-dispatch` event with metadata and message. A claim emits one event with what is sent to whom. No other call
emits an event of these types. -/
theorem C80_gas_events (s : Ownable.State × Igp.State) (e : IgpEnv) (sender : Addr) (funds : List Coin) :
    (∀ id d g dst s' r, execute C s ⟨e, sender, funds, .inr (.payForGas id d g dst)⟩ = .ok (s', r) →
      ∃ ev n q, Events.igp C H s ⟨e, sender, funds, .inr (.payForGas id d g dst)⟩ r = [ev] ∧
        GasPaid ev sender d id g n q ∧ funds = [⟨s.2.gasToken, n⟩] ∧ quoteGasPrice e.oracle s.2 d g = .ok q ∧
        r.msgs = refunds s.2.gasToken n q dst) ∧
    (∀ md b s' r, execute C s ⟨e, sender, funds, .inr (.postDispatch md b)⟩ = .ok (s', r) →
      ∃ ev ev' n q dst, Events.igp C H s ⟨e, sender, funds, .inr (.postDispatch md b)⟩ r = [ev, ev'] ∧
        GasPaid ev sender (destOf b) (H b) (gasIn md (gasFor s.2 (destOf b))) n q ∧ funds = [⟨s.2.gasToken, n⟩] ∧
        quoteGasPrice e.oracle s.2 (destOf b) (gasIn md (gasFor s.2 (destOf b))) = .ok q ∧
        refundAccount C s.2.hrp md b = some dst ∧ r.msgs = refunds s.2.gasToken n q dst ∧
        ev'.ty = "igp-core-post-dispatch" ∧ HexAt "message" ev' b ∧ (md ≠ [] → HexAt "metadata" ev' md) ∧
        (md = [] → attr "metadata" ev' = some "0x")) ∧
    (∀ s' r, execute C s ⟨e, sender, funds, .inr .claim⟩ = .ok (s', r) →
      ∃ ev t n, Events.igp C H s ⟨e, sender, funds, .inr .claim⟩ r = [ev] ∧ ev.ty = "igp-core-claim" ∧
        attr "beneficiary" ev = some sender ∧ attr "collected" ev = some (t ++ s.2.gasToken) ∧ Decimal t n ∧
        r.msgs = [.bankSend sender [⟨s.2.gasToken, n⟩]]) ∧
    (∀ m r, (∀ id d g dst, m ≠ .inr (.payForGas id d g dst)) → (∀ md b, m ≠ .inr (.postDispatch md b)) →
      m ≠ .inr .claim → ∀ t ∈ ["igp-core-pay-for-gas", "igp-core-post-dispatch", "igp-core-claim"],
        ofType t (Events.igp C H s ⟨e, sender, funds, m⟩ r) = []) := by
  refine ⟨?_, ?_, ?_, ?_⟩
  · intro id d g dst s' r hx
    obtain ⟨p, hp, hf⟩ := execOwned_inr.1 hx
    obtain ⟨r', h1, hq⟩ := bind_eq_ok.1 hp
    cases hq
    obtain ⟨n, q, g1, g2, g3, g4, rfl⟩ := payForGas_ok.1 h1
    cases hf
    exact ⟨_, n, q, payment_of_ok g1 g2 g3, payForGas_told _ _ _ _ g4, g1, g3, refundMsgs_eq g4⟩
  · intro md b s' r hx
    obtain ⟨p, hp, hf⟩ := execOwned_inr.1 hx
    obtain ⟨r', h1, hq⟩ := bind_eq_ok.1 hp
    cases hq
    obtain ⟨m, hm, h1⟩ := bind_eq_ok.1 h1
    obtain ⟨⟨gas, dst⟩, hg, h1⟩ := bind_eq_ok.1 h1
    obtain ⟨n, q, g1, g2, g3, g4, rfl⟩ := payForGas_ok.1 h1
    cases hf
    have he : m.encode = b := (Message.decode_eq_ok.1 hm).1
    obtain ⟨_, hdest, _⟩ := decode_fields hm
    obtain ⟨k1, k2, k3⟩ := (gasAndRefund_ok hm).1 hg
    simp only at k1 k3 g3
    have hev : Events.igp C H s ⟨e, sender, funds, .inr (.postDispatch md b)⟩
        { msgs := refundMsgs (n - q) s.2.gasToken dst } =
        [Events.payForGas sender m.dest (H b) gas (n - q) q n, Events.postDispatch md b] := by
      show Events.paymentFor C H e s.2 sender funds md b ++ _ = _
      unfold Events.paymentFor
      rw [hm]
      simp only
      rw [hg]
      simp only
      rw [payment_of_ok g1 g2 g3]
      have : m.id H = H b := by rw [← he]; rfl
      rw [this]
      rfl
    rw [hdest] at k1 g3 hev
    rw [k1] at g3 hev
    refine ⟨_, _, n, q, dst, hev, payForGas_told _ _ _ _ g4, g1, g3, k3, refundMsgs_eq g4, rfl, ?_, ?_, ?_⟩
    · show some (hex _) = _; rw [hex_eq]
    · intro hne
      show some (if md = [] then "0x" else hex md) = _
      rw [if_neg hne, hex_eq]
    · rintro rfl; rfl
  · intro s' r hx
    obtain ⟨p, hp, hf⟩ := execOwned_inr.1 hx
    obtain ⟨r', h1, hq⟩ := bind_eq_ok.1 hp
    cases hq
    obtain ⟨g1, rfl⟩ := claim_ok.1 h1
    cases hf
    refine ⟨_, number (e.balance s.2.gasToken), e.balance s.2.gasToken, rfl, rfl, ?_, rfl, number_decimal _, ?_⟩
    · rw [g1]; rfl
    · rw [g1]
  · intro m r h1 h2 h3 t ht
    have key : ∀ x : TextEvent, x.ty ≠ t → ofType t [x] = [] := by
      intro x hx; rw [ofType_cons, if_neg hx]; rfl
    rcases m with m | m
    · cases m <;> refine key _ ?_ <;> (rintro rfl; simp [ownable] at ht)
    · cases m with
      | router m => cases m <;> (refine key _ ?_; rintro rfl; simp [Events.router] at ht)
      | postDispatch md b => exact absurd rfl (h2 md b)
      | payForGas i d g a => exact absurd rfl (h1 i d g a)
      | claim => exact absurd rfl h3
      | setDefaultGas g => refine key _ ?_; rintro rfl; simp at ht
      | setGasForDomain l => refine key _ ?_; rintro rfl; simp at ht
      | unsetGasForDomain l => refine key _ ?_; rintro rfl; simp at ht
      | setBeneficiary a => refine key _ ?_; rintro rfl; simp at ht

/-- What the events of the paymaster say about its settings. -/
structure GasTold (dg : Nat) (ben owner : Addr) (s : Ownable.State × Igp.State) (evs : List TextEvent) : Prop where
  gas : (ofType "igp-core-set-default-gas" evs = [] ∧ s.2.defaultGas = dg) ∨
    ∃ e, (ofType "igp-core-set-default-gas" evs).getLast? = some e ∧ NumberAt "default-gas" e s.2.defaultGas
  ben : s.2.beneficiary = (latest "igp-core-set-beneficiary" "beneficiary" evs).getD ben
  own : s.1.owner = some ((latest "hpl_ownable::claim" "owner" evs).getD owner)
  pend : s.1.pending = (lastOwnership evs).bind (attr "next_owner")

theorem GasTold.same {dg : Nat} {ben owner : Addr} {s s' : Ownable.State × Igp.State} {evs new : List TextEvent}
    (I : GasTold dg ben owner s evs) (h1 : s'.2.defaultGas = s.2.defaultGas) (h2 : s'.2.beneficiary = s.2.beneficiary)
    (h3 : s'.1 = s.1) (n : ∀ e ∈ new, e.ty ≠ "igp-core-set-default-gas" ∧ e.ty ≠ "igp-core-set-beneficiary" ∧
      e.ty ≠ "hpl_ownable::claim" ∧ e.ty ≠ "hpl_ownable::init" ∧ e.ty ≠ "hpl_ownable::revoke") :
    GasTold dg ben owner s' (evs ++ new) := by
  have e1 : ofType "igp-core-set-default-gas" new = [] := List.filter_eq_nil_iff.2 fun e he => by simp [(n e he).1]
  have e2 : ofType "igp-core-set-beneficiary" new = [] := List.filter_eq_nil_iff.2 fun e he => by simp [(n e he).2.1]
  have e3 : ofType "hpl_ownable::claim" new = [] := List.filter_eq_nil_iff.2 fun e he => by simp [(n e he).2.2.1]
  refine ⟨?_, ?_, ?_, ?_⟩
  · rw [ofType_append, e1, List.append_nil, h1]; exact I.gas
  · rw [latest_append_none e2, h2]; exact I.ben
  · rw [latest_append_none e3, h3]; exact I.own
  · rw [lastOwnership_append_none, h3]
    · exact I.pend
    · refine List.filter_eq_nil_iff.2 fun e he => ?_
      obtain ⟨_, _, a, b, c⟩ := n e he
      simp [a, b, c]

theorem payment_types {e : IgpEnv} {s : Igp.State} {sender : Addr} {funds : List Coin} {id : Bytes} {dest : UInt32}
    {gas : Nat} : ∀ x ∈ Events.payment e s sender funds id dest gas, x.ty = "igp-core-pay-for-gas" := by
  intro x hx
  unfold Events.payment at hx
  split at hx
  · rw [List.mem_singleton.1 hx]; rfl
  · cases hx

theorem paymentFor_types {e : IgpEnv} {s : Igp.State} {sender : Addr} {funds : List Coin} {md b : Bytes} :
    ∀ x ∈ Events.paymentFor C H e s sender funds md b, x.ty = "igp-core-pay-for-gas" := by
  intro x hx
  unfold Events.paymentFor at hx
  split at hx
  · cases hx
  · split at hx
    · cases hx
    · exact payment_types x hx

/-- **C80**, settings of the paymaster. After any history of transactions default gas, beneficiary, owner and pending owner
are what the last event about them says, and the initial ones if there is none. -/
theorem C80_gas_settings_events {lower : Char → Bool} {valid : Addr → Bool} {sup : Bool} {hrp token : String}
    {owner ben : Addr} {dg : Nat} {s0 : Ownable.State × Igp.State}
    (h0 : instantiate lower valid sup hrp owner token ben dg = .ok s0) (txs : List (List (Tx.Act (ExecCall IgpEnv Igp.Msg)))) :
    let s := (Tx.history (logged (execute C) (Events.igp C H)) s0 txs).1
    let evs := all (Tx.history (logged (execute C) (Events.igp C H)) s0 txs).2
    s = (Tx.history (execute C) s0 txs).1 ∧
    ((ofType "igp-core-set-default-gas" evs = [] ∧ getDefaultGas s = dg) ∨
      ∃ e, (ofType "igp-core-set-default-gas" evs).getLast? = some e ∧ NumberAt "default-gas" e (getDefaultGas s)) ∧
    getBeneficiary s = (latest "igp-core-set-beneficiary" "beneficiary" evs).getD ben ∧
    Ownable.getOwner s.1 = .ok ((latest "hpl_ownable::claim" "owner" evs).getD owner) ∧
    s.1.pending = (lastOwnership evs).bind (attr "next_owner") := by
  intro s evs
  have I : GasTold dg ben owner s evs := by
    refine logged_induct (fun s log => GasTold dg ben owner s (all log))
      (Tx.history_chain (logged (execute C) (Events.igp C H)) s0 txs) ?_ ?_
    · rw [igp_instantiate_ok h0]
      exact ⟨.inl ⟨rfl, rfl⟩, rfl, rfl, rfl⟩
    · rintro ⟨own, s⟩ ⟨e, sender, funds, m⟩ ⟨own', s'⟩ r log I hx
      rw [all_snoc]
      rcases m with m | m
      · obtain ⟨o, ho, hf⟩ := execOwned_inl.1 hx
        cases hf
        cases m with
        | initTransfer next =>
          obtain ⟨_, g1, g2, hf⟩ := Ownable.handle_init_ok.1 ho
          cases hf
          refine ⟨?_, ?_, ?_, ?_⟩
          · rw [ofType_append]
            show (_ ++ [] = [] ∧ _) ∨ ∃ e, (_ ++ []).getLast? = _ ∧ _
            rw [List.append_nil]
            exact I.gas
          · rw [latest_append_none rfl]; exact I.ben
          · rw [latest_append_none rfl]; exact I.own
          · show _ = (lastOwnership (_ ++ [_])).bind _
            rw [lastOwnership_snoc (.inl rfl)]; rfl
        | revoke =>
          obtain ⟨g1, g2, hf⟩ := Ownable.handle_revoke_ok.1 ho
          cases hf
          refine ⟨?_, ?_, ?_, ?_⟩
          · rw [ofType_append]
            show (_ ++ [] = [] ∧ _) ∨ ∃ e, (_ ++ []).getLast? = _ ∧ _
            rw [List.append_nil]
            exact I.gas
          · rw [latest_append_none rfl]; exact I.ben
          · rw [latest_append_none rfl]; exact I.own
          · show _ = (lastOwnership (_ ++ [_])).bind _
            rw [lastOwnership_snoc (.inr (.inl rfl))]; rfl
        | claim =>
          obtain ⟨g1, hf⟩ := Ownable.handle_claim_ok.1 ho
          cases hf
          refine ⟨?_, ?_, ?_, ?_⟩
          · rw [ofType_append]
            show (_ ++ [] = [] ∧ _) ∨ ∃ e, (_ ++ []).getLast? = _ ∧ _
            rw [List.append_nil]
            exact I.gas
          · rw [latest_append_none rfl]; exact I.ben
          · rw [latest_snoc rfl]; rfl
          · show _ = (lastOwnership (_ ++ [_])).bind _
            rw [lastOwnership_snoc (.inr (.inr rfl))]; rfl
      · obtain ⟨⟨p1, p2⟩, hp, hf⟩ := execOwned_inr.1 hx
        cases hf
        cases m with
        | router m =>
          obtain ⟨_, _, hf⟩ := bind_eq_ok.1 hp
          cases hf
          refine I.same rfl rfl rfl ?_
          intro x hx
          rw [List.mem_singleton.1 hx]
          cases m <;> (refine ⟨?_, ?_, ?_, ?_, ?_⟩ <;> (intro hh; simp [Events.router] at hh))
        | postDispatch md b =>
          obtain ⟨_, _, hf⟩ := bind_eq_ok.1 hp
          cases hf
          refine I.same rfl rfl rfl ?_
          intro x hx
          rcases List.mem_append.1 hx with hx | hx
          · rw [paymentFor_types x hx]; decide
          · rw [List.mem_singleton.1 hx]
            show "igp-core-post-dispatch" ≠ _ ∧ "igp-core-post-dispatch" ≠ _ ∧ "igp-core-post-dispatch" ≠ _ ∧
              "igp-core-post-dispatch" ≠ _ ∧ "igp-core-post-dispatch" ≠ _
            decide
        | payForGas i d g a =>
          obtain ⟨_, _, hf⟩ := bind_eq_ok.1 hp
          cases hf
          refine I.same rfl rfl rfl ?_
          intro x hx
          rw [payment_types x hx]; decide
        | claim =>
          obtain ⟨_, _, hf⟩ := bind_eq_ok.1 hp
          cases hf
          refine I.same rfl rfl rfl ?_
          intro x hx
          rw [List.mem_singleton.1 hx]
          simp
        | setDefaultGas g =>
          obtain ⟨_, _, hf⟩ := bind_eq_ok.1 hp
          cases hf
          refine ⟨.inr ⟨⟨"igp-core-set-default-gas", [("owner", sender), ("default-gas", number g)]⟩, ?_,
            ⟨_, rfl, number_decimal _⟩⟩, ?_, ?_, ?_⟩
          · rw [ofType_append]
            exact List.getLast?_concat
          · rw [latest_append_none rfl]; exact I.ben
          · rw [latest_append_none rfl]; exact I.own
          · rw [lastOwnership_append_none rfl]; exact I.pend
        | setGasForDomain l =>
          obtain ⟨_, _, hf⟩ := bind_eq_ok.1 hp
          cases hf
          refine I.same rfl rfl rfl ?_
          intro x hx
          rw [List.mem_singleton.1 hx]
          simp
        | unsetGasForDomain l =>
          obtain ⟨_, _, hf⟩ := bind_eq_ok.1 hp
          cases hf
          refine I.same rfl rfl rfl ?_
          intro x hx
          rw [List.mem_singleton.1 hx]
          simp
        | setBeneficiary a =>
          obtain ⟨_, _, hp⟩ := bind_eq_ok.1 hp
          obtain ⟨_, _, hf⟩ := bind_eq_ok.1 hp
          cases hf
          refine ⟨?_, ?_, ?_, ?_⟩
          · rw [ofType_append]
            show (_ ++ [] = [] ∧ _) ∨ ∃ e, (_ ++ []).getLast? = _ ∧ _
            rw [List.append_nil]
            exact I.gas
          · rw [latest_snoc rfl]; rfl
          · rw [latest_append_none rfl]; exact I.own
          · rw [lastOwnership_append_none rfl]; exact I.pend
  exact ⟨(history_logged _ _ s0 txs).1.symm, I.gas, I.ben, Ownable.getOwner_eq_ok.2 I.own, I.pend⟩

/-- A payment of 9 coins: the gas costs 4, 5 go back. -/
def Ex.gasEnv : IgpEnv := ⟨fun _ => true, fun _ => 0, fun _ _ => .ok ⟨10000000000, 2⟩⟩
def Ex.gasOwn (m : Igp.Msg) : ExecCall IgpEnv Igp.Msg := ⟨Ex.gasEnv, "o", [], .inr m⟩
def Ex.gasPay : ExecCall IgpEnv Igp.Msg := ⟨Ex.gasEnv, "x", [⟨"uosmo", 9⟩], .inr (.payForGas [1, 2] 7 2 "y")⟩
def Ex.gasClaim : ExecCall IgpEnv Igp.Msg := ⟨Ex.gasEnv, "ben2", [], .inr .claim⟩

example :
    let h := Tx.history (logged (execute Bech.codec) (Events.igp Bech.codec toyHash)) Ex.igp0
      [[.call (Ex.gasOwn (.setBeneficiary "ben2")) [], .call (Ex.gasOwn (.router (.setRoute (7, some "oracle")))) []],
       [.call Ex.gasPay []], [.call (Ex.gasOwn (.setDefaultGas 60)) []], [.call Ex.gasClaim []]]
    (ofType "igp-core-pay-for-gas" (all h.2)).map (fun e => e.attrs) =
      [[("sender", "x"), ("dest_domain", "7"), ("message_id", "0102"), ("gas_amount", "2"), ("gas_refunded", "5"),
        ("gas_required", "4"), ("payment", "9")]] ∧
    latest "igp-core-claim" "collected" (all h.2) = some "0uosmo" ∧ getDefaultGas h.1 = 60 ∧ getBeneficiary h.1 = "ben2" := by
  decide +kernel

end GasEvents

section TransferEvents

open Warp

variable {C : Codec} {self : Addr}

/-- The event of a transfer to another chain. -/
structure Spec.TransferTold (ev : TextEvent) (sender : Addr) (recipient : Bytes) (token : String) (amount : Nat)
    (hook : Option Addr) (metadata : Option Bytes) : Prop where
  sender : attr "sender" ev = some sender
  recipient : HexAt "recipient" ev recipient
  token : attr "token" ev = some token
  amount : NumberAt "amount" ev amount
  hook : attr "hook" ev = some (hook.getD "")
  metadata : HexAt "metadata" ev (metadata.getD [])

/-- The event of an arriving transfer. -/
structure Spec.HandleTold (ev : TextEvent) (recipient : Addr) (token : String) (amount : Nat) : Prop where
  recipient : attr "recipient" ev = some recipient
  token : attr "token" ev = some token
  amount : NumberAt "amount" ev amount

theorem warpHandle_eq {n : WarpNames} {s : Warp.State} {body : Bytes} {dst : Addr} {t : String} (h1 : 64 ≤ body.length)
    (h2 : bech32Encode C s.hrp (bytesOf 0 32 body) = .ok dst) (h3 : s.token = some t) :
    Events.warpHandle n C s body = [⟨n.name ++ "handle",
      [("recipient", dst), ("token", t), ("amount", number (fromBE (bytesOf 32 64 body)))]⟩] := by
  unfold Events.warpHandle
  rw [decode_ok.2 ⟨h1, rfl⟩]
  simp only
  rw [h2, h3]
  rfl

theorem handle_told (ty : String) (dst : Addr) (t : String) (n : Nat) :
    HandleTold ⟨ty, [("recipient", dst), ("token", t), ("amount", number n)]⟩ dst t n :=
  ⟨rfl, rfl, ⟨_, rfl, number_decimal _⟩⟩

/-- **C80**, native router. A transfer emits one `transfer-remote` event with caller, recipient, token and amount; this amount
is what is withheld from the coins attached, and the message dispatched carries this recipient and amount. (The event does not
name the destination.) A delivery emits one `handle` event with account, token and amount, and this amount of the token is given
to this account. No other call emits such events. -/
theorem C80_native_events (s : Ownable.State × Warp.State) (e : Addr → Bool) (sender : Addr) (funds : List Coin) :
    (∀ d rc n hook md s' r,
      execute native C self s ⟨e, sender, funds, .inr (.transferRemote d rc n hook md)⟩ = .ok (s', r) →
      ∃ ev t router rest, Events.warp warpNative C s ⟨e, sender, funds, .inr (.transferRemote d rc n hook md)⟩ r = [ev] ∧
        ev.ty = "hpl_warp_native::transfer-remote" ∧ TransferTold ev sender rc t n hook md ∧
        attr "dest_domain" ev = none ∧ amountOf t funds = n + amountOf t rest ∧
        r.msgs = nativeTake self t s.2.mode n ++
          [.execute s.2.mailbox (.dispatch ⟨d, router, rc ++ u256be n, hook.or s.2.conn.hook, md⟩) rest]) ∧
    (∀ o ms b s' r, execute native C self s ⟨e, sender, funds, .inr (.handle o ms b)⟩ = .ok (s', r) →
      ∃ ev dst t n, Events.warp warpNative C s ⟨e, sender, funds, .inr (.handle o ms b)⟩ r = [ev] ∧
        ev.ty = "hpl_warp_native::handle" ∧ HandleTold ev dst t n ∧ r.msgs = nativeRelease self t s.2.mode dst n) ∧
    (∀ m r, (∀ d rc n hook md, m ≠ .inr (.transferRemote d rc n hook md)) → (∀ o ms b, m ≠ .inr (.handle o ms b)) →
      ∀ t ∈ ["hpl_warp_native::transfer-remote", "hpl_warp_native::handle"],
        ofType t (Events.warp warpNative C s ⟨e, sender, funds, m⟩ r) = []) := by
  refine ⟨?_, ?_, ?_⟩
  · intro d rc n hook md s' r hx
    obtain ⟨r', hr, hf⟩ := execute_transfer.1 hx
    obtain ⟨g1, g2, t, p, rt, g3, g4, g5, rfl⟩ := transferRemote_ok.1 hr
    cases hf
    obtain ⟨k1, k2⟩ := native_take.1 g4
    obtain ⟨pre, m, post, rfl, k3, k4, k5⟩ := takeCoin_ok.1 k1
    refine ⟨_, t, rt, p.1, rfl, rfl, ?_, rfl, ?_, ?_⟩
    · refine ⟨rfl, ?_, ?_, ⟨_, rfl, number_decimal _⟩, rfl, ?_⟩
      · show some (hex _) = _; rw [hex_eq]
      · show some (s.2.token.getD "") = _; rw [g3]; rfl
      · show some (hex _) = _; rw [hex_eq]
    · rw [k5, amountOf_append, amountOf_append, amountOf_cons, amountOf_cons]
      simp only [if_true]
      omega
    · rw [k2]
      simp only [dispatchMsg, WarpMessage.encode, List.append_nil]
  · intro o ms b s' r hx
    obtain ⟨r', hr, hf⟩ := execute_handle.1 hx
    obtain ⟨_, _, g3, dst, t, l, g4, g5, g6, rfl⟩ := handle_ok.1 hr
    cases hf
    obtain ⟨_, rfl⟩ := native_release.1 g6
    exact ⟨_, dst, t, _, warpHandle_eq g3 g4 g5, rfl, handle_told _ _ _ _, rfl⟩
  · intro m r h1 h2 t ht
    rcases m with m | m
    · cases m <;> (rw [show Events.warp warpNative C s ⟨e, sender, funds, .inl _⟩ r = [ownable sender _] from rfl]
                   rw [ofType_cons, if_neg (by rintro rfl; simp [ownable] at ht)]; rfl)
    · cases m with
      | router m =>
        cases m <;> (rw [show Events.warp warpNative C s ⟨e, sender, funds, .inr (.router _)⟩ r = [Events.router hex sender _] from rfl]
                     rw [ofType_cons, if_neg (by rintro rfl; simp [Events.router] at ht)]; rfl)
      | connection m =>
        cases m <;> (rw [show Events.warp warpNative C s ⟨e, sender, funds, .inr (.connection _)⟩ r = [Events.connection _] from rfl]
                     rw [ofType_cons, if_neg (by rintro rfl; simp [Events.connection] at ht)]; rfl)
      | handle o ms b => exact absurd rfl (h2 o ms b)
      | transferRemote d rc n hook md => exact absurd rfl (h1 d rc n hook md)

/-- **C80**, cw20 router. The same with the destination in the event; the amount is fetched from the caller. -/
theorem C80_cw20_events (s : Ownable.State × Warp.State) (e : Addr → Bool) (sender : Addr) (funds : List Coin) :
    (∀ d rc n hook md s' r,
      execute cw20 C self s ⟨e, sender, funds, .inr (.transferRemote d rc n hook md)⟩ = .ok (s', r) →
      ∃ ev t router, Events.warp warpCw20 C s ⟨e, sender, funds, .inr (.transferRemote d rc n hook md)⟩ r = [ev] ∧
        ev.ty = "hpl_warp_cw20::transfer-remote" ∧ TransferTold ev sender rc t n hook md ∧
        NumberAt "dest_domain" ev d.toNat ∧
        r.msgs = cw20Take self t s.2.mode sender n ++
          [.execute s.2.mailbox (.dispatch ⟨d, router, rc ++ u256be n, hook.or s.2.conn.hook, md⟩) funds]) ∧
    (∀ o ms b s' r, execute cw20 C self s ⟨e, sender, funds, .inr (.handle o ms b)⟩ = .ok (s', r) →
      ∃ ev dst t n, Events.warp warpCw20 C s ⟨e, sender, funds, .inr (.handle o ms b)⟩ r = [ev] ∧
        ev.ty = "hpl_warp_cw20::handle" ∧ HandleTold ev dst t n ∧ r.msgs = cw20Release self t s.2.mode dst n) ∧
    (∀ m r, (∀ d rc n hook md, m ≠ .inr (.transferRemote d rc n hook md)) → (∀ o ms b, m ≠ .inr (.handle o ms b)) →
      ∀ t ∈ ["hpl_warp_cw20::transfer-remote", "hpl_warp_cw20::handle"],
        ofType t (Events.warp warpCw20 C s ⟨e, sender, funds, m⟩ r) = []) := by
  refine ⟨?_, ?_, ?_⟩
  · intro d rc n hook md s' r hx
    obtain ⟨r', hr, hf⟩ := execute_transfer.1 hx
    obtain ⟨g1, g2, t, p, rt, g3, g4, g5, rfl⟩ := transferRemote_ok.1 hr
    cases hf
    obtain rfl := cw20_take.1 g4
    refine ⟨_, t, rt, rfl, rfl, ?_, ⟨_, rfl, number_decimal _⟩, ?_⟩
    · refine ⟨rfl, ?_, ?_, ⟨_, rfl, number_decimal _⟩, rfl, ?_⟩
      · show some (hex _) = _; rw [hex_eq]
      · show some (s.2.token.getD "") = _; rw [g3]; rfl
      · show some (hex _) = _; rw [hex_eq]
    · simp only [dispatchMsg, WarpMessage.encode, List.append_nil]
  · intro o ms b s' r hx
    obtain ⟨r', hr, hf⟩ := execute_handle.1 hx
    obtain ⟨_, _, g3, dst, t, l, g4, g5, g6, rfl⟩ := handle_ok.1 hr
    cases hf
    obtain ⟨_, rfl⟩ := cw20_release.1 g6
    exact ⟨_, dst, t, _, warpHandle_eq g3 g4 g5, rfl, handle_told _ _ _ _, rfl⟩
  · intro m r h1 h2 t ht
    rcases m with m | m
    · cases m <;> (rw [show Events.warp warpCw20 C s ⟨e, sender, funds, .inl _⟩ r = [ownable sender _] from rfl]
                   rw [ofType_cons, if_neg (by rintro rfl; simp [ownable] at ht)]; rfl)
    · cases m with
      | router m =>
        cases m <;> (rw [show Events.warp warpCw20 C s ⟨e, sender, funds, .inr (.router _)⟩ r = [Events.router hex sender _] from rfl]
                     rw [ofType_cons, if_neg (by rintro rfl; simp [Events.router] at ht)]; rfl)
      | connection m =>
        cases m <;> (rw [show Events.warp warpCw20 C s ⟨e, sender, funds, .inr (.connection _)⟩ r = [Events.connection _] from rfl]
                     rw [ofType_cons, if_neg (by rintro rfl; simp [Events.connection] at ht)]; rfl)
      | handle o ms b => exact absurd rfl (h2 o ms b)
      | transferRemote d rc n hook md => exact absurd rfl (h1 d rc n hook md)

/-- A transfer of 5 of 8 attached tokens and a delivery of 5. -/
example :
    let s := run (stepOf (execute native Bech.codec "self")) Ex.warp0 Ex.warpHistory
    let c1 : ExecCall (Addr → Bool) Warp.Msg := ⟨fun _ => true, "x", [⟨"uatom", 3⟩, ⟨"uosmo", 8⟩],
      .inr (.transferRemote 1 Ex.remote 5 none none)⟩
    let c2 : ExecCall (Addr → Bool) Warp.Msg := ⟨fun _ => true, "mb", [],
      .inr (.handle 1 Ex.remote (zeros 12 ++ Ex.aliceRaw ++ u256be 5))⟩
    let h := Tx.history (logged (execute native Bech.codec "self") (Events.warp warpNative Bech.codec)) s
      [[.call c1 []], [.call c2 []]]
    (all h.2).map (fun e => e.ty) = ["hpl_warp_native::transfer-remote", "hpl_warp_native::handle"] ∧
    (all h.2).map (attr "amount") = [some "5", some "5"] ∧
    latest "hpl_warp_native::handle" "recipient" (all h.2) = some Ex.alice := by decide +kernel

end TransferEvents

end Hpl
