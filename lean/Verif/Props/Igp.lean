import Verif.Lemmas.Igp
import Verif.Props.Hooks
import Verif.Props.Bech32
import Verif.Props.Metadata

/-! # Gas paymaster and gas oracle: C54 - C58 -/

namespace Hpl

open Spec

/-! ## Paymaster -/

section Paymaster

open Igp

variable {C : Codec}

theorem igp_instantiate_ok {lower : Char → Bool} {valid : Addr → Bool} {sup : Bool} {hrp token : String}
    {owner ben : Addr} {dg : Nat} {s0 : Ownable.State × Igp.State}
    (h : instantiate lower valid sup hrp owner token ben dg = .ok s0) :
    s0 = (Ownable.init owner, ⟨hrp, token, dg, OMap.empty, ben, OMap.empty⟩) := by
  unfold instantiate at h
  obtain ⟨_, _, h⟩ := bind_eq_ok.1 h
  obtain ⟨_, _, h⟩ := bind_eq_ok.1 h
  obtain ⟨_, _, h⟩ := bind_eq_ok.1 h
  obtain ⟨_, _, hf⟩ := bind_eq_ok.1 h
  cases hf; rfl

/-- Facts about the state after a history. -/
theorem igp_state {lower : Char → Bool} {valid : Addr → Bool} {sup : Bool} {hrp token : String}
    {owner ben : Addr} {dg : Nat} {s0 : Ownable.State × Igp.State}
    (h0 : instantiate lower valid sup hrp owner token ben dg = .ok s0) (h : List (ExecCall IgpEnv Igp.Msg)) :
    let s := run (stepOf (execute C)) s0 h
    s.2.hrp = hrp ∧ s.2.gasToken = token ∧ (∀ d, gasFor s.2 d = gasAfter owner dg h d) ∧
    (∀ d, Router.getRoute s.2.routes d = oracleAfter owner h d) ∧
    s.2.beneficiary = beneficiaryAfter owner ben h ∧
    (∀ d, s.2.gasFor.get d = (lastFor d ((igpCalls owner h).flatMap (fun x => gasUpdates x.2))).join) ∧
    s.2.defaultGas = ((igpCalls owner h).flatMap (fun x => defaultGasOf x.2)).getLast?.getD dg := by
  have hs0 := igp_instantiate_ok h0
  subst hs0
  intro s
  have hs := run_state C (Ownable.init owner) ⟨hrp, token, dg, OMap.empty, ben, OMap.empty⟩ h
  change s.2 = _ at hs
  have hg : ∀ d, s.2.gasFor.get d =
      (lastFor d ((igpCalls owner h).flatMap (fun x => gasUpdates x.2))).join := by
    intro d
    rw [hs]
    exact get_writeAll_empty _ d
  have hd : s.2.defaultGas = ((igpCalls owner h).flatMap (fun x => defaultGasOf x.2)).getLast?.getD dg := by
    rw [hs]; rfl
  refine ⟨by rw [hs], by rw [hs], ?_, ?_, by rw [hs]; rfl, hg, hd⟩
  · intro d
    unfold gasFor gasAfter
    rw [hg, hd]
  · intro d
    rw [hs]
    exact getRoute_run _ d

/-- The quoted price after a history. -/
theorem igp_quote {lower : Char → Bool} {valid : Addr → Bool} {sup : Bool} {hrp token : String}
    {owner ben : Addr} {dg : Nat} {s0 : Ownable.State × Igp.State}
    (h0 : instantiate lower valid sup hrp owner token ben dg = .ok s0) (h : List (ExecCall IgpEnv Igp.Msg))
    (oracle : Addr → UInt32 → Res Oracle.GasData) (d : UInt32) (g q : Nat) :
    quoteGasPrice oracle (run (stepOf (execute C)) s0 h).2 d g = .ok q ↔
      ∃ a x, oracleAfter owner h d = some a ∧ oracle a d = .ok x ∧ g * x.price < 2 ^ 256 ∧
        g * x.price * x.rate < 2 ^ 256 ∧ q = g * x.price * x.rate / 10 ^ 10 := by
  rw [quoteGasPrice_ok]
  simp only [(igp_state (C := C) h0 h).2.2.2.1 d]

/-- **C54**, full statement: after any history, if the oracle set for the domain answers, the quote is exact whenever
the product fits 256 bits, and it is not answered otherwise; and it is monotone in the gas amount. -/
def C54_full : Prop :=
  ∀ (C : Codec) (lower : Char → Bool) (valid : Addr → Bool) (sup : Bool) (hrp token : String) (owner ben : Addr)
    (dg : Nat) (s0 : Ownable.State × Igp.State), instantiate lower valid sup hrp owner token ben dg = .ok s0 →
    ∀ (h : List (ExecCall IgpEnv Igp.Msg)) (oracle : Addr → UInt32 → Res Oracle.GasData) (d : UInt32) (a : Addr)
      (x : Oracle.GasData), oracleAfter owner h d = some a → oracle a d = .ok x → ∀ g q,
      quoteGasPrice oracle (run (stepOf (execute C)) s0 h).2 d g = .ok q ↔
        g * x.price * x.rate < 2 ^ 256 ∧ q = g * x.price * x.rate / 10 ^ 10

namespace Ex

/-- A world with an oracle of price 3 and rate 2.5. -/
def igpEnv : IgpEnv := ⟨fun _ => true, fun _ => 100, fun _ _ => .ok ⟨25000000000, 3⟩⟩

/-- The owner sets an oracle for domain 1 and gas amounts; a stranger tries to. -/
def igpHistory : List (ExecCall IgpEnv Igp.Msg) :=
  [⟨igpEnv, "o", [], .inr (.router (.setRoute (1, some "oracle")))⟩,
   ⟨igpEnv, "o", [], .inr (.setGasForDomain [(1, 70), (2, 80)])⟩,
   ⟨igpEnv, "o", [], .inr (.unsetGasForDomain [2])⟩,
   ⟨igpEnv, "m", [], .inr (.setDefaultGas 1)⟩,
   ⟨igpEnv, "o", [], .inr (.setDefaultGas 60)⟩]

/-- A paymaster. -/
def igp0 : Ownable.State × Igp.State :=
  (Ownable.init "o", ⟨"osmo", "uosmo", 50, OMap.empty, "ben", OMap.empty⟩)

theorem igp0_fresh : instantiate Char.isLower (fun _ => true) true "osmo" "o" "uosmo" "ben" 50 = .ok igp0 := by rfl

end Ex

/-- With a zero exchange rate (see C58) a quote can fail though the product is zero. -/
theorem C54_full_refuted : ¬ C54_full := by
  intro h
  have := (h ⟨fun _ _ => none, fun _ => none⟩ _ _ _ _ _ _ _ _ _ Ex.igp0_fresh Ex.igpHistory
    (fun _ _ => .ok ⟨0, 2⟩) 1 "oracle" ⟨0, 2⟩ (by decide +kernel) rfl (2 ^ 255) 0).2 (by decide +kernel)
  obtain ⟨a, x, _, h2, h3, _⟩ := (igp_quote Ex.igp0_fresh Ex.igpHistory _ _ _ _).1 this
  cases h2
  revert h3
  decide +kernel

/-- **C54**, except for zero exchange rates. After any history the gas quote for a domain is answered only if the
owner has set a gas oracle for it; it is then computed from what that oracle answers for the domain. For a non-zero
rate it is exactly the floor of `g * price * rate / 10^10` if the product is below `2^256`, and not answered
otherwise; for rate zero it is zero if `g * price` is below `2^256` and not answered otherwise. A quote for less gas
is answered whenever one for more is, and not higher. -/
theorem C54_quote_partial {lower : Char → Bool} {valid : Addr → Bool} {sup : Bool} {hrp token : String}
    {owner ben : Addr} {dg : Nat} {s0 : Ownable.State × Igp.State}
    (h0 : instantiate lower valid sup hrp owner token ben dg = .ok s0) (h : List (ExecCall IgpEnv Igp.Msg))
    (oracle : Addr → UInt32 → Res Oracle.GasData) (d : UInt32) :
    let quote := quoteGasPrice oracle (run (stepOf (execute C)) s0 h).2 d
    (∀ g q, quote g = .ok q → ∃ a x, oracleAfter owner h d = some a ∧ oracle a d = .ok x ∧
      q = g * x.price * x.rate / 10 ^ 10) ∧
    (∀ a x, oracleAfter owner h d = some a → oracle a d = .ok x → x.rate ≠ 0 → ∀ g q,
      quote g = .ok q ↔ g * x.price * x.rate < 2 ^ 256 ∧ q = g * x.price * x.rate / 10 ^ 10) ∧
    (∀ a x, oracleAfter owner h d = some a → oracle a d = .ok x → x.rate = 0 → ∀ g q,
      quote g = .ok q ↔ g * x.price < 2 ^ 256 ∧ q = 0) ∧
    (∀ g g' q', g ≤ g' → quote g' = .ok q' → ∃ q, quote g = .ok q ∧ q ≤ q') := by
  intro quote
  have hq := fun g q => igp_quote (C := C) h0 h oracle d g q
  refine ⟨?_, ?_, ?_, ?_⟩
  · intro g q hh
    obtain ⟨a, x, h1, h2, _, _, h3⟩ := (hq g q).1 hh
    exact ⟨a, x, h1, h2, h3⟩
  · intro a x h1 h2 h3 g q
    constructor
    · intro hh
      obtain ⟨a', x', g1, g2, _, g3, g4⟩ := (hq g q).1 hh
      rw [h1] at g1; cases g1
      rw [h2] at g2; cases g2
      exact ⟨g3, g4⟩
    · rintro ⟨g1, g2⟩
      refine (hq g q).2 ⟨a, x, h1, h2, ?_, g1, g2⟩
      exact lt_of_le_of_lt (Nat.le_mul_of_pos_right _ (Nat.pos_of_ne_zero h3)) g1
  · intro a x h1 h2 h3 g q
    constructor
    · intro hh
      obtain ⟨a', x', g1, g2, g3, _, g4⟩ := (hq g q).1 hh
      rw [h1] at g1; cases g1
      rw [h2] at g2; cases g2
      rw [h3] at g4
      exact ⟨g3, by simpa using g4⟩
    · rintro ⟨g1, rfl⟩
      exact (hq g 0).2 ⟨a, x, h1, h2, g1, by rw [h3, Nat.mul_zero]; decide, by rw [h3]; simp⟩
  · intro g g' q' hle hh
    obtain ⟨a, x, h1, h2, h3, h4, rfl⟩ := (hq g' q').1 hh
    have m1 : g * x.price ≤ g' * x.price := Nat.mul_le_mul_right _ hle
    have m2 : g * x.price * x.rate ≤ g' * x.price * x.rate := Nat.mul_le_mul_right _ m1
    exact ⟨_, (hq g _).2 ⟨a, x, h1, h2, lt_of_le_of_lt m1 h3, lt_of_le_of_lt m2 h4, rfl⟩,
      Nat.div_le_div_right m2⟩

example : quoteGasPrice Ex.igpEnv.oracle (run (stepOf (execute Bech.codec)) Ex.igp0 Ex.igpHistory).2 1 70 =
    .ok 525 := by
  rw [igp_quote Ex.igp0_fresh]
  exact ⟨"oracle", ⟨25000000000, 3⟩, by decide +kernel, rfl, by decide +kernel, by decide +kernel, by decide +kernel⟩

/-! ### Payment -/

/-- What a payment of `n` against a quote of `q` sends back. -/
def Spec.refunds (token : String) (n q : Nat) (dst : Addr) : List OutMsg :=
  if q < n then [.bankSend dst [⟨token, n - q⟩]] else []

theorem refundMsgs_eq {token : String} {n q : Nat} {dst : Addr} (h : q ≤ n) :
    refundMsgs (n - q) token dst = refunds token n q dst := by
  unfold refundMsgs refunds
  by_cases hn : q < n
  · rw [if_neg (by omega), if_pos hn]
  · rw [if_pos (by omega), if_neg hn]

theorem outflow_refunds (token : String) (n q : Nat) (dst : Addr) (d : String) (h : q ≤ n) :
    outflow d (refunds token n q dst) + (if d = token then q else 0) = if d = token then n else 0 := by
  unfold refunds
  by_cases hn : q < n
  · rw [if_pos hn]
    by_cases hd : d = token
    · subst hd
      simp only [outflow, amountOf_cons, if_true]
      simp [amountOf]
      omega
    · have hd' : ¬ token = d := fun h => hd h.symm
      simp [outflow, hd, hd', amountOf]
  · rw [if_neg hn]
    simp only [outflow]
    split <;> omega

theorem accountOf_eq {hrp : String} {b : Bytes} {a : Addr} :
    bech32Encode C hrp b = .ok a ↔ accountOf C hrp b = some a := by
  have hm : ∀ o : Option Addr, ((match o with
      | some a => .ok a
      | none => .error (.err "invalid bech32 address")) : Res Addr) = .ok a ↔ o = some a := by
    intro o; cases o <;> simp
  unfold bech32Encode accountOf
  by_cases h20 : b.length = 20
  · rw [if_neg (by omega), if_pos h20, if_neg (by omega)]
    exact hm _
  · rw [if_neg h20]
    by_cases h32 : b.length = 32
    · rw [if_neg (by omega), if_pos h32]
      by_cases hz : b.take 12 = zeros 12
      · rw [if_pos ⟨h32, hz⟩, if_pos hz]
        exact hm _
      · rw [if_neg (fun h => hz h.2), if_neg hz]
        exact hm _
    · rw [if_pos ⟨h32, h20⟩, if_neg h32]
      simp

theorem decode_sender {b : Bytes} {m : Message} (h : Message.decode b = .ok m) : m.sender = senderOf b := by
  unfold Message.decode at h
  obtain ⟨ver, h0, h⟩ := bind_eq_ok.1 h
  obtain ⟨n, h1, h⟩ := bind_eq_ok.1 h
  obtain ⟨o, h2, h⟩ := bind_eq_ok.1 h
  obtain ⟨s, h3, h⟩ := bind_eq_ok.1 h
  obtain ⟨d, h4, h⟩ := bind_eq_ok.1 h
  obtain ⟨r, h5, h⟩ := bind_eq_ok.1 h
  obtain ⟨c, h6, h⟩ := bind_eq_ok.1 h
  obtain ⟨_, g3, rfl⟩ := slice_eq_ok.1 h3
  cases h
  rfl

theorem igpMeta_decode {md : Bytes} (h : ¬ md.length < 32) :
    IgpMeta.decode md = .ok ⟨fromBE (md.take 32), md.drop 32⟩ := by
  unfold IgpMeta.decode
  rw [slice_ok (by decide) (by omega), sliceFrom_ok (by omega)]
  rfl

theorem refundTo_ok {md : Bytes} {g : Nat} {hrp : String} {dflt a : Addr} :
    IgpMeta.refundTo C ⟨g, md⟩ hrp dflt = .ok a ↔
      (md.length ≠ 20 ∧ md.length ≠ 32 ∧ a = dflt) ∨
      ((md.length = 20 ∨ md.length = 32) ∧ md.take 16 ≠ zeros 16 ∧ accountOf C hrp md = some a) := by
  unfold IgpMeta.refundTo
  by_cases hl : md.length ≠ 20 ∧ md.length ≠ 32
  · rw [if_pos hl]
    constructor
    · intro h; cases h; exact .inl ⟨hl.1, hl.2, rfl⟩
    · rintro (⟨_, _, rfl⟩ | ⟨h1, _⟩)
      · rfl
      · omega
  · rw [if_neg hl]
    have hl' : md.length = 20 ∨ md.length = 32 := by omega
    have hz : ((md.take 16).all (· = 0)) = true ↔ md.take 16 = zeros 16 := by
      have hlen : (md.take 16).length = 16 := by rw [List.length_take]; omega
      rw [all_zero_take_iff, hlen]
    simp only
    by_cases h16 : md.take 16 = zeros 16
    · rw [if_pos (hz.2 h16)]
      have he : bech32Encode C hrp (md.drop 16) = .error (.err "invalid raw address length") := by
        unfold bech32Encode
        rw [if_pos (by rw [List.length_drop]; omega)]
      rw [he]
      constructor
      · intro h; cases h
      · rintro (⟨h1, h2, _⟩ | ⟨_, h2, _⟩)
        · omega
        · exact absurd h16 h2
    · rw [if_neg (fun h => h16 (hz.1 h))]
      constructor
      · intro h
        refine .inr ⟨hl', h16, ?_⟩
        cases hb : bech32Encode C hrp md with
        | ok x => rw [hb] at h; cases h; exact accountOf_eq.1 hb
        | error e => rw [hb] at h; cases h
      · rintro (⟨h1, h2, _⟩ | ⟨_, _, h3⟩)
        · omega
        · rw [accountOf_eq.2 h3]

/-- Gas limit and refund address of a message. -/
theorem gasAndRefund_ok {s : Igp.State} {md b : Bytes} {m : Message} (hm : Message.decode b = .ok m)
    {g : Nat × Addr} :
    gasAndRefund C s md m = .ok g ↔
      g.1 = gasIn md (gasFor s m.dest) ∧ (∃ a, accountOf C s.hrp (senderOf b) = some a) ∧
        refundAccount C s.hrp md b = some g.2 := by
  obtain ⟨gas, dst⟩ := g
  unfold gasAndRefund gasIn refundAccount namedRefund
  by_cases hl : md.length < 32
  · rw [if_pos hl, if_pos hl, if_neg (by omega), bind_eq_ok]
    constructor
    · rintro ⟨a, h1, hf⟩
      simp only [pure_eq_ok, Except.ok.injEq, Prod.mk.injEq] at hf
      obtain ⟨rfl, rfl⟩ := hf
      rw [accountOf_eq, decode_sender hm] at h1
      exact ⟨rfl, ⟨_, h1⟩, h1⟩
    · rintro ⟨h1, _, h2⟩
      exact ⟨dst, by rw [accountOf_eq, decode_sender hm]; exact h2, by simp; exact h1.symm⟩
  · rw [if_neg hl, if_neg hl, igpMeta_decode hl, ok_bind, bind_eq_ok]
    constructor
    · rintro ⟨a, h1, h⟩
      obtain ⟨r, h2, hf⟩ := bind_eq_ok.1 h
      simp only [pure_eq_ok, Except.ok.injEq, Prod.mk.injEq] at hf
      obtain ⟨rfl, rfl⟩ := hf
      rw [accountOf_eq, decode_sender hm] at h1
      refine ⟨rfl, ⟨_, h1⟩, ?_⟩
      rcases refundTo_ok.1 h2 with ⟨g1, g2, rfl⟩ | ⟨g1, g2, g3⟩
      · rw [if_neg (by omega)]; exact h1
      · rw [if_pos ⟨by omega, g1⟩]
        simp only
        rw [if_neg g2]; exact g3
    · rintro ⟨h1, ⟨a, ha⟩, h2⟩
      refine ⟨a, by rw [accountOf_eq, decode_sender hm]; exact ha, ?_⟩
      rw [bind_eq_ok]
      refine ⟨dst, refundTo_ok.2 ?_, by simp; exact h1.symm⟩
      by_cases hr : (md.drop 32).length = 20 ∨ (md.drop 32).length = 32
      · rw [if_pos ⟨by omega, hr⟩] at h2
        simp only at h2
        split at h2
        · cases h2
        · rename_i h16
          exact .inr ⟨hr, h16, h2⟩
      · rw [if_neg (fun h => hr h.2)] at h2
        simp only at h2
        rw [ha] at h2
        cases h2
        exact .inl ⟨by omega, by omega, rfl⟩

/-- **C55.** After any history a gas payment succeeds exactly if one coin is attached, it is of the gas token, not zero
and at least the quote; it has no effect on the settings and sends exactly the surplus to the refund address, nothing
if there is none. The same holds for post-dispatching, where the gas amount is that of the metadata or the one
configured for the destination, and the refund address is the one in the metadata or the sender of the message. In
every denomination, what is attached is what is kept, i.e. the quote, plus what is sent. -/
theorem C55_payment {lower : Char → Bool} {valid : Addr → Bool} {sup : Bool} {hrp token : String}
    {owner ben : Addr} {dg : Nat} {s0 : Ownable.State × Igp.State}
    (h0 : instantiate lower valid sup hrp owner token ben dg = .ok s0) (h : List (ExecCall IgpEnv Igp.Msg))
    (e : IgpEnv) (sender : Addr) (funds : List Coin) :
    let s := run (stepOf (execute C)) s0 h
    (∀ id d g dst s' r, execute C s ⟨e, sender, funds, .inr (.payForGas id d g dst)⟩ = .ok (s', r) ↔
      ∃ n q, funds = [⟨token, n⟩] ∧ n ≠ 0 ∧ quoteGasPrice e.oracle s.2 d g = .ok q ∧ q ≤ n ∧ s' = s ∧
        r = { msgs := refunds token n q dst }) ∧
    (∀ md b s' r, execute C s ⟨e, sender, funds, .inr (.postDispatch md b)⟩ = .ok (s', r) ↔
      77 ≤ b.length ∧ (∃ a, accountOf C hrp (senderOf b) = some a) ∧
      ∃ n q dst, refundAccount C hrp md b = some dst ∧ funds = [⟨token, n⟩] ∧ n ≠ 0 ∧
        quoteGasPrice e.oracle s.2 (destOf b) (gasIn md (gasAfter owner dg h (destOf b))) = .ok q ∧ q ≤ n ∧ s' = s ∧
        r = { msgs := refunds token n q dst }) ∧
    (∀ n q dst d, q ≤ n → amountOf d [⟨token, n⟩] =
      (if d = token then q else 0) + outflow d (refunds token n q dst)) := by
  intro s
  obtain ⟨i1, i2, i3, _, _, _, _⟩ := igp_state (C := C) h0 h
  change s.2.hrp = hrp at i1
  change s.2.gasToken = token at i2
  refine ⟨?_, ?_, ?_⟩
  · intro id d g dst s' r
    unfold execute
    rw [execOwned_inr]
    constructor
    · rintro ⟨p, hp, hx⟩
      obtain ⟨r', h1, hf⟩ := bind_eq_ok.1 hp
      cases hf
      obtain ⟨n, q, g1, g2, g3, g4, rfl⟩ := payForGas_ok.1 h1
      cases hx
      rw [i2] at g1
      exact ⟨n, q, g1, g2, g3, g4, rfl, by rw [refundMsgs_eq g4, i2]⟩
    · rintro ⟨n, q, g1, g2, g3, g4, rfl, rfl⟩
      refine ⟨(s.2, { msgs := refunds token n q dst }), bind_eq_ok.2 ⟨{ msgs := refunds token n q dst }, ?_, rfl⟩, rfl⟩
      exact payForGas_ok.2 ⟨n, q, by rw [i2]; exact g1, g2, g3, g4, by rw [refundMsgs_eq g4, i2]⟩
  · intro md b s' r
    unfold execute
    rw [execOwned_inr]
    constructor
    · rintro ⟨p, hp, hx⟩
      obtain ⟨r', h1, hf⟩ := bind_eq_ok.1 hp
      cases hf
      cases hx
      unfold postDispatch at h1
      obtain ⟨m, h2, h3⟩ := bind_eq_ok.1 h1
      obtain ⟨g, h4, h5⟩ := bind_eq_ok.1 h3
      obtain ⟨k1, k2, k3⟩ := decode_fields h2
      obtain ⟨j1, j2, j3⟩ := (gasAndRefund_ok h2).1 h4
      obtain ⟨n, q, g1, g2, g3, g4, rfl⟩ := payForGas_ok.1 h5
      rw [i1] at j2 j3
      rw [i2] at g1
      rw [j1, i3, k2] at g3
      exact ⟨k1, j2, n, q, g.2, j3, g1, g2, g3, g4, rfl, by rw [refundMsgs_eq g4, i2]⟩
    · rintro ⟨k1, j2, n, q, dst, j3, g1, g2, g3, g4, rfl, rfl⟩
      obtain ⟨m, hm⟩ := Message.decode_long k1
      obtain ⟨_, k2, k3⟩ := decode_fields hm
      refine ⟨(s.2, { msgs := refunds token n q dst }), bind_eq_ok.2 ⟨{ msgs := refunds token n q dst }, ?_, rfl⟩, rfl⟩
      unfold postDispatch
      rw [hm, ok_bind, bind_eq_ok]
      refine ⟨(gasIn md (gasAfter owner dg h (destOf b)), dst),
        (gasAndRefund_ok hm).2 ⟨by rw [i3, k2], by rw [i1]; exact j2, by rw [i1]; exact j3⟩, ?_⟩
      refine payForGas_ok.2 ⟨n, q, by rw [i2]; exact g1, g2, ?_, g4, by rw [refundMsgs_eq g4, i2]⟩
      rw [k2]
      exact g3
  · intro n q dst d hle
    have := outflow_refunds token n q dst d hle
    rw [amountOf_cons]
    simp only [amountOf, List.filter_nil, List.map_nil, List.sum_nil, Nat.add_zero]
    by_cases hd : d = token
    · simp only [hd, if_true] at this ⊢
      omega
    · have hd' : ¬ token = d := fun h => hd h.symm
      simp only [hd, hd', if_false] at this ⊢
      omega

example : ∃ x, execute Bech.codec (run (stepOf (execute Bech.codec)) Ex.igp0 Ex.igpHistory)
    ⟨Ex.igpEnv, "someone", [⟨"uosmo", 600⟩], .inr (.postDispatch [] Ex.message.encode)⟩ = .ok x := by
  refine ⟨_, ((C55_payment Ex.igp0_fresh Ex.igpHistory Ex.igpEnv "someone" [⟨"uosmo", 600⟩]).2.1 []
    Ex.message.encode _ _).2 ⟨by decide +kernel, ⟨Ex.alice, by decide +kernel⟩, 600, 525, Ex.alice, by decide +kernel,
    rfl, by decide, ?_, by decide, rfl, rfl⟩⟩
  rw [igp_quote Ex.igp0_fresh]
  exact ⟨"oracle", ⟨25000000000, 3⟩, by decide +kernel, rfl, by decide +kernel, by decide +kernel, by decide +kernel⟩

/-- What quoting a dispatch answers after a history. -/
theorem igp_quoteDispatch {lower : Char → Bool} {valid : Addr → Bool} {sup : Bool} {hrp token : String}
    {owner ben : Addr} {dg : Nat} {s0 : Ownable.State × Igp.State}
    (h0 : instantiate lower valid sup hrp owner token ben dg = .ok s0) (h : List (ExecCall IgpEnv Igp.Msg))
    (oracle : Addr → UInt32 → Res Oracle.GasData) (md b : Bytes) (fees : List Coin) :
    quoteDispatch oracle (run (stepOf (execute C)) s0 h) md b = .ok fees ↔
      77 ≤ b.length ∧ ∃ q, quoteGasPrice oracle (run (stepOf (execute C)) s0 h).2 (destOf b)
        (gasIn md (gasAfter owner dg h (destOf b))) = .ok q ∧ q < 2 ^ 128 ∧
        fees = if q = 0 then [] else [⟨token, q⟩] := by
  obtain ⟨_, i2, i3, _⟩ := igp_state (C := C) h0 h
  have hfee : ∀ q, feeCoins (run (stepOf (execute C)) s0 h).2.gasToken q = .ok fees ↔
      q < 2 ^ 128 ∧ fees = if q = 0 then [] else [⟨token, q⟩] := by
    intro q
    unfold feeCoins
    rw [i2]
    by_cases h1 : q = 0
    · rw [if_pos h1, if_pos h1]
      simp only [Except.ok.injEq, h1, Nat.two_pow_pos, true_and]
      exact eq_comm
    · rw [if_neg h1, if_neg h1]
      by_cases h2 : q < u128Lim
      · rw [if_pos h2]
        simp only [Except.ok.injEq]
        constructor
        · rintro rfl; exact ⟨h2, rfl⟩
        · rintro ⟨_, rfl⟩; rfl
      · rw [if_neg h2]
        constructor
        · intro h; cases h
        · rintro ⟨h3, _⟩; exact absurd h3 h2
  have hgas : ∀ g d, quotedGas (run (stepOf (execute C)) s0 h).2 md d = .ok g ↔
      g = gasIn md (gasAfter owner dg h d) := by
    intro g d
    unfold quotedGas gasIn
    rw [i3]
    by_cases hl : md.length < 32
    · rw [if_pos hl, if_pos hl]
      simp only [Except.ok.injEq]
      exact eq_comm
    · rw [if_neg hl, if_neg hl, igpMeta_decode hl, ok_bind]
      simp only [pure_eq_ok, Except.ok.injEq]
      exact eq_comm
  unfold quoteDispatch
  rw [bind_eq_ok]
  constructor
  · rintro ⟨m, h1, hh⟩
    obtain ⟨g, h2, hh⟩ := bind_eq_ok.1 hh
    obtain ⟨q, h3, h4⟩ := bind_eq_ok.1 hh
    obtain ⟨k1, k2, _⟩ := decode_fields h1
    rw [hgas, k2] at h2
    rw [h2, k2] at h3
    exact ⟨k1, q, h3, (hfee q).1 h4⟩
  · rintro ⟨k1, q, h3, h4⟩
    obtain ⟨m, hm⟩ := Message.decode_long k1
    obtain ⟨_, k2, _⟩ := decode_fields hm
    refine ⟨m, hm, bind_eq_ok.2 ⟨_, (hgas _ _).2 rfl, bind_eq_ok.2 ⟨q, ?_, (hfee q).2 h4⟩⟩⟩
    rw [k2]
    exact h3

/-- **C56**, full statement: post-dispatching with exactly the quoted fees succeeds and refunds nothing. -/
def C56_full : Prop :=
  ∀ (lower : Char → Bool) (valid : Addr → Bool) (sup : Bool) (token : String) (owner ben : Addr)
    (dg : Nat) (s0 : Ownable.State × Igp.State),
    instantiate lower valid sup "osmo" owner token ben dg = .ok s0 →
    ∀ (h : List (ExecCall IgpEnv Igp.Msg)) (e : IgpEnv) (sender : Addr) (md b : Bytes) (fees : List Coin),
      quoteDispatch e.oracle (run (stepOf (execute Bech.codec)) s0 h) md b = .ok fees →
      ∃ s', execute Bech.codec (run (stepOf (execute Bech.codec)) s0 h)
        ⟨e, sender, fees, .inr (.postDispatch md b)⟩ = .ok (s', { msgs := [] })

/-- A quote of zero cannot be paid: the paymaster wants a coin. -/
theorem C56_full_refuted : ¬ C56_full := by
  intro hf
  have hq : quoteDispatch Ex.igpEnv.oracle (run (stepOf (execute Bech.codec)) Ex.igp0 Ex.igpHistory)
      (zeros 32) Ex.message.encode = .ok [] := by
    rw [igp_quoteDispatch Ex.igp0_fresh]
    refine ⟨by decide +kernel, 0, ?_, by decide, rfl⟩
    rw [igp_quote Ex.igp0_fresh]
    exact ⟨"oracle", ⟨25000000000, 3⟩, by decide +kernel, rfl, by decide +kernel, by decide +kernel,
      by decide +kernel⟩
  obtain ⟨s', hs⟩ := hf _ _ _ _ _ _ _ _ Ex.igp0_fresh Ex.igpHistory Ex.igpEnv "someone" _ _ _ hq
  obtain ⟨_, _, n, q, to', _, h2, _⟩ := ((C55_payment Ex.igp0_fresh Ex.igpHistory _ _ _).2.1 _ _ _ _).1 hs
  cases h2

/-- A second reason: a refund address that begins with 16 zero bytes makes post-dispatching fail, whatever is
attached, although its fees are quoted. -/
theorem C56_refund_zero_prefix {lower : Char → Bool} {valid : Addr → Bool} {sup : Bool} {hrp token : String}
    {owner ben : Addr} {dg : Nat} {s0 : Ownable.State × Igp.State}
    (h0 : instantiate lower valid sup hrp owner token ben dg = .ok s0) (h : List (ExecCall IgpEnv Igp.Msg))
    (e : IgpEnv) (sender : Addr) (funds : List Coin) (md b : Bytes)
    (hl : md.length = 52 ∨ md.length = 64) (hz : (md.drop 32).take 16 = zeros 16) :
    ¬ ∃ x, execute C (run (stepOf (execute C)) s0 h) ⟨e, sender, funds, .inr (.postDispatch md b)⟩ = .ok x := by
  rintro ⟨⟨s', r⟩, hx⟩
  obtain ⟨_, _, n, q, to', h1, _⟩ := ((C55_payment h0 h e sender funds).2.1 md b s' r).1 hx
  unfold refundAccount namedRefund at h1
  rw [if_pos (by rw [List.length_drop]; omega)] at h1
  simp only [hz, if_true] at h1
  cases h1

/-- **C56**, except for zero fees and unsupported refund addresses. If fees are quoted for a message and metadata, then
post-dispatching the same with exactly those fees succeeds if and only if they are not empty and the refund address in
the metadata does not begin with 16 zero bytes; it then refunds nothing. The codec is only supposed to have an address
for each account of 20 or 32 bytes, which Bech32 has (C08). -/
theorem C56_pay_quote_partial {lower : Char → Bool} {valid : Addr → Bool} {sup : Bool} {hrp token : String}
    {owner ben : Addr} {dg : Nat} {s0 : Ownable.State × Igp.State}
    (h0 : instantiate lower valid sup hrp owner token ben dg = .ok s0) (h : List (ExecCall IgpEnv Igp.Msg))
    (hC : ∀ raw : Bytes, raw.length = 20 ∨ raw.length = 32 → ∃ a, C.enc hrp raw = some a)
    (e : IgpEnv) (sender : Addr) (md b : Bytes) (fees : List Coin)
    (hq : quoteDispatch e.oracle (run (stepOf (execute C)) s0 h) md b = .ok fees) :
    let call : ExecCall IgpEnv Igp.Msg := ⟨e, sender, fees, .inr (.postDispatch md b)⟩
    ((∃ x, execute C (run (stepOf (execute C)) s0 h) call = .ok x) ↔
      fees ≠ [] ∧ ¬ ((md.length = 52 ∨ md.length = 64) ∧ (md.drop 32).take 16 = zeros 16)) ∧
    (∀ s' r, execute C (run (stepOf (execute C)) s0 h) call = .ok (s', r) →
      s' = run (stepOf (execute C)) s0 h ∧ r = { msgs := [] }) := by
  intro call
  obtain ⟨k1, q, h1, h2, h3⟩ := (igp_quoteDispatch h0 h e.oracle md b fees).1 hq
  have hacc : ∀ raw : Bytes, raw.length = 20 ∨ raw.length = 32 → ∃ a, accountOf C hrp raw = some a := by
    intro raw hr
    unfold accountOf
    by_cases h20 : raw.length = 20
    · rw [if_pos h20]; exact hC raw hr
    · have h32 : raw.length = 32 := by omega
      rw [if_neg h20, if_pos h32]
      split
      · exact hC _ (.inl (by rw [List.length_drop]; omega))
      · exact hC raw hr
  have hsend : ∃ a, accountOf C hrp (senderOf b) = some a :=
    hacc _ (.inr (by unfold senderOf; rw [List.length_take, List.length_drop]; omega))
  have hpay := fun s' r => (C55_payment (C := C) h0 h e sender fees).2.1 md b s' r
  constructor
  · constructor
    · rintro ⟨⟨s', r⟩, hx⟩
      refine ⟨?_, fun hz => C56_refund_zero_prefix h0 h e sender fees md b hz.1 hz.2 ⟨_, hx⟩⟩
      obtain ⟨_, _, n, q', dst, _, g1, _⟩ := (hpay s' r).1 hx
      rw [g1]; simp
    · rintro ⟨g1, g2⟩
      have hq0 : q ≠ 0 := by
        intro h4
        rw [if_pos h4] at h3
        exact g1 h3
      rw [if_neg hq0] at h3
      have hto : ∃ dst, refundAccount C hrp md b = some dst := by
        unfold refundAccount namedRefund
        by_cases hn : 32 ≤ md.length ∧ ((md.drop 32).length = 20 ∨ (md.drop 32).length = 32)
        · rw [if_pos hn]
          simp only
          rw [if_neg]
          · exact hacc _ hn.2
          · intro hz
            refine g2 ⟨?_, hz⟩
            rw [List.length_drop] at hn
            omega
        · rw [if_neg hn]; exact hsend
      obtain ⟨dst, hto⟩ := hto
      exact ⟨_, (hpay _ _).2 ⟨k1, hsend, q, q, dst, hto, h3, hq0, h1, le_refl _, rfl, rfl⟩⟩
  · intro s' r hx
    obtain ⟨_, _, n, q', dst, _, g1, g2, g3, g4, rfl, rfl⟩ := (hpay s' r).1 hx
    rw [h1] at g3
    cases g3
    refine ⟨rfl, ?_⟩
    have hn : n = q := by
      rw [g1] at h3
      split at h3
      · cases h3
      · cases h3; rfl
    unfold refunds
    rw [if_neg (by omega)]

example : ∃ x, execute Bech.codec (run (stepOf (execute Bech.codec)) Ex.igp0 Ex.igpHistory)
    ⟨Ex.igpEnv, "someone", [⟨"uosmo", 525⟩], .inr (.postDispatch [] Ex.message.encode)⟩ = .ok x := by
  refine (C56_pay_quote_partial Ex.igp0_fresh Ex.igpHistory ?_ Ex.igpEnv "someone" [] Ex.message.encode
    [⟨"uosmo", 525⟩] ?_).1.2 ⟨by simp, by decide⟩
  · intro raw _
    exact C08_bech32_total "osmo" raw (by decide) (by decide) (by decide) (by decide)
  · rw [igp_quoteDispatch Ex.igp0_fresh]
    refine ⟨by decide +kernel, 525, ?_, by decide, rfl⟩
    rw [igp_quote Ex.igp0_fresh]
    exact ⟨"oracle", ⟨25000000000, 3⟩, by decide +kernel, rfl, by decide +kernel, by decide +kernel,
      by decide +kernel⟩

/-- **C57.** After any history the gas amount a quote uses for a message without gas metadata is the value the owner
set last for its destination domain, or the default, i.e. what the owner set last or else the instantiation value, if
there is none or it was unset since (C55 says the same about paying). The queries of the paymaster answer the same
values. Calls of others than the owner at that time change neither gas amounts nor oracles nor the beneficiary. -/
theorem C57_gas_settings {lower : Char → Bool} {valid : Addr → Bool} {sup : Bool} {hrp token : String}
    {owner ben : Addr} {dg : Nat} {s0 : Ownable.State × Igp.State}
    (h0 : instantiate lower valid sup hrp owner token ben dg = .ok s0) (h : List (ExecCall IgpEnv Igp.Msg)) :
    let s := run (stepOf (execute C)) s0 h
    (∀ oracle md b fees, md.length < 32 → (quoteDispatch oracle s md b = .ok fees ↔ 77 ≤ b.length ∧
      ∃ a x, oracleAfter owner h (destOf b) = some a ∧ oracle a (destOf b) = .ok x ∧
        let g := gasAfter owner dg h (destOf b)
        let q := g * x.price * x.rate / 10 ^ 10
        g * x.price < 2 ^ 256 ∧ g * x.price * x.rate < 2 ^ 256 ∧ q < 2 ^ 128 ∧
        fees = if q = 0 then [] else [⟨token, q⟩])) ∧
    (∀ d g, getGasForDomain s [d] = .ok [(d, g)] ↔
      lastFor d ((igpCalls owner h).flatMap (fun x => gasUpdates x.2)) = some (some g)) ∧
    getDefaultGas s = ((igpCalls owner h).flatMap (fun x => defaultGasOf x.2)).getLast?.getD dg ∧
    getBeneficiary s = beneficiaryAfter owner ben h ∧
    (∀ oracle d x, getExchangeRate oracle s d = .ok x ↔ ∃ a, oracleAfter owner h d = some a ∧ oracle a d = .ok x) ∧
    (∀ c s' r, s.1.owner ≠ some c.sender → execute C s c = .ok (s', r) → s'.2 = s.2) := by
  intro s
  obtain ⟨i1, i2, i3, i4, i5, i6, i7⟩ := igp_state (C := C) h0 h
  refine ⟨?_, ?_, i7, i5, ?_, ?_⟩
  · intro oracle md b fees hl
    rw [igp_quoteDispatch h0]
    simp only [igp_quote h0]
    have hg : gasIn md (gasAfter owner dg h (destOf b)) = gasAfter owner dg h (destOf b) := by
      unfold gasIn; rw [if_pos hl]
    rw [hg]
    constructor
    · rintro ⟨k1, q, ⟨a, x, h1, h2, h3, h4, rfl⟩, h5, h6⟩
      exact ⟨k1, a, x, h1, h2, h3, h4, h5, h6⟩
    · rintro ⟨k1, a, x, h1, h2, h3, h4, h5, h6⟩
      exact ⟨k1, _, ⟨a, x, h1, h2, h3, h4, rfl⟩, h5, h6⟩
  · intro d g
    have := i6 d
    change s.2.gasFor.get d = _ at this
    rw [getGasForDomain, getGasForDomain, this]
    generalize lastFor d ((igpCalls owner h).flatMap (fun x => gasUpdates x.2)) = o
    rcases o with _ | _ | g' <;> simp
  · intro oracle d x
    unfold getExchangeRate oracleFor
    have := i4 d
    change Router.getRoute s.2.routes d = _ at this
    rw [this]
    cases oracleAfter owner h d <;> simp
  · intro c s' r hc hx
    obtain ⟨e, sender, funds, m⟩ := c
    · cases m with
      | inl m =>
        obtain ⟨o', h1, h2⟩ := execOwned_inl.1 hx
        cases h2; rfl
      | inr m =>
        obtain ⟨p, hp, h2⟩ := execOwned_inr.1 hx
        cases h2
        cases hk : igpCfg m with
        | none => exact part_rest (s' := p.1) (r := p.2) hk hp
        | some k =>
          exact absurd ((part_cfg hk).1 ⟨p.2, hp⟩).1 hc

example : (gasAfter "o" 50 Ex.igpHistory 1, gasAfter "o" 50 Ex.igpHistory 2, oracleAfter "o" Ex.igpHistory 1) =
    (70, 60, some "oracle") := by decide +kernel

end Paymaster

/-! ## Oracle -/

section GasOracle

open Oracle

/-- **C58**, full statement. -/
def C58_full : Prop :=
  ∀ (valid : Addr → Bool) (owner : Addr) (s0 : Ownable.State × Oracle.State), instantiate valid owner = .ok s0 →
    ∀ (h : List (ExecCall (Addr → Bool) Oracle.Msg)),
      let s := run (stepOf execute) s0 h
      (∀ d x, getData s d = .ok x ↔ lastFor d (oracleLog owner h) = some (some x)) ∧
      (∀ c s' r, s.1.owner ≠ some c.sender → execute s c = .ok (s', r) → s'.2 = s.2) ∧
      (∀ d x, getData s d = .ok x → x.rate ≠ 0)

/-- The singular form of the setting does not check the rate. -/
theorem C58_full_refuted : ¬ C58_full := by
  intro h
  have := (h (fun _ => true) "o" _ rfl [⟨fun _ => true, "o", [], .inr (.setConfig ⟨1, 0, 5⟩)⟩]).2.2 1 ⟨0, 5⟩
    (by decide +kernel)
  exact this rfl

/-- **C58**, except that the singular form of the setting writes any rate. After any history what the oracle answers
for a domain is what the owner wrote last for it, and it answers nothing if the owner wrote nothing. Calls of others
than the owner at that time change nothing. A zero rate is answered only if the owner wrote it in the singular form; a
list of entries one of which has a zero rate is refused as a whole. -/
theorem C58_oracle_partial {valid : Addr → Bool} {owner : Addr} {s0 : Ownable.State × Oracle.State}
    (h0 : instantiate valid owner = .ok s0) (h : List (ExecCall (Addr → Bool) Oracle.Msg)) :
    let s := run (stepOf execute) s0 h
    (∀ d x, getData s d = .ok x ↔ lastFor d (oracleLog owner h) = some (some x)) ∧
    (∀ c s' r, s.1.owner ≠ some c.sender → execute s c = .ok (s', r) → s'.2 = s.2) ∧
    (∀ d x, getData s d = .ok x → x.rate = 0 →
      ∃ c ∈ h, c.msg = .inr (.setConfig ⟨d, 0, x.price⟩)) ∧
    (∀ e sender funds l, (∃ c ∈ l, Config.rate c = 0) →
      ¬ ∃ y, execute s ⟨e, sender, funds, .inr (.setConfigs l)⟩ = .ok y) := by
  have hs0 : s0 = (Ownable.init owner, OMap.empty) := by
    unfold instantiate at h0
    obtain ⟨_, _, hf⟩ := bind_eq_ok.1 h0
    cases hf; rfl
  subst hs0
  intro s
  have hget : ∀ d x, getData s d = .ok x ↔ lastFor d (oracleLog owner h) = some (some x) := by
    intro d x
    have hs : s.2.get d = (lastFor d (oracleLog owner h)).join := by
      change (run (stepOf execute) (Ownable.init owner, OMap.empty) h).2.get d = _
      rw [run_state]
      exact get_writeAll_empty _ d
    unfold getData
    rw [hs]
    generalize lastFor d (oracleLog owner h) = o
    rcases o with _ | _ | y <;> simp
  refine ⟨hget, ?_, ?_, ?_⟩
  · intro c s' r hc hx
    obtain ⟨e, sender, funds, m⟩ := c
    · cases m with
      | inl m =>
        obtain ⟨o', h1, h2⟩ := execOwned_inl.1 hx
        cases h2; rfl
      | inr m =>
        obtain ⟨p, hp, h2⟩ := execOwned_inr.1 hx
        exact absurd (part_ok.1 hp).1 hc
  · intro d x hx hz
    have hm := lastFor_mem ((hget d x).1 hx)
    unfold oracleLog at hm
    obtain ⟨y, hy, hw⟩ := List.mem_flatMap.1 hm
    cases hc : y.2 with
    | setConfigs l =>
      rw [hc] at hw
      simp only [oracleWrites] at hw
      split at hw
      · rename_i hall
        obtain ⟨c, hcl, he⟩ := List.mem_map.1 hw
        cases he
        exact absurd hz (hall c hcl)
      · cases hw
    | setConfig c =>
      rw [hc] at hw
      simp only [oracleWrites, List.mem_singleton] at hw
      cases hw
      obtain ⟨call, hcall, hmsg⟩ := ownerCalls_call hy
      refine ⟨call, hcall, ?_⟩
      obtain ⟨m, hm1, hm2⟩ := hmsg
      rw [hm1]
      cases hm2
      rw [hc]
      have : c.rate = 0 := hz
      cases c
      simp_all
  · rintro e sender funds l ⟨c, hc, hz⟩ ⟨y, hy⟩
    obtain ⟨s', r⟩ := y
    obtain ⟨p, hp, _⟩ := execOwned_inr.1 hy
    exact (part_ok.1 hp).2.2.2 l rfl c hc hz

/-- An oracle with a refused list and a stranger's attempt. -/
def Ex.oracleHistory : List (ExecCall (Addr → Bool) Oracle.Msg) :=
  [⟨fun _ => true, "o", [], .inr (.setConfigs [⟨1, 10, 5⟩, ⟨2, 20, 6⟩])⟩,
   ⟨fun _ => true, "o", [], .inr (.setConfigs [⟨1, 11, 5⟩, ⟨2, 0, 6⟩])⟩,
   ⟨fun _ => true, "m", [], .inr (.setConfig ⟨1, 1, 1⟩)⟩,
   ⟨fun _ => true, "o", [], .inr (.setConfig ⟨2, 30, 7⟩)⟩]

example : [1, 2, 3].map (getData (run (stepOf execute) (Ownable.init "o", OMap.empty) Ex.oracleHistory)) =
    [.ok ⟨10, 5⟩, .ok ⟨30, 7⟩, .error (.err "not found")] := by decide +kernel

end GasOracle

end Hpl
