import Verif.Spec.HookUsers
import Verif.Props.HookMoney

/-! Lemmas about what people who own nothing do. -/

namespace Hpl

open HookSystem Spec

variable {W : World} {P : Addr → Prop}

/-! ### Contracts with the same settings -/

namespace Spec.SameSettings

variable {x y z : Contracts}

theorem refl (x : Contracts) : SameSettings x x := ⟨fun _ s h => ⟨s.tree, h⟩, fun _ _ => rfl⟩

theorem trans (h1 : SameSettings x y) (h2 : SameSettings y z) : SameSettings x z := by
  refine ⟨?_, ?_⟩
  · intro a s hs
    obtain ⟨t, e1⟩ := h1.1 a s hs
    obtain ⟨t', e2⟩ := h2.1 a _ e1
    exact ⟨t', e2⟩
  · intro a hn
    have e1 := h1.2 a hn
    rw [h2.2 a (by rw [e1]; exact hn), e1]

theorem same (h : SameSettings x y) {a : Addr} {c : Contract} (hc : x a = some c) (hn : ∀ s, c ≠ .merkle s) :
    y a = some c := by
  rw [h.2 a, hc]
  intro s hs
  rw [hc] at hs
  exact hn s (Option.some.inj hs)

theorem back (h : SameSettings x y) {a : Addr} {c : Contract} (hc : y a = some c) (hn : ∀ s, c ≠ .merkle s) :
    x a = some c := by
  rw [← h.2 a, hc]
  intro s hs
  obtain ⟨t, ht⟩ := h.1 a s hs
  rw [hc] at ht
  exact hn _ (Option.some.inj ht)

theorem empty (h : SameSettings x y) {a : Addr} (hc : x a = none) : y a = none := by
  rw [h.2 a (by rw [hc]; intro s; simp), hc]

theorem store_same {a : Addr} {c : Contract} (hc : x a = some c) : SameSettings x (store x a c) := by
  have : store x a c = x := by
    funext b
    unfold store
    split
    · rename_i e
      rw [e, hc]
    · rfl
  rw [this]
  exact refl x

theorem store_merkle {a : Addr} {s : MerkleHook.State} (hc : x a = some (.merkle s)) (t : Merkle.Tree) :
    SameSettings x (store x a (.merkle ⟨s.mailbox, t⟩)) := by
  refine ⟨?_, ?_⟩
  · intro b u hu
    unfold store
    split
    · rename_i e
      subst e
      rw [hc] at hu
      cases hu
      exact ⟨t, rfl⟩
    · exact ⟨u.tree, hu⟩
  · intro b hn
    unfold store
    split
    · rename_i e
      subst e
      exact absurd hc (hn s)
    · rfl

theorem oracleOf (h : SameSettings x y) (n : Nat) : oracleOf y n = oracleOf x n := by
  induction n with
  | zero => rfl
  | succ n ih =>
    funext a d
    unfold HookSystem.oracleOf HookSystem.answerRate
    rw [ih]
    cases hc : x a with
    | none => rw [h.empty hc]
    | some c =>
      cases c with
      | merkle s =>
        obtain ⟨t, ht⟩ := h.1 a s hc
        rw [ht]
      | _ => rw [h.same hc (by intro s; simp)]

theorem oracleAt (h : SameSettings x y) : oracleAt y = oracleAt x := h.oracleOf 10

theorem quoteOf (h : SameSettings x y) (n : Nat) : quoteOf y n = quoteOf x n := by
  induction n with
  | zero => funext a m b; rfl
  | succ n ih =>
    funext a m b
    unfold HookSystem.quoteOf
    rw [h.oracleAt, ih]
    cases hc : x a with
    | none => rw [h.empty hc]
    | some c =>
      cases c with
      | merkle s =>
        obtain ⟨t, ht⟩ := h.1 a s hc
        rw [ht]
      | _ => rw [h.same hc (by intro s; simp)]

theorem alike (h : SameSettings x y) : Alike x y := by
  intro a
  by_cases hm : ∃ s, x a = some (.merkle s)
  · obtain ⟨s, hs⟩ := hm
    obtain ⟨t, ht⟩ := h.1 a s hs
    exact .inr ⟨_, _, hs, ht⟩
  · exact .inl (h.2 a (fun s hs => hm ⟨s, hs⟩)).symm

theorem settles (h : SameSettings x y) {md b : Bytes} {a : Addr} {us : List Visit} (hs : Settles W x md b a us) :
    Settles W y md b a us := by
  induction hs with
  | merkle hs hm =>
    obtain ⟨t, ht⟩ := h.1 _ _ hs
    exact .merkle ht hm
  | fee hs h0 => exact .fee (h.same hs (by intro s; simp)) h0
  | pausable hs h0 => exact .pausable (h.same hs (by intro s; simp)) h0
  | igp hs hq hr hc => exact .igp (h.same hs (by intro s; simp)) (by rw [h.oracleAt]; exact hq) hr hc
  | aggregate ms hs hl hm ih => exact .aggregate ms (h.same hs (by intro s; simp)) hl ih
  | route hx hv h0 ih => exact .route (h.alike.routesTo hx) ih h0

end Spec.SameSettings

/-! ### Messages that differ in their nonce -/

/-- Messages to the same recipient on the same domain. -/
def Twins (b b' : Bytes) : Prop :=
  ∃ m m', Message.decode b = .ok m ∧ Message.decode b' = .ok m' ∧ m.dest = m'.dest ∧ m.recipient = m'.recipient

theorem Twins.symm {b b' : Bytes} (h : Twins b b') : Twins b' b := by
  obtain ⟨m, m', h1, h2, h3, h4⟩ := h
  exact ⟨m', m, h2, h1, h3.symm, h4.symm⟩

theorem Twins.igp {b b' : Bytes} (h : Twins b b') (o : Addr → UInt32 → Res Oracle.GasData)
    (s : Ownable.State × Igp.State) (md : Bytes) : Igp.quoteDispatch o s md b = Igp.quoteDispatch o s md b' := by
  obtain ⟨m, m', h1, h2, h3, h4⟩ := h
  unfold Igp.quoteDispatch
  rw [h1, h2, ok_bind, ok_bind, h3]

theorem quoteFold_congr {f : Addr → Bytes → Bytes → Res (List Coin)} {md b b' : Bytes}
    (h : ∀ a, f a md b = f a md b') (acc : Coins) (l : List Addr) :
    AggregateHook.quoteFold f md b acc l = AggregateHook.quoteFold f md b' acc l := by
  induction l generalizing acc with
  | nil => rfl
  | cons a t ih =>
    unfold AggregateHook.quoteFold
    rw [h a]
    congr 1
    funext fees
    congr 1
    funext acc'
    exact ih acc'

theorem Twins.quoteOf {b b' : Bytes} (h : Twins b b') (hooks : Contracts) (n : Nat) (a : Addr) (md : Bytes) :
    quoteOf hooks n a md b = quoteOf hooks n a md b' := by
  induction n generalizing a with
  | zero => rfl
  | succ n ih =>
    have h' := h
    obtain ⟨m, m', h1, h2, h3, h4⟩ := h'
    unfold HookSystem.quoteOf
    cases hooks a with
    | none => rfl
    | some c =>
      cases c with
      | merkle s => rfl
      | fee s => rfl
      | pausable s => rfl
      | aggregate s =>
        simp only [AggregateHook.quoteDispatch]
        rw [quoteFold_congr ih]
      | routing s =>
        simp only [RoutingHook.quoteDispatch, RoutingHook.route]
        rw [h1, h2, ok_bind, ok_bind, h3]
        congr 1
        funext x
        exact ih x
      | fallback s =>
        simp only [FallbackHook.quoteDispatch, FallbackHook.route]
        rw [h1, h2, ok_bind, ok_bind, h3]
        congr 1
        funext x
        exact ih x
      | custom s =>
        simp only [CustomHook.quoteDispatch, CustomHook.route]
        rw [h1, h2, ok_bind, ok_bind]
        unfold CustomHook.pick
        rw [h3, h4]
        congr 1
        funext x
        exact ih x
      | igp s => exact h.igp _ s md
      | oracle s => rfl

theorem Twins.fields {b b' : Bytes} (h : Twins b b') : destOf b = destOf b' ∧ recipientOf b = recipientOf b' := by
  obtain ⟨m, m', h1, h2, h3, h4⟩ := h
  obtain ⟨_, d1, r1⟩ := decode_fields h1
  obtain ⟨_, d2, r2⟩ := decode_fields h2
  exact ⟨by rw [← d1, ← d2, h3], by rw [← r1, ← r2, h4]⟩

theorem Twins.settles {b b' : Bytes} (h : Twins b b') {hooks : Contracts} {md : Bytes} {a : Addr} {us : List Visit}
    (hs : Settles W hooks md b a us) : Settles W hooks md b' a us := by
  induction hs with
  | merkle hs hm => exact .merkle hs hm
  | fee hs h0 => exact .fee hs h0
  | pausable hs h0 => exact .pausable hs h0
  | igp hs hq hr hc => exact .igp hs (by rw [← h.igp]; exact hq) hr hc
  | aggregate ms hs hl hm ih => exact .aggregate ms hs hl ih
  | route hx hv h0 ih => exact .route (by rw [← h.fields.1, ← h.fields.2]; exact hx) ih h0

/-! ### Calls by people who own nothing -/

theorem handle_outsider {valid : Addr → Bool} {o o' : Ownable.State} {x : Addr} {m : Ownable.Msg}
    (h1 : o.owner ≠ some x) (h2 : o.pending ≠ some x) : Ownable.handle valid o x m ≠ .ok o' := by
  intro h
  cases m with
  | initTransfer n => exact h1 (Ownable.handle_init_ok.1 h).2.1
  | revoke => exact h1 (Ownable.handle_revoke_ok.1 h).1
  | claim => exact h2 (Ownable.handle_claim_ok.1 h).1

/-! What the contracts keep when somebody else than their owner calls them. -/

theorem fee_outsider {e : HookEnv} {o : Ownable.State} {x x' : Coin} {c : Addr} {f : List Coin} {m : FeeHook.Msg}
    {r : Response} (h : FeeHook.part e o x c f m = .ok (x', r)) (hn : o.owner ≠ some c) : x' = x := by
  cases m with
  | setFee y =>
    obtain ⟨_, h1, _⟩ := bind_eq_ok.1 h
    exact absurd (onlyOwner_ok.1 h1) hn
  | claim y =>
    obtain ⟨_, _, h⟩ := bind_eq_ok.1 h
    obtain ⟨_, _, hf⟩ := bind_eq_ok.1 h
    cases hf
    rfl
  | postDispatch md b =>
    obtain ⟨_, _, h⟩ := bind_eq_ok.1 h
    obtain ⟨_, _, hf⟩ := bind_eq_ok.1 h
    cases hf
    rfl

theorem pausable_outsider {e : HookEnv} {o : Ownable.State} {x x' : Bool} {c : Addr} {f : List Coin}
    {m : PausableHook.Msg} {r : Response} (h : PausableHook.part e o x c f m = .ok (x', r)) (hn : o.owner ≠ some c) :
    x' = x := by
  cases m with
  | pausable y =>
    obtain ⟨_, h1, _⟩ := bind_eq_ok.1 h
    exact absurd (Pausable.handle_ok.1 h1).1 hn
  | postDispatch md b =>
    obtain ⟨_, _, hf⟩ := bind_eq_ok.1 h
    cases hf
    rfl

theorem aggregate_outsider {e : HookEnv} {o : Ownable.State} {x x' : List Addr} {c : Addr} {f : List Coin}
    {m : AggregateHook.Msg} {r : Response} (h : AggregateHook.part e o x c f m = .ok (x', r))
    (hn : o.owner ≠ some c) : x' = x := by
  cases m with
  | setHooks y =>
    obtain ⟨_, h1, _⟩ := bind_eq_ok.1 h
    exact absurd (onlyOwner_ok.1 h1) hn
  | postDispatch md b =>
    obtain ⟨_, _, h⟩ := bind_eq_ok.1 h
    obtain ⟨_, _, hf⟩ := bind_eq_ok.1 h
    cases hf
    rfl

theorem routing_outsider {e : HookEnv} {o : Ownable.State} {x x' : Router.State Addr} {c : Addr} {f : List Coin}
    {m : RoutingHook.Msg} {r : Response} (h : RoutingHook.part e o x c f m = .ok (x', r))
    (hn : o.owner ≠ some c) : x' = x := by
  cases m with
  | router y =>
    obtain ⟨_, h1, _⟩ := bind_eq_ok.1 h
    exact absurd (Router.handle_ok.1 h1).1 hn
  | postDispatch md b =>
    obtain ⟨_, _, hf⟩ := bind_eq_ok.1 h
    cases hf
    rfl

theorem fallback_outsider {e : HookEnv} {o : Ownable.State} {x x' : FallbackHook.State} {c : Addr} {f : List Coin}
    {m : FallbackHook.Msg} {r : Response} (h : FallbackHook.part e o x c f m = .ok (x', r))
    (hn : o.owner ≠ some c) : x' = x := by
  cases m with
  | router y =>
    obtain ⟨_, h1, _⟩ := bind_eq_ok.1 h
    exact absurd (Router.handle_ok.1 h1).1 hn
  | setFallback y =>
    obtain ⟨_, h1, _⟩ := bind_eq_ok.1 h
    exact absurd (onlyOwner_ok.1 h1) hn
  | postDispatch md b =>
    obtain ⟨_, _, hf⟩ := bind_eq_ok.1 h
    cases hf
    rfl

theorem custom_outsider {e : HookEnv} {o : Ownable.State} {x x' : CustomHook.State} {c : Addr} {f : List Coin}
    {m : CustomHook.Msg} {r : Response} (h : CustomHook.part e o x c f m = .ok (x', r))
    (hn : o.owner ≠ some c) : x' = x := by
  cases m with
  | router y =>
    obtain ⟨_, h1, _⟩ := bind_eq_ok.1 h
    exact absurd (Router.handle_ok.1 h1).1 hn
  | register y =>
    obtain ⟨_, h1, _⟩ := bind_eq_ok.1 h
    exact absurd (onlyOwner_ok.1 h1) hn
  | clear y =>
    obtain ⟨_, h1, _⟩ := bind_eq_ok.1 h
    exact absurd (onlyOwner_ok.1 h1) hn
  | postDispatch md b =>
    obtain ⟨_, _, hf⟩ := bind_eq_ok.1 h
    cases hf
    rfl

theorem igp_outsider {C : Codec} {e : IgpEnv} {o : Ownable.State} {x x' : Igp.State} {c : Addr} {f : List Coin}
    {m : Igp.Msg} {r : Response} (h : Igp.part C e o x c f m = .ok (x', r)) (hn : o.owner ≠ some c) : x' = x := by
  cases m with
  | router y =>
    obtain ⟨_, h1, _⟩ := bind_eq_ok.1 h
    exact absurd (Router.handle_ok.1 h1).1 hn
  | setDefaultGas y =>
    obtain ⟨_, h1, _⟩ := bind_eq_ok.1 h
    exact absurd (onlyOwner_ok.1 h1) hn
  | setGasForDomain y =>
    obtain ⟨_, h1, _⟩ := bind_eq_ok.1 h
    exact absurd (onlyOwner_ok.1 h1) hn
  | unsetGasForDomain y =>
    obtain ⟨_, h1, _⟩ := bind_eq_ok.1 h
    exact absurd (onlyOwner_ok.1 h1) hn
  | setBeneficiary y =>
    obtain ⟨_, h1, _⟩ := bind_eq_ok.1 h
    exact absurd (onlyOwner_ok.1 h1) hn
  | postDispatch md b =>
    obtain ⟨_, _, hf⟩ := bind_eq_ok.1 h
    cases hf
    rfl
  | payForGas i d g y =>
    obtain ⟨_, _, hf⟩ := bind_eq_ok.1 h
    cases hf
    rfl
  | claim =>
    obtain ⟨_, _, hf⟩ := bind_eq_ok.1 h
    cases hf
    rfl

theorem oracle_outsider {e : Addr → Bool} {o : Ownable.State} {x x' : Oracle.State} {c : Addr} {f : List Coin}
    {m : Oracle.Msg} {r : Response} (h : Oracle.part e o x c f m = .ok (x', r)) (hn : o.owner ≠ some c) : x' = x := by
  cases m with
  | setConfigs y =>
    obtain ⟨_, h1, _⟩ := bind_eq_ok.1 h
    exact absurd (onlyOwner_ok.1 h1) hn
  | setConfig y =>
    obtain ⟨_, h1, _⟩ := bind_eq_ok.1 h
    exact absurd (onlyOwner_ok.1 h1) hn

/-- A contract called by somebody who does not own it stays as it is. -/
theorem execHook_outsider {s : Sys} {bal : List Coin} {caller self : Addr} {funds : List Coin} {m : HookMsg}
    {c c' : Contract} {r : Response} (h : execHook W s bal caller self funds m c = .ok (c', r))
    (hn : ∀ o, ownershipOf c = some o → o.owner ≠ some caller ∧ o.pending ≠ some caller) : c' = c := by
  unfold execHook at h
  split at h
  case h_9 => cases h
  all_goals
    obtain ⟨y, h1, hf⟩ := bind_eq_ok.1 h
    cases hf
    obtain ⟨n1, n2⟩ := hn _ rfl
    rcases execOwned_ok h1 with ⟨k, _, h2, _, _⟩ | ⟨k, _, h2, h3⟩
    · exact absurd h2 (handle_outsider n1 n2)
    · congr 1
      refine Prod.ext h3 ?_
      first
        | exact fee_outsider h2 n1
        | exact pausable_outsider h2 n1
        | exact aggregate_outsider h2 n1
        | exact routing_outsider h2 n1
        | exact fallback_outsider h2 n1
        | exact custom_outsider h2 n1
        | exact igp_outsider h2 n1
        | exact oracle_outsider h2 n1

/-- What people who own nothing leave as it is. -/
structure Untouched (s s' : Sys) : Prop where
  hooks : SameSettings s.hooks s'.hooks
  config : s'.box.config = s.box.config
  own : s'.box.own = s.box.own
  delivered : ∀ id, s.box.deliveries.has id = true → s'.box.deliveries.has id = true

theorem Untouched.refl (s : Sys) : Untouched s s := ⟨.refl _, rfl, rfl, fun _ h => h⟩

theorem Untouched.bank (s : Sys) (k : Bank) : Untouched s { s with bank := k } := ⟨.refl _, rfl, rfl, fun _ h => h⟩

theorem Untouched.trans {s t u : Sys} (h1 : Untouched s t) (h2 : Untouched t u) : Untouched s u :=
  ⟨h1.hooks.trans h2.hooks, h2.config.trans h1.config, h2.own.trans h1.own,
    fun id h => h2.delivered id (h1.delivered id h)⟩

theorem Untouched.ownsNothing {s t : Sys} (h : Untouched s t) {x : Addr} (hx : OwnsNothing s x) : OwnsNothing t x := by
  refine ⟨by rw [h.own]; exact hx.1, ?_⟩
  intro a c o hc ho
  refine hx.2 a c o (h.hooks.back hc ?_) ho
  rintro u rfl
  cases ho

theorem stepMsg_untouched {s : Sys} {src : Addr} {o : OutMsg} {x : Sys × List (Addr × OutMsg)}
    (h : stepMsg W s src o = .ok x) : Untouched s x.1 := by
  cases o with
  | execute dst p f =>
    cases p with
    | postDispatch md b =>
      obtain ⟨k, c, c', msgs, h3, h4, h5, rfl⟩ := step_execute h
      refine ⟨?_, rfl, rfl, fun _ h => h⟩
      cases h5 with
      | merkle _ _ => exact .store_merkle h4 _
      | _ => exact .store_same h4
    | _ => cases h
  | bankSend dst f =>
    obtain ⟨k, h3, rfl⟩ := step_bankSend h
    exact ⟨.refl _, rfl, rfl, fun _ h => h⟩
  | _ => cases h

theorem contractAt_ok {hooks : Contracts} {a : Addr} {c : Contract} : contractAt hooks a = .ok c ↔ hooks a = some c := by
  unfold contractAt
  cases hooks a <;> simp

theorem callContract_ok {s : Sys} {bal : List Coin} {src self : Addr} {funds : List Coin} {m : HookMsg}
    {x : Sys × List (Addr × OutMsg)} (h : callContract W s bal src self funds m = .ok x) :
    ∃ k c c' r, pay s.bank src self funds = .ok k ∧ s.hooks self = some c ∧
      execHook W { s with bank := k } bal src self funds m c = .ok (c', r) ∧
      x = ({ s with bank := k, hooks := store s.hooks self c' }, r.msgs.map (fun o => (self, o))) := by
  obtain ⟨k, h1, h⟩ := bind_eq_ok.1 h
  obtain ⟨c, h2, h⟩ := bind_eq_ok.1 h
  obtain ⟨⟨c', r⟩, h3, hf⟩ := bind_eq_ok.1 h
  cases hf
  exact ⟨k, c, c', r, h1, contractAt_ok.1 h2, h3, rfl⟩

theorem callBox_ok {s : Sys} {ri : Addr → Res (Option Addr)} {ve : Addr → Bytes → Bytes → Res Bool} {src : Addr}
    {funds : List Coin} {m : Mailbox.Msg} {x : Sys × List (Addr × OutMsg)} (h : callBox W s ri ve src funds m = .ok x) :
    ∃ k b r, pay s.bank src W.mb funds = .ok k ∧
      Mailbox.execute W.H W.C s.box ⟨{ boxEnv W s.hooks with recipientIsm := ri, verify := ve }, src, funds, m⟩ =
        .ok (b, r) ∧
      x = ({ s with box := b, bank := k }, r.msgs.map (fun o => (W.mb, o))) := by
  obtain ⟨k, h1, h⟩ := bind_eq_ok.1 h
  obtain ⟨⟨b, r⟩, h2, hf⟩ := bind_eq_ok.1 h
  cases hf
  exact ⟨k, b, r, h1, h2, rfl⟩

theorem callContract_untouched {s : Sys} {bal : List Coin} {src self : Addr} {funds : List Coin} {m : HookMsg}
    {x : Sys × List (Addr × OutMsg)} (h : callContract W s bal src self funds m = .ok x) (hn : OwnsNothing s src) :
    Untouched s x.1 := by
  obtain ⟨k, c, c', r, _, h2, h3, rfl⟩ := callContract_ok h
  have := execHook_outsider h3 (fun o ho => hn.2 self c o h2 ho)
  subst this
  exact ⟨.store_same h2, rfl, rfl, fun _ h => h⟩

theorem owner_of_ensure {o : Ownable.State} {x y : Addr} {u : Unit} {tag : String} (h1 : Ownable.getOwner o = .ok y)
    (h2 : ensure (decide (y = x)) tag = .ok u) : o.owner = some x := by
  rw [← of_decide_eq_true (ensure_eq_ok.1 h2)]
  exact Ownable.getOwner_eq_ok.1 h1

theorem callBox_untouched {s : Sys} {ri : Addr → Res (Option Addr)} {ve : Addr → Bytes → Bytes → Res Bool} {src : Addr}
    {funds : List Coin} {m : Mailbox.Msg} {x : Sys × List (Addr × OutMsg)} (h : callBox W s ri ve src funds m = .ok x)
    (hn : OwnsNothing s src) : Untouched s x.1 := by
  obtain ⟨k, b, r, _, h2, rfl⟩ := callBox_ok h
  refine ⟨.refl _, ?_, ?_, ?_⟩
  all_goals
    cases m with
    | ownable m =>
      obtain ⟨o, h3, _⟩ := bind_eq_ok.1 h2
      exact absurd h3 (handle_outsider hn.1.1 hn.1.2)
    | setDefaultIsm a =>
      obtain ⟨o, h3, _⟩ := bind_eq_ok.1 h2
      obtain ⟨_, h4, h5⟩ := bind_eq_ok.1 h3
      obtain ⟨_, h6, _⟩ := bind_eq_ok.1 h5
      exact absurd (owner_of_ensure h4 h6) hn.1.1
    | setDefaultHook a =>
      obtain ⟨o, h3, _⟩ := bind_eq_ok.1 h2
      obtain ⟨_, h4, h5⟩ := bind_eq_ok.1 h3
      obtain ⟨_, h6, _⟩ := bind_eq_ok.1 h5
      exact absurd (owner_of_ensure h4 h6) hn.1.1
    | setRequiredHook a =>
      obtain ⟨o, h3, _⟩ := bind_eq_ok.1 h2
      obtain ⟨_, h4, h5⟩ := bind_eq_ok.1 h3
      obtain ⟨_, h6, _⟩ := bind_eq_ok.1 h5
      exact absurd (owner_of_ensure h4 h6) hn.1.1
    | dispatch q =>
      have h2 : Mailbox.dispatch _ _ _ _ _ _ _ = _ := h2
      simp only [Mailbox.dispatch] at h2
      iterate 9 obtain ⟨_, _, h2⟩ := bind_eq_ok.1 h2
      cases h2
      first | rfl | exact fun _ h => h
    | process md msg =>
      have h2 : Mailbox.process _ _ _ _ _ _ _ = _ := h2
      simp only [Mailbox.process] at h2
      iterate 9 obtain ⟨_, _, h2⟩ := bind_eq_ok.1 h2
      cases h2
      first
        | rfl
        | intro id hid
          simp only [OMap.has_insert]
          simp [hid]

theorem runs_untouched {s s' : Sys} {l : List (Addr × Item)} (h : Runs W P s l s')
    (hP : ∀ x, P x → OwnsNothing s x) (hl : ∀ i ∈ l, (∃ o, i.2 = .msg o) ∨ P i.1) : Untouched s s' := by
  have tail : ∀ {i : Addr × Item} {t : List (Addr × Item)} {y : List (Addr × OutMsg)},
      (∀ j ∈ i :: t, (∃ o, j.2 = .msg o) ∨ P j.1) →
      ∀ j ∈ y.map (fun m => (m.1, Item.msg m.2)) ++ t, (∃ o, j.2 = .msg o) ∨ P j.1 := by
    intro i t y h j hj
    rcases List.mem_append.1 hj with hj | hj
    · obtain ⟨m, _, rfl⟩ := List.mem_map.1 hj
      exact .inl ⟨_, rfl⟩
    · exact h j (List.mem_cons_of_mem _ hj)
  induction h with
  | done s => exact .refl s
  | msg h _ ih =>
    have h1 := stepMsg_untouched h
    exact h1.trans (ih (fun x hx => h1.ownsNothing (hP x hx)) (tail hl))
  | box h _ ih =>
    have h1 := callBox_untouched h (hP _ (by simpa using hl _ List.mem_cons_self))
    exact h1.trans (ih (fun x hx => h1.ownsNothing (hP x hx)) (tail hl))
  | hook h _ ih =>
    have h1 := callContract_untouched h (hP _ (by simpa using hl _ List.mem_cons_self))
    exact h1.trans (ih (fun x hx => h1.ownsNothing (hP x hx)) (tail hl))
  | foreign l hn hb hp hl' _ ih =>
    refine (Untouched.bank _ _).trans (ih (fun x hx => (Untouched.bank _ _).ownsNothing (hP x hx)) ?_)
    intro j hj
    rcases List.mem_append.1 hj with hj | hj
    · obtain ⟨e, hd⟩ := hl' j hj
      exact .inr (by rw [e]; exact hd)
    · exact hl j (List.mem_cons_of_mem _ hj)

/-- The coins of an account that is not a contract of the model and does nothing. -/
theorem runs_idle {s s' : Sys} {l : List (Addr × Item)} (h : Runs W P s l s') {a : Addr} (hc : s.hooks a = none)
    (hb : a ≠ W.mb) (hP : ¬ P a) (hl : ∀ i ∈ l, i.1 ≠ a) (d : String) : s.bank a d ≤ s'.bank a d := by
  have tail : ∀ {i : Addr × Item} {t : List (Addr × Item)} {z : Addr} {y : List OutMsg}, z ≠ a →
      (∀ j ∈ i :: t, j.1 ≠ a) →
      ∀ j ∈ (y.map (fun o => (z, o))).map (fun m => (m.1, Item.msg m.2)) ++ t, j.1 ≠ a := by
    intro i t z y hz h j hj
    rcases List.mem_append.1 hj with hj | hj
    · obtain ⟨m, hm, rfl⟩ := List.mem_map.1 hj
      obtain ⟨o, _, rfl⟩ := List.mem_map.1 hm
      exact hz
    · exact h j (List.mem_cons_of_mem _ hj)
  have more : ∀ {k k' : Bank} {src dst : Addr} {f : List Coin}, pay k src dst f = .ok k' → src ≠ a → k a d ≤ k' a d := by
    intro k k' src dst f hp hs
    have := pay_moves hp a d
    rw [if_neg (fun e => hs e.symm)] at this
    omega
  have still : ∀ {hooks : Contracts} {z : Addr} {c c' : Contract}, hooks a = none → hooks z = some c →
      z ≠ a ∧ store hooks z c' a = none := by
    intro hooks z c c' h1 h2
    have hz : z ≠ a := by
      rintro rfl
      rw [h1] at h2
      cases h2
    exact ⟨hz, by simp [store, hz.symm, h1]⟩
  induction h with
  | done s => exact Nat.le_refl _
  | @msg _ x _ src o _ h _ ih =>
    have hs := hl _ List.mem_cons_self
    cases o with
    | execute dst p f =>
      cases p with
      | postDispatch md b =>
        obtain ⟨k, c, c', msgs, h3, h4, h5, rfl⟩ := step_execute h
        obtain ⟨hz, hc'⟩ := still (c' := c') hc h4
        exact Nat.le_trans (more h3 hs) (ih hc' (tail hz hl))
      | _ => cases h
    | bankSend dst f =>
      obtain ⟨k, h3, rfl⟩ := step_bankSend h
      exact Nat.le_trans (more h3 hs) (ih hc (fun j hj => hl j (List.mem_cons_of_mem _ hj)))
    | _ => cases h
  | box h _ ih =>
    have hs := hl _ List.mem_cons_self
    obtain ⟨k, b, r, h1, _, rfl⟩ := callBox_ok h
    exact Nat.le_trans (more h1 hs) (ih hc (tail (fun e => hb e.symm) hl))
  | hook h _ ih =>
    have hs := hl _ List.mem_cons_self
    obtain ⟨k, c, c', r, h1, h2, _, rfl⟩ := callContract_ok h
    obtain ⟨hz, hc'⟩ := still (c' := c') hc h2
    exact Nat.le_trans (more h1 hs) (ih hc' (tail hz hl))
  | foreign l hn _ hp hl' _ ih =>
    have hs := hl _ List.mem_cons_self
    refine Nat.le_trans (more hp hs) (ih hc ?_)
    intro j hj
    rcases List.mem_append.1 hj with hj | hj
    · obtain ⟨e, hd⟩ := hl' j hj
      rw [e]
      rintro rfl
      exact hP hd
    · exact hl j (List.mem_cons_of_mem _ hj)

end Hpl
