import Verif.Lemmas.HookSystem
import Verif.Examples.HookSystem
import Verif.Props.Bech32
import Verif.Props.Hooks
import Verif.Props.Igp
import Verif.Props.Mailbox

/-! # Trees of hooks: C65, C66 -/

namespace Hpl

open Spec HookSystem

variable {W : World} {md b : Bytes} {hooks hooks' : Contracts}

/-! ### Quotes -/

theorem quoteFold_mono {q q' : Addr → Bytes → Bytes → Res (List Coin)}
    (h : ∀ a f, q a md b = .ok f → q' a md b = .ok f) {l : List Addr} {acc t : Coins}
    (hq : AggregateHook.quoteFold q md b acc l = .ok t) : AggregateHook.quoteFold q' md b acc l = .ok t := by
  induction l generalizing acc with
  | nil => exact hq
  | cons a l ih =>
    simp only [AggregateHook.quoteFold] at hq ⊢
    obtain ⟨f, h1, hq⟩ := bind_eq_ok.1 hq
    obtain ⟨acc', h2, hq⟩ := bind_eq_ok.1 hq
    rw [h a f h1, ok_bind, h2, ok_bind]
    exact ih hq

theorem quoteOf_succ {n : Nat} {a : Addr} {f : List Coin} (h : quoteOf hooks n a md b = .ok f) :
    quoteOf hooks (n + 1) a md b = .ok f := by
  induction n generalizing a f with
  | zero => cases h
  | succ n ih =>
    unfold quoteOf at h ⊢
    cases hc : hooks a with
    | none => rw [hc] at h; cases h
    | some c =>
      rw [hc] at h
      cases c with
      | aggregate s =>
        simp only [AggregateHook.quoteDispatch] at h ⊢
        obtain ⟨t, h1, h2⟩ := bind_eq_ok.1 h
        rw [quoteFold_mono (fun a f => ih) h1, ok_bind]
        exact h2
      | routing s =>
        simp only [RoutingHook.quoteDispatch] at h ⊢
        obtain ⟨t, h1, h2⟩ := bind_eq_ok.1 h
        rw [h1, ok_bind]
        exact ih h2
      | fallback s =>
        simp only [FallbackHook.quoteDispatch] at h ⊢
        obtain ⟨t, h1, h2⟩ := bind_eq_ok.1 h
        rw [h1, ok_bind]
        exact ih h2
      | custom s =>
        simp only [CustomHook.quoteDispatch] at h ⊢
        obtain ⟨t, h1, h2⟩ := bind_eq_ok.1 h
        rw [h1, ok_bind]
        exact ih h2
      | _ => exact h

/-- What the hook at `a` answers and does if it is a routing hook. -/
theorem routes_quote {a x : Addr} (hb : 77 ≤ b.length) (h : RoutesTo hooks a (destOf b) (recipientOf b) x) (n : Nat) :
    quoteOf hooks (n + 1) a md b = quoteOf hooks n x md b := by
  obtain ⟨m, hm⟩ := Message.decode_long hb
  obtain ⟨_, hd, hr⟩ := decode_fields hm
  unfold quoteOf
  cases h with
  | routing hs hx =>
    rw [hs]
    simp only [RoutingHook.quoteDispatch, RoutingHook.route, hm, ok_bind, hd, hx, RoutingHook.found]
    cases n <;> rfl
  | fallbackRoute hs hf hx =>
    rw [hs]
    simp only [FallbackHook.quoteDispatch, FallbackHook.route, FallbackHook.loadFallback, hm, ok_bind, hd, hx, hf,
      pure_eq_ok, Option.getD_some]
    cases n <;> rfl
  | fallback hs hf hx =>
    rw [hs]
    simp only [FallbackHook.quoteDispatch, FallbackHook.route, FallbackHook.loadFallback, hm, ok_bind, hd, hx, hf,
      pure_eq_ok, Option.getD_none]
    cases n <;> rfl
  | custom hs hx =>
    rw [hs]
    simp only [CustomHook.quoteDispatch, CustomHook.route, CustomHook.pick, hm, ok_bind, hd, hr, hx]
    cases n <;> rfl
  | customRoute hs hn hx =>
    rw [hs]
    simp only [CustomHook.quoteDispatch, CustomHook.route, CustomHook.pick, hm, ok_bind, hd, hr, hn, hx,
      RoutingHook.found]
    cases n <;> rfl

theorem routes_post {s : Sys} {a x src : Addr} {funds : List Coin} (hb : 77 ≤ b.length)
    (h : RoutesTo hooks a (destOf b) (recipientOf b) x) :
    ∃ c, hooks a = some c ∧ (∀ y, c ≠ .merkle y) ∧ HookSystem.postDispatch W s src a md b funds c =
      .ok (c, { msgs := [.execute x (.postDispatch md b) []] }) := by
  obtain ⟨m, hm⟩ := Message.decode_long hb
  obtain ⟨_, hd, hr⟩ := decode_fields hm
  cases h with
  | routing hs hx =>
    refine ⟨_, hs, by simp, ?_⟩
    simp only [HookSystem.postDispatch, RoutingHook.execute, execOwned, RoutingHook.part, RoutingHook.route, hm,
      ok_bind, hd, hx, RoutingHook.found, pure_eq_ok, forwardTo]
  | fallbackRoute hs hf hx =>
    refine ⟨_, hs, by simp, ?_⟩
    simp only [HookSystem.postDispatch, FallbackHook.execute, execOwned, FallbackHook.part, FallbackHook.route, hm,
      FallbackHook.loadFallback, ok_bind, hd, hx, hf, pure_eq_ok, forwardTo, Option.getD_some]
  | fallback hs hf hx =>
    refine ⟨_, hs, by simp, ?_⟩
    simp only [HookSystem.postDispatch, FallbackHook.execute, execOwned, FallbackHook.part, FallbackHook.route, hm,
      FallbackHook.loadFallback, ok_bind, hd, hx, hf, pure_eq_ok, forwardTo, Option.getD_none]
  | custom hs hx =>
    refine ⟨_, hs, by simp, ?_⟩
    simp only [HookSystem.postDispatch, CustomHook.execute, execOwned, CustomHook.part, CustomHook.route, hm,
      CustomHook.pick, ok_bind, hd, hr, hx, pure_eq_ok, forwardTo]
  | customRoute hs hn hx =>
    refine ⟨_, hs, by simp, ?_⟩
    simp only [HookSystem.postDispatch, CustomHook.execute, execOwned, CustomHook.part, CustomHook.route, hm,
      CustomHook.pick, ok_bind, hd, hr, hn, hx, pure_eq_ok, forwardTo, RoutingHook.found]

theorem feeCoins_one {t : String} {n : Nat} {c : Coin} (h : Igp.feeCoins t n = .ok [c]) : n ≠ 0 ∧ c = ⟨t, n⟩ := by
  unfold Igp.feeCoins at h
  split at h
  · cases h
  · rename_i h0
    split at h
    · cases h; exact ⟨h0, rfl⟩
    · cases h

/-- A gas payment of exactly the quote. -/
theorem igp_exact {C : Codec} {s : Ownable.State × Igp.State} {e : IgpEnv} {c : Coin} {src : Addr}
    (hq : Igp.quoteDispatch e.oracle s md b = .ok [c]) (hr : RefundFine md)
    (hC : ∀ raw : Bytes, raw.length = 20 ∨ raw.length = 32 → ∃ a, C.enc s.2.hrp raw = some a) :
    c.amount ≠ 0 ∧ Igp.execute C s ⟨e, src, [c], .inr (.postDispatch md b)⟩ = .ok (s, {}) := by
  unfold Igp.quoteDispatch at hq
  obtain ⟨m, hm, hq⟩ := bind_eq_ok.1 hq
  obtain ⟨gas, hg, hq⟩ := bind_eq_ok.1 hq
  obtain ⟨fees, hf, hq⟩ := bind_eq_ok.1 hq
  obtain ⟨h0, rfl⟩ := feeCoins_one hq
  refine ⟨h0, ?_⟩
  have hb : 77 ≤ b.length := (decode_fields hm).1
  have hacc : ∀ raw : Bytes, raw.length = 20 ∨ raw.length = 32 → ∃ a, accountOf C s.2.hrp raw = some a := by
    intro raw hr
    unfold accountOf
    by_cases h20 : raw.length = 20
    · rw [if_pos h20]; exact hC raw hr
    · have h32 : raw.length = 32 := by omega
      rw [if_neg h20, if_pos h32]
      split
      · exact hC _ (.inl (by rw [List.length_drop]; omega))
      · exact hC raw hr
  have hsend : ∃ a, accountOf C s.2.hrp (senderOf b) = some a :=
    hacc _ (.inr (by unfold senderOf; rw [List.length_take, List.length_drop]; omega))
  obtain ⟨dst, hto⟩ : ∃ dst, refundAccount C s.2.hrp md b = some dst := by
    unfold refundAccount namedRefund
    by_cases hn : 32 ≤ md.length ∧ ((md.drop 32).length = 20 ∨ (md.drop 32).length = 32)
    · rw [if_pos hn]
      simp only
      rw [if_neg]
      · exact hacc _ hn.2
      · intro hz
        refine hr ⟨?_, hz⟩
        rw [List.length_drop] at hn
        omega
    · rw [if_neg hn]; exact hsend
  have hgas : gas = gasIn md (Igp.gasFor s.2 m.dest) := by
    unfold Igp.quotedGas at hg
    unfold gasIn
    split at hg
    · rename_i hl
      rw [if_pos hl]; cases hg; rfl
    · rename_i hl
      rw [if_neg hl]
      rw [igpMeta_decode hl, ok_bind] at hg
      cases hg; rfl
  have hgr : Igp.gasAndRefund C s.2 md m = .ok (gas, dst) := (gasAndRefund_ok hm).2 ⟨hgas, hsend, hto⟩
  unfold Igp.execute
  rw [execOwned_inr]
  refine ⟨(s.2, {}), ?_, rfl⟩
  simp only [Igp.part, Igp.postDispatch, hm, ok_bind, hgr]
  rw [Igp.payForGas_ok.2 ⟨fees, fees, rfl, h0, hf, le_refl _, rfl⟩]
  simp [Igp.refundMsgs]

/-- The quotes of a tree in order are what its visits are to keep. -/
theorem settles_quote (hb : 77 ≤ b.length) {a : Addr} {vs : List Visit} (h : Settles W hooks md b a vs) {n : Nat}
    {f : List Coin} (hq : quoteOf hooks n a md b = .ok f) : Tidy f ∧ ∀ d, amountOf d f = keptBy d vs := by
  induction h generalizing n f with
  | merkle hs hm =>
    cases n with
    | zero => cases hq
    | succ n =>
      unfold quoteOf at hq; rw [hs] at hq; cases hq
      exact ⟨tidy_nil, fun d => by rw [keptBy_one]; rfl⟩
  | fee hs h0 =>
    cases n with
    | zero => cases hq
    | succ n =>
      unfold quoteOf at hq; rw [hs] at hq; cases hq
      exact ⟨tidy_one h0, fun d => by rw [keptBy_one]; rfl⟩
  | pausable hs hp =>
    cases n with
    | zero => cases hq
    | succ n =>
      unfold quoteOf at hq; rw [hs] at hq; cases hq
      exact ⟨tidy_nil, fun d => by rw [keptBy_one]; rfl⟩
  | @igp h s c hs hqi hr hc =>
    cases n with
    | zero => cases hq
    | succ n =>
      unfold quoteOf at hq; rw [hs] at hq
      simp only at hq
      rw [hqi] at hq; cases hq
      exact ⟨tidy_one (igp_exact (e := ⟨fun _ => true, fun _ => 0, oracleAt hooks⟩) (src := h) hqi hr hc).1,
        fun d => by rw [keptBy_one]⟩
  | @aggregate h s ms hs hl hm ih =>
    cases n with
    | zero => cases hq
    | succ n =>
      unfold quoteOf at hq; rw [hs] at hq
      simp only [AggregateHook.quoteDispatch] at hq
      obtain ⟨t, h1, hf⟩ := bind_eq_ok.1 hq
      obtain ⟨fees, h2, h3⟩ := AggregateHook.quoteFold_ok h1
      cases hf
      refine ⟨tidy_toVec (Coins.addAll_pos h3 Coins.pos_empty), ?_⟩
      intro d
      rw [Coins.amountOf_toVec, Coins.addAll_ok h3, Coins.amt_empty, Nat.zero_add]
      rw [hl] at h2
      clear h1 h3 hq hs hl hm t
      induction ms generalizing fees with
      | nil => cases h2; rfl
      | cons m ms ihm =>
        cases h2 with
        | cons g1 g2 =>
          rw [List.flatten_cons, amountOf_append, List.flatMap_cons, keptBy_append,
            (ih m (by simp) g1).2 d, ihm (fun x hx => ih x (by simp [hx])) _ g2]
  | route hx hv h0 ih =>
    cases n with
    | zero => cases hq
    | succ n =>
      rw [routes_quote hb hx] at hq
      exact ih hq

/-! ### Execution -/

/-- `s'` is the state after the visits `vs` paid by `src`. -/
structure Settled (s s' : Sys) (src : Addr) (vs : List Visit) : Prop where
  box : s'.box = s.box
  hooks : GrownBy s.hooks s'.hooks vs
  bank : ∀ x d, s'.bank x d + (if x = src then keptBy d vs else 0) = s.bank x d + keptAt x d vs
  room : ∀ n, Room s.hooks (vs.length + n) → Room s'.hooks n

theorem Settled.refl (s : Sys) (src : Addr) : Settled s s src [] :=
  ⟨rfl, .refl _, fun _ _ => by simp [keptBy, keptAt], fun n h => by simpa using h⟩

theorem Settled.trans {s s' s'' : Sys} {src : Addr} {u v : List Visit} (h1 : Settled s s' src u)
    (h2 : Settled s' s'' src v) : Settled s s'' src (u ++ v) := by
  refine ⟨h2.box.trans h1.box, h1.hooks.trans h2.hooks, ?_, ?_⟩
  · intro x d
    have e1 := h1.bank x d
    have e2 := h2.bank x d
    rw [keptBy_append, keptAt_append]
    split_ifs at e1 e2 ⊢ <;> omega
  · intro n h
    refine h2.room n (h1.room _ ?_)
    rw [List.length_append, Nat.add_assoc] at h
    exact h

theorem runMsgs_cons {gas : Nat} {s s' : Sys} {src : Addr} {o : OutMsg} {l t : List (Addr × OutMsg)}
    (h : stepMsg W s src o = .ok (s', l)) : runMsgs W (gas + 1) s ((src, o) :: t) = runMsgs W gas s' (l ++ t) := by
  simp only [runMsgs, h, ok_bind]

theorem store_self {a : Addr} {c : Contract} (h : hooks a = some c) : store hooks a c = hooks := by
  funext x
  unfold store
  split
  · rename_i e; rw [e, h]
  · rfl

/-- A message to a contract that is not a merkle hook and stays as it is. -/
theorem stepMsg_plain {s : Sys} {src a : Addr} {f : List Coin} {c : Contract} {k : Bank} {msgs : List OutMsg}
    (hc : s.hooks a = some c) (hk : pay s.bank src a f = .ok k)
    (hp : HookSystem.postDispatch W { s with bank := k } src a md b f c = .ok (c, { msgs := msgs })) :
    stepMsg W s src (.execute a (.postDispatch md b) f) =
      .ok ({ s with bank := k }, msgs.map (fun o => (a, o))) := by
  simp only [stepMsg, hk, ok_bind, contractAt, hc, hp, pure_eq_ok, store_self hc]

theorem settled_plain {s : Sys} {src a : Addr} {f g : List Coin} {c : Contract} {k : Bank}
    (hc : s.hooks a = some c) (hn : ∀ y, c ≠ .merkle y) (hfg : ∀ d, amountOf d f = amountOf d g)
    (hk : ∀ x d, k x d + (if x = src then amountOf d f else 0) = s.bank x d + (if x = a then amountOf d f else 0)) :
    Settled s { s with bank := k } src [(a, g)] := by
  refine ⟨rfl, ⟨?_, fun _ _ => rfl⟩, ?_, ?_⟩
  · intro x y hy
    refine ⟨y.tree, hy, ?_⟩
    rw [visitsOf_one, if_neg]
    · rfl
    · rintro rfl
      rw [hc] at hy
      exact hn y (Option.some.inj hy)
  · intro x d
    have := hk x d
    rw [keptBy_one, keptAt_one, ← hfg]
    exact this
  · intro n h x y hy
    obtain ⟨h1, h2⟩ := h x y hy
    exact ⟨h1, by omega⟩

theorem length_insertLoop {H : Bytes → Bytes} {l l' : List Bytes} {x : Bytes} {n : Nat}
    (h : Merkle.insertLoop H l x n = some l') : l'.length = l.length := by
  induction l generalizing x n l' with
  | nil => cases h
  | cons y t ih =>
    simp only [Merkle.insertLoop] at h
    split at h
    · cases h; rfl
    · cases ht : Merkle.insertLoop H t (H (y ++ x)) (n / 2) with
      | none => rw [ht] at h; cases h
      | some r =>
        rw [ht] at h
        cases h
        simp [ih ht]

theorem insert_room {H : Bytes → Bytes} {t : Merkle.Tree} {x : Bytes} (hl : t.branch.length = 32)
    (hc : t.count + 1 ≤ Merkle.maxLeaves) : ∃ t', Merkle.insert H t x = .ok t' ∧ t'.count = t.count + 1 ∧
      t'.branch.length = 32 := by
  unfold Merkle.insert
  rw [if_pos (by omega)]
  obtain ⟨bs, hbs⟩ := Merkle.insertLoop_some (H := H) t.branch x (t.count + 1) (by omega) (by
    rw [hl]; unfold Merkle.maxLeaves at hc; omega)
  rw [hbs]
  exact ⟨_, rfl, rfl, (length_insertLoop hbs).trans hl⟩

/-- A visit of a merkle hook. -/
theorem settled_merkle {s : Sys} {src a : Addr} {y : MerkleHook.State} (hc : s.hooks a = some (.merkle y))
    (hm : y.mailbox = W.mb) (hb : 77 ≤ b.length) (hlast : s.box.latest = some (W.H b)) (hr : Room s.hooks 1) :
    ∃ s', stepMsg W s src (.execute a (.postDispatch md b) []) = .ok (s', []) ∧ Settled s s' src [(a, [])] := by
  obtain ⟨m, hd⟩ := Message.decode_long hb
  obtain ⟨r1, r2⟩ := hr a y hc
  obtain ⟨t, h1, h2, h3⟩ := insert_room (H := W.H) (x := m.id W.H) r1 r2
  have hid : m.id W.H = W.H b := by
    unfold Message.id
    rw [(Message.decode_eq_ok.1 hd).1]
  have hx : MerkleHook.execute W.H y ⟨MerkleSystem.latestId W.mb s.box, md, b⟩ =
      .ok (⟨y.mailbox, t⟩, y.tree.count) := by
    simp only [MerkleHook.execute, MerkleSystem.latestId, hm, if_true, Mailbox.getLatestDispatchId, hlast, ok_bind, hd]
    rw [hid] at h1 ⊢
    simp only [decide_true, ensure_true, ok_bind, h1, pure_eq_ok]
  refine ⟨{ s with hooks := store s.hooks a (.merkle ⟨y.mailbox, t⟩) }, ?_, rfl, ⟨?_, ?_⟩, ?_, ?_⟩
  · simp only [stepMsg, pay, ok_bind, contractAt, hc, HookSystem.postDispatch, hx, pure_eq_ok, List.map_nil]
  · intro x z hz
    simp only [store]
    by_cases hxa : x = a
    · subst hxa
      rw [hc] at hz
      cases hz
      exact ⟨t, by simp, by rw [visitsOf_one, if_pos rfl, h2]⟩
    · exact ⟨z.tree, by rw [if_neg hxa]; exact hz, by rw [visitsOf_one, if_neg hxa]; rfl⟩
  · intro x hx
    simp only [store]
    rw [if_neg]
    rintro rfl
    exact hx _ hc
  · intro x d
    rw [keptBy_one, keptAt_one]
    simp
  · intro n hn x z hz
    simp only [store] at hz
    split at hz
    · rename_i hxa
      cases hz
      obtain ⟨g1, g2⟩ := hn a y hc
      simp only [List.length_cons, List.length_nil] at g2
      exact ⟨h3, by simp only; omega⟩
    · obtain ⟨g1, g2⟩ := hn x z hz
      exact ⟨g1, by omega⟩

/-- Post-dispatching a tree in order, with exactly its fees. -/
def Payable (W : World) (hooks : Contracts) (md b : Bytes) (a : Addr) (vs : List Visit) : Prop :=
  ∀ (s : Sys) (src : Addr) (f fees : List Coin) (us : List Visit), GrownBy hooks s.hooks us →
    quoteOf hooks W.depth a md b = .ok fees → Tidy f → (∀ d, amountOf d f = keptBy d vs) →
    (∀ d, amountOf d f ≤ s.bank src d) → Room s.hooks vs.length → s.box.latest = some (W.H b) →
    ∃ s' g, (∀ gas t, runMsgs W (gas + g) s ((src, .execute a (.postDispatch md b) f) :: t) = runMsgs W gas s' t) ∧
      Settled s s' src vs

/-- The messages of an aggregate hook. -/
theorem settle_list (hb : 77 ≤ b.length) {ms : List (Addr × List Visit)}
    (hs : ∀ m ∈ ms, Settles W hooks md b m.1 m.2) (hp : ∀ m ∈ ms, Payable W hooks md b m.1 m.2)
    {fees : List (List Coin)}
    (hf : List.Forall₂ (fun h f => quoteOf hooks W.depth h md b = .ok f) (ms.map (·.1)) fees)
    {s : Sys} {src : Addr} {us : List Visit} (hg : GrownBy hooks s.hooks us)
    (hc : ∀ d, keptBy d (ms.flatMap (·.2)) ≤ s.bank src d) (hr : Room s.hooks (ms.flatMap (·.2)).length)
    (hlast : s.box.latest = some (W.H b)) :
    ∃ s' g, (∀ gas t, runMsgs W (gas + g) s
        ((((ms.map (·.1)).zip fees).map (fun p => (src, OutMsg.execute p.1 (.postDispatch md b) p.2))) ++ t) =
          runMsgs W gas s' t) ∧ Settled s s' src (ms.flatMap (·.2)) := by
  induction ms generalizing fees s us with
  | nil => exact ⟨s, 0, fun gas t => by cases hf; simp, .refl s src⟩
  | cons m ms ih =>
    cases hf with
    | @cons _ f _ fees h1 h2 =>
      simp only [List.flatMap_cons] at hc hr ⊢
      obtain ⟨k1, k2⟩ := settles_quote hb (hs m (by simp)) h1
      obtain ⟨s1, g1, r1, e1⟩ := hp m (by simp) s src f f us hg h1 k1 k2
        (by intro d; have := hc d; rw [keptBy_append] at this; rw [k2]; omega)
        (fun x y hy => by
          obtain ⟨q1, q2⟩ := hr x y hy
          rw [List.length_append] at q2
          exact ⟨q1, by omega⟩) hlast
      obtain ⟨s2, g2, r2, e2⟩ := ih (fun x hx => hs x (by simp [hx])) (fun x hx => hp x (by simp [hx])) h2
        (s := s1) (hg.trans e1.hooks)
        (by
          intro d
          have q1 := hc d
          have q2 := e1.bank src d
          rw [if_pos rfl] at q2
          rw [keptBy_append] at q1
          omega)
        (e1.room _ (by rw [← List.length_append]; exact hr)) (by rw [e1.box]; exact hlast)
      refine ⟨s2, g2 + g1, ?_, e1.trans e2⟩
      intro gas t
      rw [← Nat.add_assoc, List.map_cons, List.zip_cons_cons, List.map_cons, List.cons_append]
      rw [r1, r2]

/-- Post-dispatching an aggregate hook with any coins: what its hooks want is paid from its account, which includes
the coins attached. -/
theorem settle_aggregate (hb : 77 ≤ b.length) {ms : List (Addr × List Visit)} {a : Addr}
    {x : Ownable.State × List Addr} (hx : hooks a = some (.aggregate x)) (hl : x.2 = ms.map (·.1))
    (hs : ∀ m ∈ ms, Settles W hooks md b m.1 m.2) (hp : ∀ m ∈ ms, Payable W hooks md b m.1 m.2)
    {fees : List Coin} (hq : quoteOf hooks W.depth a md b = .ok fees)
    {s : Sys} {src : Addr} {f : List Coin} {us : List Visit} (hg : GrownBy hooks s.hooks us) {k : Bank}
    (hk : pay s.bank src a f = .ok k) (hc : ∀ d, keptBy d (ms.flatMap (·.2)) ≤ k a d)
    (hr : Room s.hooks (ms.flatMap (·.2)).length) (hlast : s.box.latest = some (W.H b)) :
    ∃ s' g, (∀ gas t, runMsgs W (gas + g) s ((src, .execute a (.postDispatch md b) f) :: t) = runMsgs W gas s' t) ∧
      Settled { s with bank := k } s' a (ms.flatMap (·.2)) := by
  obtain ⟨fs, hfs⟩ : ∃ fs, List.Forall₂ (fun h f => quoteOf hooks W.depth h md b = .ok f) (ms.map (·.1)) fs := by
    cases hW : W.depth with
    | zero => rw [hW] at hq; cases hq
    | succ n =>
      rw [hW] at hq
      unfold quoteOf at hq
      rw [hx] at hq
      simp only [AggregateHook.quoteDispatch] at hq
      obtain ⟨t, h1, _⟩ := bind_eq_ok.1 hq
      obtain ⟨fs, h2, _⟩ := AggregateHook.quoteFold_ok h1
      rw [hl] at h2
      exact ⟨fs, h2.imp (fun _ _ h => quoteOf_succ h)⟩
  have hx' : s.hooks a = some (.aggregate x) := hg.same hx (by simp)
  obtain ⟨s', g, r, e⟩ := settle_list hb hs hp hfs (s := { s with bank := k }) (src := a) hg hc hr hlast
  refine ⟨s', g + 1, ?_, e⟩
  intro gas t
  have hpd : HookSystem.postDispatch W { s with bank := k } src a md b f (.aggregate x) = .ok (.aggregate x,
      { msgs := ((ms.map (·.1)).zip fs).map (fun p => .execute p.1 (.postDispatch md b) p.2) }) := by
    simp only [HookSystem.postDispatch]
    rw [show AggregateHook.execute x ⟨hookEnv W { s with bank := k }, src, f, .inr (.postDispatch md b)⟩ = .ok (x,
      { msgs := ((ms.map (·.1)).zip fs).map (fun p => .execute p.1 (.postDispatch md b) p.2) }) from by
        unfold AggregateHook.execute
        rw [execOwned_inr]
        refine ⟨_, AggregateHook.part_postDispatch.2 ⟨hb, fs, ?_, rfl⟩, ?_⟩
        · rw [hl]
          simp only [hookEnv]
          rw [hg.quoteOf]
          exact hfs
        · rw [← hl]]
    rfl
  rw [← Nat.add_assoc, runMsgs_cons (stepMsg_plain hx' hk hpd), List.map_map]
  exact r gas t

theorem settles_payable (hb : 77 ≤ b.length) {a : Addr} {vs : List Visit} (h : Settles W hooks md b a vs) :
    Payable W hooks md b a vs := by
  induction h with
  | @merkle a y hs hm =>
    intro s src f fees us hg hq ht hf hc hr hlast
    have : f = [] := tidy_eq_nil ht (fun d => by rw [hf, keptBy_one]; rfl)
    subst this
    obtain ⟨t, hy, _⟩ := hg.1 _ _ hs
    obtain ⟨s', h1, h2⟩ := settled_merkle (src := src) (md := md) hy hm hb hlast hr
    exact ⟨s', 1, fun gas t => by rw [runMsgs_cons h1]; rfl, h2⟩
  | @fee a y hs h0 =>
    intro s src f fees us hg hq ht hf hc hr hlast
    have : f = [y.2] := tidy_eq_one ht h0 (fun d => by rw [hf, keptBy_one])
    subst this
    have hy := hg.same hs (by simp)
    obtain ⟨k, h1, h2⟩ := pay_ok (dst := a) hc
    refine ⟨_, 1, fun gas t => ?_, settled_plain hy (by simp) (fun _ => rfl) h2⟩
    rw [runMsgs_cons (stepMsg_plain (msgs := []) hy h1 ?_)]
    · rfl
    · simp only [HookSystem.postDispatch]
      rw [show FeeHook.execute y ⟨hookEnv W { s with bank := k }, src, [y.2], .inr (.postDispatch md b)⟩ = .ok (y, {})
        from execOwned_inr.2 ⟨_, FeeHook.part_postDispatch.2 ⟨⟨_, rfl, h0, le_refl _⟩, rfl⟩, rfl⟩]
      rfl
  | @pausable a y hs h0 =>
    intro s src f fees us hg hq ht hf hc hr hlast
    have hy := hg.same hs (by simp)
    obtain ⟨k, h1, h2⟩ := pay_ok (dst := a) hc
    refine ⟨_, 1, fun gas t => ?_, settled_plain hy (by simp) (fun d => by rw [hf, keptBy_one]) h2⟩
    rw [runMsgs_cons (stepMsg_plain (msgs := []) hy h1 ?_)]
    · rfl
    · simp only [HookSystem.postDispatch]
      rw [show PausableHook.execute y ⟨hookEnv W { s with bank := k }, src, f, .inr (.postDispatch md b)⟩ = .ok (y, {})
        from execOwned_inr.2 ⟨_, PausableHook.part_postDispatch.2 ⟨h0, rfl⟩, rfl⟩]
      rfl
  | @igp a y c hs hqi hrf hC =>
    intro s src f fees us hg hq ht hf hc hr hlast
    have hy := hg.same hs (by simp)
    obtain ⟨h0, _⟩ := igp_exact (e := ⟨fun _ => true, fun _ => 0, oracleAt hooks⟩) (src := a) hqi hrf hC
    have : f = [c] := tidy_eq_one ht h0 (fun d => by rw [hf, keptBy_one])
    subst this
    obtain ⟨k, h1, h2⟩ := pay_ok (dst := a) hc
    refine ⟨_, 1, fun gas t => ?_, settled_plain hy (by simp) (fun _ => rfl) h2⟩
    rw [runMsgs_cons (stepMsg_plain (msgs := []) hy h1 ?_)]
    · rfl
    · simp only [HookSystem.postDispatch]
      rw [(igp_exact (e := igpEnv W { s with bank := k } a) (src := src)
        (by simp only [igpEnv]; rw [hg.oracleAt]; exact hqi) hrf hC).2]
      rfl
  | @aggregate a y ms hs hl hm ih =>
    intro s src f fees us hg hq ht hf hc hr hlast
    obtain ⟨k, h1, h2⟩ := pay_ok (dst := a) hc
    obtain ⟨s', g, r, e⟩ := settle_aggregate hb hs hl hm ih hq hg h1 (by
      intro d
      have := h2 a d
      have := hc d
      have := hf d
      by_cases hsa : a = src
      · subst hsa
        simp only [if_true] at *
        omega
      · simp only [hsa, if_true, if_false] at *
        omega) hr hlast
    refine ⟨s', g, r, e.box, e.hooks, ?_, e.room⟩
    intro x d
    have q1 := e.bank x d
    have q2 := h2 x d
    have q3 := hf d
    simp only at q1
    split_ifs at q1 q2 ⊢ <;> omega
  | @route a x vs hx hv h0 ih =>
    intro s src f fees us hg hq ht hf hc hr hlast
    have : f = [] := tidy_eq_nil ht (fun d => by rw [hf, keptBy_free h0])
    subst this
    have hq' : quoteOf hooks W.depth x md b = .ok fees := by
      cases hW : W.depth with
      | zero => rw [hW] at hq; cases hq
      | succ n =>
        rw [hW, routes_quote hb hx] at hq
        exact quoteOf_succ hq
    obtain ⟨c, hc1, hc2, hc3⟩ := routes_post (W := W) (md := md) (s := s) (src := src) (funds := []) hb hx
    obtain ⟨s', g, r, e⟩ := ih s a [] fees us hg hq' tidy_nil (fun d => by rw [keptBy_free h0]; rfl)
      (by intro d; simp) hr hlast
    refine ⟨s', g + 1, ?_, e.box, e.hooks, ?_, e.room⟩
    · intro gas t
      rw [← Nat.add_assoc, runMsgs_cons (stepMsg_plain (k := s.bank) (hg.same hc1 hc2) rfl hc3)]
      exact r gas t
    · intro y d
      have := e.bank y d
      rw [keptBy_free h0] at *
      simpa using this

theorem quoteOf_le {m n : Nat} (hmn : m ≤ n) {a : Addr} {f : List Coin} (h : quoteOf hooks m a md b = .ok f) :
    quoteOf hooks n a md b = .ok f := by
  induction hmn with
  | refl => exact h
  | step _ ih => exact quoteOf_succ ih

/-- A tree in order answers quotes if its fees fit into 128 bits and queries may be nested deep enough. -/
theorem settles_quotable (hb : 77 ≤ b.length) {a : Addr} {vs : List Visit} (h : Settles W hooks md b a vs)
    (hlim : ∀ d, keptBy d vs < 2 ^ 128) : ∃ n f, quoteOf hooks n a md b = .ok f := by
  induction h with
  | merkle hs hm => exact ⟨1, _, by unfold quoteOf; rw [hs]⟩
  | fee hs h0 => exact ⟨1, _, by unfold quoteOf; rw [hs]⟩
  | pausable hs hp => exact ⟨1, _, by unfold quoteOf; rw [hs]⟩
  | igp hs hq hr hc => exact ⟨1, _, by unfold quoteOf; rw [hs]; exact hq⟩
  | @aggregate a x ms hs hl hm ih =>
    have key : ∃ n fees, List.Forall₂ (fun h f => quoteOf hooks n h md b = .ok f) (ms.map (·.1)) fees ∧
        ∀ d, amountOf d fees.flatten = keptBy d (ms.flatMap (·.2)) := by
      clear hl hs
      induction ms with
      | nil => exact ⟨0, [], .nil, fun d => rfl⟩
      | cons m ms ihm =>
        simp only [List.flatMap_cons, keptBy_append] at hlim ⊢
        obtain ⟨n1, f, h1⟩ := ih m (by simp) (fun d => by have := hlim d; omega)
        obtain ⟨n2, fees, h2, h3⟩ := ihm (fun x hx => hm x (by simp [hx])) (fun x hx => ih x (by simp [hx]))
          (fun d => by have := hlim d; omega)
        refine ⟨max n1 n2, f :: fees, .cons (quoteOf_le (le_max_left _ _) h1)
          (h2.imp (fun _ _ h => quoteOf_le (le_max_right _ _) h)), ?_⟩
        intro d
        rw [List.flatten_cons, amountOf_append, h3, (settles_quote hb (hm m (by simp)) h1).2]
    obtain ⟨n, fees, h1, h2⟩ := key
    obtain ⟨t, ht⟩ := AggregateHook.quoteFold_isOk (acc := OMap.empty) h1 (by
      intro d
      rw [Coins.amt_empty, Nat.zero_add, h2]
      exact hlim d)
    refine ⟨n + 1, t.toVec, ?_⟩
    unfold quoteOf
    rw [hs]
    simp only [AggregateHook.quoteDispatch, hl, ht, ok_bind, pure_eq_ok]
  | @route a x vs hx hv h0 ih =>
    obtain ⟨n, f, hf⟩ := ih hlim
    exact ⟨n + 1, f, by rw [routes_quote hb hx]; exact hf⟩

theorem length_requestMessage {s : Mailbox.State} {from32 : Bytes} {q : DispatchMsg} (h1 : from32.length = 32)
    (h2 : q.recipient.length = 32) : 77 ≤ (requestMessage s from32 q).length := by
  unfold requestMessage
  rw [Message.length_encode _ h1 h2]
  omega

/-- **C65.** A mailbox whose required hook and whose hook for this request head trees of hooks in order, with visits `u`
and `v`. The mailbox answers a quote for the request, provided that the fees fit into 128 bits and queries may be nested
deep enough, and it is exactly what the visits are to keep. Dispatching the request with exactly this quote succeeds,
with all messages that follow from it: every visited hook ends up with exactly its fee, the sender pays exactly the
quote, no other account changes (in particular no mailbox, aggregate or routing hook keeps anything), every merkle
hook visited has inserted the message once per visit, and no other contract changes but the mailbox, which has counted
the message. -/
theorem C65_quote_pays_tree {W : World} {s : Sys} {sender : Addr} {q : DispatchMsg} {from32 : Bytes}
    {required dflt : Addr} {u v : List Visit}
    (hfrom : bech32ToH256 W.C sender = .ok from32) (hval : W.valid sender = true)
    (hto : q.recipient.length = 32) (hnonce : s.box.nonce.toNat + 1 < 2 ^ 32)
    (hreq : s.box.config.requiredHook = some required) (hdef : s.box.config.defaultHook = some dflt)
    (hown : ∀ a, q.hook = some a → W.valid a = true)
    (hu : Settles W s.hooks (q.metadata.getD []) (requestMessage s.box from32 q) required u)
    (hv : Settles W s.hooks (q.metadata.getD []) (requestMessage s.box from32 q) (q.hook.getD dflt) v) :
    (∃ n, ∀ depth, n ≤ depth → (∀ d, keptBy d (u ++ v) < 2 ^ 128) →
      ∃ total, quoteDispatch { W with depth := depth } s sender q = .ok total) ∧
    (∀ total, quoteDispatch W s sender q = .ok total →
      (∀ d, amountOf d total = keptBy d (u ++ v)) ∧
      ((∀ d, amountOf d total ≤ s.bank sender d) → Room s.hooks (u ++ v).length →
        ∃ s' n, (∀ gas, n ≤ gas → HookSystem.dispatch W gas s sender total q = .ok s') ∧
          (∀ x d, s'.bank x d + (if x = sender then amountOf d total else 0) = s.bank x d + keptAt x d (u ++ v)) ∧
          GrownBy s.hooks s'.hooks (u ++ v) ∧
          s'.box = { s.box with nonce := s.box.nonce + 1, latest := some (W.H (requestMessage s.box from32 q)) })) := by
  have hb := length_requestMessage (s := s.box) (Mailbox.length_bech32ToH256 hfrom) hto
  have hmsg : Mailbox.toMsg W.C q Mailbox.version s.box.nonce s.box.config.localDomain sender =
      .ok ⟨3, s.box.nonce, s.box.config.localDomain, from32, q.dest, q.recipient, q.body⟩ :=
    Mailbox.toMsg_ok.2 ⟨from32, hfrom, rfl⟩
  have hhook : Mailbox.getHookAddr W.valid q dflt = .ok (q.hook.getD dflt) := by
    unfold Mailbox.getHookAddr
    cases hq : q.hook with
    | none => rfl
    | some a => simp [hown a hq]
  refine ⟨?_, ?_⟩
  · by_cases hlim : ∀ d, keptBy d (u ++ v) < 2 ^ 128
    · simp only [keptBy_append] at hlim
      obtain ⟨n1, f1, h1⟩ := settles_quotable hb hu (fun d => by have := hlim d; omega)
      obtain ⟨n2, f2, h2⟩ := settles_quotable hb hv (fun d => by have := hlim d; omega)
      refine ⟨max n1 n2, ?_⟩
      intro depth hn _
      have k1 := quoteOf_le (le_trans (le_max_left n1 n2) hn) h1
      have k2 := quoteOf_le (le_trans (le_max_right n1 n2) hn) h2
      obtain ⟨t1, e1⟩ := settles_quote hb hu h1
      obtain ⟨t2, e2⟩ := settles_quote hb hv h2
      obtain ⟨b1, hb1⟩ := Coins.tryFrom_isOk.2 t2.1
      obtain ⟨b2, hb2⟩ := Coins.addAll_isOk (m := b1) (l := f1) (by
        intro d
        rw [Coins.tryFrom_ok hb1, e1, e2]
        have := hlim d
        unfold u128Lim
        omega)
      refine ⟨b2.toVec, ?_⟩
      unfold requestMessage at k1 k2
      simp only [HookSystem.quoteDispatch, Mailbox.quoteDispatch, boxEnv, hval, ensure_true, ok_bind, hmsg, hdef, hreq,
        Mailbox.expectSet, hhook, k1, k2, hb1, hb2, pure_eq_ok]
    · exact ⟨0, fun _ _ h => absurd h hlim⟩
  · intro total hq
    unfold HookSystem.quoteDispatch Mailbox.quoteDispatch at hq
    simp only [boxEnv, hval, ensure_true, ok_bind, hmsg, hdef, hreq, Mailbox.expectSet, hhook] at hq
    obtain ⟨f2, k2, hq⟩ := bind_eq_ok.1 hq
    obtain ⟨f1, k1, hq⟩ := bind_eq_ok.1 hq
    obtain ⟨b1, hb1, hq⟩ := bind_eq_ok.1 hq
    obtain ⟨b2, hb2, hq⟩ := bind_eq_ok.1 hq
    have hvec : b2.toVec = total := by simpa using hq
    clear hq
    obtain ⟨t1, e1⟩ := settles_quote hb hu k1
    obtain ⟨t2, e2⟩ := settles_quote hb hv k2
    have htot : ∀ d, amountOf d total = keptBy d (u ++ v) := by
      intro d
      rw [← hvec, Coins.amountOf_toVec, Coins.addAll_ok hb2 d, Coins.tryFrom_ok hb1 d, e1, e2, keptBy_append]
      omega
    refine ⟨htot, ?_⟩
    intro hbal hroom
    obtain ⟨k, p1, p2⟩ := pay_ok (dst := W.mb) hbal
    obtain ⟨att, hatt⟩ := Coins.tryFrom_isOk.2 (show DistinctDenoms total by
      rw [← hvec]; exact Coins.distinct_toVec _)
    obtain ⟨rest, hrest⟩ := Coins.subAll_isOk.2 (show ∀ d, amountOf d f1 ≤ Coins.amt att d by
      intro d
      rw [Coins.tryFrom_ok hatt, htot, keptBy_append, e1]
      omega)
    have hrv : ∀ d, amountOf d rest.toVec = keptBy d v := by
      intro d
      have g1 := Coins.subAll_ok hrest d
      have g2 := Coins.tryFrom_ok hatt d
      have g3 := htot d
      have g4 := e1 d
      rw [keptBy_append] at g3
      rw [Coins.amountOf_toVec]
      omega
    have hrt : Tidy rest.toVec := tidy_toVec (Coins.subAll_pos hrest (Coins.tryFrom_pos hatt))
    have hnn : (s.box.nonce + 1).toNat = s.box.nonce.toNat + 1 := by
      rw [UInt32.toNat_add]
      simp only [UInt32.reduceToNat]
      omega
    have hdis := (Mailbox.dispatch_ok (H := W.H) (C := W.C) (env := boxEnv W s.hooks) (s := s.box) (sender := sender)
      (funds := total) (m := q)).2 ⟨from32, dflt, q.hook.getD dflt, required, f1, att, rest, s.box.nonce + 1, hto,
        hfrom, hdef, hhook, hreq, k1, hatt, hrest, hnn, rfl, rfl⟩
    have hkmb : ∀ d, amountOf d total ≤ k W.mb d := by
      intro d
      have g1 := p2 W.mb d
      have g2 := hbal d
      by_cases h : W.mb = sender
      · rw [h] at g1 ⊢
        simp only [if_true] at g1
        omega
      · simp only [h, if_true, if_false] at g1
        omega
    obtain ⟨s1, g1, r1, d1⟩ := settles_payable hb hu
      { s with
        box := { s.box with
          nonce := s.box.nonce + 1
          latest := some (W.H (requestMessage s.box from32 q)) }
        bank := k } W.mb f1 f1 [] (.refl _) k1 t1 e1
      (by
        intro d
        have := hkmb d
        rw [htot, keptBy_append] at this
        simp only
        rw [e1]
        omega)
      (fun x y hy => by
        obtain ⟨q1, q2⟩ := hroom x y hy
        rw [List.length_append] at q2
        exact ⟨q1, by omega⟩) rfl
    obtain ⟨s2, g2, r2, d2⟩ := settles_payable hb hv s1 W.mb rest.toVec f2 _ d1.hooks k2 hrt hrv
      (by
        intro d
        have h1 := hkmb d
        have h2 := d1.bank W.mb d
        rw [if_pos rfl] at h2
        rw [htot, keptBy_append] at h1
        simp only at h2
        rw [hrv]
        omega)
      (d1.room _ (by rw [← List.length_append]; exact hroom)) (by rw [d1.box])
    refine ⟨s2, g2 + g1, ?_, ?_, d1.hooks.trans d2.hooks, by rw [d2.box, d1.box]⟩
    · intro gas hgas
      obtain ⟨m, rfl⟩ := Nat.exists_eq_add_of_le' hgas
      unfold HookSystem.dispatch
      rw [p1, ok_bind]
      simp only [Mailbox.execute]
      rw [hdis, ok_bind]
      simp only [List.map_cons, List.map_nil]
      rw [← Nat.add_assoc]
      have h1 := r1 (m + g2) [(W.mb, .execute (q.hook.getD dflt) (.postDispatch (q.metadata.getD [])
        (requestMessage s.box from32 q)) rest.toVec)]
      have h2 := r2 m []
      unfold requestMessage at h1 h2
      rw [show Mailbox.version = 3 from rfl, h1, h2]
      cases m <;> rfl
    · intro x d
      have h1 := (d1.trans d2).bank x d
      have h2 := p2 x d
      rw [← htot] at h1
      simp only at h1
      split_ifs at h1 h2 ⊢ <;> omega

theorem Ex.osmoEnc (raw : Bytes) (_ : raw.length = 20 ∨ raw.length = 32) :
    ∃ a, Bech.codec.enc "osmo" raw = some a :=
  C08_bech32_total "osmo" raw (by decide) (by decide) (by decide) (by decide)

/-- A tree of eight contracts: 600 uosmo for gas and 14 uatom of tolls. -/
example : ∃ s' n, (∀ gas, n ≤ gas → HookSystem.dispatch Ex.hookWorld gas Ex.hookSys Ex.alice
      [⟨"uatom", 14⟩, ⟨"uosmo", 600⟩] Ex.request = .ok s') ∧
    s'.bank Ex.alice "uosmo" = 400 ∧ s'.bank "toll" "uatom" = 14 ∧ s'.bank "hook" "uatom" = 0 := by
  have hq : quoteDispatch Ex.hookWorld Ex.hookSys Ex.alice Ex.request = .ok [⟨"uatom", 14⟩, ⟨"uosmo", 600⟩] := by
    exact CustomHook.toOption_eq_some.1 (by decide +kernel)
  obtain ⟨s', n, h1, h2, h3, h4⟩ := ((C65_quote_pays_tree (W := Ex.hookWorld) (s := Ex.hookSys) (sender := Ex.alice)
    (q := Ex.request) (from32 := Ex.request.recipient) (required := "req") (dflt := "hook")
    (CustomHook.toOption_eq_some.1 (by decide +kernel)) rfl
    (by decide) (by decide) rfl rfl (by intro a h; cases h) Ex.hookSys_req (Ex.hookSys_hook Ex.osmoEnc)).2 _ hq).2
    (by
      intro d
      simp only [Ex.hookSys, if_true]
      rw [amountOf_cons, amountOf_one]
      split_ifs <;> simp_all)
    (by
      intro a y hy
      simp only [Ex.hookSys, Ex.hookContracts] at hy
      split_ifs at hy
      all_goals first | (cases hy; done) | skip
      simp only [Option.some.injEq, Contract.merkle.injEq] at hy
      subst hy
      decide)
  refine ⟨s', n, h1, ?_, ?_, ?_⟩
  · have := h2 Ex.alice "uosmo"
    rw [if_pos rfl] at this
    have e1 : amountOf "uosmo" [⟨"uatom", 14⟩, ⟨"uosmo", 600⟩] = 600 := by decide
    have e2 : keptAt Ex.alice "uosmo" (Ex.visitsReq ++ Ex.visitsHook) = 0 := by decide
    have e3 : Ex.hookSys.bank Ex.alice "uosmo" = 1000 := by decide
    omega
  · have := h2 "toll" "uatom"
    rw [if_neg (by decide)] at this
    have e2 : keptAt "toll" "uatom" (Ex.visitsReq ++ Ex.visitsHook) = 14 := by decide
    have e3 : Ex.hookSys.bank "toll" "uatom" = 0 := by decide
    omega
  · have := h2 "hook" "uatom"
    rw [if_neg (by decide)] at this
    have e2 : keptAt "hook" "uatom" (Ex.visitsReq ++ Ex.visitsHook) = 0 := by decide
    have e3 : Ex.hookSys.bank "hook" "uatom" = 0 := by decide
    omega

/-! ### The account of an aggregate hook -/

theorem settles_leaf {a : Addr} {vs : List Visit} (h : Settles W hooks md b a vs) :
    ∀ v ∈ vs, ∀ x, hooks v.1 ≠ some (.aggregate x) := by
  induction h with
  | merkle hs _ => simp [hs]
  | fee hs _ => simp [hs]
  | pausable hs _ => simp [hs]
  | igp hs _ _ _ => simp [hs]
  | aggregate ms _ _ _ ih =>
    intro v hv
    obtain ⟨m, hm, hvm⟩ := List.mem_flatMap.1 hv
    exact ih m hm v hvm
  | route _ _ _ ih => exact ih

theorem runMsgs_succ {gas : Nat} {s s' : Sys} {l : List (Addr × OutMsg)} (h : runMsgs W gas s l = .ok s') :
    runMsgs W (gas + 1) s l = .ok s' := by
  induction gas generalizing s l with
  | zero =>
    cases l with
    | nil => exact h
    | cons x t => cases h
  | succ n ih =>
    cases l with
    | nil => exact h
    | cons x t =>
      obtain ⟨src, o⟩ := x
      simp only [runMsgs] at h
      obtain ⟨y, h1, h2⟩ := bind_eq_ok.1 h
      rw [runMsgs_cons (show stepMsg W s src o = .ok (y.1, y.2) from h1)]
      exact ih h2

theorem runMsgs_le {m n : Nat} (hmn : m ≤ n) {s s' : Sys} {l : List (Addr × OutMsg)} (h : runMsgs W m s l = .ok s') :
    runMsgs W n s l = .ok s' := by
  induction hmn with
  | refl => exact h
  | step _ ih => exact runMsgs_succ ih

/-- **C66**, full statement: an aggregate hook passes on exactly the coins it is called with. -/
def C66_full : Prop :=
  ∀ (W : World) (gas : Nat) (s s' : Sys) (sender a : Addr) (md b : Bytes) (funds : List Coin)
    (x : Ownable.State × List Addr), s.hooks a = some (.aggregate x) → sender ≠ a →
    callHook W gas s sender a md b funds = .ok s' → ∀ d, s'.bank a d = s.bank a d

/-- Alice dispatches through another hook than the default, with more than the quote of 14 uatom. -/
def Ex.overpaid : Res Sys := HookSystem.dispatch Ex.hookWorld 20 Ex.hookSys Ex.alice
  [⟨"uatom", 28⟩, ⟨"uosmo", 900⟩] { Ex.request with hook := some "inner" }

/-- Bob has nothing and calls the hook for the same message. -/
def Ex.freeRide (s : Sys) : Res Sys := callHook Ex.hookWorld 20 s "bob" "inner" []
  Ex.message.encode []

/-- The surplus of a dispatch stays with the aggregate hook, and whoever calls the hook next pays with it: bob's call,
without any coins, succeeds and pays the toll twice from what alice left there. -/
theorem C66_surplus_spent_by_others :
    (Ex.overpaid.toOption.map (fun s => (s.bank "inner" "uatom", s.bank "inner" "uosmo", s.bank "toll" "uatom")) =
      some (14, 900, 14)) ∧
    ((Ex.overpaid >>= Ex.freeRide).toOption.map
      (fun s => (s.bank "inner" "uatom", s.bank "inner" "uosmo", s.bank "toll" "uatom")) = some (0, 900, 28)) := by
  decide +kernel

/-- The claim fails. -/
theorem C66_full_refuted : ¬ C66_full := by
  intro hf
  obtain ⟨h1, h2⟩ := C66_surplus_spent_by_others
  cases hs : Ex.overpaid with
  | error e => rw [hs] at h1; cases h1
  | ok s =>
    rw [hs] at h1 h2
    rw [ok_bind] at h2
    have hc : (Ex.overpaid.toOption.bind (fun s => (s.hooks "inner").map (fun c => match c with
          | .aggregate _ => true
          | _ => false))) = some true := by decide +kernel
    rw [hs] at hc
    cases hs' : Ex.freeRide s with
    | error e => rw [hs'] at h2; cases h2
    | ok s' =>
      rw [hs'] at h2
      simp only [Except.toOption, Option.map_some, Option.some.injEq, Prod.mk.injEq] at h1 h2
      have hx : ∃ x, s.hooks "inner" = some (.aggregate x) := by
        have := hc
        simp only [Except.toOption, Option.bind_some] at this
        cases hi : s.hooks "inner" with
        | none => rw [hi] at this; cases this
        | some c =>
          rw [hi] at this
          cases c <;> first | exact ⟨_, rfl⟩ | (simp at this)
      obtain ⟨x, hx⟩ := hx
      have := hf _ _ _ _ _ _ _ _ _ x hx (by decide) hs' "uatom"
      omega

/-- **C66**, what does hold. Whoever calls an aggregate hook whose hooks are in order, with whatever coins: if its
account together with these coins covers the fees, then the call succeeds, its hooks keep exactly their fees, the caller
pays exactly the coins, and the difference is added to or taken from the account of the aggregate hook. So it passes on
what it is paid exactly if it is paid what it quotes. Missing: that any other payment is refused or returned, which is
false. -/
theorem C66_aggregate_account_partial {W : World} {s : Sys} {sender a : Addr} {md b : Bytes} {funds fees : List Coin}
    {vs : List Visit} {x : Ownable.State × List Addr} (hx : s.hooks a = some (.aggregate x))
    (hs : Settles W s.hooks md b a vs) (hq : quoteOf s.hooks W.depth a md b = .ok fees) (hb : 77 ≤ b.length)
    (hne : sender ≠ a) (hlast : s.box.latest = some (W.H b)) (hroom : Room s.hooks vs.length)
    (hbal : ∀ d, amountOf d funds ≤ s.bank sender d)
    (hcov : ∀ d, amountOf d fees ≤ s.bank a d + amountOf d funds) :
    (∀ d, amountOf d fees = keptBy d vs) ∧
    ∃ s' n, (∀ gas, n ≤ gas → callHook W gas s sender a md b funds = .ok s') ∧
      (∀ gas s'', callHook W gas s sender a md b funds = .ok s'' → s'' = s') ∧
      (∀ d, s'.bank a d + amountOf d fees = s.bank a d + amountOf d funds) ∧
      (∀ y d, y ≠ a → s'.bank y d + (if y = sender then amountOf d funds else 0) = s.bank y d + keptAt y d vs) ∧
      ((∀ d, s'.bank a d = s.bank a d) ↔ ∀ d, amountOf d funds = amountOf d fees) := by
  obtain ⟨t1, e1⟩ := settles_quote hb hs hq
  refine ⟨e1, ?_⟩
  obtain ⟨k, p1, p2⟩ := pay_ok (dst := a) hbal
  have hna : a ≠ sender := fun e => hne e.symm
  have hka : ∀ d, k a d = s.bank a d + amountOf d funds := by
    intro d
    have := p2 a d
    simpa [hna] using this
  have hleaf : ∀ d, keptAt a d vs = 0 := by
    intro d
    unfold keptAt
    rw [List.filter_eq_nil_iff.2]
    · rfl
    · intro v hv hva
      have hva' : v.1 = a := by simpa using hva
      exact settles_leaf hs v hv x (by rw [hva']; exact hx)
  have hms : ∃ ms : List (Addr × List Visit), x.2 = ms.map (·.1) ∧ vs = ms.flatMap (·.2) ∧
      ∀ m ∈ ms, Settles W s.hooks md b m.1 m.2 := by
    cases hs with
    | merkle hs _ => rw [hx] at hs; cases hs
    | fee hs _ => rw [hx] at hs; cases hs
    | pausable hs _ => rw [hx] at hs; cases hs
    | igp hs _ _ _ => rw [hx] at hs; cases hs
    | aggregate ms hs hl hm => rw [hx] at hs; cases hs; exact ⟨ms, hl, rfl, hm⟩
    | route hr _ _ => cases hr with
      | routing hs _ => rw [hx] at hs; cases hs
      | fallbackRoute hs _ _ => rw [hx] at hs; cases hs
      | fallback hs _ _ => rw [hx] at hs; cases hs
      | custom hs _ => rw [hx] at hs; cases hs
      | customRoute hs _ _ => rw [hx] at hs; cases hs
  obtain ⟨ms, hl, rfl, hm⟩ := hms
  obtain ⟨s', g, r, e⟩ := settle_aggregate hb hx hl hm (fun m h => settles_payable hb (hm m h)) hq (.refl _) p1
    (by intro d; rw [hka, ← e1]; exact hcov d) hroom hlast
  have hend : ∀ gas, g ≤ gas → callHook W gas s sender a md b funds = .ok s' := by
    intro gas hgas
    obtain ⟨m, rfl⟩ := Nat.exists_eq_add_of_le' hgas
    unfold callHook
    rw [r m []]
    cases m <;> rfl
  have hacc : ∀ d, s'.bank a d + amountOf d fees = s.bank a d + amountOf d funds := by
    intro d
    have := e.bank a d
    rw [if_pos rfl, hleaf, ← e1] at this
    simp only at this
    rw [hka] at this
    omega
  refine ⟨s', g, hend, ?_, hacc, ?_, ?_⟩
  · intro gas s'' h
    have h1 := runMsgs_le (le_max_left gas g) h
    have h2 := hend (max gas g) (le_max_right gas g)
    unfold callHook at h2
    rw [h1] at h2
    cases h2; rfl
  · intro y d hy
    have q1 := e.bank y d
    have q2 := p2 y d
    rw [if_neg hy] at q1 q2
    simp only at q1
    split_ifs at q2 ⊢ <;> omega
  · constructor
    · intro h d
      have := hacc d
      rw [h d] at this
      omega
    · intro h d
      have := hacc d
      rw [h d] at this
      omega

/-- Alice calls the inner aggregate hook with too much, and it keeps 6 uatom. -/
example : ∃ s' n, (∀ gas, n ≤ gas → callHook Ex.hookWorld gas
      { Ex.hookSys with box := { Ex.s1 with latest := some (toyHash Ex.message.encode) } } Ex.alice "inner" []
      Ex.message.encode [⟨"uatom", 20⟩] = .ok s') ∧ s'.bank "inner" "uatom" = 6 := by
  obtain ⟨_, s', n, h1, _, h2, _⟩ := C66_aggregate_account_partial (W := Ex.hookWorld)
    (s := { Ex.hookSys with box := { Ex.s1 with latest := some (toyHash Ex.message.encode) } }) (sender := Ex.alice)
    (a := "inner") (md := []) (b := Ex.message.encode) (funds := [⟨"uatom", 20⟩]) (fees := [⟨"uatom", 14⟩])
    (vs := [("toll", [⟨"uatom", 7⟩]), ("toll", [⟨"uatom", 7⟩])]) rfl
    (.aggregate [("toll", [("toll", [⟨"uatom", 7⟩])]), ("toll", [("toll", [⟨"uatom", 7⟩])])] rfl rfl (by
      simp only [List.mem_cons, List.not_mem_nil, or_false, forall_eq_or_imp, forall_eq]
      exact ⟨.fee (s := (Ownable.init Ex.alice, ⟨"uatom", 7⟩)) rfl (by decide),
        .fee (s := (Ownable.init Ex.alice, ⟨"uatom", 7⟩)) rfl (by decide)⟩))
    (CustomHook.toOption_eq_some.1 (by decide +kernel)) (by decide +kernel) (by decide) rfl
    (by
      intro a y hy
      simp only [Ex.hookSys, Ex.hookContracts] at hy
      split_ifs at hy
      all_goals first | (cases hy; done) | skip
      simp only [Option.some.injEq, Contract.merkle.injEq] at hy
      subst hy
      decide)
    (by
      intro d
      simp only [Ex.hookSys, if_true]
      rw [amountOf_one]
      split_ifs <;> simp)
    (by
      intro d
      rw [amountOf_one, amountOf_one]
      split_ifs
      · simp
      · simp)
  refine ⟨s', n, h1, ?_⟩
  have := h2 "uatom"
  have e1 : amountOf "uatom" [⟨"uatom", 20⟩] = 20 := by decide
  have e2 : amountOf "uatom" [⟨"uatom", 14⟩] = 14 := by decide
  have e3 : Ex.hookSys.bank "inner" "uatom" = 0 := by decide
  simp only at this
  omega

end Hpl
