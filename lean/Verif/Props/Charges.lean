import Verif.Props.HookMoney
import Verif.Spec.Charges

/-! # C103: hooks that charge are paid -/

namespace Hpl

open HookSystem Spec

variable {W : World}

theorem routesTo_unique {hooks : Contracts} {h x y : Addr} {d : UInt32} {r : Bytes} (h1 : RoutesTo hooks h d r x)
    (h2 : RoutesTo hooks h d r y) : x = y := by
  cases h1 with
  | routing hs hx =>
    rw [routesTo_routing hs] at h2
    exact Option.some.inj (hx.symm.trans h2)
  | fallbackRoute hs hf hx =>
    rw [routesTo_fallback hs hf, hx] at h2
    simpa [eq_comm] using h2
  | fallback hs hf hx =>
    rw [routesTo_fallback hs hf, hx] at h2
    simpa [eq_comm] using h2
  | custom hs hx =>
    rw [routesTo_custom hs, hx] at h2
    simpa [eq_comm] using h2
  | customRoute hs hn hx =>
    rw [routesTo_custom hs, hn, hx] at h2
    simpa [eq_comm] using h2

theorem not_ends_of_routes {hooks : Contracts} {h x : Addr} {d : UInt32} {r : Bytes} {c : Contract}
    (hx : RoutesTo hooks h d r x) (hc : hooks h = some c) (he : Ends c) : False := by
  obtain ⟨c', k1, k2, k3, k4, k5, k6⟩ := RoutesTo.kind hx
  rw [hc] at k1
  cases k1
  cases c with
  | merkle s => exact absurd rfl (k2 s)
  | fee s => exact absurd rfl (k3 s)
  | pausable s => exact absurd rfl (k4 s)
  | igp s => exact absurd rfl (k6 s)
  | _ => exact he

/-- The calls are determined by the arrangement of hooks. -/
theorem C103_calls_unique {hooks : Contracts} {b : Bytes} {h : Addr} {vs ws : List Addr} (h1 : Called hooks b h vs)
    (h2 : Called hooks b h ws) : vs = ws := by
  induction h1 generalizing ws with
  | ends hc he =>
    cases h2 with
    | ends _ _ => rfl
    | members ms hs _ _ => rw [hc] at hs; cases hs; cases he
    | route hx _ =>
      exact (not_ends_of_routes hx hc he).elim
  | @members h s ms hs hl hm ih =>
    cases h2 with
    | ends hc he => rw [hs] at hc; cases hc; cases he
    | members ms' hs' hl' hm' =>
      rw [hs] at hs'
      cases hs'
      have key : ∀ (l l' : List (Addr × List Addr)), l.map (·.1) = l'.map (·.1) → (∀ m ∈ l, m ∈ ms) → (∀ m ∈ l', m ∈ ms') →
          l.flatMap (·.2) = l'.flatMap (·.2) := by
        intro l
        induction l with
        | nil => intro l' e _ _; cases l' <;> simp_all
        | cons m t iht =>
          intro l' e u v
          cases l' with
          | nil => cases e
          | cons m' t' =>
            simp only [List.map_cons, List.cons.injEq] at e
            have e2 := hm' m' (v m' (by simp))
            rw [← e.1] at e2
            simp only [List.flatMap_cons, ih m (u m (by simp)) e2,
              iht t' e.2 (fun z hz => u z (by simp [hz])) (fun z hz => v z (by simp [hz]))]
      rw [key ms ms' (hl.symm.trans hl') (fun _ h => h) (fun _ h => h)]
    | route hx _ =>
      obtain ⟨c, k1, _, _, _, k5, _⟩ := RoutesTo.kind hx
      rw [hs] at k1
      cases k1
      exact absurd rfl (k5 _)
  | route hx hv ih =>
    cases h2 with
    | ends hc he =>
      exact (not_ends_of_routes hx hc he).elim
    | members ms hs _ _ =>
      obtain ⟨c, k1, _, _, _, k5, _⟩ := RoutesTo.kind hx
      rw [hs] at k1
      cases k1
      exact absurd rfl (k5 _)
    | route hx' hv' =>
      obtain rfl := routesTo_unique hx hx'
      rw [ih hv']

theorem Alike.called {x y : Contracts} (h : Alike x y) {b : Bytes} {a : Addr} {vs : List Addr} (hc : Called x b a vs) :
    Called y b a vs := by
  induction hc with
  | @ends a c hc he =>
    rcases h a with e | ⟨s, t, _, e⟩
    · exact .ends (e ▸ hc) he
    · exact .ends e trivial
  | members ms hs hl _ ih => exact .members ms (h.same hs (by intro s; simp)) hl ih
  | route hx _ ih => exact .route (h.routesTo hx) ih

theorem Alike.oracleOf {x y : Contracts} (h : Alike x y) (n : Nat) : oracleOf x n = oracleOf y n := by
  induction n with
  | zero => rfl
  | succ n ih =>
    funext a d
    unfold HookSystem.oracleOf HookSystem.answerRate
    rw [ih]
    rcases h a with e | ⟨s, t, e1, e2⟩
    · rw [e]
    · rw [e1, e2]

theorem Alike.oracleAt {x y : Contracts} (h : Alike x y) : oracleAt x = oracleAt y := h.oracleOf 10

theorem Alike.charges {x y : Contracts} (h : Alike x y) {md b : Bytes} {a : Addr} {coins : List Coin}
    (hc : Charges x md b a coins) : Charges y md b a coins := by
  cases hc with
  | fee hs => exact .fee (h.same hs (by intro s; simp))
  | gas hs hq => exact .gas (h.same hs (by intro s; simp)) (h.oracleAt ▸ hq)

/-- A hook that charges keeps what it charges. -/
theorem step_charged {s : Sys} {src a : Addr} {md b : Bytes} {f coins : List Coin} {y : Sys × List (Addr × OutMsg)}
    (h : stepMsg W s src (.execute a (.postDispatch md b) f) = .ok y) (hc : Charges s.hooks md b a coins) (d : String) :
    pending a d y.2 + amountOf d coins ≤ amountOf d f := by
  obtain ⟨k, h1, h⟩ := bind_eq_ok.1 h
  obtain ⟨c, h2, h⟩ := bind_eq_ok.1 h
  obtain ⟨⟨c', r⟩, h3, hf⟩ := bind_eq_ok.1 h
  cases hf
  simp only [pending_map, if_true]
  have hat : s.hooks a = some c := by
    unfold contractAt at h2
    cases hx : s.hooks a with
    | none => rw [hx] at h2; cases h2
    | some z => rw [hx] at h2; cases h2; rfl
  cases hc with
  | fee hs =>
    rename_i x
    rw [hat] at hs
    cases hs
    obtain ⟨y, h4, hf⟩ := bind_eq_ok.1 h3
    cases hf
    rw [FeeHook.execute, execOwned_inr] at h4
    obtain ⟨p, h5, rfl⟩ := h4
    obtain ⟨⟨n, rfl, _, h6⟩, rfl⟩ := FeeHook.part_postDispatch.1 h5
    simp only [outflow, amountOf_one, Nat.zero_add]
    split_ifs <;> omega
  | gas hs hq =>
    rename_i x
    rw [hat] at hs
    cases hs
    obtain ⟨y, h4, hf⟩ := bind_eq_ok.1 h3
    cases hf
    rw [Igp.execute, execOwned_inr] at h4
    obtain ⟨p, h5, rfl⟩ := h4
    obtain ⟨r, h6, hf⟩ := bind_eq_ok.1 h5
    cases hf
    obtain ⟨m, hm, h7⟩ := bind_eq_ok.1 h6
    obtain ⟨g, hg, h8⟩ := bind_eq_ok.1 h7
    obtain ⟨n, q, rfl, _, h9, h10, rfl⟩ := Igp.payForGas_ok.1 h8
    obtain ⟨m', hm', e1⟩ := bind_eq_ok.1 hq
    rw [hm] at hm'
    cases hm'
    obtain ⟨gas, e2, e3⟩ := bind_eq_ok.1 e1
    obtain ⟨fees, e4, e5⟩ := bind_eq_ok.1 e3
    have hgas : gas = g.1 := by
      unfold Igp.quotedGas at e2
      unfold Igp.gasAndRefund at hg
      split at e2
      · rename_i hl
        rw [if_pos hl] at hg
        obtain ⟨_, _, hf⟩ := bind_eq_ok.1 hg
        cases hf
        cases e2
        rfl
      · rename_i hl
        rw [if_neg hl] at hg
        obtain ⟨md1, k1, hg⟩ := bind_eq_ok.1 hg
        obtain ⟨_, _, hg⟩ := bind_eq_ok.1 hg
        obtain ⟨_, _, hf⟩ := bind_eq_ok.1 hg
        obtain ⟨md2, k2, hf2⟩ := bind_eq_ok.1 e2
        rw [k1] at k2
        cases k2
        cases hf
        cases hf2
        rfl
    subst hgas
    have hqe : fees = q := Except.ok.inj (e4.symm.trans h9)
    subst hqe
    have hcoins : amountOf d coins = if x.2.gasToken = d then fees else 0 := by
      unfold Igp.feeCoins at e5
      split at e5
      · cases e5
        rename_i h0
        subst h0
        simp [amountOf]
      · split at e5
        · cases e5
          rw [amountOf_one]
        · cases e5
    rw [hcoins, amountOf_one]
    unfold Igp.refundMsgs
    split
    · simp only [outflow]
      split_ifs <;> omega
    · simp only [outflow, amountOf_one]
      split_ifs <;> omega

/-- Pending messages are post-dispatches of message `b` with metadata `md`, or refunds. -/
def SameMd (md b : Bytes) (l : List (Addr × OutMsg)) : Prop :=
  ∀ m ∈ l, (∃ dst f, m.2 = .execute dst (.postDispatch md b) f) ∨ ∃ dst f, m.2 = .bankSend dst f

theorem Posted.sameMd {s : Sys} {self : Addr} {md b : Bytes} {funds : List Coin} {c c' : Contract} {msgs : List OutMsg}
    (h : Posted W s self md b funds c c' msgs) : SameMd md b (msgs.map (fun o => (self, o))) := by
  intro m hm
  obtain ⟨o, ho, rfl⟩ := List.mem_map.1 hm
  cases h with
  | merkle _ _ => cases ho
  | fee => cases ho
  | pausable _ => cases ho
  | aggregate hf =>
    obtain ⟨p, hp, e⟩ := List.mem_map.1 ho
    exact .inl ⟨_, _, e.symm⟩
  | igp _ _ =>
    unfold Igp.refundMsgs at ho
    split at ho
    · cases ho
    · simp only [List.mem_singleton] at ho
      exact .inr ⟨_, _, ho⟩
  | route hn ha hr =>
    simp only [List.mem_singleton] at ho
    exact .inl ⟨_, _, ho⟩

/-- The hooks called by pending messages, message by message. -/
inductive CalledAll (hooks : Contracts) (b : Bytes) : List (Addr × OutMsg) → List (List Addr) → Prop where
  | nil : CalledAll hooks b [] []
  | call {src dst md f t vs vss} (h : Called hooks b dst vs) (ht : CalledAll hooks b t vss) :
      CalledAll hooks b ((src, .execute dst (.postDispatch md b) f) :: t) (vs :: vss)
  | send {src dst f t vss} (ht : CalledAll hooks b t vss) : CalledAll hooks b ((src, .bankSend dst f) :: t) vss

theorem CalledAll.split {hooks : Contracts} {b : Bytes} {l t : List (Addr × OutMsg)} {vss : List (List Addr)}
    (h : CalledAll hooks b (l ++ t) vss) : ∃ u v, vss = u ++ v ∧ CalledAll hooks b l u ∧ CalledAll hooks b t v := by
  induction l generalizing vss with
  | nil => exact ⟨[], vss, rfl, .nil, h⟩
  | cons m l ih =>
    cases h with
    | call h ht =>
      obtain ⟨u, v, rfl, h1, h2⟩ := ih ht
      exact ⟨_ :: u, v, rfl, .call h h1, h2⟩
    | send ht =>
      obtain ⟨u, v, rfl, h1, h2⟩ := ih ht
      exact ⟨u, v, rfl, .send h1, h2⟩

theorem CalledAll.alike {x y : Contracts} (h : Alike x y) {b : Bytes} {l : List (Addr × OutMsg)} {vss : List (List Addr)}
    (hc : CalledAll x b l vss) : CalledAll y b l vss := by
  induction hc with
  | nil => exact .nil
  | call hc _ ih => exact .call (h.called hc) ih
  | send _ ih => exact .send ih

theorem Posted.called {s : Sys} {self : Addr} {md b : Bytes} {funds : List Coin} {c c' : Contract} {msgs : List OutMsg}
    {hooks : Contracts} (h : Posted W s self md b funds c c' msgs) (hc : hooks self = some c) {vss : List (List Addr)}
    (ha : CalledAll hooks b (msgs.map (fun o => (self, o))) vss) : Called hooks b self (self :: vss.flatten) := by
  cases h with
  | merkle _ _ => cases ha; exact .ends hc trivial
  | fee => cases ha; exact .ends hc trivial
  | pausable _ => cases ha; exact .ends hc trivial
  | igp _ _ =>
    have : vss = [] := by
      unfold Igp.refundMsgs at ha
      split at ha
      · cases ha; rfl
      · cases ha with
        | send ht => cases ht; rfl
    subst this
    exact .ends hc trivial
  | route hn _ hr =>
    cases ha with
    | call h ht =>
      cases ht
      simpa using Called.route ((hr hooks hc _).2 rfl) h
  | @aggregate x fees hf =>
    have key : ∀ (l : List Addr) (fees : List (List Coin)) (vss : List (List Addr)), l.length = fees.length →
        CalledAll hooks b (((l.zip fees).map (fun p => OutMsg.execute p.1 (.postDispatch md b) p.2)).map (fun o => (self, o))) vss →
        ∃ ms : List (Addr × List Addr), l = ms.map (·.1) ∧ vss = ms.map (·.2) ∧ ∀ m ∈ ms, Called hooks b m.1 m.2 := by
      intro l
      induction l with
      | nil =>
        intro fees vss _ h
        cases h
        exact ⟨[], rfl, rfl, by simp⟩
      | cons a l ih =>
        intro fees vss hl h
        cases fees with
        | nil => cases hl
        | cons f fees =>
          cases h with
          | call h ht =>
            obtain ⟨ms, e1, e2, h3⟩ := ih fees _ (by simpa using hl) ht
            rename_i vs _
            refine ⟨(a, vs) :: ms, by rw [List.map_cons, ← e1], by rw [List.map_cons, ← e2], ?_⟩
            intro m hm
            rcases List.mem_cons.1 hm with rfl | hm
            · exact h
            · exact h3 m hm
    obtain ⟨ms, e1, rfl, h3⟩ := key x.2 fees vss hf ha
    have := Called.members ms hc e1 h3
    rwa [List.flatMap_def] at this

theorem run_charged {gas : Nat} {s s' : Sys} {l : List (Addr × OutMsg)} {md b : Bytes} (h : runMsgs W gas s l = .ok s')
    (hl : SameMd md b l) : ∃ vss, CalledAll s.hooks b l vss ∧ ∀ a coins d, Charges s.hooks md b a coins →
      s.bank a d + vss.flatten.count a * amountOf d coins ≤ s'.bank a d + pending a d l := by
  induction gas generalizing s l with
  | zero =>
    cases l with
    | nil => cases h; exact ⟨[], .nil, by simp⟩
    | cons m t => cases h
  | succ n ih =>
    cases l with
    | nil => cases h; exact ⟨[], .nil, by simp⟩
    | cons m t =>
      obtain ⟨src, o⟩ := m
      obtain ⟨y, h1, h2⟩ := bind_eq_ok.1 h
      have ht : SameMd md b t := fun m hm => hl m (List.mem_cons_of_mem _ hm)
      rcases hl (src, o) (by simp) with ⟨dst, f, e⟩ | ⟨dst, f, e⟩
      · simp only at e
        subst e
        have hch := fun coins d hc => step_charged h1 (coins := coins) hc d
        obtain ⟨k, c, c', msgs, h3, h4, h5, rfl⟩ := step_execute h1
        have hal := h5.alike h4
        obtain ⟨vss, i1, i2⟩ := ih h2 (by
          intro m hm
          rcases List.mem_append.1 hm with hm | hm
          · exact h5.sameMd m hm
          · exact ht m hm)
        obtain ⟨u, v, rfl, j1, j2⟩ := CalledAll.split (i1.alike hal.symm)
        refine ⟨(dst :: u.flatten) :: v, .call (h5.called h4 j1) j2, ?_⟩
        intro a coins d hc
        have e1 := i2 a coins d (hal.charges hc)
        have e2 := pay_moves h3 a d
        simp only [pending_append, pending_map, List.flatten_append, List.count_append] at e1
        simp only [pending_cons, outflow, Nat.add_zero, List.flatten_cons, List.count_append, List.count_cons, beq_iff_eq]
        by_cases hd : a = dst
        · subst hd
          have e3 := hch coins d hc
          simp only [pending_map, if_true] at e3
          simp only [if_true] at e1 e2 ⊢
          rw [Nat.add_mul] at e1
          rw [Nat.add_mul, Nat.add_mul, Nat.one_mul]
          split_ifs at e2 ⊢ <;> omega
        · have hd' : ¬ dst = a := fun e => hd e.symm
          simp only [if_neg hd, if_neg hd', Nat.add_zero, Nat.zero_add] at e1 e2 ⊢
          split_ifs at e2 ⊢ <;> omega
      · simp only at e
        subst e
        obtain ⟨k, h3, rfl⟩ := step_bankSend h1
        obtain ⟨vss, i1, i2⟩ := ih h2 ht
        refine ⟨vss, .send i1, ?_⟩
        intro a coins d hc
        have e1 := i2 a coins d hc
        have e2 := pay_moves h3 a d
        simp only [List.nil_append] at e1
        simp only [pending_cons, outflow, Nat.add_zero]
        split_ifs at e2 ⊢ <;> omega

theorem Alike.trans {x y z : Contracts} (h1 : Alike x y) (h2 : Alike y z) : Alike x z := by
  intro a
  rcases h1 a with e | ⟨s, t, e1, e2⟩
  · rw [e]
    exact h2 a
  · rcases h2 a with e | ⟨s', t', e3, e4⟩
    · exact .inr ⟨s, t, e1, e ▸ e2⟩
    · exact .inr ⟨s, t', e1, e4⟩

theorem run_alike {gas : Nat} {s s' : Sys} {l : List (Addr × OutMsg)} {md b : Bytes} (h : runMsgs W gas s l = .ok s')
    (hl : SameMd md b l) : Alike s.hooks s'.hooks := by
  induction gas generalizing s l with
  | zero =>
    cases l with
    | nil => cases h; exact fun a => .inl rfl
    | cons m t => cases h
  | succ n ih =>
    cases l with
    | nil => cases h; exact fun a => .inl rfl
    | cons m t =>
      obtain ⟨src, o⟩ := m
      obtain ⟨y, h1, h2⟩ := bind_eq_ok.1 h
      have ht : SameMd md b t := fun m hm => hl m (List.mem_cons_of_mem _ hm)
      rcases hl (src, o) (by simp) with ⟨dst, f, e⟩ | ⟨dst, f, e⟩
      · simp only at e
        subst e
        obtain ⟨k, c, c', msgs, h3, h4, h5, rfl⟩ := step_execute h1
        exact Alike.trans (h5.alike h4) (ih h2 (by
          intro m hm
          rcases List.mem_append.1 hm with hm | hm
          · exact h5.sameMd m hm
          · exact ht m hm))
      · simp only at e
        subst e
        obtain ⟨k, h3, rfl⟩ := step_bankSend h1
        exact ih (s := { s with bank := k }) h2 ht

theorem dispatch_alike {gas : Nat} {s s' : Sys} {sender : Addr} {funds : List Coin} {q : DispatchMsg}
    (h : HookSystem.dispatch W gas s sender funds q = .ok s') : Alike s.hooks s'.hooks := by
  obtain ⟨k, h1, h⟩ := bind_eq_ok.1 h
  obtain ⟨⟨box, r⟩, h2, h3⟩ := bind_eq_ok.1 h
  obtain ⟨h32, dflt, hook, required, fees, attached, rest, n, g1, g2, g3, g4, g5, g6, g7, g8, g9, rfl, rfl⟩ :=
    Mailbox.dispatch_ok.1 h2
  refine (run_alike (md := q.metadata.getD []) (b := requestMessage s.box h32 q) h3 ?_ :)
  intro m hm
  simp only [List.map_cons, List.map_nil, List.mem_cons, List.not_mem_nil, or_false] at hm
  rcases hm with rfl | rfl <;> exact .inl ⟨_, _, rfl⟩

/-- **C103.** Whatever hooks a mailbox has and however they are connected: the hooks a dispatch calls are determined by the
arrangement, and after the dispatch every fee hook and every paymaster has gained at least what it charges for this message, as many times
as it was called, whoever paid for it. So nobody gets a message past a hook that charges without its being paid. -/
theorem C103_hooks_are_paid {W : World} {gas : Nat} {s s' : Sys} {sender : Addr} {funds : List Coin} {q : DispatchMsg}
    (h : HookSystem.dispatch W gas s sender funds q = .ok s') :
    ∃ from32 required dflt vs ws, bech32ToH256 W.C sender = .ok from32 ∧ s.box.config.requiredHook = some required ∧
      s.box.config.defaultHook = some dflt ∧ Called s.hooks (requestMessage s.box from32 q) required vs ∧
      Called s.hooks (requestMessage s.box from32 q) (q.hook.getD dflt) ws ∧
      ∀ a coins d, Charges s.hooks (q.metadata.getD []) (requestMessage s.box from32 q) a coins →
        s.bank a d + (vs ++ ws).count a * amountOf d coins ≤ s'.bank a d + if a = sender then amountOf d funds else 0 := by
  obtain ⟨k, h1, h⟩ := bind_eq_ok.1 h
  obtain ⟨⟨box, r⟩, h2, h3⟩ := bind_eq_ok.1 h
  obtain ⟨h32, dflt, hook, required, fees, attached, rest, n, g1, g2, g3, g4, g5, g6, g7, g8, g9, rfl, rfl⟩ :=
    Mailbox.dispatch_ok.1 h2
  have hhook : hook = q.hook.getD dflt := by
    unfold Mailbox.getHookAddr at g4
    cases hq : q.hook with
    | none => rw [hq] at g4; cases g4; rfl
    | some a =>
      rw [hq] at g4
      obtain ⟨_, _, hf⟩ := bind_eq_ok.1 g4
      cases hf
      rfl
  subst hhook
  obtain ⟨vss, i1, i2⟩ := run_charged (md := q.metadata.getD []) (b := requestMessage s.box h32 q) h3 (by
    intro m hm
    simp only [List.map_cons, List.map_nil, List.mem_cons, List.not_mem_nil, or_false] at hm
    rcases hm with rfl | rfl <;> exact .inl ⟨_, _, rfl⟩)
  cases i1 with
  | call c1 t1 =>
    cases t1 with
    | call c2 t2 =>
      cases t2
      refine ⟨h32, required, dflt, _, _, g2, g5, g3, c1, c2, ?_⟩
      intro a coins d hc
      have e1 := i2 a coins d hc
      have e2 := pay_moves h1 a d
      rw [pending_map] at e1
      simp only [outflow, Nat.add_zero] at e1
      have e3 : Coins.amt attached d = amountOf d funds := Coins.tryFrom_ok g7 d
      have e4 := Coins.subAll_ok g8 d
      rw [Coins.amountOf_toVec] at e1
      simp only [List.flatten_cons, List.flatten_nil, List.append_nil] at e1
      split_ifs at e1 e2 ⊢ <;> omega

/-- **C103** (direct calls). The same for a call of a hook by anybody. -/
theorem C103_called_hooks_are_paid {W : World} {gas : Nat} {s s' : Sys} {sender hook : Addr} {md b : Bytes} {funds : List Coin}
    (h : callHook W gas s sender hook md b funds = .ok s') :
    ∃ vs, Called s.hooks b hook vs ∧ ∀ a coins d, Charges s.hooks md b a coins →
      s.bank a d + vs.count a * amountOf d coins ≤ s'.bank a d + if a = sender then amountOf d funds else 0 := by
  obtain ⟨vss, i1, i2⟩ := run_charged (md := md) (b := b) h (by
    intro m hm
    rw [List.mem_singleton.1 hm]
    exact .inl ⟨_, _, rfl⟩)
  cases i1 with
  | call c1 t1 =>
    cases t1
    refine ⟨_, c1, fun a coins d hc => ?_⟩
    have := i2 a coins d hc
    simpa [pending_cons, outflow, show pending a d [] = 0 from rfl] using this

/-! ### Examples -/

theorem Ex.toll_called (b : Bytes) : Called Ex.hookSys.hooks b "toll" ["toll"] :=
  .ends (c := .fee (Ownable.init Ex.alice, ⟨"uatom", 7⟩)) rfl trivial

theorem Ex.inner_called (b : Bytes) : Called Ex.hookSys.hooks b "inner" ["inner", "toll", "toll"] :=
  .members (s := (Ownable.init Ex.alice, ["toll", "toll"])) [("toll", ["toll"]), ("toll", ["toll"])] rfl rfl (by
    intro m hm
    simp only [List.mem_cons, List.not_mem_nil, or_false, or_self] at hm
    subst hm
    exact Ex.toll_called b)

/-- The default hook calls the paymaster once and the toll twice. -/
theorem Ex.hook_called (b : Bytes) : Called Ex.hookSys.hooks b "hook" ["hook", "igp", "gate", "inner", "toll", "toll"] :=
  .members (s := (Ownable.init Ex.alice, ["igp", "gate", "inner"]))
    [("igp", ["igp"]), ("gate", ["gate"]), ("inner", ["inner", "toll", "toll"])] rfl rfl (by
    intro m hm
    simp only [List.mem_cons, List.not_mem_nil, or_false] at hm
    rcases hm with rfl | rfl | rfl
    · exact .ends (c := .igp (Ownable.init Ex.alice,
        ⟨"osmo", "uosmo", 100, OMap.empty, Ex.alice, Router.setRoutes OMap.empty [(1, some "oracle")]⟩)) rfl trivial
    · exact .ends (c := .pausable (Ownable.init Ex.alice, false)) rfl trivial
    · exact Ex.inner_called b)

/-- Whatever alice attaches: if the dispatch through the default hook passes, the toll has been paid twice and the paymaster once. -/
example (gas : Nat) (funds : List Coin) (s' : Sys)
    (h : HookSystem.dispatch Ex.hookWorld gas Ex.hookSys Ex.alice funds Ex.request = .ok s') :
    14 ≤ s'.bank "toll" "uatom" ∧ 600 ≤ s'.bank "igp" "uosmo" := by
  obtain ⟨from32, required, dflt, vs, ws, h1, h2, h3, h4, h5, h6⟩ := C103_hooks_are_paid h
  have e : from32 = Ex.request.recipient := Except.ok.inj (h1.symm.trans (CustomHook.toOption_eq_some.1 (by decide +kernel)))
  subst e
  obtain rfl : "hook" = dflt := Option.some.inj h3
  obtain rfl := C103_calls_unique h5 (Ex.hook_called _)
  constructor
  · have := h6 "toll" _ "uatom" (.fee (s := (Ownable.init Ex.alice, ⟨"uatom", 7⟩)) rfl)
    rw [if_neg (by decide), show Ex.hookSys.bank "toll" "uatom" = 0 by decide, amountOf_one, if_pos rfl, List.count_append] at this
    have k : List.count "toll" ["hook", "igp", "gate", "inner", "toll", "toll"] = 2 := by decide
    rw [k] at this
    simp only at this
    omega
  · have := h6 "igp" [⟨"uosmo", 600⟩] "uosmo" (.gas (s := (Ownable.init Ex.alice,
        ⟨"osmo", "uosmo", 100, OMap.empty, Ex.alice, Router.setRoutes OMap.empty [(1, some "oracle")]⟩)) rfl
        (CustomHook.toOption_eq_some.1 (by decide +kernel)))
    rw [if_neg (by decide), show Ex.hookSys.bank "igp" "uosmo" = 0 by decide, amountOf_one, if_pos rfl, List.count_append] at this
    have k : List.count "igp" ["hook", "igp", "gate", "inner", "toll", "toll"] = 1 := by decide
    rw [k] at this
    simp only at this
    omega

/-- Such a dispatch passes. -/
example : ((HookSystem.dispatch Ex.hookWorld 20 Ex.hookSys Ex.alice [⟨"uatom", 14⟩, ⟨"uosmo", 700⟩] Ex.request).toOption.map
    (fun s => (s.bank "toll" "uatom", s.bank "igp" "uosmo"))) = some (14, 600) := by decide +kernel

/-- Bob, who calls the hook with no coins after alice has paid too much, still has the toll paid twice. -/
example : ∃ s s', Ex.overpaid = .ok s ∧ Ex.freeRide s = .ok s' ∧ s.bank "toll" "uatom" + 14 ≤ s'.bank "toll" "uatom" := by
  have h := C66_surplus_spent_by_others.2
  cases hs : Ex.overpaid with
  | error e => rw [hs] at h; cases h
  | ok s =>
    rw [hs, ok_bind] at h
    cases hs' : Ex.freeRide s with
    | error e => rw [hs'] at h; cases h
    | ok s' =>
      refine ⟨s, s', rfl, hs', ?_⟩
      obtain ⟨vs, h1, h2⟩ := C103_called_hooks_are_paid hs'
      have hal := dispatch_alike hs
      obtain rfl := C103_calls_unique h1 (hal.called (Ex.inner_called _))
      have := h2 "toll" _ "uatom" (hal.charges (.fee (s := (Ownable.init Ex.alice, ⟨"uatom", 7⟩)) rfl))
      rw [if_neg (by decide), amountOf_one, if_pos rfl,
        show List.count "toll" ["inner", "toll", "toll"] = 2 by decide] at this
      simpa using this

/-- A second paymaster that has the first one for its gas oracle charges the same price for the same gas. -/
example : let hooks := store Ex.hookContracts "second" (.igp (Ownable.init Ex.alice,
      ⟨"osmo", "uosmo", 100, OMap.empty, Ex.alice, Router.setRoutes OMap.empty [(1, some "igp")]⟩))
    ∃ coins, Charges hooks [] Ex.message.encode "second" coins ∧ amountOf "uosmo" coins = 600 :=
  ⟨[⟨"uosmo", 600⟩], .gas rfl (CustomHook.toOption_eq_some.1 (by decide +kernel)), by decide⟩

end Hpl
