import Verif.Lemmas.Isms
import Verif.Props.Mailbox
import Verif.Props.Multisig
import Mathlib.Data.List.Perm.Subperm

/-! # Aggregate, routing, pausable and nested ISMs: C40 - C44 -/

namespace Hpl

open Spec

/-! ## Aggregate -/

section

open AggregateIsm

theorem aggregate_handle_ok {valid : Addr → Bool} {own : Ownable.State} {s s' : AggregateIsm.State}
    {sender : Addr} {isms : List Addr} {t : UInt8}
    (h : AggregateIsm.handle valid own s sender (.setIsms isms t) = .ok s') :
    own.owner = some sender ∧ 1 ≤ t.toNat ∧ t.toNat ≤ isms.length ∧ s' = ⟨isms, t⟩ := by
  unfold AggregateIsm.handle at h
  obtain ⟨o, h1, h⟩ := bind_eq_ok.1 h
  obtain ⟨_, h2, h⟩ := bind_eq_ok.1 h
  obtain ⟨_, h3, h⟩ := bind_eq_ok.1 h
  obtain ⟨_, h4, h⟩ := bind_eq_ok.1 h
  obtain ⟨_, h5, hf⟩ := bind_eq_ok.1 h
  have h2 := of_decide_eq_true (ensure_eq_ok.1 h2)
  have h3 := of_decide_eq_true (ensure_eq_ok.1 h3)
  have h4 := of_decide_eq_true (ensure_eq_ok.1 h4)
  simp only [pure_eq_ok, Except.ok.injEq] at hf
  exact ⟨by rw [← h2]; exact Ownable.getOwner_eq_ok.1 h1, h3, h4, hf.symm⟩

theorem aggregate_instantiate_ok {valid : Addr → Bool} {owner : Addr} {isms : List Addr} {t : UInt8}
    {s0 : Ownable.State × AggregateIsm.State} (h : instantiate valid owner isms t = .ok s0) :
    s0 = (Ownable.init owner, ⟨isms, t⟩) := by
  unfold instantiate at h
  obtain ⟨_, _, h⟩ := bind_eq_ok.1 h
  obtain ⟨_, _, hf⟩ := bind_eq_ok.1 h
  cases hf
  rfl

/-- Some call of the history replaced the module list. -/
def Spec.Reconfigured (s0 : Ownable.State × AggregateIsm.State) (h : List (OwnedCall AggregateIsm.Msg)) : Prop :=
  ∃ h1 c h2 m s', h = h1 ++ c :: h2 ∧ c.msg = .inr m ∧ step (run step s0 h1) c = .ok s'

/-- The configuration is the initial one, or one with threshold between one and the number of modules. -/
theorem aggregate_inv (s0 : Ownable.State × AggregateIsm.State) (h : List (OwnedCall AggregateIsm.Msg)) :
    ((run step s0 h).2 = s0.2 ∧ ¬ Reconfigured s0 h) ∨
    (1 ≤ (run step s0 h).2.threshold.toNat ∧
      (run step s0 h).2.threshold.toNat ≤ (run step s0 h).2.isms.length) := by
  induction h using List.reverseRecOn with
  | nil => exact .inl ⟨rfl, by rintro ⟨_, _, _, _, _, h, _⟩; simp at h⟩
  | append_singleton t c ih =>
    rw [run_snoc]
    have key : ∀ (hfail : ∀ m s', c.msg = .inr m → step (run step s0 t) c ≠ .ok s'),
        ¬ Reconfigured s0 t → ¬ Reconfigured s0 (t ++ [c]) := by
      rintro hfail hn ⟨h1, d, h2, m, s', e1, e2, e3⟩
      rcases List.eq_nil_or_concat' h2 with rfl | ⟨g, y, rfl⟩
      · obtain ⟨rfl, e4⟩ := List.append_inj' e1 rfl
        cases e4
        exact hfail m s' e2 e3
      · have e1' : t ++ [c] = (h1 ++ d :: g) ++ [y] := by rw [e1]; simp
        obtain ⟨rfl, _⟩ := List.append_inj' e1' rfl
        exact hn ⟨h1, d, g, m, s', rfl, e2, e3⟩
    rcases applyCall_cases step (run step s0 t) c with ⟨e, he, ha⟩ | ⟨s', hs, ha⟩
    · rw [ha]
      rcases ih with ⟨i1, i2⟩ | i
      · exact .inl ⟨i1, key (fun m s' _ h => by rw [he] at h; cases h) i2⟩
      · exact .inr i
    · rw [ha]
      rcases ownedStep_ok _ hs with ⟨m, hm, _, h2⟩ | ⟨m, hm, h2, _⟩
      · rw [h2]
        rcases ih with ⟨i1, i2⟩ | i
        · exact .inl ⟨i1, key (fun m' s' h _ => by rw [hm] at h; cases h) i2⟩
        · exact .inr i
      · obtain ⟨isms, th⟩ := m
        obtain ⟨_, k1, k2, k3⟩ := aggregate_handle_ok h2
        rw [k3]
        exact .inr ⟨k1, k2⟩

/-- **C40** as claimed: in every reachable state a positive answer is backed by at least threshold and at least one
approvals. -/
def C40_full : Prop := ∀ (V : Verifier) (valid : Addr → Bool) (owner : Addr) (isms : List Addr) (t : UInt8)
    (s0 : Ownable.State × AggregateIsm.State) (h : List (OwnedCall AggregateIsm.Msg)) (metadata message : Bytes),
    instantiate valid owner isms t = .ok s0 → verify V (run step s0 h).2 metadata message = .ok true →
    ∃ q, 1 ≤ q.length ∧ (run step s0 h).2.threshold.toNat ≤ q.length ∧
      Approvals V metadata message (run step s0 h).2.isms q

/-- It fails: the initial threshold is not checked, and with threshold zero a module that rejects everything makes
the aggregate approve. -/
theorem C40_full_refuted : ¬ C40_full := by
  intro h
  obtain ⟨q, h1, _, _, h3⟩ := h (fun _ _ _ => .ok false) (fun _ => true) "owner" ["ism"] 0
    (Ownable.init "owner", ⟨["ism"], 0⟩) [] [0, 0, 0, 8, 0, 0, 0, 8] [] (by decide +kernel) (by decide +kernel)
  cases q with
  | nil => simp at h1
  | cons a t =>
    obtain ⟨_, p, _, hp⟩ := h3 a (by simp)
    cases hp

/-- **C40** (what does hold). If the module was instantiated with a threshold of at least one, or its module list was
ever replaced, then a positive answer is backed by exactly threshold many, and at least one, different configured
modules, each having approved this message with the metadata part at its position. Missing: modules instantiated with
threshold zero and never reconfigured, for which it is false. -/
theorem C40_aggregate_sound_partial {V : Verifier} {valid : Addr → Bool} {owner : Addr} {isms : List Addr}
    {t : UInt8} {s0 : Ownable.State × AggregateIsm.State} (h : List (OwnedCall AggregateIsm.Msg))
    {metadata message : Bytes} (h0 : instantiate valid owner isms t = .ok s0)
    (hpos : 1 ≤ t.toNat ∨ Reconfigured s0 h)
    (hv : verify V (run step s0 h).2 metadata message = .ok true) :
    ∃ q, 1 ≤ q.length ∧ q.length = (run step s0 h).2.threshold.toNat ∧
      Approvals V metadata message (run step s0 h).2.isms q := by
  have ht : 1 ≤ (run step s0 h).2.threshold.toNat := by
    rcases aggregate_inv s0 h with ⟨i1, i2⟩ | ⟨i, _⟩
    · rcases hpos with hp | hp
      · rw [i1, aggregate_instantiate_ok h0]; exact hp
      · exact absurd hp i2
    · exact i
  obtain ⟨q, q1, q2⟩ := verify_sound (Multisig.u8_ne_zero.2 ht) hv
  exact ⟨q, by omega, q1, q2⟩

/-- What happens with threshold zero: approval without any module if there is none; otherwise the module with the
least address decides, and the wrong way round: if it rejects, the aggregate approves, if it approves, the query
panics. -/
theorem C40_zero_threshold {V : Verifier} {isms : List Addr} {metadata message : Bytes} :
    (isms = [] → verify V ⟨isms, 0⟩ metadata message = .ok true) ∧
    (∀ a p, (∀ i, i < isms.length → ∃ p, PartAt metadata i p) → (∀ b ∈ isms, a ≤ b) →
      PartFor metadata isms a p →
      (V a p message = .ok false → verify V ⟨isms, 0⟩ metadata message = .ok true) ∧
      (V a p message = .ok true → ∃ e, verify V ⟨isms, 0⟩ metadata message = .error (.panic e))) := by
  refine ⟨?_, ?_⟩
  · rintro rfl; rfl
  · intro a p hp hle hpart
    obtain ⟨m, hm⟩ := AggregateMeta.fromHex_total hp
    obtain ⟨g1, g2⟩ := AggregateMeta.fromHex_ok hm
    obtain ⟨rest, hr⟩ : ∃ rest, m.entries = (a, p) :: rest := by
      have hmem := (g1 a p).2 hpart
      have hs := m.sorted
      cases he : m.entries with
      | nil => rw [he] at hmem; cases hmem
      | cons x rest =>
        obtain ⟨b, q⟩ := x
        rw [he] at hmem hs
        rcases List.mem_cons.1 hmem with hx | hx
        · cases hx; exact ⟨rest, rfl⟩
        · have h1 : b < a := (List.pairwise_cons.1 hs).1 _ hx
          have hb : b ∈ isms := (g2 b).1 (List.mem_map.2 ⟨(b, q), by rw [he]; simp, rfl⟩)
          exact absurd h1 (not_lt.2 (hle b hb))
    constructor
    · intro hv
      refine verify_ok.2 ⟨m, 0, hm, ?_, rfl⟩
      rw [hr]
      simp [loop, hv, lower]
    · intro hv
      refine ⟨"sub overflow", ?_⟩
      unfold verify
      rw [hm, ok_bind, hr]
      simp [loop, hv, lower, Multisig.pred]

/-- **C41** as claimed: if every configured module has a metadata part and answers, the aggregate answers, and
positively exactly when at least threshold many different modules approve. -/
def C41_full : Prop := ∀ (V : Verifier) (valid : Addr → Bool) (owner : Addr) (isms : List Addr) (t : UInt8)
    (s0 : Ownable.State × AggregateIsm.State) (h : List (OwnedCall AggregateIsm.Msg)) (metadata message : Bytes),
    instantiate valid owner isms t = .ok s0 →
    (∀ i, i < (run step s0 h).2.isms.length → ∃ p, PartAt metadata i p) →
    (∀ a p, PartFor metadata (run step s0 h).2.isms a p → ∃ b, V a p message = .ok b) →
    ∃ b, verify V (run step s0 h).2 metadata message = .ok b ∧
      (b = true ↔ ∃ q, (run step s0 h).2.threshold.toNat ≤ q.length ∧
        Approvals V metadata message (run step s0 h).2.isms q)

/-- It fails for threshold zero: one approving module makes the query panic. -/
theorem C41_full_refuted : ¬ C41_full := by
  intro h
  obtain ⟨b, h1, _⟩ := h (fun _ _ _ => .ok true) (fun _ => true) "owner" ["ism"] 0
    (Ownable.init "owner", ⟨["ism"], 0⟩) [] [0, 0, 0, 8, 0, 0, 0, 8] [] (by decide +kernel)
    (by
      intro i hi
      have : i = 0 := by simpa using hi
      subst this
      exact ⟨[], by simp, 8, 8, by decide +kernel, by decide +kernel, by simp, by simp, by simp⟩)
    (fun _ _ _ => ⟨true, rfl⟩)
  have h2 : verify (fun _ _ _ => .ok true) ⟨["ism"], 0⟩ [0, 0, 0, 8, 0, 0, 0, 8] [] =
      .error (.panic "sub overflow") := by decide +kernel
  rw [run_nil, h2] at h1
  cases h1

/-- **C41** (what does hold): the claim for thresholds of at least one, whatever the state. Missing: threshold zero,
see `C40_zero_threshold`. -/
theorem C41_aggregate_complete_partial {V : Verifier} {s : AggregateIsm.State} {metadata message : Bytes}
    (ht : 1 ≤ s.threshold.toNat) (hp : ∀ i, i < s.isms.length → ∃ p, PartAt metadata i p)
    (hans : ∀ a p, PartFor metadata s.isms a p → ∃ b, V a p message = .ok b) :
    ∃ b, verify V s metadata message = .ok b ∧
      (b = true ↔ ∃ q, s.threshold.toNat ≤ q.length ∧ Approvals V metadata message s.isms q) := by
  obtain ⟨m, hm⟩ := AggregateMeta.fromHex_total hp
  obtain ⟨g1, g2⟩ := AggregateMeta.fromHex_ok hm
  obtain ⟨r, hr, hc⟩ := loop_count (V := V) (message := message) (es := m.entries)
    (Multisig.u8_ne_zero.2 ht) (fun a p h => hans a p ((g1 a p).1 h))
  refine ⟨decide (r = 0), verify_ok.2 ⟨m, r, hm, hr, rfl⟩, ?_⟩
  have hz : r = 0 ↔ r.toNat = 0 := by
    rw [← UInt8.toNat_inj]; rfl
  rw [decide_eq_true_eq, hz, hc]
  let es := m.entries.filter (fun x => decide (V x.1 x.2 message = .ok true))
  have hes : ∀ x, x ∈ es ↔ x ∈ m.entries ∧ V x.1 x.2 message = .ok true := by
    intro x; simp [es]
  have hnd : (es.map (·.1)).Nodup := List.Nodup.sublist (List.Sublist.map _ List.filter_sublist) m.keys_nodup
  constructor
  · intro h
    refine ⟨es.map (·.1), by rw [List.length_map]; exact Nat.sub_eq_zero_iff_le.1 h, hnd, ?_⟩
    intro a ha
    obtain ⟨⟨b, p⟩, hx, rfl⟩ := List.mem_map.1 ha
    obtain ⟨h1, h2⟩ := (hes _).1 hx
    exact ⟨(g2 b).1 (List.mem_map.2 ⟨_, h1, rfl⟩), p, (g1 b p).1 h1, h2⟩
  · rintro ⟨q, q1, q2, q3⟩
    have hsub : q ⊆ es.map (·.1) := by
      intro a ha
      obtain ⟨_, p, hp, hv⟩ := q3 a ha
      exact List.mem_map.2 ⟨(a, p), (hes _).2 ⟨(g1 a p).2 hp, hv⟩, rfl⟩
    have := (List.Nodup.subperm q2 hsub).length_le
    rw [List.length_map] at this
    exact Nat.sub_eq_zero_iff_le.2 (Nat.le_trans q1 this)

/-- Two of three modules approve; threshold two. The parts are given out of order and share bytes. -/
def Ex.aggMeta : Bytes := [0, 0, 0, 24, 0, 0, 0, 26, 0, 0, 0, 25, 0, 0, 0, 27, 0, 0, 0, 24, 0, 0, 0, 24, 1, 2, 3]
def Ex.aggV : Verifier := fun a p _ => .ok (decide (a = "z" ∧ p = [1, 2]) || decide (a = "x" ∧ p = [2, 3]))

example : verify Ex.aggV ⟨["z", "x", "y"], 2⟩ Ex.aggMeta [] = .ok true ∧
    verify Ex.aggV ⟨["z", "x", "y"], 3⟩ Ex.aggMeta [] = .ok false ∧
    verify Ex.aggV ⟨["x", "z", "y"], 2⟩ Ex.aggMeta [] = .ok false := by decide +kernel

example : instantiate (fun _ => true) "owner" ["z", "x", "y"] 2 =
    .ok (Ownable.init "owner", ⟨["z", "x", "y"], 2⟩) := by decide +kernel

end

/-! ## Routing -/

section

open RoutingIsm

/-- The module updates of a history that count: set with a valid address or unset by the account owning the contract
at that moment. -/
def Spec.moduleWrites (own : Ownable.State) : List (OwnedCall RoutingIsm.Msg) → List (UInt32 × Option Addr)
  | [] => []
  | c :: t =>
    match c.msg with
    | .inl m =>
      match Ownable.handle c.valid own c.sender m with
      | .ok own' => Spec.moduleWrites own' t
      | .error _ => Spec.moduleWrites own t
    | .inr (.set d a) =>
      (if own.owner = some c.sender ∧ c.valid a = true then [(d, some a)] else []) ++ Spec.moduleWrites own t
    | .inr (.unset ds) =>
      (if own.owner = some c.sender then ds.map (fun d => (d, none)) else []) ++ Spec.moduleWrites own t

theorem lastAbout_append {τ : Type} (d : UInt32) (a b : List (UInt32 × Option τ)) :
    lastAbout d (a ++ b) = (lastAbout d b).or (lastAbout d a) := by
  unfold lastAbout
  rw [List.reverse_append, List.find?_append]
  cases b.reverse.find? (fun x => x.1 == d) <;> rfl

theorem get_foldl_erase (ds : List UInt32) (s : RoutingIsm.State) (d : UInt32) :
    (ds.foldl OMap.erase s).get d = if d ∈ ds then none else s.get d := by
  induction ds generalizing s with
  | nil => simp
  | cons x t ih =>
    rw [List.foldl_cons, ih, OMap.get_erase]
    by_cases h1 : d ∈ t
    · simp [h1]
    · by_cases h2 : d = x <;> simp [h1, h2]

theorem lastAbout_none (ds : List UInt32) (d : UInt32) :
    lastAbout d (ds.map (fun d => (d, (none : Option Addr)))) = if d ∈ ds then some none else none := by
  induction ds using List.reverseRecOn with
  | nil => rfl
  | append_singleton t x ih =>
    rw [List.map_append, lastAbout_append, ih]
    by_cases h2 : d = x
    · simp [lastAbout, h2]
    · have h3 : ¬ x = d := fun h => h2 h.symm
      simp [lastAbout, h2, h3]

theorem routing_run (own : Ownable.State) (s : RoutingIsm.State) (h : List (OwnedCall RoutingIsm.Msg)) (d : UInt32) :
    (run step (own, s) h).2.get d = ((lastAbout d (moduleWrites own h)).getD (s.get d)) := by
  induction h generalizing own s with
  | nil => rfl
  | cons c t ih =>
    rw [run_cons]
    unfold moduleWrites
    rcases hm : c.msg with m | m
    · simp only
      cases hh : Ownable.handle c.valid own c.sender m with
      | ok own' =>
        have : applyCall step (own, s) c = (own', s) :=
          applyCall_ok (by unfold step ownedStep; rw [hm]; simp [hh])
        rw [this, ih]
      | error e =>
        have : applyCall step (own, s) c = (own, s) :=
          applyCall_error (e := e) (by unfold step ownedStep; rw [hm]; simp [hh])
        rw [this, ih]
    · cases m with
      | set d' a =>
        simp only
        by_cases ho : own.owner = some c.sender ∧ c.valid a = true
        · have hh : RoutingIsm.handle c.valid own s c.sender (.set d' a) = .ok (s.insert d' a) := by
            unfold RoutingIsm.handle
            simp only
            rw [Ownable.getOwner_eq_ok.2 ho.1]
            simp [ho.2]
          have : applyCall step (own, s) c = (own, s.insert d' a) :=
            applyCall_ok (by unfold step ownedStep; rw [hm]; simp [hh])
          rw [this, ih, if_pos ho, lastAbout_append, OMap.get_insert]
          by_cases hd : d = d'
          · subst hd
            cases lastAbout d (moduleWrites own t) <;> simp [lastAbout]
          · have hd' : ¬ d' = d := fun h => hd h.symm
            cases lastAbout d (moduleWrites own t) <;> simp [lastAbout, hd, hd']
        · have : applyCall step (own, s) c = (own, s) := by
            rcases applyCall_cases step (own, s) c with ⟨e, _, he⟩ | ⟨s', hs, _⟩
            · exact he
            · exfalso
              rcases ownedStep_ok _ hs with ⟨m, h1, _⟩ | ⟨m, h1, h2, _⟩
              · rw [hm] at h1; cases h1
              · rw [hm] at h1; cases h1
                unfold RoutingIsm.handle at h2
                obtain ⟨o, k1, h2⟩ := bind_eq_ok.1 h2
                obtain ⟨_, k2, h2⟩ := bind_eq_ok.1 h2
                obtain ⟨_, k3, h2⟩ := bind_eq_ok.1 h2
                have k2 := of_decide_eq_true (ensure_eq_ok.1 k2)
                exact ho ⟨by rw [← k2]; exact Ownable.getOwner_eq_ok.1 k1, ensure_eq_ok.1 k3⟩
          rw [this, ih, if_neg ho]
          simp
      | unset ds =>
        simp only
        by_cases ho : own.owner = some c.sender
        · have hh : RoutingIsm.handle c.valid own s c.sender (.unset ds) = .ok (ds.foldl OMap.erase s) := by
            unfold RoutingIsm.handle
            simp only
            rw [Ownable.getOwner_eq_ok.2 ho]
            simp
          have : applyCall step (own, s) c = (own, ds.foldl OMap.erase s) :=
            applyCall_ok (by unfold step ownedStep; rw [hm]; simp [hh])
          rw [this, ih, if_pos ho, lastAbout_append, get_foldl_erase, lastAbout_none]
          cases lastAbout d (moduleWrites own t) <;> by_cases hd : d ∈ ds <;> simp [hd]
        · have : applyCall step (own, s) c = (own, s) := by
            rcases applyCall_cases step (own, s) c with ⟨e, _, he⟩ | ⟨s', hs, _⟩
            · exact he
            · exfalso
              rcases ownedStep_ok _ hs with ⟨m, h1, _⟩ | ⟨m, h1, h2, _⟩
              · rw [hm] at h1; cases h1
              · rw [hm] at h1; cases h1
                unfold RoutingIsm.handle at h2
                obtain ⟨o, k1, h2⟩ := bind_eq_ok.1 h2
                obtain ⟨_, k2, h2⟩ := bind_eq_ok.1 h2
                have k2 := of_decide_eq_true (ensure_eq_ok.1 k2)
                exact ho (by rw [← k2]; exact Ownable.getOwner_eq_ok.1 k1)
          rw [this, ih, if_neg ho]
          simp

theorem routing_setAll {valid : Addr → Bool} {s s' : RoutingIsm.State} {l : List (UInt32 × Addr)}
    (h : setAll valid s l = .ok s') (d : UInt32) :
    s'.get d = (lastAbout d (l.map (fun p => (p.1, some p.2)))).getD (s.get d) := by
  induction l generalizing s with
  | nil => simp only [setAll, Except.ok.injEq] at h; subst h; rfl
  | cons x t ih =>
    obtain ⟨d', a⟩ := x
    simp only [setAll] at h
    obtain ⟨_, _, hf⟩ := bind_eq_ok.1 h
    rw [ih hf, List.map_cons, ← List.singleton_append, lastAbout_append, OMap.get_insert]
    by_cases hd : d = d'
    · subst hd
      cases lastAbout d (t.map (fun p => (p.1, some p.2))) <;> simp [lastAbout]
    · have hd' : ¬ d' = d := fun h => hd h.symm
      cases lastAbout d (t.map (fun p => (p.1, some p.2))) <;> simp [lastAbout, hd, hd']

/-- **C42.** After instantiation with modules `isms` and any history: let the module for a domain be the last one set
for it (at instantiation or by the owner) unless unset since. Verification of a message is exactly the answer of the
module for its origin to the same metadata and the same message bytes, and fails if there is none; the route query
names that module or fails; neither answers bytes that are no message. -/
theorem C42_routing_delegates {V : Verifier} {valid : Addr → Bool} {owner : Addr} {isms : List (UInt32 × Addr)}
    {s0 : Ownable.State × RoutingIsm.State} (h : List (OwnedCall RoutingIsm.Msg))
    (h0 : instantiate valid owner isms = .ok s0) (metadata message : Bytes) :
    (∀ m, WireFormat m message →
      let module := (lastAbout m.origin (isms.map (fun p => (p.1, some p.2)) ++ moduleWrites (Ownable.init owner) h)).join
      (∀ a, module = some a → verify V (run step s0 h).2 metadata message = V a metadata message ∧
        route (run step s0 h).2 message = .ok a) ∧
      (module = none → (∃ e, verify V (run step s0 h).2 metadata message = .error e) ∧
        ∃ e, route (run step s0 h).2 message = .error e)) ∧
    ((¬ ∃ m, WireFormat m message) → (∃ e, verify V (run step s0 h).2 metadata message = .error e) ∧
      ∃ e, route (run step s0 h).2 message = .error e) := by
  refine ⟨?_, ?_⟩
  · intro m hm module
    have hdec := decode_of_wireFormat hm
    have hget : (run step s0 h).2.get m.origin = module := by
      unfold instantiate at h0
      obtain ⟨_, _, h0⟩ := bind_eq_ok.1 h0
      obtain ⟨s, hs, hf⟩ := bind_eq_ok.1 h0
      cases hf
      rw [routing_run, routing_setAll hs]
      simp only [module]
      rw [lastAbout_append]
      cases lastAbout m.origin (moduleWrites (Ownable.init owner) h) with
      | some x => simp
      | none =>
        cases lastAbout m.origin (isms.map (fun p => (p.1, some p.2))) <;> simp
    refine ⟨?_, ?_⟩
    · intro a ha
      unfold verify route moduleFor
      rw [hdec, ok_bind, ok_bind, hget, ha]
      exact ⟨rfl, rfl⟩
    · intro ha
      unfold verify route moduleFor
      rw [hdec, ok_bind, ok_bind, hget, ha]
      exact ⟨⟨_, rfl⟩, ⟨_, rfl⟩⟩
  · intro hn
    have hdec : ∃ e, Message.decode message = .error e := by
      rw [← not_ok_iff]
      intro m hm
      exact hn ⟨m, wireFormat_of_decode hm⟩
    obtain ⟨e, he⟩ := hdec
    unfold verify route
    rw [he]
    exact ⟨⟨_, rfl⟩, ⟨_, rfl⟩⟩

/-- Two modules, one replaced, one unset, and attempts by a stranger. -/
example :
    let h : List (OwnedCall RoutingIsm.Msg) :=
      [⟨fun _ => true, "owner", .inr (.set 1 "new")⟩, ⟨fun _ => true, "eve", .inr (.set 1 "evil")⟩,
       ⟨fun _ => true, "eve", .inr (.unset [1])⟩, ⟨fun _ => true, "owner", .inr (.unset [2, 5])⟩]
    instantiate (fun _ => true) "owner" [(1, "a"), (2, "b")] = .ok (Ownable.init "owner",
      (OMap.empty.insert 1 "a").insert 2 "b") ∧
    moduleWrites (Ownable.init "owner") h = [(1, some "new"), (2, none), (5, none)] ∧
    route (run step (Ownable.init "owner", (OMap.empty.insert 1 "a").insert 2 "b") h).2 Ex.message.encode =
      .ok "new" := by decide +kernel

end

/-! ## Pausable -/

/-- **C43.** After any history: verification of anything fails if the last successful switch of the owner was a pause
(or there was none and the module was created paused), and answers true otherwise; a switch succeeds only for the
owner. -/
theorem C43_pausable_ism (o0 : Addr) (p0 : Bool) (h : List (OwnedCall Pausable.Msg)) (metadata message : Bytes) :
    (((∀ h1 c h2 m, h = h1 ++ c :: h2 → ¬ PauseSucceeds o0 p0 h1 c m) ∧
        ((p0 = true → ∃ e, PausableIsm.verify (pausableAfter o0 p0 h).2 metadata message = .error e) ∧
         (p0 = false → PausableIsm.verify (pausableAfter o0 p0 h).2 metadata message = .ok true))) ∨
     (∃ h1 c h2 m, h = h1 ++ c :: h2 ∧ PauseSucceeds o0 p0 h1 c m ∧
        (∀ g1 d g2 m', h2 = g1 ++ d :: g2 → ¬ PauseSucceeds o0 p0 (h1 ++ c :: g1) d m') ∧
        ((m = .pause → ∃ e, PausableIsm.verify (pausableAfter o0 p0 h).2 metadata message = .error e) ∧
         (m = .release → PausableIsm.verify (pausableAfter o0 p0 h).2 metadata message = .ok true)))) ∧
    (∀ c m, PauseSucceeds o0 p0 h c m → (pausableAfter o0 p0 h).1.owner = some c.sender) := by
  refine ⟨?_, fun c m hc => ((pauseSucceeds_iff o0 p0 h c m).1 hc).2.1⟩
  rcases (C28_pause_flag o0 p0 h).2 with ⟨h1, h2⟩ | ⟨h1, c, h2, m, e, k1, k2, k3⟩
  · refine .inl ⟨h1, ?_, ?_⟩
    · intro hp; rw [h2, hp]; exact ⟨_, rfl⟩
    · intro hp; rw [h2, hp]; rfl
  · refine .inr ⟨h1, c, h2, m, e, k1, k2, ?_, ?_⟩
    · intro hm; rw [k3, hm]; exact ⟨_, rfl⟩
    · intro hm; rw [k3, hm]; rfl

/-! ## Nesting -/

section

variable {H : Bytes → Bytes} {R : Recover} {world : Addr → Option IsmContract}

/-- Contracts in states they can get into: instantiated (an aggregate with a threshold of at least one, cf.
`C40_full_refuted`) and then called arbitrarily. -/
def Spec.Reachable : IsmContract → Prop
  | .multisig s => ∃ o0 h, s = (multisigAfter o0 h).2
  | .aggregate s => ∃ valid owner isms t s0 h, AggregateIsm.instantiate valid owner isms t = .ok s0 ∧
      1 ≤ t.toNat ∧ s = (run AggregateIsm.step s0 h).2
  | .routing _ => True
  | .pausable _ => True
  | .other _ => True

/-- A leaf of the nesting that approves: a multisig module with a quorum of at least one signature, an unpaused
pausable module or an approving foreign contract. -/
inductive Spec.LeafApproves (H : Bytes → Bytes) (R : Recover) (world : Addr → Option IsmContract) (message : Bytes)
    (a : Addr) (md : Bytes) : Prop where
  | multisig (s : Multisig.State) (m : Message) (vs q : List Bytes) (t : UInt8)
      (hw : world a = some (.multisig s)) (hm : WireFormat m message)
      (he : Multisig.enrolled s m.origin = .ok (vs, t)) (ht : 1 ≤ t.toNat) (hq : q.length = t.toNat)
      (hs : Quorum H R (digestFor H m.origin md message) (SignatureIn md) vs q)
  | pausable (hw : world a = some (.pausable false))
  | other (f : Bytes → Bytes → Res Bool) (hw : world a = some (.other f)) (hf : f md message = .ok true)

theorem reachable_aggregate {s : AggregateIsm.State} (h : Reachable (.aggregate s)) : s.threshold ≠ 0 := by
  obtain ⟨valid, owner, isms, t, s0, h, h0, ht, rfl⟩ := h
  rw [Multisig.u8_ne_zero]
  rcases aggregate_inv s0 h with ⟨i1, _⟩ | ⟨i, _⟩
  · rw [i1, aggregate_instantiate_ok h0]; exact ht
  · exact i

/-- **C44.** In any world of contracts in reachable states, with any nesting (even cyclic): if a module answers true
then it is approved recursively down to leaves: a multisig by a quorum, a routing module by the module of the origin,
an aggregate by threshold many different listed modules with their own metadata parts. -/
theorem C44_nested_sound (hH : ∀ x, (H x).length = 32) (hw : ∀ a c, world a = some c → Reachable c) (depth : Nat)
    {a : Addr} {metadata message : Bytes} (h : askIsm H R world depth a metadata message = .ok true) :
    Approved H R world message a metadata := by
  induction depth generalizing a metadata with
  | zero => simp [askIsm] at h
  | succ n ih =>
    simp only [askIsm] at h
    split at h
    · cases h
    · rename_i s hs
      obtain ⟨o0, hist, he⟩ := hw _ _ hs
      rw [he] at h
      obtain ⟨m, vs, t, q, h1, h2, h3, h4, h5⟩ := C36_quorum_sound hH o0 hist h
      obtain ⟨e1, e2⟩ := enrolled_ok.1 h2
      rw [← he] at e1 e2
      exact .multisig hs h1 e1 e2 h4 h5
    · rename_i s hs
      obtain ⟨q, q1, q2, q3⟩ := AggregateIsm.verify_sound (reachable_aggregate (hw _ _ hs)) h
      have : ∀ b, ∃ p, b ∈ q → PartFor metadata s.isms b p ∧ askIsm H R world n b p message = .ok true := by
        intro b
        by_cases hb : b ∈ q
        · obtain ⟨_, p, hp⟩ := q3 b hb
          exact ⟨p, fun _ => hp⟩
        · exact ⟨[], fun h => absurd h hb⟩
      choose part hpart using this
      exact .aggregate part hs q2 q1 (fun b hb => (q3 b hb).1) (fun b hb => (hpart b hb).1)
        (fun b hb => ih (hpart b hb).2)
    · rename_i s hs
      unfold RoutingIsm.verify at h
      obtain ⟨m, h1, h⟩ := bind_eq_ok.1 h
      obtain ⟨b, h2, hf⟩ := bind_eq_ok.1 h
      have h2 : s.get m.origin = some b := by
        unfold RoutingIsm.moduleFor at h2
        cases hg : s.get m.origin with
        | none => rw [hg] at h2; cases h2
        | some x => rw [hg] at h2; cases h2; rfl
      exact .routing hs (wireFormat_of_decode h1) h2 (ih hf)
    · rename_i p hs
      cases p with
      | true => cases h
      | false => exact .pausable hs
    · rename_i f hs
      exact .other hs h

/-- **C44** (leaves). Every positive answer is backed by an approving leaf. -/
theorem C44_some_leaf (hH : ∀ x, (H x).length = 32) (hw : ∀ a c, world a = some c → Reachable c) (depth : Nat)
    {a : Addr} {metadata message : Bytes} (h : askIsm H R world depth a metadata message = .ok true) :
    ∃ b md, LeafApproves H R world message b md := by
  have happ := C44_nested_sound hH hw depth h
  clear h
  induction happ with
  | multisig hs hm hv ht hq hq2 =>
    obtain ⟨o0, hist, he⟩ := hw _ _ hs
    refine ⟨_, _, .multisig _ _ _ _ _ hs hm (enrolled_ok.2 ⟨hv, ht⟩) ?_ hq hq2⟩
    rename_i m _ _ _
    rcases multisig_inv o0 hist m.origin with ⟨hn, _⟩ | ⟨vs', t', _, k2, k3, _⟩
    · rw [← he, hv] at hn; cases hn
    · rw [← he, ht] at k2; cases k2; exact k3
  | pausable hs => exact ⟨_, [], .pausable hs⟩
  | other hs hf => exact ⟨_, _, .other _ hs hf⟩
  | routing _ _ _ _ ih => exact ih
  | aggregate part hs hq hl hm hp _ ih =>
    have ht := Multisig.u8_ne_zero.1 (reachable_aggregate (hw _ _ hs))
    rename_i q _
    cases q with
    | nil => simp at hl; omega
    | cons b t => exact ih b (by simp)

/-- More nesting depth does not change an answer. -/
theorem C44_depth_irrelevant {n : Nat} {a : Addr} {metadata message : Bytes} {b : Bool}
    (h : askIsm H R world n a metadata message = .ok b) :
    ∀ k, askIsm H R world (n + k) a metadata message = .ok b := by
  have loopMono : ∀ (V V' : Verifier), (∀ a md b, V a md message = .ok b → V' a md message = .ok b) →
      ∀ (es : List (Addr × Bytes)) (t r : UInt8), AggregateIsm.loop V message t es = .ok r →
      AggregateIsm.loop V' message t es = .ok r := by
    intro V V' hV es
    induction es with
    | nil => intro t r h; exact h
    | cons x rest ih =>
      intro t r h
      obtain ⟨c, p⟩ := x
      simp only [AggregateIsm.loop] at h ⊢
      obtain ⟨b, h1, h2⟩ := bind_eq_ok.1 h
      obtain ⟨t', h3, h4⟩ := bind_eq_ok.1 h2
      rw [hV _ _ _ h1, ok_bind, h3, ok_bind]
      split at h4
      · rename_i hz
        rw [if_pos hz]; exact h4
      · rename_i hz
        rw [if_neg hz]; exact ih _ _ h4
  have succ : ∀ n a metadata b, askIsm H R world n a metadata message = .ok b →
      askIsm H R world (n + 1) a metadata message = .ok b := by
    intro n
    induction n with
    | zero => intro a metadata b h; simp [askIsm] at h
    | succ n ih =>
      intro a metadata b h
      rw [askIsm] at h ⊢
      split at h
      · cases h
      · exact h
      · rename_i s hs
        obtain ⟨m, r, h1, h2, h3⟩ := AggregateIsm.verify_ok.1 h
        exact AggregateIsm.verify_ok.2 ⟨m, r, h1, loopMono _ _ ih _ _ _ h2, h3⟩
      · rename_i s hs
        unfold RoutingIsm.verify at h ⊢
        obtain ⟨m, h1, h2⟩ := bind_eq_ok.1 h
        obtain ⟨c, h3, h4⟩ := bind_eq_ok.1 h2
        rw [h1, ok_bind, h3, ok_bind]
        exact ih _ _ _ h4
      · exact h
      · exact h
  intro k
  induction k with
  | zero => exact h
  | succ k ih => exact succ _ _ _ _ ih

/-- **C44** (delivery). If the mailbox delivers a message and modules answer as above, the message is approved
recursively by the recipient's own or, if it has none, the default module. -/
theorem C44_delivery_backed (hH : ∀ x, (H x).length = 32) (hw : ∀ a c, world a = some c → Reachable c) {depth : Nat}
    {C : Codec} {c : Mailbox.Call} (henv : c.env.verify = askIsm H R world depth) {s s' : Mailbox.State}
    {metadata message : Bytes} {r : Response} (hc : c.msg = .process metadata message)
    (h : Mailbox.execute H C s c = .ok (s', r)) :
    ∃ m recipient ism, WireFormat m message ∧ bech32Encode C s.config.hrp m.recipient = .ok recipient ∧
      ResponsibleIsm c.env s recipient ism ∧ Approved H R world message ism metadata := by
  obtain ⟨m, recipient, ism, h1, _, _, _, h2, h3, h4⟩ := C16_ism_approval hc h
  rw [henv] at h4
  exact ⟨m, recipient, ism, h1, h2, h3, C44_nested_sound hH hw depth h4⟩

end

/-- A routing module over an aggregate (threshold two) of a multisig and a pausable module. -/
def Ex.world : Addr → Option IsmContract := fun a =>
  if a = "route" then some (.routing (OMap.empty.insert 1 "agg"))
  else if a = "agg" then some (.aggregate ⟨["ms", "pause"], 2⟩)
  else if a = "ms" then some (.multisig (multisigAfter "owner" Ex.msEnrol).2)
  else if a = "pause" then some (.pausable false)
  else none

def Ex.nestedMeta : Bytes :=
  let m := Ex.msMeta [1, 3]
  u32be 16 ++ u32be (UInt32.ofNat (16 + m.length)) ++ u32be 0 ++ u32be 0 ++ m

example : askIsm toyHash Ex.recover Ex.world 3 "route" Ex.nestedMeta Ex.message.encode = .ok true := by
  decide +kernel

example : ∀ a c, Ex.world a = some c → Reachable c := by
  intro a c h
  unfold Ex.world at h
  split at h
  · cases h; exact trivial
  · split at h
    · cases h
      exact ⟨fun _ => true, "owner", ["ms", "pause"], 2, (Ownable.init "owner", ⟨["ms", "pause"], 2⟩), [],
        by decide +kernel, by decide, rfl⟩
    · split at h
      · cases h; exact ⟨_, _, rfl⟩
      · split at h
        · cases h; exact trivial
        · cases h

end Hpl
