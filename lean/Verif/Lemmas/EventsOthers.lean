import Verif.Lemmas.Events
import Verif.Lemmas.Exec
import Verif.Lemmas.Json
import Verif.Lemmas.OMap
import Verif.Model.EventsOthers
import Verif.Props.Listing
import Verif.Props.Packages
import Verif.Spec.EventsOthers

/-! # Lemmas about events of modules and hooks -/

namespace Hpl.Events

open Spec Tx

section Last

variable {p : TextEvent → Prop} [DecidablePred p] {a b : List TextEvent} {e : TextEvent}

theorem lastOf_nil : lastOf p [] = none := rfl

theorem lastOf_none (h : ∀ e ∈ b, ¬ p e) : lastOf p (a ++ b) = lastOf p a := by
  have : b.filter (fun e => p e) = [] := List.filter_eq_nil_iff.2 fun e he => by simp [h e he]
  unfold lastOf
  rw [List.filter_append, this, List.append_nil]

theorem lastOf_snoc (h : p e) : lastOf p (a ++ [e]) = some e := by
  unfold lastOf
  rw [List.filter_append]
  simp [h]

theorem lastOf_skip (h : ¬ p e) : lastOf p (a ++ [e]) = lastOf p a :=
  lastOf_none (by intro x hx; rw [List.mem_singleton.1 hx]; exact h)

end Last

/-! ## Numbers and lists -/

theorem decimal_eq (n : Nat) : inDecimal n = number n := rfl

theorem decimal_value {t : String} {m n : Nat} (h1 : Decimal t m) (h2 : Decimal t n) : m = n := h1.2.2.symm.trans h2.2.2

theorem decimal_inj {m n : Nat} (h : inDecimal m = inDecimal n) : m = n := by
  have h1 := number_decimal m
  rw [← decimal_eq, h] at h1
  exact decimal_value h1 (number_decimal n)

theorem decimal32_inj {d d' : UInt32} (h : inDecimal d.toNat = inDecimal d'.toNat) : d = d' :=
  UInt32.toNat_inj.1 (decimal_inj h)

theorem decimal_digits {n : Nat} {c : Char} (h : c ∈ (inDecimal n).toList) : c.isDigit = true :=
  (number_decimal n).2.1 c h

theorem decimal_name (n : Nat) : Name (inDecimal n) := by
  refine ⟨?_, ?_⟩
  · intro h
    exact (number_decimal n).1 (by rw [← decimal_eq, h]; rfl)
  · intro h
    have := decimal_digits h
    revert this
    decide

theorem joined_eq (l : List String) : joined l = commas l := by
  unfold joined
  induction l with
  | nil => rfl
  | cons a t ih =>
    cases t with
    | nil => rw [String.intercalate_singleton]; rfl
    | cons b u =>
      rw [String.intercalate_cons_cons, ih]
      show _ = a ++ "," ++ commas (b :: u)
      rfl

theorem toList_commas (l : List String) : (commas l).toList = [','].intercalate (l.map String.toList) := by
  induction l with
  | nil => rfl
  | cons a t ih =>
    cases t with
    | nil => show a.toList = _; simp
    | cons b u =>
      show (a ++ "," ++ commas (b :: u)).toList = _
      rw [String.toList_append, String.toList_append, ih]
      simp [List.intercalate]

theorem listed_commas {l : List String} (h : ∀ a ∈ l, Name a) : listed (commas l) = l := by
  unfold listed
  cases l with
  | nil => rfl
  | cons a t =>
    have hne : commas (a :: t) ≠ "" := by
      intro h0
      have h1 : (commas (a :: t)).toList = [] := by rw [h0]; rfl
      have ha := (h a (by simp)).1
      have : a.toList = [] := by
        cases t with
        | nil => exact h1
        | cons b u =>
          have h2 : (a ++ "," ++ commas (b :: u)).toList = [] := h1
          rw [String.toList_append, String.toList_append] at h2
          exact (List.append_eq_nil_iff.1 (List.append_eq_nil_iff.1 h2).1).1
      exact ha (by rw [← String.ofList_toList (s := a), this])
    rw [if_neg hne, toList_commas, List.splitOn_intercalate]
    · simp [List.map_map]
    · intro x hx
      obtain ⟨y, hy, rfl⟩ := List.mem_map.1 hx
      exact (h y hy).2
    · simp

theorem listed_domains (l : List UInt32) : listed (domains l) = l.map (fun d => inDecimal d.toNat) := by
  have : domains l = commas (l.map (fun d => inDecimal d.toNat)) := joined_eq _
  rw [this]
  refine listed_commas ?_
  intro a ha
  obtain ⟨d, _, rfl⟩ := List.mem_map.1 ha
  exact decimal_name _

theorem mem_listed_domains {l : List UInt32} {d : UInt32} : inDecimal d.toNat ∈ listed (domains l) ↔ d ∈ l := by
  rw [listed_domains, List.mem_map]
  constructor
  · rintro ⟨x, hx, he⟩
    rw [← decimal32_inj he]; exact hx
  · intro h; exact ⟨d, h, rfl⟩

/-! ## Ownership -/

theorem ownable_types (sender : Addr) (m : Ownable.Msg) : (ownable sender m).ty ∈ ownershipTypes := by
  cases m
  · exact (by decide : "hpl_ownable::init" ∈ ownershipTypes)
  · exact (by decide : "hpl_ownable::revoke" ∈ ownershipTypes)
  · exact (by decide : "hpl_ownable::claim" ∈ ownershipTypes)

theorem OwnersTold.init (owner : Addr) : OwnersTold owner (Ownable.init owner).owner (Ownable.init owner).pending [] :=
  ⟨rfl, rfl⟩

theorem OwnersTold.same {first : Addr} {own : Ownable.State} {evs new : List TextEvent}
    (I : OwnersTold first own.owner own.pending evs) (h : ∀ e ∈ new, e.ty ∉ ownershipTypes) :
    OwnersTold first own.owner own.pending (evs ++ new) := by
  refine ⟨?_, ?_⟩
  · rw [latest_append_none]
    · exact I.1
    · refine List.filter_eq_nil_iff.2 fun e he => ?_
      have := h e he
      simp only [decide_eq_true_eq]
      intro ht
      exact this (by rw [ht]; decide)
  · rw [lastOf_none h]; exact I.2

theorem OwnersTold.step {first : Addr} {own own' : Ownable.State} {evs : List TextEvent} {valid : Addr → Bool} {sender : Addr}
    {m : Ownable.Msg} (I : OwnersTold first own.owner own.pending evs) (h : Ownable.handle valid own sender m = .ok own') :
    OwnersTold first own'.owner own'.pending (evs ++ [ownable sender m]) := by
  cases m with
  | initTransfer next =>
    obtain ⟨_, _, _, rfl⟩ := Ownable.handle_init_ok.1 h
    refine ⟨?_, ?_⟩
    · rw [latest_append_none rfl]; exact I.1
    · rw [lastOf_snoc (ownable_types _ _)]; rfl
  | revoke =>
    obtain ⟨_, _, rfl⟩ := Ownable.handle_revoke_ok.1 h
    refine ⟨?_, ?_⟩
    · rw [latest_append_none rfl]; exact I.1
    · rw [lastOf_snoc (ownable_types _ _)]; rfl
  | claim =>
    obtain ⟨_, rfl⟩ := Ownable.handle_claim_ok.1 h
    refine ⟨?_, ?_⟩
    · rw [latest_snoc rfl]; rfl
    · rw [lastOf_snoc (ownable_types _ _)]; rfl

theorem silent_ok {σ ι : Type} {step : σ → ι → Res σ} {s s' : σ} {c : ι} {u : Unit} :
    silent step s c = .ok (s', u) ↔ step s c = .ok s' := by
  unfold silent
  rw [bind_eq_ok]
  constructor
  · rintro ⟨a, h, hf⟩
    cases hf
    exact h
  · intro h; exact ⟨s', h, rfl⟩

/-- Induction along the history of a contract made with `ownedStep`: the events so far are `evs`. -/
theorem owned_induct {σ μ : Type} {part : (Addr → Bool) → Ownable.State → σ → Addr → μ → Res σ}
    {f : Addr → μ → List TextEvent} {s0 : Ownable.State × σ} (P : Ownable.State × σ → List TextEvent → Prop)
    (h0 : P s0 [])
    (h1 : ∀ o s valid sender m o' evs, P (o, s) evs → Ownable.handle valid o sender m = .ok o' →
      P (o', s) (evs ++ [ownable sender m]))
    (h2 : ∀ o s valid sender m s' evs, P (o, s) evs → part valid o s sender m = .ok s' →
      P (o, s') (evs ++ f sender m))
    (txs : List (List (Act (OwnedCall μ)))) :
    P (history (logged (silent (ownedStep part)) (owned f)) s0 txs).1
      (all (history (logged (silent (ownedStep part)) (owned f)) s0 txs).2) := by
  refine logged_induct (fun s log => P s (all log)) (history_chain _ _ _) h0 ?_
  rintro ⟨o, s⟩ ⟨valid, sender, msg⟩ ⟨o', s'⟩ r log I hx
  rw [all_snoc]
  have hx := silent_ok.1 hx
  rcases ownedStep_ok part hx with ⟨m, hm, g1, g2⟩ | ⟨m, hm, g1, g2⟩
  · simp only at hm g1 g2
    subst hm g2
    exact h1 _ _ _ _ _ _ _ I g1
  · simp only at hm g1 g2
    subst hm g2
    exact h2 _ _ _ _ _ _ _ I g1

/-- The same for contracts made with `execOwned`. -/
theorem exec_induct {ε σ μ : Type} {valid : ε → Addr → Bool}
    {part : ε → Ownable.State → σ → Addr → List Coin → μ → Res (σ × Response)}
    {ev : Ownable.State × σ → ExecCall ε μ → Response → List TextEvent}
    {s0 : Ownable.State × σ} (P : Ownable.State × σ → List TextEvent → Prop) (h0 : P s0 [])
    (he : ∀ s e sender funds m r, ev s ⟨e, sender, funds, .inl m⟩ r = [ownable sender m])
    (h1 : ∀ o s valid sender m o' evs, P (o, s) evs → Ownable.handle valid o sender m = .ok o' →
      P (o', s) (evs ++ [ownable sender m]))
    (h2 : ∀ o s e sender funds m s' r evs, P (o, s) evs → part e o s sender funds m = .ok (s', r) →
      P (o, s') (evs ++ ev (o, s) ⟨e, sender, funds, .inr m⟩ r))
    (txs : List (List (Act (ExecCall ε μ)))) :
    P (history (logged (execOwned valid part) ev) s0 txs).1
      (all (history (logged (execOwned valid part) ev) s0 txs).2) := by
  refine logged_induct (fun s log => P s (all log)) (history_chain _ _ _) h0 ?_
  rintro ⟨o, s⟩ ⟨e, sender, funds, msg⟩ ⟨o', s'⟩ r log I hx
  rw [all_snoc]
  rcases msg with m | m
  · obtain ⟨o1, g1, g2⟩ := execOwned_inl.1 hx
    simp only [Prod.mk.injEq] at g2
    obtain ⟨⟨rfl, rfl⟩, rfl⟩ := g2
    show P _ (all log ++ ev (o, s') ⟨e, sender, funds, .inl m⟩ {})
    rw [he]
    exact h1 _ _ _ _ _ _ _ I g1
  · obtain ⟨⟨p1, p2⟩, g1, g2⟩ := execOwned_inr.1 hx
    simp only [Prod.mk.injEq] at g2
    obtain ⟨⟨rfl, rfl⟩, rfl⟩ := g2
    exact h2 _ _ _ _ _ _ _ _ _ I g1

/-! ## Routes -/

theorem readSet_routeJson {τ : Type} (text : τ → String) (x : UInt32 × Option τ) :
    readSet (routeJson text x) = some (x.1.toNat, x.2.map text) := by
  obtain ⟨d, r⟩ := x
  cases r <;> rfl

/-- The entries of a route message. -/
def setsOfMsg {τ : Type} : Router.Msg τ → List (UInt32 × Option τ)
  | .setRoute x => [x]
  | .setRoutes l => l

theorem jsonAt_print {k : String} {e : TextEvent} {j : Json} (h : attr k e = some (String.ofList j.print)) :
    jsonAt k e = some j := by
  unfold jsonAt
  rw [h]
  simp only [Option.bind_some, String.toList_ofList]
  exact Json.parse_print j

theorem filterMap_routeJson {τ : Type} (text : τ → String) (l : List (UInt32 × Option τ)) :
    (l.map (routeJson text)).filterMap readSet = l.map (fun x => (x.1.toNat, x.2.map text)) := by
  induction l with
  | nil => rfl
  | cons x t ih =>
    rw [List.map_cons, List.filterMap_cons, readSet_routeJson, List.map_cons]
    simp only
    rw [ih]

theorem setsOf_router {τ : Type} (text : τ → String) (sender : Addr) (m : Router.Msg τ) :
    setsOf (router text sender m) = (setsOfMsg m).map (fun x => (x.1.toNat, x.2.map text)) := by
  cases m with
  | setRoute x =>
    have h : jsonAt "set" (router text sender (.setRoute x)) = some (routeJson text x) := jsonAt_print rfl
    have ht : (router text sender (.setRoute x)).ty = "hpl_router::set_route" := rfl
    unfold setsOf
    rw [if_pos ht, h, Option.bind_some, readSet_routeJson]
    rfl
  | setRoutes l =>
    have h : jsonAt "set" (router text sender (.setRoutes l)) = some (.arr (l.map (routeJson text))) := jsonAt_print rfl
    have ht : (router text sender (.setRoutes l)).ty = "hpl_router::set_routes" := rfl
    unfold setsOf
    rw [ht, if_neg (by decide), if_pos rfl, h]
    exact filterMap_routeJson text l

theorem handle_sets {τ : Type} {own : Ownable.State} {s s' : Router.State τ} {sender : Addr} {m : Router.Msg τ}
    (h : Router.handle own s sender m = .ok s') : s' = (setsOfMsg m).foldl Router.setRoute s := by
  obtain ⟨_, h⟩ := Router.handle_ok.1 h
  rw [h]
  cases m <;> rfl

/-- The table is what all the sets told make of an empty one. -/
def RoutesTold {τ : Type} (text : τ → String) (s : Router.State τ) (evs : List TextEvent) : Prop :=
  ∃ l : List (UInt32 × Option τ), evs.flatMap setsOf = l.map (fun x => (x.1.toNat, x.2.map text)) ∧
    s = l.foldl Router.setRoute OMap.empty

theorem RoutesTold.init {τ : Type} (text : τ → String) : RoutesTold text (OMap.empty : Router.State τ) [] := ⟨[], rfl, rfl⟩

theorem RoutesTold.same {τ : Type} {text : τ → String} {s : Router.State τ} {evs new : List TextEvent}
    (I : RoutesTold text s evs)
    (h : ∀ e ∈ new, e.ty ≠ "hpl_router::set_route" ∧ e.ty ≠ "hpl_router::set_routes") : RoutesTold text s (evs ++ new) := by
  obtain ⟨l, h1, h2⟩ := I
  refine ⟨l, ?_, h2⟩
  have : new.flatMap setsOf = [] := by
    rw [List.flatMap_eq_nil_iff]
    intro e he
    obtain ⟨a, b⟩ := h e he
    unfold setsOf
    rw [if_neg a, if_neg b]
  rw [List.flatMap_append, h1, this, List.append_nil]

theorem RoutesTold.step {τ : Type} {text : τ → String} {own : Ownable.State} {s s' : Router.State τ} {sender : Addr}
    {m : Router.Msg τ} {evs : List TextEvent} (I : RoutesTold text s evs) (h : Router.handle own s sender m = .ok s') :
    RoutesTold text s' (evs ++ [router text sender m]) := by
  obtain ⟨l, h1, h2⟩ := I
  refine ⟨l ++ setsOfMsg m, ?_, ?_⟩
  · rw [List.flatMap_append, h1, List.map_append]
    simp only [List.flatMap_cons, List.flatMap_nil, List.append_nil]
    rw [setsOf_router]
  · rw [List.foldl_append, ← h2]; exact handle_sets h

theorem RoutesTold.get {τ : Type} {text : τ → String} {s : Router.State τ} {evs : List TextEvent} (I : RoutesTold text s evs)
    (d : UInt32) : (Router.getRoute s d).map text = routeTold d evs := by
  obtain ⟨l, h1, rfl⟩ := I
  unfold routeTold
  rw [h1]
  have key : ∀ l : List (UInt32 × Option τ), ((l.foldl Router.setRoute OMap.empty).get d).map (Option.map text) =
      (l.map (fun x => (x.1.toNat, x.2.map text))).reverse.lookup d.toNat := by
    intro l
    induction l using List.reverseRecOn with
    | nil => rfl
    | append_singleton t x ih =>
      rw [List.foldl_append, List.map_append, List.reverse_append]
      simp only [List.foldl_cons, List.foldl_nil, List.map_cons, List.map_nil, List.reverse_cons, List.reverse_nil,
        List.nil_append, List.singleton_append, List.lookup_cons]
      unfold Router.setRoute
      rw [OMap.get_insert]
      by_cases hd : d = x.1
      · subst hd; simp
      · rw [if_neg hd]
        have : (d.toNat == x.1.toNat) = false := by
          rw [beq_eq_false_iff_ne]
          intro h; exact hd (UInt32.toNat_inj.1 h)
        rw [this]
        exact ih
  have hk := key l
  unfold Router.getRoute
  rw [← hk]
  cases (l.foldl Router.setRoute OMap.empty).get d with
  | none => rfl
  | some o => cases o <;> rfl

theorem router_types {τ : Type} (text : τ → String) (sender : Addr) (m : Router.Msg τ) :
    (router text sender m).ty = "hpl_router::set_route" ∨ (router text sender m).ty = "hpl_router::set_routes" := by
  cases m
  · exact .inl rfl
  · exact .inr rfl

end Hpl.Events
