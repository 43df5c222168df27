import Verif.Spec.Circular
import Verif.Props.HookMoney
import Verif.Props.Relay
import Verif.Props.Security

/-! # C100: hooks and modules in a circle -/

namespace Hpl

open Spec HookSystem

variable {W : World}

/-! ### Hooks -/

theorem Alike.passesTo {x y : Contracts} (h : Alike x y) {a z : Addr} {b : Bytes} (hr : PassesTo x b a z) :
    PassesTo y b a z := by
  cases hr with
  | member hs hm => exact .member (h.same hs (by intro s; simp)) hm
  | route hm => exact .route (h.routesTo hm)

theorem Posted.passes {s : Sys} {self m : Addr} {md b : Bytes} {funds : List Coin} {c c' : Contract} {msgs : List OutMsg}
    {hooks : Contracts} (h : Posted W s self md b funds c c' msgs) (hc : hooks self = some c)
    (hp : PassesTo hooks b self m) : ∃ f, .execute m (.postDispatch md b) f ∈ msgs := by
  cases hp with
  | member hs hm =>
    rw [hc] at hs
    cases hs
    cases h with
    | aggregate hf =>
      rename_i y fees
      obtain ⟨i, hi, rfl⟩ := List.getElem_of_mem hm
      refine ⟨fees[i]'(by omega), List.mem_map.2 ⟨(y.2[i], fees[i]'(by omega)), ?_, rfl⟩⟩
      rw [List.mem_iff_getElem]
      exact ⟨i, by simp; omega, by simp⟩
    | route hn ha hr => exact absurd rfl (ha _)
  | route hm =>
    obtain ⟨c2, k1, k2, k3, k4, k5, k6⟩ := RoutesTo.kind hm
    rw [hc] at k1
    cases k1
    cases h with
    | merkle _ _ => exact absurd rfl (k2 _)
    | fee => exact absurd rfl (k3 _)
    | pausable _ => exact absurd rfl (k4 _)
    | aggregate _ => exact absurd rfl (k5 _)
    | igp _ _ => exact absurd rfl (k6 _)
    | route hn ha hr =>
      have := (hr hooks hc m).1 hm
      subst this
      exact ⟨[], by simp⟩

/-- Messages that are executed to the end head no endless arrangement. -/
theorem run_ends {gas : Nat} {s s' : Sys} {l : List (Addr × OutMsg)} {b : Bytes} (h : runMsgs W gas s l = .ok s')
    {src dst : Addr} {md : Bytes} {f : List Coin} (hm : (src, .execute dst (.postDispatch md b) f) ∈ l) :
    ¬ EndlessHooks s.hooks b dst := by
  induction gas generalizing s l src dst md f with
  | zero =>
    cases l with
    | nil => cases hm
    | cons m t => cases h
  | succ n ih =>
    cases l with
    | nil => cases hm
    | cons m t =>
      obtain ⟨src', o⟩ := m
      obtain ⟨y, h1, h2⟩ := bind_eq_ok.1 h
      have key : Alike s.hooks y.1.hooks ∧ ∀ d' md' f', o = .execute d' (.postDispatch md' b) f' →
          ∀ m, PassesTo s.hooks b d' m → ∃ f'', (d', .execute m (.postDispatch md' b) f'') ∈ y.2 := by
        match o, h1 with
        | .execute d' (.postDispatch md' b') f', h1 =>
          obtain ⟨k, c, c', msgs, h3, h4, h5, rfl⟩ := step_execute h1
          refine ⟨h5.alike h4, ?_⟩
          intro d2 md2 f2 e m hp
          simp only [OutMsg.execute.injEq, Payload.postDispatch.injEq] at e
          obtain ⟨rfl, ⟨rfl, rfl⟩, rfl⟩ := e
          obtain ⟨f'', hf⟩ := h5.passes h4 hp
          exact ⟨f'', List.mem_map.2 ⟨_, hf, rfl⟩⟩
        | .bankSend d' f', h1 =>
          obtain ⟨k, h3, rfl⟩ := step_bankSend h1
          exact ⟨fun a => .inl rfl, by intro _ _ _ e; cases e⟩
      obtain ⟨ka, kp⟩ := key
      have htr : ∀ {a}, EndlessHooks s.hooks b a → EndlessHooks y.1.hooks b a :=
        fun ⟨g, g0, g1⟩ => ⟨g, g0, fun n => ka.passesTo (g1 n)⟩
      rcases List.mem_cons.1 hm with e | hm
      · cases e
        rintro ⟨g, g0, g1⟩
        have g2 := g1 0
        rw [g0] at g2
        obtain ⟨f'', hf⟩ := kp _ _ _ rfl _ g2
        exact ih h2 (List.mem_append_left _ hf) (htr ⟨fun n => g (n + 1), rfl, fun n => g1 (n + 1)⟩)
      · exact fun he => ih h2 (List.mem_append_right _ hm) (htr he)

theorem quoteFold_each {quote : Addr → Bytes → Bytes → Res (List Coin)} {md b : Bytes} {l : List Addr}
    {acc r : OMap String Nat} (h : AggregateHook.quoteFold quote md b acc l = .ok r) {m : Addr} (hm : m ∈ l) :
    ∃ x, quote m md b = .ok x := by
  induction l generalizing acc with
  | nil => cases hm
  | cons a t ih =>
    unfold AggregateHook.quoteFold at h
    obtain ⟨x, h1, h⟩ := bind_eq_ok.1 h
    obtain ⟨y, h2, h⟩ := bind_eq_ok.1 h
    rcases List.mem_cons.1 hm with rfl | hm
    · exact ⟨x, h1⟩
    · exact ih h hm

/-- A hook that is quoted quotes what it passes messages on to. -/
theorem quote_passes {hooks : Contracts} {n : Nat} {a m : Addr} {md b : Bytes} {r : List Coin}
    (h : quoteOf hooks (n + 1) a md b = .ok r) (hp : PassesTo hooks b a m) : ∃ x, quoteOf hooks n m md b = .ok x := by
  unfold quoteOf at h
  cases hp with
  | member hs hm =>
    simp only [hs] at h
    obtain ⟨t, h1, _⟩ := bind_eq_ok.1 h
    exact quoteFold_each h1 hm
  | route hm =>
    cases hm with
    | routing hs hx =>
      simp only [hs] at h
      obtain ⟨hook, h3, h⟩ := bind_eq_ok.1 h
      obtain ⟨x, hm, h4⟩ := bind_eq_ok.1 h3
      obtain ⟨_, hd, _⟩ := decode_fields hm
      rw [RoutingHook.found_ok, hd, hx] at h4
      cases h4
      exact ⟨_, h⟩
    | fallbackRoute hs hf hx =>
      simp only [hs] at h
      obtain ⟨hook, h3, h⟩ := bind_eq_ok.1 h
      obtain ⟨x, hm, h4⟩ := bind_eq_ok.1 h3
      obtain ⟨_, hd, _⟩ := decode_fields hm
      obtain ⟨f, h5, h4⟩ := bind_eq_ok.1 h4
      simp only [pure_eq_ok, Except.ok.injEq, hd, hx] at h4
      cases h4
      exact ⟨_, h⟩
    | fallback hs hf hx =>
      simp only [hs] at h
      obtain ⟨hook, h3, h⟩ := bind_eq_ok.1 h
      obtain ⟨x, hm, h4⟩ := bind_eq_ok.1 h3
      obtain ⟨_, hd, _⟩ := decode_fields hm
      obtain ⟨f, h5, h4⟩ := bind_eq_ok.1 h4
      simp only [pure_eq_ok, Except.ok.injEq, hd, hx] at h4
      unfold FallbackHook.loadFallback at h5
      rw [hf] at h5
      cases h5
      cases h4
      exact ⟨_, h⟩
    | custom hs hx =>
      simp only [hs] at h
      obtain ⟨hook, h3, h⟩ := bind_eq_ok.1 h
      obtain ⟨x, hm, h4⟩ := bind_eq_ok.1 h3
      obtain ⟨_, hd, hr⟩ := decode_fields hm
      unfold CustomHook.pick at h4
      rw [hd, hr, hx] at h4
      cases h4
      exact ⟨_, h⟩
    | customRoute hs hn hx =>
      simp only [hs] at h
      obtain ⟨hook, h3, h⟩ := bind_eq_ok.1 h
      obtain ⟨x, hm, h4⟩ := bind_eq_ok.1 h3
      obtain ⟨_, hd, hr⟩ := decode_fields hm
      unfold CustomHook.pick at h4
      rw [hd, hr, hn] at h4
      rw [RoutingHook.found_ok, hx] at h4
      cases h4
      exact ⟨_, h⟩

theorem quote_ends {hooks : Contracts} {n : Nat} {a : Addr} {md b : Bytes} {r : List Coin}
    (h : quoteOf hooks n a md b = .ok r) : ¬ EndlessHooks hooks b a := by
  induction n generalizing a r with
  | zero => cases h
  | succ n ih =>
    rintro ⟨g, g0, g1⟩
    have g2 := g1 0
    rw [g0] at g2
    obtain ⟨x, hx⟩ := quote_passes h g2
    exact ih hx ⟨fun n => g (n + 1), rfl, fun n => g1 (n + 1)⟩

/-- **C100** (hooks). If from the required hook or the hook chosen the message is passed on without an end (as when aggregate and
routing hooks name each other in a circle), then no dispatch of the message succeeds, whoever sends it, with whatever coins and
however much gas; no such hook can be called directly; and no depth of queries gives a quote for it. -/
theorem C100_endless_hooks {s : Sys} {sender required dflt : Addr} {from32 : Bytes} {q : DispatchMsg}
    (hfrom : bech32ToH256 W.C sender = .ok from32)
    (hreq : s.box.config.requiredHook = some required) (hdef : s.box.config.defaultHook = some dflt) :
    (EndlessHooks s.hooks (requestMessage s.box from32 q) required ∨
      EndlessHooks s.hooks (requestMessage s.box from32 q) (q.hook.getD dflt) →
      ∀ gas funds, ∃ e, HookSystem.dispatch W gas s sender funds q = .error e) ∧
    (∀ b a, EndlessHooks s.hooks b a → (∀ gas caller md funds, ∃ e, callHook W gas s caller a md b funds = .error e) ∧
      ∀ depth md, ∃ e, quoteOf s.hooks depth a md b = .error e) := by
  refine ⟨?_, ?_⟩
  · intro hend gas funds
    cases h : HookSystem.dispatch W gas s sender funds q with
    | error e => exact ⟨e, rfl⟩
    | ok s' =>
      exfalso
      obtain ⟨k, h1, h⟩ := bind_eq_ok.1 h
      obtain ⟨⟨box, r⟩, h2, h3⟩ := bind_eq_ok.1 h
      obtain ⟨h32, dflt', hook, required', fees, attached, rest, n, g1, g2, g3, g4, g5, g6, g7, g8, g9, rfl, rfl⟩ :=
        Mailbox.dispatch_ok.1 h2
      rw [hfrom] at g2
      rw [hdef] at g3
      rw [hreq] at g5
      cases g2
      cases g3
      cases g5
      have hhook : hook = q.hook.getD dflt := by
        unfold Mailbox.getHookAddr at g4
        cases hq : q.hook with
        | none => rw [hq] at g4; cases g4; rfl
        | some a =>
          rw [hq] at g4
          obtain ⟨_, _, hf⟩ := bind_eq_ok.1 g4
          cases hf
          rfl
      subst hhook
      rcases hend with hend | hend
      · exact run_ends (b := requestMessage s.box from32 q) h3 List.mem_cons_self hend
      · exact run_ends (b := requestMessage s.box from32 q) h3 (List.mem_cons_of_mem _ List.mem_cons_self) hend
  · intro b a hend
    refine ⟨fun gas caller md funds => ?_, fun depth md => ?_⟩
    · cases h : callHook W gas s caller a md b funds with
      | error e => exact ⟨e, rfl⟩
      | ok s' => exact absurd hend (run_ends h List.mem_cons_self)
    · cases h : quoteOf s.hooks depth a md b with
      | error e => exact ⟨e, rfl⟩
      | ok r => exact absurd hend (quote_ends h)

/-! ### Modules -/

theorem asked_first {V : Verifier} {message : Bytes} {t r : UInt8} {es : List (Addr × Bytes)} {c : Addr} {p : Bytes}
    (hs : KeySorted es) (hc : (c, p) ∈ es) (hl : ∀ e ∈ es, c ≤ e.1)
    (h : AggregateIsm.loop V message t es = .ok r) : ∃ b, V c p message = .ok b := by
  cases es with
  | nil => cases hc
  | cons e rest =>
    obtain ⟨hs1, _⟩ := List.pairwise_cons.1 hs
    rcases List.mem_cons.1 hc with rfl | hc'
    · unfold AggregateIsm.loop at h
      obtain ⟨b, h1, _⟩ := bind_eq_ok.1 h
      exact ⟨b, h1⟩
    · exact absurd (hs1 _ hc') (not_lt.2 (hl e List.mem_cons_self))

/-- **C100** (modules). If from a module the question about messages of an origin is passed on without an end (as when routing
modules name each other in a circle, or an aggregate names itself first), then it never answers, and a mailbox that it is
responsible for delivers no message of this origin, whatever the metadata. -/
theorem C100_endless_modules {H : Bytes → Bytes} {R : Recover} {world : Addr → Option IsmContract} {message : Bytes} {m : Message}
    (hm : WireFormat m message) {a : Addr} (he : EndlessModules world m.origin a) :
    NeverAnswers H R world message a ∧
    ∀ {C : Codec} {s : Mailbox.State} {sender recipient : Addr} {env : Mailbox.Env} {funds : List Coin} {md : Bytes},
      bech32Encode C s.config.hrp m.recipient = .ok recipient →
      (∀ ism, ResponsibleIsm env s recipient ism → ism = a) →
      ∀ depth, ∃ e, Mailbox.execute H C s
        ⟨{ env with verify := askIsm H R world depth }, sender, funds, .process md message⟩ = .error e := by
  have hn : NeverAnswers H R world message a := by
    intro depth
    induction depth generalizing a with
    | zero => intro md b h; cases h
    | succ n ih =>
      intro md b h
      obtain ⟨g, g0, g1⟩ := he
      have g2 := g1 0
      rw [g0] at g2
      have ih' := ih (a := g 1) ⟨fun n => g (n + 1), rfl, fun n => g1 (n + 1)⟩
      unfold askIsm at h
      cases g2 with
      | routing hs hb =>
        simp only [hs] at h
        obtain ⟨m', h1, h⟩ := bind_eq_ok.1 h
        obtain ⟨x, h2, h⟩ := bind_eq_ok.1 h
        have e : m' = m := wireFormat_unique (wireFormat_of_decode h1) hm
        subst e
        unfold RoutingIsm.moduleFor at h2
        rw [hb] at h2
        cases h2
        exact ih' _ _ h
      | aggregate hs hb hl =>
        simp only [hs] at h
        obtain ⟨mt, r, h1, h2, h3⟩ := AggregateIsm.verify_ok.1 h
        obtain ⟨g3, g4⟩ := AggregateMeta.fromHex_ok h1
        obtain ⟨p, hp⟩ := OMap.mem_keys_iff.1 ((g4 _).2 hb)
        obtain ⟨x, hx⟩ := asked_first mt.sorted (OMap.get_eq_some_iff.1 hp)
          (fun e he => hl _ ((g4 e.1).1 (List.mem_map.2 ⟨e, he, rfl⟩))) h2
        exact ih' _ _ hx
  refine ⟨hn, ?_⟩
  intro C s sender recipient env funds md hr hi depth
  cases h : Mailbox.execute H C s ⟨{ env with verify := askIsm H R world depth }, sender, funds, .process md message⟩ with
  | error e => exact ⟨e, rfl⟩
  | ok y =>
    obtain ⟨m', rc, ism, h1, _, _, _, h2, h3, h4⟩ := C16_ism_approval (s' := y.1) (r := y.2) rfl h
    have e := wireFormat_unique h1 hm
    subst e
    rw [hr] at h2
    cases h2
    have := hi ism h3
    subst this
    exact absurd h4 (hn depth md true)

/-! ### Examples -/

/-- A routing hook for domain 2 and an aggregate hook that name each other. -/
def Ex.circle : Contracts := fun a =>
  if a = "route" then some (.routing (Ownable.init "o", OMap.empty.insert 2 (some "agg")))
  else if a = "agg" then some (.aggregate (Ownable.init "o", ["toll", "route"]))
  else if a = "toll" then some (.fee (Ownable.init "o", ⟨"uatom", 7⟩))
  else none

theorem Ex.circle_endless {b : Bytes} (hb : destOf b = 2) : EndlessHooks Ex.circle b "agg" := by
  have h1 : PassesTo Ex.circle b "agg" "route" :=
    .member (s := (Ownable.init "o", ["toll", "route"])) rfl (by decide)
  have h2 : PassesTo Ex.circle b "route" "agg" := by
    refine .route (.routing (s := (Ownable.init "o", OMap.empty.insert 2 (some "agg"))) rfl ?_)
    rw [hb]
    decide +kernel
  refine ⟨fun n => if n % 2 = 0 then "agg" else "route", rfl, fun n => ?_⟩
  rcases Nat.mod_two_eq_zero_or_one n with h | h
  · have : (n + 1) % 2 = 1 := by omega
    simpa [h, this] using h1
  · have : (n + 1) % 2 = 0 := by omega
    simpa [h, this] using h2

/-- Nobody can dispatch to domain 2 through them. -/
example (gas : Nat) (funds : List Coin) : ∃ e, HookSystem.dispatch Ex.hookWorld gas { Ex.hookSys with hooks := Ex.circle } Ex.alice
    funds { Ex.request with dest := 2, hook := some "agg" } = .error e :=
  (C100_endless_hooks (from32 := Ex.request.recipient) (required := "req") (dflt := "hook")
    (CustomHook.toOption_eq_some.1 (by decide +kernel)) rfl rfl).1 (.inr (Ex.circle_endless (by decide +kernel))) gas funds

/-- A routing module that names itself, and an aggregate that asks it first. -/
def Ex.mirror : Addr → Option IsmContract := fun a =>
  if a = "mirror" then some (.routing (OMap.empty.insert 1 "mirror"))
  else if a = "pair" then some (.aggregate ⟨["z", "mirror"], 1⟩)
  else if a = "z" then some (.pausable false)
  else none

theorem Ex.mirror_endless : EndlessModules Ex.mirror 1 "pair" := by
  refine ⟨fun n => if n = 0 then "pair" else "mirror", rfl, fun n => ?_⟩
  cases n with
  | zero => exact .aggregate (s := ⟨["z", "mirror"], 1⟩) rfl (by decide) (by decide)
  | succ n => exact .routing (s := OMap.empty.insert 1 "mirror") rfl (show _ = some "mirror" by decide +kernel)

example (H : Bytes → Bytes) (R : Recover) : NeverAnswers H R Ex.mirror Ex.message.encode "pair" :=
  (C100_endless_modules (m := Ex.message) (wireFormat_of_decode (by decide +kernel)) Ex.mirror_endless).1

end Hpl
