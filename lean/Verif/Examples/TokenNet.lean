import Verif.Examples.Bridge
import Verif.Spec.TokenNet
import Mathlib.Data.Fintype.Basic

/-! # Three concrete chains with token routers -/

namespace Hpl.Ex.Net

open Bridge Spec TokenNet

/-! ## Playing acts one after the other -/

section play

variable {σ α ο : Type} {step : σ → α → Res (σ × ο)}

/-- What a step makes of a state, if it succeeds. -/
def after (step : σ → α → Res (σ × ο)) [Inhabited ο] (s : σ) (a : α) : σ × ο := ((step s a).toOption).getD (s, default)

theorem after_ok [Inhabited ο] {s : σ} {a : α} (h : (step s a).toOption.isSome = true) :
    step s a = .ok (after step s a) := by
  unfold after
  cases hs : step s a with
  | ok x => rfl
  | error e => rw [hs] at h; cases h

/-- The state after acts that succeed, and their log. -/
def play (step : σ → α → Res (σ × ο)) [Inhabited ο] : σ → List α → σ × List (α × ο)
  | s, [] => (s, [])
  | s, a :: t => ((play step (after step s a).1 t).1, (a, (after step s a).2) :: (play step (after step s a).1 t).2)

/-- Do all acts succeed? -/
def playable (step : σ → α → Res (σ × ο)) [Inhabited ο] : σ → List α → Bool
  | _, [] => true
  | s, a :: t => (step s a).toOption.isSome && playable step (after step s a).1 t

/-- Playing acts one after the other is a history of transactions of one act each. -/
theorem history_play [Inhabited ο] {s : σ} {l : List α} (h : playable step s l = true) :
    Tx.history step s (l.map (fun a => [.call a []])) = play step s l := by
  have key : ∀ (l : List α) s log, playable step s l = true →
      (l.map (fun a => [Tx.Act.call a []])).foldl
        (fun x tx => ((Tx.exec step (.attempt tx) x).getD x)) (s, log) =
      ((play step s l).1, log ++ (play step s l).2) := by
    intro l
    induction l with
    | nil => intro s log _; simp [play]
    | cons a t ih =>
      intro s log h
      simp only [playable, Bool.and_eq_true] at h
      have h1 := after_ok h.1
      rw [List.map_cons, List.foldl_cons]
      have h2 : (Tx.exec step (.attempt [.call a []]) (s, log)).getD (s, log) =
          ((after step s a).1, log ++ [(a, (after step s a).2)]) := by
        simp only [Tx.exec, Tx.execList, h1, Option.getD_some]
      rw [h2, ih _ _ h.2]
      simp [play]
  have := key l s [] h
  rwa [List.nil_append] at this

end play

instance : Inhabited Out := ⟨{}⟩

/-! ## Checks of the assumptions -/

section checks

variable {κ : Type} [DecidableEq κ] [Fintype κ]

/-- A check of one update of routes. -/
def routeOk (r : κ → Bytes) (d : κ → UInt32) (u : UInt32 × Option Bytes) : Bool :=
  match u.2 with
  | none => true
  | some q => decide (∃ y, u.1 = d y ∧ q = r y)

/-- A check of what `HonestNet` says of one entry, given those before it. -/
def entryOk (P : κ → Setup) (r : κ → Bytes) (d : κ → UInt32) (pre : TokenLog κ) : TokenNet.Act κ → Bool
  | .router x c _ => decide (c.sender ≠ (P x).mailbox) && (match c.msg with
    | .inr m => (remoteUpdates m).all (routeOk r d)
    | _ => true)
  | .mailbox x c => (match c.msg with
    | .dispatch _ => decide ((bech32ToH256 (P x).codec c.sender).toOption ≠ some (r x))
    | .process _ m => decide (∀ y, originOf m = (d y).toNat → senderOf m = r y → recipientOf m = r x →
        m ∈ announcedAt y pre)
    | _ => true)
  | _ => true

/-- A check of `HonestNet`. -/
def honestFrom (P : κ → Setup) (r : κ → Bytes) (d : κ → UInt32) (pre : TokenLog κ) : TokenLog κ → Bool
  | [] => true
  | e :: t => entryOk P r d pre e.1 && honestFrom P r d (pre ++ [e]) t

theorem entryOk_of {P : κ → Setup} {r : κ → Bytes} {d : κ → UInt32} : ∀ (log pre : TokenLog κ),
    honestFrom P r d pre log = true → ∀ p e post, log = p ++ e :: post → entryOk P r d (pre ++ p) e.1 = true := by
  intro log
  induction log with
  | nil => intro pre _ p e post hl; simp at hl
  | cons a t ih =>
    intro pre h p e post hl
    simp only [honestFrom, Bool.and_eq_true] at h
    cases p with
    | nil =>
      obtain ⟨rfl, rfl⟩ := List.cons.inj hl
      rw [List.append_nil]
      exact h.1
    | cons b p =>
      obtain ⟨rfl, rfl⟩ := List.cons.inj hl
      have := ih _ h.2 p e post rfl
      rwa [List.append_assoc, List.singleton_append] at this

theorem honest_of {P : κ → Setup} {r : κ → Bytes} {d : κ → UInt32} {log : TokenLog κ}
    (h : honestFrom P r d [] log = true) : HonestNet P r d log := by
  have key : ∀ e ∈ log, ∃ pre, entryOk P r d pre e.1 = true := by
    intro e he
    obtain ⟨p, post, hl⟩ := List.append_of_mem he
    exact ⟨_, entryOk_of log [] h p e post hl⟩
  refine ⟨?_, ?_, ?_, ?_⟩
  · intro e he x c env hx
    obtain ⟨pre, hk⟩ := key e he
    rw [hx] at hk
    simp only [entryOk, Bool.and_eq_true, decide_eq_true_eq] at hk
    exact hk.1
  · intro e he x c env m hx hm o q ho
    obtain ⟨pre, hk⟩ := key e he
    rw [hx] at hk
    simp only [entryOk, Bool.and_eq_true, hm] at hk
    have := List.all_eq_true.1 hk.2 _ ho
    simpa [routeOk] using this
  · intro e he x c q hx hm hh
    obtain ⟨pre, hk⟩ := key e he
    rw [hx] at hk
    simp only [entryOk, hm, decide_eq_true_eq, hh] at hk
    exact hk rfl
  · intro pre x c out post md m hl hm y h1 h2 h3
    have hk := entryOk_of log [] h pre _ post hl
    simp only [entryOk, hm, decide_eq_true_eq, List.nil_append] at hk
    exact hk y h1 h2 h3

/-- A check of `RecipientsNet`. -/
def recipientsOf (log : TokenLog κ) : List Nat := log.flatMap (fun e => match e.1 with
  | .router _ ⟨_, _, _, .inr (.transferRemote _ recipient _ _ _)⟩ _ => [recipient.length]
  | _ => [])

omit [DecidableEq κ] [Fintype κ] in
theorem recipients_of {Q : Nat → Prop} {log : TokenLog κ} (h : ∀ n ∈ recipientsOf log, Q n) :
    RecipientsNet Q log := by
  intro e he x c env dest recipient amount hook md h1 h2
  apply h
  refine List.mem_flatMap.2 ⟨e, he, ?_⟩
  obtain ⟨a, o⟩ := e
  obtain ⟨c1, c2, c3, c4⟩ := c
  simp only at h1 h2
  subst h1 h2
  simp

end checks

/-! ## Three chains -/

/-- Identities of the routers. -/
def rid (x : Fin 3) : Bytes := List.replicate 31 (UInt8.ofNat (x.val + 1)) ++ [UInt8.ofNat (x.val + 7)]

/-- Domains of the chains. -/
def dom (x : Fin 3) : UInt32 := UInt32.ofNat (x.val + 1)

/-- Address of the router with a given identity. -/
def addr (x : Fin 3) : Addr := ((bech32Encode Bech.codec "osmo" (rid x)).toOption).getD ""

/-- A native token on chains 0 and 2, a cw20 token on chain 1. -/
def setup (x : Fin 3) : Setup := ⟨decide (x ≠ 1), Bech.codec, addr x, "mb", if x = 1 then "cw" else "uosmo"⟩

/-- Routes to the two other chains. -/
def routes (x : Fin 3) : List (UInt32 × Option Bytes) :=
  [(dom (x + 1), some (rid (x + 1))), (dom (x + 2), some (rid (x + 2)))]

/-- The chains right after deployment and mutual enrolment, with routers of given modes. -/
def start (M : Fin 3 → Warp.Mode) (x : Fin 3) : Chain where
  box := ⟨⟨"osmo", dom x, some "ism", some "hook", some "req"⟩, Ownable.init alice, 0, none, OMap.empty⟩
  router := (Ownable.init "o", ⟨some (setup x).token, M x, "osmo", "mb", Connection.empty,
    Router.setRoutes OMap.empty (routes x)⟩)
  held := 0
  supply := 0

theorem start_joined (M : Fin 3 → Warp.Mode) : Joined setup rid dom M (start M) where
  codec := fun _ => bech32_codec_lawful
  domains := by decide
  domain := fun _ => rfl
  identity := by decide +kernel
  address := by intro x; show bech32Encode Bech.codec "osmo" (rid x) = .ok (addr x); revert x; decide +kernel
  token := fun _ => rfl
  mailbox := fun _ => rfl
  routes := by
    intro x o q h
    have h : Router.getRoute (Router.setRoutes OMap.empty (routes x)) o = some q := h
    rw [getRoute_setRoutes] at h
    simp only [routes, lastFor] at h
    by_cases h2 : dom (x + 2) = o
    · simp [h2] at h
      exact ⟨x + 2, h2.symm, h.symm⟩
    · by_cases h1 : dom (x + 1) = o
      · simp [h1, h2] at h
        exact ⟨x + 1, h1.symm, h.symm⟩
      · simp [h1, h2] at h
        cases h
  mode := fun _ => rfl

/-- The message of a transfer. -/
def transferMsg (x : Fin 3) (nonce : UInt32) (z : Fin 3) (recipient : Bytes) (amount : Nat) : Bytes :=
  Message.encode ⟨3, nonce, dom x, rid x, dom z, rid z, recipient ++ u256be amount⟩

/-- Alice sends tokens from a chain to another. -/
def send (x z : Fin 3) (amount : Nat) : TokenNet.Act (Fin 3) :=
  .router x ⟨fun _ => true, alice, if x = 1 then [] else [⟨"uosmo", amount⟩],
    .inr (.transferRemote (dom z) aliceId amount none none)⟩ freeEnv

/-- Somebody delivers a message on a chain. -/
def relay (x : Fin 3) (m : Bytes) : TokenNet.Act (Fin 3) := .mailbox x ⟨freeEnv, "relayer", [], .process [] m⟩

/-- The owner of a router changes its routes. -/
def reroute (x : Fin 3) (l : List (UInt32 × Option Bytes)) : TokenNet.Act (Fin 3) :=
  .router x ⟨fun _ => true, "o", [], .inr (.router (.setRoutes l))⟩ freeEnv

/-- Collateral on chain 0, bridged tokens on chains 1 and 2. -/
def hub (x : Fin 3) : Warp.Mode := if x = 0 then .collateral else .bridged

/-- Tokens locked on chain 0 go to chain 1, from there partly to chain 2, and from there partly home; a gift, tokens burned
by others, and owners who close and reopen routes. -/
def tour : List (TokenNet.Act (Fin 3)) :=
  [send 0 1 100, .gift 0 3, relay 1 (transferMsg 0 0 1 aliceId 100), reroute 2 [(dom 0, none)], send 1 2 60,
   relay 2 (transferMsg 1 0 2 aliceId 60), reroute 2 [(dom 0, some (rid 0)), (dom 2, some (rid 2))], send 2 0 25,
   .burn 1 4, relay 0 (transferMsg 2 0 0 aliceId 25), send 2 1 5]

end Hpl.Ex.Net
