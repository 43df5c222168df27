import Verif.Examples.Mailbox
import Verif.Lemmas.Hooks
import Verif.Props.Bech32
import Verif.Spec.Bridge

/-! # Two concrete chains with linked routers -/

namespace Hpl.Ex

open Bridge Spec

/-- Identities of the two routers. -/
def routerId : Side → Bytes
  | .left => List.replicate 31 1 ++ [7]
  | .right => List.replicate 31 2 ++ [8]

/-- Domains of the two chains. -/
def domainOf : Side → UInt32
  | .left => 1
  | .right => 2

/-- Address of the router with a given identity. -/
def routerAddr (side : Side) : Addr := ((bech32Encode Bech.codec "osmo" (routerId side)).toOption).getD ""

/-- The native token "uosmo" on the left, a cw20 token on the right. -/
def setup : Side → Setup
  | .left => ⟨true, Bech.codec, routerAddr .left, "mb", "uosmo"⟩
  | .right => ⟨false, Bech.codec, routerAddr .right, "mb", "cw"⟩

/-- Both chains right after deployment and mutual enrolment. -/
def bridge0 (side : Side) : Chain where
  box := ⟨⟨"osmo", domainOf side, some "ism", some "hook", some "req"⟩, Ownable.init alice, 0, none, OMap.empty⟩
  router := (Ownable.init "o", ⟨some (setup side).token, match side with
    | .left => .collateral
    | .right => .bridged, "osmo", "mb", Connection.empty,
    Router.setRoutes OMap.empty [(domainOf side.other, some (routerId side.other))]⟩)
  held := 0
  supply := 0

/-- Hooks are free, security modules accept everything. -/
def freeEnv : Mailbox.Env := { env with quote := fun _ _ _ => .ok [] }

theorem bridge0_linked : Linked setup routerId domainOf bridge0 where
  codec := by intro x; cases x <;> exact bech32_codec_lawful
  domains := by decide
  domain := fun _ => rfl
  identity := by intro x; cases x <;> decide +kernel
  address := by intro x; cases x <;> decide +kernel
  token := fun _ => rfl
  mailbox := by intro x; cases x <;> rfl
  routes := by
    intro x o
    show Router.getRoute (Router.setRoutes OMap.empty [(domainOf x.other, some (routerId x.other))]) o = _
    rw [getRoute_setRoutes]
    by_cases h : o = domainOf x.other
    · subst h; simp [lastFor]
    · have h' : domainOf x.other ≠ o := fun hh => h hh.symm
      simp [h, h', lastFor]; rfl
  collateral := rfl
  bridged := rfl

/-- What a step makes of a state, if it succeeds. -/
def after (H : Bytes → Bytes) (s : Side → Chain) (a : Act) : (Side → Chain) × Out := ((step H setup s a).toOption).getD (s, {})

theorem after_ok {H : Bytes → Bytes} {s : Side → Chain} {a : Act} (h : (step H setup s a).toOption.isSome = true) :
    step H setup s a = .ok (after H s a) := by
  unfold after
  cases hs : step H setup s a with
  | ok x => rfl
  | error e => rw [hs] at h; cases h

/-- The state after acts that succeed, and their log. -/
def play (H : Bytes → Bytes) : (Side → Chain) → List Act → (Side → Chain) × BridgeLog
  | s, [] => (s, [])
  | s, a :: t => ((play H (after H s a).1 t).1, (a, (after H s a).2) :: (play H (after H s a).1 t).2)

/-- Do all acts succeed? -/
def playable (H : Bytes → Bytes) : (Side → Chain) → List Act → Bool
  | _, [] => true
  | s, a :: t => (step H setup s a).toOption.isSome && playable H (after H s a).1 t

/-- Playing acts one after the other is a history of transactions of one act each. -/
theorem history_play {H : Bytes → Bytes} {s : Side → Chain} {l : List Act} (h : playable H s l = true) :
    Tx.history (step H setup) s (l.map (fun a => [.call a []])) = play H s l := by
  have key : ∀ (l : List Act) s log, playable H s l = true →
      (l.map (fun a => [Tx.Act.call a []])).foldl
        (fun x tx => ((Tx.exec (step H setup) (.attempt tx) x).getD x)) (s, log) =
      ((play H s l).1, log ++ (play H s l).2) := by
    intro l
    induction l with
    | nil => intro s log _; simp [play]
    | cons a t ih =>
      intro s log h
      simp only [playable, Bool.and_eq_true] at h
      have h1 := after_ok h.1
      rw [List.map_cons, List.foldl_cons]
      have h2 : (Tx.exec (step H setup) (.attempt [.call a []]) (s, log)).getD (s, log) =
          ((after H s a).1, log ++ [(a, (after H s a).2)]) := by
        simp only [Tx.exec, Tx.execList, h1, Option.getD_some]
      rw [h2, ih _ _ h.2]
      simp [play]
  have := key l s [] h
  rwa [List.nil_append] at this

/-- A check of `Honest`. -/
def honestFrom (P : Side → Setup) (r : Side → Bytes) (d : Side → UInt32) (pre : BridgeLog) : BridgeLog → Bool
  | [] => true
  | (.router x c env, o) :: t => decide (c.sender ≠ (P x).mailbox) && (match c.msg with
    | .inr (.router _) => false
    | _ => true) && honestFrom P r d (pre ++ [(.router x c env, o)]) t
  | (.mailbox x c, o) :: t => (match c.msg with
    | .dispatch _ => decide ((bech32ToH256 (P x).codec c.sender).toOption ≠ some (r x))
    | .process _ m => decide (originOf m ≠ (d x.other).toNat ∨ senderOf m ≠ r x.other ∨ recipientOf m ≠ r x ∨ m ∈ announcedOn x.other pre)
    | _ => true) && honestFrom P r d (pre ++ [(.mailbox x c, o)]) t
  | e :: t => honestFrom P r d (pre ++ [e]) t

theorem honest_of {P : Side → Setup} {r : Side → Bytes} {d : Side → UInt32} {log : BridgeLog}
    (h : honestFrom P r d [] log = true) : Honest P r d log := by
  have key : ∀ log pre, honestFrom P r d pre log = true →
      (∀ e ∈ log, ∀ x c env, e.1 = .router x c env → c.sender ≠ (P x).mailbox) ∧
      (∀ e ∈ log, ∀ x c env, e.1 = .router x c env → ∀ m, c.msg ≠ .inr (.router m)) ∧
      (∀ e ∈ log, ∀ x c q, e.1 = .mailbox x c → c.msg = .dispatch q →
        bech32ToH256 (P x).codec c.sender ≠ .ok (r x)) ∧
      (∀ p x c out post md m, log = p ++ (Act.mailbox x c, out) :: post → c.msg = .process md m →
        originOf m = (d x.other).toNat → senderOf m = r x.other → recipientOf m = r x →
        m ∈ announcedOn x.other (pre ++ p)) := by
    intro log
    induction log with
    | nil => intro pre _; simp
    | cons e t ih =>
      intro pre h
      have hrec : honestFrom P r d (pre ++ [e]) t = true := by
        obtain ⟨a, o⟩ := e
        cases a <;> simp_all [honestFrom]
      obtain ⟨i1, i2, i3, i4⟩ := ih _ hrec
      refine ⟨?_, ?_, ?_, ?_⟩
      · intro e' he' x c env hx
        rcases List.mem_cons.1 he' with rfl | he'
        · obtain ⟨a, o⟩ := e'
          simp only at hx
          subst hx
          simp only [honestFrom, Bool.and_eq_true, decide_eq_true_eq] at h
          exact h.1.1
        · exact i1 e' he' x c env hx
      · intro e' he' x c env hx m hm
        rcases List.mem_cons.1 he' with rfl | he'
        · obtain ⟨a, o⟩ := e'
          simp only at hx
          subst hx
          simp only [honestFrom, Bool.and_eq_true, decide_eq_true_eq] at h
          have := h.1.2
          rw [hm] at this
          cases this
        · exact i2 e' he' x c env hx m hm
      · intro e' he' x c q hx hm
        rcases List.mem_cons.1 he' with rfl | he'
        · obtain ⟨a, o⟩ := e'
          simp only at hx
          subst hx
          simp only [honestFrom, Bool.and_eq_true, hm, decide_eq_true_eq] at h
          intro hh
          rw [hh] at h
          exact h.1 rfl
        · exact i3 e' he' x c q hx hm
      · intro p x c out post md m hl hm ho hs hr
        cases p with
        | nil =>
          obtain ⟨rfl, rfl⟩ := List.cons.inj hl
          simp only [honestFrom, Bool.and_eq_true, hm, decide_eq_true_eq] at h
          rw [List.append_nil]
          rcases h.1 with hh | hh | hh | hh
          · exact absurd ho hh
          · exact absurd hs hh
          · exact absurd hr hh
          · exact hh
        | cons b p =>
          obtain ⟨rfl, rfl⟩ := List.cons.inj hl
          have := i4 p x c out post md m rfl hm ho hs hr
          rwa [List.append_assoc, List.singleton_append] at this
  obtain ⟨k1, k2, k3, k4⟩ := key log [] h
  exact ⟨k1, k2, k3, fun pre x c out post md m hl => k4 pre x c out post md m hl⟩

/-- A check of `Recipients`. -/
def recipientsOf : BridgeLog → List Nat := fun log => log.flatMap (fun e => match e.1 with
  | .router _ ⟨_, _, _, .inr (.transferRemote _ recipient _ _ _)⟩ _ => [recipient.length]
  | _ => [])

theorem recipients_of {Q : Nat → Prop} {log : BridgeLog} (h : ∀ n ∈ recipientsOf log, Q n) : Recipients Q log := by
  intro e he x c env dest recipient amount hook md h1 h2
  apply h
  refine List.mem_flatMap.2 ⟨e, he, ?_⟩
  obtain ⟨a, o⟩ := e
  obtain ⟨c1, c2, c3, c4⟩ := c
  simp only at h1 h2
  subst h1 h2
  simp

/-- Alice sends tokens from the left to the right. -/
def sendRight (recipient : Bytes) (amount : Nat) : Act :=
  .router .left ⟨fun _ => true, alice, [⟨"uosmo", amount⟩], .inr (.transferRemote 2 recipient amount none none)⟩ freeEnv

/-- Alice sends tokens from the right to the left. -/
def sendLeft (recipient : Bytes) (amount : Nat) : Act :=
  .router .right ⟨fun _ => true, alice, [], .inr (.transferRemote 1 recipient amount none none)⟩ freeEnv

/-- Somebody delivers a message on one chain. -/
def relay (side : Side) (m : Bytes) : Act := .mailbox side ⟨freeEnv, "relayer", [], .process [] m⟩

/-- The message of a transfer from `side`. -/
def transferMsg (side : Side) (nonce : UInt32) (recipient : Bytes) (amount : Nat) : Bytes :=
  Message.encode ⟨3, nonce, domainOf side, routerId side, domainOf side.other, routerId side.other,
    recipient ++ u256be amount⟩

/-- The identity of alice. -/
def aliceId : Bytes := zeros 12 ++ aliceRaw

/-- Two transfers to the right, one of them delivered, a gift, part of the delivered tokens sent back and delivered, part
sent back and not delivered, part burned. -/
def fairActs : List Act :=
  [sendRight aliceId 100, .gift .left 3, sendRight aliceId 20, relay .right (transferMsg .left 0 aliceId 100),
   sendLeft aliceId 30, .burn .right 4, sendLeft aliceId 7, relay .left (transferMsg .right 0 aliceId 30)]

/-- Alice pays one token and names a recipient of 64 bytes: themself and the amount 1000. -/
def attackActs : List Act :=
  [sendRight (aliceId ++ u256be 1000) 1, relay .right (transferMsg .left 0 (aliceId ++ u256be 1000) 1)]

end Hpl.Ex
