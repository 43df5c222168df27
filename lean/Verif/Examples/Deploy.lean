import Verif.Examples.TokenWorld
import Verif.Spec.Deploy

/-! # Three chains on which token routers are deployed -/

namespace Hpl.ExDeploy

open Spec TokenWorld
open Ex.Net (rid dom addr routes hub transferMsg play playable)

/-- As `Ex.Net.setup`, with the denomination the router of chain 2 creates. -/
def setup (x : Fin 3) : Bridge.Setup :=
  if x = 2 then { Ex.Net.setup 2 with token := "factory/" ++ addr 2 ++ "/coin" } else Ex.Net.setup x

/-- What all deployers say. -/
def init : Deploy.Init := ⟨"osmo", "o", "mb"⟩

/-- Deployment of the native routers of chains 0 and 2. -/
def native (x : Fin 3) : Res ((Ownable.State × Warp.State) × Bank) :=
  Deploy.native (fun _ => true) (setup x).router init (ExWorld.bank (if x = 0 then 1000 else 0) none)
    (if x = 0 then .collateral "uosmo" else .bridged "coin")

/-- Deployment of the cw20 router of chain 1 with initial balances. -/
def cw20 (l : List (Addr × Nat)) : Res ((Ownable.State × Warp.State) × Cw20) :=
  Deploy.cw20 (fun _ => true) (setup 1).router init true "cw" [] (ExWorld.token "") (.bridged 7 ⟨l, some ("deployer", some 10)⟩)

/-- The result of a deployment. -/
def get {α : Type} (d : α) (x : Res α) : α := x.toOption.getD d

theorem get_ok {α : Type} {d : α} {x : Res α} (h : x.toOption.isSome = true) : x = .ok (get d x) := by
  unfold get
  cases hx : x with
  | ok y => rfl
  | error e => rw [hx] at h; cases h

/-- A router. -/
def noRouter : Ownable.State × Warp.State := (Ownable.init "", ⟨none, .bridged, "", "", Connection.empty, OMap.empty⟩)

/-- The chains after deployment. -/
def start (l : List (Addr × Nat)) (x : Fin 3) : Chain where
  box := (Ex.Net.start hub x).box
  router := if x = 1 then (get (noRouter, ExWorld.token "") (cw20 l)).1 else (get (noRouter, ExWorld.bank 0 none) (native x)).1
  bank := if x = 1 then ExWorld.bank 0 none else (get (noRouter, ExWorld.bank 0 none) (native x)).2
  token := if x = 1 then (get (noRouter, ExWorld.token "") (cw20 l)).2 else ExWorld.token ""

theorem sane (n : Nat) : SaneBank (ExWorld.bank n none) := by
  intro d
  refine ⟨⟨{Ex.alice}, ?_, ?_⟩, ?_⟩
  · intro a ha
    have ha : a ≠ Ex.alice := by simpa using ha
    simp [ExWorld.bank, ha]
  · simp [ExWorld.bank]
  · intro h
    have : d ≠ "uosmo" := by simpa [ExWorld.bank] using h
    simp [ExWorld.bank, this]

theorem start_placed (l : List (Addr × Nat)) : Placed setup rid dom (start l) where
  codec := by
    intro x
    have : (setup x).codec = Bech.codec := by
      unfold setup
      split <;> rfl
    rw [this]
    exact bech32_codec_lawful
  domains := by decide
  domain := fun _ => rfl
  identity := by decide +kernel
  address := by intro x; show bech32Encode (setup x).codec "osmo" (rid x) = .ok (setup x).router; revert x; decide +kernel
  distinct := by decide +kernel

theorem native_ok (x : Fin 3) (h : x ≠ 1) : (native x).toOption.isSome = true := by revert x; decide +kernel

theorem native_two (l : List (Addr × Nat)) :
    Deploy.native (fun _ => true) (setup 2).router init (ExWorld.bank 0 none) (.bridged "coin") =
      .ok ((start l 2).router, (start l 2).bank) := by
  have h1 : native 2 = Deploy.native (fun _ => true) (setup 2).router init (ExWorld.bank 0 none) (.bridged "coin") := by
    unfold native
    rw [if_neg (by decide), if_neg (by decide)]
  have h2 := get_ok (d := (noRouter, ExWorld.bank 0 none)) (native_ok 2 (by decide))
  rw [← h1]
  unfold start
  simp only
  rw [if_neg (by decide), if_neg (by decide)]
  rw [Prod.mk.eta]
  exact h2

/-- All routers were deployed, if the deployment of the cw20 token succeeded. -/
theorem start_deployed {Q : Cw20.Init → Prop} {l : List (Addr × Nat)} (hq : Q ⟨l, some ("deployer", some 10)⟩)
    (h1 : (cw20 l).toOption.isSome = true) (x : Fin 3) : Deployed Q (setup x) (hub x) (start l x) := by
  by_cases hx : x = 1
  · subst hx
    exact .cw20Bridged (fun _ => true) init true [] (ExWorld.token "") 7 _ rfl rfl rfl hq (by decide) (by decide +kernel)
      (by decide) (get_ok h1)
  · by_cases h0 : x = 0
    · subst h0
      exact .nativeCollateral (fun _ => true) init _ rfl rfl rfl (sane 1000) rfl rfl
        (get_ok (d := (noRouter, ExWorld.bank 0 none)) (native_ok 0 hx))
    · have h2 : x = 2 := by omega
      subst h2
      exact .nativeBridged (fun _ => true) init _ "coin" rfl rfl rfl (sane 0) (by decide +kernel) (by decide +kernel) (native_two l)

/-- An identity of mallory. -/
def malloryId : Bytes := zeros 12 ++ List.replicate 20 7

/-- Somebody sends tokens from a chain to an account on another. -/
def send (who : Addr) (x z : Fin 3) (account : Bytes) (amount : Nat) : Act (Fin 3) :=
  .router x ⟨fun _ => true, who, if x = 1 then [] else [⟨(setup x).token, amount⟩],
    .inr (.transferRemote (dom z) account amount none none)⟩ Ex.freeEnv

/-- Somebody delivers a message on a chain. -/
def relay (x : Fin 3) (m : Bytes) : Act (Fin 3) := .mailbox x ⟨Ex.freeEnv, "relayer", [], .process [] m⟩

/-- The owner of a router enrols the others. -/
def enrol (x : Fin 3) : Act (Fin 3) :=
  .router x ⟨fun _ => true, "o", [], .inr (.router (.setRoutes (routes x)))⟩ Ex.freeEnv

/-- The owners enrol the routers; tokens go from chain 0 to chain 2, and from there partly to chain 1. -/
def launch : List (Act (Fin 3)) :=
  [enrol 0, enrol 1, enrol 2, send Ex.alice 0 2 Ex.aliceId 100, relay 2 (transferMsg 0 0 2 Ex.aliceId 100), send Ex.alice 2 1 Ex.aliceId 40,
   relay 1 (transferMsg 2 0 1 Ex.aliceId 40), send Ex.alice 2 0 Ex.aliceId 10]

/-- The owners enrol the routers; alice locks 100 tokens on chain 0 and gets as many on chain 1. Mallory sends the 90 tokens
the deployer of the token gave them to their account on chain 0, and gets most of what alice locked. -/
def theft : List (Act (Fin 3)) :=
  [enrol 0, enrol 1, send Ex.alice 0 1 Ex.aliceId 100, relay 1 (transferMsg 0 0 1 Ex.aliceId 100),
   .token 1 "mallory" (.increaseAllowance (addr 1) 90), send "mallory" 1 0 malloryId 90,
   relay 0 (transferMsg 1 0 0 malloryId 90)]

end Hpl.ExDeploy
