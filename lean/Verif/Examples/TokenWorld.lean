import Verif.Examples.TokenNet
import Verif.Spec.TokenWorld

/-! # Three concrete chains with token routers and tokens -/

namespace Hpl.ExWorld

open TokenWorld Spec
open Ex.Net (rid dom addr setup routes hub transferMsg play playable)

/-- A bank in which alice has the given amount of the only denomination. -/
def bank (n : Nat) (admin : Option Addr) : Bank where
  balance a d := if a = Ex.alice ∧ d = "uosmo" then n else 0
  supply d := if d = "uosmo" then n else 0
  admin d := if d = "uosmo" then admin else none
  known d := decide (d = "uosmo")

/-- A new cw20 token. -/
def token (minter : Addr) : Cw20 := ⟨true, 0, fun _ => 0, fun _ _ => none, some (minter, none)⟩

/-- Alice has 1000 tokens on chain 0, where the router holds collateral; the tokens of chains 1 (cw20) and 2 (token
factory) are new. -/
def start (x : Fin 3) : Chain where
  box := (Ex.Net.start hub x).box
  router := (Ex.Net.start hub x).router
  bank := bank (if x = 0 then 1000 else 0) (if x = 0 then none else some (addr x))
  token := token (addr x)

theorem start_joined : Joined setup rid dom hub (view setup hub start) where
  codec := (Ex.Net.start_joined hub).codec
  domains := (Ex.Net.start_joined hub).domains
  domain := (Ex.Net.start_joined hub).domain
  identity := (Ex.Net.start_joined hub).identity
  address := (Ex.Net.start_joined hub).address
  token := (Ex.Net.start_joined hub).token
  mailbox := (Ex.Net.start_joined hub).mailbox
  routes := (Ex.Net.start_joined hub).routes
  mode := (Ex.Net.start_joined hub).mode

theorem start_own : OwnTokens setup hub start where
  distinct := by decide +kernel
  mode := fun _ => rfl
  exist := by decide +kernel
  admin := by decide +kernel
  minter := by decide +kernel
  allowance := fun _ _ _ => rfl

theorem start_covered : Covered setup start := by
  intro x
  refine ⟨⟨{Ex.alice}, ?_, ?_⟩, fun _ => ?_⟩
  · intro a ha
    have ha : a ≠ Ex.alice := by simpa using ha
    unfold holding
    split
    · simp [start, bank, ha]
    · rfl
  · rw [Finset.sum_singleton]
    revert x
    decide +kernel
  · show 0 < 2 ^ 128
    decide

/-- Alice sends tokens from a chain to another. -/
def send (x z : Fin 3) (amount : Nat) : Act (Fin 3) :=
  .router x ⟨fun _ => true, Ex.alice, if x = 1 then [] else [⟨"uosmo", amount⟩],
    .inr (.transferRemote (dom z) Ex.aliceId amount none none)⟩ Ex.freeEnv

/-- Somebody delivers a message on a chain. -/
def relay (x : Fin 3) (m : Bytes) : Act (Fin 3) := .mailbox x ⟨Ex.freeEnv, "relayer", [], .process [] m⟩

/-- Tokens locked on chain 0 go to chain 1, from there partly to chain 2, and from there partly home; meanwhile alice
gives tokens to the router and to bob, who burns some and allows carol to spend others, somebody creates a denomination,
and the last transfer is not delivered. -/
def tour : List (Act (Fin 3)) :=
  [send 0 1 100, .bank 0 Ex.alice (.send (addr 0) [⟨"uosmo", 3⟩]), relay 1 (transferMsg 0 0 1 Ex.aliceId 100),
   .token 1 Ex.alice (.increaseAllowance (addr 1) 60), send 1 2 60, .token 1 Ex.alice (.transfer "bob" 10),
   relay 2 (transferMsg 1 0 2 Ex.aliceId 60), .token 1 "bob" (.burn 4), .token 1 "bob" (.increaseAllowance "carol" 5),
   .token 1 "carol" (.transferFrom "bob" "carol" 2), send 2 0 25, .bank 2 "carol" (.create "coin"),
   .bank 2 Ex.alice (.send "bob" [⟨"uosmo", 7⟩]), relay 0 (transferMsg 2 0 0 Ex.aliceId 25), .bank 2 "bob" (.burnOwn [⟨"uosmo", 1⟩]),
   send 2 1 5]

end Hpl.ExWorld
