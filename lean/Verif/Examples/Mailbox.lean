import Verif.Model.Bech32Codec
import Verif.Props.Merkle
import Verif.Spec.Mailbox

/-! # Concrete mailboxes and histories used to show that hypotheses can be met -/

namespace Hpl.Ex

open Mailbox

/-- An account, with its 20 bytes. -/
def alice : Addr := "osmo1d6a3j0kkpc8eac0j8h6ypyevfz8hd3qnuqjrc5"
def aliceRaw : Bytes := [110, 187, 25, 62, 214, 14, 15, 158, 225, 242, 61, 244, 64, 147, 44, 72, 143, 118, 196, 19]

/-- Answers of the other contracts. -/
def env : Env where
  valid := fun _ => true
  height := 7
  quote := fun a _ _ => .ok (if a = "req" then [⟨"uosmo", 5⟩] else [⟨"uosmo", 3⟩, ⟨"uatom", 1⟩])
  recipientIsm := fun _ => .ok none
  verify := fun _ _ _ => .ok true

/-- A call by alice. -/
def call (funds : List Coin) (m : Mailbox.Msg) : Call := ⟨env, alice, funds, m⟩

/-- Alice sends three bytes to themself on domain 1. -/
def request : DispatchMsg := ⟨1, zeros 12 ++ aliceRaw, [1, 2, 3], none, none⟩

/-- The message that makes. -/
def message : Message := ⟨3, 0, 1, request.recipient, 1, request.recipient, [1, 2, 3]⟩

/-- A fresh mailbox for domain 1. -/
def s0 : State := ⟨⟨"osmo", 1, none, none, none⟩, Ownable.init alice, 0, none, OMap.empty⟩

/-- A configured one. -/
def s1 : State := ⟨⟨"osmo", 1, some "ism", some "hook", some "req"⟩, Ownable.init alice, 0, none, OMap.empty⟩

/-- Configuration, a dispatch, a processing that is rolled back, and one whose recipient reenters and catches the
failure. -/
def txs : List (List (Tx.Act Call)) :=
  [[.call (call [] (.setDefaultIsm "ism")) []],
   [.call (call [] (.setDefaultHook "hook")) [], .call (call [] (.setRequiredHook "req")) []],
   [.call (call [⟨"uosmo", 9⟩, ⟨"uatom", 1⟩] (.dispatch request)) []],
   [.call (call [] (.process [] message.encode)) [.abort]],
   [.call (call [] (.process [] message.encode))
     [.attempt [.call (call [] (.process [] message.encode)) []]]]]

theorem s0_fresh : instantiate Char.isLower env.valid "osmo" 1 alice = .ok s0 := by rfl

theorem dispatch_ok : ∃ x, execute toyHash Bech.codec s1
    (call [⟨"uosmo", 9⟩, ⟨"uatom", 1⟩] (.dispatch request)) = .ok x := by
  have h : (execute toyHash Bech.codec s1
    (call [⟨"uosmo", 9⟩, ⟨"uatom", 1⟩] (.dispatch request))).toOption.isSome = true := by decide +kernel
  generalize execute toyHash Bech.codec s1
    (call [⟨"uosmo", 9⟩, ⟨"uatom", 1⟩] (.dispatch request)) = y at h
  cases y with
  | ok x => exact ⟨x, rfl⟩
  | error e => cases h

theorem process_ok : ∃ x, execute toyHash Bech.codec s1 (call [] (.process [] message.encode)) = .ok x := by
  have h : (execute toyHash Bech.codec s1
    (call [] (.process [] message.encode))).toOption.isSome = true := by decide +kernel
  generalize execute toyHash Bech.codec s1 (call [] (.process [] message.encode)) = y at h
  cases y with
  | ok x => exact ⟨x, rfl⟩
  | error e => cases h

end Hpl.Ex
