import Verif.Model.OMap

/-! # Coins (`cosmwasm_std::Coin`, `cosmwasm_std::Coins` 1.5, `cw_utils::must_pay`) -/

namespace Hpl

/-- `cosmwasm_std::Coin`; amounts are `Uint128`, here natural numbers with explicit overflow checks. -/
structure Coin where
  denom : String
  amount : Nat
deriving DecidableEq, Repr

/-- Values a `u128` / `Uint128` can hold are below this. -/
def u128Lim : Nat := 2 ^ 128

/-- `cosmwasm_std::Coins`: a `BTreeMap` from denomination to amount. -/
abbrev Coins := OMap String Nat

namespace Coins

/-- `Coins::try_from(Vec<Coin>)`: zero coins are skipped, a repeated denomination is an error.
Used at `/repo/contracts/core/mailbox/src/execute.rs` 127 and `query.rs` 121. -/
def tryFromAux (m : Coins) : List Coin → Res Coins
  | [] => .ok m
  | c :: t =>
    if c.amount = 0 then tryFromAux m t
    else if m.has c.denom then .error (.err "duplicate denom")
    else tryFromAux (m.insert c.denom c.amount) t

/-- See `tryFromAux`. -/
def tryFrom (l : List Coin) : Res Coins := tryFromAux OMap.empty l

/-- `Coins::add` (library). -/
def add (m : Coins) (c : Coin) : Res Coins :=
  if c.amount = 0 then .ok m
  else
    match m.get c.denom with
    | none => .ok (m.insert c.denom c.amount)
    | some a =>
      if a + c.amount < u128Lim then .ok (m.insert c.denom (a + c.amount))
      else .error (.err "overflow")

/-- `Coins::sub` (library). -/
def sub (m : Coins) (c : Coin) : Res Coins :=
  match m.get c.denom with
  | some a =>
    if c.amount ≤ a then
      if a - c.amount = 0 then .ok (m.erase c.denom)
      else .ok (m.insert c.denom (a - c.amount))
    else .error (.err "overflow")
  | none => if c.amount = 0 then .ok m else .error (.err "overflow")

/-- The loop at `/repo/contracts/core/mailbox/src/execute.rs` 128-135. -/
def subAll (m : Coins) : List Coin → Res Coins
  | [] => .ok m
  | c :: t => do
    let m' ← sub m c
    subAll m' t

/-- `try_fold(.., |acc, fee| acc.add(fee))`, `/repo/contracts/core/mailbox/src/query.rs` 119-125. -/
def addAll (m : Coins) : List Coin → Res Coins
  | [] => .ok m
  | c :: t => do
    let m' ← add m c
    addAll m' t

/-- `Coins::to_vec` (library): ascending denominations. -/
def toVec (m : Coins) : List Coin := m.entries.map (fun p => ⟨p.1, p.2⟩)

end Coins

/-- `cw_utils::must_pay(info, denom)`: exactly one coin is attached, it is of that denomination and not zero
(`one_coin` and the denomination test of the library). -/
def mustPay (funds : List Coin) (denom : String) : Res Nat :=
  match funds with
  | [] => .error (.err "no funds sent")
  | [c] =>
    if c.amount = 0 then .error (.err "no funds sent")
    else if c.denom = denom then .ok c.amount
    else .error (.err "must send reserve token")
  | _ => .error (.err "multiple denoms")

end Hpl
