import Verif.Model.Msg

/-! # Tokens: the bank, the token factory and a cw20 token

None of this is code of `/repo`. The routers rely on it: `/repo/contracts/warp/native` on the bank and token factory modules
of the chain, `/repo/contracts/warp/cw20` on a cw20 contract (the instantiation message in
`/repo/packages/interface/src/warp/cw20.rs` 13-32 is that of cw20-base). The models follow the documentation of the
modules and the cw20-base contract. Left out are reasons to refuse an operation that depend on other things (blocked
accounts, expired allowances, invalid names, balances of 2^256 or more): histories contain the operations that succeeded. -/

namespace Hpl

/-! ## Bank and token factory -/

/-- Balances and supplies per denomination; `admin` is the token factory's administrator of a denomination, `known` says
whether a denomination exists. -/
structure Bank where
  balance : Addr → String → Nat
  supply : String → Nat
  admin : String → Option Addr
  known : String → Bool

namespace Bank

/-- What a list of coins holds of a denomination. -/
def total (denom : String) (l : List Coin) : Nat := ((l.filter (fun c => c.denom = denom)).map (fun c => c.amount)).sum

/-- Moves coins; what is attached to a call is moved like this. -/
def move (b : Bank) (src dst : Addr) (coins : List Coin) : Res Bank :=
  if coins.all (fun c => decide (total c.denom coins ≤ b.balance src c.denom)) then
    .ok { b with balance := fun a d =>
      (if a = src then b.balance a d - total d coins else b.balance a d) + if a = dst then total d coins else 0 }
  else .error (.err "insufficient funds")

/-- `MsgSend`: coins that amount to nothing are refused. -/
def send (b : Bank) (src dst : Addr) (coins : List Coin) : Res Bank := do
  ensure (coins.any (fun c => decide (c.amount ≠ 0))) "invalid coins"
  b.move src dst coins

/-- A holder destroys coins (`BankMsg::Burn`). -/
def burnOwn (b : Bank) (src : Addr) (coins : List Coin) : Res Bank :=
  if coins.all (fun c => decide (total c.denom coins ≤ b.balance src c.denom ∧ total c.denom coins ≤ b.supply c.denom)) then
    .ok { b with
      balance := fun a d => if a = src then b.balance a d - total d coins else b.balance a d
      supply := fun d => b.supply d - total d coins }
  else .error (.err "insufficient funds")

/-- Coins of denominations without administrator come into being in many ways: rewards, transfers over IBC, other
modules. -/
def issue (b : Bank) (denom : String) (dst : Addr) (n : Nat) : Res Bank :=
  if b.admin denom = none then
    .ok { b with
      balance := fun a d => if a = dst ∧ d = denom then b.balance a d + n else b.balance a d
      supply := fun d => if d = denom then b.supply d + n else b.supply d
      known := fun d => if d = denom then true else b.known d }
  else .error (.err "unauthorized")

/-- Name of the denomination an account creates. -/
def factoryDenom (sender : Addr) (sub : String) : String := "factory/" ++ sender ++ "/" ++ sub

/-- `MsgCreateDenom`. -/
def create (b : Bank) (sender : Addr) (sub : String) : Res Bank :=
  if b.known (factoryDenom sender sub) then .error (.err "denom exists")
  else .ok { b with
    admin := fun d => if d = factoryDenom sender sub then some sender else b.admin d
    known := fun d => if d = factoryDenom sender sub then true else b.known d }

/-- `MsgMint` for an account `dst`; the routers leave it out, which means the sender. -/
def mint (b : Bank) (sender : Addr) (denom : String) (n : Nat) (dst : Addr) : Res Bank := do
  ensure (decide (n ≠ 0)) "invalid coins"
  ensure (decide (b.admin denom = some sender)) "unauthorized"
  return { b with
    balance := fun a d => if a = dst ∧ d = denom then b.balance a d + n else b.balance a d
    supply := fun d => if d = denom then b.supply d + n else b.supply d }

/-- `MsgBurn` from an account `src`; the routers leave it out, which means the sender. -/
def burn (b : Bank) (sender : Addr) (denom : String) (n : Nat) (src : Addr) : Res Bank := do
  ensure (decide (n ≠ 0)) "invalid coins"
  ensure (decide (b.admin denom = some sender)) "unauthorized"
  ensure (decide (n ≤ b.balance src denom ∧ n ≤ b.supply denom)) "insufficient funds"
  return { b with
    balance := fun a d => if a = src ∧ d = denom then b.balance a d - n else b.balance a d
    supply := fun d => if d = denom then b.supply d - n else b.supply d }

/-- `MsgForceTransfer`. -/
def force (b : Bank) (sender : Addr) (denom : String) (n : Nat) (src dst : Addr) : Res Bank := do
  ensure (decide (b.admin denom = some sender)) "unauthorized"
  b.move src dst [⟨denom, n⟩]

/-- `MsgChangeAdmin`; no new administrator means none ever again. -/
def changeAdmin (b : Bank) (sender : Addr) (denom : String) (new : Option Addr) : Res Bank := do
  ensure (decide (b.admin denom = some sender)) "unauthorized"
  return { b with admin := fun d => if d = denom then new else b.admin d }

/-- What an account can ask of bank and token factory. -/
inductive Op where
  | send (dst : Addr) (coins : List Coin)
  | burnOwn (coins : List Coin)
  | issue (denom : String) (dst : Addr) (n : Nat)
  | create (sub : String)
  | mint (denom : String) (n : Nat) (dst : Addr)
  | burn (denom : String) (n : Nat) (src : Addr)
  | force (denom : String) (n : Nat) (src dst : Addr)
  | changeAdmin (denom : String) (new : Option Addr)

/-- Execution for an account (coins are issued by nobody in particular). -/
def run (b : Bank) (sender : Addr) : Op → Res Bank
  | .send dst coins => b.send sender dst coins
  | .burnOwn coins => b.burnOwn sender coins
  | .issue denom dst n => b.issue denom dst n
  | .create sub => b.create sender sub
  | .mint denom n dst => b.mint sender denom n dst
  | .burn denom n src => b.burn sender denom n src
  | .force denom n src dst => b.force sender denom n src dst
  | .changeAdmin denom new => b.changeAdmin sender denom new

end Bank

/-! ## A cw20 token -/

/-- Storage of cw20-base as far as it concerns tokens: supply, balances, allowances (owner, then spender), and who may
mint up to which cap. `strict`: zero amounts are refused (older versions do). -/
structure Cw20 where
  strict : Bool
  supply : Nat
  balance : Addr → Nat
  allowance : Addr → Addr → Option Nat
  minter : Option (Addr × Option Nat)

namespace Cw20

/-- Zero amounts. -/
def positive (t : Cw20) (n : Nat) : Res Unit := ensure (!t.strict || decide (n ≠ 0)) "invalid zero amount"

/-- Takes from a balance. -/
def debit (t : Cw20) (a : Addr) (n : Nat) : Res Cw20 :=
  if n ≤ t.balance a then .ok { t with balance := fun x => if x = a then t.balance x - n else t.balance x }
  else .error (.err "overflow")

/-- Adds to a balance; balances are `Uint128`. -/
def credit (t : Cw20) (a : Addr) (n : Nat) : Res Cw20 :=
  if t.balance a + n < u128Lim then .ok { t with balance := fun x => if x = a then t.balance x + n else t.balance x }
  else .error (.panic "overflow")

/-- `execute_transfer`, and what `execute_send` does to balances. -/
def transfer (t : Cw20) (sender dst : Addr) (n : Nat) : Res Cw20 := do
  t.positive n
  let t ← t.debit sender n
  t.credit dst n

/-- `execute_burn`. -/
def burn (t : Cw20) (sender : Addr) (n : Nat) : Res Cw20 := do
  t.positive n
  let t ← t.debit sender n
  if n ≤ t.supply then return { t with supply := t.supply - n } else .error (.err "overflow")

/-- Is a supply within a cap? -/
def capped (cap : Option Nat) (n : Nat) : Bool :=
  match cap with
  | none => true
  | some c => decide (n ≤ c)

/-- `execute_mint`. -/
def mint (t : Cw20) (sender dst : Addr) (n : Nat) : Res Cw20 := do
  t.positive n
  match t.minter with
  | none => .error (.err "unauthorized")
  | some (m, cap) => do
    ensure (decide (m = sender)) "unauthorized"
    ensure (decide (t.supply + n < u128Lim)) "overflow"
    ensure (capped cap (t.supply + n)) "cannot exceed cap"
    { t with supply := t.supply + n }.credit dst n

/-- Changes one allowance. -/
def setAllowance (t : Cw20) (owner spender : Addr) (v : Option Nat) : Cw20 :=
  { t with allowance := fun o s => if o = owner ∧ s = spender then v else t.allowance o s }

/-- `deduct_allowance`. -/
def deduct (t : Cw20) (owner spender : Addr) (n : Nat) : Res Cw20 :=
  match t.allowance owner spender with
  | none => .error (.err "no allowance")
  | some k => if n ≤ k then .ok (t.setAllowance owner spender (some (k - n))) else .error (.err "overflow")

/-- `execute_transfer_from`, and what `execute_send_from` does to balances. -/
def transferFrom (t : Cw20) (spender owner dst : Addr) (n : Nat) : Res Cw20 := do
  let t ← t.deduct owner spender n
  let t ← t.debit owner n
  t.credit dst n

/-- `execute_burn_from`. -/
def burnFrom (t : Cw20) (spender owner : Addr) (n : Nat) : Res Cw20 := do
  let t ← t.deduct owner spender n
  let t ← t.debit owner n
  if n ≤ t.supply then return { t with supply := t.supply - n } else .error (.err "overflow")

/-- `execute_increase_allowance`. -/
def increaseAllowance (t : Cw20) (owner spender : Addr) (n : Nat) : Res Cw20 :=
  if spender = owner then .error (.err "cannot set own account")
  else .ok (t.setAllowance owner spender (some ((t.allowance owner spender).getD 0 + n)))

/-- `execute_decrease_allowance`: an allowance used up is removed. -/
def decreaseAllowance (t : Cw20) (owner spender : Addr) (n : Nat) : Res Cw20 :=
  if spender = owner then .error (.err "cannot set own account")
  else match t.allowance owner spender with
    | none => .error (.err "not found")
    | some k => .ok (t.setAllowance owner spender (if n < k then some (k - n) else none))

/-- `execute_update_minter`. -/
def updateMinter (t : Cw20) (sender : Addr) (new : Option Addr) : Res Cw20 :=
  match t.minter with
  | none => .error (.err "unauthorized")
  | some (m, cap) => do
    ensure (decide (m = sender)) "unauthorized"
    return { t with minter := new.map (fun a => (a, cap)) }

/-- What an account can ask of the token. `Send` and `SendFrom` move tokens and call the receiver. -/
inductive Op where
  | transfer (dst : Addr) (n : Nat)
  | burn (n : Nat)
  | send (dst : Addr) (n : Nat)
  | mint (dst : Addr) (n : Nat)
  | increaseAllowance (spender : Addr) (n : Nat)
  | decreaseAllowance (spender : Addr) (n : Nat)
  | transferFrom (owner dst : Addr) (n : Nat)
  | burnFrom (owner : Addr) (n : Nat)
  | sendFrom (owner dst : Addr) (n : Nat)
  | updateMinter (new : Option Addr)

/-- Execution for an account. The receiver of `Send` and `SendFrom` is called afterwards, and what it does is another act;
`deaf` are contracts that refuse such a call. -/
def run (t : Cw20) (deaf sender : Addr) : Op → Res Cw20
  | .transfer dst n => t.transfer sender dst n
  | .burn n => t.burn sender n
  | .send dst n => if dst = deaf then .error (.err "unknown variant") else t.transfer sender dst n
  | .mint dst n => t.mint sender dst n
  | .increaseAllowance spender n => t.increaseAllowance sender spender n
  | .decreaseAllowance spender n => t.decreaseAllowance sender spender n
  | .transferFrom owner dst n => t.transferFrom sender owner dst n
  | .burnFrom owner n => t.burnFrom sender owner n
  | .sendFrom owner dst n =>
    if dst = deaf then .error (.err "unknown variant") else t.transferFrom sender owner dst n
  | .updateMinter new => t.updateMinter sender new

/-- `cw20_base::msg::InstantiateMsg` without name, symbol, decimals and marketing: the initial balances and who may mint. -/
structure Init where
  balances : List (Addr × Nat)
  mint : Option (Addr × Option Nat)

/-- `create_accounts` and the check of the cap in `instantiate`: addresses must be valid and differ. -/
def instantiate (strict : Bool) (valid : Addr → Bool) (m : Init) : Res Cw20 := do
  ensure (decide ((m.balances.map (·.1)).Nodup)) "duplicate initial balance addresses"
  ensure (m.balances.all (fun p => valid p.1)) "invalid address"
  ensure (decide ((m.balances.map (·.2)).sum < u128Lim)) "overflow"
  match m.mint with
  | none => return ⟨strict, (m.balances.map (·.2)).sum, fun a => ((m.balances.filter (fun p => p.1 = a)).map (·.2)).sum,
      fun _ _ => none, none⟩
  | some (a, cap) => do
    ensure (valid a) "invalid address"
    ensure (capped cap (m.balances.map (·.2)).sum) "initial supply greater than cap"
    return ⟨strict, (m.balances.map (·.2)).sum, fun a => ((m.balances.filter (fun p => p.1 = a)).map (·.2)).sum,
      fun _ _ => none, some (a, cap)⟩

end Cw20

end Hpl
