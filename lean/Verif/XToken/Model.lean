import Verif.Base.Ledger
import Verif.Base.Snapshot

/-!
# Model of the xASTRO cw20 token (`contracts/tokenomics/xastro_token`)

* Balances are stored in a snapshot map, total supply in a map from block heights.
* Allowances are those of `cw20-base` 0.15.1 (a dependency, not in the repository): modelled from its documented
  behaviour.
* `Send` and `SendFrom` additionally call the receiver.  Whatever the receiver does to the token is a later transaction
  of the history in the same block; a failing receiver undoes the whole transaction, which is then no part of the
  history.
* Name, symbol, decimals and logo checks are in `Verif.XToken.Info`.  Not modelled: marketing, listing queries, migration.
-/

namespace Verif.XToken

/-- cw20 `Expiration`. -/
inductive Exp where
  | never
  | height (h : Nat)
  | time (t : Nat)
  deriving DecidableEq

/-- The block. -/
structure Env where
  height : Nat
  time : Nat

/-- cw20 `Expiration::is_expired`. -/
def Exp.expired (e : Env) : Exp → Bool
  | .never => false
  | .height h => decide (h ≤ e.height)
  | .time t => decide (t ≤ e.time)

/-- contracts/tokenomics/xastro_token/src/state.rs:6-16 and cw20-base's `TOKEN_INFO`, `ALLOWANCES`: `mint` is the
minter with the cap. -/
structure State (A : Type) where
  supply : Nat
  mint : Option (A × Option Nat)
  bals : A → Snap Nat
  hist : List (Nat × Nat)
  allow : A → A → Option (Nat × Exp)

variable {A : Type} [DecidableEq A]

/-- contracts/tokenomics/xastro_token/src/contract.rs:641-647, `query_balance`. -/
def bal (s : State A) (a : A) : Nat := (s.bals a).cur.getD 0

/-- contracts/tokenomics/xastro_token/src/contract.rs:650-656, `query_balance_at`. -/
def balanceAt (s : State A) (a : A) (b : Nat) : Nat := ((s.bals a).at_ b).getD 0

/-- contracts/tokenomics/xastro_token/src/state.rs:28-42, `get_total_supply_at`: the last entry up to the block. -/
def totalSupplyAt (s : State A) (b : Nat) : Nat := (kvLast s.hist b).getD 0

/-- `BALANCES.save`. -/
def setBal (s : State A) (a : A) (n h : Nat) : State A :=
  { s with bals := Function.update s.bals a ((s.bals a).save n h) }

/-- `BALANCES.update` with `checked_sub`. -/
def subBal (s : State A) (a : A) (n h : Nat) : Res (State A) := do
  let v ← csub (bal s a) n
  .ok (setBal s a v h)

/-- `BALANCES.update` with `checked_add` (or `+`, which panics on overflow; both undo the transaction). -/
def addBal (s : State A) (a : A) (n h : Nat) : Res (State A) := do
  let v ← u128 (bal s a + n)
  .ok (setBal s a v h)

/-- contracts/tokenomics/xastro_token/src/state.rs:18-26, `capture_total_supply_history`. -/
def capture (s : State A) (h : Nat) : State A := { s with hist := kvInsert h s.supply s.hist }

/-- contracts/tokenomics/xastro_token/src/contract.rs:175-185, `create_accounts`: the supply adds up all amounts, the
balance of an account listed twice is the last one. -/
def createAccounts (s : State A) (h : Nat) : List (A × Nat) → Res (State A)
  | [] => .ok s
  | (a, n) :: rest => do
    let sup ← u128 (s.supply + n)
    createAccounts { setBal s a n h with supply := sup } h rest

/-- The cap is respected. -/
def capOk (m : Option (A × Option Nat)) (n : Nat) : Bool :=
  match m with
  | some (_, some cap) => decide (n ≤ cap)
  | _ => true

/-- contracts/tokenomics/xastro_token/src/contract.rs:100-170, `instantiate`. -/
def instantiate (h : Nat) (accounts : List (A × Nat)) (mint : Option (A × Option Nat)) : Res (State A) := do
  let s ← createAccounts ⟨0, mint, fun _ => Snap.empty, [], fun _ _ => none⟩ h accounts
  let s := if s.supply = 0 then s else capture s h
  require (capOk mint s.supply = true) (.invalid "Initial supply greater than cap")
  .ok s

/-- contracts/tokenomics/xastro_token/src/state.rs:44-54, `check_minter`. -/
def isMinter (s : State A) (a : A) : Bool :=
  match s.mint with
  | some (m, _) => decide (m = a)
  | none => false

/-- contracts/tokenomics/xastro_token/src/contract.rs:262-294, `execute_transfer`, and 389-433, `execute_send`. -/
def transfer (s : State A) (e : Env) (me dst : A) (n : Nat) : Res (State A) := do
  require (n ≠ 0) (.invalid "InvalidZeroAmount")
  let s ← subBal s me n e.height
  addBal s dst n e.height

/-- contracts/tokenomics/xastro_token/src/contract.rs:299-334, `execute_burn`. -/
def burn (s : State A) (e : Env) (me : A) (n : Nat) : Res (State A) := do
  require (n ≠ 0) (.invalid "InvalidZeroAmount")
  require (isMinter s me = true) .unauthorized
  let s ← subBal s me n e.height
  let sup ← csub s.supply n
  .ok (capture { s with supply := sup } e.height)

/-- contracts/tokenomics/xastro_token/src/contract.rs:337-380, `execute_mint`. -/
def mint (s : State A) (e : Env) (me dst : A) (n : Nat) : Res (State A) := do
  require (n ≠ 0) (.invalid "InvalidZeroAmount")
  require (isMinter s me = true) .unauthorized
  let sup ← u128 (s.supply + n)
  require (capOk s.mint sup = true) (.invalid "CannotExceedCap")
  addBal (capture { s with supply := sup } e.height) dst n e.height

/-- Replace one allowance. -/
def setAllow (s : State A) (owner sp : A) (v : Option (Nat × Exp)) : State A :=
  { s with allow := Function.update s.allow owner (Function.update (s.allow owner) sp v) }

/-- cw20-base `execute_increase_allowance`: a new allowance never expires unless told to. -/
def increase (s : State A) (me sp : A) (n : Nat) (exp : Option Exp) : Res (State A) := do
  require (sp ≠ me) (.invalid "CannotSetOwnAccount")
  let v ← u128 (((s.allow me sp).map (·.1)).getD 0 + n)
  .ok (setAllow s me sp (some (v, exp.getD (((s.allow me sp).map (·.2)).getD .never))))

/-- cw20-base `execute_decrease_allowance`: removed when it reaches zero. -/
def decrease (s : State A) (me sp : A) (n : Nat) (exp : Option Exp) : Res (State A) := do
  require (sp ≠ me) (.invalid "CannotSetOwnAccount")
  let v ← orErr (s.allow me sp) (.invalid "not found")
  .ok (setAllow s me sp (if n < v.1 then some (v.1 - n, exp.getD v.2) else none))

/-- cw20-base `deduct_allowance`. -/
def deduct (s : State A) (e : Env) (owner sp : A) (n : Nat) : Res (State A) := do
  let v ← orErr (s.allow owner sp) (.invalid "NoAllowance")
  require (v.2.expired e = false) (.invalid "Expired")
  let r ← csub v.1 n
  .ok (setAllow s owner sp (some (r, v.2)))

/-- contracts/tokenomics/xastro_token/src/contract.rs:442-477, `execute_transfer_from`, and 533-579,
`execute_send_from`. -/
def transferFrom (s : State A) (e : Env) (me owner dst : A) (n : Nat) : Res (State A) := do
  let s ← deduct s e owner me n
  let s ← subBal s owner n e.height
  addBal s dst n e.height

/-- contracts/tokenomics/xastro_token/src/contract.rs:484-522, `execute_burn_from`. -/
def burnFrom (s : State A) (e : Env) (me owner : A) (n : Nat) : Res (State A) := do
  require (isMinter s me = true) .unauthorized
  let s ← deduct s e owner me n
  let s ← subBal s owner n e.height
  let sup ← csub s.supply n
  .ok (capture { s with supply := sup } e.height)

/-- Messages; `send` and `sendFrom` are `transfer` and `transferFrom` with a call of the receiver afterwards. -/
inductive Op (A : Type) where
  | transfer (dst : A) (n : Nat)
  | send (contract : A) (n : Nat)
  | burn (n : Nat)
  | mint (dst : A) (n : Nat)
  | increase (sp : A) (n : Nat) (exp : Option Exp)
  | decrease (sp : A) (n : Nat) (exp : Option Exp)
  | transferFrom (owner dst : A) (n : Nat)
  | sendFrom (owner contract : A) (n : Nat)
  | burnFrom (owner : A) (n : Nat)

/-- contracts/tokenomics/xastro_token/src/contract.rs:212-259, `execute`; all other messages (`UpdateMinter`) are
refused, marketing messages have no effect here. -/
def exec (s : State A) (e : Env) (me : A) : Op A → Res (State A)
  | .transfer dst n => transfer s e me dst n
  | .send c n => transfer s e me c n
  | .burn n => burn s e me n
  | .mint dst n => mint s e me dst n
  | .increase sp n exp => increase s me sp n exp
  | .decrease sp n exp => decrease s me sp n exp
  | .transferFrom o dst n => transferFrom s e me o dst n
  | .sendFrom o c n => transferFrom s e me o c n
  | .burnFrom o n => burnFrom s e me o n

/-- A transaction: block, sender, message. -/
structure Tx (A : Type) where
  env : Env
  sender : A
  op : Op A

/-- One transaction. -/
def step (s : State A) (t : Tx A) : State A := commit' s (exec s t.env t.sender t.op)

/-- A history. -/
def run (s : State A) (ts : List (Tx A)) : State A := ts.foldl step s

end Verif.XToken
