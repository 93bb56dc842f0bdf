import Verif.Base.Ledger
import Verif.Ownership.Model

/-!
# Model of the fee granter (`contracts/periphery/fee_granter`)

* The state contains the contract's storage, the ledger of the gas coin and the chain's fee grant module as far as
  grants of this contract are concerned.
* Assumed of the chain (cosmos-sdk `x/feegrant`): a grant is refused if a grant to the same account exists, if it is to
  the granter or its limit is zero; revoking is refused if there is no grant; each fee paid lowers the limit and a grant
  whose limit is used up is removed; a message failing on the chain reverts the transaction.
* Not modelled: attributes, address syntax; coins other than the gas coin only appear as "something else attached".
-/

namespace Verif.FeeGranter

/-- contracts/periphery/fee_granter/src/state.rs:8-13: `CONFIG` (owner, admins, gas denom), `GRANTS`,
`OWNERSHIP_PROPOSAL`; then the remaining limits of the grants on the chain and the ledger of the gas coin. -/
structure State (A : Type) where
  own : Ownership.State A
  admins : List A
  grants : A → Option Nat
  live : A → Option Nat
  gas : A → Nat

variable {A : Type} [DecidableEq A]

/-- contracts/periphery/fee_granter/src/state.rs:15. -/
def maxAdmins : Nat := 2

/-- contracts/periphery/fee_granter/src/state.rs:24-33: the loop adding admins. -/
def addAdmins (cur : List A) : List A → Res (List A)
  | [] => .ok cur
  | a :: rest => do
    require (a ∉ cur) (.invalid "Admin already exists")
    addAdmins (a :: cur) rest

/-- contracts/periphery/fee_granter/src/state.rs:17-47, `update_admins_with_validation`.  The order of the result is
unspecified in the code (hash sets) and not observable here. -/
def updateAdminsList (cur add rem : List A) : Res (List A) := do
  let admins ← addAdmins cur add
  let new := admins.filter (fun a => decide (a ∉ rem))
  require (new.length ≤ maxAdmins) (.invalid "Maximum allowed number of admins")
  .ok new

/-- contracts/periphery/fee_granter/src/contract.rs:28-53, `instantiate`. -/
def instantiate (owner : A) (admins : List A) (gas : A → Nat) : Res (State A) := do
  let admins ← updateAdminsList [] admins []
  .ok ⟨⟨owner, none⟩, admins, fun _ => none, fun _ => none, gas⟩

/-- The check of contracts/periphery/fee_granter/src/contract.rs:129, :190 and :221. -/
def privileged (s : State A) (a : A) : Prop := a = s.own.owner ∨ a ∈ s.admins

instance (s : State A) (a : A) : Decidable (privileged s a) := by unfold privileged; infer_instance

/-- Attached coins: the amount of the gas coin and whether there are others. -/
structure Funds where
  gas : Nat
  others : Bool
  deriving DecidableEq

/-- cw_utils `must_pay` for the gas coin. -/
def mustPay (f : Funds) : Res Nat := do
  require (f.others = false) (.invalid "PaymentError")
  require (f.gas ≠ 0) (.invalid "PaymentError")
  .ok f.gas

/-- contracts/periphery/fee_granter/src/contract.rs:133-141: the amount check unless bypassed. -/
def checkAmount (bypass : Bool) (f : Funds) (amount : Nat) : Res Unit :=
  if bypass then .ok ()
  else do
    let sent ← mustPay f
    require (sent = amount) (.invalid "InvalidAmount")

/-- The chain's `MsgGrantAllowance` with a basic allowance. -/
def chainGrant (me : A) (live : A → Option Nat) (g : A) (amount : Nat) : Res (A → Option Nat) := do
  require (amount ≠ 0) (.invalid "spend limit must be positive")
  require (g ≠ me) (.invalid "cannot self-grant")
  require (live g = none) (.invalid "fee allowance already exists")
  .ok (Function.update live g (some amount))

/-- The chain's `MsgRevokeAllowance`. -/
def chainRevoke (live : A → Option Nat) (g : A) : Res (A → Option Nat) := do
  require (live g ≠ none) (.invalid "fee-grant not found")
  .ok (Function.update live g none)

/-- contracts/periphery/fee_granter/src/contract.rs:120-181, `grant`, with the attached coins credited first. -/
def grant (me : A) (s : State A) (sender : A) (f : Funds) (g : A) (amount : Nat) (bypass : Bool) : Res (State A) := do
  let gas ← move s.gas sender me f.gas
  require (privileged s sender) .unauthorized
  checkAmount bypass f amount
  require (s.grants g = none) (.invalid "Grant already exists")
  let live ← chainGrant me s.live g amount
  .ok { s with grants := Function.update s.grants g (some amount), live := live, gas := gas }

/-- contracts/periphery/fee_granter/src/contract.rs:183-209, `revoke`. -/
def revoke (s : State A) (sender g : A) : Res (State A) := do
  require (privileged s sender) .unauthorized
  let live ← chainRevoke s.live g
  .ok { s with grants := Function.update s.grants g none, live := live }

/-- contracts/periphery/fee_granter/src/contract.rs:211-232, `transfer_coins`. -/
def transferCoins (me : A) (s : State A) (sender : A) (amount : Nat) (receiver : Option A) : Res (State A) := do
  require (amount ≠ 0) (.invalid "Can't send 0 amount")
  require (privileged s sender) .unauthorized
  let gas ← move s.gas me (receiver.getD sender) amount
  .ok { s with gas := gas }

/-- contracts/periphery/fee_granter/src/contract.rs:234-258, `update_admins`. -/
def updateAdmins (s : State A) (sender : A) (add rem : List A) : Res (State A) := do
  require (sender = s.own.owner) .unauthorized
  let l ← updateAdminsList s.admins add rem
  .ok { s with admins := l }

/-- What is left of a limit after a fee; a used up grant is removed (cosmos-sdk `BasicAllowance.Accept`). -/
def afterFee (limit fee : Nat) : Option Nat := if limit - fee = 0 then none else some (limit - fee)

/-- The chain: `g` has the contract pay a fee to the fee collector `fc`. -/
def useFee (me fc : A) (s : State A) (g : A) (fee : Nat) : Res (State A) := do
  require (fee ≠ 0) (.invalid "no fee")
  let limit ← orErr (s.live g) (.invalid "fee-grant not found")
  require (fee ≤ limit) (.invalid "fee limit exceeded")
  let gas ← move s.gas me fc fee
  .ok { s with live := Function.update s.live g (afterFee limit fee), gas := gas }

/-- What can happen: the contract's messages, the payment of fees through grants, and plain transfers of the gas coin
by accounts. -/
inductive Op (A : Type) where
  | grant (f : Funds) (g : A) (amount : Nat) (bypass : Bool)
  | revoke (g : A)
  | transferCoins (amount : Nat) (receiver : Option A)
  | updateAdmins (add rem : List A)
  | own (now : Nat) (m : Ownership.Msg A)
  | useFee (fee : Nat)
  | send (dst : A) (amount : Nat)

/-- contracts/periphery/fee_granter/src/contract.rs:56-118, `execute`, and the chain. -/
def exec (me fc : A) (s : State A) (sender : A) : Op A → Res (State A)
  | .grant f g amount bypass => grant me s sender f g amount bypass
  | .revoke g => revoke s sender g
  | .transferCoins amount receiver => transferCoins me s sender amount receiver
  | .updateAdmins add rem => updateAdmins s sender add rem
  | .own now m => do
    let o ← Ownership.exec s.own ⟨sender, now, m⟩
    .ok { s with own := o }
  | .useFee fee => useFee me fc s sender fee
  | .send dst amount => do
    let gas ← move s.gas sender dst amount
    .ok { s with gas := gas }

/-- A history. -/
def run (me fc : A) (s : State A) : List (A × Op A) → State A
  | [] => s
  | (a, o) :: rest => run me fc (commit' s (exec me fc s a o)) rest

end Verif.FeeGranter
