import Verif.Base.Ledger
import Verif.Base.Paging
import Verif.Ownership.Model

/-!
# Model of the native coin registry (`contracts/periphery/native_coin_registry`)

* `A` are addresses, `D` denoms in their storage order.  The bank's ledger is part of the state, since registering
  takes and returns coins.
* Not modelled: attributes and events, address syntax.
-/

namespace Verif.Registry

/-- contracts/periphery/native_coin_registry/src/state.rs and packages/astroport/src/native_coin_registry.rs:
owner with proposal, `COINS_INFO`; and the bank. -/
structure State (A D : Type) where
  own : Ownership.State A
  coins : List (D × Nat)
  bank : D → A → Nat

variable {A D : Type} [DecidableEq A] [LinearOrder D]

/-- `NativeToken` query, contracts/periphery/native_coin_registry/src/contract.rs:233. -/
def decimals (s : State A D) (d : D) : Option Nat := kvGet d s.coins

/-- contracts/periphery/native_coin_registry/src/contract.rs:31-49, `instantiate`. -/
def instantiate (owner : A) (bank : D → A → Nat) : State A D := ⟨⟨owner, none⟩, [], bank⟩

/-- Move attached coins one by one; the bank refuses empty amounts. -/
def sendAll (bank : D → A → Nat) (src dst : A) : List (D × Nat) → Res (D → A → Nat)
  | [] => .ok bank
  | (d, n) :: rest => do
    require (n ≠ 0) (.invalid "invalid coins")
    let l ← move (bank d) src dst n
    sendAll (Function.update bank d l) src dst rest

/-- contracts/periphery/native_coin_registry/src/contract.rs:160-179: the loop over the coins; `permissionless` is
whether coins are to be returned. -/
def addLoop (coins : List (D × Nat)) (permissionless : Bool) : List (D × Nat) → Res (List (D × Nat))
  | [] => .ok coins
  | (d, k) :: rest => do
    require (k ≤ 18) (.invalid "InvalidDecimals")
    require (permissionless = false ∨ (kvGet d coins).isNone = true) (.invalid "CoinAlreadyExists")
    addLoop (kvInsert d k coins) permissionless rest

/-- contracts/periphery/native_coin_registry/src/contract.rs:149-193, `inner_add`. -/
def innerAdd (coins : List (D × Nat)) (permissionless : Bool) (l : List (D × Nat)) : Res (List (D × Nat)) := do
  require ((l.map (·.1)).Nodup) (.invalid "DuplicateCoins")
  addLoop coins permissionless l

/-- contracts/periphery/native_coin_registry/src/contract.rs:101-125, `register_decimals`; `me` is the contract.
The bank refuses the message returning the coins if there are none. -/
def register (me : A) (s : State A D) (sender : A) (funds l : List (D × Nat)) : Res (State A D) := do
  let bank ← sendAll s.bank sender me funds
  require (∀ x ∈ l, x.1 ∈ funds.map (·.1)) (.invalid "MustSendCoin")
  let coins ← innerAdd s.coins true l
  require (funds ≠ []) (.invalid "invalid coins")
  let bank ← sendAll bank me sender funds
  .ok { s with coins := coins, bank := bank }

/-- contracts/periphery/native_coin_registry/src/contract.rs:133-142, `update_decimals`. -/
def update (s : State A D) (sender : A) (l : List (D × Nat)) : Res (State A D) := do
  require (sender = s.own.owner) .unauthorized
  let coins ← innerAdd s.coins false l
  .ok { s with coins := coins }

/-- contracts/periphery/native_coin_registry/src/contract.rs:216-222: the loop of `remove`. -/
def removeLoop (coins : List (D × Nat)) : List D → Res (List (D × Nat))
  | [] => .ok coins
  | d :: rest => do
    require ((kvGet d coins).isSome = true) (.invalid "CoinDoesNotExist")
    removeLoop (kvRemove d coins) rest

/-- contracts/periphery/native_coin_registry/src/contract.rs:201-226, `remove`. -/
def remove (s : State A D) (sender : A) (l : List D) : Res (State A D) := do
  require (sender = s.own.owner) .unauthorized
  require (l.Nodup) (.invalid "DuplicateCoins")
  let coins ← removeLoop s.coins l
  .ok { s with coins := coins }

/-- Messages. -/
inductive Op (A D : Type) where
  | add (l : List (D × Nat))
  | register (funds l : List (D × Nat))
  | remove (l : List D)
  | own (now : Nat) (m : Ownership.Msg A)

/-- contracts/periphery/native_coin_registry/src/contract.rs:51-92, `execute`. -/
def exec (me : A) (s : State A D) (sender : A) : Op A D → Res (State A D)
  | .add l => update s sender l
  | .register funds l => register me s sender funds l
  | .remove l => remove s sender l
  | .own now m => do
    let o ← Ownership.exec s.own ⟨sender, now, m⟩
    .ok { s with own := o }

/-- A history. -/
def run (me : A) (s : State A D) : List (A × Op A D) → State A D
  | [] => s
  | (a, o) :: rest => run me (commit' s (exec me s a o)) rest

/-- contracts/periphery/native_coin_registry/src/contract.rs:240-255, `query_native_tokens`: 50 by default, without
an upper limit. -/
def list (s : State A D) (start : Option D) (limit : Option Nat) : List (D × Nat) :=
  kvPage s.coins start (limit.getD 50)

end Verif.Registry
