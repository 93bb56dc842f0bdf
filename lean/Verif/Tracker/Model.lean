import Verif.Base.Ledger
import Verif.Base.Snapshot

/-!
# Model of the token factory balance tracker (`contracts/periphery/tokenfactory_tracker`)

* `A` are addresses and `D` denoms.  The bank's ledger and supply of the tracked denom are part of the state; the
  chain calls the contract's `BlockBeforeSend` hook *before* it moves coins, as the contract's comments describe:
  minting first adds coins to the module account (and to the supply) and then sends them, burning first sends coins
  to the module account and then removes them.  Ordinary sends from or to the module account are refused by the chain.
* Not modelled: serialization, attributes, gas, migration (which only sets the `track_over_seconds` flag).
-/

namespace Verif.Tracker

/-- contracts/periphery/tokenfactory_tracker/src/state.rs:5-17, `Config`. -/
structure Cfg (A D : Type) where
  denom : D
  mod : A
  seconds : Bool

/-- The part of the block the contract reads. -/
structure Env where
  height : Nat
  seconds : Nat

variable {A D : Type} [DecidableEq A] [DecidableEq D]

/-- contracts/periphery/tokenfactory_tracker/src/contract.rs:60-64 and contracts/periphery/tokenfactory_tracker/src/query.rs:30-34: what is tracked over. -/
def unit (c : Cfg A D) (e : Env) : Nat := if c.seconds then e.seconds else e.height

/-- contracts/periphery/tokenfactory_tracker/src/state.rs:19-27 with the bank's data for the tracked denom. -/
structure State (A : Type) where
  bank : A → Nat
  supply : Nat
  bals : A → Snap Nat
  total : Snap Nat

/-- Before the first mint. -/
def init : State A := ⟨fun _ => 0, 0, fun _ => Snap.empty, Snap.empty⟩

/-- contracts/periphery/tokenfactory_tracker/src/contract.rs:101-109: the sender's new balance. -/
def trackFrom (c : Cfg A D) (s : State A) (u : Nat) (src : A) (n : Nat) : Res (State A) :=
  if src = c.mod then .ok s else do
    let b ← csub (s.bank src) n
    .ok { s with bals := Function.update s.bals src ((s.bals src).save b u) }

/-- contracts/periphery/tokenfactory_tracker/src/contract.rs:111-119: the receiver's new balance. -/
def trackTo (c : Cfg A D) (s : State A) (u : Nat) (dst : A) (n : Nat) : Res (State A) :=
  if dst = c.mod then .ok s else do
    let b ← u128 (s.bank dst + n)
    .ok { s with bals := Function.update s.bals dst ((s.bals dst).save b u) }

/-- contracts/periphery/tokenfactory_tracker/src/contract.rs:100-120: nothing for a send to oneself. -/
def trackBoth (c : Cfg A D) (s : State A) (u : Nat) (src dst : A) (n : Nat) : Res (State A) :=
  if src = dst then .ok s else do
    let s ← trackFrom c s u src n
    trackTo c s u dst n

/-- contracts/periphery/tokenfactory_tracker/src/contract.rs:92-127, `track_balances`. -/
def trackBalances (c : Cfg A D) (s : State A) (u : Nat) (src dst : A) (n : Nat) : Res (State A) := do
  let s ← trackBoth c s u src dst n
  .ok { s with total := s.total.save s.supply u }

/-- contracts/periphery/tokenfactory_tracker/src/contract.rs:43-78, `sudo` with `BlockBeforeSend`
(`TrackBeforeSend` does nothing). -/
def hook (c : Cfg A D) (s : State A) (e : Env) (d : D) (src dst : A) (n : Nat) : Res (State A) := do
  require (d = c.denom) (.invalid "InvalidDenom")
  trackBalances c s (unit c e) src dst n

/-- What can happen to the denom, and the hook called for another denom. -/
inductive Op (A D : Type) where
  | mint (dst : A) (n : Nat)
  | burn (src : A) (n : Nat)
  | send (src dst : A) (n : Nat)
  | foreign (d : D) (src dst : A) (n : Nat)

/-- The chain's side: hook, then movement; an error of the hook cancels the transaction. -/
def exec (c : Cfg A D) (s : State A) (e : Env) : Op A D → Res (State A)
  | .mint dst n => do
    let sup ← u128 (s.supply + n)
    let s := { s with supply := sup, bank := credit s.bank c.mod n }
    let s ← hook c s e c.denom c.mod dst n
    let b ← move s.bank c.mod dst n
    .ok { s with bank := b }
  | .burn src n => do
    let s ← hook c s e c.denom src c.mod n
    let b ← move s.bank src c.mod n
    let b ← debit b c.mod n
    let sup ← csub s.supply n
    .ok { s with bank := b, supply := sup }
  | .send src dst n => do
    require (src ≠ c.mod ∧ dst ≠ c.mod) .unauthorized
    let s ← hook c s e c.denom src dst n
    let b ← move s.bank src dst n
    .ok { s with bank := b }
  | .foreign d src dst n => do
    require (d ≠ c.denom) (.invalid "not foreign")
    hook c s e d src dst n

/-- One transaction. -/
def step (c : Cfg A D) (s : State A) (o : Env × Op A D) : State A := commit' s (exec c s o.1 o.2)

/-- A history. -/
def run (c : Cfg A D) (s : State A) (os : List (Env × Op A D)) : State A := os.foldl (step c) s

/-- contracts/periphery/tokenfactory_tracker/src/query.rs:27-40, `balance_at`. -/
def balanceAt (c : Cfg A D) (s : State A) (now : Env) (a : A) (u : Option Nat) : Nat :=
  if u.getD (unit c now) = unit c now then ((s.bals a).cur).getD 0
  else ((s.bals a).at_ (u.getD (unit c now))).getD 0

/-- contracts/periphery/tokenfactory_tracker/src/query.rs:42-56, `total_supply_at`. -/
def totalSupplyAt (c : Cfg A D) (s : State A) (now : Env) (u : Option Nat) : Nat :=
  if u.getD (unit c now) = unit c now then (s.total.cur).getD 0
  else (s.total.at_ (u.getD (unit c now))).getD 0

end Verif.Tracker
