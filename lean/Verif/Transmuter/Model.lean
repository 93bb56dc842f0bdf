import Verif.Asset.Model
import Verif.Base.Ledger
import Verif.Base.Dec
import Mathlib.Logic.Function.Basic

/-!
# Model of `contracts/pair_transmuter`

All assets are native denoms (`contracts/pair_transmuter/src/utils.rs:11-23`), so an asset is its denom.  The LP token is a tokenfactory
denom; its balances are kept in a ledger of their own.
-/

namespace Verif.Transmuter

open Verif.Asset

/-- `Config` (`contracts/pair_transmuter/src/state.rs:13-20`); `dec` are the decimals known to the coin registry at instantiation. -/
structure Cfg (A : Type) where
  me : A
  assets : List Str
  dec : Str → Nat

/-- Balances of every denom, the LP balances, the LP supply. -/
structure State (A : Type) where
  bal : Str → A → Nat
  lp : A → Nat
  supply : Nat

variable {A : Type} [DecidableEq A]

/-- `max_decimals` (`contracts/pair_transmuter/src/state.rs:33`). -/
def Cfg.maxDec (c : Cfg A) : Nat := (c.assets.map c.dec).foldl max 0

/-- `check_asset_infos` (`contracts/pair_transmuter/src/utils.rs:11-23`) on native denoms. -/
def checkDenoms (l : List Info) : Res Unit := do
  require l.Nodup (.invalid "DoublingAssets")
  forAll (fun i => match i with
    | .token _ => .error (.invalid "Cw20TokenNotSupported")
    | .native d => validateNativeDenom d) l

/-- `instantiate` (`contracts/pair_transmuter/src/contract.rs:33-67`) and `Config::new` (`contracts/pair_transmuter/src/state.rs:23-45`); `10u64.pow` panics on overflow. -/
def instantiate (c : Cfg A) : Res (State A) := do
  require (c.assets.length > 1 ∧ c.assets.length ≤ 5) (.invalid "InvalidAssetLength")
  checkDenoms (c.assets.map .native)
  require (10 ^ c.maxDec < 2 ^ 64) .overflow
  .ok ⟨fun _ _ => 0, fun _ => 0, 0⟩

/-- The denom of a coin (`contracts/pair_transmuter/src/state.rs:23-45` keeps these). -/
def denomOf : Info → Option Str
  | .native d => some d
  | .token _ => none

/-- The same as called, with asset infos: denoms become the configuration (`contracts/pair_transmuter/src/contract.rs:33-67`). -/
def create (me : A) (dec : Str → Nat) (infos : List Info) : Res (Cfg A × State A) := do
  require (infos.length > 1 ∧ infos.length ≤ 5) (.invalid "InvalidAssetLength")
  checkDenoms infos
  let c : Cfg A := ⟨me, infos.filterMap denomOf, dec⟩
  require (10 ^ c.maxDec < 2 ^ 64) .overflow
  .ok (c, ⟨fun _ _ => 0, fun _ => 0, 0⟩)

/-- The normalisation coefficient (`contracts/pair_transmuter/src/state.rs:34-38`). -/
def Cfg.coeff (c : Cfg A) (d : Str) : Nat := 10 ^ c.maxDec / 10 ^ c.dec d

/-- `Config::normalize` (`contracts/pair_transmuter/src/state.rs:47-54`). -/
def normalize (c : Cfg A) (d : Str) (x : Nat) : Res Nat := do
  require (d ∈ c.assets) (.invalid "InvalidAsset")
  u128 (x * c.coeff d)

/-- `Config::denormalize` (`contracts/pair_transmuter/src/state.rs:56-63`). -/
def denormalize (c : Cfg A) (d : Str) (x : Nat) : Res Nat := do
  require (d ∈ c.assets) (.invalid "InvalidAsset")
  cdiv x (c.coeff d)

/-- The chain moves the coins attached to a message to the contract. -/
def receive (me sender : A) : List Coin → (Str → A → Nat) → Res (Str → A → Nat)
  | [], b => .ok b
  | c :: cs, b => do
    let l ← move (b c.denom) sender me c.amount
    receive me sender cs (Function.update b c.denom l)

/-- The contract's bank messages. -/
def pay (me dst : A) : List Coin → (Str → A → Nat) → Res (Str → A → Nat)
  | [], b => .ok b
  | c :: cs, b => do
    let l ← move (b c.denom) me dst c.amount
    pay me dst cs (Function.update b c.denom l)

/-- The share of one provided asset, added to the accumulator (`contracts/pair_transmuter/src/contract.rs:242-245`). -/
def sumShares (c : Cfg A) : List Asset → Nat → Res Nat
  | [], acc => .ok acc
  | a :: as, acc => match a.info with
    | .token _ => .error (.invalid "InvalidAsset")
    | .native d => do
      let n ← normalize c d a.amount
      let acc ← u128 (acc + n)
      sumShares c as acc

/-- `provide_liquidity` (`contracts/pair_transmuter/src/contract.rs:228-264`); the token factory refuses to mint zero. -/
def provide (c : Cfg A) (s : State A) (sender : A) (funds : List Coin) (assets : List Asset) (receiver : Option A) :
    Res (State A) := do
  let b ← receive c.me sender funds s.bal
  checkDenoms (assets.map Asset.info)
  assertCoins funds assets (c.assets.map .native)
  let share ← sumShares c assets 0
  require (share ≠ 0) (.invalid "invalid coins")
  let supply ← u128 (s.supply + share)
  .ok { bal := b, lp := credit s.lp (receiver.getD sender) share, supply := supply }

/-- `assert_and_swap` (`contracts/pair_transmuter/src/utils.rs:56-97`). -/
def assertAndSwap (c : Cfg A) (bal : Str → A → Nat) (offer : Coin) (ask : Option Str) : Res Coin := do
  let n ← normalize c offer.denom offer.amount
  let d ← orErr (if c.assets.length > 2 then ask else c.assets.find? fun d => decide (d ≠ offer.denom))
    (.invalid "AskAssetMustBeSet")
  require (d ∈ c.assets) (.invalid "InvalidAsset")
  let out ← denormalize c d n
  require (out ≤ bal d c.me) (.invalid "InsufficientPoolBalance")
  .ok ⟨d, out⟩

/-- `swap` (`contracts/pair_transmuter/src/contract.rs:273-301`); the bank refuses to send zero. -/
def swap (c : Cfg A) (s : State A) (sender : A) (funds : List Coin) (offer : Asset) (ask : Option Str)
    (receiver : Option A) : Res (State A × Coin) := do
  let b ← receive c.me sender funds s.bal
  assertSent offer funds
  match offer.info with
  | .token _ => .error (.invalid "InvalidAsset")
  | .native d => do
    let out ← assertAndSwap c b ⟨d, offer.amount⟩ ask
    require (out.amount ≠ 0) (.invalid "invalid coins")
    let l ← move (b out.denom) c.me (receiver.getD sender) out.amount
    .ok ({ s with bal := Function.update b out.denom l }, out)

/-- `get_share_in_assets` (`contracts/pair_transmuter/src/utils.rs:40-54`). -/
def shareInAssets (bal : Str → A → Nat) (me : A) (ratio : Nat) : List Str → Res (List Coin)
  | [] => .ok []
  | d :: ds => do
    let x ← u128 (mulDec (bal d me) ratio)
    let rest ← shareInAssets bal me ratio ds
    .ok (⟨d, x⟩ :: rest)

/-- The checks and the sum over the requested assets (`contracts/pair_transmuter/src/contract.rs:159-179`). -/
def sumRequired (c : Cfg A) (bal : Str → A → Nat) : List Coin → Nat → Res Nat
  | [], acc => .ok acc
  | a :: as, acc => do
    require (a.denom ∈ c.assets) (.invalid "InvalidAsset")
    require (a.amount ≤ bal a.denom c.me) (.invalid "InsufficientPoolBalance")
    let n ← normalize c a.denom a.amount
    let acc ← u128 (acc + n)
    sumRequired c bal as acc

/-- `withdraw_liquidity` (`contracts/pair_transmuter/src/contract.rs:136-221`): `amount` LP tokens are sent along; the token factory refuses to
burn zero.  Requested assets that are not native denoms fail (they are not in the pool). -/
def withdraw (c : Cfg A) (s : State A) (sender : A) (amount : Nat) (assets : List Coin) : Res (State A × List Coin) := do
  require (amount ≠ 0) (.invalid "NoFunds")
  let lp ← move s.lp sender c.me amount
  match assets with
  | [] => do
    let ratio ← decFromRatio amount s.supply
    let refund ← shareInAssets s.bal c.me ratio c.assets
    let refund := refund.filter fun x => decide (x.amount ≠ 0)
    let b ← pay c.me sender refund s.bal
    let lp ← debit lp c.me amount
    let supply ← csub s.supply amount
    .ok (⟨b, lp, supply⟩, refund)
  | _ => do
    let required ← sumRequired c s.bal assets 0
    let unused ← csub amount required
    let lp ← move lp c.me sender unused
    let refund := assets.filter fun x => decide (x.amount ≠ 0)
    let b ← pay c.me sender refund s.bal
    require (required ≠ 0) (.invalid "invalid coins")
    let lp ← debit lp c.me required
    let supply ← csub s.supply required
    .ok (⟨b, lp, supply⟩, refund)

/-- `reverse_swap` (`contracts/pair_transmuter/src/queries.rs:89-133`). -/
def reverseSwap (c : Cfg A) (s : State A) (offer : Option Str) (ask : Coin) : Res Nat := do
  let d ← orErr (match offer with
    | some d => if d ∈ c.assets then some d else none
    | none => c.assets.find? fun d => decide (d ≠ ask.denom)) (.invalid "InvalidAsset")
  require (ask.denom ∈ c.assets) (.invalid "InvalidAsset")
  let n ← normalize c ask.denom ask.amount
  require (n ≤ s.bal ask.denom c.me) (.invalid "InsufficientPoolBalance")
  denormalize c d n

/-! ## Histories -/

/-- Calls, LP transfers and gifts. -/
inductive Op (A : Type)
  | provide (sender : A) (funds : List Coin) (assets : List Asset) (receiver : Option A)
  | swap (sender : A) (funds : List Coin) (offer : Asset) (ask : Option Str) (receiver : Option A)
  | withdraw (sender : A) (amount : Nat) (assets : List Coin)
  | sendLp (src dst : A) (n : Nat)
  | send (src dst : A) (d : Str) (n : Nat)

/-- One call. -/
def exec (c : Cfg A) (s : State A) : Op A → Res (State A)
  | .provide sender funds assets receiver => provide c s sender funds assets receiver
  | .swap sender funds offer ask receiver => do
    let x ← swap c s sender funds offer ask receiver
    .ok x.1
  | .withdraw sender amount assets => do
    let x ← withdraw c s sender amount assets
    .ok x.1
  | .sendLp src dst n => do
    let l ← move s.lp src dst n
    .ok { s with lp := l }
  | .send src dst d n => do
    let l ← move (s.bal d) src dst n
    .ok { s with bal := Function.update s.bal d l }

/-- Who starts the call. -/
def Op.sender : Op A → A
  | .provide s _ _ _ => s
  | .swap s _ _ _ _ => s
  | .withdraw s _ _ => s
  | .sendLp s _ _ => s
  | .send s _ _ _ => s

/-- A failed call changes nothing. -/
def step (c : Cfg A) (s : State A) (o : Op A) : State A := commit' s (exec c s o)

/-- A history. -/
def run (c : Cfg A) (s : State A) (os : List (Op A)) : State A := os.foldl (step c) s

end Verif.Transmuter
