import Verif.Asset.Model
import Verif.Base.Ledger
import Mathlib.Logic.Function.Basic

/-!
# Model of `contracts/router`

The router runs other contracts (pools and cw20 tokens) which may do anything, including calling the router
again before the outer call has finished.  Their behaviour in one execution is a tree `Prog`: arbitrary effects
on the balances and on the state of the other contracts, and nested router calls.
-/

namespace Verif.Router

open Verif.Asset

/-- `SwapOperation` (`packages/astroport/src/router.rs:18-34`). -/
inductive SwapOp
  | native (offer ask : Str)
  | astro (offer ask : Info)
  deriving DecidableEq

/-- `get_target_asset_info` (`packages/astroport/src/router.rs:37-46`). -/
def SwapOp.target : SwapOp → Info
  | .native _ ask => .native ask
  | .astro _ ask => ask

/-- `MAX_SWAP_OPERATIONS` (`packages/astroport/src/router.rs:7`). -/
def MAX_SWAP_OPERATIONS : Nat := 50

/-- The loop of `assert_operations` (`contracts/router/src/contract.rs:405-438`); `prev` is the asset asked by the previous hop. -/
def assertPath (okAddr : Str → Bool) : Option Info → List SwapOp → Res Unit
  | _, [] => .ok ()
  | _, .native _ _ :: _ => .error (.invalid "NativeSwapNotSupported")
  | prev, .astro offer ask :: rest => do
    offer.check okAddr
    ask.check okAddr
    require (offer.equal ask = false) (.invalid "DoublingAssetsPath")
    require (∀ p, prev = some p → p = offer) (.invalid "InvalidPathOperations")
    assertPath okAddr (some ask) rest

/-- `assert_operations` (`contracts/router/src/contract.rs:393-441`). -/
def assertOperations (okAddr : Str → Bool) (ops : List SwapOp) : Res Unit := do
  require (ops.length ≠ 0) (.invalid "MustProvideOperations")
  require (¬ops.length > MAX_SWAP_OPERATIONS) (.invalid "SwapLimitExceeded")
  assertPath okAddr none ops

/-- `ReplyData` (`contracts/router/src/state.rs`): one storage item, saved by every route. -/
structure ReplyData (A : Type) where
  assetInfo : Info
  prevBalance : Nat
  minimumReceive : Option Nat
  receiver : A

/-- Balances of all assets, the router's storage, and the state `E` of all other contracts. -/
structure World (A E : Type) where
  bal : Info → A → Nat
  reply : Option (ReplyData A)
  ext : E

/-- The chain around the router: its address, `addr_validate`, the factory's pair lookup (`query_pair_info`). -/
structure Chain (A : Type) where
  me : A
  okAddr : Str → Bool
  pairOf : Info → Info → Option A

mutual
/-- What the other contracts do while they process one swap message.  `effect` receives the amount that the
message offers. -/
inductive Prog (A E : Type)
  | done
  | effect (f : Nat → (Info → A → Nat) → E → Res ((Info → A → Nat) × E)) (rest : Prog A E)
  | route (sender : A) (ops : List SwapOp) (minimum : Option Nat) (receiver : Option A) (hops : Hops A E)
      (rest : Prog A E)
/-- The behaviour of each hop of one route. -/
inductive Hops (A E : Type)
  | nil
  | cons (h : Prog A E) (rest : Hops A E)
end

variable {A E : Type} [DecidableEq A]

/-- The part of `execute_swap_operations` before its messages run (`contracts/router/src/contract.rs:136-195`). -/
def start (c : Chain A) (w : World A E) (sender : A) (ops : List SwapOp) (minimum : Option Nat)
    (receiver : Option A) : Res (World A E) := do
  assertOperations c.okAddr ops
  let last ← orErr ops.getLast? (.invalid "unwrap on None")
  let target := last.target
  let rcv := receiver.getD sender
  .ok { w with reply := some ⟨target, w.bal target rcv, minimum, rcv⟩ }

/-- `execute_swap_operation`, called by the router itself (`contracts/router/src/operations.rs:21-72`), and the delivery of its
message: native coins travel with the message (the bank refuses a zero coin); for a cw20 token the token
contract is called and moves the balance itself, as part of the hop's behaviour.  Returns the offered amount. -/
def sendHop (c : Chain A) (w : World A E) : SwapOp → Res (World A E × Nat)
  | .native _ _ => .error (.invalid "NativeSwapNotSupported")
  | .astro offer ask => do
    let pair ← orErr (c.pairOf offer ask) (.invalid "pair not found")
    let amount := w.bal offer c.me
    match offer with
    | .token _ => .ok (w, amount)
    | .native _ => do
      require (amount ≠ 0) (.invalid "invalid coins")
      let b ← move (w.bal offer) c.me pair amount
      .ok ({ w with bal := Function.update w.bal offer b }, amount)

/-- `reply` (`contracts/router/src/contract.rs:198-228`): returns the amount reported as `return_amount`. -/
def finish (w : World A E) : Res Nat := do
  let d ← orErr w.reply (.invalid "not found")
  let amount ← csub (w.bal d.assetInfo d.receiver) d.prevBalance
  require (∀ m, d.minimumReceive = some m → ¬amount < m) (.invalid "AssertionMinimumReceive")
  .ok amount

mutual
/-- Run what the other contracts do on a message offering `amount`. -/
def runProg (c : Chain A) (amount : Nat) (w : World A E) : Prog A E → Res (World A E)
  | .done => .ok w
  | .effect f rest => do
    let x ← f amount w.bal w.ext
    runProg c amount { w with bal := x.1, ext := x.2 } rest
  | .route sender ops minimum receiver hops rest => do
    let w1 ← start c w sender ops minimum receiver
    let w2 ← runHops c w1 ops hops
    let _ ← finish w2
    runProg c amount w2 rest
/-- Run the messages of a route, one `ExecuteSwapOperation` after the other. -/
def runHops (c : Chain A) (w : World A E) : List SwapOp → Hops A E → Res (World A E)
  | [], .nil => .ok w
  | op :: ops, .cons h hs => do
    let x ← sendHop c w op
    let w2 ← runProg c x.2 x.1 h
    runHops c w2 ops hs
  | _, _ => .error (.invalid "not an execution")
end

/-- A whole `ExecuteSwapOperations` call: `contracts/router/src/contract.rs:136-228`.  Returns the reported amount. -/
def route (c : Chain A) (w : World A E) (sender : A) (ops : List SwapOp) (minimum : Option Nat)
    (receiver : Option A) (hops : Hops A E) : Res (World A E × Nat) := do
  let w1 ← start c w sender ops minimum receiver
  let w2 ← runHops c w1 ops hops
  let n ← finish w2
  .ok (w2, n)

/-! ## Simulation -/

/-- The loop of `simulate_swap_operations` (`contracts/router/src/contract.rs:311-343`); `quote pair offer ask x` is the pool's
`Simulation` answer. -/
def simulateLoop (c : Chain A) (quote : A → Info → Info → Nat → Res Nat) : List SwapOp → Nat → Res Nat
  | [], x => .ok x
  | .native _ _ :: _, _ => .error (.invalid "NativeSwapNotSupported")
  | .astro offer ask :: rest, x => do
    let pair ← orErr (c.pairOf offer ask) (.invalid "pair not found")
    let y ← quote pair offer ask x
    simulateLoop c quote rest y

/-- `simulate_swap_operations` (`contracts/router/src/contract.rs:302-347`). -/
def simulate (c : Chain A) (quote : A → Info → Info → Nat → Res Nat) (x : Nat) (ops : List SwapOp) : Res Nat := do
  assertOperations c.okAddr ops
  simulateLoop c quote ops x

/-- The loop of `simulate_reverse_swap_operations` (`contracts/router/src/contract.rs:359-385`), over the reversed operations. -/
def reverseLoop (c : Chain A) (quote : A → Info → Info → Nat → Res Nat) : List SwapOp → Nat → Res Nat
  | [], x => .ok x
  | .native _ _ :: _, _ => .error (.invalid "NativeSwapNotSupported")
  | .astro offer ask :: rest, x => do
    let pair ← orErr (c.pairOf offer ask) (.invalid "pair not found")
    let y ← quote pair offer ask x
    reverseLoop c quote rest y

/-- `simulate_reverse_swap_operations` (`contracts/router/src/contract.rs:349-388`). -/
def simulateReverse (c : Chain A) (quote : A → Info → Info → Nat → Res Nat) (y : Nat) (ops : List SwapOp) :
    Res Nat := do
  assertOperations c.okAddr ops
  reverseLoop c quote ops.reverse y

/-- The belief price that a hop passes to its pool (`contracts/router/src/operations.rs:96`): `Decimal::MAX` inside a longer route. -/
def hopBelief (single : Bool) : Option Nat := if single then none else some (U128 - 1)

end Verif.Router
