import Verif.Base.Dec
import Verif.XYK.Model

/-!
# Model of the price oracle (`contracts/periphery/oracle`)

* `I` are asset infos.  The pair is reached through two queries, its cumulative prices and its simulation; their answers
  are arguments here.  The composition with the constant product pair is in the specification part of `Props.lean`.
* Decimals are natural numbers of atomics (`10^18`).
* Not modelled: attributes and asset checks; the migration is in `Upgrade.lean`.
-/

namespace Verif.Oracle

/-- A list of values for ordered pairs of assets. -/
abbrev Table (I : Type) := List (I × I × Nat)

/-- contracts/periphery/oracle/src/state.rs:14-23, `PriceCumulativeLast`, and the precisions (:41-42). -/
structure State (I : Type) where
  cumulative : Table I
  average : Table I
  ts : Nat
  precision : I → Option Nat

variable {I : Type} [DecidableEq I]

/-- contracts/periphery/oracle/src/contract.rs:24. -/
def period : Nat := 86400

/-- contracts/periphery/oracle/src/contract.rs:28-67, `instantiate`; `prices` are the pair's cumulative prices. -/
def instantiate (now : Nat) (prices : Table I) (precision : I → Option Nat) : State I :=
  ⟨prices, prices.map (fun x => (x.1, x.2.1, 0)), now, precision⟩

/-- `Uint128::wrapping_sub`. -/
def wrappingSub (a b : Nat) : Nat := (a + U128 - b) % U128

/-- contracts/periphery/oracle/src/contract.rs:103-110, one entry: `Decimal256::from_ratio(price - last, elapsed)`. -/
def averageOf (now last elapsed : Nat) : Res Nat := dec256FromRatio (wrappingSub now last) elapsed

/-- contracts/periphery/oracle/src/contract.rs:100-113: all entries of the new table for the same assets as one entry
of the old one. -/
def averagesFor (elapsed : Nat) (old : I × I × Nat) : Table I → Res (Table I)
  | [] => .ok []
  | x :: rest =>
    if x.1 = old.1 ∧ x.2.1 = old.2.1 then do
      let a ← averageOf x.2.2 old.2.2 elapsed
      let r ← averagesFor elapsed old rest
      .ok ((x.1, x.2.1, a) :: r)
    else averagesFor elapsed old rest

/-- contracts/periphery/oracle/src/contract.rs:98-114: the two loops. -/
def averages (elapsed : Nat) (new : Table I) : Table I → Res (Table I)
  | [] => .ok []
  | old :: rest => do
    let a ← averagesFor elapsed old new
    let r ← averages elapsed new rest
    .ok (a ++ r)

/-- contracts/periphery/oracle/src/contract.rs:86-123, `update`. -/
def update (s : State I) (now : Nat) (prices : Table I) : Res (State I) := do
  let elapsed ← csub now s.ts
  require (¬ elapsed < period) (.invalid "WrongPeriod")
  let avg ← averages elapsed prices s.cumulative
  .ok { s with cumulative := prices, average := avg, ts := now }

/-- contracts/periphery/oracle/src/contract.rs:168-187: the answer for one asset; `sim` is what the pair quotes for one
whole token. -/
def answer (one amount : Nat) (sim : Res Nat) (average : Nat) : Res Nat :=
  if average = 0 then do
    let price ← sim
    let v ← cdiv (price * amount) one
    u256 v
  else do
    let v ← u256 (amount * average / DEC)
    .ok (v / 10 ^ 6)

/-- contracts/periphery/oracle/src/contract.rs:165-189: the answers for all assets. -/
def answers (one amount : Nat) (sim : I → Res Nat) : List (I × Nat) → Res (List (I × Nat))
  | [] => .ok []
  | x :: rest => do
    let v ← answer one amount (sim x.1) x.2
    let r ← answers one amount sim rest
    .ok ((x.1, v) :: r)

/-- contracts/periphery/oracle/src/contract.rs:140-190, `consult`.  `sim one to` is the pair's simulation of offering
`one` of the token for `to`. -/
def consult (s : State I) (token : I) (amount : Nat) (sim : Nat → I → Res Nat) : Res (List (I × Nat)) := do
  let l := (s.average.filter (fun x => decide (x.1 = token))).map (fun x => (x.2.1, x.2.2))
  require (l ≠ []) (.invalid "Invalid Token")
  let p ← orErr (s.precision token) (.invalid "precision not found")
  let one ← u128 (10 ^ p)
  answers one amount (sim one) l

/-- A history of updates: the times and what the pair answered. -/
def run (s : State I) : List (Nat × Table I) → State I
  | [] => s
  | (now, t) :: rest => run (commit' s (update s now t)) rest

/-- contracts/pair/src/contract.rs:1080-1117 as the oracle sees it: the cumulative prices of both directions. -/
def pairTable {A : Type} (me : A) (p : XYK.State A) (now : Nat) : Res (Table Bool) := do
  let c ← XYK.cumulativePrices me p now
  .ok [(false, true, c.1), (true, false, c.2)]

end Verif.Oracle
