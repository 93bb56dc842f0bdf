import Verif.Observation.Buffer
import Verif.Base.Dec

/-!
# Model of price observations

`packages/astroport/src/observation.rs` and `accumulate_swap_sizes` of the concentrated and stable pairs
(contracts/pair_concentrated/src/utils.rs:58-115, contracts/pair_stable/src/utils.rs:335-392, which are
identical).  Prices are `Decimal` atomics, times are seconds.
-/

namespace Verif.Observation
open Verif.Buffer

/-- `Observation`, packages/astroport/src/observation.rs:16-26. -/
structure Obs where
  ts : Nat
  price : Nat
  sma : Nat
  deriving DecidableEq, Repr

/-- `PrecommitObservation`, packages/astroport/src/observation.rs:155-160. -/
structure Pre where
  base : Nat
  quote : Nat
  ts : Nat
  deriving DecidableEq, Repr

/-- Storage of a pair relevant for observations.  `log` is a ghost: the list of all observations ever
pushed (no function reads it). -/
structure State where
  store : Store Obs
  pre : Option Pre
  log : List Obs

/-- `u32` arithmetic check. -/
def u32 (n : Nat) : Res Nat := if n < U32 then .ok n else .error .overflow

@[simp] theorem u32_ok {n m : Nat} : u32 n = .ok m ↔ n < U32 ∧ n = m := by
  unfold u32; split <;> simp_all

/-- `safe_sma_calculation`, packages/astroport/src/observation.rs:205-219.  `Decimal256::from_ratio(x, 10^18·count)` is
`x·10^18/(10^18·count)`. -/
def safeSma (sma oldest count new : Nat) : Res Nat := do
  let num ← csub (sma * count + new) oldest
  let q ← cdiv (num * DEC) (DEC * count)
  u128 q

/-- `safe_sma_buffer_not_full`, packages/astroport/src/observation.rs:223-235. -/
def safeSmaNotFull (sma count new : Nat) : Res Nat := do
  let q ← cdiv ((sma * count + new) * DEC) (DEC * (count + 1))
  u128 q

/-- The price average for the next observation, the inner `if let` of `accumulate_swap_sizes`. -/
def nextSma (m : Mgr Obs) (last : Obs) (price : Nat) : Option Obs → Res Nat
  | some oldest => safeSma last.sma oldest.price m.cap price
  | none => safeSmaNotFull last.sma m.head price

/-- Push an observation (`instant_push`) and record it in the ghost log. -/
def pushObs (s : State) (m : Mgr Obs) (o : Obs) : Res State := do
  let (_, st) ← instantPush m s.store o
  .ok { s with store := st, log := s.log ++ [o] }

/-- `accumulate_swap_sizes`, contracts/pair_concentrated/src/utils.rs:58-115. -/
def accumulateSwapSizes (s : State) (now : Nat) : Res State :=
  match s.pre with
  | none => .ok s
  | some p => do
    let m ← new s.store
    let price ← decFromRatio p.base p.quote
    let last ← readLast m s.store
    match last with
    | some last =>
      if last.ts < p.ts then do
        let k ← u32 (m.head + 1)
        let oldest ← readSingle m s.store k
        let sma ← nextSma m last price oldest
        pushObs s m { ts := p.ts, price := price, sma := sma }
      else .ok s
    | none =>
      if now > p.ts then pushObs s m { ts := p.ts, price := price, sma := price }
      else .ok s

/-- `PrecommitObservation::save`, packages/astroport/src/observation.rs:167-188. -/
def savePre (s : State) (now base quote : Nat) : Res State :=
  match s.pre with
  | some p =>
    if now = p.ts then do
      let b ← u128 (p.base + base)
      let q ← u128 (p.quote + quote)
      .ok { s with pre := some { base := b, quote := q, ts := p.ts } }
    else .ok { s with pre := some { base := base, quote := quote, ts := now } }
  | none => .ok { s with pre := some { base := base, quote := quote, ts := now } }

/-- The observation part of `swap` (contracts/pair_concentrated/src/contract.rs:776-789): first commit the previous
block's data, then remember this trade unless it is tiny (`big` is the outcome of the two
`MIN_TRADE_SIZE` comparisons). -/
def trade (s : State) (now base quote : Nat) (big : Bool) : Res State := do
  let s ← accumulateSwapSizes s now
  if big then savePre s now base quote else .ok s

/-- A trade as it happened: block time, base and quote amounts, and whether it is above the minimum. -/
structure Trade where
  now : Nat
  base : Nat
  quote : Nat
  big : Bool

/-- Failed swaps revert. -/
def step (s : State) (t : Trade) : State := commit' s (trade s t.now t.base t.quote t.big)

/-- History of swaps. -/
def run (s : State) (ts : List Trade) : State := ts.foldl step s

/-- Fresh pair: `BufferManager::init(.., OBSERVATIONS_SIZE)`; the capacity is a parameter here, 3000 in
the code (packages/astroport/src/observation.rs:13). -/
def initial (cap : Nat) : State :=
  { store := { state := some (cap, 0), arr := fun _ => none }, pre := none, log := [] }

/-- One iteration bound: the `loop` of `binary_search`, packages/astroport/src/observation.rs:121-153.  `fuel` bounds the number
of iterations; running out is reported as an error (and shown impossible). -/
def binarySearch (m : Mgr Obs) (st : Store Obs) (target : Nat) : Nat → Nat → Nat → Res (Obs × Obs)
  | 0, _, _ => .error (.invalid "out of fuel")
  | fuel + 1, start, stop => do
    let sum ← u32 (start + stop)
    let mid := sum / 2
    let l ← readSingle m st mid
    let l ← orErr l (.invalid "leftward_or_hit is None")
    let mid1 ← u32 (mid + 1)
    let r ← readSingle m st mid1
    let r ← orErr r (.invalid "rightward_or_hit is None")
    if l.ts ≤ target ∧ target ≤ r.ts then .ok (l, r)
    else if l.ts > target then do
      let stop ← csub mid 1
      binarySearch m st target fuel start stop
    else binarySearch m st target fuel mid1 stop

/-- The interpolation at the end of `query_observation`, packages/astroport/src/observation.rs:91-111. -/
def interpolate (l r : Obs) (target : Nat) : Res Nat :=
  if l.ts = target then .ok l.sma
  else if r.ts = target then .ok r.sma
  else if l.sma = r.sma then .ok l.sma
  else do
    let dt ← csub r.ts l.ts
    let inv ← decFromRatio 1 dt
    let diff := if l.sma > r.sma then l.sma - r.sma else r.sma - l.sma
    let slope ← u128 (decMul diff inv)
    let d ← csub target l.ts
    let interval ← decFromRatio d 1
    let x ← u128 (decMul slope interval)
    if l.sma > r.sma then csub l.sma x else u128 (l.sma + x)

/-- Tail of `query_observation` once the index range is known, packages/astroport/src/observation.rs:68-117. -/
def lookupRange (m : Mgr Obs) (st : Store Obs) (target oldestInd newestInd fuel : Nat) :
    Res (Nat × Nat) := do
  let newest ← readSingle m st newestInd
  let newest ← orErr newest (.invalid "unwrap on None")
  if target ≥ newest.ts then .ok (target, newest.sma)
  else do
    let oldest ← readSingle m st oldestInd
    let oldest ← orErr oldest (.invalid "unwrap on None")
    if target = oldest.ts then .ok (target, oldest.sma)
    else if target < oldest.ts then .error (.invalid "Requested observation is too old")
    else do
      let (l, r) ← binarySearch m st target fuel oldestInd newestInd
      let p ← interpolate l r target
      .ok (target, p)

/-- `query_observation`, packages/astroport/src/observation.rs:35-117: (timestamp, price) for `secondsAgo`. -/
def queryObservation (s : State) (now secondsAgo fuel : Nat) : Res (Nat × Nat) := do
  let m ← new s.store
  let target ← csub now secondsAgo
  let sum ← u32 (m.head + m.cap)
  let newestInd ← csub sum 1
  let ex ← Buffer.exists m s.store m.head
  if ex then lookupRange m s.store target m.head newestInd fuel
  else if m.head > 0 then lookupRange m s.store target 0 (newestInd % m.cap) fuel
  else match s.pre with
    | some p =>
      if p.ts ≤ target then do
        let price ← decFromRatio p.base p.quote
        .ok (target, price)
      else .error (.invalid "Requested observation is too old")
    | none => .error (.invalid "Buffer is empty")

end Verif.Observation
