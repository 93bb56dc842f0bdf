import Verif.Base.Dec
import Mathlib.Tactic.IntervalCases

/-!
# Incentives: the schedule made from a funder's request, and the ordered maps that store schedules

Files modelled: `packages/astroport/src/incentives.rs`, `contracts/tokenomics/incentives/src/state.rs`.
-/

namespace Verif.Incentives

/-- `EPOCH_LENGTH` (`packages/astroport/src/incentives.rs:11`): one week. -/
def EPOCH_LENGTH : Nat := 86400 * 7
/-- `EPOCHS_START` (`packages/astroport/src/incentives.rs:13`): Mon Oct 9 2023 00:00 UTC. -/
def EPOCHS_START : Nat := 1696809600
/-- `MAX_PERIODS` (`packages/astroport/src/incentives.rs:15`). -/
def MAX_PERIODS : Nat := 25
/-- `MAX_REWARD_TOKENS` (`packages/astroport/src/incentives.rs:17`). -/
def MAX_REWARD_TOKENS : Nat := 5

/-- `IncentivesSchedule` (`packages/astroport/src/incentives.rs:49-60`); `rps` in `Decimal256`
atomics, the reward asset is kept apart. -/
structure Schedule where
  nextEpochStart : Nat
  stop : Nat
  rps : Nat
  deriving DecidableEq, Repr

/-- `IncentivesSchedule::from_input` (`packages/astroport/src/incentives.rs:64-94`), for a reward of
`amount` units and `periods` weeks at block time `now` (seconds).  `end_ts - block_ts` is checked
(`overflow-checks = true`).  The `u64` multiplications cannot overflow for 64-bit times and are not
checked here. -/
def fromInput (now amount periods : Nat) : Res Schedule := do
  require (¬ (periods > MAX_PERIODS ∨ periods = 0)) (.invalid "Duration")
  let rem := now % EPOCHS_START
  let nextEpochStart := EPOCHS_START + (rem / EPOCH_LENGTH + 1) * EPOCH_LENGTH
  let stop := nextEpochStart + periods * EPOCH_LENGTH
  let len ← csub stop now
  require (len ≠ 0) .divByZero
  let rps := amount * DEC / len
  require (¬ rps < DEC) (.invalid "RewardPerSecond")
  .ok ⟨nextEpochStart, stop, rps⟩

/-! ## Ordered maps keyed by a timestamp (`cw_storage_plus::Map` under a prefix) -/

section maps
variable {β : Type}

/-- `Map::save`: insert or overwrite, keeping keys ascending. -/
def upsert (k : Nat) (v : β) : List (Nat × β) → List (Nat × β)
  | [] => [(k, v)]
  | (k', v') :: r =>
    if k < k' then (k, v) :: (k', v') :: r
    else if k = k' then (k, v) :: r
    else (k', v') :: upsert k v r

/-- `range(Some(Bound::exclusive(t)), None, Order::Ascending)`. -/
def after (t : Nat) (l : List (Nat × β)) : List (Nat × β) := l.filter (fun x => t < x.1)

/-- Value stored under a key. -/
def get (k : Nat) : List (Nat × β) → Option β
  | [] => none
  | (k', v') :: r => if k = k' then some v' else get k r

/-- Keys strictly ascending. -/
def Ascending (l : List (Nat × β)) : Prop := l.Pairwise (fun a b => a.1 < b.1)

end maps

end Verif.Incentives
