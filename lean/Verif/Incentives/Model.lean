import Verif.Incentives.Schedule
import Verif.Base.Ledger
import Mathlib.Data.Fintype.Card
import Mathlib.Data.Fintype.Prod

/-!
# Incentives: one pool (one LP token) with many stakers and many reward tokens

Files modelled: `contracts/tokenomics/incentives/src/state.rs`, `utils.rs`, `execute.rs`.

Representation: `PoolInfo.rewards` is a `Vec<RewardInfo>` holding at most one entry per external asset
and at most one ASTRO (internal) entry, because entries are only pushed when no entry of that asset
exists (`contracts/tokenomics/incentives/src/state.rs:220,348`); it is modelled by a partial function from assets to entries plus an
optional ASTRO entry.  The in-memory map `rewards_to_remove` is passed explicitly.  All `Decimal256`
values are kept as their atomics (18 digits).  Left out: overflow of `Decimal256` (256 bits).
-/

namespace Verif.Incentives

/-- `RewardInfo` with `RewardType::Ext` (`packages/astroport/src/incentives.rs`): rate per second,
time of the next rate change, reward index, orphaned rewards. -/
structure Ext where
  rps : Nat
  next : Nat
  index : Nat
  orphaned : Nat
  deriving DecidableEq, Repr

/-- `RewardInfo` with `RewardType::Int` (ASTRO emissions). -/
structure Astro where
  rps : Nat
  index : Nat
  orphaned : Nat
  deriving DecidableEq, Repr

/-- `UserInfo` (`contracts/tokenomics/incentives/src/state.rs:516-535`): staked amount, reward indexes at the last sync, time of it. -/
structure User (I : Type) where
  amount : Nat
  ext : I → Option Nat
  int : Option Nat
  lastClaim : Nat

/-- `PoolInfo` (`contracts/tokenomics/incentives/src/state.rs:79-93`) together with the storage that belongs to the pool:
`USER_INFO`, `EXTERNAL_REWARD_SCHEDULES`, `FINISHED_REWARD_INDEXES`, and this pool's contribution to
`ORPHANED_REWARDS`. -/
structure Pool (I U : Type) where
  totalLp : Nat
  last : Nat
  ext : I → Option Ext
  int : Option Astro
  users : U → Option (User I)
  sched : I → List (Nat × Nat)
  fin : List (Nat × (I → Option Nat))
  orph : I → Nat

/-- `rewards_to_remove` (`contracts/tokenomics/incentives/src/state.rs:87-92`): asset ↦ (final index, orphaned). -/
abbrev Removed (I : Type) := I → Option (Nat × Nat)

variable {I U : Type}

/-- `PoolInfo::default()` with empty storage (`contracts/tokenomics/incentives/src/state.rs:79-93`). -/
def Pool.empty : Pool I U :=
  ⟨0, 0, fun _ => none, none, fun _ => none, fun _ => [], [], fun _ => 0⟩

/-! ## Accrual -/

/-- The loop over stored schedules (`contracts/tokenomics/incentives/src/state.rs:140-162`): `prev` is `next_update_ts`, `acc` is
`collected_rewards`; returns them and the schedule found active (its end, its rate). -/
def walk (now : Nat) : Nat → List (Nat × Nat) → Nat → Nat × Nat × Option (Nat × Nat)
  | prev, [], acc => (acc, prev, none)
  | prev, (k, r) :: rest, acc =>
    if k > now then (acc, prev, some (k, r))
    else walk now k rest (acc + r * (k - prev))

/-- Spreading collected rewards over the staked tokens (`contracts/tokenomics/incentives/src/state.rs:176-183`):
returns (index, orphaned). -/
def spread (total index orphaned collected : Nat) : Nat × Nat :=
  if total = 0 then (index, orphaned + collected)
  else (index + (orphaned + collected) / total, 0)

/-- One external reward in `update_rewards` (`contracts/tokenomics/incentives/src/state.rs:112-192`): the entry that stays, or the final
(index, orphaned) of a reward that ran out.  `next_update_ts - last_update_ts` is a truncated
subtraction here; `Lemmas.lean` proves it never truncates in a reachable state. -/
def updExt (now last total : Nat) (sched : List (Nat × Nat)) (e : Ext) : Option Ext × Option (Nat × Nat) :=
  if e.next ≤ now then
    let w := walk now e.next (after e.next sched) (e.rps * (e.next - last))
    match w.2.2 with
    | some (k, r) =>
      let g := spread total e.index e.orphaned (w.1 + r * (now - w.2.1))
      (some ⟨r, k, g.1, g.2⟩, none)
    | none => (none, some (spread total e.index e.orphaned w.1))
  else
    let g := spread total e.index e.orphaned (e.rps * (now - last))
    (some ⟨e.rps, e.next, g.1, g.2⟩, none)

/-- The ASTRO reward in `update_rewards` (`contracts/tokenomics/incentives/src/state.rs:112-192`). -/
def updAstro (now last total : Nat) (r : Astro) : Astro :=
  let g := spread total r.index r.orphaned (r.rps * (now - last))
  ⟨r.rps, g.1, g.2⟩

/-- `PoolInfo::update_rewards` (`contracts/tokenomics/incentives/src/state.rs:98-193`). -/
def update (now : Nat) (p : Pool I U) : Pool I U × Removed I :=
  if now ≤ p.last then (p, fun _ => none)
  else
    ({ p with
        ext := fun X => (p.ext X).bind fun e => (updExt now p.last p.totalLp (p.sched X) e).1
        int := p.int.map (updAstro now p.last p.totalLp)
        last := now },
      fun X => (p.ext X).bind fun e => (updExt now p.last p.totalLp (p.sched X) e).2)

/-- The finished indexes with no orphaned rewards, which `save` stores (`contracts/tokenomics/incentives/src/state.rs:450-461`). -/
def savedIdx (rem : Removed I) : I → Option Nat := fun X =>
  match rem X with
  | some (i, o) => if o = 0 then some i else none
  | none => none

/-- `PoolInfo::save` (`contracts/tokenomics/incentives/src/state.rs:444-480`).  The code groups consecutive entries of a hash map by
"no orphaned rewards" and stores each such group under the same key; the model stores all of them at
once.  (The two agree because a batch is never mixed: either the pool has stakers, and every orphaned
amount is zero, or it has none.) -/
def save [Fintype I] (p : Pool I U) (rem : Removed I) : Pool I U :=
  { p with
    fin := if ∃ X, (savedIdx rem X).isSome = true then upsert p.last (savedIdx rem) p.fin else p.fin
    orph := fun X => p.orph X + (match rem X with | some (_, o) => o / DEC | none => 0) }

/-! ## What a staker is owed -/

/-- Final indexes of the incarnations of reward `X` that ended after the user's last claim
(`contracts/tokenomics/incentives/src/state.rs:617-634`, grouped per asset by `into_group_map_by`, `contracts/tokenomics/incentives/src/state.rs:638-641`). -/
def finishedOf (p : Pool I U) (rem : Removed I) (lastClaim : Nat) (X : I) : List Nat :=
  (p.fin.filterMap fun x => if lastClaim < x.1 then x.2 X else none) ++
    (match rem X with | some (i, _) => [i] | none => [])

/-- Second and later finished incarnations (`contracts/tokenomics/incentives/src/state.rs:662-666`); each amount must fit `Uint128`. -/
def payRest (amount : Nat) : List Nat → Res Nat
  | [] => .ok 0
  | f :: rest => do
    let a ← u128 (mulDec amount f)
    let b ← payRest amount rest
    .ok (a + b)

/-- `claim_finished_rewards` for one asset (`contracts/tokenomics/incentives/src/state.rs:612-673`): the first incarnation is paid above
the user's stored index (`finished_index - user_reward_index` aborts if negative). -/
def payFinished (amount uidx : Nat) : List Nat → Res Nat
  | [] => .ok 0
  | f :: rest => do
    let d ← csub f uidx
    let a ← u128 (mulDec amount d)
    let b ← payRest amount rest
    .ok (a + b)

/-- Index difference used by `calculate_reward` (`contracts/tokenomics/incentives/src/state.rs:66-72`). -/
def idxDiff (index uidx : Nat) : Nat := if uidx > index then index else index - uidx

/-- `calculate_reward` for an external reward (`contracts/tokenomics/incentives/src/state.rs:54-75`). -/
def payCurrent (amount uidx : Nat) : Option Ext → Res Nat
  | none => .ok 0
  | some e => u128 (mulDec amount (idxDiff e.index uidx))

/-- Everything paid to a user in reward `X` by `claim_rewards` (`contracts/tokenomics/incentives/src/utils.rs:43-72`): finished
incarnations, then (after `reset_user_index`, `contracts/tokenomics/incentives/src/state.rs:569-604`) the running one. -/
def payExt (p : Pool I U) (rem : Removed I) (u : User I) (X : I) : Res Nat := do
  let fs := finishedOf p rem u.lastClaim X
  let a ← payFinished u.amount ((u.ext X).getD 0) fs
  let b ← payCurrent u.amount (if fs = [] then (u.ext X).getD 0 else 0) (p.ext X)
  .ok (a + b)

/-- ASTRO paid to a user by `claim_rewards` (`contracts/tokenomics/incentives/src/utils.rs:59-67`, `contracts/tokenomics/incentives/src/state.rs:54-75`). -/
def payAstro (p : Pool I U) (u : User I) : Res Nat :=
  match p.int with
  | none => .ok 0
  | some r => u128 (mulDec u.amount (idxDiff r.index (u.int.getD 0)))

/-- Value of a successful call, `0` otherwise. -/
def val (r : Res Nat) : Nat := match r with | .ok n => n | .error _ => 0
/-- Did it succeed? -/
def isOk (r : Res Nat) : Bool := match r with | .ok _ => true | .error _ => false

/-- What a call pays out: external rewards per asset, and ASTRO. -/
structure Paid (I : Type) where
  ext : I → Nat
  int : Nat

/-- The payments of `claim_rewards` (`contracts/tokenomics/incentives/src/utils.rs:29-97`) for one pool after `update_rewards`.  Adding up
payments of one asset is not checked against `Uint128` (the code only adds consecutive ones). -/
def payAll [Fintype I] (p : Pool I U) (rem : Removed I) (u : User I) : Res (Paid I) := do
  require (∀ X, isOk (payExt p rem u X) = true) .overflow
  let a ← payAstro p u
  .ok ⟨fun X => val (payExt p rem u X), a⟩

/-- The index/claim-time part of `update_and_sync_position` (`contracts/tokenomics/incentives/src/state.rs:689-695`). -/
def sync (p : Pool I U) (u : User I) : User I :=
  { u with
    ext := fun X => (p.ext X).map Ext.index
    int := p.int.map Astro.index
    lastClaim := p.last }

/-- `USER_INFO.save` / `remove`. -/
def setUser [DecidableEq U] (p : Pool I U) (u : U) (x : Option (User I)) : Pool I U :=
  { p with users := Function.update p.users u x }

/-! ## The contract's calls on one pool -/

/-- The pool, the LP token's ledger and the clock. -/
structure State (I U : Type) where
  pool : Pool I U
  lp : U → Nat
  now : Nat

variable [Fintype I] [DecidableEq I] [DecidableEq U]

/-- `deposit` (`contracts/tokenomics/incentives/src/execute.rs:177-217`): `sender`'s LP tokens reach the contract `me`, `staker`'s position
is claimed, increased and synced.  (Registration and the LP token being a pair's are contract-level
checks.) -/
def deposit (me : U) (s : State I U) (sender staker : U) (n : Nat) : Res (State I U × Paid I) := do
  let lp ← move s.lp sender me n
  let (p, rem) := update s.now s.pool
  match s.pool.users staker with
  | none =>
    -- `UserInfo::new(&env)` then `update_and_sync_position` (`execute.rs:186-199`)
    let total ← u128 (p.totalLp + n)
    let p := { p with totalLp := total }
    let p := setUser p staker (some (sync p ⟨n, fun _ => none, none, s.now⟩))
    .ok ({ s with pool := save p rem, lp := lp }, ⟨fun _ => 0, 0⟩)
  | some u =>
    let pay ← payAll p rem u
    let amount ← u128 (u.amount + n)
    let total ← u128 (p.totalLp + n)
    let p := { p with totalLp := total }
    let p := setUser p staker (some (sync p { u with amount := amount }))
    .ok ({ s with pool := save p rem, lp := lp }, pay)

/-- `withdraw` (`contracts/tokenomics/incentives/src/execute.rs:219-264`): claim, reduce, sync, drop an emptied position, send the LP. -/
def withdraw (me : U) (s : State I U) (user : U) (n : Nat) : Res (State I U × Paid I) := do
  let u ← orErr (s.pool.users user) (.invalid "PositionDoesntExist")
  require (¬ u.amount < n) (.invalid "AmountExceedsBalance")
  let (p, rem) := update s.now s.pool
  let pay ← payAll p rem u
  let total ← csub p.totalLp n
  let p := { p with totalLp := total }
  let u := sync p { u with amount := u.amount - n }
  let p := setUser p user (if u.amount = 0 then none else some u)
  let lp ← move s.lp me user n
  .ok ({ s with pool := save p rem, lp := lp }, pay)

/-- `ClaimRewards` for this pool (`contracts/tokenomics/incentives/src/execute.rs:52-84`, `contracts/tokenomics/incentives/src/utils.rs:29-97`). -/
def claim (s : State I U) (user : U) : Res (State I U × Paid I) := do
  let u ← orErr (s.pool.users user) (.invalid "PositionDoesntExist")
  let (p, rem) := update s.now s.pool
  let pay ← payAll p rem u
  let p := setUser p user (some (sync p u))
  .ok ({ s with pool := save p rem }, pay)

/-- The stored pieces written when a new schedule outlasts the running one (`contracts/tokenomics/incentives/src/state.rs:330-345`). -/
def overlap (stop rps : Nat) : List (Nat × Nat) → List (Nat × Nat)
  | [] => [(stop, rps)]
  | (k, r) :: rest => if stop ≤ k then [(stop, r + rps)] else (k, r + rps) :: overlap stop rps rest

/-- `EXTERNAL_REWARD_SCHEDULES.save` for each piece (`contracts/tokenomics/incentives/src/state.rs:348-356`). -/
def saveAll (pieces l : List (Nat × Nat)) : List (Nat × Nat) :=
  pieces.foldl (fun l x => upsert x.1 x.2 l) l

/-- Adding a schedule to a running reward (`contracts/tokenomics/incentives/src/state.rs:300-360`). -/
def extend (e : Ext) (l : List (Nat × Nat)) (c : Schedule) : Ext × List (Nat × Nat) :=
  if c.stop ≤ e.next then
    ({ e with next := c.stop, rps := e.rps + c.rps },
      if c.stop < e.next then upsert e.next e.rps l else l)
  else
    ({ e with rps := e.rps + c.rps }, saveAll (overlap c.stop c.rps (after c.nextEpochStart l)) l)

/-- `PoolInfo::incentivize` (`contracts/tokenomics/incentives/src/state.rs:264-364`); `isAstro` says whether `X` is the ASTRO token. -/
def incentivizePool (p : Pool I U) (X : I) (c : Schedule) (isAstro : Bool) : Res (Pool I U) := do
  require (¬ (Fintype.card {Y : I // (p.ext Y).isSome = true} = MAX_REWARD_TOKENS ∧ p.ext X = none ∧
    isAstro = false)) (.invalid "TooManyRewardTokens")
  match p.ext X with
  | none => .ok { p with ext := Function.update p.ext X (some ⟨c.rps, c.stop, 0, 0⟩) }
  | some e =>
    let r := extend e (p.sched X) c
    .ok { p with ext := Function.update p.ext X (some r.1), sched := Function.update p.sched X r.2 }

/-- `incentivize` (`contracts/tokenomics/incentives/src/utils.rs:201-308`) for one pool: anyone adds `amount` of reward `X` over `periods`
weeks.  (Blocked tokens, the incentivization fee and pair registration are contract-level checks; the
reward tokens are pulled by `TransferFrom` or were sent along, the amount is exactly `amount`.) -/
def incentivize (s : State I U) (X : I) (amount periods : Nat) (isAstro : Bool) : Res (State I U) := do
  let c ← fromInput s.now amount periods
  let (p, rem) := update s.now s.pool
  let p ← incentivizePool p X c isAstro
  .ok { s with pool := save p rem }

/-- Rewards of the upcoming schedules (`contracts/tokenomics/incentives/src/state.rs:402-421`): `prev` is `prev_time`. -/
def upcoming : Nat → List (Nat × Nat) → Nat
  | _, [] => 0
  | prev, (k, r) :: rest => r * (k - prev) + upcoming k rest

/-- `deregister_reward` (`contracts/tokenomics/incentives/src/state.rs:370-431`): removes the reward and its stored schedules (all of
those after the running one, unless bypassed), and returns the unspent tokens. -/
def deregister (p : Pool I U) (rem : Removed I) (X : I) (bypass : Bool) :
    Res ((Pool I U × Removed I) × Nat) := do
  let e ← orErr (p.ext X) (.invalid "RewardNotFound")
  let l := (p.sched X).filter (fun x => x.1 ≠ e.next)
  let rest := after e.next l
  let remaining := e.rps * (e.next - p.last) + (if bypass then 0 else upcoming e.next rest) + e.orphaned
  let refund ← u128 (remaining / DEC)
  let l' := if bypass then l else l.filter (fun x => ¬ e.next < x.1)
  .ok (({ p with ext := Function.update p.ext X none, sched := Function.update p.sched X l' },
    Function.update rem X (some (e.index, e.orphaned))), refund)

/-- `remove_reward_from_pool` (`contracts/tokenomics/incentives/src/utils.rs:334-380`), by the owner; returns what the receiver is sent. -/
def removeReward (s : State I U) (X : I) (bypass : Bool) : Res (State I U × Nat) := do
  let (p, rem) := update s.now s.pool
  let ((p, rem), refund) ← deregister p rem X bypass
  .ok ({ s with pool := save p rem }, refund)

/-- Setting the ASTRO rate of the pool: `set_astro_rewards` (`contracts/tokenomics/incentives/src/state.rs:211-228`) after
`update_rewards`, as `setup_pools`, `set_tokens_per_second` and `deactivate_pool` do. -/
def setAstro (s : State I U) (rps : Nat) : State I U :=
  let (p, rem) := update s.now s.pool
  let r := match p.int with | some r => { r with rps := rps } | none => ⟨rps, 0, 0⟩
  { s with pool := save { p with int := some r } rem }

/-- Stopping the ASTRO rewards of the pool: `disable_astro_rewards` (`contracts/tokenomics/incentives/src/state.rs:240-244`). -/
def disableAstro (s : State I U) : State I U :=
  let (p, rem) := update s.now s.pool
  { s with pool := save { p with int := p.int.map fun r => { r with rps := 0 } } rem }

/-- `update_rewards` followed by `save` (what any call touching the pool does to it). -/
def touch (s : State I U) : State I U :=
  let (p, rem) := update s.now s.pool
  { s with pool := save p rem }

/-- The `PendingRewards` query for one asset (`query.rs`): what `ClaimRewards` would pay now. -/
def pending (s : State I U) (user : U) (X : I) : Res Nat :=
  let (p, rem) := update s.now s.pool
  match s.pool.users user with
  | none => .error (.invalid "PositionDoesntExist")
  | some u => payExt p rem u X

/-- Same for ASTRO. -/
def pendingAstro (s : State I U) (user : U) : Res Nat :=
  let (p, _) := update s.now s.pool
  match s.pool.users user with
  | none => .error (.invalid "PositionDoesntExist")
  | some u => payAstro p u

end Verif.Incentives
