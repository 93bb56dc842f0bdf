import Verif.Base.Ledger

/-!
# Model of the vesting contract

`contracts/tokenomics/vesting/src/contract.rs`.  The vesting token (cw20 or native) is a ledger; the
contract's own account is `me`.  Migration (contracts/tokenomics/vesting/src/contract.rs:522-586) is in `Joint/VestingMigration.lean`; list queries in `Vesting/Listing.lean`.
-/

namespace Verif.Vesting

/-- `VestingSchedulePoint`, packages/astroport/src/vesting.rs. -/
structure Point where
  time : Nat
  amount : Nat
  deriving DecidableEq, Repr

/-- `VestingSchedule`. -/
structure Schedule where
  start : Point
  stop : Option Point
  deriving DecidableEq, Repr

/-- `VestingInfo`. -/
structure Info where
  schedules : List Schedule
  released : Nat
  deriving DecidableEq, Repr

/-- `SCHEDULES_LIMIT`, contracts/tokenomics/vesting/src/contract.rs:30. -/
def schedulesLimit : Nat := 8

/-- Contract state (`CONFIG.owner`, `VESTING_INFO`), the vesting token's ledger and the block time. -/
structure State (A : Type) where
  owner : A
  info : A → Option Info
  bal : A → Nat
  now : Nat

/-- `calc_schedule_unlocked_amount`, contracts/tokenomics/vesting/src/contract.rs:311-330. -/
def unlocked (s : Schedule) (t : Nat) : Res Nat :=
  match s.stop with
  | none => .ok s.start.amount
  | some e => do
    let passed ← csub (min t e.time) s.start.time
    let period ← csub e.time s.start.time
    if passed ≠ 0 then do
      let diff ← csub e.amount s.start.amount
      let r ← mulRatio passed diff period
      u128 (s.start.amount + r)
    else .ok s.start.amount

/-- The loop of `compute_available_amount`, contracts/tokenomics/vesting/src/contract.rs:294-302. -/
def sumUnlocked (t : Nat) : Nat → List Schedule → Res Nat
  | acc, [] => .ok acc
  | acc, s :: ss =>
    if s.start.time > t then sumUnlocked t acc ss
    else do
      let u ← unlocked s t
      let acc ← u128 (acc + u)
      sumUnlocked t acc ss

/-- `compute_available_amount`, contracts/tokenomics/vesting/src/contract.rs:293-307. -/
def available (t : Nat) (i : Info) : Res Nat := do
  let u ← sumUnlocked t 0 i.schedules
  csub u i.released

/-- `assert_vesting_schedules`, contracts/tokenomics/vesting/src/contract.rs:220-237 (one schedule). -/
def validSchedule (now : Nat) (s : Schedule) : Bool :=
  match s.stop with
  | none => true
  | some e => s.start.time < e.time && e.time > now && s.start.amount < e.amount

/-- Amount a schedule is funded with, contracts/tokenomics/vesting/src/contract.rs:175-180. -/
def total (s : Schedule) : Nat :=
  match s.stop with
  | none => s.start.amount
  | some e => e.amount

/-- The inner summation loop, contracts/tokenomics/vesting/src/contract.rs:174-181. -/
def addTotals : Nat → List Schedule → Res Nat
  | acc, [] => .ok acc
  | acc, s :: ss => do
    let acc ← u128 (acc + total s)
    addTotals acc ss

variable {A : Type} [DecidableEq A]

/-- Merge of new schedules into an account, contracts/tokenomics/vesting/src/contract.rs:183-201. -/
def mergeInfo (old : Option Info) (new : List Schedule) : Res Info :=
  match old with
  | none => .ok { schedules := new, released := 0 }
  | some o => do
    require (¬ o.schedules.length + 1 > schedulesLimit) (.invalid "ExceedSchedulesMaximumLimit")
    .ok { schedules := new ++ o.schedules, released := o.released }

/-- The loop over accounts of `register_vesting_accounts`, contracts/tokenomics/vesting/src/contract.rs:168-203. -/
def registerLoop (now : Nat) (infos : A → Option Info) :
    Nat → List (A × List Schedule) → Res ((A → Option Info) × Nat)
  | acc, [] => .ok (infos, acc)
  | acc, (a, ss) :: rest => do
    require (ss.all (validSchedule now) = true) (.invalid "VestingScheduleError")
    let acc ← addTotals acc ss
    let i ← mergeInfo (infos a) ss
    registerLoop now (Function.update infos a (some i)) acc rest

/-- `RegisterVestingAccounts`, contracts/tokenomics/vesting/src/contract.rs:79-89 and 133-151 and 158-213.  The tokens (native funds of
the message, or the cw20 amount already transferred by `Send`) move from the sender to the contract in
the same transaction. -/
def register (me : A) (s : State A) (sender : A) (accounts : List (A × List Schedule)) (amount : Nat) :
    Res (State A) := do
  let bal ← move s.bal sender me amount
  require (sender = s.owner) .unauthorized
  let (infos, dep) ← registerLoop s.now s.info 0 accounts
  require (dep = amount) (.invalid "VestingScheduleAmountError")
  .ok { s with info := infos, bal := bal }

/-- The amount to pay, contracts/tokenomics/vesting/src/contract.rs:255-264. -/
def claimAmount (avail : Nat) : Option Nat → Res Nat
  | some a => do
    require (¬ a > avail) (.invalid "AmountIsNotAvailable")
    .ok a
  | none => .ok avail

/-- `claim`, contracts/tokenomics/vesting/src/contract.rs:244-283; returns the amount paid. -/
def claim (me : A) (s : State A) (sender : A) (recipient : Option A) (amount : Option Nat) :
    Res (State A × Nat) := do
  let i ← orErr (s.info sender) (.invalid "not found")
  let avail ← available s.now i
  let x ← claimAmount avail amount
  if x ≠ 0 then do
    let r ← u128 (i.released + x)
    let bal ← move s.bal me (recipient.getD sender) x
    .ok ({ s with info := Function.update s.info sender (some { i with released := r }), bal := bal }, x)
  else .ok (s, x)

/-- The filter of `withdraw_from_active_schedule`, contracts/tokenomics/vesting/src/contract.rs:367-374. -/
def active (t : Nat) (s : Schedule) : Bool :=
  match s.stop with
  | none => false
  | some e => t ≥ s.start.time && t < e.time

/-- New value of the active schedule, contracts/tokenomics/vesting/src/contract.rs:382-399. -/
def cutSchedule (t amount : Nat) (s : Schedule) : Res Schedule := do
  let e ← orErr s.stop (.invalid "unwrap")
  let u ← unlocked s t
  let left ← csub e.amount u
  require (¬ amount ≥ left) (.invalid "NotEnoughTokens")
  let am ← csub e.amount amount
  .ok { start := { time := t, amount := u }, stop := some { time := e.time, amount := am } }

/-- The schedule list after the withdrawal (contracts/tokenomics/vesting/src/contract.rs:367-402): exactly one active schedule is
required, it is replaced in place. -/
def cutActive (t amount : Nat) (ss : List Schedule) : Res (List Schedule) :=
  match ss.filter (active t) with
  | [] => .error (.invalid "NoActiveVestingSchedule")
  | [sch] => do
    let sch' ← cutSchedule t amount sch
    .ok (ss.map (fun x => if active t x then sch' else x))
  | _ => .error (.invalid "MultipleActiveSchedules")

/-- `withdraw_from_active_schedule`, contracts/tokenomics/vesting/src/contract.rs:348-418. -/
def withdraw (me : A) (s : State A) (sender account : A) (recipient : Option A) (amount : Nat) :
    Res (State A) := do
  require (amount ≠ 0) (.invalid "ZeroAmountWithdrawal")
  require (sender = s.owner) .unauthorized
  let i ← orErr (s.info account) (.invalid "not found")
  let ss ← cutActive s.now amount i.schedules
  let bal ← move s.bal me (recipient.getD sender) amount
  .ok { s with info := Function.update s.info account (some { i with schedules := ss }), bal := bal }

/-- `QueryMsg::AvailableAmount`, contracts/tokenomics/vesting/src/contract.rs:512-519. -/
def queryAvailable (s : State A) (a : A) : Res Nat := do
  let i ← orErr (s.info a) (.invalid "not found")
  available s.now i

/-- What can happen: contract calls, token transfers between other accounts (including donations to the
contract), a change of owner (see the ownership model for who can cause it), time passing. -/
inductive Op (A : Type)
  | register (sender : A) (accounts : List (A × List Schedule)) (amount : Nat)
  | claim (sender : A) (recipient : Option A) (amount : Option Nat)
  | withdraw (sender account : A) (recipient : Option A) (amount : Nat)
  | transfer (src dst : A) (amount : Nat)
  | setOwner (a : A)
  | wait (seconds : Nat)

/-- One transaction; the number is the amount paid by a claim to its caller (0 for other operations). -/
def exec (me : A) (s : State A) : Op A → Res (State A × Nat)
  | .register a l n => do
    require (a ≠ me) .unauthorized
    let s ← register me s a l n
    .ok (s, 0)
  | .claim a r n => do
    require (a ≠ me) .unauthorized
    claim me s a r n
  | .withdraw a acc r n => do
    require (a ≠ me) .unauthorized
    let s ← withdraw me s a acc r n
    .ok (s, 0)
  | .transfer a b n => do
    require (a ≠ me) .unauthorized
    let bal ← move s.bal a b n
    .ok ({ s with bal := bal }, 0)
  | .setOwner a => .ok ({ s with owner := a }, 0)
  | .wait d => .ok ({ s with now := s.now + d }, 0)

/-- A failed transaction changes nothing. -/
def step (me : A) (s : State A) (op : Op A) : State A := commit s (exec me s op)

def run (me : A) (s : State A) (ops : List (Op A)) : State A := ops.foldl (step me) s

/-- Amount a transaction pays out to `a` as a claim. -/
def claimedBy (me : A) (s : State A) (a : A) (op : Op A) : Nat :=
  match op, exec me s op with
  | .claim b _ _, .ok (_, x) => if b = a then x else 0
  | _, _ => 0

/-- Total claimed by `a` during a history. -/
def totalClaimed (me : A) (a : A) : State A → List (Op A) → Nat
  | _, [] => 0
  | s, op :: ops => claimedBy me s a op + totalClaimed me a (step me s op) ops

/-- After instantiation: no accounts; token holdings and time are arbitrary. -/
def initial (owner : A) (bal : A → Nat) (now : Nat) : State A :=
  { owner := owner, info := fun _ => none, bal := bal, now := now }

end Verif.Vesting
