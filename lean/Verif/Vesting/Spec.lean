import Verif.Vesting.Model

/-! Independent specification used in the vesting properties. -/

namespace Verif.Vesting

/-- What a schedule has unlocked at time `t`: nothing before the start; linear between the start and end
points (rounded down); the end amount afterwards. -/
def due (s : Schedule) (t : Nat) : Nat :=
  if t < s.start.time then 0
  else match s.stop with
    | none => s.start.amount
    | some e =>
      if e.time ≤ t then e.amount
      else s.start.amount + (e.amount - s.start.amount) * (t - s.start.time) / (e.time - s.start.time)

/-- Well-formed schedule: if it has an end, both time and amount increase. -/
def Schedule.Valid (s : Schedule) : Prop :=
  match s.stop with
  | none => True
  | some e => s.start.time < e.time ∧ s.start.amount < e.amount

/-- Unlocked by all schedules of an account. -/
def dueAll (ss : List Schedule) (t : Nat) : Nat := (ss.map (fun s => due s t)).sum

/-- Total of all schedules of an account. -/
def totalAll (ss : List Schedule) : Nat := (ss.map total).sum

variable {A : Type}

/-- Schedules of an account (none if unknown). -/
def schedulesOf (s : State A) (a : A) : List Schedule :=
  match s.info a with
  | none => []
  | some i => i.schedules

/-- What account `a` was paid so far according to the contract. -/
def releasedOf (s : State A) (a : A) : Nat :=
  match s.info a with
  | none => 0
  | some i => i.released

/-- What the contract still owes `a` in total, now or later. -/
def owed (s : State A) (a : A) : Nat := totalAll (schedulesOf s a) - releasedOf s a

end Verif.Vesting
