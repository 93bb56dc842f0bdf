import Verif.Base.Res

/-!
# Model of the whitelist (`contracts/whitelist`)

`A` are addresses, `M` the messages the contract can be asked to send.  The messages sent are recorded in the state.
The parts taken from cw1-whitelist (`instantiate`, `execute_execute`, `AdminList`) are modelled as that package defines
them.  Not modelled: address syntax, what the messages do, IBC callbacks (which do nothing, contracts/whitelist/src/contract.rs:80-84).
-/

namespace Verif.Whitelist

/-- cw1-whitelist `AdminList` (`ADMIN_LIST`), and the messages sent so far, latest first. -/
structure State (A M : Type) where
  admins : List A
  mutable_ : Bool
  sent : List M

variable {A M : Type} [DecidableEq A]

/-- contracts/whitelist/src/contract.rs:17-28, `instantiate`. -/
def instantiate (admins : List A) (mutable_ : Bool) : State A M := ⟨admins, mutable_, []⟩

/-- cw1-whitelist `AdminList::can_modify`. -/
def canModify (s : State A M) (a : A) : Prop := s.mutable_ = true ∧ a ∈ s.admins

instance (s : State A M) (a : A) : Decidable (canModify s a) := by unfold canModify; infer_instance

/-- cw1-whitelist `execute_execute`. -/
def execute (s : State A M) (sender : A) (msgs : List M) : Res (State A M) := do
  require (sender ∈ s.admins) .unauthorized
  .ok { s with sent := msgs.reverse ++ s.sent }

/-- contracts/whitelist/src/contract.rs:43-56, `execute_freeze`. -/
def freeze (s : State A M) (sender : A) : Res (State A M) := do
  require (canModify s sender) .unauthorized
  .ok { s with mutable_ := false }

/-- contracts/whitelist/src/contract.rs:58-72, `execute_update_admins`. -/
def updateAdmins (s : State A M) (sender : A) (admins : List A) : Res (State A M) := do
  require (canModify s sender) .unauthorized
  .ok { s with admins := admins }

/-- Messages. -/
inductive Op (A M : Type) where
  | execute (msgs : List M)
  | freeze
  | updateAdmins (admins : List A)

/-- contracts/whitelist/src/contract.rs:31-42, `execute`. -/
def exec (s : State A M) (sender : A) : Op A M → Res (State A M)
  | .execute msgs => execute s sender msgs
  | .freeze => freeze s sender
  | .updateAdmins admins => updateAdmins s sender admins

/-- A history. -/
def run (s : State A M) : List (A × Op A M) → State A M
  | [] => s
  | (a, o) :: rest => run (commit' s (exec s a o)) rest

end Verif.Whitelist
