import Verif.Base.Res

/-!
# Model of `packages/astroport/src/common.rs`: two-step ownership transfer
-/

namespace Verif.Ownership

/-- `OwnershipProposal`, packages/astroport/src/common.rs:11-18. -/
structure Proposal (A : Type) where
  owner : A
  ttl : Nat
  deriving DecidableEq, Repr

/-- The part of a contract's storage the ownership helper works on: `config.owner` and the
`OWNERSHIP_PROPOSAL` item.  Everything else in the contract is irrelevant to it. -/
structure State (A : Type) where
  owner : A
  proposal : Option (Proposal A)
  deriving DecidableEq, Repr

/-- `MAX_PROPOSAL_TTL`, packages/astroport/src/common.rs:7. -/
def maxProposalTtl : Nat := 1209600

variable {A : Type} [DecidableEq A]

/-- `propose_new_owner`, packages/astroport/src/common.rs:30-72.  Address validation (`addr_validate`) is the identity on the
abstract account type. -/
def propose (s : State A) (sender : A) (now : Nat) (newOwner : A) (expiresIn : Nat) :
    Res (State A) := do
  require (sender = s.owner) .unauthorized
  require (newOwner ≠ s.owner) (.invalid "New owner cannot be same")
  require (¬ maxProposalTtl < expiresIn) (.invalid "expires_in too high")
  .ok { s with proposal := some { owner := newOwner, ttl := now + expiresIn } }

/-- `drop_ownership_proposal`, packages/astroport/src/common.rs:79-96. -/
def drop (s : State A) (sender : A) : Res (State A) := do
  require (sender = s.owner) .unauthorized
  .ok { s with proposal := none }

/-- `claim_ownership`, packages/astroport/src/common.rs:104-136; the callback stores the new owner (e.g.
`contracts/factory/src/contract.rs` `ExecuteMsg::ClaimOwnership`). -/
def claim (s : State A) (sender : A) (now : Nat) : Res (State A) := do
  let p ← orErr s.proposal (.invalid "Ownership proposal not found")
  require (sender = p.owner) .unauthorized
  require (¬ now > p.ttl) (.invalid "Ownership proposal expired")
  .ok { owner := p.owner, proposal := none }

/-- The three externally callable messages. -/
inductive Msg (A : Type)
  | propose (newOwner : A) (expiresIn : Nat)
  | drop
  | claim
  deriving DecidableEq, Repr

/-- A transaction: who calls, at which block time (seconds), what. -/
structure Tx (A : Type) where
  sender : A
  now : Nat
  msg : Msg A
  deriving DecidableEq, Repr

/-- Entry point dispatch (e.g. `contracts/factory/src/contract.rs` `execute`). -/
def exec (s : State A) (t : Tx A) : Res (State A) :=
  match t.msg with
  | .propose n e => propose s t.sender t.now n e
  | .drop => drop s t.sender
  | .claim => claim s t.sender t.now

/-- A failing transaction is reverted. -/
def step (s : State A) (t : Tx A) : State A := commit' s (exec s t)

/-- A history of transactions. -/
def run (s : State A) (ts : List (Tx A)) : State A := ts.foldl step s

end Verif.Ownership
