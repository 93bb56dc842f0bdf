import Verif.Base.Ledger

/-!
# Model of `contracts/tokenomics/staking/src/contract.rs`

Two bank ledgers (ASTRO and the token-factory xASTRO) over an arbitrary account type, plus the chain's
xASTRO supply counter.  `me` is the staking contract's own account.

Simplifications: the tracker hook that runs on xASTRO transfers only writes the tracker contract's
storage (modelled separately in `Verif.Tracker`) and is left out; a zero payout is allowed to succeed
(the bank module would reject it), i.e. the model admits more executions than the chain.
-/

namespace Verif.Staking

/-- Chain state relevant to staking. -/
structure State (A : Type) where
  astro : A → Nat
  xastro : A → Nat
  /-- `query_supply(xastro_denom)` -/
  xSupply : Nat

/-- `MINIMUM_STAKE_AMOUNT`, contract.rs (constant at the top of the file). -/
def minimumStake : Nat := 1000

variable {A : Type} [DecidableEq A]

/-- The mint amount and the amount additionally minted to the contract itself, from the total deposit
*before* the stake, the xASTRO supply and the staked amount; contracts/tokenomics/staking/src/contract.rs:257-283. -/
def mintAmount (totalDeposit totalShares amount : Nat) : Res (Nat × Nat) :=
  if totalShares = 0 ∨ totalDeposit = 0 then
    if amount - minimumStake = 0 then .error (.invalid "MinimumStakeAmountError")
    else .ok (minimumStake, amount - minimumStake)
  else do
    let m ← mulRatio amount totalShares totalDeposit
    if m = 0 then .error (.invalid "StakeAmountTooSmall") else .ok (0, m)

/-- `execute_enter`, contracts/tokenomics/staking/src/contract.rs:238-314, together with the transfer of the attached ASTRO to the
contract before the call, and the final message sending the minted xASTRO to `receiver`
(contracts/tokenomics/staking/src/contract.rs:118-128; for `EnterWithHook`, 129-142, `receiver` is the hooked contract).
`must_pay` rejects a zero amount.  The second result is the `xastro_amount` of the response data. -/
def enter (me : A) (s : State A) (sender : A) (amount : Nat) (receiver : A) :
    Res (State A × Nat) := do
  require (amount ≠ 0) (.invalid "NoFunds")
  let astro ← move s.astro sender me amount
  let totalDeposit ← csub (astro me) amount
  let (locked, minted) ← mintAmount totalDeposit s.xSupply amount
  let x := credit (credit s.xastro me locked) me minted
  let x ← move x me receiver minted
  .ok ({ astro := astro, xastro := x, xSupply := s.xSupply + locked + minted }, minted)

/-- `execute_leave`, contracts/tokenomics/staking/src/contract.rs:318-378: attached xASTRO moves to the contract, is burned, ASTRO is
paid out and 1 xASTRO is sent from the contract to itself (which needs a balance of at least 1).
The second result is the `astro_amount` of the response data. -/
def leave (me : A) (s : State A) (sender : A) (amount : Nat) (receiver : A) :
    Res (State A × Nat) := do
  require (amount ≠ 0) (.invalid "NoFunds")
  let x ← move s.xastro sender me amount
  let ret ← mulRatio amount (s.astro me) s.xSupply
  let x ← debit x me amount
  let supply ← csub s.xSupply amount
  let astro ← move s.astro me receiver ret
  let x ← move x me me 1
  .ok ({ astro := astro, xastro := x, xSupply := supply }, ret)

/-- Calls and plain token transfers that can happen on chain. -/
inductive Op (A : Type)
  /-- `Enter` (receiver given or the sender) or `EnterWithHook` (receiver = hooked contract) -/
  | enter (sender : A) (amount : Nat) (receiver : A)
  /-- `Leave` -/
  | leave (sender : A) (amount : Nat) (receiver : A)
  /-- `EnterWithHook` with the staking contract itself as target and a `Leave` message -/
  | enterHookLeave (sender : A) (amount : Nat) (receiver : A)
  /-- bank transfer of ASTRO; to `me` it is a donation -/
  | sendAstro (sender : A) (amount : Nat) (receiver : A)
  /-- bank transfer of xASTRO -/
  | sendX (sender : A) (amount : Nat) (receiver : A)

/-- One transaction.  The contract account `me` never signs a transaction: the only calls it sends
to itself are the hook of `EnterWithHook`. -/
def exec (me : A) (s : State A) : Op A → Res (State A)
  | .enter u n r => do
    require (u ≠ me) .unauthorized
    let (s', _) ← enter me s u n r
    .ok s'
  | .leave u n r => do
    require (u ≠ me) .unauthorized
    let (s', _) ← leave me s u n r
    .ok s'
  | .enterHookLeave u n r => do
    require (u ≠ me) .unauthorized
    let (s1, minted) ← enter me s u n me
    let (s2, _) ← leave me s1 me minted r
    .ok s2
  | .sendAstro u n r => do
    require (u ≠ me) .unauthorized
    let l ← move s.astro u r n
    .ok { s with astro := l }
  | .sendX u n r => do
    require (u ≠ me) .unauthorized
    let l ← move s.xastro u r n
    .ok { s with xastro := l }

/-- Reverting step. -/
def step (me : A) (s : State A) (o : Op A) : State A := commit' s (exec me s o)

/-- History. -/
def run (me : A) (s : State A) (os : List (Op A)) : State A := os.foldl (step me) s

/-- Before the first stake: no xASTRO exists; ASTRO is distributed arbitrarily. -/
def init (astro : A → Nat) : State A := { astro := astro, xastro := fun _ => 0, xSupply := 0 }

end Verif.Staking
