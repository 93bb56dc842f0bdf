import Verif.Base.Ledger

/-!
# Model of the ASTRO converter (`contracts/periphery/astro_converter`) and of the pair wrapping it
(`contracts/pair_astro_converter`)

* `A` are addresses, `D` native denoms; the ledgers of all native coins and cw20 tokens are part of the state, as are
  the old tokens burned and those on their way over IBC.
* A cw20 token calls `Receive` only after moving the tokens, from its own address.  Everybody else may call `Receive`
  directly with any content.
* Not modelled: address and denom syntax, attributes, the contract version.
-/

namespace Verif.Converter

/-- packages/astroport/src/asset.rs, `AssetInfo`. -/
inductive Info (A D : Type) where
  | native (d : D)
  | token (a : A)
  deriving DecidableEq

/-- packages/astroport/src/astro_converter.rs:26-31, `Config`; the burn parameters are an address on the other chain
and a channel, here just their presence. -/
structure Cfg (A D : Type) where
  old : Info A D
  new : D
  burnParams : Bool

/-- Ledgers, old tokens burned and old tokens sent over IBC. -/
structure State (A D : Type) where
  bal : Info A D → A → Nat
  burned : Nat
  bridged : Nat

variable {A D : Type} [DecidableEq A] [DecidableEq D]

/-- contracts/periphery/astro_converter/src/contract.rs:34-85, `init`; `ibc` tells IBC denoms. -/
def instantiate (ibc : D → Bool) (old : Info A D) (new : D) (params : Bool) : Res (Cfg A D) := do
  require (old ≠ .native new) (.invalid "Cannot convert to the same asset")
  match old with
  | .native d => do
    require (ibc d = true) (.invalid "If old ASTRO is native it must be IBC denom")
    require (params = true) (.invalid "Burn params must be specified on outpost")
    .ok ⟨old, new, params⟩
  | .token _ => do
    require (params = false) (.invalid "Burn params must be unset on the old Hub")
    .ok ⟨old, new, params⟩

/-- Move tokens; the bank refuses empty amounts. -/
def send (s : State A D) (i : Info A D) (src dst : A) (n : Nat) : Res (State A D) := do
  require (n ≠ 0) (.invalid "invalid coins")
  let l ← move (s.bal i) src dst n
  .ok { s with bal := Function.update s.bal i l }

/-- Funds attached to a message arrive before the contract runs. -/
def sendAll (s : State A D) (src dst : A) : List (D × Nat) → Res (State A D)
  | [] => .ok s
  | (d, n) :: rest => do
    let s ← send s (.native d) src dst n
    sendAll s src dst rest

/-- cw_utils `must_pay`: exactly one coin, of this denom. -/
def mustPay (d : D) : List (D × Nat) → Res Nat
  | [(d', n)] => if d' = d ∧ n ≠ 0 then .ok n else .error (.invalid "PaymentError")
  | _ => .error (.invalid "PaymentError")

/-- cw_utils `nonpayable`. -/
def nonpayable (funds : List (D × Nat)) : Res Unit := require (funds = []) (.invalid "PaymentError")

/-- contracts/periphery/astro_converter/src/contract.rs:138-164, `convert`. -/
def convert (c : Cfg A D) (me : A) (s : State A D) (sender : A) (funds : List (D × Nat)) (receiver : Option A) :
    Res (State A D) :=
  match c.old with
  | .native d => do
    let n ← mustPay d funds
    send s (.native c.new) me (receiver.getD sender) n
  | .token _ => .error (.invalid "InvalidEndpoint")

/-- contracts/periphery/astro_converter/src/contract.rs:106-136, `cw20_receive`: `caller` is `info.sender`; sender and
amount are what the message says. -/
def cw20Receive (c : Cfg A D) (me : A) (s : State A D) (caller sender : A) (n : Nat) (receiver : Option A) :
    Res (State A D) :=
  match c.old with
  | .token a => do
    require (caller = a) (.invalid "UnsupportedCw20Token")
    send s (.native c.new) me (receiver.getD sender) n
  | .native _ => .error (.invalid "InvalidEndpoint")

/-- contracts/periphery/astro_converter/src/contract.rs:166-208, `ibc_transfer_for_burning`; the timeout must be
between 2 and 10 minutes (default 5), `expect("No outpost burn params")` panics. -/
def transferForBurning (c : Cfg A D) (me : A) (s : State A D) (funds : List (D × Nat)) (timeout : Option Nat) :
    Res (State A D) := do
  nonpayable funds
  match c.old with
  | .native d => do
    require (120 ≤ timeout.getD 300 ∧ timeout.getD 300 ≤ 600) (.invalid "InvalidTimeout")
    require (s.bal (.native d) me ≠ 0) (.invalid "No tokens to transfer")
    require (c.burnParams = true) (.invalid "No outpost burn params")
    .ok { s with
          bal := Function.update s.bal (.native d) (Function.update (s.bal (.native d)) me 0)
          bridged := s.bridged + s.bal (.native d) me }
  | .token _ => .error (.invalid "IbcTransferError")

/-- contracts/periphery/astro_converter/src/contract.rs:210-243, `burn`. -/
def burn (c : Cfg A D) (me : A) (s : State A D) (funds : List (D × Nat)) : Res (State A D) := do
  nonpayable funds
  match c.old with
  | .token a => do
    require (s.bal (.token a) me ≠ 0) (.invalid "No tokens to burn")
    .ok { s with
          bal := Function.update s.bal (.token a) (Function.update (s.bal (.token a)) me 0)
          burned := s.burned + s.bal (.token a) me }
  | .native _ => .error (.invalid "BurnError")

/-- contracts/pair_astro_converter/src/contract.rs:98-149, `swap`, offering a native coin: the pair passes the coins
on to the converter. -/
def pairSwapNative (c : Cfg A D) (me pair : A) (s : State A D) (sender : A) (offer : Info A D) (n : Nat)
    (dst : Option A) : Res (State A D) := do
  require (offer = c.old) (.invalid "AssetMismatch")
  match offer with
  | .native d => do
    let s ← sendAll s pair me [(d, n)]
    convert c me s pair [(d, n)] (some (dst.getD sender))
  | .token _ => .error (.invalid "Cw20DirectSwap")

/-- contracts/pair_astro_converter/src/contract.rs:75-90, `receive_cw20`, and 98-149, `swap`, for cw20 tokens: the
pair sends the tokens on to the converter; `caller` is the token. -/
def pairSwapCw20 (c : Cfg A D) (me pair : A) (s : State A D) (caller sender : A) (n : Nat)
    (dst : Option A) : Res (State A D) := do
  require (Info.token caller = c.old) (.invalid "AssetMismatch")
  let s ← send s (.token caller) pair me n
  cw20Receive c me s caller pair n (some (dst.getD sender))

/-- contracts/pair_astro_converter/src/queries.rs:21-37, `Simulation`. -/
def simulate (c : Cfg A D) (offer : Info A D) (n : Nat) : Res Nat := do
  require (offer = c.old) (.invalid "AssetMismatch")
  .ok n

/-- contracts/pair_astro_converter/src/queries.rs:38-57, `ReverseSimulation`; the pair's assets are the old and the new
token (contracts/pair_astro_converter/src/migration.rs:46-71). -/
def reverseSimulate (c : Cfg A D) (ask : Info A D) (n : Nat) : Res Nat := do
  require ((ask = c.old ∨ ask = .native c.new) ∧ ask ≠ c.old) (.invalid "AssetMismatch")
  .ok n

/-- Everything that can happen. -/
inductive Op (A D : Type) where
  /-- `Convert` with funds -/
  | convert (funds : List (D × Nat)) (receiver : Option A)
  /-- send of a cw20 token to the converter with its hook -/
  | cw20Send (token : A) (n : Nat) (receiver : Option A)
  /-- direct call of `Receive` with made up content -/
  | forged (sender : A) (n : Nat) (receiver : Option A)
  | transferForBurning (funds : List (D × Nat)) (timeout : Option Nat)
  | burn (funds : List (D × Nat))
  /-- swap through the pair -/
  | pairNative (offer : Info A D) (n : Nat) (funds : List (D × Nat)) (dst : Option A)
  | pairCw20 (token : A) (n : Nat) (dst : Option A)
  /-- an IBC transfer timed out: the tokens come back -/
  | refund (n : Nat)
  /-- any other movement of any token -/
  | transfer (i : Info A D) (dst : A) (n : Nat)

/-- One transaction of `sender`; the two contracts do not sign transactions, and token contracts call `Receive` only
as described. -/
def exec (c : Cfg A D) (me pair : A) (s : State A D) (sender : A) : Op A D → Res (State A D)
  | .convert funds receiver => do
    let s ← sendAll s sender me funds
    convert c me s sender funds receiver
  | .cw20Send t n receiver => do
    let s ← send s (.token t) sender me n
    cw20Receive c me s t sender n receiver
  | .forged claimed n receiver => do
    require (c.old ≠ .token sender) .unauthorized
    cw20Receive c me s sender claimed n receiver
  | .transferForBurning funds timeout => do
    let s ← sendAll s sender me funds
    transferForBurning c me s funds timeout
  | .burn funds => do
    let s ← sendAll s sender me funds
    burn c me s funds
  | .pairNative offer n funds dst => do
    let s ← sendAll s sender pair funds
    match offer with
    | .native d => do
      let m ← mustPay d funds
      require (m = n) (.invalid "Native token balance mismatch")
      pairSwapNative c me pair s sender offer n dst
    | .token _ => .error (.invalid "Cw20DirectSwap")
  | .pairCw20 t n dst => do
    let s ← send s (.token t) sender pair n
    pairSwapCw20 c me pair s t sender n dst
  | .refund n => do
    let r ← csub s.bridged n
    .ok { s with bal := Function.update s.bal c.old (credit (s.bal c.old) me n), bridged := r }
  | .transfer i dst n => send s i sender dst n

/-- A history; the converter and the pair sign nothing. -/
def run (c : Cfg A D) (me pair : A) : State A D → List (A × Op A D) → State A D
  | s, [] => s
  | s, (a, o) :: rest => run c me pair
      (if a = me ∨ a = pair then s else commit' s (exec c me pair s a o)) rest

end Verif.Converter
