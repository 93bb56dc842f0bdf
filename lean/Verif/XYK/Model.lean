import Verif.Base.Ledger
import Verif.Base.Dec

/-!
# Model of the constant product pair, `contracts/pair/src/contract.rs`

Amounts are `Nat` with explicit `Uint128` checks where the code converts; decimals are their atomics.
The two pool assets are indexed by `Bool` (`false` = asset 0, `true` = asset 1).
-/

namespace Verif.XYK

/-! ## Pure functions -/

/-- `check_swap_parameters`, packages/astroport/src/asset.rs:772-782. -/
def checkSwapParameters (pools : List Nat) (amount : Nat) : Res Unit := do
  require (¬ pools.any (· = 0)) (.invalid "One of the pools is empty")
  require (amount ≠ 0) (.invalid "Swap amount must not be zero")

/-- Result of `compute_swap`. -/
structure SwapResult where
  ret : Nat
  spread : Nat
  commission : Nat
  deriving DecidableEq, Repr

/-- `compute_swap`, contracts/pair/src/contract.rs:1178-1210.  `Decimal256::from_ratio(ask_pool, 1) - from_ratio(cp, o+a)`
times 1 truncates to an integer.  `rate` is the commission rate (atomics). -/
def computeSwap (offerPool askPool offer rate : Nat) : Res SwapResult := do
  checkSwapParameters [offerPool, askPool] offer
  let cp := offerPool * askPool
  let q ← dec256FromRatio cp (offerPool + offer)
  let diff ← csub (askPool * DEC) q
  let gross := mulDec 1 diff
  let p ← dec256FromRatio askPool offerPool
  let spread := mulDec offer p - gross
  let commission := mulDec gross rate
  let ret ← csub gross commission
  let ret ← u128 ret
  let spread ← u128 spread
  let commission ← u128 commission
  .ok { ret := ret, spread := spread, commission := commission }

/-- Result of `compute_offer_amount`. -/
structure OfferResult where
  offer : Nat
  spread : Nat
  commission : Nat
  deriving DecidableEq, Repr

/-- `compute_offer_amount`, contracts/pair/src/contract.rs:1221-1252. -/
def computeOfferAmount (offerPool askPool ask rate : Nat) : Res OfferResult := do
  checkSwapParameters [offerPool, askPool] ask
  let cp := offerPool * askPool
  let omc ← csub DEC rate
  let inv ← decDiv DEC omc
  let before ← u128 (mulDec ask inv)
  let rest ← csub askPool before
  let q ← cdiv (cp * 1) rest
  let offer ← csub q offerPool
  let offer ← u128 offer
  let p ← decFromRatio askPool offerPool
  let px ← u128 (mulDec offer p)
  let spread := px - before
  let commission ← u128 (mulDec before rate)
  .ok { offer := offer, spread := spread, commission := commission }

/-- `MINIMUM_LIQUIDITY_AMOUNT`, packages/astroport/src/asset.rs. -/
def minimumLiquidity : Nat := 1000

/-- `DEFAULT_SLIPPAGE = "0.005"`, packages/astroport/src/pair.rs. -/
def defaultSlippage : Nat := 5 * 10 ^ 15
/-- `MAX_ALLOWED_SLIPPAGE = "0.5"`, packages/astroport/src/pair.rs. -/
def maxAllowedSlippage : Nat := 5 * 10 ^ 17

/-- `assert_slippage_tolerance`, contracts/pair/src/contract.rs:1392-1420. -/
def assertSlippageTolerance (tol : Option Nat) (d0 d1 p0 p1 : Nat) : Res Unit := do
  let tol := tol.getD defaultSlippage
  require (¬ tol > maxAllowedSlippage) (.invalid "AllowedSpreadAssertion")
  let om ← csub DEC tol
  let a ← dec256FromRatio d0 d1
  let b ← dec256FromRatio p0 p1
  let c ← dec256FromRatio d1 d0
  let d ← dec256FromRatio p1 p0
  require (¬ (decMul a om > b ∨ decMul c om > d)) (.invalid "MaxSlippageAssertion")

/-- `calculate_shares`, contracts/pair/src/contract.rs:1264-1301.  `U256::integer_sqrt` is the floor of the square root. -/
def calculateShares (d0 d1 p0 p1 total : Nat) (tol : Option Nat) : Res Nat :=
  if total = 0 then
    let r := Nat.sqrt (d0 * d1)
    if r < minimumLiquidity then .error (.invalid "MinimumLiquidityAmountError")
    else if r - minimumLiquidity = 0 then .error (.invalid "MinimumLiquidityAmountError")
    else .ok (r - minimumLiquidity)
  else do
    assertSlippageTolerance tol d0 d1 p0 p1
    let a ← mulRatio d0 total p0
    let b ← mulRatio d1 total p1
    .ok (min a b)

/-- `get_share_in_assets`, contracts/pair/src/contract.rs:586-599: refund of one pool asset of size `pool` for `amount`
LP out of `total`. -/
def shareInAsset (pool amount total : Nat) : Res Nat := do
  let ratio ← if total = 0 then .ok 0 else decFromRatio amount total
  u128 (mulDec pool ratio)

/-- `assert_max_spread`, contracts/pair/src/contract.rs:1351-1383. -/
def assertMaxSpread (belief maxSpread : Option Nat) (offer ret spread : Nat) : Res Unit := do
  let ms := maxSpread.getD defaultSlippage
  require (¬ ms > maxAllowedSlippage) (.invalid "AllowedSpreadAssertion")
  match belief with
  | some bp => do
    let inv ← orErr (decInv bp) (.invalid "Belief price must not be zero!")
    let expected ← u128 (mulDec offer inv)
    let sp := expected - ret
    if ret < expected then do
      let r ← decFromRatio sp expected
      require (¬ r > ms) (.invalid "MaxSpreadAssertion")
    else .ok ()
  | none => do
    let tot ← u128 (ret + spread)
    let r ← decFromRatio spread tot
    require (¬ r > ms) (.invalid "MaxSpreadAssertion")

/-- `ensure_min_assets_to_receive`, contracts/pair/src/contract.rs:1438-1479, for the two refund assets of the pair
(`info0`/`info1` with refunds `r0`/`r1`). -/
def ensureMinAssets {I : Type} [DecidableEq I] (info0 info1 : I) (r0 r1 : Nat) :
    Option (List (I × Nat)) → Res Unit
  | none => .ok ()
  | some [(i, m), (j, n)] => do
    require (i = info0 ∨ i = info1) (.invalid "AssetMismatch")
    require (j = info0 ∨ j = info1) (.invalid "AssetMismatch")
    -- `if refund_assets[0].info.ne(&min[0].info) { swap(0, 1) }`
    let (a, b) := if info0 ≠ i then (r1, r0) else (r0, r1)
    require (¬ a < m) (.invalid "WithdrawSlippageViolation")
    require (¬ b < n) (.invalid "WithdrawSlippageViolation")
  | some _ => .error (.invalid "WrongAssetLength")

/-- `get_deposits_from_assets`, contracts/pair/src/contract.rs:1308-1337. -/
def getDeposits {I : Type} [DecidableEq I] (assets : List (I × Nat)) (info0 info1 : I) :
    Res (Nat × Nat) := do
  require (assets.length = 2) (.invalid "asset_infos must contain exactly two elements")
  let a ← orErr (assets.find? (fun a => a.1 = info0)) (.invalid "Wrong asset info is given")
  let b ← orErr (assets.find? (fun a => a.1 = info1)) (.invalid "Wrong asset info is given")
  require (¬ (a.2 = 0 ∨ b.2 = 0)) (.invalid "InvalidZeroAmount")
  .ok (a.2, b.2)

/-- Price accumulators, part of `Config`. -/
structure Twap where
  p0 : Nat
  p1 : Nat
  last : Nat
  deriving DecidableEq, Repr

/-- `accumulate_prices`, contracts/pair/src/contract.rs:844-876; `None` (no change) is modelled by returning the old
value.  `TWAP_PRECISION = 6`.  `wrapping_add` is addition modulo `2^128`. -/
def accumulate (c : Twap) (now x y : Nat) : Res Twap :=
  if now ≤ c.last then .ok c
  else
    let el := now - c.last
    if x ≠ 0 ∧ y ≠ 0 then do
      let t ← u128 (el * 10 ^ 6)
      let a ← mulRatio t y x
      let b ← mulRatio t x y
      .ok { p0 := (c.p0 + a) % U128, p1 := (c.p1 + b) % U128, last := now }
    else .ok { c with last := now }

/-! ## The contract -/

/-- Fee configuration effective for a swap: the factory's fee info (`query_fee_info`,
packages/astroport/src/querier.rs) and the pair's own `fee_share`. -/
structure Fees (A : Type) where
  /-- total commission rate (Decimal atomics) -/
  total : Nat
  /-- part of the commission that goes to the Maker -/
  maker : Nat
  /-- Maker address -/
  feeAddr : Option A
  /-- fee sharing: basis points and recipient -/
  share : Option (Nat × A)

/-- Chain state: balances of the two assets and of the LP token, LP supply, accumulators and the
tracked balances. -/
structure State (A : Type) where
  bal : Bool → A → Nat
  lp : A → Nat
  supply : Nat
  twap : Twap
  /-- last value saved in `BALANCES`.  The code saves it only if `track_asset_balances` is on; the
  model always does (its extra overflow checks concern pools beyond 2^128 only). -/
  tracked : Bool → Nat

variable {A : Type} [DecidableEq A]

/-- `pools[i].amount` -/
def State.pool (s : State A) (me : A) (i : Bool) : Nat := s.bal i me

/-- `provide_liquidity`, contracts/pair/src/contract.rs:351-456.  `d0`, `d1` are the parsed deposits (`getDeposits`); the
coins are in the contract when it runs (native) or pulled by `TransferFrom` right after (cw20), and in
both cases the share computation uses the pools *without* the deposit, as here.  With `auto_stake` the
LP tokens go to the incentives contract instead, which is covered by `receiver` being arbitrary. -/
def provide (me : A) (s : State A) (now : Nat) (sender : A) (d0 d1 : Nat) (tol : Option Nat)
    (minLp : Option Nat) (receiver : A) : Res (State A × Nat) := do
  require (¬ (d0 = 0 ∨ d1 = 0)) (.invalid "InvalidZeroAmount")
  let b0 ← move (s.bal false) sender me d0
  let b1 ← move (s.bal true) sender me d1
  let p0 ← csub (b0 me) d0
  let p1 ← csub (b1 me) d1
  let share ← calculateShares d0 d1 p0 p1 s.supply tol
  let locked := if s.supply = 0 then minimumLiquidity else 0
  require (¬ share < minLp.getD 0) (.invalid "ProvideSlippageViolation")
  let lp := credit (credit s.lp me locked) receiver share
  let t0 ← u128 (p0 + d0)
  let t1 ← u128 (p1 + d1)
  let tw ← accumulate s.twap now p0 p1
  .ok ({ bal := fun i => if i then b1 else b0, lp := lp, supply := s.supply + locked + share,
         twap := tw, tracked := fun i => if i then t1 else t0 }, share)

/-- `withdraw_liquidity`, contracts/pair/src/contract.rs:507-577 (imbalanced withdrawals are rejected by the code).  The
attached LP coins are moved to the contract and burned. `mins` is the already looked-up minimum check,
see `ensureMinAssets`. -/
def withdraw (me : A) (s : State A) (now : Nat) (sender : A) (amount : Nat)
    (mins : Option (List (Bool × Nat))) : Res (State A × (Nat × Nat)) := do
  require (amount ≠ 0) (.invalid "NoFunds")
  let lp ← move s.lp sender me amount
  let r0 ← shareInAsset (s.bal false me) amount s.supply
  let r1 ← shareInAsset (s.bal true me) amount s.supply
  ensureMinAssets false true r0 r1 mins
  let t0 ← csub (s.bal false me) r0
  let t1 ← csub (s.bal true me) r1
  let tw ← accumulate s.twap now (s.bal false me) (s.bal true me)
  let b0 ← move (s.bal false) me sender r0
  let b1 ← move (s.bal true) me sender r1
  let lp ← debit lp me amount
  let sup ← csub s.supply amount
  .ok ({ bal := fun i => if i then b1 else b0, lp := lp, supply := sup, twap := tw,
         tracked := fun i => if i then t1 else t0 }, (r0, r1))

/-- What a swap reports: the attributes of the response. -/
structure SwapOut where
  ret : Nat
  spread : Nat
  commission : Nat
  makerFee : Nat
  feeShare : Nat
  deriving DecidableEq, Repr

/-- The shared fee, contracts/pair/src/contract.rs:691-712: `commission * (bps / 10000)`. -/
def feeShareAmount (f : Fees A) (commission : Nat) : Res Nat :=
  match f.share with
  | some (bps, _) => do
    let rate ← decFromRatio bps 10000
    u128 (mulDec commission rate)
  | none => .ok 0

/-- The fee split of `swap`, contracts/pair/src/contract.rs:686-724 and `calculate_maker_fee`, 886-900: the Maker takes
its part of what is left after the shared fee. -/
def splitFees (f : Fees A) (commission : Nat) : Res (Nat × Nat) := do
  let shareAmt ← feeShareAmount f commission
  let rest := commission - shareAmt
  let maker := match f.feeAddr with
    | some _ => mulDec rest f.maker
    | none => 0
  .ok (shareAmt, maker)

/-- Send `n` of a token to an optional account (nothing is sent when there is no recipient). -/
def sendOpt (l : A → Nat) (src : A) (dst : Option A) (n : Nat) : Res (A → Nat) :=
  match dst with
  | some d => move l src d n
  | none => .ok l

/-- `swap`, contracts/pair/src/contract.rs:616-774.  `i` is the offered asset. -/
def swap (me : A) (s : State A) (now : Nat) (sender : A) (i : Bool) (offer : Nat)
    (belief maxSpread : Option Nat) (receiver : A) (f : Fees A) : Res (State A × SwapOut) := do
  let bo ← move (s.bal i) sender me offer
  let offerPool ← csub (bo me) offer
  let askPool := s.bal (!i) me
  let r ← computeSwap offerPool askPool offer f.total
  let gross ← u128 (r.ret + r.commission)
  assertMaxSpread belief maxSpread offer gross r.spread
  let (shareAmt, maker) ← splitFees f r.commission
  -- messages: return asset, fee share, maker fee
  let ba ← move (s.bal (!i)) me receiver r.ret
  let ba ← sendOpt ba me (f.share.map (·.2)) shareAmt
  let ba ← sendOpt ba me f.feeAddr maker
  let tOff ← u128 (offerPool + offer)
  let tAsk ← csub askPool (r.ret + maker + shareAmt)
  let tw ← accumulate s.twap now (if i then askPool else offerPool) (if i then offerPool else askPool)
  .ok ({ s with bal := fun j => if j = i then bo else ba, twap := tw,
                tracked := fun j => if j = i then tOff else tAsk },
       { ret := r.ret, spread := r.spread, commission := r.commission, makerFee := maker,
         feeShare := shareAmt })

/-- `query_simulation`, contracts/pair/src/contract.rs:985-1027. -/
def simulation (me : A) (s : State A) (i : Bool) (offer : Nat) (f : Fees A) : Res SwapResult :=
  computeSwap (s.bal i me) (s.bal (!i) me) offer f.total

/-- `query_reverse_simulation`, contracts/pair/src/contract.rs:1033-1077 (`i` is the *offered* asset). -/
def reverseSimulation (me : A) (s : State A) (i : Bool) (ask : Nat) (f : Fees A) : Res OfferResult :=
  computeOfferAmount (s.bal i me) (s.bal (!i) me) ask f.total

/-- `query_share` / `SimulateWithdraw`, contracts/pair/src/contract.rs:974-980. -/
def queryShare (me : A) (s : State A) (amount : Nat) : Res (Nat × Nat) := do
  let r0 ← shareInAsset (s.bal false me) amount s.supply
  let r1 ← shareInAsset (s.bal true me) amount s.supply
  .ok (r0, r1)

/-- `query_simulate_provide`, contracts/pair/src/contract.rs:1139-1157. -/
def simulateProvide (me : A) (s : State A) (d0 d1 : Nat) (tol : Option Nat) : Res Nat := do
  require (¬ (d0 = 0 ∨ d1 = 0)) (.invalid "InvalidZeroAmount")
  calculateShares d0 d1 (s.bal false me) (s.bal true me) s.supply tol

/-- `query_cumulative_prices`, contracts/pair/src/contract.rs:1080-1117. -/
def cumulativePrices (me : A) (s : State A) (now : Nat) : Res (Nat × Nat) := do
  let tw ← accumulate s.twap now (s.bal false me) (s.bal true me)
  .ok (tw.p0, tw.p1)

/-- Transactions. -/
inductive Op (A : Type)
  | provide (now : Nat) (sender : A) (d0 d1 : Nat) (tol minLp : Option Nat) (receiver : A)
  | withdraw (now : Nat) (sender : A) (amount : Nat) (mins : Option (List (Bool × Nat)))
  | swap (now : Nat) (sender : A) (i : Bool) (offer : Nat) (belief maxSpread : Option Nat)
      (receiver : A) (f : Fees A)
  /-- plain transfer of a pool asset (a donation when the receiver is the pair) -/
  | send (i : Bool) (src dst : A) (n : Nat)
  /-- plain transfer of LP tokens -/
  | sendLp (src dst : A) (n : Nat)

/-- The account that signs. -/
def Op.signer : Op A → A
  | .provide _ u _ _ _ _ _ | .withdraw _ u _ _ | .swap _ u _ _ _ _ _ _ | .send _ u _ _ | .sendLp u _ _ => u

/-- One transaction; the pair contract itself never signs. -/
def exec (me : A) (s : State A) (o : Op A) : Res (State A) := do
  require (o.signer ≠ me) .unauthorized
  match o with
  | .provide now u d0 d1 tol minLp r => do
    let (s', _) ← provide me s now u d0 d1 tol minLp r
    .ok s'
  | .withdraw now u n mins => do
    let (s', _) ← withdraw me s now u n mins
    .ok s'
  | .swap now u i n b m r f => do
    let (s', _) ← swap me s now u i n b m r f
    .ok s'
  | .send i u v n => do
    let l ← move (s.bal i) u v n
    .ok { s with bal := fun j => if j = i then l else s.bal j }
  | .sendLp u v n => do
    let l ← move s.lp u v n
    .ok { s with lp := l }

/-- Reverting step. -/
def step (me : A) (s : State A) (o : Op A) : State A := commit' s (exec me s o)

/-- History. -/
def run (me : A) (s : State A) (os : List (Op A)) : State A := os.foldl (step me) s

/-- A freshly instantiated pair (contracts/pair/src/contract.rs:51-116, `block_time_last: 0`): no LP tokens exist;
arbitrary balances. -/
def init (bal : Bool → A → Nat) : State A :=
  { bal := bal, lp := fun _ => 0, supply := 0, twap := ⟨0, 0, 0⟩, tracked := fun _ => 0 }

end Verif.XYK
