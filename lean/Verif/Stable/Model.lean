import Verif.XYK.Model

/-!
# Model of the stableswap pair, `contracts/pair_stable/src`

`Decimal256` values are their atomics (18 digits) as natural numbers with explicit `Uint256` checks.
The two pool assets are indexed by `Bool`.  Not modelled: cw20 hooks and address validation, the
`PrecommitObservation` buffer (it is modelled in `Verif/Observation`), `auto_stake` (covered by an
arbitrary LP receiver) and `migrate` (unimplemented in the code).
-/

namespace Verif.Stable

open Verif.XYK (Fees SwapOut checkSwapParameters splitFees sendOpt assertMaxSpread ensureMinAssets
  minimumLiquidity shareInAsset)

/-! ## Fixed point helpers -/

/-- `Decimal256` multiplication (`*` panics, `checked_mul` errors on overflow; both fail the call). -/
def dmul (a b : Nat) : Res Nat := u256 (a * b / DEC)
/-- `Decimal256` division (`/`, `checked_div`). -/
def ddiv (a b : Nat) : Res Nat := dec256FromRatio a b
/-- `Decimal256` addition. -/
def dadd (a b : Nat) : Res Nat := u256 (a + b)

/-- `Decimal256Ext::to_uint128_with_precision`, packages/astroport/src/asset.rs:832-843. -/
def toU128 (d prec : Nat) : Res Nat := do
  require (prec ≤ 18) .overflow
  u128 (d / 10 ^ (18 - prec))

/-- `Decimal256Ext::with_precision`, packages/astroport/src/asset.rs:867-873 (`from_atomics`).  For more than 18 digits the code
truncates instead of failing, but then every `to_uint128_with_precision` panics, so no pool with such
an asset ever mints LP tokens; the model fails at once. -/
def withPrec (v prec : Nat) : Res Nat := do
  require (prec ≤ 18) .overflow
  u256 (v * 10 ^ (18 - prec))

/-- `adjust_precision`, contracts/pair_stable/src/utils.rs:148-162. -/
def adjustPrecision (v cur new : Nat) : Res Nat :=
  if cur = new then .ok v
  else if cur < new then u128 (v * 10 ^ (new - cur))
  else .ok (v / 10 ^ (cur - new))

/-! ## Invariant solver, math.rs -/

/-- `MAX_AMP`, contracts/pair_stable/src/math.rs:8. -/
def MAX_AMP : Nat := 1000000
/-- `MAX_AMP_CHANGE`, contracts/pair_stable/src/math.rs:9. -/
def MAX_AMP_CHANGE : Nat := 10
/-- `MIN_AMP_CHANGING_TIME`, contracts/pair_stable/src/math.rs:10. -/
def MIN_AMP_CHANGING_TIME : Nat := 86400
/-- `AMP_PRECISION`, contracts/pair_stable/src/math.rs:11. -/
def AMP_PRECISION : Nat := 100
/-- `TOL` (1e-6), contracts/pair_stable/src/math.rs:15. -/
def TOL : Nat := 1000000000000
/-- `ITERATIONS`, contracts/pair_stable/src/math.rs:6. -/
def ITERATIONS : Nat := 64

/-- `Decimal256::abs_diff`. -/
def absDiff (a b : Nat) : Nat := if a < b then b - a else a - b

/-- The loop shared by `compute_d` (contracts/pair_stable/src/math.rs:38-46) and `calc_y` (contracts/pair_stable/src/math.rs:103-115): iterate `step` at
most `n` times and return the first value that differs from its predecessor by at most `TOL`. -/
def newton (step : Nat → Res Nat) (msg : String) : Nat → Nat → Res Nat
  | 0, _ => .error (.invalid msg)
  | n + 1, v => do
    let v' ← step v
    if absDiff v' v ≤ TOL then .ok v' else newton step msg n v'

/-- `calculate_step`, contracts/pair_stable/src/math.rs:57-76. -/
def calculateStep (d lev sumX dp : Nat) : Res Nat := do
  let lm ← dmul lev sumX
  let dpm ← dmul dp (2 * DEC)
  let l ← dadd lm dpm
  let l ← dmul l d
  let lv1 ← csub lev DEC
  let ls ← dmul d lv1
  let ns ← dmul dp (3 * DEC)
  let r ← dadd ls ns
  ddiv l r

/-- One pass of the loop in `compute_d`, contracts/pair_stable/src/math.rs:39-41.  `pow(3)` is `(d * d) * d`. -/
def dStep (lev sumX a2 b2 d : Nat) : Res Nat := do
  let d2 ← dmul d d
  let d3 ← dmul d2 d
  let ab ← dmul a2 b2
  let dp ← ddiv d3 ab
  calculateStep d lev sumX dp

/-- `compute_d`, contracts/pair_stable/src/math.rs:23-50. -/
def computeD (amp x y : Nat) : Res Nat := do
  let l0 ← dec256FromRatio amp AMP_PRECISION
  let lev ← dmul l0 (2 * DEC)
  let a2 ← dmul x (2 * DEC)
  let b2 ← dmul y (2 * DEC)
  let sumX ← dadd x y
  if sumX = 0 then .ok 0
  else newton (dStep lev sumX a2 b2) "Newton method for D failed to converge" ITERATIONS sumX

/-- One pass of the loop in `calc_y`, contracts/pair_stable/src/math.rs:105-110. -/
def yStep (b c d y : Nat) : Res Nat := do
  let y2 ← dmul y y
  let n ← dadd y2 c
  let t ← dmul y (2 * DEC)
  let t ← dadd t b
  let t ← csub t d
  ddiv n t

/-- The coefficient `c` of `calc_y`, contracts/pair_stable/src/math.rs:95-98. -/
def yC (amp new d : Nat) : Res Nat := do
  let lev ← dmul (amp * DEC) (2 * DEC)
  let d2 ← dmul d d
  let d3 ← dmul d2 d
  let num ← dmul d3 (AMP_PRECISION * DEC)
  let four ← dmul (2 * DEC) (2 * DEC)
  let t ← dmul new four
  let den ← dmul t lev
  ddiv num den

/-- The coefficient `b` of `calc_y`, contracts/pair_stable/src/math.rs:100. -/
def yB (amp new d : Nat) : Res Nat := do
  let lev ← dmul (amp * DEC) (2 * DEC)
  let t ← dmul d (AMP_PRECISION * DEC)
  let t ← ddiv t lev
  dadd new t

/-- `calc_y` before the final conversion, contracts/pair_stable/src/math.rs:91-118. -/
def calcYRaw (amp new x y : Nat) : Res Nat := do
  let d ← computeD amp x y
  let c ← yC amp new d
  let b ← yB amp new d
  newton (yStep b c d) "y is not converging" ITERATIONS d

/-- `calc_y`, contracts/pair_stable/src/math.rs:85-119. -/
def calcY (amp new x y prec : Nat) : Res Nat := do
  let r ← calcYRaw amp new x y
  toU128 r prec

/-! ## Amplification -/

/-- The amplification part of `Config`, state.rs. -/
structure Amp where
  init : Nat
  initTime : Nat
  next : Nat
  nextTime : Nat
  deriving DecidableEq, Repr

/-- `u64` range -/
def U64 : Nat := 2 ^ 64

/-- checked `u64` -/
def u64 (n : Nat) : Res Nat := if n < U64 then .ok n else .error .overflow

/-- `compute_current_amp`, contracts/pair_stable/src/utils.rs:116-139. -/
def currentAmp (c : Amp) (now : Nat) : Res Nat :=
  if now < c.nextTime then do
    let elapsed := now - c.initTime
    let range := c.nextTime - c.initTime
    if c.init < c.next then
      let p ← u128 ((c.next - c.init) * elapsed)
      let q ← cdiv p range
      let r ← u128 (c.init + q)
      u64 r
    else
      let p ← u128 ((c.init - c.next) * elapsed)
      let q ← cdiv p range
      let r ← csub c.init q
      u64 r
  else .ok c.next

/-- The amplification set by `instantiate`, contracts/pair_stable/src/contract.rs:96-126. -/
def initAmp (amp now : Nat) : Res Amp := do
  require (¬ (amp = 0 ∨ amp > MAX_AMP)) (.invalid "IncorrectAmp")
  .ok { init := amp * AMP_PRECISION, initTime := now, next := amp * AMP_PRECISION, nextTime := now }

/-- `start_changing_amp`, contracts/pair_stable/src/contract.rs:1139-1176. -/
def startChangingAmp (c : Amp) (now next nextTime : Nat) : Res Amp := do
  require (¬ (next = 0 ∨ next > MAX_AMP)) (.invalid "IncorrectAmp")
  let cur ← currentAmp c now
  let nx ← u64 (next * AMP_PRECISION)
  let a ← u64 (nx * MAX_AMP_CHANGE)
  let b ← u64 (cur * MAX_AMP_CHANGE)
  require (¬ (a < cur ∨ nx > b)) (.invalid "MaxAmpChangeAssertion")
  let t1 ← u64 (c.initTime + MIN_AMP_CHANGING_TIME)
  let t2 ← u64 (now + MIN_AMP_CHANGING_TIME)
  require (¬ (now < t1 ∨ nextTime < t2)) (.invalid "MinAmpChangingTimeAssertion")
  .ok { init := cur, initTime := now, next := nx, nextTime := nextTime }

/-- `stop_changing_amp`, contracts/pair_stable/src/contract.rs:1179-1192. -/
def stopChangingAmp (c : Amp) (now : Nat) : Res Amp := do
  let cur ← currentAmp c now
  .ok { init := cur, initTime := now, next := cur, nextTime := now }

/-! ## Pricing -/

/-- Static pool settings: precisions of the two assets and whether each is a native coin. -/
structure Setup where
  prec : Bool → Nat
  native : Bool → Bool

/-- `greatest_precision`, contracts/pair_stable/src/contract.rs:90-95 (`store_precisions`). -/
def Setup.greatest (su : Setup) : Nat := max (su.prec false) (su.prec true)

/-- Gross result of `compute_swap`. -/
structure Gross where
  ret : Nat
  spread : Nat
  deriving DecidableEq, Repr

/-- `compute_swap`, contracts/pair_stable/src/utils.rs:253-284; `offer`, `offerPool`, `askPool` are decimals.  (`xp` is passed in
pool order; the solver is symmetric in it, so the model passes offer pool first.) -/
def computeSwap (askPrec amp offer offerPool askPool : Nat) : Res Gross := do
  let new ← dadd offerPool offer
  let y ← calcY amp new offerPool askPool askPrec
  let ask ← toU128 askPool askPrec
  let ret ← csub ask y
  let off ← toU128 offer askPrec
  .ok { ret := ret, spread := off - ret }

/-- `calculate_shares`, contracts/pair_stable/src/utils.rs:415-474; `p`/`d` are old pools and deposits in token units. -/
def calculateShares (su : Setup) (amp total : Nat) (p d : Bool → Nat) : Res Nat := do
  let d0 ← withPrec (d false) (su.prec false)
  let p0 ← withPrec (p false) (su.prec false)
  let d1 ← withPrec (d true) (su.prec true)
  let p1 ← withPrec (p true) (su.prec true)
  let n0 ← dadd p0 d0
  let n1 ← dadd p1 d1
  let depD ← computeD amp n0 n1
  if total = 0 then
    let s ← toU128 depD su.greatest
    let s ← csub s minimumLiquidity
    require (s ≠ 0) (.invalid "MinimumLiquidityAmountError")
    .ok s
  else
    let initD ← computeD amp p0 p1
    let t ← withPrec total su.greatest
    let q ← cdiv (t * (depD - initD)) initD
    let q ← u256 q
    let s ← toU128 q su.greatest
    require (s ≠ 0) (.invalid "LiquidityAmountTooSmall")
    .ok s

/-- The price accumulators of `Config`: `cum i` is the accumulator with offer asset `i`. -/
structure Twap where
  cum : Bool → Nat
  last : Nat

/-- One accumulator of `accumulate_prices`, contracts/pair_stable/src/utils.rs:305-326: price of one whole token of asset `i`. -/
def accOne (su : Setup) (amp el : Nat) (pool : Bool → Nat) (old : Nat) (i : Bool) : Res Nat := do
  let g ← computeSwap (su.prec (!i)) amp DEC (pool i) (pool (!i))
  let p ← adjustPrecision g.ret (su.prec (!i)) 6
  let p ← u128 (el * p)
  .ok ((old + p) % U128)

/-- `accumulate_prices`, contracts/pair_stable/src/utils.rs:289-332; `pool` are the decimal pools. -/
def accumulate (su : Setup) (amp now : Nat) (c : Twap) (pool : Bool → Nat) : Res Twap :=
  if now ≤ c.last then .ok c
  else if pool false ≠ 0 ∧ pool true ≠ 0 then do
    let a ← accOne su amp (now - c.last) pool (c.cum false) false
    let b ← accOne su amp (now - c.last) pool (c.cum true) true
    .ok { cum := fun i => if i then b else a, last := now }
  else .ok { c with last := now }

/-- Convert both pools (in token units) to decimals. -/
def decPools (su : Setup) (p : Bool → Nat) : Res (Bool → Nat) := do
  let a ← withPrec (p false) (su.prec false)
  let b ← withPrec (p true) (su.prec true)
  .ok (fun i => if i then b else a)

/-! ## The contract -/

/-- Chain state seen by the pair. -/
structure State (A : Type) where
  bal : Bool → A → Nat
  lp : A → Nat
  supply : Nat
  twap : Twap
  amp : Amp
  /-- `config.owner` (the factory owner acts when it is `None`) -/
  owner : Option A
  share : Option (Nat × A)

variable {A : Type} [DecidableEq A]

/-- A message that sends `n > 0` tokens; a zero amount produces no message (`if !amount.is_zero()`). -/
def payout (l : A → Nat) (src dst : A) (n : Nat) : Res (A → Nat) :=
  if n = 0 then .ok l else move l src dst n

/-- `provide_liquidity`, contracts/pair_stable/src/contract.rs:338-450, with `get_assets_collection`, contracts/pair_stable/src/utils.rs:476-529 (deposits are
given per pool asset; an omitted asset counts as 0).  The share uses the pools without the deposit.  The
accumulators are updated with the *queried* pools, which for a native coin already include it. -/
def provide (su : Setup) (me : A) (s : State A) (now : Nat) (sender : A) (d : Bool → Nat)
    (minLp : Option Nat) (receiver : A) : Res (State A × Nat) := do
  require (¬ (d false = 0 ∧ d true = 0)) (.invalid "InvalidZeroAmount")
  let p0 := s.bal false me
  let p1 := s.bal true me
  require (¬ (d false = 0 ∧ p0 = 0) ∧ ¬ (d true = 0 ∧ p1 = 0))
    (.invalid "InvalidProvideLPsWithSingleToken")
  let b0 ← payout (s.bal false) sender me (d false)
  let b1 ← payout (s.bal true) sender me (d true)
  let amp ← currentAmp s.amp now
  let share ← calculateShares su amp s.supply (fun i => s.bal i me) d
  let locked := if s.supply = 0 then minimumLiquidity else 0
  require (¬ share < minLp.getD 0) (.invalid "ProvideSlippageViolation")
  let lp := credit (credit s.lp me locked) receiver share
  let pools ← decPools su (fun i => s.bal i me + if su.native i then d i else 0)
  let tw ← accumulate su amp now s.twap pools
  .ok ({ s with bal := fun i => if i then b1 else b0, lp := lp,
                supply := s.supply + locked + share, twap := tw }, share)

/-- `withdraw_liquidity`, contracts/pair_stable/src/contract.rs:453-509: the attached LP coins are burned and every asset is sent,
also a zero amount, which the chain refuses for a native coin (a cw20 transfer of 0 is a no-op). -/
def withdraw (su : Setup) (me : A) (s : State A) (now : Nat) (sender : A) (amount : Nat)
    (mins : Option (List (Bool × Nat))) : Res (State A × (Nat × Nat)) := do
  require (amount ≠ 0) (.invalid "NoFunds")
  let lp ← move s.lp sender me amount
  let r0 ← shareInAsset (s.bal false me) amount s.supply
  let r1 ← shareInAsset (s.bal true me) amount s.supply
  ensureMinAssets false true r0 r1 mins
  let pools ← decPools su (fun i => s.bal i me)
  let amp ← currentAmp s.amp now
  let tw ← accumulate su amp now s.twap pools
  require (¬ (su.native false ∧ r0 = 0) ∧ ¬ (su.native true ∧ r1 = 0)) (.invalid "invalid coins")
  let b0 ← move (s.bal false) me sender r0
  let b1 ← move (s.bal true) me sender r1
  let lp ← debit lp me amount
  let sup ← csub s.supply amount
  .ok ({ s with bal := fun i => if i then b1 else b0, lp := lp, supply := sup, twap := tw }, (r0, r1))

/-- The quote shared by `swap` (contracts/pair_stable/src/contract.rs:545-604) and `query_simulation` (contracts/pair_stable/src/contract.rs:809-860):
commission and net return for given pools in token units. -/
def quote (su : Setup) (amp : Nat) (i : Bool) (offer : Nat) (pool : Bool → Nat) (rate : Nat) :
    Res XYK.SwapResult := do
  let po ← withPrec (pool i) (su.prec i)
  let pa ← withPrec (pool (!i)) (su.prec (!i))
  let co ← toU128 po (su.prec i)
  let ca ← toU128 pa (su.prec (!i))
  checkSwapParameters [co, ca] offer
  let off ← withPrec offer (su.prec i)
  let g ← computeSwap (su.prec (!i)) amp off po pa
  let com ← u128 (mulDec g.ret rate)
  .ok { ret := g.ret - com, spread := g.spread, commission := com }

/-- `swap`, contracts/pair_stable/src/contract.rs:525-694. `i` is the offered asset; `f` is what the factory reports, its `share`
field is ignored in favour of the pair's own `fee_share`. -/
def swap (su : Setup) (me : A) (s : State A) (now : Nat) (sender : A) (i : Bool) (offer : Nat)
    (belief maxSpread : Option Nat) (receiver : A) (f : Fees A) : Res (State A × SwapOut) := do
  let f : Fees A := { f with share := s.share }
  let bo ← move (s.bal i) sender me offer
  let offerPool ← csub (bo me) offer
  let askPool := s.bal (!i) me
  let amp ← currentAmp s.amp now
  let r ← quote su amp i offer (fun j => if j = i then offerPool else askPool) f.total
  let gross ← u128 (r.ret + r.commission)
  assertMaxSpread belief maxSpread offer gross r.spread
  let (shareAmt, maker) ← splitFees f r.commission
  let ba ← payout (s.bal (!i)) me receiver r.ret
  let ba ← sendOpt ba me (f.share.map (·.2)) shareAmt
  let ba ← sendOpt ba me f.feeAddr maker
  let pools ← decPools su (fun j => if j = i then offerPool else askPool)
  let tw ← accumulate su amp now s.twap pools
  .ok ({ s with bal := fun j => if j = i then bo else ba, twap := tw },
       { ret := r.ret, spread := r.spread, commission := r.commission, makerFee := maker,
         feeShare := shareAmt })

/-- `query_simulation`, contracts/pair_stable/src/contract.rs:809-866 (zero reserves or offer give a zero answer). -/
def simulation (su : Setup) (me : A) (s : State A) (now : Nat) (i : Bool) (offer : Nat)
    (f : Fees A) : Res XYK.SwapResult := do
  let pool := fun j => s.bal j me
  let po ← withPrec (pool i) (su.prec i)
  let pa ← withPrec (pool (!i)) (su.prec (!i))
  let co ← toU128 po (su.prec i)
  let ca ← toU128 pa (su.prec (!i))
  if (co = 0 ∨ ca = 0) ∨ offer = 0 then .ok { ret := 0, spread := 0, commission := 0 }
  else do
    let amp ← currentAmp s.amp now
    quote su amp i offer pool f.total

/-- `query_reverse_simulation`, contracts/pair_stable/src/contract.rs:868-942: the offer quoted for receiving `ask` of asset `!i`
(only `offer_amount`). -/
def reverseSimulation (su : Setup) (me : A) (s : State A) (now : Nat) (i : Bool) (ask : Nat)
    (f : Fees A) : Res Nat := do
  let po ← withPrec (s.bal i me) (su.prec i)
  let pa ← withPrec (s.bal (!i) me) (su.prec (!i))
  let co ← toU128 po (su.prec i)
  let ca ← toU128 pa (su.prec (!i))
  if (co = 0 ∨ ca = 0) ∨ ask = 0 then .ok 0
  else do
    let om ← csub DEC f.total
    let inv ← orErr (decInv om) (.invalid "The pool must have less than 100% fee!")
    let a ← withPrec ask (su.prec (!i))
    let before ← dmul inv a
    let amp ← currentAmp s.amp now
    let rest ← csub pa before
    let y ← calcY amp rest po pa su.greatest
    let pog ← toU128 po su.greatest
    let off ← csub y pog
    adjustPrecision off su.greatest (su.prec i)

/-- `query_simulate_provide`, contracts/pair_stable/src/contract.rs:1253-1273 with `get_assets_collection`. -/
def simulateProvide (su : Setup) (me : A) (s : State A) (now : Nat) (d : Bool → Nat) : Res Nat := do
  require (¬ (d false = 0 ∧ d true = 0)) (.invalid "InvalidZeroAmount")
  let amp ← currentAmp s.amp now
  calculateShares su amp s.supply (fun i => s.bal i me) d

/-- `query_share` / `SimulateWithdraw`, contracts/pair_stable/src/contract.rs:796-801. -/
def queryShare (me : A) (s : State A) (amount : Nat) : Res (Nat × Nat) := do
  let r0 ← shareInAsset (s.bal false me) amount s.supply
  let r1 ← shareInAsset (s.bal true me) amount s.supply
  .ok (r0, r1)

/-- `update_config` authorisation, contracts/pair_stable/src/contract.rs:1070-1082. -/
def authorised (s : State A) (factoryOwner caller : A) : Res Unit :=
  require (caller = s.owner.getD factoryOwner) .unauthorized

/-- `MAX_FEE_SHARE_BPS`, packages/astroport/src/pair.rs. -/
def MAX_FEE_SHARE_BPS : Nat := 1000

/-- Transactions. -/
inductive Op (A : Type)
  | provide (sender : A) (d : Bool → Nat) (minLp : Option Nat) (receiver : A)
  | withdraw (sender : A) (amount : Nat) (mins : Option (List (Bool × Nat)))
  | swap (sender : A) (i : Bool) (offer : Nat) (belief maxSpread : Option Nat) (receiver : A) (f : Fees A)
  | startAmp (sender : A) (next nextTime : Nat)
  | stopAmp (sender : A)
  | enableShare (sender : A) (bps : Nat) (recipient : A)
  | disableShare (sender : A)
  /-- plain transfers of a pool asset or of LP tokens -/
  | send (i : Bool) (src dst : A) (n : Nat)
  | sendLp (src dst : A) (n : Nat)

/-- The account that signs. -/
def Op.signer : Op A → A
  | .provide u _ _ _ | .withdraw u _ _ | .swap u _ _ _ _ _ _ | .startAmp u _ _ | .stopAmp u
  | .enableShare u _ _ | .disableShare u | .send _ u _ _ | .sendLp u _ _ => u

/-- One transaction at time `now`; `fo` is the factory owner at that time.  The pair itself never signs.
`update_config` is contracts/pair_stable/src/contract.rs:1064-1132. -/
def exec (su : Setup) (me : A) (now : Nat) (fo : A) (s : State A) (o : Op A) : Res (State A) := do
  require (o.signer ≠ me) .unauthorized
  match o with
  | .provide u d m r => do
    let (s', _) ← provide su me s now u d m r
    .ok s'
  | .withdraw u n m => do
    let (s', _) ← withdraw su me s now u n m
    .ok s'
  | .swap u i n b m r f => do
    let (s', _) ← swap su me s now u i n b m r f
    .ok s'
  | .startAmp u next t => do
    authorised s fo u
    let a ← startChangingAmp s.amp now next t
    .ok { s with amp := a }
  | .stopAmp u => do
    authorised s fo u
    let a ← stopChangingAmp s.amp now
    .ok { s with amp := a }
  | .enableShare u bps r => do
    authorised s fo u
    require (¬ (bps = 0 ∨ bps > MAX_FEE_SHARE_BPS)) (.invalid "FeeShareOutOfBounds")
    .ok { s with share := some (bps, r) }
  | .disableShare u => do
    authorised s fo u
    .ok { s with share := none }
  | .send i u v n => do
    let b ← move (s.bal i) u v n
    .ok { s with bal := fun j => if j = i then b else s.bal j }
  | .sendLp u v n => do
    let l ← move s.lp u v n
    .ok { s with lp := l }

/-- A transaction included in a block at time `now`, when `fo` is the factory owner. -/
structure Event (A : Type) where
  now : Nat
  fo : A
  op : Op A

/-- Reverting step. -/
def step (su : Setup) (me : A) (s : State A) (e : Event A) : State A :=
  commit' s (exec su me e.now e.fo s e.op)

/-- History. -/
def run (su : Setup) (me : A) (s : State A) (es : List (Event A)) : State A := es.foldl (step su me) s

/-- Block times do not decrease, starting from `t`. -/
def Timed (t : Nat) : List (Event A) → Prop
  | [] => True
  | e :: es => t ≤ e.now ∧ Timed e.now es

/-- The state after `instantiate`, contracts/pair_stable/src/contract.rs:63-130, with arbitrary token balances. -/
def create (bal : Bool → A → Nat) (owner : Option A) (amp now : Nat) : Res (State A) := do
  let a ← initAmp amp now
  .ok { bal := bal, lp := fun _ => 0, supply := 0, twap := { cum := fun _ => 0, last := 0 }, amp := a,
        owner := owner, share := none }

end Verif.Stable
