import Verif.PCL.Signed
import Verif.XYK.Model
import Verif.Base.Ledger

/-!
# The concentrated liquidity pool (PCL): model

`packages/astroport_pcl_common/src` and `contracts/pair_concentrated/src`.

`Decimal256` / `Decimal` values are their atomics (18 digits).  Assets are indexed by `Bool` (`false` is the
first asset of the pair), accounts by an arbitrary type `A`.

Simplifications: token precisions are at most 18 (for larger ones the code cuts digits); the observation
ring buffer of swaps is modelled separately (`Verif.Observation`), recorded asset balances in
`Verif.PCL.Tracked`; auto-staking, replies and migration are not modelled; LP tokens, native coins and cw20 tokens are ledgers `A → Nat`; bank
and token factory refuse zero coins.
-/

namespace Verif.PCL

open Verif.Stable (dmul ddiv dadd toU128 withPrec absDiff payout)
open Verif.XYK (sendOpt)

variable {A : Type} [DecidableEq A]

/-! ## Constants (consts.rs, pair.rs) -/

/-- consts.rs: `N`. -/
def NN : Nat := 2 * 10 ^ 18
/-- consts.rs: `N_POW2`. -/
def NPOW2 : Nat := 4 * 10 ^ 18
/-- consts.rs: `TWO`. -/
def TWO : Nat := 2 * 10 ^ 18
/-- consts.rs: `TOL` (1e-5). -/
def TOL : Nat := 10 ^ 13
/-- consts.rs: `HALFPOW_TOL` (1e-10). -/
def HALFPOW_TOL : Nat := 10 ^ 8
/-- consts.rs: `FEE_TOL` (0.001). -/
def FEE_TOL : Nat := 10 ^ 15
/-- consts.rs: `MAX_ITER`. -/
def MAX_ITER : Nat := 64
/-- consts.rs: `DEFAULT_SLIPPAGE` (5%). -/
def DEFAULT_SLIPPAGE : Nat := 5 * 10 ^ 16
/-- consts.rs: `MAX_ALLOWED_SLIPPAGE` (50%). -/
def MAX_ALLOWED_SLIPPAGE : Nat := 5 * 10 ^ 17
/-- consts.rs: `OFFER_PERCENT` (0.0001). -/
def OFFER_PERCENT : Nat := 10 ^ 14
/-- consts.rs: `TWAP_PRECISION_DEC` is written `(1e6 * 1e18) as u128`, a floating point constant.  `1e24` is
not a 64 bit float; the nearest one is this number, 16777216 below. -/
def TWAP_PRECISION_DEC : Nat := 999999999999999983222784
/-- consts.rs: `MIN_FEE`, `MAX_FEE` (0.005% and 1%). -/
def MIN_FEE : Nat := 5 * 10 ^ 13
/-- consts.rs: see `MIN_FEE`. -/
def MAX_FEE : Nat := 10 ^ 16
/-- consts.rs: `FEE_GAMMA_MAX` (the minimum is 0). -/
def FEE_GAMMA_MAX : Nat := 10 ^ 18
/-- consts.rs: `REPEG_PROFIT_THRESHOLD_MAX` (the minimum is 0). -/
def REPEG_MAX : Nat := 10 ^ 16
/-- consts.rs: `PRICE_SCALE_DELTA_MAX` (the minimum is 0). -/
def DELTA_MAX : Nat := 10 ^ 18
/-- consts.rs: `MA_HALF_TIME_LIMITS` (1 second to 7 days). -/
def MA_MIN : Nat := 1
/-- consts.rs: see `MA_MIN`. -/
def MA_MAX : Nat := 604800
/-- consts.rs: `AMP_MIN` (0.1). -/
def AMP_MIN : Nat := 10 ^ 17
/-- consts.rs: `AMP_MAX` is written `1e23 as u128` with the comment `100000`; the float nearest to `1e23` is
this number, slightly below. -/
def AMP_MAX : Nat := 99999999999999991611392
/-- consts.rs: `GAMMA_MIN`, `GAMMA_MAX` (0.00000001 and 0.02). -/
def GAMMA_MIN : Nat := 10 ^ 10
/-- consts.rs: see `GAMMA_MIN`. -/
def GAMMA_MAX : Nat := 2 * 10 ^ 16
/-- consts.rs: `MIN_AMP_CHANGING_TIME` (one day). -/
def MIN_CHANGING_TIME : Nat := 86400
/-- consts.rs: `MAX_CHANGE` (10). -/
def MAX_CHANGE : Nat := 10 * 10 ^ 18
/-- packages/astroport/src/pair.rs:22: `MIN_TRADE_SIZE` (1e-5). -/
def MIN_TRADE_SIZE : Nat := 10 ^ 13
/-- packages/astroport/src/asset.rs: `MINIMUM_LIQUIDITY_AMOUNT`. -/
def MINIMUM_LIQUIDITY : Nat := 1000
/-- packages/astroport/src/factory.rs / pair.rs: `MAX_FEE_SHARE_BPS`. -/
def MAX_FEE_SHARE_BPS : Nat := 1000
/-- contracts/pair_concentrated: `LP_TOKEN_PRECISION`. -/
def LP_PREC : Nat := 6

/-! ## Solver (math/math_decimal.rs, math/mod.rs) -/

/-- packages/astroport_pcl_common/src/math/math_decimal.rs:8 `PADDING`, written `1e36 as u128`: the float nearest to `1e36`. -/
def PADDING : Nat := 1000000000000000042420637374017961984

/-- The scale `Decimal256::sqrt` of cosmwasm-std picks: the largest `i ≤ n` for which the scaled radicand fits
256 bits. -/
def sqrtScale (x : Nat) : Nat → Nat
  | 0 => 0
  | n + 1 => if x * 100 ^ (n + 1) < U256 then n + 1 else sqrtScale x n

/-- `Decimal256::sqrt` (cosmwasm-std): with as many digits as fit, at most 9 pairs. -/
def dsqrt (x : Nat) : Nat :=
  let i := sqrtScale x 9
  Nat.sqrt (x * 100 ^ i) * 10 ^ (9 - i)

/-- `geometric_mean`, packages/astroport_pcl_common/src/math/math_decimal.rs:10-12. -/
def geoMean (x0 x1 : Nat) : Res Nat := do
  let p ← dmul x0 x1
  .ok (dsqrt p)

/-- `f`, packages/astroport_pcl_common/src/math/math_decimal.rs:14-28. -/
def fInv (d x0 x1 : SD) (a gamma : Nat) : Res SD := do
  let mul ← SD.mul x0 x1
  let d2 ← SD.pow d 2
  let prod ← SD.mulDec mul NPOW2
  let g2 ← dpow gamma 2
  let ag ← dmul a g2
  let num ← SD.mulDec prod ag
  let g1 ← dadd gamma DEC
  let q ← SD.div prod d2
  let t ← SD.sub (SD.ofDec g1) q
  let t2 ← SD.pow t 2
  let den ← SD.mul t2 d2
  let k ← SD.div num den
  let sum ← SD.add x0 x1
  let ds ← SD.mul d sum
  let dsk ← SD.mul ds k
  let r1 ← SD.add dsk mul
  let kd2 ← SD.mul k d2
  let r2 ← SD.sub r1 kd2
  let d24 ← SD.div d2 (SD.ofDec NPOW2)
  SD.sub r2 d24

/-- `df_dd`, packages/astroport_pcl_common/src/math/math_decimal.rs:31-56. -/
def dfdd (d x0 x1 : SD) (a gamma : Nat) : Res SD := do
  let g2 ← dpow gamma 2
  let ag ← dmul a g2
  let g1 ← dadd gamma DEC
  let d2 ← SD.pow d 2
  let mul ← SD.mul x0 x1
  let prod ← SD.mulDec mul NPOW2
  let sum ← SD.add x0 x1
  let k0 ← SD.div prod d2
  let k0p ← SD.mul (SD.negate (SD.ofDec NN)) prod
  let gk ← SD.sub (SD.ofDec g1) k0
  let gk2 ← SD.pow gk 2
  let agk0 ← SD.mulDec k0 ag
  let k ← SD.div agk0 gk2
  let pag ← dmul PADDING ag
  let n1 ← SD.mulDec k0p pag
  let gpk ← SD.add k0 (SD.ofDec g1)
  let knum ← SD.mul n1 gpk
  let d3 ← SD.pow d 3
  let p1 ← SD.mulDec d3 PADDING
  let p2 ← SD.mul p1 gk
  let p3 ← SD.mul p2 gk
  let kden ← SD.mul p3 gk
  let t1 ← SD.mul knum d
  let t2 ← SD.mul t1 sum
  let t3 ← SD.div t2 kden
  let t4 ← SD.mul k sum
  let t5 ← SD.add t3 t4
  let t6 ← SD.mul knum d2
  let t7 ← SD.div t6 kden
  let t8 ← SD.sub t5 t7
  let t9 ← SD.mulDec k NN
  let t10 ← SD.mul t9 d
  let t11 ← SD.sub t8 t10
  let t12 ← SD.div d (SD.ofDec NN)
  SD.sub t11 t12

/-- The iteration shared by `newton_d` (58-75) and `newton_y` (101-123): stop when two successive values
differ by at most `TOL`, at most `fuel` steps, negative answers are refused. -/
def newtonS (step : SD → Res SD) (msg : String) : Nat → SD → Res Nat
  | 0, _ => .error (.invalid msg)
  | n + 1, prev => do
    let x ← step prev
    let df ← SD.diff x prev
    if df ≤ TOL then SD.tryInto x else newtonS step msg n x

/-- One step of `newton_d`, packages/astroport_pcl_common/src/math/math_decimal.rs:67. -/
def dStep (a gamma x0 x1 : Nat) (d : SD) : Res SD := do
  let v ← fInv d (SD.ofDec x0) (SD.ofDec x1) a gamma
  let dv ← dfdd d (SD.ofDec x0) (SD.ofDec x1) a gamma
  let q ← SD.div v dv
  SD.sub d q

/-- `AmpGamma`, packages/astroport_pcl_common/src/state.rs:176-181. -/
structure AG where
  amp : Nat
  gamma : Nat
  deriving DecidableEq, Repr

/-- `calc_d`, packages/astroport_pcl_common/src/math/mod.rs:18-20 and `newton_d`, packages/astroport_pcl_common/src/math/math_decimal.rs:58-75. -/
def calcD (ag : AG) (x0 x1 : Nat) : Res Nat := do
  let g ← geoMean x0 x1
  let start ← dmul NN g
  newtonS (dStep ag.amp ag.gamma x0 x1) "newton_d is not converging" MAX_ITER (SD.ofDec start)

/-- `df_dx`, packages/astroport_pcl_common/src/math/math_decimal.rs:78-99; `xr` is `x[1 - i]`. -/
def dfdx (d : Nat) (x0 x1 xr : SD) (a gamma : Nat) : Res SD := do
  let d2 ← dpow d 2
  let mul ← SD.mul x0 x1
  let prod ← SD.mulDec mul NPOW2
  let k0 ← SD.div prod (SD.ofDec d2)
  let g1 ← dadd gamma DEC
  let gk ← SD.sub (SD.ofDec g1) k0
  let gk2 ← SD.pow gk 2
  let g2 ← dpow gamma 2
  let ag ← dmul a g2
  let agk0 ← SD.mulDec k0 ag
  let k ← SD.div agk0 gk2
  let k0x ← SD.mulDec xr NPOW2
  let n1 ← SD.mulDec k0x ag
  let gpk ← SD.add k0 (SD.ofDec g1)
  let n2 ← SD.mul n1 gpk
  let n3 ← SD.mulDec n2 PADDING
  let pd2 ← dmul PADDING d2
  let m1 ← SD.mulDec gk pd2
  let m2 ← SD.mul m1 gk2
  let kx ← SD.div n3 m2
  let sum ← SD.add x0 x1
  let t1 ← SD.mul kx sum
  let t2 ← SD.add t1 k
  let t3 ← SD.mulDec t2 d
  let t4 ← SD.add t3 xr
  let t5 ← SD.mulDec kx d2
  SD.sub t4 t5

/-- One step of `newton_y`, packages/astroport_pcl_common/src/math/math_decimal.rs:114: the unknown reserve is number `j`, the other one is `other`. -/
def yStep (a gamma d : Nat) (other : Nat) (j : Bool) (x : SD) : Res SD := do
  let x0 := if j then SD.ofDec other else x
  let x1 := if j then x else SD.ofDec other
  let v ← fInv (SD.ofDec d) x0 x1 a gamma
  let dv ← dfdx d x0 x1 (SD.ofDec other) a gamma
  let q ← SD.div v dv
  SD.sub x q

/-- `calc_y`, packages/astroport_pcl_common/src/math/mod.rs:28-35 and `newton_y`, packages/astroport_pcl_common/src/math/math_decimal.rs:101-123. -/
def calcY (ag : AG) (d other : Nat) (j : Bool) : Res Nat := do
  let d2 ← dpow d 2
  let den ← SD.mulDec (SD.ofDec other) NPOW2
  let start ← SD.decDiv d2 den
  newtonS (yStep ag.amp ag.gamma d other j) "newton_y is not converging" MAX_ITER start

/-- `get_xcp`, packages/astroport_pcl_common/src/math/mod.rs:40-43. -/
def getXcp (d scale : Nat) : Res Nat := do
  let x ← ddiv d NN
  let ns ← dmul NN scale
  let y ← ddiv d ns
  geoMean x y

/-- The loop of `half_float_pow`, packages/astroport_pcl_common/src/math/math_decimal.rs:139-152; `i` is the loop variable. -/
def halfLoop (frac result : Nat) : Nat → Nat → Nat → Nat → Res Nat
  | 0, _, _, _ => .error (.invalid "halfpow is not converging")
  | fuel + 1, i, term, sum => do
    let c := absDiff frac (i * DEC - DEC)
    let t1 ← dmul term c
    let t2 ← dmul t1 (DEC / 2)
    let term' ← ddiv t2 (i * DEC)
    let sum' ← csub sum term'
    if term' < HALFPOW_TOL then dmul result sum' else halfLoop frac result fuel (i + 1) term' sum'

/-- `half_float_pow`, packages/astroport_pcl_common/src/math/math_decimal.rs:126-153.  (The integral part is cast to `u32`, wrapping.) -/
def halfFloatPow (power : Nat) : Res Nat := do
  let int := power / DEC
  let _ ← u128 int
  let result ← dpow (DEC / 2) (int % 2 ^ 32)
  halfLoop (power - int * DEC) result 63 1 DEC DEC

/-! ## Parameters (state.rs) -/

/-- `PoolParams`, packages/astroport_pcl_common/src/state.rs:46-65. -/
structure PParams where
  mid : Nat
  out : Nat
  feeGamma : Nat
  repeg : Nat
  delta : Nat
  maHalf : Nat
  deriving DecidableEq, Repr

/-- `UpdatePoolParams`, packages/astroport/src/pair_concentrated.rs. -/
structure UpdateParams where
  mid : Option Nat := none
  out : Option Nat := none
  feeGamma : Option Nat := none
  repeg : Option Nat := none
  delta : Option Nat := none
  maHalf : Option Nat := none
  deriving DecidableEq, Repr

/-- `validate_param`, packages/astroport_pcl_common/src/state.rs:68-81. -/
def validateParam (v lo hi : Nat) : Res Unit := require (v ≥ lo ∧ v ≤ hi) (.invalid "IncorrectPoolParam")

/-- An optional new value: checked against its limits and stored. -/
def setParam (old : Nat) (new : Option Nat) (lo hi : Nat) : Res Nat :=
  match new with
  | none => .ok old
  | some v => do
    validateParam v lo hi
    .ok v

/-- The `out_fee` part, packages/astroport_pcl_common/src/state.rs:99-110: also above the (possibly just updated) mid fee. -/
def setOut (mid old : Nat) (new : Option Nat) : Res Nat :=
  match new with
  | none => .ok old
  | some v => do
    validateParam v MIN_FEE MAX_FEE
    require (¬ (v ≤ mid)) (.invalid "out_fee must be more than mid_fee")
    .ok v

/-- `update_params`, packages/astroport_pcl_common/src/state.rs:88-158. -/
def updateParams (p : PParams) (u : UpdateParams) : Res PParams := do
  let mid ← setParam p.mid u.mid MIN_FEE MAX_FEE
  let out ← setOut mid p.out u.out
  let fg ← setParam p.feeGamma u.feeGamma 0 FEE_GAMMA_MAX
  let rp ← setParam p.repeg u.repeg 0 REPEG_MAX
  let dl ← setParam p.delta u.delta 0 DELTA_MAX
  let ma ← setParam p.maHalf u.maHalf MA_MIN MA_MAX
  .ok { mid := mid, out := out, feeGamma := fg, repeg := rp, delta := dl, maHalf := ma }

/-- `PoolParams::fee`, packages/astroport_pcl_common/src/state.rs:160-172. -/
def feeRate (p : PParams) (x0 x1 : Nat) : Res Nat := do
  let sum ← dadd x0 x1
  let m ← dmul x0 x1
  let m4 ← dmul m NPOW2
  let s2 ← dpow sum 2
  let k ← ddiv m4 s2
  let g1 ← dadd p.feeGamma DEC
  let den ← csub g1 k
  let k ← ddiv p.feeGamma den
  let k := if k ≤ FEE_TOL then 0 else k
  let a ← dmul k p.mid
  let om ← csub DEC k
  let b ← dmul om p.out
  dadd a b

/-- `AmpGamma::new`, packages/astroport_pcl_common/src/state.rs:185-190. -/
def newAG (amp gamma : Nat) : Res AG := do
  validateParam amp AMP_MIN AMP_MAX
  validateParam gamma GAMMA_MIN GAMMA_MAX
  .ok { amp := amp, gamma := gamma }

/-- `PriceState`, packages/astroport_pcl_common/src/state.rs:197-211. -/
structure Price where
  oracle : Nat
  last : Nat
  scale : Nat
  lastUpdate : Nat
  profit : Nat
  real : Nat
  deriving DecidableEq, Repr

/-- `PoolState`, packages/astroport_pcl_common/src/state.rs:215-226. -/
structure Pool where
  initial : AG
  future : AG
  futureTime : Nat
  initialTime : Nat
  price : Price
  deriving DecidableEq, Repr

/-- One interpolated parameter of `get_amp_gamma`, packages/astroport_pcl_common/src/state.rs:286-293: `Decimal` products and sum are 128 bit;
the factors `left`, `passed`, `total` are whole numbers of seconds, so the fixed point factors cancel. -/
def lerp (a0 a1 left passed total : Nat) : Res Nat := do
  let l ← u128 (a0 * left)
  let r ← u128 (a1 * passed)
  let s ← u128 (l + r)
  cdiv s total

/-- `get_amp_gamma`, packages/astroport_pcl_common/src/state.rs:283-302. -/
def ampGamma (p : Pool) (now : Nat) : Res AG :=
  if now < p.futureTime then do
    let total ← csub p.futureTime p.initialTime
    let passed ← csub now p.initialTime
    let left ← csub total passed
    let amp ← lerp p.initial.amp p.future.amp left passed total
    let gamma ← lerp p.initial.gamma p.future.gamma left passed total
    .ok { amp := amp, gamma := gamma }
  else .ok p.future

/-- The change limit of `promote_params`, packages/astroport_pcl_common/src/state.rs:250-263 (`Decimal` quotient). -/
def changeOk (cur next : Nat) : Res Unit := do
  let r ← decDiv (max cur next) (min cur next)
  require (¬ (r > MAX_CHANGE)) (.invalid "MaxChangeAssertion")

/-- `promote_params`, packages/astroport_pcl_common/src/state.rs:232-272. -/
def promote (p : Pool) (now amp gamma futureTime : Nat) : Res Pool := do
  require (¬ (now < p.initialTime + MIN_CHANGING_TIME ∨ futureTime < now + MIN_CHANGING_TIME))
    (.invalid "MinChangingTimeAssertion")
  let next ← newAG amp gamma
  let cur ← ampGamma p now
  changeOk cur.amp next.amp
  changeOk cur.gamma next.gamma
  .ok { p with initial := cur, initialTime := now, future := next, futureTime := futureTime }

/-- `stop_promotion`, packages/astroport_pcl_common/src/state.rs:275-278. -/
def stopPromotion (p : Pool) (now : Nat) : Res Pool := do
  let cur ← ampGamma p now
  .ok { p with future := cur, futureTime := now }

/-! ## Repeg (packages/astroport_pcl_common/src/state.rs:310-383) -/

/-- The oracle part of `update_price`, packages/astroport_pcl_common/src/state.rs:322-332. -/
def updateOracle (pp : PParams) (p : Price) (now cur : Nat) : Res Price :=
  if p.lastUpdate < now then do
    let arg ← ddiv (now - p.lastUpdate) pp.maHalf
    let alpha ← halfFloatPow arg
    let om ← csub DEC alpha
    let a ← dmul p.last om
    let b ← dmul p.oracle alpha
    let o ← dadd a b
    .ok { p with oracle := o, lastUpdate := now, last := cur }
  else .ok { p with last := cur }

/-- The profit part of `update_price`, packages/astroport_pcl_common/src/state.rs:334-350. -/
def updateProfit (p : Price) (xcp totalLp : Nat) (ramping : Bool) : Res Price :=
  if p.real ≠ 0 then do
    let real ← ddiv xcp totalLp
    require (¬ (real < p.real ∧ ramping = false)) (.invalid "XCP profit real value dropped")
    let t ← dmul p.profit real
    let profit ← ddiv t p.real
    .ok { p with profit := profit, real := real }
  else .ok p

/-- The repeg part of `update_price`, packages/astroport_pcl_common/src/state.rs:352-380. -/
def repegPrice (pp : PParams) (p : Price) (ag : AG) (totalLp x0 x1 : Nat) : Res Price := do
  let r ← ddiv p.oracle p.scale
  let norm := absDiff r DEC
  let tenth ← dmul norm (DEC / 10)
  let delta := max pp.delta tenth
  if norm ≥ delta then do
    let lhs ← csub p.real DEC
    let pr ← csub p.profit DEC
    let half ← ddiv pr TWO
    let rhs ← dadd half pp.repeg
    if lhs > rhs then do
      let nd ← csub norm delta
      let n1 ← dmul p.scale nd
      let n2 ← dmul delta p.oracle
      let n ← dadd n1 n2
      let scale ← ddiv n norm
      let y1 ← dmul x1 scale
      let y ← ddiv y1 p.scale
      let d ← calcD ag x0 y
      let xcp ← getXcp d scale
      let real ← ddiv xcp totalLp
      let l ← dmul TWO real
      let rr ← dadd p.profit DEC
      if l > rr then .ok { p with scale := scale, real := real } else .ok p
    else .ok p
  else .ok p

/-- `update_price`, packages/astroport_pcl_common/src/state.rs:310-383; `x0`, `x1` are the reserves in internal representation. -/
def updatePrice (pp : PParams) (p : Pool) (now totalLp x0 x1 cur : Nat) : Res Pool := do
  let ag ← ampGamma p now
  let pr ← updateOracle pp p.price now cur
  let d ← calcD ag x0 x1
  let xcp ← getXcp d pr.scale
  let pr ← updateProfit pr xcp totalLp (decide (now < p.futureTime))
  let pr ← repegPrice pp pr ag totalLp x0 x1
  .ok { p with price := pr }

/-! ## Swaps (utils.rs) -/

/-- `SwapResult`, packages/astroport_pcl_common/src/utils.rs:189-195. -/
structure Swapped where
  dy : Nat
  spread : Nat
  maker : Nat
  share : Nat
  total : Nat
  deriving DecidableEq, Repr

/-- `compute_swap`, packages/astroport_pcl_common/src/utils.rs:260-308: `i` is the offered asset, `xs` the reserves before the swap. -/
def computeSwap (pp : PParams) (p : Pool) (now : Nat) (xs : Bool → Nat) (i : Bool) (offer : Nat)
    (makerShare feeShare : Nat) : Res Swapped := do
  let s := p.price.scale
  let x1 ← dmul (xs true) s
  let ag ← ampGamma p now
  let d ← calcD ag (xs false) x1
  let ioff ← (if i then dmul offer s else .ok offer)
  let newOff ← dadd (if i then x1 else xs false) ioff
  let newY ← calcY ag d newOff (!i)
  let idy ← csub (if i then xs false else x1) newY
  let dy ← (if i then .ok idy else ddiv idy s)
  let worth ← (if i then dmul offer p.price.oracle else ddiv offer p.price.oracle)
  let rate ← feeRate pp (if i then newY else newOff) (if i then newOff else newY)
  let total ← dmul rate dy
  let net ← csub dy total
  let share ← dmul total feeShare
  let rest ← csub total share
  let maker ← dmul rest makerShare
  .ok { dy := net, spread := worth - dy, maker := maker, share := share, total := total }

/-- What leaves the pool: `dy + maker_fee + share_fee`. -/
def Swapped.out (r : Swapped) : Res Nat := do
  let a ← dadd r.dy r.maker
  dadd a r.share

/-- `calc_last_price`, packages/astroport_pcl_common/src/utils.rs:199-205. -/
def calcLastPrice (r : Swapped) (offer : Nat) (i : Bool) : Res Nat := do
  let o ← r.out
  if i then ddiv o offer else ddiv offer o

/-- `calc_last_prices`, packages/astroport_pcl_common/src/utils.rs:209-227. -/
def calcLastPrices (pp : PParams) (p : Pool) (now : Nat) (xs : Bool → Nat) : Res Nat := do
  let t ← dmul (xs false) OFFER_PERCENT
  let o := min DEC t
  let o := if o = 0 then 1 else o
  let r ← computeSwap pp p now xs false o 0 0
  calcLastPrice r o false

/-- `before_swap_check`, packages/astroport_pcl_common/src/utils.rs:176-185. -/
def beforeSwapCheck (xs : Bool → Nat) (offer : Nat) : Res Unit := do
  require (offer ≠ 0) (.invalid "Swap amount must not be zero")
  require (¬ (xs false = 0 ∨ xs true = 0)) (.invalid "One of the pools is empty")

/-- `assert_max_spread`, packages/astroport_pcl_common/src/utils.rs:143-173. -/
def assertMaxSpread (belief maxSpread : Option Nat) (offer ret spread : Nat) : Res Unit := do
  let ms := maxSpread.getD DEFAULT_SLIPPAGE
  require (¬ (ms > MAX_ALLOWED_SLIPPAGE)) (.invalid "AllowedSpreadAssertion")
  match belief with
  | some b => do
    let inv ← orErr (decInv b) (.invalid "Invalid belief_price")
    let expected ← u128 (mulDec offer inv)
    if ret < expected then do
      let r ← dec256FromRatio (expected - ret) expected
      require (¬ (r > ms)) (.invalid "MaxSpreadAssertion")
    else .ok ()
  | none => do
    let t ← u128 (ret + spread)
    let r ← dec256FromRatio spread t
    require (¬ (r > ms)) (.invalid "MaxSpreadAssertion")

/-- Cumulative prices of a pair, `Config::cumulative_prices` and `block_time_last`. -/
structure Twap where
  cum : Bool → Nat
  last : Nat

/-- One accumulator of `accumulate_prices`, packages/astroport_pcl_common/src/utils.rs:238-254. -/
def accOne (old el price : Nat) : Res Nat := do
  let v ← dmul price TWAP_PRECISION_DEC
  let v ← u128 (v / DEC)
  let inc ← u128 (el * v)
  .ok ((old + inc) % U128)

/-- `accumulate_prices`, packages/astroport_pcl_common/src/utils.rs:230-257. -/
def accumulate (c : Twap) (now price : Nat) : Res Twap :=
  if now ≤ c.last then .ok c
  else do
    let inv ← ddiv DEC price
    let a ← accOne (c.cum false) (now - c.last) inv
    let b ← accOne (c.cum true) (now - c.last) price
    .ok { cum := fun j => if j then b else a, last := now }

/-! ## Shares -/

/-- `calc_provide_fee`, packages/astroport_pcl_common/src/utils.rs:355-364. -/
def provideFee (pp : PParams) (d0 d1 x0 x1 : Nat) : Res Nat := do
  let sum ← dadd d0 d1
  let avg ← ddiv sum NN
  let rate ← feeRate pp x0 x1
  let t ← dmul (absDiff d0 avg) rate
  ddiv t sum

/-- `assert_slippage_tolerance`, packages/astroport_pcl_common/src/utils.rs:367-391. -/
def assertSlippage (d : Bool → Nat) (share : Nat) (p : Price) (tol : Option Nat) : Res Unit := do
  let tol := tol.getD DEFAULT_SLIPPAGE
  require (¬ (tol > MAX_ALLOWED_SLIPPAGE)) (.invalid "AllowedSpreadAssertion")
  let v1 ← dmul (d true) p.scale
  let value ← dadd (d false) v1
  let half ← ddiv value TWO
  let sq ← dmul half value
  let ts ← dmul TWO p.scale
  let q ← ddiv sq ts
  let expected ← ddiv (dsqrt q) p.real
  let slip ← ddiv (expected - share) expected
  require (¬ (slip > tol)) (.invalid "MaxSpreadAssertion")

/-- The new LP amount (in decimal form) and the price state after the first-provide reset,
packages/astroport_pcl_common/src/utils.rs:178-218. -/
def rawShares (pp : PParams) (p : Pool) (now total : Nat) (xs d : Bool → Nat) (new0 new1 : Nat) :
    Res (Nat × Price) := do
  let ag ← ampGamma p now
  let newD ← calcD ag new0 new1
  if total = 0 then do
    let xcp ← getXcp newD p.price.scale
    let locked ← withPrec MINIMUM_LIQUIDITY LP_PREC
    let mint ← csub xcp locked
    require (mint ≠ 0) (.invalid "MinimumLiquidityAmountError")
    .ok (mint, { p.price with real := DEC, profit := DEC })
  else do
    let old1 ← dmul (xs true) p.price.scale
    let oldD ← calcD ag (xs false) old1
    let t ← dmul total newD
    let t ← ddiv t oldD
    let i1 ← dmul (d true) p.price.scale
    let fee ← provideFee pp (d false) i1 new0 new1
    let om ← csub DEC fee
    let share ← dmul (t - total) om
    .ok (share, p.price)

/-- `calculate_shares`, contracts/pair_concentrated/src/utils.rs:170-253: decimal LP amount and the new pool
state. -/
def calculateShares (pp : PParams) (p : Pool) (now total : Nat) (xs d : Bool → Nat) (tol : Option Nat) :
    Res (Nat × Pool) := do
  require (¬ (total = 0 ∧ (d false = 0 ∨ d true = 0))) (.invalid "InvalidZeroAmount")
  let new0 ← dadd (xs false) (d false)
  let n1 ← dadd (xs true) (d true)
  let new1 ← dmul n1 p.price.scale
  let (share, price) ← rawShares pp p now total xs d new0 new1
  let p : Pool := { p with price := price }
  let after ← dadd total share
  let ratio ← ddiv share after
  let b0 ← dmul new0 ratio
  let b1' ← dmul new1 ratio
  let b1 ← ddiv b1' p.price.scale
  let df0 := absDiff (d false) b0
  let df1 := absDiff (d true) b1
  if df0 ≥ MIN_TRADE_SIZE ∧ df1 ≥ MIN_TRADE_SIZE then do
    assertSlippage d share p.price tol
    let last ← ddiv df0 df1
    let p ← updatePrice pp p now after new0 new1 last
    .ok (share, p)
  else .ok (share, p)

/-! ## The contract -/

/-- Fixed at creation: token precisions, and which assets are native coins. -/
structure Setup where
  prec : Bool → Nat
  native : Bool → Bool

/-- Fee information the factory returns: maker share of the fee and receiver of it. -/
structure FeeInfo (A : Type) where
  maker : Nat
  addr : Option A

/-- Stored configuration and token ledgers. -/
structure State (A : Type) where
  params : PParams
  pool : Pool
  twap : Twap
  owner : Option A
  /-- fee share: basis points and recipient -/
  share : Option (Nat × A)
  /-- balances of the two pool assets -/
  bal : Bool → A → Nat
  /-- LP token balances -/
  lp : A → Nat
  supply : Nat

/-- The reserves in decimal form (`query_pools`). -/
def decPools (su : Setup) (b : Bool → Nat) : Res (Bool → Nat) := do
  let x0 ← withPrec (b false) (su.prec false)
  let x1 ← withPrec (b true) (su.prec true)
  .ok (fun i => if i then x1 else x0)

/-- `into_msg` and its execution: bank refuses empty coins, cw20 accepts a zero transfer. -/
def pay (su : Setup) (i : Bool) (l : A → Nat) (src dst : A) (n : Nat) : Res (A → Nat) := do
  require (¬ (su.native i = true ∧ n = 0)) (.invalid "invalid coins")
  move l src dst n

/-- `provide_liquidity`, contracts/pair_concentrated/src/contract.rs:424-548, for deposits `d` (0 for an omitted asset; both assets listed at
most once, native coins attached exactly). -/
def provide (su : Setup) (me : A) (s : State A) (now : Nat) (sender : A) (d : Bool → Nat)
    (tol minLp : Option Nat) (receiver : A) : Res (State A × Nat) := do
  let total ← withPrec s.supply LP_PREC
  let dd ← decPools su d
  let xs ← decPools su (fun i => s.bal i me)
  let (shareD, pool) ← calculateShares s.params s.pool now total xs dd tol
  let share ← toU128 shareD LP_PREC
  require (share ≥ minLp.getD 0) (.invalid "ProvideSlippageViolation")
  require (share ≠ 0) (.invalid "invalid coins")
  let b0 ← payout (s.bal false) sender me (d false)
  let b1 ← payout (s.bal true) sender me (d true)
  let locked := if total = 0 then MINIMUM_LIQUIDITY else 0
  let supply ← u128 (s.supply + locked + share)
  let tw ← accumulate s.twap now s.pool.price.last
  .ok ({ s with bal := fun i => if i then b1 else b0, lp := credit (credit s.lp me locked) receiver share,
                supply := supply, pool := pool, twap := tw }, share)

/-- One refund of `get_share_in_assets`, packages/astroport_pcl_common/src/utils.rs:111-129, in decimal form. -/
def shareInAsset (x amount total : Nat) : Res Nat := do
  let ratio ← (if total ≠ 0 then dec256FromRatio amount total else .ok 0)
  dmul x ratio

/-- `withdraw_liquidity`, contracts/pair_concentrated/src/contract.rs:555-647 (the attached LP tokens are burnt).  `mins` is the message's
`min_assets_to_receive`, which contracts/pair_concentrated/src/contract.rs:323-331 drops. -/
def withdraw (su : Setup) (me : A) (s : State A) (now : Nat) (sender : A) (amount : Nat)
    (_mins : Option (List (Bool × Nat))) : Res (State A × (Nat × Nat)) := do
  require (amount ≠ 0) (.invalid "invalid coins")
  let lp ← debit s.lp sender amount
  let xs ← decPools su (fun i => s.bal i me)
  let r0 ← shareInAsset (xs false) (amount - 1) s.supply
  let r1 ← shareInAsset (xs true) (amount - 1) s.supply
  let y0 ← csub (xs false) r0
  let y1 ← csub (xs true) r1
  let iy1 ← dmul y1 s.pool.price.scale
  let ag ← ampGamma s.pool now
  let d ← calcD ag y0 iy1
  let xcp ← getXcp d s.pool.price.scale
  let rest ← csub s.supply amount
  let restD ← withPrec rest LP_PREC
  let real ← ddiv xcp restD
  let a0 ← toU128 r0 (su.prec false)
  let a1 ← toU128 r1 (su.prec true)
  let b0 ← pay su false (s.bal false) me sender a0
  let b1 ← pay su true (s.bal true) me sender a1
  .ok ({ s with bal := fun i => if i then b1 else b0, lp := lp, supply := rest,
                pool := { s.pool with price := { s.pool.price with real := real } } }, (a0, a1))

/-- What a swap reports and pays, in token units. -/
structure SwapOut where
  ret : Nat
  spread : Nat
  commission : Nat
  maker : Nat
  share : Nat
  deriving DecidableEq, Repr

/-- The maker's part of the fee, contracts/pair_concentrated/src/contract.rs:697-700. -/
def makerShare (f : FeeInfo A) : Nat := if f.addr.isSome then f.maker else 0

/-- The shared part of the fee, contracts/pair_concentrated/src/contract.rs:702-705. -/
def feeShare (s : Option (Nat × A)) : Res Nat :=
  match s with
  | none => .ok 0
  | some (bps, _) => dec256FromRatio bps 10000

/-- Whether the swap is large enough to move the internal price, contracts/pair_concentrated/src/contract.rs:734-736. -/
def moves (out offer : Nat) : Prop := out ≥ MIN_TRADE_SIZE ∧ offer ≥ MIN_TRADE_SIZE

instance (a b : Nat) : Decidable (moves a b) := by unfold moves; infer_instance

/-- contracts/pair_concentrated/src/contract.rs:729-744. -/
def priceAfterSwap (s : State A) (now : Nat) (xs : Bool → Nat) (r : Swapped) (i : Bool) (offer out : Nat) :
    Res Pool := do
  let yo ← dadd (xs i) offer
  let ya ← csub (xs (!i)) out
  let total ← withPrec s.supply LP_PREC
  if moves out offer then do
    let last ← calcLastPrice r offer i
    let x1 ← dmul (if i then yo else ya) s.pool.price.scale
    updatePrice s.params s.pool now total (if i then ya else yo) x1 last
  else .ok s.pool

/-- `swap`, contracts/pair_concentrated/src/contract.rs:661-827: asset `i` is offered. -/
def swap (su : Setup) (me : A) (s : State A) (now : Nat) (sender : A) (i : Bool) (offer : Nat)
    (belief maxSpread : Option Nat) (receiver : A) (f : FeeInfo A) : Res (State A × SwapOut) := do
  let off ← withPrec offer (su.prec i)
  let bo ← move (s.bal i) sender me offer
  let before ← csub (bo me) offer
  let xs ← decPools su (fun j => if j = i then before else s.bal j me)
  beforeSwapCheck xs off
  let old ← calcLastPrices s.params s.pool now xs
  let fs ← feeShare s.share
  let r ← computeSwap s.params s.pool now xs i off (makerShare f) fs
  let out ← r.out
  let pool ← priceAfterSwap s now xs r i off out
  let ret ← toU128 r.dy (su.prec (!i))
  let spread ← toU128 r.spread (su.prec (!i))
  assertMaxSpread belief maxSpread offer ret spread
  let ba ← pay su (!i) (s.bal (!i)) me receiver ret
  let shareAmt ← toU128 r.share (su.prec (!i))
  let makerAmt ← toU128 r.maker (su.prec (!i))
  let ba ← sendOpt ba me (s.share.map (·.2)) shareAmt
  let ba ← sendOpt ba me f.addr makerAmt
  let tw ← accumulate s.twap now old
  let commission ← toU128 r.total (su.prec (!i))
  .ok ({ s with bal := fun j => if j = i then bo else ba, pool := pool, twap := tw },
       { ret := ret, spread := spread, commission := commission, maker := makerAmt, share := shareAmt })

/-! ## Queries -/

/-- `query_simulation`, contracts/pair_concentrated/src/queries.rs:145-199 (return, spread, commission). -/
def simulation (su : Setup) (me : A) (s : State A) (now : Nat) (i : Bool) (offer : Nat) (f : FeeInfo A) :
    Res (Nat × Nat × Nat) := do
  let off ← withPrec offer (su.prec i)
  let xs ← decPools su (fun j => s.bal j me)
  beforeSwapCheck xs off
  let fs ← feeShare s.share
  let r ← computeSwap s.params s.pool now xs i off (makerShare f) fs
  let ret ← toU128 r.dy (su.prec (!i))
  let spread ← toU128 r.spread (su.prec (!i))
  let commission ← toU128 r.total (su.prec (!i))
  .ok (ret, spread, commission)

/-- `query_simulate_provide`, contracts/pair_concentrated/src/queries.rs:344-375. -/
def simulateProvide (su : Setup) (me : A) (s : State A) (now : Nat) (d : Bool → Nat) (tol : Option Nat) :
    Res Nat := do
  let total ← withPrec s.supply LP_PREC
  let dd ← decPools su d
  let xs ← decPools su (fun i => s.bal i me)
  let (shareD, _) ← calculateShares s.params s.pool now total xs dd tol
  toU128 shareD LP_PREC

/-- `query_share` (`SimulateWithdraw`), contracts/pair_concentrated/src/queries.rs:115-142. -/
def queryShare (su : Setup) (me : A) (s : State A) (amount : Nat) : Res (Nat × Nat) := do
  let xs ← decPools su (fun i => s.bal i me)
  let r0 ← shareInAsset (xs false) (amount - 1) s.supply
  let r1 ← shareInAsset (xs true) (amount - 1) s.supply
  let a0 ← toU128 r0 (su.prec false)
  let a1 ← toU128 r1 (su.prec true)
  .ok (a0, a1)

/-- `query_lp_price`, contracts/pair_concentrated/src/queries.rs:256-276: the LP value index. -/
def lpPrice (su : Setup) (me : A) (s : State A) (now : Nat) : Res Nat := do
  let total ← withPrec s.supply LP_PREC
  if total ≠ 0 then do
    let xs ← decPools su (fun i => s.bal i me)
    let x1 ← dmul (xs true) s.pool.price.scale
    let ag ← ampGamma s.pool now
    let d ← calcD ag (xs false) x1
    let xcp ← getXcp d s.pool.price.scale
    ddiv xcp total
  else .ok 0

/-- `query_cumulative_prices`, contracts/pair_concentrated/src/queries.rs:233-253. -/
def cumulativePrices (su : Setup) (me : A) (s : State A) (now : Nat) : Res (Nat × Nat) := do
  let xs ← decPools su (fun i => s.bal i me)
  let price ← calcLastPrices s.params s.pool now xs
  let c ← accumulate s.twap now price
  .ok (c.cum false, c.cum true)

/-! ## Histories -/

/-- Transactions. -/
inductive Op (A : Type)
  | provide (sender : A) (d : Bool → Nat) (tol minLp : Option Nat) (receiver : A)
  | withdraw (sender : A) (amount : Nat) (mins : Option (List (Bool × Nat)))
  | swap (sender : A) (i : Bool) (offer : Nat) (belief maxSpread : Option Nat) (receiver : A) (f : FeeInfo A)
  | update (sender : A) (u : UpdateParams)
  | promote (sender : A) (amp gamma futureTime : Nat)
  | stop (sender : A)
  | enableShare (sender : A) (bps : Nat) (recipient : A)
  | disableShare (sender : A)
  /-- plain transfers of a pool asset or of LP tokens -/
  | send (i : Bool) (src dst : A) (n : Nat)
  | sendLp (src dst : A) (n : Nat)

/-- The account that signs. -/
def Op.signer : Op A → A
  | .provide u _ _ _ _ | .withdraw u _ _ | .swap u _ _ _ _ _ _ | .update u _ | .promote u _ _ _ | .stop u
  | .enableShare u _ _ | .disableShare u | .send _ u _ _ | .sendLp u _ _ => u

/-- `update_config` authorisation, contracts/pair_concentrated/src/contract.rs:841-844. -/
def authorised (s : State A) (factoryOwner caller : A) : Res Unit :=
  require (caller = s.owner.getD factoryOwner) .unauthorized

/-- One transaction at time `now`; `fo` is the factory owner at that time.  The pair itself never signs.
`update_config` is contracts/pair_concentrated/src/contract.rs:832-901. -/
def exec (su : Setup) (me : A) (now : Nat) (fo : A) (s : State A) (o : Op A) : Res (State A) := do
  require (o.signer ≠ me) .unauthorized
  match o with
  | .provide u d t m r => do
    let (s', _) ← provide su me s now u d t m r
    .ok s'
  | .withdraw u n m => do
    let (s', _) ← withdraw su me s now u n m
    .ok s'
  | .swap u i n b m r f => do
    let (s', _) ← swap su me s now u i n b m r f
    .ok s'
  | .update u v => do
    authorised s fo u
    let p ← updateParams s.params v
    .ok { s with params := p }
  | .promote u a g t => do
    authorised s fo u
    let p ← promote s.pool now a g t
    .ok { s with pool := p }
  | .stop u => do
    authorised s fo u
    let p ← stopPromotion s.pool now
    .ok { s with pool := p }
  | .enableShare u bps r => do
    authorised s fo u
    require (¬ (bps = 0 ∨ bps > MAX_FEE_SHARE_BPS)) (.invalid "FeeShareOutOfBounds")
    .ok { s with share := some (bps, r) }
  | .disableShare u => do
    authorised s fo u
    .ok { s with share := none }
  | .send i u v n => do
    let b ← move (s.bal i) u v n
    .ok { s with bal := fun j => if j = i then b else s.bal j }
  | .sendLp u v n => do
    let l ← move s.lp u v n
    .ok { s with lp := l }

/-- A transaction included in a block at time `now`, when `fo` is the factory owner. -/
structure Event (A : Type) where
  now : Nat
  fo : A
  op : Op A

/-- Reverting step. -/
def step (su : Setup) (me : A) (s : State A) (e : Event A) : State A :=
  commit' s (exec su me e.now e.fo s e.op)

/-- History. -/
def run (su : Setup) (me : A) (s : State A) (es : List (Event A)) : State A := es.foldl (step su me) s

/-- Block times do not decrease, starting from `t`. -/
def Timed (t : Nat) : List (Event A) → Prop
  | [] => True
  | e :: es => t ≤ e.now ∧ Timed e.now es

/-- `instantiate`, contracts/pair_concentrated/src/contract.rs:63-172: all parameters go through `update_params` on the zero defaults. -/
def create (bal : Bool → A → Nat) (u : PParams) (amp gamma scale now : Nat) : Res (State A) := do
  require (scale ≠ 0) (.invalid "Initial price scale can not be zero")
  let p ← updateParams { mid := 0, out := 0, feeGamma := 0, repeg := 0, delta := 0, maHalf := 0 }
    { mid := some u.mid, out := some u.out, feeGamma := some u.feeGamma, repeg := some u.repeg,
      delta := some u.delta, maHalf := some u.maHalf }
  let ag ← newAG amp gamma
  .ok { params := p,
        pool := { initial := { amp := 0, gamma := 0 }, future := ag, futureTime := now, initialTime := 0,
                  price := { oracle := scale, last := scale, scale := scale, lastUpdate := now, profit := 0,
                             real := 0 } },
        twap := { cum := fun _ => 0, last := now }, owner := none, share := none, bal := bal,
        lp := fun _ => 0, supply := 0 }

end Verif.PCL
