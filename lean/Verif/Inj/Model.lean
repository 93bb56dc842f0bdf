import Verif.Duality.Lemmas

/-!
# The concentrated pool on the Injective orderbook: model

`contracts/pair_concentrated_inj/src`: a concentrated pool (the formulas are those of
`packages/astroport_pcl_common`, modelled in `Verif.PCL`) that keeps part of its reserves in a subaccount of the
Injective exchange, where it places limit orders at the beginning of a block.

The exchange is not part of the repository.  It is modelled by the total balances of the pair's subaccount, which
fills of orders by traders (and gifts) change freely, and by the list of the orders placed last.

Simplifications: token precisions at most 18; both assets are native (the code refuses others); the moving averages
of trade sizes are an input of the beginning of a block, and whether a swap completes the number of observations
needed is an input of the swap (`Verif.Inj.Sizes` models the buffer that gives both); orders with the same
price are not joined; the exchange accepts the orders or refuses all of them; ownership transfer, migration and events
are not modelled; LP tokens are not auto-staked; the pair is registered in the factory.
-/

namespace Verif.Inj

open Verif.Stable (dmul ddiv dadd toU128 withPrec payout absDiff)
open Verif.XYK (sendOpt)
open Verif.PCL (AG PParams Pool Price Setup FeeInfo Swapped SwapOut decPools ampGamma calcD calcY getXcp feeRate
  updatePrice computeSwap beforeSwapCheck assertMaxSpread calculateShares shareInAsset makerShare priceAfterSwap
  MIN_TRADE_SIZE MINIMUM_LIQUIDITY LP_PREC)
open Verif.Duality (set2 bank realAfter)

variable {A : Type} [DecidableEq A]

/-! ## Constants (orderbook/consts.rs) -/

/-- contracts/pair_concentrated_inj/src/orderbook/consts.rs:5 `ORDER_SIZE_LIMITS`. -/
def NUMBER_MIN : Nat := 1
/-- contracts/pair_concentrated_inj/src/orderbook/consts.rs:5 `ORDER_SIZE_LIMITS`. -/
def NUMBER_MAX : Nat := 30
/-- contracts/pair_concentrated_inj/src/orderbook/consts.rs:9 `MIN_TRADES_TO_AVG_LIMITS`. -/
def TRADES_MIN : Nat := 1
/-- contracts/pair_concentrated_inj/src/orderbook/consts.rs:9 `MIN_TRADES_TO_AVG_LIMITS`, packages/astroport/src/observation.rs `OBSERVATIONS_SIZE`. -/
def TRADES_MAX : Nat := 3000

/-! ## State -/

/-- `OrderbookState`, contracts/pair_concentrated_inj/src/orderbook/state.rs:29-57 (without the names of the market, the subaccount and the assets). -/
structure OB where
  priceTick : Nat
  qtyTick : Nat
  /-- `need_reconcile` -/
  need : Bool
  /-- `last_balances` -/
  last : Bool → Nat
  number : Nat
  minTrades : Nat
  ready : Bool
  enabled : Bool

/-- `AstroSpotOrder`, contracts/pair_concentrated_inj/src/orderbook/utils.rs:252-256: a buy order pays the second asset for the first one. -/
structure Post where
  buy : Bool
  price : Nat
  amount : Nat
  deriving DecidableEq, Repr

/-- The pair, its subaccount, and the orders it placed last. -/
structure State (A : Type) where
  pcl : PCL.State A
  ob : OB
  /-- total balances of the subaccount -/
  sub : Bool → Nat
  posted : List Post

/-- What the chain decides about a transaction: fee information of the factory, whether the pair may run at the
beginning of blocks (`is_allowed_for_begin_blocker`, contracts/pair_concentrated_inj/src/orderbook/utils.rs:184-205), whether a swap completes the number
of observations needed (`accumulate_swap_sizes`, contracts/pair_concentrated_inj/src/utils.rs:117-119), the averages of the trade sizes of the last
observation, and whether the exchange accepts new orders. -/
structure Env (A : Type) where
  f : FeeInfo A
  allowed : Bool
  full : Bool
  avg : Option (Nat × Nat)
  accept : Bool

/-! ## Settings -/

/-- `OrderbookState::validate`, contracts/pair_concentrated_inj/src/orderbook/state.rs:107-149: the ranges (the market is the one of the two assets). -/
def validate (number minTrades : Nat) : Res Unit := do
  require (NUMBER_MIN ≤ number ∧ number ≤ NUMBER_MAX) (.invalid "orders_number")
  require (TRADES_MIN ≤ minTrades ∧ minTrades ≤ TRADES_MAX) (.invalid "min_trades_to_avg")

/-- `set_ticks`, contracts/pair_concentrated_inj/src/orderbook/state.rs:153-187: `price` and `qty` are those of the exchange. -/
def setTicks (ob : OB) (basePrec price qty : Nat) : Res OB := do
  let q ← dec256FromRatio (qty / DEC) (10 ^ basePrec)
  require (¬ (price = ob.priceTick ∧ q = ob.qtyTick)) (.invalid "Ticks are already up to date")
  .ok { ob with priceTick := price, qtyTick := q }

/-- `OrderbookState::new`, contracts/pair_concentrated_inj/src/orderbook/state.rs:62-96. -/
def newOB (number minTrades basePrec price qty : Nat) : Res OB := do
  validate number minTrades
  setTicks { priceTick := 0, qtyTick := 0, need := true, last := fun _ => 0, number := number,
             minTrades := minTrades, ready := false, enabled := true } basePrec price qty

/-! ## Reserves -/

/-- `query_pools`, contracts/pair_concentrated_inj/src/utils.rs:37-75: the pair's own coins and those of its subaccount, in decimal form. -/
def pools (su : Setup) (bal sub : Bool → Nat) : Res (Bool → Nat) := do
  let b ← decPools su bal
  let o ← decPools su sub
  let x0 ← dadd (b false) (o false)
  let x1 ← dadd (b true) (o true)
  .ok (fun i => if i then x1 else x0)

/-- `leave_orderbook`, contracts/pair_concentrated_inj/src/orderbook/utils.rs:134-163: all orders are cancelled and the subaccount is emptied. -/
def leave (me : A) (s : State A) : State A :=
  { s with pcl := { s.pcl with bal := fun i => credit (s.pcl.bal i) me (s.sub i) }, sub := fun _ => 0, posted := [] }

/-! ## Trades on the orderbook (contracts/pair_concentrated_inj/src/orderbook/utils.rs:393-486) -/

/-- A fee to be sent: asset, receiver, amount. -/
structure Fee (A : Type) where
  asset : Bool
  dst : A
  amount : Nat

/-- The maker fee of a cumulative trade, contracts/pair_concentrated_inj/src/orderbook/utils.rs:415-466: `xs` are the reserves, `ix1` the second one in
internal representation.  Returns both after the fee, and the fee. -/
def tradeFee (su : Setup) (c : PCL.State A) (f : FeeInfo A) (last sub : Bool → Nat) (xs : Bool → Nat) (ix1 : Nat) :
    Res ((Bool → Nat) × Nat × Nat × Option (Fee A)) :=
  match f.addr with
  | none => .ok (xs, xs false, ix1, none)
  | some dst => do
    let rate ← feeRate c.params (xs false) ix1
    let rate ← u128 rate
    let mr := decMul rate f.maker
    if last false > sub false then do
      let fee ← u128 (mulDec (absDiff (last false) (sub false)) mr)
      let feeD ← withPrec fee (su.prec false)
      let x ← csub (xs false) feeD
      .ok (set2 xs false x, x, ix1, some ⟨false, dst, fee⟩)
    else if last false < sub false then do
      let fee ← u128 (mulDec (absDiff (last true) (sub true)) mr)
      let feeD ← withPrec fee (su.prec true)
      let fi ← dmul feeD c.pool.price.scale
      let i1 ← csub ix1 fi
      let x ← csub (xs true) feeD
      .ok (set2 xs true x, xs false, i1, some ⟨true, dst, fee⟩)
    else .error (.invalid "Maker fee cannot be calculated because orderbook balance hasn't changed")

/-- `process_cumulative_trade`, contracts/pair_concentrated_inj/src/orderbook/utils.rs:393-486: the pool state and the reserves after the trade, and the
fee message. -/
def process (su : Setup) (c : PCL.State A) (now : Nat) (f : FeeInfo A) (last sub : Bool → Nat) (xs : Bool → Nat) :
    Res (Pool × (Bool → Nat) × Option (Fee A)) := do
  let ix1 ← dmul (xs true) c.pool.price.scale
  let (xs, i0, i1, fee) ← tradeFee su c f last sub xs ix1
  let d0 ← withPrec (absDiff (last false) (sub false)) (su.prec false)
  let d1 ← withPrec (absDiff (last true) (sub true)) (su.prec true)
  let price ← ddiv d0 d1
  let total ← withPrec c.supply LP_PREC
  let pool ← updatePrice c.params c.pool now total i0 i1 price
  .ok (pool, xs, fee)

/-- The balances differ from those of the last reconciliation. -/
def changed (last sub : Bool → Nat) : Prop := ¬ (last false = sub false ∧ last true = sub true)

instance (last sub : Bool → Nat) : Decidable (changed last sub) := inferInstanceAs (Decidable (¬ _))

/-- `if ob_state.last_balances != subacc_balances { … }`, contracts/pair_concentrated_inj/src/contract.rs:453-472, 768-787, 925-953, contracts/pair_concentrated_inj/src/orderbook/sudo.rs:69-83. -/
def settle (su : Setup) (c : PCL.State A) (now : Nat) (f : FeeInfo A) (last sub : Bool → Nat) (xs : Bool → Nat) :
    Res (Pool × (Bool → Nat) × Option (Fee A)) :=
  if changed last sub then process su c now f last sub xs else .ok (c.pool, xs, none)

/-- The fee message is executed: a bank transfer from the pair (an empty coin is refused). -/
def payFee (me : A) (bal : Bool → A → Nat) : Option (Fee A) → Res (Bool → A → Nat)
  | none => .ok bal
  | some x => do
    let l ← bank (bal x.asset) me x.dst x.amount
    .ok (set2 bal x.asset l)

/-! ## Transactions (contract.rs) -/

/-- `provide_liquidity`, contracts/pair_concentrated_inj/src/contract.rs:355-588 (the attached coins `d` are in the pair's balance when it runs). -/
def provide (su : Setup) (me : A) (s : State A) (now : Nat) (sender : A) (d : Bool → Nat) (tol : Option Nat)
    (receiver : A) (e : Env A) : Res (State A × Nat) := do
  let c := s.pcl
  let b0 ← payout (c.bal false) sender me (d false)
  let b1 ← payout (c.bal true) sender me (d true)
  let bal : Bool → A → Nat := fun i => if i then b1 else b0
  let ps ← pools su (fun i => bal i me) s.sub
  let dd ← decPools su d
  let total ← withPrec c.supply LP_PREC
  let x0 ← csub (ps false) (dd false)
  let x1 ← csub (ps true) (dd true)
  let (pool, xs, fee) ← settle su c now e.f s.ob.last s.sub (fun i => if i then x1 else x0)
  let (shareD, pool) ← calculateShares c.params pool now total xs dd tol
  let share ← toU128 shareD LP_PREC
  let bal ← payFee me bal fee
  let locked := if total = 0 then MINIMUM_LIQUIDITY else 0
  let supply ← u128 (c.supply + locked + share)
  .ok ({ s with
          pcl := { c with bal := bal, lp := credit (credit c.lp me locked) receiver share, supply := supply,
                          pool := pool },
          ob := { s.ob with last := s.sub, need := true, enabled := e.allowed } }, share)

/-- `withdraw_liquidity`, contracts/pair_concentrated_inj/src/contract.rs:597-690, by sending `amount` LP tokens to the pair (they are burnt).  Trades on the
orderbook are not looked at; when the pair's own coins do not suffice everything is taken from the subaccount. -/
def withdraw (su : Setup) (me : A) (s : State A) (now : Nat) (sender : A) (amount : Nat) :
    Res (State A × (Nat × Nat)) := do
  let c := s.pcl
  let lp ← debit c.lp sender amount
  let xs ← pools su (fun i => c.bal i me) s.sub
  let r0 ← shareInAsset (xs false) (amount - 1) c.supply
  let r1 ← shareInAsset (xs true) (amount - 1) c.supply
  let own ← decPools su (fun i => c.bal i me)
  let s := if r0 > own false ∨ r1 > own true then leave me s else s
  let y0 ← csub (xs false) r0
  let y1 ← csub (xs true) r1
  let rest ← csub c.supply amount
  let real ← realAfter c.pool now (fun i => if i then y1 else y0) rest
  let a0 ← toU128 r0 (su.prec false)
  let a1 ← toU128 r1 (su.prec true)
  let b0 ← bank (s.pcl.bal false) me sender a0
  let b1 ← bank (s.pcl.bal true) me sender a1
  .ok ({ s with
          pcl := { s.pcl with bal := fun i => if i then b1 else b0, lp := lp, supply := rest,
                              pool := { c.pool with price := { c.pool.price with real := real } } },
          ob := { s.ob with need := true } }, (a0, a1))

/-- `swap`, contracts/pair_concentrated_inj/src/contract.rs:703-862: asset `i` is offered. -/
def swap (su : Setup) (me : A) (s : State A) (now : Nat) (sender : A) (i : Bool) (offer : Nat)
    (belief maxSpread : Option Nat) (receiver : A) (e : Env A) : Res (State A × SwapOut) := do
  let c := s.pcl
  let off ← withPrec offer (su.prec i)
  let bo ← move (c.bal i) sender me offer
  let bal := set2 c.bal i bo
  let ps ← pools su (fun j => bal j me) s.sub
  let x ← csub (ps i) off
  beforeSwapCheck (set2 ps i x) off
  let (pool, xs, fee) ← settle su c now e.f s.ob.last s.sub (set2 ps i x)
  let r ← computeSwap c.params pool now xs i off (makerShare e.f) 0
  let out ← r.out
  let ret ← toU128 r.dy (su.prec !i)
  let spread ← toU128 r.spread (su.prec !i)
  assertMaxSpread belief maxSpread offer ret spread
  let pool ← priceAfterSwap { c with pool := pool } now xs r i off out
  let makerAmt ← toU128 r.maker (su.prec !i)
  let commission ← toU128 r.total (su.prec !i)
  let bal ← payFee me bal fee
  let ba ← bank (bal !i) me receiver ret
  let ba ← sendOpt ba me e.f.addr makerAmt
  .ok ({ s with
          pcl := { c with bal := set2 bal (!i) ba, pool := pool },
          ob := { s.ob with last := s.sub, need := true, enabled := e.allowed, ready := s.ob.ready || e.full } },
       { ret := ret, spread := spread, commission := commission, maker := makerAmt, share := 0 })

/-- `orderbook_emergency_withdraw`, contracts/pair_concentrated_inj/src/contract.rs:908-966; `active` is what the chain says about the pair. -/
def emergency (su : Setup) (me : A) (s : State A) (now : Nat) (active : Bool) (e : Env A) : Res (State A) := do
  require (active = false) (.invalid "Failed to withdraw liquidity from orderbook: contract is active")
  let xs ← pools su (fun i => s.pcl.bal i me) s.sub
  let (pool, _, fee) ← settle su s.pcl now e.f s.ob.last s.sub xs
  let z := leave me s
  let bal ← payFee me z.pcl.bal fee
  .ok { z with pcl := { z.pcl with bal := bal, pool := pool },
               ob := { z.ob with enabled := false, need := false, last := fun _ => 0 } }

/-- `deactivate_orderbook`, contracts/pair_concentrated_inj/src/orderbook/sudo.rs:216-240, called by the chain. -/
def deactivate (me : A) (s : State A) : State A :=
  let z := leave me s
  { z with ob := { z.ob with enabled := false, last := fun _ => 0 } }

/-! ## The beginning of a block (contracts/pair_concentrated_inj/src/orderbook/sudo.rs:37-207) -/

/-- `Decimal256::floor` of a number of ticks, in ticks: `(v / tick).floor() * tick`. -/
def floorTick (v tick : Nat) : Res Nat := do
  let q ← ddiv v tick
  dmul (q / DEC * DEC) tick

/-- `(v / tick).ceil() * tick`. -/
def ceilTick (v tick : Nat) : Res Nat := do
  let q ← ddiv v tick
  let n ← u256 (if q % DEC = 0 then q else q / DEC * DEC + DEC)
  dmul n tick

/-- `compute_swap`, contracts/pair_concentrated_inj/src/orderbook/utils.rs:208-245: what the curve pays of asset `ask`, after its fee. -/
def curve (pp : PParams) (p : Pool) (ag : AG) (d : Nat) (ixs : Bool → Nat) (offer : Nat) (ask : Bool) : Res Nat := do
  let o ← (if ask then .ok offer else dmul offer p.price.scale)
  let x ← dadd (ixs !ask) o
  let y ← calcY ag d x ask
  let dy ← csub (ixs ask) y
  let dy ← (if ask then ddiv dy p.price.scale else .ok dy)
  let rate ← feeRate pp (if ask then x else y) (if ask then y else x)
  let fee ← dmul rate dy
  csub dy fee

/-- `orderbook_one_side_liquidity`, contracts/pair_concentrated_inj/src/orderbook/utils.rs:310-317. -/
def sideValue (l : List Post) (buy : Bool) : Res Nat :=
  l.foldl (fun acc o => if o.buy = buy then do
    let a ← acc
    let v ← dmul o.price o.amount
    dadd a v
  else acc) (.ok 0)

/-- One sell and one buy order of the "equal heights algorithm", contracts/pair_concentrated_inj/src/orderbook/sudo.rs:124-153: prices and amounts of order
number `i`, before the prices are rounded. -/
def level (pp : PParams) (p : Pool) (ag : AG) (d : Nat) (ixs : Bool → Nat) (ob : OB) (base quote : Nat)
    (acc : List Post) (i : Nat) : Res (Post × Post) := do
  let quoteSell ← dmul quote (i * DEC)
  let baseSell ← curve pp p ag d ixs quoteSell false
  let part ← dmul baseSell (DEC / i)
  let sellAmount ← floorTick part ob.qtyTick
  let v ← sideValue acc false
  let t ← csub quoteSell (if i > 1 then v else 0)
  let sellPrice ← ddiv t sellAmount
  let baseBuy ← dmul base (i * DEC)
  let quoteBuy ← curve pp p ag d ixs baseBuy true
  let v ← sideValue acc true
  let t ← csub quoteBuy (if i > 1 then v else 0)
  let buyPrice ← ddiv t (if i > 1 then base else baseBuy)
  .ok (⟨false, sellPrice, sellAmount⟩, ⟨true, buyPrice, base⟩)

/-- The loop, contracts/pair_concentrated_inj/src/orderbook/sudo.rs:124-162: `fuel` orders from number `i` on each side; nothing when a price is zero.
Prices are rounded as in `sell` and `buy`, contracts/pair_concentrated_inj/src/orderbook/utils.rs:288-307. -/
def buildOrders (pp : PParams) (p : Pool) (ag : AG) (d : Nat) (ixs : Bool → Nat) (ob : OB) (base quote : Nat) :
    Nat → Nat → List Post → Res (Option (List Post))
  | 0, _, acc => .ok (some acc)
  | fuel + 1, i, acc => do
    let (a, b) ← level pp p ag d ixs ob base quote acc i
    if a.price = 0 ∨ b.price = 0 then .ok none
    else do
      let sp ← ceilTick a.price ob.priceTick
      let bp ← floorTick b.price ob.priceTick
      buildOrders pp p ag d ixs ob base quote fuel (i + 1)
        (acc ++ [{ a with price := sp }, { b with price := bp }])

/-- The amounts of the sell orders. -/
def sideAmount (l : List Post) : Res Nat :=
  l.foldl (fun acc o => if o.buy then acc else do
    let a ← acc
    dadd a o.amount) (.ok 0)

/-- `total_deposit`, contracts/pair_concentrated_inj/src/orderbook/utils.rs:320-350. -/
def totalDeposit (su : Setup) (l : List Post) : Res (Bool → Nat) := do
  let b ← sideAmount l
  let q ← sideValue l true
  let b ← toU128 b (su.prec false)
  let q ← toU128 q (su.prec true)
  .ok (fun i => if i then q else b)

/-- One order of `collect_orders`, contracts/pair_concentrated_inj/src/orderbook/utils.rs:354-390: price in units of the chain, rounded again, and amount in
units of the first asset (both with 18 digits). -/
def toMarket (su : Setup) (ob : OB) (o : Post) : Res Post := do
  let ratio ← ddiv (10 ^ su.prec true * DEC) (10 ^ su.prec false * DEC)
  let t ← dmul o.price ratio
  let price ← (if o.buy then floorTick t ob.priceTick else ceilTick t ob.priceTick)
  let amount ← dmul o.amount (10 ^ su.prec false * DEC)
  .ok { o with price := price, amount := amount }

/-- `collect_orders`. -/
def collect (su : Setup) (ob : OB) : List Post → Res (List Post)
  | [] => .ok []
  | o :: os => do
    let m ← toMarket su ob o
    let ms ← collect su ob os
    .ok (m :: ms)

/-- Deposit into or withdrawal from the subaccount, contracts/pair_concentrated_inj/src/orderbook/sudo.rs:175-199. -/
def adjust (me : A) (l : A → Nat) (cur need : Nat) : Res (A → Nat) :=
  if cur < need then debit l me (need - cur) else .ok (credit l me (cur - need))

/-- The part of `begin_blocker` after the averages are known, contracts/pair_concentrated_inj/src/orderbook/sudo.rs:116-203; `c` has the new pool state. -/
def replace (su : Setup) (me : A) (s : State A) (c : PCL.State A) (now : Nat) (xs : Bool → Nat) (fee : Option (Fee A))
    (base quote : Nat) (accept : Bool) : Res (State A) := do
  let ag ← ampGamma c.pool now
  let x1 ← dmul (xs true) c.pool.price.scale
  let d ← calcD ag (xs false) x1
  let r ← buildOrders c.params c.pool ag d (fun i => if i then x1 else xs false) s.ob base quote s.ob.number 1 []
  match r with
  | none => .ok (leave me { s with pcl := c })
  | some l => do
    let need ← totalDeposit su l
    let bal ← payFee me c.bal fee
    let b0 ← adjust me (bal false) (s.sub false) (need false)
    let b1 ← adjust me (bal true) (s.sub true) (need true)
    let ms ← collect su s.ob l
    require (accept = true) (.invalid "orders refused")
    .ok { pcl := { c with bal := fun i => if i then b1 else b0 },
          ob := { s.ob with need := false, last := need }, sub := need, posted := ms }

/-- `begin_blocker`, contracts/pair_concentrated_inj/src/orderbook/sudo.rs:37-207.  The early returns (111-114, 156-158) save the pool state but drop the fee
message and leave `last_balances` as they are. -/
def beginBlock (su : Setup) (me : A) (s : State A) (now : Nat) (e : Env A) : Res (State A) :=
  if ¬ (s.ob.ready = true ∧ s.ob.enabled = true) then .ok s
  else if ¬ (s.ob.need = true ∨ changed s.ob.last s.sub) then .ok s
  else do
    let xs ← pools su (fun i => s.pcl.bal i me) s.sub
    let (pool, xs, fee) ← settle su s.pcl now e.f s.ob.last s.sub xs
    let c : PCL.State A := { s.pcl with pool := pool }
    let (b, q) ← orErr e.avg (.invalid "NoObservationFound")
    let base ← withPrec b (su.prec false)
    let quote ← withPrec q (su.prec true)
    let base ← floorTick base s.ob.qtyTick
    if base = 0 then .ok (leave me { s with pcl := c })
    else replace su me s c now xs fee base quote e.accept

/-! ## Queries (queries.rs) -/

/-- `query_share`, contracts/pair_concentrated_inj/src/queries.rs:116-151. -/
def queryShare (su : Setup) (me : A) (s : State A) (amount : Nat) : Res (Nat × Nat) := do
  let xs ← pools su (fun i => s.pcl.bal i me) s.sub
  let r0 ← shareInAsset (xs false) (amount - 1) s.pcl.supply
  let r1 ← shareInAsset (xs true) (amount - 1) s.pcl.supply
  let a0 ← toU128 r0 (su.prec false)
  let a1 ← toU128 r1 (su.prec true)
  .ok (a0, a1)

/-- `query_simulation`, contracts/pair_concentrated_inj/src/queries.rs:154-213 (return, spread, commission): trades on the orderbook that have not been
processed are not looked at. -/
def simulation (su : Setup) (me : A) (s : State A) (now : Nat) (i : Bool) (offer : Nat) (f : FeeInfo A) :
    Res (Nat × Nat × Nat) := do
  let off ← withPrec offer (su.prec i)
  let xs ← pools su (fun i => s.pcl.bal i me) s.sub
  beforeSwapCheck xs off
  let r ← computeSwap s.pcl.params s.pcl.pool now xs i off (makerShare f) 0
  let ret ← toU128 r.dy (su.prec !i)
  let spread ← toU128 r.spread (su.prec !i)
  let commission ← toU128 r.total (su.prec !i)
  .ok (ret, spread, commission)

/-- `query_pool`, contracts/pair_concentrated_inj/src/queries.rs:85-112. -/
def queryPool (su : Setup) (me : A) (s : State A) : Res (Nat × Nat) := do
  let xs ← pools su (fun i => s.pcl.bal i me) s.sub
  let a0 ← toU128 (xs false) (su.prec false)
  let a1 ← toU128 (xs true) (su.prec true)
  .ok (a0, a1)

/-! ## Histories -/

/-- Owner operations and transfers that are those of the plain pool (contracts/pair_concentrated_inj/src/contract.rs:867-890); there is no fee share. -/
def isAdmin : PCL.Op A → Bool
  | .update _ _ | .promote _ _ _ _ | .stop _ | .send _ _ _ _ | .sendLp _ _ _ => true
  | _ => false

/-- Transactions, calls by the chain, and fills of orders by traders on the exchange. -/
inductive Op (A : Type)
  | provide (sender : A) (d : Bool → Nat) (tol : Option Nat) (receiver : A) (e : Env A)
  | withdraw (sender : A) (amount : Nat)
  | swap (sender : A) (i : Bool) (offer : Nat) (belief maxSpread : Option Nat) (receiver : A) (e : Env A)
  | emergency (sender : A) (active : Bool) (e : Env A)
  /-- `UpdateMarketTicks`, contracts/pair_concentrated_inj/src/contract.rs:972-981 -/
  | ticks (sender : A) (price qty : Nat)
  /-- `UpdateOrderbookParams`, contracts/pair_concentrated_inj/src/contract.rs:891-898 -/
  | orders (sender : A) (number : Nat)
  | admin (o : PCL.Op A)
  | block (e : Env A)
  | deactivate
  /-- traders take `sold i` of the pair's asset `i` on the exchange and bring `paid i` -/
  | fill (sold paid : Bool → Nat)

/-- Fills change the balances of the subaccount. -/
def fill (s : State A) (sold paid : Bool → Nat) : Res (State A) := do
  let l0 ← csub (s.sub false) (sold false)
  let l1 ← csub (s.sub true) (sold true)
  .ok { s with sub := fun i => if i then l1 + paid true else l0 + paid false }

/-- The signer of a transaction (the chain and traders on the exchange do not sign for the pair). -/
def Op.signer : Op A → Option A
  | .provide u _ _ _ _ | .withdraw u _ | .swap u _ _ _ _ _ _ | .emergency u _ _ | .ticks u _ _ | .orders u _ => some u
  | .admin o => some o.signer
  | .block _ | .deactivate | .fill _ _ => none

/-- One transaction at time `now`; `fo` is the factory owner.  The pair itself never signs. -/
def exec (su : Setup) (me : A) (now : Nat) (fo : A) (s : State A) (o : Op A) : Res (State A) := do
  require (o.signer ≠ some me) .unauthorized
  match o with
  | .provide u d t r e => do
    let (s', _) ← provide su me s now u d t r e
    .ok s'
  | .withdraw u n => do
    let (s', _) ← withdraw su me s now u n
    .ok s'
  | .swap u i n b m r e => do
    let (s', _) ← swap su me s now u i n b m r e
    .ok s'
  | .emergency _ a e => emergency su me s now a e
  | .ticks _ p q => do
    let ob ← setTicks s.ob (su.prec false) p q
    .ok { s with ob := ob }
  | .orders u n => do
    require (u = s.pcl.owner.getD fo) .unauthorized
    require (NUMBER_MIN ≤ n ∧ n ≤ NUMBER_MAX) (.invalid "orders_number")
    .ok { s with ob := { s.ob with number := n } }
  | .admin o => do
    require (isAdmin o = true) (.invalid "not an owner operation")
    let c ← PCL.exec su me now fo s.pcl o
    .ok { s with pcl := c }
  | .block e => beginBlock su me s now e
  | .deactivate => .ok (deactivate me s)
  | .fill x y => fill s x y

/-- A transaction included in a block at time `now`, when `fo` is the factory owner. -/
structure Event (A : Type) where
  now : Nat
  fo : A
  op : Op A

/-- Reverting step. -/
def step (su : Setup) (me : A) (s : State A) (e : Event A) : State A :=
  commit' s (exec su me e.now e.fo s e.op)

/-- History. -/
def run (su : Setup) (me : A) (s : State A) (es : List (Event A)) : State A := es.foldl (step su me) s

/-- `instantiate`, contracts/pair_concentrated_inj/src/contract.rs:57-170; the subaccount is empty. -/
def create (su : Setup) (bal : Bool → A → Nat) (u : PParams) (amp gamma scale now : Nat)
    (number minTrades price qty : Nat) : Res (State A) := do
  let ob ← newOB number minTrades (su.prec false) price qty
  let c ← PCL.create bal u amp gamma scale now
  .ok { pcl := c, ob := ob, sub := fun _ => 0, posted := [] }

end Verif.Inj
