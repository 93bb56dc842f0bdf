import Verif.PCL.Lemmas
import Verif.Base.KV

/-!
# The concentrated pool with orderbook integration: model

`contracts/pair_concentrated_duality/src`: a concentrated pool (the formulas are those of
`packages/astroport_pcl_common`, modelled in `Verif.PCL`) that keeps part of its reserves in limit orders on
the Duality orderbook of the Neutron chain.

The orderbook itself is not part of the repository.  It is modelled as a list of the pair's standing orders,
each with the offered coins still in it and the coins already received for it; the outcome of every placed
order (stands, was executed at once, is refused) and every later fill is chosen freely by the environment.
Querying or cancelling an order that is not there fails
(packages/astroport_test/src/modules/neutron_stargate.rs:121-127, 199-206).

Simplifications: token precisions at most 18; both assets are native (the code refuses others); the sums of
order coins in the reply are not checked against 128 bits; an order is not joined with another one at the
same tick; ownership transfer, migration and events are not modelled; LP tokens are not auto-staked.
-/

namespace Verif.Duality

open Verif.Stable (dmul ddiv dadd toU128 withPrec payout)
open Verif.XYK (sendOpt)
open Verif.PCL (AG PParams Pool Price Setup FeeInfo Swapped SwapOut decPools ampGamma calcD calcY getXcp
  updatePrice computeSwap calcLastPrices beforeSwapCheck assertMaxSpread accumulate calculateShares shareInAsset
  makerShare feeShare priceAfterSwap MIN_TRADE_SIZE MINIMUM_LIQUIDITY LP_PREC)

variable {A : Type} [DecidableEq A]

/-! ## Constants (orderbook/consts.rs) -/

/-- contracts/pair_concentrated_duality/src/orderbook/consts.rs:10 `ORDERS_NUMBER_LIMITS`. -/
def NUMBER_MIN : Nat := 1
/-- contracts/pair_concentrated_duality/src/orderbook/consts.rs:10 `ORDERS_NUMBER_LIMITS`. -/
def NUMBER_MAX : Nat := 15
/-- contracts/pair_concentrated_duality/src/orderbook/consts.rs:13 `MIN_LIQUIDITY_PERCENT` (1%). -/
def PERCENT_MIN : Nat := 10 ^ 16
/-- contracts/pair_concentrated_duality/src/orderbook/consts.rs:15 `MAX_LIQUIDITY_PERCENT` (50%). -/
def PERCENT_MAX : Nat := 5 * 10 ^ 17
/-- contracts/pair_concentrated_duality/src/orderbook/consts.rs:17 `MIN_AVG_PRICE_ADJ_PERCENT` (1 bps). -/
def ADJ_MIN : Nat := 10 ^ 14
/-- contracts/pair_concentrated_duality/src/orderbook/consts.rs:19 `MAX_AVG_PRICE_ADJ_PERCENT` (30 bps). -/
def ADJ_MAX : Nat := 3 * 10 ^ 15
/-- contracts/pair_concentrated_duality/src/orderbook/consts.rs:26 `DUALITY_PRICE_ADJUSTMENT`. -/
def DUALITY_PRICE_ADJUSTMENT : Nat := 10 ^ 9

/-! ## State -/

/-- An order of the pair on the orderbook, and `OrderState` (contracts/pair_concentrated_duality/src/orderbook/state.rs:48-52): asset `sell` is offered;
cancelling returns `left` of it (`maker_coin_out`) and `got` of the other one (`taker_coin_out`). -/
structure Order where
  sell : Bool
  left : Nat
  got : Nat
  deriving DecidableEq, Repr

/-- `OrderbookState`, contracts/pair_concentrated_duality/src/orderbook/state.rs:54-84. -/
structure OB (A : Type) where
  executor : Option A
  number : Nat
  minSize : Bool → Nat
  percent : Nat
  adj : Nat
  enabled : Bool
  /-- tranche keys of the posted orders -/
  orders : List Nat
  /-- `pre_reply_contract_balances`, empty or both -/
  pre : Option (Bool → Nat)
  delayed : Option Order
  /-- `last_order_sizes`, empty or both -/
  sizes : Option (Bool → Nat)

/-- The pair and its orders on the orderbook. -/
structure State (A : Type) where
  pcl : PCL.State A
  ob : OB A
  /-- the pair's orders standing on the orderbook -/
  book : List (Nat × Order)
  /-- the next tranche key -/
  next : Nat

/-- What the orderbook does with a placed order. -/
inductive Outcome
  /-- it stands; `sold` of its coins have been sold for `got` -/
  | rests (sold got : Nat)
  /-- all of it was sold at once for `got`, paid to the pair -/
  | executed (got : Nat)
  | refused
  deriving DecidableEq, Repr

/-- What the chain decides about a transaction: the factory's fee information, in which order the two sides of
the map of trades are iterated (contracts/pair_concentrated_duality/src/orderbook/state.rs:400), and the outcome of each placed order. -/
structure Env (A : Type) where
  f : FeeInfo A
  flip : Bool
  out : Nat → Outcome

/-! ## Settings (contracts/pair_concentrated_duality/src/orderbook/state.rs:89-230) -/

/-- `validate`, contracts/pair_concentrated_duality/src/orderbook/state.rs:210-230 (with 180-208). -/
def validate (ob : OB A) : Res Unit := do
  require (NUMBER_MIN ≤ ob.number ∧ ob.number ≤ NUMBER_MAX) (.invalid "orders_number")
  require (PERCENT_MIN ≤ ob.percent ∧ ob.percent ≤ PERCENT_MAX) (.invalid "liquidity_percent")
  require (ADJ_MIN ≤ ob.adj ∧ ob.adj ≤ ADJ_MAX) (.invalid "avg_price_adjustment")
  require (ob.minSize false ≠ 0) (.invalid "min_asset_0_order_size must be greater than zero")
  require (ob.minSize true ≠ 0) (.invalid "min_asset_1_order_size must be greater than zero")

/-- `OrderbookState::new`, contracts/pair_concentrated_duality/src/orderbook/state.rs:89-107. -/
def newOB (executor : Option A) (number : Nat) (minSize : Bool → Nat) (percent adj : Nat) : Res (OB A) := do
  let ob : OB A := { executor := executor, number := number, minSize := minSize, percent := percent, adj := adj,
                     enabled := false, orders := [], pre := none, delayed := none, sizes := none }
  validate ob
  .ok ob

/-- `UpdateDualityOrderbook`, packages/astroport/src/pair_concentrated_duality.rs. -/
structure UpdateOB (A : Type) where
  enable : Option Bool := none
  executor : Option A := none
  removeExecutor : Bool := false
  number : Option Nat := none
  min0 : Option Nat := none
  min1 : Option Nat := none
  percent : Option Nat := none
  adj : Option Nat := none

/-- `update_config`, contracts/pair_concentrated_duality/src/orderbook/state.rs:119-178. -/
def updateOB (ob : OB A) (u : UpdateOB A) : Res (OB A) := do
  require (u.removeExecutor = false ∨ u.executor.isNone)
    (.invalid "Both 'remove_executor' and 'executor' cannot be set at the same time")
  let ob : OB A :=
    { ob with
      enabled := u.enable.getD ob.enabled
      executor := (if u.removeExecutor then none else u.executor.orElse fun _ => ob.executor)
      number := u.number.getD ob.number
      minSize := fun i => if i then u.min1.getD (ob.minSize true) else u.min0.getD (ob.minSize false)
      percent := u.percent.getD ob.percent
      adj := u.adj.getD ob.adj }
  validate ob
  .ok ob

/-! ## Reading the orderbook -/

/-- The coins of asset `i` in an order. -/
def Order.coin (o : Order) (i : Bool) : Nat := if i = o.sell then o.left else o.got

/-- One order of `query_ob_liquidity`, contracts/pair_concentrated_duality/src/orderbook/state.rs:251-311.  The orderbook omits empty coins; the denom
of an omitted coin is looked up in `pre_reply_contract_balances` (a panic when it is empty). -/
def simCancel (pre : Option (Bool → Nat)) (book : List (Nat × Order)) (k : Nat) : Res Order := do
  let o ← orErr (kvGet k book) (.invalid "Order not found")
  require (¬ (o.left = 0 ∧ o.got = 0)) (.invalid "Unexpected duality response")
  require (¬ (pre.isNone = true ∧ (o.left = 0 ∨ o.got = 0))) (.invalid "index out of bounds")
  .ok o

/-- `query_ob_liquidity`, contracts/pair_concentrated_duality/src/orderbook/state.rs:236-326: the state of every known order. -/
def simAll (pre : Option (Bool → Nat)) (book : List (Nat × Order)) : List Nat → Res (List Order)
  | [] => .ok []
  | k :: ks => do
    let o ← simCancel pre book k
    let os ← simAll pre book ks
    .ok (o :: os)

/-- All coins of asset `i` in these orders. -/
def inOrders (os : List Order) (i : Bool) : Nat := (os.map (·.coin i)).sum

/-- `Liquidity::total`, contracts/pair_concentrated_duality/src/orderbook/utils.rs:340-358: the pair's balance plus its coins on the orderbook. -/
def totals (bal : Bool → Nat) (os : List Order) : Res (Bool → Nat) := do
  let t0 ← u128 (bal false + inOrders os false)
  let t1 ← u128 (bal true + inOrders os true)
  .ok (fun i => if i then t1 else t0)

/-- `CumulativeTrade`, contracts/pair_concentrated_duality/src/orderbook/execute.rs:25-34, in decimal form: asset `recv` (`base_asset`) was received,
`got` of it, for `sold` of the other asset (`quote_asset`). -/
structure Trade where
  recv : Bool
  got : Nat
  sold : Nat
  deriving DecidableEq, Repr

/-- The orders of `os` that sell asset `i`. -/
def sellers (os : List Order) (i : Bool) : List Order := os.filter fun o => decide (o.sell = i)

/-- One entry of the map in `fetch_cumulative_trades`, contracts/pair_concentrated_duality/src/orderbook/state.rs:381-398 and 403-409. -/
def tradeSide (su : Setup) (sizes : Bool → Nat) (os : List Order) (recv : Bool) : Res Trade := do
  let got ← u128 ((sellers os !recv).map (·.got)).sum
  let sold ← u128 ((sellers os !recv).map fun o => sizes o.sell - o.left).sum
  let gotD ← withPrec got (su.prec recv)
  let soldD ← withPrec sold (su.prec !recv)
  .ok { recv := recv, got := gotD, sold := soldD }

/-- `fetch_cumulative_trades`, contracts/pair_concentrated_duality/src/orderbook/state.rs:366-412. -/
def fetchTrades (su : Setup) (ob : OB A) (os : List Order) (flip : Bool) : Res (List Trade) :=
  let all := os ++ ob.delayed.toList
  if all = [] then .ok []
  else do
    let sizes ← orErr ob.sizes (.invalid "called `Option::unwrap()` on a `None` value")
    let a ← tradeSide su sizes all flip
    let b ← tradeSide su sizes all (!flip)
    .ok ([a, b].filter fun t => decide (t.got ≠ 0))

/-! ## Processing trades (contracts/pair_concentrated_duality/src/orderbook/execute.rs:65-193) -/

/-- Replace one of two values. -/
def set2 {α : Type} (f : Bool → α) (i : Bool) (v : α) : Bool → α := fun j => if j = i then v else f j

/-- The fees of one trade, contracts/pair_concentrated_duality/src/orderbook/execute.rs:87-140: the reserves (decimal) after them and the two amounts to
pay, to the fee share recipient and to the maker. -/
def fees (su : Setup) (c : PCL.State A) (f : FeeInfo A) (t : Trade) (xs : Bool → Nat) :
    Res ((Bool → Nat) × Nat × Nat) := do
  let fee ← dmul c.params.out t.sold
  let _ ← toU128 fee (su.prec !t.recv)
  let fs ← feeShare c.share
  let sh ← dmul fee fs
  let x ← csub (xs !t.recv) sh
  let shU ← toU128 sh (su.prec !t.recv)
  let rest ← csub fee sh
  let mk ← dmul rest (makerShare f)
  let x ← csub x mk
  let mkU ← toU128 mk (su.prec !t.recv)
  .ok (set2 xs (!t.recv) x, shU, mkU)

/-- The reserves after the fees of all trades (what the queries use; no message is sent). -/
def feesAll (su : Setup) (c : PCL.State A) (f : FeeInfo A) : List Trade → (Bool → Nat) → Res (Bool → Nat)
  | [], xs => .ok xs
  | t :: ts, xs => do
    let (xs, _) ← fees su c f t xs
    feesAll su c f ts xs

/-- The fees of one trade with their payment: returns the reserves (decimal) and ledgers after them. -/
def charge (su : Setup) (me : A) (c : PCL.State A) (f : FeeInfo A) (t : Trade) (xs : Bool → Nat)
    (bal : Bool → A → Nat) : Res ((Bool → Nat) × (Bool → A → Nat)) := do
  let (xs, shU, mkU) ← fees su c f t xs
  let l ← sendOpt (bal !t.recv) me (c.share.map (·.2)) shU
  let l ← sendOpt l me f.addr mkU
  .ok (xs, set2 bal (!t.recv) l)

/-- The fees of all trades. -/
def chargeAll (su : Setup) (me : A) (c : PCL.State A) (f : FeeInfo A) :
    List Trade → (Bool → Nat) → (Bool → A → Nat) → Res ((Bool → Nat) × (Bool → A → Nat))
  | [], xs, bal => .ok (xs, bal)
  | t :: ts, xs, bal => do
    let (xs, bal) ← charge su me c f t xs bal
    chargeAll su me c f ts xs bal

/-- The trade that moves the price, contracts/pair_concentrated_duality/src/orderbook/execute.rs:144-160: offered asset, its amount, the other amount. -/
def tradePrice : List Trade → Res (Bool × Nat × Nat)
  | [t] => .ok (t.recv, t.got, t.sold)
  | [t1, t2] =>
    if t1.got < t2.sold then .ok (t2.recv, t2.got, t1.got)
    else if t1.got > t2.sold then .ok (t1.recv, t1.got, t2.got)
    else .error (.invalid "internal error: entered unreachable code")
  | _ => .error (.invalid "Must be at least 1 and at most 2 cumulative trades")

/-- The price update, contracts/pair_concentrated_duality/src/orderbook/execute.rs:162-188. -/
def tradeRepeg (c : PCL.State A) (now : Nat) (xs : Bool → Nat) (i : Bool) (base quote : Nat) : Res Pool :=
  if base ≥ MIN_TRADE_SIZE ∧ quote ≥ MIN_TRADE_SIZE then do
    let last ← (if i then ddiv quote base else ddiv base quote)
    let total ← withPrec c.supply LP_PREC
    let x1 ← dmul (xs true) c.pool.price.scale
    updatePrice c.params c.pool now total (xs false) x1 last
  else .ok c.pool

/-- `process_cumulative_trades`, contracts/pair_concentrated_duality/src/orderbook/execute.rs:65-193. -/
def process (su : Setup) (me : A) (c : PCL.State A) (now : Nat) (f : FeeInfo A) (ts : List Trade)
    (xs : Bool → Nat) (bal : Bool → A → Nat) : Res (Pool × (Bool → Nat) × (Bool → A → Nat)) := do
  let (xs, bal) ← chargeAll su me c f ts xs bal
  let (i, base, quote) ← tradePrice ts
  let pool ← tradeRepeg c now xs i base quote
  .ok (pool, xs, bal)

/-- The `if !cumulative_trades.is_empty()` blocks of execute.rs. -/
def settle (su : Setup) (me : A) (c : PCL.State A) (now : Nat) (f : FeeInfo A) (ts : List Trade)
    (xs : Bool → Nat) (bal : Bool → A → Nat) : Res (Pool × (Bool → Nat) × (Bool → A → Nat)) :=
  if ts = [] then .ok (c.pool, xs, bal) else process su me c now f ts xs bal

/-! ## New orders (orderbook/utils.rs, contracts/pair_concentrated_duality/src/orderbook/state.rs:431-510) -/

/-- `compute_offer_amount`, contracts/pair_concentrated_duality/src/orderbook/utils.rs:21-55: how much of asset `off` the curve asks for `ask` of the
other one, at the highest fee. -/
def offerFor (pp : PParams) (p : Pool) (ag : AG) (d : Nat) (ixs : Bool → Nat) (ask : Nat) (off : Bool) :
    Res Nat := do
  let ask ← (if off then .ok ask else dmul ask p.price.scale)
  let om ← csub DEC pp.out
  let inv ← orErr (decInv om) (.invalid "called `Option::unwrap()` on a `None` value")
  let before ← dmul ask inv
  let x ← csub (ixs !off) before
  let y ← calcY ag d x off
  let dx ← csub y (ixs off)
  if off then ddiv dx p.price.scale else .ok dx

/-- `AstroSpotOrder`, contracts/pair_concentrated_duality/src/orderbook/utils.rs:57-62: asset `sell` is sold (`is_buy` orders sell the second asset). -/
structure Post where
  sell : Bool
  price : Nat
  size : Nat
  deriving DecidableEq, Repr

/-- `orderbook_one_side_liquidity`, contracts/pair_concentrated_duality/src/orderbook/utils.rs:121-128. -/
def sideValue (l : List Post) (i : Bool) : Res Nat :=
  l.foldl (fun acc o => if o.sell = i then do
    let a ← acc
    let v ← dmul o.price o.size
    dadd a v
  else acc) (.ok 0)

/-- The price of order number `i` on one side, contracts/pair_concentrated_duality/src/orderbook/utils.rs:146-155 and 157-166. -/
def levelPrice (pp : PParams) (p : Pool) (ag : AG) (d : Nat) (ixs : Bool → Nat) (acc : List Post) (size : Nat)
    (i : Nat) (sell : Bool) : Res Nat := do
  let ask ← dmul size (i * DEC)
  let offer ← offerFor pp p ag d ixs ask (!sell)
  if i > 1 then do
    let v ← sideValue acc sell
    let t ← csub offer v
    ddiv t size
  else ddiv offer ask

/-- The loop of `construct_orders`, contracts/pair_concentrated_duality/src/orderbook/utils.rs:143-175: `fuel` orders from number `i` on each side. -/
def buildOrders (pp : PParams) (p : Pool) (ag : AG) (d : Nat) (ixs : Bool → Nat) (size : Bool → Nat) :
    Nat → Nat → List Post → Res (Option (List Post))
  | 0, _, acc => .ok (some acc)
  | fuel + 1, i, acc => do
    let sellPrice ← levelPrice pp p ag d ixs acc (size false) i false
    let buyPrice ← levelPrice pp p ag d ixs acc (size true) i true
    let acc := acc ++ [⟨false, sellPrice, size false⟩, ⟨true, buyPrice, size true⟩]
    if sellPrice = 0 ∨ buyPrice = 0 then .ok none else buildOrders pp p ag d ixs size fuel (i + 1) acc

/-- `price_to_duality_notation`, contracts/pair_concentrated_duality/src/orderbook/utils.rs:295-313. -/
def dualityPrice (price base quote : Nat) : Res Nat := do
  let p ← (if quote < base then ddiv price (10 ^ (base - quote) * DEC)
    else if quote = base then .ok price
    else dmul price (10 ^ (quote - base) * DEC))
  u256 (p * DUALITY_PRICE_ADJUSTMENT)

/-- `MsgPlaceLimitOrder`: `amount` of asset `sell` for at least `limit` (27 digits) per unit on the book, and
`avg` on average when it is executed at once. -/
structure Msg where
  sell : Bool
  amount : Nat
  limit : Nat
  avg : Nat
  deriving DecidableEq, Repr

/-- One message of `collect_spot_orders`, contracts/pair_concentrated_duality/src/orderbook/utils.rs:216-290 (the amount also has to fit 128 bits,
`total_exported_liquidity`, 180-207). -/
def postMsg (su : Setup) (adj : Nat) (o : Post) : Res Msg := do
  let m ← dmul o.size (10 ^ su.prec o.sell * DEC)
  let amount ← u128 (m / DEC)
  let a ← dmul adj o.price
  let limit ← dadd o.price a
  let l ← dualityPrice limit (su.prec o.sell) (su.prec !o.sell)
  let v ← dualityPrice o.price (su.prec o.sell) (su.prec !o.sell)
  .ok { sell := o.sell, amount := amount, limit := l, avg := v }

/-- `collect_spot_orders`. -/
def postMsgs (su : Setup) (adj : Nat) : List Post → Res (List Msg)
  | [] => .ok []
  | o :: os => do
    let m ← postMsg su adj o
    let ms ← postMsgs su adj os
    .ok (m :: ms)

/-- The part of `deploy_orders` after the size check, contracts/pair_concentrated_duality/src/orderbook/state.rs:482-509. -/
def deployAt (su : Setup) (c : PCL.State A) (now : Nat) (ob : OB A) (xs : Bool → Nat) (size : Bool → Nat) :
    Res (List Msg) := do
  let ag ← ampGamma c.pool now
  let x1 ← dmul (xs true) c.pool.price.scale
  let d ← calcD ag (xs false) x1
  let r ← buildOrders c.params c.pool ag d (fun i => if i then x1 else xs false) size ob.number 1 []
  match r with
  | none => .ok []
  | some l => postMsgs su ob.adj l

/-- `deploy_orders`, contracts/pair_concentrated_duality/src/orderbook/state.rs:431-510: new orders for the reserves `xs`. -/
def deploy (su : Setup) (c : PCL.State A) (now : Nat) (ob : OB A) (xs : Bool → Nat) :
    Res (OB A × List Msg) :=
  if ob.enabled = false then .ok (ob, [])
  else do
    let pc ← ddiv ob.percent (2 * DEC)
    let l0 ← dmul (xs false) pc
    let l1 ← dmul (xs true) pc
    let m0 ← withPrec (ob.minSize false) (su.prec false)
    let m1 ← withPrec (ob.minSize true) (su.prec true)
    let t0 ← ddiv l0 (ob.number * DEC)
    let t1 ← ddiv l1 (ob.number * DEC)
    if t0 < m0 ∨ t1 < m1 then .ok (ob, [])
    else do
      let z0 ← toU128 t0 (su.prec false)
      let z1 ← toU128 t1 (su.prec true)
      let ms ← deployAt su c now ob xs (fun i => if i then t1 else t0)
      .ok ({ ob with sizes := some fun i => if i then z1 else z0 }, ms)

/-- The exported amount of asset `i`, `total_exported_liquidity`, contracts/pair_concentrated_duality/src/orderbook/utils.rs:180-214. -/
def exported (ms : List Msg) (i : Bool) : Nat := ((ms.filter fun m => decide (m.sell = i)).map (·.amount)).sum

/-! ## Messages to the orderbook -/

/-- `MsgCancelLimitOrder` for every known order (contracts/pair_concentrated_duality/src/orderbook/state.rs:415-426): the coins return to the pair. -/
def cancelAll (me : A) : List Nat → (Bool → A → Nat) → List (Nat × Order) →
    Res ((Bool → A → Nat) × List (Nat × Order))
  | [], bal, book => .ok (bal, book)
  | k :: ks, bal, book => do
    let o ← orErr (kvGet k book) (.invalid "Order not found")
    cancelAll me ks (fun i => credit (bal i) me (o.coin i)) (kvRemove k book)

/-- What is left of a transaction while orders are placed: ledgers, book, next key. -/
structure Placing (A : Type) where
  bal : Bool → A → Nat
  book : List (Nat × Order)
  next : Nat

/-- `MsgPlaceLimitOrder`: the offered coins leave the pair. -/
def place (me : A) (s : Placing A) (m : Msg) (o : Outcome) : Res (Placing A) := do
  let l ← debit (s.bal m.sell) me m.amount
  match o with
  | .rests sold got => do
    let left ← csub m.amount sold
    .ok { bal := set2 s.bal m.sell l, book := s.book ++ [(s.next, ⟨m.sell, left, got⟩)], next := s.next + 1 }
  | .executed got =>
    .ok { s with bal := set2 (set2 s.bal m.sell l) (!m.sell) (credit (s.bal !m.sell) me got) }
  | .refused => .error (.invalid "order refused")

/-- All new orders, the first one is number `n`. -/
def placeAll (me : A) (out : Nat → Outcome) : Nat → List Msg → Placing A → Res (Placing A)
  | _, [], s => .ok s
  | n, m :: ms, s => do
    let s ← place me s m (out n)
    placeAll me out (n + 1) ms s

/-- `fetch_autoexecuted_trade`, contracts/pair_concentrated_duality/src/orderbook/utils.rs:374-417. -/
def autoTrade (last new : Bool → Nat) : Res Order :=
  if last false < new false then .ok { sell := true, left := 0, got := new false - last false }
  else if last true < new true then .ok { sell := false, left := 0, got := new true - last true }
  else .error (.invalid "PCL pool lost its liquidity in orderbook")

/-- The callback after the last order, contracts/pair_concentrated_duality/src/reply.rs:39-65. -/
def callback (me : A) (ob : OB A) (s : Placing A) : Res (OB A) := do
  let orders := (s.book.map (·.1)).take 30
  let _ ← simAll ob.pre s.book orders
  if orders.length < 2 * ob.number then do
    let pre ← orErr ob.pre (.invalid "index out of bounds")
    let d ← autoTrade pre (fun i => s.bal i me)
    .ok { ob with orders := orders, delayed := some d }
  else .ok { ob with orders := orders }

/-- The contract balances expected before the reply, e.g. contracts/pair_concentrated_duality/src/execute.rs:268-276; nothing when no order is posted. -/
def preBalances (su : Setup) (xs : Bool → Nat) (ms : List Msg) : Res (Option (Bool → Nat)) :=
  if ms = [] then .ok none
  else do
    let a0 ← toU128 (xs false) (su.prec false)
    let b0 ← csub a0 (exported ms false)
    let a1 ← toU128 (xs true) (su.prec true)
    let b1 ← csub a1 (exported ms true)
    .ok (some fun i => if i then b1 else b0)

/-- The end of every liquidity transaction (contracts/pair_concentrated_duality/src/execute.rs:264-282, 384-400, 576-593, contracts/pair_concentrated_duality/src/orderbook/execute.rs:236-254):
new orders for the reserves `xs` are computed and placed (the old ones have been cancelled: `book` and the
ledgers of `c` are those after the cancellations and payments) and the callback runs
(`flatten_msgs_and_add_callback`, contracts/pair_concentrated_duality/src/orderbook/state.rs:514-537). -/
def finish (su : Setup) (me : A) (ob : OB A) (next : Nat) (now : Nat) (c : PCL.State A)
    (book : List (Nat × Order)) (xs : Bool → Nat) (out : Nat → Outcome) : Res (State A) := do
  let (ob, ms) ← deploy su c now ob xs
  let pre ← preBalances su xs ms
  let ob : OB A := { ob with pre := pre, delayed := none }
  let p ← placeAll me out 0 ms { bal := c.bal, book := book, next := next }
  let ob ← (if ms = [] then .ok ob else callback me ob p)
  .ok { pcl := { c with bal := p.bal }, ob := ob, book := p.book, next := p.next }

/-! ## Transactions (execute.rs) -/

/-- `provide_liquidity`, contracts/pair_concentrated_duality/src/execute.rs:148-292 (the attached coins `d` are in the pair's balance when it runs). -/
def provide (su : Setup) (me : A) (s : State A) (now : Nat) (sender : A) (d : Bool → Nat)
    (tol minLp : Option Nat) (receiver : A) (e : Env A) : Res (State A × Nat) := do
  let c := s.pcl
  let b0 ← payout (c.bal false) sender me (d false)
  let b1 ← payout (c.bal true) sender me (d true)
  let bal : Bool → A → Nat := fun i => if i then b1 else b0
  let total ← withPrec c.supply LP_PREC
  let os ← simAll s.ob.pre s.book s.ob.orders
  let ts ← fetchTrades su s.ob os e.flip
  let t ← totals (fun i => bal i me) os
  let pools ← decPools su t
  let dd ← decPools su d
  let x0 ← csub (pools false) (dd false)
  let x1 ← csub (pools true) (dd true)
  let (pool, xs, bal) ← settle su me c now e.f ts (fun i => if i then x1 else x0) bal
  let (shareD, pool) ← calculateShares c.params pool now total xs dd tol
  let share ← toU128 shareD LP_PREC
  require (share ≥ minLp.getD 0) (.invalid "ProvideSlippageViolation")
  let tw ← accumulate c.twap now c.pool.price.last
  let (bal, book) ← cancelAll me s.ob.orders bal s.book
  require (share ≠ 0) (.invalid "invalid coins")
  let locked := if total = 0 then MINIMUM_LIQUIDITY else 0
  let supply ← u128 (c.supply + locked + share)
  let y0 ← dadd (xs false) (dd false)
  let y1 ← dadd (xs true) (dd true)
  let s' ← finish su me s.ob s.next now
    { c with bal := bal, lp := credit (credit c.lp me locked) receiver share, supply := supply, pool := pool,
             twap := tw } book (fun i => if i then y1 else y0) e.out
  .ok (s', share)

/-- `ensure_min_assets_to_receive`, contracts/pair_concentrated_duality/src/utils.rs:177-227 (both assets belong to the pair). -/
def ensureMin (r0 r1 : Nat) : Option (List (Bool × Nat)) → Res Unit
  | none => .ok ()
  | some [(i, m), (j, n)] => do
    require (i ≠ j) (.invalid "Duplicated assets in min_assets_to_receive")
    require (r0 ≥ if i = false then m else n) (.invalid "WithdrawSlippageViolation")
    require (r1 ≥ if i = false then n else m) (.invalid "WithdrawSlippageViolation")
  | some _ => .error (.invalid "WrongAssetLength")

/-- A bank transfer; empty coins are refused. -/
def bank (l : A → Nat) (src dst : A) (n : Nat) : Res (A → Nat) := do
  require (n ≠ 0) (.invalid "invalid coins")
  move l src dst n

/-- The profit bookkeeping of a withdrawal, contracts/pair_concentrated_duality/src/execute.rs:402-408. -/
def realAfter (p : Pool) (now : Nat) (xs : Bool → Nat) (rest : Nat) : Res Nat := do
  let x1 ← dmul (xs true) p.price.scale
  let ag ← ampGamma p now
  let d ← calcD ag (xs false) x1
  let xcp ← getXcp d p.price.scale
  let restD ← withPrec rest LP_PREC
  ddiv xcp restD

/-- `withdraw_liquidity`, contracts/pair_concentrated_duality/src/execute.rs:301-418 (the attached LP tokens are burnt). -/
def withdraw (su : Setup) (me : A) (s : State A) (now : Nat) (sender : A) (amount : Nat)
    (mins : Option (List (Bool × Nat))) (e : Env A) : Res (State A × (Nat × Nat)) := do
  let c := s.pcl
  require (amount ≠ 0) (.invalid "NoFunds")
  let lp ← debit c.lp sender amount
  let os ← simAll s.ob.pre s.book s.ob.orders
  let ts ← fetchTrades su s.ob os e.flip
  let t ← totals (fun i => c.bal i me) os
  let pools ← decPools su t
  let (pool, xs, bal) ← settle su me c now e.f ts pools c.bal
  let r0 ← shareInAsset (xs false) (amount - 1) c.supply
  let r1 ← shareInAsset (xs true) (amount - 1) c.supply
  let y0 ← csub (xs false) r0
  let y1 ← csub (xs true) r1
  let a0 ← toU128 r0 (su.prec false)
  let a1 ← toU128 r1 (su.prec true)
  ensureMin a0 a1 mins
  let (bal, book) ← cancelAll me s.ob.orders bal s.book
  let b0 ← bank (bal false) me sender a0
  let b1 ← bank (bal true) me sender a1
  let rest ← csub c.supply amount
  let c' : PCL.State A := { c with bal := fun i => if i then b1 else b0, lp := lp, supply := rest, pool := pool }
  let s' ← finish su me s.ob s.next now c' book (fun i => if i then y1 else y0) e.out
  let real ← realAfter pool now (fun i => if i then y1 else y0) rest
  .ok ({ s' with pcl := { s'.pcl with pool := { pool with price := { pool.price with real := real } } } }, (a0, a1))

/-- `swap`, contracts/pair_concentrated_duality/src/execute.rs:432-611: asset `i` is offered. -/
def swap (su : Setup) (me : A) (s : State A) (now : Nat) (sender : A) (i : Bool) (offer : Nat)
    (belief maxSpread : Option Nat) (receiver : A) (e : Env A) : Res (State A × SwapOut) := do
  let c := s.pcl
  let off ← withPrec offer (su.prec i)
  let bo ← move (c.bal i) sender me offer
  let os ← simAll s.ob.pre s.book s.ob.orders
  let ts ← fetchTrades su s.ob os e.flip
  let t ← totals (fun j => set2 c.bal i bo j me) os
  let pools ← decPools su t
  let x ← csub (pools i) off
  beforeSwapCheck (set2 pools i x) off
  let (pool, xs, bal) ← settle su me c now e.f ts (set2 pools i x) (set2 c.bal i bo)
  let c1 : PCL.State A := { c with pool := pool }
  let old ← calcLastPrices c.params pool now xs
  let fs ← feeShare c.share
  let r ← computeSwap c.params pool now xs i off (makerShare e.f) fs
  let out ← r.out
  let yo ← dadd (xs i) off
  let ya ← csub (xs !i) out
  let ret ← toU128 r.dy (su.prec !i)
  let spread ← toU128 r.spread (su.prec !i)
  assertMaxSpread belief maxSpread offer ret spread
  let pool' ← priceAfterSwap c1 now xs r i off out
  let shareAmt ← toU128 r.share (su.prec !i)
  let makerAmt ← toU128 r.maker (su.prec !i)
  let tw ← accumulate c.twap now old
  let (bal, book) ← cancelAll me s.ob.orders bal s.book
  let ba ← bank (bal !i) me receiver ret
  let ba ← sendOpt ba me (c.share.map (·.2)) shareAmt
  let ba ← sendOpt ba me e.f.addr makerAmt
  let commission ← toU128 r.total (su.prec !i)
  let s' ← finish su me s.ob s.next now { c with bal := set2 bal (!i) ba, pool := pool', twap := tw } book
    (fun j => if j = i then yo else ya) e.out
  .ok (s', { ret := ret, spread := spread, commission := commission, maker := makerAmt, share := shareAmt })

/-- `sync_pool_with_orderbook`, contracts/pair_concentrated_duality/src/orderbook/execute.rs:195-262. -/
def sync (su : Setup) (me : A) (s : State A) (now : Nat) (sender : A) (e : Env A) : Res (State A) := do
  let c := s.pcl
  require (s.ob.executor.isNone = true ∨ s.ob.executor = some sender) .unauthorized
  let os ← simAll s.ob.pre s.book s.ob.orders
  let ts ← fetchTrades su s.ob os e.flip
  require (ts ≠ []) (.invalid "NoNeedToSync")
  let t ← totals (fun i => c.bal i me) os
  let pools ← decPools su t
  let old ← calcLastPrices c.params c.pool now pools
  let (pool, xs, bal) ← process su me c now e.f ts pools c.bal
  let tw ← accumulate c.twap now old
  let (bal, book) ← cancelAll me s.ob.orders bal s.book
  finish su me s.ob s.next now { c with bal := bal, pool := pool, twap := tw } book xs e.out

/-- `UpdateOrderbookConfig`, contracts/pair_concentrated_duality/src/execute.rs:692-716; `fo` is the factory's owner. -/
def config (me : A) (fo : A) (s : State A) (sender : A) (u : UpdateOB A) : Res (State A) := do
  require (sender = s.pcl.owner.getD fo) .unauthorized
  if u.enable = some false then do
    let ob ← updateOB { s.ob with orders := [] } u
    let (bal, book) ← cancelAll me s.ob.orders s.pcl.bal s.book
    .ok { s with pcl := { s.pcl with bal := bal }, ob := ob, book := book }
  else do
    let ob ← updateOB s.ob u
    .ok { s with ob := ob }

/-! ## Queries (queries.rs) -/

/-- `process_cumulative_trades` in the queries, whose messages are not sent. -/
def processQ (su : Setup) (c : PCL.State A) (now : Nat) (f : FeeInfo A) (ts : List Trade) (xs : Bool → Nat) :
    Res (Pool × (Bool → Nat)) :=
  if ts = [] then .ok (c.pool, xs)
  else do
    let xs ← feesAll su c f ts xs
    let (i, base, quote) ← tradePrice ts
    let pool ← tradeRepeg c now xs i base quote
    .ok (pool, xs)

/-- The common start of the queries, e.g. contracts/pair_concentrated_duality/src/queries.rs:152-182: all reserves with the pending trades processed. -/
def current (su : Setup) (me : A) (s : State A) (now : Nat) (e : Env A) : Res (Pool × (Bool → Nat)) := do
  let os ← simAll s.ob.pre s.book s.ob.orders
  let t ← totals (fun i => s.pcl.bal i me) os
  let pools ← decPools su t
  let ts ← fetchTrades su s.ob os e.flip
  processQ su s.pcl now e.f ts pools

/-- `query_pool`, contracts/pair_concentrated_duality/src/queries.rs:92-99. -/
def queryPool (me : A) (s : State A) : Res (Bool → Nat) := do
  let os ← simAll s.ob.pre s.book s.ob.orders
  totals (fun i => s.pcl.bal i me) os

/-- `query_share`, contracts/pair_concentrated_duality/src/queries.rs:105-149. -/
def queryShare (su : Setup) (me : A) (s : State A) (now : Nat) (amount : Nat) (e : Env A) : Res (Nat × Nat) := do
  let (_, xs) ← current su me s now e
  let r0 ← shareInAsset (xs false) (amount - 1) s.pcl.supply
  let r1 ← shareInAsset (xs true) (amount - 1) s.pcl.supply
  let a0 ← toU128 r0 (su.prec false)
  let a1 ← toU128 r1 (su.prec true)
  .ok (a0, a1)

/-- `query_simulation`, contracts/pair_concentrated_duality/src/queries.rs:152-231 (return, spread, commission). -/
def simulation (su : Setup) (me : A) (s : State A) (now : Nat) (i : Bool) (offer : Nat) (e : Env A) :
    Res (Nat × Nat × Nat) := do
  let off ← withPrec offer (su.prec i)
  let (pool, xs) ← current su me s now e
  beforeSwapCheck xs off
  let fs ← feeShare s.pcl.share
  let r ← computeSwap s.pcl.params pool now xs i off (makerShare e.f) fs
  let ret ← toU128 r.dy (su.prec !i)
  let spread ← toU128 r.spread (su.prec !i)
  let commission ← toU128 r.total (su.prec !i)
  .ok (ret, spread, commission)

/-- `query_simulate_provide`, contracts/pair_concentrated_duality/src/queries.rs:474-528. -/
def simulateProvide (su : Setup) (me : A) (s : State A) (now : Nat) (d : Bool → Nat) (tol : Option Nat)
    (e : Env A) : Res Nat := do
  let total ← withPrec s.pcl.supply LP_PREC
  let (pool, xs) ← current su me s now e
  let dd ← decPools su d
  let (shareD, _) ← calculateShares s.pcl.params pool now total xs dd tol
  toU128 shareD LP_PREC

/-! ## Histories -/

/-- Owner operations and transfers are those of the plain pool (contracts/pair_concentrated_duality/src/execute.rs:616-682). -/
def isAdmin : PCL.Op A → Bool
  | .update _ _ | .promote _ _ _ _ | .stop _ | .enableShare _ _ _ | .disableShare _ | .send _ _ _ _
  | .sendLp _ _ _ => true
  | _ => false

/-- Transactions, and fills of standing orders by traders on the orderbook. -/
inductive Op (A : Type)
  | provide (sender : A) (d : Bool → Nat) (tol minLp : Option Nat) (receiver : A) (e : Env A)
  | withdraw (sender : A) (amount : Nat) (mins : Option (List (Bool × Nat))) (e : Env A)
  | swap (sender : A) (i : Bool) (offer : Nat) (belief maxSpread : Option Nat) (receiver : A) (e : Env A)
  | sync (sender : A) (e : Env A)
  | config (sender : A) (u : UpdateOB A)
  | admin (o : PCL.Op A)
  | fill (k : Nat) (sold paid : Nat)

/-- A trader takes `sold` from order `k` and pays `paid`. -/
def fill (s : State A) (k sold paid : Nat) : Res (State A) := do
  let o ← orErr (kvGet k s.book) (.invalid "Order not found")
  let left ← csub o.left sold
  .ok { s with book := s.book.map fun x => if x.1 = k then (k, ⟨o.sell, left, o.got + paid⟩) else x }

/-- The signer of a transaction (fills have none). -/
def Op.signer : Op A → Option A
  | .provide u _ _ _ _ _ | .withdraw u _ _ _ | .swap u _ _ _ _ _ _ | .sync u _ | .config u _ => some u
  | .admin o => some o.signer
  | .fill _ _ _ => none

/-- One transaction at time `now`; `fo` is the factory owner.  The pair itself never signs. -/
def exec (su : Setup) (me : A) (now : Nat) (fo : A) (s : State A) (o : Op A) : Res (State A) := do
  require (o.signer ≠ some me) .unauthorized
  match o with
  | .provide u d t m r e => do
    let (s', _) ← provide su me s now u d t m r e
    .ok s'
  | .withdraw u n m e => do
    let (s', _) ← withdraw su me s now u n m e
    .ok s'
  | .swap u i n b m r e => do
    let (s', _) ← swap su me s now u i n b m r e
    .ok s'
  | .sync u e => sync su me s now u e
  | .config u v => config me fo s u v
  | .admin o => do
    require (isAdmin o = true) (.invalid "not an owner operation")
    let c ← PCL.exec su me now fo s.pcl o
    .ok { s with pcl := c }
  | .fill k n p => fill s k n p

/-- A transaction included in a block at time `now`, when `fo` is the factory owner. -/
structure Event (A : Type) where
  now : Nat
  fo : A
  op : Op A

/-- Reverting step. -/
def step (su : Setup) (me : A) (s : State A) (e : Event A) : State A :=
  commit' s (exec su me e.now e.fo s e.op)

/-- History. -/
def run (su : Setup) (me : A) (s : State A) (es : List (Event A)) : State A := es.foldl (step su me) s

/-- `instantiate`, contracts/pair_concentrated_duality/src/instantiate.rs:32-144. -/
def create (bal : Bool → A → Nat) (u : PParams) (amp gamma scale now : Nat) (executor : Option A) (number : Nat)
    (minSize : Bool → Nat) (percent adj : Nat) : Res (State A) := do
  let ob ← newOB executor number minSize percent adj
  let c ← PCL.create bal u amp gamma scale now
  .ok { pcl := c, ob := ob, book := [], next := 0 }

end Verif.Duality
