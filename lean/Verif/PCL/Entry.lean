import Verif.PCL.Props
import Verif.PCL.Params
import Verif.Stable.Props
import Verif.Asset.Ledgers
import Mathlib.Algebra.BigOperators.Ring.Finset

/-!
# Messages to a concentrated pair (C164)

What `XYK/Entry.lean` and `Stable/Entry.lean` do, for the concentrated pair: any account may send any message with any
coins attached, token contracts call the pair when somebody sends them tokens, and the pair has to find out what really
arrived.

Assumed of the world outside: the bank moves attached coins before the pair runs, and the cw20 tokens of the pool (not
other contracts) behave as cw20 tokens do.  Simplified: `auto_stake` (see `Joint/AutoStake.lean`); ownership handover (see
`Ownership`); the buffer of observations (see `Observation`); recorded balances (see `PCL/Tracked.lean`).
-/

namespace Verif.PCL.Entry

open Verif Verif.PCL
open Verif.Ledgers (Led Cfg attach ValidFunds isNative payNonzero transferFrom mint burn oneCoin label pull amountOf
  forAll_ok pull_other pull_mono label_infos label_some infos_inj attach_spec attach_keeps attach_mono mint_of mint_mono
  burn_of burn_mono oneCoin_ok foldlM_append_ok move_moved move_keeps move_zero pay_moved pay_keeps pay_nonzero
  payNonzero_moved payNonzero_keeps transferFrom_moved transferFrom_allow)
open Verif.Stable (dmul ddiv dadd toU128 withPrec payout)
open Verif.XYK (sendOpt)
open Verif.Asset (Str Info Coin assertSent assertCoins sent declared)

set_option linter.unusedSectionVars false

variable {A : Type} [DecidableEq A]

/-- The ledgers, the supply of the LP token, and the storage of the pair. -/
structure Chain (A : Type) where
  led : Led A
  supply : Nat
  params : PParams
  pool : Pool
  twap : Twap
  owner : Option A
  share : Option (Nat × A)

/-- The block time and what the factory answers: `query_fee_info` (packages/astroport/src/querier.rs:197-213), its owner, and
whether it still knows the pair (`check_pair_registered`, packages/astroport_pcl_common/src/utils.rs:394-410). -/
structure Env (A : Type) where
  now : Nat
  owner : A
  maker : Nat
  feeAddr : Option A
  registered : Bool

/-- The fee information of the factory. -/
def Env.fees (e : Env A) : FeeInfo A := ⟨e.maker, e.feeAddr⟩

/-- Precisions and kinds of the two assets. -/
def setup (c : Cfg A) : Setup := ⟨c.prec, fun i => isNative (c.infos i)⟩

/-- What is in storage, with no balances. -/
def stored (w : Chain A) : State A :=
  { params := w.params, pool := w.pool, twap := w.twap, owner := w.owner, share := w.share, bal := fun _ _ => 0,
    lp := fun _ => 0, supply := w.supply }

/-- `swap`, contracts/pair_concentrated/src/contract.rs:661-827, with the messages it sends executed.  The offer is already
in the pair's balance, and taken out again in decimal form. -/
def swapMsg (c : Cfg A) (e : Env A) (w : Chain A) (sender : A) (offer : Asset.Asset) (belief maxSpread : Option Nat)
    (dest : Option A) : Res (Chain A × SwapOut) := do
  let i ← orErr (label c offer.info) (.invalid "InvalidAsset")
  let off ← withPrec offer.amount (c.prec i)
  let ps ← decPools (setup c) (fun j => w.led.of (c.infos j) c.me)
  let rest ← csub (ps i) off
  let xs : Bool → Nat := fun j => if j = i then rest else ps j
  beforeSwapCheck xs off
  let old ← calcLastPrices w.params w.pool e.now xs
  let fs ← feeShare w.share
  let r ← computeSwap w.params w.pool e.now xs i off (if e.feeAddr = none then 0 else e.maker) fs
  let out ← r.out
  let pool ← priceAfterSwap (stored w) e.now xs r i off out
  let ret ← toU128 r.dy (c.prec (!i))
  let spread ← toU128 r.spread (c.prec (!i))
  assertMaxSpread belief maxSpread offer.amount ret spread
  let shareAmt ← (if w.share = none then .ok 0 else toU128 r.share (c.prec (!i)))
  let makerAmt ← (if e.feeAddr = none then .ok 0 else toU128 r.maker (c.prec (!i)))
  let tw ← accumulate w.twap e.now old
  let commission ← toU128 r.total (c.prec (!i))
  let l2 ← Ledgers.pay c.me w.led (c.infos (!i)) (dest.getD sender) ret
  let l3 ← payNonzero c.me l2 (c.infos (!i)) (w.share.map (·.2)) shareAmt
  let l4 ← payNonzero c.me l3 (c.infos (!i)) e.feeAddr makerAmt
  .ok ({ w with led := l4, twap := tw, pool := pool },
       { ret := ret, spread := spread, commission := commission, maker := makerAmt, share := shareAmt })

/-- The first part of `get_assets_with_precision`, contracts/pair_concentrated/src/utils.rs:132-156: an omitted asset is added
with an explicit zero. -/
def complete (c : Cfg A) : List Asset.Asset → Res (Asset.Asset × Asset.Asset)
  | [] => .error (.invalid "Nothing to provide")
  | [a] => do
    let i ← orErr (label c a.info) (.invalid "InvalidAsset")
    .ok (a, ⟨c.infos (!i), 0⟩)
  | [a, b] => .ok (a, b)
  | _ => .error (.invalid "InvalidNumberOfAssets")

/-- `get_assets_with_precision`, contracts/pair_concentrated/src/utils.rs:117-168, with `check_assets`
(packages/astroport_pcl_common/src/utils.rs:22-40): the assets in the order of the pools, and their decimal amounts. -/
def getAssets (c : Cfg A) (e : Env A) (assets : List Asset.Asset) : Res (List Asset.Asset × (Bool → Nat)) := do
  require (e.registered = true) (.invalid "PairIsNotRegistered")
  let (a, b) ← complete c assets
  require (([a, b].map Asset.Asset.info).Nodup) (.invalid "DoublingAssets")
  Asset.forAll (fun a => Asset.Info.check c.okAddr a.info) [a, b]
  let (a, b) := if c.infos false = b.info then (b, a) else (a, b)
  let i ← orErr (label c a.info) (.invalid "InvalidAsset")
  let x ← withPrec a.amount (c.prec i)
  let j ← orErr (label c b.info) (.invalid "InvalidAsset")
  let y ← withPrec b.amount (c.prec j)
  .ok ([a, b], fun k => if k then y else x)

/-- The pool without the deposit, contracts/pair_concentrated/src/contract.rs:456-481: a coin is already in the balance. -/
def poolBefore (c : Cfg A) (i : Bool) (p d : Nat) : Res Nat := if isNative (c.infos i) then csub p d else .ok p

/-- The deposit of one asset arrives: contracts/pair_concentrated/src/contract.rs:459-473, executed. -/
def pullDec (c : Cfg A) (w : Led A) (sender : A) (i : Bool) (d : Nat) : Res (Led A) :=
  match c.infos i with
  | .native _ => .ok w
  | .token t => if d = 0 then .ok w else do
      let n ← toU128 d (c.prec i)
      transferFrom w t sender c.me c.me n

/-- `provide_liquidity`, contracts/pair_concentrated/src/contract.rs:424-548, with the messages it sends executed (the token
factory refuses to mint nothing). -/
def provideMsg (c : Cfg A) (e : Env A) (w : Chain A) (funds : List Coin) (sender : A) (assets : List Asset.Asset)
    (tol minLp : Option Nat) (receiver : Option A) : Res (Chain A × Nat) := do
  let total ← withPrec w.supply LP_PREC
  let ps ← decPools (setup c) (fun j => w.led.of (c.infos j) c.me)
  let (as', dd) ← getAssets c e assets
  assertCoins funds as' [c.infos false, c.infos true]
  let p0 ← poolBefore c false (ps false) (dd false)
  let p1 ← poolBefore c true (ps true) (dd true)
  let (shareD, pool) ← calculateShares w.params w.pool e.now total (fun i => if i then p1 else p0) dd tol
  let share ← toU128 shareD LP_PREC
  require (share ≥ minLp.getD 0) (.invalid "ProvideSlippageViolation")
  let tw ← accumulate w.twap e.now w.pool.price.last
  let l2 ← pullDec c w.led sender false (dd false)
  let l3 ← pullDec c l2 sender true (dd true)
  let locked := if total = 0 then MINIMUM_LIQUIDITY else 0
  require (share ≠ 0) (.invalid "invalid coins")
  let supply ← u128 (w.supply + locked + share)
  let l4 := mint (mint l3 c.lp c.me locked) c.lp (receiver.getD sender) share
  .ok ({ w with led := l4, twap := tw, supply := supply, pool := pool }, share)

/-- `withdraw_liquidity`, contracts/pair_concentrated/src/contract.rs:555-647, with the messages it sends executed.  `_mins` is
dropped by `execute`, contracts/pair_concentrated/src/contract.rs:367. -/
def withdrawMsg (c : Cfg A) (e : Env A) (w : Chain A) (funds : List Coin) (sender : A) (assets : List Asset.Asset)
    (_mins : Option (List (Info × Nat))) : Res (Chain A × (Nat × Nat)) := do
  let x ← oneCoin funds
  require (x.denom = c.lp) (.invalid "MissingDenom")
  let xs ← decPools (setup c) (fun j => w.led.of (c.infos j) c.me)
  require (assets = []) (.invalid "Imbalanced withdraw is currently disabled")
  let r0 ← shareInAsset (xs false) (x.amount - 1) w.supply
  let r1 ← shareInAsset (xs true) (x.amount - 1) w.supply
  let y0 ← csub (xs false) r0
  let y1 ← csub (xs true) r1
  let iy1 ← dmul y1 w.pool.price.scale
  let ag ← ampGamma w.pool e.now
  let d ← calcD ag y0 iy1
  let xcp ← getXcp d w.pool.price.scale
  let rest ← csub w.supply x.amount
  let restD ← withPrec rest LP_PREC
  let real ← ddiv xcp restD
  let a0 ← toU128 r0 (c.prec false)
  let a1 ← toU128 r1 (c.prec true)
  let l2 ← Ledgers.pay c.me w.led (c.infos false) sender a0
  let l3 ← Ledgers.pay c.me l2 (c.infos true) sender a1
  let l4 ← burn l3 c.lp c.me x.amount
  .ok ({ w with led := l4, supply := rest, pool := { w.pool with price := { w.pool.price with real := real } } }, (a0, a1))

/-- `ConcentratedPoolUpdateParams` (packages/astroport/src/pair_concentrated.rs). -/
inductive Update (A : Type) where
  | update (u : UpdateParams)
  | promote (amp gamma futureTime : Nat)
  | stop
  | enableShare (bps : Nat) (recipient : A)
  | disableShare

/-- `update_config`, contracts/pair_concentrated/src/contract.rs:832-901. -/
def updateConfig (e : Env A) (w : Chain A) (sender : A) (u : Update A) : Res (Chain A) := do
  require (sender = w.owner.getD e.owner) .unauthorized
  match u with
  | .update v => do
    let p ← updateParams w.params v
    .ok { w with params := p }
  | .promote a g t => do
    let p ← PCL.promote w.pool e.now a g t
    .ok { w with pool := p }
  | .stop => do
    let p ← stopPromotion w.pool e.now
    .ok { w with pool := p }
  | .enableShare bps r => do
    require (¬ (bps = 0 ∨ bps > MAX_FEE_SHARE_BPS)) (.invalid "FeeShareOutOfBounds")
    .ok { w with share := some (bps, r) }
  | .disableShare => .ok { w with share := none }

/-- `ExecuteMsg` (packages/astroport/src/pair.rs); `execute` drops the asset a trade asks for. -/
inductive Msg (A : Type) where
  | receive (sender : A) (amount : Nat) (belief maxSpread : Option Nat) (dest : Option A)
  | provide (assets : List Asset.Asset) (tol minLp : Option Nat) (receiver : Option A)
  | swap (offer : Asset.Asset) (belief maxSpread : Option Nat) (dest : Option A)
  | withdraw (assets : List Asset.Asset) (mins : Option (List (Info × Nat)))
  | updateConfig (u : Update A)

/-- `execute`, contracts/pair_concentrated/src/contract.rs:277-370, and `receive_cw20`, 375-405 with `check_cw20_in_pool`
(packages/astroport_pcl_common/src/utils.rs:45-54): `sender` calls with `funds` attached. -/
def execute (c : Cfg A) (e : Env A) (w : Chain A) (sender : A) (funds : List Coin) : Msg A → Res (Chain A)
  | .receive user amount belief maxSpread dest => do
    require (c.infos false = .token (c.addr sender) ∨ c.infos true = .token (c.addr sender)) .unauthorized
    let (w, _) ← swapMsg c e w user ⟨.token (c.addr sender), amount⟩ belief maxSpread dest
    .ok w
  | .provide assets tol minLp receiver => do
    let (w, _) ← provideMsg c e w funds sender assets tol minLp receiver
    .ok w
  | .swap offer belief maxSpread dest => do
    Asset.Info.check c.okAddr offer.info
    require (isNative offer.info = true) (.invalid "Cw20DirectSwap")
    assertSent offer funds
    require (offer.info = c.infos false ∨ offer.info = c.infos true) (.invalid "InvalidAsset")
    let (w, _) ← swapMsg c e w sender offer belief maxSpread dest
    .ok w
  | .withdraw assets mins => do
    let (w, _) ← withdrawMsg c e w funds sender assets mins
    .ok w
  | .updateConfig u => updateConfig e w sender u

/-- What can happen on the chain.  `send` is `Send` (or, by a spender, `SendFrom`) of any cw20 token to the pair with a
swap message. -/
inductive Tx (A : Type) where
  | call (e : Env A) (sender : A) (funds : List Coin) (m : Msg A)
  | send (e : Env A) (token owner spender : A) (amount : Nat) (belief maxSpread : Option Nat) (dest : Option A)
  | transfer (e : Env A) (k : Info) (src dst : A) (n : Nat)
  | transferFrom (e : Env A) (token : Str) (owner spender dst : A) (n : Nat)
  | approve (e : Env A) (token : Str) (owner spender : A) (n : Nat)

/-- One transaction.  Any account but the pair and the token contracts of the pool may call anything. -/
def exec (c : Cfg A) (w : Chain A) : Tx A → Res (Chain A)
  | .call e sender funds m => do
    require (sender ≠ c.me ∧ c.infos false ≠ .token (c.addr sender) ∧ c.infos true ≠ .token (c.addr sender)) .unauthorized
    require (ValidFunds funds) (.invalid "invalid coins")
    let l ← attach w.led sender c.me funds
    execute c e { w with led := l } sender funds m
  | .send e token owner spender amount belief maxSpread dest => do
    require (owner ≠ c.me ∧ spender ≠ c.me) .unauthorized
    let l ← (if owner = spender then w.led.move (.token (c.addr token)) owner c.me amount
      else Ledgers.transferFrom w.led (c.addr token) owner spender c.me amount)
    execute c e { w with led := l } token [] (.receive spender amount belief maxSpread dest)
  | .transfer _ k src dst n => do
    require (src ≠ c.me) .unauthorized
    let l ← w.led.move k src dst n
    .ok { w with led := l }
  | .transferFrom _ token owner spender dst n => do
    require (owner ≠ c.me ∧ spender ≠ c.me) .unauthorized
    let l ← Ledgers.transferFrom w.led token owner spender dst n
    .ok { w with led := l }
  | .approve _ token owner spender n => do
    require (owner ≠ c.me) .unauthorized
    .ok { w with led := { w.led with
      allow := fun t o s => if t = token ∧ o = owner ∧ s = spender then n else w.led.allow t o s } }

/-- Reverting step. -/
def step (c : Cfg A) (w : Chain A) (t : Tx A) : Chain A := commit' w (exec c w t)

/-- History. -/
def run (c : Cfg A) (w : Chain A) (ts : List (Tx A)) : Chain A := ts.foldl (step c) w

/-! ## Specification -/

/-- What the pair's own transactions see of the chain. -/
def view (c : Cfg A) (w : Chain A) : State A :=
  { params := w.params, pool := w.pool, twap := w.twap, owner := w.owner, share := w.share,
    bal := fun i => w.led.of (c.infos i), lp := w.led.bank c.lp, supply := w.supply }

/-- A plain transfer, as the pair's ledgers see it. -/
def transferOps (c : Cfg A) (k : Info) (src dst : A) (n : Nat) : List (Op A) :=
  match label c k with
  | some i => [.send i src dst n]
  | none => if k = .native c.lp then [.sendLp src dst n] else []

/-- The administration. -/
def Update.op (x : A) : Update A → Op A
  | .update u => .update x u
  | .promote a g t => .promote x a g t
  | .stop => .stop x
  | .enableShare b r => .enableShare x b r
  | .disableShare => .disableShare x

/-- The surroundings of a transaction. -/
def Tx.env : Tx A → Env A
  | .call e .. | .send e .. | .transfer e .. | .transferFrom e .. | .approve e .. => e

/-- **Specification.**  What a transaction on the chain means for the pair: a deposit of exactly the declared amounts, a
withdrawal of the LP coins that were attached, a trade of exactly the offered amount *paid by the account whose coins or
tokens moved*, or plain transfers (coins attached to a change of the settings are such a transfer). -/
def ops (c : Cfg A) : Tx A → List (Op A)
  | .call _ x _ (.provide assets tol minLp r) =>
    [.provide x (fun i => declared assets (c.infos i)) tol minLp (r.getD x)]
  | .call e x _ (.swap offer b m r) =>
    match label c offer.info with
    | some i => [.swap x i offer.amount b m (r.getD x) e.fees]
    | none => []
  | .call _ x funds (.withdraw _ mins) =>
    [.withdraw x (sent funds c.lp) (mins.map fun l => l.map fun a => (decide (a.1 = c.infos true), a.2))]
  | .call _ x funds (.updateConfig u) =>
    (funds.flatMap fun a => transferOps c (.native a.denom) x c.me a.amount) ++ [u.op x]
  | .call _ _ _ (.receive ..) => []
  | .send e t owner spender n b m r =>
    match label c (.token (c.addr t)) with
    | some i => [.swap owner i n b m (r.getD spender) e.fees]
    | none => []
  | .transfer _ k src dst n => transferOps c k src dst n
  | .transferFrom _ t owner _ dst n => transferOps c (.token t) owner dst n
  | .approve .. => []

/-- The same with the block time and the factory's owner. -/
def meaning (c : Cfg A) (t : Tx A) : List (Event A) := (ops c t).map fun o => ⟨t.env.now, t.env.owner, o⟩

/-- One transaction of the pair. -/
def exec1 (c : Cfg A) (s : State A) (ev : Event A) : Res (State A) := PCL.exec (setup c) c.me ev.now ev.fo s ev.op

/-! ## Lemmas -/

theorem payout_eq (l : A → Nat) (a b : A) (n : Nat) : payout l a b n = Verif.move l a b n := by
  unfold payout
  split_ifs with h
  · rw [h, move_zero]
  · rfl

theorem view_ext {c : Cfg A} {w w' : Chain A} (h1 : ∀ i, w'.led.of (c.infos i) = w.led.of (c.infos i))
    (h2 : w'.led.bank c.lp = w.led.bank c.lp) (h3 : w'.supply = w.supply) (h4 : w'.twap = w.twap) (h5 : w'.params = w.params)
    (h6 : w'.owner = w.owner) (h7 : w'.share = w.share) (h8 : w'.pool = w.pool) : view c w' = view c w := by
  unfold view
  simp only [h1, h2, h3, h4, h5, h6, h7, h8]

theorem transfer_meaning {c : Cfg A} (hc : c.Ok) {w : Chain A} {l' : Led A} {k : Info} {src dst : A} {n : Nat} (e : Env A)
    (hs : src ≠ c.me) (m : Ledgers.Moved w.led k src (some dst) n l') :
    ((transferOps c k src dst n).map fun o => (⟨e.now, e.owner, o⟩ : Event A)).foldlM (exec1 c) (view c w) =
      .ok (view c { w with led := l' }) := by
  unfold transferOps
  have hm := m.move
  simp only [sendOpt] at hm
  have hlp : k ≠ .native c.lp → l'.bank c.lp = w.led.bank c.lp := fun hk => m.other (.native c.lp) (Ne.symm hk)
  split
  · rename_i i hi
    have hk := label_some hi
    subst hk
    simp only [List.map_cons, List.map_nil, List.foldlM_cons, List.foldlM_nil, bind_ok_iff, pure_eq_ok, Except.ok.injEq,
      exists_eq_right]
    unfold exec1 PCL.exec
    simp only [bind_ok_iff, Except.ok.injEq]
    refine ⟨(), (require_ok _ _ _).2 hs, _, hm, ?_⟩
    unfold view
    simp only [hlp (hc.lp i)]
    congr 1
    funext j
    by_cases hj : j = i
    · rw [if_pos hj, hj]
    · rw [if_neg hj]
      exact (m.other _ fun e => hj (infos_inj hc e)).symm
  · rename_i hl
    have hb : ∀ i, l'.of (c.infos i) = w.led.of (c.infos i) := fun i => m.other _ (by
      rintro rfl
      rw [label_infos hc] at hl
      simp at hl)
    split_ifs with hk
    · subst hk
      simp only [List.map_cons, List.map_nil, List.foldlM_cons, List.foldlM_nil, bind_ok_iff, pure_eq_ok,
        Except.ok.injEq, exists_eq_right]
      unfold exec1 PCL.exec
      simp only [bind_ok_iff, Except.ok.injEq]
      refine ⟨(), (require_ok _ _ _).2 hs, _, hm, ?_⟩
      unfold view
      simp only [hb]
      rfl
    · simp only [List.map_nil, List.foldlM_nil, pure_eq_ok, Except.ok.injEq]
      exact (view_ext (w := w) (w' := { w with led := l' }) hb (hlp hk) rfl rfl rfl rfl rfl rfl).symm

theorem attach_meaning {c : Cfg A} (hc : c.Ok) {x : A} (e : Env A) (hs : x ≠ c.me) :
    ∀ {funds : List Coin} {w : Chain A} {l' : Led A}, attach w.led x c.me funds = .ok l' →
    ((funds.flatMap fun a => transferOps c (.native a.denom) x c.me a.amount).map
      fun o => (⟨e.now, e.owner, o⟩ : Event A)).foldlM (exec1 c) (view c w) = .ok (view c { w with led := l' })
  | [], w, l', h => by
    simp only [attach, Except.ok.injEq] at h
    subst h
    rfl
  | a :: as, w, l', h => by
    simp only [attach, bind_ok_iff] at h
    obtain ⟨l1, h1, h2⟩ := h
    rw [List.flatMap_cons, List.map_append]
    exact foldlM_append_ok (transfer_meaning hc e hs (move_moved h1))
      (attach_meaning (w := { w with led := l1 }) hc e hs h2)

/-- The offer taken out of the queried pools in decimal form. -/
theorem pools_without {c : Cfg A} {b b' ps : Bool → Nat} {i : Bool} {n off rest : Nat}
    (hoff : withPrec n (c.prec i) = .ok off) (hps : decPools (setup c) b = .ok ps) (hr : csub (ps i) off = .ok rest)
    (hi : b i = b' i + n) (hj : b (!i) = b' (!i)) :
    decPools (setup c) b' = .ok (fun j => if j = i then rest else ps j) := by
  simp only [decPools, bind_ok_iff, Stable.withPrec_ok, Except.ok.injEq, setup] at hps ⊢
  simp only [Stable.withPrec_ok] at hoff
  obtain ⟨x0, ⟨hp0, hx0, rfl⟩, x1, ⟨hp1, hx1, rfl⟩, rfl⟩ := hps
  obtain ⟨_, _, rfl⟩ := hoff
  rw [csub_ok] at hr
  obtain ⟨_, rfl⟩ := hr
  cases i
  · simp only [Bool.not_false] at hj
    rw [hi, Nat.add_mul] at hx0
    rw [hj] at hx1
    refine ⟨_, ⟨hp0, by omega, rfl⟩, _, ⟨hp1, hx1, rfl⟩, ?_⟩
    funext j
    cases j
    · simp [hi, Nat.add_mul]
    · simp [hj]
  · simp only [Bool.not_true] at hj
    rw [hi, Nat.add_mul] at hx1
    rw [hj] at hx0
    refine ⟨_, ⟨hp0, hx0, rfl⟩, _, ⟨hp1, by omega, rfl⟩, ?_⟩
    funext j
    cases j
    · simp [hj]
    · simp [hi, Nat.add_mul]

/-- No shared fee without a receiver, and no maker fee. -/
theorem no_fee {pp : PParams} {p : Pool} {now : Nat} {xs : Bool → Nat} {i : Bool} {offer ms fs : Nat} {r : Swapped}
    (h : computeSwap pp p now xs i offer ms fs = .ok r) : (fs = 0 → r.share = 0) ∧ (ms = 0 → r.maker = 0) := by
  unfold computeSwap at h
  simp only [bind_ok_iff, Except.ok.injEq] at h
  obtain ⟨_, _, _, _, _, _, _, _, _, _, _, _, _, _, _, _, _, _, _, _, _, _, _, _, sh, hsh, _, _, mk, hmk, rfl⟩ := h
  refine ⟨?_, ?_⟩
  · rintro rfl
    rw [Stable.dmul_ok] at hsh
    simpa using hsh.2.symm
  · rintro rfl
    rw [Stable.dmul_ok] at hmk
    simpa using hmk.2.symm

theorem price_stored {c : Cfg A} {w w' : Chain A} (h1 : w'.supply = w.supply) (h2 : w'.params = w.params) (h3 : w'.pool = w.pool)
    (now : Nat) (xs : Bool → Nat) (r : Swapped) (i : Bool) (offer out : Nat) :
    priceAfterSwap (view c w) now xs r i offer out = priceAfterSwap (stored w') now xs r i offer out := by
  unfold priceAfterSwap
  simp only [view, stored, h1, h2, h3]

/-- A trade on coins or tokens that have just arrived. -/
theorem swap_meaning {c : Cfg A} (hc : c.Ok) {e : Env A} {w w' : Chain A} {l1 : Led A} {payer sender : A}
    {offer : Asset.Asset} {belief maxSpread : Option Nat} {dest : Option A} {out : SwapOut} (hs : payer ≠ c.me)
    (hin : Ledgers.Moved w.led offer.info payer (some c.me) offer.amount l1)
    (h : swapMsg c e { w with led := l1 } sender offer belief maxSpread dest = .ok (w', out)) :
    ∃ i, label c offer.info = some i ∧
      PCL.swap (setup c) c.me (view c w) e.now payer i offer.amount belief maxSpread (dest.getD sender) e.fees =
        .ok (view c w', out) := by
  unfold swapMsg at h
  simp only [bind_ok_iff, orErr_ok, Except.ok.injEq, Prod.mk.injEq] at h
  obtain ⟨i, hi, off, hoff, ps, hps, rest, hrest, ⟨⟩, hbs, old, hold, fs, hfs, r, hr, o, ho, pool, hpool, ret, hret, sp, hsp,
    ⟨⟩, hms, sa, hsa, ma, hma, tw, htw, cm, hcm, l2, g2, l3, g3, l4, g4, rfl, rfl⟩ := h
  refine ⟨i, hi, ?_⟩
  have hk := label_some hi
  have hm := hin.move
  rw [hk] at hm hin
  simp only [sendOpt] at hm
  have hother : ∀ j, j ≠ i → l1.of (c.infos j) = w.led.of (c.infos j) := fun j hj =>
    hin.other _ fun e => hj (infos_inj hc e)
  have m2 := pay_moved g2
  have n2 := pay_nonzero g2
  have m3 := payNonzero_moved g3
  have m4 := payNonzero_moved g4
  have hne : ∀ j, j = i → c.infos j ≠ c.infos (!i) := by
    rintro j rfl e
    have := infos_inj hc e
    cases j <;> simp at this
  have hme : l1.of (c.infos i) c.me = w.led.of (c.infos i) c.me + offer.amount := by
    have := move_apply hm c.me
    rwa [if_neg (Ne.symm hs), if_pos rfl] at this
  have ea : (view c w).bal (!i) = w.led.of (c.infos (!i)) := rfl
  have hni : (!i) ≠ i := by cases i <;> simp
  have hdec := pools_without (b' := fun j => w.led.of (c.infos j) c.me) hoff hps hrest hme (by rw [hother _ hni])
  have hnf := no_fee hr
  have hp18 : c.prec (!i) ≤ 18 := by
    rw [Stable.toU128_ok] at hret
    exact hret.1
  have hzero : toU128 0 (c.prec (!i)) = .ok 0 := by
    rw [Stable.toU128_ok]
    exact ⟨hp18, by rw [Nat.zero_div]; decide, Nat.zero_div _⟩
  have hmkr : makerShare e.fees = if e.feeAddr = none then 0 else e.maker := by
    unfold makerShare Env.fees
    cases e.feeAddr <;> simp
  unfold PCL.swap
  simp only [bind_ok_iff, Except.ok.injEq, Prod.mk.injEq]
  refine ⟨off, hoff, l1.of (c.infos i), hm, w.led.of (c.infos i) c.me, ?_, _, ?_, (), hbs, old, hold, fs, hfs, r, ?_, o, ho,
    pool, ?_, ret, hret, sp, hsp, (), hms, l2.of (c.infos (!i)), ?_, sa, ?_, ma, ?_, l3.of (c.infos (!i)), m3.move,
    l4.of (c.infos (!i)), m4.move, tw, htw, cm, hcm, ?_, rfl⟩
  · rw [csub_ok, hme]
    omega
  · rw [← hdec]
    congr 1
    funext j
    by_cases hj : j = i
    · rw [if_pos hj, hj]
    · rw [if_neg hj]
      rfl
  · rw [hmkr]
    exact hr
  · rw [price_stored (w := w) (w' := { w with led := l1 }) rfl rfl rfl]
    exact hpool
  · unfold PCL.pay
    simp only [bind_ok_iff, require_ok, exists_const]
    refine ⟨n2, ?_⟩
    rw [ea, ← hother _ hni]
    exact m2.move
  · by_cases hsn : w.share = none
    · simp only [if_pos hsn, Except.ok.injEq] at hsa
      have : fs = 0 := by
        simp only [feeShare, hsn, Except.ok.injEq] at hfs
        exact hfs.symm
      rw [hnf.1 this, ← hsa]
      exact hzero
    · simp only [if_neg hsn] at hsa
      exact hsa
  · by_cases hfn : e.feeAddr = none
    · simp only [if_pos hfn, Except.ok.injEq] at hma
      rw [hnf.2 (if_pos hfn), ← hma]
      exact hzero
    · simp only [if_neg hfn] at hma
      exact hma
  · have hb : ∀ j, j ≠ c.infos (!i) → l4.of j = l1.of j := fun j hj =>
      (m4.other j hj).trans ((m3.other j hj).trans (m2.other j hj))
    have hlp : l4.bank c.lp = w.led.bank c.lp :=
      (hb (.native c.lp) (hc.lp _).symm).trans (hin.other (.native c.lp) (hc.lp _).symm)
    unfold view
    simp only
    rw [hlp]
    congr 1
    funext j
    by_cases hj : j = i
    · rw [if_pos hj, ← hj]
      exact (hb _ (by rw [hj]; exact hne i rfl)).symm
    · rw [if_neg hj]
      have : j = !i := by cases i <;> cases j <;> simp_all
      rw [this]

/-- A deposit ends up naming both assets, in the order of the pools. -/
theorem getAssets_ok {c : Cfg A} (hc : c.Ok) {e : Env A} {assets as' : List Asset.Asset} {dd : Bool → Nat}
    (h : getAssets c e assets = .ok (as', dd)) :
    decPools (setup c) (fun i => declared assets (c.infos i)) = .ok dd ∧ (∀ k, declared as' k = declared assets k) ∧
      (∀ i, ∃ x ∈ as', x.info = c.infos i) ∧ ∀ x ∈ as', ∃ i, x.info = c.infos i := by
  unfold getAssets at h
  simp only [bind_ok_iff, require_ok, exists_const, orErr_ok] at h
  obtain ⟨_, ⟨a, b⟩, hcomp, hnd, ⟨⟩, _, i, hi, x, hx, j, hj, y, hy, h⟩ := h
  simp only [Except.ok.injEq, Prod.mk.injEq] at h
  obtain ⟨rfl, rfl⟩ := h
  have hdecl : ∀ k, declared [a, b] k = declared assets k := by
    intro k
    match assets, hcomp with
    | [], hcomp => simp [complete] at hcomp
    | [u], hcomp =>
      simp only [complete, bind_ok_iff, orErr_ok, Except.ok.injEq, Prod.mk.injEq] at hcomp
      obtain ⟨i, _, rfl, rfl⟩ := hcomp
      unfold declared
      by_cases h1 : u.info = k <;> by_cases h2 : c.infos (!i) = k <;> simp [h1, h2]
    | [u, v], hcomp =>
      simp only [complete, Except.ok.injEq, Prod.mk.injEq] at hcomp
      obtain ⟨rfl, rfl⟩ := hcomp
      rfl
    | u :: v :: z :: zs, hcomp => simp [complete] at hcomp
  have hab : a.info ≠ b.info := by simpa using hnd
  have key : ∀ {u v : Asset.Asset}, (if c.infos false = b.info then (b, a) else (a, b)) = (u, v) →
      label c u.info = some i → label c v.info = some j →
      u.info = c.infos false ∧ v.info = c.infos true ∧ i = false ∧ j = true ∧ ∀ k, declared [u, v] k = declared [a, b] k := by
    intro u v huv hu hv
    have eu := label_some hu
    have ev := label_some hv
    split_ifs at huv with hsw
    · simp only [Prod.mk.injEq] at huv
      obtain ⟨rfl, rfl⟩ := huv
      have h0 : i = false := infos_inj hc (eu.symm.trans hsw.symm)
      have h1 : j = true := by
        cases j
        · exact absurd (ev.trans hsw) hab
        · rfl
      refine ⟨hsw.symm, by rw [ev, h1], h0, h1, fun k => ?_⟩
      unfold declared
      by_cases q1 : b.info = k <;> by_cases q2 : a.info = k <;> simp [q1, q2, Nat.add_comm]
    · simp only [Prod.mk.injEq] at huv
      obtain ⟨rfl, rfl⟩ := huv
      have h1 : j = true := by
        cases j
        · exact absurd ev.symm hsw
        · rfl
      have h0 : i = false := by
        cases i
        · rfl
        · exact absurd (eu.trans (by rw [ev, h1])) hab
      exact ⟨by rw [eu, h0], by rw [ev, h1], h0, h1, fun k => rfl⟩
  generalize hgen : (if c.infos false = b.info then (b, a) else (a, b)) = q at *
  obtain ⟨u, v⟩ := q
  simp only at hi hx hj hy ⊢
  obtain ⟨e0, e1, rfl, rfl, hd⟩ := key rfl hi hj
  have hnd' : ([u, v].map Asset.Asset.info).Nodup := by simp [e0, e1, hc.ne]
  have d0 : declared assets (c.infos false) = u.amount := by
    rw [← hdecl, ← hd, ← e0, Asset.declared_of_mem hnd' (by simp)]
  have d1 : declared assets (c.infos true) = v.amount := by
    rw [← hdecl, ← hd, ← e1, Asset.declared_of_mem hnd' (by simp)]
  refine ⟨?_, fun k => (hd k).trans (hdecl k), ?_, ?_⟩
  · unfold decPools
    simp only [bind_ok_iff, Except.ok.injEq, d0, d1]
    exact ⟨x, hx, y, hy, rfl⟩
  · intro i
    cases i
    · exact ⟨u, by simp, e0⟩
    · exact ⟨v, by simp, e1⟩
  · intro z hz
    simp only [List.mem_cons, List.not_mem_nil, or_false] at hz
    rcases hz with rfl | rfl
    · exact ⟨_, e0⟩
    · exact ⟨_, e1⟩

theorem pullDec_pull {c : Cfg A} {l l' : Led A} {x : A} {i : Bool} {n d : Nat} (hd : withPrec n (c.prec i) = .ok d)
    (h : pullDec c l x i d = .ok l') : pull c l x i n = .ok l' := by
  unfold pullDec at h
  unfold pull
  cases hk : c.infos i with
  | native k =>
    simp only [hk] at h ⊢
    exact h
  | token t =>
    simp only [hk] at h ⊢
    rw [Stable.withPrec_ok] at hd
    obtain ⟨_, _, rfl⟩ := hd
    have hpos : 0 < 10 ^ (18 - c.prec i) := Nat.pow_pos (by decide)
    by_cases hn : n = 0
    · rw [if_pos hn]
      rw [if_pos (by rw [hn, Nat.zero_mul])] at h
      exact h
    · rw [if_neg hn]
      rw [if_neg (Nat.mul_ne_zero hn (Nat.pos_iff_ne_zero.1 hpos))] at h
      simp only [bind_ok_iff, Stable.toU128_ok] at h
      obtain ⟨m, ⟨_, _, rfl⟩, h⟩ := h
      rw [Stable.scale_cancel] at h
      exact h

/-- One asset of a deposit: either its coins are there already, or the tokens are fetched. -/
theorem deposit_asset {c : Cfg A} {l l1 l2 l3 : Led A} {funds : List Coin} {x : A} {i : Bool} {d : Nat}
    (hs : x ≠ c.me) (hbank : ∀ d, Verif.move (l.bank d) x c.me (sent funds d) = .ok (l1.bank d))
    (htok : l1.tok = l.tok) (hd : ∀ k, c.infos i = .native k → sent funds k = d)
    (h2 : l2.of (c.infos i) = l1.of (c.infos i)) (h : pull c l2 x i d = .ok l3) :
    Verif.move (l.of (c.infos i)) x c.me d = .ok (l3.of (c.infos i)) ∧
      l1.of (c.infos i) c.me = l.of (c.infos i) c.me + (if isNative (c.infos i) then d else 0) := by
  unfold pull at h
  cases hk : c.infos i with
  | native k =>
    simp only [hk, Except.ok.injEq] at h h2
    subst h
    have hm := hbank k
    rw [hd k hk] at hm
    have e := move_apply hm c.me
    rw [if_neg (Ne.symm hs), if_pos rfl] at e
    exact ⟨by rw [h2]; exact hm, e⟩
  | token t =>
    simp only [hk] at h h2
    have e : l1.of (.token t) = l.of (.token t) := congrFun htok t
    have hw : l2.of (.token t) = l.of (.token t) := by rw [h2, e]
    refine ⟨?_, by rw [e]; rfl⟩
    split_ifs at h with h0
    · simp only [Except.ok.injEq] at h
      subst h
      rw [h0, move_zero, hw]
    · have hm := (transferFrom_moved h).move
      simp only [sendOpt] at hm
      rw [hw] at hm
      exact hm

/-- The queried pools without the attached coins. -/
theorem pool_before {c : Cfg A} {i : Bool} {b b' n p d q : Nat} (hp : withPrec b (c.prec i) = .ok p)
    (hd : withPrec n (c.prec i) = .ok d) (hb : b = b' + if isNative (c.infos i) then n else 0)
    (h : poolBefore c i p d = .ok q) : withPrec b' (c.prec i) = .ok q := by
  rw [Stable.withPrec_ok] at hp hd ⊢
  obtain ⟨h18, hlt, rfl⟩ := hp
  obtain ⟨_, _, rfl⟩ := hd
  unfold poolBefore at h
  split_ifs at h hb with hn
  · rw [csub_ok] at h
    rw [hb, Nat.add_mul] at h hlt
    refine ⟨h18, by omega, ?_⟩
    omega
  · simp only [Except.ok.injEq] at h
    rw [hb, Nat.add_zero] at h hlt
    exact ⟨h18, hlt, h⟩

theorem provide_meaning {c : Cfg A} (hc : c.Ok) {e : Env A} {w w' : Chain A} {l1 : Led A} {funds : List Coin} {x : A}
    {assets : List Asset.Asset} {tol minLp : Option Nat} {r : Option A} {share : Nat} (hs : x ≠ c.me)
    (hf : ValidFunds funds) (ha : attach w.led x c.me funds = .ok l1)
    (h : provideMsg c e { w with led := l1 } funds x assets tol minLp r = .ok (w', share)) :
    PCL.provide (setup c) c.me (view c w) e.now x (fun i => declared assets (c.infos i)) tol minLp (r.getD x) =
      .ok (view c w', share) := by
  obtain ⟨hbank, htok⟩ := attach_spec hs ha
  unfold provideMsg at h
  simp only [bind_ok_iff, require_ok, exists_const, Except.ok.injEq, Prod.mk.injEq] at h
  obtain ⟨total, htot, ps, hps, ⟨as', dd⟩, hget, ⟨⟩, hco, p0, hp0, p1, hp1, ⟨sd, pool⟩, hsh, sh, hto, hmin, tw, htw, l2, h2,
    l3, h3, hnz, sup, hsup, rfl, rfl⟩ := h
  obtain ⟨hdd, hdecl, hall, hin⟩ := getAssets_ok hc hget
  have hsent := Asset.C67_sent_equals_declared_partial funds as' _ hf.1 (by
    intro k hk
    simp only [List.mem_cons, List.not_mem_nil, or_false] at hk
    rcases hk with hk | hk
    · obtain ⟨y, hy, he⟩ := hall false
      exact ⟨y, hy, he.trans hk.symm⟩
    · obtain ⟨y, hy, he⟩ := hall true
      exact ⟨y, hy, he.trans hk.symm⟩) hco
  have hdd' := hdd
  simp only [decPools, bind_ok_iff, Except.ok.injEq, setup] at hdd' hps
  obtain ⟨x0, hx0, x1, hx1, rfl⟩ := hdd'
  obtain ⟨y0, hy0, y1, hy1, rfl⟩ := hps
  simp only [Bool.false_eq_true, if_false, if_true] at hp0 hp1 h2 h3
  replace h2 := pullDec_pull hx0 h2
  replace h3 := pullDec_pull hx1 h3
  obtain ⟨o2, b2⟩ := pull_other h2
  obtain ⟨o3, b3⟩ := pull_other h3
  obtain ⟨m0, q0⟩ := deposit_asset (i := false) (l2 := l1) hs hbank htok
    (fun k hk => by rw [hsent, hdecl, ← hk]) rfl h2
  obtain ⟨m1, q1⟩ := deposit_asset (i := true) (l2 := l2) hs hbank htok
    (fun k hk => by rw [hsent, hdecl, ← hk]) (o2 _ hc.ne.symm) h3
  have w0 := pool_before hy0 hx0 q0 hp0
  have w1 := pool_before hy1 hx1 q1 hp1
  have hlp0 : l1.bank c.lp = w.led.bank c.lp := by
    have := hbank c.lp
    rw [hsent, Asset.declared_of_not_mem, move_zero, Except.ok.injEq] at this
    · exact this.symm
    · intro y hy he
      obtain ⟨i, hi⟩ := hin y hy
      exact hc.lp i (hi.symm.trans he)
  have hlp : l3.bank c.lp = w.led.bank c.lp := by rw [b3, b2]; exact hlp0
  unfold PCL.provide
  simp only [bind_ok_iff, require_ok, exists_const, Except.ok.injEq, Prod.mk.injEq]
  refine ⟨total, htot, _, hdd, fun i => if i then p1 else p0, ?_, (sd, pool), hsh, sh, hto, hmin, hnz, l2.of (c.infos false),
    ?_, l3.of (c.infos true), ?_, sup, hsup, tw, htw, ?_, rfl⟩
  · unfold decPools
    simp only [bind_ok_iff, Except.ok.injEq]
    exact ⟨p0, w0, p1, w1, rfl⟩
  · rw [payout_eq]
    exact m0
  · rw [payout_eq]
    exact m1
  · unfold view
    simp only
    congr 1
    · funext j
      rw [mint_of _ (hc.lp j), mint_of _ (hc.lp j)]
      cases j
      · exact (o3 _ hc.ne).symm
      · rfl
    · simp only [mint, Function.update_self, hlp]

/-- Sent to the pair and burnt there. -/
theorem debit_of_move {l l1 l2 : A → Nat} {a b : A} {n : Nat} (hab : a ≠ b) (h1 : Verif.move l a b n = .ok l1)
    (h2 : debit l1 b n = .ok l2) : debit l a n = .ok l2 := by
  have hle := move_le h1
  rw [debit_ok]
  refine ⟨hle, ?_⟩
  funext z
  have e1 := move_apply h1 z
  have e2 := debit_apply h2 z
  by_cases hz : z = a
  · have hzb : z ≠ b := fun e => hab (hz.symm.trans e)
    rw [if_pos hz, if_neg hzb] at e1
    rw [if_neg hzb] at e2
    rw [e2, e1, hz]
    simp
  · rw [if_neg hz] at e1
    rw [e2, e1]
    by_cases hzb : z = b
    · simp [hzb, Ne.symm hab]
    · simp [hz, hzb]

theorem withdraw_meaning {c : Cfg A} (hc : c.Ok) {e : Env A} {w w' : Chain A} {l1 : Led A} {funds : List Coin} {x : A}
    {assets : List Asset.Asset} {mins : Option (List (Info × Nat))} {rs : Nat × Nat} (hs : x ≠ c.me)
    (ha : attach w.led x c.me funds = .ok l1)
    (h : withdrawMsg c e { w with led := l1 } funds x assets mins = .ok (w', rs)) (mins' : Option (List (Bool × Nat))) :
    PCL.withdraw (setup c) c.me (view c w) e.now x (sent funds c.lp) mins' = .ok (view c w', rs) := by
  obtain ⟨hbank, htok⟩ := attach_spec hs ha
  unfold withdrawMsg at h
  simp only [bind_ok_iff, require_ok, exists_const, Except.ok.injEq, Prod.mk.injEq] at h
  obtain ⟨co, hone, hden, xs, hxs, _, r0, hr0, r1, hr1, y0, hy0, y1, hy1, iy, hiy, ag, hag, d, hd, xcp, hxcp, rest, hrest,
    rd, hrd, real, hreal, a0, ha0, a1, ha1, l2, h2, l3, h3, l4, h4, rfl, rfl⟩ := h
  obtain ⟨rfl, hz⟩ := oneCoin_ok hone
  have hsent : sent [co] c.lp = co.amount := by simp [sent, hden]
  have hof : ∀ i, l1.of (c.infos i) = w.led.of (c.infos i) := by
    intro i
    have hi := hc.lp i
    generalize c.infos i = k at *
    cases k with
    | native k =>
      have hk : co.denom ≠ k := fun e => hi (by rw [← e, hden])
      have := hbank k
      have z : sent [co] k = 0 := by simp [sent, hk]
      rw [z, move_zero, Except.ok.injEq] at this
      exact this.symm
    | token t => exact congrFun htok t
  have m2 := pay_moved h2
  have m3 := pay_moved h3
  have hb3 : l3.bank c.lp = l1.bank c.lp :=
    (m3.other (.native c.lp) (hc.lp _).symm).trans (m2.other (.native c.lp) (hc.lp _).symm)
  have hlp1 := hbank c.lp
  rw [hsent] at hlp1 ⊢
  simp only [hof] at hxs
  have n0 := pay_nonzero h2
  have n1 := pay_nonzero h3
  have hburn := h4
  simp only [burn, bind_ok_iff, Except.ok.injEq] at hburn
  obtain ⟨lp, hlp, hl4⟩ := hburn
  rw [hb3] at hlp
  unfold PCL.withdraw
  simp only [bind_ok_iff, require_ok, exists_const, Except.ok.injEq, Prod.mk.injEq]
  refine ⟨hz, lp, debit_of_move hs hlp1 hlp, xs, hxs, r0, hr0, r1, hr1, y0, hy0, y1, hy1, iy, hiy, ag, hag, d, hd, xcp, hxcp,
    rest, hrest, rd, hrd, real, hreal, a0, ha0, a1, ha1, l2.of (c.infos false), ?_, l3.of (c.infos true), ?_, ?_, rfl, rfl⟩
  · unfold PCL.pay
    simp only [bind_ok_iff, require_ok, exists_const]
    refine ⟨n0, ?_⟩
    have := m2.move
    rw [hof] at this
    exact this
  · unfold PCL.pay
    simp only [bind_ok_iff, require_ok, exists_const]
    refine ⟨n1, ?_⟩
    have := m3.move
    rw [m2.other _ hc.ne.symm, hof] at this
    exact this
  · unfold view
    simp only
    congr 1
    · funext j
      rw [burn_of h4 _ (hc.lp j)]
      cases j
      · exact (m3.other _ hc.ne).symm
      · rfl
    · rw [← hl4]
      simp

/-! ## C164 -/

/-- **C164.**  Whatever accounts send to the pair (any message, any attached coins, cw20 tokens sent by their owners or by
approved spenders), a transaction that succeeds is, for the pair, exactly the deposit, withdrawal, trade, change of
settings or transfers that `meaning` names: nothing is credited that was not paid. -/
theorem C164_messages_are_pair_transactions (c : Cfg A) (hc : c.Ok) (w w' : Chain A) (t : Tx A)
    (h : exec c w t = .ok w') : (meaning c t).foldlM (exec1 c) (view c w) = .ok (view c w') := by
  unfold meaning
  cases t with
  | call e x funds m =>
    simp only [exec, bind_ok_iff, require_ok, exists_const] at h
    obtain ⟨⟨hs, ht0, ht1⟩, hf, l1, ha, h⟩ := h
    cases m with
    | receive u n b m r =>
      simp only [execute, bind_ok_iff, require_ok, exists_const] at h
      exact absurd h.1 (by simp [ht0, ht1])
    | provide assets tol minLp r =>
      simp only [execute, bind_ok_iff, Except.ok.injEq] at h
      obtain ⟨⟨w2, sh⟩, h, rfl⟩ := h
      simp only [ops, Tx.env, List.map_cons, List.map_nil, List.foldlM_cons, List.foldlM_nil, bind_ok_iff, pure_eq_ok,
        Except.ok.injEq, exists_eq_right]
      unfold exec1 PCL.exec
      simp only [bind_ok_iff, Except.ok.injEq]
      exact ⟨(), (require_ok _ _ _).2 hs, (_, sh), provide_meaning hc hs hf ha h, rfl⟩
    | swap offer b m r =>
      simp only [execute, bind_ok_iff, require_ok, exists_const, Except.ok.injEq] at h
      obtain ⟨_, _, hn, ⟨⟩, hsent, _, ⟨w2, out⟩, h, rfl⟩ := h
      have hm : Ledgers.Moved w.led offer.info x (some c.me) offer.amount l1 := by
        obtain ⟨k, n⟩ := offer
        cases k with
        | token t => simp [isNative] at hn
        | native d =>
          obtain ⟨rfl, _⟩ := (Asset.C67_single_coin d n funds).1 hsent
          simp only [attach, bind_ok_iff, Except.ok.injEq, exists_eq_right] at ha
          exact move_moved ha
      obtain ⟨i, hi, hsw⟩ := swap_meaning hc hs hm h
      simp only [ops, Tx.env, hi, List.map_cons, List.map_nil, List.foldlM_cons, List.foldlM_nil, bind_ok_iff, pure_eq_ok,
        Except.ok.injEq, exists_eq_right]
      unfold exec1 PCL.exec
      simp only [bind_ok_iff, Except.ok.injEq]
      exact ⟨(), (require_ok _ _ _).2 hs, (_, out), hsw, rfl⟩
    | withdraw assets mins =>
      simp only [execute, bind_ok_iff, Except.ok.injEq] at h
      obtain ⟨⟨w2, rs⟩, h, rfl⟩ := h
      simp only [ops, Tx.env, List.map_cons, List.map_nil, List.foldlM_cons, List.foldlM_nil, bind_ok_iff, pure_eq_ok,
        Except.ok.injEq, exists_eq_right]
      unfold exec1 PCL.exec
      simp only [bind_ok_iff, Except.ok.injEq]
      exact ⟨(), (require_ok _ _ _).2 hs, (_, rs), withdraw_meaning hc hs ha h _, rfl⟩
    | updateConfig u =>
      simp only [execute, updateConfig, bind_ok_iff, require_ok, exists_const] at h
      obtain ⟨hau, h⟩ := h
      simp only [ops, Tx.env, List.map_append, List.map_cons, List.map_nil]
      refine foldlM_append_ok (attach_meaning hc e hs ha) ?_
      simp only [List.foldlM_cons, List.foldlM_nil, bind_ok_iff, pure_eq_ok, Except.ok.injEq, exists_eq_right]
      have hau' : authorised (view c { w with led := l1 }) e.owner x = .ok () := (require_ok _ _ _).2 hau
      unfold exec1 PCL.exec
      cases u with
      | update v =>
        simp only [bind_ok_iff, Except.ok.injEq] at h
        obtain ⟨p, hx, rfl⟩ := h
        simp only [Update.op, bind_ok_iff, Except.ok.injEq]
        exact ⟨(), (require_ok _ _ _).2 hs, (), hau', p, hx, rfl⟩
      | promote a g t =>
        simp only [bind_ok_iff, Except.ok.injEq] at h
        obtain ⟨p, hx, rfl⟩ := h
        simp only [Update.op, bind_ok_iff, Except.ok.injEq]
        exact ⟨(), (require_ok _ _ _).2 hs, (), hau', p, hx, rfl⟩
      | stop =>
        simp only [bind_ok_iff, Except.ok.injEq] at h
        obtain ⟨p, hx, rfl⟩ := h
        simp only [Update.op, bind_ok_iff, Except.ok.injEq]
        exact ⟨(), (require_ok _ _ _).2 hs, (), hau', p, hx, rfl⟩
      | enableShare b r =>
        simp only [bind_ok_iff, require_ok, exists_const, Except.ok.injEq] at h
        obtain ⟨hx, rfl⟩ := h
        simp only [Update.op, bind_ok_iff, Except.ok.injEq]
        exact ⟨(), (require_ok _ _ _).2 hs, (), hau', (), (require_ok _ _ _).2 hx, rfl⟩
      | disableShare =>
        simp only [Except.ok.injEq] at h
        subst h
        simp only [Update.op, bind_ok_iff, Except.ok.injEq]
        exact ⟨(), (require_ok _ _ _).2 hs, (), hau', rfl⟩
  | send e token owner spender n b m r =>
    simp only [exec, execute, bind_ok_iff, require_ok, exists_const, Except.ok.injEq] at h
    obtain ⟨⟨hs, _⟩, l1, hin, _, ⟨w2, out⟩, h, rfl⟩ := h
    have hm : Ledgers.Moved w.led (.token (c.addr token)) owner (some c.me) n l1 := by
      split_ifs at hin with ho
      · exact move_moved hin
      · exact transferFrom_moved hin
    obtain ⟨i, hi, hsw⟩ := swap_meaning (offer := ⟨.token (c.addr token), n⟩) hc hs hm h
    simp only at hi hsw
    simp only [ops, Tx.env, hi, List.map_cons, List.map_nil, List.foldlM_cons, List.foldlM_nil, bind_ok_iff, pure_eq_ok,
      Except.ok.injEq, exists_eq_right]
    unfold exec1 PCL.exec
    simp only [bind_ok_iff, Except.ok.injEq]
    exact ⟨(), (require_ok _ _ _).2 hs, (_, out), hsw, rfl⟩
  | transfer e k src dst n =>
    simp only [exec, bind_ok_iff, require_ok, exists_const, Except.ok.injEq] at h
    obtain ⟨hs, l, h, rfl⟩ := h
    exact transfer_meaning hc e hs (move_moved h)
  | transferFrom e token owner spender dst n =>
    simp only [exec, bind_ok_iff, require_ok, exists_const, Except.ok.injEq] at h
    obtain ⟨⟨hs, _⟩, l, h, rfl⟩ := h
    exact transfer_meaning hc e hs (transferFrom_moved h)
  | approve e token owner spender n =>
    simp only [exec, bind_ok_iff, require_ok, exists_const, Except.ok.injEq] at h
    obtain ⟨_, rfl⟩ := h
    simp only [ops, List.map_nil, List.foldlM_nil, pure_eq_ok, Except.ok.injEq]
    refine (view_ext (fun i => ?_) rfl rfl rfl rfl rfl rfl rfl).symm
    cases c.infos i <;> rfl

theorem run_foldlM {c : Cfg A} : ∀ {es : List (Event A)} {s s' : State A}, es.foldlM (exec1 c) s = .ok s' →
    PCL.run (setup c) c.me s es = s'
  | [], s, s', h => by
    simp only [List.foldlM_nil, pure_eq_ok, Except.ok.injEq] at h
    exact h
  | o :: os, s, s', h => by
    simp only [List.foldlM_cons, bind_ok_iff] at h
    obtain ⟨s1, h1, h2⟩ := h
    show PCL.run (setup c) c.me (PCL.step (setup c) c.me s o) os = s'
    have : PCL.step (setup c) c.me s o = s1 := by
      unfold PCL.step
      unfold exec1 at h1
      rw [h1]
      rfl
    rw [this]
    exact run_foldlM h2

/-- Block times do not decrease, starting from `t0`. -/
def TimedTx (t0 : Nat) : List (Tx A) → Prop
  | [] => True
  | t :: ts => t0 ≤ t.env.now ∧ TimedTx t.env.now ts

theorem timed_mono {t t' : Nat} (h : t ≤ t') : ∀ {es : List (Event A)}, Timed t' es → Timed t es
  | [], _ => trivial
  | _ :: _, he => ⟨Nat.le_trans h he.1, he.2⟩

theorem timed_append {t n : Nat} (h : t ≤ n) {es : List (Event A)} (he : Timed n es) :
    ∀ {xs : List (Event A)}, (∀ x ∈ xs, x.now = n) → Timed t (xs ++ es)
  | [], _ => timed_mono h he
  | x :: xs, hx => by
    have e := hx x (by simp)
    refine ⟨by rw [e]; exact h, ?_⟩
    rw [e]
    exact timed_append (Nat.le_refl n) he fun y hy => hx y (by simp [hy])

/-- **C164.**  Every history of messages is, for the pair, a history of its own transactions, in the same order of block
times: what the other theorems say about the pair's transactions holds on the chain. -/
theorem C164_histories_are_pair_histories (c : Cfg A) (hc : c.Ok) (w : Chain A) (ts : List (Tx A)) (t0 : Nat)
    (ht : TimedTx t0 ts) : ∃ es, view c (run c w ts) = PCL.run (setup c) c.me (view c w) es ∧ Timed t0 es := by
  induction ts generalizing w t0 with
  | nil => exact ⟨[], rfl, trivial⟩
  | cons t ts ih =>
    show ∃ es, view c (run c (step c w t) ts) = _ ∧ _
    obtain ⟨es, ho, hes⟩ := ih (step c w t) t.env.now ht.2
    cases hx : exec c w t with
    | error e =>
      have : step c w t = w := by unfold step; rw [hx]; rfl
      rw [this] at ho ⊢
      exact ⟨es, ho, timed_mono ht.1 hes⟩
    | ok w' =>
      have : step c w t = w' := by unfold step; rw [hx]; rfl
      rw [this] at ho ⊢
      refine ⟨meaning c t ++ es, ?_, timed_append ht.1 hes ?_⟩
      · rw [ho, ← run_foldlM (C164_messages_are_pair_transactions c hc w w' t hx)]
        exact List.foldl_append.symm
      · intro x hx
        unfold meaning at hx
        obtain ⟨o, _, rfl⟩ := List.mem_map.1 hx
        rfl

/-- **C164.**  Nobody but the pool's own token contracts can announce tokens to the pair: such a message from any other
account is refused, whatever it claims and whatever coins come with it. -/
theorem C164_spoofed_tokens_refused (c : Cfg A) (e : Env A) (w : Chain A) (x : A) (funds : List Coin) (u : A) (n : Nat)
    (b m : Option Nat) (r : Option A) (hx : ∀ i, c.infos i ≠ .token (c.addr x)) :
    execute c e w x funds (.receive u n b m r) = .error .unauthorized := by
  simp [execute, require, hx false, hx true]

theorem swap_paid {c : Cfg A} {w w' : Chain A} {u : A} {i : Bool} {n : Nat} {b m : Option Nat} {r : A} {f : FeeInfo A} {ev : Event A}
    (hev : ev.op = .swap u i n b m r f) (hm : [ev].foldlM (exec1 c) (view c w) = .ok (view c w')) :
    w'.led.of (c.infos i) c.me = w.led.of (c.infos i) c.me + n ∧ n ≤ w.led.of (c.infos i) u := by
  simp only [List.foldlM_cons, List.foldlM_nil, bind_ok_iff, pure_eq_ok, Except.ok.injEq, exists_eq_right] at hm
  unfold exec1 PCL.exec at hm
  rw [hev] at hm
  simp only [bind_ok_iff, Except.ok.injEq] at hm
  obtain ⟨_, hs, ⟨v, o⟩, hv, hvv⟩ := hm
  have hs : u ≠ c.me := (require_ok _ _ _).1 hs
  simp only at hvv
  subst hvv
  obtain ⟨_, _, _, _, _, _, sp⟩ := swap_spec hs hv
  have hbo := sp.hbo
  have := move_apply hbo c.me
  rw [if_neg (Ne.symm hs), if_pos rfl] at this
  exact ⟨this, move_le hbo⟩

/-- **C164.**  What is traded has been paid: after a trade with coins the pair holds exactly the offered amount more of
the offered coin, and the trader had it. -/
theorem C164_offer_was_paid (c : Cfg A) (hc : c.Ok) (w w' : Chain A) (e : Env A) (x : A) (funds : List Coin)
    (offer : Asset.Asset) (b m : Option Nat) (r : Option A)
    (h : exec c w (.call e x funds (.swap offer b m r)) = .ok w') :
    w'.led.of offer.info c.me = w.led.of offer.info c.me + offer.amount ∧ offer.amount ≤ w.led.of offer.info x ∧
      ∃ d, offer.info = .native d ∧ funds = [⟨d, offer.amount⟩] := by
  have hm := C164_messages_are_pair_transactions c hc w w' _ h
  simp only [exec, execute, bind_ok_iff, require_ok, exists_const, Except.ok.injEq] at h
  obtain ⟨⟨hs, _⟩, _, l1, _, _, _, hn, ⟨⟩, hsent, _, ⟨w2, out⟩, h, rfl⟩ := h
  have hl : ∃ i, label c offer.info = some i := by
    unfold swapMsg at h
    simp only [bind_ok_iff, orErr_ok] at h
    obtain ⟨i, hi, _⟩ := h
    exact ⟨i, hi⟩
  obtain ⟨i, hi⟩ := hl
  simp only [meaning, ops, hi, List.map_cons, List.map_nil] at hm
  obtain ⟨h1, h2⟩ := swap_paid rfl hm
  have hk := label_some hi
  refine ⟨by rw [hk]; exact h1, by rw [hk]; exact h2, ?_⟩
  obtain ⟨k, n⟩ := offer
  cases k with
  | token t => simp [isNative] at hn
  | native d => exact ⟨d, rfl, ((Asset.C67_single_coin d n funds).1 hsent).1⟩

/-- **C164.**  Tokens traded by sending them: likewise, and they come from their owner, who sent them or approved the
sender for at least that amount. -/
theorem C164_tokens_were_paid (c : Cfg A) (hc : c.Ok) (w w' : Chain A) (e : Env A) (t owner spender : A) (n : Nat)
    (b m : Option Nat) (r : Option A) (h : exec c w (.send e t owner spender n b m r) = .ok w') :
    w'.led.tok (c.addr t) c.me = w.led.tok (c.addr t) c.me + n ∧ n ≤ w.led.tok (c.addr t) owner ∧
      (∃ i, c.infos i = .token (c.addr t)) ∧
      w'.led.allow (c.addr t) owner spender + (if owner = spender then 0 else n) = w.led.allow (c.addr t) owner spender := by
  have hm := C164_messages_are_pair_transactions c hc w w' _ h
  simp only [exec, execute, bind_ok_iff, require_ok, exists_const, Except.ok.injEq] at h
  obtain ⟨⟨hs, _⟩, l1, hin, hau, ⟨w2, out⟩, h, rfl⟩ := h
  have hal : w2.led.allow = l1.allow := by
    unfold swapMsg at h
    simp only [bind_ok_iff, Except.ok.injEq, Prod.mk.injEq] at h
    obtain ⟨i, hi, off, hoff, ps, hps, rest, hrest, ⟨⟩, hbs, old, hold, fs, hfs, r, hr, o, ho, pool, hpool, ret, hret, sp,
      hsp, ⟨⟩, hms, sa, hsa, ma, hma, tw, htw, cm, hcm, l2, g2, l3, g3, l4, g4, rfl, rfl⟩ := h
    exact (payNonzero_keeps g4).trans ((payNonzero_keeps g3).trans (pay_keeps g2))
  obtain ⟨i, hk⟩ : ∃ i, c.infos i = .token (c.addr t) := by
    rcases hau with h | h
    · exact ⟨false, h⟩
    · exact ⟨true, h⟩
  have hi : label c (.token (c.addr t)) = some i := by rw [← hk]; exact label_infos hc i
  simp only [meaning, ops, hi, List.map_cons, List.map_nil] at hm
  obtain ⟨h1, h2⟩ := swap_paid rfl hm
  rw [hk] at h1 h2
  refine ⟨h1, h2, ⟨i, hk⟩, ?_⟩
  rw [hal]
  split_ifs at hin ⊢ with ho
  · rw [move_keeps hin, Nat.add_zero]
  · exact (transferFrom_allow hin).2

/-! ### Whose funds are spent -/

/-- The account that pays: the sender of a message, the owner of the tokens. -/
def Tx.payer : Tx A → A
  | .call _ x _ _ | .send _ _ x _ _ _ _ _ | .transfer _ _ x _ _ | .transferFrom _ _ x _ _ _ | .approve _ _ x _ _ => x

theorem pullDec_mono {c : Cfg A} {l l' : Led A} {x a : A} {i : Bool} {d : Nat} (h : pullDec c l x i d = .ok l')
    (ha : a ≠ x) (j : Info) : l.of j a ≤ l'.of j a := by
  unfold pullDec at h
  split at h
  · simp only [Except.ok.injEq] at h
    rw [h]
  · split_ifs at h
    · simp only [Except.ok.injEq] at h
      rw [h]
    · simp only [bind_ok_iff] at h
      obtain ⟨n, _, h⟩ := h
      exact (transferFrom_moved h).mono ha j

theorem swap_mono {c : Cfg A} {e : Env A} {w w' : Chain A} {sender a : A} {offer : Asset.Asset}
    {belief maxSpread : Option Nat} {dest : Option A} {out : SwapOut} (ha : a ≠ c.me)
    (h : swapMsg c e w sender offer belief maxSpread dest = .ok (w', out)) (j : Info) :
    w.led.of j a ≤ w'.led.of j a := by
  unfold swapMsg at h
  simp only [bind_ok_iff, Except.ok.injEq, Prod.mk.injEq] at h
  obtain ⟨i, hi, off, hoff, ps, hps, rest, hrest, ⟨⟩, hbs, old, hold, fs, hfs, r, hr, o, ho, pool, hpool, ret, hret, sp,
    hsp, ⟨⟩, hms, sa, hsa, ma, hma, tw, htw, cm, hcm, l2, g2, l3, g3, l4, g4, rfl, rfl⟩ := h
  exact Nat.le_trans (Nat.le_trans ((pay_moved g2).mono ha _) ((payNonzero_moved g3).mono ha _))
    ((payNonzero_moved g4).mono ha _)

theorem execute_mono {c : Cfg A} {e : Env A} {w w' : Chain A} {x a : A} {funds : List Coin} {m : Msg A} (ha : a ≠ c.me)
    (hx : a ≠ x) (h : execute c e w x funds m = .ok w') (j : Info) : w.led.of j a ≤ w'.led.of j a := by
  cases m with
  | receive u n b m r =>
    simp only [execute, bind_ok_iff, Except.ok.injEq] at h
    obtain ⟨_, _, ⟨w2, out⟩, h, rfl⟩ := h
    exact swap_mono ha h j
  | swap offer b m r =>
    simp only [execute, bind_ok_iff, Except.ok.injEq] at h
    obtain ⟨_, _, _, _, _, _, _, _, ⟨w2, out⟩, h, rfl⟩ := h
    exact swap_mono ha h j
  | provide assets tol minLp r =>
    simp only [execute, bind_ok_iff, Except.ok.injEq] at h
    obtain ⟨⟨w2, sh⟩, h, rfl⟩ := h
    unfold provideMsg at h
    simp only [bind_ok_iff, require_ok, exists_const, Except.ok.injEq, Prod.mk.injEq] at h
    obtain ⟨total, htot, ps, hps, ⟨as', dd⟩, hget, ⟨⟩, hco, p0, hp0, p1, hp1, ⟨sd, pool⟩, hsh, sh, hto, hmin, tw, htw, l2,
      h2, l3, h3, hnz, sup, hsup, rfl, rfl⟩ := h
    exact Nat.le_trans (Nat.le_trans (pullDec_mono h2 hx j) (pullDec_mono h3 hx j))
      (Nat.le_trans (mint_mono j a) (mint_mono j a))
  | withdraw assets mins =>
    simp only [execute, bind_ok_iff, Except.ok.injEq] at h
    obtain ⟨⟨w2, rs⟩, h, rfl⟩ := h
    unfold withdrawMsg at h
    simp only [bind_ok_iff, require_ok, exists_const, Except.ok.injEq, Prod.mk.injEq] at h
    obtain ⟨co, hone, hden, xs, hxs, _, r0, hr0, r1, hr1, y0, hy0, y1, hy1, iy, hiy, ag, hag, d, hd, xcp, hxcp, rest, hrest,
      rd, hrd, real, hreal, a0, ha0, a1, ha1, l2, h2, l3, h3, l4, h4, rfl, rfl⟩ := h
    exact Nat.le_trans (Nat.le_trans ((pay_moved h2).mono ha j) ((pay_moved h3).mono ha j)) (burn_mono h4 j ha)
  | updateConfig u =>
    simp only [execute, updateConfig, bind_ok_iff, require_ok, exists_const] at h
    refine Nat.le_of_eq ?_
    cases u <;> simp only [bind_ok_iff, require_ok, exists_const, Except.ok.injEq] at h
    · obtain ⟨_, a, _, rfl⟩ := h
      rfl
    · obtain ⟨_, a, _, rfl⟩ := h
      rfl
    · obtain ⟨_, a, _, rfl⟩ := h
      rfl
    · obtain ⟨_, _, rfl⟩ := h
      rfl
    · obtain ⟨_, rfl⟩ := h
      rfl

/-- **C164.**  No message makes anybody's balance of anything (coins, tokens, LP tokens) smaller but the sender's own, or
the balance of the token owner who approved the transfer. -/
theorem C164_only_the_payer_pays (c : Cfg A) (w w' : Chain A) (t : Tx A) (h : exec c w t = .ok w') (a : A)
    (ha : a ≠ c.me) (k : Info) (hlt : w'.led.of k a < w.led.of k a) : a = t.payer := by
  by_contra hp
  refine absurd hlt (Nat.not_lt.2 ?_)
  cases t with
  | call e x funds m =>
    simp only [exec, bind_ok_iff, require_ok, exists_const] at h
    obtain ⟨_, _, l1, h1, h2⟩ := h
    exact Nat.le_trans (attach_mono h1 hp k) (execute_mono ha hp h2 k)
  | send e token owner spender n b m r =>
    simp only [exec, execute, bind_ok_iff, require_ok, exists_const, Except.ok.injEq] at h
    obtain ⟨_, l1, hin, _, ⟨w2, out⟩, h, rfl⟩ := h
    refine Nat.le_trans ?_ (swap_mono ha h k)
    split_ifs at hin with ho
    · exact (move_moved hin).mono hp k
    · exact (transferFrom_moved hin).mono hp k
  | transfer e j src dst n =>
    simp only [exec, bind_ok_iff, require_ok, exists_const, Except.ok.injEq] at h
    obtain ⟨_, l, h, rfl⟩ := h
    exact (move_moved h).mono hp k
  | transferFrom e token owner spender dst n =>
    simp only [exec, bind_ok_iff, require_ok, exists_const, Except.ok.injEq] at h
    obtain ⟨_, l, h, rfl⟩ := h
    exact (transferFrom_moved h).mono hp k
  | approve e token owner spender n =>
    simp only [exec, bind_ok_iff, require_ok, exists_const, Except.ok.injEq] at h
    obtain ⟨_, rfl⟩ := h
    refine Nat.le_of_eq ?_
    cases k <;> rfl

/-- **C164.**  Tokens are fetched for a deposit within what the depositor approved for the pair, and the approval is used
up by exactly that. -/
theorem C164_deposit_within_allowance (c : Cfg A) (hc : c.Ok) (w w' : Chain A) (e : Env A) (x : A) (funds : List Coin)
    (assets : List Asset.Asset) (tol minLp : Option Nat) (r : Option A)
    (h : exec c w (.call e x funds (.provide assets tol minLp r)) = .ok w') (i : Bool) (t : Str)
    (hi : c.infos i = .token t) :
    w'.led.allow t x c.me + declared assets (.token t) = w.led.allow t x c.me := by
  simp only [exec, execute, bind_ok_iff, require_ok, exists_const, Except.ok.injEq] at h
  obtain ⟨_, _, l1, h1, ⟨w2, sh⟩, h, rfl⟩ := h
  unfold provideMsg at h
  simp only [bind_ok_iff, require_ok, exists_const, Except.ok.injEq, Prod.mk.injEq] at h
  obtain ⟨total, htot, ps, hps, ⟨as', dd⟩, hget, ⟨⟩, hco, p0, hp0, p1, hp1, ⟨sd, pool⟩, hsh, sh, hto, hmin, tw, htw, l2,
      h2, l3, h3, hnz, sup, hsup, rfl, rfl⟩ := h
  obtain ⟨hdd, _⟩ := getAssets_ok hc hget
  simp only [decPools, bind_ok_iff, Except.ok.injEq, setup] at hdd
  obtain ⟨x0, hx0, x1, hx1, rfl⟩ := hdd
  simp only [Bool.false_eq_true, if_false, if_true] at h2 h3
  replace h2 := pullDec_pull hx0 h2
  replace h3 := pullDec_pull hx1 h3
  have ha := attach_keeps h1
  have hpull : ∀ {v v' : Led A} {j : Bool} {d : Nat}, pull c v x j d = .ok v' →
      if c.infos j = .token t then v'.allow t x c.me + d = v.allow t x c.me else v'.allow t x c.me = v.allow t x c.me := by
    intro v v' j d hv
    unfold pull at hv
    split at hv
    · rename_i k hk
      simp only [Except.ok.injEq] at hv
      rw [if_neg (by rw [hk]; simp), hv]
    · rename_i t' hk
      split_ifs at hv with h0
      · simp only [Except.ok.injEq] at hv
        rw [hv, h0]
        split_ifs <;> rfl
      · obtain ⟨q1, q2⟩ := transferFrom_allow hv
        by_cases ht : t' = t
        · subst ht
          rw [if_pos hk]
          exact q2
        · rw [if_neg (by rw [hk]; simpa using ht)]
          exact q1 _ _ _ fun hh => ht hh.1.symm
  have a2 := hpull h2
  have a3 := hpull h3
  rw [← ha]
  show l3.allow t x c.me + _ = _
  cases i
  · rw [if_pos hi] at a2
    rw [if_neg (fun e => hc.ne (hi.trans e.symm))] at a3
    rw [a3, ← hi]
    exact a2
  · rw [if_pos hi] at a3
    rw [if_neg (fun e => hc.ne (e.trans hi.symm))] at a2
    rw [← a2, ← hi]
    exact a3

/-- The transactions that change settings. -/
def admin : Op A → Prop
  | .update .. | .promote .. | .stop .. | .enableShare .. | .disableShare .. => True
  | _ => False

theorem fold_settings {c : Cfg A} : ∀ {es : List (Event A)} {s s' : State A}, es.foldlM (exec1 c) s = .ok s' →
    s'.owner = s.owner ∧ ((∀ e ∈ es, ¬ admin e.op) → s'.params = s.params ∧ s'.pool.ramp = s.pool.ramp ∧ s'.share = s.share)
  | [], s, s', h => by
    simp only [List.foldlM_nil, pure_eq_ok, Except.ok.injEq] at h
    rw [h]
    exact ⟨rfl, fun _ => ⟨rfl, rfl, rfl⟩⟩
  | o :: os, s, s', h => by
    simp only [List.foldlM_cons, bind_ok_iff] at h
    obtain ⟨s1, h1, h2⟩ := h
    unfold exec1 at h1
    obtain ⟨i1, i2⟩ := fold_settings h2
    obtain ⟨e1, e2⟩ := exec_share h1
    refine ⟨i1.trans e1, fun hn => ?_⟩
    obtain ⟨j1, j2, j3⟩ := i2 fun e he => hn e (by simp [he])
    have hno := hn o (by simp)
    rw [j1, j2, j3]
    have hsh : s1.share = s.share := by
      rcases e2 with e2 | ⟨_, _, _, e2, _⟩ | ⟨_, e2, _⟩
      · exact e2
      · exact absurd (by rw [e2]; trivial) hno
      · exact absurd (by rw [e2]; trivial) hno
    rcases exec_cases h1 with ⟨q1, q2⟩ | ⟨_, _, q, _⟩ | ⟨_, _, _, _, q, _⟩ | ⟨_, q, _⟩
    · exact ⟨q1, q2, hsh⟩
    · exact absurd (by rw [q]; trivial) hno
    · exact absurd (by rw [q]; trivial) hno
    · exact absurd (by rw [q]; trivial) hno

theorem transferOps_plain {c : Cfg A} {k : Info} {src dst : A} {n : Nat} : ∀ o ∈ transferOps c k src dst n, ¬ admin o := by
  intro o ho
  unfold transferOps at ho
  split at ho
  · simp only [List.mem_singleton] at ho
    rw [ho]
    exact id
  · split_ifs at ho
    · simp only [List.mem_singleton] at ho
      rw [ho]
      exact id
    · simp at ho

/-- **C164.**  The parameters, the ramp of amp and gamma and the shared fee change only by a message of the pair's owner (the
factory's owner as long as the pair has none of its own), and no message changes the owner, the handover aside. -/
theorem C164_settings_by_owner (c : Cfg A) (hc : c.Ok) (w w' : Chain A) (t : Tx A) (h : exec c w t = .ok w') :
    w'.owner = w.owner ∧ ((w'.params ≠ w.params ∨ w'.pool.ramp ≠ w.pool.ramp ∨ w'.share ≠ w.share) →
      ∃ e funds u, t = .call e (w.owner.getD e.owner) funds (.updateConfig u)) := by
  have hm := C164_messages_are_pair_transactions c hc w w' t h
  obtain ⟨h1, h2⟩ := fold_settings hm
  refine ⟨h1, fun hne => ?_⟩
  have hplain : ¬ ∀ e ∈ meaning c t, ¬ admin e.op := by
    intro hn
    obtain ⟨q1, q2, q3⟩ := h2 hn
    rcases hne with hne | hne | hne
    · exact hne q1
    · exact hne q2
    · exact hne q3
  have hp : (∀ o ∈ ops c t, ¬ admin o) → False := by
    intro ho
    refine hplain fun e he => ?_
    unfold meaning at he
    obtain ⟨o, ho', rfl⟩ := List.mem_map.1 he
    exact ho o ho'
  cases t with
  | call e x funds m =>
    cases m with
    | updateConfig u =>
      simp only [exec, execute, updateConfig, bind_ok_iff, require_ok, exists_const] at h
      obtain ⟨_, _, _, _, hx, _⟩ := h
      exact ⟨e, funds, u, by rw [hx]⟩
    | receive u n b m r => exact (hp (by simp [ops])).elim
    | provide assets tol minLp r => exact (hp (by simp [ops, admin])).elim
    | withdraw assets mins => exact (hp (by simp [ops, admin])).elim
    | swap offer b m r =>
      refine (hp ?_).elim
      simp only [ops]
      split <;> simp [admin]
  | send e token owner spender n b m r =>
    refine (hp ?_).elim
    simp only [ops]
    split <;> simp [admin]
  | transfer e k src dst n => exact (hp transferOps_plain).elim
  | transferFrom e token owner spender dst n => exact (hp transferOps_plain).elim
  | approve e token owner spender n => exact (hp (by simp [ops])).elim

/-- **C164.**  A deposit that names only one asset moves nothing of the other: its tokens are not fetched, and its coins not
accepted. -/
theorem C164_single_sided_deposit (c : Cfg A) (hc : c.Ok) (w w' : Chain A) (e : Env A) (x : A) (funds : List Coin)
    (a : Asset.Asset) (tol minLp : Option Nat) (r : Option A)
    (h : exec c w (.call e x funds (.provide [a] tol minLp r)) = .ok w') (i : Bool) (hi : c.infos i ≠ a.info) :
    w'.led.of (c.infos i) = w.led.of (c.infos i) := by
  have hm := C164_messages_are_pair_transactions c hc w w' _ h
  simp only [meaning, ops, List.map_cons, List.map_nil, List.foldlM_cons, List.foldlM_nil, bind_ok_iff, pure_eq_ok,
    Except.ok.injEq, exists_eq_right] at hm
  unfold exec1 PCL.exec at hm
  simp only [bind_ok_iff, Except.ok.injEq] at hm
  obtain ⟨_, _, ⟨v, o⟩, hv, hvv⟩ := hm
  simp only at hvv
  subst hvv
  obtain ⟨_, _, _, _, sp⟩ := provide_spec hv
  have := sp.hbal i
  rw [Asset.declared_of_not_mem (by
    intro y hy
    simp only [List.mem_singleton] at hy
    rw [hy]
    exact Ne.symm hi), move_zero, Except.ok.injEq] at this
  exact this.symm

/-! ### Claims -/

theorem claim_le {x n t r s p b : Nat} (hp : s = 10 ^ (18 - p)) (hx : x = b * s) (h : PCL.shareInAsset x n t = .ok r) (ht : t ≠ 0)
    {a : Nat} (ha : r / s = a) : a * t ≤ b * n := by
  have hr := shareInAsset_ok h ht
  have hs : 0 < s := by rw [hp]; exact Nat.pow_pos (by decide)
  have h1 : a * s ≤ r := by rw [← ha]; exact Nat.div_mul_le_self _ _
  have h2 : r * DEC ≤ x * (n * DEC / t) := by rw [hr]; exact Nat.div_mul_le_self _ _
  have h3 : n * DEC / t * t ≤ n * DEC := Nat.div_mul_le_self _ _
  have h4 : a * t * (s * DEC) ≤ b * n * (s * DEC) := by
    calc a * t * (s * DEC) = (a * s) * DEC * t := by ring
      _ ≤ r * DEC * t := Nat.mul_le_mul_right _ (Nat.mul_le_mul_right _ h1)
      _ ≤ x * (n * DEC / t) * t := Nat.mul_le_mul_right _ h2
      _ = x * (n * DEC / t * t) := by ring
      _ ≤ x * (n * DEC) := Nat.mul_le_mul_left _ h3
      _ = b * n * (s * DEC) := by rw [hx]; ring
  exact Nat.le_of_mul_le_mul_right h4 (Nat.mul_pos hs DEC_pos)

/-- What all LP holders together are told they can redeem is there, when no more LP tokens exist than were issued. -/
theorem claims_covered [Fintype A] (su : Setup) (me : A) (s : State A) (hs : s.supply = ∑ a, s.lp a) (q : Bool → A → Nat)
    (hq : ∀ a, queryShare su me s (s.lp a) = .ok (q false a, q true a)) (i : Bool) : ∑ a, q i a ≤ s.bal i me := by
  rcases Nat.eq_zero_or_pos s.supply with hz | hpos
  · have h0 : ∀ a, q i a = 0 := by
      intro a
      have h := hq a
      unfold queryShare PCL.shareInAsset at h
      simp only [hz, ne_eq, not_true, if_false, bind_ok_iff, Except.ok.injEq, Prod.mk.injEq, Stable.dmul_ok,
        Stable.toU128_ok] at h
      obtain ⟨xs, _, r0, ⟨_, rfl, _, e0⟩, r1, ⟨_, rfl, _, e1⟩, a0, ⟨_, _, f0⟩, a1, ⟨_, _, f1⟩, g0, g1⟩ := h
      cases i
      · rw [← g0, ← f0, ← e0]
        simp
      · rw [← g1, ← f1, ← e1]
        simp
    simp [h0]
  · have hle : ∀ a, q i a * s.supply ≤ s.bal i me * s.lp a := by
      intro a
      have h := hq a
      unfold queryShare at h
      simp only [bind_ok_iff, Except.ok.injEq, Prod.mk.injEq, Stable.toU128_ok, decPools, Stable.withPrec_ok] at h
      obtain ⟨xs, ⟨x0, ⟨_, _, e0⟩, x1, ⟨_, _, e1⟩, rfl⟩, r0, hr0, r1, hr1, a0, ⟨_, _, f0⟩, a1, ⟨_, _, f1⟩, g0, g1⟩ := h
      refine Nat.le_trans ?_ (Nat.mul_le_mul_left _ (Nat.sub_le (s.lp a) 1))
      cases i
      · exact claim_le rfl e0.symm hr0 (by omega) (f0.trans g0)
      · exact claim_le rfl e1.symm hr1 (by omega) (f1.trans g1)
    have hsum : (∑ a, q i a) * s.supply ≤ s.bal i me * s.supply := by
      rw [Finset.sum_mul]
      calc ∑ a, q i a * s.supply ≤ ∑ a, s.bal i me * s.lp a := Finset.sum_le_sum fun a _ => hle a
        _ = s.bal i me * s.supply := by rw [← Finset.mul_sum, ← hs]
    exact Nat.le_of_mul_le_mul_right hsum hpos

/-- The chain when a pair has just been created: no LP token exists yet (`instantiate`, contracts/pair_concentrated/src/contract.rs:
63-172). -/
structure Fresh (c : Cfg A) (w : Chain A) (u : PParams) (amp gamma scale now : Nat) : Prop where
  lp : ∀ a, w.led.bank c.lp a = 0
  supply : w.supply = 0
  created : create (fun i => w.led.of (c.infos i)) u amp gamma scale now = .ok (view c w)

/-- **C164.**  On the chain: from the creation of the pair on, after any messages, what all LP holders together can redeem
is in the pair, and once there are LP tokens the first 1000 stay locked in it. -/
theorem C164_claims_covered_on_chain [Fintype A] (c : Cfg A) (hc : c.Ok) (w : Chain A) (u : PParams) (amp gamma scale t : Nat)
    (hw : Fresh c w u amp gamma scale t) (ts : List (Tx A)) (t0 : Nat) (ht : TimedTx t0 ts) :
    let w' := run c w ts
    w'.supply = ∑ a, w'.led.bank c.lp a ∧ (0 < w'.supply → 1000 ≤ w'.led.bank c.lp c.me) ∧
    ∀ q : Bool → A → Nat, (∀ a, queryShare (setup c) c.me (view c w') (w'.led.bank c.lp a) = .ok (q false a, q true a)) →
      ∀ i, (∑ a, q i a) ≤ w'.led.of (c.infos i) c.me := by
  intro w'
  obtain ⟨es, ho, _⟩ := C164_histories_are_pair_histories c hc w ts t0 ht
  change view c w' = _ at ho
  obtain ⟨h1, h2, _⟩ := C89_lp_supply_and_locked_minimum (setup c) c.me _ u amp gamma scale t _ es [] hw.created
  rw [← ho] at h1 h2
  exact ⟨h1, fun hp => h2.resolve_left (Nat.pos_iff_ne_zero.1 hp), fun q hq i => claims_covered (setup c) c.me _ h1 q hq i⟩

/-- **C164.**  When the factory no longer knows the pair, deposits are refused; nothing else depends on it. -/
theorem C164_deregistered_pair (c : Cfg A) (w : Chain A) (e : Env A) (x : A) (funds : List Coin) (m : Msg A) :
    (∀ w' assets tol minLp r, e.registered = false → m = .provide assets tol minLp r →
      exec c w (.call e x funds m) ≠ .ok w') ∧
    ((∀ assets tol minLp r, m ≠ .provide assets tol minLp r) → ∀ b,
      exec c w (.call { e with registered := b } x funds m) = exec c w (.call e x funds m)) := by
  refine ⟨?_, ?_⟩
  · rintro w' assets tol minLp r hr rfl h
    simp only [exec, execute, bind_ok_iff, Except.ok.injEq] at h
    obtain ⟨_, _, _, _, _, _, ⟨w2, sh⟩, h, _⟩ := h
    unfold provideMsg at h
    simp only [bind_ok_iff] at h
    obtain ⟨_, _, _, _, ⟨as', dd⟩, hget, _⟩ := h
    unfold getAssets at hget
    simp only [bind_ok_iff, require_ok, exists_const] at hget
    rw [hr] at hget
    exact absurd hget.1 (by simp)
  · intro hm b
    cases m with
    | provide assets tol minLp r => exact absurd rfl (hm assets tol minLp r)
    | receive u n b m r => rfl
    | swap offer b m r => rfl
    | withdraw assets mins => rfl
    | updateConfig u => rfl

/-! ## The theorems apply -/

/-- A pool of a coin and of token 9. -/
def demoCfg : Cfg Nat :=
  { me := 0, infos := fun i => if i then .token ("t9".toList) else .native "uluna".toList, lp := "lp".toList
    addr := fun n => if n = 9 then "t9".toList else "x".toList, okAddr := fun _ => true, prec := fun _ => 6 }

theorem demo_ok : demoCfg.Ok := ⟨by decide, fun i => by cases i <;> decide⟩

def demoEnv (now : Nat) : Env Nat := ⟨now, 7, 3 * 10 ^ 17, some 8, true⟩

def demoChain : Chain Nat :=
  { led := { bank := fun d a => if d = "uluna".toList ∧ a ∈ [1, 2, 3] then 10 ^ 15 else 0
             tok := fun t a => if t = "t9".toList ∧ a ∈ [1, 2, 3] then 10 ^ 15 else 0
             allow := fun t o s => if t = "t9".toList ∧ o = 1 ∧ s = 0 then 10 ^ 13 else 0 }
    supply := 0, params := demoParams, pool := demo0.pool, twap := demo0.twap, owner := none, share := none }

theorem demo_fresh : Fresh demoCfg demoChain demoParams (40 * 10 ^ 18) (145 * 10 ^ 12) (10 ^ 18) 1000 :=
  ⟨fun a => by simp [demoChain, demoCfg], rfl, rfl⟩

/-- Deposit (also of one asset only), trade with coins (and with the wrong coins), trade with tokens, by the owner and by a
spender without approval, announce tokens that do not exist, withdraw, change the settings as the owner and as somebody
else, deposit when the pair is no longer registered. -/
def demoTxs : List (Tx Nat) :=
  [.call (demoEnv 2000) 1 [⟨"uluna".toList, 10 ^ 12⟩]
     (.provide [⟨.token "t9".toList, 10 ^ 12⟩, ⟨.native "uluna".toList, 10 ^ 12⟩] none none none),
   .call (demoEnv 2001) 2 [⟨"uluna".toList, 10 ^ 9⟩] (.provide [⟨.native "uluna".toList, 10 ^ 9⟩] none none (some 5)),
   .call (demoEnv 2001) 2 [⟨"uluna".toList, 10 ^ 9⟩] (.swap ⟨.native "uluna".toList, 10 ^ 9⟩ none (some (10 ^ 17)) none),
   .call (demoEnv 2001) 2 [⟨"uluna".toList, 10 ^ 8⟩] (.swap ⟨.native "uluna".toList, 10 ^ 9⟩ none (some (10 ^ 17)) none),
   .send (demoEnv 2002) 9 3 3 (10 ^ 9) none (some (10 ^ 17)) (some 4),
   .send (demoEnv 2002) 9 2 3 (10 ^ 9) none (some (10 ^ 17)) none,
   .call (demoEnv 2002) 5 [] (.receive 5 (10 ^ 9) none (some (10 ^ 17)) none),
   .call (demoEnv 2003) 1 [⟨"lp".toList, 10 ^ 11⟩] (.withdraw [] none),
   .call (demoEnv 2004) 7 [] (.updateConfig (.enableShare 500 4)),
   .call (demoEnv 2004) 6 [] (.updateConfig .disableShare),
   .call { demoEnv 2005 with registered := false } 2 [⟨"uluna".toList, 10 ^ 9⟩]
     (.provide [⟨.native "uluna".toList, 10 ^ 9⟩] none none none)]

example : TimedTx 1000 demoTxs := by simp [TimedTx, demoTxs, Tx.env, demoEnv]

example : (List.range 11).map (fun n => (exec demoCfg (run demoCfg demoChain (demoTxs.take n)) (demoTxs.getD n
    (.approve (demoEnv 1) [] 1 0 0))).isOk) =
      [true, true, true, false, true, false, false, true, true, false, false] := by decide +kernel

example : let w := run demoCfg demoChain demoTxs
    0 < w.led.bank "lp".toList 5 ∧ 10 ^ 15 < w.led.tok "t9".toList 2 ∧ 0 < w.led.bank "uluna".toList 4 ∧
    0 < w.led.tok "t9".toList 8 ∧ w.led.bank "lp".toList 0 = 1000 ∧ w.led.allow "t9".toList 1 0 = 9 * 10 ^ 12 ∧
    w.share = some (500, 4) := by decide +kernel

end Verif.PCL.Entry
