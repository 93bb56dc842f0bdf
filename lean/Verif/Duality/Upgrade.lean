import Verif.Duality.Ledgers
import Verif.Upgrade.Versions

/-!
# Turning a concentrated pool into one with orders on Duality's orderbook (C157)

`contracts/pair_concentrated_duality/src/migrate.rs`: a pool run by the code of `contracts/pair_concentrated` is taken over by
`contracts/pair_concentrated_duality`.
-/

namespace Verif.Duality

open Verif.Stable (dmul ddiv dadd toU128 withPrec payout payout_spec)
open Verif.XYK (sendOpt)
open Verif.PCL (AG PParams Pool Price Setup FeeInfo Swapped SwapOut decPools ampGamma calcD calcY getXcp
  updatePrice computeSwap calcLastPrices beforeSwapCheck assertMaxSpread accumulate calculateShares shareInAsset
  makerShare feeShare priceAfterSwap MIN_TRADE_SIZE MINIMUM_LIQUIDITY LP_PREC decPools_ok decPools_eq pay demoSetup)

variable {A : Type} [DecidableEq A]

/-! ## Model -/

/-- `migrate` with `MigrateToOrderbook`, contracts/pair_concentrated_duality/src/migrate.rs:24-69: the stored configuration `c` is read
with its owner, parameters, prices and fee share and saved again; only the pair type in it changes (not modelled).  Neither the kind
of the pool's assets nor balance tracking is looked at. -/
def upgrade (stored : Upgrade.Stamp) (c : PCL.State A) (executor : Option A) (number : Nat) (minSize : Bool → Nat)
    (percent adj : Nat) : Res (Upgrade.Stamp × State A) := do
  let v ← Upgrade.migrate stored ⟨.duality, true⟩
  let ob ← newOB executor number minSize percent adj
  .ok (v, { pcl := c, ob := ob, book := [], next := 0 })

/-- The checks of `instantiate` on the assets, contracts/pair_concentrated_duality/src/instantiate.rs:45-48: both are native coins. -/
def checkNative (su : Setup) : Res Unit := do
  require (su.native false = true ∧ su.native true = true) (.invalid "NonNativeAsset")

/-- `Swap` when the offered asset `i` is a cw20 token, contracts/pair_concentrated_duality/src/execute.rs:60-84 and 432-611:
`assert_sent_native_token_balance` accepts every amount of a token (packages/astroport/src/asset.rs:256-270) and no token is
collected.  The rest is `swap`. -/
def swapToken (su : Setup) (me : A) (s : State A) (now : Nat) (i : Bool) (offer : Nat)
    (belief maxSpread : Option Nat) (receiver : A) (e : Env A) : Res (State A × SwapOut) := do
  let c := s.pcl
  let off ← withPrec offer (su.prec i)
  let os ← simAll s.ob.pre s.book s.ob.orders
  let ts ← fetchTrades su s.ob os e.flip
  let t ← totals (fun j => c.bal j me) os
  let pools ← decPools su t
  let x ← csub (pools i) off
  beforeSwapCheck (set2 pools i x) off
  let (pool, xs, bal) ← settle su me c now e.f ts (set2 pools i x) c.bal
  let c1 : PCL.State A := { c with pool := pool }
  let old ← calcLastPrices c.params pool now xs
  let fs ← feeShare c.share
  let r ← computeSwap c.params pool now xs i off (makerShare e.f) fs
  let out ← r.out
  let yo ← dadd (xs i) off
  let ya ← csub (xs !i) out
  let ret ← toU128 r.dy (su.prec !i)
  let spread ← toU128 r.spread (su.prec !i)
  assertMaxSpread belief maxSpread offer ret spread
  let pool' ← priceAfterSwap c1 now xs r i off out
  let shareAmt ← toU128 r.share (su.prec !i)
  let makerAmt ← toU128 r.maker (su.prec !i)
  let tw ← accumulate c.twap now old
  let (bal, book) ← cancelAll me s.ob.orders bal s.book
  let ba ← bank (bal !i) me receiver ret
  let ba ← sendOpt ba me (c.share.map (·.2)) shareAmt
  let ba ← sendOpt ba me e.f.addr makerAmt
  let commission ← toU128 r.total (su.prec !i)
  let s' ← finish su me s.ob s.next now { c with bal := set2 bal (!i) ba, pool := pool', twap := tw } book
    (fun j => if j = i then yo else ya) e.out
  .ok (s', { ret := ret, spread := spread, commission := commission, maker := makerAmt, share := shareAmt })

/-! ## Specification -/

/-- No order has been placed and none will be: the state after the upgrade until the owner switches the orders on. -/
structure Quiet (s : State A) : Prop where
  off : s.ob.enabled = false
  orders : s.ob.orders = []
  delayed : s.ob.delayed = none
  pre : s.ob.pre = none
  book : s.book = []

/-- The transaction a user of the plain pool would have signed; `none` for those that only the new pool has. -/
def plainOp : Op A → Option (PCL.Op A)
  | .provide u d t m r _ => some (.provide u d t m r)
  | .withdraw u n m _ => some (.withdraw u n m)
  | .swap u i n b m r e => some (.swap u i n b m r e.f)
  | .admin o => if isAdmin o then some o else none
  | .sync _ _ | .config _ _ | .fill _ _ _ => none

/-- The same history on the plain pool. -/
def asPlain (es : List (Event A)) : List (PCL.Event A) :=
  es.filterMap fun e => (plainOp e.op).map fun o => { now := e.now, fo := e.fo, op := o }

/-- The owner does not switch the orders on; withdrawals name no minimum (the plain pool ignores one). -/
def Ordinary : Op A → Prop
  | .withdraw _ _ m _ => m = none
  | .config _ u => u.enable ≠ some true
  | _ => True

/-- Both assets are coins of at most 18 digits, and there are fewer than 2^128 of each. -/
structure Coins [Fintype A] (su : Setup) (c : PCL.State A) : Prop where
  native : ∀ i, su.native i = true
  prec : ∀ i, su.prec i ≤ 18
  few : ∀ i, ∑ a, c.bal i a < U128

/-! ## Lemmas -/

theorem finish_quiet {su : Setup} {me : A} {ob : OB A} {next now : Nat} {c : PCL.State A} {book : List (Nat × Order)}
    {xs : Bool → Nat} {out : Nat → Outcome} (h : ob.enabled = false) :
    finish su me ob next now c book xs out =
      .ok { pcl := c, ob := { ob with pre := none, delayed := none }, book := book, next := next } := by
  simp [finish, deploy, h, preBalances, placeAll, ok_bind]

theorem Quiet.finish {su : Setup} {me : A} {s : State A} (h : Quiet s) {next now : Nat} {c : PCL.State A}
    {book : List (Nat × Order)} {xs : Bool → Nat} {out : Nat → Outcome} :
    finish su me s.ob next now c book xs out = .ok { pcl := c, ob := s.ob, book := book, next := next } := by
  rw [finish_quiet h.off]
  have h1 := h.pre
  have h2 := h.delayed
  cases s with | mk c ob b n => cases ob; simp_all

omit [DecidableEq A] in
theorem Quiet.sim {s : State A} (h : Quiet s) : simAll s.ob.pre s.book s.ob.orders = .ok [] := by rw [h.orders]; rfl

theorem Quiet.cancel {s : State A} (h : Quiet s) {me : A} {bal : Bool → A → Nat} {book : List (Nat × Order)} :
    cancelAll me s.ob.orders bal book = .ok (bal, book) := by rw [h.orders]; rfl

theorem totals_nil {b : Bool → Nat} (h : ∀ i, b i < U128) : totals b [] = .ok b := by
  rw [totals_eq (by simpa [inOrders] using h)]
  simp [inOrders]

omit [DecidableEq A] in
theorem fetch_nil {su : Setup} {ob : OB A} {flip : Bool} (h : ob.delayed = none) : fetchTrades su ob [] flip = .ok [] := by
  simp [fetchTrades, h]

theorem settle_nil {su : Setup} {me : A} {c : PCL.State A} {now : Nat} {f : FeeInfo A} {xs : Bool → Nat}
    {bal : Bool → A → Nat} : settle su me c now f [] xs bal = .ok (c.pool, xs, bal) := by simp [settle]

theorem dec_bound {su : Setup} {b : Bool → Nat} (h : ∀ i, b i < U128) : ∀ i, b i * 10 ^ (18 - su.prec i) < U256 := by
  intro i
  have h1 : 10 ^ (18 - su.prec i) ≤ 10 ^ 18 := Nat.pow_le_pow_right (by norm_num) (by omega)
  calc b i * 10 ^ (18 - su.prec i) ≤ b i * 10 ^ 18 := Nat.mul_le_mul_left _ h1
    _ < U128 * 10 ^ 18 := Nat.mul_lt_mul_of_pos_right (h i) (by norm_num)
    _ ≤ U256 := by decide +kernel

theorem bank_eq_pay {su : Setup} {i : Bool} {l : A → Nat} {a b : A} {n : Nat} (h : su.native i = true) :
    bank l a b n = pay su i l a b n := by
  simp [bank, pay, h]

section
variable [Fintype A]

theorem swap_quiet {su : Setup} {me : A} {s : State A} {now : Nat} {u : A} {i : Bool} {n : Nat} {b m : Option Nat} {rc : A}
    {e : Env A} (hq : Quiet s) (hc : Coins su s.pcl) (s' : State A) (o : SwapOut) :
    swap su me s now u i n b m rc e = .ok (s', o) ↔
      ∃ c', PCL.swap su me s.pcl now u i n b m rc e.f = .ok (c', o) ∧ s' = { s with pcl := c' } := by
  have key : ∀ bo, move (s.pcl.bal i) u me n = .ok bo → n ≤ bo me ∧ bo me < U128 := by
    intro bo hbo
    refine ⟨?_, ?_⟩
    · have h1 := move_apply hbo me
      have h2 := move_le hbo
      rw [h1]; simp
    · calc bo me ≤ ∑ a, bo a := le_sum bo me
        _ = ∑ a, s.pcl.bal i a := sum_move hbo
        _ < U128 := hc.few i
  have hb : ∀ j, s.pcl.bal j me < U128 := fun j => lt_of_le_of_lt (le_sum _ me) (hc.few j)
  -- the reserves both pools compute with
  have res : ∀ bo off, move (s.pcl.bal i) u me n = .ok bo → withPrec n (su.prec i) = .ok off →
      totals (fun j => set2 s.pcl.bal i bo j me) [] = .ok (fun j => set2 s.pcl.bal i bo j me) ∧
      ∃ pools x xs, decPools su (fun j => set2 s.pcl.bal i bo j me) = .ok pools ∧ csub (pools i) off = .ok x ∧
        xs = set2 pools i x ∧ csub (bo me) n = .ok (bo me - n) ∧
        decPools su (fun j => if j = i then bo me - n else s.pcl.bal j me) = .ok xs := by
    intro bo off hbo hoff
    obtain ⟨k1, k2⟩ := key bo hbo
    have hlt : ∀ j, (fun j => set2 s.pcl.bal i bo j me) j < U128 := by
      intro j; simp only [set2_apply]; split
      · exact k2
      · exact hb j
    have hlt' : ∀ j, (fun j => if j = i then bo me - n else s.pcl.bal j me) j < U128 := by
      intro j; simp only; split
      · omega
      · exact hb j
    obtain ⟨_, _, rfl⟩ := (Stable.withPrec_ok _ _ _).1 hoff
    refine ⟨totals_nil hlt, _, _, _, decPools_eq hc.prec (dec_bound hlt), (csub_ok _ _ _).2 ⟨?_, rfl⟩, rfl,
      (csub_ok _ _ _).2 ⟨k1, rfl⟩, ?_⟩
    · simp only [set2_same]; exact Nat.mul_le_mul_right _ k1
    · rw [decPools_eq hc.prec (dec_bound hlt')]
      congr 1
      funext j
      simp only [set2_apply]
      split
      · subst_vars; simp [Nat.sub_mul]
      · rfl
  have hbal : ∀ bo ba : A → Nat, set2 (set2 s.pcl.bal i bo) (!i) ba = fun j => if j = i then bo else ba := by
    intro bo ba; funext j; cases i <;> cases j <;> rfl
  constructor
  · intro h
    simp only [swap, bind_ok_iff, Except.ok.injEq, Prod.mk.injEq, Prod.exists] at h
    obtain ⟨off, hoff, bo, hbo, os, hos, ts, hts, t, ht, pools, hpools, x, hx, ⟨⟩, hchk, pool, xs, bal, hset, old, hold, fs,
      hfs, r, hr, out, hout, yo, hyo, ya, hya, ret, hret, spread, hspread, ⟨⟩, hsp, pool', hpool', sh, hsh, mk, hmk, tw, htw,
      bal', book', hcan, l1, hl1, l2, hl2, l3, hl3, cm, hcm, s2, hfin, rfl, rfl⟩ := h
    rw [hq.sim] at hos; cases hos
    rw [fetch_nil hq.delayed] at hts; cases hts
    rw [settle_nil] at hset; cases hset
    rw [hq.cancel] at hcan; cases hcan
    rw [hq.finish] at hfin; cases hfin
    obtain ⟨ht', pools', x', xs, hp', hx', rfl, hcs, hxs⟩ := res bo off hbo hoff
    rw [ht'] at ht; cases ht
    rw [hp'] at hpools; cases hpools
    rw [hx'] at hx; cases hx
    rw [bank_eq_pay (hc.native _), set2_not] at hl1
    refine ⟨{ s.pcl with bal := fun j => if j = i then bo else l3, pool := pool', twap := tw }, ?_, ?_⟩
    · simp only [PCL.swap, bind_ok_iff, Except.ok.injEq, Prod.mk.injEq]
      exact ⟨off, hoff, bo, hbo, _, hcs, _, hxs, ⟨⟩, hchk, old, hold, fs, hfs, r, hr, out, hout, pool', hpool', ret, hret,
        spread, hspread, ⟨⟩, hsp, l1, hl1, sh, hsh, mk, hmk, l2, hl2, l3, hl3, tw, htw, cm, hcm, rfl, rfl⟩
    · rw [hbal]
  · rintro ⟨c', h, rfl⟩
    simp only [PCL.swap, bind_ok_iff, Except.ok.injEq, Prod.mk.injEq] at h
    obtain ⟨off, hoff, bo, hbo, t, ht, xs', hxs', ⟨⟩, hchk, old, hold, fs, hfs, r, hr, out, hout, pool', hpool', ret, hret,
      spread, hspread, ⟨⟩, hsp, l1, hl1, sh, hsh, mk, hmk, l2, hl2, l3, hl3, tw, htw, cm, hcm, rfl, rfl⟩ := h
    obtain ⟨ht', pools', x', xs, hp', hx', rfl, hcs, hxs⟩ := res bo off hbo hoff
    rw [hcs] at ht; cases ht
    rw [hxs] at hxs'; cases hxs'
    rw [← bank_eq_pay (hc.native _)] at hl1
    have hp2 := hpool'
    simp only [priceAfterSwap, bind_ok_iff] at hp2
    obtain ⟨yo, hyo, ya, hya, _⟩ := hp2
    simp only [swap, bind_ok_iff, Except.ok.injEq, Prod.mk.injEq, Prod.exists]
    refine ⟨off, hoff, bo, hbo, [], hq.sim, [], fetch_nil hq.delayed, _, ht', pools', hp', x', hx', ⟨⟩, hchk, _, _, _,
      settle_nil, old, hold, fs, hfs, r, hr, out, hout, yo, hyo, ya, hya, ret, hret, spread, hspread, ⟨⟩, hsp, pool', hpool',
      sh, hsh, mk, hmk, tw, htw, _, _, hq.cancel, l1, ?_, l2, hl2, l3, hl3, cm, hcm, _, hq.finish, ?_, rfl⟩
    · rw [set2_not]; exact hl1
    · rw [hbal]

theorem provide_quiet {su : Setup} {me : A} {s : State A} {now : Nat} {u : A} {d : Bool → Nat} {t m : Option Nat} {rc : A}
    {e : Env A} (hq : Quiet s) (hc : Coins su s.pcl) (hu : u ≠ me) (s' : State A) (n : Nat) :
    provide su me s now u d t m rc e = .ok (s', n) ↔
      ∃ c', PCL.provide su me s.pcl now u d t m rc = .ok (c', n) ∧ s' = { s with pcl := c' } := by
  have key : ∀ i bo, payout (s.pcl.bal i) u me (d i) = .ok bo → bo me = s.pcl.bal i me + d i ∧ bo me < U128 := by
    intro i bo hbo
    have hbo := payout_spec hbo
    refine ⟨?_, ?_⟩
    · have h1 := move_apply hbo me
      simpa [Ne.symm hu] using h1
    · calc bo me ≤ ∑ a, bo a := le_sum bo me
        _ = ∑ a, s.pcl.bal i a := sum_move hbo
        _ < U128 := hc.few i
  have hb : ∀ j, s.pcl.bal j me < U128 := fun j => lt_of_le_of_lt (le_sum _ me) (hc.few j)
  have res : ∀ b0 b1 dd, payout (s.pcl.bal false) u me (d false) = .ok b0 → payout (s.pcl.bal true) u me (d true) = .ok b1 →
      decPools su d = .ok dd →
      totals (fun i => (fun i => if i then b1 else b0 : Bool → A → Nat) i me) [] =
        .ok (fun i => (fun i => if i then b1 else b0 : Bool → A → Nat) i me) ∧
      ∃ pools xs, decPools su (fun i => (fun i => if i then b1 else b0 : Bool → A → Nat) i me) = .ok pools ∧
        csub (pools false) (dd false) = .ok (xs false) ∧ csub (pools true) (dd true) = .ok (xs true) ∧
        decPools su (fun i => s.pcl.bal i me) = .ok xs ∧ dadd (xs false) (dd false) = .ok (pools false) ∧
        dadd (xs true) (dd true) = .ok (pools true) := by
    intro b0 b1 dd h0 h1 hdd
    obtain ⟨k1, k2⟩ := key _ _ h0
    obtain ⟨k3, k4⟩ := key _ _ h1
    have hlt : ∀ i, (fun i => (fun i => if i then b1 else b0 : Bool → A → Nat) i me) i < U128 := by
      intro i; cases i
      · simpa using k2
      · simpa using k4
    have hd := decPools_ok hdd
    have hl := dec_bound (su := su) hlt
    refine ⟨totals_nil hlt, _, _, decPools_eq hc.prec hl, ?_, ?_, decPools_eq hc.prec (dec_bound hb), ?_, ?_⟩
    · simp [csub_ok, (hd false).2.1, k1, Nat.add_mul]
    · simp [csub_ok, (hd true).2.1, k3, Nat.add_mul]
    · have := hl false
      simp [k1, Nat.add_mul] at this
      simp [Stable.dadd_ok, (hd false).2.1, k1, Nat.add_mul, this]
    · have := hl true
      simp [k3, Nat.add_mul] at this
      simp [Stable.dadd_ok, (hd true).2.1, k3, Nat.add_mul, this]
  have hxs' : ∀ xs : Bool → Nat, (fun i => if i = true then xs true else xs false) = xs := by
    intro xs; funext i; cases i <;> rfl
  constructor
  · intro h
    simp only [provide, bind_ok_iff, Except.ok.injEq, Prod.mk.injEq, Prod.exists, require_ok, exists_const] at h
    obtain ⟨b0, h0, b1, h1, total, htot, os, hos, ts, hts, t', ht, pools, hpools, dd, hdd, x0, hx0, x1, hx1, p0, ys, bal,
      hset, shareD, pool, hcs, share, hsh, hmin, tw, htw, bal', book', hcan, hpos, sup, hsup, y0, hy0, y1, hy1, s2, hfin, rfl,
      rfl⟩ := h
    rw [hq.sim] at hos; cases hos
    rw [fetch_nil hq.delayed] at hts; cases hts
    rw [settle_nil] at hset; cases hset
    rw [hq.cancel] at hcan; cases hcan
    rw [hq.finish] at hfin; cases hfin
    obtain ⟨ht', pools', xs, hp', hx0', hx1', hxs, _⟩ := res b0 b1 dd h0 h1 hdd
    rw [ht'] at ht; cases ht
    rw [hp'] at hpools; cases hpools
    rw [hx0'] at hx0; cases hx0
    rw [hx1'] at hx1; cases hx1
    rw [hxs'] at hcs
    refine ⟨_, ?_, rfl⟩
    simp only [PCL.provide, bind_ok_iff, Except.ok.injEq, Prod.mk.injEq, Prod.exists, require_ok, exists_const]
    exact ⟨total, htot, dd, hdd, xs, hxs, shareD, pool, hcs, share, hsh, hmin, hpos, b0, h0, b1, h1, sup, hsup, tw, htw,
      rfl, rfl⟩
  · rintro ⟨c', h, rfl⟩
    simp only [PCL.provide, bind_ok_iff, Except.ok.injEq, Prod.mk.injEq, Prod.exists, require_ok, exists_const] at h
    obtain ⟨total, htot, dd, hdd, xs, hxs, shareD, pool, hcs, share, hsh, hmin, hpos, b0, h0, b1, h1, sup, hsup, tw, htw,
      rfl, rfl⟩ := h
    obtain ⟨ht', pools', ys, hp', hx0', hx1', hys, hy0, hy1⟩ := res b0 b1 dd h0 h1 hdd
    rw [hys] at hxs; cases hxs
    simp only [provide, bind_ok_iff, Except.ok.injEq, Prod.mk.injEq, Prod.exists, require_ok, exists_const]
    exact ⟨b0, h0, b1, h1, total, htot, [], hq.sim, [], fetch_nil hq.delayed, _, ht', pools', hp', dd, hdd, _, hx0', _, hx1',
      _, _, _, settle_nil, shareD, pool, by rw [hxs']; exact hcs,
      share, hsh, hmin, tw, htw, _, _, hq.cancel, hpos, sup, hsup, _, hy0, _, hy1, _, hq.finish, rfl, rfl⟩

theorem withdraw_quiet {su : Setup} {me : A} {s : State A} {now : Nat} {u : A} {n : Nat} {e : Env A} (hq : Quiet s)
    (hc : Coins su s.pcl) (s' : State A) (a : Nat × Nat) :
    withdraw su me s now u n none e = .ok (s', a) ↔
      ∃ c', PCL.withdraw su me s.pcl now u n none = .ok (c', a) ∧ s' = { s with pcl := c' } := by
  have hb : ∀ j, s.pcl.bal j me < U128 := fun j => lt_of_le_of_lt (le_sum _ me) (hc.few j)
  have ht' : totals (fun i => s.pcl.bal i me) [] = .ok (fun i => s.pcl.bal i me) := totals_nil hb
  constructor
  · intro h
    simp only [withdraw, bind_ok_iff, Except.ok.injEq, Prod.mk.injEq, Prod.exists, require_ok, exists_const, ensureMin,
      realAfter] at h
    obtain ⟨hpos, lp, hlp, os, hos, ts, hts, t, ht, xs, hxs, p0, ys, bal, hset, r0, hr0, r1, hr1, y0, hy0, y1, hy1, a0, ha0,
      a1, ha1, _, bal', book', hcan, b0, hb0, b1, hb1, rest, hrest, s2, hfin, real, ⟨ix, hix, ag, hag, D, hD, xcp, hxcp, rd, hrd,
      hreal⟩, rfl, rfl⟩ := h
    rw [hq.sim] at hos; cases hos
    rw [fetch_nil hq.delayed] at hts; cases hts
    rw [ht'] at ht; cases ht
    rw [settle_nil] at hset; cases hset
    rw [hq.cancel] at hcan; cases hcan
    rw [hq.finish] at hfin; cases hfin
    rw [bank_eq_pay (hc.native _)] at hb0 hb1
    refine ⟨_, ?_, rfl⟩
    simp only [PCL.withdraw, bind_ok_iff, Except.ok.injEq, Prod.mk.injEq, require_ok, exists_const]
    exact ⟨hpos, lp, hlp, xs, hxs, r0, hr0, r1, hr1, y0, hy0, y1, hy1, ix, hix, ag, hag, D, hD, xcp, hxcp, rest, hrest, rd,
      hrd, real, hreal, a0, ha0, a1, ha1, b0, hb0, b1, hb1, rfl, rfl, rfl⟩
  · rintro ⟨c', h, rfl⟩
    simp only [PCL.withdraw, bind_ok_iff, Except.ok.injEq, Prod.mk.injEq, require_ok, exists_const] at h
    obtain ⟨hpos, lp, hlp, xs, hxs, r0, hr0, r1, hr1, y0, hy0, y1, hy1, ix, hix, ag, hag, D, hD, xcp, hxcp, rest, hrest, rd,
      hrd, real, hreal, a0, ha0, a1, ha1, b0, hb0, b1, hb1, rfl, rfl⟩ := h
    rw [← bank_eq_pay (hc.native _)] at hb0 hb1
    simp only [withdraw, bind_ok_iff, Except.ok.injEq, Prod.mk.injEq, Prod.exists, require_ok, exists_const, ensureMin,
      realAfter]
    exact ⟨hpos, lp, hlp, [], hq.sim, [], fetch_nil hq.delayed, _, ht', xs, hxs, _, _, _, settle_nil, r0, hr0, r1, hr1, y0,
      hy0, y1, hy1, a0, ha0, a1, ha1, trivial, _, _, hq.cancel, b0, hb0, b1, hb1, rest, hrest, _, hq.finish, real, ⟨ix, hix, ag, hag, D,
      hD, xcp, hxcp, rd, hrd, hreal⟩, rfl, rfl, rfl⟩

/-- The plain pool conserves the coins of both assets. -/
theorem plain_sum {su : Setup} {me : A} {now : Nat} {fo : A} {c c' : PCL.State A} {o : PCL.Op A}
    (h : PCL.exec su me now fo c o = .ok c') : ∀ i, ∑ a, c'.bal i a = ∑ a, c.bal i a := by
  unfold PCL.exec at h
  simp only [bind_ok_iff, require_ok, exists_const] at h
  obtain ⟨hsig, h⟩ := h
  cases o with
  | provide u d t m r =>
    simp only [bind_ok_iff, Prod.exists, Except.ok.injEq] at h
    obtain ⟨_, _, h, rfl⟩ := h
    obtain ⟨_, _, _, _, sp⟩ := PCL.provide_spec h
    exact fun i => sum_move (sp.hbal i)
  | withdraw u n m =>
    simp only [bind_ok_iff, Prod.exists, Except.ok.injEq] at h
    obtain ⟨_, _, _, h, rfl⟩ := h
    obtain ⟨_, _, _, sp⟩ := PCL.withdraw_spec h
    intro i; cases i
    · exact sum_move sp.hb0
    · exact sum_move sp.hb1
  | swap u i n b m r f =>
    simp only [bind_ok_iff, Prod.exists, Except.ok.injEq] at h
    obtain ⟨_, _, h, rfl⟩ := h
    obtain ⟨_, _, _, _, _, _, sp⟩ := PCL.swap_spec (by simpa [PCL.Op.signer] using hsig) h
    obtain ⟨l1, l2, h1, h2, h3⟩ := sp.hba
    intro j
    by_cases hj : j = i
    · subst hj; exact sum_move sp.hbo
    · obtain rfl : j = !i := by cases i <;> cases j <;> simp_all
      rw [sum_sendOpt h3, sum_sendOpt h2, sum_move h1]
  | update u v =>
    simp only [bind_ok_iff, Except.ok.injEq] at h
    obtain ⟨_, _, _, _, rfl⟩ := h
    exact fun _ => rfl
  | promote u a g t =>
    simp only [bind_ok_iff, Except.ok.injEq] at h
    obtain ⟨_, _, _, _, rfl⟩ := h
    exact fun _ => rfl
  | stop u =>
    simp only [bind_ok_iff, Except.ok.injEq] at h
    obtain ⟨_, _, _, _, rfl⟩ := h
    exact fun _ => rfl
  | enableShare u bps r =>
    simp only [bind_ok_iff, Except.ok.injEq] at h
    obtain ⟨_, _, _, _, rfl⟩ := h
    exact fun _ => rfl
  | disableShare u =>
    simp only [bind_ok_iff, Except.ok.injEq] at h
    obtain ⟨_, _, rfl⟩ := h
    exact fun _ => rfl
  | send i u v n =>
    simp only [bind_ok_iff, Except.ok.injEq] at h
    obtain ⟨b, hb, rfl⟩ := h
    intro j
    simp only
    split
    · subst_vars; exact sum_move hb
    · rfl
  | sendLp u v n =>
    simp only [bind_ok_iff, Except.ok.injEq] at h
    obtain ⟨_, _, rfl⟩ := h
    exact fun _ => rfl

theorem coins_step {su : Setup} {me : A} {c : PCL.State A} {e : PCL.Event A} (h : Coins su c) :
    Coins su (PCL.step su me c e) := by
  unfold PCL.step
  cases hx : PCL.exec su me e.now e.fo c e.op with
  | error _ => exact h
  | ok c' => exact ⟨h.native, h.prec, fun i => by
      show ∑ a, c'.bal i a < U128
      rw [plain_sum hx]; exact h.few i⟩

theorem coins_run {su : Setup} {me : A} (es : List (PCL.Event A)) {c : PCL.State A} (h : Coins su c) :
    Coins su (PCL.run su me c es) := by
  unfold PCL.run
  induction es generalizing c with
  | nil => exact h
  | cons e es ih => exact ih (coins_step h)

/-- A transaction both pools have. -/
theorem exec_plain {su : Setup} {me : A} {now : Nat} {fo : A} {s : State A} {o : Op A} {p : PCL.Op A} (hq : Quiet s)
    (hc : Coins su s.pcl) (ho : Ordinary o) (hp : plainOp o = some p) (s' : State A) :
    exec su me now fo s o = .ok s' ↔ ∃ c', PCL.exec su me now fo s.pcl p = .ok c' ∧ s' = { s with pcl := c' } := by
  cases o with
  | provide u d t m r e =>
    cases hp
    simp only [exec, PCL.exec, bind_ok_iff, require_ok, exists_const, Prod.exists, Except.ok.injEq]
    constructor
    · rintro ⟨hs, s2, n, h, rfl⟩
      have hu : u ≠ me := fun h => hs (congrArg some h)
      obtain ⟨c', h2, rfl⟩ := (provide_quiet hq hc hu _ _).1 h
      exact ⟨c', ⟨hu, c', n, h2, rfl⟩, rfl⟩
    · rintro ⟨c', ⟨hu, _, n, h, rfl⟩, rfl⟩
      have hs : some u ≠ some me := fun h => hu (Option.some.inj h)
      exact ⟨hs, _, n, (provide_quiet hq hc hu _ _).2 ⟨_, h, rfl⟩, rfl⟩
  | withdraw u n m e =>
    cases hp
    cases (show m = none from ho)
    simp only [exec, PCL.exec, bind_ok_iff, require_ok, exists_const, Prod.exists, Except.ok.injEq]
    constructor
    · rintro ⟨hs, s2, n, k, h, rfl⟩
      have hu : u ≠ me := fun h => hs (congrArg some h)
      obtain ⟨c', h2, rfl⟩ := (withdraw_quiet hq hc _ _).1 h
      exact ⟨c', ⟨hu, c', n, k, h2, rfl⟩, rfl⟩
    · rintro ⟨c', ⟨hu, _, n, k, h, rfl⟩, rfl⟩
      have hs : some u ≠ some me := fun h => hu (Option.some.inj h)
      exact ⟨hs, _, n, k, (withdraw_quiet hq hc _ _).2 ⟨_, h, rfl⟩, rfl⟩
  | swap u i n b m r e =>
    cases hp
    simp only [exec, PCL.exec, bind_ok_iff, require_ok, exists_const, Prod.exists, Except.ok.injEq]
    constructor
    · rintro ⟨hs, s2, n, h, rfl⟩
      have hu : u ≠ me := fun h => hs (congrArg some h)
      obtain ⟨c', h2, rfl⟩ := (swap_quiet hq hc _ _).1 h
      exact ⟨c', ⟨hu, c', n, h2, rfl⟩, rfl⟩
    · rintro ⟨c', ⟨hu, _, n, h, rfl⟩, rfl⟩
      have hs : some u ≠ some me := fun h => hu (Option.some.inj h)
      exact ⟨hs, _, n, (swap_quiet hq hc _ _).2 ⟨_, h, rfl⟩, rfl⟩
  | admin q =>
    simp only [plainOp] at hp
    split at hp
    · rename_i hq
      cases hp
      simp only [exec, bind_ok_iff, require_ok, exists_const, Except.ok.injEq, Op.signer, Option.some.injEq, ne_eq]
      constructor
      · rintro ⟨_, _, c', h, rfl⟩; exact ⟨c', h, rfl⟩
      · rintro ⟨c', h, rfl⟩
        refine ⟨?_, hq, c', h, rfl⟩
        unfold PCL.exec at h
        simp only [bind_ok_iff, require_ok, exists_const] at h
        exact h.1
    · exact absurd hp (by simp)
  | sync u e => exact absurd hp (by simp [plainOp])
  | config u v => exact absurd hp (by simp [plainOp])
  | fill k n p => exact absurd hp (by simp [plainOp])

omit [Fintype A] in
/-- A transaction only the new pool has moves nothing. -/
theorem exec_own {su : Setup} {me : A} {now : Nat} {fo : A} {s s' : State A} {o : Op A} (hq : Quiet s) (ho : Ordinary o)
    (hp : plainOp o = none) (h : exec su me now fo s o = .ok s') : s'.pcl = s.pcl ∧ Quiet s' := by
  unfold exec at h
  simp only [bind_ok_iff, require_ok, exists_const] at h
  obtain ⟨_, h⟩ := h
  cases o with
  | provide u d t m r e => exact absurd hp (by simp [plainOp])
  | withdraw u n m e => exact absurd hp (by simp [plainOp])
  | swap u i n b m r e => exact absurd hp (by simp [plainOp])
  | admin q =>
    simp only [bind_ok_iff, require_ok, exists_const] at h
    simp [plainOp, h.1] at hp
  | sync u e =>
    simp only [sync, bind_ok_iff, require_ok, exists_const] at h
    obtain ⟨_, os, hos, ts, hts, hne, _⟩ := h
    rw [hq.sim] at hos; cases hos
    rw [fetch_nil hq.delayed] at hts; cases hts
    exact absurd rfl hne
  | config u v =>
    have hv : v.enable ≠ some true := ho
    simp only [config, bind_ok_iff, require_ok, exists_const] at h
    obtain ⟨_, h⟩ := h
    split at h
    · rename_i hen
      simp only [bind_ok_iff, Prod.exists, Except.ok.injEq, hq.cancel] at h
      obtain ⟨ob, hob, _, _, hx, rfl⟩ := h
      cases hx
      simp only [updateOB, bind_ok_iff, require_ok, exists_const, Except.ok.injEq] at hob
      obtain ⟨_, _, _, rfl⟩ := hob
      exact ⟨rfl, by simp [hen], rfl, hq.delayed, hq.pre, hq.book⟩
    · simp only [bind_ok_iff, Except.ok.injEq] at h
      obtain ⟨ob, hob, rfl⟩ := h
      simp only [updateOB, bind_ok_iff, require_ok, exists_const, Except.ok.injEq] at hob
      obtain ⟨_, _, _, rfl⟩ := hob
      refine ⟨rfl, ?_, hq.orders, hq.delayed, hq.pre, hq.book⟩
      have := hq.off
      cases hx : v.enable with
      | none => simpa using this
      | some b => cases b <;> simp_all
  | fill k n p =>
    simp only [fill, hq.book, bind_ok_iff] at h
    obtain ⟨o, ho', _⟩ := h
    simp [kvGet, orErr] at ho'

theorem run_quiet (su : Setup) (me : A) : ∀ (es : List (Event A)) {s : State A}, Quiet s → Coins su s.pcl →
    (∀ e ∈ es, Ordinary e.op) →
    (run su me s es).pcl = PCL.run su me s.pcl (asPlain es) ∧ Quiet (run su me s es)
  | [], s, hq, _, _ => ⟨rfl, hq⟩
  | e :: es, s, hq, hc, ho => by
    have ho1 := ho e (by simp)
    have ho2 : ∀ x ∈ es, Ordinary x.op := fun x hx => ho x (by simp [hx])
    show (run su me (step su me s e) es).pcl = _ ∧ Quiet (run su me (step su me s e) es)
    cases hp : plainOp e.op with
    | none =>
      have hk : (step su me s e).pcl = s.pcl ∧ Quiet (step su me s e) := by
        unfold step
        cases hx : exec su me e.now e.fo s e.op with
        | error _ => exact ⟨rfl, hq⟩
        | ok s' => exact exec_own hq ho1 hp hx
      have := run_quiet su me es (s := step su me s e) hk.2 (by rw [hk.1]; exact hc) ho2
      rw [hk.1] at this
      simpa [asPlain, hp] using this
    | some p =>
      have hk : (step su me s e).pcl = PCL.step su me s.pcl ⟨e.now, e.fo, p⟩ ∧ Quiet (step su me s e) := by
        unfold step PCL.step
        cases hx : exec su me e.now e.fo s e.op with
        | error _ =>
          cases hy : PCL.exec su me e.now e.fo s.pcl p with
          | error _ => exact ⟨rfl, hq⟩
          | ok c' =>
            have := (exec_plain hq hc ho1 hp _).2 ⟨c', hy, rfl⟩
            rw [hx] at this; cases this
        | ok s' =>
          obtain ⟨c', hy, rfl⟩ := (exec_plain hq hc ho1 hp _).1 hx
          simp only [hy]
          exact ⟨rfl, hq.off, hq.orders, hq.delayed, hq.pre, hq.book⟩
      have := run_quiet su me es (s := step su me s e) hk.2 (by rw [hk.1]; exact coins_step hc) ho2
      rw [hk.1] at this
      have hpl : asPlain (e :: es) = ⟨e.now, e.fo, p⟩ :: asPlain es := by simp [asPlain, hp]
      rw [hpl]
      exact this

/-! ## C157 -/

omit [Fintype A] in
/-- **C157**: the upgrade takes over concentrated pools of the 4.x releases only, keeps everything the pool has recorded - owner,
parameters, prices, profit, fee share, LP tokens and coins - and places no order.  The settings of the orders are checked as at
creation. -/
theorem C157_upgrade_keeps (stored v : Upgrade.Stamp) (c : PCL.State A) (executor : Option A) (number : Nat)
    (minSize : Bool → Nat) (percent adj : Nat) (s : State A)
    (h : upgrade stored c executor number minSize percent adj = .ok (v, s)) :
    stored.name = "astroport-pair-concentrated" ∧ stored.version.major = 4 ∧
    v = ⟨"astroport-pair-concentrated-duality", 4, 1, 1⟩ ∧ s.pcl = c ∧ s.book = [] ∧ s.ob.orders = [] ∧
    s.ob.enabled = false ∧ SettingsOk s.ob := by
  simp only [upgrade, Upgrade.migrate, newOB, bind_ok_iff, require_ok, exists_const, Except.ok.injEq, Prod.mk.injEq] at h
  obtain ⟨_, ⟨h1, rfl⟩, ob, ⟨_, hv, rfl⟩, rfl, rfl⟩ := h
  simp only [validate, bind_ok_iff, require_ok, exists_const] at hv
  obtain ⟨h2, h3, h4, h5, h6⟩ := hv
  simp only [Upgrade.accepts, if_true, Bool.and_eq_true, decide_eq_true_eq, Upgrade.dualityReq] at h1
  refine ⟨h1.1, by omega, rfl, rfl, rfl, rfl, rfl, ?_⟩
  simp only [NUMBER_MIN, NUMBER_MAX, PERCENT_MIN, PERCENT_MAX, ADJ_MIN, ADJ_MAX] at h2 h3 h4
  refine ⟨h2.1, h2.2, h3.1, by simpa using h3.2, h4.1, by simpa using h4.2, ?_⟩
  intro i; cases i
  · exact Nat.pos_of_ne_zero h5
  · exact Nat.pos_of_ne_zero h6

omit [Fintype A] in
theorem upgrade_quiet {stored v : Upgrade.Stamp} {c : PCL.State A} {executor : Option A} {number : Nat}
    {minSize : Bool → Nat} {percent adj : Nat} {s : State A}
    (h : upgrade stored c executor number minSize percent adj = .ok (v, s)) : s.pcl = c ∧ Quiet s := by
  simp only [upgrade, newOB, bind_ok_iff, Except.ok.injEq, Prod.mk.injEq] at h
  obtain ⟨_, _, ob, ⟨_, _, rfl⟩, rfl, rfl⟩ := h
  exact ⟨rfl, rfl, rfl, rfl, rfl, rfl⟩

/-- **C157**: until the owner switches the orders on, whatever is done to an upgraded pool of two coins leaves it - prices, profit,
accumulators, coins and LP tokens - as the same transactions would have left the pool without the upgrade; in particular the same
ones are accepted. -/
theorem C157_same_history_partial (su : Setup) (me : A) (stored v : Upgrade.Stamp) (c : PCL.State A) (executor : Option A) (number : Nat)
    (minSize : Bool → Nat) (percent adj : Nat) (s : State A)
    (h : upgrade stored c executor number minSize percent adj = .ok (v, s)) (hc : Coins su c) (es : List (Event A))
    (ho : ∀ e ∈ es, Ordinary e.op) :
    (run su me s es).pcl = PCL.run su me c (asPlain es) ∧ (run su me s es).book = [] := by
  obtain ⟨rfl, hq⟩ := upgrade_quiet h
  have := run_quiet su me es hq hc ho
  exact ⟨this.1, this.2.book⟩

theorem current_asPlain {su : Setup} {me : A} {s : State A} {now : Nat} {e : Env A} (hq : Quiet s) (hc : Coins su s.pcl) :
    ∃ xs, current su me s now e = .ok (s.pcl.pool, xs) ∧ decPools su (fun i => s.pcl.bal i me) = .ok xs := by
  have hb : ∀ j, s.pcl.bal j me < U128 := fun j => lt_of_le_of_lt (le_sum _ me) (hc.few j)
  refine ⟨_, ?_, decPools_eq hc.prec (dec_bound hb)⟩
  unfold current
  rw [hq.sim]; dsimp only [ok_bind]
  rw [show totals (fun i => s.pcl.bal i me) [] = _ from totals_nil hb]; dsimp only [ok_bind]
  rw [decPools_eq hc.prec (dec_bound hb)]; dsimp only [ok_bind]
  rw [fetch_nil hq.delayed]; dsimp only [ok_bind]
  simp [processQ]

/-- **C157**: and at every point of such a history a deposit, a withdrawal and a swap are accepted exactly when the plain pool would
accept them and then give the same, and the quotes are the same. -/
theorem C157_same_answers_partial (su : Setup) (me : A) (stored v : Upgrade.Stamp) (c : PCL.State A) (executor : Option A) (number : Nat)
    (minSize : Bool → Nat) (percent adj : Nat) (s : State A)
    (h : upgrade stored c executor number minSize percent adj = .ok (v, s)) (hc : Coins su c) (es : List (Event A))
    (ho : ∀ e ∈ es, Ordinary e.op) (now : Nat) (u : A) (hu : u ≠ me) (e : Env A) :
    let z := run su me s es
    let p := PCL.run su me c (asPlain es)
    (∀ d tol minLp rc n, (∃ s', provide su me z now u d tol minLp rc e = .ok (s', n)) ↔
      ∃ c', PCL.provide su me p now u d tol minLp rc = .ok (c', n)) ∧
    (∀ n a, (∃ s', withdraw su me z now u n none e = .ok (s', a)) ↔
      ∃ c', PCL.withdraw su me p now u n none = .ok (c', a)) ∧
    (∀ i n b m rc o, (∃ s', swap su me z now u i n b m rc e = .ok (s', o)) ↔
      ∃ c', PCL.swap su me p now u i n b m rc e.f = .ok (c', o)) ∧
    (∀ i n, simulation su me z now i n e = PCL.simulation su me p now i n e.f) ∧
    (∀ d tol n, simulateProvide su me z now d tol e = .ok n ↔ PCL.simulateProvide su me p now d tol = .ok n) ∧
    (∀ n, queryShare su me z now n e = PCL.queryShare su me p n) ∧
    queryPool me z = .ok (fun i => p.bal i me) := by
  obtain ⟨rfl, hq0⟩ := upgrade_quiet h
  obtain ⟨hp, hq⟩ := run_quiet su me es hq0 hc ho
  have hc' := coins_run (me := me) (asPlain es) hc
  intro z p
  have hz : z.pcl = p := hp
  have hcz : Coins su z.pcl := by rw [hz]; exact hc'
  obtain ⟨xs, hcur, hxs⟩ := current_asPlain (me := me) (now := now) (e := e) hq hcz
  refine ⟨?_, ?_, ?_, ?_, ?_, ?_, ?_⟩
  · intro d tol minLp rc n
    rw [← hz]
    exact ⟨fun ⟨s', h⟩ => let ⟨c', h', _⟩ := (provide_quiet hq hcz hu s' n).1 h; ⟨c', h'⟩,
      fun ⟨c', h⟩ => ⟨_, (provide_quiet hq hcz hu _ n).2 ⟨c', h, rfl⟩⟩⟩
  · intro n a
    rw [← hz]
    exact ⟨fun ⟨s', h⟩ => let ⟨c', h', _⟩ := (withdraw_quiet hq hcz s' a).1 h; ⟨c', h'⟩,
      fun ⟨c', h⟩ => ⟨_, (withdraw_quiet hq hcz _ a).2 ⟨c', h, rfl⟩⟩⟩
  · intro i n b m rc o
    rw [← hz]
    exact ⟨fun ⟨s', h⟩ => let ⟨c', h', _⟩ := (swap_quiet hq hcz s' o).1 h; ⟨c', h'⟩,
      fun ⟨c', h⟩ => ⟨_, (swap_quiet hq hcz _ o).2 ⟨c', h, rfl⟩⟩⟩
  · intro i n
    rw [← hz]
    unfold simulation PCL.simulation
    rw [show current su me z now e = _ from hcur, hxs]
    rfl
  · intro d tol n
    rw [← hz]
    simp only [simulateProvide, PCL.simulateProvide, bind_ok_iff, Prod.exists]
    rw [show current su me z now e = _ from hcur, hxs]
    constructor
    · rintro ⟨t, ht, pool, ys, hx, dd, hdd, sd, _, h1, h2⟩
      cases hx
      exact ⟨t, ht, dd, hdd, _, rfl, sd, _, h1, h2⟩
    · rintro ⟨t, ht, dd, hdd, ys, hx, sd, _, h1, h2⟩
      cases hx
      exact ⟨t, ht, _, _, rfl, dd, hdd, sd, _, h1, h2⟩
  · intro n
    rw [← hz]
    unfold queryShare PCL.queryShare
    rw [show current su me z now e = _ from hcur, hxs]
    rfl
  · rw [← hz]
    unfold queryPool
    rw [show simAll z.ob.pre z.book z.ob.orders = _ from hq.sim]
    exact totals_nil fun j => lt_of_le_of_lt (le_sum _ me) (hcz.few j)

end

/-- What every accepted swap of an unsent token does: nobody's tokens move, the receiver gets coins of the pool. -/
theorem swapToken_takes {su : Setup} {me : A} {s : State A} {now : Nat} {i : Bool} {n : Nat} {b m : Option Nat} {rc : A}
    {e : Env A} {s' : State A} {o : SwapOut} (hq : Quiet s) (hr : rc ≠ me)
    (h : swapToken su me s now i n b m rc e = .ok (s', o)) :
    s'.pcl.bal i = s.pcl.bal i ∧ 0 < o.ret ∧ s.pcl.bal (!i) rc + o.ret ≤ s'.pcl.bal (!i) rc ∧
    s'.pcl.bal (!i) me + o.ret ≤ s.pcl.bal (!i) me ∧ Quiet s' := by
  simp only [swapToken, bind_ok_iff, Except.ok.injEq, Prod.mk.injEq, Prod.exists] at h
  obtain ⟨off, hoff, os, hos, ts, hts, t, ht, pools, hpools, x, hx, ⟨⟩, hchk, pool, xs, bal, hset, old, hold, fs,
    hfs, r, hr', out, hout, yo, hyo, ya, hya, ret, hret, spread, hspread, ⟨⟩, hsp, pool', hpool', sh, hsh, mk, hmk, tw, htw,
    bal', book', hcan, l1, hl1, l2, hl2, l3, hl3, cm, hcm, s2, hfin, rfl, rfl⟩ := h
  rw [hq.sim] at hos; cases hos
  rw [fetch_nil hq.delayed] at hts; cases hts
  rw [settle_nil] at hset; cases hset
  rw [hq.cancel] at hcan; cases hcan
  rw [hq.finish] at hfin; cases hfin
  simp only [bank, bind_ok_iff, require_ok, exists_const] at hl1
  obtain ⟨h0, h1⟩ := hl1
  have k1 := move_apply h1 rc
  have k2 := move_apply h1 me
  have k3 := move_le h1
  simp only [hr, Ne.symm hr, if_false, if_true] at k1 k2
  have send : ∀ {l l' : A → Nat} {dst : Option A} {k : Nat}, sendOpt l me dst k = .ok l' → l rc ≤ l' rc ∧ l' me ≤ l me := by
    intro l l' dst k hk
    cases dst with
    | none => simp only [sendOpt, Except.ok.injEq] at hk; rw [hk]; exact ⟨le_rfl, le_rfl⟩
    | some d =>
      have hk : move l me d k = .ok l' := hk
      have a1 := move_apply hk rc
      have a2 := move_apply hk me
      have a3 := move_le hk
      simp only [hr, if_false, if_true] at a1 a2
      constructor
      · rw [a1]; exact Nat.le_add_right _ _
      · rw [a2]; split <;> omega
  have q2 := send hl2
  have q3 := send hl3
  refine ⟨?_, Nat.pos_of_ne_zero h0, ?_, ?_, hq.off, hq.orders, hq.delayed, hq.pre, hq.book⟩
  · simp [set2_not']
  · simp only [set2_same]; omega
  · simp only [set2_same]; omega

/-- A pool of a cw20 token (first asset) and a coin, 10^12 of each, provided by account 2, who owns all there is of both. -/
def tokenSetup : Setup := ⟨fun _ => 6, fun i => i⟩

/-- See `tokenSetup`. -/
def tokenPool : PCL.State Acct :=
  PCL.run tokenSetup 0 { PCL.demo0 with bal := fun _ a => if a = 2 then 10 ^ 15 else 0 }
    [⟨2000, 1, .provide 2 (fun _ => 10 ^ 12) none none 2⟩]

/-- The owner has started to change amp over the next days. -/
def rampingPool : PCL.State Acct :=
  PCL.run tokenSetup 0 tokenPool [⟨100000, 1, .promote 1 (80 * 10 ^ 18) (145 * 10 ^ 12) 300000⟩]

/-- **C157 is violated** for pools with a cw20 token: creating such a pool on the orderbook is refused, upgrading one is not.
Afterwards a `Swap` message may name any amount of the token without sending one: whenever it is accepted nobody's tokens move and
coins of the pool go to the receiver.  While the pool's amp is being changed two such messages take 94.8% of the example pool's
coins, for an account that owns nothing; otherwise only dust amounts pass, any number of times. -/
theorem C157_unsent_tokens_accepted_violated :
    fails (checkNative tokenSetup) = true ∧
    okAnd (upgrade ⟨"astroport-pair-concentrated", 4, 1, 1⟩ rampingPool none 2 (fun _ => 1000) (5 * 10 ^ 16) (10 ^ 14))
      (fun x => decide (x.2.pcl.bal false 3 = 0 ∧ x.2.pcl.bal true 3 = 0 ∧ x.2.pcl.bal true 0 = 1000000000000) &&
        okAnd (swapToken tokenSetup 0 x.2 101000 false (5 * 10 ^ 11) none (some (5 * 10 ^ 17)) 3 quiet) (fun y =>
          okAnd (swapToken tokenSetup 0 y.1 101000 false (9 * 10 ^ 11) none (some (5 * 10 ^ 17)) 3 quiet) (fun z =>
            decide (z.1.pcl.bal true 3 = 948044762315 ∧ z.1.pcl.bal true 0 = 51955237685)))) = true ∧
    okAnd (upgrade ⟨"astroport-pair-concentrated", 4, 1, 1⟩ tokenPool none 2 (fun _ => 1000) (5 * 10 ^ 16) (10 ^ 14))
      (fun x => okAnd (swapToken tokenSetup 0 x.2 3000 false 9 none (some (5 * 10 ^ 17)) 3 quiet) (fun y =>
        decide (y.1.pcl.bal true 3 = 8))) = true ∧
    ∀ (su : Setup) (me : A) (s s' : State A) (now : Nat) (i : Bool) (n : Nat) (b m : Option Nat) (rc : A) (e : Env A)
      (o : SwapOut), Quiet s → rc ≠ me → swapToken su me s now i n b m rc e = .ok (s', o) →
      s'.pcl.bal i = s.pcl.bal i ∧ 0 < o.ret ∧ s.pcl.bal (!i) rc + o.ret ≤ s'.pcl.bal (!i) rc ∧
      s'.pcl.bal (!i) me + o.ret ≤ s.pcl.bal (!i) me := by
  refine ⟨by decide +kernel, by decide +kernel, by decide +kernel, ?_⟩
  intro su me s s' now i n b m rc e o hq hr h
  obtain ⟨h1, h2, h3, h4, _⟩ := swapToken_takes hq hr h
  exact ⟨h1, h2, h3, h4⟩

/-- A plain pool of two coins with 10^12 of each. -/
def plainDemo : PCL.State Acct := PCL.run demoSetup 0 PCL.demo0 [⟨2000, 1, .provide 2 (fun _ => 10 ^ 12) none none 2⟩]

/-- A swap, a withdrawal, a refused synchronisation and a change of the settings. -/
def plainEvents : List (Event Acct) :=
  [⟨3000, 1, .swap 3 false (10 ^ 10) none none 3 quiet⟩, ⟨3100, 1, .sync 3 quiet⟩,
   ⟨3200, 1, .config 1 { number := some 3 }⟩, ⟨3300, 1, .withdraw 2 (10 ^ 11) none quiet⟩]

/-- Non-vacuity: the example pool meets the hypotheses, the upgrade is accepted and the history after it is ordinary and moves
coins; the upgrade is refused for a pool on the orderbook, for an old one and for settings out of range. -/
example : Coins demoSetup plainDemo ∧ (∀ e ∈ plainEvents, Ordinary e.op) ∧
    okAnd (upgrade ⟨"astroport-pair-concentrated", 4, 1, 1⟩ plainDemo none 2 (fun _ => 1000) (5 * 10 ^ 16) (10 ^ 14)) (fun x =>
      decide ((run demoSetup 0 x.2 plainEvents).pcl.bal true 3 > plainDemo.bal true 3 ∧
        (run demoSetup 0 x.2 plainEvents).ob.number = 3 ∧
        (run demoSetup 0 x.2 plainEvents).pcl.supply + 10 ^ 11 = plainDemo.supply)) = true ∧
    fails (upgrade (Upgrade.stamp .duality) plainDemo none 2 (fun _ => 1000) (5 * 10 ^ 16) (10 ^ 14)) = true ∧
    fails (upgrade ⟨"astroport-pair-concentrated", 3, 0, 0⟩ plainDemo none 2 (fun _ => 1000) (5 * 10 ^ 16) (10 ^ 14)) = true ∧
    fails (upgrade ⟨"astroport-pair-concentrated", 4, 1, 1⟩ plainDemo none 16 (fun _ => 1000) (5 * 10 ^ 16) (10 ^ 14)) = true := by
  refine ⟨⟨fun _ => rfl, fun _ => (by decide : 6 ≤ 18), by decide +kernel⟩, ?_, by decide +kernel, by decide +kernel,
    by decide +kernel, by decide +kernel⟩
  intro e he
  simp only [plainEvents, List.mem_cons, List.not_mem_nil, or_false] at he
  rcases he with rfl | rfl | rfl | rfl <;> simp [Ordinary]

end Verif.Duality
