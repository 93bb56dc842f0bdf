import Verif.Duality.Model
import Verif.PCL.Props

/-!
# What a successful transaction of the orderbook pool consists of

Inversion lemmas for the entry points of `Verif.Duality.Model`.
-/

namespace Verif.Duality

open Verif.Stable (dmul ddiv dadd toU128 withPrec payout payout_spec)
open Verif.XYK (sendOpt)
open Verif.PCL (AG PParams Pool Price Setup FeeInfo Swapped SwapOut decPools ampGamma calcD calcY getXcp
  updatePrice computeSwap calcLastPrices beforeSwapCheck assertMaxSpread accumulate calculateShares shareInAsset
  makerShare feeShare priceAfterSwap MIN_TRADE_SIZE MINIMUM_LIQUIDITY LP_PREC decPools_ok)

variable {A : Type} [DecidableEq A]

@[simp] theorem set2_same {α : Type} (f : Bool → α) (i : Bool) (v : α) : set2 f i v i = v := by simp [set2]

@[simp] theorem set2_not {α : Type} (f : Bool → α) (i : Bool) (v : α) : set2 f i v (!i) = f (!i) := by
  cases i <;> simp [set2]

@[simp] theorem set2_not' {α : Type} (f : Bool → α) (i : Bool) (v : α) : set2 f (!i) v i = f i := by
  cases i <;> simp [set2]

theorem set2_apply {α : Type} (f : Bool → α) (i j : Bool) (v : α) : set2 f i v j = if j = i then v else f j := rfl

theorem totals_ok {b t : Bool → Nat} {os : List Order} (h : totals b os = .ok t) :
    ∀ i, t i = b i + inOrders os i ∧ t i < U128 := by
  simp only [totals, bind_ok_iff, u128_ok, Except.ok.injEq] at h
  obtain ⟨_, ⟨h1, rfl⟩, _, ⟨h2, rfl⟩, rfl⟩ := h
  intro i; cases i
  · exact ⟨rfl, h1⟩
  · exact ⟨rfl, h2⟩

theorem totals_eq {b : Bool → Nat} {os : List Order} (h : ∀ i, b i + inOrders os i < U128) :
    totals b os = .ok (fun i => b i + inOrders os i) := by
  simp only [totals, bind_ok_iff, u128_ok, Except.ok.injEq]
  refine ⟨_, ⟨h _, rfl⟩, _, ⟨h _, rfl⟩, ?_⟩
  funext i; cases i <;> rfl

/-! ## The end of a transaction -/

/-- What a successful `finish` means: `ob1`, `ms` are the settings and messages of the new orders, `pre` the
balances expected, `p` what the orderbook did. -/
structure FinishSpec (su : Setup) (me : A) (ob : OB A) (next now : Nat) (c : PCL.State A)
    (book : List (Nat × Order)) (xs : Bool → Nat) (out : Nat → Outcome) (s' : State A)
    (ob1 : OB A) (ms : List Msg) (pre : Option (Bool → Nat)) (p : Placing A) : Prop where
  hdep : deploy su c now ob xs = .ok (ob1, ms)
  hpre : preBalances su xs ms = .ok pre
  hplace : placeAll me out 0 ms { bal := c.bal, book := book, next := next } = .ok p
  hob : (ms = [] ∧ s'.ob = { ob1 with pre := pre, delayed := none }) ∨
    (ms ≠ [] ∧ callback me { ob1 with pre := pre, delayed := none } p = .ok s'.ob)
  hpcl : s'.pcl = { c with bal := p.bal }
  hbook : s'.book = p.book
  hnext : s'.next = p.next

theorem finish_spec {su : Setup} {me : A} {ob : OB A} {next now : Nat} {c : PCL.State A}
    {book : List (Nat × Order)} {xs : Bool → Nat} {out : Nat → Outcome} {s' : State A}
    (h : finish su me ob next now c book xs out = .ok s') :
    ∃ ob1 ms pre p, FinishSpec su me ob next now c book xs out s' ob1 ms pre p := by
  simp only [finish, bind_ok_iff, Prod.exists, Except.ok.injEq] at h
  obtain ⟨ob1, ms, hdep, pre, hpre, p, hp, ob2, hob, rfl⟩ := h
  refine ⟨ob1, ms, pre, p, hdep, hpre, hp, ?_, rfl, rfl, rfl⟩
  split at hob
  · rename_i hm
    simp only [Except.ok.injEq] at hob
    exact Or.inl ⟨hm, hob.symm⟩
  · rename_i hm
    exact Or.inr ⟨hm, hob⟩

/-! ## Entry points -/

/-- What every transaction that moves liquidity does: the known orders are read (`os`), the trades `ts` on them
are found, all known orders are cancelled (`bal` to `bal'`, leaving `book'` on the book), payments are made, and
new orders are placed for the reserves `xs`. -/
structure Renew (su : Setup) (me : A) (s : State A) (now : Nat) (e : Env A) (s' : State A) (os : List Order)
    (ts : List Trade) (bal bal' : Bool → A → Nat) (book' : List (Nat × Order)) (c : PCL.State A)
    (xs : Bool → Nat) (fin : State A) : Prop where
  hos : simAll s.ob.pre s.book s.ob.orders = .ok os
  hts : fetchTrades su s.ob os e.flip = .ok ts
  hcancel : cancelAll me s.ob.orders bal s.book = .ok (bal', book')
  hfin : finish su me s.ob s.next now c book' xs e.out = .ok fin
  hob : s'.ob = fin.ob
  hbook : s'.book = fin.book
  hnext : s'.next = fin.next
  hbal : s'.pcl.bal = fin.pcl.bal

/-- What a successful deposit means. -/
structure ProvideSpec (su : Setup) (me : A) (s : State A) (now : Nat) (u : A) (d : Bool → Nat)
    (tol minLp : Option Nat) (rc : A) (e : Env A) (s' : State A) (share : Nat)
    (b0 bal bal' : Bool → A → Nat) (total : Nat) (os : List Order) (ts : List Trade) (t pools dd x xs : Bool → Nat)
    (pool pool' : Pool) (shareD : Nat) (book' : List (Nat × Order)) (c : PCL.State A) : Prop where
  hb0 : ∀ i, move (s.pcl.bal i) u me (d i) = .ok (b0 i)
  htot : withPrec s.pcl.supply LP_PREC = .ok total
  ht : totals (fun i => b0 i me) os = .ok t
  hpools : decPools su t = .ok pools
  hdd : decPools su d = .ok dd
  hx : ∀ i, dd i ≤ pools i ∧ x i = pools i - dd i
  hsettle : settle su me s.pcl now e.f ts x b0 = .ok (pool, xs, bal)
  hcs : calculateShares s.pcl.params pool now total xs dd tol = .ok (shareD, pool')
  hshare : toU128 shareD LP_PREC = .ok share
  hmin : minLp.getD 0 ≤ share
  hpos : share ≠ 0
  htw : accumulate s.pcl.twap now s.pcl.pool.price.last = .ok s'.pcl.twap
  hsup : s'.pcl.supply = s.pcl.supply + (if s.pcl.supply = 0 then 1000 else 0) + share ∧ s'.pcl.supply < U128
  hlp : s'.pcl.lp = credit (credit s.pcl.lp me (if s.pcl.supply = 0 then 1000 else 0)) rc share
  hc : c.bal = bal' ∧ c.params = s.pcl.params ∧ c.pool = pool' ∧ c.supply = s'.pcl.supply
  hpool : s'.pcl.pool = pool'
  hy : ∀ i, xs i + dd i < U256
  hrenew : Renew su me s now e s' os ts bal bal' book' c (fun i => xs i + dd i) s'
  hrest : s'.pcl.params = s.pcl.params ∧ s'.pcl.owner = s.pcl.owner ∧ s'.pcl.share = s.pcl.share

theorem provide_spec {su : Setup} {me : A} {s : State A} {now : Nat} {u : A} {d : Bool → Nat}
    {tol minLp : Option Nat} {rc : A} {e : Env A} {s' : State A} {share : Nat}
    (h : provide su me s now u d tol minLp rc e = .ok (s', share)) :
    ∃ b0 bal bal' total os ts t pools dd x xs pool pool' shareD book' c,
      ProvideSpec su me s now u d tol minLp rc e s' share b0 bal bal' total os ts t pools dd x xs pool pool' shareD
        book' c := by
  simp only [provide, bind_ok_iff, require_ok, exists_const, Except.ok.injEq, Prod.mk.injEq, Prod.exists,
    u128_ok, csub_ok] at h
  obtain ⟨b0, hb0, b1, hb1, total, htot, os, hos, ts, hts, t, ht, pools, hpools, dd, hdd, x0, ⟨hx0, rfl⟩, x1,
    ⟨hx1, rfl⟩, pool, xs, bal, hset, shareD, pool', hcs, sh, hsh, hmin, tw, htw, bal', book', hcan, hpos, _,
    ⟨hlt, rfl⟩, y0, hy0, y1, hy1, fin, hfin, rfl, rfl⟩ := h
  have hz : (total = 0) = (s.pcl.supply = 0) := by
    simp only [Stable.withPrec_ok, LP_PREC] at htot
    obtain ⟨_, _, rfl⟩ := htot
    simp
  have hm : MINIMUM_LIQUIDITY = 1000 := rfl
  simp only [Stable.dadd, u256_ok] at hy0 hy1
  obtain ⟨hy0, rfl⟩ := hy0
  obtain ⟨hy1, rfl⟩ := hy1
  have e1 : (fun i => if i = true then xs true + dd true else xs false + dd false) = fun i => xs i + dd i := by
    funext i; cases i <;> rfl
  rw [e1] at hfin
  simp only [hz, hm] at hfin hlt
  generalize hcd : ({ s.pcl with
    bal := bal', lp := credit (credit s.pcl.lp me (if s.pcl.supply = 0 then 1000 else 0)) rc sh,
    supply := s.pcl.supply + (if s.pcl.supply = 0 then 1000 else 0) + sh, pool := pool', twap := tw } :
    PCL.State A) = c at hfin
  obtain ⟨_, _, _, p, sp⟩ := finish_spec hfin
  have hp := sp.hpcl
  refine ⟨fun i => if i then b1 else b0, bal, bal', total, os, ts, t, pools, dd,
    fun i => if i then pools true - dd true else pools false - dd false, xs, pool, pool', shareD, book',
    c, ?_, htot, ht, hpools, hdd, ?_, hset, hcs, hsh, hmin, hpos, ?_, ?_, ?_, ?_, ?_, ?_,
    ⟨hos, hts, hcan, hfin, rfl, rfl, rfl, rfl⟩, ?_⟩
  · intro i; cases i
    · simpa using payout_spec hb0
    · simpa using payout_spec hb1
  · intro i; cases i
    · exact ⟨hx0, rfl⟩
    · exact ⟨hx1, rfl⟩
  · rw [hp, ← hcd]; exact htw
  · rw [hp, ← hcd]; exact ⟨rfl, hlt⟩
  · rw [hp, ← hcd]
  · rw [hp, ← hcd]; exact ⟨rfl, rfl, rfl, rfl⟩
  · rw [hp, ← hcd]
  · intro i; cases i
    · exact hy0
    · exact hy1
  · rw [hp, ← hcd]; exact ⟨rfl, rfl, rfl⟩

/-- What a successful withdrawal means. -/
structure WithdrawSpec (su : Setup) (me : A) (s : State A) (now : Nat) (u : A) (n : Nat)
    (mins : Option (List (Bool × Nat))) (e : Env A) (s' : State A) (a : Nat × Nat)
    (bal bal' : Bool → A → Nat) (os : List Order) (ts : List Trade) (t pools xs : Bool → Nat) (pool : Pool)
    (r : Bool → Nat) (book' : List (Nat × Order)) (c : PCL.State A) (fin : State A) : Prop where
  hpos : n ≠ 0
  hlp : debit s.pcl.lp u n = .ok s'.pcl.lp
  ht : totals (fun i => s.pcl.bal i me) os = .ok t
  hpools : decPools su t = .ok pools
  hsettle : settle su me s.pcl now e.f ts pools s.pcl.bal = .ok (pool, xs, bal)
  hr : ∀ i, shareInAsset (xs i) (n - 1) s.pcl.supply = .ok (r i) ∧ r i ≤ xs i
  ha0 : toU128 (r false) (su.prec false) = .ok a.1
  ha1 : toU128 (r true) (su.prec true) = .ok a.2
  hmins : ensureMin a.1 a.2 mins = .ok ()
  hb0 : move (bal' false) me u a.1 = .ok (c.bal false) ∧ a.1 ≠ 0
  hb1 : move (bal' true) me u a.2 = .ok (c.bal true) ∧ a.2 ≠ 0
  hsup : n ≤ s.pcl.supply ∧ s'.pcl.supply = s.pcl.supply - n
  hc : c.params = s.pcl.params ∧ c.pool = pool ∧ c.supply = s.pcl.supply - n
  hreal : realAfter pool now (fun i => xs i - r i) (s.pcl.supply - n) = .ok s'.pcl.pool.price.real
  hpool : s'.pcl.pool = { pool with price := { pool.price with real := s'.pcl.pool.price.real } }
  hrenew : Renew su me s now e s' os ts bal bal' book' c (fun i => xs i - r i) fin
  hrest : s'.pcl.params = s.pcl.params ∧ s'.pcl.owner = s.pcl.owner ∧ s'.pcl.share = s.pcl.share ∧
    s'.pcl.twap = s.pcl.twap

theorem withdraw_spec {su : Setup} {me : A} {s : State A} {now : Nat} {u : A} {n : Nat}
    {mins : Option (List (Bool × Nat))} {e : Env A} {s' : State A} {a : Nat × Nat}
    (h : withdraw su me s now u n mins e = .ok (s', a)) :
    ∃ bal bal' os ts t pools xs pool r book' c fin,
      WithdrawSpec su me s now u n mins e s' a bal bal' os ts t pools xs pool r book' c fin := by
  simp only [withdraw, bank, bind_ok_iff, require_ok, exists_const, Except.ok.injEq, Prod.mk.injEq, Prod.exists,
    csub_ok] at h
  obtain ⟨hpos, lp, hlp, os, hos, ts, hts, t, ht, pools, hpools, pool, xs, bal, hset, r0, hr0, r1, hr1, y0,
    ⟨hy0, rfl⟩, y1, ⟨hy1, rfl⟩, a0, ha0, a1, ha1, _, hmins, bal', book', hcan, b0, ⟨hn0, hb0⟩, b1, ⟨hn1, hb1⟩, rest,
    ⟨hsup, rfl⟩, fin, hfin, real, hreal, rfl, rfl⟩ := h
  have e1 : (fun i => if i = true then xs true - r1 else xs false - r0) =
      fun i => xs i - (fun i => if i then r1 else r0) i := by
    funext i; cases i <;> rfl
  rw [e1] at hfin hreal
  generalize hcd : ({ s.pcl with
    bal := fun i => if i then b1 else b0, lp := lp, supply := s.pcl.supply - n, pool := pool } :
    PCL.State A) = c at hfin
  obtain ⟨_, _, _, p, sp⟩ := finish_spec hfin
  have hp := sp.hpcl
  refine ⟨bal, bal', os, ts, t, pools, xs, pool, fun i => if i then r1 else r0, book', c, fin, hpos, ?_, ht, hpools,
    hset, ?_, ha0, ha1, hmins, ⟨?_, hn0⟩, ⟨?_, hn1⟩, ⟨hsup, ?_⟩, ?_, hreal, rfl,
    ⟨hos, hts, hcan, hfin, rfl, rfl, rfl, rfl⟩, ?_⟩
  · simp only [hp, ← hcd]; exact hlp
  · intro i; cases i
    · exact ⟨hr0, hy0⟩
    · exact ⟨hr1, hy1⟩
  · rw [← hcd]; simpa using hb0
  · rw [← hcd]; simpa using hb1
  · simp only [hp, ← hcd]
  · rw [← hcd]; exact ⟨rfl, rfl, rfl⟩
  · simp only [hp, ← hcd, and_self]

/-- What a successful swap means. -/
structure SwapSpec (su : Setup) (me : A) (s : State A) (now : Nat) (u : A) (i : Bool) (n : Nat)
    (b m : Option Nat) (rc : A) (e : Env A) (s' : State A) (o : SwapOut)
    (bo : A → Nat) (bal bal' : Bool → A → Nat) (os : List Order) (ts : List Trade) (t pools xs : Bool → Nat)
    (pool : Pool) (off fs old : Nat) (r : Swapped) (out : Nat) (book' : List (Nat × Order)) (c : PCL.State A)
    (l1 l2 : A → Nat) : Prop where
  hoff : withPrec n (su.prec i) = .ok off
  hbo : move (s.pcl.bal i) u me n = .ok bo
  ht : totals (fun j => set2 s.pcl.bal i bo j me) os = .ok t
  hpools : decPools su t = .ok pools
  hx : off ≤ pools i
  hchk : beforeSwapCheck (set2 pools i (pools i - off)) off = .ok ()
  hsettle : settle su me s.pcl now e.f ts (set2 pools i (pools i - off)) (set2 s.pcl.bal i bo) = .ok (pool, xs, bal)
  hold : calcLastPrices s.pcl.params pool now xs = .ok old
  hfs : feeShare s.pcl.share = .ok fs
  hr : computeSwap s.pcl.params pool now xs i off (makerShare e.f) fs = .ok r
  hout : r.out = .ok out
  hya : out ≤ xs (!i) ∧ xs i + off < U256
  hret : toU128 r.dy (su.prec (!i)) = .ok o.ret
  hspr : toU128 r.spread (su.prec (!i)) = .ok o.spread
  hspread : assertMaxSpread b m n o.ret o.spread = .ok ()
  hpool : priceAfterSwap { s.pcl with pool := pool } now xs r i off out = .ok s'.pcl.pool
  hsh : toU128 r.share (su.prec (!i)) = .ok o.share
  hmk : toU128 r.maker (su.prec (!i)) = .ok o.maker
  hcm : toU128 r.total (su.prec (!i)) = .ok o.commission
  htw : accumulate s.pcl.twap now old = .ok s'.pcl.twap
  hl1 : move (bal' (!i)) me rc o.ret = .ok l1
  hpos : o.ret ≠ 0
  hl2 : sendOpt l1 me (s.pcl.share.map (·.2)) o.share = .ok l2
  hl3 : sendOpt l2 me e.f.addr o.maker = .ok (c.bal (!i))
  hci : c.bal i = bal' i
  hc : c.params = s.pcl.params ∧ c.pool = s'.pcl.pool ∧ c.supply = s.pcl.supply
  hrenew : Renew su me s now e s' os ts bal bal' book' c (fun j => if j = i then xs i + off else xs (!i) - out) s'
  hrest : s'.pcl.params = s.pcl.params ∧ s'.pcl.owner = s.pcl.owner ∧ s'.pcl.share = s.pcl.share ∧
    s'.pcl.lp = s.pcl.lp ∧ s'.pcl.supply = s.pcl.supply

theorem swap_spec {su : Setup} {me : A} {s : State A} {now : Nat} {u : A} {i : Bool} {n : Nat}
    {b m : Option Nat} {rc : A} {e : Env A} {s' : State A} {o : SwapOut}
    (h : swap su me s now u i n b m rc e = .ok (s', o)) :
    ∃ bo bal bal' os ts t pools xs pool off fs old r out book' c l1 l2,
      SwapSpec su me s now u i n b m rc e s' o bo bal bal' os ts t pools xs pool off fs old r out book' c l1 l2 := by
  simp only [swap, bank, bind_ok_iff, require_ok, exists_const, Except.ok.injEq, Prod.mk.injEq, Prod.exists,
    csub_ok, dadd, u256_ok] at h
  obtain ⟨off, hoff, bo, hbo, os, hos, ts, hts, t, ht, pools, hpools, x, ⟨hx, rfl⟩, ⟨⟩, hchk, pool, xs, bal, hset,
    old, hold, fs, hfs, r, hr, out, hout, yo, ⟨hyo, rfl⟩, ya, ⟨hya, rfl⟩, ret, hret, spread, hspr, ⟨⟩, hspread,
    pool', hpool, sh, hsh, mk, hmk, tw, htw, bal', book', hcan, l1, ⟨hpos, hl1⟩, l2, hl2, l3, hl3, cm, hcm,
    fin, hfin, rfl, rfl⟩ := h
  generalize hcd : ({ s.pcl with bal := set2 bal' (!i) l3, pool := pool', twap := tw } : PCL.State A) = c at hfin
  obtain ⟨_, _, _, p, sp⟩ := finish_spec hfin
  have hp := sp.hpcl
  refine ⟨bo, bal, bal', os, ts, t, pools, xs, pool, off, fs, old, r, out, book', c, l1, l2, hoff, hbo, ht, hpools,
    hx, hchk, hset, hold, hfs, hr, hout, ⟨hya, hyo⟩, hret, hspr, hspread, ?_, hsh, hmk, hcm, ?_, hl1, hpos, hl2, ?_,
    ?_, ?_, ⟨hos, hts, hcan, hfin, rfl, rfl, rfl, rfl⟩, ?_⟩
  · rw [hp, ← hcd]; exact hpool
  · rw [hp, ← hcd]; exact htw
  · rw [← hcd]; simpa using hl3
  · rw [← hcd]; simp
  · rw [hp, ← hcd]; exact ⟨rfl, rfl, rfl⟩
  · rw [hp, ← hcd]; exact ⟨rfl, rfl, rfl, rfl, rfl⟩

/-- What a successful synchronisation means. -/
structure SyncSpec (su : Setup) (me : A) (s : State A) (now : Nat) (u : A) (e : Env A) (s' : State A)
    (bal bal' : Bool → A → Nat) (os : List Order) (ts : List Trade) (t pools xs : Bool → Nat) (old : Nat)
    (book' : List (Nat × Order)) (c : PCL.State A) : Prop where
  hauth : s.ob.executor = none ∨ s.ob.executor = some u
  hne : ts ≠ []
  ht : totals (fun i => s.pcl.bal i me) os = .ok t
  hpools : decPools su t = .ok pools
  hold : calcLastPrices s.pcl.params s.pcl.pool now pools = .ok old
  hsettle : process su me s.pcl now e.f ts pools s.pcl.bal = .ok (s'.pcl.pool, xs, bal)
  htw : accumulate s.pcl.twap now old = .ok s'.pcl.twap
  hc : c.bal = bal' ∧ c.params = s.pcl.params ∧ c.pool = s'.pcl.pool ∧ c.supply = s.pcl.supply
  hrenew : Renew su me s now e s' os ts bal bal' book' c xs s'
  hrest : s'.pcl.params = s.pcl.params ∧ s'.pcl.owner = s.pcl.owner ∧ s'.pcl.share = s.pcl.share ∧
    s'.pcl.lp = s.pcl.lp ∧ s'.pcl.supply = s.pcl.supply

theorem sync_spec {su : Setup} {me : A} {s : State A} {now : Nat} {u : A} {e : Env A} {s' : State A}
    (h : sync su me s now u e = .ok s') :
    ∃ bal bal' os ts t pools xs old book' c,
      SyncSpec su me s now u e s' bal bal' os ts t pools xs old book' c := by
  simp only [sync, bind_ok_iff, require_ok, exists_const, Prod.exists] at h
  obtain ⟨hauth, os, hos, ts, hts, hne, t, ht, pools, hpools, old, hold, pool, xs, bal, hset, tw, htw, bal', book',
    hcan, hfin⟩ := h
  generalize hcd : ({ s.pcl with bal := bal', pool := pool, twap := tw } : PCL.State A) = c at hfin
  obtain ⟨_, _, _, p, sp⟩ := finish_spec hfin
  have hp := sp.hpcl
  refine ⟨bal, bal', os, ts, t, pools, xs, old, book', c, ?_, hne, ht, hpools, hold, ?_, ?_, ?_,
    ⟨hos, hts, hcan, hfin, rfl, rfl, rfl, rfl⟩, ?_⟩
  · rcases hauth with h | h
    · left; simpa using h
    · right; exact h
  · rw [hp, ← hcd]; exact hset
  · rw [hp, ← hcd]; exact htw
  · rw [hp, ← hcd]; exact ⟨rfl, rfl, rfl, rfl⟩
  · rw [hp, ← hcd]; exact ⟨rfl, rfl, rfl, rfl, rfl⟩

/-- A successful change of the orderbook settings: with `enable: false` all known orders are cancelled. -/
theorem config_spec {me fo : A} {s s' : State A} {u : A} {v : UpdateOB A} (h : config me fo s u v = .ok s') :
    u = s.pcl.owner.getD fo ∧
    ((v.enable = some false ∧ ∃ bal book, updateOB { s.ob with orders := [] } v = .ok s'.ob ∧
        cancelAll me s.ob.orders s.pcl.bal s.book = .ok (bal, book) ∧
        s' = { s with pcl := { s.pcl with bal := bal }, ob := s'.ob, book := book }) ∨
     (v.enable ≠ some false ∧ updateOB s.ob v = .ok s'.ob ∧ s' = { s with ob := s'.ob })) := by
  simp only [config, bind_ok_iff, require_ok, exists_const] at h
  obtain ⟨hu, h⟩ := h
  refine ⟨hu, ?_⟩
  split at h
  · rename_i hv
    simp only [bind_ok_iff, Except.ok.injEq, Prod.exists] at h
    obtain ⟨ob, hob, bal, book, hc, rfl⟩ := h
    exact Or.inl ⟨hv, bal, book, hob, hc, rfl⟩
  · rename_i hv
    simp only [bind_ok_iff, Except.ok.injEq] at h
    obtain ⟨ob, hob, rfl⟩ := h
    exact Or.inr ⟨hv, hob, rfl⟩

omit [DecidableEq A] in
/-- A successful settings change: what changes and that the result is valid. -/
theorem updateOB_spec {ob ob' : OB A} {v : UpdateOB A} (h : updateOB ob v = .ok ob') :
    validate ob' = .ok () ∧ ob'.orders = ob.orders ∧ ob'.pre = ob.pre ∧ ob'.delayed = ob.delayed ∧
    ob'.sizes = ob.sizes ∧ ob'.enabled = v.enable.getD ob.enabled := by
  simp only [updateOB, bind_ok_iff, require_ok, exists_const, Except.ok.injEq] at h
  obtain ⟨_, ⟨⟩, hv, rfl⟩ := h
  exact ⟨hv, rfl, rfl, rfl, rfl, rfl⟩

/-- What a successful transaction is. -/
theorem exec_cases {su : Setup} {me : A} {now : Nat} {fo : A} {s s' : State A} {o : Op A}
    (h : exec su me now fo s o = .ok s') : o.signer ≠ some me ∧
    ((∃ u d t m r e sh, o = .provide u d t m r e ∧ provide su me s now u d t m r e = .ok (s', sh)) ∨
     (∃ u n m e a, o = .withdraw u n m e ∧ withdraw su me s now u n m e = .ok (s', a)) ∨
     (∃ u i n b m r e x, o = .swap u i n b m r e ∧ swap su me s now u i n b m r e = .ok (s', x)) ∨
     (∃ u e, o = .sync u e ∧ sync su me s now u e = .ok s') ∨
     (∃ u v, o = .config u v ∧ config me fo s u v = .ok s') ∨
     (∃ a c, o = .admin a ∧ isAdmin a = true ∧ PCL.exec su me now fo s.pcl a = .ok c ∧ s' = { s with pcl := c }) ∨
     (∃ k n p, o = .fill k n p ∧ fill s k n p = .ok s')) := by
  simp only [exec, bind_ok_iff, require_ok, exists_const] at h
  obtain ⟨hs, h⟩ := h
  refine ⟨hs, ?_⟩
  cases o with
  | provide u d t m r e =>
    simp only [bind_ok_iff, Prod.exists, Except.ok.injEq] at h
    obtain ⟨_, sh, h, rfl⟩ := h
    exact Or.inl ⟨u, d, t, m, r, e, sh, rfl, h⟩
  | withdraw u n m e =>
    simp only [bind_ok_iff, Prod.exists, Except.ok.injEq] at h
    obtain ⟨_, a, b, h, rfl⟩ := h
    exact Or.inr (Or.inl ⟨u, n, m, e, (a, b), rfl, h⟩)
  | swap u i n b m r e =>
    simp only [bind_ok_iff, Prod.exists, Except.ok.injEq] at h
    obtain ⟨_, x, h, rfl⟩ := h
    exact Or.inr (Or.inr (Or.inl ⟨u, i, n, b, m, r, e, x, rfl, h⟩))
  | sync u e => exact Or.inr (Or.inr (Or.inr (Or.inl ⟨u, e, rfl, h⟩)))
  | config u v => exact Or.inr (Or.inr (Or.inr (Or.inr (Or.inl ⟨u, v, rfl, h⟩))))
  | admin a =>
    simp only [bind_ok_iff, require_ok, exists_const, Except.ok.injEq] at h
    obtain ⟨ha, c, hc, rfl⟩ := h
    exact Or.inr (Or.inr (Or.inr (Or.inr (Or.inr (Or.inl ⟨a, c, rfl, ha, hc, rfl⟩)))))
  | fill k n p => exact Or.inr (Or.inr (Or.inr (Or.inr (Or.inr (Or.inr ⟨k, n, p, rfl, h⟩)))))

/-- What the chain decides about the transactions that renew the orders. -/
def Op.env : Op A → Option (Env A)
  | .provide _ _ _ _ _ e | .withdraw _ _ _ e | .swap _ _ _ _ _ _ e | .sync _ e => some e
  | _ => none

/-- Deposits, withdrawals, swaps and synchronisations all cancel and renew the orders. -/
theorem renew_of {su : Setup} {me : A} {now : Nat} {fo : A} {s s' : State A} {o : Op A}
    (h : exec su me now fo s o = .ok s') :
    (∃ e os ts bal bal' book' c xs fin, o.env = some e ∧ Renew su me s now e s' os ts bal bal' book' c xs fin) ∨
     (∃ u v, o = .config u v ∧ config me fo s u v = .ok s') ∨
     (∃ a c, o = .admin a ∧ isAdmin a = true ∧ PCL.exec su me now fo s.pcl a = .ok c ∧ s' = { s with pcl := c }) ∨
     (∃ k n p, o = .fill k n p ∧ fill s k n p = .ok s') := by
  obtain ⟨_, hx⟩ := exec_cases h
  rcases hx with ⟨u, d, t, m, r, e, sh, rfl, hx⟩ | ⟨u, n, m, e, a, rfl, hx⟩ | ⟨u, i, n, b, m, r, e, x, rfl, hx⟩ |
    ⟨u, e, rfl, hx⟩ | hx
  · obtain ⟨_, _, _, _, _, _, _, _, _, _, _, _, _, _, _, _, sp⟩ := provide_spec hx
    exact Or.inl ⟨_, _, _, _, _, _, _, _, _, rfl, sp.hrenew⟩
  · obtain ⟨_, _, _, _, _, _, _, _, _, _, _, _, sp⟩ := withdraw_spec hx
    exact Or.inl ⟨_, _, _, _, _, _, _, _, _, rfl, sp.hrenew⟩
  · obtain ⟨_, _, _, _, _, _, _, _, _, _, _, _, _, _, _, _, _, _, sp⟩ := swap_spec hx
    exact Or.inl ⟨_, _, _, _, _, _, _, _, _, rfl, sp.hrenew⟩
  · obtain ⟨_, _, _, _, _, _, _, _, _, _, sp⟩ := sync_spec hx
    exact Or.inl ⟨_, _, _, _, _, _, _, _, _, rfl, sp.hrenew⟩
  · exact Or.inr hx

end Verif.Duality
