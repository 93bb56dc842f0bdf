import Verif.Inj.Model

/-!
# What a successful transaction of the Injective pool consists of

Inversion lemmas for the entry points of `Verif.Inj.Model`.
-/

namespace Verif.Inj

open Verif.Stable (dmul ddiv dadd toU128 withPrec payout payout_spec absDiff)
open Verif.XYK (sendOpt)
open Verif.PCL (AG PParams Pool Price Setup FeeInfo Swapped SwapOut decPools decPools_ok ampGamma calcD calcY getXcp
  feeRate updatePrice computeSwap beforeSwapCheck assertMaxSpread calculateShares shareInAsset makerShare
  priceAfterSwap MIN_TRADE_SIZE MINIMUM_LIQUIDITY LP_PREC)
open Verif.Duality (set2 set2_apply bank realAfter)

variable {A : Type} [DecidableEq A]

theorem pools_ok {su : Setup} {b o x : Bool → Nat} (h : pools su b o = .ok x) :
    ∀ i, su.prec i ≤ 18 ∧ x i = (b i + o i) * 10 ^ (18 - su.prec i) ∧ x i < U256 := by
  simp only [pools, bind_ok_iff, dadd, u256_ok, Except.ok.injEq] at h
  obtain ⟨p, hp, q, hq, _, ⟨h1, rfl⟩, _, ⟨h2, rfl⟩, rfl⟩ := h
  have hp := decPools_ok hp
  have hq := decPools_ok hq
  intro i
  refine ⟨(hp i).1, ?_, ?_⟩
  · rw [Nat.add_mul, ← (hp i).2.1, ← (hq i).2.1]; cases i <;> rfl
  · cases i
    · exact h1
    · exact h2

theorem pools_eq {su : Setup} {b o : Bool → Nat} (h : ∀ i, su.prec i ≤ 18)
    (h2 : ∀ i, (b i + o i) * 10 ^ (18 - su.prec i) < U256) :
    pools su b o = .ok (fun i => (b i + o i) * 10 ^ (18 - su.prec i)) := by
  simp only [pools, bind_ok_iff, dadd, u256_ok, Except.ok.injEq]
  have hb : ∀ i, b i * 10 ^ (18 - su.prec i) < U256 := fun i =>
    lt_of_le_of_lt (Nat.mul_le_mul_right _ (Nat.le_add_right _ _)) (h2 i)
  have ho : ∀ i, o i * 10 ^ (18 - su.prec i) < U256 := fun i =>
    lt_of_le_of_lt (Nat.mul_le_mul_right _ (Nat.le_add_left _ _)) (h2 i)
  refine ⟨_, PCL.decPools_eq h hb, _, PCL.decPools_eq h ho, _, ⟨?_, rfl⟩, _, ⟨?_, rfl⟩, ?_⟩
  · have := h2 false; rwa [Nat.add_mul] at this
  · have := h2 true; rwa [Nat.add_mul] at this
  · funext i; cases i <;> simp [Nat.add_mul]

omit [DecidableEq A] in
/-- Trades are processed exactly when the recorded subaccount balance differs from the current one. -/
theorem settle_cases {su : Setup} {c : PCL.State A} {now : Nat} {f : FeeInfo A} {last sub xs xs' : Bool → Nat}
    {pool : Pool} {fee : Option (Fee A)} (h : settle su c now f last sub xs = .ok (pool, xs', fee)) :
    (¬ changed last sub ∧ pool = c.pool ∧ xs' = xs ∧ fee = none) ∨
    (changed last sub ∧ process su c now f last sub xs = .ok (pool, xs', fee)) := by
  unfold settle at h
  split at h
  · rename_i hc; exact Or.inr ⟨hc, h⟩
  · rename_i hc
    simp only [Except.ok.injEq, Prod.mk.injEq] at h
    exact Or.inl ⟨hc, h.1.symm, h.2.1.symm, h.2.2.symm⟩

/-- What a successful deposit means. -/
structure ProvideSpec (su : Setup) (me : A) (s : State A) (now : Nat) (u : A) (d : Bool → Nat)
    (tol : Option Nat) (rc : A) (e : Env A) (s' : State A) (share : Nat)
    (b0 : Bool → A → Nat) (total : Nat) (ps dd xs : Bool → Nat) (pool : Pool) (fee : Option (Fee A))
    (shareD : Nat) : Prop where
  hb0 : ∀ i, move (s.pcl.bal i) u me (d i) = .ok (b0 i)
  hps : pools su (fun i => b0 i me) s.sub = .ok ps
  hdd : decPools su d = .ok dd
  htot : withPrec s.pcl.supply LP_PREC = .ok total
  hx : ∀ i, dd i ≤ ps i
  hsettle : settle su s.pcl now e.f s.ob.last s.sub (fun i => ps i - dd i) = .ok (pool, xs, fee)
  hcs : calculateShares s.pcl.params pool now total xs dd tol = .ok (shareD, s'.pcl.pool)
  hshare : toU128 shareD LP_PREC = .ok share
  hpay : payFee me b0 fee = .ok s'.pcl.bal
  hsup : s'.pcl.supply = s.pcl.supply + (if s.pcl.supply = 0 then 1000 else 0) + share ∧ s'.pcl.supply < U128
  hlp : s'.pcl.lp = credit (credit s.pcl.lp me (if s.pcl.supply = 0 then 1000 else 0)) rc share
  hob : s'.ob = { s.ob with last := s.sub, need := true, enabled := e.allowed }
  hrest : s'.pcl.params = s.pcl.params ∧ s'.pcl.owner = s.pcl.owner ∧ s'.sub = s.sub ∧ s'.posted = s.posted

theorem provide_spec {su : Setup} {me : A} {s : State A} {now : Nat} {u : A} {d : Bool → Nat}
    {tol : Option Nat} {rc : A} {e : Env A} {s' : State A} {share : Nat}
    (h : provide su me s now u d tol rc e = .ok (s', share)) :
    ∃ b0 total ps dd xs pool fee shareD,
      ProvideSpec su me s now u d tol rc e s' share b0 total ps dd xs pool fee shareD := by
  simp only [provide, bind_ok_iff, Except.ok.injEq, Prod.mk.injEq, Prod.exists, u128_ok, csub_ok] at h
  obtain ⟨b0, hb0, b1, hb1, ps, hps, dd, hdd, total, htot, _, ⟨hx0, rfl⟩, _, ⟨hx1, rfl⟩, pool, xs, fee, hset,
    shareD, pool', hcs, sh, hsh, bal, hpay, _, ⟨hlt, rfl⟩, rfl, rfl⟩ := h
  have hz : (total = 0) = (s.pcl.supply = 0) := by
    simp only [Stable.withPrec_ok, LP_PREC] at htot
    obtain ⟨_, _, rfl⟩ := htot
    simp
  have hm : MINIMUM_LIQUIDITY = 1000 := rfl
  have e1 : (fun i => if i = true then ps true - dd true else ps false - dd false) = fun i => ps i - dd i := by
    funext i; cases i <;> rfl
  rw [e1] at hset
  simp only [hz, hm] at hlt
  refine ⟨fun i => if i then b1 else b0, total, ps, dd, xs, pool, fee, shareD, ?_, hps, hdd, htot, ?_, hset, hcs,
    hsh, hpay, ?_, ?_, rfl, rfl, rfl, rfl, rfl⟩
  · intro i; cases i
    · simpa using payout_spec hb0
    · simpa using payout_spec hb1
  · intro i; cases i
    · exact hx0
    · exact hx1
  · simp only [hz, hm, true_and]; exact hlt
  · simp only [hz, hm]

/-- What a successful withdrawal means: `z` is the state before, or after everything was taken from the orderbook. -/
structure WithdrawSpec (su : Setup) (me : A) (s : State A) (now : Nat) (u : A) (n : Nat) (s' : State A) (a : Nat × Nat)
    (xs r own : Bool → Nat) (z : State A) : Prop where
  hlp : debit s.pcl.lp u n = .ok s'.pcl.lp
  hxs : pools su (fun i => s.pcl.bal i me) s.sub = .ok xs
  hr : ∀ i, shareInAsset (xs i) (n - 1) s.pcl.supply = .ok (r i) ∧ r i ≤ xs i
  hown : decPools su (fun i => s.pcl.bal i me) = .ok own
  hz : z = if r false > own false ∨ r true > own true then leave me s else s
  ha0 : toU128 (r false) (su.prec false) = .ok a.1
  ha1 : toU128 (r true) (su.prec true) = .ok a.2
  hb0 : move (z.pcl.bal false) me u a.1 = .ok (s'.pcl.bal false) ∧ a.1 ≠ 0
  hb1 : move (z.pcl.bal true) me u a.2 = .ok (s'.pcl.bal true) ∧ a.2 ≠ 0
  hsup : n ≤ s.pcl.supply ∧ s'.pcl.supply = s.pcl.supply - n
  hreal : realAfter s.pcl.pool now (fun i => xs i - r i) (s.pcl.supply - n) = .ok s'.pcl.pool.price.real
  hpool : s'.pcl.pool = { s.pcl.pool with price := { s.pcl.pool.price with real := s'.pcl.pool.price.real } }
  hob : s'.ob = { s.ob with need := true }
  hrest : s'.pcl.params = s.pcl.params ∧ s'.pcl.owner = s.pcl.owner ∧ s'.sub = z.sub ∧ s'.posted = z.posted

theorem withdraw_spec {su : Setup} {me : A} {s : State A} {now : Nat} {u : A} {n : Nat} {s' : State A} {a : Nat × Nat}
    (h : withdraw su me s now u n = .ok (s', a)) :
    ∃ xs r own z, WithdrawSpec su me s now u n s' a xs r own z := by
  simp only [withdraw, bank, bind_ok_iff, require_ok, exists_const, Except.ok.injEq, Prod.mk.injEq, csub_ok] at h
  obtain ⟨lp, hlp, xs, hxs, r0, hr0, r1, hr1, own, hown, _, ⟨hy0, rfl⟩, _, ⟨hy1, rfl⟩, _, ⟨hsup, rfl⟩, real, hreal,
    a0, ha0, a1, ha1, b0, ⟨hn0, hb0⟩, b1, ⟨hn1, hb1⟩, rfl, rfl⟩ := h
  have e1 : (fun i => if i = true then xs true - r1 else xs false - r0) =
      fun i => xs i - (fun i => if i then r1 else r0) i := by
    funext i; cases i <;> rfl
  rw [e1] at hreal
  refine ⟨xs, fun i => if i then r1 else r0, own, _, hlp, hxs, ?_, hown, rfl, ha0, ha1, ⟨?_, hn0⟩, ⟨?_, hn1⟩,
    ⟨hsup, rfl⟩, hreal, rfl, ?_, ?_, ?_, rfl, rfl⟩
  · intro i; cases i
    · exact ⟨hr0, hy0⟩
    · exact ⟨hr1, hy1⟩
  · simpa using hb0
  · simpa using hb1
  · dsimp only
    split <;> rfl
  · dsimp only
    split <;> rfl
  · dsimp only
    split <;> rfl

/-- What a successful swap means. -/
structure SwapSpec (su : Setup) (me : A) (s : State A) (now : Nat) (u : A) (i : Bool) (n : Nat)
    (b m : Option Nat) (rc : A) (e : Env A) (s' : State A) (o : SwapOut)
    (bo : A → Nat) (bal : Bool → A → Nat) (ps xs : Bool → Nat) (pool : Pool) (fee : Option (Fee A)) (off : Nat)
    (r : Swapped) (out : Nat) (l1 : A → Nat) : Prop where
  hoff : withPrec n (su.prec i) = .ok off
  hbo : move (s.pcl.bal i) u me n = .ok bo
  hps : pools su (fun j => set2 s.pcl.bal i bo j me) s.sub = .ok ps
  hx : off ≤ ps i
  hchk : beforeSwapCheck (set2 ps i (ps i - off)) off = .ok ()
  hsettle : settle su s.pcl now e.f s.ob.last s.sub (set2 ps i (ps i - off)) = .ok (pool, xs, fee)
  hr : computeSwap s.pcl.params pool now xs i off (makerShare e.f) 0 = .ok r
  hout : r.out = .ok out
  hret : toU128 r.dy (su.prec (!i)) = .ok o.ret
  hspr : toU128 r.spread (su.prec (!i)) = .ok o.spread
  hspread : assertMaxSpread b m n o.ret o.spread = .ok ()
  hpool : priceAfterSwap { s.pcl with pool := pool } now xs r i off out = .ok s'.pcl.pool
  hmk : toU128 r.maker (su.prec (!i)) = .ok o.maker
  hcm : toU128 r.total (su.prec (!i)) = .ok o.commission
  hpay : payFee me (set2 s.pcl.bal i bo) fee = .ok bal
  hl1 : move (bal (!i)) me rc o.ret = .ok l1
  hpos : o.ret ≠ 0
  hl2 : sendOpt l1 me e.f.addr o.maker = .ok (s'.pcl.bal (!i))
  hci : s'.pcl.bal i = bal i
  hob : s'.ob = { s.ob with last := s.sub, need := true, enabled := e.allowed, ready := s.ob.ready || e.full }
  hrest : s'.pcl.params = s.pcl.params ∧ s'.pcl.owner = s.pcl.owner ∧ s'.pcl.lp = s.pcl.lp ∧
    s'.pcl.supply = s.pcl.supply ∧ s'.sub = s.sub ∧ s'.posted = s.posted

theorem swap_spec {su : Setup} {me : A} {s : State A} {now : Nat} {u : A} {i : Bool} {n : Nat}
    {b m : Option Nat} {rc : A} {e : Env A} {s' : State A} {o : SwapOut}
    (h : swap su me s now u i n b m rc e = .ok (s', o)) :
    ∃ bo bal ps xs pool fee off r out l1,
      SwapSpec su me s now u i n b m rc e s' o bo bal ps xs pool fee off r out l1 := by
  simp only [swap, bank, bind_ok_iff, require_ok, exists_const, Except.ok.injEq, Prod.mk.injEq, Prod.exists,
    csub_ok] at h
  obtain ⟨off, hoff, bo, hbo, ps, hps, _, ⟨hx, rfl⟩, ⟨⟩, hchk, pool, xs, fee, hset, r, hr, out, hout, ret, hret,
    spread, hspr, ⟨⟩, hspread, pool', hpool, mk, hmk, cm, hcm, bal, hpay, l1, ⟨hpos, hl1⟩, l2, hl2, rfl, rfl⟩ := h
  refine ⟨bo, bal, ps, xs, pool, fee, off, r, out, l1, hoff, hbo, hps, hx, hchk, hset, hr, hout, hret, hspr, hspread,
    hpool, hmk, hcm, hpay, hl1, hpos, ?_, ?_, rfl, rfl, rfl, rfl, rfl, rfl, rfl⟩
  · simpa using hl2
  · simp

/-- What a successful emergency withdrawal means. -/
theorem emergency_spec {su : Setup} {me : A} {s : State A} {now : Nat} {a : Bool} {e : Env A} {s' : State A}
    (h : emergency su me s now a e = .ok s') :
    a = false ∧ ∃ xs xs' fee, pools su (fun i => s.pcl.bal i me) s.sub = .ok xs ∧
      settle su s.pcl now e.f s.ob.last s.sub xs = .ok (s'.pcl.pool, xs', fee) ∧
      payFee me (leave me s).pcl.bal fee = .ok s'.pcl.bal ∧
      s' = { pcl := { s.pcl with bal := s'.pcl.bal, pool := s'.pcl.pool },
             ob := { s.ob with enabled := false, need := false, last := fun _ => 0 }, sub := fun _ => 0,
             posted := [] } := by
  simp only [emergency, bind_ok_iff, require_ok, exists_const, Except.ok.injEq, Prod.exists] at h
  obtain ⟨ha, xs, hxs, pool, xs', fee, hset, bal, hpay, rfl⟩ := h
  exact ⟨ha, xs, xs', fee, hxs, hset, hpay, rfl⟩

/-- What happens at the beginning of a block: nothing, or trades are settled and the pair leaves the orderbook or
replaces its orders. -/
theorem beginBlock_spec {su : Setup} {me : A} {s : State A} {now : Nat} {e : Env A} {s' : State A}
    (h : beginBlock su me s now e = .ok s') :
    s' = s ∨
    (s.ob.ready = true ∧ s.ob.enabled = true ∧ (s.ob.need = true ∨ changed s.ob.last s.sub) ∧
      ∃ xs pool xs' fee, pools su (fun i => s.pcl.bal i me) s.sub = .ok xs ∧
        settle su s.pcl now e.f s.ob.last s.sub xs = .ok (pool, xs', fee) ∧
        (s' = leave me { s with pcl := { s.pcl with pool := pool } } ∨
         ∃ bal b0 b1 l need base quote ag d, payFee me s.pcl.bal fee = .ok bal ∧
          adjust me (bal false) (s.sub false) (need false) = .ok b0 ∧
          adjust me (bal true) (s.sub true) (need true) = .ok b1 ∧
          ampGamma pool now = .ok ag ∧
          calcD ag (xs' false) (xs' true * pool.price.scale / DEC) = .ok d ∧
          buildOrders s.pcl.params pool ag d (fun i => if i then xs' true * pool.price.scale / DEC else xs' false)
            s.ob base quote s.ob.number 1 [] = .ok (some l) ∧ base ≠ 0 ∧
          totalDeposit su l = .ok need ∧ collect su s.ob l = .ok s'.posted ∧
          s' = { pcl := { s.pcl with pool := pool, bal := fun i => if i then b1 else b0 },
                 ob := { s.ob with need := false, last := need }, sub := need, posted := s'.posted })) := by
  unfold beginBlock at h
  split at h
  · simp only [Except.ok.injEq] at h; exact Or.inl h.symm
  rename_i h1
  split at h
  · simp only [Except.ok.injEq] at h; exact Or.inl h.symm
  rename_i h2
  simp only [not_not] at h1 h2
  refine Or.inr ⟨h1.1, h1.2, h2, ?_⟩
  simp only [bind_ok_iff, Prod.exists, orErr_ok] at h
  obtain ⟨xs, hxs, pool, xs', fee, hset, b, q, havg, base, hb, quote, hq, base', hf, h⟩ := h
  refine ⟨xs, pool, xs', fee, hxs, hset, ?_⟩
  split at h
  · simp only [Except.ok.injEq] at h; exact Or.inl h.symm
  rename_i hne
  simp only [replace, bind_ok_iff, Stable.dmul_ok] at h
  obtain ⟨ag, hag, _, ⟨_, rfl⟩, d, hd, r, hr, h⟩ := h
  cases r with
  | none => simp only [Except.ok.injEq] at h; exact Or.inl h.symm
  | some l =>
    simp only [bind_ok_iff, require_ok, exists_const, Except.ok.injEq] at h
    obtain ⟨need, hn, bal, hp, b0, hb0, b1, hb1, ms, hms, _, rfl⟩ := h
    exact Or.inr ⟨bal, b0, b1, l, need, base', quote, ag, d, hp, hb0, hb1, hag, hd, hr, hne, hn, hms, rfl⟩

/-- What a successful transaction is. -/
theorem exec_cases {su : Setup} {me : A} {now : Nat} {fo : A} {s s' : State A} {o : Op A}
    (h : exec su me now fo s o = .ok s') : o.signer ≠ some me ∧
    ((∃ u d t r e sh, o = .provide u d t r e ∧ provide su me s now u d t r e = .ok (s', sh)) ∨
     (∃ u n a, o = .withdraw u n ∧ withdraw su me s now u n = .ok (s', a)) ∨
     (∃ u i n b m r e x, o = .swap u i n b m r e ∧ swap su me s now u i n b m r e = .ok (s', x)) ∨
     (∃ u a e, o = .emergency u a e ∧ emergency su me s now a e = .ok s') ∨
     (∃ u p q, o = .ticks u p q ∧ ∃ ob, setTicks s.ob (su.prec false) p q = .ok ob ∧ s' = { s with ob := ob }) ∨
     (∃ u n, o = .orders u n ∧ u = s.pcl.owner.getD fo ∧ 1 ≤ n ∧ n ≤ 30 ∧
        s' = { s with ob := { s.ob with number := n } }) ∨
     (∃ a c, o = .admin a ∧ isAdmin a = true ∧ PCL.exec su me now fo s.pcl a = .ok c ∧ s' = { s with pcl := c }) ∨
     (∃ e, o = .block e ∧ beginBlock su me s now e = .ok s') ∨
     (o = .deactivate ∧ s' = deactivate me s) ∨
     (∃ x y, o = .fill x y ∧ (∀ i, x i ≤ s.sub i) ∧ s' = { s with sub := fun i => s.sub i - x i + y i })) := by
  simp only [exec, bind_ok_iff, require_ok, exists_const] at h
  obtain ⟨hs, h⟩ := h
  refine ⟨hs, ?_⟩
  cases o with
  | provide u d t r e =>
    simp only [bind_ok_iff, Prod.exists, Except.ok.injEq] at h
    obtain ⟨_, sh, h, rfl⟩ := h
    exact Or.inl ⟨u, d, t, r, e, sh, rfl, h⟩
  | withdraw u n =>
    simp only [bind_ok_iff, Prod.exists, Except.ok.injEq] at h
    obtain ⟨_, a, b, h, rfl⟩ := h
    exact Or.inr (Or.inl ⟨u, n, (a, b), rfl, h⟩)
  | swap u i n b m r e =>
    simp only [bind_ok_iff, Prod.exists, Except.ok.injEq] at h
    obtain ⟨_, x, h, rfl⟩ := h
    exact Or.inr (Or.inr (Or.inl ⟨u, i, n, b, m, r, e, x, rfl, h⟩))
  | emergency u a e => exact Or.inr (Or.inr (Or.inr (Or.inl ⟨u, a, e, rfl, h⟩)))
  | ticks u p q =>
    simp only [bind_ok_iff, Except.ok.injEq] at h
    obtain ⟨ob, h, rfl⟩ := h
    exact Or.inr (Or.inr (Or.inr (Or.inr (Or.inl ⟨u, p, q, rfl, ob, h, rfl⟩))))
  | orders u n =>
    simp only [bind_ok_iff, require_ok, exists_const, Except.ok.injEq] at h
    obtain ⟨h1, h2, rfl⟩ := h
    exact Or.inr (Or.inr (Or.inr (Or.inr (Or.inr (Or.inl ⟨u, n, rfl, h1, h2.1, h2.2, rfl⟩)))))
  | admin a =>
    simp only [bind_ok_iff, require_ok, exists_const, Except.ok.injEq] at h
    obtain ⟨ha, c, hc, rfl⟩ := h
    exact Or.inr (Or.inr (Or.inr (Or.inr (Or.inr (Or.inr (Or.inl ⟨a, c, rfl, ha, hc, rfl⟩))))))
  | block e => exact Or.inr (Or.inr (Or.inr (Or.inr (Or.inr (Or.inr (Or.inr (Or.inl ⟨e, rfl, h⟩)))))))
  | deactivate =>
    simp only [Except.ok.injEq] at h
    exact Or.inr (Or.inr (Or.inr (Or.inr (Or.inr (Or.inr (Or.inr (Or.inr (Or.inl ⟨rfl, h.symm⟩))))))))
  | fill x y =>
    simp only [fill, bind_ok_iff, csub_ok, Except.ok.injEq] at h
    obtain ⟨_, ⟨h0, rfl⟩, _, ⟨h1, rfl⟩, rfl⟩ := h
    refine Or.inr (Or.inr (Or.inr (Or.inr (Or.inr (Or.inr (Or.inr (Or.inr (Or.inr ⟨x, y, rfl, ?_, ?_⟩))))))))
    · intro i; cases i
      · exact h0
      · exact h1
    · congr 1
      funext i; cases i <;> rfl

/-! ## Ledgers -/

theorem payFee_other {me a : A} {bal bal' : Bool → A → Nat} {fee : Option (Fee A)} (ha : a ≠ me)
    (h : payFee me bal fee = .ok bal') : ∀ i, bal i a ≤ bal' i a := by
  cases fee with
  | none => simp only [payFee, Except.ok.injEq] at h; subst h; exact fun _ => le_refl _
  | some x =>
    simp only [payFee, bank, bind_ok_iff, require_ok, exists_const, Except.ok.injEq] at h
    obtain ⟨l, ⟨_, hl⟩, rfl⟩ := h
    intro i
    rw [set2_apply]
    split
    · rename_i hi; subst hi; exact PCL.move_other ha hl
    · exact le_refl _

theorem payFee_sum [Fintype A] {me : A} {bal bal' : Bool → A → Nat} {fee : Option (Fee A)}
    (h : payFee me bal fee = .ok bal') : ∀ i, ∑ a, bal' i a = ∑ a, bal i a := by
  cases fee with
  | none => simp only [payFee, Except.ok.injEq] at h; subst h; exact fun _ => rfl
  | some x =>
    simp only [payFee, bank, bind_ok_iff, require_ok, exists_const, Except.ok.injEq] at h
    obtain ⟨l, ⟨_, hl⟩, rfl⟩ := h
    intro i
    by_cases hi : i = x.asset
    · subst hi; simp only [set2_apply, if_true]; exact sum_move hl
    · simp only [set2_apply, if_neg hi]

theorem adjust_other {me a : A} {l l' : A → Nat} {cur need : Nat} (ha : a ≠ me) (h : adjust me l cur need = .ok l') :
    l' a = l a := by
  unfold adjust at h
  split at h
  · rw [debit_apply h, if_neg ha]
  · simp only [Except.ok.injEq] at h
    rw [← h, credit_of_ne _ _ ha]

theorem adjust_self {me : A} {l l' : A → Nat} {cur need : Nat} (h : adjust me l cur need = .ok l') :
    l' me + need = l me + cur := by
  unfold adjust at h
  split at h
  · have := debit_le h
    rw [debit_apply h, if_pos rfl]; omega
  · simp only [Except.ok.injEq] at h
    rw [← h, credit_self]; omega

theorem adjust_sum [Fintype A] {me : A} {l l' : A → Nat} {cur need : Nat} (h : adjust me l cur need = .ok l') :
    ∑ a, l' a + need = ∑ a, l a + cur := by
  unfold adjust at h
  split at h
  · have := sum_debit h
    omega
  · simp only [Except.ok.injEq] at h
    rw [← h, sum_credit]; omega

end Verif.Inj
