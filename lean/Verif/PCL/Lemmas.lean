import Verif.PCL.Model
import Verif.Stable.Props

/-!
# What a successful PCL transaction consists of

Inversion lemmas for the contract entry points of `Verif.PCL.Model`.
-/

namespace Verif.PCL

open Verif.Stable (dmul ddiv dadd toU128 withPrec absDiff payout payout_spec)
open Verif.XYK (sendOpt)

variable {A : Type} [DecidableEq A]

/-! ## What the price update leaves alone -/

/-- The ramp part of the pool state. -/
def Pool.ramp (p : Pool) : AG × AG × Nat × Nat := (p.initial, p.future, p.initialTime, p.futureTime)

theorem ampGamma_congr {p q : Pool} (h : p.ramp = q.ramp) (now : Nat) : ampGamma p now = ampGamma q now := by
  simp only [Pool.ramp, Prod.mk.injEq] at h
  obtain ⟨h1, h2, h3, h4⟩ := h
  simp only [ampGamma, h1, h2, h3, h4]

theorem updatePrice_ramp {pp : PParams} {p q : Pool} {now t x0 x1 c : Nat}
    (h : updatePrice pp p now t x0 x1 c = .ok q) : q.ramp = p.ramp := by
  simp only [updatePrice, bind_ok_iff, Except.ok.injEq] at h
  obtain ⟨_, _, _, _, _, _, _, _, _, _, _, _, rfl⟩ := h
  rfl

theorem calculateShares_ramp {pp : PParams} {p q : Pool} {now t : Nat} {xs d : Bool → Nat} {tol : Option Nat}
    {sh : Nat} (h : calculateShares pp p now t xs d tol = .ok (sh, q)) : q.ramp = p.ramp := by
  simp only [calculateShares, bind_ok_iff, require_ok, exists_const, Prod.exists] at h
  obtain ⟨_, n0, _, n1, _, m1, _, share, price, _, after, _, ratio, _, b0, _, b1', _, b1, _, h⟩ := h
  split at h
  · simp only [bind_ok_iff, Except.ok.injEq, Prod.mk.injEq] at h
    obtain ⟨_, _, _, _, q', hq, rfl, rfl⟩ := h
    rw [updatePrice_ramp hq]; rfl
  · simp only [Except.ok.injEq, Prod.mk.injEq] at h
    obtain ⟨rfl, rfl⟩ := h
    rfl

theorem priceAfterSwap_ramp {s : State A} {now : Nat} {xs : Bool → Nat} {r : Swapped} {i : Bool}
    {offer out : Nat} {q : Pool} (h : priceAfterSwap s now xs r i offer out = .ok q) : q.ramp = s.pool.ramp := by
  simp only [priceAfterSwap, bind_ok_iff] at h
  obtain ⟨_, _, _, _, _, _, h⟩ := h
  split at h
  · simp only [bind_ok_iff] at h
    obtain ⟨_, _, _, _, h⟩ := h
    exact updatePrice_ramp h
  · cases h; rfl

/-! ## Entry points -/

theorem decPools_ok {su : Setup} {b x : Bool → Nat} (h : decPools su b = .ok x) :
    ∀ i, su.prec i ≤ 18 ∧ x i = b i * 10 ^ (18 - su.prec i) ∧ x i < U256 := by
  simp only [decPools, bind_ok_iff, Stable.withPrec_ok, Except.ok.injEq] at h
  obtain ⟨_, ⟨h1, h2, rfl⟩, _, ⟨h3, h4, rfl⟩, rfl⟩ := h
  intro i
  cases i
  · exact ⟨h1, rfl, h2⟩
  · exact ⟨h3, rfl, h4⟩

theorem decPools_eq {su : Setup} {b : Bool → Nat} (h : ∀ i, su.prec i ≤ 18)
    (h2 : ∀ i, b i * 10 ^ (18 - su.prec i) < U256) :
    decPools su b = .ok (fun i => b i * 10 ^ (18 - su.prec i)) := by
  simp only [decPools, bind_ok_iff, Stable.withPrec_ok, Except.ok.injEq]
  refine ⟨_, ⟨h _, h2 _, rfl⟩, _, ⟨h _, h2 _, rfl⟩, ?_⟩
  funext i; cases i <;> rfl

theorem pay_move {su : Setup} {i : Bool} {l l' : A → Nat} {a b : A} {n : Nat}
    (h : pay su i l a b n = .ok l') : move l a b n = .ok l' ∧ (su.native i = true → n ≠ 0) := by
  simp only [pay, bind_ok_iff, require_ok, exists_const] at h
  exact ⟨h.2, fun h1 h2 => h.1 ⟨h1, h2⟩⟩

/-- What a successful swap means; `xs` are the reserves before it, in decimal form. -/
structure SwapSpec (su : Setup) (me : A) (s : State A) (now : Nat) (u : A) (i : Bool) (n : Nat)
    (b m : Option Nat) (rc : A) (f : FeeInfo A) (s' : State A) (o : SwapOut) (xs : Bool → Nat) (off fs old : Nat)
    (r : Swapped) (out : Nat) : Prop where
  hoff : withPrec n (su.prec i) = .ok off
  hxs : decPools su (fun j => s.bal j me) = .ok xs
  hchk : beforeSwapCheck xs off = .ok ()
  hold : calcLastPrices s.params s.pool now xs = .ok old
  hfs : feeShare s.share = .ok fs
  hr : computeSwap s.params s.pool now xs i off (makerShare f) fs = .ok r
  hout : r.out = .ok out
  hpool : priceAfterSwap s now xs r i off out = .ok s'.pool
  hret : toU128 r.dy (su.prec (!i)) = .ok o.ret
  hspr : toU128 r.spread (su.prec (!i)) = .ok o.spread
  hsh : toU128 r.share (su.prec (!i)) = .ok o.share
  hmk : toU128 r.maker (su.prec (!i)) = .ok o.maker
  hcm : toU128 r.total (su.prec (!i)) = .ok o.commission
  hspread : assertMaxSpread b m n o.ret o.spread = .ok ()
  hbo : move (s.bal i) u me n = .ok (s'.bal i)
  hba : ∃ l1 l2, move (s.bal (!i)) me rc o.ret = .ok l1 ∧
    sendOpt l1 me (s.share.map (·.2)) o.share = .ok l2 ∧ sendOpt l2 me f.addr o.maker = .ok (s'.bal (!i))
  hpos : su.native (!i) = true → o.ret ≠ 0
  htw : accumulate s.twap now old = .ok s'.twap
  hrest : s'.params = s.params ∧ s'.owner = s.owner ∧ s'.share = s.share ∧ s'.lp = s.lp ∧ s'.supply = s.supply

theorem swap_spec {su : Setup} {me : A} {s : State A} {now : Nat} {u : A} {i : Bool} {n : Nat}
    {b m : Option Nat} {rc : A} {f : FeeInfo A} {s' : State A} {o : SwapOut} (hu : u ≠ me)
    (h : swap su me s now u i n b m rc f = .ok (s', o)) :
    ∃ xs off fs old r out, SwapSpec su me s now u i n b m rc f s' o xs off fs old r out := by
  simp only [swap, bind_ok_iff, csub_ok, Except.ok.injEq, Prod.mk.injEq] at h
  obtain ⟨off, hoff, bo, hbo, op, ⟨_, hop⟩, xs, hxs, ⟨⟩, hchk, old, hold, fs, hfs, r, hr, out, hout, pool, hpool,
    ret, hret, spread, hspr, ⟨⟩, hspread, l1, hl1, sh, hsh, mk, hmk, l2, hl2, l3, hl3, tw, htw, cm, hcm,
    rfl, rfl⟩ := h
  have e := move_apply hbo me
  simp [Ne.symm hu] at e
  have hop' : op = s.bal i me := by omega
  subst hop'
  have hp : (fun j => if j = i then s.bal i me else s.bal j me) = fun j => s.bal j me := by
    funext j; split <;> simp_all
  rw [hp] at hxs
  have hm := pay_move hl1
  exact ⟨xs, off, fs, old, r, out, hoff, hxs, hchk, hold, hfs, hr, hout, hpool, hret, hspr, hsh, hmk, hcm, hspread,
    by simpa using hbo, ⟨l1, l2, hm.1, hl2, by simpa using hl3⟩, hm.2, htw, rfl, rfl, rfl, rfl, rfl⟩

/-- What a successful deposit means. -/
structure ProvideSpec (su : Setup) (me : A) (s : State A) (now : Nat) (u : A) (d : Bool → Nat)
    (tol minLp : Option Nat) (rc : A) (s' : State A) (share : Nat) (total : Nat) (dd xs : Bool → Nat)
    (shareD : Nat) : Prop where
  htot : withPrec s.supply LP_PREC = .ok total
  hdd : decPools su d = .ok dd
  hxs : decPools su (fun j => s.bal j me) = .ok xs
  hcs : calculateShares s.params s.pool now total xs dd tol = .ok (shareD, s'.pool)
  hshare : toU128 shareD LP_PREC = .ok share
  hmin : minLp.getD 0 ≤ share
  hpos : share ≠ 0
  hbal : ∀ i, move (s.bal i) u me (d i) = .ok (s'.bal i)
  hsup : s'.supply = s.supply + (if s.supply = 0 then 1000 else 0) + share ∧ s'.supply < U128
  hlp : s'.lp = credit (credit s.lp me (if s.supply = 0 then 1000 else 0)) rc share
  htw : accumulate s.twap now s.pool.price.last = .ok s'.twap
  hrest : s'.params = s.params ∧ s'.owner = s.owner ∧ s'.share = s.share

theorem provide_spec {su : Setup} {me : A} {s : State A} {now : Nat} {u : A} {d : Bool → Nat}
    {tol minLp : Option Nat} {rc : A} {s' : State A} {share : Nat}
    (h : provide su me s now u d tol minLp rc = .ok (s', share)) :
    ∃ total dd xs shareD, ProvideSpec su me s now u d tol minLp rc s' share total dd xs shareD := by
  simp only [provide, bind_ok_iff, require_ok, exists_const, Except.ok.injEq, Prod.mk.injEq, Prod.exists,
    u128_ok] at h
  obtain ⟨total, htot, dd, hdd, xs, hxs, shareD, pool, hcs, sh, hsh, hmin, hpos, b0, hb0, b1, hb1, _,
    ⟨hlt, rfl⟩, tw, htw, rfl, rfl⟩ := h
  have ht : (total = 0) = (s.supply = 0) := by
    simp only [Stable.withPrec_ok, LP_PREC] at htot
    obtain ⟨_, _, rfl⟩ := htot
    simp
  have hm : MINIMUM_LIQUIDITY = 1000 := rfl
  refine ⟨total, dd, xs, shareD, htot, hdd, hxs, hcs, hsh, by omega, hpos, ?_, ⟨?_, hlt⟩, ?_, htw, rfl, rfl, rfl⟩
  · intro i
    cases i
    · simpa using payout_spec hb0
    · simpa using payout_spec hb1
  · simp only [ht, hm]
  · simp only [ht, hm]

/-- What a successful withdrawal means. -/
structure WithdrawSpec (su : Setup) (me : A) (s : State A) (now : Nat) (u : A) (n : Nat) (s' : State A)
    (a : Nat × Nat) (xs : Bool → Nat) (r0 r1 : Nat) : Prop where
  hpos : n ≠ 0
  hlp : debit s.lp u n = .ok s'.lp
  hxs : decPools su (fun j => s.bal j me) = .ok xs
  hr0 : shareInAsset (xs false) (n - 1) s.supply = .ok r0
  hr1 : shareInAsset (xs true) (n - 1) s.supply = .ok r1
  ha0 : toU128 r0 (su.prec false) = .ok a.1
  ha1 : toU128 r1 (su.prec true) = .ok a.2
  hb0 : move (s.bal false) me u a.1 = .ok (s'.bal false)
  hb1 : move (s.bal true) me u a.2 = .ok (s'.bal true)
  hsup : n ≤ s.supply ∧ s'.supply = s.supply - n
  hreal : ∃ x1 ag d xcp rest, dmul (xs true - r1) s.pool.price.scale = .ok x1 ∧ ampGamma s.pool now = .ok ag ∧
    calcD ag (xs false - r0) x1 = .ok d ∧ getXcp d s.pool.price.scale = .ok xcp ∧
    withPrec s'.supply LP_PREC = .ok rest ∧ ddiv xcp rest = .ok s'.pool.price.real
  hpool : s'.pool = { s.pool with price := { s.pool.price with real := s'.pool.price.real } }
  hrest : s'.params = s.params ∧ s'.owner = s.owner ∧ s'.share = s.share ∧ s'.twap = s.twap

theorem withdraw_spec {su : Setup} {me : A} {s : State A} {now : Nat} {u : A} {n : Nat}
    {mins : Option (List (Bool × Nat))} {s' : State A} {a : Nat × Nat}
    (h : withdraw su me s now u n mins = .ok (s', a)) :
    ∃ xs r0 r1, WithdrawSpec su me s now u n s' a xs r0 r1 := by
  simp only [withdraw, bind_ok_iff, require_ok, exists_const, Except.ok.injEq, Prod.mk.injEq, csub_ok] at h
  obtain ⟨hpos, lp, hlp, xs, hxs, r0, hr0, r1, hr1, _, ⟨_, rfl⟩, _, ⟨_, rfl⟩, x1, hx1, ag, hag, d, hd, xcp, hxcp,
    rest, ⟨hsup, rfl⟩, restD, hrd, real, hreal, a0, ha0, a1, ha1, b0, hb0, b1, hb1, rfl, rfl⟩ := h
  exact ⟨xs, r0, r1, hpos, hlp, hxs, hr0, hr1, ha0, ha1, (pay_move hb0).1, (pay_move hb1).1, ⟨hsup, rfl⟩,
    ⟨x1, ag, d, xcp, restD, hx1, hag, hd, hxcp, hrd, hreal⟩, rfl, rfl, rfl, rfl, rfl⟩

/-- How a transaction can change the parameters and the ramp. -/
theorem exec_cases {su : Setup} {me : A} {now : Nat} {fo : A} {s s' : State A} {o : Op A}
    (h : exec su me now fo s o = .ok s') :
    (s'.params = s.params ∧ s'.pool.ramp = s.pool.ramp) ∨
    (∃ u v, o = .update u v ∧ u = s.owner.getD fo ∧ updateParams s.params v = .ok s'.params ∧ s'.pool = s.pool) ∨
    (∃ u a g t, o = .promote u a g t ∧ u = s.owner.getD fo ∧ promote s.pool now a g t = .ok s'.pool ∧
      s'.params = s.params) ∨
    (∃ u, o = .stop u ∧ u = s.owner.getD fo ∧ stopPromotion s.pool now = .ok s'.pool ∧ s'.params = s.params) := by
  unfold exec at h
  simp only [bind_ok_iff, require_ok, exists_const] at h
  obtain ⟨hsig, h⟩ := h
  cases o with
  | provide u d t m r =>
    simp only [bind_ok_iff, Prod.exists, Except.ok.injEq] at h
    obtain ⟨_, _, h, rfl⟩ := h
    obtain ⟨_, _, _, _, sp⟩ := provide_spec h
    exact Or.inl ⟨sp.hrest.1, calculateShares_ramp sp.hcs⟩
  | withdraw u n m =>
    simp only [bind_ok_iff, Prod.exists, Except.ok.injEq] at h
    obtain ⟨_, _, _, h, rfl⟩ := h
    obtain ⟨_, _, _, sp⟩ := withdraw_spec h
    exact Or.inl ⟨sp.hrest.1, by rw [sp.hpool]; rfl⟩
  | swap u i n b m r f =>
    simp only [bind_ok_iff, Prod.exists, Except.ok.injEq] at h
    obtain ⟨_, _, h, rfl⟩ := h
    obtain ⟨_, _, _, _, _, _, sp⟩ := swap_spec (by simpa [Op.signer] using hsig) h
    exact Or.inl ⟨sp.hrest.1, priceAfterSwap_ramp sp.hpool⟩
  | update u v =>
    simp only [bind_ok_iff, authorised, require_ok, exists_const, Except.ok.injEq] at h
    obtain ⟨hu, p, hp, rfl⟩ := h
    exact Or.inr (Or.inl ⟨u, v, rfl, hu, hp, rfl⟩)
  | promote u a g t =>
    simp only [bind_ok_iff, authorised, require_ok, exists_const, Except.ok.injEq] at h
    obtain ⟨hu, p, hp, rfl⟩ := h
    exact Or.inr (Or.inr (Or.inl ⟨u, a, g, t, rfl, hu, hp, rfl⟩))
  | stop u =>
    simp only [bind_ok_iff, authorised, require_ok, exists_const, Except.ok.injEq] at h
    obtain ⟨hu, p, hp, rfl⟩ := h
    exact Or.inr (Or.inr (Or.inr ⟨u, rfl, hu, hp, rfl⟩))
  | enableShare u bps r =>
    simp only [bind_ok_iff, authorised, require_ok, exists_const, Except.ok.injEq] at h
    obtain ⟨_, _, rfl⟩ := h
    exact Or.inl ⟨rfl, rfl⟩
  | disableShare u =>
    simp only [bind_ok_iff, authorised, require_ok, exists_const, Except.ok.injEq] at h
    obtain ⟨_, rfl⟩ := h
    exact Or.inl ⟨rfl, rfl⟩
  | send i u v n =>
    simp only [bind_ok_iff, Except.ok.injEq] at h
    obtain ⟨_, _, rfl⟩ := h
    exact Or.inl ⟨rfl, rfl⟩
  | sendLp u v n =>
    simp only [bind_ok_iff, Except.ok.injEq] at h
    obtain ⟨_, _, rfl⟩ := h
    exact Or.inl ⟨rfl, rfl⟩

end Verif.PCL
