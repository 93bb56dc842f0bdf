import Verif.Inj.Ledgers
import Verif.Duality.Upgrade

/-!
# Turning a concentrated pool into one on the Injective orderbook: C186

`contracts/pair_concentrated_inj/src/migrate.rs`: a concentrated pool is taken over by `contracts/pair_concentrated_inj`.  The
orders begin only when enough trades have been observed; until then the pool is compared with the plain pool
(`contracts/pair_concentrated` of this repository; the release 2.2.2 that is upgraded is not in it).

A fee share the old pool may have recorded stays on record but is not paid by the new code, and the accumulated prices of the
old pool are not continued: the comparison is about pools without a fee share and leaves the accumulators out.
-/

namespace Verif.Inj

open Verif.Stable (dmul ddiv dadd toU128 withPrec payout payout_spec)
open Verif.XYK (sendOpt)
open Verif.PCL (Acct demoSetup Pool Setup FeeInfo SwapOut decPools computeSwap beforeSwapCheck decPools_ok decPools_eq)
open Verif.Duality (plainDemo set2 set2_apply set2_not bank realAfter Coins dec_bound bank_eq_pay plain_sum)

variable {A : Type} [DecidableEq A]

/-! ## Model -/

/-- `migrate` with `MigrateToOrderbook`, contracts/pair_concentrated_inj/src/migrate.rs:21-90: the stored configuration `c` is read
and saved again (only the pair type in it changes, not modelled), the settings of the orders are checked as at creation;
`calc_market_ids` (contracts/pair_concentrated_inj/src/orderbook/utils.rs:42-55) refuses cw20 tokens.  The subaccount is empty. -/
def upgrade (su : Setup) (stored : Upgrade.Stamp) (c : PCL.State A) (number minTrades price qty : Nat) :
    Res (Upgrade.Stamp × State A) := do
  let v ← Upgrade.migrate stored ⟨.injective, true⟩
  require (su.native false = true ∧ su.native true = true) (.invalid "CW20 tokens not supported")
  let ob ← newOB number minTrades (su.prec false) price qty
  .ok (v, { pcl := c, ob := ob, sub := fun _ => 0, posted := [] })

/-! ## Specification -/

/-- No order has been placed: the state after the upgrade until enough trades have been observed. -/
structure Idle (s : State A) : Prop where
  sub : s.sub = fun _ => 0
  last : s.ob.last = fun _ => 0
  posted : s.posted = []
  ready : s.ob.ready = false

/-- The transaction a user of the plain pool would have signed; `none` for those that only the new pool has. -/
def plainOp : Op A → Option (PCL.Op A)
  | .provide u d t r _ => some (.provide u d t none r)
  | .withdraw u n => some (.withdraw u n none)
  | .swap u i n b m r e => some (.swap u i n b m r e.f)
  | .admin o => some o
  | _ => none

/-- The same history on the plain pool. -/
def asPlain (es : List (Event A)) : List (PCL.Event A) :=
  es.filterMap fun e => (plainOp e.op).map fun o => { now := e.now, fo := e.fo, op := o }

/-- No trade completes the observations the orders wait for, and there are no trades on the exchange (there are no orders). -/
def Early : Op A → Prop
  | .swap _ _ _ _ _ _ e => e.full = false
  | .admin o => isAdmin o = true
  | .fill _ _ => False
  | _ => True

/-- Every transaction of the history is accepted by the plain pool. -/
def AllAccepted (su : Setup) (me : A) : PCL.State A → List (PCL.Event A) → Prop
  | _, [] => True
  | c, e :: es => ∃ c', PCL.exec su me e.now e.fo c e.op = .ok c' ∧ AllAccepted su me c' es

/-! ## Lemmas -/

theorem pools_idle {su : Setup} {b : Bool → Nat} (hp : ∀ i, su.prec i ≤ 18) (hb : ∀ i, b i < U128) :
    pools su b (fun _ => 0) = .ok (fun i => b i * 10 ^ (18 - su.prec i)) ∧
      decPools su b = .ok (fun i => b i * 10 ^ (18 - su.prec i)) := by
  have h1 := decPools_eq hp (dec_bound (su := su) hb)
  have h2 : decPools su (fun _ => 0) = .ok (fun _ => 0) := by
    rw [decPools_eq hp (by intro i; simp [U256])]
    simp
  refine ⟨?_, h1⟩
  simp only [pools, h1, h2, bind_ok_iff, Except.ok.injEq, exists_eq_left', Stable.dadd_ok, Nat.add_zero]
  refine ⟨_, ⟨dec_bound (su := su) hb false, rfl⟩, _, ⟨dec_bound (su := su) hb true, rfl⟩, ?_⟩
  funext i; cases i <;> rfl

theorem settle_idle {su : Setup} {c : PCL.State A} {now : Nat} {f : FeeInfo A} {xs : Bool → Nat} :
    settle su c now f (fun _ => 0) (fun _ => 0) xs = .ok (c.pool, xs, none) := by
  simp [settle, changed]

section
variable [Fintype A]

theorem swap_plain {su : Setup} {me : A} {s : State A} {now : Nat} {u : A} {i : Bool} {n : Nat} {b m : Option Nat} {rc : A}
    {e : Env A} {c' : PCL.State A} {o : SwapOut} {c : PCL.State A} {tw0 : PCL.Twap} (hq : Idle s) (hpc : s.pcl = { c with twap := tw0 })
    (hc : Coins su c) (hs : c.share = none) (h : PCL.swap su me c now u i n b m rc e.f = .ok (c', o)) :
    swap su me s now u i n b m rc e = .ok ({ s with
      pcl := { c' with twap := tw0 },
      ob := { s.ob with last := s.sub, need := true, enabled := e.allowed, ready := s.ob.ready || e.full } }, o) := by
  obtain ⟨pcl, ob, sub, posted⟩ := s
  obtain rfl : pcl = { c with twap := tw0 } := hpc
  obtain rfl : sub = fun _ => 0 := hq.sub
  have hlast : ob.last = fun _ => 0 := hq.last
  simp only [PCL.swap, bind_ok_iff, Except.ok.injEq, Prod.mk.injEq] at h
  obtain ⟨off, hoff, bo, hbo, t, ht, xs, hxs, ⟨⟩, hchk, old, hold, fs, hfs, r, hr, out, hout, pool, hpool, ret, hret,
    spread, hspread, ⟨⟩, hsp, l1, hl1, sh, hsh, mk, hmk, l2, hl2, l3, hl3, tw, htw, cm, hcm, rfl, rfl⟩ := h
  rw [hs] at hfs hl2
  simp only [PCL.feeShare, Except.ok.injEq] at hfs
  subst hfs
  simp only [Option.map_none, sendOpt, Except.ok.injEq] at hl2
  subst hl2
  have hr0 : r.share = 0 := by
    simp only [computeSwap, bind_ok_iff, Except.ok.injEq] at hr
    obtain ⟨_, _, _, _, _, _, _, _, _, _, _, _, _, _, _, _, _, _, _, _, _, _, _, _, share, hshare, _, _, _, _, rfl⟩ := hr
    simp only [Stable.dmul_ok] at hshare
    simpa using hshare.2.symm
  rw [hr0] at hsh
  have hsh0 : sh = 0 := by
    simp only [Stable.toU128_ok] at hsh
    simpa using hsh.2.2.symm
  subst hsh0
  have hb : ∀ j, c.bal j me < U128 := fun j => lt_of_le_of_lt (le_sum _ me) (hc.few j)
  have hbl : bo me < U128 := calc
    bo me ≤ ∑ a, bo a := le_sum bo me
    _ = ∑ a, c.bal i a := sum_move hbo
    _ < U128 := hc.few i
  have hlt : ∀ j, (fun j => set2 c.bal i bo j me) j < U128 := by
    intro j; simp only [set2_apply]; split
    · exact hbl
    · exact hb j
  have hlt' : ∀ j, (fun j => if j = i then t else c.bal j me) j < U128 := by
    obtain ⟨_, rfl⟩ := (csub_ok _ _ _).1 ht
    intro j; simp only; split
    · omega
    · exact hb j
  have hp1 := (pools_idle hc.prec hlt).1
  rw [(pools_idle hc.prec hlt').2, Except.ok.injEq] at hxs
  obtain ⟨hle, rfl⟩ := (csub_ok _ _ _).1 ht
  obtain ⟨_, _, hoff'⟩ := (Stable.withPrec_ok _ _ _).1 hoff
  have hx : csub (bo me * 10 ^ (18 - su.prec i)) off = .ok (xs i) := by
    rw [csub_ok, ← hxs, ← hoff']
    refine ⟨Nat.mul_le_mul_right _ hle, ?_⟩
    simp [Nat.sub_mul]
  have hset : set2 (fun j => set2 c.bal i bo j me * 10 ^ (18 - su.prec j)) i (xs i) = xs := by
    funext j
    rw [set2_apply]
    split
    · subst_vars; rfl
    · rename_i hj
      rw [← hxs]
      simp [set2_apply, hj]
  rw [← bank_eq_pay (hc.native _)] at hl1
  simp only [swap, bind_ok_iff, Except.ok.injEq, Prod.mk.injEq, Prod.exists]
  refine ⟨off, hoff, bo, hbo, _, by exact hp1, xs i, by simpa [set2_apply] using hx, ⟨⟩, by rw [hset]; exact hchk,
    c.pool, xs, none, ?_, r, hr, out, hout, ret, hret, spread, hspread, ⟨⟩, hsp, pool, hpool, mk, hmk, cm, hcm,
    _, rfl, l1, ?_, l3, hl3, ?_, ?_⟩
  · rw [hset, hlast]; exact settle_idle
  · rw [set2_not]; exact hl1
  · have : set2 (set2 c.bal i bo) (!i) l3 = fun j => if j = i then bo else l3 := by
      funext j; cases i <;> cases j <;> rfl
    rw [this]
  · rfl

theorem provide_plain {su : Setup} {me : A} {s : State A} {now : Nat} {u : A} {d : Bool → Nat} {t : Option Nat} {rc : A}
    {e : Env A} {c' : PCL.State A} {n : Nat} {c : PCL.State A} {tw0 : PCL.Twap} (hq : Idle s) (hpc : s.pcl = { c with twap := tw0 })
    (hc : Coins su c) (hu : u ≠ me) (h : PCL.provide su me c now u d t none rc = .ok (c', n)) :
    provide su me s now u d t rc e = .ok ({ s with
      pcl := { c' with twap := tw0 },
      ob := { s.ob with last := s.sub, need := true, enabled := e.allowed } }, n) := by
  obtain ⟨pcl, ob, sub, posted⟩ := s
  obtain rfl : pcl = { c with twap := tw0 } := hpc
  obtain rfl : sub = fun _ => 0 := hq.sub
  have hlast : ob.last = fun _ => 0 := hq.last
  simp only [PCL.provide, bind_ok_iff, Except.ok.injEq, Prod.mk.injEq, Prod.exists, require_ok, exists_const] at h
  obtain ⟨total, htot, dd, hdd, xs, hxs, shareD, pool, hcs, share, hsh, _, _, b0, h0, b1, h1, sup, hsup, tw, htw,
    rfl, rfl⟩ := h
  have key : ∀ i bo, payout (c.bal i) u me (d i) = .ok bo → bo me = c.bal i me + d i ∧ bo me < U128 := by
    intro i bo hbo
    have hbo := payout_spec hbo
    refine ⟨?_, ?_⟩
    · have h1 := move_apply hbo me
      simpa [Ne.symm hu] using h1
    · calc bo me ≤ ∑ a, bo a := le_sum bo me
        _ = ∑ a, c.bal i a := sum_move hbo
        _ < U128 := hc.few i
  obtain ⟨k1, k2⟩ := key _ _ h0
  obtain ⟨k3, k4⟩ := key _ _ h1
  have hlt : ∀ i, (fun i => (fun i => if i then b1 else b0 : Bool → A → Nat) i me) i < U128 := by
    intro i; cases i
    · simpa using k2
    · simpa using k4
  have hb : ∀ j, c.bal j me < U128 := fun j => lt_of_le_of_lt (le_sum _ me) (hc.few j)
  rw [(pools_idle hc.prec hb).2, Except.ok.injEq] at hxs
  have hd := decPools_ok hdd
  simp only [provide, bind_ok_iff, Except.ok.injEq, Prod.mk.injEq, Prod.exists]
  refine ⟨b0, h0, b1, h1, _, by exact (pools_idle hc.prec hlt).1, dd, hdd, total, htot, xs false, ?_, xs true, ?_,
    c.pool, xs, none, ?_, shareD, pool, hcs, share, hsh, _, rfl, sup, hsup, rfl, rfl⟩
  · simp [csub_ok, (hd false).2.1, k1, Nat.add_mul, ← hxs]
  · simp [csub_ok, (hd true).2.1, k3, Nat.add_mul, ← hxs]
  · have : (fun i => if i = true then xs true else xs false) = xs := by funext i; cases i <;> rfl
    rw [this, hlast]; exact settle_idle

theorem withdraw_plain {su : Setup} {me : A} {s : State A} {now : Nat} {u : A} {n : Nat} {c' : PCL.State A} {a : Nat × Nat}
    {c : PCL.State A} {tw0 : PCL.Twap} (hq : Idle s) (hpc : s.pcl = { c with twap := tw0 }) (hc : Coins su c)
    (h : PCL.withdraw su me c now u n none = .ok (c', a)) :
    withdraw su me s now u n = .ok ({ s with
      pcl := { c' with twap := tw0 }, ob := { s.ob with need := true } }, a) := by
  obtain ⟨pcl, ob, sub, posted⟩ := s
  obtain rfl : pcl = { c with twap := tw0 } := hpc
  obtain rfl : sub = fun _ => 0 := hq.sub
  have hlast : ob.last = fun _ => 0 := hq.last
  simp only [PCL.withdraw, bind_ok_iff, Except.ok.injEq, Prod.mk.injEq, require_ok, exists_const] at h
  obtain ⟨hpos, lp, hlp, xs, hxs, r0, hr0, r1, hr1, y0, hy0, y1, hy1, ix, hix, ag, hag, D, hD, xcp, hxcp, rest, hrest, rd,
    hrd, real, hreal, a0, ha0, a1, ha1, b0, hb0, b1, hb1, rfl, rfl⟩ := h
  have hb : ∀ j, c.bal j me < U128 := fun j => lt_of_le_of_lt (le_sum _ me) (hc.few j)
  have hxs2 := hxs
  rw [(pools_idle hc.prec hb).2, Except.ok.injEq] at hxs
  have hno : ¬ (r0 > xs false ∨ r1 > xs true) := by
    have := ((csub_ok _ _ _).1 hy0).1
    have := ((csub_ok _ _ _).1 hy1).1
    omega
  rw [← bank_eq_pay (hc.native _)] at hb0 hb1
  simp only [withdraw, bind_ok_iff, Except.ok.injEq, Prod.mk.injEq, realAfter]
  refine ⟨lp, hlp, xs, ?_, r0, hr0, r1, hr1, xs, hxs2, y0, hy0, y1, hy1, rest, hrest, real,
    ⟨ix, hix, ag, hag, D, hD, xcp, hxcp, rd, hrd, hreal⟩, a0, ha0, a1, ha1, b0, ?_, b1, ?_, ?_, rfl, rfl⟩
  · rw [(pools_idle hc.prec hb).1, hxs]
  · rw [if_neg hno]; exact hb0
  · rw [if_neg hno]; exact hb1
  · rw [if_neg hno]

omit [Fintype A] in
/-- The settings the plain pool's owner operations and transfers act on do not include the accumulated prices. -/
theorem admin_plain {su : Setup} {me : A} {now : Nat} {fo : A} {c c' : PCL.State A} {o : PCL.Op A} (tw0 : PCL.Twap)
    (ha : isAdmin o = true) (h : PCL.exec su me now fo c o = .ok c') :
    PCL.exec su me now fo { c with twap := tw0 } o = .ok { c' with twap := tw0 } ∧ c'.share = c.share := by
  unfold PCL.exec at h ⊢
  simp only [bind_ok_iff, require_ok, exists_const] at h ⊢
  obtain ⟨hsig, h⟩ := h
  cases o with
  | update u v =>
    simp only [bind_ok_iff, Except.ok.injEq] at h ⊢
    obtain ⟨x, hx, p, hp, rfl⟩ := h
    exact ⟨⟨hsig, x, hx, p, hp, rfl⟩, rfl⟩
  | promote u a g t =>
    simp only [bind_ok_iff, Except.ok.injEq] at h ⊢
    obtain ⟨x, hx, p, hp, rfl⟩ := h
    exact ⟨⟨hsig, x, hx, p, hp, rfl⟩, rfl⟩
  | stop u =>
    simp only [bind_ok_iff, Except.ok.injEq] at h ⊢
    obtain ⟨x, hx, p, hp, rfl⟩ := h
    exact ⟨⟨hsig, x, hx, p, hp, rfl⟩, rfl⟩
  | send i u v n =>
    simp only [bind_ok_iff, Except.ok.injEq] at h ⊢
    obtain ⟨b, hb, rfl⟩ := h
    exact ⟨⟨hsig, b, hb, rfl⟩, rfl⟩
  | sendLp u v n =>
    simp only [bind_ok_iff, Except.ok.injEq] at h ⊢
    obtain ⟨b, hb, rfl⟩ := h
    exact ⟨⟨hsig, b, hb, rfl⟩, rfl⟩
  | provide u d t m r => simp [isAdmin] at ha
  | withdraw u n m => simp [isAdmin] at ha
  | swap u i n b m r f => simp [isAdmin] at ha
  | enableShare u b r => simp [isAdmin] at ha
  | disableShare u => simp [isAdmin] at ha

omit [Fintype A] in
theorem exec_provide {su : Setup} {me : A} {now : Nat} {fo : A} {s s' : State A} {u : A} {d : Bool → Nat} {t : Option Nat} {rc : A}
    {e : Env A} {n : Nat} (hu : u ≠ me) (h : provide su me s now u d t rc e = .ok (s', n)) :
    exec su me now fo s (.provide u d t rc e) = .ok s' := by
  simp only [exec, bind_ok_iff, require_ok, exists_const, Prod.exists, Except.ok.injEq]
  exact ⟨fun x => hu (Option.some.inj x), _, n, h, rfl⟩

omit [Fintype A] in
theorem exec_withdraw {su : Setup} {me : A} {now : Nat} {fo : A} {s s' : State A} {u : A} {n : Nat} {a : Nat × Nat}
    (hu : u ≠ me) (h : withdraw su me s now u n = .ok (s', a)) : exec su me now fo s (.withdraw u n) = .ok s' := by
  simp only [exec, bind_ok_iff, require_ok, exists_const, Prod.exists, Except.ok.injEq]
  exact ⟨fun x => hu (Option.some.inj x), _, _, _, h, rfl⟩

omit [Fintype A] in
theorem exec_swap {su : Setup} {me : A} {now : Nat} {fo : A} {s s' : State A} {u : A} {i : Bool} {n : Nat} {b m : Option Nat}
    {rc : A} {e : Env A} {o : SwapOut} (hu : u ≠ me) (h : swap su me s now u i n b m rc e = .ok (s', o)) :
    exec su me now fo s (.swap u i n b m rc e) = .ok s' := by
  simp only [exec, bind_ok_iff, require_ok, exists_const, Prod.exists, Except.ok.injEq]
  exact ⟨fun x => hu (Option.some.inj x), _, _, h, rfl⟩

theorem exec_shared {su : Setup} {me : A} {now : Nat} {fo : A} {s : State A} {c c' : PCL.State A} {tw0 : PCL.Twap} {o : Op A}
    {p : PCL.Op A} (hq : Idle s) (hpc : s.pcl = { c with twap := tw0 }) (hc : Coins su c) (hs : c.share = none)
    (ho : Early o) (hp : plainOp o = some p) (h : PCL.exec su me now fo c p = .ok c') :
    ∃ s', exec su me now fo s o = .ok s' ∧ s'.pcl = { c' with twap := tw0 } ∧ Idle s' ∧ c'.share = none := by
  have hsig : p.signer ≠ me := by
    unfold PCL.exec at h
    simp only [bind_ok_iff, require_ok, exists_const] at h
    exact h.1
  cases o with
  | provide u d t r e =>
    cases hp
    simp only [PCL.exec, bind_ok_iff, require_ok, exists_const, Prod.exists, Except.ok.injEq] at h
    obtain ⟨hu, _, n, h, rfl⟩ := h
    have h2 := provide_plain (e := e) hq hpc hc hu h
    refine ⟨_, exec_provide hu h2, rfl, ⟨hq.sub, hq.sub, hq.posted, hq.ready⟩, ?_⟩
    · simp only [PCL.provide, bind_ok_iff, Except.ok.injEq, Prod.mk.injEq, Prod.exists, require_ok, exists_const] at h
      obtain ⟨_, _, _, _, _, _, _, _, _, _, _, _, _, _, _, _, _, _, _, _, _, rfl, _⟩ := h
      exact hs
  | withdraw u n =>
    cases hp
    simp only [PCL.exec, bind_ok_iff, require_ok, exists_const, Prod.exists, Except.ok.injEq] at h
    obtain ⟨hu, _, a, b, h, rfl⟩ := h
    have h2 := withdraw_plain hq hpc hc h
    refine ⟨_, exec_withdraw hu h2, rfl, ⟨hq.sub, hq.last, hq.posted, hq.ready⟩, ?_⟩
    · simp only [PCL.withdraw, bind_ok_iff, Except.ok.injEq, Prod.mk.injEq, require_ok, exists_const] at h
      obtain ⟨_, _, _, _, _, _, _, _, _, _, _, _, _, _, _, _, _, _, _, _, _, _, _, _, _, _, _, _, _, _, _, _, _, _, _, rfl, _⟩ := h
      exact hs
  | swap u i n b m r e =>
    cases hp
    simp only [PCL.exec, bind_ok_iff, require_ok, exists_const, Prod.exists, Except.ok.injEq] at h
    obtain ⟨hu, _, x, h, rfl⟩ := h
    have h2 := swap_plain (e := e) hq hpc hc hs h
    have hf : e.full = false := ho
    refine ⟨_, exec_swap hu h2, rfl, ⟨hq.sub, hq.sub, hq.posted, by simp [hq.ready, hf]⟩, ?_⟩
    · simp only [PCL.swap, bind_ok_iff, Except.ok.injEq, Prod.mk.injEq] at h
      obtain ⟨_, _, _, _, _, _, _, _, _, _, _, _, _, _, _, _, _, _, _, _, _, _, _, _, _, _, _, _, _, _, _, _, _, _, _, _, _, _, _,
        _, rfl, _⟩ := h
      exact hs
  | admin q =>
    cases hp
    obtain ⟨h2, h3⟩ := admin_plain tw0 ho h
    rw [← hpc] at h2
    refine ⟨{ s with pcl := { c' with twap := tw0 } }, ?_, rfl, ⟨hq.sub, hq.last, hq.posted, hq.ready⟩, h3.trans hs⟩
    simp only [exec, bind_ok_iff, require_ok, exists_const, Except.ok.injEq]
    exact ⟨fun x => hsig (Option.some.inj x), ho, _, h2, rfl⟩
  | emergency u a e => exact absurd hp (by simp [plainOp])
  | ticks u a b => exact absurd hp (by simp [plainOp])
  | orders u n => exact absurd hp (by simp [plainOp])
  | block e => exact absurd hp (by simp [plainOp])
  | deactivate => exact absurd hp (by simp [plainOp])
  | fill a b => exact absurd hp (by simp [plainOp])

omit [Fintype A] in
theorem leave_idle {me : A} {s : State A} (hq : Idle s) : leave me s = s := by
  obtain ⟨pcl, ob, sub, posted⟩ := s
  obtain rfl : sub = fun _ => 0 := hq.sub
  obtain rfl : posted = [] := hq.posted
  simp only [leave]
  congr
  funext i a
  simp [credit]

omit [Fintype A] in
/-- A transaction only the new pool has, and what the chain does, move nothing. -/
theorem exec_own {su : Setup} {me : A} {now : Nat} {fo : A} {s s' : State A} {o : Op A} (hq : Idle s) (ho : Early o)
    (hp : plainOp o = none) (h : exec su me now fo s o = .ok s') : s'.pcl = s.pcl ∧ Idle s' := by
  unfold exec at h
  simp only [bind_ok_iff, require_ok, exists_const] at h
  obtain ⟨_, h⟩ := h
  cases o with
  | provide u d t r e => exact absurd hp (by simp [plainOp])
  | withdraw u n => exact absurd hp (by simp [plainOp])
  | swap u i n b m r e => exact absurd hp (by simp [plainOp])
  | admin q => exact absurd hp (by simp [plainOp])
  | fill a b => exact absurd ho id
  | emergency u a e =>
    simp only [emergency, bind_ok_iff, require_ok, exists_const, Prod.exists, Except.ok.injEq] at h
    obtain ⟨_, xs, _, pool, ys, fee, hset, bal, hbal, rfl⟩ := h
    rw [hq.sub, hq.last, settle_idle] at hset
    simp only [Except.ok.injEq, Prod.mk.injEq] at hset
    obtain ⟨rfl, _, rfl⟩ := hset
    rw [leave_idle hq] at hbal ⊢
    cases hbal
    exact ⟨rfl, hq.sub, rfl, hq.posted, hq.ready⟩
  | ticks u a b =>
    simp only [setTicks, bind_ok_iff, Except.ok.injEq] at h
    obtain ⟨ob, hob, rfl⟩ := h
    simp only [require_ok, exists_const] at hob
    obtain ⟨_, _, _, rfl⟩ := hob
    exact ⟨rfl, hq.sub, hq.last, hq.posted, hq.ready⟩
  | orders u n =>
    simp only [bind_ok_iff, require_ok, exists_const, Except.ok.injEq] at h
    obtain ⟨_, _, rfl⟩ := h
    exact ⟨rfl, hq.sub, hq.last, hq.posted, hq.ready⟩
  | block e =>
    simp only [beginBlock, hq.ready] at h
    simp at h
    subst h
    exact ⟨rfl, hq⟩
  | deactivate =>
    simp only [deactivate, leave_idle hq, Except.ok.injEq] at h
    subst h
    exact ⟨rfl, hq.sub, rfl, hq.posted, hq.ready⟩

theorem run_idle (su : Setup) (me : A) (tw0 : PCL.Twap) : ∀ (es : List (Event A)) {s : State A} {c : PCL.State A}, Idle s →
    s.pcl = { c with twap := tw0 } → Coins su c → c.share = none → (∀ e ∈ es, Early e.op) → AllAccepted su me c (asPlain es) →
    (run su me s es).pcl = { PCL.run su me c (asPlain es) with twap := tw0 } ∧ Idle (run su me s es) ∧
      Coins su (PCL.run su me c (asPlain es)) ∧ (PCL.run su me c (asPlain es)).share = none
  | [], s, c, hq, hpc, hc, hs, _, _ => ⟨hpc, hq, hc, hs⟩
  | e :: es, s, c, hq, hpc, hc, hs, ho, ha => by
    have ho1 := ho e (by simp)
    have ho2 : ∀ x ∈ es, Early x.op := fun x hx => ho x (by simp [hx])
    show (run su me (step su me s e) es).pcl = _ ∧ Idle (run su me (step su me s e) es) ∧ _
    cases hp : plainOp e.op with
    | none =>
      have hk : (step su me s e).pcl = s.pcl ∧ Idle (step su me s e) := by
        unfold step
        cases hx : exec su me e.now e.fo s e.op with
        | error _ => exact ⟨rfl, hq⟩
        | ok s' => exact exec_own hq ho1 hp hx
      have hpl : asPlain (e :: es) = asPlain es := by simp [asPlain, hp]
      rw [hpl] at ha ⊢
      exact run_idle su me tw0 es hk.2 (hk.1.trans hpc) hc hs ho2 ha
    | some p =>
      have hpl : asPlain (e :: es) = ⟨e.now, e.fo, p⟩ :: asPlain es := by simp [asPlain, hp]
      rw [hpl] at ha ⊢
      obtain ⟨c', hx, ha⟩ := ha
      obtain ⟨s', h1, h2, h3, h4⟩ := exec_shared hq hpc hc hs ho1 hp hx
      have hst : step su me s e = s' := by simp [step, h1, commit']
      have hst' : PCL.step su me c ⟨e.now, e.fo, p⟩ = c' := by simp only [PCL.step, hx, commit']
      rw [hst]
      show _ = { PCL.run su me (PCL.step su me c ⟨e.now, e.fo, p⟩) (asPlain es) with twap := tw0 } ∧ _ ∧
        Coins su (PCL.run su me (PCL.step su me c ⟨e.now, e.fo, p⟩) (asPlain es)) ∧
        (PCL.run su me (PCL.step su me c ⟨e.now, e.fo, p⟩) (asPlain es)).share = none
      have hc' : Coins su (PCL.step su me c ⟨e.now, e.fo, p⟩) := Duality.coins_step hc
      rw [hst'] at hc' ⊢
      exact run_idle su me tw0 es h3 h2 hc' h4 ho2 ha

/-! ## C186 -/

omit [Fintype A] in
/-- **C186**: the upgrade takes over concentrated pools of release 2.2.2 with two coins only, keeps everything the pool has
recorded - owner, parameters, prices, profit, LP tokens and coins - and places no order: the orders wait for the observations.
The settings are checked as at creation. -/
theorem C186_upgrade_keeps (su : Setup) (stored v : Upgrade.Stamp) (c : PCL.State A) (number minTrades price qty : Nat)
    (s : State A) (h : upgrade su stored c number minTrades price qty = .ok (v, s)) :
    stored = ⟨"astroport-pair-concentrated", 2, 2, 2⟩ ∧ v = ⟨"astroport-pair-concentrated-injective", 2, 2, 2⟩ ∧
    (∀ i, su.native i = true) ∧ s.pcl = c ∧ (∀ i, s.sub i = 0) ∧ s.posted = [] ∧ s.ob.ready = false ∧
    (∀ i, s.ob.last i = 0) ∧ s.ob.number = number ∧ s.ob.minTrades = minTrades ∧
    (NUMBER_MIN ≤ number ∧ number ≤ NUMBER_MAX) ∧ (TRADES_MIN ≤ minTrades ∧ minTrades ≤ TRADES_MAX) := by
  simp only [upgrade, Upgrade.migrate, newOB, validate, setTicks, bind_ok_iff, require_ok, exists_const, Except.ok.injEq,
    Prod.mk.injEq] at h
  obtain ⟨_, ⟨h1, rfl⟩, ⟨n0, n1⟩, ob, ⟨⟨h2, h3⟩, q, _, _, rfl⟩, rfl, rfl⟩ := h
  simp only [Upgrade.accepts, if_true, Bool.and_eq_true, decide_eq_true_eq] at h1
  obtain ⟨nm, ver⟩ := stored
  obtain ⟨rfl, rfl⟩ := h1
  refine ⟨rfl, rfl, fun i => by cases i <;> assumption, rfl, fun _ => rfl, rfl, rfl, fun _ => rfl, rfl, rfl, h2, h3⟩

omit [Fintype A] in
theorem upgrade_idle {su : Setup} {stored v : Upgrade.Stamp} {c : PCL.State A} {number minTrades price qty : Nat}
    {s : State A} (h : upgrade su stored c number minTrades price qty = .ok (v, s)) : s.pcl = c ∧ Idle s := by
  obtain ⟨_, _, _, h1, h2, h3, h4, h5, _⟩ := C186_upgrade_keeps su stored v c number minTrades price qty s h
  exact ⟨h1, funext h2, funext h5, h3, h4⟩

/-- **C186**: until the observations are complete, every history of deposits, withdrawals, swaps, owner operations and transfers
the plain pool would have accepted - with whatever the chain, or the owner of the orders, does in between - leaves the upgraded pool
with the prices, profit, parameters, coins and LP tokens the plain pool would have, and with no order. -/
theorem C186_same_history_partial (su : Setup) (me : A) (stored v : Upgrade.Stamp) (c : PCL.State A)
    (number minTrades price qty : Nat) (s : State A) (h : upgrade su stored c number minTrades price qty = .ok (v, s))
    (hc : Coins su c) (hs : c.share = none) (es : List (Event A)) (ho : ∀ e ∈ es, Early e.op)
    (ha : AllAccepted su me c (asPlain es)) :
    let z := run su me s es
    let p := PCL.run su me c (asPlain es)
    z.pcl.params = p.params ∧ z.pcl.pool = p.pool ∧ z.pcl.owner = p.owner ∧ z.pcl.bal = p.bal ∧ z.pcl.lp = p.lp ∧
    z.pcl.supply = p.supply ∧ (∀ i, z.sub i = 0) ∧ z.posted = [] := by
  obtain ⟨rfl, hq⟩ := upgrade_idle h
  obtain ⟨h1, h2, _, _⟩ := run_idle su me s.pcl.twap es hq rfl hc hs ho ha
  intro z p
  have hz : z.pcl = { p with twap := s.pcl.twap } := h1
  rw [hz]
  exact ⟨rfl, rfl, rfl, rfl, rfl, rfl, fun i => congrFun h2.sub i, h2.posted⟩

/-- **C186**: and at every point of such a history each deposit, withdrawal and swap the plain pool would accept is accepted and
gives the same, and the quotes are the same. -/
theorem C186_same_answers_partial (su : Setup) (me : A) (stored v : Upgrade.Stamp) (c : PCL.State A)
    (number minTrades price qty : Nat) (s : State A) (h : upgrade su stored c number minTrades price qty = .ok (v, s))
    (hc : Coins su c) (hs : c.share = none) (es : List (Event A)) (ho : ∀ e ∈ es, Early e.op)
    (ha : AllAccepted su me c (asPlain es)) (now : Nat) (u : A) (hu : u ≠ me) (e : Env A) :
    let z := run su me s es
    let p := PCL.run su me c (asPlain es)
    (∀ d tol rc n, (∃ c', PCL.provide su me p now u d tol none rc = .ok (c', n)) →
      ∃ s', provide su me z now u d tol rc e = .ok (s', n)) ∧
    (∀ n a, (∃ c', PCL.withdraw su me p now u n none = .ok (c', a)) → ∃ s', withdraw su me z now u n = .ok (s', a)) ∧
    (∀ i n b m rc o, (∃ c', PCL.swap su me p now u i n b m rc e.f = .ok (c', o)) →
      ∃ s', swap su me z now u i n b m rc e = .ok (s', o)) ∧
    (∀ i n, simulation su me z now i n e.f = PCL.simulation su me p now i n e.f) ∧
    (∀ n, queryShare su me z n = PCL.queryShare su me p n) ∧
    queryPool su me z = .ok (p.bal false me, p.bal true me) := by
  obtain ⟨rfl, hq⟩ := upgrade_idle h
  obtain ⟨h1, h2, h3, h4⟩ := run_idle su me s.pcl.twap es hq rfl hc hs ho ha
  intro z p
  have hz : z.pcl = { p with twap := s.pcl.twap } := h1
  have hqz : Idle z := h2
  have hcp : Coins su p := h3
  have hsp : p.share = none := h4
  have hb : ∀ j, p.bal j me < U128 := fun j => lt_of_le_of_lt (le_sum _ me) (hcp.few j)
  have hps := pools_idle (su := su) (b := fun j => p.bal j me) hcp.prec hb
  refine ⟨?_, ?_, ?_, ?_, ?_, ?_⟩
  · rintro d tol rc n ⟨c', h⟩
    exact ⟨_, provide_plain hqz hz hcp hu h⟩
  · rintro n a ⟨c', h⟩
    exact ⟨_, withdraw_plain hqz hz hcp h⟩
  · rintro i n b m rc o ⟨c', h⟩
    exact ⟨_, swap_plain hqz hz hcp hsp h⟩
  · intro i n
    unfold simulation PCL.simulation
    rw [hz, hqz.sub, hsp]
    dsimp only
    rw [hps.1, hps.2]
    rfl
  · intro n
    unfold queryShare PCL.queryShare
    rw [hz, hqz.sub]
    dsimp only
    rw [hps.1, hps.2]
  · unfold queryPool
    rw [hz, hqz.sub]
    dsimp only
    rw [hps.1]
    simp only [bind_ok_iff, ok_bind, Except.ok.injEq, Prod.mk.injEq, Stable.toU128_ok]
    have hk : ∀ j, p.bal j me * 10 ^ (18 - su.prec j) / 10 ^ (18 - su.prec j) = p.bal j me :=
      fun j => Nat.mul_div_cancel _ (by positivity)
    exact ⟨_, ⟨hcp.prec _, by rw [hk]; exact hb _, hk _⟩, _, ⟨hcp.prec _, by rw [hk]; exact hb _, hk _⟩, rfl, rfl⟩

end

/-- The example pool pays a tenth of the fees of trades to account 1. -/
def sharingDemo : PCL.State Acct := PCL.run demoSetup 0 plainDemo [⟨2500, 1, .enableShare 1 1000 1⟩]

/-- **C186 is violated** for pools that share their fees: the upgraded pool keeps the share on record, but no trade pays it any more. -/
theorem C186_fee_share_stops_violated :
    sharingDemo.share = some (1000, 1) ∧
    okAnd (PCL.swap demoSetup 0 sharingDemo 3000 3 false (10 ^ 10) none none 3 ⟨0, none⟩) (fun x =>
      decide (0 < x.2.share ∧ x.1.bal true 1 = sharingDemo.bal true 1 + x.2.share)) = true ∧
    okAnd (upgrade demoSetup ⟨"astroport-pair-concentrated", 2, 2, 2⟩ sharingDemo 2 1 (10 ^ 14) (1000 * 10 ^ 18)) (fun x =>
      decide (x.2.pcl.share = some (1000, 1)) &&
      okAnd (swap demoSetup 0 x.2 3000 3 false (10 ^ 10) none none 3
        { f := ⟨0, none⟩, allowed := true, full := false, avg := none, accept := true }) (fun y =>
        decide (y.1.pcl.bal true 1 = sharingDemo.bal true 1 ∧ y.1.pcl.share = some (1000, 1)))) = true ∧
    ∀ (su : Setup) (me : A) (s s' : State A) (now : Nat) (u : A) (i : Bool) (n : Nat) (b m : Option Nat) (rc : A) (e : Env A)
      (o : SwapOut), swap su me s now u i n b m rc e = .ok (s', o) → o.share = 0 ∧ s'.pcl.share = s.pcl.share := by
  refine ⟨by decide +kernel, by decide +kernel, by decide +kernel, ?_⟩
  intro su me s s' now u i n b m rc e o h
  simp only [swap, bind_ok_iff, Except.ok.injEq, Prod.mk.injEq, Prod.exists] at h
  obtain ⟨_, _, _, _, _, _, _, _, _, _, _, _, _, _, _, _, _, _, 
    _, _, _, _, _, _, _, _, _, _, _, _, _, _, _, _, _, _, rfl, rfl⟩ := h
  exact ⟨rfl, rfl⟩

/-- The plain pool's answer to each transaction of a history, computed. -/
def allAccepted (su : Setup) (me : A) : PCL.State A → List (PCL.Event A) → Bool
  | _, [] => true
  | c, e :: es => okAnd (PCL.exec su me e.now e.fo c e.op) (fun c' => allAccepted su me c' es)

theorem AllAccepted.of_eval {su : Setup} {me : A} : ∀ {es : List (PCL.Event A)} {c : PCL.State A},
    allAccepted su me c es = true → AllAccepted su me c es
  | [], _, _ => trivial
  | e :: es, c, h => by
    simp only [allAccepted] at h
    cases hx : PCL.exec su me e.now e.fo c e.op with
    | error _ => rw [hx] at h; exact absurd h (by simp [okAnd])
    | ok c' => rw [hx] at h; exact ⟨c', hx, AllAccepted.of_eval h⟩

/-- The chain lets the pair run at the beginning of blocks; there are few observations. -/
def early : Env Acct := { f := ⟨0, none⟩, allowed := true, full := false, avg := none, accept := true }

/-- A swap, a new block, an emergency withdrawal that is refused, a change of the settings of the orders and a withdrawal. -/
def plainEvents : List (Event Acct) :=
  [⟨3000, 1, .swap 3 false (10 ^ 10) none none 3 early⟩, ⟨3100, 1, .block early⟩, ⟨3150, 1, .emergency 3 true early⟩,
   ⟨3200, 1, .orders 1 3⟩, ⟨3300, 1, .withdraw 2 (10 ^ 11)⟩]

/-- Non-vacuity: the example pool meets the hypotheses, the upgrade is accepted and the history after it moves coins; the upgrade
is refused for a pool on the orderbook, for another release, for a pool with a cw20 token and for settings out of range. -/
example : Coins demoSetup plainDemo ∧ plainDemo.share = none ∧ (∀ e ∈ plainEvents, Early e.op) ∧
    AllAccepted demoSetup 0 plainDemo (asPlain plainEvents) ∧ (asPlain plainEvents).length = 2 ∧
    okAnd (upgrade demoSetup ⟨"astroport-pair-concentrated", 2, 2, 2⟩ plainDemo 2 1 (10 ^ 14) (1000 * 10 ^ 18)) (fun x =>
      decide ((run demoSetup 0 x.2 plainEvents).pcl.bal true 3 > plainDemo.bal true 3 ∧
        (run demoSetup 0 x.2 plainEvents).ob.number = 3 ∧
        (run demoSetup 0 x.2 plainEvents).pcl.supply + 10 ^ 11 = plainDemo.supply)) = true ∧
    fails (upgrade demoSetup (Upgrade.stamp .injective) plainDemo 2 1 (10 ^ 14) (1000 * 10 ^ 18)) = true ∧
    fails (upgrade demoSetup ⟨"astroport-pair-concentrated", 4, 1, 1⟩ plainDemo 2 1 (10 ^ 14) (1000 * 10 ^ 18)) = true ∧
    fails (upgrade Duality.tokenSetup ⟨"astroport-pair-concentrated", 2, 2, 2⟩ plainDemo 2 1 (10 ^ 14) (1000 * 10 ^ 18)) = true ∧
    fails (upgrade demoSetup ⟨"astroport-pair-concentrated", 2, 2, 2⟩ plainDemo 66 1 (10 ^ 14) (1000 * 10 ^ 18)) = true := by
  refine ⟨⟨fun _ => rfl, fun _ => (by decide : 6 ≤ 18), by decide +kernel⟩, by decide +kernel, ?_,
    AllAccepted.of_eval (by decide +kernel), by decide +kernel, by decide +kernel, by decide +kernel, by decide +kernel,
    by decide +kernel, by decide +kernel⟩
  intro e he
  simp only [plainEvents, List.mem_cons, List.not_mem_nil, or_false] at he
  rcases he with rfl | rfl | rfl | rfl | rfl <;> simp [Early, early]

end Verif.Inj
