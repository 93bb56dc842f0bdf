import Verif.PCL.Entry
import Verif.Stable.Honest

/-!
# Messages to concentrated pairs that pay what they declare (C174)

As `Stable/Honest.lean`, for the concentrated pair: `PCL/Entry.lean` shows that a message that succeeds is a transaction of the
pair; here the converse for messages that declare what is attached to them.
-/

namespace Verif.PCL.Entry

open Verif Verif.PCL Verif.Ledgers
open Verif.Stable (dmul ddiv dadd toU128 withPrec payout)
open Verif.XYK (sendOpt)
open Verif.Asset (Str Info Coin assertSent assertCoins sent declared)
open Verif.Stable.Entry (User coinsOf Allowed funds funds_valid assertCoins_funds deposit_arrives forAll_of)

set_option linter.unusedSectionVars false

variable {A : Type} [DecidableEq A]

/-! ## Lemmas -/

theorem withPrec_small {n p : Nat} (hp : p ≤ 18) (hn : n < 2 ^ 128) : withPrec n p = .ok (n * 10 ^ (18 - p)) := by
  refine (Stable.withPrec_ok _ _ _).2 ⟨hp, ?_, rfl⟩
  have h1 : 10 ^ (18 - p) ≤ 10 ^ 18 := Nat.pow_le_pow_right (by decide) (by omega)
  calc n * 10 ^ (18 - p) ≤ n * 10 ^ 18 := Nat.mul_le_mul_left _ h1
    _ < 2 ^ 128 * 10 ^ 18 := Nat.mul_lt_mul_of_pos_right hn (by norm_num)
    _ < U256 := by unfold U256; norm_num

theorem toU128_scaled {n p : Nat} (hp : p ≤ 18) (hn : n < 2 ^ 128) : toU128 (n * 10 ^ (18 - p)) p = .ok n :=
  (Stable.toU128_ok _ _ _).2 ⟨hp, by rw [Stable.scale_cancel]; exact hn, Stable.scale_cancel _ _⟩

theorem pcl_pay {c : Cfg A} {w : Led A} {i : Bool} {dst : A} {n : Nat} {l : A → Nat}
    (h : PCL.pay (setup c) i (w.of (c.infos i)) c.me dst n = .ok l) :
    ∃ w', Ledgers.pay c.me w (c.infos i) dst n = .ok w' ∧ w'.of (c.infos i) = l := by
  unfold PCL.pay at h
  simp only [bind_ok_iff, require_ok, exists_const] at h
  exact pay_of_move h.1 h.2

/-- The converse of `swap_meaning`. -/
theorem swap_converse {c : Cfg A} (hc : c.Ok) {e : Env A} {w : Chain A} {v : State A} {l1 : Led A} {payer sender : A} {i : Bool}
    {n : Nat} {belief maxSpread : Option Nat} {dest : Option A} {out : SwapOut} (hs : payer ≠ c.me)
    (hin : Ledgers.Moved w.led (c.infos i) payer (some c.me) n l1) (hsmall : w.led.of (c.infos i) c.me + n < 2 ^ 128)
    (h : PCL.swap (setup c) c.me (view c w) e.now payer i n belief maxSpread (dest.getD sender) e.fees = .ok (v, out)) :
    ∃ w', swapMsg c e { w with led := l1 } sender ⟨c.infos i, n⟩ belief maxSpread dest = .ok (w', out) := by
  unfold PCL.swap at h
  simp only [bind_ok_iff, Except.ok.injEq, Prod.mk.injEq] at h
  obtain ⟨off, hoff, bo, hbo, before, hbef, xs, hxs, ⟨⟩, hbs, old, hold, fs, hfs, r, hr, o, ho, pool, hpool, ret, hret, sp, hsp,
    ⟨⟩, hms, b1, g1, sa, hsa, ma, hma, b2, g2, b3, g3, tw, htw, cm, hcm, _, rfl⟩ := h
  have hm := hin.move
  simp only [sendOpt] at hm
  have ev : ∀ j, (view c w).bal j = w.led.of (c.infos j) := fun _ => rfl
  rw [ev, hm, Except.ok.injEq] at hbo
  subst hbo
  have hme : l1.of (c.infos i) c.me = w.led.of (c.infos i) c.me + n := by
    have := move_apply hm c.me
    rwa [if_neg (Ne.symm hs), if_pos rfl] at this
  have hother : ∀ j, j ≠ i → l1.of (c.infos j) = w.led.of (c.infos j) := fun j hj =>
    hin.other _ fun e => hj (infos_inj hc e)
  have hni : (!i) ≠ i := by cases i <;> simp
  rw [csub_ok, hme] at hbef
  have hb : before = w.led.of (c.infos i) c.me := by omega
  subst hb
  rw [ev, ← hother (!i) hni] at g1
  obtain ⟨l2, k2, e2⟩ := pcl_pay g1
  rw [← e2] at g2
  obtain ⟨l3, k3, e3⟩ := payNonzero_of_move g2
  rw [← e3] at g3
  obtain ⟨l4, k4, e4⟩ := payNonzero_of_move g3
  have hnf := no_fee hr
  have hmkr : makerShare e.fees = if e.feeAddr = none then 0 else e.maker := by
    unfold makerShare Env.fees
    cases e.feeAddr <;> simp
  -- the pools
  have hpi : c.prec i ≤ 18 := ((Stable.withPrec_ok _ _ _).1 hoff).1
  have hoff' : off = n * 10 ^ (18 - c.prec i) := ((Stable.withPrec_ok _ _ _).1 hoff).2.2.symm
  have hxs' := hxs
  simp only [decPools, bind_ok_iff, Except.ok.injEq, setup] at hxs'
  obtain ⟨x0, hx0, x1, hx1, rfl⟩ := hxs'
  have hwp : withPrec (l1.of (c.infos i) c.me) (c.prec i) = .ok ((w.led.of (c.infos i) c.me + n) * 10 ^ (18 - c.prec i)) := by
    rw [hme]
    exact withPrec_small hpi hsmall
  obtain ⟨ps, hps, hpsi, hpsj⟩ : ∃ ps, decPools (setup c) (fun j => l1.of (c.infos j) c.me) = .ok ps ∧
      ps i = (w.led.of (c.infos i) c.me + n) * 10 ^ (18 - c.prec i) ∧ ∀ j, j ≠ i → ps j = if j then x1 else x0 := by
    cases i
    · refine ⟨fun k => if k then x1 else (w.led.of (c.infos false) c.me + n) * 10 ^ (18 - c.prec false), ?_, rfl, ?_⟩
      · simp only [decPools, bind_ok_iff, Except.ok.injEq, setup]
        refine ⟨_, hwp, x1, ?_, rfl⟩
        rw [hother true (by simp)]
        simp only [Bool.true_eq_false, if_false] at hx1
        exact hx1
      · intro j hj
        cases j
        · exact absurd rfl hj
        · rfl
    · refine ⟨fun k => if k then (w.led.of (c.infos true) c.me + n) * 10 ^ (18 - c.prec true) else x0, ?_, rfl, ?_⟩
      · simp only [decPools, bind_ok_iff, Except.ok.injEq, setup]
        refine ⟨x0, ?_, _, hwp, rfl⟩
        rw [hother false (by simp)]
        simp only [Bool.false_eq_true, if_false] at hx0
        exact hx0
      · intro j hj
        cases j
        · rfl
        · exact absurd rfl hj
  have hxi : (if i then x1 else x0) = w.led.of (c.infos i) c.me * 10 ^ (18 - c.prec i) := by
    cases i
    · simp only [if_true] at hx0
      exact ((Stable.withPrec_ok _ _ _).1 hx0).2.2.symm
    · simp only [if_true] at hx1
      exact ((Stable.withPrec_ok _ _ _).1 hx1).2.2.symm
  have hrest : csub (ps i) off = .ok (if i then x1 else x0) := by
    rw [csub_ok, hpsi, hoff', hxi, Nat.add_mul]
    omega
  have hfun : (fun j => if j = i then (if i then x1 else x0) else ps j) = fun k => if k then x1 else x0 := by
    funext j
    by_cases hj : j = i
    · rw [if_pos hj, hj]
    · rw [if_neg hj, hpsj j hj]
  refine ⟨{ w with led := l4, twap := tw, pool := pool }, ?_⟩
  unfold swapMsg
  simp only [bind_ok_iff, orErr_ok, Except.ok.injEq, Prod.mk.injEq]
  refine ⟨i, label_infos hc i, off, hoff, ps, hps, _, hrest, (), ?_, old, ?_, fs, hfs, r, ?_, o, ho, pool, ?_, ret, hret, sp, hsp, (),
    hms, sa, ?_, ma, ?_, tw, htw, cm, hcm, l2, k2, l3, k3, l4, k4, rfl, rfl⟩
  · rw [hfun]; exact hbs
  · rw [hfun]; exact hold
  · rw [hfun, ← hmkr]; exact hr
  · rw [hfun, ← price_stored (c := c) (w := w) (w' := { w with led := l1 }) rfl rfl rfl]
    exact hpool
  · by_cases hsn : w.share = none
    · rw [if_pos hsn]
      have : fs = 0 := by
        simp only [feeShare, view, hsn, Except.ok.injEq] at hfs
        exact hfs.symm
      rw [hnf.1 this, Stable.toU128_ok, Nat.zero_div] at hsa
      rw [hsa.2.2]
    · rw [if_neg hsn]
      exact hsa
  · by_cases hfn : e.feeAddr = none
    · rw [if_pos hfn]
      rw [hnf.2 (by rw [hmkr, if_pos hfn]), Stable.toU128_ok, Nat.zero_div] at hma
      rw [hma.2.2]
    · rw [if_neg hfn]
      exact hma

theorem move_of_debit {l l2 : A → Nat} {a b : A} {n : Nat} (hab : a ≠ b) (h : debit l a n = .ok l2) :
    ∃ l1, Verif.move l a b n = .ok l1 ∧ debit l1 b n = .ok l2 := by
  have hle := (debit_ok.1 h).1
  obtain ⟨l1, h1⟩ := move_succeeds (b := b) hle
  have hd : ∃ l3, debit l1 b n = .ok l3 := by
    have := move_apply h1 b
    rw [if_neg (Ne.symm hab), if_pos rfl] at this
    exact ⟨_, debit_ok.2 ⟨by omega, rfl⟩⟩
  obtain ⟨l3, h3⟩ := hd
  have := debit_of_move hab h1 h3
  rw [h, Except.ok.injEq] at this
  subst this
  exact ⟨l1, h1, h3⟩

/-- The converse of `withdraw_meaning`. -/
theorem withdraw_converse {c : Cfg A} (hc : c.Ok) {e : Env A} {w : Chain A} {v : State A} {x : A} {n : Nat}
    (mins : Option (List (Info × Nat))) {mins' : Option (List (Bool × Nat))} {rs : Nat × Nat} (hs : x ≠ c.me)
    (h : PCL.withdraw (setup c) c.me (view c w) e.now x n mins' = .ok (v, rs)) :
    n ≠ 0 ∧ ∃ l1 w', attach w.led x c.me [⟨c.lp, n⟩] = .ok l1 ∧
      withdrawMsg c e { w with led := l1 } [⟨c.lp, n⟩] x [] mins = .ok (w', rs) := by
  unfold PCL.withdraw at h
  simp only [bind_ok_iff, require_ok, exists_const, Except.ok.injEq, Prod.mk.injEq] at h
  obtain ⟨hz, lp, hlp, xs, hxs, r0, hr0, r1, hr1, y0, hy0, y1, hy1, iy, hiy, ag, hag, d, hd, xcp, hxcp, rest, hrest,
    rd, hrd, real, hreal, a0, ha0, a1, ha1, b0, g0, b1, g1, _, rfl⟩ := h
  refine ⟨hz, ?_⟩
  obtain ⟨lp1, hlp1, hlp2⟩ := move_of_debit hs hlp
  obtain ⟨l1, k1, e1⟩ := led_move (w := w.led) (k := .native c.lp) hlp1
  have m1 := move_moved k1
  have hof : ∀ i, l1.of (c.infos i) = w.led.of (c.infos i) := fun i => m1.other _ (hc.lp i)
  have ev : ∀ j, (view c w).bal j = w.led.of (c.infos j) := fun _ => rfl
  rw [ev, ← hof] at g0 g1
  obtain ⟨l2, k2, e2⟩ := pcl_pay g0
  have m2 := pay_moved k2
  rw [← m2.other _ hc.ne.symm] at g1
  obtain ⟨l3, k3, e3⟩ := pcl_pay g1
  have m3 := pay_moved k3
  have hb3 : l3.bank c.lp = lp1 := by
    rw [← e1]
    exact (m3.other (.native c.lp) (hc.lp _).symm).trans (m2.other (.native c.lp) (hc.lp _).symm)
  rw [← hb3] at hlp2
  refine ⟨l1, { w with led := { l3 with bank := Function.update l3.bank c.lp lp }, supply := rest
                       pool := { w.pool with price := { w.pool.price with real := real } } }, ?_, ?_⟩
  · simp only [attach, k1, ok_bind]
  unfold withdrawMsg
  simp only [bind_ok_iff, require_ok, exists_const, Except.ok.injEq, Prod.mk.injEq]
  refine ⟨⟨c.lp, n⟩, by simp [oneCoin, hz], rfl, xs, ?_, trivial, r0, hr0, r1, hr1, y0, hy0, y1, hy1, iy, hiy, ag, hag, d, hd, xcp, hxcp,
    rest, hrest, rd, hrd, real, hreal, a0, ha0, a1, ha1, l2, k2, l3, k3, _, ?_, rfl, rfl, rfl⟩
  · simp only [hof]; exact hxs
  · simp only [burn, hlp2, ok_bind]

theorem pullDec_of_pull {c : Cfg A} {l l' : Led A} {x : A} {i : Bool} {n d : Nat} (hd : withPrec n (c.prec i) = .ok d)
    (hn : n < 2 ^ 128) (h : pull c l x i n = .ok l') : pullDec c l x i d = .ok l' := by
  unfold pull at h
  unfold pullDec
  cases hk : c.infos i with
  | native k =>
    simp only [hk] at h ⊢
    exact h
  | token t =>
    simp only [hk] at h ⊢
    rw [Stable.withPrec_ok] at hd
    obtain ⟨h18, _, rfl⟩ := hd
    have hpos : 0 < 10 ^ (18 - c.prec i) := Nat.pow_pos (by decide)
    by_cases h0 : n = 0
    · rw [if_pos (by rw [h0, Nat.zero_mul])]
      rw [if_pos h0] at h
      exact h
    · rw [if_neg (Nat.mul_ne_zero h0 (Nat.pos_iff_ne_zero.1 hpos))]
      rw [if_neg h0] at h
      simp only [toU128_scaled h18 hn, ok_bind]
      exact h

/-- The converse of `provide_meaning`. -/
theorem provide_converse {c : Cfg A} (hc : c.Ok) {e : Env A} (hreg : e.registered = true) {w : Chain A} {v : State A} {x : A}
    {d : Bool → Nat} {tol minLp : Option Nat} {r : Option A} {share : Nat} (hs : x ≠ c.me) (hal : Allowed c w.led x d)
    (hchk : ∀ i, Asset.Info.check c.okAddr (c.infos i) = .ok ()) (hsmall : ∀ i, w.led.of (c.infos i) c.me + d i < 2 ^ 128)
    (h : PCL.provide (setup c) c.me (view c w) e.now x d tol minLp (r.getD x) = .ok (v, share)) :
    ∃ l1 w', attach w.led x c.me (funds c d) = .ok l1 ∧
      provideMsg c e { w with led := l1 } (funds c d) x [⟨c.infos false, d false⟩, ⟨c.infos true, d true⟩] tol minLp r =
        .ok (w', share) := by
  unfold PCL.provide at h
  simp only [bind_ok_iff, require_ok, exists_const, Except.ok.injEq, Prod.mk.injEq] at h
  obtain ⟨total, htot, dd, hdd, xs, hxs, ⟨sd, pool⟩, hsh, sh, hto, hmin, hnz, b0, g0, b1, g1, sup, hsup, tw, htw, _, rfl⟩ := h
  rw [payout_eq] at g0 g1
  obtain ⟨l1, l2, l3, h1, h2, h3, hl1⟩ := deposit_arrives hc hs hal (b := fun i => if i then b1 else b0) (by
    intro i
    cases i
    · exact g0
    · exact g1)
  have hd' := hdd
  have hx' := hxs
  simp only [decPools, bind_ok_iff, Except.ok.injEq, setup] at hd' hx'
  obtain ⟨d0, hd0, d1, hd1, rfl⟩ := hd'
  obtain ⟨x0, hx0, x1, hx1, rfl⟩ := hx'
  have hp : ∀ i, c.prec i ≤ 18 := by
    intro i
    cases i
    · exact ((Stable.withPrec_ok _ _ _).1 hd0).1
    · exact ((Stable.withPrec_ok _ _ _).1 hd1).1
  have hdlt : ∀ i, d i < 2 ^ 128 := fun i => Nat.lt_of_le_of_lt (Nat.le_add_left _ _) (hsmall i)
  have hlt1 : ∀ i, l1.of (c.infos i) c.me < 2 ^ 128 := fun i => by
    rw [hl1]
    have := hsmall i
    split <;> omega
  have hps : decPools (setup c) (fun j => l1.of (c.infos j) c.me) = .ok fun k =>
      if k then l1.of (c.infos true) c.me * 10 ^ (18 - c.prec true) else l1.of (c.infos false) c.me * 10 ^ (18 - c.prec false) := by
    simp only [decPools, bind_ok_iff, Except.ok.injEq, setup]
    exact ⟨_, withPrec_small (hp false) (hlt1 false), _, withPrec_small (hp true) (hlt1 true), rfl⟩
  have pb : ∀ i a b, withPrec (d i) (c.prec i) = .ok a → withPrec (w.led.of (c.infos i) c.me) (c.prec i) = .ok b →
      poolBefore c i (l1.of (c.infos i) c.me * 10 ^ (18 - c.prec i)) a = .ok b := by
    intro i a b ha hb
    obtain rfl := ((Stable.withPrec_ok _ _ _).1 ha).2.2
    obtain rfl := ((Stable.withPrec_ok _ _ _).1 hb).2.2
    unfold poolBefore
    rw [hl1]
    by_cases hn : isNative (c.infos i) = true
    · have e1 : (Stable.Entry.setup c).native i = true := hn
      rw [if_pos hn, e1, if_pos rfl, csub_ok, Nat.add_mul]
      omega
    · have e1 : (Stable.Entry.setup c).native i = false := by simpa [Stable.Entry.setup] using hn
      rw [if_neg hn, e1]
      simp
  have hget : getAssets c e [⟨c.infos false, d false⟩, ⟨c.infos true, d true⟩] =
      .ok ([⟨c.infos false, d false⟩, ⟨c.infos true, d true⟩], fun k => if k then d1 else d0) := by
    simp only [getAssets, bind_ok_iff, require_ok, exists_const, orErr_ok]
    refine ⟨hreg, (⟨c.infos false, d false⟩, ⟨c.infos true, d true⟩), rfl, by simp [hc.ne], (), forAll_of ?_, ?_⟩
    · intro x hx
      simp only [List.mem_cons, List.not_mem_nil, or_false] at hx
      rcases hx with rfl | rfl
      · exact hchk false
      · exact hchk true
    · simp only [if_neg hc.ne]
      exact ⟨false, label_infos hc false, d0, hd0, true, label_infos hc true, d1, hd1, rfl⟩
  refine ⟨l1, { w with led := mint (mint l3 c.lp c.me (if total = 0 then MINIMUM_LIQUIDITY else 0)) c.lp (r.getD x) sh
                       twap := tw, supply := sup, pool := pool }, h1, ?_⟩
  unfold provideMsg
  simp only [bind_ok_iff, require_ok, exists_const, Except.ok.injEq, Prod.mk.injEq]
  refine ⟨total, htot, _, hps, (_, _), hget, (), assertCoins_funds hc d, x0, ?_, x1, ?_, (sd, pool), hsh, sh, hto, hmin, tw, htw, l2, ?_,
    l3, ?_, hnz, sup, hsup, rfl, rfl⟩
  · exact pb false d0 x0 hd0 hx0
  · exact pb true d1 x1 hd1 hx1
  · exact pullDec_of_pull hd0 (hdlt false) h2
  · exact pullDec_of_pull hd1 (hdlt true) h3

/-! ## C174 -/

/-- **C174, trading coins.**  A swap message with the offered coins attached succeeds exactly when the trade does, and has
exactly its effect. -/
theorem C174_coin_trade_iff (c : Cfg A) (hc : c.Ok) (e : Env A) (w : Chain A) (x : A) (hx : User c x) (i : Bool) (k : Str)
    (hi : c.infos i = .native k) (hk : Asset.Info.check c.okAddr (.native k) = .ok ()) (n : Nat) (hn : n ≠ 0)
    (hsmall : w.led.of (c.infos i) c.me + n < 2 ^ 128) (belief maxSpread : Option Nat) (dest : Option A) (v : State A) :
    (∃ w', exec c w (.call e x [⟨k, n⟩] (.swap ⟨.native k, n⟩ belief maxSpread dest)) = .ok w' ∧ view c w' = v) ↔
    ∃ out, PCL.swap (setup c) c.me (view c w) e.now x i n belief maxSpread (dest.getD x) e.fees = .ok (v, out) := by
  constructor
  · rintro ⟨w', h, rfl⟩
    have := C164_messages_are_pair_transactions c hc w w' _ h
    have hl : label c (.native k) = some i := by rw [← hi, label_infos hc]
    simp only [meaning, ops, Tx.env, hl, List.map_cons, List.map_nil, List.foldlM_cons, List.foldlM_nil, bind_ok_iff, pure_eq_ok,
      Except.ok.injEq, exists_eq_right] at this
    unfold exec1 PCL.exec at this
    simp only [bind_ok_iff, Except.ok.injEq] at this
    obtain ⟨_, _, ⟨v, out⟩, h1, h2⟩ := this
    exact ⟨out, by rw [h1, ← h2]⟩
  · rintro ⟨out, h⟩
    have h' := h
    unfold PCL.swap at h'
    simp only [bind_ok_iff] at h'
    obtain ⟨_, _, bo, hbo, _⟩ := h'
    obtain ⟨l1, k1, _⟩ := led_move (w := w.led) (k := c.infos i) hbo
    have hm := move_moved k1
    obtain ⟨w', h1⟩ := swap_converse hc hx.1 hm hsmall h
    obtain ⟨i', hi', h2⟩ := swap_meaning (offer := ⟨c.infos i, n⟩) hc hx.1 hm h1
    simp only [label_infos hc, Option.some.injEq] at hi'
    subst hi'
    rw [h, Except.ok.injEq, Prod.mk.injEq] at h2
    refine ⟨w', ?_, h2.1.symm⟩
    have hat : attach w.led x c.me [⟨k, n⟩] = .ok l1 := by
      rw [hi] at k1
      simp only [attach, k1, ok_bind]
    simp only [exec, execute, bind_ok_iff, require_ok, exists_const, Except.ok.injEq]
    refine ⟨hx, ⟨by simp, by simp [hn]⟩, l1, hat, (), hk, rfl, (), (Asset.C67_single_coin k n _).2 ⟨rfl, hn⟩, ?_, (w', out),
      by rw [← hi]; exact h1, rfl⟩
    cases i
    · exact Or.inl hi.symm
    · exact Or.inr hi.symm

/-- **C174, trading tokens.**  Sending tokens to the pair with a swap message - oneself, or on behalf of an owner who allows it -
succeeds exactly when the trade does, and has exactly its effect. -/
theorem C174_token_trade_iff (c : Cfg A) (hc : c.Ok) (e : Env A) (w : Chain A) (token owner spender : A) (ho : owner ≠ c.me)
    (hs : spender ≠ c.me) (i : Bool) (hi : c.infos i = .token (c.addr token)) (n : Nat)
    (hal : owner ≠ spender → n ≤ w.led.allow (c.addr token) owner spender) (hsmall : w.led.of (c.infos i) c.me + n < 2 ^ 128)
    (belief maxSpread : Option Nat) (dest : Option A) (v : State A) :
    (∃ w', exec c w (.send e token owner spender n belief maxSpread dest) = .ok w' ∧ view c w' = v) ↔
    ∃ out, PCL.swap (setup c) c.me (view c w) e.now owner i n belief maxSpread (dest.getD spender) e.fees = .ok (v, out) := by
  constructor
  · rintro ⟨w', h, rfl⟩
    have := C164_messages_are_pair_transactions c hc w w' _ h
    have hl : label c (.token (c.addr token)) = some i := by rw [← hi, label_infos hc]
    simp only [meaning, ops, Tx.env, hl, List.map_cons, List.map_nil, List.foldlM_cons, List.foldlM_nil, bind_ok_iff, pure_eq_ok,
      Except.ok.injEq, exists_eq_right] at this
    unfold exec1 PCL.exec at this
    simp only [bind_ok_iff, Except.ok.injEq] at this
    obtain ⟨_, _, ⟨v, out⟩, h1, h2⟩ := this
    exact ⟨out, by rw [h1, ← h2]⟩
  · rintro ⟨out, h⟩
    have h' := h
    unfold PCL.swap at h'
    simp only [bind_ok_iff] at h'
    obtain ⟨_, _, bo, hbo, _⟩ := h'
    have hin : ∃ l1, (if owner = spender then w.led.move (.token (c.addr token)) owner c.me n
        else Ledgers.transferFrom w.led (c.addr token) owner spender c.me n) = .ok l1 := by
      have hb : Verif.move (w.led.tok (c.addr token)) owner c.me n = .ok bo := by
        have e : (view c w).bal i = w.led.tok (c.addr token) := by
          change w.led.of (c.infos i) = _
          rw [hi]
          rfl
        rw [← e]
        exact hbo
      split_ifs with hos
      · obtain ⟨l1, h1, _⟩ := led_move (w := w.led) (k := .token (c.addr token)) hb
        exact ⟨l1, h1⟩
      · simp only [Ledgers.transferFrom, (csub_ok _ _ _).2 ⟨hal hos, rfl⟩, ok_bind, hb]
        exact ⟨_, rfl⟩
    obtain ⟨l1, k1⟩ := hin
    have hm : Ledgers.Moved w.led (c.infos i) owner (some c.me) n l1 := by
      rw [hi]
      split_ifs at k1
      · exact move_moved k1
      · exact transferFrom_moved k1
    obtain ⟨w', h1⟩ := swap_converse hc ho hm hsmall h
    obtain ⟨i', hi', h2⟩ := swap_meaning (offer := ⟨c.infos i, n⟩) hc ho hm h1
    simp only [label_infos hc, Option.some.injEq] at hi'
    subst hi'
    rw [h, Except.ok.injEq, Prod.mk.injEq] at h2
    refine ⟨w', ?_, h2.1.symm⟩
    simp only [exec, execute, bind_ok_iff, require_ok, exists_const, Except.ok.injEq]
    refine ⟨⟨ho, hs⟩, l1, k1, ?_, (w', out), by rw [← hi]; exact h1, rfl⟩
    cases i
    · exact Or.inl hi
    · exact Or.inr hi

/-- **C174, withdrawing.**  A withdrawal message with LP tokens attached succeeds exactly when the withdrawal does, and has
exactly its effect (whatever minimum is asked for: see C87). -/
theorem C174_withdraw_iff (c : Cfg A) (hc : c.Ok) (e : Env A) (w : Chain A) (x : A) (hx : User c x) (n : Nat)
    (mins : Option (List (Info × Nat))) (v : State A) :
    (∃ w', exec c w (.call e x [⟨c.lp, n⟩] (.withdraw [] mins)) = .ok w' ∧ view c w' = v) ↔
    ∃ rs, PCL.withdraw (setup c) c.me (view c w) e.now x n none = .ok (v, rs) := by
  have esent : sent [⟨c.lp, n⟩] c.lp = n := by simp [sent]
  constructor
  · rintro ⟨w', h, rfl⟩
    have := C164_messages_are_pair_transactions c hc w w' _ h
    simp only [meaning, ops, Tx.env, List.map_cons, List.map_nil, List.foldlM_cons, List.foldlM_nil, bind_ok_iff, pure_eq_ok,
      Except.ok.injEq, exists_eq_right, esent] at this
    unfold exec1 PCL.exec at this
    simp only [bind_ok_iff, Except.ok.injEq] at this
    obtain ⟨_, _, ⟨v, out⟩, h1, h2⟩ := this
    refine ⟨out, ?_⟩
    rw [← h2]
    exact h1
  · rintro ⟨rs, h⟩
    obtain ⟨hz, l1, w', h1, h2⟩ := withdraw_converse hc mins hx.1 h
    have h3 := withdraw_meaning hc hx.1 h1 h2 none
    rw [esent, h, Except.ok.injEq, Prod.mk.injEq] at h3
    refine ⟨w', ?_, h3.1.symm⟩
    simp only [exec, execute, bind_ok_iff, require_ok, exists_const, Except.ok.injEq]
    exact ⟨hx, ⟨by simp, by simp [hz]⟩, l1, h1, (w', rs), h2, rfl⟩

/-- **C174, depositing.**  At a pair that the factory knows, a deposit message that declares both assets, with its coins attached
and its tokens allowed, succeeds exactly when the deposit does, and has exactly its effect. -/
theorem C174_deposit_iff (c : Cfg A) (hc : c.Ok) (hchk : ∀ i, Asset.Info.check c.okAddr (c.infos i) = .ok ()) (e : Env A)
    (hreg : e.registered = true) (w : Chain A) (x : A) (hx : User c x) (d : Bool → Nat) (hal : Allowed c w.led x d)
    (hsmall : ∀ i, w.led.of (c.infos i) c.me + d i < 2 ^ 128) (tol minLp : Option Nat) (dest : Option A) (v : State A) :
    (∃ w', exec c w (.call e x (coinsOf c d false ++ coinsOf c d true)
      (.provide [⟨c.infos false, d false⟩, ⟨c.infos true, d true⟩] tol minLp dest)) = .ok w' ∧ view c w' = v) ↔
    ∃ share, PCL.provide (setup c) c.me (view c w) e.now x d tol minLp (dest.getD x) = .ok (v, share) := by
  have ed : (fun i => declared [⟨c.infos false, d false⟩, ⟨c.infos true, d true⟩] (c.infos i)) = d := by
    funext i
    cases i <;> simp [declared, hc.ne, hc.ne.symm]
  constructor
  · rintro ⟨w', h, rfl⟩
    have := C164_messages_are_pair_transactions c hc w w' _ h
    simp only [meaning, ops, Tx.env, List.map_cons, List.map_nil, List.foldlM_cons, List.foldlM_nil, bind_ok_iff, pure_eq_ok,
      Except.ok.injEq, exists_eq_right, ed] at this
    unfold exec1 PCL.exec at this
    simp only [bind_ok_iff, Except.ok.injEq] at this
    obtain ⟨_, _, ⟨v, out⟩, h1, h2⟩ := this
    exact ⟨out, by rw [h1, ← h2]⟩
  · rintro ⟨share, h⟩
    obtain ⟨l1, w', h1, h2⟩ := provide_converse hc hreg hx.1 hal hchk hsmall h
    have h3 := provide_meaning hc hx.1 (funds_valid hc d) h1 h2
    rw [ed, h, Except.ok.injEq, Prod.mk.injEq] at h3
    refine ⟨w', ?_, h3.1.symm⟩
    simp only [exec, execute, bind_ok_iff, require_ok, exists_const, Except.ok.injEq]
    exact ⟨hx, funds_valid hc d, l1, h1, (w', share), h2, rfl⟩

/-- A pair that the factory does not know (any more) takes no deposits, whoever sends them and whatever they contain. -/
theorem C174_unregistered_refuses_deposits (c : Cfg A) (e : Env A) (hreg : e.registered = false) (w w' : Chain A) (x : A)
    (funds : List Coin) (assets : List Asset.Asset) (tol minLp : Option Nat) (dest : Option A) :
    exec c w (.call e x funds (.provide assets tol minLp dest)) ≠ .ok w' := by
  intro h
  simp only [exec, execute, provideMsg, getAssets, bind_ok_iff, require_ok, exists_const, hreg] at h
  obtain ⟨_, _, _, _, _, ⟨_, _, _, _, _, ⟨h, _⟩, _⟩, _⟩ := h
  cases h

/-! ## Examples -/

/-- The hypotheses hold for users of the example of `PCL/Entry.lean`: 1 deposits coins and tokens, and 2 and 3 trade. -/
example : (∀ x ∈ [1, 2, 3], User demoCfg x) ∧ (∀ i, Asset.Info.check demoCfg.okAddr (demoCfg.infos i) = .ok ()) ∧
    Allowed demoCfg demoChain.led 1 (fun _ => 10 ^ 12) ∧ (demoEnv 2000).registered = true ∧
    coinsOf demoCfg (fun _ => 10 ^ 12) false ++ coinsOf demoCfg (fun _ => 10 ^ 12) true = [⟨"uluna".toList, 10 ^ 12⟩] ∧
    okAnd (exec demoCfg demoChain (.call (demoEnv 2000) 1 [⟨"uluna".toList, 10 ^ 12⟩] (.provide
      [⟨demoCfg.infos false, 10 ^ 12⟩, ⟨demoCfg.infos true, 10 ^ 12⟩] none none none))) (fun w =>
      decide (w.supply ≠ 0) &&
      (exec demoCfg w (.call (demoEnv 2001) 2 [⟨"uluna".toList, 10 ^ 9⟩] (.swap ⟨.native "uluna".toList, 10 ^ 9⟩
        none (some (10 ^ 17)) none))).isOk &&
      (exec demoCfg w (.send (demoEnv 2001) 9 3 3 (10 ^ 9) none (some (10 ^ 17)) (some 4))).isOk &&
      (exec demoCfg w (.call (demoEnv 2001) 1 [⟨"lp".toList, 10 ^ 8⟩] (.withdraw [] none))).isOk) = true := by
  refine ⟨by decide, fun i => by cases i <;> decide, fun i t h => ?_, rfl, by decide, by decide +kernel⟩
  cases i <;> simp [demoCfg] at h <;> subst h <;> decide +kernel

end Verif.PCL.Entry
