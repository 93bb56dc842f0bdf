import Verif.XYK.Honest

/-!
# Constant product pairs are always there (C172): lemmas

When messages to a constant product pair succeed.  The theorems about histories of the exchange are in `Joint/Available.lean`.
-/

namespace Verif.XYK.Entry

open Verif Verif.XYK
open Verif.Asset (Str Info Coin sent)

set_option linter.unusedSectionVars false
set_option linter.unusedSimpArgs false

variable {A : Type} [DecidableEq A]

/-- **Specification.**  The price accumulators can be brought up to date: the price times the seconds since the last message
(with six digits) is below `2^128`, both ways. -/
def InTime (t : Twap) (now x y : Nat) : Prop :=
  (now - t.last) * 10 ^ 6 < 2 ^ 128 ∧ (now - t.last) * 10 ^ 6 * y / x < 2 ^ 128 ∧ (now - t.last) * 10 ^ 6 * x / y < 2 ^ 128

theorem accumulate_succeeds {t : Twap} {now x y : Nat} (h : InTime t now x y) : ∃ t', accumulate t now x y = .ok t' := by
  obtain ⟨h1, h2, h3⟩ := h
  unfold accumulate
  by_cases hn : now ≤ t.last
  · exact ⟨_, by rw [if_pos hn]⟩
  · rw [if_neg hn]
    by_cases hxy : x ≠ 0 ∧ y ≠ 0
    · simp only [if_pos hxy]
      simp only [bind_ok_iff, u128_ok, mulRatio_ok, Except.ok.injEq]
      exact ⟨_, _, ⟨h1, rfl⟩, _, ⟨hxy.1, h2, rfl⟩, _, ⟨hxy.2, h3, rfl⟩, rfl⟩
    · exact ⟨_, by rw [if_neg hxy]⟩

theorem pay_succeeds {c : Cfg A} {w : Chain A} {k : Info} {dst : A} {n : Nat} (hn : n ≠ 0) (h : n ≤ w.of k c.me) :
    ∃ w', pay c w k dst n = .ok w' := by
  obtain ⟨l, hl⟩ := move_succeeds (b := dst) h
  refine ⟨w.set k l, ?_⟩
  simp only [pay, Chain.move, bind_ok_iff, require_ok, exists_const, Except.ok.injEq]
  exact ⟨fun h => hn h.2, l, hl, rfl⟩

theorem shareInAsset_succeeds {pool n supply : Nat} (hs : supply ≠ 0) (hn : n ≤ supply) (hp : pool < 2 ^ 128) :
    shareInAsset pool n supply = .ok (pool * (n * DEC / supply) / DEC) ∧ pool * (n * DEC / supply) / DEC ≤ pool := by
  have h1 : n * DEC / supply ≤ DEC := by
    apply Nat.div_le_of_le_mul
    exact Nat.mul_le_mul_right _ hn
  have h2 : pool * (n * DEC / supply) / DEC ≤ pool := mul_div_le_of_le h1
  refine ⟨?_, h2⟩
  unfold shareInAsset
  rw [if_neg hs]
  simp only [bind_ok_iff, decFromRatio_ok, u128_ok, mulDec]
  exact ⟨_, ⟨hs, Nat.lt_of_le_of_lt h1 (by norm_num [DEC, U128]), rfl⟩, Nat.lt_of_le_of_lt h2 hp, rfl⟩

/-- Withdrawing. -/
theorem withdraw_succeeds (c : Cfg A) (hc : c.Ok) (e : Env A) (w : Chain A) (x : A) (hx : x ≠ c.me)
    (ht : ∀ i, c.infos i ≠ .token (c.addr x)) (n : Nat) (hn : n ≠ 0) (hbal : n ≤ w.bank c.lp x) (hsup : n ≤ w.supply)
    (hp : ∀ i, w.of (c.infos i) c.me < 2 ^ 128)
    (hr : ∀ i, isNative (c.infos i) = true → w.of (c.infos i) c.me * (n * DEC / w.supply) / DEC ≠ 0)
    (htw : InTime w.twap e.now (w.of (c.infos false) c.me) (w.of (c.infos true) c.me)) :
    ∃ w', exec c w (.call e x [⟨c.lp, n⟩] (.withdraw [] none)) = .ok w' ∧
      (∀ i, w'.of (c.infos i) x = w.of (c.infos i) x + w.of (c.infos i) c.me * (n * DEC / w.supply) / DEC) ∧
      w'.bank c.lp x + n = w.bank c.lp x := by
  have hs0 : w.supply ≠ 0 := by omega
  obtain ⟨l, hl⟩ := move_succeeds (l := w.of (.native c.lp)) (b := c.me) hbal
  have hm := moved_set hl
  generalize hw1 : w.set (.native c.lp) l = w1 at hm
  have e1 : ∀ i, w1.of (c.infos i) = w.of (c.infos i) := fun i => hm.other _ (hc.lp i)
  have es : w1.supply = w.supply := hm.rest.supply
  obtain ⟨s0, q0⟩ := shareInAsset_succeeds hs0 hsup (hp false)
  obtain ⟨s1, q1⟩ := shareInAsset_succeeds hs0 hsup (hp true)
  have r0 := hr false
  have r1 := hr true
  generalize hv0 : w.of (c.infos false) c.me * (n * DEC / w.supply) / DEC = v0 at *
  generalize hv1 : w.of (c.infos true) c.me * (n * DEC / w.supply) / DEC = v1 at *
  obtain ⟨tw, htw⟩ := accumulate_succeeds htw
  generalize hu0 : w.of (c.infos false) c.me - v0 = u0
  generalize hu1 : w.of (c.infos true) c.me - v1 = u1
  generalize hw2 : ({ w1 with twap := tw, tracked := (fun j => if j then u1 else u0) } : Chain A) = w2
  have e2 : ∀ k, w2.of k = w1.of k := fun k => by subst hw2; cases k <;> rfl
  obtain ⟨l3, hl3⟩ := move_succeeds (l := w2.of (c.infos false)) (a := c.me) (b := x) (n := v0) (by rw [e2, e1]; exact q0)
  obtain ⟨w3, h3, _⟩ := pay_of_move (c := c) (fun h => r0 h.1 h.2) hl3
  have m3 := pay_moved h3
  have e3 : w3.of (c.infos true) = w2.of (c.infos true) := m3.other _ hc.ne.symm
  obtain ⟨l4, hl4⟩ := move_succeeds (l := w3.of (c.infos true)) (a := c.me) (b := x) (n := v1) (by rw [e3, e2, e1]; exact q1)
  obtain ⟨w4, h4, _⟩ := pay_of_move (c := c) (fun h => r1 h.1 h.2) hl4
  have m4 := pay_moved h4
  have elp : w4.of (.native c.lp) = w1.of (.native c.lp) :=
    (m4.other _ (hc.lp true).symm).trans ((m3.other _ (hc.lp false).symm).trans (e2 _))
  have a1 := move_apply (show Verif.move (w.of (.native c.lp)) x c.me n = .ok (w1.of (.native c.lp)) from hm.move)
  have hme : n ≤ w4.bank c.lp c.me := by
    have := a1 c.me
    rw [if_neg (Ne.symm hx), if_pos rfl] at this
    have e : w4.bank c.lp c.me = w1.of (.native c.lp) c.me := congrFun elp c.me
    omega
  obtain ⟨lp, hlp⟩ : ∃ lp, debit (w4.bank c.lp) c.me n = .ok lp := ⟨_, debit_ok.2 ⟨hme, rfl⟩⟩
  refine ⟨{ w4 with bank := Function.update w4.bank c.lp lp, supply := w.supply - n }, ?_, ?_, ?_⟩
  · simp only [exec, bind_ok_iff, require_ok, exists_const]
    refine ⟨⟨hx, ht false, ht true⟩, ⟨by simp, by simpa using hn⟩, w1, ?_, ?_⟩
    · simp only [attach, Chain.move, bind_ok_iff, Except.ok.injEq]
      exact ⟨w1, ⟨l, hl, hw1⟩, rfl⟩
    · simp only [execute, withdrawMsg, oneCoin, if_neg hn, bind_ok_iff, Except.ok.injEq, require_ok, exists_const]
      refine ⟨(_, (v0, v1)), ⟨⟨c.lp, n⟩, rfl, rfl, v0, ?_, v1, ?_, trivial, (), rfl, u0, ?_, u1, ?_, tw, ?_, w3, ?_, w4, h4, lp, hlp, w.supply - n, ?_, rfl⟩, rfl⟩
      · rw [e1, es]; exact s0
      · rw [e1, es]; exact s1
      · rw [e1, csub_ok]; exact ⟨q0, hu0⟩
      · rw [e1, csub_ok]; exact ⟨q1, hu1⟩
      · rw [e1, e1, hm.rest.twap]; exact htw
      · rw [hw2]; exact h3
      · rw [es, csub_ok]; exact ⟨hsup, rfl⟩
  · have e5 : ∀ i, ({ w4 with bank := Function.update w4.bank c.lp lp, supply := w.supply - n } : Chain A).of (c.infos i) =
        w4.of (c.infos i) := by
      intro i
      have := hc.lp i
      cases hk : c.infos i with
      | token t => rfl
      | native d =>
        have hd : d ≠ c.lp := fun e => this (by rw [hk, e])
        simp [Chain.of, hd]
    intro i
    rw [e5]
    cases i
    · have := move_apply (show Verif.move (w2.of (c.infos false)) c.me x v0 = .ok (w3.of (c.infos false)) from m3.move) x
      rw [if_neg hx, if_pos rfl] at this
      rw [m4.other _ hc.ne, this, e2, e1, hv0]
    · have := move_apply (show Verif.move (w3.of (c.infos true)) c.me x v1 = .ok (w4.of (c.infos true)) from m4.move) x
      rw [if_neg hx, if_pos rfl] at this
      rw [this, e3, e2, e1, hv1]
  · have h1 := a1 x
    rw [if_pos rfl, if_neg hx] at h1
    have h2 := debit_apply hlp x
    rw [if_neg hx] at h2
    have h3' : w4.bank c.lp x = w1.of (.native c.lp) x := congrFun elp x
    simp only [Function.update_self]
    have h4' : w.of (.native c.lp) x = w.bank c.lp x := rfl
    omega

theorem splitFees_succeeds {f : Fees A} {k : Nat} (hb : ∀ p, f.share = some p → p.1 ≤ 10000) (hk : k < 2 ^ 128) :
    ∃ p, splitFees f k = .ok p := by
  have : ∃ a, feeShareAmount f k = .ok a := by
    unfold feeShareAmount
    cases hs : f.share with
    | none => exact ⟨0, rfl⟩
    | some p =>
      obtain ⟨bps, r⟩ := p
      have hb := hb _ hs
      have h1 : bps * DEC / 10000 ≤ DEC := by
        apply Nat.div_le_of_le_mul
        exact Nat.mul_le_mul_right _ hb
      simp only [bind_ok_iff, decFromRatio_ok, u128_ok]
      exact ⟨_, _, ⟨by norm_num, Nat.lt_of_le_of_lt h1 (by norm_num [DEC, U128]), rfl⟩,
        Nat.lt_of_le_of_lt (mulDec_le h1) hk, rfl⟩
  obtain ⟨a, ha⟩ := this
  unfold splitFees
  simp only [ha, ok_bind]
  exact ⟨_, rfl⟩

/-- The formula of a trade: it fails only if the offer at the current price is worth more than `2^128`. -/
theorem computeSwap_succeeds {o a n rate : Nat} (ho : o ≠ 0) (ha : a ≠ 0) (hn : n ≠ 0) (hr : rate ≤ DEC) (hol : o < 2 ^ 128)
    (hal : a < 2 ^ 128) (hv : n * (a * DEC / o) / DEC < 2 ^ 128) :
    ∃ r, computeSwap o a n rate = .ok r ∧ r.ret + r.commission ≤ a := by
  have hq : o * a * DEC / (o + n) ≤ a * DEC := by
    apply Nat.div_le_of_le_mul
    calc o * a * DEC = o * (a * DEC) := by ring
      _ ≤ (o + n) * (a * DEC) := Nat.mul_le_mul_right _ (Nat.le_add_right ..)
  have hd : DEC < 2 ^ 60 := by norm_num [DEC]
  have had : a * DEC < U256 := by
    calc a * DEC ≤ 2 ^ 128 * 2 ^ 60 := Nat.mul_le_mul hal.le hd.le
      _ < U256 := by norm_num [U256]
  have hg : (1 * (a * DEC - o * a * DEC / (o + n))) / DEC ≤ a := by
    rw [Nat.one_mul]
    apply Nat.div_le_of_le_mul
    rw [Nat.mul_comm DEC a]
    exact Nat.sub_le ..
  have hm : mulDec (1 * (a * DEC - o * a * DEC / (o + n)) / DEC) rate ≤ 1 * (a * DEC - o * a * DEC / (o + n)) / DEC := mulDec_le hr
  have hp : a * DEC / o ≤ a * DEC := Nat.div_le_self ..
  refine ⟨⟨1 * (a * DEC - o * a * DEC / (o + n)) / DEC - mulDec (1 * (a * DEC - o * a * DEC / (o + n)) / DEC) rate,
    mulDec n (a * DEC / o) - 1 * (a * DEC - o * a * DEC / (o + n)) / DEC,
    mulDec (1 * (a * DEC - o * a * DEC / (o + n)) / DEC) rate⟩, ?_, ?_⟩
  · unfold computeSwap checkSwapParameters
    simp only [bind_ok_iff, require_ok, dec256FromRatio_ok, csub_ok, u128_ok, Except.ok.injEq,
      List.any_cons, List.any_nil, Bool.or_false, Bool.or_eq_true, decide_eq_true_eq, not_or]
    refine ⟨(), ⟨(), ⟨ho, ha⟩, hn⟩, _, ⟨by omega, Nat.lt_of_le_of_lt hq had, rfl⟩, _, ⟨hq, rfl⟩, _,
      ⟨ho, Nat.lt_of_le_of_lt hp had, rfl⟩, _, ⟨hm, rfl⟩, _, ⟨?_, rfl⟩, _, ⟨?_, rfl⟩, _, ⟨?_, rfl⟩, rfl⟩
    · exact Nat.lt_of_le_of_lt (Nat.le_trans (Nat.sub_le ..) hg) hal
    · exact Nat.lt_of_le_of_lt (Nat.sub_le ..) hv
    · exact Nat.lt_of_le_of_lt (Nat.le_trans hm hg) hal
  · simp only
    rw [Nat.sub_add_cancel hm]
    exact hg

theorem payNonzero_succeeds {c : Cfg A} {w : Chain A} {k : Info} {dst : Option A} {n : Nat} (h : n ≤ w.of k c.me) :
    ∃ w', payNonzero c w k dst n = .ok w' := by
  unfold payNonzero
  cases dst with
  | none => exact ⟨w, rfl⟩
  | some a =>
    by_cases hn : n = 0
    · exact ⟨w, by simp [hn]⟩
    · simp only [if_neg hn]
      exact pay_succeeds hn h

theorem sendOpt_left {l l' : A → Nat} {me : A} {dst : Option A} {n : Nat} (h : sendOpt l me dst n = .ok l') :
    l me ≤ l' me + n := by
  cases dst with
  | none =>
    simp only [sendOpt, Except.ok.injEq] at h
    subst h
    omega
  | some a =>
    have := move_apply h me
    rw [if_pos rfl] at this
    omega

theorem sendOpt_right {l l' : A → Nat} {me z : A} {dst : Option A} {n : Nat} (h : sendOpt l me dst n = .ok l') (hz : z ≠ me) :
    l z + (if dst = some z then n else 0) ≤ l' z := by
  cases dst with
  | none =>
    simp only [sendOpt, Except.ok.injEq] at h
    subst h
    simp
  | some a =>
    have := move_apply h z
    rw [if_neg hz] at this
    simp only [Option.some.injEq]
    by_cases ha : a = z
    · rw [if_pos ha.symm] at this
      rw [if_pos ha]
      omega
    · rw [if_neg (Ne.symm ha)] at this
      rw [if_neg ha]
      omega

/-- A trade of what is already in the pair. -/
theorem swapMsg_succeeds (c : Cfg A) (hc : c.Ok) (e : Env A) (w : Chain A) (funds : List Coin) (u : A) (i : Bool) (n : Nat)
    (hsent : Asset.assertSent ⟨c.infos i, n⟩ funds = .ok ()) (hn : n ≠ 0) (hin : n ≤ w.of (c.infos i) c.me)
    (ho : w.of (c.infos i) c.me - n ≠ 0) (ha : w.of (c.infos !i) c.me ≠ 0) (hp : ∀ j, w.of (c.infos j) c.me < 2 ^ 128)
    (hf : e.total ≤ DEC ∧ e.maker ≤ DEC) (hs : ∀ p, w.share = some p → p.1 ≤ 10000)
    (hv : n * (w.of (c.infos !i) c.me * DEC / (w.of (c.infos i) c.me - n)) / DEC < 2 ^ 128)
    (b m : Option Nat) (r : Option A)
    (hlim : ∀ q, computeSwap (w.of (c.infos i) c.me - n) (w.of (c.infos !i) c.me) n e.total = .ok q →
      assertMaxSpread b m n (q.ret + q.commission) q.spread = .ok ())
    (htw : InTime w.twap e.now (w.of (c.infos false) c.me - if i then 0 else n)
      (w.of (c.infos true) c.me - if i then n else 0)) :
    ∃ w' q out, computeSwap (w.of (c.infos i) c.me - n) (w.of (c.infos !i) c.me) n e.total = .ok q ∧
      swapMsg c e w funds u ⟨c.infos i, n⟩ b m r = .ok (w', out) ∧
      (r.getD u ≠ c.me → w.of (c.infos !i) (r.getD u) + q.ret ≤ w'.of (c.infos !i) (r.getD u)) := by
  obtain ⟨q, hq, hqa⟩ := computeSwap_succeeds ho ha hn hf.1 (Nat.lt_of_le_of_lt (Nat.sub_le ..) (hp i)) (hp !i) hv
  have hl := hlim q hq
  obtain ⟨⟨sh, mk⟩, hsp⟩ := splitFees_succeeds (f := fees e w) (k := q.commission) hs
    (Nat.lt_of_le_of_lt (Nat.le_trans (Nat.le_add_left ..) hqa) (hp !i))
  have hfe : sh + mk ≤ q.commission := splitFees_le hf.2 hs hsp
  obtain ⟨tw, htw⟩ := accumulate_succeeds htw
  generalize hx : w.of (c.infos i) c.me - n = x at *
  generalize hy : w.of (c.infos !i) c.me = y at *
  generalize hw1 : ({ w with twap := tw, tracked := (fun j => if j = i then x + n else y - (q.ret + mk + sh)) } : Chain A) = w1
  have e1 : ∀ k, w1.of k = w.of k := fun k => by subst hw1; cases k <;> rfl
  obtain ⟨w2, h2⟩ := payNonzero_succeeds (c := c) (w := w1) (k := c.infos !i) (dst := some (r.getD u)) (n := q.ret)
    (by rw [e1, hy]; omega)
  have l2 := sendOpt_left (payNonzero_moved h2).move
  rw [e1, hy] at l2
  obtain ⟨w3, h3⟩ := payNonzero_succeeds (c := c) (w := w2) (k := c.infos !i) (dst := w.share.map (·.2)) (n := sh) (by omega)
  have l3 := sendOpt_left (payNonzero_moved h3).move
  obtain ⟨w4, h4⟩ := payNonzero_succeeds (c := c) (w := w3) (k := c.infos !i) (dst := e.feeAddr) (n := mk) (by omega)
  have hpi := hp i
  have hpn := hp !i
  rw [hy] at hpn
  refine ⟨w4, q, ⟨q.ret, q.spread, q.commission, mk, sh⟩, hq, ?_, ?_⟩
  swap
  · intro hz
    have g2 := sendOpt_right (payNonzero_moved h2).move hz
    have g3 := sendOpt_right (payNonzero_moved h3).move hz
    have g4 := sendOpt_right (payNonzero_moved h4).move hz
    rw [e1, if_pos rfl] at g2
    omega
  unfold swapMsg
  simp only [bind_ok_iff, Except.ok.injEq, Prod.mk.injEq]
  cases i
  · simp only [Bool.not_false, if_true, if_neg hc.ne.symm, Bool.false_eq_true, if_false, Nat.sub_zero] at *
    refine ⟨(), hsent, x, (csub_ok _ _ _).2 ⟨hin, hx⟩, y, by rw [hy], false, rfl, q, ?_, q.ret + q.commission, ?_, (), hl, (sh, mk), hsp,
      x + n, ?_, y - (q.ret + mk + sh), ?_, tw, ?_, w2, ?_, w3, h3, w4, h4, rfl, rfl⟩
    · exact hq
    · exact (u128_ok _ _).2 ⟨by unfold U128; simp; omega, rfl⟩
    · exact (u128_ok _ _).2 ⟨by unfold U128; simp; omega, rfl⟩
    · exact (csub_ok _ _ _).2 ⟨by simp; omega, rfl⟩
    · rw [hx, hy] at htw; exact htw
    · rw [← hw1] at h2; exact h2
  · simp only [Bool.not_true, if_true, if_neg hc.ne, Bool.false_eq_true, if_false, Nat.sub_zero] at *
    refine ⟨(), hsent, y, by rw [hy], x, (csub_ok _ _ _).2 ⟨hin, hx⟩, true, by rw [if_neg hc.ne.symm], q, ?_, q.ret + q.commission, ?_, (), hl, (sh, mk), hsp,
      x + n, ?_, y - (q.ret + mk + sh), ?_, tw, ?_, w2, ?_, w3, h3, w4, h4, rfl, rfl⟩
    · exact hq
    · exact (u128_ok _ _).2 ⟨by unfold U128; simp; omega, rfl⟩
    · exact (u128_ok _ _).2 ⟨by unfold U128; simp; omega, rfl⟩
    · exact (csub_ok _ _ _).2 ⟨by simp; omega, rfl⟩
    · rw [hx, hy] at htw; exact htw
    · rw [← hw1] at h2; exact h2

/-- A trade of at most half of the pool, worth at least two units, has a spread of at most one half. -/
theorem half_trade {o a n rate : Nat} {q : SwapResult} (hh : 2 * n ≤ o) (hw : 2 * o ≤ n * a) (ho : o ≠ 0) (ha : a < 2 ^ 128)
    (h : computeSwap o a n rate = .ok q) :
    assertMaxSpread none (some (5 * 10 ^ 17)) n (q.ret + q.commission) q.spread = .ok () := by
  unfold computeSwap at h
  simp only [bind_ok_iff, require_ok, dec256FromRatio_ok, csub_ok, u128_ok, Except.ok.injEq] at h
  obtain ⟨⟨⟩, _, z, ⟨hz0, _, rfl⟩, df, ⟨hdf, rfl⟩, pr, ⟨_, _, rfl⟩, rt, ⟨hrt, rfl⟩, rt', ⟨_, rfl⟩, sp, ⟨_, rfl⟩, cm, ⟨_, rfl⟩, rfl⟩ := h
  simp only
  rw [Nat.sub_add_cancel hrt]
  have hD : 0 < DEC := by norm_num [DEC]
  have hon : 0 < o + n := by omega
  -- the gross return is at least `a·n/(o+n)`
  have hk : a * n / (o + n) ≤ mulDec 1 (a * DEC - o * a * DEC / (o + n)) := by
    unfold mulDec
    rw [Nat.one_mul, Nat.le_div_iff_mul_le hD, Nat.le_sub_iff_add_le hdf, Nat.add_comm, ← Nat.add_mul_div_right _ _ hon]
    apply Nat.div_le_of_le_mul
    calc o * a * DEC + a * n / (o + n) * DEC * (o + n) = o * a * DEC + a * n / (o + n) * (o + n) * DEC := by ring
      _ ≤ o * a * DEC + a * n * DEC := Nat.add_le_add_left (Nat.mul_le_mul_right _ (Nat.div_mul_le_self ..)) _
      _ = (o + n) * (a * DEC) := by ring
  have hga : mulDec 1 (a * DEC - o * a * DEC / (o + n)) ≤ a := by
    unfold mulDec
    rw [Nat.one_mul]
    apply Nat.div_le_of_le_mul
    rw [Nat.mul_comm DEC a]
    exact Nat.sub_le ..
  generalize mulDec 1 (a * DEC - o * a * DEC / (o + n)) = g at *
  -- the value at the current price is at most `a·n/o`
  have hv : mulDec n (a * DEC / o) * o ≤ n * a := by
    unfold mulDec
    refine Nat.le_of_mul_le_mul_right ?_ hD
    calc n * (a * DEC / o) / DEC * o * DEC = n * (a * DEC / o) / DEC * DEC * o := by ring
      _ ≤ n * (a * DEC / o) * o := Nat.mul_le_mul_right _ (Nat.div_mul_le_self ..)
      _ = n * (a * DEC / o * o) := by ring
      _ ≤ n * (a * DEC) := Nat.mul_le_mul_left _ (Nat.div_mul_le_self ..)
      _ = n * a * DEC := by ring
  generalize mulDec n (a * DEC / o) = v at *
  have h1 : a * n < (a * n / (o + n) + 1) * (o + n) := by
    rw [Nat.add_mul, Nat.one_mul]
    exact Nat.lt_div_mul_add hon
  have hk1 : 1 ≤ a * n / (o + n) := by
    rw [Nat.le_div_iff_mul_le hon, Nat.mul_comm a n]
    omega
  generalize a * n / (o + n) = k at *
  have h2 : 2 * v < 3 * (k + 1) := by
    refine Nat.lt_of_mul_lt_mul_right (a := o) ?_
    calc 2 * v * o = 2 * (v * o) := by ring
      _ ≤ 2 * (n * a) := Nat.mul_le_mul_left _ hv
      _ = 2 * (a * n) := by ring
      _ < 2 * ((k + 1) * (o + n)) := Nat.mul_lt_mul_of_pos_left h1 (by norm_num)
      _ = (k + 1) * (2 * (o + n)) := by ring
      _ ≤ (k + 1) * (3 * o) := Nat.mul_le_mul_left _ (by omega)
      _ = 3 * (k + 1) * o := by ring
  have h3 : 2 * v ≤ a := by
    refine Nat.le_of_mul_le_mul_right ?_ (Nat.pos_of_ne_zero ho)
    calc 2 * v * o = 2 * (v * o) := by ring
      _ ≤ 2 * (n * a) := Nat.mul_le_mul_left _ hv
      _ = (2 * n) * a := by ring
      _ ≤ o * a := Nat.mul_le_mul_right _ hh
      _ = a * o := by ring
  have h4 : v ≤ 2 * g := by omega
  have h5 : (v - g) * DEC / (g + (v - g)) ≤ 5 * 10 ^ 17 := by
    apply Nat.div_le_of_le_mul
    have : DEC = 2 * (5 * 10 ^ 17) := by norm_num [DEC]
    rw [this, ← Nat.mul_assoc]
    exact Nat.mul_le_mul_right _ (by omega)
  simp only [assertMaxSpread, bind_ok_iff, require_ok, exists_const, u128_ok, decFromRatio_ok, Option.getD_some,
    maxAllowedSlippage]
  refine ⟨(), by norm_num [require], g + (v - g), ⟨by unfold U128; omega, rfl⟩, _, ⟨by omega, ?_, rfl⟩, Nat.not_lt.2 h5⟩
  exact Nat.lt_of_le_of_lt h5 (by norm_num [U128])

/-- What an offer is worth at the current price. -/
theorem half_value {o a n : Nat} (hh : 2 * n ≤ o) (ha : a < 2 ^ 128) : n * (a * DEC / o) / DEC < 2 ^ 128 := by
  have hD : 0 < DEC := by norm_num [DEC]
  refine Nat.lt_of_le_of_lt ?_ ha
  apply Nat.div_le_of_le_mul
  calc n * (a * DEC / o) ≤ o * (a * DEC / o) := Nat.mul_le_mul_right _ (by omega)
    _ ≤ a * DEC := Nat.mul_div_le ..
    _ = DEC * a := Nat.mul_comm ..

/-- A trade of coins. -/
theorem swap_coin_succeeds (c : Cfg A) (hc : c.Ok) (e : Env A) (w : Chain A) (x : A) (hx : x ≠ c.me)
    (ht : ∀ i, c.infos i ≠ .token (c.addr x)) (i : Bool) (d : Str) (hd : c.infos i = .native d)
    (hok : Asset.Info.check c.okAddr (.native d) = .ok ()) (n : Nat) (hn : n ≠ 0) (hbal : n ≤ w.of (c.infos i) x)
    (hp0 : ∀ j, w.of (c.infos j) c.me ≠ 0) (hp : w.of (c.infos i) c.me + n < 2 ^ 128) (hq : w.of (c.infos !i) c.me < 2 ^ 128)
    (hf : e.total ≤ DEC ∧ e.maker ≤ DEC) (hs : ∀ p, w.share = some p → p.1 ≤ 10000)
    (hv : n * (w.of (c.infos !i) c.me * DEC / w.of (c.infos i) c.me) / DEC < 2 ^ 128)
    (b m : Option Nat) (r : Option A) (hr : r.getD x ≠ c.me)
    (hlim : ∀ q, computeSwap (w.of (c.infos i) c.me) (w.of (c.infos !i) c.me) n e.total = .ok q →
      assertMaxSpread b m n (q.ret + q.commission) q.spread = .ok ())
    (htw : InTime w.twap e.now (w.of (c.infos false) c.me) (w.of (c.infos true) c.me)) :
    ∃ w' q, computeSwap (w.of (c.infos i) c.me) (w.of (c.infos !i) c.me) n e.total = .ok q ∧
      exec c w (.call e x [⟨d, n⟩] (.swap ⟨c.infos i, n⟩ b m r)) = .ok w' ∧
      w.of (c.infos !i) (r.getD x) + q.ret ≤ w'.of (c.infos !i) (r.getD x) := by
  obtain ⟨l, hl⟩ := move_succeeds (l := w.of (c.infos i)) (b := c.me) hbal
  have hm := moved_set hl
  generalize hw1 : w.set (c.infos i) l = w1 at hm
  have a1 := move_apply (show Verif.move (w.of (c.infos i)) x c.me n = .ok (w1.of (c.infos i)) from hm.move) c.me
  rw [if_neg (Ne.symm hx), if_pos rfl] at a1
  have hne : c.infos (!i) ≠ c.infos i := by
    cases i
    · exact hc.ne.symm
    · exact hc.ne
  have eo : w1.of (c.infos !i) = w.of (c.infos !i) := hm.other _ hne
  have hb : w1.of (c.infos i) c.me - n = w.of (c.infos i) c.me := by omega
  have hpi := hp0 i
  have hsent : Asset.assertSent ⟨c.infos i, n⟩ [⟨d, n⟩] = .ok () := by
    simp [Asset.assertSent, hd, Asset.mustPay, hn, bind_ok_iff, require_ok]
  obtain ⟨w2, q, out, g1, g2, g3⟩ := swapMsg_succeeds c hc e w1 [⟨d, n⟩] x i n hsent hn (by omega) (by omega)
    (by rw [eo]; exact hp0 _) (by
      intro j
      by_cases hj : j = i
      · subst hj; omega
      · have : j = !i := by cases i <;> cases j <;> simp_all
        subst this; rw [eo]; exact hq) hf (by rw [hm.rest.share]; exact hs) (by rw [eo, hb]; exact hv) b m r
    (by rw [eo, hb]; exact hlim) (by
      rw [hm.rest.twap]
      cases i
      · simp only [Bool.not_false, Bool.false_eq_true, if_false, if_true, Nat.sub_zero] at *
        rw [hb, eo]; exact htw
      · simp only [Bool.not_true, Bool.false_eq_true, if_false, if_true, Nat.sub_zero] at *
        rw [hb, eo]; exact htw)
  rw [eo, hb] at g1
  refine ⟨w2, q, g1, ?_, ?_⟩
  · simp only [exec, bind_ok_iff, require_ok, exists_const]
    refine ⟨⟨hx, ht false, ht true⟩, ⟨by simp, by simpa using hn⟩, w1, ?_, ?_⟩
    · simp only [attach, Chain.move, bind_ok_iff, Except.ok.injEq]
      rw [← hd]
      exact ⟨w1, ⟨l, hl, hw1⟩, rfl⟩
    · simp only [execute, bind_ok_iff, require_ok, exists_const, Except.ok.injEq]
      exact ⟨(), by rw [hd]; exact hok, by rw [hd]; rfl, (w2, out), g2, rfl⟩
  · have := g3 hr
    rw [eo] at this
    exact this

/-- A trade of tokens. -/
theorem swap_token_succeeds (c : Cfg A) (hc : c.Ok) (e : Env A) (w : Chain A) (x t : A) (hx : x ≠ c.me)
    (i : Bool) (hd : c.infos i = .token (c.addr t)) (n : Nat) (hn : n ≠ 0) (hbal : n ≤ w.of (c.infos i) x)
    (hp0 : ∀ j, w.of (c.infos j) c.me ≠ 0) (hp : w.of (c.infos i) c.me + n < 2 ^ 128) (hq : w.of (c.infos !i) c.me < 2 ^ 128)
    (hf : e.total ≤ DEC ∧ e.maker ≤ DEC) (hs : ∀ p, w.share = some p → p.1 ≤ 10000)
    (hv : n * (w.of (c.infos !i) c.me * DEC / w.of (c.infos i) c.me) / DEC < 2 ^ 128)
    (b m : Option Nat) (r : Option A) (hr : r.getD x ≠ c.me)
    (hlim : ∀ q, computeSwap (w.of (c.infos i) c.me) (w.of (c.infos !i) c.me) n e.total = .ok q →
      assertMaxSpread b m n (q.ret + q.commission) q.spread = .ok ())
    (htw : InTime w.twap e.now (w.of (c.infos false) c.me) (w.of (c.infos true) c.me)) :
    ∃ w' q, computeSwap (w.of (c.infos i) c.me) (w.of (c.infos !i) c.me) n e.total = .ok q ∧
      exec c w (.send e t x x n b m r) = .ok w' ∧
      w.of (c.infos !i) (r.getD x) + q.ret ≤ w'.of (c.infos !i) (r.getD x) := by
  obtain ⟨l, hl⟩ := move_succeeds (l := w.of (c.infos i)) (b := c.me) hbal
  have hm := moved_set hl
  generalize hw1 : w.set (c.infos i) l = w1 at hm
  have a1 := move_apply (show Verif.move (w.of (c.infos i)) x c.me n = .ok (w1.of (c.infos i)) from hm.move) c.me
  rw [if_neg (Ne.symm hx), if_pos rfl] at a1
  have hne : c.infos (!i) ≠ c.infos i := by
    cases i
    · exact hc.ne.symm
    · exact hc.ne
  have eo : w1.of (c.infos !i) = w.of (c.infos !i) := hm.other _ hne
  have hb : w1.of (c.infos i) c.me - n = w.of (c.infos i) c.me := by omega
  have hpi := hp0 i
  have hsent : Asset.assertSent ⟨c.infos i, n⟩ [] = .ok () := by
    simp [Asset.assertSent, hd]
  obtain ⟨w2, q, out, g1, g2, g3⟩ := swapMsg_succeeds c hc e w1 [] x i n hsent hn (by omega) (by omega)
    (by rw [eo]; exact hp0 _) (by
      intro j
      by_cases hj : j = i
      · subst hj; omega
      · have : j = !i := by cases i <;> cases j <;> simp_all
        subst this; rw [eo]; exact hq) hf (by rw [hm.rest.share]; exact hs) (by rw [eo, hb]; exact hv) b m r
    (by rw [eo, hb]; exact hlim) (by
      rw [hm.rest.twap]
      cases i
      · simp only [Bool.not_false, Bool.false_eq_true, if_false, if_true, Nat.sub_zero] at *
        rw [hb, eo]; exact htw
      · simp only [Bool.not_true, Bool.false_eq_true, if_false, if_true, Nat.sub_zero] at *
        rw [hb, eo]; exact htw)
  rw [eo, hb] at g1
  refine ⟨w2, q, g1, ?_, ?_⟩
  · simp only [exec, bind_ok_iff, require_ok, exists_const]
    refine ⟨⟨hx, hx⟩, w1, ?_, ?_⟩
    · simp only [Chain.move, bind_ok_iff, Except.ok.injEq, if_true]
      rw [← hd]
      exact ⟨l, hl, hw1⟩
    · simp only [execute, bind_ok_iff, require_ok, exists_const, Except.ok.injEq]
      refine ⟨?_, (w2, out), by rw [← hd]; exact g2, rfl⟩
      cases i
      · exact Or.inl hd
      · exact Or.inr hd
  · have := g3 hr
    rw [eo] at this
    exact this

/-- The LP tokens for a deposit of `d0` and `d1`. -/
def sharesFor (d0 d1 p0 p1 supply : Nat) : Nat :=
  if supply = 0 then Nat.sqrt (d0 * d1) - 1000 else min (d0 * supply / p0) (d1 * supply / p1)

/-- A deposit of coins and of tokens the pair may take. -/
theorem provide_succeeds (c : Cfg A) (hc : c.Ok) (e : Env A) (w : Chain A) (x : A) (hx : User c x)
    (hok : ∀ i, Asset.Info.check c.okAddr (c.infos i) = .ok ()) (d : Bool → Nat) (hd : ∀ i, d i ≠ 0)
    (hb : ∀ i, d i ≤ w.of (c.infos i) x) (hal : Allowed c w x d) (hp : ∀ i, w.of (c.infos i) c.me + d i < 2 ^ 128)
    (tol minLp : Option Nat) (r : Option A) (hr : r.getD x ≠ c.me)
    (hfirst : w.supply = 0 → 1000 < Nat.sqrt (d false * d true))
    (hmore : w.supply ≠ 0 → w.of (c.infos false) c.me ≠ 0 ∧ w.of (c.infos true) c.me ≠ 0 ∧
      d false * w.supply / w.of (c.infos false) c.me < 2 ^ 128 ∧ d true * w.supply / w.of (c.infos true) c.me < 2 ^ 128 ∧
      assertSlippageTolerance tol (d false) (d true) (w.of (c.infos false) c.me) (w.of (c.infos true) c.me) = .ok ())
    (hmin : minLp.getD 0 ≤ sharesFor (d false) (d true) (w.of (c.infos false) c.me) (w.of (c.infos true) c.me) w.supply)
    (htw : InTime w.twap e.now (w.of (c.infos false) c.me) (w.of (c.infos true) c.me)) :
    ∃ w', exec c w (.call e x (coinsOf c d false ++ coinsOf c d true)
        (.provide [⟨c.infos false, d false⟩, ⟨c.infos true, d true⟩] tol minLp r)) = .ok w' ∧
      w'.bank c.lp (r.getD x) = w.bank c.lp (r.getD x) +
        sharesFor (d false) (d true) (w.of (c.infos false) c.me) (w.of (c.infos true) c.me) w.supply := by
  have arrive : ∀ i, ∃ l, Verif.move (w.of (c.infos i)) x c.me (d i) = .ok l ∧
      csub (l c.me) (d i) = .ok (w.of (c.infos i) c.me) := by
    intro i
    obtain ⟨l, hl⟩ := move_succeeds (l := w.of (c.infos i)) (b := c.me) (hb i)
    have a := move_apply hl c.me
    rw [if_neg (Ne.symm hx.1), if_pos rfl] at a
    exact ⟨l, hl, (csub_ok _ _ _).2 (by omega)⟩
  obtain ⟨b0, g0, p0⟩ := arrive false
  obtain ⟨b1, g1, p1⟩ := arrive true
  have hp0 := hp false
  have hp1 := hp true
  generalize hP0 : w.of (c.infos false) c.me = P0 at *
  generalize hP1 : w.of (c.infos true) c.me = P1 at *
  have hcs : calculateShares (d false) (d true) P0 P1 w.supply tol = .ok (sharesFor (d false) (d true) P0 P1 w.supply) := by
    unfold calculateShares sharesFor minimumLiquidity
    by_cases hs : w.supply = 0
    · have := hfirst hs
      rw [if_pos hs, if_pos hs, if_neg (by omega), if_neg (by omega)]
    · obtain ⟨z0, z1, f0, f1, hsl⟩ := hmore hs
      rw [if_neg hs, if_neg hs]
      simp only [hsl, ok_bind, bind_ok_iff, mulRatio_ok, Except.ok.injEq]
      exact ⟨_, ⟨z0, f0, rfl⟩, _, ⟨z1, f1, rfl⟩, rfl⟩
  generalize sharesFor (d false) (d true) P0 P1 w.supply = sh at *
  obtain ⟨tw, htw⟩ := accumulate_succeeds htw
  obtain ⟨w', h1, h2⟩ := (C174_deposit_iff c hc hok e w x hx d hal tol minLp r
    { bal := fun i => if i then b1 else b0
      lp := credit (credit (w.bank c.lp) c.me (if w.supply = 0 then minimumLiquidity else 0)) (r.getD x) sh
      supply := w.supply + (if w.supply = 0 then minimumLiquidity else 0) + sh
      twap := tw
      tracked := fun i => if i then P1 + d true else P0 + d false }).2 ⟨sh, by
        unfold XYK.provide
        simp only [bind_ok_iff, require_ok, exists_const, Except.ok.injEq, Prod.mk.injEq]
        exact ⟨by have := hd false; have := hd true; omega, b0, g0, b1, g1, P0, p0, P1, p1, sh, hcs, by omega, _,
          (u128_ok _ _).2 ⟨hp0, rfl⟩, _, (u128_ok _ _).2 ⟨hp1, rfl⟩, tw, htw, rfl, rfl⟩⟩
  refine ⟨w', h1, ?_⟩
  have e : (view c w').lp (r.getD x) = w'.bank c.lp (r.getD x) := rfl
  rw [← e, h2]
  simp only [credit_apply, if_pos, if_neg hr]

/-! ## When nothing works -/

/-- The time of a deposit, a withdrawal or a trade. -/
def clockOf : Op A → Option Nat
  | .provide now .. => some now
  | .withdraw now .. => some now
  | .swap now .. => some now
  | _ => none

theorem exec_clock {me : A} {s s' : State A} {o : Op A} {now : Nat} (ho : clockOf o = some now) (h : XYK.exec me s o = .ok s') :
    ∃ t, accumulate s.twap now (s.bal false me) (s.bal true me) = .ok t := by
  unfold XYK.exec at h
  simp only [bind_ok_iff, require_ok, exists_const] at h
  obtain ⟨hs, h⟩ := h
  cases o with
  | provide now' u d0 d1 tol minLp r =>
    obtain rfl := Option.some.inj ho
    simp only [provide, bind_ok_iff, Except.ok.injEq] at h
    obtain ⟨⟨s1, sh⟩, ⟨_, _, b0, h0, b1, h1, p0, g0, p1, g1, share, _, _, _, t0, _, t1, _, tw, htw, _⟩, _⟩ := h
    have a0 := move_apply h0 me
    have a1 := move_apply h1 me
    simp only [Op.signer] at hs
    rw [if_neg hs.symm, if_pos rfl] at a0 a1
    rw [csub_ok] at g0 g1
    have e0 : p0 = s.bal false me := by omega
    have e1 : p1 = s.bal true me := by omega
    rw [e0, e1] at htw
    exact ⟨tw, htw⟩
  | withdraw now' u n mins =>
    obtain rfl := Option.some.inj ho
    simp only [withdraw, bind_ok_iff, Except.ok.injEq] at h
    obtain ⟨⟨s1, sh⟩, ⟨_, _, lp, _, r0, _, r1, _, _, _, t0, _, t1, _, tw, htw, _⟩, _⟩ := h
    exact ⟨tw, htw⟩
  | swap now' u i n b m r f =>
    obtain rfl := Option.some.inj ho
    simp only [swap, bind_ok_iff, Except.ok.injEq] at h
    obtain ⟨⟨s1, out⟩, ⟨bo, h0, op, g0, q, _, g, _, _, _, ⟨sa, mk⟩, _, ba, _, ba1, _, ba2, _, tOf, _, ta, _, tw, htw, _⟩, _⟩ := h
    have a0 := move_apply h0 me
    simp only [Op.signer] at hs
    rw [if_neg hs.symm, if_pos rfl] at a0
    rw [csub_ok] at g0
    have e0 : op = s.bal i me := by omega
    rw [e0] at htw
    cases i
    · exact ⟨tw, htw⟩
    · exact ⟨tw, htw⟩
  | send => cases ho
  | sendLp => cases ho

/-- When the accumulators cannot be brought up to date, every deposit, withdrawal and trade fails. -/
theorem stuck (c : Cfg A) (hc : c.Ok) (w w' : Chain A) (e : Env A)
    (hno : ∀ t, accumulate w.twap e.now (w.of (c.infos false) c.me) (w.of (c.infos true) c.me) ≠ .ok t) :
    (∀ x funds m, (∀ sh, m ≠ .updateConfig sh) → exec c w (.call e x funds m) ≠ .ok w') ∧
    ∀ t owner spender n b m r, exec c w (.send e t owner spender n b m r) ≠ .ok w' := by
  have one : ∀ {o : Op A}, clockOf o = some e.now → ∀ s', [o].foldlM (XYK.exec c.me) (view c w) ≠ .ok s' := by
    intro o ho s' h
    simp only [List.foldlM_cons, List.foldlM_nil, bind_ok_iff, pure_eq_ok, Except.ok.injEq] at h
    obtain ⟨s1, h1, rfl⟩ := h
    obtain ⟨t, ht⟩ := exec_clock ho h1
    exact hno t ht
  have mism : ∀ {w1 w' : Chain A} {funds : List Coin} {u : A} {offer : Asset.Asset} {b m : Option Nat} {r : Option A} {out : SwapOut},
      label c offer.info = none → swapMsg c e w1 funds u offer b m r ≠ .ok (w', out) := by
    intro w1 w' funds u offer b m r out hl h
    unfold swapMsg at h
    simp only [bind_ok_iff] at h
    obtain ⟨_, _, _, _, _, _, i, hi, _⟩ := h
    unfold label at hl
    split_ifs at hl with h0 h1
    rw [if_neg (fun e => h0 e), if_neg (fun e => h1 e)] at hi
    cases hi
  refine ⟨fun x funds m hm h => ?_, fun t owner spender n b m r h => ?_⟩
  · have hM := C160_messages_are_pair_transactions c hc w w' _ h
    cases m with
    | provide assets tol minLp r => exact one rfl _ hM
    | withdraw assets mins => exact one rfl _ hM
    | updateConfig sh => exact hm sh rfl
    | receive u n b m r =>
      simp only [exec, execute, bind_ok_iff, require_ok, exists_const] at h
      obtain ⟨⟨_, h0, h1⟩, _, _, _, h2, _⟩ := h
      rcases h2 with h2 | h2
      · exact h0 h2
      · exact h1 h2
    | swap offer b m r =>
      cases hl : label c offer.info with
      | some i =>
        simp only [meaning, hl] at hM
        exact one rfl _ hM
      | none =>
        simp only [exec, execute, bind_ok_iff, Except.ok.injEq] at h
        obtain ⟨_, _, _, _, w1, _, _, _, _, _, ⟨w2, out⟩, hsw, _⟩ := h
        exact mism hl hsw
  · have hM := C160_messages_are_pair_transactions c hc w w' _ h
    cases hl : label c (.token (c.addr t)) with
    | some i =>
      simp only [meaning, hl] at hM
      exact one rfl _ hM
    | none =>
      simp only [exec, execute, bind_ok_iff, Except.ok.injEq] at h
      obtain ⟨_, _, w1, _, _, _, ⟨w2, out⟩, hsw, _⟩ := h
      exact mism (offer := ⟨.token (c.addr t), n⟩) hl hsw

theorem accumulate_fails {t : Twap} {now x y : Nat} (h : t.last < now) (hx : x ≠ 0) (hy : y ≠ 0)
    (ho : 2 ^ 128 ≤ (now - t.last) * 10 ^ 6 * y / x ∨ 2 ^ 128 ≤ (now - t.last) * 10 ^ 6 * x / y) (t' : Twap) :
    accumulate t now x y ≠ .ok t' := by
  intro h'
  unfold accumulate at h'
  rw [if_neg (Nat.not_le.2 h)] at h'
  simp only [if_pos (And.intro hx hy), bind_ok_iff, u128_ok, mulRatio_ok, Except.ok.injEq] at h'
  obtain ⟨_, ⟨_, rfl⟩, _, ⟨_, h1, _⟩, _, ⟨_, h2, _⟩, _⟩ := h'
  rcases ho with ho | ho
  · exact absurd h1 (Nat.not_lt.2 ho)
  · exact absurd h2 (Nat.not_lt.2 ho)

end Verif.XYK.Entry
