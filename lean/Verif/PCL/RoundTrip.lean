import Verif.PCL.Dust

/-!
# C194: trading there and back in a concentrated pool

The solvers of a concentrated pool stop as soon as two approximations differ by at most 0.00001 of a token.  Trades that are much
smaller than that are paid what the solvers happen to be off by.  For trades of at least 0.00001 of a token the pool checks that
the value behind an LP token has not fallen; for smaller ones it does not.
-/

namespace Verif.PCL

open Verif.Stable (dmul ddiv dadd toU128 withPrec absDiff payout)
open Verif.XYK (sendOpt)

variable {A : Type} [DecidableEq A]

/-! ## Lemmas -/

theorem move_leaves {l l' : A → Nat} {a b : A} {n : Nat} (h : move l a b n = .ok l') : l a ≤ l' a + n := by
  have := move_apply h a
  rw [if_pos rfl] at this
  omega

theorem sendOpt_leaves {l l' : A → Nat} {a : A} {b : Option A} {n : Nat} (h : sendOpt l a b n = .ok l') : l a ≤ l' a + n := by
  cases b with
  | none =>
    simp only [sendOpt, Except.ok.injEq] at h
    subst h
    omega
  | some b => exact move_leaves h

/-- **C194 (partial).**  When there is no change of the curve going on, a trade in which at least 0.00001 of a token goes in and
at least 0.00001 of a token goes out leaves the pool with reserves of no smaller value: of the offered asset the pool has `y i`
afterwards and of the other one at least `y (!i)` (both as decimals), and at these reserves the value of an LP token at the
pool's price scale is at least what the pool last recorded.
Missing: smaller trades, which can be repeated at the cost of the LP tokens (`C194_round_trip_violated`). -/
theorem C194_sizeable_trades_keep_value_partial (su : Setup) (me : A) (s s' : State A) (now : Nat) (u : A) (hu : u ≠ me) (i : Bool)
    (n : Nat) (belief maxSpread : Option Nat) (receiver : A) (f : FeeInfo A) (o : SwapOut)
    (h : swap su me s now u i n belief maxSpread receiver f = .ok (s', o)) (h0 : s.pool.price.real ≠ 0)
    (hramp : s.pool.futureTime ≤ now) (hin : ¬ IsDust su i n) (hout : ¬ IsDust su (!i) (o.ret + o.maker + o.share)) :
    ∃ (y : Bool → Nat) (value : Nat), y i = units su me s' i ∧ y (!i) ≤ units su me s' (!i) ∧
      lpIndex s.pool now (s.supply * 10 ^ (18 - LP_PREC)) (y false) (y true) = .ok value ∧ s.pool.price.real ≤ value := by
  obtain ⟨xs, off, fs, old, r, out, q⟩ := swap_spec hu h
  obtain ⟨_, _, e0⟩ := (Stable.withPrec_ok _ _ _).1 q.hoff
  have ho := q.hout
  simp only [Swapped.out, bind_ok_iff, Stable.dadd_ok] at ho
  obtain ⟨a, ⟨_, ha⟩, _, hb⟩ := ho
  obtain ⟨_, _, e1⟩ := (Stable.toU128_ok _ _ _).1 q.hret
  obtain ⟨_, _, e2⟩ := (Stable.toU128_ok _ _ _).1 q.hmk
  obtain ⟨_, _, e3⟩ := (Stable.toU128_ok _ _ _).1 q.hsh
  have l1 := Nat.div_mul_le_self r.dy (10 ^ (18 - su.prec (!i)))
  have l2 := Nat.div_mul_le_self r.maker (10 ^ (18 - su.prec (!i)))
  have l3 := Nat.div_mul_le_self r.share (10 ^ (18 - su.prec (!i)))
  rw [e1] at l1
  rw [e2] at l2
  rw [e3] at l3
  have hpay : (o.ret + o.maker + o.share) * 10 ^ (18 - su.prec (!i)) ≤ out := by
    rw [Nat.add_mul, Nat.add_mul]
    omega
  unfold IsDust at hin hout
  rw [e0] at hin
  have hp := q.hpool
  simp only [priceAfterSwap, bind_ok_iff, Stable.dadd_ok, csub_ok] at hp
  obtain ⟨_, ⟨_, rfl⟩, _, ⟨hle, rfl⟩, total, ht, hp⟩ := hp
  rw [if_pos (show moves out off from ⟨by unfold MIN_TRADE_SIZE; omega, by unfold MIN_TRADE_SIZE; omega⟩)] at hp
  simp only [bind_ok_iff] at hp
  obtain ⟨last, _, x1, hx1, hp⟩ := hp
  obtain ⟨idx, g1, g2⟩ := updatePrice_index hx1 hp h0
  obtain ⟨_, _, et⟩ := (Stable.withPrec_ok _ _ _).1 ht
  have hx := decPools_ok q.hxs
  refine ⟨fun j => if j = i then xs j + off else xs j - out, idx, ?_, ?_, ?_, g2 hramp⟩
  · have := move_apply q.hbo me
    rw [if_neg (Ne.symm hu), if_pos rfl] at this
    simp only [if_true, units]
    rw [(hx i).2.1, this, ← e0, Nat.add_mul]
  · obtain ⟨b1, b2, m1, m2, m3⟩ := q.hba
    have k1 := move_leaves m1
    have k2 := sendOpt_leaves m2
    have k3 := sendOpt_leaves m3
    have hk : s.bal (!i) me ≤ s'.bal (!i) me + (o.ret + o.maker + o.share) := by omega
    have hm := Nat.mul_le_mul_right (10 ^ (18 - su.prec (!i))) hk
    rw [Nat.add_mul] at hm
    have hne : (!i) ≠ i := by cases i <;> decide
    simp only [if_neg hne, units]
    rw [(hx (!i)).2.1]
    omega
  · rw [et, ← g1]
    cases i <;> simp

/-! ## Dust -/

/-- Two assets of 18 decimals. -/
def setup18 : Setup := ⟨fun _ => 18, fun _ => true⟩

/-- A new pool with the parameters used on mainnet for a volatile pair, to which account 2 made the first deposit: 1.1 million of
the first asset and a million of the second. -/
def demoUneven : State Acct :=
  run setup18 0 { demo0 with bal := fun _ a => if a = 0 then 0 else 10 ^ 36 }
    [⟨2000, 1, .provide 2 (fun i => if i then 10 ^ 24 else 11 * 10 ^ 23) none none 2⟩]

/-- **C194 is violated**: account 3 sells `10^6` units of the first asset for `111122984` of the second, although the price is
about one, and sells these for `237300541` of the first.  It has lost nothing and gained 236 times what it started with, both
fees included, and the value of an LP token that the pool reports has fallen. -/
theorem C194_round_trip_violated :
    okAnd (swap setup18 0 demoUneven 2010 3 false (10 ^ 6) none (some (5 * 10 ^ 17)) 3 ⟨0, none⟩) (fun x =>
      decide (x.2.ret = 111122984) &&
      okAnd (swap setup18 0 x.1 2010 3 true x.2.ret none (some (5 * 10 ^ 17)) 3 ⟨0, none⟩) (fun y =>
        decide (y.2.ret = 237300541 ∧ y.1.bal true 3 = demoUneven.bal true 3 ∧
          y.1.bal false 3 = demoUneven.bal false 3 + 236300541) &&
        okAnd (lpPrice setup18 0 demoUneven 2010) (fun v =>
          okAnd (lpPrice setup18 0 y.1 2010) (fun w => decide (w < v))))) = true := by
  decide +kernel

/-- The hypotheses of `C194_sizeable_trades_keep_value_partial`: a trade of one token in the same pool. -/
example :
    okAnd (swap setup18 0 demoUneven 2010 3 false (10 ^ 18) none (some (5 * 10 ^ 17)) 3 ⟨0, none⟩) (fun x =>
      decide (¬ IsDust setup18 false (10 ^ 18) ∧ ¬ IsDust setup18 true (x.2.ret + x.2.maker + x.2.share))) = true ∧
    demoUneven.pool.price.real ≠ 0 ∧ demoUneven.pool.futureTime ≤ 2010 ∧ (3 : Acct) ≠ 0 := by
  decide +kernel

end Verif.PCL
