import Verif.PCL.Props

/-!
# C92: limits stated by users of concentrated pools
-/

namespace Verif.PCL

open Verif.Stable (dmul ddiv dadd toU128 withPrec absDiff payout)

variable {A : Type} [DecidableEq A]

/-- **C92, swaps.**  A successful swap respects the spread limit (5% by default, never above 50%):
* with a belief price `p` (offer units per ask unit), the amount received is at least `(1 - max_spread - 10^-18)` of
  `offer / p`, where `offer / p` may be lowered by rounding of `offer·10^-18 + 1`;
* without one, `spread ≤ (max_spread + 10^-18)·(received + spread)`. -/
theorem C92_swap_slippage_enforced (su : Setup) (me : A) (s s' : State A) (now : Nat) (u : A) (hu : u ≠ me)
    (i : Bool) (n : Nat) (b m : Option Nat) (r : A) (f : FeeInfo A) (out : SwapOut)
    (h : swap su me s now u i n b m r f = .ok (s', out)) :
    let ms : ℚ := ((m.getD 50000000000000000 : ℕ) : ℚ) / 10 ^ 18
    let got : ℚ := out.ret
    ms ≤ 1 / 2 ∧
    (∀ p, b = some p → 0 < p ∧
      (1 - ms - 1 / 10 ^ 18) * ((n : ℚ) / ((p : ℚ) / 10 ^ 18) - n / 10 ^ 18 - 1) ≤ got) ∧
    (b = none → (out.spread : ℚ) ≤ (ms + 1 / 10 ^ 18) * (got + out.spread)) := by
  intro ms gross
  obtain ⟨_, _, _, _, _, _, sp⟩ := swap_spec hu h
  have sp := sp.hspread
  unfold assertMaxSpread at sp
  simp only [bind_ok_iff, require_ok, exists_const] at sp
  obtain ⟨hms, hb⟩ := sp
  have hds : DEFAULT_SLIPPAGE = 50000000000000000 := rfl
  have hmx : MAX_ALLOWED_SLIPPAGE = 5 * 10 ^ 17 := rfl
  rw [hds] at hms hb
  rw [hmx] at hms
  have hmsN : m.getD 50000000000000000 ≤ 5 * 10 ^ 17 := by omega
  have hms' : ms ≤ 1 / 2 := by
    have : ((m.getD 50000000000000000 : ℕ) : ℚ) ≤ 5 * 10 ^ 17 := by exact_mod_cast hmsN
    simp only [ms]
    rw [div_le_iff₀ (by norm_num)]
    linarith
  have hms0 : 0 ≤ ms := by positivity
  have hDq : (DEC : ℚ) = 10 ^ 18 := by norm_num [DEC]
  have hgross : (gross : ℚ) = ((out.ret : ℕ) : ℚ) := rfl
  refine ⟨hms', ?_, ?_⟩
  · intro p hp
    subst hp
    simp only [bind_ok_iff, orErr_ok, u128_ok] at hb
    obtain ⟨inv, hinv, e, ⟨_, rfl⟩, hb⟩ := hb
    unfold decInv at hinv
    split at hinv
    · simp at hinv
    next hp0 =>
    simp at hinv
    have hppos : 0 < p := Nat.pos_of_ne_zero hp0
    refine ⟨hppos, ?_⟩
    have hpq : (0 : ℚ) < p := by exact_mod_cast hppos
    have hi1 : DEC * DEC < (inv + 1) * p := by rw [← hinv]; exact lt_succ_div_mul _ hppos
    have hi2 : n * inv < (mulDec n inv + 1) * DEC := lt_mulDec_mul _ _
    generalize he : mulDec n inv = e at *
    have hi1q : (10 ^ 18 * 10 ^ 18 : ℚ) < ((inv : ℚ) + 1) * p := by
      rw [← hDq]; exact_mod_cast hi1
    have hi2q : (n : ℚ) * inv < ((e : ℚ) + 1) * 10 ^ 18 := by
      rw [← hDq]; exact_mod_cast hi2
    have hinvq : (10 ^ 18 * 10 ^ 18 : ℚ) / p - 1 ≤ inv := by
      rw [sub_le_iff_le_add, div_le_iff₀ hpq]; exact hi1q.le
    have hlow : (n : ℚ) / ((p : ℚ) / 10 ^ 18) - n / 10 ^ 18 - 1 ≤ e := by
      have hn0 : (0 : ℚ) ≤ n := by positivity
      have h1 : (n : ℚ) * ((10 ^ 18 * 10 ^ 18 : ℚ) / p - 1) ≤ n * inv :=
        mul_le_mul_of_nonneg_left hinvq hn0
      have h2 : (n : ℚ) / ((p : ℚ) / 10 ^ 18) - n / 10 ^ 18 =
          (n * ((10 ^ 18 * 10 ^ 18 : ℚ) / p - 1)) / 10 ^ 18 := by
        field_simp
      rw [h2, sub_le_iff_le_add, div_le_iff₀ (by norm_num)]
      linarith
    have hfac : (0 : ℚ) ≤ 1 - ms - 1 / 10 ^ 18 := by
      have : (1 : ℚ) / 10 ^ 18 ≤ 1 / 2 := by norm_num
      linarith
    refine le_trans (mul_le_mul_of_nonneg_left hlow hfac) ?_
    rw [hgross]
    split at hb
    next hlt =>
      simp only [bind_ok_iff, dec256FromRatio_ok, require_ok] at hb
      obtain ⟨x, ⟨he0, _, rfl⟩, hx⟩ := hb
      have hx' : (e - out.ret) * DEC / e ≤ m.getD 50000000000000000 := Nat.le_of_not_lt hx
      have h3 : (e - out.ret) * DEC < (m.getD 50000000000000000 + 1) * e := by
        refine lt_of_lt_of_le (lt_succ_div_mul _ (Nat.pos_of_ne_zero he0)) ?_
        exact Nat.mul_le_mul_right _ (Nat.succ_le_succ hx')
      have h3q : ((e : ℚ) - (out.ret : ℕ)) * 10 ^ 18 <
          ((m.getD 50000000000000000 : ℕ) + 1) * e := by
        rw [← hDq, ← Nat.cast_sub hlt.le]; exact_mod_cast h3
      have : ((e : ℚ) - (out.ret : ℕ)) ≤ (ms + 1 / 10 ^ 18) * e := by
        have h4 : (ms + 1 / 10 ^ 18) * e = (((m.getD 50000000000000000 : ℕ) + 1) * e) / 10 ^ 18 := by
          simp only [ms]; ring
        rw [h4, le_div_iff₀ (by norm_num)]
        exact h3q.le
      linarith
    next hge =>
      have hge' : (e : ℚ) ≤ ((out.ret : ℕ) : ℚ) := by
        exact_mod_cast Nat.le_of_not_lt hge
      have he0 : (0 : ℚ) ≤ e := by positivity
      have : (1 - ms - 1 / 10 ^ 18) * (e : ℚ) ≤ 1 * e := by
        apply mul_le_mul_of_nonneg_right _ he0
        have : (0 : ℚ) ≤ 1 / 10 ^ 18 := by norm_num
        linarith
      linarith
  · intro hb0
    subst hb0
    simp only [bind_ok_iff, u128_ok, dec256FromRatio_ok, require_ok] at hb
    obtain ⟨t, ⟨_, rfl⟩, x, ⟨ht0, _, rfl⟩, hx⟩ := hb
    have h3 : out.spread * DEC < (m.getD 50000000000000000 + 1) * (out.ret + out.spread) := by
      refine lt_of_lt_of_le (lt_succ_div_mul _ (Nat.pos_of_ne_zero ht0)) ?_
      exact Nat.mul_le_mul_right _ (Nat.succ_le_succ (Nat.le_of_not_lt hx))
    have h3q : (out.spread : ℚ) * 10 ^ 18 <
        ((m.getD 50000000000000000 : ℕ) + 1) * ((out.ret + out.spread : ℕ) : ℚ) := by
      rw [← hDq]; exact_mod_cast h3
    have h4 : (ms + 1 / 10 ^ 18) * (gross + out.spread) =
        (((m.getD 50000000000000000 : ℕ) + 1) * ((out.ret + out.spread : ℕ) : ℚ)) / 10 ^ 18 := by
      simp only [ms, gross]; push_cast; ring
    rw [h4, le_div_iff₀ (by norm_num)]
    exact h3q.le

/-- Non-vacuity: the example swap returns 0.997 per unit: accepted with belief price 1, refused with belief price
0.9 (which expects 1.11), or in a size that moves the price by more than the limit. -/
example :
    okAnd (exec demoSetup 0 2000 1 demo0 (.provide 2 (fun _ => 10 ^ 12) none none 2)) (fun s =>
      okAnd (swap demoSetup 0 s 2000 3 false (10 ^ 9) (some (10 ^ 18)) none 3 ⟨0, none⟩) (fun _ => true) &&
      fails (swap demoSetup 0 s 2000 3 false (10 ^ 9) (some (9 * 10 ^ 17)) none 3 ⟨0, none⟩) &&
      fails (swap demoSetup 0 s 2000 3 false (5 * 10 ^ 11) none none 3 ⟨0, none⟩)) = true := by decide +kernel

/-- **C92, deposits.**  A deposit mints at least `min_lp_to_receive` to the receiver. -/
theorem C92_min_lp_respected (su : Setup) (me : A) (s s' : State A) (now : Nat) (u : A)
    (d : Bool → Nat) (t : Option Nat) (m : Nat) (rc : A) (share : Nat)
    (h : provide su me s now u d t (some m) rc = .ok (s', share)) :
    s.lp rc + m ≤ s'.lp rc ∧ m ≤ share ∧ 0 < share := by
  obtain ⟨_, _, _, _, sp⟩ := provide_spec h
  have hm := sp.hmin
  have hp := sp.hpos
  rw [sp.hlp, credit_apply, credit_apply]
  simp only [Option.getD_some, if_true] at hm ⊢
  refine ⟨?_, hm, Nat.pos_of_ne_zero hp⟩
  split <;> omega

/-- The LP amount (18 digits) a deposit is worth without slippage: half the value of the deposit at the price
scale, divided by the square root of the price scale and by the LP value index. -/
def fairShare (scale index : Nat) (d : Bool → Nat) : Res Nat := do
  let v1 ← dmul (d true) scale
  let value ← dadd (d false) v1
  let half ← ddiv value TWO
  let sq ← dmul half value
  let ts ← dmul TWO scale
  let q ← ddiv sq ts
  ddiv (dsqrt q) index

theorem fair_bound {e sh share t : Nat} (hT : t ≤ 5 * 10 ^ 17) (h1 : sh < (share + 1) * 10 ^ 12)
    (h2 : (e - sh) * DEC < (t + 1) * e) : e * (10 ^ 18 - t - 1) ≤ (share + 1) * 10 ^ 12 * 10 ^ 18 := by
  have hD : DEC = 10 ^ 18 := rfl
  obtain ⟨k, hk⟩ : ∃ k, k + (t + 1) = 10 ^ 18 := ⟨10 ^ 18 - (t + 1), by omega⟩
  have e1 : 10 ^ 18 - t - 1 = k := by omega
  rw [e1]
  rw [hD] at h2
  by_cases hc : e ≤ sh
  · exact Nat.mul_le_mul (by omega) (by omega)
  · have h3 : (e - sh) * 10 ^ 18 = e * 10 ^ 18 - sh * 10 ^ 18 := Nat.sub_mul _ _ _
    have h4 : e * k + e * (t + 1) = e * 10 ^ 18 := by rw [← Nat.mul_add, hk]
    have h5 : (t + 1) * e = e * (t + 1) := Nat.mul_comm _ _
    generalize e * (t + 1) = y at *
    generalize e * k = z at *
    omega

/-- **C92, deposits.**  A deposit that changes the price, i.e. whose two amounts both differ from the proportional
ones by at least `10 ^ -5` tokens, mints at least `(1 - tolerance - 10^-18)` of the fair amount; the tolerance is 2%
by default and never above 50%. -/
theorem C92_deposit_slippage_enforced (su : Setup) (me : A) (s s' : State A) (now : Nat) (u : A)
    (d : Bool → Nat) (t m : Option Nat) (rc : A) (share : Nat) (hs : s.supply ≠ 0)
    (h : provide su me s now u d t m rc = .ok (s', share)) (hch : s'.pool ≠ s.pool) :
    t.getD 50000000000000000 ≤ 5 * 10 ^ 17 ∧
    ∃ dd fair, decPools su d = .ok dd ∧ fairShare s.pool.price.scale s.pool.price.real dd = .ok fair ∧
      fair * (10 ^ 18 - t.getD 50000000000000000 - 1) ≤ (share + 1) * 10 ^ 12 * 10 ^ 18 := by
  obtain ⟨total, dd, xs, shareD, sp⟩ := provide_spec h
  have ht := sp.htot
  rw [Stable.withPrec_ok] at ht
  obtain ⟨_, _, ht⟩ := ht
  have hL : (10 : Nat) ^ (18 - LP_PREC) = 10 ^ 12 := rfl
  rw [hL] at ht
  have ht0 : total ≠ 0 := by
    intro h0; apply hs
    rw [← ht] at h0
    rcases Nat.mul_eq_zero.1 h0 with h | h
    · exact h
    · exact absurd h (by decide)
  have hc := sp.hcs
  simp only [calculateShares, bind_ok_iff, require_ok, exists_const, Prod.exists] at hc
  obtain ⟨_, new0, hn0, n1, hn1, new1, hnew1, sh, price, hraw, after, _, _, _, _, _, _, _, _, _, hc⟩ := hc
  have hprice : price = s.pool.price := by
    simp only [rawShares, bind_ok_iff] at hraw
    obtain ⟨ag, hag, d1, hd1, hraw⟩ := hraw
    rw [if_neg ht0] at hraw
    simp only [bind_ok_iff, Except.ok.injEq, Prod.mk.injEq] at hraw
    obtain ⟨_, _, _, _, _, _, _, _, _, _, _, _, _, _, _, _, _, h⟩ := hraw
    exact h.symm
  subst hprice
  split at hc
  · simp only [bind_ok_iff, Except.ok.injEq, Prod.mk.injEq] at hc
    obtain ⟨_, hsl, _, _, _, _, rfl, _⟩ := hc
    unfold assertSlippage at hsl
    simp only [bind_ok_iff, require_ok, exists_const] at hsl
    obtain ⟨htol, v1, hv1, value, hvalue, half, hhalf, sq, hsq, ts, hts, q, hq, e, he, slip, hslip, hle⟩ := hsl
    have hds : DEFAULT_SLIPPAGE = 50000000000000000 := rfl
    have hmx : MAX_ALLOWED_SLIPPAGE = 5 * 10 ^ 17 := rfl
    rw [hds] at htol hle
    rw [hmx] at htol
    have hT : t.getD 50000000000000000 ≤ 5 * 10 ^ 17 := Nat.le_of_not_lt htol
    refine ⟨hT, dd, e, sp.hdd, ?_, ?_⟩
    · unfold fairShare
      rw [hv1, ok_bind, hvalue, ok_bind, hhalf, ok_bind, hsq, ok_bind, hts, ok_bind, hq, ok_bind]
      exact he
    · rw [Stable.ddiv_ok] at hslip
      obtain ⟨he0, _, hslip⟩ := hslip
      have hsh := sp.hshare
      rw [Stable.toU128_ok, hL] at hsh
      obtain ⟨_, _, hsh⟩ := hsh
      have h1 : sh < (share + 1) * 10 ^ 12 := by
        rw [← hsh]; exact lt_succ_div_mul _ (by decide)
      have h2 : (e - sh) * DEC < (t.getD 50000000000000000 + 1) * e := by
        refine lt_of_lt_of_le (lt_succ_div_mul _ (Nat.pos_of_ne_zero he0)) ?_
        exact Nat.mul_le_mul_right _ (Nat.succ_le_succ (by rw [hslip]; exact Nat.le_of_not_lt hle))
      exact fair_bound hT h1 h2
  · exfalso
    simp only [Except.ok.injEq, Prod.mk.injEq] at hc
    exact hch hc.2.symm

/-- Non-vacuity: a deposit of twice as much of one asset as of the other is accepted with the default tolerance; with a
tolerance of `10 ^ -6` it is refused. -/
example :
    okAnd (exec demoSetup 0 2000 1 demo0 (.provide 2 (fun _ => 10 ^ 12) none none 2)) (fun s =>
      okAnd (provide demoSetup 0 s 2000 3 (fun j => if j then 10 ^ 9 else 2 * 10 ^ 9) none none 3) (fun x =>
        decide (x.1.pool ≠ s.pool)) &&
      fails (provide demoSetup 0 s 2000 3 (fun j => if j then 10 ^ 9 else 2 * 10 ^ 9) (some (10 ^ 12)) none 3)) = true := by
  decide +kernel

end Verif.PCL
