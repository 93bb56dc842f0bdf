import Verif.PCL.Repeg
import Mathlib.Analysis.Analytic.Binomial
import Mathlib.Analysis.Convex.SpecificFunctions.Basic

/-!
# C83: the half-life of the oracle price

`half_float_pow` (packages/astroport_pcl_common/src/math/math_decimal.rs:126-153) sums the binomial series of
`(1 - 1/2) ^ f` until a term falls below `10 ^ -10`.  Here the model's loop is compared with the power of real
numbers (`Real.rpow`): the weight is accurate to `1.01 * 10 ^ -10`, and so is the oracle price that an update writes.
-/

namespace Verif.PCL

open Verif.Stable (dmul ddiv dadd absDiff)

/-- The terms of the binomial series of `(1 - 1/2)^f`, without sign. -/
noncomputable def binTerm (f : ℝ) : ℕ → ℝ
  | 0 => 1
  | n + 1 => binTerm f n * |f - n| / (2 * (n + 1))

/-- The partial sums of the series. -/
noncomputable def binSum (f : ℝ) : ℕ → ℝ
  | 0 => 1
  | n + 1 => binSum f n - binTerm f (n + 1)

theorem binTerm_nonneg (f : ℝ) (n : ℕ) : 0 ≤ binTerm f n := by
  induction n with
  | zero => exact zero_le_one
  | succ n ih => unfold binTerm; positivity

theorem ratio_half {f : ℝ} (h0 : 0 ≤ f) (h1 : f ≤ 1) (n : ℕ) : |f - n| / (2 * (n + 1)) ≤ 1 / 2 := by
  have hn : (0 : ℝ) ≤ n := Nat.cast_nonneg n
  rw [div_le_div_iff₀ (by positivity) (by norm_num)]
  have : |f - n| ≤ n + 1 := by
    rw [abs_le]; constructor <;> linarith
  linarith

theorem binTerm_half {f : ℝ} (h0 : 0 ≤ f) (h1 : f ≤ 1) (n : ℕ) : binTerm f (n + 1) ≤ binTerm f n / 2 := by
  have h := mul_le_mul_of_nonneg_left (ratio_half h0 h1 n) (binTerm_nonneg f n)
  rw [← mul_div_assoc] at h
  change binTerm f n * |f - n| / (2 * (n + 1)) ≤ _
  linarith

theorem choose_rec (f : ℝ) (n : ℕ) : Ring.choose f (n + 1) * (n + 1) = Ring.choose f n * (f - n) := by
  have h := Ring.choose_smul_choose f (Nat.le_succ n)
  rw [Nat.succ_eq_add_one, Nat.add_sub_cancel_left, Ring.choose_one_right, Nat.choose_succ_self_right, nsmul_eq_mul] at h
  push_cast at h
  linarith

theorem series_term {f : ℝ} (h0 : 0 ≤ f) (h1 : f ≤ 1) (n : ℕ) :
    Ring.choose f (n + 1) * (-1 / 2) ^ (n + 1) = -binTerm f (n + 1) := by
  induction n with
  | zero =>
    have := choose_rec f 0
    simp only [Ring.choose_zero_right, Nat.cast_zero, zero_add] at this
    simp only [binTerm, Nat.cast_zero, zero_add, pow_one, sub_zero, abs_of_nonneg h0]
    linarith
  | succ n ih =>
    have h := choose_rec f (n + 1)
    have hn : (0 : ℝ) ≤ n := Nat.cast_nonneg n
    have ha : |f - ((n + 1 : ℕ) : ℝ)| = (n + 1 : ℕ) - f := by
      rw [abs_of_nonpos (by push_cast; linarith)]; ring
    have e : binTerm f (n + 1 + 1) = binTerm f (n + 1) * |f - ((n + 1 : ℕ) : ℝ)| / (2 * (((n + 1 : ℕ) : ℝ) + 1)) := rfl
    rw [e, ha]
    have hp : (((n + 1 : ℕ) : ℝ) + 1) ≠ 0 := by positivity
    have hc : Ring.choose f (n + 1 + 1) = Ring.choose f (n + 1) * (f - (n + 1 : ℕ)) / (((n + 1 : ℕ) : ℝ) + 1) := by
      field_simp
      linarith
    rw [hc, pow_succ]
    have : Ring.choose f (n + 1) * (f - (n + 1 : ℕ)) / (((n + 1 : ℕ) : ℝ) + 1) * ((-1 / 2) ^ (n + 1) * (-1 / 2)) =
        (Ring.choose f (n + 1) * (-1 / 2) ^ (n + 1)) * ((f - (n + 1 : ℕ)) * (-1 / 2) / (((n + 1 : ℕ) : ℝ) + 1)) := by ring
    rw [this, ih]
    field_simp
    ring

theorem half_series (f : ℝ) : HasSum (fun n : ℕ => Ring.choose f n * (-1 / 2) ^ n) ((1 / 2 : ℝ) ^ f) := by
  have h := (Real.one_add_rpow_hasFPowerSeriesOnBall_zero (a := f)).hasSum (y := -1 / 2) (by
    rw [Metric.mem_eball, edist_dist, Real.dist_eq]
    rw [show |(-1 / 2 : ℝ) - 0| = 1 / 2 by rw [sub_zero, abs_of_neg (by norm_num)]; norm_num]
    exact ENNReal.ofReal_lt_one.2 (by norm_num))
  simp only [binomialSeries_apply, List.ofFn_const, List.prod_replicate, smul_eq_mul, zero_add] at h
  rw [show (1 : ℝ) + -1 / 2 = 1 / 2 by norm_num] at h
  exact h

theorem binSum_eq {f : ℝ} (h0 : 0 ≤ f) (h1 : f ≤ 1) (n : ℕ) :
    ∑ i ∈ Finset.range (n + 1), Ring.choose f i * (-1 / 2) ^ i = binSum f n := by
  induction n with
  | zero => simp [binSum]
  | succ n ih =>
    rw [Finset.sum_range_succ, ih, series_term h0 h1]
    simp only [binSum]
    ring

theorem binTerm_tail {f : ℝ} (h0 : 0 ≤ f) (h1 : f ≤ 1) (n k : ℕ) :
    binTerm f (k + (n + 1)) ≤ binTerm f n / 2 / 2 ^ k := by
  induction k with
  | zero =>
    rw [Nat.zero_add, pow_zero, div_one]
    exact binTerm_half h0 h1 n
  | succ k ih =>
    have := binTerm_half h0 h1 (k + (n + 1))
    rw [show k + 1 + (n + 1) = k + (n + 1) + 1 by ring]
    rw [pow_succ, ← div_div]
    linarith

/-- The partial sums come down to the value from above, and the rest is at most the last term. -/
theorem binSum_bounds {f : ℝ} (h0 : 0 ≤ f) (h1 : f ≤ 1) (n : ℕ) :
    (1 / 2 : ℝ) ^ f ≤ binSum f n ∧ binSum f n ≤ (1 / 2 : ℝ) ^ f + binTerm f n := by
  have h := (hasSum_nat_add_iff' (n + 1)).2 (half_series f)
  rw [binSum_eq h0 h1] at h
  have e : (fun k : ℕ => Ring.choose f (k + (n + 1)) * (-1 / 2) ^ (k + (n + 1))) = fun k => -binTerm f (k + (n + 1)) := by
    funext k
    exact series_term h0 h1 (k + n)
  rw [e] at h
  constructor
  · have := hasSum_le (fun k => neg_nonpos.2 (binTerm_nonneg f (k + (n + 1)))) h hasSum_zero
    linarith
  · have hg : HasSum (fun k : ℕ => -(binTerm f n / 2 / 2 ^ k)) (-binTerm f n) := (hasSum_geometric_two' (binTerm f n)).neg
    have := hasSum_le (fun k => neg_le_neg (binTerm_tail h0 h1 n k)) hg h
    linarith

theorem binTerm_pow {f : ℝ} (h0 : 0 ≤ f) (h1 : f ≤ 1) (n : ℕ) : binTerm f n ≤ 1 / 2 ^ n := by
  induction n with
  | zero => simp [binTerm]
  | succ n ih =>
    have := binTerm_half h0 h1 n
    rw [pow_succ, ← div_div]
    linarith

/-! ## The loop -/

theorem div_le_real (a b : ℕ) : ((a / b : ℕ) : ℝ) ≤ (a : ℝ) / b := Nat.cast_div_le

theorem real_lt_div (a : ℕ) {b : ℕ} (hb : 0 < b) : (a : ℝ) / b < ((a / b : ℕ) : ℝ) + 1 := by
  have h : a < b * (a / b + 1) := Nat.lt_mul_div_succ a hb
  have hb' : (0 : ℝ) < b := by exact_mod_cast hb
  rw [div_lt_iff₀ hb']
  have : (a : ℝ) < b * ((a / b : ℕ) + 1 : ℕ) := by exact_mod_cast h
  push_cast at this
  linarith

/-- One step in real numbers. -/
theorem step_real {T S ρ a term sum t1 t2 t3 k n d : ℝ} (hk : 1 ≤ k) (hρ0 : 0 ≤ ρ) (hρ : ρ ≤ 1 / 2)
    (hab : a = ρ * (2 * k))
    (r1 : t1 ≤ term * a ∧ term * a < t1 + 1) (r2 : t2 ≤ t1 / 2 ∧ t1 / 2 < t2 + 1)
    (r3 : t3 ≤ t2 / k ∧ t2 / k < t3 + 1)
    (ht1 : term ≤ T * d) (ht2 : T * d ≤ term + 5) (hs1 : S * d ≤ sum) (hs2 : sum ≤ S * d + 5 * n) :
    t3 ≤ T * ρ * d ∧ T * ρ * d ≤ t3 + 5 ∧ (S - T * ρ) * d ≤ sum - t3 ∧
      sum - t3 ≤ (S - T * ρ) * d + 5 * (n + 1) := by
  have hk0 : 0 < k := by linarith
  have up : t3 ≤ term * ρ := by
    have h1 : t2 / k ≤ (term * (ρ * (2 * k))) / 2 / k := by
      refine div_le_div_of_nonneg_right ?_ hk0.le
      rw [← hab]
      linarith [r1.1, r2.1]
    have h2 : (term * (ρ * (2 * k))) / 2 / k = term * ρ := by field_simp
    linarith [r3.1]
  have lo : term * ρ ≤ t3 + 5 / 2 := by
    have h1 : (term * (ρ * (2 * k))) / 2 / k ≤ ((t2 + 1) + 1 / 2) / k := by
      refine div_le_div_of_nonneg_right ?_ hk0.le
      rw [← hab]
      linarith [r1.2, r2.2]
    have h2 : (term * (ρ * (2 * k))) / 2 / k = term * ρ := by field_simp
    have h3 : ((t2 + 1) + 1 / 2) / k = t2 / k + (3 / 2) / k := by ring
    have h4 : (3 / 2 : ℝ) / k ≤ 3 / 2 := div_le_self (by norm_num) hk
    linarith [r3.2]
  have m1 := mul_le_mul_of_nonneg_right ht1 hρ0
  have m2 := mul_le_mul_of_nonneg_right ht2 hρ0
  have e : T * d * ρ = T * ρ * d := by ring
  rw [e] at m1 m2
  have e2 : (term + 5) * ρ = term * ρ + 5 * ρ := by ring
  rw [e2] at m2
  have e3 : (S - T * ρ) * d = S * d - T * ρ * d := by ring
  rw [e3]
  refine ⟨?_, ?_, ?_, ?_⟩ <;> linarith

/-- The floors of one step, as real bounds. -/
theorem floors {term c n t1 t2 t3 : ℕ} {a : ℝ} (hcr : (c : ℝ) = a * DEC)
    (e1 : t1 = term * c / DEC) (e2 : t2 = t1 * (DEC / 2) / DEC) (e3 : t3 = t2 * DEC / ((n + 1) * DEC)) :
    ((t1 : ℝ) ≤ term * a ∧ term * a < t1 + 1) ∧ ((t2 : ℝ) ≤ t1 / 2 ∧ (t1 : ℝ) / 2 < t2 + 1) ∧
      ((t3 : ℝ) ≤ t2 / ((n : ℝ) + 1) ∧ (t2 : ℝ) / ((n : ℝ) + 1) < t3 + 1) := by
  have hd : ((DEC : ℕ) : ℝ) ≠ 0 := by
    exact_mod_cast (Nat.pos_iff_ne_zero.1 DEC_pos)
  have h5 : ((DEC / 2 : ℕ) : ℝ) = DEC / 2 := by
    rw [Nat.cast_div (by decide +kernel) (by norm_num)]; norm_num
  refine ⟨?_, ?_, ?_⟩
  · have g1 := div_le_real (term * c) DEC
    have g2 := real_lt_div (term * c) DEC_pos
    rw [← e1, Nat.cast_mul, hcr] at g1 g2
    rw [show (term : ℝ) * (a * DEC) / DEC = term * a by field_simp] at g1 g2
    exact ⟨g1, g2⟩
  · have g1 := div_le_real (t1 * (DEC / 2)) DEC
    have g2 := real_lt_div (t1 * (DEC / 2)) DEC_pos
    rw [← e2, Nat.cast_mul, h5] at g1 g2
    rw [show (t1 : ℝ) * ((DEC : ℕ) / 2) / (DEC : ℕ) = t1 / 2 by field_simp] at g1 g2
    exact ⟨g1, g2⟩
  · rw [Nat.mul_div_mul_right _ _ DEC_pos] at e3
    have g1 := div_le_real t2 (n + 1)
    have g2 := real_lt_div t2 (b := n + 1) (Nat.succ_pos n)
    rw [← e3, Nat.cast_add, Nat.cast_one] at g1 g2
    exact ⟨g1, g2⟩

theorem absDiff_real (F n : ℕ) :
    ((absDiff F ((n + 1) * DEC - DEC) : ℕ) : ℝ) = |(F : ℝ) / DEC - n| * DEC := by
  have hd : (0 : ℝ) < ((DEC : ℕ) : ℝ) := by exact_mod_cast DEC_pos
  have hsub : (n + 1) * DEC - DEC = n * DEC := by rw [Nat.add_mul, Nat.one_mul, Nat.add_sub_cancel]
  have e : |(F : ℝ) / DEC - n| * DEC = |(F : ℝ) - n * DEC| := by
    rw [show (F : ℝ) - n * DEC = (F / DEC - n) * DEC by field_simp, abs_mul, abs_of_pos hd]
  rw [e, hsub]
  unfold absDiff
  split
  · rename_i hle
    have hle := Nat.le_of_lt hle
    have h2 : (F : ℝ) ≤ (n * DEC : ℕ) := Nat.cast_le.2 hle
    rw [Nat.cast_sub hle]
    rw [Nat.cast_mul] at h2 ⊢
    rw [abs_of_nonpos (by linarith)]
    ring
  · rename_i hle
    have hle := not_lt.1 hle
    have h2 : ((n * DEC : ℕ) : ℝ) ≤ F := Nat.cast_le.2 hle
    rw [Nat.cast_sub hle]
    rw [Nat.cast_mul] at h2 ⊢
    rw [abs_of_nonneg (by linarith)]

theorem absDiff_le {F n : ℕ} (hF : F ≤ DEC) (hn : n ≤ 63) : absDiff F ((n + 1) * DEC - DEC) ≤ 64 * DEC := by
  have hsub : (n + 1) * DEC - DEC = n * DEC := by rw [Nat.add_mul, Nat.one_mul, Nat.add_sub_cancel]
  have : n * DEC ≤ 63 * DEC := Nat.mul_le_mul_right _ hn
  rw [hsub]; unfold absDiff; split <;> omega

theorem loop_ok {n term c t1 t2 t3 : ℕ} (htD : term ≤ DEC) (hcb : c ≤ 64 * DEC)
    (e1 : t1 = term * c / DEC) (e2 : t2 = t1 * (DEC / 2) / DEC) (e3 : t3 = t2 * DEC / ((n + 1) * DEC)) :
    dmul term c = .ok t1 ∧ dmul t1 (DEC / 2) = .ok t2 ∧ ddiv t2 ((n + 1) * DEC) = .ok t3 := by
  have hU : 64 * DEC < U256 := by decide +kernel
  have b1 : t1 ≤ 64 * DEC := by
    rw [e1]
    refine Nat.div_le_of_le_mul ?_
    exact Nat.mul_le_mul htD hcb
  have b2 : t2 ≤ 64 * DEC := by
    rw [e2]
    refine Nat.div_le_of_le_mul ?_
    rw [Nat.mul_comm DEC]
    exact Nat.mul_le_mul b1 (Nat.div_le_self _ _)
  have b3 : t3 ≤ 64 * DEC := by
    rw [e3, Nat.mul_div_mul_right _ _ DEC_pos]
    exact le_trans (Nat.div_le_self _ _) b2
  refine ⟨(Stable.dmul_ok _ _ _).2 ⟨?_, e1.symm⟩, (Stable.dmul_ok _ _ _).2 ⟨?_, e2.symm⟩,
    (Stable.ddiv_ok _ _ _).2 ⟨?_, ?_, e3.symm⟩⟩
  · rw [← e1]; omega
  · rw [← e2]; omega
  · exact Nat.pos_iff_ne_zero.1 (Nat.mul_pos (Nat.succ_pos n) DEC_pos)
  · rw [← e3]; omega

theorem frac_range {F : ℕ} (hF : F ≤ DEC) : (0 : ℝ) ≤ (F : ℝ) / DEC ∧ (F : ℝ) / DEC ≤ 1 := by
  have hd : (0 : ℝ) < ((DEC : ℕ) : ℝ) := by exact_mod_cast DEC_pos
  refine ⟨div_nonneg (Nat.cast_nonneg _) hd.le, ?_⟩
  rw [div_le_one hd]
  exact Nat.cast_le.2 hF

theorem loop_step {F n term sum : ℕ} (hF : F ≤ DEC) (hn : n ≤ 63)
    (ht1 : (term : ℝ) ≤ binTerm (F / DEC) n * DEC) (ht2 : binTerm (F / DEC) n * DEC ≤ term + 5)
    (hs1 : binSum (F / DEC) n * DEC ≤ sum) (hs2 : (sum : ℝ) ≤ binSum (F / DEC) n * DEC + 5 * n) :
    ∃ t1 t2 term' sum', dmul term (absDiff F ((n + 1) * DEC - DEC)) = .ok t1 ∧
      dmul t1 (DEC / 2) = .ok t2 ∧
      ddiv t2 ((n + 1) * DEC) = .ok term' ∧
      csub sum term' = .ok sum' ∧
      (term' : ℝ) ≤ binTerm (F / DEC) (n + 1) * DEC ∧ binTerm (F / DEC) (n + 1) * DEC ≤ term' + 5 ∧
      binSum (F / DEC) (n + 1) * DEC ≤ sum' ∧ (sum' : ℝ) ≤ binSum (F / DEC) (n + 1) * DEC + 5 * (n + 1 : ℕ) := by
  have hd : (0 : ℝ) < ((DEC : ℕ) : ℝ) := by exact_mod_cast DEC_pos
  obtain ⟨f0, f1⟩ := frac_range hF
  have htD : term ≤ DEC := by
    have h1 := binTerm_pow f0 f1 n
    have h2 : (1 : ℝ) / 2 ^ n ≤ 1 := by
      rw [div_le_one (by positivity)]; exact one_le_pow₀ (by norm_num)
    have h3 : (term : ℝ) ≤ (DEC : ℕ) :=
      le_trans ht1 (le_trans (mul_le_mul_of_nonneg_right (le_trans h1 h2) hd.le) (one_mul _).le)
    exact Nat.cast_le.1 h3
  have hcr := absDiff_real F n
  have hcb := absDiff_le hF hn
  generalize absDiff F ((n + 1) * DEC - DEC) = c at hcr hcb ⊢
  obtain ⟨t1, e1⟩ : ∃ t1, t1 = term * c / DEC := ⟨_, rfl⟩
  obtain ⟨t2, e2⟩ : ∃ t2, t2 = t1 * (DEC / 2) / DEC := ⟨_, rfl⟩
  obtain ⟨t3, e3⟩ : ∃ t3, t3 = t2 * DEC / ((n + 1) * DEC) := ⟨_, rfl⟩
  obtain ⟨o1, o2, o3⟩ := loop_ok htD hcb e1 e2 e3
  obtain ⟨r1, r2, r3⟩ := floors hcr e1 e2 e3
  clear e1 e2 e3 hcb hcr htD
  have hT : binTerm (F / DEC) (n + 1) = binTerm (F / DEC) n * (|(F : ℝ) / DEC - n| / (2 * (n + 1))) := by
    rw [← mul_div_assoc]; rfl
  have hρ := ratio_half f0 f1 n
  have hn1 : (1 : ℝ) ≤ (n : ℝ) + 1 := by linarith [(Nat.cast_nonneg n : (0 : ℝ) ≤ n)]
  have hρ0 : 0 ≤ |(F : ℝ) / DEC - n| / (2 * ((n : ℝ) + 1)) :=
    div_nonneg (abs_nonneg _) (by linarith)
  have hab : |(F : ℝ) / DEC - n| = |(F : ℝ) / DEC - n| / (2 * ((n : ℝ) + 1)) * (2 * ((n : ℝ) + 1)) := by
    rw [div_mul_cancel₀]
    intro h; linarith
  obtain ⟨z1, z2, z3, z4⟩ := step_real hn1 hρ0 hρ hab r1 r2 r3 ht1 ht2 hs1 hs2
  rw [← hT] at z1 z2 z3 z4
  have hS : binSum (F / DEC) (n + 1) = binSum (F / DEC) n - binTerm (F / DEC) (n + 1) := rfl
  have hpos : (0 : ℝ) ≤ binSum (F / DEC) (n + 1) :=
    le_trans (Real.rpow_nonneg (by norm_num) _) (binSum_bounds f0 f1 (n + 1)).1
  have hle : t3 ≤ sum := by
    rw [← hS] at z3
    have h1 := mul_nonneg hpos hd.le
    have : (t3 : ℝ) ≤ sum := by linarith
    exact Nat.cast_le.1 this
  refine ⟨t1, t2, t3, sum - t3, o1, o2, o3, ?_, z1, z2, ?_, ?_⟩
  · rw [csub_ok]
    exact ⟨hle, rfl⟩
  · rw [Nat.cast_sub hle, hS]; exact z3
  · rw [Nat.cast_sub hle, hS, Nat.cast_add, Nat.cast_one]; exact z4

theorem dec_real : ((DEC : ℕ) : ℝ) = 10 ^ 18 := by
  rw [show DEC = 10 ^ 18 from rfl]; norm_num

theorem tiny : (1 : ℝ) / 2 ^ 63 * DEC < 100000000 := by
  rw [dec_real]; norm_num

theorem tol_lt {t : ℕ} : t < HALFPOW_TOL ↔ (t : ℝ) < 100000000 := by
  rw [show HALFPOW_TOL = 10 ^ 8 from rfl, ← Nat.cast_lt (α := ℝ)]
  norm_num

theorem halfLoop_val {F R : ℕ} (hF : F ≤ DEC) (fuel : ℕ) :
    ∀ (n term sum : ℕ), fuel + n = 63 → 1 ≤ fuel →
      (term : ℝ) ≤ binTerm (F / DEC) n * DEC → binTerm (F / DEC) n * DEC ≤ term + 5 →
      binSum (F / DEC) n * DEC ≤ sum → (sum : ℝ) ≤ binSum (F / DEC) n * DEC + 5 * n →
      ∃ m s, m ≤ 63 ∧ halfLoop F R fuel (n + 1) term sum = dmul R s ∧ binTerm (F / DEC) m * DEC ≤ 100000005 ∧
        binSum (F / DEC) m * DEC ≤ s ∧ (s : ℝ) ≤ binSum (F / DEC) m * DEC + 5 * m := by
  induction fuel with
  | zero => intro n term sum _ h; exact absurd h (by omega)
  | succ fuel ih =>
    intro n term sum hfn _ ht1 ht2 hs1 hs2
    obtain ⟨t1, t2, term', sum', q1, q2, q3, q4, g1, g2, g3, g4⟩ := loop_step hF (by omega) ht1 ht2 hs1 hs2
    have hstep : halfLoop F R (fuel + 1) (n + 1) term sum =
        if term' < HALFPOW_TOL then dmul R sum' else halfLoop F R fuel (n + 1 + 1) term' sum' := by
      rw [halfLoop, q1, ok_bind, q2, ok_bind, q3, ok_bind, q4, ok_bind]
    rw [hstep]
    by_cases hlt : term' < HALFPOW_TOL
    · rw [if_pos hlt]
      refine ⟨n + 1, sum', by omega, rfl, ?_, g3, g4⟩
      have := (tol_lt.1 hlt).le
      linarith
    · rw [if_neg hlt]
      by_cases hz : fuel = 0
      · exfalso
        obtain ⟨f0, f1⟩ := frac_range hF
        have h1 := binTerm_pow f0 f1 (n + 1)
        have hn : n + 1 = 63 := by omega
        rw [hn] at h1 g1
        have hd : (0 : ℝ) ≤ ((DEC : ℕ) : ℝ) := Nat.cast_nonneg _
        have h4 := mul_le_mul_of_nonneg_right h1 hd
        exact hlt (tol_lt.2 (lt_of_le_of_lt (le_trans g1 h4) tiny))
      · exact ih (n + 1) term' sum' (by omega) (by omega) g1 g2 g3 g4

/-! ## The power of the whole part -/

theorem pow_sub_le {a b : ℝ} (hb : 0 ≤ b) (hab : b ≤ a) (ha : a ≤ 1) : ∀ m : ℕ, a ^ m - b ^ m ≤ m * (a - b)
  | 0 => by simp
  | m + 1 => by
    have ih := pow_sub_le hb hab ha m
    have h1 : a * (a ^ m - b ^ m) ≤ a ^ m - b ^ m := by
      have h0 : 0 ≤ a ^ m - b ^ m := sub_nonneg.2 (pow_le_pow_left₀ hb hab m)
      nlinarith
    have h2 : (a - b) * b ^ m ≤ a - b := by
      have : b ^ m ≤ 1 := pow_le_one₀ hb (le_trans hab ha)
      nlinarith
    have e : a ^ (m + 1) - b ^ (m + 1) = a * (a ^ m - b ^ m) + (a - b) * b ^ m := by ring
    rw [e]; push_cast; linarith

/-- Even step, in units of the last digit: `X2` is the rounded square. -/
theorem pow_even {X X2 Y r u : ℝ} {m : ℕ} (hX1 : X ≤ 1) (hX0 : 0 ≤ X) (hY1 : Y ≤ 1)
    (h2 : 0 ≤ X2) (h3 : X2 ≤ X * X) (h4 : X * X ≤ X2 + u) (ih : X2 ^ m * Y ≤ r + 2 * m * u) :
    X ^ (2 * m) * Y ≤ r + 3 * m * u := by
  have hXX : X * X ≤ 1 := by nlinarith
  have h5 := pow_sub_le h2 h3 hXX m
  have h6 : (m : ℝ) * (X * X - X2) ≤ m * u := mul_le_mul_of_nonneg_left (by linarith) (Nat.cast_nonneg _)
  have e : X ^ (2 * m) = (X * X) ^ m := by rw [pow_mul]; ring
  rw [e]
  have h7 : ((X * X) ^ m - X2 ^ m) * Y ≤ m * u := by
    have h0 : 0 ≤ (X * X) ^ m - X2 ^ m := sub_nonneg.2 (pow_le_pow_left₀ h2 h3 m)
    nlinarith
  nlinarith

theorem powLoop_ge (fuel : ℕ) : ∀ {x y n : ℕ}, 1 ≤ n → n < 2 ^ fuel → x ≤ DEC → y ≤ DEC →
    ∃ r, powLoop fuel x y n = .ok r ∧
      ((x : ℝ) / DEC) ^ n * (y / DEC) ≤ r / DEC + 2 * n * (1 / DEC) := by
  have hd : (0 : ℝ) < ((DEC : ℕ) : ℝ) := by exact_mod_cast DEC_pos
  have mulOk : ∀ {a b : ℕ}, a ≤ DEC → b ≤ DEC → dmul a b = .ok (a * b / DEC) ∧ a * b / DEC ≤ DEC := by
    intro a b ha hb
    have h : a * b / DEC ≤ DEC := Nat.div_le_of_le_mul (Nat.mul_le_mul ha hb)
    rw [Stable.dmul_ok]
    exact ⟨⟨lt_of_le_of_lt h DEC_lt_U256, rfl⟩, h⟩
  have mulR : ∀ a b : ℕ, (((a * b / DEC : ℕ) : ℝ) / DEC ≤ a / DEC * (b / DEC)) ∧
      ((a : ℝ) / DEC * (b / DEC) ≤ ((a * b / DEC : ℕ) : ℝ) / DEC + 1 / DEC) := by
    intro a b
    have g1 := div_le_real (a * b) DEC
    have g2 := real_lt_div (a * b) DEC_pos
    have e : (a : ℝ) / DEC * (b / DEC) = ((a * b : ℕ) : ℝ) / DEC / DEC := by
      rw [Nat.cast_mul]; field_simp
    rw [e, ← add_div]
    exact ⟨div_le_div_of_nonneg_right g1 hd.le, div_le_div_of_nonneg_right g2.le hd.le⟩
  induction fuel with
  | zero => intro x y n h1 h2; simp at h2; omega
  | succ fuel ih =>
    intro x y n h1 h2 hx hy
    obtain ⟨X0, X1⟩ := frac_range hx
    obtain ⟨_, Y1⟩ := frac_range hy
    have hu : (0 : ℝ) < 1 / DEC := by positivity
    unfold powLoop
    by_cases hn : n ≤ 1
    · have : n = 1 := by omega
      subst this
      rw [if_pos hn, (mulOk hx hy).1]
      refine ⟨_, rfl, ?_⟩
      rw [pow_one]
      have := (mulR x y).2
      rw [Nat.cast_one]
      linarith
    · rw [if_neg hn]
      by_cases hp : n % 2 = 0
      · rw [if_pos hp, (mulOk hx hx).1, ok_bind]
        obtain ⟨r, h3, h4⟩ := ih (x := x * x / DEC) (y := y) (n := n / 2) (by omega)
          (by rw [Nat.pow_succ] at h2; omega) (mulOk hx hx).2 hy
        refine ⟨r, h3, ?_⟩
        have h5 := pow_even (m := n / 2) X1 X0 Y1 (frac_range (mulOk hx hx).2).1 (mulR x x).1 (mulR x x).2 h4
        have e : 2 * (n / 2) = n := by omega
        have e' : (2 : ℝ) * (n / 2 : ℕ) = n := by exact_mod_cast e
        rw [e] at h5
        have : 3 * ((n / 2 : ℕ) : ℝ) ≤ 2 * n := by
          have : (0 : ℝ) ≤ n := Nat.cast_nonneg _
          linarith
        have := mul_le_mul_of_nonneg_right this hu.le
        linarith
      · rw [if_neg hp, (mulOk hx hy).1, ok_bind, (mulOk hx hx).1, ok_bind]
        obtain ⟨r, h3, h4⟩ := ih (x := x * x / DEC) (y := x * y / DEC) (n := (n - 1) / 2) (by omega)
          (by rw [Nat.pow_succ] at h2; omega) (mulOk hx hx).2 (mulOk hx hy).2
        refine ⟨r, h3, ?_⟩
        obtain ⟨_, Z1⟩ := frac_range (mulOk hx hy).2
        have h5 := pow_even (m := (n - 1) / 2) X1 X0 Z1 (frac_range (mulOk hx hx).2).1 (mulR x x).1 (mulR x x).2 h4
        have e : 2 * ((n - 1) / 2) + 1 = n := by omega
        have e' : (2 : ℝ) * ((n - 1) / 2 : ℕ) + 1 = n := by exact_mod_cast e
        have e2 : ((x : ℝ) / DEC) ^ n = ((x : ℝ) / DEC) ^ (2 * ((n - 1) / 2)) * (x / DEC) := by
          rw [← pow_succ, e]
        have hP0 : 0 ≤ ((x : ℝ) / DEC) ^ (2 * ((n - 1) / 2)) := pow_nonneg X0 _
        have hP1 : ((x : ℝ) / DEC) ^ (2 * ((n - 1) / 2)) ≤ 1 := pow_le_one₀ X0 X1
        have h6 := mul_le_mul_of_nonneg_left (mulR x y).2 hP0
        rw [e2, mul_assoc]
        rw [mul_add] at h6
        have h7 := mul_le_mul_of_nonneg_right hP1 hu.le
        have : 3 * (((n - 1) / 2 : ℕ) : ℝ) + 1 ≤ 2 * n := by
          have : (1 : ℝ) ≤ n := by exact_mod_cast h1
          linarith
        have := mul_le_mul_of_nonneg_right this hu.le
        linarith

theorem dpow_half_val {n : ℕ} (hn : n < 2 ^ 32) :
    ∃ r, dpow (DEC / 2) n = .ok r ∧ r ≤ DEC ∧ (r : ℝ) / DEC ≤ (1 / 2) ^ n ∧
      (1 / 2 : ℝ) ^ n ≤ r / DEC + 120 * (1 / DEC) := by
  have hd : (0 : ℝ) < ((DEC : ℕ) : ℝ) := by exact_mod_cast DEC_pos
  have hu : (0 : ℝ) < 1 / DEC := by positivity
  obtain ⟨r, h1, h2⟩ := dpow_half hn
  have hr := le_DEC_of_pow h2
  refine ⟨r, h1, hr, ?_, ?_⟩
  · have h3 : (r : ℝ) * 2 ^ n ≤ DEC := by exact_mod_cast h2
    rw [div_le_iff₀ hd, one_div, inv_pow, inv_mul_eq_div, le_div_iff₀ (by positivity)]
    exact h3
  · by_cases h0 : n = 0
    · subst h0
      unfold dpow at h1
      rw [if_pos rfl, Except.ok.injEq] at h1
      rw [← h1, div_self hd.ne', pow_zero]
      linarith
    · by_cases hn60 : n < 60
      · unfold dpow at h1
        rw [if_neg h0] at h1
        obtain ⟨r', h3, h4⟩ := powLoop_ge 32 (x := DEC / 2) (y := DEC) (n := n) (by omega) hn (Nat.div_le_self _ _) (le_refl _)
        rw [h1, Except.ok.injEq] at h3
        subst h3
        have h5 : ((DEC / 2 : ℕ) : ℝ) / DEC = 1 / 2 := by
          rw [Nat.cast_div (by decide +kernel) (by norm_num)]; field_simp; norm_num
        rw [h5, div_self hd.ne', mul_one] at h4
        have : (2 : ℝ) * n ≤ 120 := by
          have : (n : ℝ) ≤ 60 := by exact_mod_cast hn60.le
          linarith
        have := mul_le_mul_of_nonneg_right this hu.le
        linarith
      · have h3 : (1 / 2 : ℝ) ^ n ≤ (1 / 2) ^ 60 := pow_le_pow_of_le_one (by norm_num) (by norm_num) (by omega)
        have h4 : (1 / 2 : ℝ) ^ 60 ≤ 120 * (1 / DEC) := by rw [dec_real]; norm_num
        have : (0 : ℝ) ≤ r / DEC := by positivity
        linarith

/-! ## The theorem -/

theorem rpow_split (n : ℕ) (f : ℝ) : (1 / 2 : ℝ) ^ ((n : ℝ) + f) = (1 / 2) ^ n * (1 / 2 : ℝ) ^ f := by
  rw [Real.rpow_add (by norm_num), Real.rpow_natCast]

theorem halfFloatPow_accurate {power : ℕ} (hp : power / DEC < 2 ^ 32) :
    ∃ w, halfFloatPow power = .ok w ∧ (1 / 2 : ℝ) ^ ((power : ℝ) / DEC) ≤ w / DEC + 121 * (1 / DEC) ∧
      (w : ℝ) / DEC ≤ (1 / 2 : ℝ) ^ ((power : ℝ) / DEC) + 100000320 * (1 / DEC) := by
  have hd : (0 : ℝ) < ((DEC : ℕ) : ℝ) := by exact_mod_cast DEC_pos
  have hu : (0 : ℝ) < 1 / DEC := by positivity
  obtain ⟨r, hr1, hr2, hr3, hr4⟩ := dpow_half_val hp
  obtain ⟨F, hF⟩ : ∃ F, F = power - power / DEC * DEC := ⟨_, rfl⟩
  have hdm := Nat.div_add_mod power DEC
  rw [Nat.mul_comm] at hdm
  have hFm : F = power % DEC := by omega
  have hFD : F ≤ DEC := by rw [hFm]; exact (Nat.mod_lt _ DEC_pos).le
  obtain ⟨f0, f1⟩ := frac_range hFD
  have hsplit : (power : ℝ) / DEC = ((power / DEC : ℕ) : ℝ) + (F : ℝ) / DEC := by
    rw [hFm]
    have : (power : ℝ) = ((power / DEC : ℕ) : ℝ) * DEC + ((power % DEC : ℕ) : ℝ) := by exact_mod_cast hdm.symm
    rw [eq_comm, ← eq_sub_iff_add_eq', eq_comm, sub_eq_iff_eq_add, div_eq_iff hd.ne']
    rw [add_mul, div_mul_cancel₀ _ hd.ne']
    linarith
  have b0 : binTerm ((F : ℝ) / DEC) 0 = 1 := rfl
  have s0 : binSum ((F : ℝ) / DEC) 0 = 1 := rfl
  obtain ⟨m, s, hm, hl, hb, hs1, hs2⟩ := halfLoop_val (R := r) hFD 63 0 DEC DEC rfl (by omega)
    (by rw [b0, one_mul]) (by rw [b0, one_mul]; linarith) (by rw [s0, one_mul]) (by rw [s0]; simp)
  obtain ⟨g1, g2⟩ := binSum_bounds f0 f1 m
  generalize hH : (1 / 2 : ℝ) ^ ((F : ℝ) / DEC) = H at g1 g2
  have hH0 : 0 ≤ H := by rw [← hH]; exact Real.rpow_nonneg (by norm_num) _
  have hH1 : H ≤ 1 := by rw [← hH]; exact Real.rpow_le_one (by norm_num) (by norm_num) f0
  have hm' : (m : ℝ) ≤ 63 := by exact_mod_cast hm
  have S1 : H ≤ s / DEC := by
    rw [le_div_iff₀ hd]
    exact le_trans (mul_le_mul_of_nonneg_right g1 hd.le) hs1
  have S2 : (s : ℝ) / DEC ≤ H + 100000320 * (1 / DEC) := by
    rw [div_le_iff₀ hd, add_mul, mul_assoc, one_div_mul_cancel hd.ne']
    have := mul_le_mul_of_nonneg_right g2 hd.le
    rw [add_mul] at this
    linarith
  generalize hP : (1 / 2 : ℝ) ^ (power / DEC) = P at hr3 hr4
  have hP0 : 0 ≤ P := by rw [← hP]; positivity
  have hP1 : P ≤ 1 := by rw [← hP]; exact pow_le_one₀ (by norm_num) (by norm_num)
  have hsD : s ≤ 2 * DEC := by
    have : (s : ℝ) / DEC ≤ 2 := by
      have : 100000320 * (1 / (DEC : ℝ)) ≤ 1 := by rw [dec_real]; norm_num
      linarith
    rw [div_le_iff₀ hd] at this
    exact_mod_cast this
  have hwb : r * s / DEC ≤ 2 * DEC := by
    apply Nat.div_le_of_le_mul
    exact Nat.mul_le_mul hr2 hsD
  have hw : dmul r s = .ok (r * s / DEC) := by
    rw [Stable.dmul_ok]
    refine ⟨lt_of_le_of_lt hwb (by decide +kernel), rfl⟩
  refine ⟨r * s / DEC, ?_, ?_, ?_⟩
  · unfold halfFloatPow
    have hu : u128 (power / DEC) = .ok (power / DEC) := by
      rw [u128_ok]; exact ⟨lt_trans hp (by decide), rfl⟩
    extract_lets int
    rw [show int = power / DEC from rfl, hu, ok_bind, Nat.mod_eq_of_lt hp, hr1, ok_bind, ← hF, ← hw]
    exact hl
  · have g := real_lt_div (r * s) DEC_pos
    have g' : (r : ℝ) / DEC * (s / DEC) ≤ ((r * s / DEC : ℕ) : ℝ) / DEC + 1 / DEC := by
      rw [← add_div]
      have e : (r : ℝ) / DEC * (s / DEC) = ((r * s : ℕ) : ℝ) / DEC / DEC := by
        rw [Nat.cast_mul]; field_simp
      rw [e]
      exact div_le_div_of_nonneg_right g.le hd.le
    rw [hsplit, rpow_split, hP, hH]
    have R0 : (0 : ℝ) ≤ r / DEC := by positivity
    have h1 : (r : ℝ) / DEC * H ≤ r / DEC * (s / DEC) := mul_le_mul_of_nonneg_left S1 R0
    have h2 := mul_le_mul_of_nonneg_right hr4 hH0
    rw [add_mul] at h2
    have h3 : 120 * (1 / (DEC : ℝ)) * H ≤ 120 * (1 / DEC) := mul_le_of_le_one_right (by linarith) hH1
    linarith
  · have g := div_le_real (r * s) DEC
    have g' : ((r * s / DEC : ℕ) : ℝ) / DEC ≤ (r : ℝ) / DEC * (s / DEC) := by
      have e : (r : ℝ) / DEC * (s / DEC) = ((r * s : ℕ) : ℝ) / DEC / DEC := by
        rw [Nat.cast_mul]; field_simp
      rw [e]
      exact div_le_div_of_nonneg_right g hd.le
    rw [hsplit, rpow_split, hP, hH]
    have S0 : (0 : ℝ) ≤ s / DEC := by positivity
    have h1 := mul_le_mul_of_nonneg_right hr3 S0
    have h2 := mul_le_mul_of_nonneg_left S2 hP0
    rw [mul_add] at h2
    have h3 : P * (100000320 * (1 / (DEC : ℝ))) ≤ 100000320 * (1 / DEC) := mul_le_of_le_one_left (by linarith) hP1
    linarith

/-- `2 ^ x ≤ 1 + x` on the unit interval. -/
theorem two_pow_le {x : ℝ} (h0 : 0 ≤ x) (h1 : x ≤ 1) : (2 : ℝ) ^ x ≤ 1 + x := by
  have := rpow_one_add_le_one_add_mul_self (s := 1) (p := x) (by norm_num) h0 h1
  norm_num at this
  linarith

/-- **C83.** The weight of the old oracle price after `elapsed` seconds is one half to the power of
`elapsed / half`, with an error of at most `1.01 * 10 ^ -10`. -/
theorem C83_weight_accurate (half elapsed : ℕ) (hh : 1 ≤ half) (he : elapsed < 2 ^ 32) :
    ∃ a, halfFloatPow (elapsed * 10 ^ 18 / half) = .ok a ∧
      |(a : ℝ) / 10 ^ 18 - (1 / 2 : ℝ) ^ ((elapsed : ℝ) / half)| ≤ 101 / 10 ^ 12 := by
  have hd : (0 : ℝ) < ((DEC : ℕ) : ℝ) := by exact_mod_cast DEC_pos
  have e : elapsed * DEC / half / DEC = elapsed / half := by
    rw [Nat.div_div_eq_div_mul, Nat.mul_div_mul_right _ _ DEC_pos]
  have hlt : elapsed * DEC / half / DEC < 2 ^ 32 := by
    rw [e]; exact lt_of_le_of_lt (Nat.div_le_self _ _) he
  obtain ⟨a, h1, h2, h3⟩ := halfFloatPow_accurate hlt
  refine ⟨a, h1, ?_⟩
  have hh' : (0 : ℝ) < half := by exact_mod_cast hh
  have p1 : ((elapsed * DEC / half : ℕ) : ℝ) / DEC ≤ (elapsed : ℝ) / half := by
    have := div_le_real (elapsed * DEC) half
    rw [div_le_iff₀ hd]
    rw [Nat.cast_mul] at this
    rw [div_mul_eq_mul_div]
    exact this
  have p2 : (elapsed : ℝ) / half ≤ ((elapsed * DEC / half : ℕ) : ℝ) / DEC + 1 / DEC := by
    have := real_lt_div (elapsed * DEC) hh
    rw [← add_div, le_div_iff₀ hd]
    rw [Nat.cast_mul] at this
    rw [div_mul_eq_mul_div]
    exact this.le
  have hx0 : 0 ≤ ((elapsed * DEC / half : ℕ) : ℝ) / DEC := by positivity
  generalize ((elapsed * DEC / half : ℕ) : ℝ) / DEC = x at hx0 h2 h3 p1 p2
  generalize (elapsed : ℝ) / half = y at p1 p2 ⊢
  have hu : (0 : ℝ) < 1 / DEC := by positivity
  have hu1 : 1 / (DEC : ℝ) ≤ 1 := by rw [dec_real]; norm_num
  have q1 : (1 / 2 : ℝ) ^ y ≤ (1 / 2) ^ x := Real.rpow_le_rpow_of_exponent_ge (by norm_num) (by norm_num) p1
  have q2 : (1 / 2 : ℝ) ^ x ≤ (1 / 2) ^ y + 1 / DEC := by
    have hy1 : (1 / 2 : ℝ) ^ y ≤ 1 := by
      exact Real.rpow_le_one (by norm_num) (by norm_num) (le_trans hx0 p1)
    have e1 : (1 / 2 : ℝ) ^ x = (1 / 2 : ℝ) ^ y * 2 ^ (y - x) := by
      rw [one_div, Real.inv_rpow (by norm_num), Real.inv_rpow (by norm_num), Real.rpow_sub (by norm_num)]
      have : (2 : ℝ) ^ y ≠ 0 := (Real.rpow_pos_of_pos (by norm_num) _).ne'
      field_simp
    have h5 := two_pow_le (x := y - x) (by linarith) (by linarith)
    have h6 : (2 : ℝ) ^ (y - x) ≤ 1 + 1 / DEC := by linarith
    have h7 : 0 ≤ (1 / 2 : ℝ) ^ y := Real.rpow_nonneg (by norm_num) _
    rw [e1]
    have h8 := mul_le_mul_of_nonneg_left h6 h7
    have h9 := mul_le_mul_of_nonneg_right hy1 hu.le
    linarith
  rw [dec_real] at h2 h3 q2
  generalize (1 / 2 : ℝ) ^ x = U at q1 q2 h2 h3
  generalize (1 / 2 : ℝ) ^ y = V at q1 q2
  generalize (a : ℝ) / 10 ^ 18 = W at h2 h3 ⊢
  rw [abs_le]
  norm_num at h2 h3 q2 ⊢
  constructor <;> linarith

/-- Examples: after 7 minutes of a 10 minute half time, and after 25 minutes. -/
example : okAnd (halfFloatPow (420 * 10 ^ 18 / 600)) (fun a => decide (615572206670 * 10 ^ 6 < a ∧ a < 615572206774 * 10 ^ 6)) = true ∧
    okAnd (halfFloatPow (1500 * 10 ^ 18 / 600)) (fun a => decide (176776695200 * 10 ^ 6 < a ∧ a < 176776695400 * 10 ^ 6)) = true := by
  decide +kernel

variable {A : Type} [DecidableEq A]

/-- **C83.** An oracle price written by a transaction is the exponential moving average of the last price and the
old oracle price with the configured half time: the old price weighs one half to the power of `elapsed / half`.  The
error is at most `1.01 * 10 ^ -10` of the distance of the two prices and two units of the 18th digit. -/
theorem C83_oracle_is_exponential_average (su : Setup) (me : A) (now : ℕ) (fo : A) (s s' : State A) (o : Op A)
    (h : exec su me now fo s o = .ok s') (hm : s'.pool.price.oracle ≠ s.pool.price.oracle)
    (hh : 1 ≤ s.params.maHalf) (he : now - s.pool.price.lastUpdate < 2 ^ 32) :
    |(s'.pool.price.oracle : ℝ) -
        ((s.pool.price.last : ℝ) * (1 - (1 / 2 : ℝ) ^ (((now - s.pool.price.lastUpdate : ℕ) : ℝ) / s.params.maHalf)) +
          (s.pool.price.oracle : ℝ) * (1 / 2 : ℝ) ^ (((now - s.pool.price.lastUpdate : ℕ) : ℝ) / s.params.maHalf))| ≤
      |(s.pool.price.last : ℝ) - s.pool.price.oracle| * (101 / 10 ^ 12) + 2 := by
  have hd : (0 : ℝ) < ((DEC : ℕ) : ℝ) := by exact_mod_cast DEC_pos
  have key : ∃ a, halfFloatPow ((now - s.pool.price.lastUpdate) * DEC / s.params.maHalf) = .ok a ∧ a ≤ DEC ∧
      s'.pool.price.oracle = s.pool.price.last * (DEC - a) / DEC + s.pool.price.oracle * a / DEC := by
    rcases exec_price h with h1 | ⟨_, _, _, _, _, h1⟩ | ⟨_, p0, hp0, h1⟩
    · exact absurd (by rw [h1]) hm
    · exact absurd (by rw [h1]) hm
    · have e : p0.price.oracle = s.pool.price.oracle ∧ p0.price.last = s.pool.price.last ∧
          p0.price.lastUpdate = s.pool.price.lastUpdate := by
        rcases hp0 with ⟨_, h⟩ | h <;> rw [h] <;> exact ⟨rfl, rfl, rfl⟩
      rcases h1 with h1 | ⟨t, x0, x1, cur, h1⟩
      · exact absurd (by rw [h1]; exact e.1) hm
      · rcases (updatePrice_oracle h1).2 with ⟨_, h2, _⟩ | ⟨h2, h3, a, ha, hle, h4⟩
        · exact absurd (by rw [h2]; exact e.1) hm
        · rw [e.1, e.2.1] at h4
          rw [e.2.2] at ha
          exact ⟨a, ha, hle, h4⟩
  obtain ⟨a, h1, h2, h3⟩ := key
  obtain ⟨a', h4, h5⟩ := C83_weight_accurate s.params.maHalf (now - s.pool.price.lastUpdate) hh he
  rw [show (10 : ℕ) ^ 18 = DEC from rfl, h1, Except.ok.injEq] at h4
  subst h4
  rw [← dec_real] at h5
  rw [h3, Nat.cast_add]
  generalize (1 / 2 : ℝ) ^ (((now - s.pool.price.lastUpdate : ℕ) : ℝ) / s.params.maHalf) = w at h5 ⊢
  generalize s.pool.price.last = l
  generalize s.pool.price.oracle = q
  have l1 := div_le_real (l * (DEC - a)) DEC
  have l2 := real_lt_div (l * (DEC - a)) DEC_pos
  have q1 := div_le_real (q * a) DEC
  have q2 := real_lt_div (q * a) DEC_pos
  have el : ((l * (DEC - a) : ℕ) : ℝ) / DEC = l * (1 - a / DEC) := by
    rw [Nat.cast_mul, Nat.cast_sub h2]; field_simp
  have eq : ((q * a : ℕ) : ℝ) / DEC = q * (a / DEC) := by rw [Nat.cast_mul]; field_simp
  rw [el] at l1 l2
  rw [eq] at q1 q2
  have hprod : |((l : ℝ) - q) * ((a : ℝ) / DEC - w)| ≤ |(l : ℝ) - q| * (101 / 10 ^ 12) := by
    rw [abs_mul]
    exact mul_le_mul_of_nonneg_left h5 (abs_nonneg _)
  rw [abs_le] at hprod ⊢
  constructor <;> linarith [hprod.1, hprod.2]

/-- Non-vacuity: the next day's swap of the example history moves the oracle price. -/
example :
    let s := run demoSetup 0 demo0 demoHistory
    okAnd (exec demoSetup 0 90000 1 s (.swap 3 true (10 ^ 11) none (some (5 * 10 ^ 17)) 3 ⟨0, none⟩)) (fun s' =>
      decide (s'.pool.price.oracle ≠ s.pool.price.oracle ∧ 1 ≤ s.params.maHalf ∧
        90000 - s.pool.price.lastUpdate < 2 ^ 32)) = true := by decide +kernel

end Verif.PCL
