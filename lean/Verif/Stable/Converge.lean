import Verif.Stable.NewtonReal
import Verif.Stable.Solver
import Mathlib.Tactic.LinearCombination

/-!
# C151: the solvers of the stableswap pair converge
-/

namespace Verif.Stable

/-! ## Rounding in one step of the `D` solver -/

theorem dp_bounds {d a Q d2 d3 ab dp : ℝ} (hQ : 0 < Q) (hd : 0 < d)
    (h1 : d2 * Q ≤ d * d) (h1' : d * d < (d2 + 1) * Q) (h2 : d3 * Q ≤ d2 * d) (h2' : d2 * d < (d3 + 1) * Q)
    (h3 : ab * Q ≤ a) (h3' : a < (ab + 1) * Q) (h4 : dp * ab ≤ d3 * Q) (h4' : d3 * Q < (dp + 1) * ab)
    (hdp : 0 ≤ dp) : dp * (a - Q) ≤ d ^ 3 ∧ d ^ 3 ≤ (dp + 1) * a + d * Q + Q ^ 2 := by
  constructor
  · calc dp * (a - Q) ≤ dp * (ab * Q) := mul_le_mul_of_nonneg_left (by linarith) hdp
      _ = (dp * ab) * Q := by ring
      _ ≤ (d3 * Q) * Q := mul_le_mul_of_nonneg_right h4 hQ.le
      _ ≤ (d2 * d) * Q := mul_le_mul_of_nonneg_right h2 hQ.le
      _ = (d2 * Q) * d := by ring
      _ ≤ (d * d) * d := mul_le_mul_of_nonneg_right h1 hd.le
      _ = _ := by ring
  · calc d ^ 3 = (d * d) * d := by ring
      _ ≤ ((d2 + 1) * Q) * d := mul_le_mul_of_nonneg_right h1'.le hd.le
      _ = (d2 * d) * Q + d * Q := by ring
      _ ≤ ((d3 + 1) * Q) * Q + d * Q := by
          have := mul_le_mul_of_nonneg_right h2'.le hQ.le; linarith
      _ = (d3 * Q) * Q + Q ^ 2 + d * Q := by ring
      _ ≤ ((dp + 1) * ab) * Q + Q ^ 2 + d * Q := by
          have := mul_le_mul_of_nonneg_right h4'.le hQ.le; linarith
      _ = (dp + 1) * (ab * Q) + Q ^ 2 + d * Q := by ring
      _ ≤ (dp + 1) * a + Q ^ 2 + d * Q := by
          have := mul_le_mul_of_nonneg_left h3 (show 0 ≤ dp + 1 by linarith); linarith
      _ = _ := by ring

/-- The rounding error of one step is at most `1e-7`. -/
theorem d_rounding {d a s l N dp lm lv ls v : ℝ} (hd : 10 ^ 13 ≤ d) (ha : 4 * 10 ^ 26 ≤ a)
    (hda : d * 10 ^ 13 ≤ a) (hl : 2 ≤ l)
    (hN : N * ((l - 1) * a + 3 * d ^ 2) = a * l * s + 2 * d ^ 3) (hN0 : 0 ≤ N) (hNd : N ≤ 5 / 3 * d)
    (hp : dp * (a - 10 ^ 18) ≤ d ^ 3) (hp' : d ^ 3 ≤ (dp + 1) * a + d * 10 ^ 18 + (10 ^ 18) ^ 2) (hdp : 0 ≤ dp)
    (hm : lm ≤ l * s) (hm' : l * s < lm + 1)
    (hv : lv * 10 ^ 18 ≤ (lm + 2 * dp) * d) (hv' : (lm + 2 * dp) * d < (lv + 1) * 10 ^ 18)
    (hL : ls ≤ d * (l - 1)) (hL' : d * (l - 1) < ls + 1)
    (hr : v * (ls + 3 * dp) ≤ lv * 10 ^ 18) (hr' : lv * 10 ^ 18 < (v + 1) * (ls + 3 * dp)) (hv0 : 0 ≤ v) :
    v ≤ N + 10 ^ 11 ∧ N - 10 ^ 11 ≤ v := by
  have hd0 : (0 : ℝ) < d := by linarith
  have ha0 : (0 : ℝ) < a := by linarith
  obtain ⟨P, hP⟩ : ∃ P, P = d ^ 3 / a := ⟨_, rfl⟩
  have hPa : P * a = d ^ 3 := by rw [hP]; field_simp
  -- exact step, divided by `a / d`
  have hN2 : N * ((l - 1) * d + 3 * P) = (l * s + 2 * P) * d := by
    have : (N * ((l - 1) * d + 3 * P)) * a = ((l * s + 2 * P) * d) * a := by
      calc (N * ((l - 1) * d + 3 * P)) * a = N * ((l - 1) * a * d + 3 * (P * a)) := by ring
        _ = N * ((l - 1) * a + 3 * d ^ 2) * d := by rw [hPa]; ring
        _ = (a * l * s + 2 * (P * a)) * d := by rw [hN, hPa]
        _ = _ := by ring
    exact mul_right_cancel₀ ha0.ne' this
  obtain ⟨T, hT⟩ : ∃ T, T = (P - dp) * (3 * N - 2 * d) := ⟨_, rfl⟩
  have key : (l * s + 2 * dp) * d = N * ((l - 1) * d + 3 * dp) + T := by rw [hT]; linarith [hN2]
  -- bound on `T`
  have hTb : |T| ≤ 9 * 10 ^ 9 * d + 3 * 10 ^ 6 * dp := by
    have h3 : |3 * N - 2 * d| ≤ 3 * d := by rw [abs_le]; constructor <;> linarith
    have h4 : |P - dp| * (3 * d) ≤ 9 * 10 ^ 9 * d + 3 * 10 ^ 6 * dp := by
      rcases le_total dp P with h | h
      · rw [abs_of_nonneg (by linarith)]
        have : P - dp ≤ 3 * 10 ^ 9 := by
          have h5 : (P - dp) * a ≤ 3 * 10 ^ 9 * a := by
            have : (P - dp) * a = d ^ 3 - dp * a := by rw [← hPa]; ring
            linarith
          exact le_of_mul_le_mul_right h5 ha0
        have h6 := mul_le_mul_of_nonneg_right this (show 0 ≤ 3 * d by linarith)
        linarith
      · rw [abs_of_nonpos (by linarith)]
        have h5 : (dp - P) * a ≤ dp * 10 ^ 18 := by
          have : (dp - P) * a = dp * a - d ^ 3 := by rw [← hPa]; ring
          linarith
        have h6 : (dp - P) * (3 * d) * a ≤ 3 * 10 ^ 6 * dp * a := by
          calc (dp - P) * (3 * d) * a = ((dp - P) * a) * (3 * d) := by ring
            _ ≤ (dp * 10 ^ 18) * (3 * d) := mul_le_mul_of_nonneg_right h5 (by linarith)
            _ = 3 * 10 ^ 5 * dp * (d * 10 ^ 13) := by ring
            _ ≤ 3 * 10 ^ 5 * dp * a := mul_le_mul_of_nonneg_left hda (by positivity)
            _ ≤ _ := by linarith [mul_nonneg hdp ha0.le]
        have := le_of_mul_le_mul_right h6 ha0
        linarith
    rw [hT, abs_mul]
    calc |P - dp| * |3 * N - 2 * d| ≤ |P - dp| * (3 * d) := mul_le_mul_of_nonneg_left h3 (abs_nonneg _)
      _ ≤ _ := h4
  have hT1 := (abs_le.mp hTb).1
  have hT2 := (abs_le.mp hTb).2
  have hls : d - 1 ≤ ls := by
    have := mul_le_mul_of_nonneg_left (show 1 ≤ l - 1 by linarith) hd0.le
    linarith
  constructor
  · -- above
    have h7 : (v - N) * (ls + 3 * dp) ≤ N + T := by
      have : (lm + 2 * dp) * d ≤ (l * s + 2 * dp) * d := mul_le_mul_of_nonneg_right (by linarith) hd0.le
      have h8 : N * ((l - 1) * d + 3 * dp) ≤ N * (ls + 1 + 3 * dp) :=
        mul_le_mul_of_nonneg_left (by linarith) hN0
      have h9 : (v - N) * (ls + 3 * dp) = v * (ls + 3 * dp) - N * (ls + 1 + 3 * dp) + N := by ring
      linarith
    by_contra hc
    push Not at hc
    have h9 : 10 ^ 11 * (ls + 3 * dp) ≤ (v - N) * (ls + 3 * dp) :=
      mul_le_mul_of_nonneg_right (by linarith) (by linarith)
    linarith
  · have h7 : (N - v - 1) * ((l - 1) * d + 3 * dp) ≤ d + 10 ^ 18 - T := by
      have h8 : (v + 1) * (ls + 3 * dp) ≤ (v + 1) * ((l - 1) * d + 3 * dp) :=
        mul_le_mul_of_nonneg_left (by linarith) (by linarith)
      have h9 : (l * s + 2 * dp) * d - d ≤ (lm + 2 * dp) * d := by
        have := mul_le_mul_of_nonneg_right hm'.le hd0.le
        linarith
      have h10 : (N - v - 1) * ((l - 1) * d + 3 * dp) = N * ((l - 1) * d + 3 * dp) - (v + 1) * ((l - 1) * d + 3 * dp) := by
        ring
      linarith
    by_contra hc
    push Not at hc
    have h9 : (10 ^ 11 - 1) * ((l - 1) * d + 3 * dp) ≤ (N - v - 1) * ((l - 1) * d + 3 * dp) :=
      mul_le_mul_of_nonneg_right (by linarith) (by nlinarith)
    have h10 : d ≤ (l - 1) * d := le_mul_of_one_le_left hd0.le (by linarith)
    linarith

/-! ## One step of the `D` solver -/

/-- The floor of a quotient of natural numbers, as inequalities between real numbers. -/
theorem floor_real (n q : ℕ) (hq : 0 < q) :
    ((n / q : ℕ) : ℝ) * q ≤ n ∧ (n : ℝ) < (((n / q : ℕ) : ℝ) + 1) * q := by
  constructor
  · exact_mod_cast Nat.div_mul_le_self n q
  · have := Nat.lt_div_mul_add (a := n) hq
    have h2 : n < (n / q + 1) * q := by rw [Nat.add_mul, Nat.one_mul]; exact this
    exact_mod_cast h2

theorem U256_big : (10 : ℕ) ^ 77 < U256 := by decide

/-- One step: it succeeds, and its result differs from the exact Newton step by at most `1e-7`. -/
theorem dStep_close {amp x y d : ℕ} (ha1 : 100 ≤ amp) (ha2 : amp ≤ 10 ^ 8)
    (hx1 : 10 ^ 13 ≤ x) (hx2 : x ≤ 10 ^ 34) (hy1 : 10 ^ 13 ≤ y) (hy2 : y ≤ 10 ^ 34)
    (hd1 : 10 ^ 13 ≤ d) (hd2 : d ≤ 2 * (x + y))
    (hN : cubicNext (((amp : ℝ) / 50 - 1) * (4 * x * y)) ((4 * x * y) * ((amp : ℝ) / 50) * (x + y)) d ≤ 5 / 3 * d) :
    ∃ v : ℕ, dStep (2 * (amp * DEC / 100)) (x + y) (2 * x) (2 * y) d = .ok v ∧
      |(v : ℝ) - cubicNext (((amp : ℝ) / 50 - 1) * (4 * x * y)) ((4 * x * y) * ((amp : ℝ) / 50) * (x + y)) d| ≤ 10 ^ 11 := by
  have hDEC : DEC = 10 ^ 18 := rfl
  have hlev : 2 * (amp * DEC / 100) = amp * (2 * 10 ^ 16) := by rw [hDEC]; omega
  obtain ⟨N, hNe⟩ : ∃ N, N = cubicNext (((amp : ℝ) / 50 - 1) * (4 * x * y))
    ((4 * x * y) * ((amp : ℝ) / 50) * (x + y)) d := ⟨_, rfl⟩
  rw [← hNe] at hN ⊢
  -- the intermediate values
  obtain ⟨d2, e2⟩ : ∃ d2, d2 = d * d / DEC := ⟨_, rfl⟩
  obtain ⟨d3, e3⟩ : ∃ d3, d3 = d2 * d / DEC := ⟨_, rfl⟩
  obtain ⟨ab, eab⟩ : ∃ ab, ab = 2 * x * (2 * y) / DEC := ⟨_, rfl⟩
  obtain ⟨dp, edp⟩ : ∃ dp, dp = d3 * DEC / ab := ⟨_, rfl⟩
  obtain ⟨lm, elm⟩ : ∃ lm, lm = amp * (2 * 10 ^ 16) * (x + y) / DEC := ⟨_, rfl⟩
  obtain ⟨lv, elv⟩ : ∃ lv, lv = (lm + 2 * dp) * d / DEC := ⟨_, rfl⟩
  obtain ⟨ls, els⟩ : ∃ ls, ls = d * (amp * (2 * 10 ^ 16) - DEC) / DEC := ⟨_, rfl⟩
  obtain ⟨v, ev⟩ : ∃ v, v = lv * DEC / (ls + 3 * dp) := ⟨_, rfl⟩
  -- sizes
  have hd : d ≤ 4 * 10 ^ 34 := by omega
  have b2 : d2 ≤ 16 * 10 ^ 50 := by
    rw [e2, hDEC]
    apply Nat.div_le_of_le_mul
    calc d * d ≤ (4 * 10 ^ 34) * (4 * 10 ^ 34) := Nat.mul_le_mul hd hd
      _ = _ := by norm_num
  have b3 : d3 ≤ 64 * 10 ^ 66 := by
    rw [e3, hDEC]
    apply Nat.div_le_of_le_mul
    calc d2 * d ≤ (16 * 10 ^ 50) * (4 * 10 ^ 34) := Nat.mul_le_mul b2 hd
      _ = _ := by norm_num
  have hxy : 10 ^ 26 ≤ x * y := by
    calc (10 : ℕ) ^ 26 = 10 ^ 13 * 10 ^ 13 := by norm_num
      _ ≤ x * y := Nat.mul_le_mul hx1 hy1
  have exy : 2 * x * (2 * y) = 4 * (x * y) := by ring
  have bab : 4 * 10 ^ 8 ≤ ab := by
    rw [eab, hDEC, exy]
    apply (Nat.le_div_iff_mul_le (by norm_num)).2
    omega
  have bab2 : ab ≤ 4 * 10 ^ 50 := by
    rw [eab, hDEC, exy]
    apply Nat.div_le_of_le_mul
    have : x * y ≤ 10 ^ 34 * 10 ^ 34 := Nat.mul_le_mul hx2 hy2
    omega
  have hQ : 0 < DEC := DEC_pos
  have f2 := floor_real (d * d) DEC hQ
  have f3 := floor_real (d2 * d) DEC hQ
  have fab := floor_real (2 * x * (2 * y)) DEC hQ
  have fdp := floor_real (d3 * DEC) ab (by omega)
  have flm := floor_real (amp * (2 * 10 ^ 16) * (x + y)) DEC hQ
  have flv := floor_real ((lm + 2 * dp) * d) DEC hQ
  have fls := floor_real (d * (amp * (2 * 10 ^ 16) - DEC)) DEC hQ
  rw [← e2] at f2
  rw [← e3] at f3
  rw [← eab] at fab
  rw [← edp] at fdp
  rw [← elm] at flm
  rw [← elv] at flv
  rw [← els] at fls
  have hls : d ≤ ls := by
    rw [els]
    apply (Nat.le_div_iff_mul_le hQ).2
    apply Nat.mul_le_mul_left
    rw [hDEC]; omega
  have fv := floor_real (lv * DEC) (ls + 3 * dp) (by omega)
  rw [← ev] at fv
  have eR : (DEC : ℝ) = 10 ^ 18 := by rw [hDEC]; norm_num
  push_cast at f2 f3 fab fdp flm flv fv
  rw [Nat.cast_mul, Nat.cast_sub (by rw [hDEC]; omega)] at fls
  push_cast at fls
  rw [eR] at f2 f3 fab fdp flm flv fls fv
  have rd1 : (10 : ℝ) ^ 13 ≤ d := by exact_mod_cast hd1
  have rd0 : (0 : ℝ) < d := by linarith
  have rxy : (10 : ℝ) ^ 26 ≤ x * y := by exact_mod_cast hxy
  have rx1 : (10 : ℝ) ^ 13 ≤ x := by exact_mod_cast hx1
  have ry1 : (10 : ℝ) ^ 13 ≤ y := by exact_mod_cast hy1
  have ry2 : (y : ℝ) ≤ 10 ^ 34 := by exact_mod_cast hy2
  have rx2 : (x : ℝ) ≤ 10 ^ 34 := by exact_mod_cast hx2
  have rd2 : (d : ℝ) ≤ 2 * (x + y) := by exact_mod_cast hd2
  have rdp : (0 : ℝ) ≤ dp := Nat.cast_nonneg _
  have rl : (2 : ℝ) ≤ amp / 50 := by
    have : (100 : ℝ) ≤ amp := by exact_mod_cast ha1
    linarith
  obtain ⟨p1, p2⟩ := dp_bounds (d := d) (a := 4 * x * y) (Q := 10 ^ 18) (by norm_num) rd0 f2.1 f2.2 f3.1 f3.2
    (by linarith [fab.1]) (by linarith [fab.2]) fdp.1 fdp.2 rdp
  -- the product term does not overflow
  have bdp : (dp : ℝ) ≤ 4 * 10 ^ 56 := by
    have h1 : (dp : ℝ) * (2 * x * y) ≤ d ^ 3 := by
      have : (dp : ℝ) * (2 * x * y) ≤ dp * (4 * x * y - 10 ^ 18) :=
        mul_le_mul_of_nonneg_left (by linarith) rdp
      linarith
    have h2 : ((x : ℝ) + y) ^ 2 ≤ 4 * 10 ^ 21 * (x * y) := by
      have h3 : (x : ℝ) * x ≤ 10 ^ 21 * (x * y) := by
        have : (x : ℝ) * x ≤ x * (10 ^ 21 * y) := mul_le_mul_of_nonneg_left (by linarith) (by linarith)
        linarith
      have h4 : (y : ℝ) * y ≤ 10 ^ 21 * (x * y) := by
        have : (y : ℝ) * y ≤ (10 ^ 21 * x) * y := mul_le_mul_of_nonneg_right (by linarith) (by linarith)
        linarith
      have : ((x : ℝ) + y) ^ 2 = x * x + 2 * (x * y) + y * y := by ring
      linarith
    have h5 : (d : ℝ) ^ 3 ≤ (4 * 10 ^ 34) * (4 * (4 * 10 ^ 21 * (x * y))) := by
      have h6 : (d : ℝ) ^ 2 ≤ 4 * (4 * 10 ^ 21 * (x * y)) := by
        have : (d : ℝ) ^ 2 ≤ (2 * (x + y)) ^ 2 := pow_le_pow_left₀ rd0.le rd2 2
        have e : (2 * ((x : ℝ) + y)) ^ 2 = 4 * (x + y) ^ 2 := by ring
        linarith
      calc (d : ℝ) ^ 3 = d * d ^ 2 := by ring
        _ ≤ ((4 : ℝ) * 10 ^ 34) * (4 * (4 * 10 ^ 21 * ((x : ℝ) * y))) := by
            apply mul_le_mul _ h6 (by positivity) (by norm_num)
            linarith
    have h7 : (dp : ℝ) * (x * y) ≤ (4 * 10 ^ 56) * (x * y) := by linarith
    exact le_of_mul_le_mul_right h7 (by linarith)
  have bdp' : dp ≤ 4 * 10 ^ 56 := by exact_mod_cast bdp
  have blm : lm ≤ 4 * 10 ^ 40 := by
    rw [elm, hDEC]
    apply Nat.div_le_of_le_mul
    calc amp * (2 * 10 ^ 16) * (x + y) ≤ (10 ^ 8 * (2 * 10 ^ 16)) * (10 ^ 34 + 10 ^ 34) :=
          Nat.mul_le_mul (Nat.mul_le_mul_right _ ha2) (by omega)
      _ = _ := by norm_num
  have blv : lv ≤ 4 * 10 ^ 73 := by
    rw [elv, hDEC]
    apply Nat.div_le_of_le_mul
    calc (lm + 2 * dp) * d ≤ (10 ^ 57) * (4 * 10 ^ 34) := Nat.mul_le_mul (by omega) hd
      _ = _ := by norm_num
  have bls : ls ≤ 10 ^ 60 := by
    rw [els, hDEC]
    apply Nat.div_le_of_le_mul
    calc d * (amp * (2 * 10 ^ 16) - 10 ^ 18) ≤ (4 * 10 ^ 34) * (10 ^ 8 * (2 * 10 ^ 16)) :=
          Nat.mul_le_mul hd (by omega)
      _ ≤ _ := by norm_num
  have bv : v ≤ 10 ^ 57 := by
    rw [ev]
    apply Nat.div_le_of_le_mul
    have h1 : lv * DEC ≤ (lm + 2 * dp) * d := by rw [elv]; exact Nat.div_mul_le_self _ _
    calc lv * DEC ≤ (lm + 2 * dp) * d := h1
      _ ≤ 10 ^ 57 * (ls + 3 * dp) := Nat.mul_le_mul (by omega) (by omega)
      _ = _ := Nat.mul_comm _ _
  have hU := U256_big
  refine ⟨v, ?_, ?_⟩
  · rw [hlev]
    simp only [dStep, calculateStep, bind_ok_iff, dmul_ok, dadd_ok, ddiv_ok, csub_ok]
    refine ⟨d2, ⟨by omega, e2.symm⟩, d3, ⟨by omega, e3.symm⟩, ab, ⟨by omega, eab.symm⟩, dp,
      ⟨by omega, by omega, edp.symm⟩, lm, ⟨by omega, elm.symm⟩, 2 * dp, ⟨by rw [mul_kDEC]; omega, mul_kDEC _ _⟩,
      lm + 2 * dp, ⟨by omega, rfl⟩, lv, ⟨by omega, elv.symm⟩, _, ⟨?_, rfl⟩, ls, ⟨by omega, els.symm⟩,
      3 * dp, ⟨by rw [mul_kDEC]; omega, mul_kDEC _ _⟩, ls + 3 * dp, ⟨by omega, rfl⟩, by omega, by omega, ev.symm⟩
    rw [hDEC]; omega
  · have hpos : (0 : ℝ) < ((amp : ℝ) / 50 - 1) * (4 * x * y) + 3 * (d : ℝ) ^ 2 := by
      have : (0 : ℝ) ≤ ((amp : ℝ) / 50 - 1) * (4 * x * y) := mul_nonneg (by linarith) (by linarith)
      positivity
    have hN1 : N * ((((amp : ℝ) / 50) - 1) * (4 * x * y) + 3 * (d : ℝ) ^ 2) =
        (4 * x * y) * ((amp : ℝ) / 50) * (x + y) + 2 * (d : ℝ) ^ 3 := by
      rw [hNe]; unfold cubicNext; exact div_mul_cancel₀ _ hpos.ne'
    have hN0 : 0 ≤ N := by
      rw [hNe]; unfold cubicNext
      apply div_nonneg _ hpos.le
      have : (0 : ℝ) ≤ (4 * x * y) * ((amp : ℝ) / 50) * (x + y) := by positivity
      positivity
    have hda : (d : ℝ) * 10 ^ 13 ≤ 4 * x * y := by
      have h1 : (x : ℝ) * 10 ^ 13 ≤ x * y := mul_le_mul_of_nonneg_left ry1 (by linarith)
      have h2 : (y : ℝ) * 10 ^ 13 ≤ y * x := mul_le_mul_of_nonneg_left rx1 (by linarith)
      linarith
    obtain ⟨q1, q2⟩ := d_rounding (d := d) (a := 4 * x * y) (s := x + y) (l := amp / 50) (N := N) (dp := dp)
      (lm := lm) (lv := lv) (ls := ls) (v := v) rd1 (by linarith) hda rl hN1 hN0 hN p1 p2 rdp
      (by linarith [flm.1]) (by linarith [flm.2]) flv.1 flv.2 (by linarith [fls.1]) (by linarith [fls.2])
      (by linarith [fv.1]) (by linarith [fv.2]) (Nat.cast_nonneg _)
    rw [abs_le]
    constructor <;> linarith

/-! ## The `D` solver converges -/

/-- How far above the root the iterate is after `k` steps: the distance shrinks by a third until it is less
than the root, then it is squared in every step. -/
noncomputable def stageBound (r e : ℝ) (k : ℕ) : ℝ :=
  if k ≤ 42 then 10 ^ 7 * (17 / 25) ^ k * r
  else if k = 43 then 51 / 100 * r
  else (1 / 5) ^ (2 ^ (k - 44)) * r + 2 * e

/-- Newton's method for the cubic with an error of at most `e` in every step. -/
theorem cubic_stage {K W r e d d' : ℝ} {k : ℕ} (hK : 0 < K) (hr : r ^ 3 + K * r = W) (h0 : 0 < r)
    (he : 0 ≤ e) (he' : 100 * e ≤ r) (hd : r - e ≤ d) (hb : d ≤ r + stageBound r e k)
    (h1 : |d' - cubicNext K W d| ≤ e) :
    r - e ≤ d' ∧ d' ≤ r + stageBound r e (k + 1) ∧ (∀ s, r ≤ s → d ≤ s + 3 * e → d' ≤ s + 3 * e) := by
  obtain ⟨h2, h3⟩ := abs_le.mp h1
  have hd0 : 0 ≤ d := by linarith
  have hge := cubicNext_ge hK hr hd0 h0.le
  refine ⟨by linarith, ?_⟩
  -- from below the root
  have hbelow : d ≤ r → d' ≤ r + 2 * e := by
    intro hle
    have := cubicNext_below hK hr h0 (by linarith) hle
    have h4 : 4 * (d - r) ^ 2 / r ≤ e := by
      rw [div_le_iff₀ h0]
      have h5 : (d - r) ^ 2 ≤ e ^ 2 := by
        have : (d - r) ^ 2 = (r - d) ^ 2 := by ring
        rw [this]
        exact pow_le_pow_left₀ (by linarith) (by linarith) 2
      nlinarith
    linarith
  have hpos : 0 ≤ stageBound r e (k + 1) - 2 * e := by
    unfold stageBound
    split
    · rename_i hk
      have : ((17 : ℝ) / 25) ^ 42 ≤ (17 / 25) ^ (k + 1) :=
        pow_le_pow_of_le_one (by norm_num) (by norm_num) hk
      have h4 : (1 / 10 : ℝ) ≤ 10 ^ 7 * (17 / 25) ^ 42 := by norm_num
      have h5 : (1 / 10 : ℝ) ≤ 10 ^ 7 * (17 / 25) ^ (k + 1) := by linarith
      nlinarith
    · split
      · linarith
      · have : 0 ≤ (1 / 5 : ℝ) ^ (2 ^ (k + 1 - 44)) * r := by positivity
        linarith
  rcases le_total d r with hle | hle
  · have := hbelow hle
    exact ⟨by linarith, fun s hs _ => by linarith⟩
  · have hlin := cubicNext_linear hK hr h0 hle
    have hquad := cubicNext_quadratic hK hr h0 hle
    constructor
    · obtain ⟨B, hB⟩ : ∃ B, B = stageBound r e k := ⟨_, rfl⟩
      rw [← hB] at hb
      by_cases k1 : k ≤ 41
      · have e1 : stageBound r e k = 10 ^ 7 * (17 / 25) ^ k * r := by unfold stageBound; rw [if_pos (by omega)]
        have e2 : stageBound r e (k + 1) = 17 / 25 * stageBound r e k := by
          rw [e1]; unfold stageBound; rw [if_pos (by omega), pow_succ]; ring
        have h4 : r ≤ B := by
          rw [hB, e1]
          have : ((17 : ℝ) / 25) ^ 41 ≤ (17 / 25) ^ k := pow_le_pow_of_le_one (by norm_num) (by norm_num) k1
          have h5 : (1 : ℝ) ≤ 10 ^ 7 * (17 / 25) ^ 41 := by norm_num
          have h6 : (1 : ℝ) ≤ 10 ^ 7 * (17 / 25) ^ k := by linarith
          nlinarith
        rw [e2, ← hB]
        linarith
      · -- `(d - r)² / d ≤ t² / (r + t)` for `d - r ≤ t`
        have hmono : ∀ t, d - r ≤ t → (d - r) ^ 2 / d ≤ t ^ 2 / (r + t) := by
          intro t ht
          rw [div_le_div_iff₀ (by linarith) (by linarith)]
          have h7 : 0 ≤ d - r := by linarith
          have h8 : d = r + (d - r) := by ring
          obtain ⟨u, hu⟩ : ∃ u, u = d - r := ⟨_, rfl⟩
          rw [← hu] at ht h7 h8 ⊢
          rw [h8]
          have h9 : u ^ 2 ≤ t ^ 2 := pow_le_pow_left₀ h7 ht 2
          have h10 : u * t * u ≤ u * t * t := mul_le_mul_of_nonneg_left ht (mul_nonneg h7 (by linarith))
          nlinarith
        by_cases k2 : k = 42
        · subst k2
          have e1 : stageBound r e 42 ≤ r := by
            unfold stageBound; rw [if_pos (by omega)]
            have : (10 : ℝ) ^ 7 * (17 / 25) ^ 42 ≤ 1 := by norm_num
            nlinarith
          have e2 : stageBound r e 43 = 51 / 100 * r := by unfold stageBound; simp
          have := hmono r (by linarith)
          have h5 : r ^ 2 / (r + r) = r / 2 := by field_simp; ring
          rw [e2]
          linarith
        · by_cases k3 : k = 43
          · subst k3
            have e1 : stageBound r e 43 = 51 / 100 * r := by unfold stageBound; simp
            have e2 : stageBound r e 44 = 1 / 5 * r + 2 * e := by unfold stageBound; simp
            have := hmono (51 / 100 * r) (by linarith)
            have h5 : (51 / 100 * r) ^ 2 / (r + 51 / 100 * r) ≤ 18 / 100 * r := by
              rw [div_le_iff₀ (by linarith)]; nlinarith
            rw [e2]
            linarith
          · have e1 : stageBound r e k = (1 / 5) ^ (2 ^ (k - 44)) * r + 2 * e := by
              unfold stageBound; rw [if_neg (by omega), if_neg (by omega)]
            have e2 : stageBound r e (k + 1) = ((1 / 5) ^ (2 ^ (k - 44))) ^ 2 * r + 2 * e := by
              unfold stageBound
              rw [if_neg (by omega), if_neg (by omega), ← pow_mul, ← pow_succ,
                show k + 1 - 44 = k - 44 + 1 by omega]
            obtain ⟨M, hM⟩ : ∃ M : ℝ, M = (1 / 5) ^ (2 ^ (k - 44)) := ⟨_, rfl⟩
            have hM0 : 0 ≤ M := by rw [hM]; positivity
            have hM1 : M ≤ 1 / 5 := by
              rw [hM]
              calc (1 / 5 : ℝ) ^ (2 ^ (k - 44)) ≤ (1 / 5) ^ 1 :=
                    pow_le_pow_of_le_one (by norm_num) (by norm_num) Nat.one_le_two_pow
                _ = _ := by norm_num
            rw [← hM] at e1 e2
            rw [hB, e1] at hb
            have h5 : (d - r) ^ 2 / d ≤ M ^ 2 * r + e := by
              rw [div_le_iff₀ (by linarith)]
              have h6 : (d - r) ^ 2 ≤ (M * r + 2 * e) ^ 2 := pow_le_pow_left₀ (by linarith) (by linarith) 2
              have h7 : (M * r + 2 * e) ^ 2 = M ^ 2 * r * r + 4 * M * (e * r) + 4 * (e * e) := by ring
              have h8 : 4 * M * (e * r) ≤ 4 / 5 * (e * r) :=
                mul_le_mul_of_nonneg_right (by linarith) (mul_nonneg he h0.le)
              have h9 : 4 * (e * e) ≤ 1 / 25 * (e * r) := by
                have := mul_le_mul_of_nonneg_left he' he
                linarith
              have h10 : (M ^ 2 * r + e) * r ≤ (M ^ 2 * r + e) * d :=
                mul_le_mul_of_nonneg_left hle (by positivity)
              have h11 := mul_nonneg he h0.le
              linarith
            rw [e2]
            linarith
    · intro s hs hds
      linarith

/-! ## Specification -/

/-- `D` is the stableswap invariant of the reserves `x` and `y` at leverage `L` (`2 A`):
`L (x + y) + D = L D + D³ / (4 x y)`. -/
def IsInvariant (L x y D : ℝ) : Prop := 0 < D ∧ L * (x + y) + D = L * D + D ^ 3 / (4 * x * y)

theorem isInvariant_iff {L x y D : ℝ} (hx : 0 < x) (hy : 0 < y) :
    IsInvariant L x y D ↔ 0 < D ∧ D ^ 3 + ((L - 1) * (4 * x * y)) * D = (4 * x * y) * L * (x + y) := by
  unfold IsInvariant
  have h : (0 : ℝ) < 4 * x * y := by positivity
  constructor
  · rintro ⟨h1, h2⟩
    refine ⟨h1, ?_⟩
    have : D ^ 3 = (D ^ 3 / (4 * x * y)) * (4 * x * y) := by field_simp
    rw [this, show D ^ 3 / (4 * x * y) = L * (x + y) + D - L * D by linarith]
    ring
  · rintro ⟨h1, h2⟩
    refine ⟨h1, ?_⟩
    have : D ^ 3 / (4 * x * y) = L * (x + y) - (L - 1) * D := by
      rw [div_eq_iff h.ne']; linarith
    rw [this]; ring

/-- A pool has exactly one invariant. -/
theorem isInvariant_unique {L x y D D' : ℝ} (hL : 1 < L) (hx : 0 < x) (hy : 0 < y)
    (h : IsInvariant L x y D) (h' : IsInvariant L x y D') : D = D' := by
  obtain ⟨h1, h2⟩ := (isInvariant_iff hx hy).1 h
  obtain ⟨h3, h4⟩ := (isInvariant_iff hx hy).1 h'
  have hK : 0 < (L - 1) * (4 * x * y) := mul_pos (by linarith) (by positivity)
  have : (D - D') * (D ^ 2 + D * D' + D' ^ 2 + (L - 1) * (4 * x * y)) = 0 := by linear_combination h2 - h4
  rcases mul_eq_zero.1 this with h5 | h5
  · linarith
  · have : 0 < D ^ 2 + D * D' + D' ^ 2 + (L - 1) * (4 * x * y) := by positivity
    linarith

/-! ## Theorems -/

/-- The exact invariant lies between twice the smaller reserve and the sum, and not far below the sum. -/
theorem invariant_exists {amp x y : ℕ} (ha1 : 100 ≤ amp)
    (hx1 : 10 ^ 13 ≤ x) (hx2 : x ≤ 10 ^ 34) (hy1 : 10 ^ 13 ≤ y) (hy2 : y ≤ 10 ^ 34) :
    ∃ D : ℝ, IsInvariant (amp / 50) x y D ∧ 2 * 10 ^ 13 ≤ D ∧ D ≤ x + y ∧ (x : ℝ) + y ≤ 10 ^ 7 * D := by
  have rx1 : (10 : ℝ) ^ 13 ≤ x := by exact_mod_cast hx1
  have ry1 : (10 : ℝ) ^ 13 ≤ y := by exact_mod_cast hy1
  have ry2 : (y : ℝ) ≤ 10 ^ 34 := by exact_mod_cast hy2
  have rx2 : (x : ℝ) ≤ 10 ^ 34 := by exact_mod_cast hx2
  have rl : (2 : ℝ) ≤ amp / 50 := by
    have : (100 : ℝ) ≤ amp := by exact_mod_cast ha1
    linarith
  obtain ⟨L, hL⟩ : ∃ L : ℝ, L = amp / 50 := ⟨_, rfl⟩
  rw [← hL] at rl ⊢
  obtain ⟨X, hX⟩ : ∃ X : ℝ, X = x := ⟨_, rfl⟩
  obtain ⟨Y, hY⟩ : ∃ Y : ℝ, Y = y := ⟨_, rfl⟩
  rw [← hX] at rx1 rx2 ⊢
  rw [← hY] at ry1 ry2 ⊢
  have hX0 : 0 < X := by linarith
  have hY0 : 0 < Y := by linarith
  have hXY : 0 < X * Y := mul_pos hX0 hY0
  have hsq : X * Y * 4 ≤ (X + Y) ^ 2 := by nlinarith [sq_nonneg (X - Y)]
  have g1 : (10 : ℝ) ^ 13 * 10 ^ 13 ≤ X * Y := mul_le_mul rx1 ry1 (by norm_num) hX0.le
  obtain ⟨r, r1, r2, r3⟩ := cubic_root (K := (L - 1) * (4 * X * Y)) (W := 4 * X * Y * L * (X + Y))
    (lo := 2 * 10 ^ 13) (hi := X + Y) (by linarith)
    (by
      have h1 : ((2 : ℝ) * 10 ^ 13) ^ 3 ≤ 4 * (X * Y) * (2 * 10 ^ 13) := by
        have : ((2 : ℝ) * 10 ^ 13) ^ 3 = 4 * (10 ^ 13 * 10 ^ 13) * (2 * 10 ^ 13) := by norm_num
        rw [this]
        exact mul_le_mul_of_nonneg_right (by linarith) (by norm_num)
      have h2 : 4 * X * Y * L * (2 * 10 ^ 13) ≤ 4 * X * Y * L * (X + Y) :=
        mul_le_mul_of_nonneg_left (by linarith) (by positivity)
      linarith)
    (by
      have h1 : 4 * (X * Y) * (X + Y) ≤ (X + Y) ^ 2 * (X + Y) :=
        mul_le_mul_of_nonneg_right (by linarith) (by linarith)
      have : (X + Y) ^ 3 + (L - 1) * (4 * X * Y) * (X + Y) =
        4 * X * Y * L * (X + Y) + ((X + Y) ^ 2 * (X + Y) - 4 * (X * Y) * (X + Y)) := by ring
      linarith)
  have r0 : 0 < r := by linarith
  refine ⟨r, (isInvariant_iff hX0 hY0).2 ⟨r0, r3⟩, r1, r2, ?_⟩
  -- `r³ ≥ 4 x y (x + y)`
  have h1 : 4 * (X * Y) * (X + Y) ≤ r ^ 3 := by
    have : (L - 1) * (4 * X * Y) * r ≤ (L - 1) * (4 * X * Y) * (X + Y) :=
      mul_le_mul_of_nonneg_left r2 (mul_nonneg (by linarith) (by positivity))
    linarith
  have h2 : (X + Y) ^ 2 ≤ 4 * 10 ^ 21 * (X * Y) := by
    have h3 : X * X ≤ 10 ^ 21 * (X * Y) := by
      have : X * X ≤ X * (10 ^ 21 * Y) := mul_le_mul_of_nonneg_left (by linarith) (by linarith)
      linarith
    have h4 : Y * Y ≤ 10 ^ 21 * (X * Y) := by
      have : Y * Y ≤ (10 ^ 21 * X) * Y := mul_le_mul_of_nonneg_right (by linarith) (by linarith)
      linarith
    have : (X + Y) ^ 2 = X * X + 2 * (X * Y) + Y * Y := by ring
    linarith
  have h3 : (X + Y) ^ 3 ≤ (10 ^ 7 * r) ^ 3 := by
    calc (X + Y) ^ 3 = (X + Y) ^ 2 * (X + Y) := by ring
      _ ≤ (4 * 10 ^ 21 * (X * Y)) * (X + Y) := mul_le_mul_of_nonneg_right h2 (by linarith)
      _ = 10 ^ 21 * (4 * (X * Y) * (X + Y)) := by ring
      _ ≤ 10 ^ 21 * r ^ 3 := mul_le_mul_of_nonneg_left h1 (by norm_num)
      _ = _ := by ring
  exact le_of_pow_le_pow_left₀ (by norm_num) (by positivity) h3

/-- **C151.** For every amplification factor the pair admits and all reserves between `0.00001` and `10^16` tokens, however
unbalanced, the solver finds the invariant within its 64 iterations, and the result is within
`0.000003` of the exact one. -/
theorem C151_invariant_always_found (amp x y : ℕ) (ha1 : 100 ≤ amp) (ha2 : amp ≤ 10 ^ 8)
    (hx1 : 10 ^ 13 ≤ x) (hx2 : x ≤ 10 ^ 34) (hy1 : 10 ^ 13 ≤ y) (hy2 : y ≤ 10 ^ 34) :
    ∃ (d : ℕ) (D : ℝ), computeD amp x y = .ok d ∧ IsInvariant (amp / 50) x y D ∧
      D - 10 ^ 11 ≤ d ∧ d ≤ D + 3 * 10 ^ 12 := by
  obtain ⟨D, hD, D1, D2, D3⟩ := invariant_exists ha1 hx1 hx2 hy1 hy2
  have hx0 : (0 : ℝ) < x := by exact_mod_cast (show 0 < x by omega)
  have hy0 : (0 : ℝ) < y := by exact_mod_cast (show 0 < y by omega)
  have rx2 : (x : ℝ) ≤ 10 ^ 34 := by exact_mod_cast hx2
  have ry2 : (y : ℝ) ≤ 10 ^ 34 := by exact_mod_cast hy2
  have rl : (2 : ℝ) ≤ amp / 50 := by
    have : (100 : ℝ) ≤ amp := by exact_mod_cast ha1
    linarith
  obtain ⟨D0, hroot⟩ := (isInvariant_iff hx0 hy0).1 hD
  have hK : (0 : ℝ) < ((amp : ℝ) / 50 - 1) * (4 * x * y) := mul_pos (by linarith) (by positivity)
  have hbelow : ∀ d : ℝ, D - 10 ^ 11 ≤ d →
      cubicNext (((amp : ℝ) / 50 - 1) * (4 * x * y)) ((4 * x * y) * ((amp : ℝ) / 50) * (x + y)) d ≤ 5 / 3 * d := by
    intro d hd
    rcases le_total d D with h | h
    · have := cubicNext_below hK hroot D0 (by linarith) h
      have h2 : 4 * (d - D) ^ 2 / D ≤ 10 ^ 11 := by
        rw [div_le_iff₀ D0]
        have : (d - D) ^ 2 ≤ (10 ^ 11) ^ 2 := by
          have e : (d - D) ^ 2 = (D - d) ^ 2 := by ring
          rw [e]; exact pow_le_pow_left₀ (by linarith) (by linarith) 2
        linarith
      linarith
    · have := cubicNext_linear hK hroot D0 h
      linarith
  obtain ⟨Good, hGood⟩ : ∃ Good : ℕ → ℕ → Prop, Good = fun (k v : ℕ) => D - 10 ^ 11 ≤ (v : ℝ) ∧
    (v : ℝ) ≤ D + stageBound D (10 ^ 11) k ∧ (v : ℝ) ≤ (x + y : ℝ) + 3 * 10 ^ 11 := ⟨_, rfl⟩
  have step : ∀ k v, Good k v → ∃ v', dStep (2 * (amp * DEC / 100)) (x + y) (2 * x) (2 * y) v = .ok v' ∧
      |(v' : ℝ) - cubicNext (((amp : ℝ) / 50 - 1) * (4 * x * y)) ((4 * x * y) * ((amp : ℝ) / 50) * (x + y)) v| ≤ 10 ^ 11 ∧
      Good (k + 1) v' := by
    intro k v hg
    rw [hGood] at hg
    obtain ⟨g1, g2, g3⟩ := hg
    have n1 : 10 ^ 13 ≤ v := by
      have : (10 : ℝ) ^ 13 ≤ v := by linarith
      exact_mod_cast this
    have n2 : v ≤ 2 * (x + y) := by
      have : (v : ℝ) ≤ 2 * (x + y) := by linarith
      exact_mod_cast this
    obtain ⟨v', s1, s2⟩ := dStep_close ha1 ha2 hx1 hx2 hy1 hy2 n1 n2 (hbelow v g1)
    obtain ⟨c1, c2, c3⟩ := cubic_stage hK hroot D0 (by norm_num) (by linarith) g1 g2 s2
    refine ⟨v', s1, s2, ?_⟩
    rw [hGood]
    exact ⟨c1, c2, c3 _ D2 g3⟩
  have start : Good 0 (x + y) := by
    rw [hGood]
    refine ⟨by push_cast; linarith, ?_, by push_cast; linarith⟩
    have : stageBound D (10 ^ 11) 0 = 10 ^ 7 * D := by unfold stageBound; simp
    rw [this]; push_cast; linarith
  obtain ⟨d, k, prev, h1, h2, h3, h4⟩ := newton_reaches (Good := Good) (m := 50)
    (msg := "Newton method for D failed to converge")
    (fun k v _ hg => by
      obtain ⟨v', s1, _, s3⟩ := step k v hg
      exact ⟨v', s1, s3⟩)
    (fun v v' hg hg' => by
      rw [hGood] at hg hg'
      obtain ⟨g1, g2, _⟩ := hg
      obtain ⟨g1', g2', _⟩ := hg'
      have e1 : stageBound D (10 ^ 11) 50 ≤ 3 * 10 ^ 11 := by
        unfold stageBound
        rw [if_neg (by omega), if_neg (by omega)]
        have : (1 / 5 : ℝ) ^ (2 ^ (50 - 44)) * D ≤ (1 / 5 : ℝ) ^ (2 ^ (50 - 44)) * (2 * 10 ^ 34) :=
          mul_le_mul_of_nonneg_left (by linarith) (by positivity)
        have e : (1 / 5 : ℝ) ^ (2 ^ (50 - 44)) * (2 * 10 ^ 34) ≤ 1 := by norm_num
        linarith
      have e2 : stageBound D (10 ^ 11) 51 ≤ 3 * 10 ^ 11 := by
        unfold stageBound
        rw [if_neg (by omega), if_neg (by omega)]
        have : (1 / 5 : ℝ) ^ (2 ^ (51 - 44)) * D ≤ (1 / 5 : ℝ) ^ (2 ^ (51 - 44)) * (2 * 10 ^ 34) :=
          mul_le_mul_of_nonneg_left (by linarith) (by positivity)
        have e : (1 / 5 : ℝ) ^ (2 ^ (51 - 44)) * (2 * 10 ^ 34) ≤ 1 := by norm_num
        linarith
      have i1 : v' ≤ v + 10 ^ 12 := by
        have : (v' : ℝ) ≤ v + 10 ^ 12 := by linarith
        exact_mod_cast this
      have i2 : v ≤ v' + 10 ^ 12 := by
        have : (v : ℝ) ≤ v' + 10 ^ 12 := by linarith
        exact_mod_cast this
      have : TOL = 10 ^ 12 := rfl
      unfold absDiff
      split <;> omega)
    64 0 (x + y) (by omega) (by omega) start
  refine ⟨d, D, ?_, hD, ?_⟩
  · have hDEC : DEC = 10 ^ 18 := rfl
    have hU := U256_big
    have hAP : AMP_PRECISION = 100 := rfl
    have hIT : ITERATIONS = 64 := rfl
    have hl0 : amp * DEC / 100 ≤ 10 ^ 26 := by rw [hDEC]; omega
    simp only [computeD, bind_ok_iff, dec256FromRatio_ok, dmul_ok, dadd_ok, mul_kDEC, hAP]
    refine ⟨amp * DEC / 100, ⟨by omega, by omega, rfl⟩, 2 * (amp * DEC / 100), ⟨by omega, rfl⟩, 2 * x, ⟨by omega, rfl⟩,
      2 * y, ⟨by omega, rfl⟩, x + y, ⟨by omega, rfl⟩, ?_⟩
    rw [if_neg (by omega), hIT]
    exact h1
  · obtain ⟨v', s1, s2, s3⟩ := step k prev h3
    rw [h2] at s1
    have : d = v' := by injection s1
    subst this
    rw [hGood] at s3 h3
    refine ⟨s3.1, ?_⟩
    obtain ⟨q1, q2⟩ := abs_le.mp s2
    have hpd : (prev : ℝ) ≤ d + 10 ^ 12 := by
      have : TOL = 10 ^ 12 := rfl
      have : prev ≤ d + 10 ^ 12 := by unfold absDiff at h4; split at h4 <;> omega
      exact_mod_cast this
    rcases le_total (prev : ℝ) D with h | h
    · have := cubicNext_below hK hroot D0 (by linarith [h3.1]) h
      have h2 : 4 * ((prev : ℝ) - D) ^ 2 / D ≤ 10 ^ 11 := by
        rw [div_le_iff₀ D0]
        have : ((prev : ℝ) - D) ^ 2 ≤ (10 ^ 11) ^ 2 := by
          have e : ((prev : ℝ) - D) ^ 2 = (D - prev) ^ 2 := by ring
          rw [e]; exact pow_le_pow_left₀ (by linarith) (by linarith [h3.1]) 2
        linarith
      linarith
    · have := cubicNext_linear hK hroot D0 h
      linarith

/-- a balanced pool, an unbalanced one and one at the edge of the range -/
example : (computeD 10000 (10 ^ 24) (10 ^ 24) = .ok (2 * 10 ^ 24)) ∧
    computeD 10000 (10 ^ 24) (10 ^ 20) = .ok 369802073268435024409424 ∧
    computeD 100 (10 ^ 13) (10 ^ 34) = .ok 1999999933333333333334024691 := by decide +kernel

end Verif.Stable
