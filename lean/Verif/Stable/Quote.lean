import Verif.Stable.ConvergeY
import Verif.Stable.Props

/-!
# C151, C79: quotes are always available in a pool of normal size
-/

namespace Verif.Stable

/-! ## The coefficients of the quadratic -/

theorem yB_spec {amp new d : ℕ} (ha1 : 100 ≤ amp) (hn2 : new ≤ 10 ^ 36) (hd2 : d ≤ 10 ^ 35) (ha2 : amp ≤ 10 ^ 8) :
    yB amp new d = .ok (new + 50 * d / amp) := by
  have hDEC : DEC = 10 ^ 18 := rfl
  have hU := U256_big
  have hAP : AMP_PRECISION = 100 := rfl
  have e1 : 100 * d * DEC / (2 * (amp * DEC)) = 50 * d / amp := by
    have : 100 * d * DEC = (50 * d) * (2 * DEC) := by ring
    rw [this, show 2 * (amp * DEC) = amp * (2 * DEC) by ring]
    exact Nat.mul_div_mul_right _ _ (by rw [hDEC]; norm_num)
  have h1 : 50 * d / amp ≤ 50 * d := Nat.div_le_self _ _
  simp only [yB, bind_ok_iff, dmul_ok, ddiv_ok, dadd_ok, hAP, mul_kDEC]
  refine ⟨2 * (amp * DEC), ⟨by rw [hDEC]; omega, rfl⟩, 100 * d, ⟨by omega, rfl⟩, 50 * d / amp,
    ⟨by rw [hDEC]; omega, by rw [e1]; omega, e1⟩, by omega, rfl⟩

theorem cube_floor {d Q d2 d3 : ℝ} (hQ : 0 < Q) (hd : 0 ≤ d) (h1 : d2 * Q ≤ d * d) (h1' : d * d < (d2 + 1) * Q)
    (h2 : d3 * Q ≤ d2 * d) (h2' : d2 * d < (d3 + 1) * Q) :
    d3 * Q ^ 2 ≤ d ^ 3 ∧ d ^ 3 ≤ d3 * Q ^ 2 + d * Q + Q ^ 2 := by
  constructor
  · calc d3 * Q ^ 2 = (d3 * Q) * Q := by ring
      _ ≤ (d2 * d) * Q := mul_le_mul_of_nonneg_right h2 hQ.le
      _ = (d2 * Q) * d := by ring
      _ ≤ (d * d) * d := mul_le_mul_of_nonneg_right h1 hd
      _ = _ := by ring
  · calc d ^ 3 = (d * d) * d := by ring
      _ ≤ ((d2 + 1) * Q) * d := mul_le_mul_of_nonneg_right h1'.le hd
      _ = (d2 * d) * Q + d * Q := by ring
      _ ≤ ((d3 + 1) * Q) * Q + d * Q := by
          have := mul_le_mul_of_nonneg_right h2'.le hQ.le; linarith
      _ = _ := by ring

theorem coeff_floor {c d3 den Q X Z : ℝ} (hQ : 0 < Q) (h1 : c * den ≤ 100 * d3 * Q) (h1' : 100 * d3 * Q < (c + 1) * den)
    (h2 : d3 * Q ^ 2 ≤ X) (h2' : X ≤ d3 * Q ^ 2 + Z) :
    c * Q * den ≤ 100 * X ∧ 100 * (X - Z) ≤ (c * Q + Q) * den := by
  have a1 := mul_le_mul_of_nonneg_right h1 hQ.le
  have a2 := mul_le_mul_of_nonneg_right h1'.le hQ.le
  have e1 : c * den * Q = c * Q * den := by ring
  have e2 : 100 * d3 * Q * Q = 100 * (d3 * Q ^ 2) := by ring
  have e3 : (c + 1) * den * Q = (c * Q + Q) * den := by ring
  constructor <;> linarith

theorem yC_spec {amp new d : ℕ} (ha1 : 100 ≤ amp) (ha2 : amp ≤ 10 ^ 8) (hn1 : 1 ≤ new) (hn2 : new ≤ 10 ^ 36)
    (hd2 : d ≤ 10 ^ 35) (hk : 100 * (d : ℝ) ^ 3 ≤ 10 ^ 46 * d * (8 * new * amp)) :
    ∃ c : ℕ, yC amp new d = .ok c ∧ (c : ℝ) * 10 ^ 18 * (8 * new * amp) ≤ 100 * (d : ℝ) ^ 3 ∧
      100 * ((d : ℝ) ^ 3 - d * 10 ^ 18 - (10 ^ 18) ^ 2) ≤ ((c : ℝ) * 10 ^ 18 + 10 ^ 18) * (8 * new * amp) := by
  have hDEC : DEC = 10 ^ 18 := rfl
  have hU := U256_big
  have hAP : AMP_PRECISION = 100 := rfl
  have eR : (DEC : ℝ) = 10 ^ 18 := by rw [hDEC]; norm_num
  obtain ⟨d2, e2⟩ : ∃ d2, d2 = d * d / DEC := ⟨_, rfl⟩
  obtain ⟨d3, e3⟩ : ∃ d3, d3 = d2 * d / DEC := ⟨_, rfl⟩
  obtain ⟨c, ec⟩ : ∃ c, c = 100 * d3 * DEC / (8 * new * amp) := ⟨_, rfl⟩
  have hden : 0 < 8 * new * amp := by positivity
  have f2 := floor_real (d * d) DEC DEC_pos
  have f3 := floor_real (d2 * d) DEC DEC_pos
  have fc := floor_real (100 * d3 * DEC) (8 * new * amp) hden
  rw [← e2] at f2
  rw [← e3] at f3
  rw [← ec] at fc
  push_cast at f2 f3 fc
  rw [eR] at f2 f3 fc
  have rd : (0 : ℝ) ≤ d := Nat.cast_nonneg _
  have rden : (0 : ℝ) < 8 * new * amp := by exact_mod_cast hden
  obtain ⟨g1, g2⟩ := cube_floor (Q := 10 ^ 18) (by norm_num) rd f2.1 f2.2 f3.1 f3.2
  obtain ⟨u1, u2⟩ := coeff_floor (X := (d : ℝ) ^ 3) (Z := (d : ℝ) * 10 ^ 18 + (10 ^ 18) ^ 2) (Q := 10 ^ 18) (by norm_num)
    fc.1 fc.2 g1 (by linarith)
  have u2 : 100 * ((d : ℝ) ^ 3 - d * 10 ^ 18 - (10 ^ 18) ^ 2) ≤ ((c : ℝ) * 10 ^ 18 + 10 ^ 18) * (8 * new * amp) := by
    linarith
  have rd2 : (d : ℝ) ≤ 10 ^ 35 := by exact_mod_cast hd2
  have bc : c ≤ 10 ^ 63 := by
    have h1 : (c : ℝ) * 10 ^ 18 ≤ 10 ^ 46 * d := le_of_mul_le_mul_right (u1.trans hk) rden
    have : (c : ℝ) ≤ 10 ^ 63 := by linarith
    exact_mod_cast this
  have b2 : d2 ≤ 10 ^ 52 := by
    rw [e2, hDEC]
    apply Nat.div_le_of_le_mul
    calc d * d ≤ 10 ^ 35 * 10 ^ 35 := Nat.mul_le_mul hd2 hd2
      _ = _ := by norm_num
  have b3 : d3 ≤ 10 ^ 69 := by
    rw [e3, hDEC]
    apply Nat.div_le_of_le_mul
    calc d2 * d ≤ 10 ^ 52 * 10 ^ 35 := Nat.mul_le_mul b2 hd2
      _ = _ := by norm_num
  have hna : new * amp ≤ 10 ^ 36 * 10 ^ 8 := Nat.mul_le_mul hn2 ha2
  have eden : 4 * new * (2 * (amp * DEC)) / DEC = 8 * new * amp := by
    rw [show 4 * new * (2 * (amp * DEC)) = 8 * new * amp * DEC by ring]
    exact Nat.mul_div_cancel _ DEC_pos
  have efour : 2 * DEC * (2 * DEC) / DEC = 4 * DEC := by rw [hDEC]; norm_num
  refine ⟨c, ?_, u1, u2⟩
  have hn8 : 8 * new * amp = 8 * (new * amp) := by ring
  simp only [yC, bind_ok_iff, dmul_ok, ddiv_ok, hAP, mul_kDEC]
  refine ⟨2 * (amp * DEC), ⟨by rw [hDEC]; omega, rfl⟩, d2, ⟨by omega, e2.symm⟩, d3, ⟨by omega, e3.symm⟩, 100 * d3,
    ⟨by omega, rfl⟩, 4 * DEC, ⟨by rw [hDEC]; omega, by rw [← efour, mul_kDEC]⟩, 4 * new, ⟨?_, ?_⟩, 8 * new * amp,
    ⟨by rw [eden]; omega, eden⟩, by omega, by omega, ec.symm⟩
  · rw [mul_kDEC]; omega
  · rw [mul_kDEC]

theorem cube_le1 {d q : ℝ} (h : 100 * d ≤ q) : 100 * d ^ 3 ≤ q * d ^ 2 := by
  have := mul_le_mul_of_nonneg_right h (show 0 ≤ d ^ 2 by positivity)
  have e : 100 * d * d ^ 2 = 100 * d ^ 3 := by ring
  linarith

theorem cube_le2 {d q : ℝ} (hd : 0 ≤ d) (h : 100 * d ^ 2 ≤ q) : 100 * d ^ 3 ≤ q * d := by
  have := mul_le_mul_of_nonneg_right h hd
  have e : 100 * d ^ 2 * d = 100 * d ^ 3 := by ring
  linarith

/-- The reserve solver returns, for any invariant of normal size and any new reserve that is not too small. -/
theorem calcY_spec {amp new x y d : ℕ} (hD : computeD amp x y = .ok d) (ha1 : 100 ≤ amp) (ha2 : amp ≤ 10 ^ 8)
    (hd1 : 19 * 10 ^ 12 ≤ d) (hd2 : d ≤ 10 ^ 35) (hn1 : 1 ≤ new) (hn2 : new ≤ 10 ^ 36)
    (hk1 : 100 * (d : ℝ) ≤ 10 ^ 26 * (8 * new * amp)) (hk2 : 100 * (d : ℝ) ^ 2 ≤ 10 ^ 46 * (8 * new * amp)) :
    ∃ (r b c : ℕ) (ρ w n : ℝ), calcYRaw amp new x y = .ok r ∧
      b = new + 50 * d / amp ∧ (c : ℝ) * 10 ^ 18 * (8 * new * amp) ≤ 100 * (d : ℝ) ^ 3 ∧
      0 ≤ ρ ∧ w = 2 * ρ + ((b : ℝ) - d) ∧ ρ ^ 2 + ((b : ℝ) - d) * ρ = c * 10 ^ 18 ∧
      0 ≤ n ∧ n ≤ 10 ^ 12 ∧ n * w ≤ 4 * 10 ^ 24 ∧ (r : ℝ) ≤ ρ + n := by
  have rd1 : (19 : ℝ) * 10 ^ 12 ≤ d := by exact_mod_cast hd1
  have rd0 : (0 : ℝ) < d := by linarith
  have rn1 : (1 : ℝ) ≤ new := by exact_mod_cast hn1
  have ra1 : (100 : ℝ) ≤ amp := by exact_mod_cast ha1
  have ra2 : (amp : ℝ) ≤ 10 ^ 8 := by exact_mod_cast ha2
  have rden : (0 : ℝ) < 8 * new * amp := by positivity
  obtain ⟨c, hc, c1, c2⟩ := yC_spec ha1 ha2 hn1 hn2 hd2 (by linarith [cube_le2 rd0.le hk2])
  have hb := yB_spec (new := new) (d := d) ha1 hn2 hd2 ha2
  obtain ⟨b, eb⟩ : ∃ b, b = new + 50 * d / amp := ⟨_, rfl⟩
  rw [← eb] at hb
  obtain ⟨κ, hκ⟩ : ∃ κ : ℝ, κ = c * 10 ^ 18 := ⟨_, rfl⟩
  have hκ0 : 0 ≤ κ := by rw [hκ]; positivity
  obtain ⟨ρ, w, r0, r1, r2, r3, r4⟩ := quad_root ((b : ℝ) - d) κ hκ0
  have hkk : ∀ q : ℝ, 100 * (d : ℝ) ^ 3 ≤ q * (8 * new * amp) → κ ≤ q := by
    intro q hq
    have : κ * (8 * new * amp) ≤ q * (8 * new * amp) := by rw [hκ]; linarith
    exact le_of_mul_le_mul_right this rden
  have k1 : κ ≤ 10 ^ 26 * (d : ℝ) ^ 2 := hkk _ (by linarith [cube_le1 hk1])
  have k2 : κ ≤ 10 ^ 46 * d := hkk _ (by linarith [cube_le2 rd0.le hk2])
  have hbb : b ≤ 10 ^ 40 := by
    have : 50 * d / amp ≤ 50 * d := Nat.div_le_self _ _
    omega
  have hwd : (d : ℝ) ≤ 2500 * w := by
    have h1 : (d : ℝ) ^ 2 ≤ (2500 * w) ^ 2 := by
      have hsq : 0 ≤ ((b : ℝ) - d) ^ 2 := sq_nonneg _
      rw [mul_pow, r4]
      rcases le_total (2 * d) new with h | h
      · have hbn : (d : ℝ) ≤ (b : ℝ) - d := by
          have : 2 * d ≤ b := by rw [eb]; exact h.trans (Nat.le_add_right _ _)
          have : (2 : ℝ) * d ≤ b := by exact_mod_cast this
          linarith
        have := pow_le_pow_left₀ rd0.le hbn 2
        linarith
      · have hn : (new : ℝ) ≤ 2 * d := by exact_mod_cast h
        have h2 : ((c : ℝ) * 10 ^ 18 + 10 ^ 18) * (8 * new * amp) ≤ ((c : ℝ) * 10 ^ 18 + 10 ^ 18) * (16 * 10 ^ 8 * d) := by
          apply mul_le_mul_of_nonneg_left _ (by positivity)
          have : (new : ℝ) * amp ≤ (2 * d) * 10 ^ 8 := mul_le_mul hn ra2 (by linarith) (by linarith)
          linarith
        rw [← hκ] at h2 c2
        have h3 : ((d : ℝ) ^ 2 - 10 ^ 18 - 6 * 10 ^ 22) * d ≤ (κ + 10 ^ 18) * (16 * 10 ^ 6) * d := by
          have e1 : ((d : ℝ) ^ 2 - 10 ^ 18 - 6 * 10 ^ 22) * d = d ^ 3 - d * 10 ^ 18 - 6 * 10 ^ 22 * d := by ring
          linarith
        have h4 := le_of_mul_le_mul_right h3 rd0
        have h5 : (19 * 10 ^ 12) ^ 2 ≤ (d : ℝ) ^ 2 := pow_le_pow_left₀ (by norm_num) rd1 2
        linarith
    exact le_of_pow_le_pow_left₀ two_ne_zero (by linarith) h1
  obtain ⟨r, hr, hlo, n, n0, n1, n2, n3⟩ := y_converges (b := b) (c := c) (d := d) r1 (by rw [← hκ]; exact r2) r0
    (by rw [← hκ]; exact r4) r3 (by omega) hd2 hbb (by rw [← hκ]; exact k1) (by rw [← hκ]; exact k2) hwd
  refine ⟨r, b, c, ρ, w, n, ?_, eb, c1, r0, r1, by rw [← hκ]; exact r2, n0, n1, n2, n3⟩
  have hIT : ITERATIONS = 64 := rfl
  rw [calcYRaw, hD, ok_bind, hc, ok_bind, hb, ok_bind, hIT]
  exact hr

/-! ## The result is at most the old reserve -/

/-- The computed reserve does not exceed the exact old one, although the invariant `d` is only approximate, if the offer is not
too small. -/
theorem reserve_le {X Y T l D d k b κ ρ w n r : ℝ} (hX : 0 < X) (hY : 10 ^ 13 ≤ Y) (hl : 2 ≤ l) (hk : 1 ≤ k)
    (hT : 2 * 10 ^ 13 * k ≤ T) (hD : 2 * 10 ^ 13 ≤ D) (hinv : D ^ 3 + (l - 1) * (4 * X * Y) * D = 4 * X * Y * l * (X + Y))
    (hS : X + Y ≤ k * D) (hd1 : D - 10 ^ 11 ≤ d) (hd2 : d ≤ D + 3 * 10 ^ 12) (hb : X + T + d / l - 1 ≤ b) (hκ0 : 0 ≤ κ)
    (hκ : κ * (4 * l * (X + T)) ≤ d ^ 3) (hw : w = 2 * ρ + (b - d)) (hρ : ρ ^ 2 + (b - d) * ρ = κ) (hn0 : 0 ≤ n)
    (hn : n ≤ 10 ^ 12) (hnw : n * w ≤ 4 * 10 ^ 24) (hr : r ≤ ρ + n) : r ≤ Y := by
  have hY0 : 0 < Y := by linarith
  have hT0 : 0 < T := by linarith
  have hl0 : 0 < l := by linarith
  obtain ⟨M, hM⟩ : ∃ M, M = 4 * l * (X + T) := ⟨_, rfl⟩
  have hM0 : 0 < M := by rw [hM]; positivity
  rw [← hM] at hκ
  obtain ⟨E, hE⟩ : ∃ E, E = Y ^ 2 + (X + D / l - D) * Y := ⟨_, rfl⟩
  have hE1 : 4 * l * X * E = D ^ 3 := by
    have : D / l * l = D := div_mul_cancel₀ _ hl0.ne'
    have e : 4 * l * X * E = 4 * X * Y * l * (Y + X - D) + 4 * X * Y * (D / l * l) := by rw [hE]; ring
    rw [e, this]; linarith
  have hE0 : 0 ≤ E := by
    by_contra h
    push Not at h
    have h1 : 4 * l * X * E < 0 := mul_neg_of_pos_of_neg (by positivity) h
    have : 0 < D ^ 3 := by positivity
    linarith
  -- the error of the invariant
  obtain ⟨δ, hδ⟩ : ∃ δ, δ = max (d - D) 0 := ⟨_, rfl⟩
  have hδ0 : 0 ≤ δ := by rw [hδ]; exact le_max_right _ _
  have hδ1 : δ ≤ 3 * 10 ^ 12 := by rw [hδ]; exact max_le (by linarith) (by norm_num)
  have hδd : d - D ≤ δ := by rw [hδ]; exact le_max_left _ _
  have hcube : d ^ 3 ≤ D ^ 3 + 4 * δ * D ^ 2 := by
    have h1 : d ^ 3 ≤ (D + δ) ^ 3 := pow_le_pow_left₀ (by linarith) (by linarith) 3
    have h2 : (D + δ) ^ 3 = D ^ 3 + 3 * δ * D ^ 2 + δ * (3 * δ * D + δ * δ) := by ring
    have h3 : 3 * δ * D + δ * δ ≤ D ^ 2 := by
      have : δ ≤ 3 / 20 * D := by linarith
      have h4 : 3 * δ * D ≤ 3 * (3 / 20 * D) * D := by
        apply mul_le_mul_of_nonneg_right _ (by linarith); linarith
      have h5 : δ * δ ≤ (3 / 20 * D) * (3 / 20 * D) := mul_le_mul this this hδ0 (by linarith)
      have h6 : 0 ≤ D ^ 2 := by positivity
      have e4 : 3 * (3 / 20 * D) * D = 9 / 20 * D ^ 2 := by ring
      have e5 : (3 / 20 * D) * (3 / 20 * D) = 9 / 400 * D ^ 2 := by ring
      linarith
    have := mul_le_mul_of_nonneg_left h3 hδ0
    linarith
  -- `D² ≤ M Y k`
  have hDD : D ^ 2 ≤ M * Y * k := by
    have h1 : D ^ 3 ≤ (4 * X * Y * l) * (k * D) := by
      have h2 : 0 ≤ (l - 1) * (4 * X * Y) * D :=
        mul_nonneg (mul_nonneg (by linarith) (by positivity)) (by linarith)
      have h3 : 4 * X * Y * l * (X + Y) ≤ 4 * X * Y * l * (k * D) :=
        mul_le_mul_of_nonneg_left hS (by positivity)
      linarith
    have h4 : D ^ 2 * D ≤ (4 * X * Y * l * k) * D := by
      have e1 : D ^ 2 * D = D ^ 3 := by ring
      have e2 : (4 * X * Y * l * k) * D = (4 * X * Y * l) * (k * D) := by ring
      linarith
    have h5 := le_of_mul_le_mul_right h4 (by linarith : 0 < D)
    have h6 : 0 ≤ 4 * l * T * Y * k := by positivity
    have e3 : M * Y * k = 4 * X * Y * l * k + 4 * l * T * Y * k := by rw [hM]; ring
    linarith
  -- the residual at `Y`
  have hres : Y * T / 5 ≤ Y ^ 2 + (b - d) * Y - κ := by
    have h1 : E + Y * (T - 1 - δ) ≤ Y ^ 2 + (b - d) * Y := by
      have h2 : (X + D / l - D) + (T - 1 - δ) ≤ b - d := by
        have h3 : (d - D) * (1 - 1 / l) ≤ δ := by
          have h4 : 0 ≤ 1 - 1 / l := by
            have : 1 / l ≤ 1 / 2 := one_div_le_one_div_of_le (by norm_num) hl
            linarith
          have h5 : 1 - 1 / l ≤ 1 := by
            have : 0 ≤ 1 / l := by positivity
            linarith
          calc (d - D) * (1 - 1 / l) ≤ δ * (1 - 1 / l) := mul_le_mul_of_nonneg_right hδd h4
            _ ≤ δ * 1 := mul_le_mul_of_nonneg_left h5 hδ0
            _ = δ := mul_one δ
        have e : (d - D) * (1 - 1 / l) = d - D - d / l + D / l := by ring
        linarith
      have := mul_le_mul_of_nonneg_right h2 hY0.le
      rw [hE]
      linarith
    have h6 : M * κ ≤ M * E + M * (Y * (4 * k * δ)) := by
      have h7 : 4 * l * X * E ≤ M * E := by
        apply mul_le_mul_of_nonneg_right _ hE0
        rw [hM]
        have : 0 ≤ l * T := by positivity
        linarith
      have h8 : 4 * δ * D ^ 2 ≤ 4 * δ * (M * Y * k) := mul_le_mul_of_nonneg_left hDD (by linarith)
      linarith
    have h9 : M * κ ≤ M * (E + Y * (4 * k * δ)) := by linarith
    have h10 := le_of_mul_le_mul_left h9 hM0
    have h11 : T / 5 ≤ T - 1 - δ - 4 * k * δ := by
      have : k * δ ≤ k * (3 * 10 ^ 12) := mul_le_mul_of_nonneg_left hδ1 (by linarith)
      linarith
    have h12 := mul_le_mul_of_nonneg_left h11 hY0.le
    linarith
  by_contra hc
  push Not at hc
  have hYt : Y ≤ ρ + n := by linarith
  have hbig : (10 : ℝ) ^ 13 * (2 * 10 ^ 13) ≤ Y * T :=
    mul_le_mul hY (by linarith) (by norm_num) hY0.le
  have hft : (ρ + n) * (ρ + n + (b - d)) = κ + n * w + n * n := by rw [hw, ← hρ]; ring
  have hnn : n * n ≤ 10 ^ 12 * 10 ^ 12 := mul_le_mul hn hn hn0 (by norm_num)
  have hYY : Y ^ 2 + (b - d) * Y = Y * (Y + (b - d)) := by ring
  rcases le_total (ρ + n + (b - d)) 0 with h | h
  · have : Y * (Y + (b - d)) ≤ 0 := mul_nonpos_of_nonneg_of_nonpos hY0.le (by linarith)
    linarith
  · have h1 : Y * (Y + (b - d)) ≤ Y * (ρ + n + (b - d)) := mul_le_mul_of_nonneg_left (by linarith) hY0.le
    have h2 : Y * (ρ + n + (b - d)) ≤ (ρ + n) * (ρ + n + (b - d)) := mul_le_mul_of_nonneg_right hYt h
    linarith

/-- The sum of the reserves is at most `k` times the invariant if neither reserve is more than `k³` times the other. -/
theorem sum_le {X Y L D k : ℝ} (hX : 0 < X) (hY : 0 < Y) (hL : 1 < L) (hk : 1 ≤ k) (h : IsInvariant L X Y D)
    (hDS : D ≤ X + Y) (h1 : X ≤ k ^ 3 * Y) (h2 : Y ≤ k ^ 3 * X) : X + Y ≤ k * D := by
  obtain ⟨D0, hr⟩ := (isInvariant_iff hX hY).1 h
  have h3 : 4 * (X * Y) * (X + Y) ≤ D ^ 3 := by
    have : (L - 1) * (4 * X * Y) * D ≤ (L - 1) * (4 * X * Y) * (X + Y) :=
      mul_le_mul_of_nonneg_left hDS (mul_nonneg (by linarith) (by positivity))
    linarith
  have hk3 : 1 ≤ k ^ 3 := one_le_pow₀ hk
  have h4 : (X + Y) ^ 2 ≤ 4 * k ^ 3 * (X * Y) := by
    have a1 : X * X ≤ X * (k ^ 3 * Y) := mul_le_mul_of_nonneg_left h1 hX.le
    have a2 : Y * Y ≤ Y * (k ^ 3 * X) := mul_le_mul_of_nonneg_left h2 hY.le
    have a3 : 1 * (X * Y) ≤ k ^ 3 * (X * Y) := mul_le_mul_of_nonneg_right hk3 (by positivity)
    have e : (X + Y) ^ 2 = X * X + 2 * (X * Y) + Y * Y := by ring
    linarith
  have h5 : (X + Y) ^ 3 ≤ (k * D) ^ 3 := by
    calc (X + Y) ^ 3 = (X + Y) ^ 2 * (X + Y) := by ring
      _ ≤ (4 * k ^ 3 * (X * Y)) * (X + Y) := mul_le_mul_of_nonneg_right h4 (by linarith)
      _ = k ^ 3 * (4 * (X * Y) * (X + Y)) := by ring
      _ ≤ k ^ 3 * D ^ 3 := mul_le_mul_of_nonneg_left h3 (by positivity)
      _ = _ := by ring
  exact le_of_pow_le_pow_left₀ (by norm_num) (by positivity) h5

/-- Bounds on the invariant that the reserve solver needs. -/
theorem invariant_small {X Y l D d P k : ℝ} (hX : 0 < X) (hY : 0 < Y) (hl : 2 ≤ l) (hY2 : Y ≤ 10 ^ 34)
    (hD : 2 * 10 ^ 13 ≤ D) (hinv : D ^ 3 + (l - 1) * (4 * X * Y) * D = 4 * X * Y * l * (X + Y))
    (hk : k = 10 ^ 7) (hS : X + Y ≤ k * D) (hd0 : 0 ≤ d) (hd2 : d ≤ D + 3 * 10 ^ 12) (hP : X * l ≤ 200 * P) :
    100 * d ≤ 10 ^ 26 * (8 * P) ∧ 100 * d ^ 2 ≤ 10 ^ 46 * (8 * P) := by
  have hP0 : 0 ≤ P := by
    have : 0 < X * l := by positivity
    linarith
  have hD0 : 0 < D := by linarith
  have h1 : D ^ 2 ≤ 4 * k * (X * l) * Y := by
    have h2 : D ^ 2 * D ≤ (4 * k * (X * l) * Y) * D := by
      have a1 : 0 ≤ (l - 1) * (4 * X * Y) * D :=
        mul_nonneg (mul_nonneg (by linarith) (by positivity)) hD0.le
      have a2 : 4 * X * Y * l * (X + Y) ≤ 4 * X * Y * l * (k * D) :=
        mul_le_mul_of_nonneg_left hS (by positivity)
      have e1 : D ^ 2 * D = D ^ 3 := by ring
      have e2 : (4 * k * (X * l) * Y) * D = 4 * X * Y * l * (k * D) := by ring
      linarith
    exact le_of_mul_le_mul_right h2 hD0
  have h3 : D ^ 2 ≤ 800 * k * P * Y := by
    have : 4 * k * (X * l) * Y ≤ 4 * k * (200 * P) * Y := by
      apply mul_le_mul_of_nonneg_right _ hY.le
      apply mul_le_mul_of_nonneg_left hP
      rw [hk]; norm_num
    have e : 4 * k * (200 * P) * Y = 800 * k * P * Y := by ring
    linarith
  have hkP : 0 ≤ 800 * k * P := by rw [hk]; positivity
  have hd3 : d ≤ 23 / 20 * D := by linarith
  constructor
  · have h4 : D * D ≤ (800 * k * P * k) * D := by
      have a1 : 800 * k * P * Y ≤ 800 * k * P * (k * D) := mul_le_mul_of_nonneg_left (by linarith) hkP
      have e1 : D * D = D ^ 2 := by ring
      have e2 : (800 * k * P * k) * D = 800 * k * P * (k * D) := by ring
      linarith
    have h5 := le_of_mul_le_mul_right h4 hD0
    rw [hk] at h5
    linarith
  · have h6 : 800 * k * P * Y ≤ 800 * k * P * 10 ^ 34 := mul_le_mul_of_nonneg_left hY2 hkP
    have h7 : d ^ 2 ≤ (23 / 20 * D) ^ 2 := pow_le_pow_left₀ hd0 hd3 2
    have e : (23 / 20 * D) ^ 2 = 529 / 400 * D ^ 2 := by ring
    rw [hk] at h6 h3
    linarith

/-- Everything the two solvers find for a normal pool. -/
theorem solvers {amp x y new : ℕ} (ha1 : 100 ≤ amp) (ha2 : amp ≤ 10 ^ 8)
    (hx1 : 10 ^ 13 ≤ x) (hx2 : x ≤ 10 ^ 34) (hy1 : 10 ^ 13 ≤ y) (hy2 : y ≤ 10 ^ 34)
    (hn1 : x ≤ 10 ^ 4 * new) (hn2 : new ≤ 10 ^ 36) :
    ∃ (d r b c : ℕ) (D ρ w n : ℝ), computeD amp x y = .ok d ∧ calcYRaw amp new x y = .ok r ∧
      IsInvariant (amp / 50) x y D ∧ 2 * 10 ^ 13 ≤ D ∧ D ≤ x + y ∧ D - 10 ^ 11 ≤ d ∧ (d : ℝ) ≤ D + 3 * 10 ^ 12 ∧
      b = new + 50 * d / amp ∧ (c : ℝ) * 10 ^ 18 * (8 * new * amp) ≤ 100 * (d : ℝ) ^ 3 ∧
      w = 2 * ρ + ((b : ℝ) - d) ∧ ρ ^ 2 + ((b : ℝ) - d) * ρ = c * 10 ^ 18 ∧
      0 ≤ n ∧ n ≤ 10 ^ 12 ∧ n * w ≤ 4 * 10 ^ 24 ∧ (r : ℝ) ≤ ρ + n := by
  obtain ⟨d, D, hd, hD, hd1, hd2⟩ := C151_invariant_always_found amp x y ha1 ha2 hx1 hx2 hy1 hy2
  obtain ⟨D', hD', b1, b2, b3⟩ := invariant_exists ha1 hx1 hx2 hy1 hy2
  have rx1 : (10 : ℝ) ^ 13 ≤ x := by exact_mod_cast hx1
  have ry1 : (10 : ℝ) ^ 13 ≤ y := by exact_mod_cast hy1
  have rx2 : (x : ℝ) ≤ 10 ^ 34 := by exact_mod_cast hx2
  have ry2 : (y : ℝ) ≤ 10 ^ 34 := by exact_mod_cast hy2
  have rx0 : (0 : ℝ) < x := by linarith
  have ry0 : (0 : ℝ) < y := by linarith
  have ra1 : (100 : ℝ) ≤ amp := by exact_mod_cast ha1
  have rl : (2 : ℝ) ≤ amp / 50 := by linarith
  have rn : (x : ℝ) ≤ 10 ^ 4 * new := by exact_mod_cast hn1
  obtain rfl : D' = D := isInvariant_unique (by linarith) rx0 ry0 hD' hD
  obtain ⟨_, hinv⟩ := (isInvariant_iff rx0 ry0).1 hD
  obtain ⟨k1, k2⟩ := invariant_small (P := (new : ℝ) * amp) rx0 ry0 rl ry2 b1 hinv rfl b3 (Nat.cast_nonneg d) hd2 (by
    have := mul_le_mul_of_nonneg_right rn (by linarith : (0 : ℝ) ≤ amp / 50)
    linarith)
  have hd19 : 19 * 10 ^ 12 ≤ d := by
    have : (19 : ℝ) * 10 ^ 12 ≤ d := by linarith
    exact_mod_cast this
  have hd35 : d ≤ 10 ^ 35 := by
    have : (d : ℝ) ≤ 10 ^ 35 := by linarith
    exact_mod_cast this
  obtain ⟨r, b, c, ρ, w, n, h1, h2, h3, _, h5, h6, h7, h8, h9, h10⟩ := calcY_spec hd ha1 ha2 hd19 hd35
    (by omega : 1 ≤ new) hn2 (by rw [mul_assoc 8]; exact k1) (by rw [mul_assoc 8]; exact k2)
  exact ⟨d, r, b, c, D', ρ, w, n, hd, h1, hD, b1, b2, hd1, hd2, h2, h3, h5, h6, h7, h8, h9, h10⟩

/-! ## Theorems -/

/-- **C151.** For every admissible amplification, all reserves between `0.00001` and `10^16` tokens and every new reserve of the first
asset that is at least a tenthousandth of the old one, the solver finds the other reserve within its 64 iterations. -/
theorem C151_reserve_always_found (amp x y new : ℕ) (ha1 : 100 ≤ amp) (ha2 : amp ≤ 10 ^ 8)
    (hx1 : 10 ^ 13 ≤ x) (hx2 : x ≤ 10 ^ 34) (hy1 : 10 ^ 13 ≤ y) (hy2 : y ≤ 10 ^ 34)
    (hn1 : x ≤ 10 ^ 4 * new) (hn2 : new ≤ 10 ^ 36) :
    ∃ d r : ℕ, computeD amp x y = .ok d ∧ calcYRaw amp new x y = .ok r ∧
      AlmostRoot (bOf amp new d) (cOf amp new d) d r := by
  obtain ⟨d, r, _, _, _, _, _, _, hd, hr, _⟩ := solvers ha1 ha2 hx1 hx2 hy1 hy2 hn1 hn2
  obtain ⟨d', hd', hroot, _⟩ := calcYRaw_spec hr
  rw [hd, Except.ok.injEq] at hd'
  subst hd'
  exact ⟨d, r, hd, hr, hroot⟩

/-- The solver's new reserve does not exceed the old one. -/
theorem reserve_not_above {amp x y T k : ℕ} (ha1 : 100 ≤ amp) (ha2 : amp ≤ 10 ^ 8)
    (hx1 : 10 ^ 13 ≤ x) (hx2 : x ≤ 10 ^ 34) (hy1 : 10 ^ 13 ≤ y) (hy2 : y ≤ 10 ^ 34) (hk : 1 ≤ k)
    (hxy : x ≤ k ^ 3 * y) (hyx : y ≤ k ^ 3 * x) (hT1 : 2 * 10 ^ 13 * k ≤ T) (hT2 : T ≤ 10 ^ 35) :
    ∃ r, calcYRaw amp (x + T) x y = .ok r ∧ r ≤ y := by
  obtain ⟨d, r, b, c, D, ρ, w, n, hd, hr, hD, D1, D2, d1, d2, eb, hc, hw, hρ, n0, n1, n2, hrn⟩ :=
    solvers (new := x + T) ha1 ha2 hx1 hx2 hy1 hy2 (by omega) (by omega)
  refine ⟨r, hr, ?_⟩
  have rx1 : (10 : ℝ) ^ 13 ≤ x := by exact_mod_cast hx1
  have ry1 : (10 : ℝ) ^ 13 ≤ y := by exact_mod_cast hy1
  have rx0 : (0 : ℝ) < x := by linarith
  have ry0 : (0 : ℝ) < y := by linarith
  have ra1 : (100 : ℝ) ≤ amp := by exact_mod_cast ha1
  have rl : (2 : ℝ) ≤ amp / 50 := by linarith
  have rk : (1 : ℝ) ≤ k := by exact_mod_cast hk
  have rT : 2 * (10 : ℝ) ^ 13 * k ≤ T := by exact_mod_cast hT1
  have s1 : (x : ℝ) ≤ (k : ℝ) ^ 3 * y := by exact_mod_cast hxy
  have s2 : (y : ℝ) ≤ (k : ℝ) ^ 3 * x := by exact_mod_cast hyx
  have hS := sum_le rx0 ry0 (by linarith) rk hD D2 s1 s2
  obtain ⟨_, hinv⟩ := (isInvariant_iff rx0 ry0).1 hD
  have hb : (x : ℝ) + T + d / (amp / 50) - 1 ≤ b := by
    have h1 : (50 * d : ℕ) < amp * (50 * d / amp + 1) := by
      have := Nat.lt_mul_div_succ (50 * d) (by omega : 0 < amp)
      simpa using this
    have h2 : (50 : ℝ) * d < amp * ((50 * d / amp : ℕ) + 1) := by exact_mod_cast h1
    have ra0 : (0 : ℝ) < amp := by linarith
    have h3 : (d : ℝ) / (amp / 50) ≤ (50 * d / amp : ℕ) + 1 := by
      rw [div_le_iff₀ (by linarith)]
      linarith
    have h4 : (b : ℝ) = x + T + (50 * d / amp : ℕ) := by rw [eb]; push_cast; ring
    linarith
  have hκ : (c : ℝ) * 10 ^ 18 * (4 * (amp / 50) * (x + T)) ≤ (d : ℝ) ^ 3 := by
    push_cast at hc
    have e : (c : ℝ) * 10 ^ 18 * (4 * (amp / 50) * (x + T)) * 100 = c * 10 ^ 18 * (8 * (x + T) * amp) := by ring
    linarith
  have := reserve_le rx0 ry1 rl rk rT D1 hinv hS d1 d2 hb (by positivity) hκ hw hρ n0 n1 n2 hrn
  exact_mod_cast this

theorem div_lt_U128 {a p : ℕ} (h : a ≤ 10 ^ 36) : a / 10 ^ p < U128 := by
  have h1 : a / 10 ^ p ≤ a := Nat.div_le_self _ _
  have h2 : (10 : ℕ) ^ 36 < U128 := by unfold U128; norm_num
  omega

/-- The pool prices every offer that is not tiny. -/
theorem computeSwap_found {amp x y T k p : ℕ} (ha1 : 100 ≤ amp) (ha2 : amp ≤ 10 ^ 8)
    (hx1 : 10 ^ 13 ≤ x) (hx2 : x ≤ 10 ^ 34) (hy1 : 10 ^ 13 ≤ y) (hy2 : y ≤ 10 ^ 34) (hk : 1 ≤ k)
    (hxy : x ≤ k ^ 3 * y) (hyx : y ≤ k ^ 3 * x) (hT1 : 2 * 10 ^ 13 * k ≤ T) (hT2 : T ≤ 10 ^ 35) (hp : p ≤ 18) :
    ∃ g, computeSwap p amp T x y = .ok g ∧ g.ret ≤ y / 10 ^ (18 - p) ∧ g.spread ≤ T := by
  obtain ⟨r, hr, hry⟩ := reserve_not_above ha1 ha2 hx1 hx2 hy1 hy2 hk hxy hyx hT1 hT2
  have h77 := U256_big
  refine ⟨⟨y / 10 ^ (18 - p) - r / 10 ^ (18 - p), T / 10 ^ (18 - p) - (y / 10 ^ (18 - p) - r / 10 ^ (18 - p))⟩, ?_, Nat.sub_le _ _,
    (Nat.sub_le _ _).trans (Nat.div_le_self T (10 ^ (18 - p)))⟩
  simp only [computeSwap, calcY, bind_ok_iff, dadd_ok, toU128_ok, csub_ok, Except.ok.injEq]
  refine ⟨x + T, ⟨by omega, rfl⟩, _, ⟨r, hr, hp, div_lt_U128 (by omega), rfl⟩, _, ⟨hp, div_lt_U128 (by omega), rfl⟩, _,
    ⟨Nat.div_le_div_right hry, rfl⟩, _, ⟨hp, div_lt_U128 (by omega), rfl⟩, rfl⟩

end Verif.Stable
