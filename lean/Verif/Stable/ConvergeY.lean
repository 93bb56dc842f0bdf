import Verif.Stable.Converge

/-!
# C151: the solver for a reserve converges
-/

namespace Verif.Stable

/-- How far above the root the iterate is after `k + 1` steps. -/
noncomputable def yBound (w : ℝ) (k : ℕ) : ℝ :=
  if k ≤ 45 then 2 ^ 44 * (1 / 2) ^ k * w else (1 / 4) ^ (2 ^ (k - 46)) * w + 6 * 10 ^ 8

/-- One step: it succeeds, and its result is at most the exact Newton step and not much below it. -/
theorem yStep_close {b c d y : ℕ} {den : ℝ} (hden : den = 2 * (y : ℝ) + ((b : ℝ) - d)) (hden0 : 2 * 10 ^ 9 ≤ den)
    (hb : b ≤ 10 ^ 40) (hc : (c : ℝ) * 10 ^ 18 ≤ 10 ^ 46 * d) (hd : d ≤ 10 ^ 35) (hy : (y : ℝ) ≤ 2 * 10 ^ 46) 
    (hN : quadNext ((b : ℝ) - d) (c * 10 ^ 18) y ≤ 10 ^ 47) :
    ∃ v : ℕ, yStep b c d y = .ok v ∧ (v : ℝ) ≤ quadNext ((b : ℝ) - d) (c * 10 ^ 18) y ∧
      quadNext ((b : ℝ) - d) (c * 10 ^ 18) y - 6 * 10 ^ 8 ≤ v := by
  have hDEC : DEC = 10 ^ 18 := rfl
  have eR : (DEC : ℝ) = 10 ^ 18 := by rw [hDEC]; norm_num
  have hlt : d < 2 * y + b := by
    have : (d : ℝ) < 2 * y + b := by linarith
    exact_mod_cast this
  obtain ⟨y2, e2⟩ : ∃ y2, y2 = y * y / DEC := ⟨_, rfl⟩
  obtain ⟨v, ev⟩ : ∃ v, v = (y2 + c) * DEC / (2 * y + b - d) := ⟨_, rfl⟩
  have f2 := floor_real (y * y) DEC DEC_pos
  have fv := floor_real ((y2 + c) * DEC) (2 * y + b - d) (by omega)
  rw [← e2] at f2
  rw [← ev, Nat.cast_sub hlt.le] at fv
  push_cast at f2 fv
  rw [eR] at f2 fv
  rw [show 2 * (y : ℝ) + b - d = den by rw [hden]; ring] at fv
  have hden1 : 0 < den := by linarith
  obtain ⟨N, hNe⟩ : ∃ N, N = quadNext ((b : ℝ) - d) (c * 10 ^ 18) y := ⟨_, rfl⟩
  rw [← hNe] at hN ⊢
  have hNd : N * den = (y : ℝ) ^ 2 + c * 10 ^ 18 := by
    rw [hNe]; unfold quadNext; rw [← hden]; exact div_mul_cancel₀ _ hden1.ne'
  have hv1 : (v : ℝ) ≤ N := by
    have : (v : ℝ) * den ≤ N * den := by
      rw [hNd]; linarith [fv.1, f2.1]
    exact le_of_mul_le_mul_right this hden1
  have hv2 : N - 6 * 10 ^ 8 ≤ v := by
    by_contra hc
    push Not at hc
    have h1 : ((v : ℝ) + 1) * den ≤ (N - (6 * 10 ^ 8 - 1)) * den :=
      mul_le_mul_of_nonneg_right (by linarith) hden1.le
    have h2 : (5 * 10 ^ 8) * (2 * 10 ^ 9) ≤ (6 * 10 ^ 8 - 1) * den :=
      mul_le_mul (by norm_num) hden0 (by norm_num) (by norm_num)
    have h3 := fv.2
    have h4 := f2.2
    have h5 : (N - (6 * 10 ^ 8 - 1)) * den = N * den - (6 * 10 ^ 8 - 1) * den := by ring
    linarith
  have hU := U256_big
  have by_ : y ≤ 2 * 10 ^ 46 := by exact_mod_cast hy
  have by2 : y2 ≤ 4 * 10 ^ 74 := by
    rw [e2, hDEC]
    apply Nat.div_le_of_le_mul
    calc y * y ≤ (2 * 10 ^ 46) * (2 * 10 ^ 46) := Nat.mul_le_mul by_ by_
      _ = _ := by norm_num
  have bc : c ≤ 10 ^ 63 := by
    have : (d : ℝ) ≤ 10 ^ 35 := by exact_mod_cast hd
    have : (c : ℝ) ≤ 10 ^ 63 := by linarith
    exact_mod_cast this
  have bv : v ≤ 10 ^ 47 := by
    have : (v : ℝ) ≤ 10 ^ 47 := by linarith
    exact_mod_cast this
  refine ⟨v, ?_, hv1, hv2⟩
  simp only [yStep, bind_ok_iff, dmul_ok, dadd_ok, ddiv_ok, csub_ok, mul_kDEC]
  exact ⟨y2, ⟨by omega, e2.symm⟩, y2 + c, ⟨by omega, rfl⟩, 2 * y, ⟨by omega, rfl⟩, 2 * y + b, ⟨by omega, rfl⟩,
    2 * y + b - d, ⟨by omega, rfl⟩, by omega, by omega, ev.symm⟩

/-- Newton's method for the quadratic with downward errors of at most `6·10^8`. -/
theorem quad_stage {β κ w ρ y y' : ℝ} {k : ℕ} (hw : w = 2 * ρ + β) (hρ : ρ ^ 2 + β * ρ = κ) (hw0 : 4 * 10 ^ 9 ≤ w)
    (hy : ρ - 6 * 10 ^ 8 ≤ y) (hb : y ≤ ρ + yBound w k)
    (h1 : y' ≤ quadNext β κ y) (h2 : quadNext β κ y - 6 * 10 ^ 8 ≤ y') :
    ρ - 6 * 10 ^ 8 ≤ y' ∧ y' ≤ ρ + yBound w (k + 1) ∧ (∀ t, ρ + 6 * 10 ^ 8 ≤ t → y ≤ t → y' ≤ t) := by
  have hden : 0 < 2 * (y - ρ) + w := by linarith
  have hs := quadNext_sub hw hρ hden
  have hge : 0 ≤ (y - ρ) ^ 2 / (2 * (y - ρ) + w) := by positivity
  refine ⟨by linarith, ?_⟩
  have hbelow : y ≤ ρ → y' ≤ ρ + 6 * 10 ^ 8 := by
    intro hle
    have : (y - ρ) ^ 2 / (2 * (y - ρ) + w) ≤ 6 * 10 ^ 8 := by
      rw [div_le_iff₀ hden]
      have e : (y - ρ) ^ 2 = (ρ - y) ^ 2 := by ring
      have : (ρ - y) ^ 2 ≤ (6 * 10 ^ 8) ^ 2 := pow_le_pow_left₀ (by linarith) (by linarith) 2
      linarith
    linarith
  have hpos : 6 * 10 ^ 8 ≤ yBound w (k + 1) := by
    unfold yBound
    split
    · rename_i hk
      have : ((1 : ℝ) / 2) ^ 45 ≤ (1 / 2) ^ (k + 1) := pow_le_pow_of_le_one (by norm_num) (by norm_num) hk
      have h5 : (1 / 2 : ℝ) ≤ 2 ^ 44 * (1 / 2) ^ (k + 1) := by
        have : (1 / 2 : ℝ) = 2 ^ 44 * (1 / 2) ^ 45 := by norm_num
        linarith
      have := mul_le_mul_of_nonneg_right h5 (show 0 ≤ w by linarith)
      linarith
    · have : 0 ≤ (1 / 4 : ℝ) ^ (2 ^ (k + 1 - 46)) * w := mul_nonneg (by positivity) (by linarith)
      linarith
  rcases le_total y ρ with hle | hle
  · have := hbelow hle
    exact ⟨by linarith, fun t ht _ => by linarith⟩
  · have hlin : (y - ρ) ^ 2 / (2 * (y - ρ) + w) ≤ (y - ρ) / 2 := by
      rw [div_le_iff₀ hden]
      have : 0 ≤ (y - ρ) / 2 * w := mul_nonneg (by linarith) (by linarith)
      have e : (y - ρ) / 2 * (2 * (y - ρ) + w) = (y - ρ) ^ 2 + (y - ρ) / 2 * w := by ring
      linarith
    have hquad : (y - ρ) ^ 2 / (2 * (y - ρ) + w) ≤ (y - ρ) ^ 2 / w :=
      div_le_div_of_nonneg_left (by positivity) (by linarith) (by linarith)
    constructor
    · by_cases k1 : k ≤ 44
      · have e1 : yBound w k = 2 ^ 44 * (1 / 2) ^ k * w := by unfold yBound; rw [if_pos (by omega)]
        have e2 : yBound w (k + 1) = 1 / 2 * yBound w k := by
          rw [e1]; unfold yBound; rw [if_pos (by omega), pow_succ]; ring
        rw [e2]
        linarith
      · by_cases k2 : k = 45
        · subst k2
          have e1 : yBound w 45 = 1 / 2 * w := by unfold yBound; norm_num
          have e2 : yBound w 46 = 1 / 4 * w + 6 * 10 ^ 8 := by unfold yBound; norm_num
          rw [e1] at hb
          rw [e2]
          linarith
        · have e1 : yBound w k = (1 / 4) ^ (2 ^ (k - 46)) * w + 6 * 10 ^ 8 := by
            unfold yBound; rw [if_neg (by omega)]
          have e2 : yBound w (k + 1) = ((1 / 4) ^ (2 ^ (k - 46))) ^ 2 * w + 6 * 10 ^ 8 := by
            unfold yBound
            rw [if_neg (by omega), ← pow_mul, ← pow_succ, show k + 1 - 46 = k - 46 + 1 by omega]
          obtain ⟨M, hM⟩ : ∃ M : ℝ, M = (1 / 4) ^ (2 ^ (k - 46)) := ⟨_, rfl⟩
          have hM0 : 0 ≤ M := by rw [hM]; positivity
          have hM1 : M ≤ 1 / 4 := by
            rw [hM]
            calc (1 / 4 : ℝ) ^ (2 ^ (k - 46)) ≤ (1 / 4) ^ 1 :=
                  pow_le_pow_of_le_one (by norm_num) (by norm_num) Nat.one_le_two_pow
              _ = _ := by norm_num
          rw [← hM] at e1 e2
          rw [e1] at hb
          have h5 : (y - ρ) ^ 2 / w ≤ M ^ 2 * w + 6 * 10 ^ 8 := by
            rw [div_le_iff₀ (by linarith)]
            have h6 : (y - ρ) ^ 2 ≤ (M * w + 6 * 10 ^ 8) ^ 2 := pow_le_pow_left₀ (by linarith) (by linarith) 2
            have h7 : (M * w + 6 * 10 ^ 8) ^ 2 = M ^ 2 * w * w + 12 * 10 ^ 8 * (M * w) + (6 * 10 ^ 8) ^ 2 := by ring
            have h8 : M * w ≤ 1 / 4 * w := mul_le_mul_of_nonneg_right hM1 (by linarith)
            linarith
          rw [e2]
          linarith
    · intro t _ hyt
      linarith

/-- The loop of the reserve solver, started at `d`, returns; the result is above the root by at most `n`, which is at most `1e-6` and small
against `w`. -/
theorem y_converges {b c d : ℕ} {ρ w : ℝ} (hw : w = 2 * ρ + ((b : ℝ) - d))
    (hρ : ρ ^ 2 + ((b : ℝ) - d) * ρ = c * 10 ^ 18) (hρ0 : 0 ≤ ρ) (hw2 : w ^ 2 = ((b : ℝ) - d) ^ 2 + 4 * (c * 10 ^ 18)) (hww : 0 ≤ w)
    (hd1 : 10 ^ 13 ≤ d) (hd2 : d ≤ 10 ^ 35) (hb : b ≤ 10 ^ 40)
    (hc1 : (c : ℝ) * 10 ^ 18 ≤ 10 ^ 26 * (d : ℝ) ^ 2) (hc2 : (c : ℝ) * 10 ^ 18 ≤ 10 ^ 46 * d)
    (hwd : (d : ℝ) ≤ 2500 * w) :
    ∃ y : ℕ, newton (yStep b c d) "y is not converging" 64 d = .ok y ∧
      ρ - 6 * 10 ^ 8 ≤ y ∧ ∃ n : ℝ, 0 ≤ n ∧ n ≤ 10 ^ 12 ∧ n * w ≤ 4 * 10 ^ 24 ∧ (y : ℝ) ≤ ρ + n := by
  have rd1 : (10 : ℝ) ^ 13 ≤ d := by exact_mod_cast hd1
  have rd2 : (d : ℝ) ≤ 10 ^ 35 := by exact_mod_cast hd2
  have rd0 : (0 : ℝ) < d := by linarith
  have rb : (b : ℝ) ≤ 10 ^ 40 := by exact_mod_cast hb
  have rb0 : (0 : ℝ) ≤ b := Nat.cast_nonneg _
  have rc0 : (0 : ℝ) ≤ c := Nat.cast_nonneg _
  have hw0 : 4 * 10 ^ 9 ≤ w := by linarith
  obtain ⟨κ, hκ⟩ : ∃ κ : ℝ, κ = c * 10 ^ 18 := ⟨_, rfl⟩
  rw [← hκ] at hρ hw2 hc1 
  have hκ0 : 0 ≤ κ := by rw [hκ]; positivity
  have hc2' := hc2
  rw [← hκ] at hc2'
  -- the first step
  have hden1 : 2 * ((d : ℝ) - ρ) + w = d + b := by rw [hw]; ring
  have hs1 := quadNext_sub (y := (d : ℝ)) hw hρ (by rw [hden1]; linarith)
  have hge1 : ρ ≤ quadNext ((b : ℝ) - d) κ d := by
    have : 0 ≤ ((d : ℝ) - ρ) ^ 2 / (2 * ((d : ℝ) - ρ) + w) := by rw [hden1]; positivity
    linarith
  have hκd : κ / d ≤ 10 ^ 46 := by rw [div_le_iff₀ rd0]; linarith
  have hκw : κ / d ≤ 5 * 10 ^ 12 * w := by
    rw [div_le_iff₀ rd0]
    have h1 : κ ^ 2 ≤ (5 * 10 ^ 12 * w * d) ^ 2 := by
      have h2 : κ * κ ≤ (10 ^ 26 * (d : ℝ) ^ 2) * (w ^ 2 / 4) :=
        mul_le_mul hc1 (by rw [hw2]; nlinarith [sq_nonneg ((b : ℝ) - d)]) hκ0 (by positivity)
      have e : (5 * 10 ^ 12 * w * (d : ℝ)) ^ 2 = (10 ^ 26 * (d : ℝ) ^ 2) * (w ^ 2 / 4) := by ring
      rw [e]; linarith [sq κ]
    exact le_of_pow_le_pow_left₀ two_ne_zero (by positivity) h1
  have hle1 : quadNext ((b : ℝ) - d) κ d ≤ d + κ / d := by
    unfold quadNext
    rw [show 2 * (d : ℝ) + (b - d) = d + b by ring, div_le_iff₀ (by linarith)]
    have e : ((d : ℝ) + κ / d) * (d + b) = d ^ 2 + κ + d * b + κ / d * b := by field_simp; ring
    rw [e]
    have := mul_nonneg rd0.le rb0
    have := mul_nonneg (div_nonneg hκ0 rd0.le) rb0
    linarith
  have hρb : ρ + 6 * 10 ^ 8 ≤ 2 * 10 ^ 46 := by linarith
  obtain ⟨Good, hGood⟩ : ∃ Good : ℕ → ℕ → Prop, Good = fun (k v : ℕ) => (k = 0 ∧ v = d) ∨
    (0 < k ∧ ρ - 6 * 10 ^ 8 ≤ (v : ℝ) ∧ (v : ℝ) ≤ ρ + yBound w (k - 1) ∧ (v : ℝ) ≤ 2 * 10 ^ 46) := ⟨_, rfl⟩
  have step : ∀ k v, Good k v → ∃ v', yStep b c d v = .ok v' ∧ Good (k + 1) v' ∧
      (v' : ℝ) ≤ quadNext ((b : ℝ) - d) κ v ∧ ρ - 6 * 10 ^ 8 ≤ (v' : ℝ) ∧ 0 < 2 * ((v : ℝ) - ρ) + w := by
    intro k v hg
    rw [hGood] at hg
    rcases hg with ⟨rfl, rfl⟩ | ⟨hk, g1, g2, g3⟩
    · obtain ⟨v', s1, s2, s3⟩ := yStep_close (den := (v : ℝ) + b) (b := b) (c := c) (d := v) (y := v) (by ring) (by linarith)
        hb hc2 hd2 (by linarith) (by rw [← hκ]; linarith)
      rw [← hκ] at s2 s3
      refine ⟨v', s1, ?_, s2, by linarith, by rw [hden1]; linarith⟩
      rw [hGood]
      refine Or.inr ⟨by omega, by linarith, ?_, by linarith⟩
      have : yBound w 0 = 2 ^ 44 * w := by unfold yBound; simp
      rw [show 0 + 1 - 1 = 0 from rfl, this]
      have h9 : (v : ℝ) + κ / v ≤ 2 ^ 44 * w := by
        have : (2 : ℝ) ^ 44 = 17592186044416 := by norm_num
        rw [this]; linarith
      linarith
    · have hden : 0 < 2 * ((v : ℝ) - ρ) + w := by linarith
      have hs := quadNext_sub (y := (v : ℝ)) hw hρ hden
      have hN : quadNext ((b : ℝ) - d) κ v ≤ 10 ^ 47 := by
        have : ((v : ℝ) - ρ) ^ 2 / (2 * ((v : ℝ) - ρ) + w) ≤ 5 * 10 ^ 46 := by
          rw [div_le_iff₀ hden]
          rcases le_total (v : ℝ) ρ with h | h
          · have e : ((v : ℝ) - ρ) ^ 2 = (ρ - v) ^ 2 := by ring
            have : (ρ - (v : ℝ)) ^ 2 ≤ (6 * 10 ^ 8) ^ 2 := pow_le_pow_left₀ (by linarith) (by linarith) 2
            linarith
          · have h1 : ((v : ℝ) - ρ) ^ 2 = ((v : ℝ) - ρ) * ((v : ℝ) - ρ) := sq _
            have h2 : ((v : ℝ) - ρ) * ((v : ℝ) - ρ) ≤ (2 * 10 ^ 46) * ((v : ℝ) - ρ) :=
              mul_le_mul_of_nonneg_right (by linarith) (by linarith)
            linarith
        linarith
      obtain ⟨v', s1, s2, s3⟩ := yStep_close (den := 2 * ((v : ℝ) - ρ) + w) (b := b) (c := c) (d := d) (y := v)
        (by rw [hw]; ring) (by linarith) hb hc2 hd2 g3 (by rw [← hκ]; exact hN)
      rw [← hκ] at s2 s3
      obtain ⟨c1, c2, c3⟩ := quad_stage hw hρ hw0 g1 g2 s2 s3
      refine ⟨v', s1, ?_, s2, c1, hden⟩
      rw [hGood]
      refine Or.inr ⟨by omega, c1, ?_, c3 _ hρb g3⟩
      rw [show k + 1 - 1 = k - 1 + 1 by omega]
      exact c2
  have hwb : w ≤ 10 ^ 49 := by
    have h1 : w ^ 2 ≤ (10 ^ 49) ^ 2 := by
      rw [hw2]
      have h2 : ((b : ℝ) - d) ^ 2 ≤ (10 ^ 40) ^ 2 := by
        rw [sq_le_sq, abs_of_pos (show (0 : ℝ) < 10 ^ 40 by norm_num), abs_le]
        constructor <;> linarith
      have h3 : (10 : ℝ) ^ 46 * d ≤ 10 ^ 46 * 10 ^ 35 := by linarith
      linarith
    exact le_of_pow_le_pow_left₀ two_ne_zero (by norm_num) h1
  have small : ∀ k, 52 ≤ k → yBound w k ≤ 10 ^ 11 := by
    intro k hk
    unfold yBound
    rw [if_neg (by omega)]
    have h1 : (1 / 4 : ℝ) ^ (2 ^ (k - 46)) ≤ (1 / 4 : ℝ) ^ 64 :=
      pow_le_pow_of_le_one (by norm_num) (by norm_num) (by
        calc 64 = 2 ^ 6 := by norm_num
          _ ≤ 2 ^ (k - 46) := Nat.pow_le_pow_right (by norm_num) (by omega))
    have h2 : (1 / 4 : ℝ) ^ (2 ^ (k - 46)) * w ≤ (1 / 4 : ℝ) ^ 64 * 10 ^ 49 :=
      mul_le_mul h1 hwb hww (by positivity)
    have h3 : (1 / 4 : ℝ) ^ 64 * 10 ^ 49 ≤ 5 * 10 ^ 10 := by norm_num
    linarith
  have start : Good 0 d := by rw [hGood]; exact Or.inl ⟨rfl, rfl⟩
  obtain ⟨y, j, prev, h1, h2, h3, h4⟩ := newton_reaches (Good := Good) (m := 53) (msg := "y is not converging")
    (fun k v _ hg => by
      obtain ⟨v', s1, s2, _⟩ := step k v hg
      exact ⟨v', s1, s2⟩)
    (fun v v' hg hg' => by
      rw [hGood] at hg hg'
      rcases hg with ⟨h, _⟩ | ⟨_, g1, g2, _⟩
      · omega
      rcases hg' with ⟨h, _⟩ | ⟨_, g1', g2', _⟩
      · omega
      have e1 := small (53 - 1) (by omega)
      have e2 := small (53 + 1 - 1) (by omega)
      have i1 : v' ≤ v + 10 ^ 12 := by
        have : (v' : ℝ) ≤ v + 10 ^ 12 := by linarith
        exact_mod_cast this
      have i2 : v ≤ v' + 10 ^ 12 := by
        have : (v : ℝ) ≤ v' + 10 ^ 12 := by linarith
        exact_mod_cast this
      have : TOL = 10 ^ 12 := rfl
      unfold absDiff
      split <;> omega)
    64 0 d (by omega) (by omega) start
  obtain ⟨v', s1, _, s3, s4, s5⟩ := step j prev h3
  rw [h2] at s1
  have : y = v' := by injection s1
  subst this
  refine ⟨y, h1, s4, ?_⟩
  have hs := quadNext_sub (y := (prev : ℝ)) hw hρ s5
  obtain ⟨n, hn⟩ : ∃ n, n = ((prev : ℝ) - ρ) ^ 2 / (2 * ((prev : ℝ) - ρ) + w) := ⟨_, rfl⟩
  rw [← hn] at hs
  have hn0 : 0 ≤ n := by rw [hn]; positivity
  have hnd : n * (2 * ((prev : ℝ) - ρ) + w) = ((prev : ℝ) - ρ) ^ 2 := by rw [hn]; exact div_mul_cancel₀ _ s5.ne'
  have t1 : (prev : ℝ) ≤ y + 10 ^ 12 := by
    have : TOL = 10 ^ 12 := rfl
    have : prev ≤ y + 10 ^ 12 := by unfold absDiff at h4; split at h4 <;> omega
    exact_mod_cast this
  have t2 : (y : ℝ) ≤ prev + 10 ^ 12 := by
    have : TOL = 10 ^ 12 := rfl
    have : y ≤ prev + 10 ^ 12 := by unfold absDiff at h4; split at h4 <;> omega
    exact_mod_cast this
  refine ⟨n, hn0, ?_, ?_, by linarith⟩
  all_goals rcases le_total ρ (prev : ℝ) with h | h
  · -- `n ≤ h / 2`
    have : n ≤ ((prev : ℝ) - ρ) / 2 := by
      rw [hn, div_le_iff₀ s5]
      have : 0 ≤ ((prev : ℝ) - ρ) / 2 * w := mul_nonneg (by linarith) (by linarith)
      have e : ((prev : ℝ) - ρ) / 2 * (2 * ((prev : ℝ) - ρ) + w) = ((prev : ℝ) - ρ) ^ 2 + ((prev : ℝ) - ρ) / 2 * w := by ring
      linarith
    linarith
  · have hden : 2 * (ρ - prev) ≤ 2 * ((prev : ℝ) - ρ) + w := by
      rw [hGood] at h3
      rcases h3 with ⟨_, rfl⟩ | ⟨_, g1, _⟩
      · rw [hden1]; linarith
      · linarith
    have : n ≤ (ρ - prev) / 2 := by
      rw [hn, div_le_iff₀ s5]
      have := mul_le_mul_of_nonneg_left hden (show 0 ≤ (ρ - (prev : ℝ)) / 2 by linarith)
      have e : (ρ - (prev : ℝ)) / 2 * (2 * (ρ - prev)) = ((prev : ℝ) - ρ) ^ 2 := by ring
      linarith
    linarith
  · have : n ≤ ((prev : ℝ) - ρ) / 2 := by
      rw [hn, div_le_iff₀ s5]
      have : 0 ≤ ((prev : ℝ) - ρ) / 2 * w := mul_nonneg (by linarith) (by linarith)
      have e : ((prev : ℝ) - ρ) / 2 * (2 * ((prev : ℝ) - ρ) + w) = ((prev : ℝ) - ρ) ^ 2 + ((prev : ℝ) - ρ) / 2 * w := by ring
      linarith
    have hh : (prev : ℝ) - ρ ≤ 2 * 10 ^ 12 := by linarith
    have h5 : ((prev : ℝ) - ρ) ^ 2 ≤ (2 * 10 ^ 12) ^ 2 := pow_le_pow_left₀ (by linarith) hh 2
    have h6 : 0 ≤ n * (2 * ((prev : ℝ) - ρ)) := mul_nonneg hn0 (by linarith)
    linarith
  · have hden : 2 * (ρ - prev) ≤ 2 * ((prev : ℝ) - ρ) + w := by
      rw [hGood] at h3
      rcases h3 with ⟨_, rfl⟩ | ⟨_, g1, _⟩
      · rw [hden1]; linarith
      · linarith
    have h7 : n ≤ (ρ - prev) / 2 := by
      rw [hn, div_le_iff₀ s5]
      have := mul_le_mul_of_nonneg_left hden (show 0 ≤ (ρ - (prev : ℝ)) / 2 by linarith)
      have e : (ρ - (prev : ℝ)) / 2 * (2 * (ρ - prev)) = ((prev : ℝ) - ρ) ^ 2 := by ring
      linarith
    have h5 : ((prev : ℝ) - ρ) ^ 2 ≤ (11 * 10 ^ 11) ^ 2 := by
      have e : ((prev : ℝ) - ρ) ^ 2 = (ρ - prev) ^ 2 := by ring
      rw [e]; exact pow_le_pow_left₀ (by linarith) (by linarith) 2
    have h6 : n * (ρ - prev) ≤ (ρ - prev) / 2 * (ρ - prev) := mul_le_mul_of_nonneg_right h7 (by linarith)
    have e : (ρ - (prev : ℝ)) / 2 * (ρ - prev) = ((prev : ℝ) - ρ) ^ 2 / 2 := by ring
    linarith

end Verif.Stable
