import Mathlib.Data.Real.Basic
import Mathlib.Analysis.Real.Sqrt
import Mathlib.Topology.Order.IntermediateValue
import Mathlib.Topology.Algebra.Polynomial
import Mathlib.Tactic.Linarith
import Mathlib.Tactic.Ring
import Mathlib.Tactic.NormNum
import Mathlib.Tactic.FieldSimp
import Mathlib.Tactic.LinearCombination
import Mathlib.Tactic.Positivity
import Verif.Stable.Model

/-!
# Newton's method with rounding: the facts about real numbers used in `Verif.Stable.Converge`

Nothing here is about the contract itself, except `newton_reaches`, which is about the loop shared by the
two solvers of the stableswap pair.
-/

namespace Verif.Stable

/-! ## The cubic `d³ + K d = W` -/

/-- The exact Newton step for `d³ + K d = W`. -/
noncomputable def cubicNext (K W d : ℝ) : ℝ := (W + 2 * d ^ 3) / (K + 3 * d ^ 2)

theorem cubicNext_sub {K W d r : ℝ} (hK : 0 < K) (hr : r ^ 3 + K * r = W) :
    cubicNext K W d - r = (d - r) ^ 2 * (2 * d + r) / (K + 3 * d ^ 2) := by
  have h : K + 3 * d ^ 2 ≠ 0 := by positivity
  unfold cubicNext
  rw [← hr]
  field_simp
  ring

theorem cubicNext_ge {K W d r : ℝ} (hK : 0 < K) (hr : r ^ 3 + K * r = W) (hd : 0 ≤ d) (h0 : 0 ≤ r) :
    r ≤ cubicNext K W d := by
  have := cubicNext_sub (d := d) hK hr
  have h2 : 0 ≤ (d - r) ^ 2 * (2 * d + r) / (K + 3 * d ^ 2) := by positivity
  linarith

/-- Far from the root the distance shrinks by a third. -/
theorem cubicNext_linear {K W d r : ℝ} (hK : 0 < K) (hr : r ^ 3 + K * r = W) (h0 : 0 < r) (hd : r ≤ d) :
    cubicNext K W d - r ≤ 2 / 3 * (d - r) := by
  rw [cubicNext_sub hK hr, div_le_iff₀ (by positivity)]
  have h1 : (d - r) * (2 * d + r) ≤ 2 / 3 * (K + 3 * d ^ 2) := by nlinarith
  have : (d - r) ^ 2 * (2 * d + r) = (d - r) * ((d - r) * (2 * d + r)) := by ring
  rw [this]
  calc (d - r) * ((d - r) * (2 * d + r)) ≤ (d - r) * (2 / 3 * (K + 3 * d ^ 2)) :=
        mul_le_mul_of_nonneg_left h1 (by linarith)
    _ = _ := by ring

/-- Near the root the distance is squared. -/
theorem cubicNext_quadratic {K W d r : ℝ} (hK : 0 < K) (hr : r ^ 3 + K * r = W) (h0 : 0 < r) (hd : r ≤ d) :
    cubicNext K W d - r ≤ (d - r) ^ 2 / d := by
  rw [cubicNext_sub hK hr, div_le_div_iff₀ (by positivity) (by linarith)]
  have h1 : (2 * d + r) * d ≤ K + 3 * d ^ 2 := by nlinarith
  calc (d - r) ^ 2 * (2 * d + r) * d = (d - r) ^ 2 * ((2 * d + r) * d) := by ring
    _ ≤ _ := mul_le_mul_of_nonneg_left h1 (by positivity)

/-- From slightly below the root. -/
theorem cubicNext_below {K W d r : ℝ} (hK : 0 < K) (hr : r ^ 3 + K * r = W) (h0 : 0 < r) (hd : r / 2 ≤ d)
    (_hd : d ≤ r) : cubicNext K W d - r ≤ 4 * (d - r) ^ 2 / r := by
  rw [cubicNext_sub hK hr, div_le_div_iff₀ (by positivity) h0]
  have h1 : (2 * d + r) * r ≤ 4 * (K + 3 * d ^ 2) := by nlinarith
  calc (d - r) ^ 2 * (2 * d + r) * r = (d - r) ^ 2 * ((2 * d + r) * r) := by ring
    _ ≤ (d - r) ^ 2 * (4 * (K + 3 * d ^ 2)) := mul_le_mul_of_nonneg_left h1 (by positivity)
    _ = _ := by ring

/-- The root of `d³ + K d = W` between `lo` and `hi`. -/
theorem cubic_root {K W lo hi : ℝ} (h : lo ≤ hi) (h1 : lo ^ 3 + K * lo ≤ W) (h2 : W ≤ hi ^ 3 + K * hi) :
    ∃ r, lo ≤ r ∧ r ≤ hi ∧ r ^ 3 + K * r = W := by
  have hc : ContinuousOn (fun d : ℝ => d ^ 3 + K * d) (Set.Icc lo hi) := by
    apply Continuous.continuousOn; fun_prop
  obtain ⟨r, hr, he⟩ := intermediate_value_Icc h hc (show W ∈ Set.Icc _ _ from ⟨h1, h2⟩)
  exact ⟨r, hr.1, hr.2, he⟩

/-! ## The quadratic `y² + β y = κ` -/

/-- The exact Newton step for `y² + β y = κ`. -/
noncomputable def quadNext (β κ y : ℝ) : ℝ := (y ^ 2 + κ) / (2 * y + β)

theorem quadNext_sub {β κ w ρ y : ℝ} (hw : w = 2 * ρ + β) (hρ : ρ ^ 2 + β * ρ = κ) (hy : 0 < 2 * (y - ρ) + w) :
    quadNext β κ y - ρ = (y - ρ) ^ 2 / (2 * (y - ρ) + w) := by
  have h : 2 * y + β = 2 * (y - ρ) + w := by rw [hw]; ring
  unfold quadNext
  rw [h, ← hρ]
  field_simp
  rw [hw]
  ring

/-- The nonnegative root. -/
theorem quad_root (β κ : ℝ) (hκ : 0 ≤ κ) :
    ∃ ρ w : ℝ, 0 ≤ ρ ∧ w = 2 * ρ + β ∧ ρ ^ 2 + β * ρ = κ ∧ 0 ≤ w ∧ w ^ 2 = β ^ 2 + 4 * κ := by
  have h1 : Real.sqrt (β ^ 2 + 4 * κ) ^ 2 = β ^ 2 + 4 * κ := Real.sq_sqrt (by positivity)
  have h0 : 0 ≤ Real.sqrt (β ^ 2 + 4 * κ) := Real.sqrt_nonneg _
  obtain ⟨w, hw⟩ : ∃ w, w = Real.sqrt (β ^ 2 + 4 * κ) := ⟨_, rfl⟩
  rw [← hw] at h1 h0
  refine ⟨(w - β) / 2, w, ?_, by ring, by linear_combination h1 / 4, h0, h1⟩
  have : β ≤ w := by
    rcases le_total β 0 with h | h
    · linarith
    · exact le_of_pow_le_pow_left₀ (two_ne_zero) h0 (by rw [h1]; linarith)
  linarith

/-! ## The loop -/

/-- If a value that is good for stage `k ≤ m` is always followed by one that is good for stage `k + 1`, and two
successive values are within the tolerance at stage `m`, the loop returns within `m + 1` passes; the result is
the successor of a good value and within the tolerance of it. -/
theorem newton_reaches {step : ℕ → Res ℕ} {msg : String} {Good : ℕ → ℕ → Prop} {m : ℕ}
    (hs : ∀ k v, k ≤ m → Good k v → ∃ v', step v = .ok v' ∧ Good (k + 1) v')
    (hf : ∀ v v', Good m v → Good (m + 1) v' → absDiff v' v ≤ TOL) :
    ∀ n k v, k ≤ m → m + 1 - k ≤ n → Good k v →
      ∃ r j prev, newton step msg n v = .ok r ∧ step prev = .ok r ∧ Good j prev ∧ absDiff r prev ≤ TOL := by
  intro n
  induction n with
  | zero => intro k v h1 h2; omega
  | succ n ih =>
    intro k v hk hn hg
    obtain ⟨v', h1, h2⟩ := hs k v hk hg
    by_cases hc : absDiff v' v ≤ TOL
    · exact ⟨v', k, v, by simp [newton, h1, ok_bind, hc], h1, hg, hc⟩
    · have hlt : k < m := by
        rcases Nat.lt_or_ge k m with h | h
        · exact h
        · have : k = m := by omega
          subst this
          exact absurd (hf v v' hg h2) hc
      obtain ⟨r, j, prev, h3, h4⟩ := ih (k + 1) v' (by omega) (by omega) h2
      exact ⟨r, j, prev, by simp [newton, h1, ok_bind, hc, h3], h4⟩

end Verif.Stable
