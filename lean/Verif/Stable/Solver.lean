import Verif.Stable.Model
import Mathlib.Tactic.Linarith
import Mathlib.Tactic.Ring
import Mathlib.Tactic.NormNum

/-!
# C69: the stableswap solver returns only converged values

All numbers are `Decimal256` atomics (`DEC = 10^18` is `1.0`); the tolerance `1e-6` is `10^12`.
-/

namespace Verif.Stable

@[simp] theorem dmul_ok (a b m : Nat) : dmul a b = .ok m ↔ a * b / DEC < U256 ∧ a * b / DEC = m := by
  unfold dmul; simp

@[simp] theorem dadd_ok (a b m : Nat) : dadd a b = .ok m ↔ a + b < U256 ∧ a + b = m := by
  unfold dadd; simp

@[simp] theorem ddiv_ok (a b m : Nat) :
    ddiv a b = .ok m ↔ b ≠ 0 ∧ a * DEC / b < U256 ∧ a * DEC / b = m := by
  unfold ddiv; simp

theorem mul_kDEC (a k : Nat) : a * (k * DEC) / DEC = k * a := by
  rw [← Nat.mul_assoc, Nat.mul_div_cancel _ DEC_pos, Nat.mul_comm]

/-! ## Specification -/

/-- One Newton step for the invariant `D` of reserves `x`, `y` at amplification `amp` (times 100), with
truncating fixed point arithmetic:
`(L (x+y) + 2 P) D / ((L - 1) D + 3 P)` where `L = 2 amp / 100` and `P = D³ / (2x · 2y)`. -/
def dNext (amp x y d : Nat) : Nat :=
  let L := 2 * (amp * DEC / 100)
  let P := (d * d / DEC * d / DEC) * DEC / (2 * x * (2 * y) / DEC)
  ((L * (x + y) / DEC + 2 * P) * d / DEC) * DEC / (d * (L - DEC) / DEC + 3 * P)

/-- `|a - b| ≤ 1e-6` -/
def Close (a b : Nat) : Prop := a ≤ b + 10 ^ 12 ∧ b ≤ a + 10 ^ 12

/-- `y` is a root of the quadratic `y² + (b - d) y = c` up to the solver's tolerance:
the residual at `y` is at most `(1e-6)²` and the residual one unit (`1e-18`) above it is more than `-1e-18`.
(Multiplied out so that everything is a natural number.) -/
def AlmostRoot (b c d y : Nat) : Prop :=
  y * y + b * y ≤ d * y + c * DEC + 10 ^ 24 ∧
  d * (y + 1) + c * DEC < (y + 1) * (y + 1) + b * (y + 1) + DEC

/-! ## The loop -/

theorem newton_ok {step : Nat → Res Nat} {msg : String} {n v r : Nat}
    (h : newton step msg n v = .ok r) : ∃ prev, step prev = .ok r ∧ Close r prev := by
  induction n generalizing v with
  | zero => simp [newton] at h
  | succ n ih =>
    simp only [newton, bind_ok_iff] at h
    obtain ⟨v', h1, h2⟩ := h
    by_cases hc : absDiff v' v ≤ TOL
    · rw [if_pos hc, Except.ok.injEq] at h2
      subst h2
      refine ⟨v, h1, ?_⟩
      have : TOL = 10 ^ 12 := rfl
      unfold absDiff at hc
      unfold Close
      split at hc <;> omega
    · rw [if_neg hc] at h2
      exact ih h2

theorem dStep_ok {amp l0 lev x y d r : Nat} (hl : amp * DEC / AMP_PRECISION = l0) (hlev : 2 * l0 = lev)
    (h : dStep lev (x + y) (2 * x) (2 * y) d = .ok r) : r = dNext amp x y d := by
  have e2 : AMP_PRECISION = 100 := rfl
  simp only [dStep, calculateStep, bind_ok_iff, dmul_ok, dadd_ok, ddiv_ok, csub_ok] at h
  obtain ⟨_, ⟨_, rfl⟩, _, ⟨_, rfl⟩, _, ⟨_, rfl⟩, dp, ⟨_, _, hdp⟩, _, ⟨_, rfl⟩, _, ⟨_, rfl⟩, _, ⟨_, rfl⟩,
    _, ⟨_, rfl⟩, _, ⟨_, rfl⟩, _, ⟨_, rfl⟩, _, ⟨_, rfl⟩, _, ⟨_, rfl⟩, _, _, rfl⟩ := h
  rw [mul_kDEC, mul_kDEC]
  unfold dNext
  rw [← e2, hl, hlev, hdp]

/-- **C69.** If the `D` solver returns, then either the pool is empty and `D = 0`, or the result is the
Newton step of a value at most the tolerance away from it. -/
theorem C69_d_converged (amp x y d : Nat) (h : computeD amp x y = .ok d) :
    (x = 0 ∧ y = 0 ∧ d = 0) ∨ ∃ prev, Close d prev ∧ d = dNext amp x y prev := by
  simp only [computeD, bind_ok_iff, dec256FromRatio_ok, dmul_ok, dadd_ok] at h
  obtain ⟨l0, ⟨_, _, hl⟩, lev, ⟨_, hlev⟩, _, ⟨_, rfl⟩, _, ⟨_, rfl⟩, _, ⟨_, rfl⟩, h⟩ := h
  rw [mul_kDEC] at hlev
  rw [mul_kDEC, mul_kDEC] at h
  by_cases hz : x + y = 0
  · rw [if_pos hz, Except.ok.injEq] at h
    left; omega
  · rw [if_neg hz] at h
    obtain ⟨prev, h1, h2⟩ := newton_ok h
    exact Or.inr ⟨prev, h2, dStep_ok hl hlev h1⟩

/-! ## The quadratic -/

theorem yStep_ok {b c d y r : Nat} (h : yStep b c d y = .ok r) :
    d < 2 * y + b ∧ r = (y * y / DEC + c) * DEC / (2 * y + b - d) := by
  simp only [yStep, bind_ok_iff, dmul_ok, dadd_ok, ddiv_ok, csub_ok] at h
  obtain ⟨_, ⟨_, rfl⟩, _, ⟨_, rfl⟩, _, ⟨_, rfl⟩, _, ⟨_, rfl⟩, _, ⟨h1, rfl⟩, h2, _, rfl⟩ := h
  rw [mul_kDEC] at h1 h2 ⊢
  exact ⟨by omega, rfl⟩

theorem almostRoot_of_step {b c d y r : Nat} (h : yStep b c d y = .ok r) (hc : Close r y) :
    AlmostRoot b c d r := by
  obtain ⟨hlt, hr⟩ := yStep_ok h
  have hD := DEC_pos
  obtain ⟨n, hn⟩ : ∃ n, n = 2 * y + b - d := ⟨_, rfl⟩
  have hn0 : 0 < n := by omega
  rw [← hn] at hr
  -- floor inequalities
  have f1 : r * n ≤ (y * y / DEC + c) * DEC := by rw [hr]; exact Nat.div_mul_le_self _ _
  have f2 : (y * y / DEC + c) * DEC < (r + 1) * n := by
    rw [hr]
    have := Nat.lt_div_mul_add hn0 (a := (y * y / DEC + c) * DEC)
    rw [Nat.add_mul _ 1 n, Nat.one_mul]
    exact this
  have f3 : y * y / DEC * DEC ≤ y * y := Nat.div_mul_le_self _ _
  have f4 : y * y < y * y / DEC * DEC + DEC := Nat.lt_div_mul_add hD
  generalize y * y / DEC = q at *
  obtain ⟨c1, c2⟩ := hc
  have hb : (b : Int) - d = n - 2 * y := by omega
  constructor
  · -- y'^2 + (b-d) y' - cE ≤ (y - y')^2 ≤ TOL^2
    have g1 : (r : Int) * n ≤ y * y + c * DEC := by
      have h1 : r * n ≤ q * DEC + c * DEC := by rw [← Nat.add_mul]; exact f1
      have h2 : r * n ≤ y * y + c * DEC := by omega
      exact_mod_cast h2
    have hsq : ((y : Int) - r) * (y - r) ≤ 10 ^ 24 := by
      have a1 : ((y : Int) - r) ≤ 10 ^ 12 := by omega
      have a2 : -(10 ^ 12) ≤ ((y : Int) - r) := by omega
      nlinarith
    have : (r : Int) * r + b * r ≤ d * r + c * DEC + 10 ^ 24 := by
      have e : (b : Int) * r - d * r = (n - 2 * y) * r := by rw [← hb]; ring
      nlinarith
    exact_mod_cast this
  · have g2 : (y : Int) * y + c * DEC - DEC < (r + 1) * n := by
      have h1 : q * DEC + c * DEC < (r + 1) * n := by rw [← Nat.add_mul]; exact f2
      have h2 : y * y + c * DEC < (r + 1) * n + DEC := by omega
      have h3 : (y : Int) * y + c * DEC < (r + 1) * n + DEC := by exact_mod_cast h2
      linarith
    have : (d : Int) * (r + 1) + c * DEC < (r + 1) * (r + 1) + b * (r + 1) + DEC := by
      have e : (b : Int) * (r + 1) - d * (r + 1) = (n - 2 * y) * (r + 1) := by rw [← hb]; ring
      nlinarith [sq_nonneg ((y : Int) - (r + 1))]
    exact_mod_cast this

/-- The linear coefficient of the curve's quadratic: `new + D / L` with `L = 2 amp` (the code scales both by
100). -/
def bOf (amp new d : Nat) : Nat := new + 100 * d * DEC / (2 * (amp * DEC))

/-- The constant of the curve's quadratic: `D³ / (4 · new · L)`, truncating. -/
def cOf (amp new d : Nat) : Nat :=
  100 * (d * d / DEC * d / DEC) * DEC / (4 * new * (2 * (amp * DEC)) / DEC)

theorem calcYRaw_spec {amp new x y r : Nat} (h : calcYRaw amp new x y = .ok r) :
    ∃ d, computeD amp x y = .ok d ∧ AlmostRoot (bOf amp new d) (cOf amp new d) d r ∧
      ∃ prev, Close r prev ∧ yStep (bOf amp new d) (cOf amp new d) d prev = .ok r := by
  have e2 : AMP_PRECISION = 100 := rfl
  have e4 : 2 * DEC * (2 * DEC) / DEC = 4 * DEC := by decide
  simp only [calcYRaw, bind_ok_iff] at h
  obtain ⟨d, hd, c, hc, b, hb, h⟩ := h
  have hc' : c = cOf amp new d := by
    simp only [yC, bind_ok_iff, dmul_ok, ddiv_ok] at hc
    obtain ⟨_, ⟨_, rfl⟩, _, ⟨_, rfl⟩, _, ⟨_, rfl⟩, _, ⟨_, rfl⟩, _, ⟨_, rfl⟩, _, ⟨_, rfl⟩, _, ⟨_, rfl⟩,
      _, _, rfl⟩ := hc
    unfold cOf
    rw [e2, e4, mul_kDEC, mul_kDEC, mul_kDEC]
  have hb' : b = bOf amp new d := by
    simp only [yB, bind_ok_iff, dmul_ok, ddiv_ok, dadd_ok] at hb
    obtain ⟨_, ⟨_, rfl⟩, _, ⟨_, rfl⟩, _, ⟨_, _, rfl⟩, _, rfl⟩ := hb
    unfold bOf
    rw [e2, mul_kDEC, mul_kDEC]
  subst hc' hb'
  obtain ⟨prev, h1, h2⟩ := newton_ok h
  exact ⟨d, hd, almostRoot_of_step h1 h2, prev, h2, h1⟩

/-- **C69.** If the `y` solver returns, the `D` solver converged, and the returned value is a root, up to the
tolerance, of the curve's quadratic for that `D`; rounded down to the token's precision. -/
theorem C69_y_converged (amp new x y prec r : Nat) (h : calcY amp new x y prec = .ok r) :
    ∃ d raw, computeD amp x y = .ok d ∧ AlmostRoot (bOf amp new d) (cOf amp new d) d raw ∧
      r = raw / 10 ^ (18 - prec) := by
  simp only [calcY, toU128, bind_ok_iff, require_ok, exists_const, u128_ok] at h
  obtain ⟨raw, hr, _, _, rfl⟩ := h
  obtain ⟨d, h1, h2, _⟩ := calcYRaw_spec hr
  exact ⟨d, raw, h1, h2, rfl⟩

/-- **C69.** If no Newton step ever comes within the tolerance of its argument, the solver fails (it
never returns an unconverged value). -/
theorem C69_no_convergence_no_result (amp x y : Nat) (hne : x + y ≠ 0)
    (h : ∀ prev, ¬ Close (dNext amp x y prev) prev) : ∀ d, computeD amp x y ≠ .ok d := by
  intro d hd
  rcases C69_d_converged amp x y d hd with ⟨h1, h2, _⟩ | ⟨prev, hc, rfl⟩
  · omega
  · exact h prev hc

/-- Non-vacuity: the invariant of a pool of 1000 and 2000 tokens at amplification 100, and the new reserve
after adding 10 tokens. -/
example : okAnd (computeD 10000 (1000 * DEC) (2000 * DEC)) (fun d => d = 2998146985239894576283) = true ∧
    okAnd (calcY 10000 (1010 * DEC) (1000 * DEC) (2000 * DEC) 6) (fun y => y = 1989917727) = true := by
  decide +kernel

end Verif.Stable
