import Mathlib.Tactic.Linarith
import Mathlib.Tactic.Ring
import Mathlib.Tactic.Positivity
import Mathlib.Tactic.Zify

/-!
# Floor division facts used throughout
-/

namespace Verif

theorem lt_succ_div_mul (a : Nat) {b : Nat} (h : 0 < b) : a < (a / b + 1) * b := by
  have := Nat.lt_div_mul_add (a := a) (b := b) h
  rw [Nat.add_mul, Nat.one_mul]; exact this

theorem div_le_of_le_mul' {a b c : Nat} (h : a ≤ b * c) : a / b ≤ c := Nat.div_le_of_le_mul h

/-- `⌊a·n/d⌋` is monotone in the first factor. -/
theorem mul_div_mono {a b n d : Nat} (h : a ≤ b) : a * n / d ≤ b * n / d :=
  Nat.div_le_div_right (Nat.mul_le_mul_right _ h)

/-- `⌊x·n/d⌋ ≤ x` when `n ≤ d`. -/
theorem mul_div_le_of_le {x n d : Nat} (h : n ≤ d) : x * n / d ≤ x := by
  apply Nat.div_le_of_le_mul
  rw [Nat.mul_comm d x]; exact Nat.mul_le_mul_left _ h

/-- `⌊x·n/d⌋ ≤ n` when `x ≤ d`. -/
theorem mul_div_le_right_of_le {x n d : Nat} (h : x ≤ d) : x * n / d ≤ n := by
  apply Nat.div_le_of_le_mul
  exact Nat.mul_le_mul_right _ h

/-- Cross-multiplied rate comparison lifts to floored payouts. -/
theorem div_le_div_of_cross {b b' D S D' S' : Nat} (hS : 0 < S) (hS' : 0 < S') (hb : b ≤ b')
    (h : D * S' ≤ D' * S) : b * D / S ≤ b' * D' / S' := by
  rw [Nat.le_div_iff_mul_le hS']
  have h1 : b * D / S * S ≤ b * D := Nat.div_mul_le_self _ _
  have h2 : b * D / S * S' * S ≤ b' * D' * S := by
    calc b * D / S * S' * S = (b * D / S * S) * S' := by ring
      _ ≤ b * D * S' := Nat.mul_le_mul_right _ h1
      _ = b * (D * S') := by ring
      _ ≤ b' * (D' * S) := Nat.mul_le_mul hb h
      _ = _ := by ring
  exact Nat.le_of_mul_le_mul_right h2 hS

end Verif
