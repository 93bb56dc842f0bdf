import Verif.Base.Res
import Verif.Base.Arith

/-!
# cosmwasm-std fixed point numbers

`Decimal` (Uint128 atomics) and `Decimal256` (Uint256 atomics) have 18 fractional digits.  A value is
represented by its atomics as a natural number.  All operations truncate (cosmwasm-std 1.x
`math/decimal.rs`, `math/decimal256.rs`).
-/

namespace Verif

/-- `DECIMAL_FRACTIONAL = 10^18`, i.e. the atomics of `1.0`. -/
def DEC : Nat := 10 ^ 18

theorem DEC_pos : 0 < DEC := by decide
theorem DEC_ne : DEC ≠ 0 := by decide

/-- `Decimal::from_ratio` / `checked_from_ratio`: panics (here: error) on zero denominator or overflow. -/
def decFromRatio (n d : Nat) : Res Nat := do
  let r ← cdiv (n * DEC) d
  u128 r

/-- `Decimal256::from_ratio`. -/
def dec256FromRatio (n d : Nat) : Res Nat := do
  let r ← cdiv (n * DEC) d
  u256 r

/-- `Uint128 * Decimal` and `Uint256 * Decimal256`: floor of the product (without the overflow check;
the callers add it where it can matter). -/
def mulDec (x dec : Nat) : Nat := x * dec / DEC

/-- `Decimal * Decimal` (truncating). -/
def decMul (a b : Nat) : Nat := a * b / DEC

/-- `Decimal / Decimal` (truncating, zero divisor is an error). -/
def decDiv (a b : Nat) : Res Nat := cdiv (a * DEC) b

/-- `Decimal::inv`. -/
def decInv (a : Nat) : Option Nat := if a = 0 then none else some (DEC * DEC / a)

@[simp] theorem decFromRatio_ok (n d m : Nat) :
    decFromRatio n d = .ok m ↔ d ≠ 0 ∧ n * DEC / d < U128 ∧ n * DEC / d = m := by
  unfold decFromRatio; simp [and_assoc]

@[simp] theorem dec256FromRatio_ok (n d m : Nat) :
    dec256FromRatio n d = .ok m ↔ d ≠ 0 ∧ n * DEC / d < U256 ∧ n * DEC / d = m := by
  unfold dec256FromRatio; simp [and_assoc]

@[simp] theorem decDiv_ok (a b m : Nat) : decDiv a b = .ok m ↔ b ≠ 0 ∧ a * DEC / b = m := by
  unfold decDiv; simp

theorem mulDec_le {x dec : Nat} (h : dec ≤ DEC) : mulDec x dec ≤ x := mul_div_le_of_le h

theorem mulDec_mono {x y dec : Nat} (h : x ≤ y) : mulDec x dec ≤ mulDec y dec := mul_div_mono h

theorem mulDec_mul_le (x dec : Nat) : mulDec x dec * DEC ≤ x * dec := Nat.div_mul_le_self _ _

theorem lt_mulDec_mul (x dec : Nat) : x * dec < (mulDec x dec + 1) * DEC :=
  lt_succ_div_mul _ DEC_pos

end Verif
