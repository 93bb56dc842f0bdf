import Verif.Stable.Solver
import Mathlib.Tactic.Ring
import Mathlib.Tactic.Linarith

/-!
# Signed fixed point numbers, `packages/astroport_pcl_common/src/math/signed_decimal.rs` (C53)

`SignedDecimal256` is a magnitude (`Decimal256`, here its atomics) and a sign.  Overflow of the magnitude
panics in the code and is an error here.
-/

namespace Verif.PCL

open Verif.Stable (dmul ddiv dadd absDiff)

/-- `SignedDecimal256`, packages/astroport_pcl_common/src/math/signed_decimal.rs:5-10. -/
structure SD where
  val : Nat
  neg : Bool
  deriving DecidableEq, Repr

namespace SD

/-- `From<Decimal256>`, packages/astroport_pcl_common/src/math/signed_decimal.rs:43-47. -/
def ofDec (v : Nat) : SD := ⟨v, false⟩

/-- `Add`, packages/astroport_pcl_common/src/math/signed_decimal.rs:70-91; `Add<Decimal256>` (93-99) and `Decimal256 + SignedDecimal256` (101-107,
which swaps the operands) go through it. -/
def add (a b : SD) : Res SD :=
  if a.neg = b.neg then do
    let v ← dadd a.val b.val
    .ok ⟨v, a.neg⟩
  else if a.val > b.val then .ok ⟨a.val - b.val, a.neg⟩
  else .ok ⟨b.val - a.val, b.neg⟩

/-- `Neg`, packages/astroport_pcl_common/src/math/signed_decimal.rs:200-209. -/
def negate (a : SD) : SD := ⟨a.val, !a.neg⟩

/-- `Sub`, packages/astroport_pcl_common/src/math/signed_decimal.rs:109-118; `Decimal256 - SignedDecimal256`, 132-138. -/
def sub (a b : SD) : Res SD := add a ⟨b.val, !b.neg⟩

/-- `Sub<Decimal256>`, packages/astroport_pcl_common/src/math/signed_decimal.rs:120-130. -/
def subDec (a : SD) (b : Nat) : Res SD := add a ⟨b, true⟩

/-- `Mul`, packages/astroport_pcl_common/src/math/signed_decimal.rs:151-160. -/
def mul (a b : SD) : Res SD := do
  let v ← dmul a.val b.val
  .ok ⟨v, a.neg ^^ b.neg⟩

/-- `Mul<Decimal256>`, packages/astroport_pcl_common/src/math/signed_decimal.rs:140-149; also `Mul<SignedDecimal256> for Decimal256`, 162-168. -/
def mulDec (a : SD) (b : Nat) : Res SD := do
  let v ← dmul a.val b
  .ok ⟨v, a.neg⟩

/-- `Div`, packages/astroport_pcl_common/src/math/signed_decimal.rs:170-179; `Div<Decimal256>`, 181-187, converts its right operand. -/
def div (a b : SD) : Res SD := do
  let v ← ddiv a.val b.val
  .ok ⟨v, a.neg ^^ b.neg⟩

/-- `Div<SignedDecimal256> for Decimal256`, packages/astroport_pcl_common/src/math/signed_decimal.rs:189-198. -/
def decDiv (a : Nat) (b : SD) : Res SD := do
  let v ← ddiv a b.val
  .ok ⟨v, b.neg⟩

/-- `diff`, packages/astroport_pcl_common/src/math/signed_decimal.rs:34-40. -/
def diff (a b : SD) : Res Nat :=
  if a.neg = b.neg then .ok (absDiff a.val b.val) else dadd a.val b.val

/-- `TryInto<Decimal256>`, packages/astroport_pcl_common/src/math/signed_decimal.rs:55-68. -/
def tryInto (a : SD) : Res Nat :=
  if a.neg = false ∨ a.val = 0 then .ok a.val else .error (.invalid "Unable to convert negative value")

end SD

/-- The loop of `Decimal256::pow` (cosmwasm-std 1.x `checked_pow`, exponentiation by squaring); `fuel`
bounds the number of halvings (an exponent is a `u32`). -/
def powLoop : Nat → Nat → Nat → Nat → Res Nat
  | 0, x, y, _ => dmul x y
  | fuel + 1, x, y, n =>
    if n ≤ 1 then dmul x y
    else if n % 2 = 0 then do
      let x2 ← dmul x x
      powLoop fuel x2 y (n / 2)
    else do
      let y2 ← dmul x y
      let x2 ← dmul x x
      powLoop fuel x2 y2 ((n - 1) / 2)

/-- `Decimal256::pow`. -/
def dpow (x n : Nat) : Res Nat := if n = 0 then .ok DEC else powLoop 32 x DEC n

/-- `SignedDecimal256::pow`, packages/astroport_pcl_common/src/math/signed_decimal.rs:23-33. -/
def SD.pow (a : SD) (n : Nat) : Res SD :=
  if a.val = 0 then .ok ⟨0, false⟩
  else do
    let v ← dpow a.val n
    .ok ⟨v, if n % 2 = 0 then false else a.neg⟩

/-! ## Specification: integers -/

/-- The signed integer (number of atomics) a value stands for. -/
def SD.toInt (a : SD) : Int := if a.neg then -(a.val : Int) else (a.val : Int)

/-- Magnitudes are 256 bit numbers. -/
def SD.Wf (a : SD) : Prop := a.val < U256

theorem SD.natAbs_toInt (a : SD) : a.toInt.natAbs = a.val := by
  unfold SD.toInt; split <;> simp

/-- Signed quotient truncated toward zero, from magnitudes and signs. -/
theorem tdiv_sign (x y : Nat) (s : Bool) :
    (if s then -(((x / y : Nat)) : Int) else ((x / y : Nat) : Int)) =
      (if s then -(x : Int) else (x : Int)).tdiv (y : Int) := by
  cases s
  · simp [Int.tdiv, Int.ofNat_tdiv]
  · simp [Int.neg_tdiv, Int.ofNat_tdiv]

/-! ## C53 -/

/-- Addition: the result is the integer sum, and it fails exactly when the sum does not fit. -/
theorem C53_add (a b c : SD) (ha : a.Wf) (hb : b.Wf) :
    (SD.add a b = .ok c → c.toInt = a.toInt + b.toInt ∧ c.Wf) ∧
    ((∃ r, SD.add a b = .ok r) ↔ (a.toInt + b.toInt).natAbs < U256) := by
  obtain ⟨x, s⟩ := a
  obtain ⟨y, t⟩ := b
  simp only [SD.Wf] at ha hb
  cases s <;> cases t <;> simp only [SD.add, SD.toInt, reduceIte, Bool.false_eq_true, bind_ok_iff,
    Stable.dadd_ok, Bool.true_eq_false, SD.Wf]
  · constructor
    · rintro ⟨v, ⟨h1, rfl⟩, h2⟩; cases h2; simp; exact h1
    · constructor
      · rintro ⟨r, v, ⟨h1, _⟩, _⟩; omega
      · intro h; exact ⟨_, x + y, ⟨by omega, rfl⟩, rfl⟩
  · constructor
    · split <;> (intro h; cases h; simp; omega)
    · constructor
      · intro _; omega
      · intro _; split <;> exact ⟨_, rfl⟩
  · constructor
    · split <;> (intro h; cases h; simp; omega)
    · constructor
      · intro _; omega
      · intro _; split <;> exact ⟨_, rfl⟩
  · constructor
    · rintro ⟨v, ⟨h1, rfl⟩, h2⟩; cases h2; simp; omega
    · constructor
      · rintro ⟨r, v, ⟨h1, _⟩, _⟩; omega
      · intro h; exact ⟨_, x + y, ⟨by omega, rfl⟩, rfl⟩

/-- Subtraction: the result is the integer difference, and it fails exactly when that does not fit. -/
theorem C53_sub (a b c : SD) (ha : a.Wf) (hb : b.Wf) :
    (SD.sub a b = .ok c → c.toInt = a.toInt - b.toInt ∧ c.Wf) ∧
    ((∃ r, SD.sub a b = .ok r) ↔ (a.toInt - b.toInt).natAbs < U256) := by
  have h := C53_add a ⟨b.val, !b.neg⟩ c ha hb
  have e : (⟨b.val, !b.neg⟩ : SD).toInt = -b.toInt := by
    unfold SD.toInt; cases b.neg <;> simp
  rw [e] at h
  simpa [SD.sub, Int.sub_eq_add_neg] using h

/-- Subtraction of an unsigned decimal. -/
theorem C53_sub_dec (a : SD) (b : Nat) (c : SD) (ha : a.Wf) (hb : b < U256) :
    (SD.subDec a b = .ok c → c.toInt = a.toInt - b ∧ c.Wf) ∧
    ((∃ r, SD.subDec a b = .ok r) ↔ (a.toInt - b).natAbs < U256) := by
  have h := C53_add a ⟨b, true⟩ c ha hb
  simpa [SD.subDec, SD.toInt, Int.sub_eq_add_neg] using h

theorem mul_toInt (a b : SD) :
    a.toInt * b.toInt = (if (a.neg ^^ b.neg) then -((a.val * b.val : Nat) : Int) else ((a.val * b.val : Nat) : Int)) := by
  unfold SD.toInt; cases a.neg <;> cases b.neg <;> simp

/-- Multiplication: the exact product of the two numbers, cut to 18 digits toward zero. -/
theorem C53_mul (a b c : SD) :
    (SD.mul a b = .ok c → c.toInt = (a.toInt * b.toInt).tdiv (DEC : Int) ∧ c.Wf) ∧
    ((∃ r, SD.mul a b = .ok r) ↔ ((a.toInt * b.toInt).tdiv (DEC : Int)).natAbs < U256) := by
  have e : (a.toInt * b.toInt).tdiv (DEC : Int) =
      (if (a.neg ^^ b.neg) then -((a.val * b.val / DEC : Nat) : Int) else ((a.val * b.val / DEC : Nat) : Int)) := by
    rw [mul_toInt, tdiv_sign]
  constructor
  · intro h
    simp only [SD.mul, bind_ok_iff, Stable.dmul_ok] at h
    obtain ⟨v, ⟨h1, rfl⟩, h2⟩ := h
    cases h2
    refine ⟨?_, h1⟩
    rw [e]; rfl
  · have e2 : ((a.toInt * b.toInt).tdiv (DEC : Int)).natAbs = a.val * b.val / DEC := by
      rw [e]; split <;> simp only [Int.natAbs_neg, Int.natAbs_natCast]
    rw [e2]
    simp only [SD.mul, bind_ok_iff, Stable.dmul_ok]
    constructor
    · rintro ⟨r, v, ⟨h1, _⟩, _⟩; exact h1
    · intro h; exact ⟨_, _, ⟨h, rfl⟩, rfl⟩

/-- Multiplication by an unsigned decimal agrees with converting it first. -/
theorem C53_mul_dec (a : SD) (b : Nat) : SD.mulDec a b = SD.mul a (SD.ofDec b) := by
  simp [SD.mulDec, SD.mul, SD.ofDec]

/-- Division: the exact quotient, cut to 18 digits toward zero; only division by zero and overflow fail. -/
theorem C53_div (a b c : SD) :
    (SD.div a b = .ok c → c.toInt = (a.toInt * (DEC : Int)).tdiv b.toInt ∧ c.Wf) ∧
    ((∃ r, SD.div a b = .ok r) ↔
      b.toInt ≠ 0 ∧ ((a.toInt * (DEC : Int)).tdiv b.toInt).natAbs < U256) := by
  have e : (a.toInt * (DEC : Int)).tdiv b.toInt =
      (if (a.neg ^^ b.neg) then -((a.val * DEC / b.val : Nat) : Int) else ((a.val * DEC / b.val : Nat) : Int)) := by
    have h := tdiv_sign (a.val * DEC) b.val (a.neg ^^ b.neg)
    rw [h]
    unfold SD.toInt
    cases a.neg <;> cases b.neg <;> simp [Int.neg_tdiv, Int.tdiv_neg]
  have z : b.toInt ≠ 0 ↔ b.val ≠ 0 := by
    unfold SD.toInt; split <;> simp
  constructor
  · intro h
    simp only [SD.div, bind_ok_iff, Stable.ddiv_ok] at h
    obtain ⟨v, ⟨_, h1, rfl⟩, h2⟩ := h
    cases h2
    exact ⟨by rw [e]; rfl, h1⟩
  · have e2 : ((a.toInt * (DEC : Int)).tdiv b.toInt).natAbs = a.val * DEC / b.val := by
      rw [e]; split <;> simp only [Int.natAbs_neg, Int.natAbs_natCast]
    rw [e2, z]
    simp only [SD.div, bind_ok_iff, Stable.ddiv_ok]
    constructor
    · rintro ⟨r, v, ⟨h0, h1, _⟩, _⟩; exact ⟨h0, h1⟩
    · rintro ⟨h0, h⟩; exact ⟨_, _, ⟨h0, h, rfl⟩, rfl⟩

/-- Division of an unsigned decimal agrees with converting it first. -/
theorem C53_dec_div (a : Nat) (b : SD) : SD.decDiv a b = SD.div (SD.ofDec a) b := by
  simp [SD.decDiv, SD.div, SD.ofDec]

/-- `diff` is the distance of the two numbers. -/
theorem C53_diff (a b : SD) (n : Nat) (ha : a.Wf) (hb : b.Wf) :
    (SD.diff a b = .ok n → n = (a.toInt - b.toInt).natAbs) ∧
    ((∃ r, SD.diff a b = .ok r) ↔ (a.toInt - b.toInt).natAbs < U256) := by
  obtain ⟨x, s⟩ := a
  obtain ⟨y, t⟩ := b
  simp only [SD.Wf] at ha hb
  cases s <;> cases t <;>
    simp only [SD.diff, SD.toInt, absDiff, reduceIte, Bool.false_eq_true, Stable.dadd_ok, Except.ok.injEq,
      Bool.true_eq_false]
  · refine ⟨fun h => ?_, fun _ => by omega, fun _ => ⟨_, rfl⟩⟩
    subst h; split <;> omega
  · refine ⟨fun h => by omega, fun h => ?_, fun h => ⟨_, by omega, rfl⟩⟩
    obtain ⟨_, h, _⟩ := h; omega
  · refine ⟨fun h => by omega, fun h => ?_, fun h => ⟨_, by omega, rfl⟩⟩
    obtain ⟨_, h, _⟩ := h; omega
  · refine ⟨fun h => ?_, fun _ => by omega, fun _ => ⟨_, rfl⟩⟩
    subst h; split <;> omega

/-- Conversion back to an unsigned decimal succeeds exactly for numbers that are not negative and keeps
the value. -/
theorem C53_to_unsigned (a : SD) (n : Nat) : SD.tryInto a = .ok n ↔ 0 ≤ a.toInt ∧ (n : Int) = a.toInt := by
  obtain ⟨x, s⟩ := a
  simp only [SD.tryInto, SD.toInt]
  cases s
  · simp; exact eq_comm
  · by_cases h : x = 0
    · subst h; simp; exact eq_comm
    · simp [h]

/-- Negation and conversion from unsigned. -/
theorem C53_neg_of (a : SD) (n : Nat) : (SD.negate a).toInt = -a.toInt ∧ (SD.ofDec n).toInt = n := by
  constructor
  · unfold SD.negate SD.toInt; cases a.neg <;> simp
  · simp [SD.ofDec, SD.toInt]

theorem dmul_DEC {x : Nat} (h : x < U256) : dmul x DEC = .ok x := by
  simp only [Stable.dmul_ok]
  rw [Nat.mul_div_cancel _ DEC_pos]
  exact ⟨h, rfl⟩

theorem dpow_two (x r : Nat) : dpow x 2 = .ok r ↔ dmul x x = .ok r := by
  simp only [dpow, powLoop, Nat.reduceEqDiff, ↓reduceIte, Nat.reduceLeDiff, Nat.reduceMod, Nat.reduceDiv,
    Nat.le_refl, bind_ok_iff]
  constructor
  · rintro ⟨v, h1, h2⟩
    have := (Stable.dmul_ok _ _ _).1 h1
    rw [dmul_DEC (by omega)] at h2
    cases h2; exact h1
  · intro h
    have := (Stable.dmul_ok _ _ _).1 h
    exact ⟨r, h, dmul_DEC (by omega)⟩

theorem dpow_three (x r : Nat) (hx : x < U256) :
    dpow x 3 = .ok r ↔ ∃ s, dmul x x = .ok s ∧ dmul s x = .ok r := by
  simp only [dpow, powLoop, Nat.reduceEqDiff, ↓reduceIte, Nat.reduceLeDiff, Nat.reduceMod, Nat.reduceDiv,
    Nat.le_refl, bind_ok_iff, dmul_DEC hx, ok_bind, Nat.reduceSub, one_ne_zero]

/-- Squares and cubes (the powers the solver uses) are the repeated products; even powers are positive. -/
theorem C53_pow (a c : SD) (ha : a.Wf) :
    (SD.pow a 2 = .ok c → c.toInt = (a.toInt * a.toInt).tdiv (DEC : Int) ∧ 0 ≤ c.toInt) ∧
    (SD.pow a 3 = .ok c → ∃ s, SD.mul a a = .ok s ∧ c.toInt = (s.toInt * a.toInt).tdiv (DEC : Int)) := by
  constructor
  · intro h
    unfold SD.pow at h
    split at h
    · rename_i h0
      cases h
      have : a.toInt = 0 := by unfold SD.toInt; simp [h0]
      rw [this]; simp [SD.toInt]
    · simp only [bind_ok_iff, Nat.reduceMod, ↓reduceIte] at h
      obtain ⟨v, h1, h2⟩ := h
      cases h2
      rw [dpow_two] at h1
      have h3 : SD.mul a a = .ok ⟨v, false⟩ := by simp [SD.mul, h1]
      exact ⟨((C53_mul a a _).1 h3).1, by simp [SD.toInt]⟩
  · intro h
    unfold SD.pow at h
    split at h
    · rename_i h0
      cases h
      refine ⟨⟨0, a.neg ^^ a.neg⟩, ?_, ?_⟩
      · simp only [SD.mul, h0, bind_ok_iff]
        exact ⟨0, by decide, rfl⟩
      · simp [SD.toInt]
    · simp only [bind_ok_iff, Nat.reduceMod, one_ne_zero, ↓reduceIte] at h
      obtain ⟨v, h1, h2⟩ := h
      cases h2
      rw [dpow_three _ _ ha] at h1
      obtain ⟨s, h3, h4⟩ := h1
      refine ⟨⟨s, false⟩, by simp [SD.mul, h3], ?_⟩
      have h5 : SD.mul ⟨s, false⟩ a = .ok ⟨v, a.neg⟩ := by simp [SD.mul, h4]
      exact ((C53_mul _ _ _).1 h5).1

/-- −1.5 · 0.333… is cut toward zero; 2 − 3.5 = −1.5 is accepted and cannot become unsigned. -/
example :
    okAnd (SD.mul ⟨15 * 10 ^ 17, true⟩ ⟨333333333333333333, false⟩)
      (fun c => decide (c.toInt = -499999999999999999)) = true ∧
    okAnd (SD.sub (SD.ofDec (2 * DEC)) (SD.ofDec (35 * 10 ^ 17))) (fun c => decide (c.toInt = -(15 * 10 ^ 17))) = true ∧
    fails (SD.tryInto ⟨15 * 10 ^ 17, true⟩) = true := by decide +kernel

end Verif.PCL
