import Verif.TokenFactory.Props
import Verif.Base.Dec
import Mathlib.Data.List.TakeWhile

/-!
# C192: numbers passed to and from the Injective exchange

packages/astroport/src/injective_ext.rs converts the pool's decimals into the exchange's signed ones by way of text, and
back; packages/astroport/src/cosmwasm_ext.rs shortens 256 bit decimals.  Decimals are their atomics (18 digits).
-/

namespace Verif.Inj.Numbers

open Verif.TokenFactory (Bytes digits digits_ok digits_ne readDec readDec_digits)

/-! ## Model -/

/-- `FPDecimal` of injective-math: `sign` 0 is negative (packages/astroport/src/injective_ext.rs:39, 55). -/
structure FP where
  positive : Bool
  num : Nat
  deriving DecidableEq, Repr

/-- `n` with `k` digits. -/
def padded : Nat → Nat → Bytes
  | 0, _ => []
  | k + 1, n => padded k (n / 10) ++ [48 + n % 10]

/-- `trim_end_matches('0')`. -/
def trim (s : Bytes) : Bytes := (s.reverse.dropWhile (· == 48)).reverse

/-- `Display` of `Decimal` and `Decimal256` in cosmwasm-std, used at packages/astroport/src/injective_ext.rs:72 and 80
(46 is the point). -/
def toText (v : Nat) : Bytes :=
  if v % DEC = 0 then digits (v / DEC) else digits (v / DEC) ++ 46 :: trim (padded 18 (v % DEC))

/-- `FPDecimal::from_str` of injective-math, used at packages/astroport/src/injective_ext.rs:72 and 80: an optional minus
sign (45), digits, and at most 18 digits after a point.  (Not code of this repository; as far as the texts above
use it.) -/
def fromText (t : Bytes) : Option FP :=
  let neg := t.head? = some 45
  let u := if neg then t.tail else t
  let w := u.takeWhile (· != 46)
  let v := match u.dropWhile (· != 46) with
    | [] => (readDec w).map (· * DEC)
    | _ :: f => if f.length ≤ 18 then
        (readDec w).bind fun a => (readDec f).map fun b => a * DEC + b * 10 ^ (18 - f.length)
      else none
  v.bind fun n => if n < U256 then some ⟨!neg, n⟩ else none

/-- `ConvertInto<FPDecimal>` for `Decimal` and `Decimal256`, packages/astroport/src/injective_ext.rs:68-82. -/
def toFP (v : Nat) : Res FP := orErr (fromText (toText v)) (.invalid "FPDecimal")

/-- `ConvertInto<Decimal> for FPDecimal`, packages/astroport/src/injective_ext.rs:35-49. -/
def fpToDec (x : FP) : Res Nat := do
  require (x.positive = true) (.invalid "NegativeValue")
  let n ← u128 x.num
  u128 (n * DEC / DEC)

/-- `ConvertInto<Decimal256> for FPDecimal`, packages/astroport/src/injective_ext.rs:51-66. -/
def fpToDec256 (x : FP) : Res Nat := do
  require (x.positive = true) (.invalid "NegativeValue")
  dec256FromRatio x.num DEC

/-- `ConvertInto<Decimal> for Decimal256`, packages/astroport/src/cosmwasm_ext.rs:63-71: the numerator must fit; 18 places on
both sides. -/
def shorten (v : Nat) : Res Nat := u128 v

/-! ## Lemmas -/

theorem fold_shift (l : Bytes) (a : Nat) :
    l.foldl (fun a c => a * 10 + (c - 48)) a = a * 10 ^ l.length + l.foldl (fun a c => a * 10 + (c - 48)) 0 := by
  induction l generalizing a with
  | nil => simp
  | cons c l ih =>
    simp only [List.foldl_cons, List.length_cons]
    rw [ih (a * 10 + (c - 48)), ih (0 * 10 + (c - 48)), Nat.pow_succ]
    ring

theorem fold_zeros (j : Nat) : (List.replicate j 48).foldl (fun a c => a * 10 + (c - 48)) 0 = 0 := by
  induction j with
  | zero => rfl
  | succ j ih => simpa [List.replicate_succ] using ih

theorem padded_length (k n : Nat) : (padded k n).length = k := by
  induction k generalizing n with
  | zero => rfl
  | succ k ih => simp [padded, ih]

theorem padded_digits (k n : Nat) : ∀ c ∈ padded k n, 48 ≤ c ∧ c ≤ 57 := by
  induction k generalizing n with
  | zero => simp [padded]
  | succ k ih =>
    intro c hc
    rcases List.mem_append.1 hc with hc | hc
    · exact ih _ c hc
    · rw [List.mem_singleton] at hc; omega

theorem padded_value (k n : Nat) : (padded k n).foldl (fun a c => a * 10 + (c - 48)) 0 = n % 10 ^ k := by
  induction k generalizing n with
  | zero => simp [padded, Nat.mod_one]
  | succ k ih =>
    rw [padded, List.foldl_append, ih]
    simp only [List.foldl_cons, List.foldl_nil]
    rw [Nat.pow_succ, Nat.mul_comm (10 ^ k) 10, Nat.mod_mul]
    omega

theorem trim_spec (s : Bytes) : ∃ j, s = trim s ++ List.replicate j 48 := by
  have h := List.takeWhile_append_dropWhile (p := (· == 48)) (l := s.reverse)
  refine ⟨(s.reverse.takeWhile (· == 48)).length, ?_⟩
  have e : s.reverse.takeWhile (· == 48) = List.replicate (s.reverse.takeWhile (· == 48)).length 48 := by
    rw [List.eq_replicate_iff]
    refine ⟨rfl, fun b hb => ?_⟩
    simpa using List.mem_takeWhile_imp hb
  have h2 : s = (s.reverse.dropWhile (· == 48)).reverse ++ (s.reverse.takeWhile (· == 48)).reverse := by
    rw [← List.reverse_append, h, List.reverse_reverse]
  rw [e, List.reverse_replicate] at h2
  exact h2

theorem no_point {s : Bytes} (h : ∀ c ∈ s, 48 ≤ c ∧ c ≤ 57) : ∀ c ∈ s, (c != 46) = true := fun c hc => by
  have := h c hc
  simp only [bne_iff_ne, ne_eq]; omega

theorem head_digit {s r : Bytes} (h : ∀ c ∈ s, 48 ≤ c ∧ c ≤ 57) (h0 : s ≠ []) : ¬ (s ++ r).head? = some 45 := by
  cases s with
  | nil => exact absurd rfl h0
  | cons c s =>
    simp only [List.cons_append, List.head?_cons, Option.some.injEq]
    have := h c (List.mem_cons_self ..)
    omega

/-- Reading the text of a decimal. -/
theorem fromText_toText (v : Nat) (hv : v < U256) : fromText (toText v) = some ⟨true, v⟩ := by
  have hw := digits_ok (v / DEC)
  have hne := digits_ne (v / DEC)
  by_cases h0 : v % DEC = 0
  · have hh := head_digit (r := []) hw.1 hne
    rw [List.append_nil] at hh
    have e : v / DEC * DEC = v := by
      have := Nat.div_add_mod v DEC
      rw [h0, Nat.mul_comm] at this
      omega
    have t1 : (digits (v / DEC)).takeWhile (· != 46) = digits (v / DEC) :=
      List.takeWhile_eq_self_iff.2 (no_point hw.1)
    have t2 : (digits (v / DEC)).dropWhile (· != 46) = [] := List.dropWhile_eq_nil_iff.2 (no_point hw.1)
    simp only [fromText, toText, if_pos h0, hh, if_false, t1, t2, readDec_digits, Option.map_some, e,
      Option.bind_some, hv, if_true, decide_false, Bool.not_false]
  · have hh := head_digit (r := 46 :: trim (padded 18 (v % DEC))) hw.1 hne
    have t1 : (digits (v / DEC) ++ 46 :: trim (padded 18 (v % DEC))).takeWhile (· != 46) = digits (v / DEC) := by
      rw [List.takeWhile_append_of_pos (no_point hw.1)]
      simp
    have t2 : (digits (v / DEC) ++ 46 :: trim (padded 18 (v % DEC))).dropWhile (· != 46)
        = 46 :: trim (padded 18 (v % DEC)) := by
      rw [List.dropWhile_append_of_pos (no_point hw.1)]
      simp
    obtain ⟨j, hj⟩ := trim_spec (padded 18 (v % DEC))
    have hl : (trim (padded 18 (v % DEC))).length + j = 18 := by
      have := congrArg List.length hj
      rw [padded_length, List.length_append, List.length_replicate] at this
      omega
    have hval := padded_value 18 (v % DEC)
    have hdec : DEC = 10 ^ 18 := by decide
    rw [hj, List.foldl_append, fold_shift, fold_zeros, List.length_replicate, Nat.add_zero, ← hdec,
      Nat.mod_mod] at hval
    have hd : ∀ c ∈ trim (padded 18 (v % DEC)), 48 ≤ c ∧ c ≤ 57 := fun c hc => by
      refine padded_digits 18 (v % DEC) c ?_
      rw [hj]
      exact List.mem_append_left _ hc
    have hn : trim (padded 18 (v % DEC)) ≠ [] := fun h => by
      rw [h] at hval
      simp at hval
      exact h0 hval.symm
    have hr : readDec (trim (padded 18 (v % DEC)))
        = some ((trim (padded 18 (v % DEC))).foldl (fun a c => a * 10 + (c - 48)) 0) := by
      unfold readDec
      rw [if_pos ⟨hn, by simpa using hd⟩]
    have e18 : 18 - (trim (padded 18 (v % DEC))).length = j := by omega
    have e : v / DEC * DEC + v % DEC = v := by
      have := Nat.div_add_mod v DEC
      rw [Nat.mul_comm] at this
      exact this
    simp only [fromText, toText, if_neg h0, hh, if_false, t1, t2, readDec_digits, hr, Option.map_some,
      Option.bind_some, e18, hval, e, decide_false, Bool.not_false]
    rw [if_pos (by omega)]
    simp [hv]

/-! ## C192 -/

/-- **C192**: every decimal the pool passes to the exchange arrives there as the same number (positive, to the last of 18
digits), and what comes back from it is the number the exchange meant: as a 256 bit decimal always, as a 128 bit decimal
exactly if it fits, and a negative number never.  Shortening a 256 bit decimal keeps the number or is refused, exactly
when it does not fit. -/
theorem C192_numbers_arrive_exactly :
    (∀ v, v < 2 ^ 256 → toFP v = .ok ⟨true, v⟩) ∧
    (∀ x r, x.num < 2 ^ 256 → (fpToDec256 x = .ok r ↔ x.positive = true ∧ r = x.num)) ∧
    (∀ x r, fpToDec x = .ok r ↔ x.positive = true ∧ x.num < 2 ^ 128 ∧ r = x.num) ∧
    (∀ v r, shorten v = .ok r ↔ v < 2 ^ 128 ∧ r = v) := by
  have hc : ∀ n : Nat, n * DEC / DEC = n := fun n => Nat.mul_div_cancel _ (by decide)
  refine ⟨fun v hv => ?_, fun x r hx => ?_, fun x r => ?_, fun v r => ?_⟩
  · rw [toFP, fromText_toText v hv]
    rfl
  · simp only [fpToDec256, bind_ok_iff, require_ok, exists_const, dec256FromRatio_ok, hc]
    constructor
    · rintro ⟨h1, _, _, rfl⟩; exact ⟨h1, rfl⟩
    · rintro ⟨h1, rfl⟩; exact ⟨h1, by decide, hx, rfl⟩
  · simp only [fpToDec, bind_ok_iff, require_ok, exists_const, u128_ok, hc]
    constructor
    · rintro ⟨h1, _, ⟨h2, rfl⟩, _, rfl⟩; exact ⟨h1, h2, rfl⟩
    · rintro ⟨h1, h2, rfl⟩; exact ⟨h1, _, ⟨h2, rfl⟩, h2, rfl⟩
  · simp only [shorten, u128_ok]
    constructor
    · rintro ⟨h, rfl⟩; exact ⟨h, rfl⟩
    · rintro ⟨h, rfl⟩; exact ⟨h, rfl⟩

/-- **C192**: there and back again, and different decimals are never confused. -/
theorem C192_round_trip (v w : Nat) (hv : v < 2 ^ 256) (hw : w < 2 ^ 256) :
    (toFP v >>= fpToDec256) = .ok v ∧ (toText v = toText w → v = w) := by
  constructor
  · rw [C192_numbers_arrive_exactly.1 v hv, ok_bind]
    exact (C192_numbers_arrive_exactly.2.1 _ _ hv).2 ⟨rfl, rfl⟩
  · intro h
    have h1 := fromText_toText v hv
    rw [h, fromText_toText w hw] at h1
    exact (congrArg FP.num (Option.some.inj h1)).symm

/-- 12.05, one unit of the last digit, a whole number, and a negative and a large number of the exchange. -/
example : toText (1205 * 10 ^ 16) = [49, 50, 46, 48, 53] ∧ toFP (1205 * 10 ^ 16) = .ok ⟨true, 1205 * 10 ^ 16⟩ ∧
    toFP 1 = .ok ⟨true, 1⟩ ∧ toText (3 * 10 ^ 18) = [51] ∧ fails (fpToDec ⟨false, 5⟩) = true ∧
    fails (fpToDec ⟨true, 2 ^ 128⟩) = true ∧ fpToDec256 ⟨true, 2 ^ 128⟩ = .ok (2 ^ 128) := by
  decide +kernel

end Verif.Inj.Numbers
