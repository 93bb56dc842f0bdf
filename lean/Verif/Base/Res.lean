import Mathlib.Tactic.SplitIfs
import Mathlib.Tactic.Linarith
import Mathlib.Tactic.Ring
import Mathlib.Tactic.NormNum
import Mathlib.Tactic.Positivity

/-!
# Results, errors, checked integer arithmetic

Rust `Result` is `Except Err`; panics (which abort and revert a CosmWasm transaction just like an
`Err`) are also `Except.error`.
-/

namespace Verif

/-- Everything that can make a call fail, named after the error variants of the contracts. -/
inductive Err
  | unauthorized | overflow | underflow | divByZero | invalid (s : String)
  deriving DecidableEq, Repr

/-- Rust `Result<α, ContractError>` (with panics folded into the error side). -/
abbrev Res (α : Type) := Except Err α

/-- `if !cond { return Err(e) }`. -/
def require (c : Prop) [Decidable c] (e : Err) : Res Unit :=
  if c then .ok () else .error e

/-- `Option::ok_or(e)?`. -/
def orErr {α : Type} (o : Option α) (e : Err) : Res α :=
  match o with
  | some a => .ok a
  | none => .error e

/-- `2^128`, one more than `Uint128::MAX`. -/
def U128 : Nat := 2 ^ 128
/-- `2^256`, one more than `Uint256::MAX`. -/
def U256 : Nat := 2 ^ 256

/-- A value that must fit `Uint128` (cosmwasm-std arithmetic panics / errors otherwise). -/
def u128 (n : Nat) : Res Nat := if n < U128 then .ok n else .error .overflow
/-- A value that must fit `Uint256`. -/
def u256 (n : Nat) : Res Nat := if n < U256 then .ok n else .error .overflow
/-- `checked_sub` / panicking `-` on unsigned integers. -/
def csub (a b : Nat) : Res Nat := if b ≤ a then .ok (a - b) else .error .underflow
/-- Truncating division that fails on a zero divisor. -/
def cdiv (a b : Nat) : Res Nat := if b = 0 then .error .divByZero else .ok (a / b)
/-- `Uint128::multiply_ratio` (cosmwasm-std 1.x `math/uint128.rs`): floor of `a*n/d`, failing for
`d = 0` or a result beyond `Uint128`.  (The product is taken in 256 bits, which cannot overflow.) -/
def mulRatio (a n d : Nat) : Res Nat := do
  let r ← cdiv (a * n) d
  u128 r

/-- Did the call succeed? -/
def Succeeds {α : Type} (r : Res α) : Prop := ∃ a, r = .ok a

section inversion
variable {α β : Type}

@[simp] theorem bind_ok_iff (x : Res α) (f : α → Res β) (b : β) :
    (x >>= f) = .ok b ↔ ∃ a, x = .ok a ∧ f a = .ok b := by
  cases x <;> simp [bind, Except.bind]

@[simp] theorem ok_bind (a : α) (f : α → Res β) : ((.ok a : Res α) >>= f) = f a := rfl
@[simp] theorem error_bind (e : Err) (f : α → Res β) : ((.error e : Res α) >>= f) = .error e := rfl
@[simp] theorem pure_eq_ok (a : α) : (pure a : Res α) = .ok a := rfl
@[simp] theorem throw_eq_error (e : Err) : (throw e : Res α) = .error e := rfl
@[simp] theorem map_ok_iff (x : Res α) (f : α → β) (b : β) :
    (f <$> x) = .ok b ↔ ∃ a, x = .ok a ∧ f a = b := by
  cases x <;> simp [Functor.map, Except.map]

@[simp] theorem require_ok (c : Prop) [Decidable c] (e : Err) (u : Unit) :
    require c e = .ok u ↔ c := by
  unfold require; split <;> simp_all

@[simp] theorem orErr_ok (o : Option α) (e : Err) (a : α) : orErr o e = .ok a ↔ o = some a := by
  cases o <;> simp [orErr]

@[simp] theorem u128_ok (n m : Nat) : u128 n = .ok m ↔ n < U128 ∧ n = m := by
  unfold u128; split <;> simp_all
@[simp] theorem u256_ok (n m : Nat) : u256 n = .ok m ↔ n < U256 ∧ n = m := by
  unfold u256; split <;> simp_all
@[simp] theorem csub_ok (a b m : Nat) : csub a b = .ok m ↔ b ≤ a ∧ a - b = m := by
  unfold csub; split <;> simp_all
@[simp] theorem cdiv_ok (a b m : Nat) : cdiv a b = .ok m ↔ b ≠ 0 ∧ a / b = m := by
  unfold cdiv; split <;> simp_all
@[simp] theorem mulRatio_ok (a n d m : Nat) :
    mulRatio a n d = .ok m ↔ d ≠ 0 ∧ a * n / d < U128 ∧ a * n / d = m := by
  unfold mulRatio; simp [and_assoc]

@[simp] theorem ite_error_ok (c : Prop) [Decidable c] (e : Err) (x : Res α) (a : α) :
    (if c then .error e else x) = .ok a ↔ ¬ c ∧ x = .ok a := by
  split <;> simp_all
end inversion

/-- A failed transaction leaves the state as it was. -/
def commit {σ α : Type} (s : σ) (r : Res (σ × α)) : σ :=
  match r with
  | .ok (s', _) => s'
  | .error _ => s

/-- The call succeeds and its result satisfies the test `p` (used by the concrete examples). -/
def okAnd {α : Type} (r : Res α) (p : α → Bool) : Bool :=
  match r with
  | .ok a => p a
  | .error _ => false

theorem okAnd_iff {α : Type} {r : Res α} {p : α → Bool} :
    okAnd r p = true ↔ ∃ a, r = .ok a ∧ p a = true := by
  cases r <;> simp [okAnd]

/-- The call fails. -/
def fails {α : Type} (r : Res α) : Bool :=
  match r with
  | .ok _ => false
  | .error _ => true

theorem fails_iff {α : Type} {r : Res α} : fails r = true ↔ ∀ a, r ≠ .ok a := by
  cases r <;> simp [fails]

/-- Same for calls whose only result is the new state. -/
def commit' {σ : Type} (s : σ) (r : Res σ) : σ :=
  match r with
  | .ok s' => s'
  | .error _ => s

@[simp] theorem commit'_ok {σ : Type} (s s' : σ) : commit' s (.ok s') = s' := rfl
@[simp] theorem commit'_error {σ : Type} (s : σ) (e : Err) : commit' s (.error e) = s := rfl
@[simp] theorem commit_ok {σ α : Type} (s s' : σ) (a : α) : commit s (.ok (s', a)) = s' := rfl
@[simp] theorem commit_error {σ α : Type} (s : σ) (e : Err) :
    commit s (.error e : Res (σ × α)) = s := rfl

theorem commit'_inv {σ : Type} (P : σ → Prop) {s : σ} {r : Res σ} (h : P s)
    (hok : ∀ s', r = .ok s' → P s') : P (commit' s r) := by
  cases r with
  | error e => simpa
  | ok s' => exact hok s' rfl

theorem commit_inv {σ α : Type} (P : σ → Prop) {s : σ} {r : Res (σ × α)} (h : P s)
    (hok : ∀ s' a, r = .ok (s', a) → P s') : P (commit s r) := by
  cases r with
  | error e => simpa
  | ok p => exact hok p.1 p.2 rfl

end Verif
