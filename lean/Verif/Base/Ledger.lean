import Verif.Base.Res
import Mathlib.Algebra.BigOperators.Group.Finset.Piecewise
import Mathlib.Algebra.Order.BigOperators.Group.Finset
import Mathlib.Data.Fintype.Basic
import Mathlib.Data.Fintype.BigOperators

/-!
# Token ledgers

A ledger of one token is a function from accounts to balances.  `debit` fails when funds are missing
(as the bank module and cw20 tokens do).
-/

namespace Verif

variable {A : Type} [DecidableEq A]

/-- Add `n` tokens to `a`. -/
def credit (l : A → Nat) (a : A) (n : Nat) : A → Nat := Function.update l a (l a + n)

/-- Take `n` tokens from `a`; error if the balance is insufficient. -/
def debit (l : A → Nat) (a : A) (n : Nat) : Res (A → Nat) :=
  if n ≤ l a then .ok (Function.update l a (l a - n)) else .error .underflow

/-- Transfer `n` tokens. -/
def move (l : A → Nat) (src dst : A) (n : Nat) : Res (A → Nat) := do
  let l ← debit l src n
  .ok (credit l dst n)

@[simp] theorem credit_self (l : A → Nat) (a : A) (n : Nat) : credit l a n a = l a + n := by
  simp [credit]

theorem credit_of_ne (l : A → Nat) {a b : A} (n : Nat) (h : b ≠ a) : credit l a n b = l b := by
  simp [credit, h]

theorem credit_apply (l : A → Nat) (a b : A) (n : Nat) :
    credit l a n b = if b = a then l b + n else l b := by
  by_cases h : b = a
  · subst h; simp
  · simp [credit, h]

theorem debit_ok {l l' : A → Nat} {a : A} {n : Nat} :
    debit l a n = .ok l' ↔ n ≤ l a ∧ l' = Function.update l a (l a - n) := by
  unfold debit; split <;> simp_all [eq_comm]

theorem debit_apply {l l' : A → Nat} {a : A} {n : Nat} (h : debit l a n = .ok l') (b : A) :
    l' b = if b = a then l b - n else l b := by
  obtain ⟨_, rfl⟩ := debit_ok.1 h
  by_cases hb : b = a
  · subst hb; simp
  · simp [hb]

theorem debit_le {l l' : A → Nat} {a : A} {n : Nat} (h : debit l a n = .ok l') : n ≤ l a :=
  (debit_ok.1 h).1

theorem move_ok {l l' : A → Nat} {a b : A} {n : Nat} :
    move l a b n = .ok l' ↔ ∃ l₁, debit l a n = .ok l₁ ∧ l' = credit l₁ b n := by
  unfold move
  simp only [bind_ok_iff, Except.ok.injEq]
  constructor <;> rintro ⟨l₁, h1, h2⟩ <;> exact ⟨l₁, h1, h2.symm⟩

theorem move_apply {l l' : A → Nat} {a b : A} {n : Nat} (h : move l a b n = .ok l') (c : A) :
    l' c = (if c = a then l c - n else l c) + (if c = b then n else 0) := by
  obtain ⟨l₁, h1, rfl⟩ := move_ok.1 h
  rw [credit_apply, debit_apply h1]
  split <;> split <;> simp

theorem move_le {l l' : A → Nat} {a b : A} {n : Nat} (h : move l a b n = .ok l') : n ≤ l a := by
  obtain ⟨l₁, h1, rfl⟩ := move_ok.1 h
  exact debit_le h1

theorem move_succeeds {l : A → Nat} {a b : A} {n : Nat} (h : n ≤ l a) :
    ∃ l', move l a b n = .ok l' := by
  simp [move, debit, h]

variable [Fintype A]

theorem sum_credit (l : A → Nat) (a : A) (n : Nat) : ∑ x, credit l a n x = ∑ x, l x + n := by
  simp only [credit_apply]
  rw [show (fun x => if x = a then l x + n else l x) = fun x => l x + (if x = a then n else 0) from
    funext fun x => by split <;> simp]
  rw [Finset.sum_add_distrib]; simp

theorem sum_debit {l l' : A → Nat} {a : A} {n : Nat} (h : debit l a n = .ok l') :
    ∑ x, l' x + n = ∑ x, l x := by
  have hle := debit_le h
  have : l = credit l' a n := by
    funext x
    rw [credit_apply, debit_apply h]
    by_cases hx : x = a
    · subst hx; simp; omega
    · simp [hx]
  conv_rhs => rw [this]
  rw [sum_credit]

theorem sum_move {l l' : A → Nat} {a b : A} {n : Nat} (h : move l a b n = .ok l') :
    ∑ x, l' x = ∑ x, l x := by
  obtain ⟨l₁, h1, rfl⟩ := move_ok.1 h
  rw [sum_credit, sum_debit h1]

omit [DecidableEq A] in
theorem le_sum (l : A → Nat) (a : A) : l a ≤ ∑ x, l x :=
  Finset.single_le_sum (fun _ _ => Nat.zero_le _) (Finset.mem_univ a)

theorem add_le_sum (l : A → Nat) {a b : A} (h : a ≠ b) : l a + l b ≤ ∑ x, l x := by
  rw [← Finset.sum_pair h]
  exact Finset.sum_le_sum_of_subset (Finset.subset_univ _)

end Verif
