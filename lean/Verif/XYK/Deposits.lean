import Verif.XYK.History

/-!
# C91: limits on deposits into constant product pools
-/

namespace Verif.XYK

variable {A : Type} [DecidableEq A]

/-- One direction of the slippage check, in rationals. -/
theorem ratio_within {d0 d1 p0 p1 tol : Nat} (ht : tol ≤ DEC) (h0 : d1 ≠ 0) (h1 : p1 ≠ 0)
    (h : decMul (d0 * DEC / d1) (DEC - tol) ≤ p0 * DEC / p1) :
    (1 - (tol : ℚ) / 10 ^ 18) * ((d0 : ℚ) / d1 - 1 / 10 ^ 18) - 1 / 10 ^ 18 ≤ (p0 : ℚ) / p1 := by
  have hDq : (DEC : ℚ) = 10 ^ 18 := by norm_num [DEC]
  have hDp := DEC_pos
  obtain ⟨a, ha⟩ : ∃ a, d0 * DEC / d1 = a := ⟨_, rfl⟩
  obtain ⟨b, hb⟩ : ∃ b, p0 * DEC / p1 = b := ⟨_, rfl⟩
  rw [ha, hb] at h
  have a1 : d0 * DEC < (a + 1) * d1 := by rw [← ha]; exact lt_succ_div_mul _ (Nat.pos_of_ne_zero h0)
  have b1 : b * p1 ≤ p0 * DEC := by rw [← hb]; exact Nat.div_mul_le_self _ _
  have c1 : a * (DEC - tol) < (b + 1) * DEC := by
    have : a * (DEC - tol) / DEC ≤ b := h
    refine lt_of_lt_of_le (lt_succ_div_mul _ hDp) ?_
    exact Nat.mul_le_mul_right _ (by omega)
  have d1q : (0 : ℚ) < d1 := by exact_mod_cast Nat.pos_of_ne_zero h0
  have p1q : (0 : ℚ) < p1 := by exact_mod_cast Nat.pos_of_ne_zero h1
  have a1q : (d0 : ℚ) * 10 ^ 18 < (a + 1) * d1 := by rw [← hDq]; exact_mod_cast a1
  have b1q : (b : ℚ) * p1 ≤ p0 * 10 ^ 18 := by rw [← hDq]; exact_mod_cast b1
  have c1q : (a : ℚ) * (10 ^ 18 - tol) < (b + 1) * 10 ^ 18 := by
    rw [← hDq, ← Nat.cast_sub ht]; exact_mod_cast c1
  have x1 : (d0 : ℚ) / d1 - 1 / 10 ^ 18 ≤ a / 10 ^ 18 := by
    have : (d0 : ℚ) / d1 ≤ (a + 1) / 10 ^ 18 := by
      rw [div_le_div_iff₀ d1q (by norm_num)]; exact a1q.le
    rw [add_div] at this
    linarith
  have x2 : (b : ℚ) / 10 ^ 18 ≤ p0 / p1 := by
    rw [div_le_div_iff₀ (by norm_num) p1q]; exact b1q
  have htq : (0 : ℚ) ≤ 1 - (tol : ℚ) / 10 ^ 18 := by
    have : (tol : ℚ) ≤ 10 ^ 18 := by rw [← hDq]; exact_mod_cast ht
    rw [sub_nonneg, div_le_one (by norm_num)]; exact this
  have x3 : (1 - (tol : ℚ) / 10 ^ 18) * (a / 10 ^ 18) ≤ b / 10 ^ 18 + 1 / 10 ^ 18 := by
    have e : (1 - (tol : ℚ) / 10 ^ 18) * (a / 10 ^ 18) = (a * (10 ^ 18 - tol)) / 10 ^ 18 / 10 ^ 18 := by
      field_simp
    rw [e, ← add_div, div_le_div_iff_of_pos_right (by norm_num), div_le_iff₀ (by norm_num)]
    exact c1q.le
  have := mul_le_mul_of_nonneg_left x1 htq
  linarith

/-- **C91.** A successful deposit into a pool with liquidity keeps, in both directions, the ratio of the deposited
amounts within the slippage tolerance (half a percent by default, never more than 50%) of the ratio of the reserves,
up to two units of the 18th digit; both amounts are positive. -/
theorem C91_deposit_slippage_enforced (me : A) (s s' : State A) (now : Nat) (u : A) (hu : u ≠ me) (d0 d1 : Nat)
    (tol minLp : Option Nat) (r : A) (share : Nat) (hs : s.supply ≠ 0)
    (h : provide me s now u d0 d1 tol minLp r = .ok (s', share)) :
    let t : ℚ := ((tol.getD 5000000000000000 : ℕ) : ℚ) / 10 ^ 18
    let p0 : ℚ := s.bal false me
    let p1 : ℚ := s.bal true me
    t ≤ 1 / 2 ∧ 0 < d0 ∧ 0 < d1 ∧ 0 < p0 ∧ 0 < p1 ∧
    (1 - t) * ((d0 : ℚ) / d1 - 1 / 10 ^ 18) - 1 / 10 ^ 18 ≤ p0 / p1 ∧
    (1 - t) * ((d1 : ℚ) / d0 - 1 / 10 ^ 18) - 1 / 10 ^ 18 ≤ p1 / p0 := by
  intro t p0 p1
  have sp := (provide_spec hu h).hshare
  unfold calculateShares at sp
  rw [if_neg hs] at sp
  simp only [assertSlippageTolerance, bind_ok_iff, require_ok, exists_const, csub_ok, dec256FromRatio_ok,
    mulRatio_ok] at sp
  obtain ⟨⟨ht, _, ⟨_, rfl⟩, _, ⟨h1, _, rfl⟩, _, ⟨h2, _, rfl⟩, _, ⟨h3, _, rfl⟩, _, ⟨h4, _, rfl⟩, hc⟩, _⟩ := sp
  have hd : (defaultSlippage : Nat) = 5000000000000000 := rfl
  have hm : (maxAllowedSlippage : Nat) = 5 * 10 ^ 17 := rfl
  have hD : DEC = 10 ^ 18 := rfl
  rw [hd] at hc ht
  rw [hm] at ht
  have hT : tol.getD 5000000000000000 ≤ 5 * 10 ^ 17 := by omega
  have hle : tol.getD 5000000000000000 ≤ DEC := by omega
  refine ⟨?_, by omega, by omega, ?_, ?_, ?_, ?_⟩
  · have : ((tol.getD 5000000000000000 : ℕ) : ℚ) ≤ 5 * 10 ^ 17 := by exact_mod_cast hT
    simp only [t]
    rw [div_le_iff₀ (by norm_num)]
    linarith
  · simp only [p0]; exact_mod_cast Nat.pos_of_ne_zero h4
  · simp only [p1]; exact_mod_cast Nat.pos_of_ne_zero h2
  · exact ratio_within hle h1 h2 (Nat.le_of_not_lt fun h => hc (Or.inl h))
  · exact ratio_within hle h3 h4 (Nat.le_of_not_lt fun h => hc (Or.inr h))

/-- Non-vacuity: a deposit within half a percent of the ratio of the reserves is accepted, one 10% off in either
direction is refused unless tolerated. -/
example : okAnd (provide 0 demo 9 2 4010 9000 none none 2) (fun x => decide (x.2 = 6000)) = true ∧
    fails (provide 0 demo 9 2 4400 9000 none none 2) = true ∧ fails (provide 0 demo 9 2 4000 9900 none none 2) = true ∧
    okAnd (provide 0 demo 9 2 4400 9000 (some (2 * 10 ^ 17)) none 2) (fun x => decide (x.2 = 6000)) = true ∧
    fails (provide 0 demo 9 2 4000 9000 (some (6 * 10 ^ 17)) none 2) = true := by decide +kernel

/-- **C91.** The deposit message names each of the two pool assets exactly once, with a positive amount, in either
order; nothing else is accepted. -/
theorem C91_deposits_name_each_asset_once {I : Type} [DecidableEq I] (assets : List (I × Nat)) (i0 i1 : I)
    (hne : i0 ≠ i1) (a b : Nat) :
    getDeposits assets i0 i1 = .ok (a, b) ↔
      a ≠ 0 ∧ b ≠ 0 ∧ (assets = [(i0, a), (i1, b)] ∨ assets = [(i1, b), (i0, a)]) := by
  unfold getDeposits
  simp only [bind_ok_iff, require_ok, exists_const, orErr_ok, Except.ok.injEq, Prod.mk.injEq]
  constructor
  · rintro ⟨hl, ⟨j, x⟩, h1, ⟨k, y⟩, h2, hz, rfl, rfl⟩
    obtain ⟨p, q, rfl⟩ := List.length_eq_two.1 hl
    obtain ⟨p1, p2⟩ := p
    obtain ⟨q1, q2⟩ := q
    simp only [List.find?_cons, List.find?_nil] at h1 h2
    refine ⟨fun h => hz (Or.inl h), fun h => hz (Or.inr h), ?_⟩
    by_cases e1 : p1 = i0
    · have e2 : p1 ≠ i1 := fun h => hne (e1.symm.trans h)
      simp only [e1, decide_true, Option.some.injEq, Prod.mk.injEq] at h1
      simp only [e2, decide_false] at h2
      by_cases e3 : q1 = i1
      · simp only [e3, decide_true, Option.some.injEq, Prod.mk.injEq] at h2
        left; simp [e1, e3, h1.2, h2.2]
      · simp [e3] at h2
    · simp only [e1, decide_false] at h1
      by_cases e3 : q1 = i0
      · simp only [e3, decide_true, Option.some.injEq, Prod.mk.injEq] at h1
        by_cases e4 : p1 = i1
        · simp only [e4, decide_true, Option.some.injEq, Prod.mk.injEq] at h2
          right; simp [e3, e4, h1.2, h2.2]
        · simp [e4, e3, hne] at h2
      · simp [e3] at h1
  · rintro ⟨ha, hb, rfl | rfl⟩
    · exact ⟨rfl, (i0, a), by simp, (i1, b), by simp [hne], by simp [ha, hb], rfl, rfl⟩
    · exact ⟨rfl, (i0, a), by simp [Ne.symm hne], (i1, b), by simp, by simp [ha, hb], rfl, rfl⟩

/-- Non-vacuity. -/
example : okAnd (getDeposits [(7, 5), (3, 4)] 3 7) (fun x => x = (4, 5)) = true ∧
    fails (getDeposits [(7, 5), (3, 0)] 3 7) = true ∧ fails (getDeposits [(7, 5), (7, 4)] 3 7) = true ∧
    fails (getDeposits [(7, 5), (3, 4), (3, 4)] 3 7) = true := by decide

end Verif.XYK
