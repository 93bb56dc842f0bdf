import Verif.Staking.Model

namespace Verif.Staking
variable {A : Type} [DecidableEq A]

theorem mintAmount_ok {D S a locked m : Nat} (h : mintAmount D S a = .ok (locked, m)) :
    ((S = 0 ∨ D = 0) ∧ 1000 < a ∧ locked = 1000 ∧ m = a - 1000) ∨
    (0 < S ∧ 0 < D ∧ locked = 0 ∧ m = a * S / D ∧ 0 < m ∧ m < U128) := by
  unfold mintAmount at h
  split at h
  next hc =>
    left
    simp only [ite_error_ok, Except.ok.injEq, Prod.mk.injEq] at h
    obtain ⟨h1, h2, h3⟩ := h
    have : minimumStake = 1000 := rfl
    refine ⟨hc, ?_, ?_, ?_⟩ <;> omega
  next hc =>
    right
    simp only [bind_ok_iff, mulRatio_ok, ite_error_ok, Except.ok.injEq, Prod.mk.injEq] at h
    obtain ⟨b, ⟨h1, h2, h3⟩, h4, h5, h6⟩ := h
    subst h6
    refine ⟨by omega, by omega, h5.symm, h3.symm, by omega, by omega⟩

/-- What a successful `enter` does, spelled out. -/
structure EnterSpec (me : A) (s : State A) (u : A) (n : Nat) (r : A) (s' : State A) (m : Nat) where
  locked : Nat
  hn : n ≠ 0
  hfund : n ≤ s.astro u
  hmint : mintAmount (s.astro me) s.xSupply n = .ok (locked, m)
  hsup : s'.xSupply = s.xSupply + locked + m
  hx : ∀ c, s'.xastro c = s.xastro c + (if c = me then locked else 0) + (if c = r then m else 0)
  ha : ∀ c, s'.astro c = (if c = u then s.astro c - n else s.astro c) + (if c = me then n else 0)

theorem enter_spec {me : A} {s : State A} {u : A} {n : Nat} {r : A} {s' : State A} {m : Nat}
    (hu : u ≠ me) (h : enter me s u n r = .ok (s', m)) :
    Nonempty (EnterSpec me s u n r s' m) := by
  unfold enter at h
  simp only [bind_ok_iff, require_ok, csub_ok, Except.ok.injEq, Prod.mk.injEq, Prod.exists] at h
  obtain ⟨_, hn, l, hl, d, ⟨_, hd⟩, locked, m', hm, x, hx, rfl, rfl⟩ := h
  have hself : l me = s.astro me + n := by
    rw [move_apply hl]; simp [Ne.symm hu]
  rw [hself] at hd
  have hd' : d = s.astro me := by omega
  subst hd'
  refine ⟨⟨locked, hn, move_le hl, hm, rfl, ?_, fun c => move_apply hl c⟩⟩
  intro c
  show x c = _
  rw [move_apply hx]
  simp only [credit_apply]
  split <;> split <;> omega

/-- What a successful `leave` does. -/
structure LeaveSpec (me : A) (s : State A) (u : A) (n : Nat) (r : A) (s' : State A) (ret : Nat) where
  hn : n ≠ 0
  hfund : n ≤ s.xastro u
  hS : s.xSupply ≠ 0
  hret : ret = n * s.astro me / s.xSupply
  hretle : ret ≤ s.astro me
  hlock : 1 ≤ s'.xastro me
  hsup : s'.xSupply + n = s.xSupply
  hx : ∀ c, s'.xastro c = if c = u then s.xastro c - n else s.xastro c
  ha : ∀ c, s'.astro c = (if c = me then s.astro c - ret else s.astro c) + (if c = r then ret else 0)

theorem leave_spec {me : A} {s : State A} {u : A} {n : Nat} {r : A} {s' : State A} {ret : Nat}
    (h : leave me s u n r = .ok (s', ret)) : LeaveSpec me s u n r s' ret := by
  unfold leave at h
  simp only [bind_ok_iff, require_ok, csub_ok, mulRatio_ok, Except.ok.injEq, Prod.mk.injEq] at h
  obtain ⟨_, hn, x, hx, ret', ⟨hS, _, hret⟩, x2, hx2, sup, ⟨hs1, hs2⟩, l, hl, x3, hx3, rfl, rfl⟩ := h
  have hfin : ∀ c, x3 c = if c = u then s.xastro c - n else s.xastro c := by
    intro c
    have e1 := move_apply hx c
    have e2 := debit_apply hx2 c
    have e3 := move_apply hx3 c
    have hle := move_le hx
    have hle3 := move_le hx3
    have e2' := debit_apply hx2 me
    by_cases hc : c = me
    · subst hc
      by_cases hu : c = u
      · subst hu; simp at e1 e2 e3 ⊢; omega
      · simp [hu] at e1 e2 e3 ⊢; omega
    · by_cases hu : c = u
      · subst hu; simp [hc] at e1 e2 e3 ⊢; omega
      · simp [hc, hu] at e1 e2 e3 ⊢; omega
  refine ⟨hn, move_le hx, hS, hret.symm, move_le hl, ?_, by simp; omega, hfin,
    fun c => move_apply hl c⟩
  have hle3 := move_le hx3
  have e3 := move_apply hx3 me
  simp at e3 ⊢
  omega

/-- ASTRO held by the contract after a successful `leave`. -/
theorem leave_self_ge {me : A} {s : State A} {u : A} {n : Nat} {r : A} {s' : State A} {ret : Nat}
    (h : LeaveSpec me s u n r s' ret) : s.astro me - ret ≤ s'.astro me := by
  have := h.ha me; simp at this; omega

variable [Fintype A]

/-- Reachable-state invariant. -/
structure Inv (me : A) (s : State A) : Prop where
  hsum : s.xSupply = ∑ a, s.xastro a
  hlock : s.xSupply = 0 ∨ (1000 ≤ s.xastro me ∧ 1 ≤ s.astro me)

theorem enter_inv {me : A} {s : State A} {u : A} {n : Nat} {r : A} {s' : State A} {m : Nat}
    (hi : Inv me s) (hu : u ≠ me) (h : EnterSpec me s u n r s' m) : Inv me s' := by
  have hx' : s'.xastro = credit (credit s.xastro me h.locked) r m := by
    funext c
    rw [h.hx]
    simp only [credit_apply]
    split <;> split <;> simp_all
  constructor
  · rw [h.hsup, hx', sum_credit, sum_credit, hi.hsum]
  · right
    have h1 := h.hx me
    have h2 := h.ha me
    have hn := h.hn
    simp [Ne.symm hu] at h1 h2
    rcases mintAmount_ok h.hmint with ⟨_, _, h4, _⟩ | ⟨h3, _, _, _⟩
    · rw [h4] at h1
      exact ⟨by omega, by omega⟩
    · rcases hi.hlock with h0 | h0
      · omega
      · exact ⟨by omega, by omega⟩

omit [DecidableEq A] in
theorem lt_supply {me u : A} {s : State A} (hi : Inv me s) (hu : u ≠ me)
    {n : Nat} (hn : n ≤ s.xastro u) (hS : s.xSupply ≠ 0) : n + 1000 ≤ s.xSupply := by
  classical
  have := add_le_sum s.xastro hu
  rw [← hi.hsum] at this
  rcases hi.hlock with h | h <;> omega

theorem leave_inv {me : A} {s : State A} {u : A} {n : Nat} {r : A} {s' : State A} {ret : Nat}
    (hi : Inv me s) (hself : s'.xastro me ≥ 1000) (h : LeaveSpec me s u n r s' ret) :
    Inv me s' := by
  have hx' : debit s.xastro u n = .ok s'.xastro := by
    rw [debit_ok]
    refine ⟨h.hfund, ?_⟩
    funext c
    rw [h.hx]
    by_cases hc : c = u
    · subst hc; simp
    · simp [hc]
  have hsum' : s'.xSupply = ∑ a, s'.xastro a := by
    have h1 := sum_debit hx'
    have h2 := h.hsup
    have h3 := hi.hsum
    omega
  refine ⟨hsum', Or.inr ⟨hself, ?_⟩⟩
  have h1 := leave_self_ge h
  have h2 := h.hret
  have hS' : 1000 ≤ s'.xSupply := by
    rw [hsum']; exact le_trans hself (le_sum _ _)
  have hS := h.hsup
  have hD : 1 ≤ s.astro me := by
    rcases hi.hlock with h0 | h0
    · omega
    · exact h0.2
  have : ret < s.astro me := by
    rw [h2, Nat.div_lt_iff_lt_mul (by omega)]
    have : n < s.xSupply := by omega
    nlinarith
  omega

/-- Rate comparison: ASTRO per xASTRO did not fall from `s` to `s'`. -/
def RateLe (me : A) (s s' : State A) : Prop :=
  0 < s.xSupply → 0 < s'.xSupply ∧ s.astro me * s'.xSupply ≤ s'.astro me * s.xSupply

omit [DecidableEq A] [Fintype A] in
theorem RateLe.refl (me : A) (s : State A) : RateLe me s s := fun h => ⟨h, le_refl _⟩

omit [DecidableEq A] [Fintype A] in
theorem RateLe.trans {me : A} {s t u : State A} (h1 : RateLe me s t) (h2 : RateLe me t u) :
    RateLe me s u := by
  intro hs
  obtain ⟨ht, e1⟩ := h1 hs
  obtain ⟨hu, e2⟩ := h2 ht
  refine ⟨hu, ?_⟩
  have : t.xSupply * (s.astro me * u.xSupply) ≤ t.xSupply * (u.astro me * s.xSupply) := by
    calc t.xSupply * (s.astro me * u.xSupply) = (s.astro me * t.xSupply) * u.xSupply := by ring
      _ ≤ (t.astro me * s.xSupply) * u.xSupply := Nat.mul_le_mul_right _ e1
      _ = (t.astro me * u.xSupply) * s.xSupply := by ring
      _ ≤ (u.astro me * t.xSupply) * s.xSupply := Nat.mul_le_mul_right _ e2
      _ = _ := by ring
  exact Nat.le_of_mul_le_mul_left this ht

omit [Fintype A] in
theorem enter_rate {me : A} {s : State A} {u : A} {n : Nat} {r : A} {s' : State A} {m : Nat}
    (hu : u ≠ me) (hD : 0 < s.xSupply → 1 ≤ s.astro me)
    (h : EnterSpec me s u n r s' m) : RateLe me s s' := by
  intro hS
  have hs := h.hsup
  have ha := h.ha me
  simp [Ne.symm hu] at ha
  refine ⟨by omega, ?_⟩
  rcases mintAmount_ok h.hmint with ⟨h1 | h1, _⟩ | ⟨_, hD0, h3, h4, _⟩
  · omega
  · have := hD hS; omega
  · rw [hs, ha, h3, h4]
    have := Nat.div_mul_le_self (n * s.xSupply) (s.astro me)
    nlinarith

omit [Fintype A] in
theorem leave_rate {me : A} {s : State A} {u : A} {n : Nat} {r : A} {s' : State A} {ret : Nat}
    (h : LeaveSpec me s u n r s' ret) (hpos : 0 < s'.xSupply) : RateLe me s s' := by
  intro hS
  refine ⟨hpos, ?_⟩
  have h1 := leave_self_ge h
  have h2 := h.hretle
  have h3 := h.hsup
  have h4 : ret * s.xSupply ≤ n * s.astro me := by
    rw [h.hret]; exact Nat.div_mul_le_self _ _
  have h5 : (s.astro me - ret) * s.xSupply ≤ s'.astro me * s.xSupply :=
    Nat.mul_le_mul_right _ h1
  have h6 : s'.xSupply = s.xSupply - n := by omega
  refine le_trans ?_ h5
  zify [h2, show n ≤ s.xSupply by omega] at h4 h6 ⊢
  rw [h6]
  nlinarith

/-- One transaction keeps the invariant and does not lower the rate. -/
theorem exec_inv {me : A} {s s' : State A} (hi : Inv me s) {o : Op A}
    (h : exec me s o = .ok s') : Inv me s' ∧ RateLe me s s' := by
  have hD : ∀ {t : State A}, Inv me t → 0 < t.xSupply → 1 ≤ t.astro me := by
    intro t ht h0
    rcases ht.hlock with h | h
    · omega
    · exact h.2
  have hpos : ∀ {t : State A}, Inv me t → 1000 ≤ t.xastro me → 0 < t.xSupply := by
    intro t ht h0
    have := le_sum t.xastro me
    rw [← ht.hsum] at this; omega
  cases o with
  | enter u n r =>
    simp only [exec, bind_ok_iff, require_ok, Except.ok.injEq, Prod.exists] at h
    obtain ⟨_, hu, s1, m, h1, rfl⟩ := h
    obtain ⟨sp⟩ := enter_spec hu h1
    exact ⟨enter_inv hi hu sp, enter_rate hu (hD hi) sp⟩
  | leave u n r =>
    simp only [exec, bind_ok_iff, require_ok, Except.ok.injEq, Prod.exists] at h
    obtain ⟨_, hu, s1, m, h1, rfl⟩ := h
    have sp := leave_spec h1
    have hl : 1000 ≤ s1.xastro me := by
      rw [sp.hx]; simp [Ne.symm hu]
      have := sp.hS
      rcases hi.hlock with h | h <;> omega
    have hi' := leave_inv hi hl sp
    exact ⟨hi', leave_rate sp (hpos hi' hl)⟩
  | enterHookLeave u n r =>
    simp only [exec, bind_ok_iff, require_ok, Except.ok.injEq, Prod.exists] at h
    obtain ⟨_, hu, s1, m, h1, s2, ret, h2, rfl⟩ := h
    obtain ⟨sp⟩ := enter_spec hu h1
    have hi1 := enter_inv hi hu sp
    have sp2 := leave_spec h2
    have hl : 1000 ≤ s2.xastro me := by
      rw [sp2.hx]; simp
      have e := sp.hx me
      simp at e
      rcases mintAmount_ok sp.hmint with ⟨_, _, h4, _⟩ | ⟨h3, _, _, _⟩
      · omega
      · rcases hi.hlock with h0 | h0 <;> omega
    have hi' := leave_inv hi1 hl sp2
    exact ⟨hi', (enter_rate hu (hD hi) sp).trans (leave_rate sp2 (hpos hi' hl))⟩
  | sendAstro u n r =>
    simp only [exec, bind_ok_iff, require_ok, Except.ok.injEq] at h
    obtain ⟨_, hu, l, hl, rfl⟩ := h
    have e := move_apply hl me
    simp [Ne.symm hu] at e
    refine ⟨⟨hi.hsum, ?_⟩, fun hS => ⟨hS, ?_⟩⟩
    · rcases hi.hlock with h0 | h0
      · exact Or.inl h0
      · right; exact ⟨h0.1, by simp only [e]; omega⟩
    · simp only [e]
      exact Nat.mul_le_mul_right _ (Nat.le_add_right _ _)
  | sendX u n r =>
    simp only [exec, bind_ok_iff, require_ok, Except.ok.injEq] at h
    obtain ⟨_, hu, l, hl, rfl⟩ := h
    have e := move_apply hl me
    simp [Ne.symm hu] at e
    refine ⟨⟨?_, ?_⟩, fun hS => ⟨hS, le_refl _⟩⟩
    · simp only [sum_move hl]; exact hi.hsum
    · rcases hi.hlock with h0 | h0
      · exact Or.inl h0
      · right; exact ⟨by simp only [e]; omega, h0.2⟩

theorem run_inv {me : A} (os : List (Op A)) {s : State A} (hi : Inv me s) :
    Inv me (run me s os) ∧ RateLe me s (run me s os) := by
  induction os generalizing s with
  | nil => exact ⟨hi, RateLe.refl _ _⟩
  | cons o os ih =>
    simp only [run, List.foldl_cons, step]
    cases hx : exec me s o with
    | error e => simpa [run] using ih hi
    | ok s1 =>
      obtain ⟨h1, h2⟩ := exec_inv hi hx
      obtain ⟨h3, h4⟩ := ih h1
      simp only [commit'_ok]
      exact ⟨by simpa [run] using h3, h2.trans (by simpa [run] using h4)⟩

omit [DecidableEq A] in
theorem init_inv (me : A) (astro : A → Nat) : Inv me (init astro) :=
  ⟨by simp [init], Or.inl rfl⟩

end Verif.Staking
