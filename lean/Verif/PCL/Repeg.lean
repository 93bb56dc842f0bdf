import Verif.PCL.Params

/-!
# C52, C83, C84: oracle price, LP value index and repegs of the concentrated pool
-/

namespace Verif.PCL

open Verif.Stable (dmul ddiv dadd toU128 withPrec absDiff payout)

variable {A : Type} [DecidableEq A]

/-! ## `half_float_pow` -/

theorem mul_pow_div_le {x y e f : Nat} (hx : x * 2 ^ e ≤ DEC) (hy : y * 2 ^ f ≤ DEC) :
    x * y / DEC * 2 ^ (e + f) ≤ DEC := by
  have hD := DEC_pos
  have h1 : (x * y) * 2 ^ (e + f) ≤ DEC * DEC := by
    rw [Nat.pow_add, show x * y * (2 ^ e * 2 ^ f) = (x * 2 ^ e) * (y * 2 ^ f) by ring]
    exact Nat.mul_le_mul hx hy
  have h2 : x * y / DEC * 2 ^ (e + f) * DEC ≤ DEC * DEC := by
    calc x * y / DEC * 2 ^ (e + f) * DEC = (x * y / DEC * DEC) * 2 ^ (e + f) := by ring
      _ ≤ (x * y) * 2 ^ (e + f) := Nat.mul_le_mul_right _ (Nat.div_mul_le_self _ _)
      _ ≤ DEC * DEC := h1
  exact Nat.le_of_mul_le_mul_right h2 hD

theorem le_DEC_of_pow {x e : Nat} (h : x * 2 ^ e ≤ DEC) : x ≤ DEC :=
  le_trans (Nat.le_mul_of_pos_right _ (Nat.two_pow_pos e)) h

theorem DEC_lt_U256 : DEC < U256 := by decide

theorem powLoop_le (fuel : Nat) : ∀ {x y n e f : Nat}, 1 ≤ n → n < 2 ^ fuel → x * 2 ^ e ≤ DEC → y * 2 ^ f ≤ DEC →
    ∃ r, powLoop fuel x y n = .ok r ∧ r * 2 ^ (e * n + f) ≤ DEC := by
  induction fuel with
  | zero => intro x y n e f h1 h2; simp at h2; omega
  | succ fuel ih =>
    intro x y n e f h1 h2 hx hy
    have hU := DEC_lt_U256
    have mulOk : ∀ {a b c d}, a * 2 ^ c ≤ DEC → b * 2 ^ d ≤ DEC → dmul a b = .ok (a * b / DEC) := by
      intro a b c d ha hb
      rw [Stable.dmul_ok]
      exact ⟨lt_of_le_of_lt (le_DEC_of_pow (mul_pow_div_le ha hb)) hU, rfl⟩
    unfold powLoop
    by_cases hn : n ≤ 1
    · have : n = 1 := by omega
      subst this
      rw [if_pos hn, mulOk hx hy, Nat.mul_one]
      exact ⟨_, rfl, mul_pow_div_le hx hy⟩
    · rw [if_neg hn]
      have hxx := mul_pow_div_le hx hx
      by_cases hp : n % 2 = 0
      · rw [if_pos hp, mulOk hx hx, ok_bind]
        obtain ⟨r, h3, h4⟩ := ih (x := x * x / DEC) (y := y) (n := n / 2) (e := e + e) (f := f) (by omega) (by rw [Nat.pow_succ] at h2; omega) hxx hy
        refine ⟨r, h3, ?_⟩
        have : (e + e) * (n / 2) = e * n := by
          rw [← Nat.two_mul, Nat.mul_comm 2 e, Nat.mul_assoc]; congr 1; omega
        rw [this] at h4; exact h4
      · have hxy := mul_pow_div_le hx hy
        rw [if_neg hp, mulOk hx hy, ok_bind, mulOk hx hx, ok_bind]
        obtain ⟨r, h3, h4⟩ := ih (x := x * x / DEC) (y := x * y / DEC) (n := (n - 1) / 2) (e := e + e) (f := e + f) (by omega)
          (by rw [Nat.pow_succ] at h2; omega) hxx hxy
        refine ⟨r, h3, ?_⟩
        have : (e + e) * ((n - 1) / 2) + (e + f) = e * n + f := by
          have h5 : (e + e) * ((n - 1) / 2) + e = e * n := by
            rw [← Nat.two_mul, Nat.mul_comm 2 e, Nat.mul_assoc, show 2 * ((n - 1) / 2) = n - 1 by omega,
              ← Nat.mul_succ]; congr 1; omega
          omega
        rw [this] at h4; exact h4

/-- `0.5 ^ n` is defined and at most `2 ^ -n`. -/
theorem dpow_half {n : Nat} (hn : n < 2 ^ 32) : ∃ r, dpow (DEC / 2) n = .ok r ∧ r * 2 ^ n ≤ DEC := by
  unfold dpow
  by_cases h : n = 0
  · subst h; exact ⟨DEC, by simp, by simp⟩
  · rw [if_neg h]
    obtain ⟨r, h1, h2⟩ := powLoop_le 32 (x := DEC / 2) (y := DEC) (n := n) (e := 1) (f := 0) (by omega) hn
      (by decide) (by simp)
    exact ⟨r, h1, by simpa using h2⟩

/-- One step of the series: what `term * c * half / k` means. -/
theorem half_term {term c i : Nat} :
    term * c / DEC * (DEC / 2) / DEC * DEC / (i * DEC) * (2 * i * DEC) ≤ term * c := by
  have h2 : 2 * (DEC / 2) = DEC := by decide
  generalize hq : term * c / DEC = q
  have hq1 : q * DEC ≤ term * c := by rw [← hq]; exact Nat.div_mul_le_self _ _
  generalize hq2 : q * (DEC / 2) / DEC = q2
  have hq3 : q2 * DEC ≤ q * (DEC / 2) := by rw [← hq2]; exact Nat.div_mul_le_self _ _
  generalize hq4 : q2 * DEC / (i * DEC) = q3
  have hq5 : q3 * (i * DEC) ≤ q2 * DEC := by rw [← hq4]; exact Nat.div_mul_le_self _ _
  calc q3 * (2 * i * DEC) = 2 * (q3 * (i * DEC)) := by ring
    _ ≤ 2 * (q * (DEC / 2)) := Nat.mul_le_mul_left _ (le_trans hq5 hq3)
    _ = q * (2 * (DEC / 2)) := by ring
    _ = q * DEC := by rw [h2]
    _ ≤ term * c := hq1

/-- One round of the loop, given that the subtraction does not underflow. -/
theorem halfLoop_step {frac result fuel i term sum t : Nat} (hi : 1 ≤ i) (hi2 : i < 2 ^ 64) (ht : term ≤ DEC)
    (hc : absDiff frac (i * DEC - DEC) ≤ i * DEC)
    (hdef : t = term * absDiff frac (i * DEC - DEC) / DEC * (DEC / 2) / DEC * DEC / (i * DEC)) (hs : t ≤ sum) :
    halfLoop frac result (fuel + 1) i term sum =
      if t < HALFPOW_TOL then dmul result (sum - t) else halfLoop frac result fuel (i + 1) t (sum - t) := by
  have hD : DEC = 10 ^ 18 := rfl
  have hDp := DEC_pos
  have hU : U256 = 2 ^ 256 := rfl
  obtain ⟨c, hcd⟩ : ∃ c, absDiff frac (i * DEC - DEC) = c := ⟨_, rfl⟩
  rw [hcd] at hc hdef
  have b1 : term * c / DEC ≤ i * DEC := by
    apply Nat.div_le_of_le_mul
    exact Nat.mul_le_mul ht hc
  have b2 : term * c / DEC * (DEC / 2) / DEC ≤ i * DEC := by
    apply Nat.div_le_of_le_mul
    rw [Nat.mul_comm DEC]
    exact Nat.mul_le_mul b1 (Nat.div_le_self _ _)
  have b3 : term * c / DEC * (DEC / 2) / DEC * DEC / (i * DEC) ≤ DEC := by
    apply Nat.div_le_of_le_mul
    exact Nat.mul_le_mul_right _ b2
  have b4 : i * DEC < U256 := by rw [hU, hD]; omega
  have e1 : dmul term c = .ok (term * c / DEC) := by
    rw [Stable.dmul_ok]; exact ⟨lt_of_le_of_lt b1 b4, rfl⟩
  have e2 : dmul (term * c / DEC) (DEC / 2) = .ok (term * c / DEC * (DEC / 2) / DEC) := by
    rw [Stable.dmul_ok]; exact ⟨lt_of_le_of_lt b2 b4, rfl⟩
  have e3 : ddiv (term * c / DEC * (DEC / 2) / DEC) (i * DEC) = .ok t := by
    rw [Stable.ddiv_ok, hdef]
    exact ⟨Nat.ne_of_gt (Nat.mul_pos hi hDp), lt_of_le_of_lt b3 DEC_lt_U256, rfl⟩
  have e4 : csub sum t = .ok (sum - t) := by rw [csub_ok]; exact ⟨hs, rfl⟩
  rw [halfLoop]
  rw [hcd, e1, ok_bind, e2, ok_bind, e3, ok_bind, e4, ok_bind]

/-- The loop of `half_float_pow` from its second round on: with `j = i - 1` rounds done, `frac` the fraction of a
half time, it converges and the sum stays between one half and one. -/
theorem halfLoop_ok {frac result : Nat} (hf : frac < DEC) (hr : result ≤ DEC) (fuel : Nat) :
    ∀ {j term sum : Nat}, 1 ≤ j → j + fuel < 2 ^ 63 → sum ≤ DEC → term ≤ DEC →
      (j + 1) * DEC * DEC + 2 * (term * (j * DEC - frac)) ≤ 2 * (j + 1) * DEC * sum →
      HALFPOW_TOL ≤ term → term < HALFPOW_TOL * 2 ^ fuel →
      ∃ v s, halfLoop frac result fuel (j + 1) term sum = .ok v ∧ v = result * s / DEC ∧ DEC ≤ 2 * s ∧ s ≤ DEC := by
  have hDp := DEC_pos
  induction fuel with
  | zero => intro j term sum _ _ _ _ _ h1 h2; omega
  | succ fuel ih =>
    intro j term sum hj hjf hs ht hinv h1 h2
    obtain ⟨t, hdef⟩ : ∃ t, t = term * absDiff frac ((j + 1) * DEC - DEC) / DEC * (DEC / 2) / DEC * DEC / ((j + 1) * DEC) := ⟨_, rfl⟩
    have hjd : DEC ≤ j * DEC := Nat.le_mul_of_pos_left _ (by omega)
    have hce : absDiff frac ((j + 1) * DEC - DEC) = j * DEC - frac := by
      rw [Nat.succ_mul, Nat.add_sub_cancel]
      unfold Stable.absDiff
      split <;> omega
    have hterm : t * (2 * (j + 1) * DEC) ≤ term * (j * DEC - frac) := by
      rw [← hce, hdef]; exact half_term
    -- the new term is at most half the old one
    have hhalf : 2 * t ≤ term := by
      have : 2 * t * ((j + 1) * DEC) ≤ term * ((j + 1) * DEC) := by
        calc 2 * t * ((j + 1) * DEC) = t * (2 * (j + 1) * DEC) := by ring
          _ ≤ term * (j * DEC - frac) := hterm
          _ ≤ term * ((j + 1) * DEC) := Nat.mul_le_mul_left _ (by rw [Nat.succ_mul]; omega)
      exact Nat.le_of_mul_le_mul_right this (Nat.mul_pos (by omega) hDp)
    have hkey : DEC + 4 * t ≤ 2 * sum := by
      have : ((j + 1) * DEC) * (DEC + 4 * t) ≤ ((j + 1) * DEC) * (2 * sum) := by
        calc ((j + 1) * DEC) * (DEC + 4 * t) = (j + 1) * DEC * DEC + 2 * (t * (2 * (j + 1) * DEC)) := by ring
          _ ≤ (j + 1) * DEC * DEC + 2 * (term * (j * DEC - frac)) :=
            Nat.add_le_add_left (Nat.mul_le_mul_left _ hterm) _
          _ ≤ 2 * (j + 1) * DEC * sum := hinv
          _ = ((j + 1) * DEC) * (2 * sum) := by ring
      exact Nat.le_of_mul_le_mul_left this (Nat.mul_pos (by omega) hDp)
    rw [halfLoop_step (t := t) (by omega) (by omega) ht (by rw [hce, Nat.succ_mul]; omega) hdef (by omega)]
    by_cases htol : t < HALFPOW_TOL
    · rw [if_pos htol]
      refine ⟨result * (sum - t) / DEC, sum - t, ?_, rfl, by omega, by omega⟩
      rw [Stable.dmul_ok]
      refine ⟨lt_of_le_of_lt ?_ DEC_lt_U256, rfl⟩
      apply Nat.div_le_of_le_mul
      exact Nat.mul_le_mul hr (by omega)
    · rw [if_neg htol]
      refine ih (j := j + 1) (by omega) (by omega) (by omega) (by omega) ?_ (by omega) ?_
      · calc (j + 1 + 1) * DEC * DEC + 2 * (t * ((j + 1) * DEC - frac))
            ≤ (j + 1 + 1) * DEC * DEC + 2 * (t * ((j + 1 + 1) * DEC)) :=
              Nat.add_le_add_left (Nat.mul_le_mul_left _ (Nat.mul_le_mul_left _
                (le_trans (Nat.sub_le _ _) (Nat.mul_le_mul_right _ (by omega))))) _
          _ = (j + 1 + 1) * DEC * (DEC + 2 * t) := by ring
          _ ≤ (j + 1 + 1) * DEC * (2 * (sum - t)) := Nat.mul_le_mul_left _ (by omega)
          _ = 2 * (j + 1 + 1) * DEC * (sum - t) := by ring
      · rw [Nat.pow_succ, ← Nat.mul_assoc] at h2; omega

/-- `0.5 ^ power` is always defined; with `n` the whole part of the power it is between `0.5 ^ n` (as the code
computes it) and half of that, up to rounding. -/
theorem halfFloatPow_ok {power : Nat} (hp : power / DEC < 2 ^ 32) :
    ∃ r a, dpow (DEC / 2) (power / DEC) = .ok r ∧ r * 2 ^ (power / DEC) ≤ DEC ∧
      halfFloatPow power = .ok a ∧ a ≤ r ∧ r ≤ 2 * a + 1 := by
  have hDp := DEC_pos
  have hD : DEC = 10 ^ 18 := rfl
  have hT : HALFPOW_TOL = 10 ^ 8 := rfl
  obtain ⟨r, hr1, hr2⟩ := dpow_half hp
  have hrD := le_DEC_of_pow hr2
  obtain ⟨frac, hfrac⟩ : ∃ f, f = power - power / DEC * DEC := ⟨_, rfl⟩
  have hf : frac < DEC := by
    rw [hfrac]
    have := Nat.mod_lt power hDp
    have := Nat.div_add_mod power DEC
    rw [Nat.mul_comm] at this
    omega
  have key : ∃ v s, halfLoop frac r 63 1 DEC DEC = .ok v ∧ v = r * s / DEC ∧ DEC ≤ 2 * s ∧ s ≤ DEC := by
    obtain ⟨t, hdef⟩ : ∃ t, t = DEC * absDiff frac (1 * DEC - DEC) / DEC * (DEC / 2) / DEC * DEC / (1 * DEC) := ⟨_, rfl⟩
    have hce : absDiff frac (1 * DEC - DEC) = frac := by
      rw [Nat.one_mul, Nat.sub_self]; unfold Stable.absDiff; simp
    have ht : 2 * t ≤ frac := by
      have h := half_term (term := DEC) (c := frac) (i := 1)
      rw [hce] at hdef
      rw [← hdef] at h
      have : DEC * (2 * t) ≤ DEC * frac := by
        calc DEC * (2 * t) = t * (2 * 1 * DEC) := by ring
          _ ≤ DEC * frac := h
      exact Nat.le_of_mul_le_mul_left this hDp
    rw [halfLoop_step (t := t) (le_refl _) (by omega) (le_refl _) (by rw [hce]; omega) hdef (by omega)]
    by_cases htol : t < HALFPOW_TOL
    · rw [if_pos htol]
      refine ⟨r * (DEC - t) / DEC, DEC - t, ?_, rfl, by omega, by omega⟩
      rw [Stable.dmul_ok]
      refine ⟨lt_of_le_of_lt ?_ DEC_lt_U256, rfl⟩
      apply Nat.div_le_of_le_mul
      exact Nat.mul_le_mul hrD (by omega)
    · rw [if_neg htol]
      refine halfLoop_ok hf hrD 62 (j := 1) (le_refl _) (by omega) (by omega) (by omega) ?_ (by omega) ?_
      · -- `(2 D - f) (D - f) ≥ 0`
        obtain ⟨g, hg⟩ : ∃ g, DEC = frac + g := ⟨DEC - frac, by omega⟩
        have e1 : 1 * DEC - frac = g := by omega
        have e2 : DEC - t + t = DEC := by omega
        rw [e1]
        have h3 : t * g * 2 ≤ frac * g := by
          calc t * g * 2 = (2 * t) * g := by ring
            _ ≤ frac * g := Nat.mul_le_mul_right _ ht
        have h4 : 4 * DEC * t ≤ 2 * DEC * frac := by
          calc 4 * DEC * t = 2 * DEC * (2 * t) := by ring
            _ ≤ 2 * DEC * frac := Nat.mul_le_mul_left _ ht
        have h5 : 4 * DEC * (DEC - t) + 4 * DEC * t = 4 * DEC * DEC := by rw [← Nat.mul_add, e2]
        have h6 : frac * g ≤ DEC * g := Nat.mul_le_mul_right _ (by omega)
        have h7 : 2 * DEC * frac + 2 * (DEC * g) = 2 * DEC * DEC := by rw [hg]; ring
        have h8 : (1 + 1) * DEC * DEC = 2 * DEC * DEC := by ring
        have h9 : 4 * DEC * DEC = 2 * DEC * DEC + 2 * DEC * DEC := by ring
        have h10 : 2 * (1 + 1) * DEC * (DEC - t) = 4 * DEC * (DEC - t) := by ring
        rw [h8, h10]
        omega
      · rw [hT]; omega
  obtain ⟨v, s, hv, hvs, hs1, hs2⟩ := key
  refine ⟨r, v, hr1, hr2, ?_, ?_, ?_⟩
  · unfold halfFloatPow
    have hu : u128 (power / DEC) = .ok (power / DEC) := by
      rw [u128_ok]; exact ⟨lt_trans hp (by decide), rfl⟩
    extract_lets int
    rw [show int = power / DEC from rfl, hu, ok_bind, Nat.mod_eq_of_lt hp, hr1, ok_bind, ← hfrac]; exact hv
  · rw [hvs]
    apply Nat.div_le_of_le_mul
    rw [Nat.mul_comm]; exact Nat.mul_le_mul_right _ hs2
  · have h1 : r * DEC < 2 * DEC * (r * s / DEC + 1) := by
      have := Nat.lt_succ_iff.2 (le_refl (r * s / DEC))
      have h2 : r * s < DEC * (r * s / DEC + 1) := by
        have := Nat.div_add_mod (r * s) DEC
        have := Nat.mod_lt (r * s) hDp
        rw [Nat.mul_add]; omega
      calc r * DEC ≤ r * (2 * s) := Nat.mul_le_mul_left _ hs1
        _ = 2 * (r * s) := by ring
        _ < 2 * (DEC * (r * s / DEC + 1)) := by omega
        _ = 2 * DEC * (r * s / DEC + 1) := by ring
    rw [← hvs] at h1
    have h2 : DEC * r < DEC * (2 * v + 2) := by
      calc DEC * r = r * DEC := Nat.mul_comm _ _
        _ < 2 * DEC * (v + 1) := h1
        _ = DEC * (2 * v + 2) := by ring
    have := Nat.lt_of_mul_lt_mul_left h2
    omega

/-! ## What a price update consists of -/

/-- The oracle part only touches oracle price, last price and update time. -/
theorem updateOracle_ok {pp : PParams} {p q : Price} {now cur : Nat} (h : updateOracle pp p now cur = .ok q) :
    (now ≤ p.lastUpdate ∧ q = { p with last := cur }) ∨
    (p.lastUpdate < now ∧ ∃ a, halfFloatPow ((now - p.lastUpdate) * DEC / pp.maHalf) = .ok a ∧ a ≤ DEC ∧
      q = { p with oracle := p.last * (DEC - a) / DEC + p.oracle * a / DEC, lastUpdate := now, last := cur }) := by
  unfold updateOracle at h
  split at h
  · rename_i hlt
    simp only [bind_ok_iff, Stable.ddiv_ok, Stable.dmul_ok, Stable.dadd_ok, csub_ok, Except.ok.injEq] at h
    obtain ⟨_, ⟨_, _, rfl⟩, a, ha, _, ⟨hle, rfl⟩, _, ⟨_, rfl⟩, _, ⟨_, rfl⟩, _, ⟨_, rfl⟩, rfl⟩ := h
    exact Or.inr ⟨hlt, a, ha, hle, rfl⟩
  · rename_i hlt
    simp only [Except.ok.injEq] at h
    exact Or.inl ⟨by omega, h.symm⟩

theorem updateProfit_ok {p q : Price} {xcp t : Nat} {ramping : Bool} (h : updateProfit p xcp t ramping = .ok q) :
    (p.real = 0 ∧ q = p) ∨
    (p.real ≠ 0 ∧ ∃ r, ddiv xcp t = .ok r ∧ (ramping = false → p.real ≤ r) ∧
      q = { p with profit := p.profit * r / DEC * DEC / p.real, real := r }) := by
  unfold updateProfit at h
  split at h
  · rename_i h0
    simp only [bind_ok_iff, require_ok, exists_const, Stable.dmul_ok, Except.ok.injEq] at h
    obtain ⟨r, hr, hno, _, ⟨_, rfl⟩, pr, hpr, rfl⟩ := h
    rw [Stable.ddiv_ok] at hpr
    refine Or.inr ⟨h0, r, hr, fun h1 => ?_, by rw [← hpr.2.2]⟩
    by_contra hc
    exact hno ⟨by omega, h1⟩
  · rename_i h0
    simp only [Except.ok.injEq] at h
    exact Or.inl ⟨by simpa using h0, h.symm⟩

/-- A repeg changes price scale and real index only, keeping at least half of the profit. -/
theorem repegPrice_ok {pp : PParams} {p q : Price} {ag : AG} {t x0 x1 : Nat}
    (h : repegPrice pp p ag t x0 x1 = .ok q) :
    q = p ∨ (p.profit + DEC < 2 * q.real ∧ ∃ norm delta, norm = absDiff (p.oracle * DEC / p.scale) DEC ∧
      norm ≠ 0 ∧ delta ≤ norm ∧
      pp.delta ≤ delta ∧
      q = { p with real := q.real, scale := (p.scale * (norm - delta) / DEC + delta * p.oracle / DEC) * DEC / norm }) := by
  have hT : TWO = 2 * DEC := rfl
  have hDp := DEC_pos
  simp only [repegPrice, bind_ok_iff, Stable.ddiv_ok, Stable.dmul_ok] at h
  obtain ⟨r, ⟨_, _, rfl⟩, tenth, ⟨_, rfl⟩, h⟩ := h
  obtain ⟨norm, hnorm⟩ : ∃ n, n = absDiff (p.oracle * DEC / p.scale) DEC := ⟨_, rfl⟩
  obtain ⟨delta, hdelta⟩ : ∃ n, n = max pp.delta (norm * (DEC / 10) / DEC) := ⟨_, rfl⟩
  rw [← hnorm, ← hdelta] at h
  split at h
  · simp only [bind_ok_iff] at h
    obtain ⟨_, _, _, _, _, _, _, _, h⟩ := h
    split at h
    · simp only [bind_ok_iff, Stable.ddiv_ok, Stable.dmul_ok, Stable.dadd_ok, csub_ok] at h
      obtain ⟨_, ⟨hle, rfl⟩, _, ⟨_, rfl⟩, _, ⟨_, rfl⟩, _, ⟨_, rfl⟩, _, ⟨hn0, _, rfl⟩, _, ⟨_, rfl⟩, _, ⟨_, _, rfl⟩,
        d, hd, xcp, hxcp, real, ⟨_, _, hreal⟩, _, ⟨_, rfl⟩, _, ⟨_, rfl⟩, h⟩ := h
      split at h
      · rename_i hgt
        simp only [Except.ok.injEq] at h
        right
        rw [← h]
        dsimp only
        refine ⟨?_, norm, delta, hnorm, hn0, hle, by rw [hdelta]; exact Nat.le_max_left _ _, rfl⟩
        rw [hT, Nat.mul_right_comm, Nat.mul_div_cancel _ hDp] at hgt
        exact hgt
      · simp only [Except.ok.injEq] at h
        exact Or.inl h.symm
    · simp only [Except.ok.injEq] at h
      exact Or.inl h.symm
  · simp only [Except.ok.injEq] at h
    exact Or.inl h.symm

theorem updatePrice_ok {pp : PParams} {p q : Pool} {now t x0 x1 cur : Nat}
    (h : updatePrice pp p now t x0 x1 cur = .ok q) :
    ∃ ag pr1 d xcp pr2, ampGamma p now = .ok ag ∧ updateOracle pp p.price now cur = .ok pr1 ∧
      calcD ag x0 x1 = .ok d ∧ getXcp d p.price.scale = .ok xcp ∧
      updateProfit pr1 xcp t (decide (now < p.futureTime)) = .ok pr2 ∧
      repegPrice pp pr2 ag t x0 x1 = .ok q.price ∧ q = { p with price := q.price } := by
  simp only [updatePrice, bind_ok_iff, Except.ok.injEq] at h
  obtain ⟨ag, hag, pr1, h1, d, hd, xcp, hx, pr2, h2, pr3, h3, rfl⟩ := h
  have e : pr1.scale = p.price.scale := by
    rcases updateOracle_ok h1 with ⟨_, h⟩ | ⟨_, _, _, _, h⟩ <;> rw [h]
  rw [e] at hx
  exact ⟨ag, pr1, d, xcp, pr2, hag, h1, hd, hx, h2, h3, rfl⟩

/-- What a deposit does to the price state. -/
theorem calculateShares_price {pp : PParams} {p q : Pool} {now t : Nat} {xs d : Bool → Nat} {tol : Option Nat}
    {sh : Nat} (h : calculateShares pp p now t xs d tol = .ok (sh, q)) :
    ∃ p0, ((t = 0 ∧ p0 = { p with price := { p.price with real := DEC, profit := DEC } }) ∨ (t ≠ 0 ∧ p0 = p)) ∧
      (q = p0 ∨ ∃ new1 last, dmul (xs true + d true) p.price.scale = .ok new1 ∧
        updatePrice pp p0 now (t + sh) (xs false + d false) new1 last = .ok q) := by
  simp only [calculateShares, bind_ok_iff, require_ok, exists_const, Prod.exists, Stable.dadd_ok] at h
  obtain ⟨_, _, ⟨_, rfl⟩, _, ⟨_, rfl⟩, m1, hm1, share, price, hraw, _, ⟨_, rfl⟩, ratio, _, b0, _, b1', _, b1, _, h⟩ := h
  have hp0 : (t = 0 ∧ price = { p.price with real := DEC, profit := DEC }) ∨ (t ≠ 0 ∧ price = p.price) := by
    simp only [rawShares, bind_ok_iff] at hraw
    obtain ⟨_, _, _, _, hraw⟩ := hraw
    split at hraw
    · rename_i h0
      simp only [bind_ok_iff, require_ok, exists_const, Except.ok.injEq, Prod.mk.injEq] at hraw
      obtain ⟨_, _, _, _, _, _, _, _, rfl⟩ := hraw
      exact Or.inl ⟨h0, rfl⟩
    · rename_i h0
      simp only [bind_ok_iff, Except.ok.injEq, Prod.mk.injEq] at hraw
      obtain ⟨_, _, _, _, _, _, _, _, _, _, _, _, _, _, _, _, _, rfl⟩ := hraw
      exact Or.inr ⟨h0, rfl⟩
  have key : ∀ sh', sh' = sh → share = sh' → (q = { p with price := price } ∨ ∃ last, updatePrice pp { p with price := price } now (t + sh') (xs false + d false) m1 last = .ok q) →
      ∃ p0, ((t = 0 ∧ p0 = { p with price := { p.price with real := DEC, profit := DEC } }) ∨ (t ≠ 0 ∧ p0 = p)) ∧
      (q = p0 ∨ ∃ new1 last, dmul (xs true + d true) p.price.scale = .ok new1 ∧
        updatePrice pp p0 now (t + sh) (xs false + d false) new1 last = .ok q) := by
    rintro sh' rfl rfl hq
    refine ⟨{ p with price := price }, ?_, hq.imp id (fun ⟨l, hl⟩ => ⟨m1, l, hm1, hl⟩)⟩
    rcases hp0 with ⟨h0, h1⟩ | ⟨h0, h1⟩
    · exact Or.inl ⟨h0, by rw [h1]⟩
    · exact Or.inr ⟨h0, by rw [h1]⟩
  split at h
  · simp only [bind_ok_iff, Except.ok.injEq, Prod.mk.injEq] at h
    obtain ⟨_, _, last, _, q', hq, h1, rfl⟩ := h
    exact key share h1 rfl (Or.inr ⟨last, hq⟩)
  · simp only [Except.ok.injEq, Prod.mk.injEq] at h
    obtain ⟨h1, h2⟩ := h
    exact key share h1 rfl (Or.inl h2.symm)

/-- How a transaction changes the price state. -/
theorem exec_price {su : Setup} {me : A} {now : Nat} {fo : A} {s s' : State A} {o : Op A}
    (h : exec su me now fo s o = .ok s') :
    s'.pool.price = s.pool.price ∨
    (∃ u n m r, o = .withdraw u n m ∧ s'.pool.price = { s.pool.price with real := r }) ∨
    (((∃ u d t m r, o = .provide u d t m r) ∨ (∃ u i n b m r f, o = .swap u i n b m r f)) ∧
      ∃ p0, ((s.supply = 0 ∧ p0 = { s.pool with price := { s.pool.price with real := DEC, profit := DEC } }) ∨
        p0 = s.pool) ∧
      (s'.pool = p0 ∨ ∃ t x0 x1 cur, updatePrice s.params p0 now t x0 x1 cur = .ok s'.pool)) := by
  unfold exec at h
  simp only [bind_ok_iff, require_ok, exists_const] at h
  obtain ⟨hsig, h⟩ := h
  cases o with
  | provide u d t m r =>
    simp only [bind_ok_iff, Prod.exists, Except.ok.injEq] at h
    obtain ⟨_, _, h, rfl⟩ := h
    obtain ⟨_, _, _, _, sp⟩ := provide_spec h
    obtain ⟨p0, h1, h2⟩ := calculateShares_price sp.hcs
    refine Or.inr (Or.inr ⟨Or.inl ⟨u, d, t, m, r, rfl⟩, p0, ?_, h2.imp id (fun ⟨a, b, _, c⟩ => ⟨_, _, a, b, c⟩)⟩)
    rcases h1 with ⟨h0, h1⟩ | ⟨_, h1⟩
    · have ht := sp.htot
      simp only [Stable.withPrec_ok, LP_PREC] at ht
      obtain ⟨_, _, ht⟩ := ht
      refine Or.inl ⟨?_, h1⟩
      rw [h0] at ht
      simpa using ht
    · exact Or.inr h1
  | withdraw u n m =>
    simp only [bind_ok_iff, Prod.exists, Except.ok.injEq] at h
    obtain ⟨_, _, _, h, rfl⟩ := h
    obtain ⟨_, _, _, sp⟩ := withdraw_spec h
    exact Or.inr (Or.inl ⟨u, n, m, _, rfl, by rw [sp.hpool]⟩)
  | swap u i n b m r f =>
    simp only [bind_ok_iff, Prod.exists, Except.ok.injEq] at h
    obtain ⟨_, _, h, rfl⟩ := h
    obtain ⟨_, _, _, _, _, _, sp⟩ := swap_spec (by simpa [Op.signer] using hsig) h
    refine Or.inr (Or.inr ⟨Or.inr ⟨u, i, n, b, m, r, f, rfl⟩, s.pool, Or.inr rfl, ?_⟩)
    have hp := sp.hpool
    simp only [priceAfterSwap, bind_ok_iff] at hp
    obtain ⟨_, _, _, _, _, _, hp⟩ := hp
    split at hp
    · simp only [bind_ok_iff] at hp
      obtain ⟨_, _, _, _, hp⟩ := hp
      exact Or.inr ⟨_, _, _, _, hp⟩
    · simp only [Except.ok.injEq] at hp
      exact Or.inl hp.symm
  | update u v =>
    simp only [bind_ok_iff, authorised, require_ok, exists_const, Except.ok.injEq] at h
    obtain ⟨_, _, _, rfl⟩ := h
    exact Or.inl rfl
  | promote u a g t =>
    simp only [bind_ok_iff, authorised, require_ok, exists_const, Except.ok.injEq] at h
    obtain ⟨hu, p, hp, rfl⟩ := h
    obtain ⟨_, _, _, _, _, _, _, h7⟩ := promote_ok hp
    exact Or.inl (by rw [h7])
  | stop u =>
    simp only [bind_ok_iff, authorised, require_ok, exists_const, Except.ok.injEq] at h
    obtain ⟨hu, p, hp, rfl⟩ := h
    obtain ⟨_, _, h7⟩ := stopPromotion_ok hp
    exact Or.inl (by rw [h7])
  | enableShare u bps r =>
    simp only [bind_ok_iff, authorised, require_ok, exists_const, Except.ok.injEq] at h
    obtain ⟨_, _, rfl⟩ := h
    exact Or.inl rfl
  | disableShare u =>
    simp only [bind_ok_iff, authorised, require_ok, exists_const, Except.ok.injEq] at h
    obtain ⟨_, rfl⟩ := h
    exact Or.inl rfl
  | send i u v n =>
    simp only [bind_ok_iff, Except.ok.injEq] at h
    obtain ⟨_, _, rfl⟩ := h
    exact Or.inl rfl
  | sendLp u v n =>
    simp only [bind_ok_iff, Except.ok.injEq] at h
    obtain ⟨_, _, rfl⟩ := h
    exact Or.inl rfl

/-! ## C83: the oracle price -/

/-- Price fields after a price update: only the profit, the real index and the scale depend on the trade. -/
theorem updatePrice_oracle {pp : PParams} {p q : Pool} {now t x0 x1 cur : Nat}
    (h : updatePrice pp p now t x0 x1 cur = .ok q) :
    q.price.last = cur ∧
    ((now ≤ p.price.lastUpdate ∧ q.price.oracle = p.price.oracle ∧ q.price.lastUpdate = p.price.lastUpdate) ∨
    (p.price.lastUpdate < now ∧ q.price.lastUpdate = now ∧
      ∃ a, halfFloatPow ((now - p.price.lastUpdate) * DEC / pp.maHalf) = .ok a ∧ a ≤ DEC ∧
      q.price.oracle = p.price.last * (DEC - a) / DEC + p.price.oracle * a / DEC)) := by
  obtain ⟨_, pr1, _, _, pr2, _, h1, _, _, h2, h3, _⟩ := updatePrice_ok h
  have e2 : pr2.oracle = pr1.oracle ∧ pr2.last = pr1.last ∧ pr2.lastUpdate = pr1.lastUpdate := by
    rcases updateProfit_ok h2 with ⟨_, h⟩ | ⟨_, _, _, _, h⟩ <;> rw [h] <;> exact ⟨rfl, rfl, rfl⟩
  have e3 : q.price.oracle = pr2.oracle ∧ q.price.last = pr2.last ∧ q.price.lastUpdate = pr2.lastUpdate := by
    rcases repegPrice_ok h3 with h | ⟨_, _, _, _, _, _, _, h⟩ <;> rw [h] <;> exact ⟨rfl, rfl, rfl⟩
  rw [e3.1, e3.2.1, e3.2.2, e2.1, e2.2.1, e2.2.2]
  rcases updateOracle_ok h1 with ⟨h4, h⟩ | ⟨h4, a, h5, h6, h⟩
  · rw [h]; exact ⟨rfl, Or.inl ⟨h4, rfl, rfl⟩⟩
  · rw [h]; exact ⟨rfl, Or.inr ⟨h4, rfl, a, h5, h6, rfl⟩⟩

/-- A mean with weights `a` and `1 - a`, each product rounded down. -/
theorem mean_between {x y a : Nat} (ha : a ≤ DEC) :
    min x y ≤ x * (DEC - a) / DEC + y * a / DEC + 1 ∧ x * (DEC - a) / DEC + y * a / DEC ≤ max x y := by
  have hD := DEC_pos
  have e : ∀ z, z * (DEC - a) + z * a = z * DEC := by
    intro z; rw [← Nat.mul_add]; congr 1; omega
  have m1 : min x y * (DEC - a) ≤ x * (DEC - a) := Nat.mul_le_mul_right _ (Nat.min_le_left _ _)
  have m2 : min x y * a ≤ y * a := Nat.mul_le_mul_right _ (Nat.min_le_right _ _)
  have m3 : x * (DEC - a) ≤ max x y * (DEC - a) := Nat.mul_le_mul_right _ (Nat.le_max_left _ _)
  have m4 : y * a ≤ max x y * a := Nat.mul_le_mul_right _ (Nat.le_max_right _ _)
  have e1 := e (min x y)
  have e2 := e (max x y)
  generalize x * (DEC - a) = u at *
  generalize y * a = v at *
  have d1 := Nat.div_add_mod u DEC
  have d2 := Nat.div_add_mod v DEC
  have d3 := Nat.mod_lt u hD
  have d4 := Nat.mod_lt v hD
  constructor
  · have : DEC * min x y < DEC * (u / DEC + v / DEC + 2) := by
      rw [Nat.mul_add, Nat.mul_add, Nat.mul_comm DEC (min x y)]; omega
    have := Nat.lt_of_mul_lt_mul_left this
    omega
  · have : DEC * (u / DEC + v / DEC) ≤ DEC * max x y := by
      rw [Nat.mul_add, Nat.mul_comm DEC (max x y)]; omega
    exact Nat.le_of_mul_le_mul_left this hD

/-- **C83.** Whatever a transaction does, the oracle price moves only when time has passed since the last update,
and then towards the last traded price recorded *before* the transaction: it stays between the old oracle price
and the old last price (rounding: one unit of the 18th digit below). -/
theorem C83_oracle_between (su : Setup) (me : A) (now : Nat) (fo : A) (s s' : State A) (o : Op A)
    (h : exec su me now fo s o = .ok s') :
    s'.pool.price.oracle = s.pool.price.oracle ∨
    (s.pool.price.lastUpdate < now ∧ s'.pool.price.lastUpdate = now ∧
      min s.pool.price.last s.pool.price.oracle ≤ s'.pool.price.oracle + 1 ∧
      s'.pool.price.oracle ≤ max s.pool.price.last s.pool.price.oracle) := by
  rcases exec_price h with h1 | ⟨_, _, _, _, _, h1⟩ | ⟨_, p0, hp0, h1⟩
  · exact Or.inl (by rw [h1])
  · exact Or.inl (by rw [h1])
  · have e : p0.price.oracle = s.pool.price.oracle ∧ p0.price.last = s.pool.price.last ∧
        p0.price.lastUpdate = s.pool.price.lastUpdate := by
      rcases hp0 with ⟨_, h⟩ | h <;> rw [h] <;> exact ⟨rfl, rfl, rfl⟩
    rcases h1 with h1 | ⟨t, x0, x1, cur, h1⟩
    · exact Or.inl (by rw [h1]; exact e.1)
    · rcases (updatePrice_oracle h1).2 with ⟨_, h2, _⟩ | ⟨h2, h3, a, _, ha, h4⟩
      · exact Or.inl (by rw [h2]; exact e.1)
      · rw [e.1, e.2.1] at h4
        rw [e.2.2] at h2
        have := mean_between (x := s.pool.price.last) (y := s.pool.price.oracle) ha
        rw [← h4] at this
        exact Or.inr ⟨h2, h3, this.1, this.2⟩

/-- **C83.** The new oracle price does not depend on the trade that triggers the update: two different
transactions from the same state at the same time that both move it, move it to the same value. -/
theorem C83_oracle_not_manipulable (su : Setup) (me : A) (now : Nat) (fo1 fo2 : A) (s s1 s2 : State A) (o1 o2 : Op A)
    (h1 : exec su me now fo1 s o1 = .ok s1) (h2 : exec su me now fo2 s o2 = .ok s2)
    (hm1 : s1.pool.price.oracle ≠ s.pool.price.oracle) (hm2 : s2.pool.price.oracle ≠ s.pool.price.oracle) :
    s1.pool.price.oracle = s2.pool.price.oracle := by
  have key : ∀ {fo : A} {o : Op A} {s' : State A}, exec su me now fo s o = .ok s' →
      s'.pool.price.oracle ≠ s.pool.price.oracle →
      ∃ a, halfFloatPow ((now - s.pool.price.lastUpdate) * DEC / s.params.maHalf) = .ok a ∧
        s'.pool.price.oracle = s.pool.price.last * (DEC - a) / DEC + s.pool.price.oracle * a / DEC := by
    intro fo o s' h hm
    rcases exec_price h with h1 | ⟨_, _, _, _, _, h1⟩ | ⟨_, p0, hp0, h1⟩
    · exact absurd (by rw [h1]) hm
    · exact absurd (by rw [h1]) hm
    · have e : p0.price.oracle = s.pool.price.oracle ∧ p0.price.last = s.pool.price.last ∧
          p0.price.lastUpdate = s.pool.price.lastUpdate := by
        rcases hp0 with ⟨_, h⟩ | h <;> rw [h] <;> exact ⟨rfl, rfl, rfl⟩
      rcases h1 with h1 | ⟨t, x0, x1, cur, h1⟩
      · exact absurd (by rw [h1]; exact e.1) hm
      · rcases (updatePrice_oracle h1).2 with ⟨_, h2, _⟩ | ⟨h2, h3, a, ha, _, h4⟩
        · exact absurd (by rw [h2]; exact e.1) hm
        · rw [e.1, e.2.1] at h4
          rw [e.2.2] at ha
          exact ⟨a, ha, h4⟩
  obtain ⟨a1, b1, c1⟩ := key h1 hm1
  obtain ⟨a2, b2, c2⟩ := key h2 hm2
  rw [b1] at b2
  simp only [Except.ok.injEq] at b2
  rw [c1, c2, b2]

/-- **C83.** The weight of the old oracle price after `elapsed` seconds is always defined; it is at most
`2 ^ -n` with `n` the whole number of half times elapsed. -/
theorem C83_weight (half elapsed : Nat) (_hh : 1 ≤ half) (he : elapsed < 2 ^ 32) :
    ∃ a, halfFloatPow (elapsed * 10 ^ 18 / half) = .ok a ∧ a * 2 ^ (elapsed / half) ≤ 10 ^ 18 := by
  have hD : DEC = 10 ^ 18 := rfl
  have e : elapsed * DEC / half / DEC = elapsed / half := by
    rw [Nat.div_div_eq_div_mul, Nat.mul_div_mul_right _ _ DEC_pos]
  have hlt : elapsed * DEC / half / DEC < 2 ^ 32 := by
    rw [e]; exact lt_of_le_of_lt (Nat.div_le_self _ _) he
  obtain ⟨r, a, _, h2, h3, h4, _⟩ := halfFloatPow_ok hlt
  rw [← hD]
  refine ⟨a, h3, ?_⟩
  rw [← e]
  exact le_trans (Nat.mul_le_mul_right _ h4) h2

/-- Examples: no time passed weighs 1, one half time 1/2, ten half times at most 2 ^ -10, and the vectors of the
repository's own test. -/
example :
    okAnd (halfFloatPow 0) (fun a => decide (a = 10 ^ 18)) = true ∧
    okAnd (halfFloatPow (10 ^ 18)) (fun a => decide (a = 5 * 10 ^ 17)) = true ∧
    okAnd (halfFloatPow (3231 * 10 ^ 15)) (fun a => decide (a = 106505511890333866)) = true ∧
    okAnd (halfFloatPow (5012 * 10 ^ 14)) (fun a => decide (a = 706518870900224176)) = true ∧
    okAnd (halfFloatPow (591 * 10 ^ 17)) (fun a => decide (a = 0)) = true := by decide +kernel

/-! ## C52: the LP value index -/

/-- The LP value index of reserves `x0`, `x1` (decimal form) with `total` LP tokens, at the current price scale:
what the `LpPrice` query reports. -/
def lpIndex (p : Pool) (now total x0 x1 : Nat) : Res Nat := do
  let y1 ← dmul x1 p.price.scale
  let ag ← ampGamma p now
  let d ← calcD ag x0 y1
  let xcp ← getXcp d p.price.scale
  ddiv xcp total

omit [DecidableEq A] in
/-- The price query is the index of the current reserves. -/
theorem lpPrice_eq (su : Setup) (me : A) (s : State A) (now : Nat) (total : Nat) (xs : Bool → Nat)
    (ht : withPrec s.supply LP_PREC = .ok total) (h0 : total ≠ 0)
    (hx : decPools su (fun j => s.bal j me) = .ok xs) :
    lpPrice su me s now = lpIndex s.pool now total (xs false) (xs true) := by
  unfold lpPrice lpIndex
  rw [ht, ok_bind, if_pos h0, hx, ok_bind]

/-- Offer, total output and reserves (decimal form) after a swap of `n` units of asset `i`. -/
def tradeOf (su : Setup) (me : A) (s : State A) (now : Nat) (i : Bool) (n : Nat) (f : FeeInfo A) :
    Res (Nat × Nat × (Bool → Nat)) := do
  let off ← withPrec n (su.prec i)
  let xs ← decPools su (fun j => s.bal j me)
  let fs ← feeShare s.share
  let r ← computeSwap s.params s.pool now xs i off (makerShare f) fs
  let out ← r.out
  .ok (off, out, fun j => if j = i then xs j + off else xs j - out)

/-- The index after the price update, before a possible repeg. -/
theorem updatePrice_index {pp : PParams} {p q : Pool} {now t x0 x1 y1 cur : Nat}
    (hy : dmul y1 p.price.scale = .ok x1)
    (h : updatePrice pp p now t x0 x1 cur = .ok q) (h0 : p.price.real ≠ 0) :
    ∃ r, lpIndex p now t x0 y1 = .ok r ∧ (p.futureTime ≤ now → p.price.real ≤ r) := by
  obtain ⟨ag, pr1, d, xcp, pr2, hag, h1, hd, hx, h2, _, _⟩ := updatePrice_ok h
  have e1 : pr1.real = p.price.real := by
    rcases updateOracle_ok h1 with ⟨_, h⟩ | ⟨_, _, _, _, h⟩ <;> rw [h]
  rcases updateProfit_ok h2 with ⟨h3, _⟩ | ⟨_, r, h3, h4, _⟩
  · exact absurd (e1 ▸ h3) h0
  · refine ⟨r, ?_, fun hn => ?_⟩
    · unfold lpIndex
      rw [hy, ok_bind, hag, ok_bind, hd, ok_bind, hx, ok_bind]; exact h3
    · rw [← e1]; apply h4; simp; omega

/-- **C52.** A swap that would lower the LP value index is refused, unless a ramp is running or the trade is below
the minimum size that moves the price (`10 ^ -5` tokens). -/
theorem C52_losing_swap_refused (su : Setup) (me : A) (now : Nat) (fo : A) (s s' : State A)
    (u : A) (i : Bool) (n : Nat) (b m : Option Nat) (rc : A) (f : FeeInfo A)
    (h : exec su me now fo s (.swap u i n b m rc f) = .ok s') (h0 : s.pool.price.real ≠ 0)
    (hramp : s.pool.futureTime ≤ now) :
    ∃ off out ys total, tradeOf su me s now i n f = .ok (off, out, ys) ∧ withPrec s.supply LP_PREC = .ok total ∧
      (10 ^ 13 ≤ off → 10 ^ 13 ≤ out →
        ∃ idx, lpIndex s.pool now total (ys false) (ys true) = .ok idx ∧ s.pool.price.real ≤ idx) := by
  unfold exec at h
  simp only [bind_ok_iff, require_ok, exists_const, Prod.exists, Except.ok.injEq] at h
  obtain ⟨hsig, _, _, h, rfl⟩ := h
  obtain ⟨xs, off, fs, old, r, out, sp⟩ := swap_spec (by simpa [Op.signer] using hsig) h
  have hp := sp.hpool
  simp only [priceAfterSwap, bind_ok_iff, Stable.dadd_ok, csub_ok] at hp
  obtain ⟨_, ⟨_, rfl⟩, _, ⟨_, rfl⟩, total, ht, hp⟩ := hp
  refine ⟨off, out, fun j => if j = i then xs j + off else xs j - out, total, ?_, ht, fun ho hu => ?_⟩
  · unfold tradeOf
    rw [sp.hoff, ok_bind, sp.hxs, ok_bind, sp.hfs, ok_bind, sp.hr, ok_bind, sp.hout, ok_bind]
  · rw [if_pos (show moves out off from ⟨hu, ho⟩)] at hp
    simp only [bind_ok_iff] at hp
    obtain ⟨last, _, x1, hx1, hp⟩ := hp
    obtain ⟨idx, h1, h2⟩ := updatePrice_index hx1 hp h0
    refine ⟨idx, ?_, h2 hramp⟩
    rw [← h1]
    cases i <;> simp

/-- One price update outside a ramp. -/
theorem updatePrice_keeps {pp : PParams} {p q : Pool} {now t x0 x1 cur : Nat}
    (h : updatePrice pp p now t x0 x1 cur = .ok q) (hn : p.futureTime ≤ now) :
    (p.price.real ≠ 0 → (q.price.scale = p.price.scale ∧ p.price.real ≤ q.price.real) ∨
      q.price.profit + DEC < 2 * q.price.real) ∧
    (p.price.real = 0 ∨ p.price.profit + DEC ≤ 2 * p.price.real →
      q.price.real = 0 ∨ q.price.profit + DEC ≤ 2 * q.price.real) := by
  have hDp := DEC_pos
  obtain ⟨ag, pr1, d, xcp, pr2, hag, h1, hd, hx, h2, h3, _⟩ := updatePrice_ok h
  have e1 : pr1.real = p.price.real ∧ pr1.profit = p.price.profit ∧ pr1.scale = p.price.scale := by
    rcases updateOracle_ok h1 with ⟨_, h⟩ | ⟨_, _, _, _, h⟩ <;> rw [h] <;> exact ⟨rfl, rfl, rfl⟩
  have hb : (p.price.real ≠ 0 → pr2.scale = p.price.scale ∧ p.price.real ≤ pr2.real) ∧
      (p.price.real = 0 ∨ p.price.profit + DEC ≤ 2 * p.price.real →
        pr2.real = 0 ∨ pr2.profit + DEC ≤ 2 * pr2.real) := by
    rw [← e1.1, ← e1.2.1, ← e1.2.2]
    rcases updateProfit_ok h2 with ⟨h4, h5⟩ | ⟨h4, r, h5, h6, h7⟩
    · rw [h5]
      exact ⟨fun hc => absurd h4 hc, fun h => h⟩
    · have hle : pr1.real ≤ r := h6 (by simp; omega)
      rw [h7]
      dsimp only
      refine ⟨fun _ => ⟨rfl, hle⟩, fun hi => Or.inr ?_⟩
      have hi : pr1.profit + DEC ≤ 2 * pr1.real := hi.resolve_left h4
      generalize pr1.profit = x at *
      generalize pr1.real = y at *
      generalize hq : x * r / DEC * DEC / y = z
      have hz : z * y ≤ x * r := by
        rw [← hq]
        exact le_trans (Nat.div_mul_le_self _ _) (Nat.div_mul_le_self _ _)
      have : (z + DEC) * y ≤ (2 * r) * y := by
        calc (z + DEC) * y = z * y + DEC * y := Nat.add_mul _ _ _
          _ ≤ x * r + DEC * r := Nat.add_le_add hz (Nat.mul_le_mul_left _ hle)
          _ = (x + DEC) * r := (Nat.add_mul _ _ _).symm
          _ ≤ (2 * y) * r := Nat.mul_le_mul_right _ hi
          _ = (2 * r) * y := by ring
      exact Nat.le_of_mul_le_mul_right this (Nat.pos_of_ne_zero h4)
  rcases repegPrice_ok h3 with h4 | ⟨h4, norm, delta, _, _, _, _, h5⟩
  · rw [h4]
    exact ⟨fun h0 => Or.inl (hb.1 h0), hb.2⟩
  · have e : q.price.profit = pr2.profit := by rw [h5]
    rw [e]
    exact ⟨fun _ => Or.inr h4, fun _ => Or.inr (le_of_lt h4)⟩

/-- **C52.** Outside a ramp, any accepted transaction other than a withdrawal either leaves the price scale alone
and does not lower the LP value index, or repegs and leaves the index above one plus half of the accumulated
profit (`index - 1 > (profit - 1) / 2`). -/
theorem C52_half_of_profit_kept (su : Setup) (me : A) (now : Nat) (fo : A) (s s' : State A) (o : Op A)
    (h : exec su me now fo s o = .ok s') (ho : ∀ u n m, o ≠ .withdraw u n m)
    (h0 : s.pool.price.real ≠ 0) (hsup : s.supply ≠ 0) (hramp : s.pool.futureTime ≤ now) :
    (s'.pool.price.scale = s.pool.price.scale ∧ s.pool.price.real ≤ s'.pool.price.real) ∨
    s'.pool.price.profit + 10 ^ 18 < 2 * s'.pool.price.real := by
  rcases exec_price h with h1 | ⟨u, n, m, _, h1, _⟩ | ⟨_, p0, hp0, h1⟩
  · exact Or.inl (by rw [h1]; exact ⟨rfl, le_refl _⟩)
  · exact absurd h1 (ho u n m)
  · have e : p0 = s.pool := by
      rcases hp0 with ⟨h, _⟩ | h
      · exact absurd h hsup
      · exact h
    rw [e] at h1
    rcases h1 with h1 | ⟨t, x0, x1, cur, h1⟩
    · exact Or.inl (by rw [h1]; exact ⟨rfl, le_refl _⟩)
    · exact (updatePrice_keeps h1 hramp).1 h0

/-- A withdrawal leaves the price scale alone. -/
theorem C52_withdraw_keeps_scale (su : Setup) (me : A) (now : Nat) (fo : A) (s s' : State A) (u : A) (n : Nat)
    (m : Option (List (Bool × Nat))) (h : exec su me now fo s (.withdraw u n m) = .ok s') :
    s'.pool.price.scale = s.pool.price.scale ∧ s'.pool.price.profit = s.pool.price.profit := by
  rcases exec_price h with h1 | ⟨_, _, _, _, _, h1⟩ | ⟨h1, _⟩
  · exact ⟨by rw [h1], by rw [h1]⟩
  · exact ⟨by rw [h1], by rw [h1]⟩
  · rcases h1 with ⟨_, _, _, _, _, h1⟩ | ⟨_, _, _, _, _, _, _, h1⟩ <;> cases h1

theorem half_run {su : Setup} {me : A} (es : List (Event A)) : ∀ {s : State A},
    (s.pool.price.real = 0 ∨ s.pool.price.profit + DEC ≤ 2 * s.pool.price.real) →
    (∀ pre e post, es = pre ++ e :: post →
      (∀ u n m, e.op ≠ .withdraw u n m) ∧ (run su me s pre).pool.futureTime ≤ e.now) →
    ((run su me s es).pool.price.real = 0 ∨
      (run su me s es).pool.price.profit + DEC ≤ 2 * (run su me s es).pool.price.real) := by
  induction es with
  | nil => intro s h0 _; exact h0
  | cons e es ih =>
    intro s h0 hes
    obtain ⟨hw, hr⟩ := hes [] e es rfl
    refine ih (s := step su me s e) ?_ (fun pre e' post h => ?_)
    · unfold step
      cases hx : exec su me e.now e.fo s e.op with
      | error _ => exact h0
      | ok s' =>
        show s'.pool.price.real = 0 ∨ s'.pool.price.profit + DEC ≤ 2 * s'.pool.price.real
        rcases exec_price hx with h1 | ⟨u, n, m, _, h1, _⟩ | ⟨_, p0, hp0, h1⟩
        · rw [h1]; exact h0
        · exact absurd h1 (hw u n m)
        · have hi : p0.price.real = 0 ∨ p0.price.profit + DEC ≤ 2 * p0.price.real := by
            rcases hp0 with ⟨_, h⟩ | h
            · rw [h]; right; dsimp only; omega
            · rw [h]; exact h0
          have hf : p0.futureTime = s.pool.futureTime := by
            rcases hp0 with ⟨_, h⟩ | h <;> rw [h]
          rcases h1 with h1 | ⟨t, x0, x1, cur, h1⟩
          · rw [h1]; exact hi
          · exact (updatePrice_keeps h1 (by rw [hf]; exact hr)).2 hi
    · exact hes (e :: pre) e' post (by rw [h]; rfl)

/-- **C52 (partial).** From creation on, through any history without withdrawals in which no transaction happens
while a ramp runs, the LP value index preserves half of the profit: `index - 1 ≥ (profit - 1) / 2`.
Missing: withdrawals (which set the index to what the solver computes, without any check) and trades during
ramps; with both, it is false (`C52_ramp_and_withdrawal_violated`). -/
theorem C52_half_profit_history_partial (su : Setup) (me : A) (bal : Bool → A → Nat) (u : PParams)
    (amp gamma scale t0 : Nat) (s : State A) (hc : create bal u amp gamma scale t0 = .ok s)
    (es : List (Event A))
    (hes : ∀ pre e post, es = pre ++ e :: post →
      (∀ u n m, e.op ≠ .withdraw u n m) ∧ (run su me s pre).pool.futureTime ≤ e.now) :
    (run su me s es).pool.price.real = 0 ∨
      (run su me s es).pool.price.profit + 10 ^ 18 ≤ 2 * (run su me s es).pool.price.real := by
  apply half_run es _ hes
  simp only [create, bind_ok_iff, require_ok, exists_const, Except.ok.injEq] at hc
  obtain ⟨_, p, hp, ag, _, rfl⟩ := hc
  exact Or.inl rfl

/-- A deposit of `10 ^ 6` of both tokens by account 2, then a swap of half as much by account 3. -/
def demoHistory : List (Event Acct) :=
  [⟨2000, 1, .provide 2 (fun _ => 10 ^ 12) none none 2⟩,
   ⟨2000, 1, .swap 3 false (5 * 10 ^ 11) none (some (5 * 10 ^ 17)) 3 ⟨0, none⟩⟩]

/-- **C52 is violated** when amp is lowered: after a ramp in which nobody trades, a withdrawal records an index
below one although the profit is above one. -/
theorem C52_ramp_and_withdrawal_violated :
    let s := run demoSetup 0 demo0 (demoHistory ++
      [⟨100000, 1, .promote 1 (4 * 10 ^ 18) (145 * 10 ^ 12) 186400⟩, ⟨286400, 1, .withdraw 2 (10 ^ 11) none⟩])
    s.supply = 9 * 10 ^ 11 ∧ s.pool.price.real < 10 ^ 18 ∧ 10 ^ 18 < s.pool.price.profit := by
  decide +kernel

/-- Non-vacuity: the swap of the example history is accepted and raises the index, the next day's swap back repegs
the price scale. -/
example :
    let s := run demoSetup 0 demo0 demoHistory
    let s' := run demoSetup 0 demo0 (demoHistory ++
      [⟨90000, 1, .swap 3 true (10 ^ 11) none (some (5 * 10 ^ 17)) 3 ⟨0, none⟩⟩])
    s.pool.price.scale = 10 ^ 18 ∧ 10 ^ 18 < s.pool.price.real ∧ s.supply = 10 ^ 12 ∧
    10 ^ 18 < s'.pool.price.scale ∧ s'.pool.price.scale < s'.pool.price.oracle ∧
    s'.pool.price.profit + 10 ^ 18 < 2 * s'.pool.price.real := by decide +kernel

/-! ## C84: repegs move the price scale towards the oracle price -/

/-- **C84.** When a transaction changes the price scale, the new scale is not above both the old scale and the new
oracle price, and below both of them by at most the rounding error `1 + 2 / norm`, where `norm` is the relative
distance `|oracle / scale - 1|`. -/
theorem C84_repeg_towards_oracle (su : Setup) (me : A) (now : Nat) (fo : A) (s s' : State A) (o : Op A)
    (h : exec su me now fo s o = .ok s') (hne : s'.pool.price.scale ≠ s.pool.price.scale) :
    s'.pool.price.scale ≤ max s.pool.price.scale s'.pool.price.oracle ∧
    ∃ norm, norm = absDiff (s'.pool.price.oracle * 10 ^ 18 / s.pool.price.scale) (10 ^ 18) ∧ norm ≠ 0 ∧
      s.params.delta ≤ norm ∧
      min s.pool.price.scale s'.pool.price.oracle * norm < (s'.pool.price.scale + 1) * norm + 2 * 10 ^ 18 := by
  have hD : DEC = 10 ^ 18 := rfl
  have hDp := DEC_pos
  rcases exec_price h with h1 | ⟨_, _, _, _, _, h1⟩ | ⟨_, p0, hp0, h1⟩
  · exact absurd (by rw [h1]) hne
  · exact absurd (by rw [h1]) hne
  · have e : p0.price.scale = s.pool.price.scale := by
      rcases hp0 with ⟨_, h⟩ | h <;> rw [h]
    rcases h1 with h1 | ⟨t, x0, x1, cur, h1⟩
    · exact absurd (by rw [h1]; exact e) hne
    · obtain ⟨ag, pr1, d, xcp, pr2, hag, h1, hd, hx, h2, h3, _⟩ := updatePrice_ok h1
      have e1 : pr1.scale = p0.price.scale := by
        rcases updateOracle_ok h1 with ⟨_, h⟩ | ⟨_, _, _, _, h⟩ <;> rw [h]
      have e2 : pr2.scale = s.pool.price.scale := by
        rw [← e, ← e1]
        rcases updateProfit_ok h2 with ⟨_, h⟩ | ⟨_, _, _, _, h⟩ <;> rw [h]
      rcases repegPrice_ok h3 with h4 | ⟨_, norm, delta, hnorm, hn0, hle, hdl, h5⟩
      · exact absurd (by rw [h4]; exact e2) hne
      · have e3 : s'.pool.price.oracle = pr2.oracle := by rw [h5]
        have e4 : s'.pool.price.scale = (pr2.scale * (norm - delta) / DEC + delta * pr2.oracle / DEC) * DEC / norm := by
          rw [h5]
        rw [e2] at hnorm e4
        rw [← e3] at hnorm e4
        generalize s'.pool.price.scale = z at *
        generalize s.pool.price.scale = x at *
        generalize s'.pool.price.oracle = y at *
        have q1 : ∀ w, w * (norm - delta) + delta * w = w * norm := by
          intro w; rw [Nat.mul_comm delta, ← Nat.mul_add]; congr 1; omega
        have m1 : x * (norm - delta) ≤ max x y * (norm - delta) := Nat.mul_le_mul_right _ (Nat.le_max_left _ _)
        have m2 : delta * y ≤ delta * max x y := Nat.mul_le_mul_left _ (Nat.le_max_right _ _)
        have m3 : min x y * (norm - delta) ≤ x * (norm - delta) := Nat.mul_le_mul_right _ (Nat.min_le_left _ _)
        have m4 : delta * min x y ≤ delta * y := Nat.mul_le_mul_left _ (Nat.min_le_right _ _)
        have q2 := q1 (max x y)
        have q3 := q1 (min x y)
        generalize x * (norm - delta) = a at *
        generalize delta * y = b at *
        have d1 := Nat.div_add_mod a DEC
        have d2 := Nat.div_add_mod b DEC
        have d3 := Nat.mod_lt a hDp
        have d4 := Nat.mod_lt b hDp
        have hsum : (a / DEC + b / DEC) * DEC = DEC * (a / DEC) + DEC * (b / DEC) := by ring
        refine ⟨?_, norm, hnorm, hn0, le_trans hdl hle, ?_⟩
        · rw [e4]
          apply Nat.div_le_of_le_mul
          rw [hsum, Nat.mul_comm norm]; omega
        · have d5 := Nat.div_add_mod ((a / DEC + b / DEC) * DEC) norm
          have d6 := Nat.mod_lt ((a / DEC + b / DEC) * DEC) (Nat.pos_of_ne_zero hn0)
          rw [← e4] at d5
          have : (z + 1) * norm = norm * z + norm := by ring
          rw [this, ← hD]
          omega

/-! ## C82: price scale delta zero -/

/-- **C82 is violated** by a minimal price scale delta of zero, which the parameter range allows: a swap right after
the first deposit divides zero by zero and fails; with the delta one unit larger it is accepted. -/
theorem C82_zero_price_scale_delta_blocks_swap_violated :
    InRange { demoParams with delta := 0 } ∧
    okAnd (exec demoSetup 0 2000 2 { demo0 with params := { demoParams with delta := 0 } }
      (.provide 2 (fun _ => 10 ^ 12) none none 2))
      (fun s => fails (exec demoSetup 0 2000 2 s (.swap 3 false (10 ^ 11) none (some (5 * 10 ^ 17)) 3 ⟨0, none⟩))) = true ∧
    okAnd (exec demoSetup 0 2000 2 { demo0 with params := { demoParams with delta := 1 } }
      (.provide 2 (fun _ => 10 ^ 12) none none 2))
      (fun s => okAnd (exec demoSetup 0 2000 2 s (.swap 3 false (10 ^ 11) none (some (5 * 10 ^ 17)) 3 ⟨0, none⟩))
        (fun _ => true)) = true := by
  refine ⟨⟨by decide, by decide, by decide, by decide, by decide, by decide⟩, by decide +kernel, by decide +kernel⟩

/-! ## C85: the end of a ramp -/

omit [DecidableEq A] in
/-- After the end of a ramp the trade and the index no longer depend on the time. -/
theorem tradeOf_time (su : Setup) (me : A) (s : State A) (t now : Nat) (i : Bool) (n : Nat) (f : FeeInfo A)
    (h1 : s.pool.futureTime ≤ t) (h2 : s.pool.futureTime ≤ now) :
    tradeOf su me s now i n f = tradeOf su me s t i n f ∧
    ∀ total x0 x1, lpIndex s.pool now total x0 x1 = lpIndex s.pool t total x0 x1 := by
  have e : ampGamma s.pool now = ampGamma s.pool t := by
    simp only [ampGamma, Nat.not_lt.2 h1, Nat.not_lt.2 h2, if_false]
  constructor
  · unfold tradeOf computeSwap
    rw [e]
  · intro total x0 x1
    unfold lpIndex
    rw [e]

/-- The pool of `demoHistory`, whose owner then lowers amp from 40 to 4 within a day; nobody trades meanwhile. -/
def rampedState : State Acct :=
  run demoSetup 0 demo0 (demoHistory ++ [⟨100000, 1, .promote 1 (4 * 10 ^ 18) (145 * 10 ^ 12) 186400⟩])

theorem okAnd_ok {α : Type} (a : α) (f : α → Bool) : okAnd (.ok a : Res α) f = f a := rfl

/-- Whether a swap of `n` at the end of the ramp would lower the index. -/
def loses (i : Bool) (n : Nat) : Bool :=
  okAnd (tradeOf demoSetup 0 rampedState 186400 i n ⟨0, none⟩) (fun x =>
    decide (10 ^ 13 ≤ x.1 ∧ 10 ^ 13 ≤ x.2.1) &&
    okAnd (withPrec rampedState.supply LP_PREC) (fun t =>
      okAnd (lpIndex rampedState.pool 186400 t (x.2.2 false) (x.2.2 true)) (fun r =>
        decide (r < rampedState.pool.price.real))))

/-- **C85 is violated**: lowering amp lowers the LP value index.  While the ramp runs this is tolerated, but if
nobody trades in the last moments before its end, then from the end on swaps are refused as loss making: the
swaps below succeed during the ramp and fail at every time from the end on, for any sender, limits and
receiver.  One second before the end they fail too: the index has dropped below one, and `index - 1` underflows. -/
theorem C85_end_of_ramp_blocks_swaps_violated :
    rampedState.pool.futureTime = 186400 ∧ rampedState.supply = 10 ^ 12 ∧
    (∀ p ∈ [(true, 10 ^ 9), (true, 10 ^ 11)],
      okAnd (exec demoSetup 0 170000 1 rampedState (.swap 3 p.1 p.2 none (some (5 * 10 ^ 17)) 3 ⟨0, none⟩))
        (fun _ => true) = true ∧
      fails (exec demoSetup 0 186399 1 rampedState (.swap 3 p.1 p.2 none (some (5 * 10 ^ 17)) 3 ⟨0, none⟩)) = true ∧
      ∀ now, 186400 ≤ now → ∀ fo u b m rc,
        ¬ ∃ s', exec demoSetup 0 now fo rampedState (.swap u p.1 p.2 b m rc ⟨0, none⟩) = .ok s') := by
  have hft : rampedState.pool.futureTime = 186400 := by decide +kernel
  have hreal : rampedState.pool.price.real ≠ 0 := by decide +kernel
  have main : ∀ i n, loses i n = true → ∀ now, 186400 ≤ now → ∀ fo u b m rc,
      ¬ ∃ s', exec demoSetup 0 now fo rampedState (.swap u i n b m rc ⟨0, none⟩) = .ok s' := by
    rintro i n hl now hn fo u b m rc ⟨s', h⟩
    obtain ⟨off, out, ys, total, h1, h2, h3⟩ :=
      C52_losing_swap_refused _ _ _ _ _ _ _ _ _ _ _ _ _ h hreal (by rw [hft]; exact hn)
    obtain ⟨t1, t2⟩ := tradeOf_time demoSetup 0 rampedState 186400 now i n ⟨0, none⟩
      (by rw [hft]) (by rw [hft]; exact hn)
    rw [t1] at h1
    unfold loses at hl
    rw [h1, okAnd_ok, h2, okAnd_ok, Bool.and_eq_true, decide_eq_true_eq] at hl
    obtain ⟨⟨l1, l2⟩, hl⟩ := hl
    obtain ⟨idx, h4, h5⟩ := h3 l1 l2
    rw [t2] at h4
    rw [h4, okAnd_ok, decide_eq_true_eq] at hl
    omega
  refine ⟨hft, by decide +kernel, ?_⟩
  intro p hp
  simp only [List.mem_cons, List.not_mem_nil, or_false] at hp
  rcases hp with rfl | rfl
  · exact ⟨by decide +kernel, by decide +kernel, main _ _ (by decide +kernel)⟩
  · exact ⟨by decide +kernel, by decide +kernel, main _ _ (by decide +kernel)⟩

theorem computeSwap_congr {pp : PParams} {p q : Pool} {now : Nat} (hp : q.price = p.price)
    (ha : ampGamma q now = ampGamma p now) (xs : Bool → Nat) (i : Bool) (n a b : Nat) :
    computeSwap pp q now xs i n a b = computeSwap pp p now xs i n a b := by
  unfold computeSwap; rw [ha, hp]

theorem calcLastPrices_congr {pp : PParams} {p q : Pool} {now : Nat} (hp : q.price = p.price)
    (ha : ampGamma q now = ampGamma p now) (xs : Bool → Nat) :
    calcLastPrices pp q now xs = calcLastPrices pp p now xs := by
  unfold calcLastPrices
  simp only [computeSwap_congr hp ha]

/-- A price update that is possible during a ramp is possible after it, unless it lowers the index. -/
theorem updatePrice_after {pp : PParams} {p q r : Pool} {now t x0 x1 y1 cur : Nat} (hp : q.price = p.price)
    (ha : ampGamma q now = ampGamma p now) (hy : dmul y1 p.price.scale = .ok x1)
    (hi : p.price.real = 0 ∨ ∃ idx, lpIndex p now t x0 y1 = .ok idx ∧ p.price.real ≤ idx)
    (h : updatePrice pp q now t x0 x1 cur = .ok r) :
    ∃ r', updatePrice pp p now t x0 x1 cur = .ok r' ∧ r'.price = r.price := by
  obtain ⟨ag, pr1, d, xcp, pr2, hag, h1, hd, hx, h2, h3, _⟩ := updatePrice_ok h
  rw [hp] at h1 hx
  rw [ha] at hag
  have e : pr1.real = p.price.real ∧ pr1.scale = p.price.scale := by
    rcases updateOracle_ok h1 with ⟨_, h⟩ | ⟨_, _, _, _, h⟩ <;> rw [h] <;> exact ⟨rfl, rfl⟩
  have h2' : updateProfit pr1 xcp t (decide (now < p.futureTime)) = .ok pr2 := by
    unfold updateProfit at h2 ⊢
    split at h2
    · rename_i h0
      rw [if_pos h0]
      simp only [bind_ok_iff, require_ok, exists_const] at h2 ⊢
      obtain ⟨idx, hidx, _, h2⟩ := h2
      refine ⟨idx, hidx, ?_, h2⟩
      rintro ⟨hlt, _⟩
      rcases hi with hi | ⟨idx', h4, h5⟩
      · exact h0 (e.1.trans hi)
      · unfold lpIndex at h4
        rw [hy, ok_bind, hag, ok_bind, hd, ok_bind, hx, ok_bind, hidx] at h4
        cases h4
        rw [e.1] at hlt
        omega
    · rename_i h0
      rw [if_neg h0]
      exact h2
  refine ⟨{ p with price := r.price }, ?_, rfl⟩
  unfold updatePrice
  rw [hag, ok_bind, h1, ok_bind, hd, ok_bind, e.2, hx, ok_bind, h2', ok_bind, h3, ok_bind]

/-- **C85 (partial).** The only swaps that the end of a ramp blocks are those that lower the LP value index: a swap that
is possible in state `s1`, where a ramp is going on that has reached the present amp and gamma, is possible in the same
state with the ramp over, and pays the same, unless it lowers the index.  Missing: swaps that do lower it, which are
refused although they were possible during the ramp (see the theorem above). -/
theorem C85_only_losses_blocked_partial (su : Setup) (me : A) (now : Nat) (s s1 s1' : State A) (u : A) (i : Bool)
    (n : Nat) (b m : Option Nat) (rc : A) (f : FeeInfo A) (o : SwapOut)
    (h1 : s1 = { s with pool := { s.pool with initial := s1.pool.initial, initialTime := s1.pool.initialTime,
                                              future := s1.pool.future, futureTime := s1.pool.futureTime } })
    (ha : ampGamma s1.pool now = ampGamma s.pool now) (hu : u ≠ me)
    (hi : ∀ off out ys total, tradeOf su me s now i n f = .ok (off, out, ys) → withPrec s.supply LP_PREC = .ok total →
      10 ^ 13 ≤ off → 10 ^ 13 ≤ out →
      ∃ idx, lpIndex s.pool now total (ys false) (ys true) = .ok idx ∧ s.pool.price.real ≤ idx)
    (h : swap su me s1 now u i n b m rc f = .ok (s1', o)) :
    ∃ s', swap su me s now u i n b m rc f = .ok (s', o) ∧ s'.bal = s1'.bal ∧ s'.pool.price = s1'.pool.price ∧
      s'.twap = s1'.twap := by
  have hp : s1.pool.price = s.pool.price := by rw [h1]
  have e1 : s1.bal = s.bal ∧ s1.params = s.params ∧ s1.share = s.share ∧ s1.supply = s.supply ∧ s1.twap = s.twap := by
    rw [h1]; exact ⟨rfl, rfl, rfl, rfl, rfl⟩
  obtain ⟨eb, ep, es, el, et⟩ := e1
  have hsp := swap_spec hu h
  obtain ⟨xs0, off0, fs0, old0, r0, out0, sp⟩ := hsp
  unfold swap at h ⊢
  rw [eb, ep, es, et] at h
  simp only [bind_ok_iff, calcLastPrices_congr hp ha, computeSwap_congr hp ha, Except.ok.injEq, Prod.mk.injEq] at h
  obtain ⟨off, hoff, bo, hbo, before, hbef, xs, hxs, un, hchk, old, hold, fs, hfs, r, hr, out, hout, pool, hpool, ret,
    hret, spr, hspr, un2, hms, ba, hba, sa, hsa, ma, hma, ba2, hba2, ba3, hba3, tw, htw, cm, hcm, hs, ho⟩ := h
  have hpo : ∃ pool', priceAfterSwap s now xs r i off out = .ok pool' ∧ pool'.price = pool.price := by
    unfold priceAfterSwap at hpool ⊢
    rw [el, ep] at hpool
    simp only [bind_ok_iff] at hpool
    obtain ⟨yo, hyo, ya, hya, total, ht, hpool⟩ := hpool
    rw [hyo, ok_bind, hya, ok_bind, ht, ok_bind]
    split at hpool
    · rename_i hm
      rw [if_pos hm]
      simp only [bind_ok_iff] at hpool
      obtain ⟨last, hlast, x1, hx1, hpool⟩ := hpool
      rw [hp] at hx1
      rw [hlast, ok_bind, hx1, ok_bind]
      refine updatePrice_after hp ha hx1 (Or.inr ?_) hpool
      have ht2 : tradeOf su me s now i n f = .ok (off, out, fun j => if j = i then xs j + off else xs j - out) := by
        have hxs2 : decPools su (fun j => s.bal j me) = .ok xs := by
          have : (fun j => if j = i then before else s.bal j me) = fun j => s.bal j me := by
            funext j
            split
            · rename_i hj
              subst hj
              have h3 := move_apply hbo me
              rw [if_neg (fun hh => hu hh.symm), if_pos rfl] at h3
              rw [csub_ok] at hbef
              omega
            · rfl
          rw [← this]; exact hxs
        unfold tradeOf
        rw [hoff, ok_bind, hxs2, ok_bind, hfs, ok_bind, hr, ok_bind, hout, ok_bind]
      obtain ⟨idx, h5, h6⟩ := hi _ _ _ _ ht2 ht hm.2 hm.1
      refine ⟨idx, ?_, h6⟩
      rw [Stable.dadd_ok] at hyo
      rw [csub_ok] at hya
      rw [← h5, ← hyo.2, ← hya.2]
      cases i <;> simp
    · rename_i hm
      rw [if_neg hm]
      simp only [Except.ok.injEq] at hpool
      exact ⟨_, rfl, by rw [← hpool, hp]⟩
  obtain ⟨pool', hpool', hpp⟩ := hpo
  refine ⟨{ s with bal := fun j => if j = i then bo else ba3, pool := pool', twap := tw }, ?_, ?_, ?_, ?_⟩
  · rw [hoff, ok_bind, hbo, ok_bind, hbef, ok_bind, hxs, ok_bind, hchk, ok_bind, hold, ok_bind, hfs, ok_bind, hr, ok_bind,
      hout, ok_bind, hpool', ok_bind, hret, ok_bind, hspr, ok_bind, hms, ok_bind, hba, ok_bind, hsa, ok_bind, hma, ok_bind,
      hba2, ok_bind, hba3, ok_bind, htw, ok_bind, hcm, ok_bind, ← ho]
  · rw [← hs]
  · rw [← hs, hpp]
  · rw [← hs]

/-- Non-vacuity: after a ramp from 40 to 60 a swap is possible, as it would be during an endless ramp at 60. -/
example :
    let s := run demoSetup 0 demo0 (demoHistory ++ [⟨100000, 1, .promote 1 (60 * 10 ^ 18) (145 * 10 ^ 12) 186400⟩])
    let s1 := { s with pool := { s.pool with initial := s.pool.future, initialTime := 100000, futureTime := 10 ^ 9 } }
    ampGamma s1.pool 200000 = ampGamma s.pool 200000 ∧ s.pool.future.amp = 60 * 10 ^ 18 ∧
    okAnd (swap demoSetup 0 s1 200000 3 true (10 ^ 9) none (some (5 * 10 ^ 17)) 3 ⟨0, none⟩) (fun x =>
      okAnd (swap demoSetup 0 s 200000 3 true (10 ^ 9) none (some (5 * 10 ^ 17)) 3 ⟨0, none⟩) (fun y =>
        decide (x.2 = y.2 ∧ 10 ^ 8 ≤ x.2.ret))) = true ∧
    okAnd (tradeOf demoSetup 0 s 200000 true (10 ^ 9) ⟨0, none⟩) (fun x =>
      decide (10 ^ 13 ≤ x.1 ∧ 10 ^ 13 ≤ x.2.1) &&
      okAnd (withPrec s.supply LP_PREC) (fun t =>
        okAnd (lpIndex s.pool 200000 t (x.2.2 false) (x.2.2 true)) (fun r => decide (s.pool.price.real ≤ r)))) = true := by
  decide +kernel

end Verif.PCL
