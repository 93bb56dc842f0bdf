import Verif.Staking.Lemmas
import Verif.Base.Arith

/-!
# C03–C06: ASTRO staking

`me` is the staking contract, `A` any finite set of accounts, `init astro` the chain before the first
stake with any distribution of ASTRO.  `run me (init astro) os` is the state after any history `os`.
-/

namespace Verif.Staking
variable {A : Type} [DecidableEq A] [Fintype A]

/-- **C03.**  For any history `os₁` after which xASTRO is outstanding and any continuation `os₂`,
xASTRO is still outstanding and (ASTRO held)/(xASTRO supply) has not fallen (cross-multiplied). -/
theorem C03_redemption_rate_never_falls (me : A) (astro : A → Nat) (os₁ os₂ : List (Op A)) :
    let s := run me (init astro) os₁
    let s' := run me (init astro) (os₁ ++ os₂)
    0 < s.xSupply →
      0 < s'.xSupply ∧ s.astro me * s'.xSupply ≤ s'.astro me * s.xSupply := by
  intro s s' hS
  have hi := (run_inv os₁ (init_inv me astro)).1
  have h := (run_inv os₂ hi).2 hS
  have e : s' = run me (run me (init astro) os₁) os₂ := by simp [s', run]
  rw [e]; exact h

theorem leave_succeeds {me : A} {s : State A} (hi : Inv me s) (hcap : s.astro me < U128)
    {u : A} (hu : u ≠ me) {n : Nat} (hn : 0 < n) (hb : n ≤ s.xastro u) (r : A) :
    ∃ s' ret, leave me s u n r = .ok (s', ret) := by
  have hS : s.xSupply ≠ 0 := by
    have := le_sum s.xastro u
    rw [← hi.hsum] at this; omega
  have hlt := lt_supply hi hu hb hS
  have hlock : 1000 ≤ s.xastro me := by
    rcases hi.hlock with h | h <;> omega
  obtain ⟨x, hx⟩ := move_succeeds (b := me) hb
  have hxm := move_apply hx me
  simp [Ne.symm hu] at hxm
  have hle : n * s.astro me / s.xSupply ≤ s.astro me := by
    apply Nat.div_le_of_le_mul
    exact Nat.mul_le_mul_right _ (by omega)
  obtain ⟨x2, hx2⟩ : ∃ x2, debit x me n = .ok x2 := ⟨_, debit_ok.2 ⟨by omega, rfl⟩⟩
  have hx2m := debit_apply hx2 me
  simp at hx2m
  obtain ⟨l, hl⟩ := move_succeeds (b := r) hle
  obtain ⟨x3, hx3⟩ := move_succeeds (l := x2) (a := me) (b := me) (n := 1) (by omega)
  refine ⟨⟨l, x3, s.xSupply - n⟩, n * s.astro me / s.xSupply, ?_⟩
  have hr : mulRatio n (s.astro me) s.xSupply = .ok (n * s.astro me / s.xSupply) := by
    simp [hS]; omega
  have hc : csub s.xSupply n = .ok (s.xSupply - n) := by simp; omega
  simp [leave, require, Nat.pos_iff_ne_zero.1 hn, hx, hr, hx2, hc, hl, hx3]

/-- Total ASTRO never changes. -/
theorem exec_sum {me : A} {s s' : State A} {o : Op A} (h : exec me s o = .ok s') :
    ∑ a, s'.astro a = ∑ a, s.astro a := by
  have henter : ∀ {s s' : State A} {u n r m}, enter me s u n r = .ok (s', m) →
      ∑ a, s'.astro a = ∑ a, s.astro a := by
    intro s s' u n r m h
    unfold enter at h
    simp only [bind_ok_iff, require_ok, csub_ok, Except.ok.injEq, Prod.mk.injEq, Prod.exists] at h
    obtain ⟨_, hn, l, hl, d, _, locked, m', hm, x, hx, rfl, rfl⟩ := h
    exact sum_move hl
  have hleave : ∀ {s s' : State A} {u n r m}, leave me s u n r = .ok (s', m) →
      ∑ a, s'.astro a = ∑ a, s.astro a := by
    intro s s' u n r m h
    unfold leave at h
    simp only [bind_ok_iff, require_ok, csub_ok, mulRatio_ok, Except.ok.injEq, Prod.mk.injEq] at h
    obtain ⟨_, hn, x, hx, ret', _, x2, hx2, sup, _, l, hl, x3, hx3, rfl, rfl⟩ := h
    exact sum_move hl
  cases o with
  | enter u n r =>
    simp only [exec, bind_ok_iff, require_ok, Except.ok.injEq, Prod.exists] at h
    obtain ⟨_, hu, s1, m, h1, rfl⟩ := h
    exact henter h1
  | leave u n r =>
    simp only [exec, bind_ok_iff, require_ok, Except.ok.injEq, Prod.exists] at h
    obtain ⟨_, hu, s1, m, h1, rfl⟩ := h
    exact hleave h1
  | enterHookLeave u n r =>
    simp only [exec, bind_ok_iff, require_ok, Except.ok.injEq, Prod.exists] at h
    obtain ⟨_, hu, s1, m, h1, s2, ret, h2, rfl⟩ := h
    exact (hleave h2).trans (henter h1)
  | sendAstro u n r =>
    simp only [exec, bind_ok_iff, require_ok, Except.ok.injEq] at h
    obtain ⟨_, hu, l, hl, rfl⟩ := h
    exact sum_move hl
  | sendX u n r =>
    simp only [exec, bind_ok_iff, require_ok, Except.ok.injEq] at h
    obtain ⟨_, hu, l, hl, rfl⟩ := h
    rfl

theorem run_sum (me : A) (s : State A) (os : List (Op A)) :
    ∑ a, (run me s os).astro a = ∑ a, s.astro a := by
  induction os generalizing s with
  | nil => rfl
  | cons o os ih =>
    simp only [run, List.foldl_cons, step]
    cases hx : exec me s o with
    | error e => simpa [run] using ih s
    | ok s1 => simpa [run, exec_sum hx] using ih s1

/-- Arithmetic of the round trip. -/
theorem round_trip_arith {D S a m r : Nat} (hD : 0 < D) (hS : 0 < S) (hm : m = a * S / D)
    (hr : r = m * (D + a) / (S + m)) : r ≤ a ∧ (a - r) * S < D + S := by
  have hmd : m * D ≤ a * S := by rw [hm]; exact Nat.div_mul_le_self _ _
  have hmd2 : a * S < (m + 1) * D := by rw [hm]; exact lt_succ_div_mul _ hD
  have hra : r ≤ a := by
    rw [hr]
    apply Nat.div_le_of_le_mul
    nlinarith
  have hr2 : m * (D + a) < (r + 1) * (S + m) := by
    rw [hr]; exact lt_succ_div_mul _ (by omega)
  have h6 : (a - r) * (S + m) < D + (S + m) := by
    zify [hra] at hmd2 hr2 ⊢
    nlinarith
  refine ⟨hra, ?_⟩
  by_cases h0 : a - r = 0
  · rw [h0]; omega
  · have : m ≤ (a - r) * m := Nat.le_mul_of_pos_left _ (by omega)
    have e : (a - r) * (S + m) = (a - r) * S + (a - r) * m := by ring
    omega

/-- **C04.**  In any reachable state in which the pool is running (or holds nothing at all), staking
`a` ASTRO and immediately unstaking everything minted succeeds, returns `r ≤ a`, leaves the staker's
ASTRO balance exactly `a - r` lower; and if the pool was running the loss is less than the price of one
xASTRO unit plus one unit of ASTRO. -/
theorem C04_round_trip_not_profitable (me : A) (astro : A → Nat) (os : List (Op A))
    (hcap : ∑ a, astro a < U128) (u : A) (hu : u ≠ me) (a m : Nat) (s1 : State A) :
    let s := run me (init astro) os
    (0 < s.xSupply ∨ s.astro me = 0) →
    enter me s u a u = .ok (s1, m) →
    ∃ s2 r, leave me s1 u m u = .ok (s2, r) ∧ r ≤ a ∧ s2.astro u = s.astro u - (a - r) ∧
      (0 < s.xSupply → (a - r) * s.xSupply < s.astro me + s.xSupply) := by
  intro s hrun henter
  have hi : Inv me s := (run_inv os (init_inv me astro)).1
  obtain ⟨sp⟩ := enter_spec hu henter
  have hi1 := enter_inv hi hu sp
  have hm : 0 < m := by
    rcases mintAmount_ok sp.hmint with ⟨_, h1, _, h2⟩ | ⟨_, _, _, _, h, _⟩
    · omega
    · exact h
  have hxu := sp.hx u
  simp [hu] at hxu
  have hcap1 : s1.astro me < U128 := by
    have e : exec me s (.enter u a u) = .ok s1 := by simp [exec, require, hu, henter]
    have h1 := exec_sum e
    have h2 := run_sum me (init astro) os
    have h3 := le_sum s1.astro me
    have h4 : ∑ a, (init astro).astro a = ∑ a, astro a := rfl
    have h5 : ∑ a, s.astro a = ∑ a, (init astro).astro a := h2
    omega
  clear_value s
  obtain ⟨s2, r, hl⟩ := leave_succeeds hi1 hcap1 hu hm (by omega) u
  have lsp := leave_spec hl
  have hDs := sp.ha me
  simp [Ne.symm hu] at hDs
  have hau := sp.ha u
  simp [hu] at hau
  have hau2 := lsp.ha u
  simp [hu] at hau2
  have hret := lsp.hret
  have hfund := sp.hfund
  have hS1 := sp.hsup
  -- the two cases of the mint formula
  have key : r ≤ a ∧ (0 < s.xSupply → (a - r) * s.xSupply < s.astro me + s.xSupply) := by
    rcases mintAmount_ok sp.hmint with ⟨h1, h2, h3, h4⟩ | ⟨h1, h2, h3, h4, _⟩
    · -- first stake
      have hS0 : s.xSupply = 0 := by
        rcases h1 with h1 | h1
        · exact h1
        · rcases hi.hlock with h | h <;> omega
      have hD0 : s.astro me = 0 := by
        rcases hrun with h | h
        · omega
        · exact h
      refine ⟨?_, fun h => by omega⟩
      rw [hret, hDs, hD0, Nat.zero_add]
      exact mul_div_le_right_of_le (by omega)
    · rw [hDs, hS1, h3, Nat.add_zero] at hret
      have := round_trip_arith h2 h1 h4 hret
      exact ⟨this.1, fun _ => this.2⟩
  exact ⟨s2, r, hl, key.1, by rw [hau2, hau]; omega, key.2⟩

/-- The side condition of C04 is needed: if ASTRO was donated before the very first stake, the first
staker immediately redeems more than was staked (here 9 000 for 2 000 paid).  Not a loss for any
staker: the gain comes out of the donation. -/
theorem C04_first_staker_takes_prior_donation :
    (do
      let s := run (0 : Fin 3) (init fun i => [0, 2000, 16000].getD i 0) [.sendAstro 2 16000 0]
      let (s1, m) ← enter 0 s 1 2000 1
      let (_, r) ← leave 0 s1 1 m 1
      .ok r : Res Nat) = .ok 9000 := by
  decide

/-- **C05.**  Once some `Enter` has succeeded, in every later state the contract itself holds at least
1000 xASTRO, the supply is at least 1000 and the pool is not empty of ASTRO — so `Leave` never divides
by zero: every holder can redeem any positive part of their balance. -/
theorem C05_minimum_stake_locked_forever (me : A) (astro : A → Nat) (hcap : ∑ a, astro a < U128)
    (os₁ os₂ : List (Op A)) (u r : A) (a m : Nat) (s1 : State A) (hu : u ≠ me)
    (h : enter me (run me (init astro) os₁) u a r = .ok (s1, m)) :
    let s := run me s1 os₂
    1000 ≤ s.xastro me ∧ 1000 ≤ s.xSupply ∧ 1 ≤ s.astro me ∧
      ∀ v n w, v ≠ me → 0 < n → n ≤ s.xastro v → Succeeds (leave me s v n w) := by
  intro s
  have hi0 := (run_inv os₁ (init_inv me astro)).1
  obtain ⟨sp⟩ := enter_spec hu h
  have hi1 := enter_inv hi0 hu sp
  have hm : 0 < m := by
    rcases mintAmount_ok sp.hmint with ⟨_, h1, _, h2⟩ | ⟨_, _, _, _, h, _⟩
    · omega
    · exact h
  have hS1 : 0 < s1.xSupply := by have := sp.hsup; omega
  obtain ⟨hi, hr⟩ := run_inv os₂ hi1
  obtain ⟨hpos, _⟩ := hr hS1
  have hpos : 0 < s.xSupply := hpos
  have hi : Inv me s := hi
  have hlock : 1000 ≤ s.xastro me ∧ 1 ≤ s.astro me := by
    rcases hi.hlock with h | h
    · omega
    · exact h
  have hcap' : s.astro me < U128 := by
    have e : exec me (run me (init astro) os₁) (.enter u a r) = .ok s1 := by
      simp [exec, require, hu, h]
    have h1 := exec_sum e
    have h2 := run_sum me (init astro) os₁
    have h3 := run_sum me s1 os₂
    have h4 := le_sum s.astro me
    have h5 : ∑ a, (init astro).astro a = ∑ a, astro a := rfl
    have h6 : ∑ a, s.astro a = ∑ a, s1.astro a := h3
    omega
  refine ⟨hlock.1, ?_, hlock.2, ?_⟩
  · rw [hi.hsum]; exact le_trans hlock.1 (le_sum _ _)
  · intro v n w hv hn hb
    obtain ⟨s', ret, h⟩ := leave_succeeds hi hcap' hv hn hb w
    exact ⟨_, h⟩

/-- The account that signs an operation. -/
def Op.signer : Op A → A
  | .enter u _ _ | .leave u _ _ | .enterHookLeave u _ _ | .sendAstro u _ _ | .sendX u _ _ => u

omit [Fintype A] in
theorem exec_xastro_other {me : A} {s s' : State A} {o : Op A} (h : exec me s o = .ok s')
    {v : A} (hv : v ≠ o.signer) (hvm : v ≠ me) : s.xastro v ≤ s'.xastro v := by
  cases o with
  | enter u n r =>
    simp only [exec, bind_ok_iff, require_ok, Except.ok.injEq, Prod.exists] at h
    obtain ⟨_, hu, s1, m, h1, rfl⟩ := h
    obtain ⟨sp⟩ := enter_spec hu h1
    rw [sp.hx]; omega
  | leave u n r =>
    simp only [exec, bind_ok_iff, require_ok, Except.ok.injEq, Prod.exists] at h
    obtain ⟨_, hu, s1, m, h1, rfl⟩ := h
    have hv' : v ≠ u := hv
    rw [(leave_spec h1).hx]; simp [hv']
  | enterHookLeave u n r =>
    simp only [exec, bind_ok_iff, require_ok, Except.ok.injEq, Prod.exists] at h
    obtain ⟨_, hu, s1, m, h1, s2, ret, h2, rfl⟩ := h
    obtain ⟨sp⟩ := enter_spec hu h1
    rw [(leave_spec h2).hx, sp.hx]; simp [hvm]
  | sendAstro u n r =>
    simp only [exec, bind_ok_iff, require_ok, Except.ok.injEq] at h
    obtain ⟨_, hu, l, hl, rfl⟩ := h
    exact le_refl _
  | sendX u n r =>
    simp only [exec, bind_ok_iff, require_ok, Except.ok.injEq] at h
    obtain ⟨_, hu, l, hl, rfl⟩ := h
    have hv' : v ≠ u := hv
    show s.xastro v ≤ l v
    rw [move_apply hl]; simp [hv']

/-- **C06 (no dilution).**  Let `v` be any holder and `o` any operation signed by somebody else.  What
`v` would be paid for leaving with the whole balance after `o` is at least what `v` would have been paid
before `o`. -/
theorem C06_others_never_dilute (me : A) (astro : A → Nat) (os : List (Op A)) (o : Op A) (v : A)
    (hv : v ≠ o.signer) (hvm : v ≠ me) (s₁ s₂ : State A) (pay₁ pay₂ : Nat) :
    let s := run me (init astro) os
    let s' := run me (init astro) (os ++ [o])
    leave me s v (s.xastro v) v = .ok (s₁, pay₁) →
    leave me s' v (s'.xastro v) v = .ok (s₂, pay₂) →
    pay₁ ≤ pay₂ := by
  intro s s' h1 h2
  have hi : Inv me s := (run_inv os (init_inv me astro)).1
  have e : s' = step me s o := by simp [s', s, run]
  clear_value s
  clear_value s'
  subst e
  have sp1 := leave_spec h1
  have sp2 := leave_spec h2
  rw [sp1.hret, sp2.hret]
  unfold step at *
  cases hx : exec me s o with
  | error e => simp
  | ok t =>
    simp only [commit'_ok]
    obtain ⟨_, hr⟩ := exec_inv hi hx
    obtain ⟨hp, hc⟩ := hr (Nat.pos_of_ne_zero sp1.hS)
    exact div_le_div_of_cross (Nat.pos_of_ne_zero sp1.hS) hp (exec_xastro_other hx hv hvm) hc

/-- Everyone in `l` leaves with their whole balance, one after the other; returns total paid. -/
def leaveAll (me : A) (s : State A) : List A → Res (State A × Nat)
  | [] => .ok (s, 0)
  | v :: l => do
    let (s1, p) ← leave me s v (s.xastro v) v
    let (s2, q) ← leaveAll me s1 l
    .ok (s2, p + q)

/-- **C06 (solvency).**  In every reachable state all holders can leave with everything they hold, in
any order: every single `Leave` succeeds, and the sum paid is covered by the contract's ASTRO. -/
theorem C06_everybody_can_leave_in_any_order (me : A) (astro : A → Nat)
    (hcap : ∑ a, astro a < U128) (os : List (Op A)) (l : List A) (hnd : l.Nodup) (hme : me ∉ l) :
    let s := run me (init astro) os
    (∀ v ∈ l, 0 < s.xastro v) →
    ∃ s' total, leaveAll me s l = .ok (s', total) ∧ total + s'.astro me = s.astro me ∧
      ∀ v ∈ l, s'.xastro v = 0 := by
  intro s
  have hi : Inv me s := (run_inv os (init_inv me astro)).1
  have hc : s.astro me < U128 := by
    have h2 := run_sum me (init astro) os
    have h3 := le_sum s.astro me
    have h4 : ∑ a, (init astro).astro a = ∑ a, astro a := rfl
    have h5 : ∑ a, s.astro a = ∑ a, (init astro).astro a := h2
    omega
  clear_value s
  clear hcap
  induction l generalizing s with
  | nil => intro _; exact ⟨s, 0, rfl, by simp, by simp⟩
  | cons v l ih =>
    intro hpos
    have hvm : v ≠ me := fun h => hme (by simp [h])
    obtain ⟨s1, p, h1⟩ := leave_succeeds hi hc hvm (hpos v (by simp)) (le_refl _) v
    have sp := leave_spec h1
    have hx : exec me s (.leave v (s.xastro v) v) = .ok s1 := by simp [exec, require, hvm, h1]
    have hi1 := (exec_inv hi hx).1
    have hme1 := sp.ha me
    simp [Ne.symm hvm] at hme1
    have hle := sp.hretle
    rw [List.nodup_cons] at hnd
    obtain ⟨s2, q, h2, h3, h4⟩ := ih hnd.2 (fun h => hme (by simp [h])) s1 hi1 (by omega) (by
      intro w hw
      have hne : w ≠ v := fun h => hnd.1 (h ▸ hw)
      rw [sp.hx]; simp only [hne, if_false]
      exact hpos w (by simp [hw]))
    have hzero : ∀ {t t' : State A} {l : List A} {q : Nat}, leaveAll me t l = .ok (t', q) →
        ∀ w, t'.xastro w ≤ t.xastro w := by
      intro t t' l
      induction l generalizing t with
      | nil => intro q h w; simp [leaveAll] at h; rw [h.1]
      | cons v l ih =>
        intro q h w
        simp only [leaveAll, bind_ok_iff, Prod.exists, Except.ok.injEq, Prod.mk.injEq] at h
        obtain ⟨t1, p1, h1, t2, q2, h2, rfl, _⟩ := h
        refine le_trans (ih h2 w) ?_
        rw [(leave_spec h1).hx]; split <;> omega
    refine ⟨s2, p + q, by simp [leaveAll, h1, h2], by omega, ?_⟩
    intro w hw
    rcases List.mem_cons.1 hw with rfl | hw
    · have := hzero h2 w
      rw [sp.hx] at this
      simp at this; exact this
    · exact h4 w hw

/-- Non-vacuity: a history with a first stake, a second stake, a donation and a partial exit; all
hypotheses of C03–C06 hold in it with non-trivial numbers. -/
example :
    let s := run (0 : Fin 4) (init fun i => [0, 5000, 7000, 400].getD i 0)
      [.enter 1 5000 1, .sendAstro 3 333 0, .enter 2 7000 2, .leave 1 1500 3]
    s.xSupply = 10062 ∧ s.astro 0 = 10733 ∧ s.xastro 1 = 2500 ∧ s.xastro 2 = 6562 ∧
      s.xastro 0 = 1000 := by decide

end Verif.Staking
