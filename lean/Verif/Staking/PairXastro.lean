import Verif.Staking.Props

/-!
# Model of `contracts/pair_xastro` (virtual ASTRO/xASTRO pair) and C07, C71
-/

namespace Verif.Staking
variable {A : Type} [DecidableEq A]

/-- `predict_stake`, contracts/pair_xastro/src/contract.rs:186-202 (with `query_deposit_and_shares`,
174-184: live balance of the staking contract and live xASTRO supply). -/
def predictStake (me : A) (s : State A) (amount : Nat) : Res Nat :=
  let totalDeposit := s.astro me
  let totalShares := s.xSupply
  if totalDeposit = 0 then
    if amount - minimumStake = 0 then .error (.invalid "MinimumStakeAmountError")
    else .ok (amount - minimumStake)
  else mulRatio amount totalShares totalDeposit

/-- `predict_unstake`, contracts/pair_xastro/src/contract.rs:204-220. -/
def predictUnstake (me : A) (s : State A) (amount : Nat) : Res Nat := do
  let totalDeposit := s.astro me
  let totalShares := s.xSupply
  require (totalShares ≥ amount) (.invalid "InvalidUnstakeAmount")
  mulRatio amount totalDeposit totalShares

/-- `ReverseSimulation` asking ASTRO, contracts/pair_xastro/src/queries.rs:38-56: uses the *stake* prediction on the ask amount. -/
def reverseAskAstro (me : A) (s : State A) (ask : Nat) : Res Nat := predictStake me s ask

/-- `ReverseSimulation` asking xASTRO, contracts/pair_xastro/src/queries.rs:38-56: uses the *unstake* prediction. -/
def reverseAskXastro (me : A) (s : State A) (ask : Nat) : Res Nat := predictUnstake me s ask

variable [Fintype A]

/-- **C07 (partial).**  In every reachable state with outstanding xASTRO (or an empty pool), whenever
the staking call made by the virtual pair succeeds, the quote for the same amount is exactly what
staking mints / pays.  Missing: the state with no xASTRO but a donated ASTRO balance, where the code
violates the property, see `C07_quote_violated`. -/
theorem C07_quote_equals_staking_partial (me : A) (astro : A → Nat) (os : List (Op A)) (u r : A)
    (hu : u ≠ me) (a paid : Nat) (s1 : State A) :
    let s := run me (init astro) os
    (0 < s.xSupply ∨ s.astro me = 0) →
    (enter me s u a r = .ok (s1, paid) → predictStake me s a = .ok paid) ∧
    (leave me s u a r = .ok (s1, paid) → predictUnstake me s a = .ok paid) := by
  intro s hrun
  have hi : Inv me s := (run_inv os (init_inv me astro)).1
  clear_value s
  constructor
  · intro h
    obtain ⟨sp⟩ := enter_spec hu h
    have hmin : minimumStake = 1000 := rfl
    unfold predictStake
    rcases mintAmount_ok sp.hmint with ⟨h1, h2, h3, h4⟩ | ⟨h1, h2, h3, h4, h5, h6⟩
    · have hD0 : s.astro me = 0 := by
        rcases hrun with h | h
        · rcases hi.hlock with h' | h' <;> omega
        · exact h
      have hne : ¬ (a - minimumStake = 0) := by omega
      simp only [hD0, if_true, hne, if_false]
      rw [h4, hmin]
    · simp only [Nat.pos_iff_ne_zero.1 h2, if_false]
      rw [mulRatio_ok]
      exact ⟨by omega, by omega, h4.symm⟩
  · intro h
    have sp := leave_spec h
    have hsup := sp.hsup
    unfold leave at h
    simp only [bind_ok_iff, mulRatio_ok] at h
    obtain ⟨_, _, _, _, _, ⟨h1, h2, h3⟩, _⟩ := h
    unfold predictUnstake
    have hge : s.xSupply ≥ a := by omega
    simp only [require, hge, if_true, ok_bind, mulRatio_ok]
    exact ⟨h1, by omega, sp.hret.symm⟩

/-- The unrestricted C07 is false of the code: with 500 ASTRO donated before the first stake, the pair
quotes 0 xASTRO for 2 000 ASTRO while staking mints 1 000. -/
theorem C07_quote_violated :
    let s := run (0 : Fin 3) (init fun i => [0, 2000, 500].getD i 0) [.sendAstro 2 500 0]
    predictStake 0 s 2000 = .ok 0 ∧
      (do let (_, m) ← enter 0 s 1 2000 1; .ok m : Res Nat) = .ok 1000 := by
  decide

/-- **C71 (partial).**  Reverse quotes of the virtual pair: swapping the quoted offer returns at most
the asked amount, and falls short of it by less than the price of one offered unit plus one. -/
theorem C71_reverse_quote_error_partial (me : A) (s : State A) (ask offer got : Nat)
    (hS : 0 < s.xSupply) :
    (reverseAskAstro me s ask = .ok offer → 0 < s.astro me →
      predictUnstake me s offer = .ok got →
      got ≤ ask ∧ (ask - got) * s.xSupply < s.astro me + s.xSupply) ∧
    (reverseAskXastro me s ask = .ok offer → 0 < s.astro me →
      predictStake me s offer = .ok got →
      got ≤ ask ∧ (ask - got) * s.astro me < s.xSupply + s.astro me) := by
  have key : ∀ {x y ask : Nat}, 0 < x → 0 < y →
      (ask * x / y) * y / x ≤ ask ∧ (ask - (ask * x / y) * y / x) * x < y + x := by
    intro x y ask hx hy
    have h1 : ask * x / y * y ≤ ask * x := Nat.div_mul_le_self _ _
    have h2 : ask * x < (ask * x / y + 1) * y := lt_succ_div_mul _ hy
    have h3 : ask * x / y * y < (ask * x / y * y / x + 1) * x := lt_succ_div_mul _ hx
    generalize ask * x / y = q at *
    have hle : q * y / x ≤ ask := by
      apply Nat.div_le_of_le_mul; linarith [Nat.mul_comm x ask]
    refine ⟨hle, ?_⟩
    generalize q * y / x = g at *
    zify [hle] at *
    nlinarith
  constructor
  · intro h1 hD h2
    simp only [reverseAskAstro, predictStake, Nat.pos_iff_ne_zero.1 hD, if_false, mulRatio_ok] at h1
    simp only [predictUnstake, bind_ok_iff, mulRatio_ok] at h2
    obtain ⟨_, _, _, _, h2⟩ := h2
    rw [← h2, ← h1.2.2]
    exact key hS hD
  · intro h1 hD h2
    simp only [predictStake, Nat.pos_iff_ne_zero.1 hD, if_false, mulRatio_ok] at h2
    simp only [reverseAskXastro, predictUnstake, bind_ok_iff, mulRatio_ok] at h1
    obtain ⟨_, _, _, _, h1⟩ := h1
    rw [← h2.2.2, ← h1]
    exact key hD hS

/-- The unrestricted C71 ("the quoted offer buys at least the ask") is false: at rate 12 733 ASTRO per
11 562 xASTRO the quote for 10 ASTRO is 9 xASTRO, which pay only 9 ASTRO. -/
theorem C71_reverse_quote_insufficient :
    let s := run (0 : Fin 4) (init fun i => [0, 5000, 7000, 400].getD i 0)
      [.enter 1 5000 1, .sendAstro 3 333 0, .enter 2 7000 2]
    reverseAskAstro 0 s 10 = .ok 9 ∧ predictUnstake 0 s 9 = .ok 9 := by
  decide

/-- Non-vacuity of C07: running pool, both directions quoted and executed. -/
example :
    let s := run (0 : Fin 4) (init fun i => [0, 5000, 7000, 400].getD i 0)
      [.enter 1 5000 1, .sendAstro 3 333 0]
    predictStake 0 s 7000 = .ok 6562 ∧
      (do let (_, m) ← enter 0 s 2 7000 2; .ok m : Res Nat) = .ok 6562 ∧
    predictUnstake 0 s 100 = .ok 106 ∧
      (do let (_, m) ← leave 0 s 1 100 1; .ok m : Res Nat) = .ok 106 := by
  decide

end Verif.Staking
