import Verif.Inj.Lemmas
import Verif.Duality.Ledgers
import Verif.PCL.Props

/-!
# Balances of the pair with orderbook integration on Injective: C112, C113

Specification: `worth` (all coins of an asset, in accounts and in the pair's subaccount), `Reachable` (a pool created
by the factory, after any history).
-/

namespace Verif.Inj

open Verif.PCL (Setup FeeInfo Pool demoSetup demoParams sendOpt_total sendOpt_other move_other)
open Verif.XYK (sendOpt)
open Verif.Duality (set2 set2_apply sum_sendOpt)

variable {A : Type} [DecidableEq A]

/-- A pair created with any settings and balances, after any history. -/
def Reachable (su : Setup) (me : A) (s : State A) : Prop :=
  ∃ bal u amp gamma scale now number minTrades price qty s0 es,
    create su bal u amp gamma scale now number minTrades price qty = .ok s0 ∧ s = run su me s0 es

/-! ## The pool of the examples -/

/-- The chain and the factory of the examples: no fee receiver. -/
def quiet : Env Nat := { f := ⟨0, none⟩, allowed := true, full := true, avg := some (10 ^ 7, 10 ^ 7), accept := true }

/-- The same with half of the fees for account 4. -/
def taxed : Env Nat := { quiet with f := ⟨5 * 10 ^ 17, some 4⟩ }

/-- The pool of the examples: the pair is account 0, everybody else has 10^15 of both coins; price tick 0.001, quantity
tick 0.001; two orders per side. -/
def demo : Res (State Nat) :=
  create demoSetup (fun _ a => if a = 0 then 0 else 10 ^ 15) demoParams (40 * 10 ^ 18) (145 * 10 ^ 12) (10 ^ 18) 1000
    2 1 (10 ^ 15) (1000 * 10 ^ 18)

/-- Account 2 deposits 1000 of both coins, account 3 trades a little, and the pair places its orders. -/
def demoStart : List (Event Nat) :=
  [⟨2000, 1, .provide 2 (fun _ => 10 ^ 9) none 2 quiet⟩, ⟨2000, 1, .swap 3 false 100000 none none 3 quiet⟩,
   ⟨2000, 1, .block quiet⟩]

/-! ## C112: nobody else loses -/

theorem leave_other {me a : A} {s : State A} (ha : a ≠ me) : ∀ i, (leave me s).pcl.bal i a = s.pcl.bal i a := by
  intro i; simp [leave, credit_of_ne _ _ ha]

/-- **C112.** A transaction, a call by the chain or a trade on the exchange takes neither coins nor LP tokens from
anybody but the signer and the pair. -/
theorem C112_others_never_lose (su : Setup) (me : A) (now : Nat) (fo : A) (s s' : State A) (o : Op A) (a : A)
    (h : exec su me now fo s o = .ok s') (ha : o.signer ≠ some a) :
    s.pcl.lp a ≤ s'.pcl.lp a ∧ (a ≠ me → ∀ i, s.pcl.bal i a ≤ s'.pcl.bal i a) := by
  obtain ⟨hsig, hx⟩ := exec_cases h
  rcases hx with ⟨u, d, t, r, e', sh, rfl, hx⟩ | ⟨u, n, x, rfl, hx⟩ | ⟨u, i, n, b, m, r, e', x, rfl, hx⟩ |
    ⟨u, ac, e', rfl, hx⟩ | ⟨u, p, q, rfl, ob, _, rfl⟩ | ⟨u, n, rfl, _, _, _, rfl⟩ | ⟨x, c, rfl, hax, hx, rfl⟩ |
    ⟨e', rfl, hx⟩ | ⟨rfl, rfl⟩ | ⟨x, y, rfl, _, rfl⟩
  · have hau : a ≠ u := fun hh => ha (by rw [hh]; rfl)
    obtain ⟨b0, total, ps, dd, xs, pool, fee, shareD, sp⟩ := provide_spec hx
    constructor
    · rw [sp.hlp, credit_apply, credit_apply]; split <;> split <;> omega
    · intro hm i
      exact le_trans (move_other hau (sp.hb0 i)) (payFee_other hm sp.hpay i)
  · have hau : a ≠ u := fun hh => ha (by rw [hh]; rfl)
    obtain ⟨xs, r, own, z, sp⟩ := withdraw_spec hx
    constructor
    · rw [debit_apply sp.hlp a, if_neg hau]
    · intro hm i
      have hz : z.pcl.bal i a = s.pcl.bal i a := by
        rw [sp.hz]; split
        · exact leave_other hm i
        · rfl
      rw [← hz]
      cases i
      · exact move_other hm sp.hb0.1
      · exact move_other hm sp.hb1.1
  · have hau : a ≠ u := fun hh => ha (by rw [hh]; rfl)
    obtain ⟨bo, bal, ps, xs, pool, fee, off, rr, out, l1, sp⟩ := swap_spec hx
    constructor
    · rw [sp.hrest.2.2.1]
    · intro hm j
      have h3 := payFee_other hm sp.hpay j
      rw [set2_apply] at h3
      by_cases hj : j = i
      · subst hj
        rw [if_pos rfl] at h3
        rw [sp.hci]
        exact le_trans (move_other hau sp.hbo) h3
      · have hj' : j = !i := by cases i <;> cases j <;> simp_all
        rw [if_neg hj] at h3
        subst hj'
        exact le_trans h3 (le_trans (move_other hm sp.hl1) (sendOpt_other hm sp.hl2))
  · obtain ⟨_, xs, xs', fee, _, _, hp, hs⟩ := emergency_spec hx
    constructor
    · rw [hs]
    · intro hm i
      have := payFee_other hm hp i
      rwa [leave_other hm i] at this
  · exact ⟨le_refl _, fun _ _ => le_refl _⟩
  · exact ⟨le_refl _, fun _ _ => le_refl _⟩
  · exact PCL.C90_others_never_lose su me now fo s.pcl c x a hx (fun hh => ha (by rw [hh]; rfl))
  · rcases beginBlock_spec hx with rfl | ⟨_, _, _, xs, pool, xs', fee, _, _, rfl | ⟨bal, b0, b1, l, need, base, quote,
      ag, dd, hp, hb0, hb1, _, _, _, _, _, _, hs⟩⟩
    · exact ⟨le_refl _, fun _ _ => le_refl _⟩
    · exact ⟨le_refl _, fun hm i => (leave_other hm i).ge⟩
    · rw [hs]
      refine ⟨le_refl _, fun hm i => ?_⟩
      refine le_trans (payFee_other hm hp i) ?_
      cases i
      · exact (adjust_other hm hb0).ge
      · exact (adjust_other hm hb1).ge
  · exact ⟨le_refl _, fun hm i => (leave_other hm i).ge⟩
  · exact ⟨le_refl _, fun _ _ => le_refl _⟩

/-! ## C112: coins are neither created nor lost -/

/-- All coins of asset `i`: in all accounts and in the pair's subaccount on the exchange. -/
def worth [Fintype A] (s : State A) (i : Bool) : Nat := ∑ a, s.pcl.bal i a + s.sub i

theorem leave_worth [Fintype A] {me : A} {s : State A} (i : Bool) :
    ∑ a, (leave me s).pcl.bal i a = worth s i := by
  simp [leave, sum_credit, worth]

/-- What owner operations and transfers do to the coins. -/
theorem admin_sum [Fintype A] {su : Setup} {me : A} {now : Nat} {fo : A} {s c : PCL.State A} {x : PCL.Op A}
    (hax : isAdmin x = true) (hx : PCL.exec su me now fo s x = .ok c) (i : Bool) :
    ∑ a, c.bal i a = ∑ a, s.bal i a := by
  cases x with
  | send j u v n =>
    unfold PCL.exec at hx
    simp only [bind_ok_iff, require_ok, exists_const, Except.ok.injEq] at hx
    obtain ⟨_, b, hb, rfl⟩ := hx
    dsimp only
    by_cases hj : i = j
    · subst hj; simp only [if_true]; exact sum_move hb
    · simp only [if_neg hj]
  | sendLp u v n =>
    unfold PCL.exec at hx
    simp only [bind_ok_iff, require_ok, exists_const, Except.ok.injEq] at hx
    obtain ⟨_, b, hb, rfl⟩ := hx
    rfl
  | update u v =>
    unfold PCL.exec at hx
    simp only [bind_ok_iff, PCL.authorised, require_ok, exists_const, Except.ok.injEq] at hx
    obtain ⟨_, _, _, _, rfl⟩ := hx
    rfl
  | promote u a g t =>
    unfold PCL.exec at hx
    simp only [bind_ok_iff, PCL.authorised, require_ok, exists_const, Except.ok.injEq] at hx
    obtain ⟨_, _, _, _, rfl⟩ := hx
    rfl
  | stop u =>
    unfold PCL.exec at hx
    simp only [bind_ok_iff, PCL.authorised, require_ok, exists_const, Except.ok.injEq] at hx
    obtain ⟨_, _, _, _, rfl⟩ := hx
    rfl
  | enableShare u bps r => cases hax
  | disableShare u => cases hax
  | provide _ _ _ _ _ => cases hax
  | withdraw _ _ _ => cases hax
  | swap _ _ _ _ _ _ _ => cases hax

/-- **C112.** Nothing but trades on the exchange creates or destroys coins: the coins in all accounts and in the pair's
subaccount stay the same, for both assets; and a trade on the exchange changes the subaccount alone, by what was
bought and paid. -/
theorem C112_coins_conserved [Fintype A] (su : Setup) (me : A) (now : Nat) (fo : A) (s s' : State A) (o : Op A)
    (h : exec su me now fo s o = .ok s') :
    match o with
    | .fill sold paid => ∀ i, s'.pcl.bal i = s.pcl.bal i ∧ sold i ≤ s.sub i ∧ s'.sub i = s.sub i - sold i + paid i
    | _ => ∀ i, worth s' i = worth s i := by
  obtain ⟨hsig, hx⟩ := exec_cases h
  rcases hx with ⟨u, d, t, r, e', sh, rfl, hx⟩ | ⟨u, n, x, rfl, hx⟩ | ⟨u, i, n, b, m, r, e', x, rfl, hx⟩ |
    ⟨u, ac, e', rfl, hx⟩ | ⟨u, p, q, rfl, ob, _, rfl⟩ | ⟨u, n, rfl, _, _, _, rfl⟩ | ⟨x, c, rfl, hax, hx, rfl⟩ |
    ⟨e', rfl, hx⟩ | ⟨rfl, rfl⟩ | ⟨x, y, rfl, hxy, rfl⟩ <;> dsimp only
  · obtain ⟨b0, total, ps, dd, xs, pool, fee, shareD, sp⟩ := provide_spec hx
    intro i
    unfold worth
    rw [payFee_sum sp.hpay i, sum_move (sp.hb0 i), sp.hrest.2.2.1]
  · obtain ⟨xs, r, own, z, sp⟩ := withdraw_spec hx
    intro i
    have hz : ∑ a, z.pcl.bal i a + z.sub i = worth s i := by
      rw [sp.hz]; split
      · rw [leave_worth]; rfl
      · rfl
    rw [← hz]
    unfold worth
    rw [sp.hrest.2.2.1]
    congr 1
    cases i
    · exact sum_move sp.hb0.1
    · exact sum_move sp.hb1.1
  · obtain ⟨bo, bal, ps, xs, pool, fee, off, rr, out, l1, sp⟩ := swap_spec hx
    intro j
    unfold worth
    rw [sp.hrest.2.2.2.2.1]
    congr 1
    have h3 : ∑ a, bal j a = ∑ a, s.pcl.bal j a := by
      rw [payFee_sum sp.hpay j]
      by_cases hj : j = i
      · subst hj; simp only [set2_apply, if_true]; exact sum_move sp.hbo
      · simp only [set2_apply, if_neg hj]
    rw [← h3]
    by_cases hj : j = i
    · subst hj; rw [sp.hci]
    · have hj' : j = !i := by cases i <;> cases j <;> simp_all
      subst hj'
      rw [sum_sendOpt sp.hl2, sum_move sp.hl1]
  · obtain ⟨_, xs, xs', fee, _, _, hp, hs⟩ := emergency_spec hx
    intro i
    have h1 := payFee_sum hp i
    rw [leave_worth] at h1
    rw [← h1, hs]
    rfl
  · intro i; rfl
  · intro i; rfl
  · intro i
    show ∑ a, c.bal i a + s.sub i = ∑ a, s.pcl.bal i a + s.sub i
    rw [admin_sum hax hx i]
  · intro i
    rcases beginBlock_spec hx with rfl | ⟨_, _, _, xs, pool, xs', fee, _, _, rfl | ⟨bal, b0, b1, l, need, base, quote,
      ag, dd, hp, hb0, hb1, _, _, _, _, _, _, hs⟩⟩
    · rfl
    · show ∑ a, (leave me { s with pcl := { s.pcl with pool := pool } }).pcl.bal i a + 0 = _
      rw [leave_worth]; rfl
    · rw [hs]
      have h1 := payFee_sum hp i
      unfold worth
      dsimp only
      rw [← h1]
      cases i
      · exact adjust_sum hb0
      · exact adjust_sum hb1
  · intro i
    show ∑ a, (leave me s).pcl.bal i a + 0 = _
    rw [leave_worth]; rfl
  · exact fun i => ⟨rfl, hxy i, rfl⟩

/-! ## C113: LP tokens -/

/-- What a transaction does to the LP ledger. -/
theorem exec_lp {su : Setup} {me : A} {now : Nat} {fo : A} {s s' : State A} {o : Op A}
    (h : exec su me now fo s o = .ok s') :
    (s'.pcl.lp = s.pcl.lp ∧ s'.pcl.supply = s.pcl.supply) ∨
    (∃ rc locked share, s'.pcl.lp = credit (credit s.pcl.lp me locked) rc share ∧
      s'.pcl.supply = s.pcl.supply + locked + share ∧ (s.pcl.supply = 0 → locked = 1000)) ∨
    (∃ u n, u ≠ me ∧ debit s.pcl.lp u n = .ok s'.pcl.lp ∧ n ≤ s.pcl.supply ∧ s'.pcl.supply = s.pcl.supply - n) ∨
    (∃ u v n, u ≠ me ∧ move s.pcl.lp u v n = .ok s'.pcl.lp ∧ s'.pcl.supply = s.pcl.supply) := by
  obtain ⟨hsig, hx⟩ := exec_cases h
  rcases hx with ⟨u, d, t, r, e', sh, rfl, hx⟩ | ⟨u, n, x, rfl, hx⟩ | ⟨u, i, n, b, m, r, e', x, rfl, hx⟩ |
    ⟨u, ac, e', rfl, hx⟩ | ⟨u, p, q, rfl, ob, _, rfl⟩ | ⟨u, n, rfl, _, _, _, rfl⟩ | ⟨x, c, rfl, hax, hx, rfl⟩ |
    ⟨e', rfl, hx⟩ | ⟨rfl, rfl⟩ | ⟨x, y, rfl, _, rfl⟩
  · obtain ⟨b0, total, ps, dd, xs, pool, fee, shareD, sp⟩ := provide_spec hx
    exact Or.inr (Or.inl ⟨r, _, sh, sp.hlp, sp.hsup.1, fun h0 => if_pos h0⟩)
  · obtain ⟨xs, r, own, z, sp⟩ := withdraw_spec hx
    exact Or.inr (Or.inr (Or.inl ⟨u, n, fun hh => hsig (by rw [hh]; rfl), sp.hlp, sp.hsup.1, sp.hsup.2⟩))
  · obtain ⟨bo, bal, ps, xs, pool, fee, off, rr, out, l1, sp⟩ := swap_spec hx
    exact Or.inl ⟨sp.hrest.2.2.1, sp.hrest.2.2.2.1⟩
  · obtain ⟨_, xs, xs', fee, _, _, hp, hs⟩ := emergency_spec hx
    rw [hs]; exact Or.inl ⟨rfl, rfl⟩
  · exact Or.inl ⟨rfl, rfl⟩
  · exact Or.inl ⟨rfl, rfl⟩
  · obtain ⟨hs, hy⟩ := PCL.exec_lp hx
    rcases hy with hy | ⟨rc, l, sh, h1, h2, h3⟩ | ⟨n, h1, h2, h3⟩ | ⟨v, n, h1, h2⟩
    · exact Or.inl hy
    · exact Or.inr (Or.inl ⟨rc, l, sh, h1, h2, h3⟩)
    · exact Or.inr (Or.inr (Or.inl ⟨_, n, hs, h1, h2, h3⟩))
    · exact Or.inr (Or.inr (Or.inr ⟨_, v, n, hs, h1, h2⟩))
  · rcases beginBlock_spec hx with rfl | ⟨_, _, _, xs, pool, xs', fee, _, _, rfl | ⟨bal, b0, b1, l, need, base, quote,
      ag, dd, hp, hb0, hb1, _, _, _, _, _, _, hs⟩⟩
    · exact Or.inl ⟨rfl, rfl⟩
    · exact Or.inl ⟨rfl, rfl⟩
    · rw [hs]; exact Or.inl ⟨rfl, rfl⟩
  · exact Or.inl ⟨rfl, rfl⟩
  · exact Or.inl ⟨rfl, rfl⟩

/-- The invariant of C113. -/
def LpInv [Fintype A] (me : A) (s : State A) : Prop :=
  s.pcl.supply = ∑ a, s.pcl.lp a ∧ (s.pcl.supply = 0 ∨ 1000 ≤ s.pcl.lp me)

theorem lpInv_step [Fintype A] {su : Setup} {me : A} {now : Nat} {fo : A} {s s' : State A} {o : Op A}
    (hi : LpInv me s) (h : exec su me now fo s o = .ok s') :
    LpInv me s' ∧ (s.pcl.supply ≠ 0 → s'.pcl.supply ≠ 0) ∧ s.pcl.lp me ≤ s'.pcl.lp me := by
  obtain ⟨h1, h2⟩ := hi
  have hle := le_sum s'.pcl.lp me
  rcases exec_lp h with ⟨e1, e2⟩ | ⟨rc, locked, share, e1, e2, e3⟩ | ⟨u, n, hu, e1, e2, e3⟩ | ⟨u, v, n, hu, e1, e2⟩
  · refine ⟨⟨by rw [e1, e2]; exact h1, by rw [e1, e2]; exact h2⟩, by rw [e2]; exact id, by rw [e1]⟩
  · have hm : s.pcl.lp me ≤ s'.pcl.lp me ∧ s.pcl.lp me + locked ≤ s'.pcl.lp me := by
      rw [e1, credit_apply, credit_apply]
      simp only [if_true]
      split <;> omega
    refine ⟨⟨?_, ?_⟩, by omega, hm.1⟩
    · rw [e1, sum_credit, sum_credit, e2]; omega
    · right
      rcases h2 with h2 | h2
      · have := e3 h2; omega
      · omega
  · have hs := sum_debit e1
    have hm : s'.pcl.lp me = s.pcl.lp me := by rw [debit_apply e1 me, if_neg (fun hh => hu hh.symm)]
    refine ⟨⟨by omega, ?_⟩, ?_, by rw [hm]⟩
    · rcases h2 with h2 | h2
      · left; omega
      · right; omega
    · intro h0
      have : 1000 ≤ s.pcl.lp me := h2.resolve_left h0
      omega
  · have hs := sum_move e1
    have hm : s.pcl.lp me ≤ s'.pcl.lp me := move_other (fun hh => hu hh.symm) e1
    refine ⟨⟨by omega, ?_⟩, by omega, hm⟩
    rcases h2 with h2 | h2
    · left; omega
    · right; omega

theorem lpInv_run [Fintype A] {su : Setup} {me : A} (es : List (Event A)) {s : State A} (hi : LpInv me s) :
    LpInv me (run su me s es) ∧ (s.pcl.supply ≠ 0 → (run su me s es).pcl.supply ≠ 0) ∧
      s.pcl.lp me ≤ (run su me s es).pcl.lp me := by
  induction es generalizing s with
  | nil => exact ⟨hi, id, le_refl _⟩
  | cons e rest ih =>
    have hrun : run su me s (e :: rest) = run su me (step su me s e) rest := rfl
    rw [hrun]
    have hs : LpInv me (step su me s e) ∧ (s.pcl.supply ≠ 0 → (step su me s e).pcl.supply ≠ 0) ∧
        s.pcl.lp me ≤ (step su me s e).pcl.lp me := by
      unfold step
      cases hx : exec su me e.now e.fo s e.op with
      | ok s' => exact lpInv_step hi hx
      | error _ => exact ⟨hi, id, le_refl _⟩
    obtain ⟨i1, i2, i3⟩ := ih hs.1
    exact ⟨i1, fun h => i2 (hs.2.1 h), le_trans hs.2.2 i3⟩

omit [DecidableEq A] in
theorem create_spec {su : Setup} {bal : Bool → A → Nat} {u : PCL.PParams} {amp gamma scale now number minTrades price qty : Nat}
    {s : State A} (h : create su bal u amp gamma scale now number minTrades price qty = .ok s) :
    (∀ a, s.pcl.lp a = 0) ∧ s.pcl.supply = 0 ∧ s.pcl.bal = bal ∧ (∀ i, s.sub i = 0) ∧ (∀ i, s.ob.last i = 0) ∧
      s.posted = [] ∧ 1 ≤ s.ob.number ∧ s.ob.number ≤ 30 ∧ 1 ≤ s.ob.minTrades ∧ s.ob.minTrades ≤ 3000 := by
  simp only [create, PCL.create, newOB, validate, setTicks, bind_ok_iff, require_ok, exists_const, Except.ok.injEq] at h
  obtain ⟨_, ⟨⟨h1, h2⟩, _, _, _, rfl⟩, _, ⟨_, _, _, _, _, rfl⟩, rfl⟩ := h
  simp only [NUMBER_MIN, NUMBER_MAX, TRADES_MIN, TRADES_MAX] at h1 h2
  exact ⟨fun _ => rfl, rfl, rfl, fun _ => rfl, fun _ => rfl, rfl, h1.1, h1.2, h2.1, h2.2⟩

/-- **C113.** In every history the LP supply is the sum of the LP balances; once liquidity was provided, the 1000 LP
tokens locked in the pair stay there and the supply never returns to zero. -/
theorem C113_lp_supply_and_locked_minimum [Fintype A] (su : Setup) (me : A) (s : State A) (es : List (Event A))
    (hr : Reachable su me s) :
    s.pcl.supply = ∑ a, s.pcl.lp a ∧ (s.pcl.supply = 0 ∨ 1000 ≤ s.pcl.lp me) ∧
    (s.pcl.supply ≠ 0 → (run su me s es).pcl.supply ≠ 0 ∧ s.pcl.lp me ≤ (run su me s es).pcl.lp me) := by
  have hi : LpInv me s := by
    obtain ⟨_, _, _, _, _, _, _, _, _, _, s0, es0, h0, rfl⟩ := hr
    refine (lpInv_run es0 ?_).1
    have := create_spec h0
    exact ⟨by simp [this.1, this.2.1], Or.inl this.2.1⟩
  have h2 := (lpInv_run (su := su) es hi).2
  exact ⟨hi.1, hi.2, fun h => ⟨h2.1 h, h2.2⟩⟩

/-- Non-vacuity of C112 and C113: after the deposit the pair has orders with 19.9 of both coins in its subaccount. -/
example : okAnd demo (fun s =>
    let z := run demoSetup 0 s demoStart
    decide (z.pcl.supply = 1000000000 ∧ z.pcl.lp 0 = 1000 ∧ z.pcl.lp 2 = 999999000) &&
    decide (z.sub false = 19902000 ∧ z.sub true = 19870000 ∧ z.posted.length = 4) &&
    okAnd (exec demoSetup 0 2000 1 z (.fill (fun i => if i then 0 else 1000) (fun i => if i then 1004 else 0)))
      (fun z => decide (z.sub false = 19901000 ∧ z.sub true = 19871004)) &&
    okAnd (exec demoSetup 0 2000 1 z (.withdraw 2 990000000))
      (fun z => decide (z.sub false = 0 ∧ z.pcl.bal false 2 = 999999990098998 ∧ z.pcl.bal true 2 = 999999989901257))) = true := by
  decide +kernel

end Verif.Inj
