import Verif.Incentives.Owed
import Verif.Incentives.Fund

/-!
# Incentives: C28, C29, C30, C31, C32, C34

`I` is the (finite) set of reward tokens, `U` the (finite, arbitrarily large) set of accounts, `me` the
contract.  A history is any list of `Op`; failed calls change nothing.  `amt p u` is `u`'s position.
-/

namespace Verif.Incentives

variable {I U : Type} [Fintype I] [DecidableEq I] [DecidableEq U] [Fintype U]

/-! ## C28 -/

/-- C28 (first half): in every history the positions add up to the pool's total, the contract holds
exactly that total (plus LP tokens sent to it without a deposit), and each staker's position is exactly
what was deposited for them minus what they withdrew. -/
theorem C28_lp_conserved (me : U) (lp : U → Nat) (now : Nat) (hme : lp me = 0) (ops : List (Op I U)) :
    let r := run me (start lp now) ops
    ∑ u, amt r.st.pool u = r.st.pool.totalLp ∧
    r.st.lp me = r.st.pool.totalLp + r.books.donated ∧
    ∀ u, r.books.withdrawn u + amt r.st.pool u = r.books.deposited u := by
  have h := run_lpInv ops _ (start_lpInv (I := I) me lp now hme)
  obtain ⟨E, hA, _⟩ := h.astro
  exact ⟨hA.total, h.held, h.own⟩

/-- C28: a withdrawal hands out exactly the amount asked for, at most the position, and takes exactly it
off the position and nobody else's. -/
theorem C28_withdraw_exact {me user : U} {s s' : State I U} {n : Nat} {x : Paid I} (hme : user ≠ me)
    (h : withdraw me s user n = .ok (s', x)) :
    n ≤ amt s.pool user ∧ s'.lp user = s.lp user + n ∧ amt s'.pool user + n = amt s.pool user ∧
    ∀ v, v ≠ user → amt s'.pool v = amt s.pool v := by
  have hu := (update_fields s.now s.pool).1
  unfold withdraw at h
  simp only [bind_ok_iff, orErr_ok, require_ok, exists_const, csub_ok, Except.ok.injEq,
    Prod.mk.injEq] at h
  obtain ⟨u, hus, hn, pay, hpay, T, ⟨hTn, rfl⟩, lp, hlp, hs, rfl⟩ := h
  have f1 : s'.pool.users = Function.update s.pool.users user
      (if u.amount - n = 0 then none else
        some (sync (update s.now s.pool).1 { u with amount := u.amount - n })) := by
    rw [← hs, ← hu]; rfl
  have ham : amt s'.pool user = u.amount - n := by
    unfold amt
    rw [f1, Function.update_self]
    split
    · rename_i h0
      split at h0
      · omega
      · simp at h0
    · rename_i h0
      split at h0
      · simp at h0
      · rw [← Option.some.inj h0]; rfl
  have hself := amt_some hus
  refine ⟨by omega, ?_, by omega, ?_⟩
  · rw [← hs]
    show lp user = _
    rw [move_apply hlp, if_neg hme, if_pos rfl]
  · intro v hv
    unfold amt
    rw [f1, Function.update_of_ne hv]

/-- C28 (second half), partial: in a clean history (nobody deposits zero, and the owner removes a reward
only in a block in which the pool was not touched before) whose reward streams stay within 128-bit
amounts, a staker can withdraw any part of their position at any time.
Missing: histories with removals in a block that already touched the pool, where it is false
(`C28_withdraw_stuck_violated`). -/
theorem C28_can_withdraw_partial (me : U) (lp : U → Nat) (now : Nat) (hme : lp me = 0)
    (ops : List (Op I U)) (hclean : Clean me (start lp now) ops) (user : U) (n : Nat)
    (hE : ∀ X, (run me (start lp now) ops).books.emitted X < U128 * DEC)
    (hA : (run me (start lp now) ops).books.astroEmitted < U128 * DEC)
    (hpos : 0 < amt (run me (start lp now) ops).st.pool user)
    (hn : n ≤ amt (run me (start lp now) ops).st.pool user) :
    ∃ s' x, withdraw me (run me (start lp now) ops).st user n = .ok (s', x) := by
  have hL := run_lpInv ops _ (start_lpInv (I := I) me lp now hme)
  have hR : ∀ X, RunInv X True (run me (start lp now) ops) := fun X =>
    run_runInv_clean me ops _ (start_runInv X True lp now) hclean
  generalize run me (start lp now) ops = r at *
  obtain ⟨hu, hT, _⟩ := update_fields r.st.now r.st.pool
  obtain ⟨E, hAI, hEE, _⟩ := hL.update
  cases hus : r.st.pool.users user with
  | none => unfold amt at hpos; rw [hus] at hpos; simp at hpos
  | some u =>
    have hamt := amt_some hus
    have husr : (update r.st.now r.st.pool).1.users user = some u := by rw [hu, hus]
    have hpay : ∀ X, isOk (payExt (update r.st.now r.st.pool).1 (update r.st.now r.st.pool).2 u X) = true := by
      intro X
      obtain ⟨ev, C, hI, hC, _, hex⟩ := (hR X).update
      rw [payExt_exact hI (hex trivial).1 (by have := hE X; omega) husr]
      rfl
    have hle := hAI.le user u husr
    have hast : ∃ a, payAstro (update r.st.now r.st.pool).1 u = .ok a := by
      refine ⟨_, payAstro_exact hle ?_⟩
      have h1 := le_sum (fun v => amt (update r.st.now r.st.pool).1 v *
        (aidx (update r.st.now r.st.pool).1 - auidx (update r.st.now r.st.pool).1 v)) user
      have h2 : auidx (update r.st.now r.st.pool).1 user = u.int.getD 0 := by unfold auidx; rw [husr]
      simp only [amt_some husr, h2] at h1
      have := hAI.acct
      omega
    obtain ⟨a, ha⟩ := hast
    have htot : n ≤ r.st.pool.totalLp := by
      have h1 := le_sum (amt (update r.st.now r.st.pool).1) user
      have h2 := hAI.total
      rw [hT] at h2
      rw [amt_some husr] at h1
      omega
    obtain ⟨lp', hlp⟩ := move_succeeds (l := r.st.lp) (a := me) (b := user) (n := n)
      (by have := hL.held; omega)
    have hreq : require (¬ u.amount < n) (.invalid "AmountExceedsBalance") = .ok () :=
      (require_ok _ _ _).2 (by omega)
    have hpa : payAll (update r.st.now r.st.pool).1 (update r.st.now r.st.pool).2 u =
        .ok ⟨fun X => val (payExt (update r.st.now r.st.pool).1 (update r.st.now r.st.pool).2 u X), a⟩ := by
      have hq : require (∀ X, isOk (payExt (update r.st.now r.st.pool).1
          (update r.st.now r.st.pool).2 u X) = true) .overflow = .ok () := (require_ok _ _ _).2 hpay
      simp only [payAll, hq, ha, ok_bind]
    have hsub : csub (update r.st.now r.st.pool).1.totalLp n =
        .ok ((update r.st.now r.st.pool).1.totalLp - n) := (csub_ok _ _ _).2 ⟨by rw [hT]; exact htot, rfl⟩
    unfold withdraw
    simp only [hus, orErr, ok_bind, hreq, hpa, hsub, hlp]
    exact ⟨_, _, rfl⟩


/-! Concrete histories. -/

section Witness

/-- Four accounts; account 0 is the contract, the others own 1000 LP each. -/
def wLp : Fin 4 → Nat := fun u => if u = 0 then 0 else 1000
/-- One second after the epoch origin. -/
def wStart : Run (Fin 2) (Fin 4) := start wLp (EPOCHS_START + 1)
/-- A staker accrues a reward, claims; in the same block the owner removes the reward; it is then added
again with a small amount and runs out. -/
def wStuck : List (Op (Fin 2) (Fin 4)) :=
  [.deposit 1 1 100, .incentivize 0 100000000 1 false, .wait 200000, .claim 1, .removeReward 0 false,
   .incentivize 0 1300000 1 false, .wait 2000000, .touch]
/-- Deposits, two rewards, ASTRO, claims. -/
def wUsual : List (Op (Fin 2) (Fin 4)) :=
  [.deposit 1 1 100, .deposit 2 3 300, .incentivize 0 100000000 1 false, .incentivize 1 90000000 2 false,
   .setAstro 5000000000000000000, .wait 200000, .claim 1, .withdraw 3 50, .sendLp 2 0 7, .wait 100000]

end Witness

/-- An ended incarnation with an index below the one stored for the staker blocks every later call. -/
theorem stuck_of {me user : U} {s : State I U} {u : User I} {X : I} {f : Nat} {fs : List Nat}
    (hus : s.pool.users user = some u) (hx : s.pool.ext X = none)
    (hfin : (s.pool.fin.filterMap fun y => if u.lastClaim < y.1 then y.2 X else none) = f :: fs)
    (hlt : f < (u.ext X).getD 0) (d n : Nat) :
    (∃ e, withdraw me { s with now := s.now + d } user n = .error e) ∧
    ∃ e, claim { s with now := s.now + d } user = .error e := by
  have hpay : ¬ ∀ Y, isOk (payExt (update (s.now + d) s.pool).1 (update (s.now + d) s.pool).2 u Y) = true := by
    intro hall
    have := hall X
    unfold payExt at this
    rw [finishedOf_eq, (update_fields _ _).2.2.2.1, hfin] at this
    simp only [List.cons_append, payFinished] at this
    have hc : csub f ((u.ext X).getD 0) = .error .underflow := by
      unfold csub; rw [if_neg (by omega)]
    rw [hc] at this
    simp [isOk, error_bind] at this
  have hall : payAll (update (s.now + d) s.pool).1 (update (s.now + d) s.pool).2 u = .error .overflow := by
    unfold payAll
    rw [show require (∀ Y, isOk (payExt (update (s.now + d) s.pool).1 (update (s.now + d) s.pool).2 u Y) = true)
      .overflow = .error .overflow from if_neg hpay]
    rfl
  constructor
  · unfold withdraw
    simp only [hus, orErr, ok_bind]
    by_cases hn : u.amount < n
    · exact ⟨_, by rw [show require (¬ u.amount < n) (.invalid "AmountExceedsBalance") = .error _ from
        if_neg (by simpa using hn)]; rfl⟩
    · exact ⟨_, by
        rw [show require (¬ u.amount < n) (.invalid "AmountExceedsBalance") = .ok () from if_pos hn, hall]
        rfl⟩
  · unfold claim
    simp only [hus, orErr, ok_bind, hall]
    exact ⟨_, rfl⟩

/-- C28 is violated: after `wStuck` account 1 still has its 100 LP staked, but every withdrawal (of any
amount, at any later time) and every claim fails, because the finished reward index is below the index
stored at the last sync and the subtraction aborts. -/
theorem C28_withdraw_stuck_violated :
    amt (run 0 wStart wStuck).st.pool 1 = 100 ∧ (run 0 wStart wStuck).st.lp 0 = 100 ∧
    ∀ d n, (∃ e, withdraw 0 { (run 0 wStart wStuck).st with now := (run 0 wStart wStuck).st.now + d } 1 n = .error e) ∧
      ∃ e, claim { (run 0 wStart wStuck).st with now := (run 0 wStart wStuck).st.now + d } 1 = .error e := by
  refine ⟨by decide +kernel, by decide +kernel, fun d n => ?_⟩
  have h : ∃ u, (run 0 wStart wStuck).st.pool.users 1 = some u ∧ ∃ f fs,
      ((run 0 wStart wStuck).st.pool.fin.filterMap fun y => if u.lastClaim < y.1 then y.2 0 else none) = f :: fs ∧
      f < (u.ext 0).getD 0 := by
    have h1 : (match (run 0 wStart wStuck).st.pool.users 1 with
      | none => false
      | some u => match ((run 0 wStart wStuck).st.pool.fin.filterMap fun y =>
            if u.lastClaim < y.1 then y.2 0 else none) with
        | [] => false
        | f :: _ => decide (f < (u.ext 0).getD 0)) = true := by decide +kernel
    revert h1
    cases (run 0 wStart wStuck).st.pool.users 1 with
    | none => simp
    | some u =>
      simp only
      intro h1
      refine ⟨u, rfl, ?_⟩
      revert h1
      generalize (run 0 wStart wStuck).st.pool.fin.filterMap _ = l
      cases l with
      | nil => simp
      | cons f fs => intro h1; exact ⟨f, fs, rfl, by simpa using h1⟩
  obtain ⟨u, hu, f, fs, hf, hlt⟩ := h
  exact stuck_of hu (by decide +kernel) hf hlt d n

/-- The clean-history hypotheses are met by a history with two stakers, two rewards and ASTRO. -/
example : Clean 0 wStart wUsual := by
  simp only [wUsual, Clean, and_true, true_and]; decide
example : amt (run 0 wStart wUsual).st.pool 3 = 250 ∧ (run 0 wStart wUsual).st.lp 0 = 357 ∧
    okAnd (withdraw 0 (run 0 wStart wUsual).st 3 250) (fun x => decide (0 < x.2.ext 0 ∧ 0 < x.2.int)) = true := by
  decide +kernel

/-! ## C29 -/

/-- What a staker could claim now, `0` if nothing. -/
def claimable (s : State I U) (u : U) (X : I) : Nat := val (pending s u X)
/-- Same for ASTRO. -/
def claimableAstro (s : State I U) (u : U) : Nat := val (pendingAstro s u)

theorem pending_le {X : I} {r : Run I U} {ev : U → List Nat} {C paid : Nat}
    (hI : Inv X (update r.st.now r.st.pool).1 (update r.st.now r.st.pool).2 ev paid C) :
    ∑ u, DEC * claimable r.st u X ≤ ∑ u, amt (update r.st.now r.st.pool).1 u *
      entl (uidx (update r.st.now r.st.pool).1 X u) (ev u) (idx (update r.st.now r.st.pool).1 X) := by
  apply Finset.sum_le_sum
  intro u _
  unfold claimable pending
  simp only
  cases hus : r.st.pool.users u with
  | none => simp [val]
  | some x =>
    simp only
    have hx : (update r.st.now r.st.pool).1.users u = some x := by rw [(update_fields _ _).1, hus]
    cases hp : payExt (update r.st.now r.st.pool).1 (update r.st.now r.st.pool).2 x X with
    | error e => simp [val]
    | ok n => exact payExt_le hI hx hp

omit [Fintype I] [DecidableEq I] [DecidableEq U] in
theorem pendingAstro_le {r : Run I U} {E paid : Nat} (hA : AInv (update r.st.now r.st.pool).1 paid E) :
    ∑ u, DEC * claimableAstro r.st u ≤ ∑ u, amt (update r.st.now r.st.pool).1 u *
      (aidx (update r.st.now r.st.pool).1 - auidx (update r.st.now r.st.pool).1 u) := by
  apply Finset.sum_le_sum
  intro u _
  unfold claimableAstro pendingAstro
  simp only
  cases hus : r.st.pool.users u with
  | none => simp [val]
  | some x =>
    simp only
    have hx : (update r.st.now r.st.pool).1.users u = some x := by rw [(update_fields _ _).1, hus]
    have h2 : auidx (update r.st.now r.st.pool).1 u = x.int.getD 0 := by unfold auidx; rw [hx]
    rw [amt_some hx, h2]
    cases hp : payAstro (update r.st.now r.st.pool).1 x with
    | error e => simp [val]
    | ok n => exact payAstro_le hp (hA.le u x hx)

omit [DecidableEq I] [DecidableEq U] [Fintype U] in
theorem orph_save (p : Pool I U) (rem : Removed I) (X : I) :
    (save p rem).orph X = p.orph X + remOrph rem X / DEC := by
  unfold save remOrph
  simp only
  rcases rem X with _ | ⟨i, o⟩ <;> simp

omit [DecidableEq I] [DecidableEq U] [Fintype U] in
theorem orph_touch {X : I} (s : State I U) :
    DEC * (touch s).pool.orph X + orphAct (touch s).pool X ≤
      DEC * (update s.now s.pool).1.orph X + orphAct (update s.now s.pool).1 X +
        remOrph (update s.now s.pool).2 X := by
  have h1 : orphAct (touch s).pool X = orphAct (update s.now s.pool).1 X := rfl
  have h2 : (touch s).pool.orph X = (update s.now s.pool).1.orph X +
      remOrph (update s.now s.pool).2 X / DEC := by
    exact orph_save _ _ _
  rw [h1, h2, Nat.mul_add]
  have := Nat.mul_div_le (remOrph (update s.now s.pool).2 X) DEC
  omega

/-- C29 for external rewards: in every history (any number of stakers and streams, any interleaving of
deposits, withdrawals, claims, funding, removals and time) the amount paid to stakers, plus what all of
them can still claim, plus the orphaned rewards, never exceeds what the stream emitted, i.e. its
announced rate summed over the seconds that passed.  Amounts are scaled by `DEC = 10^18`, the unit of
the emission rates. -/
theorem C29_external_within_emission (me : U) (lp : U → Nat) (now : Nat) (ops : List (Op I U)) (X : I) :
    let r := run me (start lp now) ops
    DEC * (r.books.paid X + ∑ u, claimable r.st u X + (touch r.st).pool.orph X) +
      orphAct (touch r.st).pool X ≤ r.books.emitted X := by
  intro r
  have h : RunInv X False r := run_runInv me ops _ (start_runInv X False lp now)
  obtain ⟨ev, C, hI, hC, hl, _⟩ := h.update
  have h1 := pending_le hI
  have h2 := orph_touch (X := X) r.st
  have h3 := hI.acct
  rw [← Finset.mul_sum] at h1
  simp only [Nat.mul_add] at h3 ⊢
  omega

/-- C29 for ASTRO: the same, with the emission being the pool's rate times the time it was in force. -/
theorem C29_astro_within_emission (me : U) (lp : U → Nat) (now : Nat) (hme : lp me = 0)
    (ops : List (Op I U)) :
    let r := run me (start lp now) ops
    DEC * (r.books.astroPaid + ∑ u, claimableAstro r.st u) + aorph (touch r.st).pool ≤
      r.books.astroEmitted := by
  intro r
  have h : LpInv me r := run_lpInv ops _ (start_lpInv me lp now hme)
  obtain ⟨E, hA, hE, _⟩ := h.update
  have h1 := pendingAstro_le hA
  have h3 := hA.acct
  have h4 : aorph (touch r.st).pool = aorph (update r.st.now r.st.pool).1 := rfl
  rw [← Finset.mul_sum] at h1
  rw [Nat.mul_add, h4]
  omega

/-- The bound is not trivial: here something was paid, and something can be claimed. -/
example : 0 < (run 0 wStart wUsual).books.paid 0 ∧ 0 < claimable (run 0 wStart wUsual).st 1 0 ∧
    0 < (run 0 wStart wUsual).books.astroPaid ∧ 0 < claimableAstro (run 0 wStart wUsual).st 3 := by
  decide +kernel

/-! ## C31 -/

/-- C31, partial: if time starts at or after the epoch origin, and the owner removes the reward only
together with its upcoming schedules and while it has no orphaned rewards, then in every history the
tokens paid to stakers, claimable by them, orphaned or refunded never exceed the tokens sent by
incentivizers.
Missing: removals that bypass upcoming schedules (`C31_bypass_violated`) or happen while rewards are
orphaned (`C31_orphaned_twice_violated`), for which it is false. -/
theorem C31_fully_funded_partial (me : U) (lp : U → Nat) (now : Nat) (hnow : EPOCHS_START ≤ now)
    (ops : List (Op I U)) (X : I) (hok : TidyRemovals X me (start lp now) ops) :
    let r := run me (start lp now) ops
    DEC * (r.books.paid X + ∑ u, claimable r.st u X + (touch r.st).pool.orph X + r.books.refunded X) +
      orphAct (touch r.st).pool X ≤ DEC * r.books.funded X := by
  intro r
  have h : RunFund X r := run_runFund me ops _ (start_runFund X lp now hnow) hok
  obtain ⟨ev, C, hI, hF, hl, _⟩ := h.update
  have h1 := pending_le hI
  have h2 := orph_touch (X := X) r.st
  have h3 := hI.acct
  have h4 := hF.bud 0
  rw [← Finset.mul_sum] at h1
  simp only [Nat.mul_add] at h3 ⊢
  omega

/-- Two funders with overlapping schedules, two stakers, a removal, and a third schedule. -/
def wOverlap : List (Op (Fin 2) (Fin 4)) :=
  [.deposit 1 1 100, .deposit 2 2 300, .incentivize 0 100000000 3 false, .wait 1000000,
   .incentivize 0 90000000 1 false, .wait 1000, .claim 1, .removeReward 0 false, .wait 5,
   .incentivize 0 80000000 1 false, .wait 100000]

example : TidyRemovals 0 0 wStart wOverlap := by
  refine ⟨trivial, trivial, trivial, trivial, trivial, trivial, trivial, ?_, trivial, trivial, trivial, trivial⟩
  intro _
  refine ⟨rfl, ?_⟩
  intro e he
  have h : (match (update (run 0 wStart (wOverlap.take 7)).st.now (run 0 wStart (wOverlap.take 7)).st.pool).1.ext 0 with
    | none => true | some e => e.orphaned == 0) = true := by decide +kernel
  have he' : (update (run 0 wStart (wOverlap.take 7)).st.now
    (run 0 wStart (wOverlap.take 7)).st.pool).1.ext 0 = some e := he
  rw [he'] at h
  simpa using h

example : 0 < (run 0 wStart wOverlap).books.paid 0 ∧ 0 < (run 0 wStart wOverlap).books.refunded 0 ∧
    0 < claimable (run 0 wStart wOverlap).st 2 0 := by decide +kernel

/-- Nobody stakes while a reward runs; the owner then removes it. -/
def wOrphan : List (Op (Fin 2) (Fin 4)) := [.incentivize 0 100000000 1 false, .wait 100000, .removeReward 0 false]

/-- C31 is violated: on removal the orphaned rewards are sent to the receiver and also stay recorded as
orphaned (to be sent out by `ClaimOrphanedRewards`), together more than was ever funded. -/
theorem C31_orphaned_twice_violated :
    (run 0 wStart wOrphan).books.funded 0 <
      (run 0 wStart wOrphan).books.refunded 0 + (run 0 wStart wOrphan).st.pool.orph 0 := by decide +kernel

/-- Two overlapping schedules; the owner removes the reward bypassing the upcoming part; it is added
again with a nearer end. -/
def wBypass : List (Op (Fin 2) (Fin 4)) :=
  [.deposit 1 1 100, .incentivize 0 100000000 9 false, .incentivize 0 1000000000 4 false,
   .removeReward 0 true, .incentivize 0 2000000 1 false, .wait 6652800, .claim 1]

/-- C31 is violated: the part of the schedule left behind by the bypass starts again at the end of the
new, shorter schedule, and runs longer than was paid for. -/
theorem C31_bypass_violated :
    (run 0 wStart wBypass).books.funded 0 <
      (run 0 wStart wBypass).books.refunded 0 + (run 0 wStart wBypass).books.paid 0 := by decide +kernel

/-! ## C32 -/

/-- C32: schedules start and end on Mondays at 00:00 UTC (time 0 was a Thursday). -/
theorem C32_mondays {now amount periods : Nat} {c : Schedule} (h : fromInput now amount periods = .ok c) :
    c.nextEpochStart % (7 * 86400) = 4 * 86400 ∧ c.stop % (7 * 86400) = 4 * 86400 := by
  obtain ⟨_, _, h3, h4, _⟩ := fromInput_ok h
  have e1 : EPOCHS_START = 4 * 86400 + 2805 * (7 * 86400) := by decide
  have e2 : EPOCH_LENGTH = 7 * 86400 := by decide
  constructor
  · rw [h3, e2, e1]; omega
  · rw [h4, h3, e2, e1]; omega

/-- C32: every accepted schedule, whatever the block time, amount and duration, ends a whole number of
weeks after the origin, strictly after now, lasts between 1 and 25 epochs from an epoch boundary, and
pays at least one unit per second without promising more than the amount sent. -/
theorem C32_accepted_schedule {now amount periods : Nat} {c : Schedule}
    (h : fromInput now amount periods = .ok c) :
    (∃ k, c.stop = EPOCHS_START + k * EPOCH_LENGTH) ∧ now < c.stop ∧ 1 ≤ periods ∧ periods ≤ 25 ∧
    (∃ k, c.nextEpochStart = EPOCHS_START + k * EPOCH_LENGTH) ∧
    c.stop = c.nextEpochStart + periods * EPOCH_LENGTH ∧
    1 * DEC ≤ c.rps ∧ c.rps * (c.stop - now) ≤ amount * DEC := by
  obtain ⟨h1, h2, h3, h4, h5, h6, h7⟩ := fromInput_ok h
  refine ⟨⟨now % EPOCHS_START / EPOCH_LENGTH + 1 + periods, ?_⟩, h5, h1, h2, ⟨_, h3⟩, h4, by omega, ?_⟩
  · rw [h4, h3, Nat.add_mul (now % EPOCHS_START / EPOCH_LENGTH + 1)]; omega
  · rw [h6]; exact Nat.div_mul_le_self _ _

/-- C32: from the epoch origin on, the first epoch is the one that begins next: the schedule ends
between `periods` and `periods + 1` weeks from now. -/
theorem C32_starts_next_epoch {now amount periods : Nat} {c : Schedule}
    (h : fromInput now amount periods = .ok c) (hnow : EPOCHS_START ≤ now) :
    now + periods * EPOCH_LENGTH < c.stop ∧ c.stop ≤ now + (periods + 1) * EPOCH_LENGTH := by
  obtain ⟨_, h2, h3, _⟩ := fromInput_epoch h hnow
  have h4 := (fromInput_ok h).2.2.2.1
  rw [Nat.add_mul]
  omega

/-- C32, the other direction: between the origin and twice the origin (the year 2077) every request
with 1 to 25 periods whose rate reaches one unit per second is accepted. -/
theorem C32_accepts {now amount periods : Nat} (h1 : EPOCHS_START ≤ now) (h2 : now < 2 * EPOCHS_START)
    (h3 : 1 ≤ periods) (h4 : periods ≤ 25) (h5 : (periods + 1) * EPOCH_LENGTH ≤ amount) :
    ∃ c, fromInput now amount periods = .ok c := by
  unfold fromInput
  have hb : EPOCHS_START + (now % EPOCHS_START / EPOCH_LENGTH + 1) * EPOCH_LENGTH +
      periods * EPOCH_LENGTH - now ≤ amount ∧
      now < EPOCHS_START + (now % EPOCHS_START / EPOCH_LENGTH + 1) * EPOCH_LENGTH +
      periods * EPOCH_LENGTH := by
    simp only [EPOCHS_START, EPOCH_LENGTH] at *
    omega
  simp only
  generalize EPOCHS_START + (now % EPOCHS_START / EPOCH_LENGTH + 1) * EPOCH_LENGTH = b at *
  have hr : DEC ≤ amount * DEC / (b + periods * EPOCH_LENGTH - now) := by
    rw [Nat.le_div_iff_mul_le (by omega), Nat.mul_comm]
    exact Nat.mul_le_mul_right _ hb.1
  have hq1 : require (¬ (periods > MAX_PERIODS ∨ periods = 0)) (.invalid "Duration") = .ok () :=
    (require_ok _ _ _).2 (by simp only [MAX_PERIODS]; omega)
  have hq2 : csub (b + periods * EPOCH_LENGTH) now = .ok (b + periods * EPOCH_LENGTH - now) :=
    (csub_ok _ _ _).2 ⟨Nat.le_of_lt hb.2, rfl⟩
  have hq3 : require (b + periods * EPOCH_LENGTH - now ≠ 0) .divByZero = .ok () :=
    (require_ok _ _ _).2 (by omega)
  have hq4 : require (¬ amount * DEC / (b + periods * EPOCH_LENGTH - now) < DEC) (.invalid "RewardPerSecond") =
    .ok () := (require_ok _ _ _).2 (by omega)
  simp only [hq1, hq2, hq3, hq4, ok_bind]
  exact ⟨_, rfl⟩

/-- C32, limit of the code: from twice the epoch origin (the year 2077) on, no schedule is accepted,
because the epoch is computed modulo the origin. -/
theorem C32_none_after_2077 {now amount periods : Nat} (h : 2 * EPOCHS_START ≤ now) :
    ∀ c, fromInput now amount periods ≠ .ok c := by
  intro c hc
  have := (fromInput_epoch hc (by omega)).1
  omega

/-- C32 in terms of the call: from the origin on, in a history with tidy removals, an accepted
`Incentivize` raises the announced rate by the schedule's rate, from now until its end, and changes the
rate of no other second and no other reward. -/
theorem C32_incentivize_adds (me : U) (lp : U → Nat) (now : Nat) (hnow : EPOCHS_START ≤ now)
    (ops : List (Op I U)) (X : I) (hok : TidyRemovals X me (start lp now) ops) {amount periods : Nat}
    {isAstro : Bool} {s' : State I U}
    (h : incentivize (run me (start lp now) ops).st X amount periods isAstro = .ok s') :
    ∃ c, fromInput (run me (start lp now) ops).st.now amount periods = .ok c ∧
      (∀ t, (run me (start lp now) ops).st.now < t → rateOf s'.pool X t =
        rateOf (run me (start lp now) ops).st.pool X t + if t ≤ c.stop then c.rps else 0) := by
  have hR : RunFund X (run me (start lp now) ops) := run_runFund me ops _ (start_runFund X lp now hnow) hok
  generalize run me (start lp now) ops = r at *
  obtain ⟨hl0, hE, ev0, C0, hI0, hF0⟩ := hR
  obtain ⟨ev, C, hI, hF, hl, _⟩ := RunFund.update ⟨hl0, hE, ev0, C0, hI0, hF0⟩
  unfold incentivize at h
  simp only [bind_ok_iff, Except.ok.injEq] at h
  obtain ⟨c, hc, p, hp, rfl⟩ := h
  refine ⟨c, hc, ?_⟩
  intro t ht
  rw [← rateOf_update X hI0.asc hI0.next ht]
  obtain ⟨_, he1, he2, hal1, _⟩ := fromInput_epoch hc hE
  unfold incentivizePool at hp
  simp only [bind_ok_iff, require_ok, exists_const] at hp
  replace hp := hp.2
  cases he : (update r.st.now r.st.pool).1.ext X with
  | none =>
    rw [he] at hp
    simp only [Except.ok.injEq] at hp
    subst hp
    have hk : ∀ x ∈ (update r.st.now r.st.pool).1.sched X, x.1 ≤ r.st.now := by
      intro x hx
      rcases hF.keys x hx with hk | ⟨e, he', _⟩
      · rw [hl] at hk; exact hk
      · rw [he] at he'; simp at he'
    have h1 : rateOf (update r.st.now r.st.pool).1 X t = 0 := by unfold rateOf; rw [he]
    rw [h1]
    simp only [rateOf, save, Function.update_self, rateAt]
    split
    · simp
    · rw [pieceRate_zero (fun x hx => by have := hk x hx; omega)]
  | some e =>
    rw [he] at hp
    simp only [Except.ok.injEq] at hp
    subst hp
    have hk : ∀ x ∈ (update r.st.now r.st.pool).1.sched X, x.1 ≤ r.st.now ∨ e.next ≤ x.1 := by
      intro x hx
      rcases hF.keys x hx with hk | ⟨e', he', hk⟩
      · left; rw [hl] at hk; exact hk
      · rw [he] at he'; rw [← Option.some.inj he'] at hk; right; exact hk
    have hne := hI.next e he
    rw [hl] at hne
    obtain ⟨_, hs2, _⟩ := extend_spec (c := c) hI.asc hk hne (next_boundary he2 hal1 (hF.alN e he) hne)
    have h1 : rateOf (update r.st.now r.st.pool).1 X t =
        rateAt e ((update r.st.now r.st.pool).1.sched X) t := by unfold rateOf; rw [he]
    rw [h1, ← hs2 t ht]
    simp only [rateOf, save, Function.update_self]

example : okAnd (fromInput (EPOCHS_START + 3000000) 10000000 5) (fun c => decide (DEC < c.rps ∧ c.stop = EPOCHS_START + 10 * EPOCH_LENGTH)) = true := by
  decide +kernel
example : okAnd (incentivize (run 0 wStart wOverlap).st 0 90000000 2 false) (fun _ => true) = true := by
  decide +kernel

/-! ## C34 -/

/-- C34, partial: in a clean history, whatever happens to a stream (it runs out, is removed by the
owner, is added again) and whatever others do, a staker who does not act can always claim at least
what was claimable at any earlier moment.
Missing: removals in a block that already touched the pool, where it is false
(`C34_lost_violated`). -/
theorem C34_stays_claimable_partial (me : U) (lp : U → Nat) (now : Nat) (before later : List (Op I U))
    (hclean : Clean me (start lp now) (before ++ later)) (v : U) (X : I)
    (hv : ∀ o ∈ later, Untouched v o)
    (hE : (run me (start lp now) (before ++ later)).books.emitted X < U128 * DEC) {n : Nat}
    (hn : pending (run me (start lp now) before).st v X = .ok n) :
    ∃ m, n ≤ m ∧ pending (run me (start lp now) (before ++ later)).st v X = .ok m := by
  have hrun : ∀ (a b : List (Op I U)) (r : Run I U), run me r (a ++ b) = run me (run me r a) b := by
    intro a
    induction a with
    | nil => intro b r; rfl
    | cons o os ih => intro b r; exact ih b _
  have hcl : ∀ (a b : List (Op I U)) (r : Run I U), Clean me r (a ++ b) → Clean me r a ∧
      Clean me (run me r a) b := by
    intro a
    induction a with
    | nil => intro b r h; exact ⟨trivial, h⟩
    | cons o os ih => intro b r h; exact ⟨⟨h.1, (ih b _ h.2).1⟩, (ih b _ h.2).2⟩
  have hem : ∀ (a : List (Op I U)) (r : Run I U), r.books.emitted X ≤ (run me r a).books.emitted X := by
    intro a
    induction a with
    | nil => intro r; exact Nat.le_refl _
    | cons o os ih => intro r; exact Nat.le_trans (emitted_step me r o X) (ih _)
  obtain ⟨hc1, hc2⟩ := hcl before later _ hclean
  have hR := run_runInv_clean me before _ (start_runInv X True lp now) hc1
  rw [hrun] at hE ⊢
  generalize run me (start lp now) before = r at *
  have hR' := run_runInv_clean me later _ hR hc2
  have hx : ∃ x, r.st.pool.users v = some x := by
    unfold pending at hn
    cases hx : r.st.pool.users v with
    | none => rw [hx] at hn; simp at hn
    | some x => exact ⟨x, rfl⟩
  obtain ⟨x, hx⟩ := hx
  obtain ⟨h1, h2⟩ := pending_mono later r hR hc2 hv x hx
  rw [pending_exact hR (Nat.lt_of_le_of_lt (hem later r) hE) hx] at hn
  simp only [Except.ok.injEq] at hn
  refine ⟨_, ?_, pending_exact hR' hE h1⟩
  rw [← hn]
  exact h2 _ _

/-- C34, partial: no call by anybody else (in particular the owner removing the reward) changes what a
staker can claim at that moment by a single unit.  Same restriction to clean histories. -/
theorem C34_removal_keeps_accrued_partial (me : U) (lp : U → Nat) (now : Nat) (before : List (Op I U))
    (o : Op I U) (hclean : Clean me (start lp now) (before ++ [o])) (v : U) (X : I) (hv : Untouched v o)
    (hw : ∀ d, o ≠ .wait d)
    (hE : (run me (start lp now) before).books.emitted X < U128 * DEC)
    (hE' : (step me (run me (start lp now) before) o).books.emitted X < U128 * DEC) :
    pending (step me (run me (start lp now) before) o).st v X =
      pending (run me (start lp now) before).st v X := by
  have hcl : ∀ (a b : List (Op I U)) (r : Run I U), Clean me r (a ++ b) → Clean me r a ∧
      Clean me (run me r a) b := by
    intro a
    induction a with
    | nil => intro b r h; exact ⟨trivial, h⟩
    | cons o os ih => intro b r h; exact ⟨⟨h.1, (ih b _ h.2).1⟩, (ih b _ h.2).2⟩
  obtain ⟨hc1, hc2⟩ := hcl before [o] _ hclean
  have hR := run_runInv_clean me before _ (start_runInv X True lp now) hc1
  have hR' := run_runInv_clean me [o] _ hR hc2
  generalize run me (start lp now) before = r at *
  have hus := users_untouched (me := me) (r := r) hv
  cases hx : r.st.pool.users v with
  | none =>
    unfold pending
    rw [hus, hx]
  | some x =>
    rw [pending_exact hR hE hx, show pending (step me r o).st v X = _ from
      pending_exact (r := step me r o) hR' hE' (hus.trans hx)]
    rw [Except.ok.injEq]
    exact step_owed hR hv hx hw (by have := hc2.1; cases o <;> exact this) _ _

/-- C34: claiming pays exactly what the query announces, in every state. -/
theorem C34_claim_pays_pending {s s' : State I U} {v : U} {x : Paid I} (h : claim s v = .ok (s', x)) (X : I) :
    pending s v X = .ok (x.ext X) ∧ pendingAstro s v = .ok x.int := by
  unfold claim at h
  simp only [bind_ok_iff, orErr_ok, Except.ok.injEq, Prod.mk.injEq] at h
  obtain ⟨u, hu, pay, hpay, rfl, rfl⟩ := h
  unfold pending pendingAstro
  rw [hu]
  exact ⟨(payAll_ok hpay).1 X, (payAll_ok hpay).2⟩

/-- Two rewards accrue to a staker; the owner removes both in one block. -/
def wTwo : List (Op (Fin 2) (Fin 4)) :=
  [.deposit 1 1 100, .incentivize 0 100000000 1 false, .incentivize 1 100000000 1 false, .wait 1000]

/-- C34 is violated: the second removal overwrites the final index stored by the first one in the same
block, so the reward accrued in the first stream can no longer be claimed. -/
theorem C34_lost_violated :
    okAnd (pending (run 0 wStart wTwo).st 1 0) (fun n => decide (82000 < n)) = true ∧
    okAnd (pending (run 0 wStart (wTwo ++ [.removeReward 0 false])).st 1 0) (fun n => decide (82000 < n)) = true ∧
    pending (run 0 wStart (wTwo ++ [.removeReward 0 false, .removeReward 1 false])).st 1 0 = .ok 0 := by
  refine ⟨by decide +kernel, by decide +kernel, by rfl⟩

/-- The partial theorems apply to a removal followed by a new funding and other stakers' calls. -/
example : Clean 0 wStart (wTwo ++ [.removeReward 0 false, .wait 10, .incentivize 0 100000000 2 false,
    .deposit 2 2 50, .wait 500000, .claim 2]) := by
  simp only [wTwo, List.cons_append, List.nil_append, Clean, and_true, true_and]
  decide +kernel

end Verif.Incentives
