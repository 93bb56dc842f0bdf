import Verif.Incentives.Contract

/-!
# LP tokens that are also rewards (C178)

`Verif.Incentives.Contract` keeps the staked LP tokens apart from the reward tokens.  On chain there is one balance per token: when the
LP token of a pool is used as a reward (of any pool), stakes and rewards are paid from the same purse, and a reward that the
contract cannot pay from rewards it pays from stakes.  Here `World.held` is that one balance.
-/

namespace Verif.Incentives

open Verif

variable {P I U : Type} [Fintype P] [DecidableEq P] [Fintype I] [DecidableEq I] [DecidableEq U]

/-- LP tokens a call brings to the contract, as a token of the list `I`: `lpOf p` is the LP token of pool `p`, if it is one of these. -/
def lpIn (me : U) (lpOf : P → Option I) (p : P) (r r' : Run I U) (X : I) : Nat :=
  if lpOf p = some X then r'.st.lp me - r.st.lp me else 0

/-- LP tokens a call sends away (`withdraw`, contracts/tokenomics/incentives/src/execute.rs:256-258). -/
def lpOut (me : U) (lpOf : P → Option I) (p : P) (r r' : Run I U) (X : I) : Nat :=
  if lpOf p = some X then r.st.lp me - r'.st.lp me else 0

/-- What can happen: the events of `Act`, and anything that happens to the LP tokens of a pool outside of the contract (minting,
burning, LP tokens received as rewards or spent on incentives). -/
inductive VAct (P I U : Type)
  | event (a : Act P I U)
  | outside (p : P) (lp : U → Nat)

/-- The LP tokens of everybody but the contract change. -/
def elsewhere (me : U) (r : Run I U) (lp : U → Nat) : Run I U :=
  ⟨{ r.st with lp := fun u => if u = me then r.st.lp u else lp u }, r.books⟩

/-- One event.  The messages of a call are sent in order (contracts/tokenomics/incentives/src/execute.rs:239-258): rewards first, whose
failure is ignored (contracts/tokenomics/incentives/src/reply.rs:11-25), LP tokens last; if these cannot be paid the whole call is
reverted. -/
def vact (me : U) (lpOf : P → Option I) (w : World P I U) : VAct P I U → World P I U
  | .event (.call p op sent) =>
    if op.isWait = true then w
    else
      let r' := step me (w.pool p) op
      let after := settle w.held (fun X => inOf (w.pool p) r' X + lpIn me lpOf p (w.pool p) r' X) (outOf (w.pool p) r') sent
      if ∀ X, lpOut me lpOf p (w.pool p) r' X ≤ after X then
        { w with pool := Function.update w.pool p r', held := fun X => after X - lpOut me lpOf p (w.pool p) r' X }
      else w
  | .event a => act me w a
  | .outside p lp => { w with pool := Function.update w.pool p (elsewhere me (w.pool p) lp) }

/-- A history. -/
def vacts (me : U) (lpOf : P → Option I) : World P I U → List (VAct P I U) → World P I U
  | w, [] => w
  | w, a :: as => vacts me lpOf (vact me lpOf w a) as

/-- Removals of `X` by the owner also remove the upcoming schedules and happen while the stream has no orphaned rewards. -/
def VTidy (X : I) (me : U) (lpOf : P → Option I) : World P I U → List (VAct P I U) → Prop
  | _, [] => True
  | w, a :: as =>
    (match a with
      | .event (.call p (.removeReward Y bypass) _) => Y = X → bypass = false ∧
          ∀ e, (update (w.pool p).st.now (w.pool p).st.pool).1.ext X = some e → e.orphaned = 0
      | _ => True) ∧ VTidy X me lpOf (vact me lpOf w a) as

/-! ## Specification -/

/-- The positions of all stakers in the pools whose LP token is `X`. -/
def stakedIn (lpOf : P → Option I) [Fintype U] (w : World P I U) (X : I) : Nat :=
  ∑ p, if lpOf p = some X then ∑ u, amt (w.pool p).st.pool u else 0

variable [Fintype U]

/-! ## The invariant -/

/-- LP tokens the contract should have, donations included. -/
def stake (me : U) (lpOf : P → Option I) (w : P → Run I U) (X : I) : Nat := ∑ p, if lpOf p = some X then (w p).st.lp me else 0

/-- `X` accounted for: what was funded or staked is held or went out. -/
structure VInv (X : I) (me : U) (lpOf : P → Option I) (w : World P I U) : Prop where
  fund : ∀ p, RunFund X (w.pool p)
  lp : ∀ p, LpInv me (w.pool p)
  orph : w.orphClaimed X ≤ ∑ p, (w.pool p).st.pool.orph X
  acct : ∑ p, (w.pool p).books.funded X + stake me lpOf w.pool X ≤
    w.held X + ∑ p, ((w.pool p).books.paid X + (w.pool p).books.refunded X) + w.orphClaimed X

omit [Fintype I] [DecidableEq U] [Fintype U] in
theorem stake_update (me : U) (lpOf : P → Option I) (w : P → Run I U) (p : P) (r' : Run I U) (X : I) :
    stake me lpOf (Function.update w p r') X + lpOut me lpOf p (w p) r' X = stake me lpOf w X + lpIn me lpOf p (w p) r' X := by
  unfold stake
  rw [← Finset.add_sum_erase _ _ (Finset.mem_univ p), ← Finset.add_sum_erase (a := p) Finset.univ
    (fun q => if lpOf q = some X then (w q).st.lp me else 0) (Finset.mem_univ p)]
  have : (∑ q ∈ Finset.univ.erase p, if lpOf q = some X then (Function.update w p r' q).st.lp me else 0) =
      ∑ q ∈ Finset.univ.erase p, if lpOf q = some X then (w q).st.lp me else 0 := by
    apply Finset.sum_congr rfl
    intro q hq
    rw [Function.update_of_ne (Finset.ne_of_mem_erase hq)]
  rw [this, Function.update_self]
  unfold lpIn lpOut
  split_ifs <;> omega

omit [DecidableEq P] [Fintype I] [DecidableEq U] in
theorem stakedIn_le {me : U} {lpOf : P → Option I} {w : World P I U} (h : ∀ p, LpInv me (w.pool p)) (X : I) :
    stakedIn lpOf w X ≤ stake me lpOf w.pool X := by
  refine Finset.sum_le_sum fun p _ => ?_
  split_ifs
  · obtain ⟨E, hA, _⟩ := (h p).astro
    rw [hA.total, (h p).held]
    exact Nat.le_add_right _ _
  · exact Nat.le_refl _

omit [DecidableEq P] in
/-- What was paid, refunded and orphaned is within what was funded. -/
theorem funded_ge {X : I} {w : P → Run I U} (h : ∀ p, RunFund X (w p)) :
    ∑ p, ((w p).books.paid X + (w p).books.refunded X) + ∑ p, (w p).st.pool.orph X ≤ ∑ p, (w p).books.funded X := by
  rw [← Finset.sum_add_distrib]
  refine Finset.sum_le_sum fun p _ => ?_
  have hDEC : 0 < DEC := by unfold DEC; omega
  have := funded_covers (h p) 0
  refine Nat.le_of_mul_le_mul_left (c := DEC) ?_ hDEC
  simp only [Nat.mul_add] at this ⊢
  omega

omit [DecidableEq P] in
theorem VInv.stake_le {X : I} {me : U} {lpOf : P → Option I} {w : World P I U} (h : VInv X me lpOf w) :
    stake me lpOf w.pool X ≤ w.held X := by
  have := funded_ge h.fund
  have := h.acct
  have := h.orph
  omega

omit [DecidableEq P] in
/-- The reward tokens beside the stakes. -/
theorem VInv.winv {X : I} {me : U} {lpOf : P → Option I} {w : World P I U} (h : VInv X me lpOf w) :
    WInv X { w with held := fun Y => w.held Y - stake me lpOf w.pool Y } := by
  refine ⟨h.fund, h.orph, ?_⟩
  have := h.acct
  have := h.stake_le
  simp only
  omega

/-- The condition of `VTidy` on one event. -/
def VTidyAct (X : I) (w : World P I U) (a : VAct P I U) : Prop :=
  match a with
  | .event (.call p (.removeReward Y bypass) _) => Y = X → bypass = false ∧
      ∀ e, (update (w.pool p).st.now (w.pool p).st.pool).1.ext X = some e → e.orphaned = 0
  | _ => True

omit [Fintype P] [DecidableEq P] in
theorem call_runFund {X : I} {me : U} {w : World P I U} {p : P} {op : Op I U} {sent : I → Nat} (hf : RunFund X (w.pool p))
    (ht : VTidyAct X w (.event (.call p op sent))) : RunFund X (step me (w.pool p) op) := by
  refine step_runFund hf me op ?_
  cases op <;> exact ht

/-- What is left after a call's rewards still covers all stakes there were. -/
theorem after_covers {X : I} {me : U} {lpOf : P → Option I} {w : World P I U} (h : VInv X me lpOf w) {p : P} {op : Op I U}
    {sent : I → Nat} (ht : VTidyAct X w (.event (.call p op sent))) :
    stake me lpOf w.pool X + lpIn me lpOf p (w.pool p) (step me (w.pool p) op) X ≤ settle w.held
      (fun X => inOf (w.pool p) (step me (w.pool p) op) X + lpIn me lpOf p (w.pool p) (step me (w.pool p) op) X)
      (outOf (w.pool p) (step me (w.pool p) op)) sent X := by
  have h3 := settle_ge w.held (fun X => inOf (w.pool p) (step me (w.pool p) op) X + lpIn me lpOf p (w.pool p) (step me (w.pool p) op) X)
    (outOf (w.pool p) (step me (w.pool p) op)) sent X
  obtain ⟨m1, m2, m3, m4⟩ := step_mono me (w.pool p) op X
  have hfund : ∀ q, RunFund X (Function.update w.pool p (step me (w.pool p) op) q) := by
    intro q
    by_cases hq : q = p
    · subst hq
      rw [Function.update_self]
      exact call_runFund (h.fund q) ht
    · rw [Function.update_of_ne hq]
      exact h.fund q
  have hg := funded_ge hfund
  have h1 := sum_update w.pool p (step me (w.pool p) op) (fun r => r.books.funded X)
  have h2 := sum_update w.pool p (step me (w.pool p) op) (fun r => r.books.paid X + r.books.refunded X)
  have h4 := sum_update w.pool p (step me (w.pool p) op) (fun r => r.st.pool.orph X)
  have h5 : inOf (w.pool p) (step me (w.pool p) op) X = (step me (w.pool p) op).books.funded X - (w.pool p).books.funded X := rfl
  have h6 : outOf (w.pool p) (step me (w.pool p) op) X =
      ((step me (w.pool p) op).books.paid X - (w.pool p).books.paid X) +
      ((step me (w.pool p) op).books.refunded X - (w.pool p).books.refunded X) := rfl
  have hA := h.acct
  have hO := h.orph
  omega

theorem vact_vinv {X : I} {me : U} {lpOf : P → Option I} {w : World P I U} (h : VInv X me lpOf w) (a : VAct P I U)
    (ht : VTidyAct X w a) : VInv X me lpOf (vact me lpOf w a) := by
  obtain ⟨hf, hlp, ho, hA⟩ := h
  cases a with
  | outside p lp =>
    have hU : ∀ q, (Function.update w.pool p (elsewhere me (w.pool p) lp) q).books = (w.pool q).books ∧
        (Function.update w.pool p (elsewhere me (w.pool p) lp) q).st.pool = (w.pool q).st.pool ∧
        (Function.update w.pool p (elsewhere me (w.pool p) lp) q).st.now = (w.pool q).st.now ∧
        (Function.update w.pool p (elsewhere me (w.pool p) lp) q).st.lp me = (w.pool q).st.lp me := by
      intro q
      by_cases hq : q = p
      · subst hq
        simp [Function.update_self, elsewhere]
      · rw [Function.update_of_ne hq]
        exact ⟨rfl, rfl, rfl, rfl⟩
    simp only [vact]
    refine ⟨fun q => ?_, fun q => ?_, ?_, ?_⟩
    · obtain ⟨e1, e2, e3, _⟩ := hU q
      unfold RunFund
      rw [e1, e2, e3]
      exact hf q
    · obtain ⟨e1, e2, e3, e4⟩ := hU q
      obtain ⟨a1, a2, a3, a4⟩ := hlp q
      refine ⟨?_, ?_, ?_, ?_⟩
      · rw [e2, e3]
        exact a1
      · rw [e1, e2, e4]
        exact a2
      · rw [e1, e2]
        exact a3
      · rw [e1, e2, e3]
        exact a4
    · simp only [(hU _).2.1]
      exact ho
    · simp only [(hU _).1, stake, (hU _).2.2.2]
      exact hA
  | event a =>
    cases a with
    | call p op sent =>
      simp only [vact]
      split_ifs with hw hout
      · exact ⟨hf, hlp, ho, hA⟩
      · have hst := call_runFund (me := me) (hf p) ht
        obtain ⟨m1, m2, m3, m4⟩ := step_mono me (w.pool p) op X
        refine ⟨?_, ?_, ?_, ?_⟩
        · intro q
          by_cases hq : q = p
          · subst hq
            simp only [Function.update_self]
            exact hst
          · simp only [Function.update_of_ne hq]
            exact hf q
        · intro q
          by_cases hq : q = p
          · subst hq
            simp only [Function.update_self]
            exact step_lpInv (hlp q) op
          · simp only [Function.update_of_ne hq]
            exact hlp q
        · have := sum_update w.pool p (step me (w.pool p) op) (fun r => r.st.pool.orph X)
          simp only at this ⊢
          omega
        · have h1 := sum_update w.pool p (step me (w.pool p) op) (fun r => r.books.funded X)
          have h2 := sum_update w.pool p (step me (w.pool p) op) (fun r => r.books.paid X + r.books.refunded X)
          have h3 := settle_ge w.held (fun X => inOf (w.pool p) (step me (w.pool p) op) X +
            lpIn me lpOf p (w.pool p) (step me (w.pool p) op) X) (outOf (w.pool p) (step me (w.pool p) op)) sent X
          have h4 : inOf (w.pool p) (step me (w.pool p) op) X =
              (step me (w.pool p) op).books.funded X - (w.pool p).books.funded X := rfl
          have h5 : outOf (w.pool p) (step me (w.pool p) op) X =
              ((step me (w.pool p) op).books.paid X - (w.pool p).books.paid X) +
              ((step me (w.pool p) op).books.refunded X - (w.pool p).books.refunded X) := rfl
          have h6 := stake_update me lpOf w.pool p (step me (w.pool p) op) X
          have h7 := hout X
          simp only at h1 h2 h3 h6 h7 ⊢
          omega
      · exact ⟨hf, hlp, ho, hA⟩
    | claimMany user ps sent =>
      simp only [vact, act]
      split
      · split
        · exact ⟨hf, hlp, ho, hA⟩
        · rename_i hn w' hw
          obtain ⟨h1, h2⟩ := claimAll_spec (X := X) hw hf
          have hL : ∀ {ps : List P} {v v' : P → Run I U}, claimAll me user v ps = some v' → (∀ p, LpInv me (v p)) →
              (∀ p, LpInv me (v' p)) ∧ ∀ p, (v' p).st.lp = (v p).st.lp := by
            intro ps
            induction ps with
            | nil =>
              intro v v' hv hi
              simp only [claimAll, Option.some.injEq] at hv
              subst hv
              exact ⟨hi, fun p => rfl⟩
            | cons p ps ih =>
              intro v v' hv hi
              unfold claimAll at hv
              split at hv
              · cases hv
              · obtain ⟨g1, g2⟩ := ih hv (fun q => by
                  by_cases hq : q = p
                  · subst hq
                    rw [Function.update_self]
                    exact step_lpInv (hi q) _
                  · rw [Function.update_of_ne hq]
                    exact hi q)
                refine ⟨g1, fun q => ?_⟩
                rw [g2 q]
                by_cases hq : q = p
                · subst hq
                  rw [Function.update_self]
                  unfold step
                  simp only
                  split
                  · rename_i s x heq
                    unfold claim at heq
                    simp only [bind_ok_iff, orErr_ok, Except.ok.injEq, Prod.mk.injEq] at heq
                    obtain ⟨_, _, _, _, rfl, _⟩ := heq
                    rfl
                  · rfl
                · rw [Function.update_of_ne hq]
          obtain ⟨hL1, hL2⟩ := hL hw hlp
          have es : stake me lpOf w' X = stake me lpOf w.pool X := by
            unfold stake
            simp only [hL2]
          refine ⟨h1, hL1, Nat.le_trans ho (Finset.sum_le_sum fun p _ => (h2 p).2.2.2), ?_⟩
          have h3 := settle_ge w.held (fun _ => 0) (fun X => ∑ p, outOf (w.pool p) (w' p) X) sent X
          have h4 : ∑ p, (w' p).books.funded X = ∑ p, (w.pool p).books.funded X :=
            Finset.sum_congr rfl fun p _ => (h2 p).2.2.1
          have h5 : ∑ p, ((w.pool p).books.paid X + (w.pool p).books.refunded X) + ∑ p, outOf (w.pool p) (w' p) X =
              ∑ p, ((w' p).books.paid X + (w' p).books.refunded X) := by
            rw [← Finset.sum_add_distrib]
            apply Finset.sum_congr rfl
            intro p _
            obtain ⟨b1, b2, _, _⟩ := h2 p
            unfold outOf
            omega
          simp only at h3 ⊢
          omega
      · exact ⟨hf, hlp, ho, hA⟩
    | claimOrphaned pick sent =>
      have h3 := settle_ge w.held (fun _ => 0) (fun X => if pick X = true then orphaned w X else 0) sent X
      refine ⟨hf, hlp, ?_, ?_⟩
      · simp only [vact, act]
        unfold orphaned
        split <;> omega
      · simp only [vact, act]
        split
        · rename_i hp
          rw [if_pos hp] at h3
          omega
        · rename_i hp
          rw [if_neg hp] at h3
          omega
    | wait d =>
      exact ⟨fun p => step_runFund (hf p) me (.wait d) trivial, fun p => step_lpInv (hlp p) (.wait d), ho, hA⟩
    | donate Y n =>
      refine ⟨hf, hlp, ho, ?_⟩
      simp only [vact, act]
      by_cases hX : X = Y
      · subst hX
        rw [Function.update_self]
        omega
      · rw [Function.update_of_ne hX]
        exact hA

theorem vacts_vinv {X : I} {me : U} {lpOf : P → Option I} : ∀ (as : List (VAct P I U)) (w : World P I U), VInv X me lpOf w →
    VTidy X me lpOf w as → VInv X me lpOf (vacts me lpOf w as)
  | [], _, h, _ => h
  | a :: as, w, h, ht => vacts_vinv as _ (vact_vinv h a (by
      have := ht.1
      unfold VTidyAct
      cases a with
      | outside p lp => trivial
      | event a =>
        cases a with
        | call p op sent => cases op <;> exact this
        | _ => trivial)) ht.2

omit [DecidableEq P] in
theorem start_vinv (X : I) (me : U) (lpOf : P → Option I) (lp : P → U → Nat) (now : Nat) (hnow : EPOCHS_START ≤ now)
    (hme : ∀ p, lp p me = 0) : VInv X me lpOf (World.start lp now : World P I U) := by
  refine ⟨fun p => start_runFund X (lp p) now hnow, fun p => start_lpInv me (lp p) now (hme p), Nat.zero_le _, ?_⟩
  have : stake me lpOf (World.start lp now : World P I U).pool X = 0 := by
    unfold stake
    refine Finset.sum_eq_zero fun p _ => ?_
    have : ((World.start lp now : World P I U).pool p).st.lp me = 0 := hme p
    rw [this]
    split_ifs <;> rfl
  rw [this]
  simp [World.start, Incentives.start, Books.zero]

/-! ## C178 -/

/-- **C178, partial.**  Also where LP tokens serve as rewards: in every history in which the owner's removals of `X` are tidy, the
contract's one balance of `X` covers at once all positions of all stakers of pools whose LP token is `X`, everything that all
stakers of all pools can claim in `X`, all stored orphaned rewards, and everything announced for the future.  (Amounts times
`DEC`, the unit of the rates.)
Missing: removals that leave upcoming schedules behind or find orphaned rewards (`C178_stake_lost_violated`). -/
theorem C178_stakes_and_rewards_covered_partial (me : U) (lpOf : P → Option I) (lp : P → U → Nat) (now : Nat) (hnow : EPOCHS_START ≤ now)
    (hme : ∀ p, lp p me = 0) (as : List (VAct P I U)) (X : I) (ht : VTidy X me lpOf (World.start lp now) as) (T : Nat) :
    let w := vacts me lpOf (World.start lp now) as
    DEC * (stakedIn lpOf w X + ∑ p, ∑ u, claimable (w.pool p).st u X + orphaned w X) + ∑ p, future (w.pool p) X T ≤
      DEC * w.held X := by
  intro w
  have h : VInv X me lpOf w := vacts_vinv as _ (start_vinv X me lpOf lp now hnow hme) ht
  have h1 := winv_solvent h.winv T
  have h2 := h.stake_le
  have h3 := stakedIn_le (lpOf := lpOf) h.lp X
  simp only at h1
  have e : orphaned { w with held := fun Y => w.held Y - stake me lpOf w.pool Y } X = orphaned w X := rfl
  rw [e] at h1
  have h4 := Nat.mul_le_mul_left DEC h3
  have h5 : DEC * (w.held X - stake me lpOf w.pool X) + DEC * stake me lpOf w.pool X = DEC * w.held X := by
    rw [← Nat.mul_add]
    congr 1
    omega
  simp only [Nat.mul_add] at h1 ⊢
  omega

/-- **C178, partial, continued.**  So no withdrawal is ever reverted because the LP tokens are not there: what the pool's books allow a
staker to withdraw is paid out.
Missing: as above. -/
theorem C178_withdrawals_go_through_partial (me : U) (lpOf : P → Option I) (lp : P → U → Nat) (now : Nat) (hnow : EPOCHS_START ≤ now)
    (hme : ∀ p, lp p me = 0) (as : List (VAct P I U)) (p : P)
    (ht : ∀ X, lpOf p = some X → VTidy X me lpOf (World.start lp now) as) (user : U) (hu : user ≠ me) (n : Nat) (sent : I → Nat)
    (s' : State I U) (x : Paid I) (hw : withdraw me ((vacts me lpOf (World.start lp now) as).pool p).st user n = .ok (s', x)) :
    let w := vacts me lpOf (World.start lp now) as
    let w' := vact me lpOf w (.event (.call p (.withdraw user n) sent))
    (w'.pool p).st = s' ∧ ∀ X, lpOf p = some X → w'.held X + n ≤ w.held X := by
  intro w w'
  have hst : (step me (w.pool p) (.withdraw user n)).st = s' := by
    unfold step
    simp only [if_neg hu, hw, w]
  have hlps : s'.lp me + n = (w.pool p).st.lp me := by
    have hw' := hw
    unfold withdraw at hw'
    simp only [bind_ok_iff, orErr_ok, require_ok, exists_const, csub_ok, Except.ok.injEq, Prod.mk.injEq] at hw'
    obtain ⟨_, _, _, _, _, _, _, l, hl, rfl, _⟩ := hw'
    have h1 := move_apply hl me
    rw [if_pos rfl, if_neg (Ne.symm hu)] at h1
    have h2 := move_le hl
    show l me + n = _
    have h3 : n ≤ (w.pool p).st.lp me := h2
    have h4 : l me = (w.pool p).st.lp me - n := h1
    omega
  have hall : ∀ X, lpOut me lpOf p (w.pool p) (step me (w.pool p) (.withdraw user n)) X ≤ settle w.held
      (fun X => inOf (w.pool p) (step me (w.pool p) (.withdraw user n)) X +
        lpIn me lpOf p (w.pool p) (step me (w.pool p) (.withdraw user n)) X)
      (outOf (w.pool p) (step me (w.pool p) (.withdraw user n))) sent X := by
    intro X
    by_cases hX : lpOf p = some X
    · have h : VInv X me lpOf w := vacts_vinv as _ (start_vinv X me lpOf lp now hnow hme) (ht X hX)
      have h1 := after_covers h (p := p) (op := .withdraw user n) (sent := sent) trivial
      refine le_trans ?_ (le_trans (Nat.le_add_right _ _) h1)
      have h2 : (w.pool p).st.lp me ≤ stake me lpOf w.pool X := by
        have := Finset.single_le_sum (f := fun q => if lpOf q = some X then (w.pool q).st.lp me else 0)
          (fun q _ => Nat.zero_le _) (Finset.mem_univ p)
        simp only [hX, if_true] at this
        exact this
      unfold lpOut
      rw [if_pos hX]
      omega
    · unfold lpOut
      rw [if_neg hX]
      exact Nat.zero_le _
  have e : w' = { w with
      pool := Function.update w.pool p (step me (w.pool p) (.withdraw user n))
      held := fun X => settle w.held (fun X => inOf (w.pool p) (step me (w.pool p) (.withdraw user n)) X +
        lpIn me lpOf p (w.pool p) (step me (w.pool p) (.withdraw user n)) X)
        (outOf (w.pool p) (step me (w.pool p) (.withdraw user n))) sent X -
        lpOut me lpOf p (w.pool p) (step me (w.pool p) (.withdraw user n)) X } := by
    show vact me lpOf w (.event (.call p (.withdraw user n) sent)) = _
    unfold vact
    simp only [Op.isWait, Bool.false_eq_true, if_false]
    rw [if_pos hall]
  rw [e]
  refine ⟨by simp only [Function.update_self]; exact hst, fun X hX => ?_⟩
  have h1 := hall X
  have h2 : lpOut me lpOf p (w.pool p) (step me (w.pool p) (.withdraw user n)) X = n := by
    unfold lpOut
    rw [if_pos hX, hst]
    omega
  have h3 : lpIn me lpOf p (w.pool p) (step me (w.pool p) (.withdraw user n)) X = 0 := by
    unfold lpIn
    rw [if_pos hX, hst]
    omega
  have h4 : inOf (w.pool p) (step me (w.pool p) (.withdraw user n)) X = 0 := by
    unfold inOf step
    simp only [if_neg hu]
    rw [show withdraw me (w.pool p).st user n = .ok (s', x) from hw]
    simp [Books.pay]
  rw [h2] at h1
  have h5 : settle w.held (fun X => inOf (w.pool p) (step me (w.pool p) (.withdraw user n)) X +
        lpIn me lpOf p (w.pool p) (step me (w.pool p) (.withdraw user n)) X)
        (outOf (w.pool p) (step me (w.pool p) (.withdraw user n))) sent X ≤ w.held X := by
    unfold settle
    simp only [h3, h4]
    omega
  simp only [h2]
  omega

/-! ## Concrete histories -/

/-- Token 0 is the LP token of pool 1. -/
def wLpOf : Fin 2 → Option (Fin 2) := fun p => if p = 1 then some 0 else none

/-- LP tokens of pool 1 are staked there and used as rewards in both pools; stakers claim and leave. -/
def wVault : List (VAct (Fin 2) (Fin 2) (Fin 4)) :=
  [.outside 1 (fun _ => 10 ^ 12), .event (.call 1 (.deposit 2 2 (10 ^ 9)) wAll), .event (.call 0 (.deposit 1 1 100) wAll),
   .event (.call 0 (.incentivize 0 100000000 3 false) wAll), .event (.call 1 (.incentivize 0 50000000 2 false) wAll),
   .event (.wait 800000), .event (.claimMany 2 [1] wAll), .event (.call 0 (.claim 1) wAll)]

example :
    let w := vacts 0 wLpOf (World.start wLp2 (EPOCHS_START + 1)) wVault
    0 < (w.pool 0).books.paid 0 ∧ 0 < (w.pool 1).books.paid 0 ∧ stakedIn wLpOf w 0 = 10 ^ 9 ∧ w.held 0 < 10 ^ 9 + 150000000 ∧
    10 ^ 9 ≤ w.held 0 ∧ (vact 0 wLpOf w (.event (.call 1 (.withdraw 2 (10 ^ 9)) wAll))).held 0 + 10 ^ 9 ≤ w.held 0 := by
  decide +kernel

/-- `wVault` is tidy: nothing is removed. -/
example : VTidy 0 0 wLpOf (World.start wLp2 (EPOCHS_START + 1)) wVault :=
  ⟨trivial, trivial, trivial, trivial, trivial, trivial, trivial, trivial, trivial⟩

/-- Account 2 stakes LP tokens of pool 1.  Token 0, the same token, is a reward of pool 0, where the owner removes it but leaves its
upcoming schedules. -/
def wVaultBypass : List (VAct (Fin 2) (Fin 2) (Fin 4)) :=
  [.outside 1 (fun _ => 10 ^ 12), .event (.call 1 (.deposit 2 2 (10 ^ 9)) wAll),
   .event (.call 0 (.deposit 1 1 100) wAll), .event (.call 0 (.incentivize 0 100000000 9 false) wAll),
   .event (.call 0 (.incentivize 0 1000000000 4 false) wAll), .event (.call 0 (.removeReward 0 true) wAll),
   .event (.call 0 (.incentivize 0 2000000 1 false) wAll), .event (.wait 6652800), .event (.call 0 (.claim 1) wAll)]

/-- **C178 is violated.**  After a removal that leaves upcoming schedules behind, a staker of pool 0 was paid with the LP tokens that
account 2 has staked in pool 1: the contract no longer has them, and account 2's withdrawal, which the books of pool 1 allow, is
reverted. -/
theorem C178_stake_lost_violated :
    let w := vacts 0 wLpOf (World.start wLp2 (EPOCHS_START + 1)) wVaultBypass
    amt (w.pool 1).st.pool 2 = 10 ^ 9 ∧ w.held 0 < 10 ^ 9 ∧
    okAnd (withdraw 0 (w.pool 1).st 2 (10 ^ 9)) (fun _ => true) = true ∧
    amt ((vact 0 wLpOf w (.event (.call 1 (.withdraw 2 (10 ^ 9)) wAll))).pool 1).st.pool 2 = 10 ^ 9 := by
  decide +kernel

end Verif.Incentives
