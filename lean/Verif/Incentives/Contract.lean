import Verif.Incentives.Stakers

/-!
# The whole incentives contract: many pools, one balance per reward token (C127)

`Verif.Incentives.Model` follows one pool.  Here any number of pools share the contract's reward token
balances, `ClaimRewards` may name several pools, the owner may claim orphaned rewards, and transfers of reward
tokens may fail: the contract ignores that (`contracts/tokenomics/incentives/src/reply.rs:11-25`).
-/

namespace Verif.Incentives

open Verif

/-- The contract: each pool with the books of its history, the reward tokens held by the contract
(LP tokens staked are kept apart), and the orphaned rewards already claimed by the owner
(`ORPHANED_REWARDS` holds, per asset, the sum of the pools' `orph` less this). -/
structure World (P I U : Type) where
  pool : P → Run I U
  held : I → Nat
  orphClaimed : I → Nat

/-- What can happen.  `sent X` bounds how much of an outgoing amount of `X` is really transferred: reward token
transfers may fail, one by one (`ReplyOn::Error`, `contracts/tokenomics/incentives/src/utils.rs:74-87, 362-370, 467-477`). -/
inductive Act (P I U : Type)
  /-- a call concerning one pool -/
  | call (p : P) (op : Op I U) (sent : I → Nat)
  /-- `ClaimRewards` for several pools -/
  | claimMany (user : U) (ps : List P) (sent : I → Nat)
  /-- `ClaimOrphanedRewards`; `pick` says which assets are within the limit -/
  | claimOrphaned (pick : I → Bool) (sent : I → Nat)
  /-- time passes (for all pools) -/
  | wait (d : Nat)
  /-- somebody sends reward tokens to the contract -/
  | donate (X : I) (n : Nat)

variable {P I U : Type} [Fintype P] [DecidableEq P] [Fintype I] [DecidableEq I] [DecidableEq U]

/-- Reward tokens a call pays out (to stakers, or refunds to the owner's receiver). -/
def outOf (r r' : Run I U) (X : I) : Nat :=
  (r'.books.paid X - r.books.paid X) + (r'.books.refunded X - r.books.refunded X)

/-- Reward tokens a call brings in. -/
def inOf (r r' : Run I U) (X : I) : Nat := r'.books.funded X - r.books.funded X

/-- Balances after `inn` came in and `out` was to be sent, of which at most `sent` and at most the balance goes
through. -/
def settle (held inn out sent : I → Nat) : I → Nat := fun X =>
  held X + inn X - min (sent X) (min (out X) (held X + inn X))

/-- `ClaimRewards` for several pools (`contracts/tokenomics/incentives/src/execute.rs:41-76`, `contracts/tokenomics/incentives/src/utils.rs:24-94`): all claims succeed or none is made.
(The pools are different, and each claim reads and writes only its own pool.) -/
def claimAll (me user : U) : (P → Run I U) → List P → Option (P → Run I U)
  | w, [] => some w
  | w, p :: ps =>
    match claim (w p).st user with
    | .error _ => none
    | .ok _ => claimAll me user (Function.update w p (step me (w p) (.claim user))) ps

/-- Is this the passing of time? -/
def Op.isWait : Op I U → Bool
  | .wait _ => true
  | _ => false

/-- Orphaned rewards stored by the contract. -/
def orphaned (w : World P I U) (X : I) : Nat := ∑ p, (w.pool p).st.pool.orph X - w.orphClaimed X

/-- One event. -/
def act (me : U) (w : World P I U) : Act P I U → World P I U
  | .call p op sent =>
    if op.isWait = true then w
    else
      let r' := step me (w.pool p) op
      { w with pool := Function.update w.pool p r', held := settle w.held (inOf (w.pool p) r') (outOf (w.pool p) r') sent }
  | .claimMany user ps sent =>
    if ps.Nodup then
      match claimAll me user w.pool ps with
      | none => w
      | some pool' => { w with pool := pool', held := settle w.held (fun _ => 0) (fun X => ∑ p, outOf (w.pool p) (pool' p) X) sent }
    else w
  | .claimOrphaned pick sent =>
    { w with
      held := settle w.held (fun _ => 0) (fun X => if pick X = true then orphaned w X else 0) sent
      orphClaimed := fun X => if pick X = true then w.orphClaimed X + orphaned w X else w.orphClaimed X }
  | .wait d => { w with pool := fun p => step me (w.pool p) (.wait d) }
  | .donate X n => { w with held := Function.update w.held X (w.held X + n) }

/-- A history. -/
def acts (me : U) : World P I U → List (Act P I U) → World P I U
  | w, [] => w
  | w, a :: as => acts me (act me w a) as

/-- The start: no pool touched, nothing held. -/
def World.start (lp : P → U → Nat) (now : Nat) : World P I U :=
  ⟨fun p => Incentives.start (lp p) now, fun _ => 0, fun _ => 0⟩

/-- What the event pays out in `X`. -/
def payout (me : U) (w : World P I U) (X : I) : Act P I U → Nat
  | .call p op _ => if op.isWait = true then 0 else outOf (w.pool p) (step me (w.pool p) op) X
  | .claimMany user ps _ =>
    if ps.Nodup then
      match claimAll me user w.pool ps with
      | none => 0
      | some pool' => ∑ p, outOf (w.pool p) (pool' p) X
    else 0
  | .claimOrphaned pick _ => if pick X = true then orphaned w X else 0
  | .wait _ => 0
  | .donate _ _ => 0

/-- What the event brings in in `X`. -/
def payin (me : U) (w : World P I U) (X : I) : Act P I U → Nat
  | .call p op _ => if op.isWait = true then 0 else inOf (w.pool p) (step me (w.pool p) op) X
  | .donate Y n => if X = Y then n else 0
  | _ => 0

/-- Removals of `X` by the owner also remove the upcoming schedules and happen while the stream has no orphaned
rewards. -/
def Tidy (X : I) (me : U) : World P I U → List (Act P I U) → Prop
  | _, [] => True
  | w, a :: as =>
    (match a with
      | .call p (.removeReward Y bypass) _ => Y = X → bypass = false ∧
          ∀ e, (update (w.pool p).st.now (w.pool p).st.pool).1.ext X = some e → e.orphaned = 0
      | _ => True) ∧ Tidy X me (act me w a) as

/-! ## One step of one pool -/

variable [Fintype U]

omit [Fintype P] [DecidableEq P] [Fintype U] in
/-- A step only adds to the books and to the orphaned rewards. -/
theorem step_mono (me : U) (r : Run I U) (o : Op I U) (X : I) :
    r.books.paid X ≤ (step me r o).books.paid X ∧ r.books.refunded X ≤ (step me r o).books.refunded X ∧
    r.books.funded X ≤ (step me r o).books.funded X ∧ r.st.pool.orph X ≤ (step me r o).st.pool.orph X := by
  have ho : (update r.st.now r.st.pool).1.orph X = r.st.pool.orph X := by rw [(update_fields _ _).2.2.2.2.1]
  have hsave : ∀ (q : Pool I U) (rem : Removed I), q.orph X = r.st.pool.orph X → r.st.pool.orph X ≤ (save q rem).orph X := by
    intro q rem hq
    rw [orph_save, hq]; exact Nat.le_add_right _ _
  have hcr : ∀ (f : I → Nat) (Y : I) (n : Nat), f X ≤ credit f Y n X := by
    intro f Y n
    rw [credit_apply]; split <;> omega
  cases o with
  | deposit sender staker n =>
    unfold step
    simp only
    split
    · rename_i s x heq
      split at heq
      · simp at heq
      unfold deposit at heq
      simp only [bind_ok_iff] at heq
      obtain ⟨lp, _, hd⟩ := heq
      split at hd
      · simp only [bind_ok_iff, u128_ok, Except.ok.injEq, Prod.mk.injEq] at hd
        obtain ⟨T, _, rfl, rfl⟩ := hd
        exact ⟨Nat.le_add_right _ _, Nat.le_refl _, Nat.le_refl _, hsave _ _ ho⟩
      · simp only [bind_ok_iff, u128_ok, Except.ok.injEq, Prod.mk.injEq] at hd
        obtain ⟨pay, _, a, _, T, _, rfl, rfl⟩ := hd
        exact ⟨Nat.le_add_right _ _, Nat.le_refl _, Nat.le_refl _, hsave _ _ ho⟩
    · exact ⟨Nat.le_refl _, Nat.le_refl _, Nat.le_refl _, Nat.le_refl _⟩
  | withdraw user n =>
    unfold step
    simp only
    split
    · rename_i s x heq
      split at heq
      · simp at heq
      unfold withdraw at heq
      simp only [bind_ok_iff, orErr_ok, require_ok, exists_const, csub_ok, Except.ok.injEq,
        Prod.mk.injEq] at heq
      obtain ⟨u, _, hn, pay, hpay, T, _, lp, _, rfl, rfl⟩ := heq
      exact ⟨Nat.le_add_right _ _, Nat.le_refl _, Nat.le_refl _, hsave _ _ ho⟩
    · exact ⟨Nat.le_refl _, Nat.le_refl _, Nat.le_refl _, Nat.le_refl _⟩
  | claim user =>
    unfold step
    simp only
    split
    · rename_i s x heq
      unfold claim at heq
      simp only [bind_ok_iff, orErr_ok, Except.ok.injEq, Prod.mk.injEq] at heq
      obtain ⟨u, _, pay, hpay, rfl, rfl⟩ := heq
      exact ⟨Nat.le_add_right _ _, Nat.le_refl _, Nat.le_refl _, hsave _ _ ho⟩
    · exact ⟨Nat.le_refl _, Nat.le_refl _, Nat.le_refl _, Nat.le_refl _⟩
  | incentivize Y amount periods isAstro =>
    unfold step
    simp only
    split
    · rename_i s heq
      unfold incentivize at heq
      simp only [bind_ok_iff, Except.ok.injEq] at heq
      obtain ⟨c, hc, p, hp, rfl⟩ := heq
      have horph : p.orph X = r.st.pool.orph X := by
        rw [(save_incentivizePool (rem := noRem) hp).2.2.2.2.2.1, ho]
      exact ⟨Nat.le_refl _, Nat.le_refl _, hcr _ _ _, hsave _ _ horph⟩
    · exact ⟨Nat.le_refl _, Nat.le_refl _, Nat.le_refl _, Nat.le_refl _⟩
  | removeReward Y bypass =>
    unfold step
    simp only
    split
    · rename_i s n heq
      unfold removeReward at heq
      simp only [bind_ok_iff, Except.ok.injEq, Prod.mk.injEq, Prod.exists] at heq
      obtain ⟨p, rem, m, hd, rfl, rfl⟩ := heq
      have horph : p.orph X = r.st.pool.orph X := by
        rw [(deregister_fields hd).2.2.2.2.1, ho]
      exact ⟨Nat.le_refl _, hcr _ _ _, Nat.le_refl _, hsave _ _ horph⟩
    · exact ⟨Nat.le_refl _, Nat.le_refl _, Nat.le_refl _, Nat.le_refl _⟩
  | setAstro rps => exact ⟨Nat.le_refl _, Nat.le_refl _, Nat.le_refl _, hsave _ _ ho⟩
  | disableAstro => exact ⟨Nat.le_refl _, Nat.le_refl _, Nat.le_refl _, hsave _ _ ho⟩
  | touch => exact ⟨Nat.le_refl _, Nat.le_refl _, Nat.le_refl _, hsave _ _ ho⟩
  | wait d => exact ⟨Nat.le_refl _, Nat.le_refl _, Nat.le_refl _, Nat.le_refl _⟩
  | sendLp src dst n =>
    unfold step
    simp only
    split <;> exact ⟨Nat.le_refl _, Nat.le_refl _, Nat.le_refl _, Nat.le_refl _⟩

/-- Emission announced for the seconds after now, up to `T` (atomics). -/
def future (r : Run I U) (X : I) (T : Nat) : Nat := ∑ t ∈ Finset.Ioc r.st.now T, rateOf r.st.pool X t

omit [Fintype P] [DecidableEq P] in
/-- What a pool was funded with covers what it paid, owes, has orphaned, refunded and will emit. -/
theorem funded_covers {X : I} {r : Run I U} (h : RunFund X r) (T : Nat) :
    DEC * (r.books.paid X + ∑ u, claimable r.st u X + r.st.pool.orph X + r.books.refunded X) + future r X T ≤
      DEC * r.books.funded X := by
  have h' := h
  obtain ⟨hl0, _, _, _, hI0, _⟩ := h'
  obtain ⟨ev, C, hI, hF, hl, _⟩ := h.update
  have h1 := pending_le hI
  have h3 := hI.acct
  have h4 := hF.bud T
  rw [(update_fields r.st.now r.st.pool).2.2.2.2.1] at h3
  have hf : future r X T = ∑ t ∈ Finset.Ioc (update r.st.now r.st.pool).1.last T, rateOf (update r.st.now r.st.pool).1 X t := by
    unfold future
    rw [hl]
    apply Finset.sum_congr rfl
    intro t ht
    exact (rateOf_update X hI0.asc hI0.next (Finset.mem_Ioc.1 ht).1).symm
  rw [hf]
  rw [← Finset.mul_sum] at h1
  simp only [Nat.mul_add] at h3 ⊢
  omega

/-! ## The invariant -/

/-- Reward tokens of `X` accounted for: what was funded is held or went out. -/
structure WInv (X : I) (w : World P I U) : Prop where
  fund : ∀ p, RunFund X (w.pool p)
  orph : w.orphClaimed X ≤ ∑ p, (w.pool p).st.pool.orph X
  acct : ∑ p, (w.pool p).books.funded X ≤
    w.held X + ∑ p, ((w.pool p).books.paid X + (w.pool p).books.refunded X) + w.orphClaimed X

omit [Fintype I] [DecidableEq I] [DecidableEq U] [Fintype U] in
theorem sum_update (w : P → Run I U) (p : P) (r' : Run I U) (f : Run I U → Nat) :
    ∑ q, f (Function.update w p r' q) + f (w p) = ∑ q, f (w q) + f r' := by
  rw [← Finset.add_sum_erase _ _ (Finset.mem_univ p), ← Finset.add_sum_erase (a := p) Finset.univ (fun q => f (w q)) (Finset.mem_univ p)]
  have : ∑ q ∈ Finset.univ.erase p, f (Function.update w p r' q) = ∑ q ∈ Finset.univ.erase p, f (w q) := by
    apply Finset.sum_congr rfl
    intro q hq
    rw [Function.update_of_ne (Finset.ne_of_mem_erase hq)]
  rw [this, Function.update_self]
  omega

omit [Fintype P] [DecidableEq P] [Fintype I] [DecidableEq I] [DecidableEq U] [Fintype U] in
theorem settle_ge (held inn out sent : I → Nat) (X : I) : held X + inn X ≤ settle held inn out sent X + out X := by
  unfold settle; omega

omit [Fintype P] [DecidableEq P] [Fintype U] in
theorem claim_funded (me user : U) (r : Run I U) (X : I) :
    (step me r (.claim user)).books.funded X = r.books.funded X := by
  unfold step
  simp only
  split <;> rfl

omit [Fintype P] in
theorem claimAll_spec {X : I} {me user : U} : ∀ {ps : List P} {w w' : P → Run I U}, claimAll me user w ps = some w' →
    (∀ p, RunFund X (w p)) →
    (∀ p, RunFund X (w' p)) ∧ ∀ p, (w p).books.paid X ≤ (w' p).books.paid X ∧
      (w p).books.refunded X ≤ (w' p).books.refunded X ∧ (w' p).books.funded X = (w p).books.funded X ∧
      (w p).st.pool.orph X ≤ (w' p).st.pool.orph X
  | [], w, w', h, hR => by
    simp only [claimAll, Option.some.injEq] at h
    subst h
    exact ⟨hR, fun p => ⟨Nat.le_refl _, Nat.le_refl _, rfl, Nat.le_refl _⟩⟩
  | p :: ps, w, w', h, hR => by
    unfold claimAll at h
    split at h
    · simp at h
    · have hR' : ∀ q, RunFund X (Function.update w p (step me (w p) (.claim user)) q) := by
        intro q
        by_cases hq : q = p
        · subst hq; rw [Function.update_self]; exact step_runFund (hR q) me _ trivial
        · rw [Function.update_of_ne hq]; exact hR q
      obtain ⟨h1, h2⟩ := claimAll_spec h hR'
      refine ⟨h1, fun q => ?_⟩
      obtain ⟨a1, a2, a3, a4⟩ := h2 q
      by_cases hq : q = p
      · subst hq
        rw [Function.update_self] at a1 a2 a3 a4
        obtain ⟨b1, b2, _, b4⟩ := step_mono me (w q) (.claim user) X
        rw [claim_funded] at a3
        exact ⟨Nat.le_trans b1 a1, Nat.le_trans b2 a2, a3, Nat.le_trans b4 a4⟩
      · rw [Function.update_of_ne hq] at a1 a2 a3 a4
        exact ⟨a1, a2, a3, a4⟩

/-- The condition of `Tidy` on one event. -/
def TidyAct (X : I) (w : World P I U) (a : Act P I U) : Prop :=
  match a with
  | .call p (.removeReward Y bypass) _ => Y = X → bypass = false ∧
      ∀ e, (update (w.pool p).st.now (w.pool p).st.pool).1.ext X = some e → e.orphaned = 0
  | _ => True

theorem act_winv {X : I} {me : U} {w : World P I U} (h : WInv X w) (a : Act P I U) (ht : TidyAct X w a) :
    WInv X (act me w a) := by
  obtain ⟨hf, ho, hA⟩ := h
  cases a with
  | call p op sent =>
    simp only [act]
    split
    · exact ⟨hf, ho, hA⟩
    · obtain ⟨m1, m2, m3, m4⟩ := step_mono me (w.pool p) op X
      have hstep : RunFund X (step me (w.pool p) op) := by
        refine step_runFund (hf p) me op ?_
        cases op <;> exact ht
      refine ⟨?_, ?_, ?_⟩
      · intro q
        by_cases hq : q = p
        · subst hq; simp only [Function.update_self]; exact hstep
        · simp only [Function.update_of_ne hq]; exact hf q
      · have := sum_update w.pool p (step me (w.pool p) op) (fun r => r.st.pool.orph X)
        simp only at this ⊢
        omega
      · have h1 := sum_update w.pool p (step me (w.pool p) op) (fun r => r.books.funded X)
        have h2 := sum_update w.pool p (step me (w.pool p) op) (fun r => r.books.paid X + r.books.refunded X)
        have h3 := settle_ge w.held (inOf (w.pool p) (step me (w.pool p) op)) (outOf (w.pool p) (step me (w.pool p) op)) sent X
        have h4 : inOf (w.pool p) (step me (w.pool p) op) X =
            (step me (w.pool p) op).books.funded X - (w.pool p).books.funded X := rfl
        have h5 : outOf (w.pool p) (step me (w.pool p) op) X =
            ((step me (w.pool p) op).books.paid X - (w.pool p).books.paid X) +
            ((step me (w.pool p) op).books.refunded X - (w.pool p).books.refunded X) := rfl
        simp only at h1 h2 ⊢
        omega
  | claimMany user ps sent =>
    simp only [act]
    split
    · split
      · exact ⟨hf, ho, hA⟩
      · rename_i hn w' hw
        obtain ⟨h1, h2⟩ := claimAll_spec (X := X) hw hf
        refine ⟨h1, ?_, ?_⟩
        · exact Nat.le_trans ho (Finset.sum_le_sum fun p _ => (h2 p).2.2.2)
        · have h3 := settle_ge w.held (fun _ => 0) (fun X => ∑ p, outOf (w.pool p) (w' p) X) sent X
          have h4 : ∑ p, (w' p).books.funded X = ∑ p, (w.pool p).books.funded X :=
            Finset.sum_congr rfl fun p _ => (h2 p).2.2.1
          have h5 : ∑ p, ((w.pool p).books.paid X + (w.pool p).books.refunded X) + ∑ p, outOf (w.pool p) (w' p) X =
              ∑ p, ((w' p).books.paid X + (w' p).books.refunded X) := by
            rw [← Finset.sum_add_distrib]
            apply Finset.sum_congr rfl
            intro p _
            obtain ⟨b1, b2, _, _⟩ := h2 p
            unfold outOf
            omega
          simp only at h3 ⊢
          omega
    · exact ⟨hf, ho, hA⟩
  | claimOrphaned pick sent =>
    have h3 := settle_ge w.held (fun _ => 0) (fun X => if pick X = true then orphaned w X else 0) sent X
    refine ⟨hf, ?_, ?_⟩
    · simp only [act]
      unfold orphaned
      split <;> omega
    · simp only [act]
      split
      · rename_i hp
        rw [if_pos hp] at h3
        omega
      · rename_i hp
        rw [if_neg hp] at h3
        omega
  | wait d =>
    refine ⟨fun p => step_runFund (hf p) me _ trivial, ho, hA⟩
  | donate Y n =>
    refine ⟨hf, ho, ?_⟩
    simp only [act]
    by_cases hX : X = Y
    · subst hX; rw [Function.update_self]; omega
    · rw [Function.update_of_ne hX]; exact hA

theorem acts_winv {X : I} {me : U} : ∀ (as : List (Act P I U)) (w : World P I U), WInv X w → Tidy X me w as →
    WInv X (acts me w as)
  | [], _, h, _ => h
  | a :: as, w, h, ht => acts_winv as _ (act_winv h a (by
      have := ht.1
      unfold TidyAct
      cases a with
      | call p op sent => cases op <;> exact this
      | _ => trivial)) ht.2

omit [DecidableEq P] in
theorem start_winv (X : I) (lp : P → U → Nat) (now : Nat) (hnow : EPOCHS_START ≤ now) :
    WInv X (World.start lp now : World P I U) :=
  ⟨fun p => start_runFund X (lp p) now hnow, Nat.zero_le _, by
    simp [World.start, Incentives.start, Books.zero]⟩

omit [DecidableEq P] in
/-- The invariant gives solvency. -/
theorem winv_solvent {X : I} {w : World P I U} (h : WInv X w) (T : Nat) :
    DEC * (∑ p, ∑ u, claimable (w.pool p).st u X + orphaned w X) + ∑ p, future (w.pool p) X T ≤ DEC * w.held X := by
  obtain ⟨hf, ho, hA⟩ := h
  have h1 : ∑ p, (DEC * ((w.pool p).books.paid X + ∑ u, claimable (w.pool p).st u X + (w.pool p).st.pool.orph X +
      (w.pool p).books.refunded X) + future (w.pool p) X T) ≤ ∑ p, DEC * (w.pool p).books.funded X :=
    Finset.sum_le_sum fun p _ => funded_covers (hf p) T
  rw [Finset.sum_add_distrib, ← Finset.mul_sum, ← Finset.mul_sum, Finset.sum_add_distrib, Finset.sum_add_distrib,
    Finset.sum_add_distrib] at h1
  rw [Finset.sum_add_distrib] at hA
  unfold orphaned
  have h2 := Nat.mul_le_mul_left DEC hA
  have h3 : DEC * (∑ p, (w.pool p).st.pool.orph X - w.orphClaimed X) + DEC * w.orphClaimed X =
      DEC * ∑ p, (w.pool p).st.pool.orph X := by
    rw [← Nat.mul_add]; congr 1; omega
  simp only [Nat.mul_add] at h1 h2 h3 ⊢
  omega

/-! ## C127 -/

/-- C127, partial: at every moment of every history of the whole contract in which the owner's removals of `X` are
tidy, the contract holds enough of `X` to pay at once everything that all stakers of all pools can
claim, all stored orphaned rewards, and on top of that everything announced for the future.  (Amounts times
`DEC`, the unit of the rates.)
Missing: removals that leave upcoming schedules behind or find orphaned rewards; then the claims of
other pools' stakers can exceed what is held (`C127_insolvent_violated`). -/
theorem C127_solvent_partial (me : U) (lp : P → U → Nat) (now : Nat) (hnow : EPOCHS_START ≤ now)
    (as : List (Act P I U)) (X : I) (ht : Tidy X me (World.start lp now) as) (T : Nat) :
    let w := acts me (World.start lp now) as
    DEC * (∑ p, ∑ u, claimable (w.pool p).st u X + orphaned w X) + ∑ p, future (w.pool p) X T ≤ DEC * w.held X :=
  winv_solvent (acts_winv as _ (start_winv X lp now hnow) ht) T

/-- C127, partial, continued: so whatever happens next (claims from one or many pools, withdrawals, refunds,
claims of orphaned rewards), the amount to be paid is there: no transfer fails for lack of funds. -/
theorem C127_payments_covered_partial (me : U) (lp : P → U → Nat) (now : Nat) (hnow : EPOCHS_START ≤ now)
    (as : List (Act P I U)) (a : Act P I U) (X : I) (ht : Tidy X me (World.start lp now) (as ++ [a])) :
    let w := acts me (World.start lp now) as
    payout me w X a ≤ w.held X + payin me w X a := by
  intro w
  have hsplit : ∀ (bs : List (Act P I U)) (v : World P I U), Tidy X me v (bs ++ [a]) →
      Tidy X me v bs ∧ TidyAct X (acts me v bs) a := by
    intro bs
    induction bs with
    | nil =>
      intro v h
      refine ⟨trivial, ?_⟩
      have := h.1
      unfold TidyAct
      cases a with
      | call p op sent => cases op <;> exact this
      | _ => trivial
    | cons b bs ih =>
      intro v h
      obtain ⟨h1, h2⟩ := ih _ h.2
      exact ⟨⟨h.1, h1⟩, h2⟩
  obtain ⟨ht1, ht2⟩ := hsplit as _ ht
  have hW : WInv X w := acts_winv as _ (start_winv X lp now hnow) ht1
  have hDEC : 0 < DEC := by unfold DEC; omega
  -- the same event, with every transfer refused, must leave the contract solvent
  cases a with
  | call p op sent =>
    simp only [payout, payin]
    by_cases hw : op.isWait = true
    · simp [hw]
    · simp only [hw, Bool.false_eq_true, if_false]
      have hW' : WInv X (act me w (.call p op fun _ => 0)) := act_winv hW _ (by
        unfold TidyAct at ht2 ⊢
        cases op <;> exact ht2)
      obtain ⟨m1, m2, m3, m4⟩ := step_mono me (w.pool p) op X
      obtain ⟨hf', _, _⟩ := hW'
      have hp := hf' p
      have hpool : (act me w (.call p op fun _ => 0)).pool = Function.update w.pool p (step me (w.pool p) op) := by
        simp [act, hw]
      rw [hpool] at hf'
      have hall : ∀ q, (Function.update w.pool p (step me (w.pool p) op) q).books.paid X +
          (Function.update w.pool p (step me (w.pool p) op) q).st.pool.orph X +
          (Function.update w.pool p (step me (w.pool p) op) q).books.refunded X ≤
          (Function.update w.pool p (step me (w.pool p) op) q).books.funded X := by
        intro q
        have := funded_covers (hf' q) 0
        have h2 : DEC * ((Function.update w.pool p (step me (w.pool p) op) q).books.paid X +
          (Function.update w.pool p (step me (w.pool p) op) q).st.pool.orph X +
          (Function.update w.pool p (step me (w.pool p) op) q).books.refunded X) ≤
          DEC * (Function.update w.pool p (step me (w.pool p) op) q).books.funded X := by
          simp only [Nat.mul_add] at this ⊢
          omega
        exact Nat.le_of_mul_le_mul_left h2 hDEC
      have hsum := Finset.sum_le_sum fun q (_ : q ∈ Finset.univ) => hall q
      rw [Finset.sum_add_distrib, Finset.sum_add_distrib] at hsum
      have s1 := sum_update w.pool p (step me (w.pool p) op) (fun r => r.books.funded X)
      have s2 := sum_update w.pool p (step me (w.pool p) op) (fun r => r.books.paid X)
      have s3 := sum_update w.pool p (step me (w.pool p) op) (fun r => r.books.refunded X)
      have s4 := sum_update w.pool p (step me (w.pool p) op) (fun r => r.st.pool.orph X)
      have hA := hW.acct
      have hO := hW.orph
      rw [Finset.sum_add_distrib] at hA
      unfold outOf inOf
      omega
  | claimMany user ps sent =>
    simp only [payout]
    split
    · cases hc : claimAll me user w.pool ps with
      | none => exact Nat.zero_le _
      | some w' =>
        simp only
        obtain ⟨h1, h2⟩ := claimAll_spec (X := X) hc hW.fund
        have hall : ∀ q, (w' q).books.paid X + (w' q).st.pool.orph X + (w' q).books.refunded X ≤
            (w' q).books.funded X := by
          intro q
          have := funded_covers (h1 q) 0
          have h2 : DEC * ((w' q).books.paid X + (w' q).st.pool.orph X + (w' q).books.refunded X) ≤
              DEC * (w' q).books.funded X := by
            simp only [Nat.mul_add] at this ⊢
            omega
          exact Nat.le_of_mul_le_mul_left h2 hDEC
        have hsum := Finset.sum_le_sum fun q (_ : q ∈ Finset.univ) => hall q
        rw [Finset.sum_add_distrib, Finset.sum_add_distrib] at hsum
        have hf : ∑ p, (w' p).books.funded X = ∑ p, (w.pool p).books.funded X :=
          Finset.sum_congr rfl fun p _ => (h2 p).2.2.1
        have ho : ∑ p, (w.pool p).st.pool.orph X ≤ ∑ p, (w' p).st.pool.orph X :=
          Finset.sum_le_sum fun p _ => (h2 p).2.2.2
        have hout : ∑ p, ((w.pool p).books.paid X + (w.pool p).books.refunded X) + ∑ p, outOf (w.pool p) (w' p) X =
            ∑ p, ((w' p).books.paid X + (w' p).books.refunded X) := by
          rw [← Finset.sum_add_distrib]
          apply Finset.sum_congr rfl
          intro p _
          obtain ⟨b1, b2, _, _⟩ := h2 p
          unfold outOf
          omega
        rw [Finset.sum_add_distrib (f := fun p => (w' p).books.paid X)] at hout
        have hA := hW.acct
        have hO := hW.orph
        omega
    · exact Nat.zero_le _
  | claimOrphaned pick sent =>
    simp only [payout]
    split
    · have := winv_solvent hW 0
      have h2 : DEC * orphaned w X ≤ DEC * w.held X := by
        simp only [Nat.mul_add] at this
        omega
      exact Nat.le_trans (Nat.le_of_mul_le_mul_left h2 hDEC) (Nat.le_add_right _ _)
    · exact Nat.zero_le _
  | wait d => exact Nat.zero_le _
  | donate Y n => exact Nat.zero_le _

/-! ## Concrete histories of two pools that share a reward token -/

/-- All transfers go through. -/
def wAll : Fin 2 → Nat := fun _ => 10 ^ 40

/-- Two pools. -/
def wLp2 : Fin 2 → Fin 4 → Nat := fun _ => wLp

/-- Both pools are incentivized with token 0; in pool 0 the owner removes it (with all schedules) and it is added again;
somebody donates; stakers claim from both pools at once, once with the transfers failing; the stakers of pool 1
leave before its schedule ends, so that rewards are orphaned, which the owner claims. -/
def wPools : List (Act (Fin 2) (Fin 2) (Fin 4)) :=
  [.call 0 (.deposit 1 1 100) wAll, .call 0 (.incentivize 0 100000000 3 false) wAll,
   .call 1 (.incentivize 0 50000000 2 false) wAll, .wait 200000, .call 1 (.deposit 1 1 40) wAll,
   .call 1 (.deposit 2 2 60) wAll, .donate 0 5, .call 0 (.removeReward 0 false) wAll,
   .call 0 (.incentivize 0 70000000 4 false) wAll, .wait 500000, .claimMany 1 [0, 1] wAll,
   .wait 300000, .claimMany 1 [1, 0] (fun _ => 0), .call 1 (.withdraw 1 40) wAll,
   .call 1 (.withdraw 2 60) wAll, .wait 10000000, .call 1 .touch wAll,
   .claimOrphaned (fun _ => true) wAll]

/-- The history `wPools` up to the removal, whose stream has no orphaned rewards. -/
theorem wPools_tidy : Tidy 0 0 (World.start wLp2 (EPOCHS_START + 1)) wPools := by
  have h : (match (update ((acts 0 (World.start wLp2 (EPOCHS_START + 1)) (wPools.take 7)).pool 0).st.now
      ((acts 0 (World.start wLp2 (EPOCHS_START + 1)) (wPools.take 7)).pool 0).st.pool).1.ext 0 with
      | some e => e.orphaned
      | none => 0) = 0 := by decide +kernel
  refine ⟨trivial, trivial, trivial, trivial, trivial, trivial, trivial, fun _ => ⟨rfl, fun e he => ?_⟩,
    trivial, trivial, trivial, trivial, trivial, trivial, trivial, trivial, trivial, trivial, trivial⟩
  have he' : (update ((acts 0 (World.start wLp2 (EPOCHS_START + 1)) (wPools.take 7)).pool 0).st.now
      ((acts 0 (World.start wLp2 (EPOCHS_START + 1)) (wPools.take 7)).pool 0).st.pool).1.ext 0 = some e := he
  rw [he'] at h
  exact h

/-- `wPools` meets the hypotheses: rewards of both pools are paid, some transfers fail, orphaned rewards are claimed,
and there is something left to claim. -/
example : let w := acts 0 (World.start wLp2 (EPOCHS_START + 1)) wPools
    0 < w.orphClaimed 0 ∧ 0 < (w.pool 0).books.paid 0 ∧ 0 < (w.pool 1).books.paid 0 ∧
    0 < (w.pool 0).books.refunded 0 ∧ 0 < claimable (w.pool 0).st 1 0 := by
  decide +kernel

example : 0 < payout 0 (acts 0 (World.start wLp2 (EPOCHS_START + 1)) (wPools.take 10)) 0 (.claimMany 1 [0, 1] wAll) := by
  decide +kernel

/-- In pool 0 the owner removes a reward but leaves its upcoming schedules (as in `wBypass`). -/
def wPoolsBypass : List (Act (Fin 2) (Fin 2) (Fin 4)) :=
  [.call 1 (.deposit 2 2 100) wAll, .call 1 (.incentivize 0 50000000 9 false) wAll,
   .call 0 (.deposit 1 1 100) wAll, .call 0 (.incentivize 0 100000000 9 false) wAll,
   .call 0 (.incentivize 0 1000000000 4 false) wAll, .call 0 (.removeReward 0 true) wAll,
   .call 0 (.incentivize 0 2000000 1 false) wAll, .wait 6652800, .call 0 (.claim 1) wAll]

/-- C127 is violated: stakers of pool 0 were paid more than was funded there, so account 2, the only staker of
pool 1, which nobody but an honest funder ever touched, has more to claim than the whole contract holds. -/
theorem C127_insolvent_violated :
    let w := acts 0 (World.start wLp2 (EPOCHS_START + 1)) wPoolsBypass
    w.held 0 < claimable (w.pool 1).st 2 0 ∧
    claimable (w.pool 1).st 2 0 ≤ (w.pool 1).books.funded 0 ∧
    w.held 0 + payin 0 w 0 (.claimMany 2 [1] wAll) < payout 0 w 0 (.claimMany 2 [1] wAll) := by
  decide +kernel

end Verif.Incentives
