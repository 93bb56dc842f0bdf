import Verif.Incentives.Contract
import Verif.Incentives.Prorata

/-!
# Claiming from several pools at once (C128)

`ExecuteMsg::ClaimRewards { lp_tokens }` (`contracts/tokenomics/incentives/src/execute.rs:41-76`, `contracts/tokenomics/incentives/src/utils.rs:24-94`).
-/

namespace Verif.Incentives

open Verif

variable {P I U : Type} [Fintype P] [DecidableEq P] [Fintype I] [DecidableEq I] [DecidableEq U] [Fintype U]

/-- Every pool of a reachable world satisfies the accounting invariant. -/
theorem act_runInv {X : I} {me : U} {w : World P I U} (h : ∀ p, RunInv X False (w.pool p)) (a : Act P I U) :
    ∀ p, RunInv X False ((act me w a).pool p) := by
  have hs : ∀ p o, RunInv X False (step me (w.pool p) o) := fun p o => run_runInv me [o] _ (h p)
  cases a with
  | call p op sent =>
    simp only [act]
    split
    · exact h
    · intro q
      by_cases hq : q = p
      · subst hq; simp only [Function.update_self]; exact hs q op
      · simp only [Function.update_of_ne hq]; exact h q
  | claimMany user ps sent =>
    simp only [act]
    split
    · split
      · exact h
      · rename_i w' hw
        have : ∀ (ps : List P) (v v' : P → Run I U), claimAll me user v ps = some v' →
            (∀ p, RunInv X False (v p)) → ∀ p, RunInv X False (v' p) := by
          intro ps
          induction ps with
          | nil =>
            intro v v' h hR
            simp only [claimAll, Option.some.injEq] at h
            subst h; exact hR
          | cons p ps ih =>
            intro v v' h hR
            unfold claimAll at h
            split at h
            · simp at h
            · refine ih _ _ h fun q => ?_
              by_cases hq : q = p
              · subst hq; rw [Function.update_self]; exact run_runInv me [.claim user] _ (hR q)
              · rw [Function.update_of_ne hq]; exact hR q
        exact this ps _ _ hw h
    · exact h
  | claimOrphaned pick sent => exact h
  | wait d => exact fun p => hs p _
  | donate Y n => exact h

theorem acts_runInv {X : I} {me : U} : ∀ (as : List (Act P I U)) (w : World P I U), (∀ p, RunInv X False (w.pool p)) →
    ∀ p, RunInv X False ((acts me w as).pool p)
  | [], _, h => h
  | a :: as, _, h => acts_runInv as _ (act_runInv h a)

omit [Fintype I] [DecidableEq I] [DecidableEq U] [Fintype U] in
/-- Somebody just synced has nothing pending. -/
theorem synced_pending {s : State I U} {v : U} {u : User I} (hl : s.pool.last = s.now)
    (hf : ∀ x ∈ s.pool.fin, x.1 ≤ s.pool.last) (hu : s.pool.users v = some (sync s.pool u)) (X : I) :
    pending s v X = .ok 0 := by
  unfold pending update
  rw [if_pos (by omega), hu]
  simp only
  have hfin : finishedOf s.pool (fun _ => none) (sync s.pool u).lastClaim X = [] := by
    unfold finishedOf
    simp only [List.append_nil]
    rw [List.filterMap_eq_nil_iff]
    intro x hx
    rw [if_neg (by have := hf x hx; simp only [sync]; omega)]
  unfold payExt
  simp only [hfin, payFinished, ok_bind, if_true]
  simp only [sync]
  cases s.pool.ext X with
  | none => simp [payCurrent, ok_bind]
  | some e =>
    have : idxDiff e.index e.index = 0 := by simp [idxDiff]
    simp [payCurrent, this, mulDec, u128, ok_bind, U128]

omit [DecidableEq I] [Fintype U] in
/-- A successful claim, seen from the queries. -/
theorem claim_of_pending {s : State I U} {v : U} {n : I → Nat} {a : Nat}
    (hn : ∀ X, pending s v X = .ok (n X)) (ha : pendingAstro s v = .ok a) :
    ∃ s', claim s v = .ok (s', ⟨n, a⟩) := by
  unfold pending at hn
  unfold pendingAstro at ha
  unfold claim
  simp only at hn ha
  cases hu : s.pool.users v with
  | none => rw [hu] at ha; simp at ha
  | some u =>
    simp only [hu] at hn ha
    simp only [orErr, ok_bind]
    have hp : payAll (update s.now s.pool).1 (update s.now s.pool).2 u = .ok ⟨n, a⟩ := by
      unfold payAll
      have h1 : ∀ X, isOk (payExt (update s.now s.pool).1 (update s.now s.pool).2 u X) = true := by
        intro X; rw [hn X]; rfl
      have h2 : (fun X => val (payExt (update s.now s.pool).1 (update s.now s.pool).2 u X)) = n := by
        funext X; rw [hn X]; rfl
      rw [show require (∀ X, isOk (payExt (update s.now s.pool).1 (update s.now s.pool).2 u X) = true) .overflow
        = .ok () from if_pos h1, ha, h2]
      rfl
    rw [hp]
    exact ⟨_, rfl⟩

omit [Fintype P] [Fintype U] in
theorem claimAll_ok {me user : U} {n : P → I → Nat} {a : P → Nat} : ∀ {ps : List P} {w : P → Run I U}, ps.Nodup →
    (∀ p ∈ ps, (∀ X, pending (w p).st user X = .ok (n p X)) ∧ pendingAstro (w p).st user = .ok (a p)) →
    ∃ w', claimAll me user w ps = some w' ∧ (∀ p ∉ ps, w' p = w p) ∧ ∀ p ∈ ps, w' p = step me (w p) (.claim user)
  | [], w, _, _ => ⟨w, rfl, fun _ _ => rfl, fun _ h => by simp at h⟩
  | p :: ps, w, hn, h => by
    obtain ⟨hp, hps⟩ := List.nodup_cons.mp hn
    obtain ⟨s', hs⟩ := claim_of_pending (h p (List.mem_cons_self ..)).1 (h p (List.mem_cons_self ..)).2
    have hne : ∀ q ∈ ps, q ≠ p := fun q hq e => hp (e ▸ hq)
    obtain ⟨w', h1, h2, h3⟩ := claimAll_ok (me := me) (user := user) (n := n) (a := a)
      (w := Function.update w p (step me (w p) (.claim user))) hps (by
        intro q hq
        rw [Function.update_of_ne (hne q hq)]
        exact h q (List.mem_cons_of_mem _ hq))
    refine ⟨w', ?_, ?_, ?_⟩
    · unfold claimAll
      rw [hs]
      exact h1
    · intro q hq
      rw [List.mem_cons, not_or] at hq
      rw [h2 q hq.2, Function.update_of_ne hq.1]
    · intro q hq
      rcases List.mem_cons.mp hq with rfl | hq
      · rw [h2 q hp, Function.update_self]
      · rw [h3 q hq, Function.update_of_ne (hne q hq)]

omit [Fintype U] in
theorem step_claim_eq {me user : U} {r : Run I U} {n : I → Nat} {a : Nat}
    (hn : ∀ X, pending r.st user X = .ok (n X)) (ha : pendingAstro r.st user = .ok a) :
    ∃ s', claim r.st user = .ok (s', ⟨n, a⟩) ∧ step me r (.claim user) = ⟨s', r.books.pay user ⟨n, a⟩⟩ := by
  obtain ⟨s', hs⟩ := claim_of_pending hn ha
  refine ⟨s', hs, ?_⟩
  unfold step
  simp only [hs]

/-! ## C128 -/

/-- C128, partial: let `PendingRewards` answer `n p X` (and `a p` ASTRO) for each of the different pools `ps`.
Then claiming from `ps` in one message books for the user exactly `n p X` and `a p` for each pool, leaves the
pools not named as they were, leaves nothing pending, and, when the transfer is carried out, the contract's
balance of each reward token falls by exactly the sum of the announced amounts: everything announced arrives.
Missing: what happens when a transfer fails; the reward is then lost for the user
(`C128_failed_transfer_violated`). -/
theorem C128_claim_pays_sum_partial (me : U) (lp : P → U → Nat) (now : Nat) (hnow : EPOCHS_START ≤ now)
    (as : List (Act P I U)) (user : U) (ps : List P) (hps : ps.Nodup) (sent : I → Nat) (n : P → I → Nat) (a : P → Nat)
    (hn : ∀ p ∈ ps, (∀ X, pending ((acts me (World.start lp now) as).pool p).st user X = .ok (n p X)) ∧
      pendingAstro ((acts me (World.start lp now) as).pool p).st user = .ok (a p)) :
    let w := acts me (World.start lp now) as
    let w' := act me w (.claimMany user ps sent)
    (∀ p ∈ ps, (w'.pool p).books = (w.pool p).books.pay user ⟨n p, a p⟩ ∧
      ∀ X, pending (w'.pool p).st user X = .ok 0) ∧
    (∀ p ∉ ps, w'.pool p = w.pool p) ∧
    ∀ X, Tidy X me (World.start lp now) as → (ps.map fun p => n p X).sum ≤ sent X →
      w'.held X + (ps.map fun p => n p X).sum = w.held X := by
  intro w w'
  change ∀ p ∈ ps, (∀ X, pending (w.pool p).st user X = .ok (n p X)) ∧ pendingAstro (w.pool p).st user = .ok (a p) at hn
  obtain ⟨v, h1, h2, h3⟩ := claimAll_ok (me := me) hps hn
  have hw' : w' = { w with pool := v, held := settle w.held (fun _ => 0) (fun X => ∑ p, outOf (w.pool p) (v p) X) sent } := by
    show act me w (.claimMany user ps sent) = _
    simp only [act]
    rw [if_pos hps, h1]
  have hout : ∀ X, ∑ p, outOf (w.pool p) (v p) X = (ps.map fun p => n p X).sum := by
    intro X
    rw [← List.sum_toFinset _ hps]
    symm
    rw [← Finset.sum_subset (Finset.subset_univ ps.toFinset)]
    · apply Finset.sum_congr rfl
      intro p hp
      rw [List.mem_toFinset] at hp
      rw [h3 p hp]
      obtain ⟨s', _, hs⟩ := step_claim_eq (me := me) (hn p hp).1 (hn p hp).2
      rw [hs]
      unfold outOf Books.pay
      simp only
      omega
    · intro p _ hp
      rw [List.mem_toFinset] at hp
      rw [h2 p hp]
      unfold outOf
      omega
  refine ⟨?_, ?_, ?_⟩
  · intro p hp
    rw [hw']
    simp only
    rw [h3 p hp]
    obtain ⟨s', hc, hs⟩ := step_claim_eq (me := me) (hn p hp).1 (hn p hp).2
    rw [hs]
    refine ⟨rfl, fun X => ?_⟩
    have hR : RunInv X False (w.pool p) :=
      acts_runInv as _ (fun q => start_runInv X False (lp q) now) p
    have hR' : RunInv X False (step me (w.pool p) (.claim user)) := run_runInv me [.claim user] _ hR
    rw [hs] at hR'
    obtain ⟨hl, _⟩ := hR
    obtain ⟨_, ev, C, hI, _⟩ := hR'
    obtain ⟨g1, g2⟩ := C30_claim_syncs hl hc
    exact synced_pending g1 hI.finLe g2 X
  · intro p hp
    rw [hw']
    exact h2 p hp
  · intro X ht hs
    have hcov : ∑ p, outOf (w.pool p) (v p) X ≤ w.held X := by
      have := C127_payments_covered_partial me lp now hnow as (.claimMany user ps sent) X (by
        have : ∀ (bs : List (Act P I U)) (z : World P I U), Tidy X me z bs → Tidy X me z (bs ++ [.claimMany user ps sent]) := by
          intro bs
          induction bs with
          | nil => intro z _; exact ⟨trivial, trivial⟩
          | cons b bs ih => intro z hz; exact ⟨hz.1, ih _ hz.2⟩
        exact this as _ ht)
      simp only [payout, payin, Nat.add_zero] at this
      rw [if_pos hps, h1] at this
      exact this
    rw [hw']
    simp only [settle]
    rw [hout] at hcov ⊢
    omega

omit [Fintype U] in
/-- C128: a pool named twice makes the whole call fail, and so does a pool in which the user has no position: nothing
is paid and nothing changes. -/
theorem C128_refused (me : U) (w : World P I U) (user : U) (ps : List P) (sent : I → Nat)
    (h : ¬ ps.Nodup ∨ ∃ p ∈ ps, (w.pool p).st.pool.users user = none) :
    act me w (.claimMany user ps sent) = w := by
  simp only [act]
  split
  · rename_i hn
    rcases h with h | ⟨p, hp, hu⟩
    · exact absurd hn h
    · have : ∀ (qs : List P) (v : P → Run I U), qs.Nodup → p ∈ qs → (v p).st.pool.users user = none →
          claimAll me user v qs = none := by
        intro qs
        induction qs with
        | nil => intro v _ h; simp at h
        | cons q qs ih =>
          intro v hq hm hv
          unfold claimAll
          split
          · rfl
          · rename_i hc
            obtain ⟨hq1, hq2⟩ := List.nodup_cons.mp hq
            rcases List.mem_cons.mp hm with rfl | hm
            · unfold claim at hc
              rw [hv] at hc
              simp [orErr, error_bind] at hc
            · exact ih _ hq2 hm (by rw [Function.update_of_ne (fun e => hq1 (by rw [← e]; exact hm))]; exact hv)
      rw [this ps _ hn hp hu]
  · rfl

/-- Two stakers, two pools; before account 1 claims. -/
def wBeforeClaim : World (Fin 2) (Fin 2) (Fin 4) := acts 0 (World.start wLp2 (EPOCHS_START + 1)) (wPools.take 10)

/-- The hypotheses are met with rewards in both pools (`wPools_tidy` is about the longer history). -/
example : okAnd (pending (wBeforeClaim.pool 0).st 1 0) (fun x => decide (0 < x)) = true ∧
    okAnd (pending (wBeforeClaim.pool 1).st 1 0) (fun x => decide (0 < x)) = true ∧
    okAnd (pending (wBeforeClaim.pool 0).st 1 1) (fun _ => true) = true ∧
    okAnd (pending (wBeforeClaim.pool 1).st 1 1) (fun _ => true) = true ∧
    okAnd (pendingAstro (wBeforeClaim.pool 0).st 1) (fun _ => true) = true ∧
    okAnd (pendingAstro (wBeforeClaim.pool 1).st 1) (fun _ => true) = true := by
  decide +kernel

/-- C128 is violated: the transfer of the reward token fails (its contract refuses, or needs more gas than the
contract allows), the failure is ignored, and the rewards that were pending are gone although the contract still
holds them. -/
theorem C128_failed_transfer_violated :
    let w' := act 0 wBeforeClaim (.claimMany 1 [0, 1] fun _ => 0)
    okAnd (pending (wBeforeClaim.pool 0).st 1 0) (fun x => decide (1000000 < x)) = true ∧
    w'.held 0 = wBeforeClaim.held 0 ∧
    pending (w'.pool 0).st 1 0 = .ok 0 ∧ pending (w'.pool 1).st 1 0 = .ok 0 := by
  refine ⟨by decide +kernel, by decide +kernel, ?_, ?_⟩ <;> rfl

end Verif.Incentives
