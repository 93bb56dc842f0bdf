import Verif.Incentives.Tokens
import Verif.Base.Paging
import Mathlib.Data.Finset.Sort

/-!
# The `PoolStakers` query (C126)
-/

namespace Verif.Incentives

open Verif

variable {I U : Type} [Fintype I] [DecidableEq I] [LinearOrder U] [Fintype U]

/-- `USER_INFO.prefix(lp_token)` (`contracts/tokenomics/incentives/src/state.rs:21-24`): the positions of a pool in the order of the addresses. -/
def positions (p : Pool I U) : List (U × Nat) :=
  (Finset.univ.sort (fun a b : U => a ≤ b)).filterMap fun u => (p.users u).map fun x => (u, x.amount)

/-- `list_pool_stakers` (`contracts/tokenomics/incentives/src/state.rs:492-507`).  The code takes the *maximum* of the requested limit (a `u8`) and
`MAX_PAGE_LIMIT`. -/
def poolStakers (p : Pool I U) (startAfter : Option U) (limit : Option Nat) : List (U × Nat) :=
  kvPage (positions p) startAfter (max (limit.getD MAX_PAGE_LIMIT) MAX_PAGE_LIMIT)

/-- A reader of the query: `n` pages, each starting after the last staker of the page before. -/
def readStakers (p : Pool I U) (limit : Option Nat) : Nat → Option U → List (U × Nat)
  | 0, _ => []
  | n + 1, a =>
    match (poolStakers p a limit).getLast? with
    | none => []
    | some x => poolStakers p a limit ++ readStakers p limit n (some x.1)

omit [Fintype I] [DecidableEq I] in
theorem positions_sorted (p : Pool I U) : KvSorted (positions p) := by
  unfold KvSorted positions
  have h : List.Pairwise (fun a b : U => a < b) (Finset.univ.sort (fun a b : U => a ≤ b)) :=
    (Finset.sortedLT_sort (Finset.univ : Finset U)).pairwise
  refine List.Pairwise.filterMap _ ?_ h
  intro a b hab x hx y hy
  simp only [Option.map_eq_some_iff] at hx hy
  obtain ⟨_, _, rfl⟩ := hx
  obtain ⟨_, _, rfl⟩ := hy
  exact hab

omit [Fintype I] [DecidableEq I] in
theorem mem_positions {p : Pool I U} {u : U} {n : Nat} :
    (u, n) ∈ positions p ↔ ∃ x, p.users u = some x ∧ x.amount = n := by
  unfold positions
  simp only [List.mem_filterMap, Finset.mem_sort, Finset.mem_univ, true_and, Option.map_eq_some_iff, Prod.mk.injEq]
  constructor
  · rintro ⟨v, x, h1, rfl, rfl⟩; exact ⟨x, h1, rfl⟩
  · rintro ⟨x, h1, h2⟩; exact ⟨u, x, h1, rfl, h2⟩

omit [Fintype I] [DecidableEq I] in
theorem positions_sum (p : Pool I U) : ((positions p).map Prod.snd).sum = ∑ u, amt p u := by
  have h1 : ∀ l : List U, ((l.filterMap fun u => (p.users u).map fun x => (u, x.amount)).map Prod.snd).sum =
      (l.map (amt p)).sum := by
    intro l
    induction l with
    | nil => rfl
    | cons u l ih =>
      cases hu : p.users u with
      | none => simp [hu, amt, ih]
      | some x => simp [hu, amt, ih]
  unfold positions
  rw [h1, ← Finset.sum_map_toList]
  exact ((Finset.sort_perm_toList _ _).map _).sum_eq

omit [Fintype I] [DecidableEq I] in
theorem readStakers_walk (p : Pool I U) (limit : Option Nat) : ∀ n a, readStakers p limit n a =
    kvWalk (positions p) (max (limit.getD MAX_PAGE_LIMIT) MAX_PAGE_LIMIT) n a
  | 0, _ => rfl
  | n + 1, a => by
    unfold readStakers kvWalk poolStakers
    split <;> simp_all [readStakers_walk]

/-- C126, partial: with enough pages, whatever the limit passed, a reader of `PoolStakers` gets every staker exactly
once (addresses strictly ascending), with the LP tokens deposited in their favour less the withdrawn ones;
accounts not listed have nothing staked, and the listed stakes add up to the LP tokens that the pool
counts, all of which the contract holds.
Missing: the limit on the size of a page, which the code does not respect (`C126_limit_ignored_violated`). -/
theorem C126_all_stakers_partial (me : U) (lp : U → Nat) (now : Nat) (hme : lp me = 0) (ops : List (Op I U))
    (limit : Option Nat) (n : Nat) (hn : Fintype.card U ≤ n) :
    let r := run me (start lp now) ops
    let l := readStakers r.st.pool limit n none
    (l.map Prod.fst).Pairwise (· < ·) ∧
    (∀ u a, (u, a) ∈ l → a + r.books.withdrawn u = r.books.deposited u) ∧
    (∀ u, u ∉ l.map Prod.fst → r.books.withdrawn u = r.books.deposited u) ∧
    (l.map Prod.snd).sum = r.st.pool.totalLp ∧ (l.map Prod.snd).sum ≤ r.st.lp me := by
  intro r l
  have hL : LpInv me r := run_lpInv ops _ (start_lpInv me lp now hme)
  have hlen : (positions r.st.pool).length ≤ n := by
    refine Nat.le_trans (List.length_filterMap_le _ _) ?_
    rw [Finset.length_sort]
    simpa using hn
  have hl : l = positions r.st.pool := by
    show readStakers r.st.pool limit n none = _
    rw [readStakers_walk]
    refine kvWalk_complete _ (positions_sorted _) _ _ ?_ hlen
    unfold MAX_PAGE_LIMIT; omega
  rw [hl]
  obtain ⟨E, hA, _⟩ := hL.astro
  refine ⟨?_, ?_, ?_, ?_, ?_⟩
  · exact List.pairwise_map.2 (positions_sorted r.st.pool)
  · intro u a hu
    obtain ⟨x, hx, rfl⟩ := mem_positions.1 hu
    have := hL.own u
    rw [amt_some hx] at this
    omega
  · intro u hu
    have := hL.own u
    cases hx : r.st.pool.users u with
    | none => unfold amt at this; rw [hx] at this; simpa using this
    | some x =>
      exact absurd (List.mem_map.2 ⟨(u, x.amount), mem_positions.2 ⟨x, hx, rfl⟩, rfl⟩) hu
  · rw [positions_sum, hA.total]
  · rw [positions_sum, hA.total, hL.held]; omega

section Witness

/-- Non-vacuity, and C126's other half is violated: asked for one staker, the query answers with both (the code
takes the maximum of the limit and 50 instead of the minimum). -/
theorem C126_limit_ignored_violated :
    poolStakers (run 0 wStart wUsual).st.pool none (some 1) = [(1, 100), (3, 250)] := by
  unfold poolStakers positions
  rw [Fin.sort_univ]
  decide +kernel

example : readStakers (run 0 wStart wUsual).st.pool (some 1) 4 none = [(1, 100), (3, 250)] := by
  rw [readStakers_walk]
  unfold positions
  rw [Fin.sort_univ]
  decide +kernel

end Witness

end Verif.Incentives
