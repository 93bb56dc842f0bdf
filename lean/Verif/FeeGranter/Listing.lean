import Verif.FeeGranter.Props
import Verif.Base.Listing

/-!
# The queries of the fee granter (C137)
-/

namespace Verif.FeeGranter

open Verif

variable {A : Type} [LinearOrder A] [Fintype A]

/-- contracts/periphery/fee_granter/src/query.rs:25-45, `list_grants`: 50 by default, with no upper limit. -/
def grantsList (s : State A) (startAfter : Option A) (limit : Option Nat) : List (A × Nat) :=
  kvPage (entries s.grants) startAfter (limit.getD 50)

/-- contracts/periphery/fee_granter/src/query.rs:47-56, `grant_for`. -/
def grantFor (s : State A) (g : A) : Nat := (s.grants g).getD 0

/-- **C137.**  After every history, a reader of `GrantsList` with any limit but zero gets accounts in ascending order,
each once, with what `GrantFor` answers; every account with a live grant on the chain is among them, with at least what
is left of its grant; for accounts not listed `GrantFor` answers zero. -/
theorem C137_all_grants_listed (me fc owner : A) (admins : List A) (gas : A → Nat) (s₀ : State A)
    (h0 : instantiate owner admins gas = .ok s₀) (ops : List (A × Op A)) (limit : Option Nat) (hl : limit ≠ some 0)
    (n : Nat) (hn : Fintype.card A ≤ n) :
    let s := run me fc s₀ ops
    let l := readPages (fun a => grantsList s a limit) n none
    (l.map Prod.fst).Pairwise (· < ·) ∧ (∀ e ∈ l, e.2 = grantFor s e.1 ∧ e.2 ≠ 0) ∧
      (∀ g left, s.live g = some left → ∃ e ∈ l, e.1 = g ∧ left ≤ e.2) ∧
      ∀ g, (∀ e ∈ l, e.1 ≠ g) → grantFor s g = 0 := by
  intro s l
  have hm : 0 < limit.getD 50 := by
    cases limit with
    | none => decide
    | some k => exact Nat.pos_of_ne_zero fun h => hl (by rw [← h]; rfl)
  have hle : l = entries s.grants := readPages_entries _ _ _ hm hn
  have hpos : ∀ g v, s.grants g = some v → v ≠ 0 := by
    refine run_inv (P := fun s : State A => ∀ g v, s.grants g = some v → v ≠ 0) me fc (ok := fun _ => True) ?_ ops
      (fun _ _ => trivial) _ ?_
    · intro s a o s' _ hi hx g v hg
      cases o with
      | grant f g' amount bypass =>
        simp only [exec, grant, chainGrant, bind_ok_iff, require_ok, exists_const, Except.ok.injEq] at hx
        obtain ⟨_, _, _, _, _, _, _, ⟨hz, _⟩, rfl⟩ := hx
        by_cases hgg : g = g'
        · subst hgg
          simp only [Function.update_self, Option.some.injEq] at hg
          omega
        · simp only [Function.update_of_ne hgg] at hg
          exact hi g v hg
      | revoke g' =>
        simp only [exec, revoke, bind_ok_iff, require_ok, exists_const, Except.ok.injEq] at hx
        obtain ⟨_, _, _, rfl⟩ := hx
        by_cases hgg : g = g'
        · subst hgg
          simp at hg
        · simp only [Function.update_of_ne hgg] at hg
          exact hi g v hg
      | transferCoins n r =>
        simp only [exec, transferCoins, bind_ok_iff, require_ok, exists_const, Except.ok.injEq] at hx
        obtain ⟨_, _, _, _, rfl⟩ := hx
        exact hi g v hg
      | updateAdmins add rem =>
        simp only [exec, updateAdmins, bind_ok_iff, require_ok, exists_const, Except.ok.injEq] at hx
        obtain ⟨_, _, _, rfl⟩ := hx
        exact hi g v hg
      | own now m =>
        simp only [exec, bind_ok_iff, Except.ok.injEq] at hx
        obtain ⟨_, _, rfl⟩ := hx
        exact hi g v hg
      | useFee fee =>
        simp only [exec, useFee, bind_ok_iff, require_ok, exists_const, Except.ok.injEq] at hx
        obtain ⟨_, _, _, _, _, _, rfl⟩ := hx
        exact hi g v hg
      | send d n =>
        simp only [exec, bind_ok_iff, Except.ok.injEq] at hx
        obtain ⟨_, _, rfl⟩ := hx
        exact hi g v hg
    · simp only [instantiate, bind_ok_iff, Except.ok.injEq] at h0
      obtain ⟨_, _, rfl⟩ := h0
      intro g v hg
      simp at hg
  rw [hle]
  refine ⟨List.pairwise_map.2 (entries_sorted _), fun e he => ?_, fun g left hg => ?_, fun g hg => ?_⟩
  · have := mem_entries.1 (show (e.1, e.2) ∈ entries s.grants from he)
    unfold grantFor
    rw [this]
    exact ⟨rfl, hpos _ _ this⟩
  · obtain ⟨v, hv, _, hle⟩ := C64_live_grants_recorded me fc owner admins gas s₀ h0 ops g left hg
    exact ⟨(g, v), mem_entries.2 hv, rfl, hle⟩
  · unfold grantFor
    cases hc : s.grants g with
    | none => rfl
    | some v => exact absurd rfl (hg (g, v) (mem_entries.2 hc))

/-- Two grants, one of them partly used, the other ended. -/
def listOps : List (Fin 6 × Op (Fin 6)) :=
  [(1, .grant ⟨100, false⟩ 4 100 false), (1, .grant ⟨50, false⟩ 3 50 false), (4, .useFee 30),
    (1, .grant ⟨10, false⟩ 5 10 false), (1, .revoke 5)]

example : okAnd (instantiate (1 : Fin 6) [2] (fun _ => 1000)) (fun s₀ =>
    let s := run 0 0 s₀ listOps
    decide (readPages (fun a => grantsList s a (some 1)) 6 none = [(3, 50), (4, 100)] ∧ s.live 4 = some 70 ∧
      grantFor s 5 = 0)) = true := by
  unfold grantsList entries
  rw [Fin.sort_univ]
  decide +kernel

end Verif.FeeGranter
