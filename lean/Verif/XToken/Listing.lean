import Verif.XToken.Props
import Verif.Base.Listing

/-!
# The listing queries of the xASTRO token (C136)
-/

namespace Verif.XToken

open Verif

variable {A : Type} [LinearOrder A] [Fintype A]

/-- The page limit of both queries: 10 by default, at most 30. -/
def pageLimit (limit : Option Nat) : Nat := min (limit.getD 10) 30

/-- contracts/tokenomics/xastro_token/src/contract.rs:663-680, `query_all_accounts`: the keys of `BALANCES`.  An account
whose balance went back to zero keeps its entry. -/
def allAccounts (s : State A) (startAfter : Option A) (limit : Option Nat) : List A :=
  (kvPage (entries fun a => (s.bals a).cur) startAfter (pageLimit limit)).map Prod.fst

/-- `QueryMsg::AllAllowances` (contracts/tokenomics/xastro_token/src/contract.rs:612-616), cw20-base's
`query_owner_allowances`: the entries of `ALLOWANCES` of the owner, expired ones included. -/
def allAllowances (s : State A) (owner : A) (startAfter : Option A) (limit : Option Nat) : List (A × (Nat × Exp)) :=
  kvPage (entries (s.allow owner)) startAfter (pageLimit limit)

/-- cw20-base's `query_allowance`. -/
def queryAllowance (s : State A) (owner sp : A) : Nat × Exp := (s.allow owner sp).getD (0, .never)

theorem pageLimit_pos {limit : Option Nat} (hl : limit ≠ some 0) : 0 < pageLimit limit := by
  unfold pageLimit
  cases limit with
  | none => decide
  | some k =>
    have : k ≠ 0 := fun h => hl (by rw [h])
    simp only [Option.getD_some]
    omega

/-- **C136.**  After every history, a reader of `AllAccounts` with any limit but zero gets accounts in ascending order,
each once, and among them all that hold anything; the balances of the listed accounts are the balances of all accounts,
so that they add up to at most the total supply. -/
theorem C136_all_holders_listed (h : Nat) (accounts : List (A × Nat)) (m : Option (A × Option Nat))
    (s₀ : State A) (hx : instantiate h accounts m = .ok s₀) (ts : List (Tx A)) (limit : Option Nat)
    (hl : limit ≠ some 0) (n : Nat) (hn : Fintype.card A ≤ n) :
    let s := run s₀ ts
    let l := readKeys (fun a => allAccounts s a limit) n none
    l.Pairwise (· < ·) ∧ (∀ a, bal s a ≠ 0 → a ∈ l) ∧ (l.map (bal s)).sum = ∑ a, bal s a ∧
      (l.map (bal s)).sum ≤ s.supply := by
  intro s l
  have hle : l = (entries fun a => (s.bals a).cur).map Prod.fst :=
    (readKeys_map _ _ _).trans (congrArg _ (readPages_entries _ _ _ (pageLimit_pos hl) hn))
  have hsum : (l.map (bal s)).sum = ∑ a, bal s a := by
    rw [hle]
    have h1 := entries_sum (fun a => (s.bals a).cur) fun a _ => bal s a
    rw [List.map_map]
    refine h1.trans (Finset.sum_congr rfl fun a _ => ?_)
    unfold bal
    cases (s.bals a).cur <;> rfl
  refine ⟨?_, fun a ha => ?_, hsum, hsum ▸ (C59_never_exceeds_supply_and_cap h accounts m s₀ hx ts).1⟩
  · rw [hle]
    exact List.pairwise_map.2 (entries_sorted _)
  · rw [hle]
    cases hc : (s.bals a).cur with
    | none =>
      unfold bal at ha
      rw [hc] at ha
      exact absurd rfl ha
    | some v => exact List.mem_map.2 ⟨(a, v), mem_entries.2 hc, rfl⟩

/-- **C136.**  If no account was listed twice when the token was created, the listed balances add up to exactly the total
supply. -/
theorem C136_listed_balances_are_supply (h : Nat) (accounts : List (A × Nat)) (m : Option (A × Option Nat))
    (hd : (accounts.map (·.1)).Nodup) (s₀ : State A) (hx : instantiate h accounts m = .ok s₀) (ts : List (Tx A))
    (limit : Option Nat) (hl : limit ≠ some 0) (n : Nat) (hn : Fintype.card A ≤ n) :
    ((readKeys (fun a => allAccounts (run s₀ ts) a limit) n none).map (bal (run s₀ ts))).sum = (run s₀ ts).supply := by
  rw [(C136_all_holders_listed h accounts m s₀ hx ts limit hl n hn).2.2.1]
  exact C59_sum_is_supply_partial h accounts m hd s₀ hx ts

/-- **C136.**  A reader of `AllAllowances` gets every spender with an allowance once, in ascending order, with what
`Allowance` answers; for everybody else `Allowance` answers zero. -/
theorem C136_all_allowances_listed (s : State A) (owner : A) (limit : Option Nat) (hl : limit ≠ some 0) (n : Nat)
    (hn : Fintype.card A ≤ n) :
    let l := readPages (fun a => allAllowances s owner a limit) n none
    (l.map Prod.fst).Pairwise (· < ·) ∧ (∀ e ∈ l, e.2 = queryAllowance s owner e.1) ∧
      ∀ sp, (∀ e ∈ l, e.1 ≠ sp) → queryAllowance s owner sp = (0, .never) := by
  intro l
  have hle : l = entries (s.allow owner) := readPages_entries _ _ _ (pageLimit_pos hl) hn
  rw [hle]
  refine ⟨List.pairwise_map.2 (entries_sorted _), fun e he => ?_, fun sp hsp => ?_⟩
  · unfold queryAllowance
    rw [mem_entries.1 (show (e.1, e.2) ∈ entries (s.allow owner) from he)]
    rfl
  · unfold queryAllowance
    cases hc : s.allow owner sp with
    | none => rfl
    | some v => exact absurd rfl (hsp (sp, v) (mem_entries.2 hc))

example : okAnd demoInit (fun s =>
    let r := run s demoTs
    decide (readKeys (fun a => allAccounts r a (some 2)) 10 none = [1, 2, 3, 5, 9] ∧
      ((readKeys (fun a => allAccounts r a (some 2)) 10 none).map (bal r)).sum = 180 ∧
      readPages (fun a => allAllowances r 2 a none) 10 none = [(4, (5, .height 8))])) = true := by
  unfold allAccounts allAllowances entries
  rw [Fin.sort_univ]
  decide +kernel

end Verif.XToken
