import Verif.Vesting.Props
import Verif.Base.Listing

/-!
# The `VestingAccounts` query (C135)
-/

namespace Verif.Vesting

open Verif

variable {A : Type} [LinearOrder A] [Fintype A]

/-- packages/astroport/src/vesting.rs, `OrderBy`. -/
inductive OrderBy
  | asc
  | desc
  deriving DecidableEq

/-- contracts/tokenomics/vesting/src/state.rs:28-64, `read_vesting_infos`, and contracts/tokenomics/vesting/src/contract.rs:491-507,
`query_vesting_accounts`: the limit is 10 by default and at most 30; the order is descending by default, and then
`start_after` is an upper bound. -/
def vestingAccounts (s : State A) (startAfter : Option A) (limit : Option Nat) (order : Option OrderBy) :
    List (A × Info) :=
  if order = some .asc then kvPage (entries s.info) startAfter (min (limit.getD 10) 30)
  else kvPageDesc (entries s.info) startAfter (min (limit.getD 10) 30)

theorem readAccounts_eq (s : State A) (limit : Option Nat) (order : Option OrderBy) (n : Nat)
    (hl : limit ≠ some 0) (hn : Fintype.card A ≤ n) :
    readPages (fun a => vestingAccounts s a limit order) n none =
      if order = some .asc then entries s.info else (entries s.info).reverse := by
  have hm : 0 < min (limit.getD 10) 30 := by
    cases limit with
    | none => decide
    | some k =>
      have : k ≠ 0 := fun h => hl (by rw [h])
      simp only [Option.getD_some]
      omega
  unfold vestingAccounts
  split
  · exact readPages_entries _ _ _ hm hn
  · exact readPages_entries_desc _ _ _ hm hn

theorem page_length (s : State A) (startAfter : Option A) (limit : Option Nat) (order : Option OrderBy) :
    (vestingAccounts s startAfter limit order).length ≤ min (limit.getD 10) 30 := by
  unfold vestingAccounts kvPage kvPageDesc
  split <;> exact List.length_take_le _ _

/-- **C135.**  After every history, a reader of `VestingAccounts`, in either order and with any limit but zero, gets every
account with a vesting exactly once, in order, with what `VestingAccount` answers for it; no page is longer than the limit
or 30; and the contract holds what the listed accounts have yet to receive. -/
theorem C135_all_accounts_listed (me owner : A) (bal : A → Nat) (now : Nat) (ops : List (Op A)) (limit : Option Nat)
    (order : Option OrderBy) (hl : limit ≠ some 0) (n : Nat) (hn : Fintype.card A ≤ n) :
    let s := run me (initial owner bal now) ops
    let l := readPages (fun a => vestingAccounts s a limit order) n none
    (∀ a i, (a, i) ∈ l ↔ s.info a = some i) ∧
    (order = some .asc → (l.map Prod.fst).Pairwise (· < ·)) ∧
    (order ≠ some .asc → (l.map Prod.fst).Pairwise (· > ·)) ∧
    (∀ a, (vestingAccounts s a limit order).length ≤ min (limit.getD 10) 30) ∧
    (l.map fun e => totalAll e.2.schedules - e.2.released).sum ≤ s.bal me := by
  intro s l
  have hle : l = if order = some .asc then entries s.info else (entries s.info).reverse :=
    readAccounts_eq s limit order n hl hn
  have hsum : ((entries s.info).map fun e => totalAll e.2.schedules - e.2.released).sum ≤ s.bal me := by
    have h1 := entries_sum s.info fun _ i => totalAll i.schedules - i.released
    have h2 := (C25_fully_funded me owner bal now ops).1
    change ∑ a, (totalAll (schedulesOf s a) - releasedOf s a) ≤ s.bal me at h2
    refine le_trans (le_of_eq (h1.trans ?_)) h2
    refine Finset.sum_congr rfl fun a _ => ?_
    unfold schedulesOf releasedOf
    cases s.info a <;> rfl
  refine ⟨fun a i => ?_, fun ho => ?_, fun ho => ?_, fun a => page_length s a limit order, ?_⟩
  · rw [hle]
    split
    · exact mem_entries
    · rw [List.mem_reverse]; exact mem_entries
  · rw [hle, if_pos ho]
    exact List.pairwise_map.2 (entries_sorted s.info)
  · rw [hle, if_neg ho, List.map_reverse]
    exact List.pairwise_reverse.2 (List.pairwise_map.2 (entries_sorted s.info))
  · rw [hle]
    split
    · exact hsum
    · rw [List.map_reverse, List.sum_reverse]
      exact hsum

/-- Two accounts, one of which has claimed. -/
def listOps : List (Op (Fin 4)) :=
  [.register 1 [(2, [⟨⟨100, 10⟩, some ⟨200, 1010⟩⟩]), (3, [⟨⟨50, 40⟩, none⟩])] 1050, .wait 128, .claim 2 none (some 100)]

example :
    let s := run (0 : Fin 4) (initial 1 (fun _ => 5000) 5) listOps
    readPages (fun a => vestingAccounts s a (some 1) none) 4 none =
      [(3, ⟨[⟨⟨50, 40⟩, none⟩], 0⟩), (2, ⟨[⟨⟨100, 10⟩, some ⟨200, 1010⟩⟩], 100⟩)] ∧
    vestingAccounts s (some 2) none (some .asc) = [(3, ⟨[⟨⟨50, 40⟩, none⟩], 0⟩)] ∧
    vestingAccounts s (some 2) none none = [] := by
  unfold vestingAccounts entries
  rw [Fin.sort_univ]
  decide +kernel

end Verif.Vesting
