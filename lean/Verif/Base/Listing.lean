import Verif.Base.Paging
import Mathlib.Data.Finset.Sort
import Mathlib.Data.Fintype.Card
import Mathlib.Algebra.BigOperators.Group.Finset.Basic

/-!
# Listing a map

A storage map as a function, and the sequence of its entries in the order of the keys, which `Map::range` walks in either
direction.
-/

namespace Verif

variable {K V : Type} [LinearOrder K] [Fintype K]

/-- All entries, ascending. -/
def entries (f : K → Option V) : List (K × V) :=
  (Finset.univ.sort (fun a b : K => a ≤ b)).filterMap fun k => (f k).map fun v => (k, v)

theorem entries_sorted (f : K → Option V) : KvSorted (entries f) := by
  unfold KvSorted entries
  have h : List.Pairwise (fun a b : K => a < b) (Finset.univ.sort (fun a b : K => a ≤ b)) :=
    (Finset.sortedLT_sort (Finset.univ : Finset K)).pairwise
  refine List.Pairwise.filterMap _ ?_ h
  intro a b hab x hx y hy
  simp only [Option.map_eq_some_iff] at hx hy
  obtain ⟨_, _, rfl⟩ := hx
  obtain ⟨_, _, rfl⟩ := hy
  exact hab

theorem mem_entries {f : K → Option V} {k : K} {v : V} : (k, v) ∈ entries f ↔ f k = some v := by
  unfold entries
  simp only [List.mem_filterMap, Finset.mem_sort, Finset.mem_univ, true_and, Option.map_eq_some_iff, Prod.mk.injEq]
  constructor
  · rintro ⟨_, _, h1, rfl, rfl⟩; exact h1
  · intro h; exact ⟨k, v, h, rfl, rfl⟩

theorem entries_length (f : K → Option V) : (entries f).length ≤ Fintype.card K := by
  refine Nat.le_trans (List.length_filterMap_le _ _) ?_
  rw [Finset.length_sort]
  exact le_refl _

/-- A sum over the listed entries is the sum over all keys. -/
theorem entries_sum (f : K → Option V) (g : K → V → Nat) :
    ((entries f).map fun e => g e.1 e.2).sum = ∑ k, ((f k).map (g k)).getD 0 := by
  have h1 : ∀ l : List K, ((l.filterMap fun k => (f k).map fun v => (k, v)).map fun e => g e.1 e.2).sum =
      (l.map fun k => ((f k).map (g k)).getD 0).sum := by
    intro l
    induction l with
    | nil => rfl
    | cons k l ih => cases hk : f k <;> simp [hk, ih]
  unfold entries
  rw [h1, ← Finset.sum_map_toList]
  exact ((Finset.sort_perm_toList _ _).map _).sum_eq

/-! ## Descending -/

omit [Fintype K]

/-- `Map::range` descending below an exclusive upper bound: one page. -/
def kvPageDesc (l : List (K × V)) (start : Option K) (limit : Nat) : List (K × V) :=
  ((start.map fun k => l.filter fun x => decide (x.1 < k)).getD l).reverse.take limit

/-- `n` pages, each starting below the last key of the one before. -/
def kvWalkDesc (l : List (K × V)) (limit : Nat) : Nat → Option K → List (K × V)
  | 0, _ => []
  | n + 1, start =>
    match (kvPageDesc l start limit).getLast? with
    | none => []
    | some e => kvPageDesc l start limit ++ kvWalkDesc l limit n (some e.1)

/-- The same list with the order of the keys reversed. -/
def flipped (l : List (K × V)) : List (Kᵒᵈ × V) := l.reverse

theorem flipped_sorted {l : List (K × V)} (h : KvSorted l) : KvSorted (flipped l) := by
  show List.Pairwise (fun a b : Kᵒᵈ × V => a.1 < b.1) (l.reverse)
  exact List.pairwise_reverse.2 h

theorem kvPageDesc_flipped (l : List (K × V)) (start : Option K) (m : Nat) :
    kvPageDesc l start m = kvPage (K := Kᵒᵈ) (flipped l) start m := by
  unfold kvPageDesc kvPage flipped kvAfter
  cases start with
  | none => rfl
  | some k =>
    simp only [Option.map_some, Option.getD_some]
    rw [← List.filter_reverse]
    rfl

theorem kvWalkDesc_flipped (l : List (K × V)) (m : Nat) : ∀ n (start : Option K),
    kvWalkDesc l m n start = kvWalk (K := Kᵒᵈ) (flipped l) m n start
  | 0, _ => rfl
  | n + 1, start => by
    have ih := kvWalkDesc_flipped l m n
    have hd : kvWalkDesc l m (n + 1) start =
      (match (kvPageDesc l start m).getLast? with
        | none => []
        | some e => kvPageDesc l start m ++ kvWalkDesc l m n (some e.1)) := rfl
    have ha : kvWalk (K := Kᵒᵈ) (flipped l) m (n + 1) start =
      (match (kvPage (K := Kᵒᵈ) (flipped l) start m).getLast? with
        | none => []
        | some e => kvPage (K := Kᵒᵈ) (flipped l) start m ++ kvWalk (K := Kᵒᵈ) (flipped l) m n (some e.1)) := rfl
    have hp := kvPageDesc_flipped l start m
    rw [hd, ha]
    cases h : (kvPageDesc l start m).getLast? with
    | none =>
      have h' : (kvPage (K := Kᵒᵈ) (flipped l) start m).getLast? = none := by rw [← hp]; exact h
      rw [h']
      rfl
    | some e =>
      have h' : (kvPage (K := Kᵒᵈ) (flipped l) start m).getLast? = some e := by rw [← hp]; exact h
      rw [h']
      simp only
      rw [hp, ih]
      rfl

/-- With at least one entry per page, as many pages as there are entries show everything, from the last to the first. -/
theorem kvWalkDesc_complete (l : List (K × V)) (hs : KvSorted l) (m n : Nat) (hm : 0 < m) (hn : l.length ≤ n) :
    kvWalkDesc l m n none = l.reverse := by
  rw [kvWalkDesc_flipped]
  exact kvWalk_complete (K := Kᵒᵈ) (flipped l) (flipped_sorted hs) m n hm (by
    have : (flipped l).length = l.length := List.length_reverse (as := l)
    omega)

/-! ## Readers of paginated queries -/

omit [LinearOrder K]

/-- A reader of a paginated query: `n` pages, each starting after the last key of the page before, until a page is
empty. -/
def readPages (page : Option K → List (K × V)) : Nat → Option K → List (K × V)
  | 0, _ => []
  | n + 1, start =>
    match (page start).getLast? with
    | none => []
    | some e => page start ++ readPages page n (some e.1)

/-- The same for a query that returns keys only. -/
def readKeys (page : Option K → List K) : Nat → Option K → List K
  | 0, _ => []
  | n + 1, start =>
    match (page start).getLast? with
    | none => []
    | some k => page start ++ readKeys page n (some k)

theorem readPages_walk [LinearOrder K] (l : List (K × V)) (m : Nat) : ∀ n start,
    readPages (fun a => kvPage l a m) n start = kvWalk l m n start
  | 0, _ => rfl
  | n + 1, start => by
    unfold readPages kvWalk
    split <;> simp_all [readPages_walk]

theorem readPages_walkDesc [LinearOrder K] (l : List (K × V)) (m : Nat) : ∀ n start,
    readPages (fun a => kvPageDesc l a m) n start = kvWalkDesc l m n start
  | 0, _ => rfl
  | n + 1, start => by
    unfold readPages kvWalkDesc
    split <;> simp_all [readPages_walkDesc]

theorem readKeys_map (page : Option K → List (K × V)) : ∀ n start,
    readKeys (fun a => (page a).map Prod.fst) n start = (readPages page n start).map Prod.fst
  | 0, _ => rfl
  | n + 1, start => by
    unfold readPages readKeys
    simp only [List.getLast?_map]
    cases (page start).getLast? with
    | none => rfl
    | some e => simp only [Option.map_some, List.map_append, readKeys_map]

/-- With at least one entry per page and as many pages as there are possible keys, a reader gets all entries, ascending. -/
theorem readPages_entries [LinearOrder K] [Fintype K] (f : K → Option V) (m n : Nat) (hm : 0 < m)
    (hn : Fintype.card K ≤ n) : readPages (fun a => kvPage (entries f) a m) n none = entries f := by
  rw [readPages_walk]
  exact kvWalk_complete _ (entries_sorted f) _ _ hm (le_trans (entries_length f) hn)

/-- The same, descending. -/
theorem readPages_entries_desc [LinearOrder K] [Fintype K] (f : K → Option V) (m n : Nat) (hm : 0 < m)
    (hn : Fintype.card K ≤ n) : readPages (fun a => kvPageDesc (entries f) a m) n none = (entries f).reverse := by
  rw [readPages_walkDesc]
  exact kvWalkDesc_complete _ (entries_sorted f) _ _ hm (le_trans (entries_length f) hn)

end Verif
