import Mathlib.Order.Defs.LinearOrder
import Mathlib.Order.Basic
import Mathlib.Data.List.Basic
import Mathlib.Data.List.Sort

/-!
# Ordered key-value storage

`cw_storage_plus::Map` on the chain's ordered key-value store: an association list sorted by key.
-/

namespace Verif

variable {K V : Type} [LinearOrder K]

/-- `Map::save`. -/
def kvInsert (k : K) (v : V) : List (K × V) → List (K × V)
  | [] => [(k, v)]
  | (k', v') :: rest =>
    if k < k' then (k, v) :: (k', v') :: rest
    else if k = k' then (k, v) :: rest
    else (k', v') :: kvInsert k v rest

/-- `Map::may_load`. -/
def kvGet (k : K) : List (K × V) → Option V
  | [] => none
  | (k', v') :: rest => if k = k' then some v' else kvGet k rest

/-- `Map::remove`. -/
def kvRemove (k : K) (l : List (K × V)) : List (K × V) := l.filter fun x => decide (x.1 ≠ k)

/-- `Map::range` ascending from an exclusive lower bound. -/
def kvAfter (k : K) (l : List (K × V)) : List (K × V) := l.filter fun x => decide (k < x.1)

/-- Keys strictly ascending. -/
def KvSorted (l : List (K × V)) : Prop := l.Pairwise fun a b => a.1 < b.1

theorem mem_kvInsert {k : K} {v : V} {l : List (K × V)} {x : K × V} (h : x ∈ kvInsert k v l) :
    x = (k, v) ∨ x ∈ l := by
  induction l with
  | nil => simpa [kvInsert] using h
  | cons y l ih =>
    unfold kvInsert at h
    split_ifs at h
    · rcases List.mem_cons.1 h with h | h
      · left; exact h
      · right; exact h
    · rcases List.mem_cons.1 h with h | h
      · left; exact h
      · right; exact List.mem_cons_of_mem _ h
    · rcases List.mem_cons.1 h with h | h
      · right; rw [h]; simp
      · rcases ih h with h | h
        · left; exact h
        · right; exact List.mem_cons_of_mem _ h

theorem kvSorted_insert {k : K} {v : V} {l : List (K × V)} (h : KvSorted l) : KvSorted (kvInsert k v l) := by
  induction l with
  | nil => simp [kvInsert, KvSorted]
  | cons y l ih =>
    unfold KvSorted at *
    rw [List.pairwise_cons] at h
    unfold kvInsert
    split_ifs with h1 h2
    · rw [List.pairwise_cons]
      refine ⟨?_, List.pairwise_cons.2 h⟩
      intro b hb
      rcases List.mem_cons.1 hb with rfl | hb
      · exact h1
      · exact lt_trans h1 (h.1 b hb)
    · rw [List.pairwise_cons]
      refine ⟨?_, h.2⟩
      intro b hb
      show k < b.1
      rw [h2]; exact h.1 b hb
    · rw [List.pairwise_cons]
      refine ⟨?_, ih h.2⟩
      intro b hb
      rcases mem_kvInsert hb with rfl | hb
      · exact lt_of_le_of_ne (not_lt.1 h1) (fun h => h2 h.symm)
      · exact h.1 b hb

theorem kvSorted_remove {k : K} {l : List (K × V)} (h : KvSorted l) : KvSorted (kvRemove k l) :=
  List.Pairwise.sublist List.filter_sublist h

theorem kvGet_insert (k k' : K) (v : V) (l : List (K × V)) :
    kvGet k' (kvInsert k v l) = if k' = k then some v else kvGet k' l := by
  induction l with
  | nil => simp [kvInsert, kvGet]
  | cons y l ih =>
    obtain ⟨a, b⟩ := y
    unfold kvInsert
    split_ifs with h1 h2
    · subst h2; simp [kvGet]
    · simp [kvGet, h2]
    · rename_i h3; simp [kvGet, h3]
    · rename_i h2 h3; subst h2; simp [kvGet, h3]
    · rename_i h3 h4; subst h4
      simp only [kvGet, if_neg h3, ih, if_true]
    · rename_i h3 h4
      simp only [kvGet, ih, if_neg h4]

theorem kvGet_remove (k k' : K) (l : List (K × V)) :
    kvGet k' (kvRemove k l) = if k' = k then none else kvGet k' l := by
  induction l with
  | nil => simp [kvRemove, kvGet]
  | cons y l ih =>
    obtain ⟨a, b⟩ := y
    unfold kvRemove at *
    rw [List.filter_cons]
    by_cases h : a = k
    · subst h
      simp only [ne_eq, not_true_eq_false, decide_false, Bool.false_eq_true, if_false, ih, kvGet]
      split_ifs <;> rfl
    · simp only [ne_eq, h, not_false_eq_true, decide_true, if_true, kvGet, ih]
      split_ifs with h1 h2 <;> first | rfl | (subst h1; exact absurd h2 h)

theorem kvGet_mem {k : K} {v : V} {l : List (K × V)} (h : kvGet k l = some v) : (k, v) ∈ l := by
  induction l with
  | nil => simp [kvGet] at h
  | cons y l ih =>
    obtain ⟨a, b⟩ := y
    unfold kvGet at h
    split_ifs at h with h1
    · subst h1
      simp only [Option.some.injEq] at h
      subst h; simp
    · exact List.mem_cons_of_mem _ (ih h)

theorem kvGet_of_mem {k : K} {v : V} {l : List (K × V)} (hs : KvSorted l) (h : (k, v) ∈ l) :
    kvGet k l = some v := by
  induction l with
  | nil => simp at h
  | cons y l ih =>
    obtain ⟨a, b⟩ := y
    unfold KvSorted at hs
    rw [List.pairwise_cons] at hs
    unfold kvGet
    rcases List.mem_cons.1 h with h | h
    · obtain ⟨rfl, rfl⟩ := Prod.mk.inj h; simp
    · have := hs.1 _ h
      rw [if_neg (fun he => by subst he; exact lt_irrefl _ this)]
      exact ih hs.2 h

/-- What comes after an element of a sorted list. -/
theorem kvAfter_split {pre post : List (K × V)} {e : K × V} (hs : KvSorted (pre ++ e :: post)) :
    kvAfter e.1 (pre ++ e :: post) = post := by
  unfold KvSorted at hs
  rw [List.pairwise_append, List.pairwise_cons] at hs
  unfold kvAfter
  rw [List.filter_append, List.filter_cons]
  have h1 : pre.filter (fun x => decide (e.1 < x.1)) = [] := by
    rw [List.filter_eq_nil_iff]
    intro x hx
    have := hs.2.2 x hx e (by simp)
    simpa using le_of_lt this
  have h2 : post.filter (fun x => decide (e.1 < x.1)) = post := by
    rw [List.filter_eq_self]
    intro x hx
    simpa using hs.2.1.1 x hx
  rw [h1, h2]
  simp

end Verif
