import Verif.Base.KV

/-!
# Walking a paginated listing

`Map::range(start_after exclusive, ascending).take(limit)`, walked by passing the last key of a page on.
-/

namespace Verif

variable {K V : Type} [LinearOrder K]

/-- One page. -/
def kvPage (l : List (K × V)) (start : Option K) (limit : Nat) : List (K × V) :=
  ((start.map fun k => kvAfter k l).getD l).take limit

/-- `n` pages, each starting after the last key of the one before; the walk ends at an empty page. -/
def kvWalk (l : List (K × V)) (limit : Nat) : Nat → Option K → List (K × V)
  | 0, _ => []
  | n + 1, start =>
    match (kvPage l start limit).getLast? with
    | none => []
    | some e => kvPage l start limit ++ kvWalk l limit n (some e.1)

/-- `n` pages are the first `n · limit` entries. -/
theorem kvWalk_eq (l : List (K × V)) (hs : KvSorted l) (m n : Nat) : kvWalk l m n none = l.take (n * m) := by
  have gen : ∀ (n : Nat) (start : Option K) (pre post : List (K × V)), l = pre ++ post →
      kvPage l start m = post.take m → kvWalk l m n start = post.take (n * m) := by
    intro n
    induction n with
    | zero => intro _ _ _ _ _; simp [kvWalk]
    | succ n ih =>
      intro start pre post hsp hr
      unfold kvWalk
      simp only [hr]
      cases hl : (post.take m).getLast? with
      | none =>
        rw [List.getLast?_eq_none_iff] at hl
        rcases List.take_eq_nil_iff.1 hl with h | h
        · subst h; simp
        · subst h; simp
      | some e =>
        simp only
        obtain ⟨zs, hz⟩ := List.getLast?_eq_some_iff.1 hl
        have hpost : post = zs ++ e :: post.drop m := by
          conv => lhs; rw [← List.take_append_drop m post, hz]
          simp
        have hsp' : l = (pre ++ zs) ++ e :: post.drop m := by
          rw [hsp]; conv => lhs; rw [hpost]
          simp
        rw [ih (some e.1) (pre ++ zs ++ [e]) (post.drop m) (by rw [hsp']; simp)]
        · rw [Nat.succ_mul, Nat.add_comm (n * m) m, List.take_add]
        · unfold kvPage
          simp only [Option.map_some, Option.getD_some]
          rw [hsp', kvAfter_split (by rw [← hsp']; exact hs)]
  exact gen n none [] l rfl (by simp [kvPage])

/-- With at least one entry per page, as many pages as there are entries show everything. -/
theorem kvWalk_complete (l : List (K × V)) (hs : KvSorted l) (m n : Nat) (hm : 0 < m) (hn : l.length ≤ n) :
    kvWalk l m n none = l := by
  rw [kvWalk_eq l hs]
  apply List.take_of_length_le
  calc l.length ≤ n * 1 := by omega
    _ ≤ n * m := Nat.mul_le_mul_left _ hm

end Verif
