import Verif.Base.Res
import Mathlib.Data.List.Nodup
import Mathlib.Algebra.BigOperators.Group.List.Basic

/-!
# The vector of running totals of the shared library: C187

`packages/astroport/src/restricted_vector.rs`: a vector of pairs (key, total) that can only be added to.
-/

namespace Verif.Restricted

variable {K : Type} [DecidableEq K]

/-! ## Model -/

/-- `RestrictedVector`, packages/astroport/src/restricted_vector.rs:5-9 (`Decimal` and `Uint128` values: both have 128 bits). -/
abbrev Vec (K : Type) := List (K × Nat)

/-- `RestrictedVector::new`, packages/astroport/src/restricted_vector.rs:23-25. -/
def new (k : K) (v : Nat) : Vec K := [(k, v)]

/-- `get_last`, packages/astroport/src/restricted_vector.rs:27-34. -/
def getLast (l : Vec K) (k : K) : Res Nat :=
  match l.getLast? with
  | some (k', v) => if k' = k then .ok v else .error (.invalid "Key not found")
  | none => .error (.invalid "Key not found")

/-- `Increaseable::increase`, packages/astroport/src/restricted_vector.rs:68-78: `checked_add`. -/
def increase (v w : Nat) : Res Nat := do
  require (v + w < U128) .overflow
  .ok (v + w)

/-- `update`, packages/astroport/src/restricted_vector.rs:36-50: the first entry of the key is increased, or a new one appended. -/
def update : Vec K → K → Nat → Res (Vec K × Nat)
  | [], k, v => .ok ([(k, v)], v)
  | (k', w) :: l, k, v =>
    if k' = k then do
      let t ← increase w v
      .ok ((k', t) :: l, t)
    else do
      let (l', r) ← update l k v
      .ok ((k', w) :: l', r)

/-- `load`, packages/astroport/src/restricted_vector.rs:52-57. -/
def load (l : Vec K) (k : K) : Option Nat := (l.find? (fun p => decide (p.1 = k))).map (·.2)

/-- A sequence of updates; a failed one changes nothing (the transaction is reverted). -/
def run (l : Vec K) (us : List (K × Nat)) : Vec K :=
  us.foldl (fun l u => match update l u.1 u.2 with | .ok (l', _) => l' | .error _ => l) l

/-! ## Specification -/

/-- What was added under a key. -/
def added (us : List (K × Nat)) (k : K) : List Nat := (us.filter (fun u => decide (u.1 = k))).map (·.2)

/-- The keys in the order of their first appearance. -/
def firsts : List K → List K
  | [] => []
  | k :: ks => k :: (firsts ks).filter (fun x => decide (x ≠ k))

/-! ## Lemmas -/

theorem load_cons (k' : K) (w : Nat) (l : Vec K) (k : K) :
    load ((k', w) :: l) k = if k' = k then some w else load l k := by
  simp only [load, List.find?_cons]
  split <;> rename_i h <;> simp at h <;> simp [h]

theorem load_none {l : Vec K} {k : K} : load l k = none ↔ k ∉ l.map (·.1) := by
  induction l with
  | nil => simp [load]
  | cons p l ih =>
    obtain ⟨k', w⟩ := p
    rw [load_cons]
    by_cases h : k' = k
    · simp [h]
    · simp only [h, if_false, ih, List.map_cons, List.mem_cons, not_or]
      exact ⟨fun x => ⟨fun e => h e.symm, x⟩, fun x => x.2⟩

/-- What one update does, and when it is refused. -/
theorem update_spec (l : Vec K) (k : K) (v : Nat) :
    (∀ l' r, update l k v = .ok (l', r) ↔
      (load l k = none ∧ l' = l ++ [(k, v)] ∧ r = v) ∨
      (∃ t, load l k = some t ∧ t + v < U128 ∧ r = t + v ∧ l'.map (·.1) = l.map (·.1) ∧ load l' k = some (t + v) ∧
        (∀ j, j ≠ k → load l' j = load l j) ∧ update l k v = .ok (l', r))) ∧
    (∀ e, update l k v = .error e → ∃ t, load l k = some t ∧ U128 ≤ t + v) := by
  induction l with
  | nil =>
    refine ⟨fun l' r => ?_, fun e h => by simp [update] at h⟩
    simp [update, load]
    tauto
  | cons p l ih =>
    obtain ⟨k', w⟩ := p
    obtain ⟨ih1, ih2⟩ := ih
    by_cases h : k' = k
    · subst h
      refine ⟨fun l' r => ?_, fun e he => ?_⟩
      · simp only [update, if_true, load_cons, increase, bind_ok_iff, require_ok, exists_const, Except.ok.injEq, Prod.mk.injEq]
        constructor
        · rintro ⟨t, ⟨ht, rfl⟩, rfl, rfl⟩
          refine .inr ⟨w, rfl, ht, rfl, rfl, by simp [load_cons], fun j hj => ?_, _, ⟨ht, rfl⟩, rfl, rfl⟩
          simp [load_cons, Ne.symm hj]
        · rintro (⟨h, _⟩ | ⟨t, _, _, _, _, _, _, h⟩)
          · cases h
          · exact h
      · refine ⟨w, by simp [load_cons], ?_⟩
        by_contra hlt
        simp only [update, if_true, increase, require, Nat.not_le.1 hlt] at he
        cases he
    · refine ⟨fun l' r => ?_, fun e he => ?_⟩
      · simp only [load_cons, h, if_false]
        constructor
        · intro hu
          have hu0 := hu
          simp only [update, h, if_false, bind_ok_iff, Prod.exists, Except.ok.injEq, Prod.mk.injEq] at hu
          obtain ⟨l2, r2, hx, rfl, rfl⟩ := hu
          rcases (ih1 l2 r2).1 hx with ⟨h1, rfl, rfl⟩ | ⟨t, h1, h2, h3, h4, h5, h6, _⟩
          · exact .inl ⟨h1, rfl, rfl⟩
          · refine .inr ⟨t, h1, h2, h3, by simp [h4], by simp [load_cons, h, h5], fun j hj => ?_, hu0⟩
            simp only [load_cons]
            split
            · rfl
            · exact h6 j hj
        · rintro (⟨h1, rfl, rfl⟩ | ⟨t, _, _, _, _, _, _, hx⟩)
          · have := (ih1 (l ++ [(k, r)]) r).2 (.inl ⟨h1, rfl, rfl⟩)
            simp [update, h, this]
          · exact hx
      · simp only [load_cons, h, if_false]
        simp only [update, h, if_false] at he
        cases hx : update l k v with
        | error e' => exact ih2 e' hx
        | ok x => rw [hx] at he; cases he

theorem mem_firsts {ks : List K} {k : K} : k ∈ firsts ks ↔ k ∈ ks := by
  induction ks with
  | nil => simp [firsts]
  | cons a ks ih =>
    simp only [firsts, List.mem_cons, List.mem_filter, ih, decide_eq_true_eq]
    by_cases h : k = a <;> simp [h]

theorem firsts_nodup (ks : List K) : (firsts ks).Nodup := by
  induction ks with
  | nil => simp [firsts]
  | cons a ks ih =>
    simp only [firsts, List.nodup_cons, List.mem_filter, decide_eq_true_eq, ne_eq, not_true, and_false, not_false_eq_true,
      true_and]
    exact ih.filter _

theorem firsts_snoc (ks : List K) (k : K) :
    firsts (ks ++ [k]) = if k ∈ ks then firsts ks else firsts ks ++ [k] := by
  induction ks with
  | nil => simp [firsts]
  | cons a ks ih =>
    simp only [List.cons_append, firsts, ih, List.mem_cons]
    by_cases h : k = a
    · subst h
      by_cases h2 : k ∈ ks <;> simp [h2]
    · by_cases h2 : k ∈ ks <;> simp [h, h2]

theorem run_snoc (us : List (K × Nat)) (u : K × Nat) (l : Vec K) :
    run l (us ++ [u]) = match update (run l us) u.1 u.2 with | .ok (l', _) => l' | .error _ => run l us := by
  simp [run, List.foldl_append]

theorem added_snoc (us : List (K × Nat)) (u : K × Nat) (k : K) :
    added (us ++ [u]) k = added us k ++ if u.1 = k then [u.2] else [] := by
  simp only [added, List.filter_append, List.map_append]
  by_cases h : u.1 = k <;> simp [h]

/-! ## C187 -/

/-- **C187**: the entries are the keys in the order of their first appearance, each once, whatever was added and refused. -/
theorem C187_order_of_first_appearance (us : List (K × Nat)) :
    (run ([] : Vec K) us).map (·.1) = firsts (us.map (·.1)) ∧ ((run ([] : Vec K) us).map (·.1)).Nodup := by
  have key : (run ([] : Vec K) us).map (·.1) = firsts (us.map (·.1)) := by
    induction us using List.reverseRecOn with
    | nil => rfl
    | append_singleton us u ih =>
      obtain ⟨k, v⟩ := u
      rw [run_snoc, List.map_append, List.map_singleton, firsts_snoc]
      have hm : k ∈ us.map (·.1) ↔ load (run ([] : Vec K) us) k ≠ none := by
        rw [ne_eq, load_none, not_not, ih, mem_firsts]
      obtain ⟨s1, s2⟩ := update_spec (run ([] : Vec K) us) k v
      cases hx : update (run ([] : Vec K) us) k v with
      | error e =>
        obtain ⟨t, ht, _⟩ := s2 e hx
        rw [if_pos (hm.2 (by simp [ht]))]
        exact ih
      | ok x =>
        obtain ⟨l', r⟩ := x
        rcases (s1 l' r).1 hx with ⟨h1, rfl, _⟩ | ⟨t, h1, _, _, h4, _⟩
        · rw [if_neg (by rw [hm]; simp [h1])]
          simp [← ih]
        · rw [if_pos (hm.2 (by simp [h1]))]
          simp only [h4, ih]
  exact ⟨key, key ▸ firsts_nodup _⟩

/-- **C187**: under each key stands the sum of everything added under it, and nothing under a key never added to, as long as the
sums fit. -/
theorem C187_totals (us : List (K × Nat)) (hs : ∀ k, (added us k).sum < U128) (k : K) :
    load (run ([] : Vec K) us) k = if added us k = [] then none else some (added us k).sum := by
  induction us using List.reverseRecOn generalizing k with
  | nil => rfl
  | append_singleton us u ih =>
    obtain ⟨j, v⟩ := u
    have hs' : ∀ k, (added us k).sum < U128 := by
      intro k
      have := hs k
      rw [added_snoc, List.sum_append] at this
      omega
    have hj := hs j
    simp only [added_snoc, if_true, List.sum_append, List.sum_singleton] at hj
    obtain ⟨s1, s2⟩ := update_spec (run ([] : Vec K) us) j v
    rw [run_snoc, added_snoc]
    cases hx : update (run ([] : Vec K) us) j v with
    | error e =>
      obtain ⟨t, ht, hover⟩ := s2 e hx
      rw [ih hs' j] at ht
      split at ht
      · cases ht
      · cases ht; omega
    | ok x =>
      obtain ⟨l', r⟩ := x
      dsimp only
      rcases (s1 l' r).1 hx with ⟨h1, rfl, _⟩ | ⟨t, h1, _, _, _, h5, h6, _⟩
      · by_cases hk : j = k
        · subst hk
          rw [ih hs' j] at h1
          have h0 : added us j = [] := by
            by_contra hne
            simp [hne] at h1
          have hl : load (run ([] : Vec K) us) j = none := by rw [ih hs' j]; simp [h0]
          have : load (run ([] : Vec K) us ++ [(j, v)]) j = some v := by
            rw [load] at hl ⊢
            rw [List.find?_append]
            simp only [Option.map_eq_none_iff] at hl
            simp [hl]
          rw [this, h0]
          simp
        · have : load (run ([] : Vec K) us ++ [(j, v)]) k = load (run ([] : Vec K) us) k := by
            rw [load, load, List.find?_append]
            simp [hk]
          rw [this, ih hs' k]
          simp [hk]
      · by_cases hk : j = k
        · subst hk
          rw [h5]
          rw [ih hs' j] at h1
          split at h1
          · cases h1
          · cases h1; simp
        · rw [h6 k (fun e => hk e.symm), ih hs' k]
          simp [hk]

/-- **C187**: an addition is refused exactly when the total would not fit; an accepted one returns the new total and changes no
other. -/
theorem C187_addition_accepted_iff (l : Vec K) (k : K) (v : Nat) :
    ((∃ x, update l k v = .ok x) ↔ ∀ t, load l k = some t → t + v < U128) ∧
    ∀ l' r, update l k v = .ok (l', r) → r = (load l k).getD 0 + v ∧ load l' k = some r ∧ ∀ j, j ≠ k → load l' j = load l j := by
  obtain ⟨s1, s2⟩ := update_spec l k v
  refine ⟨⟨?_, ?_⟩, ?_⟩
  · rintro ⟨⟨l', r⟩, h⟩ t ht
    rcases (s1 l' r).1 h with ⟨h1, _⟩ | ⟨t', h1, h2, _⟩
    · rw [h1] at ht; cases ht
    · rw [h1] at ht; cases ht; exact h2
  · intro h
    cases hx : update l k v with
    | error e =>
      obtain ⟨t, ht, ho⟩ := s2 e hx
      have := h t ht
      omega
    | ok x => exact ⟨x, rfl⟩
  · intro l' r h
    rcases (s1 l' r).1 h with ⟨h1, rfl, rfl⟩ | ⟨t, h1, _, rfl, _, h5, h6, _⟩
    · refine ⟨by simp [h1], ?_, ?_⟩
      · rw [load] at h1 ⊢
        rw [List.find?_append]
        simp only [Option.map_eq_none_iff] at h1
        simp [h1]
      · intro j hj
        rw [load, load, List.find?_append]
        simp [Ne.symm hj]
    · exact ⟨by simp [h1], h5, h6⟩

/-- **C187**: asking for the latest entry succeeds exactly for the key that appeared last for the first time, and returns its
total. -/
theorem C187_latest (us : List (K × Nat)) (k : K) (v : Nat) :
    getLast (run ([] : Vec K) us) k = .ok v ↔
      (firsts (us.map (·.1))).getLast? = some k ∧ load (run ([] : Vec K) us) k = some v := by
  obtain ⟨h1, h2⟩ := C187_order_of_first_appearance us
  rw [← h1]
  generalize run ([] : Vec K) us = l at h2
  induction l using List.reverseRecOn with
  | nil => simp [getLast]
  | append_singleton l p _ =>
    obtain ⟨k', w⟩ := p
    simp only [getLast, List.getLast?_append, List.map_append, List.map_singleton, List.getLast?_singleton, Option.some_or]
    by_cases h : k' = k
    · subst h
      have hn : load l k' = none := by
        rw [load_none]
        simp only [List.map_append, List.map_singleton, List.nodup_append, List.mem_singleton] at h2
        intro hm
        exact h2.2.2 k' hm k' rfl rfl
      have : load (l ++ [(k', w)]) k' = some w := by
        rw [load] at hn ⊢
        rw [List.find?_append]
        simp only [Option.map_eq_none_iff] at hn
        simp [hn]
      simp [this]
    · simp [h]

/-- Non-vacuity: three keys, additions to old ones, and one that does not fit. -/
example :
    run ([] : Vec String) [("a", 5), ("b", 7), ("a", 2), ("c", 1), ("b", 3), ("c", U128 - 1)] =
      [("a", 7), ("b", 10), ("c", 1)] ∧
    getLast (run ([] : Vec String) [("a", 5), ("b", 7), ("a", 2)]) "b" = .ok 7 ∧
    fails (getLast (run ([] : Vec String) [("a", 5), ("b", 7), ("a", 2)]) "a") = true ∧
    fails (update [("c", 1)] "c" (U128 - 1)) = true ∧ (added [("a", 5), ("b", 7), ("a", 2)] "a").sum = 7 := by
  refine ⟨by decide +kernel, by rfl, by decide +kernel, by decide +kernel, by decide⟩

end Verif.Restricted
