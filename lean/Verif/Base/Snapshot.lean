import Verif.Base.KV
import Mathlib.Data.List.TakeWhile

/-!
# Snapshots

`cw_storage_plus::SnapshotItem` / one key of a `SnapshotMap` with `Strategy::EveryBlock`: the current value and a
changelog, ordered by height, of the value before the first change at that height.
-/

namespace Verif

/-- One snapshotted value. -/
structure Snap (V : Type) where
  cur : Option V
  log : List (Nat × Option V)

namespace Snap
variable {V : Type}

/-- Nothing stored. -/
def empty : Snap V := ⟨none, []⟩

/-- `save`: the old value is logged unless there is an entry for this height already. -/
def save (s : Snap V) (v : V) (h : Nat) : Snap V :=
  { cur := some v
    log := if (kvGet h s.log).isSome then s.log else kvInsert h s.cur s.log }

/-- `may_load_at_height`: the first logged value at or after the height, otherwise the current one. -/
def at_ (s : Snap V) (h : Nat) : Option V :=
  match s.log.find? fun e => decide (h ≤ e.1) with
  | some e => e.2
  | none => s.cur

/-- All changes so far were at heights up to `H`. -/
def UpTo (s : Snap V) (H : Nat) : Prop := ∀ e ∈ s.log, e.1 ≤ H

theorem upTo_mono {s : Snap V} {H H' : Nat} (h : UpTo s H) (hle : H ≤ H') : UpTo s H' :=
  fun e he => le_trans (h e he) hle

theorem at_future {s : Snap V} {H h : Nat} (hu : UpTo s H) (hh : H < h) : at_ s h = s.cur := by
  unfold at_
  rw [List.find?_eq_none.2]
  intro e he
  have := hu e he
  simp only [decide_eq_true_eq]
  omega

theorem save_upTo {s : Snap V} {H H' : Nat} (v : V) (hu : UpTo s H) (hle : H ≤ H') : UpTo (save s v H') H' := by
  intro e he
  unfold save at he
  simp only at he
  split at he
  · exact le_trans (hu e he) hle
  · rcases mem_kvInsert he with rfl | he
    · exact le_refl _
    · exact le_trans (hu e he) hle

theorem kvInsert_last {W : Type} {k : Nat} {v : W} {l : List (Nat × W)} (hu : ∀ e ∈ l, e.1 ≤ k)
    (hn : kvGet k l = none) : kvInsert k v l = l ++ [(k, v)] := by
  induction l with
  | nil => rfl
  | cons x rest ih =>
    obtain ⟨k', v'⟩ := x
    unfold kvGet at hn
    split at hn
    · simp at hn
    · rename_i hne
      unfold kvInsert
      have h1 := hu (k', v') List.mem_cons_self
      simp only at h1
      rw [if_neg (by omega), if_neg hne, ih (fun e he => hu e (List.mem_cons_of_mem _ he)) hn]
      rfl

theorem kvGet_mem {W : Type} {k : Nat} {l : List (Nat × W)} (h : (kvGet k l).isSome) : ∃ e ∈ l, e.1 = k := by
  induction l with
  | nil => simp [kvGet] at h
  | cons x rest ih =>
    obtain ⟨k', v'⟩ := x
    unfold kvGet at h
    split at h
    · rename_i he
      exact ⟨(k', v'), List.mem_cons_self, he.symm⟩
    · obtain ⟨e, he, hk⟩ := ih h
      exact ⟨e, List.mem_cons_of_mem _ he, hk⟩

/-- Saving at height `H'` does not change what is reported for heights up to `H'`, and is reported for all later
ones. -/
theorem save_at {s : Snap V} {H H' : Nat} (v : V) (hu : UpTo s H) (hle : H ≤ H') (h : Nat) :
    at_ (save s v H') h = if h ≤ H' then at_ s h else some v := by
  by_cases hh : h ≤ H'
  · rw [if_pos hh]
    unfold at_ save
    simp only
    split
    next e he =>
      -- an entry is found after saving
      by_cases hk : (kvGet H' s.log).isSome
      · rw [if_pos hk] at he
        rw [he]
      · rw [if_neg hk, kvInsert_last (fun e he => le_trans (hu e he) hle) (by simpa using hk),
          List.find?_append] at he
        cases hf : s.log.find? fun e => decide (h ≤ e.1) with
        | some e' =>
          rw [hf] at he
          have he' : e' = e := by simpa using he
          rw [he']
        | none =>
          rw [hf] at he
          simp only [Option.none_or, List.find?_cons, hh, decide_true, Option.some.injEq] at he
          rw [← he]
    next hnone =>
      exfalso
      by_cases hk : (kvGet H' s.log).isSome
      · rw [if_pos hk] at hnone
        obtain ⟨e, he, hek⟩ := kvGet_mem hk
        have := List.find?_eq_none.1 hnone e he
        simp only [decide_eq_true_eq] at this
        omega
      · rw [if_neg hk, kvInsert_last (fun e he => le_trans (hu e he) hle) (by simpa using hk)] at hnone
        have := List.find?_eq_none.1 hnone (H', s.cur) (by simp)
        simp only [decide_eq_true_eq] at this
        omega
  · rw [if_neg hh]
    exact at_future (save_upTo v hu hle) (by omega)

end Snap

/-! ## Histories -/

/-- Heights never decrease along the list and start at `H`. -/
def Mono {O : Type} (ht : O → Nat) : Nat → List O → Prop
  | _, [] => True
  | H, o :: rest => H ≤ ht o ∧ Mono ht (ht o) rest

instance {O : Type} (ht : O → Nat) : ∀ H l, Decidable (Mono ht H l)
  | _, [] => isTrue trivial
  | _, o :: rest =>
    have := instDecidableMono ht (ht o) rest
    inferInstanceAs (Decidable (_ ∧ _))

theorem mono_ge {O : Type} {ht : O → Nat} {H : Nat} {l : List O} (h : Mono ht H l) : ∀ o ∈ l, H ≤ ht o := by
  induction l generalizing H with
  | nil => simp
  | cons x rest ih =>
    intro o ho
    rcases List.mem_cons.1 ho with rfl | ho
    · exact h.1
    · exact le_trans h.1 (ih h.2 o ho)

/-- A system whose steps do not change what is reported for heights up to the step's own, and report the state after
the step for later ones, reports for every height the state at its start. -/
theorem history {S O X : Type} (step : S → O → S) (ht : O → Nat) (look : S → Nat → X) (cur : S → X)
    (Inv : S → Nat → Prop)
    (hstep : ∀ s H o, Inv s H → H ≤ ht o → Inv (step s o) (ht o) ∧
      (∀ h, h ≤ ht o → look (step s o) h = look s h) ∧ (∀ h, ht o < h → look (step s o) h = cur (step s o)))
    (s : S) (H : Nat) (os : List O) (hi : Inv s H) (hm : Mono ht H os) (h : Nat)
    (h0 : H < h → look s h = cur s) :
    look (os.foldl step s) h =
      if h ≤ H then look s h else cur ((os.takeWhile fun o => decide (ht o < h)).foldl step s) := by
  induction os generalizing s H with
  | nil =>
    simp only [List.foldl_nil, List.takeWhile_nil]
    split
    · rfl
    · exact h0 (by omega)
  | cons o rest ih =>
    obtain ⟨h1, h2, h3⟩ := hstep s H o hi hm.1
    rw [List.foldl_cons, ih (step s o) (ht o) h1 hm.2 (fun hh => h3 h hh)]
    by_cases hh : h ≤ ht o
    · rw [if_pos hh, h2 h hh]
      split
      · rfl
      · rename_i hH
        rw [List.takeWhile_cons_of_neg (by simp only [decide_eq_true_eq]; omega)]
        simp only [List.foldl_nil]
        exact h0 (by omega)
    · rw [if_neg hh, if_neg (by have := hm.1; omega),
        List.takeWhile_cons_of_pos (by simp only [decide_eq_true_eq]; omega)]
      simp only [List.foldl_cons]

/-- The last value stored at a key up to `b`. -/
def kvLast {V : Type} (l : List (Nat × V)) (b : Nat) : Option V :=
  ((l.filter fun e => decide (e.1 ≤ b)).getLast?).map (·.2)

theorem kvInsert_filter {V : Type} {k b : Nat} {v : V} {l : List (Nat × V)} (h : b < k) :
    (kvInsert k v l).filter (fun e => decide (e.1 ≤ b)) = l.filter fun e => decide (e.1 ≤ b) := by
  induction l with
  | nil => simp [kvInsert, h]
  | cons x rest ih =>
    obtain ⟨k', v'⟩ := x
    unfold kvInsert
    split
    · rw [List.filter_cons_of_neg (by simp only [decide_eq_true_eq]; omega)]
    · split
      · rename_i he
        subst he
        rw [List.filter_cons_of_neg (by simp only [decide_eq_true_eq]; omega),
          List.filter_cons_of_neg (by simp only [decide_eq_true_eq]; omega)]
      · by_cases hb : k' ≤ b
        · rw [List.filter_cons_of_pos (by simpa using hb), List.filter_cons_of_pos (by simpa using hb), ih]
        · rw [List.filter_cons_of_neg (by simpa using hb), List.filter_cons_of_neg (by simpa using hb), ih]

theorem kvInsert_getLast {V : Type} {k : Nat} {v : V} {l : List (Nat × V)} (hs : KvSorted l)
    (hu : ∀ e ∈ l, e.1 ≤ k) : (kvInsert k v l).getLast? = some (k, v) := by
  induction l with
  | nil => rfl
  | cons x rest ih =>
    obtain ⟨k', v'⟩ := x
    have h1 := hu (k', v') List.mem_cons_self
    simp only at h1
    unfold kvInsert
    rw [if_neg (by omega)]
    have hs' := (List.pairwise_cons.1 hs)
    split
    · rename_i he
      subst he
      have : rest = [] := by
        rcases rest with _ | ⟨y, r⟩
        · rfl
        · have h2 := hs'.1 y List.mem_cons_self
          have h3 := hu y (List.mem_cons_of_mem _ List.mem_cons_self)
          simp only at h2
          omega
      rw [this]; rfl
    · have := ih hs'.2 (fun e he => hu e (List.mem_cons_of_mem _ he))
      rw [List.getLast?_cons, this]; rfl

/-- Storing at key `k`, not before any other key, changes the last value for `b ≥ k` only. -/
theorem kvLast_insert {V : Type} {k : Nat} {v : V} {l : List (Nat × V)} (hs : KvSorted l)
    (hu : ∀ e ∈ l, e.1 ≤ k) (b : Nat) : kvLast (kvInsert k v l) b = if k ≤ b then some v else kvLast l b := by
  unfold kvLast
  split
  · rename_i hb
    rw [List.filter_eq_self.2, kvInsert_getLast hs hu]
    · rfl
    · intro e he
      rcases mem_kvInsert he with rfl | he
      · simpa using hb
      · have := hu e he
        simp only [decide_eq_true_eq]; omega
  · rw [kvInsert_filter (by omega)]

end Verif
