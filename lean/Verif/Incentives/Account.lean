import Verif.Incentives.Pieces
import Mathlib.Algebra.BigOperators.Ring.Finset

/-!
# Incentives: accounting invariant of one external reward in one pool

`ev u` is a proof-only list: the final indexes of all incarnations of the reward that ended since user
`u` was last synced.  The contract only remembers part of it (it may be overwritten), so what it pays is
at most what the full list gives.
-/

namespace Verif.Incentives

variable {I U : Type}

/-- LP staked by `u`. -/
def amt (p : Pool I U) (u : U) : Nat := match p.users u with | none => 0 | some x => x.amount
/-- `u`'s stored index of `X`. -/
def uidx (p : Pool I U) (X : I) (u : U) : Nat :=
  match p.users u with | none => 0 | some x => (x.ext X).getD 0
/-- Current index of `X`. -/
def idx (p : Pool I U) (X : I) : Nat := match p.ext X with | none => 0 | some e => e.index
/-- Orphaned rewards of the running stream. -/
def orphAct (p : Pool I U) (X : I) : Nat := match p.ext X with | none => 0 | some e => e.orphaned
/-- Orphaned rewards about to be moved to the orphan store. -/
def remOrph (rem : Removed I) (X : I) : Nat := match rem X with | none => 0 | some x => x.2
/-- Final index about to be stored. -/
def remIdx (rem : Removed I) (X : I) : List Nat := match rem X with | none => [] | some x => [x.1]

/-- Full entitlement (atomics per staked unit) of a position. -/
def entl (uidx : Nat) (ev : List Nat) (idx : Nat) : Nat :=
  match ev with
  | [] => idx - uidx
  | h :: t => (h - uidx) + t.sum + idx

/-- The part of the entitlement that comes from ended incarnations. -/
def evSum (u : Nat) : List Nat → Nat
  | [] => 0
  | h :: t => (h - u) + t.sum

/-- No rewards to remove. -/
def noRem : Removed I := fun _ => none

theorem finishedOf_eq (p : Pool I U) (rem : Removed I) (lc : Nat) (X : I) :
    finishedOf p rem lc X =
      (p.fin.filterMap fun x => if lc < x.1 then x.2 X else none) ++ remIdx rem X := by
  unfold finishedOf remIdx
  rcases rem X with _ | ⟨i, o⟩ <;> rfl

theorem entl_end (u : Nat) (ev : List Nat) (i : Nat) : entl u (ev ++ [i]) 0 = entl u ev i := by
  cases ev with
  | nil => simp [entl]
  | cons h t => simp [entl]; omega

theorem entl_grow {u : Nat} {ev : List Nat} {i : Nat} (h : ev = [] → u ≤ i) (d : Nat) :
    entl u ev (i + d) = entl u ev i + d := by
  cases ev with
  | nil => simp [entl]; have := h rfl; omega
  | cons h t => simp [entl]; omega

/-- Everything about reward `X` that holds between calls (`rem = noRem`) and between `update_rewards`
and `save` inside a call. -/
structure Inv [Fintype U] (X : I) (p : Pool I U) (rem : Removed I) (ev : U → List Nat) (paid C : Nat) : Prop where
  asc : Ascending (p.sched X)
  next : ∀ e, p.ext X = some e → p.last < e.next
  excl : p.ext X ≠ none → rem X = none
  finAsc : Ascending p.fin
  finLe : ∀ x ∈ p.fin, x.1 ≤ p.last
  lc : ∀ u x, p.users u = some x → x.lastClaim ≤ p.last
  e0 : ∀ u x, p.users u = some x → ev u = [] → (x.ext X).getD 0 ≤ idx p X
  e1 : ∀ u x, p.users u = some x → ∀ h t, ev u = h :: t → (x.ext X).getD 0 ≤ h
  sub : ∀ u x, p.users u = some x → (finishedOf p rem x.lastClaim X).Sublist (ev u)
  total : ∑ u, amt p u = p.totalLp
  acct : ∑ u, amt p u * entl (uidx p X u) (ev u) (idx p X) + DEC * (paid + p.orph X) + orphAct p X +
    remOrph rem X ≤ C

/-! ## Payments -/

theorem mulDec_bound (a d : Nat) : DEC * mulDec a d ≤ a * d := by
  unfold mulDec; exact Nat.mul_div_le _ _

theorem payRest_le {a : Nat} : ∀ {l : List Nat} {n : Nat}, payRest a l = .ok n → DEC * n ≤ a * l.sum
  | [], n, h => by simp [payRest] at h; subst h; simp
  | f :: rest, n, h => by
    unfold payRest at h
    simp only [bind_ok_iff, u128_ok, Except.ok.injEq] at h
    obtain ⟨x, ⟨_, rfl⟩, y, hy, rfl⟩ := h
    have h1 := payRest_le hy
    have h2 := mulDec_bound a f
    rw [List.sum_cons, Nat.mul_add, Nat.mul_add]
    omega

theorem payFinished_le {a u : Nat} : ∀ {l : List Nat} {n : Nat}, payFinished a u l = .ok n →
    DEC * n ≤ a * evSum u l
  | [], n, h => by simp [payFinished] at h; subst h; simp
  | f :: rest, n, h => by
    unfold payFinished at h
    simp only [bind_ok_iff, u128_ok, csub_ok, Except.ok.injEq] at h
    obtain ⟨d, ⟨_, rfl⟩, x, ⟨_, rfl⟩, y, hy, rfl⟩ := h
    have h1 := payRest_le hy
    have h2 := mulDec_bound a (f - u)
    simp only [evSum, Nat.mul_add]
    omega

theorem sublist_entl {l ev : List Nat} (hs : l.Sublist ev) {u : Nat} (h1 : ∀ h t, ev = h :: t → u ≤ h) :
    evSum u l ≤ evSum u ev := by
  cases ev with
  | nil => rw [List.sublist_nil.1 hs]
  | cons h t =>
    cases l with
    | nil => simp [evSum]
    | cons f rest =>
      rcases List.sublist_cons_iff.1 hs with h2 | ⟨r, hr, hsub⟩
      · have := h2.sum_le_sum (fun a _ => Nat.zero_le a)
        simp only [List.sum_cons] at this
        simp only [evSum]
        omega
      · rw [List.cons.injEq] at hr
        obtain ⟨rfl, rfl⟩ := hr
        have := hsub.sum_le_sum (fun a _ => Nat.zero_le a)
        simp only [evSum]
        omega

theorem payCurrent_le {p : Pool I U} {X : I} {a u n : Nat} (h : payCurrent a u (p.ext X) = .ok n) :
    DEC * n ≤ a * idxDiff (idx p X) u := by
  unfold idx
  cases he : p.ext X with
  | none =>
    rw [he] at h
    simp only [payCurrent, Except.ok.injEq] at h
    subst h; simp
  | some e =>
    rw [he] at h
    simp only [payCurrent, u128_ok] at h
    obtain ⟨_, rfl⟩ := h
    exact mulDec_bound _ _

theorem idxDiff_le (i u : Nat) : idxDiff i u ≤ i := by unfold idxDiff; split <;> omega

/-- What the contract pays never exceeds the full entitlement. -/
theorem payExt_le [Fintype U] {X : I} {p : Pool I U} {rem : Removed I} {ev : U → List Nat} {paid C : Nat}
    (hI : Inv X p rem ev paid C) {v : U} {x : User I} (hx : p.users v = some x) {n : Nat}
    (h : payExt p rem x X = .ok n) :
    DEC * n ≤ amt p v * entl (uidx p X v) (ev v) (idx p X) := by
  unfold payExt at h
  simp only [bind_ok_iff, Except.ok.injEq] at h
  obtain ⟨a, ha, b, hb, rfl⟩ := h
  have hs := hI.sub v x hx
  have h1 := hI.e1 v x hx
  have h0 := hI.e0 v x hx
  have hA := payFinished_le ha
  have hB := payCurrent_le hb
  have hS := sublist_entl hs h1
  have hamt : amt p v = x.amount := by unfold amt; rw [hx]
  have hu : uidx p X v = (x.ext X).getD 0 := by unfold uidx; rw [hx]
  rw [hamt, hu, Nat.mul_add]
  have key : evSum ((x.ext X).getD 0) (finishedOf p rem x.lastClaim X) +
      idxDiff (idx p X) (if finishedOf p rem x.lastClaim X = [] then (x.ext X).getD 0 else 0) ≤
      entl ((x.ext X).getD 0) (ev v) (idx p X) := by
    generalize (x.ext X).getD 0 = w at *
    generalize finishedOf p rem x.lastClaim X = fs at *
    generalize ev v = evv at *
    cases hev : evv with
    | nil =>
      subst hev
      have hfs := List.sublist_nil.1 hs
      subst hfs
      have := h0 rfl
      simp only [entl, evSum, if_true, Nat.zero_add]
      unfold idxDiff; split <;> omega
    | cons h t =>
      subst hev
      simp only [entl]
      have := idxDiff_le (idx p X) (if fs = [] then w else 0)
      change evSum w fs ≤ (h - w) + t.sum at hS
      omega
  have := Nat.mul_le_mul_left x.amount key
  rw [Nat.mul_add] at this
  omega

/-! ## update_rewards -/

theorem spread_bound {α : Type} [Fintype α] {a : α → Nat} {f : α → Nat → Nat} {T i o c : Nat}
    (hT : ∑ u, a u = T) (hf : ∀ u d, f u (i + d) = f u i + d) :
    ∑ u, a u * f u (spread T i o c).1 + (spread T i o c).2 ≤ ∑ u, a u * f u i + o + c := by
  unfold spread
  by_cases h0 : T = 0
  · rw [if_pos h0]
    simp only
    omega
  · rw [if_neg h0]
    simp only [Nat.add_zero]
    have : ∑ u, a u * f u (i + (o + c) / T) = ∑ u, a u * f u i + T * ((o + c) / T) := by
      rw [← hT, Finset.sum_mul, ← Finset.sum_add_distrib]
      apply Finset.sum_congr rfl
      intro u _
      rw [hf, Nat.mul_add]
    rw [this]
    have := Nat.mul_div_le (o + c) T
    omega

/-- What `update_rewards` does to reward `X`. -/
theorem update_cases {p : Pool I U} {now : Nat} (X : I) (hlast : p.last < now) (hasc : Ascending (p.sched X))
    (hnext : ∀ e, p.ext X = some e → p.last < e.next) :
    (p.ext X = none ∧ (update now p).1.ext X = none ∧ (update now p).2 X = none) ∨
    ∃ e, p.ext X = some e ∧
      let g := spread p.totalLp e.index e.orphaned (∑ t ∈ Finset.Ioc p.last now, rateOf p X t)
      ((∃ r n, (update now p).1.ext X = some ⟨r, n, g.1, g.2⟩ ∧ (update now p).2 X = none ∧ now < n ∧
          (n = e.next ∨ ∃ r, (n, r) ∈ p.sched X) ∧
          ((∀ x ∈ p.sched X, x.1 ≤ p.last ∨ e.next ≤ x.1) → ∀ x ∈ p.sched X, x.1 ≤ now ∨ n ≤ x.1) ∧
          ∀ t, now < t → (if t ≤ n then r else pieceRate (p.sched X) t) = rateOf p X t) ∨
       ((update now p).1.ext X = none ∧ (update now p).2 X = some g ∧ (∀ t, now < t → rateOf p X t = 0) ∧
          e.next ≤ now ∧ ∀ x ∈ p.sched X, e.next < x.1 → x.1 ≤ now)) := by
  unfold update
  rw [if_neg (by omega)]
  cases he : p.ext X with
  | none => left; simp [he]
  | some e =>
    right
    refine ⟨e, rfl, ?_⟩
    have hr : ∀ t, rateOf p X t = rateAt e (p.sched X) t := by
      intro t; unfold rateOf; rw [he]
    simp only [hr, he, Option.bind_some]
    have hn := hnext e he
    rcases updExt_spec (now := now) (last := p.last) (total := p.totalLp) (e := e) hasc
      (Nat.le_of_lt hlast) (Nat.le_of_lt hn) with ⟨r, n, h1, h2, h3, h4, h5⟩ | ⟨h1, h2, h3, h4⟩
    · left
      exact ⟨r, n, by rw [h1], by rw [h1], h2, h3, h4, h5⟩
    · right
      exact ⟨by rw [h1], by rw [h1], h2, h3, h4⟩

/-- New rates announced after an update are the old ones. -/
theorem rateOf_update {p : Pool I U} {now : Nat} (X : I) (hasc : Ascending (p.sched X))
    (hnext : ∀ e, p.ext X = some e → p.last < e.next) {t : Nat} (ht : now < t) :
    rateOf (update now p).1 X t = rateOf p X t := by
  by_cases hl : now ≤ p.last
  · unfold update; rw [if_pos hl]
  · have hs : (update now p).1.sched = p.sched := by unfold update; rw [if_neg hl]
    rcases update_cases (now := now) X (by omega) hasc hnext with ⟨h1, h2, _⟩ | ⟨e, he, ⟨r, n, h1, _, _, _, _, h5⟩ | ⟨h1, _, h3, _⟩⟩
    · unfold rateOf; rw [h1, h2]
    · rw [← h5 t ht]
      show (match (update now p).1.ext X with | none => 0 | some e => rateAt e ((update now p).1.sched X) t) = _
      rw [h1, hs]
      simp only [rateAt]
    · rw [h3 t ht]; unfold rateOf; rw [h1]

theorem update_fields (now : Nat) (p : Pool I U) :
    (update now p).1.users = p.users ∧ (update now p).1.totalLp = p.totalLp ∧
    (update now p).1.sched = p.sched ∧ (update now p).1.fin = p.fin ∧ (update now p).1.orph = p.orph ∧
    (update now p).1.last = max p.last now := by
  unfold update
  split
  · simp; omega
  · simp; omega

theorem update_inv [Fintype U] {X : I} {p : Pool I U} {ev : U → List Nat} {paid C now : Nat}
    (hI : Inv X p noRem ev paid C) (hnow : p.last ≤ now) :
    Inv X (update now p).1 (update now p).2 (fun u => ev u ++ remIdx (update now p).2 X) paid
      (C + ∑ t ∈ Finset.Ioc p.last now, rateOf p X t) := by
  by_cases hl : now ≤ p.last
  · have he : now = p.last := by omega
    subst he
    have : update p.last p = (p, noRem) := by unfold update; rw [if_pos (Nat.le_refl _)]; rfl
    rw [this]
    have h2 : (fun u => ev u ++ remIdx noRem X) = ev := by
      funext u; simp [remIdx, noRem]
    simp only [h2, Finset.Ioc_self, Finset.sum_empty, Nat.add_zero]
    exact hI
  · obtain ⟨hu, hT, hs, hf, ho, hla⟩ := update_fields now p
    have hla' : (update now p).1.last = now := by rw [hla]; omega
    have hamt : ∀ u, amt (update now p).1 u = amt p u := by intro u; unfold amt; rw [hu]
    have huid : ∀ u, uidx (update now p).1 X u = uidx p X u := by intro u; unfold uidx; rw [hu]
    have hgrow : ∀ u, p.users u ≠ none → ev u = [] → uidx p X u ≤ idx p X := by
      intro u hne h0
      cases hx : p.users u with
      | none => exact absurd hx hne
      | some x =>
        have := hI.e0 u x hx h0
        unfold uidx; rw [hx]; exact this
    -- entitlements weighted by amounts
    have hsum : ∀ (o c : Nat), 
        ∑ u, amt p u * entl (uidx p X u) (ev u) (spread p.totalLp (idx p X) o c).1 +
          (spread p.totalLp (idx p X) o c).2 ≤
        ∑ u, amt p u * entl (uidx p X u) (ev u) (idx p X) + o + c := by
      intro o c
      have h := spread_bound (a := fun u => amt p u)
        (f := fun u i => if p.users u = none then i else entl (uidx p X u) (ev u) i)
        (T := p.totalLp) (i := idx p X) (o := o) (c := c) hI.total (by
          intro u d
          by_cases hn : p.users u = none
          · simp [hn]
          · simp only [hn, if_false]
            exact entl_grow (hgrow u hn) d)
      have hz : ∀ i, ∑ u, amt p u * (if p.users u = none then i else entl (uidx p X u) (ev u) i) =
          ∑ u, amt p u * entl (uidx p X u) (ev u) i := by
        intro i
        apply Finset.sum_congr rfl
        intro u _
        by_cases hn : p.users u = none
        · have : amt p u = 0 := by unfold amt; rw [hn]
          simp [this]
        · simp [hn]
      rw [hz, hz] at h
      exact h
    have hspread_ge : ∀ (i o c : Nat), i ≤ (spread p.totalLp i o c).1 := by
      intro i o c; unfold spread; split <;> simp
    rcases update_cases (now := now) X (by omega) hI.asc hI.next with
      ⟨h1, h2, h3⟩ | ⟨e, he, ⟨r, n, h1, h2, h3, h4, h5, h6⟩ | ⟨h1, h2, h3, h4, h5⟩⟩
    · -- not running
      have hri : remIdx (update now p).2 X = [] := by unfold remIdx; rw [h3]
      have hidx : idx (update now p).1 X = idx p X := by unfold idx; rw [h1, h2]
      constructor
      · rw [hs]; exact hI.asc
      · intro e he; rw [h2] at he; exact absurd he (by simp)
      · intro h; exact absurd h2 h
      · rw [hf]; exact hI.finAsc
      · intro x hx; rw [hf] at hx; have := hI.finLe x hx; rw [hla']; omega
      · intro u x hx; rw [hu] at hx; have := hI.lc u x hx; rw [hla']; omega
      · intro u x hx; rw [hu] at hx; rw [hri, List.append_nil, hidx]; exact hI.e0 u x hx
      · intro u x hx; rw [hu] at hx; rw [hri, List.append_nil]; exact hI.e1 u x hx
      · intro u x hx; rw [hu] at hx
        have := hI.sub u x hx
        rw [finishedOf_eq] at this ⊢
        rw [hri, hf, List.append_nil, List.append_nil]
        simpa [remIdx, noRem] using this
      · rw [hT]; simp only [hamt]; exact hI.total
      · have := hI.acct
        have hoa : orphAct (update now p).1 X = orphAct p X := by unfold orphAct; rw [h1, h2]
        have hro : remOrph (update now p).2 X = 0 := by unfold remOrph; rw [h3]
        simp only [hamt, huid, hidx, ho, hoa, hri, List.append_nil, hro]
        omega
    · -- keeps running
      have hri : remIdx (update now p).2 X = [] := by unfold remIdx; rw [h2]
      have hie : idx p X = e.index := by unfold idx; rw [he]
      have hoe : orphAct p X = e.orphaned := by unfold orphAct; rw [he]
      have hidx : idx (update now p).1 X = (spread p.totalLp e.index e.orphaned
        (∑ t ∈ Finset.Ioc p.last now, rateOf p X t)).1 := by
          show (match (update now p).1.ext X with | none => 0 | some e => e.index) = _
          rw [h1]
      have hoa : orphAct (update now p).1 X = (spread p.totalLp e.index e.orphaned
        (∑ t ∈ Finset.Ioc p.last now, rateOf p X t)).2 := by
          show (match (update now p).1.ext X with | none => 0 | some e => e.orphaned) = _
          rw [h1]
      have hge : idx p X ≤ idx (update now p).1 X := by rw [hidx, hie]; exact hspread_ge _ _ _
      constructor
      · rw [hs]; exact hI.asc
      · intro e' he'; rw [h1] at he'; rw [hla', ← Option.some.inj he']; exact h3
      · intro _; exact h2
      · rw [hf]; exact hI.finAsc
      · intro x hx; rw [hf] at hx; have := hI.finLe x hx; rw [hla']; omega
      · intro u x hx; rw [hu] at hx; have := hI.lc u x hx; rw [hla']; omega
      · intro u x hx h0; rw [hu] at hx; rw [hri, List.append_nil] at h0
        exact Nat.le_trans (hI.e0 u x hx h0) hge
      · intro u x hx; rw [hu] at hx; rw [hri, List.append_nil]; exact hI.e1 u x hx
      · intro u x hx; rw [hu] at hx
        have := hI.sub u x hx
        rw [finishedOf_eq] at this ⊢
        rw [hri, hf, List.append_nil, List.append_nil]
        simpa [remIdx, noRem] using this
      · rw [hT]; simp only [hamt]; exact hI.total
      · have := hI.acct
        have hro : remOrph (update now p).2 X = 0 := by unfold remOrph; rw [h2]
        have hro0 : remOrph (noRem : Removed I) X = 0 := rfl
        have hsp := hsum e.orphaned (∑ t ∈ Finset.Ioc p.last now, rateOf p X t)
        rw [hie] at hsp
        simp only [hamt, huid, hidx, ho, hoa, hri, List.append_nil, hro]
        rw [hie, hoe, hro0] at this
        omega
    · -- ends
      have hri : remIdx (update now p).2 X = [(spread p.totalLp e.index e.orphaned
        (∑ t ∈ Finset.Ioc p.last now, rateOf p X t)).1] := by
          unfold remIdx; rw [h2]
      have hie : idx p X = e.index := by unfold idx; rw [he]
      have hoe : orphAct p X = e.orphaned := by unfold orphAct; rw [he]
      have hidx : idx (update now p).1 X = 0 := by unfold idx; rw [h1]
      have hoa : orphAct (update now p).1 X = 0 := by unfold orphAct; rw [h1]
      have hro : remOrph (update now p).2 X = (spread p.totalLp e.index e.orphaned
        (∑ t ∈ Finset.Ioc p.last now, rateOf p X t)).2 := by unfold remOrph; rw [h2]
      have hge := hspread_ge e.index e.orphaned (∑ t ∈ Finset.Ioc p.last now, rateOf p X t)
      constructor
      · rw [hs]; exact hI.asc
      · intro e' he'; rw [h1] at he'; exact absurd he' (by simp)
      · intro h; exact absurd h1 h
      · rw [hf]; exact hI.finAsc
      · intro x hx; rw [hf] at hx; have := hI.finLe x hx; rw [hla']; omega
      · intro u x hx; rw [hu] at hx; have := hI.lc u x hx; rw [hla']; omega
      · intro u x hx h0; rw [hri] at h0; simp at h0
      · intro u x hx h t hev; rw [hu] at hx; rw [hri] at hev
        cases hevu : ev u with
        | nil =>
          rw [hevu] at hev
          simp only [List.nil_append, List.cons.injEq] at hev
          have := hI.e0 u x hx hevu
          rw [hie] at this
          omega
        | cons a b =>
          rw [hevu] at hev
          simp only [List.cons_append, List.cons.injEq] at hev
          rw [← hev.1]
          exact hI.e1 u x hx a b hevu
      · intro u x hx; rw [hu] at hx
        have := hI.sub u x hx
        rw [finishedOf_eq] at this ⊢
        rw [hf]
        simp only [remIdx, noRem, List.append_nil] at this
        exact this.append (List.Sublist.refl _)
      · rw [hT]; simp only [hamt]; exact hI.total
      · have := hI.acct
        have hro0 : remOrph (noRem : Removed I) X = 0 := rfl
        have hsp := hsum e.orphaned (∑ t ∈ Finset.Ioc p.last now, rateOf p X t)
        rw [hie] at hsp
        simp only [hamt, huid, hidx, ho, hoa, hri, hro, entl_end]
        rw [hie, hoe, hro0] at this
        omega

/-! ## save -/

theorem upsert_last {β : Type} {k : Nat} {v : β} : ∀ {l : List (Nat × β)}, Ascending l →
    (∀ x ∈ l, x.1 ≤ k) → upsert k v l = l.filter (fun x => x.1 < k) ++ [(k, v)]
  | [], _, _ => by simp [upsert]
  | (k', v') :: r, h, hle => by
    have h1 := hle (k', v') (by simp)
    have hlt := h.head_lt
    simp only at h1 hlt
    unfold upsert
    rw [if_neg (by omega)]
    by_cases hk : k = k'
    · subst hk
      have hr : r = [] := by
        cases r with
        | nil => rfl
        | cons y t =>
          have := hlt y (by simp)
          have := hle y (by simp)
          omega
      subst hr
      simp
    · rw [if_neg hk, upsert_last h.tail (fun x hx => hle x (List.mem_cons_of_mem _ hx)),
        List.filter_cons_of_pos (by simp; omega)]
      rfl

theorem savedIdx_sub (rem : Removed I) (X : I) : (savedIdx rem X).toList.Sublist (remIdx rem X) := by
  unfold savedIdx remIdx
  rcases rem X with _ | ⟨i, o⟩
  · simp
  · simp only
    split <;> simp

theorem filterMap_single {α β : Type} (f : α → Option β) (a : α) : [a].filterMap f = (f a).toList := by
  cases h : f a <;> simp [h]

theorem finishedOf_save [Fintype I] {p : Pool I U} {rem : Removed I} (hasc : Ascending p.fin)
    (hle : ∀ x ∈ p.fin, x.1 ≤ p.last) (lc : Nat) (X : I) :
    (finishedOf (save p rem) noRem lc X).Sublist (finishedOf p rem lc X) := by
  rw [finishedOf_eq, finishedOf_eq]
  have h0 : remIdx (noRem : Removed I) X = [] := rfl
  rw [h0, List.append_nil]
  unfold save
  simp only
  split
  · rw [upsert_last hasc hle, List.filterMap_append, filterMap_single]
    apply List.Sublist.append
    · exact List.Sublist.filterMap _ List.filter_sublist
    · split
      · exact savedIdx_sub rem X
      · simp
  · exact List.sublist_append_left _ _

theorem save_fields [Fintype I] (p : Pool I U) (rem : Removed I) :
    (save p rem).users = p.users ∧ (save p rem).totalLp = p.totalLp ∧ (save p rem).sched = p.sched ∧
    (save p rem).ext = p.ext ∧ (save p rem).last = p.last ∧ (save p rem).int = p.int := by
  unfold save; simp

theorem save_fin [Fintype I] {p : Pool I U} {rem : Removed I} (hasc : Ascending p.fin)
    (hle : ∀ x ∈ p.fin, x.1 ≤ p.last) :
    Ascending (save p rem).fin ∧ ∀ x ∈ (save p rem).fin, x.1 ≤ p.last := by
  unfold save
  simp only
  split
  · refine ⟨hasc.upsert, ?_⟩
    intro x hx
    rcases (mem_upsert hasc).1 hx with rfl | ⟨hx, _⟩
    · exact Nat.le_refl _
    · exact hle x hx
  · exact ⟨hasc, hle⟩

theorem save_inv [Fintype U] [Fintype I] {X : I} {p : Pool I U} {rem : Removed I} {ev : U → List Nat}
    {paid C : Nat} (hI : Inv X p rem ev paid C) : Inv X (save p rem) noRem ev paid C := by
  obtain ⟨hu, hT, hs, he, hla, _⟩ := save_fields p rem
  obtain ⟨hf1, hf2⟩ := save_fin (rem := rem) hI.finAsc hI.finLe
  have hamt : ∀ u, amt (save p rem) u = amt p u := by intro u; unfold amt; rw [hu]
  have huid : ∀ u, uidx (save p rem) X u = uidx p X u := by intro u; unfold uidx; rw [hu]
  have hidx : idx (save p rem) X = idx p X := by unfold idx; rw [he]
  have hoa : orphAct (save p rem) X = orphAct p X := by unfold orphAct; rw [he]
  constructor
  · rw [hs]; exact hI.asc
  · intro e h; rw [he] at h; rw [hla]; exact hI.next e h
  · intro _; rfl
  · exact hf1
  · rw [hla]; exact hf2
  · rw [hu, hla]; exact hI.lc
  · rw [hu, hidx]; exact hI.e0
  · rw [hu]; exact hI.e1
  · intro u x hx; rw [hu] at hx
    exact (finishedOf_save hI.finAsc hI.finLe _ X).trans (hI.sub u x hx)
  · rw [hT]; simp only [hamt]; exact hI.total
  · have := hI.acct
    have ho : DEC * ((save p rem).orph X) ≤ DEC * p.orph X + remOrph rem X := by
      unfold save remOrph
      simp only
      rcases rem X with _ | ⟨i, o⟩
      · simp
      · simp only [Nat.mul_add]
        have := Nat.mul_div_le o DEC
        omega
    have hr0 : remOrph (noRem : Removed I) X = 0 := rfl
    simp only [hamt, huid, hidx, hoa, hr0]
    rw [Nat.mul_add] at this ⊢
    omega

/-! ## Changing one position -/

theorem sum_change {α : Type} [Fintype α] {f g : α → Nat} {u : α} (h : ∀ v, v ≠ u → g v = f v) :
    ∑ v, g v + f u = ∑ v, f v + g u := by
  classical
  rw [← Finset.add_sum_erase _ g (Finset.mem_univ u), ← Finset.add_sum_erase _ f (Finset.mem_univ u)]
  have : ∑ x ∈ Finset.univ.erase u, g x = ∑ x ∈ Finset.univ.erase u, f x :=
    Finset.sum_congr rfl (fun x hx => h x (Finset.ne_of_mem_erase hx))
  omega

/-- Replacing `u`'s position by a freshly synced one (or removing it), after paying `n`. -/
theorem position_inv [Fintype U] [DecidableEq U] {X : I} {p q : Pool I U} {ev : U → List Nat}
    {paid C n : Nat} {u : U} (hI : Inv X p noRem ev paid C)
    (hext : q.ext = p.ext) (hsch : q.sched = p.sched) (hfin : q.fin = p.fin) (horph : q.orph = p.orph)
    (hlast : q.last = p.last) (hother : ∀ v, v ≠ u → q.users v = p.users v)
    (hme : q.users u = none ∨ ∃ a, q.users u = some (sync p ⟨a, fun _ => none, none, 0⟩))
    (htot : q.totalLp + amt p u = p.totalLp + amt q u)
    (hpay : DEC * n ≤ amt p u * entl (uidx p X u) (ev u) (idx p X)) :
    Inv X q noRem (Function.update ev u []) (paid + n) C := by
  have hidx : idx q X = idx p X := by unfold idx; rw [hext]
  have hoa : orphAct q X = orphAct p X := by unfold orphAct; rw [hext]
  have hf : ∀ lc, finishedOf q noRem lc X = finishedOf p noRem lc X := by
    intro lc; rw [finishedOf_eq, finishedOf_eq, hfin]
  have hamt : ∀ v, v ≠ u → amt q v = amt p v := by intro v hv; unfold amt; rw [hother v hv]
  have huid : ∀ v, v ≠ u → uidx q X v = uidx p X v := by intro v hv; unfold uidx; rw [hother v hv]
  have hxext : ∀ x, q.users u = some x → x.lastClaim = p.last ∧ (x.ext X).getD 0 = idx p X := by
    intro x hx
    rcases hme with h | ⟨a, h⟩
    · rw [h] at hx; exact absurd hx (by simp)
    · rw [h] at hx
      have := Option.some.inj hx
      subst this
      refine ⟨rfl, ?_⟩
      simp only [sync, idx]
      cases p.ext X <;> simp
  constructor
  · rw [hsch]; exact hI.asc
  · rw [hext, hlast]; exact hI.next
  · intro _; rfl
  · rw [hfin]; exact hI.finAsc
  · rw [hfin, hlast]; exact hI.finLe
  · intro v x hx
    by_cases hv : v = u
    · subst hv; rw [hlast, (hxext x hx).1]
    · rw [hother v hv] at hx; rw [hlast]; exact hI.lc v x hx
  · intro v x hx h0
    by_cases hv : v = u
    · subst hv; rw [hidx, (hxext x hx).2]
    · rw [hother v hv] at hx
      rw [Function.update_of_ne hv] at h0
      rw [hidx]; exact hI.e0 v x hx h0
  · intro v x hx h t hev
    by_cases hv : v = u
    · subst hv; rw [Function.update_self] at hev; exact absurd hev (by simp)
    · rw [hother v hv] at hx
      rw [Function.update_of_ne hv] at hev
      exact hI.e1 v x hx h t hev
  · intro v x hx
    by_cases hv : v = u
    · subst hv
      rw [Function.update_self, hf, (hxext x hx).1, finishedOf_eq]
      have : p.fin.filterMap (fun x => if p.last < x.1 then x.2 X else none) = [] := by
        rw [List.filterMap_eq_nil_iff]
        intro y hy
        have := hI.finLe y hy
        rw [if_neg (by omega)]
      rw [this]
      exact List.Sublist.refl _
    · rw [hother v hv] at hx
      rw [Function.update_of_ne hv, hf]
      exact hI.sub v x hx
  · have := sum_change (f := amt p) (g := amt q) hamt
    have := hI.total
    omega
  · have hself : amt q u * entl (uidx q X u) (Function.update ev u [] u) (idx p X) = 0 := by
      rw [Function.update_self]
      rcases hme with h | ⟨a, h⟩
      · have : amt q u = 0 := by unfold amt; rw [h]
        rw [this, Nat.zero_mul]
      · have : uidx q X u = idx p X := by
          have h2 := (hxext _ h).2
          unfold uidx; rw [h]; exact h2
        rw [this]; simp [entl]
    have := sum_change (u := u) (f := fun v => amt p v * entl (uidx p X v) (ev v) (idx p X))
      (g := fun v => amt q v * entl (uidx q X v) (Function.update ev u [] v) (idx p X)) (by
        intro v hv
        simp only [hamt v hv, huid v hv, Function.update_of_ne hv])
    simp only [hself] at this
    have hacct := hI.acct
    rw [hidx, horph, hoa]
    have hr0 : remOrph (noRem : Removed I) X = 0 := rfl
    rw [hr0] at hacct ⊢
    rw [Nat.mul_add] at hacct ⊢
    rw [Nat.mul_add]
    omega

end Verif.Incentives
