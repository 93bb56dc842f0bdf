import Verif.Observation.Lemmas
import Mathlib.Data.Rat.Cast.Order
import Mathlib.Algebra.Order.Field.Basic
import Mathlib.Tactic.FieldSimp

/-!
# C20, C21: looking up observations
-/

namespace Verif.Observation
open Verif.Buffer

theorem readOr {m : Mgr Obs} {st : Store Obs} {i : Nat} {o : Obs} {e : Err}
    (h : readSingle m st i = .ok (some o)) :
    (do let x ← readSingle m st i; orErr x e) = .ok o := by
  rw [h]; rfl

theorem lookupRange_spec {m : Mgr Obs} {st : Store Obs} {base : Nat} {w : List Obs} {target fuel : Nat}
    (hw : Window m st base w) (hs : w.Pairwise (fun a b => a.ts < b.ts))
    (hu : 2 * (base + w.length) ≤ U32) (hf : w.length ≤ fuel) {o n : Obs}
    (ho : w[0]? = some o) (hn : w[w.length - 1]? = some n) :
    (n.ts ≤ target →
      lookupRange m st target base (base + (w.length - 1)) fuel = .ok (target, n.sma)) ∧
    (target < o.ts → fails (lookupRange m st target base (base + (w.length - 1)) fuel) = true) ∧
    (o.ts ≤ target → target < n.ts → ∃ j l r, w[j]? = some l ∧ w[j + 1]? = some r ∧ l.ts ≤ target ∧
      target ≤ r.ts ∧ lookupRange m st target base (base + (w.length - 1)) fuel =
        (do let p ← interpolate l r target; .ok (target, p))) := by
  have hlen : 0 < w.length := (List.getElem?_eq_some_iff.1 ho).1
  have rn := hw (w.length - 1) (by omega)
  have ro := hw 0 hlen
  rw [hn] at rn
  rw [ho, Nat.add_zero] at ro
  have hon : o.ts ≤ n.ts := sorted_le hs (Nat.zero_le _) ho hn
  have e : lookupRange m st target base (base + (w.length - 1)) fuel =
      if target ≥ n.ts then .ok (target, n.sma)
      else if target = o.ts then .ok (target, o.sma)
      else if target < o.ts then .error (.invalid "Requested observation is too old")
      else (do
        let lr ← binarySearch m st target fuel base (base + (w.length - 1))
        let p ← interpolate lr.1 lr.2 target
        .ok (target, p)) := by
    unfold lookupRange
    rw [rn, ro]
    rfl
  rw [e]
  refine ⟨fun h => by rw [if_pos h], fun h => ?_, fun h1 h2 => ?_⟩
  · rw [if_neg (by omega), if_neg (by omega), if_pos h]; rfl
  · rw [if_neg (by omega)]
    obtain ⟨k, lk, rk, hk, hk1, hle, hlt⟩ := exists_bracket ho hn h1 h2
    by_cases heq : target = o.ts
    · rw [if_pos heq]
      have hk0 : k = 0 := by
        by_contra hc
        have := sorted_lt hs (Nat.pos_of_ne_zero hc) ho hk
        omega
      subst hk0
      rw [ho] at hk
      simp only [Option.some.injEq] at hk
      subst hk
      refine ⟨0, o, rk, ho, hk1, hle, hlt.le, ?_⟩
      unfold interpolate
      rw [if_pos heq.symm]
      rfl
    · rw [if_neg heq, if_neg (by omega)]
      have hkl : k + 1 < w.length := (List.getElem?_eq_some_iff.1 hk1).1
      obtain ⟨l, r, hb, h3, h4, j, h5, h6⟩ := binarySearch_spec hw hs hu hk hk1 hle hlt fuel 0
        (w.length - 1) (Nat.zero_le _) (by omega) (by omega) (by omega)
      rw [Nat.add_zero] at hb
      refine ⟨j, l, r, h5, h6, h3, h4, ?_⟩
      rw [hb]
      rfl

/-- In a state satisfying the invariant with at least one observation, the query is a lookup in the
list of the last `cap` observations. -/
theorem query_eq {cap : Nat} (hcap : 2 ≤ cap) (hc : 4 * cap ≤ U32) {s : State} (hi : Inv cap s)
    (hne : s.log ≠ []) {now ago : Nat} (hago : ago ≤ now) (fuel : Nat) :
    ∃ m base, Window m s.store base (lastN cap s.log) ∧ 2 * (base + (lastN cap s.log).length) ≤ U32 ∧
      queryObservation s now ago fuel =
        lookupRange m s.store (now - ago) base (base + ((lastN cap s.log).length - 1)) fuel := by
  obtain ⟨m, hnew, rm, hpre⟩ := repS_new hi.1
  have hr : Rep cap s.log m.head s.store.arr := by simpa [hpre] using rm.2.2
  have hmc := rm.1
  have hlen : 0 < s.log.length := List.length_pos_iff.2 hne
  have hh : m.head < cap := by rw [hr.head_eq]; exact Nat.mod_lt _ (by omega)
  have hL : (lastN cap s.log).length = min cap s.log.length := by
    simp [lastN]; omega
  have hq : queryObservation s now ago fuel =
      if (s.store.arr (m.head % cap)).isSome then
        lookupRange m s.store (now - ago) m.head (m.head + cap - 1) fuel
      else if m.head > 0 then
        lookupRange m s.store (now - ago) 0 ((m.head + cap - 1) % cap) fuel
      else match s.pre with
        | some p =>
          if p.ts ≤ now - ago then do
            let price ← decFromRatio p.base p.quote
            .ok (now - ago, price)
          else .error (.invalid "Requested observation is too old")
        | none => .error (.invalid "Buffer is empty") := by
    have c1 : csub now ago = .ok (now - ago) := by rw [csub_ok]; exact ⟨hago, rfl⟩
    have c2 : u32 (m.head + cap) = .ok (m.head + cap) := by rw [u32_ok]; exact ⟨by omega, rfl⟩
    have c3 : csub (m.head + cap) 1 = .ok (m.head + cap - 1) := by
      rw [csub_ok]; exact ⟨by omega, rfl⟩
    have c4 : Buffer.exists m s.store m.head = .ok (s.store.arr (m.head % cap)).isSome := by
      unfold Buffer.exists
      rw [hmc, if_neg (by omega)]
    unfold queryObservation
    rw [hnew, ok_bind, c1, ok_bind, hmc, c2, ok_bind, c3, ok_bind, c4, ok_bind]
    rfl
  rw [hq]
  rcases Nat.lt_or_ge s.log.length cap with hlt | hge
  · -- not full
    have hhd : m.head = s.log.length := by rw [hr.head_eq]; exact Nat.mod_eq_of_lt hlt
    have h0 : s.store.arr (m.head % cap) = none := by
      rw [Nat.mod_eq_of_lt hh]; exact hr.unwritten _ (by omega) hh
    have hw : lastN cap s.log = s.log := by
      unfold lastN
      have : s.log.length - cap = 0 := by omega
      rw [this, List.drop_zero]
    refine ⟨m, 0, ?_, ?_, ?_⟩
    · rw [hw]
      intro i hi
      unfold readSingle
      rw [hmc, if_neg (by omega), Nat.zero_add, hr.val i hi (by omega)]
    · rw [hw]; omega
    · rw [h0, hw]
      simp only [Option.isSome_none, Bool.false_eq_true, if_false]
      rw [if_pos (by omega)]
      congr 1
      have : m.head + cap - 1 = (s.log.length - 1) + cap := by omega
      rw [this, Nat.add_mod_right, Nat.mod_eq_of_lt (by omega), Nat.zero_add]
  · have h0 := rep_slot hr (i := 0) (by omega)
    rw [Nat.add_zero, if_pos (by omega)] at h0
    have hsome : (s.store.arr (m.head % cap)).isSome := by
      rw [h0, List.getElem?_eq_getElem (by omega)]; rfl
    refine ⟨m, m.head, ?_, ?_, ?_⟩
    · intro i hi'
      unfold readSingle
      rw [hL] at hi'
      rw [hmc, if_neg (by omega), rep_slot hr (by omega), if_pos (by omega)]
      unfold lastN
      rw [List.getElem?_drop]
      congr 2
      omega
    · rw [hL]; omega
    · rw [if_pos hsome, hL]
      congr 1
      omega

theorem lastN_sorted {cap : Nat} {xs : List Obs} (h : Hist cap xs) :
    (lastN cap xs).Pairwise (fun a b => a.ts < b.ts) :=
  (hist_sorted h).sublist (List.drop_sublist _ _)

theorem lastN_ne {cap : Nat} (hcap : 0 < cap) {xs : List Obs} (h : xs ≠ []) : lastN cap xs ≠ [] := by
  unfold lastN
  have := List.length_pos_iff.2 h
  intro hc
  rw [List.drop_eq_nil_iff] at hc
  omega

/-- **C20.**  In every state reachable by any history of swaps (buffer capacity `cap`; 3000 in the code),
for every time `target = now - ago`, with `w` the last `cap` committed observations (oldest first) and any
iteration budget of at least `cap` for the search loop:
* a stored observation at exactly `target` is returned as it is;
* from the newest observation on, its average is returned;
* between the oldest and the newest the query succeeds;
* before the oldest it fails;
* `w` is sorted by strictly increasing time, so that exact hits are unique. -/
theorem C20_observation_lookup (cap : Nat) (hcap : 2 ≤ cap) (hc : 4 * cap ≤ U32) (ts : List Trade)
    (now ago : Nat) (hago : ago ≤ now) (hnow : now < 2 ^ 64) (fuel : Nat) (hf : cap ≤ fuel) :
    let s := run (initial cap) ts
    let w := lastN cap s.log
    let target := now - ago
    w.Pairwise (fun a b => a.ts < b.ts) ∧
    (∀ o ∈ w, o.ts = target → queryObservation s now ago fuel = .ok (target, o.sma)) ∧
    (∀ n, w.getLast? = some n → n.ts ≤ target →
      queryObservation s now ago fuel = .ok (target, n.sma)) ∧
    (∀ o n, w.head? = some o → w.getLast? = some n → o.ts ≤ target →
      ∃ p, queryObservation s now ago fuel = .ok (target, p)) ∧
    (∀ o, w.head? = some o → target < o.ts → fails (queryObservation s now ago fuel) = true) := by
  intro s w target
  have hi : Inv cap s := inv_run hcap (by omega) ts (inv_initial (by omega))
  have hs : w.Pairwise (fun a b => a.ts < b.ts) := lastN_sorted hi.2
  refine ⟨hs, ?_⟩
  by_cases hne : s.log = []
  · have hw : w = [] := by simp [w, hne, lastN]
    rw [hw]
    refine ⟨by simp, by simp, by simp, by simp⟩
  obtain ⟨m, base, hwin, hu, hq⟩ := query_eq hcap hc hi hne hago fuel
  have hwne : w ≠ [] := lastN_ne (by omega) hne
  have hwlen : 0 < w.length := List.length_pos_iff.2 hwne
  have hwle : w.length ≤ cap := by simp [w, lastN]; omega
  obtain ⟨o, ho⟩ : ∃ o, w[0]? = some o := ⟨_, List.getElem?_eq_getElem hwlen⟩
  obtain ⟨n, hn⟩ : ∃ n, w[w.length - 1]? = some n := ⟨_, List.getElem?_eq_getElem (by omega)⟩
  have hho : w.head? = some o := by rw [List.head?_eq_getElem?]; exact ho
  have hhn : w.getLast? = some n := by rw [List.getLast?_eq_getElem?]; exact hn
  obtain ⟨g1, g2, g3⟩ := lookupRange_spec (target := target) (fuel := fuel) hwin hs hu
    (hwle.trans hf) ho hn
  have hfit : ∀ x ∈ w, x.sma < U128 := fun x hx => hist_fits hi.2 x (List.mem_of_mem_drop hx)
  have htar : target < 2 ^ 64 := by show now - ago < _; omega
  change queryObservation s now ago fuel = lookupRange m s.store target base (base + (w.length - 1)) fuel
    at hq
  rw [hho, hhn, hq]
  refine ⟨?_, ?_, ?_, ?_⟩
  · intro x hx hxt
    obtain ⟨i, hi'⟩ := List.mem_iff_getElem?.1 hx
    have hil : i < w.length := (List.getElem?_eq_some_iff.1 hi').1
    rcases Nat.lt_or_ge target n.ts with hlt | hge
    · have h1 : o.ts ≤ target := by
        rw [← hxt]; exact sorted_le hs (Nat.zero_le _) ho hi'
      obtain ⟨j, l, r, hj, hj1, hl, hr, he⟩ := g3 h1 hlt
      obtain ⟨p, hp, p1, p2, _, _⟩ := interpolate_spec hl hr
        (hfit l (List.mem_of_getElem? hj)) (hfit r (List.mem_of_getElem? hj1)) htar
      rw [he, hp, ok_bind]
      congr 2
      rcases Nat.lt_trichotomy i j with hij | hij | hij
      · have := sorted_lt hs hij hi' hj; omega
      · subst hij
        rw [hj] at hi'
        simp only [Option.some.injEq] at hi'
        subst hi'
        exact p1 hxt
      · rcases Nat.eq_or_lt_of_le (show j + 1 ≤ i by omega) with hji | hji
        · subst hji
          rw [hj1] at hi'
          simp only [Option.some.injEq] at hi'
          subst hi'
          have hlr := sorted_lt hs (Nat.lt_succ_self j) hj hj1
          exact p2 (by omega) hxt
        · have := sorted_lt hs hji hj1 hi'; omega
    · have hxn : x.ts ≤ n.ts := sorted_le hs (by omega) hi' hn
      have : i = w.length - 1 := by
        by_contra hcon
        have := sorted_lt hs (show i < w.length - 1 by omega) hi' hn
        omega
      subst this
      rw [hn] at hi'
      simp only [Option.some.injEq] at hi'
      subst hi'
      exact g1 hge
  · intro n' hn' hle
    simp only [Option.some.injEq] at hn'
    subst hn'
    exact g1 hle
  · intro o' n' ho' hn' hle
    simp only [Option.some.injEq] at ho' hn'
    subst ho' hn'
    rcases Nat.lt_or_ge target n.ts with hlt | hge
    · obtain ⟨j, l, r, hj, hj1, hl, hr, he⟩ := g3 hle hlt
      obtain ⟨p, hp, _⟩ := interpolate_spec hl hr
        (hfit l (List.mem_of_getElem? hj)) (hfit r (List.mem_of_getElem? hj1)) htar
      exact ⟨p, by rw [he, hp, ok_bind]⟩
    · exact ⟨n.sma, g1 hge⟩
  · intro o' ho' hlt
    simp only [Option.some.injEq] at ho'
    subst ho'
    exact g2 hlt

theorem drift_close {l r : Obs} {target : Nat} (h1 : l.ts < target) (h2 : target < r.ts) :
    let d : ℚ := (max l.sma r.sma : ℕ) - (min l.sma r.sma : ℕ)
    let x : ℚ := d * ((target : ℚ) - l.ts) / ((r.ts : ℚ) - l.ts)
    (drift l r target : ℚ) ≤ x ∧ x ≤ drift l r target + ((target : ℚ) - l.ts) * (1 + d / 10 ^ 18) := by
  intro d x
  unfold drift at *
  have hdt : 0 < r.ts - l.ts := by omega
  have hD := DEC_pos
  have hDq : (DEC : ℚ) = 10 ^ 18 := by norm_num [DEC]
  have hDq0 : (0 : ℚ) < DEC := by exact_mod_cast hD
  have a1 : DEC / (r.ts - l.ts) * (r.ts - l.ts) ≤ DEC := Nat.div_mul_le_self _ _
  have a1' : DEC < (DEC / (r.ts - l.ts) + 1) * (r.ts - l.ts) := lt_succ_div_mul _ hdt
  have hdd : ((max l.sma r.sma - min l.sma r.sma : ℕ) : ℚ) = d := by
    rw [Nat.cast_sub (le_trans (min_le_left _ _) (le_max_left _ _))]
  generalize hdn : max l.sma r.sma - min l.sma r.sma = dn at *
  have a2 : dn * (DEC / (r.ts - l.ts)) / DEC * DEC ≤ dn * (DEC / (r.ts - l.ts)) := Nat.div_mul_le_self _ _
  have a2' : dn * (DEC / (r.ts - l.ts)) < (dn * (DEC / (r.ts - l.ts)) / DEC + 1) * DEC :=
    lt_succ_div_mul _ hD
  generalize DEC / (r.ts - l.ts) = i at *
  generalize dn * i / DEC = y at *
  have hT : ((r.ts - l.ts : ℕ) : ℚ) = (r.ts : ℚ) - l.ts := Nat.cast_sub (by omega)
  have ht : ((target - l.ts : ℕ) : ℚ) = (target : ℚ) - l.ts := Nat.cast_sub (by omega)
  have b1 : (i : ℚ) * ((r.ts : ℚ) - l.ts) ≤ DEC := by rw [← hT]; exact_mod_cast a1
  have b1' : (DEC : ℚ) < (i + 1) * ((r.ts : ℚ) - l.ts) := by rw [← hT]; exact_mod_cast a1'
  have b2 : (y : ℚ) * DEC ≤ d * i := by rw [← hdd]; exact_mod_cast a2
  have b2' : d * i < ((y : ℚ) + 1) * DEC := by rw [← hdd]; exact_mod_cast a2'
  have hTpos : (0 : ℚ) < (r.ts : ℚ) - l.ts := by rw [← hT]; exact_mod_cast hdt
  have htpos : (0 : ℚ) < (target : ℚ) - l.ts := by
    rw [← ht]; exact_mod_cast (show 0 < target - l.ts by omega)
  have hd0 : 0 ≤ d := by rw [← hdd]; positivity
  simp only [x]
  push_cast
  rw [ht]
  rw [← hDq]
  generalize hTT : (r.ts : ℚ) - l.ts = T at *
  generalize htt : (target : ℚ) - l.ts = t at *
  generalize (DEC : ℚ) = D at *
  have hi0 : (0 : ℚ) ≤ i := by positivity
  constructor
  · rw [le_div_iff₀ hTpos]
    -- y t T ≤ d t, from y D ≤ d i and i T ≤ D
    have : (y : ℚ) * T ≤ d := by
      have h3 : (y : ℚ) * T * D ≤ d * D := by
        calc (y : ℚ) * T * D = (y * D) * T := by ring
          _ ≤ (d * i) * T := mul_le_mul_of_nonneg_right b2 hTpos.le
          _ = d * (i * T) := by ring
          _ ≤ d * D := mul_le_mul_of_nonneg_left b1 hd0
      exact le_of_mul_le_mul_right h3 hDq0
    nlinarith
  · rw [div_le_iff₀ hTpos]
    -- d ≤ (y + 1 + d / D) T
    have h4 : d ≤ (y + (1 + d / D)) * T := by
      have h5 : d * D ≤ (y + (1 + d / D)) * T * D := by
        have e : (y + (1 + d / D)) * T * D = (y + 1) * D * T + d * T := by
          field_simp
          ring
        rw [e]
        have h6 : d * D ≤ d * ((i + 1) * T) := mul_le_mul_of_nonneg_left b1'.le hd0
        have h7 : d * i * T ≤ (y + 1) * D * T := mul_le_mul_of_nonneg_right b2'.le hTpos.le
        nlinarith
      exact le_of_mul_le_mul_right h5 hDq0
    have h8 : d * t ≤ (y + (1 + d / D)) * T * t := mul_le_mul_of_nonneg_right h4 htpos.le
    calc d * t ≤ (y + (1 + d / D)) * T * t := h8
      _ = _ := by ring

/-- **C21.**  In every reachable state, if `target` lies strictly between two neighbouring observations
`l`, `r` of the stored window, the reported price lies between their averages, and it differs from the
straight line through them by at most `(target - l.ts)·(1 + |Δ|)·10^-18`, where `|Δ|` is the distance of
the two averages (all values as `Decimal`s; in atomics: `elapsed·(1 + Δ/10^18)`). -/
theorem C21_interpolation_between_neighbours (cap : Nat) (hcap : 2 ≤ cap) (hc : 4 * cap ≤ U32)
    (ts : List Trade) (now ago : Nat) (hago : ago ≤ now) (hnow : now < 2 ^ 64) (fuel : Nat)
    (hf : cap ≤ fuel) (j : Nat) (l r : Obs)
    (hl : (lastN cap (run (initial cap) ts).log)[j]? = some l)
    (hr : (lastN cap (run (initial cap) ts).log)[j + 1]? = some r)
    (h1 : l.ts < now - ago) (h2 : now - ago < r.ts) :
    ∃ p, queryObservation (run (initial cap) ts) now ago fuel = .ok (now - ago, p) ∧
      min l.sma r.sma ≤ p ∧ p ≤ max l.sma r.sma ∧
      let line : ℚ := l.sma + ((r.sma : ℚ) - l.sma) * (((now - ago : ℕ) : ℚ) - l.ts) / ((r.ts : ℚ) - l.ts)
      |(p : ℚ) - line| ≤ (((now - ago : ℕ) : ℚ) - l.ts) * (1 + |(r.sma : ℚ) - l.sma| / 10 ^ 18) := by
  have hi : Inv cap (run (initial cap) ts) := inv_run hcap (by omega) ts (inv_initial (by omega))
  generalize hsd : run (initial cap) ts = s at *
  generalize htd : now - ago = target at *
  have hs : (lastN cap s.log).Pairwise (fun a b => a.ts < b.ts) := lastN_sorted hi.2
  have hne : s.log ≠ [] := by
    rintro h; rw [h] at hl; simp [lastN] at hl
  obtain ⟨m, base, hwin, hu, hq⟩ := query_eq hcap hc hi hne hago fuel
  have hfit : ∀ x ∈ lastN cap s.log, x.sma < U128 :=
    fun x hx => hist_fits hi.2 x (List.mem_of_mem_drop hx)
  have hwle : (lastN cap s.log).length ≤ cap := by simp [lastN]; omega
  rw [htd] at hq
  generalize hwd : lastN cap s.log = w at *
  have hwlen : 0 < w.length := by have := (List.getElem?_eq_some_iff.1 hl).1; omega
  obtain ⟨o, ho⟩ : ∃ o, w[0]? = some o := ⟨_, List.getElem?_eq_getElem hwlen⟩
  obtain ⟨n, hn⟩ : ∃ n, w[w.length - 1]? = some n := ⟨_, List.getElem?_eq_getElem (by omega)⟩
  obtain ⟨_, _, g3⟩ := lookupRange_spec (target := target) (fuel := fuel) hwin hs hu (by omega) ho hn
  have hjl := (List.getElem?_eq_some_iff.1 hr).1
  have c1 := sorted_le hs (Nat.zero_le j) ho hl
  have c2 := sorted_le hs (show j + 1 ≤ w.length - 1 by omega) hr hn
  obtain ⟨k, l', r', hk, hk1, hl', hr', he⟩ := g3 (by omega) (by omega)
  have hkj : k = j := by
    rcases Nat.lt_trichotomy k j with h | h | h
    · have := sorted_le hs (show k + 1 ≤ j by omega) hk1 hl; omega
    · exact h
    · have := sorted_le hs (show j + 1 ≤ k by omega) hr hk; omega
  subst hkj
  rw [hl] at hk
  rw [hr] at hk1
  simp only [Option.some.injEq] at hk hk1
  subst hk hk1
  obtain ⟨p, hp, _, _, p3, p4⟩ := interpolate_spec hl' hr' (hfit l (List.mem_of_getElem? hl))
    (hfit r (List.mem_of_getElem? hr)) (by omega)
  refine ⟨p, by rw [hq, he, hp, ok_bind], ?_⟩
  have hdl := drift_le hl' hr'
  have hcl := drift_close h1 h2
  simp only at hcl
  rcases Nat.le_total l.sma r.sma with hle | hle
  · have hpe := p3 h1 h2 hle
    rw [max_eq_right hle, min_eq_left hle] at hdl hcl
    have hleq : (l.sma : ℚ) ≤ r.sma := by exact_mod_cast hle
    refine ⟨by omega, by omega, ?_⟩
    rw [hpe]
    push_cast
    rw [abs_of_nonneg (sub_nonneg.2 hleq), abs_le]
    constructor <;> linarith
  · have hpe := p4 h1 h2 hle
    rw [max_eq_left hle, min_eq_right hle] at hdl hcl
    have hleq : (r.sma : ℚ) ≤ l.sma := by exact_mod_cast hle
    have hpe' : (p : ℚ) = l.sma - drift l r target := by
      rw [hpe, Nat.cast_sub (by omega)]
    refine ⟨by omega, by omega, ?_⟩
    rw [hpe', abs_of_nonpos (sub_nonpos.2 hleq), neg_sub, abs_le]
    have e : ((r.sma : ℚ) - l.sma) * ((target : ℚ) - l.ts) / ((r.ts : ℚ) - l.ts) =
        -(((l.sma : ℚ) - r.sma) * ((target : ℚ) - l.ts) / ((r.ts : ℚ) - l.ts)) := by ring
    rw [e]
    constructor <;> linarith

/-- Non-vacuity: capacity 4, six trades; the window holds observations at 20, 30, 40, 50 and a query for
time 34 interpolates between the averages at 30 and 40. -/
example :
    let s := run (initial 4) [⟨10, 5, 1, true⟩, ⟨20, 7, 1, true⟩, ⟨30, 3, 1, true⟩, ⟨40, 9, 1, true⟩,
      ⟨50, 9, 1, true⟩, ⟨60, 1, 1, true⟩]
    (lastN 4 s.log).map (fun o => (o.ts, o.sma)) =
      [(20, 6 * 10 ^ 18), (30, 5 * 10 ^ 18), (40, 6 * 10 ^ 18), (50, 65 * 10 ^ 17)] ∧
    okAnd (queryObservation s 60 26 4) (fun x => x = (34, 54 * 10 ^ 17)) = true ∧
    okAnd (queryObservation s 60 30 4) (fun x => x = (30, 5 * 10 ^ 18)) = true ∧
    fails (queryObservation s 60 41 4) = true := by
  decide +kernel

end Verif.Observation
