import Verif.Observation.Props

/-!
# C22, C72: the moving average and the price of a block

The pair stores with every observation a running average ("sma").  The code updates it with the slot
*after* the next write position as "oldest" element, so that the average runs over the last `N - 1` prices
plus one fixed value, instead of over the last `N` prices.
-/

namespace Verif.Observation
open Verif.Buffer

/-- Sum of the prices of a list of observations. -/
def priceSum (xs : List Obs) : Nat := (xs.map Obs.price).sum

@[simp] theorem priceSum_append (xs ys : List Obs) : priceSum (xs ++ ys) = priceSum xs + priceSum ys := by
  simp [priceSum]

@[simp] theorem priceSum_single (o : Obs) : priceSum [o] = o.price := by simp [priceSum]

theorem hist_last {cap : Nat} {xs : List Obs} {o : Obs} (h : Hist cap (xs ++ [o])) :
    Hist cap xs ∧ Next cap xs o := by
  generalize hy : xs ++ [o] = ys at h
  cases h with
  | nil => simp at hy
  | snoc h1 h2 =>
    obtain ⟨rfl, h⟩ := List.append_inj' hy rfl
    simp only [List.cons.injEq, and_true] at h
    subst h
    exact ⟨h1, h2⟩

theorem hist_take {cap : Nat} {xs : List Obs} (h : Hist cap xs) (i : Nat) : Hist cap (xs.take i) := by
  induction h with
  | nil => simp; exact .nil
  | @snoc xs o h1 h2 h3 h4 ih =>
    rcases Nat.lt_or_ge xs.length i with hlt | hge
    · rw [List.take_of_length_le (by simp; omega)]
      exact .snoc h1 h2 h3 h4
    · rw [List.take_append_of_le_length hge]; exact ih

/-- While the buffer is not full the average is the mean of all prices, up to rounding. -/
theorem sma_small {cap : Nat} {xs : List Obs} (h : Hist cap xs) {o : Obs} (hl : xs.getLast? = some o)
    (hn : xs.length < cap) :
    ∃ loss, loss ≤ (xs.length - 1) * xs.length ∧ xs.length * o.sma + loss = priceSum xs := by
  induction h generalizing o with
  | nil => simp at hl
  | @snoc xs o' h1 h2 _ _ ih =>
    simp only [List.getLast?_append, List.getLast?_singleton, Option.some_or, Option.some.injEq] at hl
    subst hl
    simp only [List.length_append, List.length_singleton] at hn
    unfold Next at h2
    cases hx : xs.getLast? with
    | none =>
      rw [List.getLast?_eq_none_iff] at hx
      subst hx
      simp at h2
      exact ⟨0, by simp, by simp [h2]⟩
    | some last =>
      rw [hx] at h2
      simp only [hn, if_true] at h2
      obtain ⟨loss, hloss, hs⟩ := ih hx (by omega)
      have hm := Nat.div_add_mod (last.sma * xs.length + o'.price) (xs.length + 1)
      have hr := Nat.mod_lt (last.sma * xs.length + o'.price) (Nat.succ_pos xs.length)
      rw [← h2.2] at hm
      generalize (last.sma * xs.length + o'.price) % (xs.length + 1) = r at *
      refine ⟨loss + r, ?_, ?_⟩
      · simp only [List.length_append, List.length_singleton, Nat.add_sub_cancel]
        have : (xs.length - 1) * xs.length ≤ xs.length * xs.length :=
          Nat.mul_le_mul_right _ (Nat.sub_le _ _)
        rw [Nat.mul_add, Nat.mul_one]
        omega
      · simp only [List.length_append, List.length_singleton, priceSum_append, priceSum_single]
        have : xs.length * last.sma = last.sma * xs.length := Nat.mul_comm _ _
        omega

theorem lastN_snoc_full {α : Type} {n : Nat} {xs : List α} {o old : α} (hn : 1 ≤ n) (hl : n ≤ xs.length)
    (hold : xs[xs.length - n]? = some old) :
    ∃ mid, lastN n xs = old :: mid ∧ lastN n (xs ++ [o]) = mid ++ [o] := by
  obtain ⟨hlt, he⟩ := List.getElem?_eq_some_iff.1 hold
  refine ⟨xs.drop (xs.length - n + 1), ?_, ?_⟩
  · unfold lastN
    rw [List.drop_eq_getElem_cons hlt, he]
  · unfold lastN
    rw [List.length_append, List.length_singleton, List.drop_append_of_le_length (by omega)]
    congr 2
    omega

/-- Once `cap - 1` observations exist: the average is that of the last `cap - 1` prices and one more
value that never changes, the average stored with observation number `cap - 1`. -/
theorem sma_big {cap : Nat} (hcap : 2 ≤ cap) {xs : List Obs} (h : Hist cap xs) {o : Obs}
    (hl : xs.getLast? = some o) (hn : cap ≤ xs.length + 1) :
    ∃ m loss, xs[cap - 2]? = some m ∧ loss ≤ (cap - 1) * xs.length ∧
      cap * o.sma + loss = m.sma + priceSum (lastN (cap - 1) xs) := by
  induction h generalizing o with
  | nil => simp at hl
  | @snoc xs o' h1 h2 h3 h4 ih =>
    simp only [List.getLast?_append, List.getLast?_singleton, Option.some_or, Option.some.injEq] at hl
    subst hl
    simp only [List.length_append, List.length_singleton] at hn
    rcases Nat.lt_or_ge (xs.length + 1) cap with hlt | hge
    · -- exactly `cap - 1` observations
      have hxl : xs.length = cap - 2 := by omega
      obtain ⟨loss, hloss, hs⟩ := sma_small (.snoc h1 h2 h3 h4) (o := o') (by simp) (by simpa using hlt)
      refine ⟨o', loss, ?_, ?_, ?_⟩
      · rw [← hxl]; simp
      · simp only [List.length_append, List.length_singleton, Nat.add_sub_cancel] at hloss ⊢
        refine hloss.trans (Nat.mul_le_mul_right _ (by omega))
      · have hw : lastN (cap - 1) (xs ++ [o']) = xs ++ [o'] := by
          unfold lastN
          have : (xs ++ [o']).length - (cap - 1) = 0 := by simp; omega
          rw [this, List.drop_zero]
        rw [hw, ← hs]
        simp only [List.length_append, List.length_singleton]
        have : cap = xs.length + 2 := by omega
        rw [this]
        ring
    · unfold Next at h2
      cases hx : xs.getLast? with
      | none =>
        rw [List.getLast?_eq_none_iff] at hx
        subst hx
        simp at hge
        omega
      | some last =>
        rw [hx] at h2
        simp only [show ¬ (xs.length + 1 < cap) by omega, if_false] at h2
        obtain ⟨hts, old, hold, hle, hsma⟩ := h2
        obtain ⟨m, loss, hm, hloss, hs⟩ := ih hx hge
        have hidx : xs.length + 1 - cap = xs.length - (cap - 1) := by omega
        rw [hidx] at hold
        obtain ⟨mid, e1, e2⟩ := lastN_snoc_full (o := o') (show 1 ≤ cap - 1 by omega) (by omega) hold
        have hdm := Nat.div_add_mod (last.sma * cap + o'.price - old.price) cap
        have hr := Nat.mod_lt (last.sma * cap + o'.price - old.price) (show 0 < cap by omega)
        rw [← hsma] at hdm
        generalize (last.sma * cap + o'.price - old.price) % cap = r at *
        refine ⟨m, loss + r, ?_, ?_, ?_⟩
        · rw [List.getElem?_append_left (List.getElem?_eq_some_iff.1 hm).1]; exact hm
        · simp only [List.length_append, List.length_singleton]
          rw [Nat.mul_add, Nat.mul_one]
          omega
        · rw [e1] at hs
          rw [e2]
          have hc1 : priceSum (old :: mid) = old.price + priceSum mid := by simp [priceSum]
          rw [hc1] at hs
          simp only [priceSum_append, priceSum_single]
          have : cap * last.sma = last.sma * cap := Nat.mul_comm _ _
          omega

/-- **C22 (partial).**  What the code guarantees instead of C22, for every observation `o` in every
reachable state; `i` is its position in the list of all observations ever made.
* Among the first `cap - 1` observations, `o.sma` is the mean of all prices so far, rounded down by at most
  `i` atomics (`10^-18`).
* Later, `cap · o.sma` is the sum of the last `cap - 1` prices *plus the average at observation
  `cap - 1`*, minus an accumulated rounding loss of less than `cap` per observation.

C22 fails: one of the `cap` values averaged is not the `cap`-th last price but a constant. -/
theorem C22_moving_average_partial (cap : Nat) (hcap : 2 ≤ cap) (hc : 2 * cap ≤ U32) (ts : List Trade)
    (i : Nat) (o : Obs) (ho : (run (initial cap) ts).log[i]? = some o) :
    let log := (run (initial cap) ts).log
    let seen := log.take (i + 1)
    (i + 1 < cap → ∃ loss, loss ≤ i * (i + 1) ∧ (i + 1) * o.sma + loss = priceSum seen) ∧
    (cap ≤ i + 1 → ∃ m loss, log[cap - 2]? = some m ∧ loss ≤ (cap - 1) * (i + 1) ∧
      cap * o.sma + loss = m.sma + priceSum (lastN (cap - 1) seen)) := by
  intro log seen
  have hi : Inv cap (run (initial cap) ts) := inv_run hcap hc ts (inv_initial (by omega))
  have hh : Hist cap seen := hist_take hi.2 _
  have hil : i < log.length := (List.getElem?_eq_some_iff.1 ho).1
  have hsl : seen.length = i + 1 := by simp [seen]; omega
  have hlast : seen.getLast? = some o := by
    rw [List.getLast?_eq_getElem?, hsl, Nat.add_sub_cancel]
    simp only [seen]
    rw [List.getElem?_take_of_lt (by omega)]
    exact ho
  constructor
  · intro h
    have := sma_small hh hlast (by omega)
    rw [hsl] at this
    simpa using this
  · intro h
    obtain ⟨m, loss, hm, h1, h2⟩ := sma_big hcap hh hlast (by omega)
    refine ⟨m, loss, ?_, by rw [hsl] at h1; exact h1, h2⟩
    simp only [seen] at hm
    rw [List.getElem?_take_of_lt (by omega)] at hm
    exact hm

/-! ## Swaps are not blocked by the average while the rounding loss is small -/

theorem priceSum_ge {L : Nat} {xs : List Obs} (h : ∀ o ∈ xs, L ≤ o.price) : xs.length * L ≤ priceSum xs := by
  induction xs with
  | nil => simp
  | cons x xs ih =>
    have h1 := h x (by simp)
    have h2 := ih (fun o ho => h o (by simp [ho]))
    simp only [priceSum, List.map_cons, List.sum_cons, List.length_cons] at h2 ⊢
    rw [Nat.add_mul]
    omega

theorem priceSum_le {B : Nat} {xs : List Obs} (h : ∀ o ∈ xs, o.price ≤ B) : priceSum xs ≤ xs.length * B := by
  induction xs with
  | nil => simp [priceSum]
  | cons x xs ih =>
    have h1 := h x (by simp)
    have h2 := ih (fun o ho => h o (by simp [ho]))
    simp only [priceSum, List.map_cons, List.sum_cons, List.length_cons] at h2 ⊢
    rw [Nat.add_mul]
    omega

/-- Averages of the first observations are at least the smallest price. -/
theorem sma_ge {cap L : Nat} {xs : List Obs} (h : Hist cap xs) (hL : ∀ o ∈ xs, L ≤ o.price) {o : Obs}
    (hl : xs.getLast? = some o) (hn : xs.length < cap) : L ≤ o.sma := by
  induction h generalizing o with
  | nil => simp at hl
  | @snoc xs o' h1 h2 _ _ ih =>
    simp only [List.getLast?_append, List.getLast?_singleton, Option.some_or, Option.some.injEq] at hl
    subst hl
    simp only [List.length_append, List.length_singleton] at hn
    have hp : L ≤ o'.price := hL _ (by simp)
    unfold Next at h2
    cases hx : xs.getLast? with
    | none => rw [hx] at h2; simp only at h2; omega
    | some last =>
      rw [hx] at h2
      simp only [hn, if_true] at h2
      have h3 := ih (fun o ho => hL o (by simp [ho])) hx (by omega)
      rw [h2.2, Nat.le_div_iff_mul_le (Nat.succ_pos _)]
      have := Nat.mul_le_mul_right xs.length h3
      rw [Nat.mul_succ]
      omega

theorem sma_le {cap B : Nat} (hcap : 2 ≤ cap) {xs : List Obs} (h : Hist cap xs)
    (hB : ∀ o ∈ xs, o.price ≤ B) {o : Obs} (hl : xs.getLast? = some o) : o.sma ≤ B := by
  have hne : xs ≠ [] := by rintro rfl; simp at hl
  have hlen : 0 < xs.length := List.length_pos_iff.2 hne
  have small : ∀ {ys : List Obs} {o : Obs}, Hist cap ys → (∀ o ∈ ys, o.price ≤ B) →
      ys.getLast? = some o → ys.length < cap → o.sma ≤ B := by
    intro ys o hh hb hl hn
    have hyl : 0 < ys.length := List.length_pos_iff.2 (by rintro rfl; simp at hl)
    obtain ⟨loss, _, hs⟩ := sma_small hh hl hn
    have := priceSum_le hb
    have h2 : ys.length * o.sma ≤ ys.length * B := by omega
    exact Nat.le_of_mul_le_mul_left h2 hyl
  rcases Nat.lt_or_ge xs.length cap with hlt | hge
  · exact small h hB hl hlt
  · obtain ⟨m, loss, hm, _, hs⟩ := sma_big hcap h hl (by omega)
    have hml : m.sma ≤ B := by
      have hml := (List.getElem?_eq_some_iff.1 hm).1
      refine small (hist_take h (cap - 1)) (fun o ho => hB o (List.mem_of_mem_take ho)) (o := m) ?_ ?_
      · rw [List.getLast?_eq_getElem?, List.length_take, Nat.min_eq_left (by omega),
          List.getElem?_take_of_lt (by omega)]
        have : cap - 1 - 1 = cap - 2 := by omega
        rw [this]; exact hm
      · simp; omega
    have hb := priceSum_le (B := B) (xs := lastN (cap - 1) xs) (fun o ho => hB o (List.mem_of_mem_drop ho))
    have hll : (lastN (cap - 1) xs).length = cap - 1 := by simp [lastN]; omega
    rw [hll] at hb
    have : cap * o.sma ≤ cap * B := by
      have e : cap * B = B + (cap - 1) * B := by
        conv_lhs => rw [show cap = 1 + (cap - 1) by omega]
        ring
      omega
    exact Nat.le_of_mul_le_mul_left this (by omega)

/-- While at most `L` observations were made and no price was below `L` atomics, the subtraction in the
average cannot underflow. -/
theorem no_underflow {cap L : Nat} (hcap : 2 ≤ cap) {xs : List Obs} (h : Hist cap xs)
    (hL : ∀ o ∈ xs, L ≤ o.price) (hn : xs.length ≤ L) {last old : Obs} (hl : xs.getLast? = some last)
    (hge : cap ≤ xs.length + 1) (hold : xs[xs.length + 1 - cap]? = some old) :
    old.price ≤ last.sma * cap := by
  obtain ⟨m, loss, hm, hloss, hs⟩ := sma_big hcap h hl hge
  have hml := (List.getElem?_eq_some_iff.1 hm).1
  have hm2 : L ≤ m.sma := by
    refine sma_ge (hist_take h (cap - 1)) (fun o ho => hL o (List.mem_of_mem_take ho)) (o := m) ?_ ?_
    · rw [List.getLast?_eq_getElem?, List.length_take, Nat.min_eq_left (by omega),
        List.getElem?_take_of_lt (by omega)]
      have : cap - 1 - 1 = cap - 2 := by omega
      rw [this]; exact hm
    · simp; omega
  have hidx : xs.length + 1 - cap = xs.length - (cap - 1) := by omega
  rw [hidx] at hold
  obtain ⟨mid, e1, _⟩ := lastN_snoc_full (o := old) (show 1 ≤ cap - 1 by omega) (by omega) hold
  have hll : (lastN (cap - 1) xs).length = cap - 1 := by simp [lastN]; omega
  have hmid : mid.length = cap - 2 := by rw [e1] at hll; simp at hll; omega
  have hg := priceSum_ge (L := L) (xs := mid) (fun o ho => hL o
    (List.mem_of_mem_drop (i := xs.length - (cap - 1)) (by
      have : lastN (cap - 1) xs = xs.drop (xs.length - (cap - 1)) := rfl
      rw [← this, e1]; simp [ho])))
  rw [hmid] at hg
  have hc1 : priceSum (old :: mid) = old.price + priceSum mid := by simp [priceSum]
  rw [e1, hc1] at hs
  have e : (cap - 1) * L = L + (cap - 2) * L := by
    rw [show cap - 1 = 1 + (cap - 2) by omega]; ring
  have h5 : (cap - 1) * xs.length ≤ (cap - 1) * L := Nat.mul_le_mul_left _ hn
  have : cap * last.sma = last.sma * cap := Nat.mul_comm _ _
  omega

/-- The next average does not exceed the largest price. -/
theorem next_le {cap B : Nat} (hcap : 2 ≤ cap) {xs : List Obs} (h : Hist cap xs)
    (hB : ∀ o ∈ xs, o.price ≤ B) {last old : Obs} (hl : xs.getLast? = some last)
    (hge : cap ≤ xs.length + 1) (hold : xs[xs.length + 1 - cap]? = some old) {p : Nat} (hp : p ≤ B) :
    last.sma * cap + p - old.price ≤ cap * B := by
  obtain ⟨m, loss, hm, hloss, hs⟩ := sma_big hcap h hl hge
  have hml := (List.getElem?_eq_some_iff.1 hm).1
  have hm2 : m.sma ≤ B := by
    refine sma_le hcap (hist_take h (cap - 1)) (fun o ho => hB o (List.mem_of_mem_take ho)) (o := m) ?_
    rw [List.getLast?_eq_getElem?, List.length_take, Nat.min_eq_left (by omega),
      List.getElem?_take_of_lt (by omega)]
    have : cap - 1 - 1 = cap - 2 := by omega
    rw [this]; exact hm
  have hidx : xs.length + 1 - cap = xs.length - (cap - 1) := by omega
  rw [hidx] at hold
  obtain ⟨mid, e1, _⟩ := lastN_snoc_full (o := old) (show 1 ≤ cap - 1 by omega) (by omega) hold
  have hll : (lastN (cap - 1) xs).length = cap - 1 := by simp [lastN]; omega
  have hmid : mid.length = cap - 2 := by rw [e1] at hll; simp at hll; omega
  have hg := priceSum_le (B := B) (xs := mid) (fun o ho => hB o
    (List.mem_of_mem_drop (i := xs.length - (cap - 1)) (by
      have : lastN (cap - 1) xs = xs.drop (xs.length - (cap - 1)) := rfl
      rw [← this, e1]; simp [ho])))
  rw [hmid] at hg
  have hc1 : priceSum (old :: mid) = old.price + priceSum mid := by simp [priceSum]
  rw [e1, hc1] at hs
  have e : cap * B = B + B + (cap - 2) * B := by
    conv_lhs => rw [show cap = 1 + 1 + (cap - 2) by omega]
    ring
  have : cap * last.sma = last.sma * cap := Nat.mul_comm _ _
  omega

theorem accumulate_none {s : State} {now : Nat} (h : s.pre = none) : accumulateSwapSizes s now = .ok s := by
  unfold accumulateSwapSizes; rw [h]

/-- `accumulate_swap_sizes` succeeds while the rounding loss is small; it then pushes the pending
observation unless there is none, or it was already pushed, or the buffer is empty and the block is
still the same. -/
theorem accumulate_succeeds {cap L B : Nat} (hcap : 2 ≤ cap) (hc : 2 * cap ≤ U32) (hB : B < U128) {s : State}
    (hi : Inv cap s) (now : Nat) (hp : ∀ o ∈ s.log, L ≤ o.price ∧ o.price ≤ B) (hn : s.log.length ≤ L)
    (hpre : ∀ p, s.pre = some p → p.quote ≠ 0 ∧ L ≤ p.base * DEC / p.quote ∧ p.base * DEC / p.quote ≤ B) :
    ∃ s', accumulateSwapSizes s now = .ok s' ∧ s'.pre = s.pre ∧
      (∀ p, s.pre = some p → p.ts < now → (∀ o, s.log.getLast? = some o → o.ts < p.ts) →
        ∃ sma, s'.log = s.log ++ [⟨p.ts, p.base * DEC / p.quote, sma⟩]) := by
  cases hsp : s.pre with
  | none => exact ⟨s, accumulate_none hsp, hsp, by simp⟩
  | some p =>
    obtain ⟨hq, hpL, hpB⟩ := hpre p hsp
    obtain ⟨m, hnew, rm, hpr⟩ := repS_new hi.1
    have hlast := repM_readLast rm hpr hc
    have hr : Rep cap s.log m.head s.store.arr := by simpa [hpr] using rm.2.2
    have hh : m.head < cap := by rw [hr.head_eq]; exact Nat.mod_lt _ (by omega)
    have hprice : decFromRatio p.base p.quote = .ok (p.base * DEC / p.quote) := by
      rw [decFromRatio_ok]; exact ⟨hq, by omega, rfl⟩
    unfold accumulateSwapSizes
    rw [hsp]
    simp only [hnew, ok_bind, hprice, hlast, Option.some.injEq]
    generalize hpv : p.base * DEC / p.quote = pv at *
    cases hl : s.log.getLast? with
    | none =>
      simp only
      split
      · obtain ⟨s1, e1, e2, e3, _⟩ := pushObs_spec rm { ts := p.ts, price := pv, sma := pv }
        refine ⟨s1, e1, e3.trans hsp, ?_⟩
        rintro p' rfl _ _
        rw [hpv]
        exact ⟨_, e2⟩
      · refine ⟨s, rfl, hsp, ?_⟩
        rintro p' rfl h1 _
        omega
    | some last =>
      simp only
      split
      · have hk : u32 (m.head + 1) = .ok (m.head + 1) := by rw [u32_ok]; exact ⟨by omega, rfl⟩
        have hrd : readSingle m s.store (m.head + 1) = .ok (s.store.arr ((m.head + 1) % cap)) := by
          unfold readSingle; rw [rm.1, if_neg (by omega)]
        rw [hk, ok_bind, hrd, ok_bind, rep_slot hr (by omega)]
        have hlb : last.sma ≤ B := sma_le hcap hi.2 (fun o ho => (hp o ho).2) hl
        have hlen : 0 < s.log.length := List.length_pos_iff.2 (by intro h0; rw [h0] at hl; simp at hl)
        have hsma : ∃ sma, nextSma m last pv
            (if cap ≤ s.log.length + 1 then s.log[s.log.length + 1 - cap]? else none) = .ok sma := by
          split
          next hge =>
            have hlt : s.log.length + 1 - cap < s.log.length := by omega
            have hold : s.log[s.log.length + 1 - cap]? = some s.log[s.log.length + 1 - cap] :=
              List.getElem?_eq_getElem hlt
            have h1 := no_underflow hcap hi.2 (fun o ho => (hp o ho).1) hn hl hge hold
            have h2 := next_le hcap hi.2 (fun o ho => (hp o ho).2) hl hge hold hpB
            rw [hold]
            refine ⟨(last.sma * cap + pv - s.log[s.log.length + 1 - cap].price) / cap, ?_⟩
            simp only [nextSma, rm.1]
            rw [safeSma_ok]
            refine ⟨by omega, by omega, rfl, lt_of_le_of_lt ?_ hB⟩
            exact Nat.div_le_of_le_mul h2
          next hlt =>
            have hhd : m.head = s.log.length := by rw [hr.head_eq]; exact Nat.mod_eq_of_lt (by omega)
            refine ⟨(last.sma * m.head + pv) / (m.head + 1), ?_⟩
            simp only [nextSma]
            rw [safeSmaNotFull_ok]
            refine ⟨rfl, lt_of_le_of_lt ?_ hB⟩
            apply Nat.div_le_of_le_mul
            have := Nat.mul_le_mul_right m.head hlb
            have e : (m.head + 1) * B = B * m.head + B := by ring
            omega
        obtain ⟨sma, hsma⟩ := hsma
        rw [hsma, ok_bind]
        obtain ⟨s1, e1, e2, e3, _⟩ := pushObs_spec rm { ts := p.ts, price := pv, sma := sma }
        refine ⟨s1, e1, e3.trans hsp, ?_⟩
        rintro p' rfl _ _
        rw [hpv]
        exact ⟨_, e2⟩
      · refine ⟨s, rfl, hsp, ?_⟩
        rintro p' rfl _ h2
        have := h2 last rfl
        omega

/-- **C22, availability (partial).**  The average's bookkeeping does not make swaps fail as long as every
price seen so far is at least `L` atomics (`L·10^-18`) and at most `B < 2^128`, and at most `L`
observations were made.  Without such a bound the accumulated rounding loss can make every further swap
fail, see `C22_swap_blocked_violated`. -/
theorem C22_swaps_not_blocked_partial (cap : Nat) (hcap : 2 ≤ cap) (hc : 2 * cap ≤ U32) (L B : Nat)
    (hB : B < U128) (ts : List Trade) (now base quote : Nat)
    (hp : ∀ o ∈ (run (initial cap) ts).log, L ≤ o.price ∧ o.price ≤ B)
    (hn : (run (initial cap) ts).log.length ≤ L)
    (hpre : ∀ p, (run (initial cap) ts).pre = some p →
      p.quote ≠ 0 ∧ L ≤ p.base * DEC / p.quote ∧ p.base * DEC / p.quote ≤ B ∧
      p.base + base < U128 ∧ p.quote + quote < U128) (big : Bool) :
    ∃ s', trade (run (initial cap) ts) now base quote big = .ok s' := by
  have hi : Inv cap (run (initial cap) ts) := inv_run hcap hc ts (inv_initial (by omega))
  generalize run (initial cap) ts = s at *
  obtain ⟨s1, e1, e2, _⟩ := accumulate_succeeds hcap hc hB hi now hp hn
    (fun p h => ⟨(hpre p h).1, (hpre p h).2.1, (hpre p h).2.2.1⟩)
  unfold trade
  rw [e1, ok_bind]
  cases big with
  | false => exact ⟨s1, rfl⟩
  | true =>
    simp only [if_true]
    unfold savePre
    rw [e2]
    cases hsp : s.pre with
    | none => exact ⟨_, rfl⟩
    | some p =>
      obtain ⟨_, _, _, h4, h5⟩ := hpre p hsp
      simp only
      split
      · refine ⟨{ s1 with pre := some { base := p.base + base, quote := p.quote + quote, ts := p.ts } }, ?_⟩
        have a : u128 (p.base + base) = .ok (p.base + base) := by rw [u128_ok]; exact ⟨h4, rfl⟩
        have b : u128 (p.quote + quote) = .ok (p.quote + quote) := by rw [u128_ok]; exact ⟨h5, rfl⟩
        rw [a, ok_bind, b, ok_bind]
      · exact ⟨_, rfl⟩

/-! ## C72: one observation per block -/

/-- Price of a trade: base amount per quote amount, as `Decimal` atomics. -/
def Trade.price (t : Trade) : Nat := t.base * DEC / t.quote

theorem run_snoc (s : State) (ts : List Trade) (t : Trade) : run s (ts ++ [t]) = step (run s ts) t := by
  simp [run]

theorem step_ok {s s' : State} {t : Trade} (h : trade s t.now t.base t.quote t.big = .ok s') :
    step s t = s' := by
  unfold step; rw [h]; rfl

theorem run_log (cap : Nat) (hcap : 2 ≤ cap) (hc : 2 * cap ≤ U32) (L B : Nat) (hB : B < U128)
    (ts : List Trade) (hs : ts.Pairwise (fun a b => a.now < b.now))
    (ht : ∀ t ∈ ts, t.big = true ∧ t.quote ≠ 0 ∧ L ≤ t.price ∧ t.price ≤ B) (hn : ts.length ≤ L) :
    (run (initial cap) ts).log.map (fun o => (o.ts, o.price)) =
      ts.dropLast.map (fun t => (t.now, t.price)) ∧
    (run (initial cap) ts).pre = ts.getLast?.map (fun t => ⟨t.base, t.quote, t.now⟩) := by
  induction ts using List.reverseRecOn with
  | nil => exact ⟨rfl, rfl⟩
  | append_singleton ts t ih =>
    obtain ⟨ih1, ih2⟩ := ih (List.pairwise_append.1 hs).1 (fun t h => ht t (by simp [h]))
      (by simp at hn; omega)
    have hi : Inv cap (run (initial cap) ts) := inv_run hcap hc ts (inv_initial (by omega))
    rw [run_snoc]
    generalize run (initial cap) ts = s at *
    have hlog : ∀ o ∈ s.log, L ≤ o.price ∧ o.price ≤ B := by
      intro o ho
      have : (o.ts, o.price) ∈ s.log.map (fun o => (o.ts, o.price)) := List.mem_map.2 ⟨o, ho, rfl⟩
      rw [ih1, List.mem_map] at this
      obtain ⟨t', ht', he⟩ := this
      simp only [Prod.mk.injEq] at he
      have := ht t' (by simp [List.mem_of_mem_dropLast ht'])
      omega
    have hlen : s.log.length ≤ L := by
      have := congrArg List.length ih1
      simp at this hn
      omega
    have hpre : ∀ p, s.pre = some p → ∃ t' ∈ ts, ts.getLast? = some t' ∧ p = ⟨t'.base, t'.quote, t'.now⟩ := by
      intro p hp
      rw [ih2] at hp
      cases hl : ts.getLast? with
      | none => rw [hl] at hp; simp at hp
      | some t' =>
        rw [hl] at hp
        simp only [Option.map_some, Option.some.injEq] at hp
        exact ⟨t', List.mem_of_getLast? hl, rfl, hp.symm⟩
    obtain ⟨s1, e1, e2, e3⟩ := accumulate_succeeds hcap hc hB hi t.now hlog hlen (by
      intro p hp
      obtain ⟨t', hm, _, rfl⟩ := hpre p hp
      have := ht t' (by simp [hm])
      exact ⟨this.2.1, this.2.2.1, this.2.2.2⟩)
    have hlt : ∀ t' ∈ ts, t'.now < t.now := fun t' h =>
      (List.pairwise_append.1 hs).2.2 t' h t (by simp)
    have hsave : trade s t.now t.base t.quote t.big =
        .ok { s1 with pre := some ⟨t.base, t.quote, t.now⟩ } := by
      unfold trade
      rw [e1, ok_bind, (ht t (by simp)).1]
      simp only [if_true]
      unfold savePre
      rw [e2]
      cases hsp : s.pre with
      | none => rfl
      | some p =>
        obtain ⟨t', hm, _, rfl⟩ := hpre p hsp
        have := hlt t' hm
        simp only
        rw [if_neg (by omega)]
    rw [step_ok hsave]
    refine ⟨?_, by simp⟩
    simp only [List.dropLast_concat]
    rcases List.eq_nil_or_concat ts with rfl | ⟨ts', t', rfl⟩
    · simp at ih1 ih2
      have h1 : accumulateSwapSizes s t.now = .ok s := accumulate_none ih2
      rw [h1] at e1
      simp only [Except.ok.injEq] at e1
      subst e1
      simp [ih1]
    · simp only [List.concat_eq_append, List.dropLast_concat, List.getLast?_append,
        List.getLast?_singleton, Option.some_or, Option.map_some] at ih1 ih2 hlt hs ⊢
      obtain ⟨sma, hsma⟩ := e3 _ ih2 (hlt t' (by simp)) (by
        intro o ho
        have : (o.ts, o.price) ∈ s.log.map (fun o => (o.ts, o.price)) :=
          List.mem_map.2 ⟨o, List.mem_of_getLast? ho, rfl⟩
        rw [ih1, List.mem_map] at this
        obtain ⟨t'', ht'', he⟩ := this
        simp only [Prod.mk.injEq] at he
        have h2 := (List.pairwise_append.1 (List.pairwise_append.1 hs).1).2.2 t'' ht'' t' (by simp)
        rw [← he.1]; exact h2)
      rw [hsma, List.map_append, ih1, List.map_append]
      rfl

/-- **C72 (partial).**  If no two swaps share a block, the committed observations are exactly the trades
before the latest one, each with its own time and price, in order; the latest trade is pending.  (For
prices between `L·10^-18` and `B·10^-18` and at most `L` trades, see
`C22_swaps_not_blocked_partial`.)  With several swaps in a block C72 fails:
`C72_block_price_violated`. -/
theorem C72_block_price_partial (cap : Nat) (hcap : 2 ≤ cap) (hc : 2 * cap ≤ U32) (L B : Nat) (hB : B < U128)
    (ts : List Trade) (hs : ts.Pairwise (fun a b => a.now < b.now))
    (ht : ∀ t ∈ ts, t.big = true ∧ t.quote ≠ 0 ∧ L ≤ t.base * DEC / t.quote ∧ t.base * DEC / t.quote ≤ B)
    (hn : ts.length ≤ L) :
    (run (initial cap) ts).log.map (fun o => (o.ts, o.price)) =
      ts.dropLast.map (fun t => (t.now, t.base * DEC / t.quote)) ∧
    (run (initial cap) ts).pre = ts.getLast?.map (fun t => ⟨t.base, t.quote, t.now⟩) :=
  run_log cap hcap hc L B hB ts hs ht hn

/-- Three blocks with one trade each. -/
example : (run (initial 3) [⟨10, 3, 2, true⟩, ⟨20, 5, 1, true⟩, ⟨30, 7, 1, true⟩]).log.map
    (fun o => (o.ts, o.price)) = [(10, 15 * 10 ^ 17), (20, 5 * 10 ^ 18)] := by decide +kernel

/-- Trades of one block on a pair without observations: they are added up. -/
theorem first_block (cap : Nat) (hcap : 1 ≤ cap) (hc : cap < U32) (T : Nat) (ts : List Trade) (hne : ts ≠ [])
    (ht : ∀ t ∈ ts, t.now = T ∧ t.big = true ∧ t.quote ≠ 0)
    (hb : (ts.map Trade.base).sum * DEC < U128) (hq : (ts.map Trade.quote).sum < U128) :
    run (initial cap) ts =
      { initial cap with pre := some ⟨(ts.map Trade.base).sum, (ts.map Trade.quote).sum, T⟩ } := by
  induction ts using List.reverseRecOn with
  | nil => exact absurd rfl hne
  | append_singleton xs t ih =>
    have h1 : t.now = T ∧ t.big = true ∧ t.quote ≠ 0 := ht t (by simp)
    simp only [List.map_append, List.map_cons, List.map_nil, List.sum_append, List.sum_cons, List.sum_nil,
      Nat.add_zero] at hb hq ⊢
    rw [run_snoc]
    by_cases hx : xs = []
    · subst hx
      apply step_ok
      simp only [run, List.foldl_nil, List.map_nil, List.sum_nil, Nat.zero_add]
      unfold trade accumulateSwapSizes
      simp only [initial]
      rw [ok_bind, if_pos h1.2.1]
      unfold savePre
      simp only
      rw [h1.1]
    · have hD : 0 < DEC := DEC_pos
      have ih := ih hx (fun t' h' => ht t' (by simp [h'])) (by
        have : (xs.map Trade.base).sum * DEC ≤ ((xs.map Trade.base).sum + t.base) * DEC :=
          Nat.mul_le_mul_right _ (Nat.le_add_right _ _)
        omega) (by omega)
      rw [ih]
      apply step_ok
      generalize hB : (xs.map Trade.base).sum = B at *
      generalize hQ : (xs.map Trade.quote).sum = Q at *
      have hQ0 : Q ≠ 0 := by
        obtain ⟨y, ys, rfl⟩ := List.exists_cons_of_ne_nil hx
        have := (ht y (by simp)).2.2
        simp only [List.map_cons, List.sum_cons] at hQ
        omega
      have hBB : B + t.base < U128 := by
        have : B + t.base ≤ (B + t.base) * DEC := Nat.le_mul_of_pos_right _ hD
        omega
      have hBD : B * DEC ≤ (B + t.base) * DEC := Nat.mul_le_mul_right _ (Nat.le_add_right _ _)
      have hdec : decFromRatio B Q = .ok (B * DEC / Q) := by
        rw [decFromRatio_ok]
        have : B * DEC / Q ≤ B * DEC := Nat.div_le_self _ _
        exact ⟨hQ0, by omega, rfl⟩
      unfold trade accumulateSwapSizes
      simp only [initial, new, orErr, ok_bind, hdec]
      have hrl : readLast (V := Obs) ⟨cap, 0, []⟩ ⟨some (cap, 0), fun _ => none⟩ = .ok none := by
        unfold readLast readSingle
        have hr : require (cap + 0 < U32) (.overflow) = .ok () := by rw [require_ok]; omega
        have hs : csub (cap + 0) 1 = .ok (cap - 1) := by rw [csub_ok]; exact ⟨by omega, rfl⟩
        simp only at hr hs ⊢
        rw [hr, ok_bind, hs, ok_bind, if_neg (by omega), if_neg (by omega)]
      rw [hrl, ok_bind]
      simp only
      rw [if_neg (by omega), ok_bind, if_pos h1.2.1]
      unfold savePre
      simp only
      rw [if_pos h1.1]
      have ea : u128 (B + t.base) = .ok (B + t.base) := by rw [u128_ok]; exact ⟨hBB, rfl⟩
      have eb : u128 (Q + t.quote) = .ok (Q + t.quote) := by rw [u128_ok]; exact ⟨hq, rfl⟩
      rw [ea, ok_bind, eb, ok_bind]

/-- **C72 (partial).**  As long as the pair has no observation yet, the observation of a block does cover the whole
block: the next block's first swap commits the total base amount over the total quote amount. -/
theorem C72_first_block_total_partial (cap : Nat) (hcap : 1 ≤ cap) (hc : cap < U32) (T : Nat) (ts : List Trade)
    (t : Trade) (hne : ts ≠ []) (ht : ∀ t ∈ ts, t.now = T ∧ t.big = true ∧ t.quote ≠ 0)
    (hb : (ts.map Trade.base).sum * DEC < U128) (hq : (ts.map Trade.quote).sum < U128) (hn : T < t.now) :
    (run (initial cap) (ts ++ [t])).log.map (fun o => (o.ts, o.price)) =
      [(T, (ts.map Trade.base).sum * DEC / (ts.map Trade.quote).sum)] := by
  rw [run_snoc, first_block cap hcap hc T ts hne ht hb hq]
  generalize hB : (ts.map Trade.base).sum = B at *
  generalize hQ : (ts.map Trade.quote).sum = Q at *
  have hQ0 : Q ≠ 0 := by
    obtain ⟨y, ys, rfl⟩ := List.exists_cons_of_ne_nil hne
    have := (ht y (by simp)).2.2
    simp only [List.map_cons, List.sum_cons] at hQ
    omega
  have hdec : decFromRatio B Q = .ok (B * DEC / Q) := by
    rw [decFromRatio_ok]
    have : B * DEC / Q ≤ B * DEC := Nat.div_le_self _ _
    exact ⟨hQ0, by omega, rfl⟩
  have hrl : readLast (V := Obs) ⟨cap, 0, []⟩ ⟨some (cap, 0), fun _ => none⟩ = .ok none := by
    unfold readLast readSingle
    have hr : require (cap + 0 < U32) (.overflow) = .ok () := by rw [require_ok]; omega
    have hs : csub (cap + 0) 1 = .ok (cap - 1) := by rw [csub_ok]; exact ⟨by omega, rfl⟩
    simp only at hr hs ⊢
    rw [hr, ok_bind, hs, ok_bind, if_neg (by omega), if_neg (by omega)]
  have hpush : ∃ st, instantPush (V := Obs) ⟨cap, 0, []⟩ ⟨some (cap, 0), fun _ => none⟩
      ⟨T, B * DEC / Q, B * DEC / Q⟩ = .ok st := by
    unfold instantPush push Buffer.commit
    simp only
    rw [if_neg (by omega), ok_bind]
    simp only [List.any_cons, List.any_nil, Bool.or_false, decide_eq_true_eq]
    have hr : require (¬ (0 ≥ cap)) (.invalid "SaveValueError") = .ok () := by rw [require_ok]; omega
    rw [hr, ok_bind]
    exact ⟨_, rfl⟩
  obtain ⟨⟨m', st⟩, hpush⟩ := hpush
  have hacc : accumulateSwapSizes { initial cap with pre := some ⟨B, Q, T⟩ } t.now =
      .ok { store := st, pre := some ⟨B, Q, T⟩, log := [⟨T, B * DEC / Q, B * DEC / Q⟩] } := by
    unfold accumulateSwapSizes
    simp only [initial, new, orErr, ok_bind, hdec]
    rw [hrl, ok_bind]
    simp only
    rw [if_pos hn]
    unfold pushObs
    simp only
    rw [hpush, ok_bind]
    rfl
  have hst : ∃ s', trade { initial cap with pre := some ⟨B, Q, T⟩ } t.now t.base t.quote t.big = .ok s' ∧
      s'.log = [⟨T, B * DEC / Q, B * DEC / Q⟩] := by
    unfold trade
    rw [hacc, ok_bind]
    split
    · unfold savePre
      simp only
      rw [if_neg (by omega)]
      exact ⟨_, rfl, rfl⟩
    · exact ⟨_, rfl, rfl⟩
  obtain ⟨s', h1, h2⟩ := hst
  rw [step_ok h1, h2]
  rfl

/-- Three trades in the first block, 2:1, 4:1 and 900:1, and a later one. -/
example : (run (initial 3000) [⟨10, 2, 1, true⟩, ⟨10, 4, 1, true⟩, ⟨10, 900, 1, true⟩, ⟨20, 5, 1, true⟩]).log.map
    (fun o => (o.ts, o.price)) = [(10, 302 * 10 ^ 18)] := by decide +kernel

/-- **C72 is violated.**  Block 10: one trade.  Block 20: three trades, 2:1, 4:1 and 900:1, that is 906 base for
3 quote.  The observation kept for block 20 has price 2, that of the block's first trade alone; the
other two trades never enter any observation. -/
theorem C72_block_price_violated :
    let s := run (initial 3000) [⟨10, 1, 1, true⟩, ⟨20, 2, 1, true⟩, ⟨20, 4, 1, true⟩, ⟨20, 900, 1, true⟩,
      ⟨30, 1, 1, true⟩, ⟨40, 1, 1, true⟩]
    s.log.map (fun o => (o.ts, o.price)) = [(10, 10 ^ 18), (20, 2 * 10 ^ 18), (30, 10 ^ 18)] ∧
    (2 + 4 + 900) * 10 ^ 18 / (1 + 1 + 1) = 302 * 10 ^ 18 := by
  decide +kernel

/-! ## C22 is violated -/

/-- One trade per second: `n` trades at `a` whole base units per quote unit, then `k` trades at `b`. -/
def twoPrices (n a k b : Nat) : List Trade :=
  (List.range (n + k)).map (fun i => ⟨i + 1, if i < n then a else b, 1, true⟩)

theorem twoPrices_sorted (n a k b : Nat) : (twoPrices n a k b).Pairwise (fun x y => x.now < y.now) := by
  unfold twoPrices
  rw [List.pairwise_map]
  exact List.pairwise_lt_range.imp (fun h => Nat.succ_lt_succ h)

theorem priceSum_const {c : Nat} {xs : List Obs} (h : ∀ o ∈ xs, o.price = c) :
    priceSum xs = xs.length * c := by
  apply Nat.le_antisymm
  · exact priceSum_le (fun o ho => (h o ho).le)
  · exact priceSum_ge (fun o ho => (h o ho).ge)

/-- `n` trades at price `a`, then `k + 1` at price `b ≤ a`: the observations. -/
theorem twoPrices_log (cap n a k b : Nat) (hcap : 2 ≤ cap) (hc : 2 * cap ≤ U32) (hab : b ≤ a)
    (ha : a * DEC < U128) (hL : n + k + 1 ≤ b * DEC) :
    let log := (run (initial cap) (twoPrices n a (k + 1) b)).log
    log.length = n + k ∧ (∀ o ∈ log.take n, o.price = a * DEC) ∧ (∀ o ∈ log.drop n, o.price = b * DEC) := by
  intro log
  have hlog := (run_log cap hcap hc (b * DEC) (a * DEC) ha
    (twoPrices n a (k + 1) b) (twoPrices_sorted _ _ _ _) (by
      intro t ht
      unfold twoPrices at ht
      rw [List.mem_map] at ht
      obtain ⟨i, _, rfl⟩ := ht
      simp only [Trade.price, Nat.div_one]
      refine ⟨trivial, by omega, ?_⟩
      have := Nat.mul_le_mul_right DEC hab
      split
      · exact ⟨this, le_refl _⟩
      · exact ⟨le_refl _, this⟩) (by simp [twoPrices]; omega)).1
  change log.map _ = _ at hlog
  have hlen : log.length = n + k := by
    have := congrArg List.length hlog
    simp [twoPrices] at this
    omega
  have hget : ∀ i o, log[i]? = some o → o.price = if i < n then a * DEC else b * DEC := by
    intro i o ho
    have h1 : i < log.length := (List.getElem?_eq_some_iff.1 ho).1
    have h2 := congrArg (fun l => l[i]?) hlog
    simp only [List.getElem?_map, ho, Option.map_some] at h2
    rw [List.getElem?_dropLast] at h2
    simp only [twoPrices, List.length_map, List.length_range, List.getElem?_map] at h2
    rw [if_pos (by omega), List.getElem?_range (by omega)] at h2
    simp only [Option.map_some, Option.some.injEq, Prod.mk.injEq, Trade.price, Nat.div_one] at h2
    rw [h2.2]
    split <;> rfl
  refine ⟨hlen, ?_, ?_⟩
  · intro o ho
    obtain ⟨i, hi⟩ := List.mem_iff_getElem?.1 ho
    have hlt := (List.getElem?_eq_some_iff.1 hi).1
    simp only [List.length_take] at hlt
    rw [List.getElem?_take_of_lt (by omega)] at hi
    rw [hget i o hi, if_pos (by omega)]
  · intro o ho
    obtain ⟨i, hi⟩ := List.mem_iff_getElem?.1 ho
    rw [List.getElem?_drop] at hi
    rw [hget _ o hi, if_neg (by omega)]

theorem twoPrices_sma (cap n a k k1 b : Nat) (hn : n = cap - 1) (hk1 : k1 = k + 1) (hcap : 2 ≤ cap) (hc : 2 * cap ≤ U32) (hab : b ≤ a)
    (ha : a * DEC < U128) (hL : cap + k ≤ b * DEC) (hk : cap ≤ k) :
    let log := (run (initial cap) (twoPrices n a k1 b)).log
    (∀ o ∈ lastN k log, o.price = b * DEC) ∧ (lastN k log).length = k ∧
    ∃ o m loss loss', log.getLast? = some o ∧ loss ≤ (cap - 1) * (cap - 1 + k) ∧
      loss' ≤ (cap - 2) * (cap - 1) ∧ cap * o.sma + loss = m + (cap - 1) * (b * DEC) ∧
      (cap - 1) * m + loss' = (cap - 1) * (a * DEC) := by
  subst hn hk1
  intro log
  obtain ⟨hlen, h1, h2⟩ := twoPrices_log cap (cap - 1) a k b hcap hc hab ha (by omega)
  change log.length = _ at hlen
  have hdrop : ∀ j, j ≤ k → ∀ o ∈ lastN j log, o.price = b * DEC := by
    intro j hj o ho
    apply h2
    unfold lastN at ho
    have : log.length - j = (cap - 1) + (log.length - j - (cap - 1)) := by omega
    rw [this, ← List.drop_drop] at ho
    exact List.mem_of_mem_drop ho
  refine ⟨hdrop k (le_refl _), by simp [lastN]; omega, ?_⟩
  have hlt : log.length - 1 < log.length := by omega
  obtain ⟨o, ho⟩ : ∃ o, log[log.length - 1]? = some o := ⟨_, List.getElem?_eq_getElem hlt⟩
  obtain ⟨m, loss, hm, hloss, hsum⟩ := (C22_moving_average_partial cap hcap hc _ _ o ho).2 (by omega)
  obtain ⟨loss', hloss', hsum'⟩ := (C22_moving_average_partial cap hcap hc _ _ m hm).1 (by omega)
  change _ = m.sma + priceSum (lastN _ (log.take _)) at hsum
  change _ = priceSum (log.take _) at hsum'
  rw [List.take_of_length_le (by omega), priceSum_const (hdrop (cap - 1) (by omega))] at hsum
  have hl2 : (lastN (cap - 1) log).length = cap - 1 := by simp [lastN]; omega
  rw [hl2] at hsum
  have hc2 : cap - 2 + 1 = cap - 1 := by omega
  rw [hc2] at hsum' hloss'
  rw [priceSum_const h1] at hsum'
  have hl3 : (log.take (cap - 1)).length = cap - 1 := by simp; omega
  change _ = (log.take (cap - 1)).length * _ at hsum'
  rw [hl3] at hsum'
  have hl4 : log.length - 1 + 1 = cap - 1 + k := by omega
  rw [hl4] at hloss
  exact ⟨o, m.sma, loss, loss', by rw [List.getLast?_eq_getElem?]; exact ho, hloss, hloss', hsum, hsum'⟩

theorem twoPrices_far (cap n a k k1 b Y X : Nat) (hn : n = cap - 1) (hk1 : k1 = k + 1) (hcap : 2 ≤ cap)
    (hc : 2 * cap ≤ U32) (hab : b ≤ a) (ha : a * DEC < U128) (hL : cap + k ≤ b * DEC) (hk : cap ≤ k)
    (hY : b * DEC = Y)
    (hX : ∀ o m loss loss', loss ≤ (cap - 1) * (cap - 1 + k) → loss' ≤ (cap - 2) * (cap - 1) →
      cap * o + loss = m + (cap - 1) * (b * DEC) → (cap - 1) * m + loss' = (cap - 1) * (a * DEC) → X < o) :
    let s := run (initial cap) (twoPrices n a k1 b)
    (∀ o ∈ lastN k s.log, o.price = Y) ∧ (lastN k s.log).length = k ∧
    ∃ o, s.log.getLast? = some o ∧ X < o.sma := by
  intro s
  obtain ⟨h1, h2, o, m, loss, loss', h3, h4, h5, h6, h7⟩ :=
    twoPrices_sma cap n a k k1 b hn hk1 hcap hc hab ha hL hk
  exact ⟨fun o ho => (h1 o ho).trans hY, h2, o, h3, hX _ _ _ _ h4 h5 h6 h7⟩

theorem two_arith {o m loss loss' : Nat} (h4 : loss ≤ (3000 - 1) * (3000 - 1 + 6000))
    (h5 : loss' ≤ (3000 - 2) * (3000 - 1)) (h6 : 3000 * o + loss = m + (3000 - 1) * (1 * DEC))
    (h7 : (3000 - 1) * m + loss' = (3000 - 1) * (3001 * DEC)) : 199 * 10 ^ 16 < o := by
  norm_num [DEC] at *
  omega

/-- **C22 is violated at the capacity used by the code (3000).**  2999 trades at price 3001 are
followed by 6001 trades at price 1.  The last 6000 observed prices all equal 1, yet the stored average is
above 1.99. -/
theorem C22_moving_average_violated :
    let s := run (initial 3000) (twoPrices 2999 3001 6001 1)
    (∀ o ∈ lastN 6000 s.log, o.price = 10 ^ 18) ∧ (lastN 6000 s.log).length = 6000 ∧
    ∃ o, s.log.getLast? = some o ∧ 199 * 10 ^ 16 < o.sma := by
  exact twoPrices_far 3000 2999 3001 6000 6001 1 (10 ^ 18) (199 * 10 ^ 16) (by norm_num) (by norm_num)
    (by norm_num) (by norm_num [U32]) (by norm_num) (by norm_num [DEC, U128]) (by norm_num [DEC])
    (by norm_num) (by norm_num [DEC]) (fun _ _ _ _ => two_arith)

/-! ### The average can freeze the pair -/

/-- What `accumulate_swap_sizes` does when an older observation exists. -/
theorem accumulate_eq {cap : Nat} (hcap : 2 ≤ cap) (hc : 2 * cap ≤ U32) {s : State} (hi : Inv cap s)
    (now : Nat) {p : Pre} (hp : s.pre = some p) (hq : p.quote ≠ 0) (hU : p.base * DEC / p.quote < U128)
    {last : Obs} (hl : s.log.getLast? = some last) (hts : last.ts < p.ts) :
    ∃ m : Mgr Obs, m.cap = cap ∧ m.head = s.log.length % cap ∧ RepM cap s.log m s.store ∧
      accumulateSwapSizes s now = (do
        let sma ← nextSma m last (p.base * DEC / p.quote)
          (if cap ≤ s.log.length + 1 then s.log[s.log.length + 1 - cap]? else none)
        pushObs s m { ts := p.ts, price := p.base * DEC / p.quote, sma := sma }) := by
  obtain ⟨m, hnew, rm, hpr⟩ := repS_new hi.1
  have hlast := repM_readLast rm hpr hc
  have hr : Rep cap s.log m.head s.store.arr := by simpa [hpr] using rm.2.2
  have hh : m.head < cap := by rw [hr.head_eq]; exact Nat.mod_lt _ (by omega)
  have hprice : decFromRatio p.base p.quote = .ok (p.base * DEC / p.quote) := by
    rw [decFromRatio_ok]; exact ⟨hq, by omega, rfl⟩
  refine ⟨m, rm.1, hr.head_eq, rm, ?_⟩
  unfold accumulateSwapSizes
  rw [hp]
  simp only [hnew, ok_bind, hprice, hlast, hl]
  rw [if_pos hts]
  have hk : u32 (m.head + 1) = .ok (m.head + 1) := by rw [u32_ok]; exact ⟨by omega, rfl⟩
  have hrd : readSingle m s.store (m.head + 1) = .ok (s.store.arr ((m.head + 1) % cap)) := by
    unfold readSingle; rw [rm.1, if_neg (by omega)]
  rw [hk, ok_bind, hrd, ok_bind, rep_slot hr (by omega)]

/-- `n` trades, one per second: the first `cap - 1` at price `10^-18·P` and the others at
`10^-18·(P - 1)`. -/
def falling (cap P n : Nat) : List Trade :=
  (List.range n).map (fun i => ⟨i + 1, if i + 1 < cap then P else P - 1, DEC, true⟩)

theorem falling_succ (cap P n : Nat) :
    falling cap P (n + 1) = falling cap P n ++ [⟨n + 1, if n + 1 < cap then P else P - 1, DEC, true⟩] := by
  unfold falling
  rw [List.range_succ, List.map_append]
  rfl

/-- The observations made along `falling`: the average loses one unit per trade at the lower price. -/
def fallingObs (P cap i : Nat) : Obs :=
  if i + 1 < cap then ⟨i + 1, P, P⟩ else ⟨i + 1, P - 1, P - (i + 2 - cap)⟩

theorem falling_price (x : Nat) : x * DEC / DEC = x := Nat.mul_div_cancel _ DEC_pos

/-- One trade that commits the pending observation. -/
theorem step_push {cap : Nat} (hcap : 2 ≤ cap) (hc : 2 * cap ≤ U32) {s : State} (hi : Inv cap s) (t : Trade)
    (hbig : t.big = true) {p : Pre} (hp : s.pre = some p) (hnow : p.ts < t.now) (hq : p.quote ≠ 0)
    (hU : p.base * DEC / p.quote < U128) {last : Obs} (hl : s.log.getLast? = some last)
    (hts : last.ts < p.ts) {sma : Nat}
    (hs : ∀ m : Mgr Obs, m.cap = cap → m.head = s.log.length % cap →
      nextSma m last (p.base * DEC / p.quote)
        (if cap ≤ s.log.length + 1 then s.log[s.log.length + 1 - cap]? else none) = .ok sma) :
    (step s t).log = s.log ++ [⟨p.ts, p.base * DEC / p.quote, sma⟩] ∧
    (step s t).pre = some ⟨t.base, t.quote, t.now⟩ := by
  obtain ⟨m, h1, h2, h3, h4⟩ := accumulate_eq hcap hc hi t.now hp hq hU hl hts
  rw [hs m h1 h2, ok_bind] at h4
  obtain ⟨s1, e1, e2, e3, _⟩ := pushObs_spec h3 { ts := p.ts, price := p.base * DEC / p.quote, sma := sma }
  have : trade s t.now t.base t.quote t.big = .ok { s1 with pre := some ⟨t.base, t.quote, t.now⟩ } := by
    unfold trade
    rw [h4, e1, ok_bind, hbig]
    simp only [if_true]
    unfold savePre
    rw [e3, hp]
    simp only
    rw [if_neg (by omega)]
  rw [step_ok this]
  exact ⟨e2, rfl⟩

theorem falling_run (cap P : Nat) (hcap : 3 ≤ cap) (hc : 2 * cap ≤ U32) (hP : P + 2 ≤ cap) (hP1 : 1 ≤ P)
    (n n1 : Nat) (hn1 : n1 = n + 1) (hn : n ≤ cap - 1 + P) :
    (run (initial cap) (falling cap P n1)).log = (List.range n).map (fallingObs P cap) ∧
    (run (initial cap) (falling cap P n1)).pre = some ⟨if n + 1 < cap then P else P - 1, DEC, n + 1⟩ := by
  subst hn1
  have hUb : P < U128 := by
    have : U32 ≤ U128 := by norm_num [U32, U128]
    omega
  have hD := DEC_pos
  induction n with
  | zero =>
    rw [falling_succ]
    refine ⟨rfl, ?_⟩
    rw [if_pos (by omega)]
    rfl
  | succ n ih =>
    obtain ⟨ih1, ih2⟩ := ih (by omega)
    rw [falling_succ, run_snoc]
    have hi : Inv cap (run (initial cap) (falling cap P (n + 1))) :=
      inv_run (by omega) hc _ (inv_initial (by omega))
    generalize run (initial cap) _ = s at *
    rcases Nat.eq_zero_or_pos n with rfl | hpos
    · -- first observation
      simp only [List.range_zero, List.map_nil] at ih1
      obtain ⟨m, hnew, rm, hpr⟩ := repS_new hi.1
      have hlast := repM_readLast rm hpr hc
      rw [if_pos (by omega)] at ih2
      have hprice : decFromRatio P DEC = .ok P := by
        rw [decFromRatio_ok, falling_price]; exact ⟨by omega, hUb, rfl⟩
      obtain ⟨s1, e1, e2, e3, _⟩ := pushObs_spec rm { ts := 1, price := P, sma := P }
      have hacc : accumulateSwapSizes s 2 = .ok s1 := by
        unfold accumulateSwapSizes
        rw [ih2]
        simp only [hnew, ok_bind, hprice, hlast, ih1, List.getLast?_nil]
        rw [if_pos (by omega)]
        exact e1
      have htr : trade s 2 (if 0 + 1 + 1 < cap then P else P - 1) DEC true =
          .ok { s1 with pre := some ⟨if 0 + 1 + 1 < cap then P else P - 1, DEC, 2⟩ } := by
        unfold trade
        rw [hacc, ok_bind]
        simp only [if_true]
        unfold savePre
        rw [e3, ih2]
        rfl
      rw [step_ok htr]
      refine ⟨?_, rfl⟩
      simp only [e2, ih1]
      have : fallingObs P cap 0 = ⟨1, P, P⟩ := by unfold fallingObs; rw [if_pos (by omega)]
      simp [this]
    · have hlen : s.log.length = n := by rw [ih1]; simp
      have hget : ∀ i, i < n → s.log[i]? = some (fallingObs P cap i) := by
        intro i hi'
        rw [ih1, List.getElem?_map, List.getElem?_range hi']
        rfl
      have hl : s.log.getLast? = some (fallingObs P cap (n - 1)) := by
        rw [List.getLast?_eq_getElem?, hlen]; exact hget _ (by omega)
      have hts : (fallingObs P cap (n - 1)).ts < n + 1 := by
        unfold fallingObs; split <;> simp only <;> omega
      have hpr : (if n + 1 < cap then P else P - 1) * DEC / DEC = if n + 1 < cap then P else P - 1 :=
        falling_price _
      obtain ⟨g1, g2⟩ := step_push (by omega) hc hi
        ⟨n + 1 + 1, if n + 1 + 1 < cap then P else P - 1, DEC, true⟩ rfl ih2 (by simp) (by simp; omega)
        (by simp only [hpr]; split <;> omega) hl hts (sma := (fallingObs P cap n).sma) (by
          intro m hm1 hm2
          rw [hlen] at hm2 ⊢
          simp only [hpr]
          rcases Nat.lt_or_ge (n + 1) cap with hlt | hge
          rotate_left
          · rw [if_pos hge, if_neg (by omega)]
            rw [hget _ (by omega)]
            simp only [nextSma, hm1]
            have hold : (fallingObs P cap (n + 1 - cap)).price = P := by
              unfold fallingObs; rw [if_pos (by omega)]
            rw [hold, safeSma_ok]
            have hs1 : (fallingObs P cap (n - 1)).sma = P - (n + 1 - cap) := by
              unfold fallingObs
              split
              · simp only; omega
              · simp only; omega
            have hs2 : (fallingObs P cap n).sma = P - (n + 2 - cap) := by
              unfold fallingObs; rw [if_neg (by omega)]
            rw [hs1, hs2]
            obtain ⟨q, hq⟩ : ∃ q, P - (n + 1 - cap) = q + 1 := ⟨P - (n + 1 - cap) - 1, by omega⟩
            have hq2 : P - (n + 2 - cap) = q := by omega
            rw [hq, hq2]
            have h1 : (q + 1) * cap + (P - 1) - P = q * cap + (cap - 1) := by
              rw [Nat.add_mul, Nat.one_mul]; omega
            refine ⟨?_, by omega, ?_, by omega⟩
            · rw [Nat.add_mul, Nat.one_mul]; omega
            · rw [h1, Nat.add_comm, Nat.add_mul_div_right _ _ (by omega), Nat.div_eq_of_lt (by omega)]
              omega
          · rw [if_pos hlt, if_neg (Nat.not_le.2 hlt)]
            simp only [nextSma]
            rw [safeSmaNotFull_ok, hm2, Nat.mod_eq_of_lt (by omega)]
            have hs1 : (fallingObs P cap (n - 1)).sma = P := by
              unfold fallingObs; rw [if_pos (by omega)]
            have hs2 : (fallingObs P cap n).sma = P := by
              unfold fallingObs; rw [if_pos (by omega)]
            rw [hs1, hs2]
            refine ⟨?_, hUb⟩
            have : P * n + P = P * (n + 1) := by ring
            rw [this, Nat.mul_div_cancel _ (by omega)])
      rw [g1, g2]
      refine ⟨?_, rfl⟩
      rw [List.range_succ, List.map_append, ih1]
      congr 1
      simp only [List.map_cons, List.map_nil, hpr]
      unfold fallingObs
      split <;> rfl

/-- **C22 is violated, availability.**  At the capacity used by the code: 2999 trades at `10·10^-18` (for
example 10 units of a 6-decimals token for 1 unit of an 18-decimals token), then 11 trades at
`9·10^-18`.  All prices ever seen are at least `9·10^-18`, but the stored average has fallen to zero, and
from then on no swap of any size at any time succeeds. -/
theorem C22_swap_blocked_violated :
    let s := run (initial 3000) (falling 3000 10 3010)
    (∀ o ∈ s.log, 9 ≤ o.price) ∧ (∃ o, s.log.getLast? = some o ∧ o.sma = 0) ∧
    ∀ now base quote big, fails (trade s now base quote big) = true := by
  intro s
  have hcap : (3 : Nat) ≤ 3000 := by norm_num
  have hc : 2 * 3000 ≤ U32 := by norm_num [U32]
  obtain ⟨h1, h2⟩ := falling_run 3000 10 hcap hc (by norm_num) (by norm_num) 3009 3010 (by norm_num)
    (by norm_num)
  change s.log = _ at h1
  change s.pre = _ at h2
  have hi : Inv 3000 s := inv_run (by norm_num) hc _ (inv_initial (by norm_num))
  clear_value s
  have hlen : s.log.length = 3009 := by rw [h1]; simp
  have hget : ∀ i, i < 3009 → s.log[i]? = some (fallingObs 10 3000 i) := by
    intro i hi'
    rw [h1, List.getElem?_map, List.getElem?_range hi']
    rfl
  have hl : s.log.getLast? = some (fallingObs 10 3000 3008) := by
    rw [List.getLast?_eq_getElem?, hlen]; exact hget _ (by omega)
  have hlo : fallingObs 10 3000 3008 = ⟨3009, 9, 0⟩ := by
    unfold fallingObs; rw [if_neg (by omega)]
  rw [hlo] at hl
  refine ⟨?_, ⟨_, hl, rfl⟩, ?_⟩
  · intro o ho
    rw [h1, List.mem_map] at ho
    obtain ⟨i, _, rfl⟩ := ho
    unfold fallingObs
    split
    · show 9 ≤ 10; omega
    · show 9 ≤ 10 - 1; omega
  · intro now base quote big
    rw [if_neg (by omega)] at h2
    have hpr : (10 - 1) * DEC / DEC = 9 := falling_price _
    obtain ⟨m, m1, _, _, he⟩ := accumulate_eq (by norm_num) hc hi now h2 (by have := DEC_pos; simp; omega)
      (by simp only [hpr]; norm_num [U128]) hl (by simp)
    simp only [hpr] at he
    rw [if_pos (by omega), hlen, hget _ (by omega)] at he
    have hold : (fallingObs 10 3000 (3009 + 1 - 3000)).price = 10 := by
      unfold fallingObs; rw [if_pos (by omega)]
    have hn : nextSma m ⟨3009, 9, 0⟩ 9 (some (fallingObs 10 3000 (3009 + 1 - 3000))) = .error .underflow := by
      simp only [nextSma, hold, safeSma, m1]
      rfl
    rw [hn] at he
    unfold trade
    rw [he]
    rfl

end Verif.Observation
