import Verif.Vesting.Spec
import Verif.Base.Arith
import Mathlib.Algebra.BigOperators.Group.List.Basic

namespace Verif.Vesting

theorem due_le_total {s : Schedule} (h : s.Valid) (t : Nat) : due s t ≤ total s := by
  unfold due total Schedule.Valid at *
  cases hs : s.stop with
  | none => simp only; split <;> omega
  | some e =>
    rw [hs] at h
    simp only at h ⊢
    split
    · omega
    · split
      · omega
      · have : (e.amount - s.start.amount) * (t - s.start.time) / (e.time - s.start.time) ≤
            e.amount - s.start.amount := mul_div_le_of_le (by omega)
        omega

theorem due_mono {s : Schedule} (h : s.Valid) {t t' : Nat} (ht : t ≤ t') : due s t ≤ due s t' := by
  unfold due Schedule.Valid at *
  by_cases h0 : t < s.start.time
  · rw [if_pos h0]; omega
  have h0' : ¬ t' < s.start.time := by omega
  rw [if_neg h0, if_neg h0']
  cases hs : s.stop with
  | none => exact le_refl _
  | some e =>
    rw [hs] at h
    simp only at h ⊢
    have hle : (e.amount - s.start.amount) * (t - s.start.time) / (e.time - s.start.time) ≤
        (e.amount - s.start.amount) * (t' - s.start.time) / (e.time - s.start.time) :=
      Nat.div_le_div_right (Nat.mul_le_mul_left _ (by omega))
    by_cases h1 : e.time ≤ t
    · have h1' : e.time ≤ t' := by omega
      rw [if_pos h1, if_pos h1']
    · rw [if_neg h1]
      have : (e.amount - s.start.amount) * (t - s.start.time) / (e.time - s.start.time) ≤
              e.amount - s.start.amount := mul_div_le_of_le (by omega)
      split <;> omega

/-- The code's formula computes `due`. -/
theorem unlocked_eq {s : Schedule} (h : s.Valid) {t : Nat} (ht : s.start.time ≤ t) (hU : total s < U128) :
    unlocked s t = .ok (due s t) := by
  have hd := due_le_total h t
  unfold unlocked due total Schedule.Valid at *
  cases hs : s.stop with
  | none => simp only; rw [if_neg (by omega)]
  | some e =>
    rw [hs] at h hU hd
    simp only at h hU hd ⊢
    rw [if_neg (by omega)] at hd ⊢
    have c1 : csub (min t e.time) s.start.time = .ok (min t e.time - s.start.time) := by
      rw [csub_ok]; exact ⟨by omega, rfl⟩
    have c2 : csub e.time s.start.time = .ok (e.time - s.start.time) := by
      rw [csub_ok]; exact ⟨by omega, rfl⟩
    have c3 : csub e.amount s.start.amount = .ok (e.amount - s.start.amount) := by
      rw [csub_ok]; exact ⟨by omega, rfl⟩
    rw [c1, ok_bind, c2, ok_bind]
    split
    next hp =>
      rw [c3, ok_bind]
      have hv : (min t e.time - s.start.time) * (e.amount - s.start.amount) / (e.time - s.start.time) =
          if e.time ≤ t then e.amount - s.start.amount else
            (e.amount - s.start.amount) * (t - s.start.time) / (e.time - s.start.time) := by
        split
        next hle =>
          rw [Nat.min_eq_right hle, Nat.mul_comm, Nat.mul_div_cancel _ (by omega)]
        next hlt =>
          rw [Nat.min_eq_left (by omega), Nat.mul_comm]
      have hle : (if e.time ≤ t then e.amount - s.start.amount else
            (e.amount - s.start.amount) * (t - s.start.time) / (e.time - s.start.time)) ≤
          e.amount - s.start.amount := by
        split
        · exact le_refl _
        · exact mul_div_le_of_le (by omega)
      have c4 : mulRatio (min t e.time - s.start.time) (e.amount - s.start.amount)
          (e.time - s.start.time) = .ok (if e.time ≤ t then e.amount - s.start.amount else
            (e.amount - s.start.amount) * (t - s.start.time) / (e.time - s.start.time)) := by
        rw [mulRatio_ok, hv]
        exact ⟨by omega, by omega, rfl⟩
      rw [c4, ok_bind, u128_ok]
      refine ⟨by omega, ?_⟩
      split
      · omega
      · rfl
    next hp =>
      have : t = s.start.time := by omega
      subst this
      rw [if_neg (by omega)]
      simp

theorem unlocked_due {s : Schedule} (h : s.Valid) {t u : Nat} (ht : s.start.time ≤ t)
    (hu : unlocked s t = .ok u) : u = due s t := by
  unfold unlocked due Schedule.Valid at *
  cases hs : s.stop with
  | none =>
    rw [hs] at hu
    simp only [Except.ok.injEq] at hu ⊢
    rw [if_neg (by omega)]; exact hu.symm
  | some e =>
    rw [hs] at h hu
    simp only [bind_ok_iff, csub_ok] at h hu ⊢
    obtain ⟨p, ⟨h1, rfl⟩, q, ⟨h2, rfl⟩, h3⟩ := hu
    rw [if_neg (by omega)]
    split at h3
    next hp =>
      simp only [bind_ok_iff, csub_ok, mulRatio_ok, u128_ok] at h3
      obtain ⟨d, ⟨h4, rfl⟩, r, ⟨_, _, rfl⟩, _, rfl⟩ := h3
      split
      next hle =>
        rw [Nat.min_eq_right hle, Nat.mul_comm, Nat.mul_div_cancel _ (by omega)]
        omega
      next hlt => rw [Nat.min_eq_left (by omega), Nat.mul_comm]
    next hp =>
      simp only [Except.ok.injEq] at h3
      have : t = s.start.time := by omega
      subst this
      rw [if_neg (by omega)]
      simp [h3]

/-- **C23.**  For every valid schedule that fits 128 bits and every time from the start on, the code computes
`due`; and `due` is `0` before the start, never exceeds the total (end amount), never decreases with time,
and is the total from the end time on. -/
theorem C23_release_curve (s : Schedule) (h : s.Valid) (hU : total s < U128) :
    (∀ t, s.start.time ≤ t → unlocked s t = .ok (due s t)) ∧
    (∀ t, t < s.start.time → due s t = 0) ∧
    (∀ t, due s t ≤ total s) ∧
    (∀ t t', t ≤ t' → due s t ≤ due s t') ∧
    (∀ e, s.stop = some e → ∀ t, e.time ≤ t → due s t = e.amount) ∧
    (∀ t, s.stop = none → s.start.time ≤ t → due s t = s.start.amount) := by
  refine ⟨fun t ht => unlocked_eq h ht hU, fun t ht => by unfold due; rw [if_pos ht],
    due_le_total h, fun t t' => due_mono h, fun e he t ht => ?_, fun t hn ht => ?_⟩
  · unfold due Schedule.Valid at *
    rw [he] at h
    simp only at h
    rw [he, if_neg (by omega)]
    simp only
    rw [if_pos ht]
  · unfold due
    rw [hn, if_neg (by omega)]

example : let s : Schedule := ⟨⟨100, 10⟩, some ⟨200, 1010⟩⟩
    s.Valid ∧ due s 99 = 0 ∧ due s 100 = 10 ∧ due s 133 = 340 ∧ due s 200 = 1010 := by
  refine ⟨⟨by decide, by decide⟩, by decide, by decide, by decide, by decide⟩

/-- The sum loop adds up the dues. -/
theorem sumUnlocked_due {ss : List Schedule} (h : ∀ s ∈ ss, s.Valid) {t acc u : Nat}
    (hu : sumUnlocked t acc ss = .ok u) : u = acc + dueAll ss t := by
  induction ss generalizing acc with
  | nil => simp [sumUnlocked] at hu; simp [dueAll, hu]
  | cons s ss ih =>
    have ih := fun {acc} => @ih (fun s hs => h s (by simp [hs])) acc
    have e : dueAll (s :: ss) t = due s t + dueAll ss t := by simp [dueAll]
    unfold sumUnlocked at hu
    split at hu
    next hlt =>
      have : due s t = 0 := by unfold due; rw [if_pos hlt]
      rw [ih hu, e, this]; omega
    next hge =>
      simp only [bind_ok_iff, u128_ok] at hu
      obtain ⟨v, hv, a, ⟨_, rfl⟩, hu⟩ := hu
      have := unlocked_due (h s (by simp)) (by omega) hv
      rw [ih hu, e, this]; omega

theorem sumUnlocked_ok {ss : List Schedule} (h : ∀ s ∈ ss, s.Valid) {t acc : Nat}
    (hU : acc + totalAll ss < U128) : sumUnlocked t acc ss = .ok (acc + dueAll ss t) := by
  induction ss generalizing acc with
  | nil => simp [sumUnlocked, dueAll]
  | cons s ss ih =>
    have e : dueAll (s :: ss) t = due s t + dueAll ss t := by simp [dueAll]
    have e2 : totalAll (s :: ss) = total s + totalAll ss := by simp [totalAll]
    have hd := due_le_total (h s (by simp)) t
    unfold sumUnlocked
    split
    next hlt =>
      have : due s t = 0 := by unfold due; rw [if_pos hlt]
      rw [ih (fun s hs => h s (by simp [hs])) (by omega), e, this]; congr 1; omega
    next hge =>
      rw [unlocked_eq (h s (by simp)) (by omega) (by omega), ok_bind]
      have : u128 (acc + due s t) = .ok (acc + due s t) := by rw [u128_ok]; exact ⟨by omega, rfl⟩
      rw [this, ok_bind, ih (fun s hs => h s (by simp [hs])) (by omega), e]
      congr 1; omega

theorem dueAll_mono {ss : List Schedule} (h : ∀ s ∈ ss, s.Valid) {t t' : Nat} (ht : t ≤ t') :
    dueAll ss t ≤ dueAll ss t' := by
  induction ss with
  | nil => simp [dueAll]
  | cons s ss ih =>
    have := due_mono (h s (by simp)) ht
    have := ih (fun s hs => h s (by simp [hs]))
    simp only [dueAll, List.map_cons, List.sum_cons] at *
    omega

theorem dueAll_le_total {ss : List Schedule} (h : ∀ s ∈ ss, s.Valid) (t : Nat) :
    dueAll ss t ≤ totalAll ss := by
  induction ss with
  | nil => simp [dueAll]
  | cons s ss ih =>
    have := due_le_total (h s (by simp)) t
    have := ih (fun s hs => h s (by simp [hs]))
    simp only [dueAll, totalAll, List.map_cons, List.sum_cons] at *
    omega

theorem available_ok {i : Info} (h : ∀ s ∈ i.schedules, s.Valid) {t x : Nat}
    (ha : available t i = .ok x) : i.released ≤ dueAll i.schedules t ∧ x = dueAll i.schedules t - i.released := by
  unfold available at ha
  simp only [bind_ok_iff, csub_ok] at ha
  obtain ⟨u, hu, h1, rfl⟩ := ha
  have := sumUnlocked_due h hu
  simp only [Nat.zero_add] at this
  subst this
  exact ⟨h1, rfl⟩

theorem validSchedule_valid {now : Nat} {s : Schedule} (h : validSchedule now s = true) : s.Valid := by
  unfold validSchedule at h
  unfold Schedule.Valid
  split
  · trivial
  next e he =>
    rw [he] at h
    simp only [Bool.and_eq_true, decide_eq_true_eq] at h
    exact ⟨h.1.1, h.2⟩

theorem addTotals_ok {acc d : Nat} {ss : List Schedule} (h : addTotals acc ss = .ok d) :
    d = acc + totalAll ss := by
  induction ss generalizing acc with
  | nil => simp [addTotals] at h; simp [totalAll, h]
  | cons s ss ih =>
    unfold addTotals at h
    simp only [bind_ok_iff, u128_ok] at h
    obtain ⟨a, ⟨_, rfl⟩, h⟩ := h
    rw [ih h]
    simp [totalAll]; omega

theorem mem_filter_active_iff {t : Nat} {ss : List Schedule} {sch : Schedule}
    (h : ss.filter (active t) = [sch]) : ∃ l r, ss = l ++ sch :: r ∧ active t sch = true ∧
      (∀ x ∈ l, active t x = false) ∧ (∀ x ∈ r, active t x = false) := by
  induction ss with
  | nil => simp at h
  | cons x xs ih =>
    by_cases hx : active t x = true
    · rw [List.filter_cons_of_pos hx] at h
      simp only [List.cons.injEq] at h
      obtain ⟨rfl, h⟩ := h
      refine ⟨[], xs, rfl, hx, by simp, ?_⟩
      intro y hy
      rw [List.filter_eq_nil_iff] at h
      simpa using h y hy
    · rw [List.filter_cons_of_neg hx] at h
      obtain ⟨l, r, rfl, h2, h3, h4⟩ := ih h
      refine ⟨x :: l, r, rfl, h2, ?_, h4⟩
      intro y hy
      rcases List.mem_cons.1 hy with rfl | hy
      · simpa using hx
      · exact h3 y hy

theorem sumUnlocked_replace {t acc : Nat} {l r : List Schedule} {x y : Schedule}
    (hx : x.start.time ≤ t) (hy : y.start.time ≤ t) (h : unlocked x t = unlocked y t) :
    sumUnlocked t acc (l ++ x :: r) = sumUnlocked t acc (l ++ y :: r) := by
  induction l generalizing acc with
  | nil =>
    simp only [List.nil_append, sumUnlocked]
    rw [if_neg (Nat.not_lt.2 hx), if_neg (Nat.not_lt.2 hy), h]
  | cons z l ih =>
    simp only [List.cons_append, sumUnlocked, ih]

/-- Effect of the owner's withdrawal on the schedule list. -/
theorem cutActive_ok {t amount : Nat} {ss ss' : List Schedule} (h : cutActive t amount ss = .ok ss')
    (hv : ∀ s ∈ ss, s.Valid) :
    ∃ l r sch sch', ss = l ++ sch :: r ∧ ss' = l ++ sch' :: r ∧ cutSchedule t amount sch = .ok sch' ∧
      sch'.Valid ∧ due sch' t = due sch t ∧ total sch' + amount = total sch ∧
      (∀ acc, sumUnlocked t acc ss' = sumUnlocked t acc ss) := by
  unfold cutActive at h
  split at h
  · simp at h
  next sch hf =>
    simp only [bind_ok_iff, Except.ok.injEq] at h
    obtain ⟨sch', hc, rfl⟩ := h
    obtain ⟨l, r, rfl, h2, h3, h4⟩ := mem_filter_active_iff hf
    have hvs : sch.Valid := hv sch (by simp)
    have hmap : List.map (fun x => if active t x = true then sch' else x) (l ++ sch :: r) =
        l ++ sch' :: r := by
      rw [List.map_append, List.map_cons, if_pos h2]
      congr 1
      · rw [List.map_congr_left (g := id) (fun x hx => by rw [h3 x hx]; rfl)]; simp
      · congr 1
        rw [List.map_congr_left (g := id) (fun x hx => by rw [h4 x hx]; rfl)]; simp
    refine ⟨l, r, sch, sch', rfl, hmap, hc, ?_⟩
    rw [hmap]
    · unfold cutSchedule at hc
      simp only [bind_ok_iff, orErr_ok, csub_ok, require_ok, exists_const, Except.ok.injEq] at hc
      obtain ⟨e, he, u, hu, lf, ⟨h5, rfl⟩, h6, am, ⟨h7, rfl⟩, rfl⟩ := hc
      unfold active at h2
      rw [he] at h2
      simp only [ge_iff_le, Bool.and_eq_true, decide_eq_true_eq] at h2
      have hud := unlocked_due hvs h2.1 hu
      refine ⟨?_, ?_, ?_, ?_⟩
      · show t < e.time ∧ u < e.amount - amount
        omega
      · rw [← hud]
        unfold due
        simp
        omega
      · unfold total
        rw [he]
        simp only
        omega
      · intro acc
        refine sumUnlocked_replace (le_refl _) h2.1 ?_
        rw [hu]
        unfold unlocked
        have hm : min t e.time = t := Nat.min_eq_left h2.2.le
        have c1 : csub t t = .ok 0 := by rw [csub_ok]; exact ⟨le_refl _, by omega⟩
        have c2 : csub e.time t = .ok (e.time - t) := by rw [csub_ok]; exact ⟨h2.2.le, rfl⟩
        simp only [hm, c1, c2, ok_bind]
        rfl
  · simp at h

section histories
variable {A : Type} [DecidableEq A]

/-- Invariant of the contract. -/
structure Inv (s : State A) : Prop where
  valid : ∀ a i, s.info a = some i → ∀ sch ∈ i.schedules, sch.Valid
  released : ∀ a i, s.info a = some i → i.released ≤ dueAll i.schedules s.now

theorem registerLoop_ok {now : Nat} {infos infos' : A → Option Info} {acc d : Nat}
    {l : List (A × List Schedule)} (h : registerLoop now infos acc l = .ok (infos', d)) :
    (∀ a, ∃ new, (∀ s ∈ new, s.Valid) ∧
      ((infos' a = infos a ∧ new = []) ∨ ∃ i', infos' a = some i' ∧
        i'.schedules = new ++ (match infos a with | none => [] | some i => i.schedules) ∧
        i'.released = match infos a with | none => 0 | some i => i.released)) := by
  induction l generalizing infos acc with
  | nil =>
    simp [registerLoop] at h
    intro a
    exact ⟨[], by simp, Or.inl ⟨by rw [h.1], rfl⟩⟩
  | cons x rest ih =>
    obtain ⟨b, ss⟩ := x
    unfold registerLoop at h
    simp only [bind_ok_iff, require_ok, exists_const] at h
    obtain ⟨hv, acc', hacc, i, hm, h⟩ := h
    have hv' : ∀ s ∈ ss, s.Valid := fun s hs => validSchedule_valid (List.all_eq_true.1 hv s hs)
    intro a
    obtain ⟨new, hn, h1⟩ := ih h a
    by_cases hab : a = b
    · subst hab
      simp only [Function.update_self] at h1
      have hi : i.schedules = ss ++ (match infos a with | none => [] | some i => i.schedules) ∧
          i.released = match infos a with | none => 0 | some i => i.released := by
        unfold mergeInfo at hm
        split at hm
        next hnone =>
          simp only [Except.ok.injEq] at hm
          subst hm; simp [hnone]
        next o hsome =>
          simp only [bind_ok_iff, require_ok, exists_const, Except.ok.injEq] at hm
          obtain ⟨_, rfl⟩ := hm
          simp [hsome]
      rcases h1 with ⟨h2, h3⟩ | ⟨i', h2, h3, h4⟩
      · exact ⟨ss, hv', Or.inr ⟨i, h2, hi.1, hi.2⟩⟩
      · refine ⟨new ++ ss, ?_, Or.inr ⟨i', h2, ?_, ?_⟩⟩
        · intro s hs
          rcases List.mem_append.1 hs with hs | hs
          · exact hn s hs
          · exact hv' s hs
        · rw [h3, hi.1, List.append_assoc]
        · rw [h4, hi.2]
    · rw [Function.update_of_ne hab] at h1
      exact ⟨new, hn, h1⟩

theorem inv_withdraw {me : A} {s s' : State A} {a acc : A} {r : Option A} {n : Nat} (hi : Inv s)
    (h : withdraw me s a acc r n = .ok s') : Inv s' := by
  unfold withdraw at h
  simp only [bind_ok_iff, require_ok, exists_const, orErr_ok, Except.ok.injEq] at h
  obtain ⟨_, _, i, hia, ss, hss, bal, _, rfl⟩ := h
  have hva := hi.valid acc i hia
  obtain ⟨l, rr, sch, sch', he, he', _, hv', hd, ht, hsu⟩ := cutActive_ok hss hva
  constructor
  · intro b j hb x hx
    by_cases hab : b = acc
    · subst hab
      simp only [Function.update_self, Option.some.injEq] at hb
      subst hb
      simp only [he'] at hx
      rw [he] at hva
      rcases List.mem_append.1 hx with hx | hx
      · exact hva x (by simp [hx])
      · rcases List.mem_cons.1 hx with rfl | hx
        · exact hv'
        · exact hva x (by simp [hx])
    · simp only [Function.update_of_ne hab] at hb
      exact hi.valid b j hb x hx
  · intro b j hb
    by_cases hab : b = acc
    · subst hab
      simp only [Function.update_self, Option.some.injEq] at hb
      subst hb
      have := hi.released b i hia
      simp only [he', he, dueAll, List.map_append, List.sum_append, List.map_cons, List.sum_cons] at this ⊢
      omega
    · simp only [Function.update_of_ne hab] at hb
      exact hi.released b j hb

theorem inv_step {me : A} {s s' : State A} {op : Op A} {x : Nat} (hi : Inv s)
    (h : exec me s op = .ok (s', x)) : Inv s' := by
  cases op with
  | register a l n =>
    simp only [exec, bind_ok_iff, require_ok, exists_const, Except.ok.injEq, Prod.mk.injEq] at h
    obtain ⟨_, s1, h, rfl, rfl⟩ := h
    unfold register at h
    simp only [bind_ok_iff, require_ok, exists_const, Except.ok.injEq, Prod.exists] at h
    obtain ⟨bal, _, _, infos, d, hl, _, rfl⟩ := h
    have hr := registerLoop_ok hl
    constructor
    · intro b i hb sch hs
      obtain ⟨new, hn, h1⟩ := hr b
      change infos b = some i at hb
      rcases h1 with ⟨h2, _⟩ | ⟨i', h2, h3, _⟩
      · rw [h2] at hb; exact hi.valid b i hb sch hs
      · rw [h2] at hb
        simp only [Option.some.injEq] at hb
        subst hb
        rw [h3] at hs
        rcases List.mem_append.1 hs with hs | hs
        · exact hn sch hs
        · cases hb : s.info b with
          | none => rw [hb] at hs; simp at hs
          | some j => rw [hb] at hs; exact hi.valid b j hb sch hs
    · intro b i hb
      obtain ⟨new, hn, h1⟩ := hr b
      change infos b = some i at hb
      rcases h1 with ⟨h2, _⟩ | ⟨i', h2, h3, h4⟩
      · rw [h2] at hb; exact hi.released b i hb
      · rw [h2] at hb
        simp only [Option.some.injEq] at hb
        subst hb
        rw [h4, h3]
        cases hb : s.info b with
        | none => simp
        | some j =>
          have := hi.released b j hb
          simp only [dueAll, List.map_append, List.sum_append] at this ⊢
          omega
  | claim a r n =>
    simp only [exec, bind_ok_iff, require_ok, exists_const] at h
    obtain ⟨_, h⟩ := h
    unfold claim at h
    simp only [bind_ok_iff, orErr_ok] at h
    obtain ⟨i, hia, av, hav, y, hy, h⟩ := h
    split at h
    · simp only [bind_ok_iff, u128_ok, Except.ok.injEq, Prod.mk.injEq] at h
      obtain ⟨rr, ⟨_, rfl⟩, bal, _, rfl, rfl⟩ := h
      have ha := available_ok (hi.valid a i hia) hav
      have hle : y ≤ av := by
        unfold claimAmount at hy
        split at hy
        · simp only [bind_ok_iff, require_ok, exists_const, Except.ok.injEq] at hy; omega
        · simp only [Except.ok.injEq] at hy; omega
      constructor
      · intro b j hb sch hs
        by_cases hab : b = a
        · subst hab
          simp only [Function.update_self, Option.some.injEq] at hb
          subst hb
          exact hi.valid b i hia sch hs
        · simp only [Function.update_of_ne hab] at hb
          exact hi.valid b j hb sch hs
      · intro b j hb
        by_cases hab : b = a
        · subst hab
          simp only [Function.update_self, Option.some.injEq] at hb
          subst hb
          simp only
          omega
        · simp only [Function.update_of_ne hab] at hb
          exact hi.released b j hb
    · simp only [Except.ok.injEq, Prod.mk.injEq] at h
      obtain ⟨rfl, rfl⟩ := h
      exact hi
  | withdraw a acc r n =>
    simp only [exec, bind_ok_iff, require_ok, exists_const, Except.ok.injEq, Prod.mk.injEq] at h
    obtain ⟨_, s1, h, rfl, rfl⟩ := h
    exact inv_withdraw hi h
  | transfer a b n =>
    simp only [exec, bind_ok_iff, require_ok, exists_const, Except.ok.injEq, Prod.mk.injEq] at h
    obtain ⟨_, bal, _, rfl, _⟩ := h
    exact ⟨hi.valid, hi.released⟩
  | setOwner a =>
    simp only [exec, Except.ok.injEq, Prod.mk.injEq] at h
    obtain ⟨rfl, _⟩ := h
    exact ⟨hi.valid, hi.released⟩
  | wait d =>
    simp only [exec, Except.ok.injEq, Prod.mk.injEq] at h
    obtain ⟨rfl, _⟩ := h
    refine ⟨hi.valid, fun b i hb => (hi.released b i hb).trans ?_⟩
    exact dueAll_mono (hi.valid b i hb) (Nat.le_add_right _ _)

theorem inv_run {me : A} {s : State A} (hi : Inv s) (ops : List (Op A)) : Inv (run me s ops) := by
  induction ops generalizing s with
  | nil => exact hi
  | cons op ops ih =>
    apply ih
    unfold step
    exact commit_inv Inv hi (fun s' x h => inv_step hi h)

theorem inv_initial (owner : A) (bal : A → Nat) (now : Nat) : Inv (initial owner bal now) :=
  ⟨by simp [initial], by simp [initial]⟩

/-- A transaction changes an account's released amount exactly by what it pays that account's claim. -/
theorem released_step {me : A} {s s' : State A} {op : Op A} {x : Nat} (h : exec me s op = .ok (s', x))
    (a : A) : releasedOf s' a = releasedOf s a + claimedBy me s a op := by
  unfold claimedBy
  rw [h]
  cases op with
  | register b l n =>
    simp only [exec, bind_ok_iff, require_ok, exists_const, Except.ok.injEq, Prod.mk.injEq] at h
    obtain ⟨_, s1, h, rfl, rfl⟩ := h
    unfold register at h
    simp only [bind_ok_iff, require_ok, exists_const, Except.ok.injEq, Prod.exists] at h
    obtain ⟨bal, _, _, infos, d, hl, _, rfl⟩ := h
    obtain ⟨new, _, h1⟩ := registerLoop_ok hl a
    unfold releasedOf
    rcases h1 with ⟨h2, _⟩ | ⟨i', h2, _, h4⟩
    · simp only [h2]; rfl
    · simp only [h2, h4]
      cases s.info a <;> rfl
  | claim b r n =>
    simp only [exec, bind_ok_iff, require_ok, exists_const] at h
    obtain ⟨_, h⟩ := h
    unfold claim at h
    simp only [bind_ok_iff, orErr_ok] at h
    obtain ⟨i, hia, av, hav, y, hy, h⟩ := h
    split at h
    · simp only [bind_ok_iff, u128_ok, Except.ok.injEq, Prod.mk.injEq] at h
      obtain ⟨rr, ⟨_, rfl⟩, bal, _, rfl, rfl⟩ := h
      unfold releasedOf
      by_cases hab : a = b
      · subst hab
        simp [hia]
      · simp [Function.update_of_ne hab, Ne.symm hab]
    next h0 =>
      simp only [Except.ok.injEq, Prod.mk.injEq] at h
      obtain ⟨rfl, rfl⟩ := h
      have : y = 0 := by simpa using h0
      simp [this]
  | withdraw b acc r n =>
    simp only [exec, bind_ok_iff, require_ok, exists_const, Except.ok.injEq, Prod.mk.injEq] at h
    obtain ⟨_, s1, h, rfl, rfl⟩ := h
    unfold withdraw at h
    simp only [bind_ok_iff, require_ok, exists_const, orErr_ok, Except.ok.injEq] at h
    obtain ⟨_, _, i, hia, ss, hss, bal, _, rfl⟩ := h
    unfold releasedOf
    by_cases hab : a = acc
    · subst hab
      simp [hia]
    · simp [Function.update_of_ne hab]
  | transfer b c n =>
    simp only [exec, bind_ok_iff, require_ok, exists_const, Except.ok.injEq, Prod.mk.injEq] at h
    obtain ⟨_, bal, _, rfl, _⟩ := h
    rfl
  | setOwner b =>
    simp only [exec, Except.ok.injEq, Prod.mk.injEq] at h
    obtain ⟨rfl, _⟩ := h
    rfl
  | wait d =>
    simp only [exec, Except.ok.injEq, Prod.mk.injEq] at h
    obtain ⟨rfl, _⟩ := h
    rfl

theorem released_run (me : A) (s : State A) (ops : List (Op A)) (a : A) :
    releasedOf (run me s ops) a = releasedOf s a + totalClaimed me a s ops := by
  induction ops generalizing s with
  | nil => simp [run, totalClaimed]
  | cons op ops ih =>
    have e : run me s (op :: ops) = run me (step me s op) ops := rfl
    have e2 : totalClaimed me a s (op :: ops) =
        claimedBy me s a op + totalClaimed me a (step me s op) ops := rfl
    rw [e, ih, e2, ← Nat.add_assoc]
    congr 1
    unfold step
    cases hx : exec me s op with
    | error er => simp [commit, claimedBy, hx]
    | ok p =>
      obtain ⟨s', x⟩ := p
      exact released_step hx a

/-- **C24.**  After any history from instantiation, the total ever paid to `a`'s claims does not exceed what `a`'s
schedules have unlocked by now; the available amount, when the query succeeds, is exactly the difference;
and a full claim (no amount given), when it succeeds, pays exactly that difference, so that afterwards the
total paid equals what has been unlocked, whatever was claimed before.  A partial claim pays exactly the
requested amount, which is at most the difference. -/
theorem C24_claims_exact (me owner : A) (bal : A → Nat) (now : Nat) (ops : List (Op A)) (a : A) :
    let s := run me (initial owner bal now) ops
    let paid := totalClaimed me a (initial owner bal now) ops
    let unlockedNow := dueAll (schedulesOf s a) s.now
    paid ≤ unlockedNow ∧
    (∀ x, queryAvailable s a = .ok x → paid + x = unlockedNow) ∧
    (∀ r s' x, claim me s a r none = .ok (s', x) → paid + x = unlockedNow) ∧
    (∀ r n s' x, claim me s a r (some n) = .ok (s', x) → x = n ∧ paid + n ≤ unlockedNow) := by
  intro s paid unl
  have hi : Inv s := inv_run (inv_initial owner bal now) ops
  have hrel : releasedOf s a = paid := by
    have := released_run me (initial owner bal now) ops a
    simpa [initial, releasedOf, s, paid] using this
  have hle : paid ≤ unl := by
    rw [← hrel]
    simp only [unl]
    unfold releasedOf schedulesOf
    cases hia : s.info a with
    | none => simp
    | some i => exact hi.released a i hia
  have key : ∀ i x, s.info a = some i → available s.now i = .ok x → paid + x = unl := by
    intro i x hia hx
    obtain ⟨h1, rfl⟩ := available_ok (hi.valid a i hia) hx
    have e1 : releasedOf s a = i.released := by unfold releasedOf; rw [hia]
    have e2 : unl = dueAll i.schedules s.now := by simp only [unl]; unfold schedulesOf; rw [hia]
    omega
  refine ⟨hle, ?_, ?_, ?_⟩
  · intro x hx
    unfold queryAvailable at hx
    simp only [bind_ok_iff, orErr_ok] at hx
    obtain ⟨i, hia, hx⟩ := hx
    exact key i x hia hx
  · intro r s' x hx
    unfold claim at hx
    simp only [bind_ok_iff, orErr_ok] at hx
    obtain ⟨i, hia, av, hav, y, hy, h⟩ := hx
    simp only [claimAmount, Except.ok.injEq] at hy
    subst hy
    have hk := key i av hia hav
    split at h
    · simp only [bind_ok_iff, u128_ok, Except.ok.injEq, Prod.mk.injEq] at h
      obtain ⟨_, _, _, _, _, rfl⟩ := h
      exact hk
    · simp only [Except.ok.injEq, Prod.mk.injEq] at h
      obtain ⟨_, rfl⟩ := h
      exact hk
  · intro r n s' x hx
    unfold claim at hx
    simp only [bind_ok_iff, orErr_ok] at hx
    obtain ⟨i, hia, av, hav, y, hy, h⟩ := hx
    simp only [claimAmount, bind_ok_iff, require_ok, exists_const, Except.ok.injEq] at hy
    obtain ⟨hny, rfl⟩ := hy
    have hk := key i av hia hav
    split at h
    · simp only [bind_ok_iff, u128_ok, Except.ok.injEq, Prod.mk.injEq] at h
      obtain ⟨_, _, _, _, _, rfl⟩ := h
      exact ⟨rfl, by omega⟩
    · simp only [Except.ok.injEq, Prod.mk.injEq] at h
      obtain ⟨_, rfl⟩ := h
      exact ⟨rfl, by omega⟩

/-! ## Funding -/

variable [Fintype A]

theorem owed_update (s : State A) (a : A) (i : Info) (f : A → Option Info)
    (hf : f = Function.update s.info a (some i)) (bal : A → Nat) :
    (∑ b, owed { s with info := f, bal := bal } b) + owed s a =
      (∑ b, owed s b) + (totalAll i.schedules - i.released) := by
  subst hf
  have h1 : ∀ b, owed { s with info := Function.update s.info a (some i), bal := bal } b =
      Function.update (owed s) a (totalAll i.schedules - i.released) b := by
    intro b
    by_cases hb : b = a
    · subst hb
      simp [owed, schedulesOf, releasedOf]
    · simp [owed, schedulesOf, releasedOf, Function.update_of_ne hb]
  simp only [h1]
  rw [Finset.sum_update_of_mem (Finset.mem_univ a)]
  have := Finset.add_sum_erase Finset.univ (owed s) (Finset.mem_univ a)
  rw [← Finset.erase_eq, ← this]
  omega

theorem registerLoop_owed {now : Nat} {infos infos' : A → Option Info} {acc d : Nat}
    {l : List (A × List Schedule)} (h : registerLoop now infos acc l = .ok (infos', d)) (s : State A)
    (hs : s.info = infos) (hr : ∀ a, releasedOf s a ≤ totalAll (schedulesOf s a)) :
    (∑ b, owed { s with info := infos' } b) + acc = (∑ b, owed s b) + d := by
  induction l generalizing infos acc s with
  | nil =>
    simp [registerLoop] at h
    obtain ⟨rfl, rfl⟩ := h
    subst hs
    rfl
  | cons x rest ih =>
    obtain ⟨b, ss⟩ := x
    unfold registerLoop at h
    simp only [bind_ok_iff, require_ok, exists_const] at h
    obtain ⟨hv, acc', hacc, i, hm, h⟩ := h
    have hat := addTotals_ok hacc
    subst hs
    have hi : i.schedules = ss ++ schedulesOf s b ∧ i.released = releasedOf s b := by
      unfold mergeInfo at hm
      unfold schedulesOf releasedOf
      split at hm
      next hnone =>
        simp only [Except.ok.injEq] at hm
        subst hm; simp [hnone]
      next o hsome =>
        simp only [bind_ok_iff, require_ok, exists_const, Except.ok.injEq] at hm
        obtain ⟨_, rfl⟩ := hm
        simp [hsome]
    have ht : totalAll i.schedules = totalAll ss + totalAll (schedulesOf s b) := by
      rw [hi.1]; simp [totalAll]
    have h1 := ih h { s with info := Function.update s.info b (some i) } rfl (by
      intro a
      by_cases hab : a = b
      · subst hab
        have := hr a
        simp only [releasedOf, schedulesOf, Function.update_self] at *
        omega
      · have := hr a
        simp only [releasedOf, schedulesOf, Function.update_of_ne hab] at *
        exact this)
    have h2 := owed_update s b i _ rfl s.bal
    simp only at h1
    have h3 : owed s b = totalAll (schedulesOf s b) - releasedOf s b := rfl
    have h4 := hr b
    have e : ({ s with info := Function.update s.info b (some i), bal := s.bal } : State A) =
        { s with info := Function.update s.info b (some i) } := rfl
    rw [e] at h2
    omega

/-- The contract holds at least what it owes. -/
def Funded (me : A) (s : State A) : Prop := ∑ a, owed s a ≤ s.bal me

theorem funded_step {me : A} {s s' : State A} {op : Op A} {x : Nat} (hi : Inv s) (hf : Funded me s)
    (h : exec me s op = .ok (s', x)) : Funded me s' := by
  have hrt : ∀ a, releasedOf s a ≤ totalAll (schedulesOf s a) := by
    intro a
    unfold releasedOf schedulesOf
    cases hia : s.info a with
    | none => simp
    | some i => exact (hi.released a i hia).trans (dueAll_le_total (hi.valid a i hia) _)
  unfold Funded at *
  cases op with
  | register a l n =>
    simp only [exec, bind_ok_iff, require_ok, exists_const, Except.ok.injEq, Prod.mk.injEq] at h
    obtain ⟨hne, s1, h, rfl, rfl⟩ := h
    unfold register at h
    simp only [bind_ok_iff, require_ok, exists_const, Except.ok.injEq, Prod.exists] at h
    obtain ⟨bal, hb, _, infos, d, hl, rfl, rfl⟩ := h
    have h1 := registerLoop_owed hl s rfl hrt
    have h2 := move_apply hb me
    rw [if_neg (Ne.symm hne), if_pos rfl] at h2
    have e : ∑ b, owed { s with info := infos, bal := bal } b = ∑ b, owed { s with info := infos } b := rfl
    simp only [e]
    omega
  | claim a r n =>
    simp only [exec, bind_ok_iff, require_ok, exists_const] at h
    obtain ⟨_, h⟩ := h
    unfold claim at h
    simp only [bind_ok_iff, orErr_ok] at h
    obtain ⟨i, hia, av, hav, y, hy, h⟩ := h
    split at h
    · simp only [bind_ok_iff, u128_ok, Except.ok.injEq, Prod.mk.injEq] at h
      obtain ⟨rr, ⟨_, rfl⟩, bal, hb, rfl, rfl⟩ := h
      have ha := available_ok (hi.valid a i hia) hav
      have hle : y ≤ av := by
        unfold claimAmount at hy
        split at hy
        · simp only [bind_ok_iff, require_ok, exists_const, Except.ok.injEq] at hy; omega
        · simp only [Except.ok.injEq] at hy; omega
      have hdt := dueAll_le_total (hi.valid a i hia) s.now
      have h1 := owed_update s a { i with released := i.released + y } _ rfl bal
      have h2 : owed s a = totalAll i.schedules - i.released := by
        simp [owed, schedulesOf, releasedOf, hia]
      have h3 := move_apply hb me
      have h4 := move_le hb
      simp only at h1 ⊢
      split at h3 <;> split at h3 <;> omega
    · simp only [Except.ok.injEq, Prod.mk.injEq] at h
      obtain ⟨rfl, rfl⟩ := h
      exact hf
  | withdraw a acc r n =>
    simp only [exec, bind_ok_iff, require_ok, exists_const, Except.ok.injEq, Prod.mk.injEq] at h
    obtain ⟨_, s1, h, rfl, rfl⟩ := h
    unfold withdraw at h
    simp only [bind_ok_iff, require_ok, exists_const, orErr_ok, Except.ok.injEq] at h
    obtain ⟨_, _, i, hia, ss, hss, bal, hb, rfl⟩ := h
    obtain ⟨l, rr, sch, sch', he, he', _, hv', hd, ht, hsu⟩ := cutActive_ok hss (hi.valid acc i hia)
    have hdt := dueAll_le_total (hi.valid acc i hia) s.now
    have hrl := hi.released acc i hia
    have h1 := owed_update s acc { i with schedules := ss } _ rfl bal
    have h2 : owed s acc = totalAll i.schedules - i.released := by
      simp [owed, schedulesOf, releasedOf, hia]
    have h3 := move_apply hb me
    have h4 := move_le hb
    have h5 : totalAll ss + n = totalAll i.schedules := by
      rw [he, he']
      simp only [totalAll, List.map_append, List.sum_append, List.map_cons, List.sum_cons]
      omega
    have h6 : dueAll i.schedules s.now ≤ totalAll ss := by
      have hvs : ∀ x ∈ ss, x.Valid := by
        have hva := hi.valid acc i hia
        rw [he] at hva
        rw [he']
        intro x hx
        rcases List.mem_append.1 hx with hx | hx
        · exact hva x (by simp [hx])
        · rcases List.mem_cons.1 hx with rfl | hx
          · exact hv'
          · exact hva x (by simp [hx])
      have h7 := dueAll_le_total hvs s.now
      have h8 : dueAll ss s.now = dueAll i.schedules s.now := by
        rw [he, he']
        simp only [dueAll, List.map_append, List.sum_append, List.map_cons, List.sum_cons]
        omega
      omega
    simp only at h1 ⊢
    split at h3 <;> split at h3 <;> omega
  | transfer a b n =>
    simp only [exec, bind_ok_iff, require_ok, exists_const, Except.ok.injEq, Prod.mk.injEq] at h
    obtain ⟨hne, bal, hb, rfl, _⟩ := h
    have h3 := move_apply hb me
    rw [if_neg (Ne.symm hne)] at h3
    have e : ∑ b, owed { s with bal := bal } b = ∑ b, owed s b := rfl
    simp only [e]
    omega
  | setOwner a =>
    simp only [exec, Except.ok.injEq, Prod.mk.injEq] at h
    obtain ⟨rfl, _⟩ := h
    exact hf
  | wait d =>
    simp only [exec, Except.ok.injEq, Prod.mk.injEq] at h
    obtain ⟨rfl, _⟩ := h
    exact hf

theorem funded_run {me : A} {s : State A} (hi : Inv s) (hf : Funded me s) (ops : List (Op A)) :
    Funded me (run me s ops) := by
  induction ops generalizing s with
  | nil => exact hf
  | cons op ops ih =>
    refine ih ?_ ?_
    · exact commit_inv Inv hi (fun s' x h => inv_step hi h)
    · exact commit_inv (Funded me) hf (fun s' x h => funded_step hi hf h)

/-- **C25.**  After any history, the contract's token balance covers everything it still owes to all
accounts together. -/
theorem C25_fully_funded (me owner : A) (bal : A → Nat) (now : Nat) (ops : List (Op A)) :
    let s := run me (initial owner bal now) ops
    ∑ a, (totalAll (schedulesOf s a) - releasedOf s a) ≤ s.bal me ∧
    ∀ a, releasedOf s a ≤ totalAll (schedulesOf s a) := by
  intro s
  have hi : Inv s := inv_run (inv_initial owner bal now) ops
  refine ⟨funded_run (inv_initial owner bal now) ?_ ops, ?_⟩
  · unfold Funded
    have : ∀ a, owed (initial owner bal now) a = 0 := fun a => rfl
    simp [this]
  · intro a
    unfold releasedOf schedulesOf
    cases hia : s.info a with
    | none => simp
    | some i => exact (hi.released a i hia).trans (dueAll_le_total (hi.valid a i hia) _)

theorem claim_of_funded {me : A} {s : State A} (hi : Inv s) (hf : Funded me s) {a : A} {i : Info} (hia : s.info a = some i)
    (hU : totalAll i.schedules < U128) (r : Option A) :
    ∃ s', claim me s a r none = .ok (s', dueAll i.schedules s.now - i.released) := by
  change ∑ b, owed s b ≤ s.bal me at hf
  have hv := hi.valid a i hia
  have hr := hi.released a i hia
  have hdt := dueAll_le_total hv s.now
  have hav : available s.now i = .ok (dueAll i.schedules s.now - i.released) := by
    unfold available
    rw [sumUnlocked_ok hv (by omega), ok_bind, csub_ok]
    exact ⟨by omega, by omega⟩
  have hoa : owed s a = totalAll i.schedules - i.released := by
    simp [owed, schedulesOf, releasedOf, hia]
  have hle : owed s a ≤ ∑ b, owed s b := le_sum (owed s) a
  unfold claim
  have e1 : orErr (s.info a) (.invalid "not found") = .ok i := by rw [hia]; rfl
  rw [e1, ok_bind, hav, ok_bind]
  simp only [claimAmount, ok_bind]
  split
  · obtain ⟨l', hl'⟩ := move_succeeds (l := s.bal) (a := me) (b := r.getD a)
      (n := dueAll i.schedules s.now - i.released) (by omega)
    have e2 : u128 (i.released + (dueAll i.schedules s.now - i.released)) =
        .ok (i.released + (dueAll i.schedules s.now - i.released)) := by
      rw [u128_ok]; exact ⟨by omega, rfl⟩
    rw [e2, ok_bind, hl', ok_bind]
    exact ⟨_, rfl⟩
  · exact ⟨_, rfl⟩

/-- **C25, liveness.**  Hence a registered account can always claim everything it has unlocked: the claim
succeeds (unless its schedules add up to more than 128 bits). -/
theorem C25_claim_succeeds (me owner : A) (bal : A → Nat) (now : Nat) (ops : List (Op A)) (a : A) (i : Info)
    (hia : (run me (initial owner bal now) ops).info a = some i) (hU : totalAll i.schedules < U128)
    (r : Option A) :
    let s := run me (initial owner bal now) ops
    ∃ s', claim me s a r none = .ok (s', dueAll i.schedules s.now - i.released) :=
  claim_of_funded (inv_run (inv_initial owner bal now) ops) (C25_fully_funded me owner bal now ops).1 hia hU r

omit [Fintype A] in
/-- **C26.**  Whenever the owner's withdrawal from an active schedule succeeds in a reachable state: what the
account has unlocked at this moment, and so what it can claim now, is unchanged; the final total of its
schedules drops by exactly the withdrawn amount; the tokens go from the contract to the receiver; nobody
else's vesting changes; and only the owner can do it. -/
theorem C26_withdraw_keeps_unlocked (me owner : A) (bal : A → Nat) (now : Nat) (ops : List (Op A))
    (sender acc : A) (r : Option A) (n : Nat) (s' : State A)
    (h : withdraw me (run me (initial owner bal now) ops) sender acc r n = .ok s') :
    let s := run me (initial owner bal now) ops
    sender = s.owner ∧
    dueAll (schedulesOf s' acc) s.now = dueAll (schedulesOf s acc) s.now ∧
    totalAll (schedulesOf s' acc) + n = totalAll (schedulesOf s acc) ∧
    releasedOf s' acc = releasedOf s acc ∧ s'.now = s.now ∧
    queryAvailable s' acc = queryAvailable s acc ∧
    (∀ b, b ≠ acc → s'.info b = s.info b) ∧
    move s.bal me (r.getD sender) n = .ok s'.bal := by
  intro s
  have hi : Inv s := inv_run (inv_initial owner bal now) ops
  change withdraw me s sender acc r n = .ok s' at h
  unfold withdraw at h
  simp only [bind_ok_iff, require_ok, exists_const, orErr_ok, Except.ok.injEq] at h
  obtain ⟨_, hown, i, hia, ss, hss, bal', hb, rfl⟩ := h
  obtain ⟨l, rr, sch, sch', he, he', _, hv', hd, ht, hsu⟩ := cutActive_ok hss (hi.valid acc i hia)
  have e1 : schedulesOf s acc = i.schedules := by simp [schedulesOf, hia]
  have e3 : releasedOf s acc = i.released := by simp [releasedOf, hia]
  have hdue : dueAll ss s.now = dueAll i.schedules s.now := by
    rw [he, he']
    simp only [dueAll, List.map_append, List.sum_append, List.map_cons, List.sum_cons]
    omega
  refine ⟨hown, ?_, ?_, ?_, rfl, ?_, ?_, hb⟩
  · rw [e1]
    simp [schedulesOf, hdue]
  · rw [e1]
    simp only [schedulesOf, Function.update_self]
    rw [he, he']
    simp only [totalAll, List.map_append, List.sum_append, List.map_cons, List.sum_cons]
    omega
  · rw [e3]
    simp [releasedOf]
  · unfold queryAvailable
    simp only [Function.update_self, hia]
    show available s.now { i with schedules := ss } = available s.now i
    unfold available
    simp only [hsu]
  · intro b hbne
    simp only [Function.update_of_ne hbne]

omit [Fintype A] [DecidableEq A] in
theorem mergeInfo_length {old : Option Info} {new : List Schedule} {i : Info}
    (h : mergeInfo old new = .ok i) :
    (∀ o, old = some o → o.schedules.length < 8 ∧ i.schedules.length = new.length + o.schedules.length) ∧
    (old = none → i.schedules.length = new.length) := by
  unfold mergeInfo at h
  cases old with
  | none =>
    simp only [Except.ok.injEq] at h
    subst h
    simp
  | some o =>
    simp only [bind_ok_iff, require_ok, exists_const, Except.ok.injEq] at h
    obtain ⟨h1, rfl⟩ := h
    unfold schedulesLimit at h1
    simp
    omega

omit [Fintype A] in
theorem registerLoop_limit {now : Nat} {infos infos' : A → Option Info} {acc d : Nat}
    {l : List (A × List Schedule)} (h : registerLoop now infos acc l = .ok (infos', d))
    (h1 : ∀ e ∈ l, e.2.length ≤ 1) (h8 : ∀ a i, infos a = some i → i.schedules.length ≤ 8) :
    ∀ a i, infos' a = some i → i.schedules.length ≤ 8 := by
  induction l generalizing infos acc with
  | nil =>
    simp [registerLoop] at h
    rw [← h.1]; exact h8
  | cons x rest ih =>
    obtain ⟨b, ss⟩ := x
    unfold registerLoop at h
    simp only [bind_ok_iff, require_ok, exists_const] at h
    obtain ⟨hv, acc', hacc, i, hm, h⟩ := h
    refine ih h (fun e he => h1 e (by simp [he])) ?_
    have hl := mergeInfo_length hm
    have hs : ss.length ≤ 1 := h1 (b, ss) (by simp)
    intro a j hj
    by_cases hab : a = b
    · subst hab
      simp only [Function.update_self, Option.some.injEq] at hj
      subst hj
      cases ho : infos a with
      | none => have := hl.2 ho; omega
      | some o => have := hl.1 o ho; omega
    · rw [Function.update_of_ne hab] at hj
      exact h8 a j hj

omit [Fintype A] in
/-- **C27 (partial).**  If every entry of every registration carries at most one schedule, no account ever has
more than 8 schedules, in any history.  Missing: entries with more than one schedule, for which the code
does not enforce the limit (see `C27_limit_violated`). -/
theorem C27_limit_partial (me owner : A) (bal : A → Nat) (now : Nat) (ops : List (Op A))
    (hops : ∀ b l n, Op.register b l n ∈ ops → ∀ e ∈ l, e.2.length ≤ 1) (a : A) :
    (schedulesOf (run me (initial owner bal now) ops) a).length ≤ 8 := by
  suffices H : ∀ (ops : List (Op A)) (s : State A),
      (∀ b l n, Op.register b l n ∈ ops → ∀ e ∈ l, e.2.length ≤ 1) →
      Inv s → (∀ a i, s.info a = some i → i.schedules.length ≤ 8) →
      ∀ a i, (run me s ops).info a = some i → i.schedules.length ≤ 8 by
    have := H ops (initial owner bal now) hops (inv_initial owner bal now) (by simp [initial]) a
    unfold schedulesOf
    split
    · simp
    next i hi => exact this i hi
  intro ops
  induction ops with
  | nil => intro s _ _ h; exact h
  | cons op ops ih =>
    intro s hops hinv h8
    refine ih (step me s op) (fun b l n hm => hops b l n (by simp [hm]))
      (commit_inv Inv hinv (fun s' x h => inv_step hinv h)) ?_
    refine commit_inv (fun s : State A => ∀ a i, s.info a = some i → i.schedules.length ≤ 8) h8 ?_
    intro s' x h
    cases op with
    | register a l n =>
      simp only [exec, bind_ok_iff, require_ok, exists_const, Except.ok.injEq, Prod.mk.injEq] at h
      obtain ⟨_, s1, h, rfl, rfl⟩ := h
      unfold register at h
      simp only [bind_ok_iff, require_ok, exists_const, Except.ok.injEq, Prod.exists] at h
      obtain ⟨bal, _, _, infos, d, hl, _, rfl⟩ := h
      exact registerLoop_limit hl (hops a l n (by simp)) h8
    | claim a r n =>
      simp only [exec, bind_ok_iff, require_ok, exists_const] at h
      obtain ⟨_, h⟩ := h
      unfold claim at h
      simp only [bind_ok_iff, orErr_ok] at h
      obtain ⟨i, hia, av, hav, y, hy, h⟩ := h
      split at h
      · simp only [bind_ok_iff, u128_ok, Except.ok.injEq, Prod.mk.injEq] at h
        obtain ⟨rr, ⟨_, rfl⟩, bal, _, rfl, rfl⟩ := h
        intro b j hb
        by_cases hab : b = a
        · subst hab
          simp only [Function.update_self, Option.some.injEq] at hb
          subst hb
          exact h8 b i hia
        · simp only [Function.update_of_ne hab] at hb
          exact h8 b j hb
      · simp only [Except.ok.injEq, Prod.mk.injEq] at h
        obtain ⟨rfl, rfl⟩ := h
        exact h8
    | withdraw a acc r n =>
      simp only [exec, bind_ok_iff, require_ok, exists_const, Except.ok.injEq, Prod.mk.injEq] at h
      obtain ⟨_, s1, h, rfl, rfl⟩ := h
      unfold withdraw at h
      simp only [bind_ok_iff, require_ok, exists_const, orErr_ok, Except.ok.injEq] at h
      obtain ⟨_, _, i, hia, ss, hss, bal', hb, rfl⟩ := h
      obtain ⟨l, rr, sch, sch', he, he', _⟩ := cutActive_ok hss (hinv.valid acc i hia)
      intro b j hb
      by_cases hab : b = acc
      · subst hab
        simp only [Function.update_self, Option.some.injEq] at hb
        subst hb
        have := h8 b i hia
        rw [he] at this
        simp only [he']
        simpa using this
      · simp only [Function.update_of_ne hab] at hb
        exact h8 b j hb
    | transfer a b n =>
      simp only [exec, bind_ok_iff, require_ok, exists_const, Except.ok.injEq, Prod.mk.injEq] at h
      obtain ⟨_, bal, _, rfl, _⟩ := h
      exact h8
    | setOwner a =>
      simp only [exec, Except.ok.injEq, Prod.mk.injEq] at h
      obtain ⟨rfl, _⟩ := h
      exact h8
    | wait d =>
      simp only [exec, Except.ok.injEq, Prod.mk.injEq] at h
      obtain ⟨rfl, _⟩ := h
      exact h8

end histories

/-- Accounts of the examples. -/
abbrev Acc := Fin 4

/-- The owner (1) registers one account with 9 schedules at once. -/
def nine : List (Op Acc) :=
  [.register 1 [(2, List.replicate 9 ⟨⟨10, 1⟩, some ⟨20, 11⟩⟩)] 99]

/-- **C27 is violated.**  A single registration of nine schedules for a new account is accepted; so are
seven more on top of seven. -/
theorem C27_limit_violated :
    (schedulesOf (run (0 : Acc) (initial 1 (fun _ => 1000) 5) nine) 2).length = 9 ∧
    (schedulesOf (run (0 : Acc) (initial 1 (fun _ => 1000) 5)
      [.register 1 [(2, List.replicate 7 ⟨⟨10, 1⟩, none⟩)] 7,
       .register 1 [(2, List.replicate 100 ⟨⟨10, 1⟩, none⟩)] 100]) 2).length = 107 := by
  decide +kernel

/-- A history with a registration, waiting, a partial claim, an owner withdrawal, and a full claim: nothing is
refused, and the numbers are as C24-C26 say. -/
example :
    let ops : List (Op Acc) := [.register 1 [(2, [⟨⟨100, 10⟩, some ⟨200, 1010⟩⟩])] 1010, .wait 128,
      .claim 2 none (some 100), .withdraw 1 2 none 200]
    let s := run (0 : Acc) (initial 1 (fun _ => 5000) 5) ops
    s.now = 133 ∧ totalClaimed (0 : Acc) 2 (initial 1 (fun _ => 5000) 5) ops = 100 ∧
    dueAll (schedulesOf s 2) s.now = 340 ∧ totalAll (schedulesOf s 2) = 810 ∧
    okAnd (claim 0 s 2 none none) (fun x => x.2 = 240) = true ∧
    s.bal 0 = 5000 + 1010 - 100 - 200 ∧ ∑ a, owed s a = 710 := by
  decide +kernel

end Verif.Vesting
