import Verif.Incentives.Conserve

/-!
# Incentives: funding invariant of one external reward (C31)
-/

namespace Verif.Incentives

variable {I U : Type}

/-- A whole number of weeks from the epoch origin. -/
def Aligned (t : Nat) : Prop := t % EPOCH_LENGTH = EPOCHS_START % EPOCH_LENGTH

/-- Every announced second is paid for: what was collected, is announced, or was refunded never exceeds
what funders sent. -/
structure FundInv (X : I) (p : Pool I U) (C refunded funded : Nat) : Prop where
  keys : ∀ x ∈ p.sched X, x.1 ≤ p.last ∨ ∃ e, p.ext X = some e ∧ e.next ≤ x.1
  alN : ∀ e, p.ext X = some e → Aligned e.next
  alK : ∀ x ∈ p.sched X, Aligned x.1
  bud : ∀ T, C + ∑ t ∈ Finset.Ioc p.last T, rateOf p X t + DEC * refunded ≤ DEC * funded

theorem FundInv.update {X : I} {p : Pool I U} {C ref fund now : Nat} (h : FundInv X p C ref fund)
    (hasc : Ascending (p.sched X)) (hnext : ∀ e, p.ext X = some e → p.last < e.next) (hnow : p.last ≤ now) :
    FundInv X (update now p).1 (C + ∑ t ∈ Finset.Ioc p.last now, rateOf p X t) ref fund := by
  obtain ⟨hu, hT, hs, hf, ho, hla⟩ := update_fields now p
  have hla' : (Incentives.update now p).1.last = now := by rw [hla]; omega
  by_cases hl : now ≤ p.last
  · have he : now = p.last := by omega
    subst he
    have : Incentives.update p.last p = (p, noRem) := by
      unfold Incentives.update; rw [if_pos (Nat.le_refl _)]; rfl
    rw [this]
    simp only [Finset.Ioc_self, Finset.sum_empty, Nat.add_zero]
    exact h
  · have hbud : ∀ T, C + ∑ t ∈ Finset.Ioc p.last now, rateOf p X t +
        ∑ t ∈ Finset.Ioc (Incentives.update now p).1.last T, rateOf (Incentives.update now p).1 X t +
        DEC * ref ≤ DEC * fund := by
      intro T
      rw [hla', sum_Ioc_congr (g := fun t => rateOf p X t) (fun t h1 _ => rateOf_update X hasc hnext h1)]
      by_cases hTn : now ≤ T
      · have := h.bud T
        rw [sum_Ioc_split _ hnow hTn] at this
        omega
      · have := h.bud now
        have h0 : Finset.Ioc now T = ∅ := Finset.Ioc_eq_empty (by omega)
        rw [h0, Finset.sum_empty]
        omega
    rcases update_cases (now := now) X (by omega) hasc hnext with
      ⟨h1, h2, h3⟩ | ⟨e, he, ⟨r, n, h1, h2, h3, h4, h5, h6⟩ | ⟨h1, h2, h3, h4, h5⟩⟩
    · refine ⟨?_, ?_, ?_, hbud⟩
      · intro x hx
        rw [hs] at hx
        rcases h.keys x hx with hk | ⟨e, he, _⟩
        · left; rw [hla']; omega
        · rw [h1] at he; simp at he
      · intro e he; rw [h2] at he; simp at he
      · intro x hx; rw [hs] at hx; exact h.alK x hx
    · refine ⟨?_, ?_, ?_, hbud⟩
      · intro x hx
        rw [hs] at hx
        have hk : ∀ x ∈ p.sched X, x.1 ≤ p.last ∨ e.next ≤ x.1 := by
          intro x hx
          rcases h.keys x hx with hk | ⟨e', he', hk⟩
          · left; exact hk
          · rw [he] at he'; rw [← Option.some.inj he'] at hk; right; exact hk
        rcases h5 hk x hx with h7 | h7
        · left; rw [hla']; exact h7
        · right; exact ⟨_, h1, h7⟩
      · intro e' he'
        rw [h1] at he'
        rw [← Option.some.inj he']
        rcases h4 with h4 | ⟨r', h4⟩
        · show Aligned n; rw [h4]; exact h.alN e he
        · exact h.alK _ h4
      · intro x hx; rw [hs] at hx; exact h.alK x hx
    · refine ⟨?_, ?_, ?_, hbud⟩
      · intro x hx
        rw [hs] at hx
        left
        rw [hla']
        rcases h.keys x hx with hk | ⟨e', he', hk⟩
        · omega
        · rw [he] at he'; rw [← Option.some.inj he'] at hk
          by_cases hlt : e.next < x.1
          · exact h5 x hx hlt
          · omega
      · intro e' he'; rw [h1] at he'; simp at he'
      · intro x hx; rw [hs] at hx; exact h.alK x hx

theorem FundInv.congr {X : I} {p q : Pool I U} {C ref fund : Nat} (h : FundInv X p C ref fund)
    (h1 : q.ext X = p.ext X) (h2 : q.sched X = p.sched X) (h3 : q.last = p.last) :
    FundInv X q C ref fund := by
  have hr : ∀ t, rateOf q X t = rateOf p X t := by intro t; unfold rateOf; rw [h1, h2]
  refine ⟨?_, ?_, ?_, ?_⟩
  · rw [h1, h2, h3]; exact h.keys
  · rw [h1]; exact h.alN
  · rw [h2]; exact h.alK
  · rw [h3]; simp only [hr]; exact h.bud

/-- At times from the epoch origin on, an accepted schedule's epoch start is the first boundary after
now (in particular no schedule is accepted from twice the origin on). -/
theorem fromInput_epoch {now amount periods : Nat} {c : Schedule} (h : fromInput now amount periods = .ok c)
    (hnow : EPOCHS_START ≤ now) :
    now < 2 * EPOCHS_START ∧ now < c.nextEpochStart ∧ c.nextEpochStart ≤ now + EPOCH_LENGTH ∧
      Aligned c.nextEpochStart ∧ Aligned c.stop := by
  obtain ⟨h1, h2, h3, h4, h5, _⟩ := fromInput_ok h
  unfold Aligned
  simp only [EPOCHS_START, EPOCH_LENGTH, MAX_PERIODS] at *
  have hp : periods * 604800 ≤ 25 * 604800 := Nat.mul_le_mul_right _ h2
  refine ⟨?_, ?_, ?_, ?_, ?_⟩ <;> omega

theorem fromInput_aligned {now amount periods : Nat} {c : Schedule} (h : fromInput now amount periods = .ok c) :
    Aligned c.nextEpochStart ∧ Aligned c.stop := by
  obtain ⟨h1, h2, h3, h4, h5, _⟩ := fromInput_ok h
  unfold Aligned
  simp only [EPOCHS_START, EPOCH_LENGTH, MAX_PERIODS] at *
  refine ⟨?_, ?_⟩ <;> omega

theorem next_boundary {now b n : Nat} (h1 : b ≤ now + EPOCH_LENGTH) (hb : Aligned b) (hn : Aligned n)
    (h3 : now < n) : b ≤ n := by
  unfold Aligned at hb hn
  simp only [EPOCHS_START, EPOCH_LENGTH] at *
  omega

theorem sum_rate_le {r now stop : Nat} (T : Nat) :
    ∑ t ∈ Finset.Ioc now T, (if t ≤ stop then r else 0) ≤ r * (stop - now) := by
  by_cases hs : now ≤ stop
  · by_cases hT : T ≤ stop
    · rw [sum_Ioc_const (c := r) (fun t ht => by rw [Finset.mem_Ioc] at ht; rw [if_pos (by omega)])]
      exact Nat.mul_le_mul_left _ (by omega)
    · rw [sum_Ioc_split _ hs (by omega : stop ≤ T),
        sum_Ioc_const (c := r) (fun t ht => by rw [Finset.mem_Ioc] at ht; rw [if_pos (by omega)]),
        sum_Ioc_const (c := 0) (fun t ht => by rw [Finset.mem_Ioc] at ht; rw [if_neg (by omega)])]
      omega
  · rw [sum_Ioc_const (c := 0) (fun t ht => by rw [Finset.mem_Ioc] at ht; rw [if_neg (by omega)])]
    omega

theorem FundInv.incentivizePool [Fintype I] [DecidableEq I] {X Y : I} {p q : Pool I U}
    {C ref fund amount periods : Nat} {c : Schedule} {isAstro : Bool} (h : FundInv X p C ref fund)
    (hc : fromInput p.last amount periods = .ok c) (hnow : EPOCHS_START ≤ p.last)
    (hasc : Ascending (p.sched X)) (hnext : ∀ e, p.ext X = some e → p.last < e.next)
    (hq : incentivizePool p Y c isAstro = .ok q) :
    FundInv X q C ref (fund + if X = Y then amount else 0) := by
  obtain ⟨_, _, _, _, hstop, hrps, _⟩ := fromInput_ok hc
  obtain ⟨_, he1, he2, hal1, hal2⟩ := fromInput_epoch hc hnow
  have hpay : c.rps * (c.stop - p.last) ≤ DEC * amount := by
    rw [hrps, Nat.mul_comm DEC]; exact Nat.div_mul_le_self _ _
  unfold Incentives.incentivizePool at hq
  simp only [bind_ok_iff, require_ok, exists_const] at hq
  replace hq := hq.2
  by_cases hXY : X = Y
  · subst hXY
    rw [if_pos rfl]
    have hbud : ∀ (f : Nat → Nat), (∀ t, p.last < t → f t = rateOf p X t + if t ≤ c.stop then c.rps else 0) →
        ∀ T, C + ∑ t ∈ Finset.Ioc p.last T, f t + DEC * ref ≤ DEC * (fund + amount) := by
      intro f hf T
      rw [sum_Ioc_congr (fun t h1 _ => hf t h1), Finset.sum_add_distrib]
      have h1 := h.bud T
      have h2 := sum_rate_le (r := c.rps) (now := p.last) (stop := c.stop) T
      rw [Nat.mul_add]
      omega
    cases he : p.ext X with
    | none =>
      rw [he] at hq
      simp only [Except.ok.injEq] at hq
      subst hq
      have hk : ∀ x ∈ p.sched X, x.1 ≤ p.last := by
        intro x hx
        rcases h.keys x hx with hk | ⟨e, he', _⟩
        · exact hk
        · rw [he] at he'; simp at he'
      refine ⟨?_, ?_, h.alK, ?_⟩
      · intro x hx; left; exact hk x hx
      · intro e h1
        simp only [Function.update_self, Option.some.injEq] at h1
        subst h1; exact hal2
      · apply hbud
        intro t ht
        have h1 : rateOf p X t = 0 := by unfold rateOf; rw [he]
        rw [h1]
        simp only [rateOf, Function.update_self, rateAt]
        split
        · simp
        · rw [pieceRate_zero (fun x hx => by have := hk x hx; omega)]
    | some e =>
      rw [he] at hq
      simp only [Except.ok.injEq] at hq
      subst hq
      have hk : ∀ x ∈ p.sched X, x.1 ≤ p.last ∨ e.next ≤ x.1 := by
        intro x hx
        rcases h.keys x hx with hk | ⟨e', he', hk⟩
        · left; exact hk
        · rw [he] at he'; rw [← Option.some.inj he'] at hk; right; exact hk
      have hne := hnext e he
      obtain ⟨_, hs2, hs3, hs4⟩ := extend_spec (c := c) hasc hk hne (next_boundary he2 hal1 (h.alN e he) hne)
      refine ⟨?_, ?_, ?_, ?_⟩
      · intro x hx
        simp only [Function.update_self] at hx ⊢
        rcases hs3 x hx with h1 | h1
        · left; exact h1
        · right; exact ⟨_, rfl, h1⟩
      · intro e' h1
        simp only [Function.update_self, Option.some.injEq] at h1
        subst h1
        unfold extend
        split
        · exact hal2
        · exact h.alN e he
      · intro x hx
        simp only [Function.update_self] at hx
        rcases hs4 x hx with ⟨y, hy, h1⟩ | h1 | h1
        · rw [← h1]; exact h.alK y hy
        · rw [h1]; exact hal2
        · rw [h1]; exact h.alN e he
      · apply hbud
        intro t ht
        have h1 : rateOf p X t = rateAt e (p.sched X) t := by unfold rateOf; rw [he]
        rw [h1, ← hs2 t ht]
        simp only [rateOf, Function.update_self]
  · rw [if_neg hXY, Nat.add_zero]
    split at hq
    · simp only [Except.ok.injEq] at hq
      subst hq
      exact h.congr (Function.update_of_ne hXY _ _) rfl rfl
    · simp only [Except.ok.injEq] at hq
      subst hq
      exact h.congr (Function.update_of_ne hXY _ _) (Function.update_of_ne hXY _ _) rfl

/-- Largest key plus the running piece's end: nothing is announced after it. -/
theorem exists_bound (l : List (Nat × Nat)) (n : Nat) : ∃ T, n ≤ T ∧ ∀ x ∈ l, x.1 ≤ T := by
  induction l with
  | nil => exact ⟨n, Nat.le_refl _, by simp⟩
  | cons y r ih =>
    obtain ⟨T, h1, h2⟩ := ih
    refine ⟨max T y.1, by omega, ?_⟩
    intro x hx
    rcases List.mem_cons.1 hx with rfl | hx
    · omega
    · have := h2 x hx; omega

theorem FundInv.deregister [DecidableEq I] {X Y : I} {p q : Pool I U} {rem rem' : Removed I}
    {C ref fund n : Nat} {bypass : Bool} (h : FundInv X p C ref fund) (hasc : Ascending (p.sched X))
    (hnext : ∀ e, p.ext X = some e → p.last < e.next)
    (hgood : X = Y → bypass = false ∧ ∀ e, p.ext X = some e → e.orphaned = 0)
    (hd : deregister p rem Y bypass = .ok ((q, rem'), n)) :
    FundInv X q C (ref + if X = Y then n else 0) fund := by
  unfold Incentives.deregister at hd
  simp only [bind_ok_iff, orErr_ok, u128_ok, Except.ok.injEq, Prod.mk.injEq] at hd
  obtain ⟨e, he, m, ⟨_, hm⟩, ⟨rfl, rfl⟩, rfl⟩ := hd
  by_cases hXY : X = Y
  · subst hXY
    obtain ⟨hb, ho⟩ := hgood rfl
    subst hb
    have ho := ho e he
    have hne := hnext e he
    rw [if_pos rfl]
    simp only [Bool.false_eq_true, if_false, ho, Nat.add_zero] at hm ⊢
    have hk : ∀ x ∈ p.sched X, x.1 ≤ p.last ∨ e.next ≤ x.1 := by
      intro x hx
      rcases h.keys x hx with hk | ⟨e', he', hk⟩
      · left; exact hk
      · rw [he] at he'; rw [← Option.some.inj he'] at hk; right; exact hk
    refine ⟨?_, ?_, ?_, ?_⟩
    · intro x hx
      simp only [Function.update_self, List.mem_filter] at hx
      left
      rcases hk x hx.1.1 with h1 | h1
      · exact h1
      · have h2 := hx.2; have h3 := hx.1.2
        simp at h2 h3
        omega
    · intro e' h1; simp at h1
    · intro x hx
      simp only [Function.update_self, List.mem_filter] at hx
      exact h.alK x hx.1.1
    · intro T'
      have h0 : ∀ t, rateOf ({ p with
          ext := Function.update p.ext X none
          sched := Function.update p.sched X (((p.sched X).filter (fun x => x.1 ≠ e.next)).filter
            (fun x => ¬ e.next < x.1)) } : Pool I U) X t = 0 := by
        intro t; simp [rateOf]
      have hz : ∑ t ∈ Finset.Ioc p.last T', rateOf ({ p with
          ext := Function.update p.ext X none
          sched := Function.update p.sched X (((p.sched X).filter (fun x => x.1 ≠ e.next)).filter
            (fun x => ¬ e.next < x.1)) } : Pool I U) X t = 0 := by
        apply Finset.sum_eq_zero
        intro t _; exact h0 t
      have hz' : C + 0 + DEC * (ref + m) ≤ DEC * fund := by
        obtain ⟨T, hT1, hT2⟩ := exists_bound (p.sched X) e.next
        have hup : upcoming e.next (after e.next ((p.sched X).filter (fun x => x.1 ≠ e.next))) =
            ∑ t ∈ Finset.Ioc e.next T, pieceRate (p.sched X) t := by
          rw [upcoming_spec _ _ T ((hasc.filter _).after _) (fun x hx => (mem_after.1 hx).2) ?_]
          · apply sum_Ioc_congr
            intro t h1 _
            apply pieceRate_congr ((hasc.filter _).after _) hasc
            intro x hx
            rw [mem_after, List.mem_filter]
            constructor
            · intro hh; exact hh.1.1
            · intro hh; exact ⟨⟨hh, by simp; omega⟩, by omega⟩
          · intro x hx
            exact hT2 x (List.mem_filter.1 (mem_after.1 hx).1).1
        have hsum : e.rps * (e.next - p.last) +
            upcoming e.next (after e.next ((p.sched X).filter (fun x => x.1 ≠ e.next))) =
            ∑ t ∈ Finset.Ioc p.last T, rateOf p X t := by
          rw [hup, sum_Ioc_split _ (Nat.le_of_lt hne) hT1]
          have hr : ∀ t, rateOf p X t = rateAt e (p.sched X) t := by intro t; unfold rateOf; rw [he]
          simp only [hr]
          congr 1
          · symm
            apply sum_Ioc_const
            intro t ht
            rw [Finset.mem_Ioc] at ht
            simp [rateAt, ht.2]
          · apply sum_Ioc_congr
            intro t h1 _
            simp [rateAt, Nat.not_le.2 h1]
        have hb := h.bud T
        rw [← hsum] at hb
        have hmm := Nat.mul_div_le (e.rps * (e.next - p.last) +
            upcoming e.next (after e.next ((p.sched X).filter (fun x => x.1 ≠ e.next)))) DEC
        rw [hm] at hmm
        rw [Nat.mul_add]
        omega
      exact (congrArg (fun s => C + s + DEC * (ref + m) ≤ DEC * fund) hz).mpr hz'
  · rw [if_neg hXY, Nat.add_zero]
    exact h.congr (Function.update_of_ne hXY _ _) (Function.update_of_ne hXY _ _) rfl

/-! ## Histories -/

variable [Fintype I] [DecidableEq I] [DecidableEq U] [Fintype U]

/-- A history in which every owner removal of `X` also removes the upcoming schedules and happens while
the stream has no orphaned rewards. -/
def TidyRemovals (X : I) (me : U) : Run I U → List (Op I U) → Prop
  | _, [] => True
  | r, o :: os =>
    (match o with
      | .removeReward Y bypass => Y = X → bypass = false ∧
          ∀ e, (update r.st.now r.st.pool).1.ext X = some e → e.orphaned = 0
      | _ => True) ∧ TidyRemovals X me (step me r o) os

/-- The funding invariant in a running history. -/
def RunFund (X : I) (r : Run I U) : Prop :=
  r.st.pool.last ≤ r.st.now ∧ EPOCHS_START ≤ r.st.now ∧ ∃ ev C,
    Inv X r.st.pool noRem ev (r.books.paid X) C ∧
    FundInv X r.st.pool C (r.books.refunded X) (r.books.funded X)

omit [Fintype I] [DecidableEq I] [DecidableEq U] in
theorem RunFund.update {X : I} {r : Run I U} (h : RunFund X r) :
    ∃ ev C, Inv X (update r.st.now r.st.pool).1 (update r.st.now r.st.pool).2 ev (r.books.paid X) C ∧
      FundInv X (Incentives.update r.st.now r.st.pool).1 C (r.books.refunded X) (r.books.funded X) ∧
      (Incentives.update r.st.now r.st.pool).1.last = r.st.now ∧ EPOCHS_START ≤ r.st.now := by
  obtain ⟨hl, hE, ev, C, hI, hF⟩ := h
  refine ⟨_, _, update_inv hI hl, hF.update hI.asc hI.next hl, ?_, hE⟩
  rw [(update_fields r.st.now r.st.pool).2.2.2.2.2]; omega

theorem position_step {X : I} {r : Run I U} (h : RunFund X r) {s' : State I U} {b : Books I U}
    (hR : ∀ R : Run I U, RunInv X False R → R.st = r.st → R.books.paid = r.books.paid →
      ∃ b' : Books I U, b'.paid X = b.paid X ∧ b'.emitted X = R.books.emitted X ∧ RunInv X False ⟨s', b'⟩)
    (hx : s'.pool.ext = (update r.st.now r.st.pool).1.ext) (hs : s'.pool.sched = r.st.pool.sched)
    (hl : s'.pool.last = (update r.st.now r.st.pool).1.last) (hn : s'.now = r.st.now)
    (hb1 : b.refunded = r.books.refunded) (hb2 : b.funded = r.books.funded) : RunFund X ⟨s', b⟩ := by
  obtain ⟨hl0, hE, ev, C, hI, hF⟩ := h
  have hl1 : (update r.st.now r.st.pool).1.last = r.st.now := by
    rw [(update_fields r.st.now r.st.pool).2.2.2.2.2]; omega
  have hs1 : (update r.st.now r.st.pool).1.sched = r.st.pool.sched :=
    (update_fields r.st.now r.st.pool).2.2.1
  have hF' := hF.update hI.asc hI.next hl0
  -- run the accounting invariant with exactly the collected amount as emission
  let E := C + ∑ t ∈ Finset.Ioc r.st.pool.last r.st.now, rateOf r.st.pool X t
  obtain ⟨b', hb'1, hb'2, hlast, ev', C', hI', hC', _⟩ := hR
    ⟨r.st, { r.books with emitted := fun _ => E }⟩ ⟨hl0, ev, C, hI, Nat.le_refl _, fun h => h.elim⟩ rfl rfl
  have hlast' : s'.pool.last = s'.now := by rw [hl, hl1, hn]
  refine ⟨Nat.le_of_eq hlast', by rw [hn]; exact hE, ev', C', ?_, ?_⟩
  · simp only at hI' ⊢
    rw [← hb'1]; exact hI'
  · simp only at hC' ⊢
    rw [hlast', hb'2] at hC'
    simp only [Finset.Ioc_self, Finset.sum_empty, Nat.add_zero] at hC'
    have hF2 : FundInv X s'.pool (C + ∑ t ∈ Finset.Ioc r.st.pool.last r.st.now, rateOf r.st.pool X t)
        (r.books.refunded X) (r.books.funded X) :=
      hF'.congr (by rw [hx]) (by rw [hs, hs1]) hl
    rw [hb1, hb2]
    refine ⟨hF2.keys, hF2.alN, hF2.alK, ?_⟩
    intro T
    have := hF2.bud T
    have : C' ≤ C + ∑ t ∈ Finset.Ioc r.st.pool.last r.st.now, rateOf r.st.pool X t := hC'
    omega

theorem step_runFund {X : I} {r : Run I U} (h : RunFund X r) (me : U) (o : Op I U)
    (hok : match (generalizing := false) o with
      | .removeReward Y bypass => Y = X → bypass = false ∧
          ∀ e, (update r.st.now r.st.pool).1.ext X = some e → e.orphaned = 0
      | _ => True) :
    RunFund X (step me r o) := by
  cases o with
  | deposit sender staker n =>
    unfold step
    simp only
    split
    · rename_i s x heq
      split at heq
      · simp at heq
      · have hsh : s.pool.ext = (update r.st.now r.st.pool).1.ext ∧
            s.pool.sched = (update r.st.now r.st.pool).1.sched ∧
            s.pool.last = (update r.st.now r.st.pool).1.last ∧ s.now = r.st.now := by
          unfold deposit at heq
          simp only [bind_ok_iff] at heq
          obtain ⟨lp, _, hd⟩ := heq
          split at hd
          · simp only [bind_ok_iff, u128_ok, Except.ok.injEq, Prod.mk.injEq] at hd
            obtain ⟨T, _, rfl, rfl⟩ := hd
            exact ⟨rfl, rfl, rfl, rfl⟩
          · simp only [bind_ok_iff, u128_ok, Except.ok.injEq, Prod.mk.injEq] at hd
            obtain ⟨pay, _, a, _, T, _, rfl, rfl⟩ := hd
            exact ⟨rfl, rfl, rfl, rfl⟩
        refine position_step h ?_ hsh.1 (hsh.2.1.trans (update_fields _ _).2.2.1) hsh.2.2.1 hsh.2.2.2 rfl rfl
        intro R hR hRs hRb
        refine ⟨⟨R.books.funded, fun Y => R.books.paid Y + x.ext Y, R.books.received, R.books.refunded,
          R.books.emitted, 0, 0, R.books.deposited, R.books.withdrawn, 0⟩, ?_, rfl, ?_⟩
        · simp only [Books.pay, hRb]
        · rw [← hRs] at heq
          exact deposit_runInv hR heq (fun h => h.elim) rfl rfl
    · exact h
  | withdraw user n =>
    unfold step
    simp only
    split
    · rename_i s x heq
      split at heq
      · simp at heq
      · have hsh : s.pool.ext = (update r.st.now r.st.pool).1.ext ∧
            s.pool.sched = (update r.st.now r.st.pool).1.sched ∧
            s.pool.last = (update r.st.now r.st.pool).1.last ∧ s.now = r.st.now := by
          unfold withdraw at heq
          simp only [bind_ok_iff, orErr_ok, require_ok, exists_const, csub_ok, Except.ok.injEq,
            Prod.mk.injEq] at heq
          obtain ⟨u, hu, hn, pay, hpay, T, ⟨hT, rfl⟩, lp, _, rfl, rfl⟩ := heq
          exact ⟨rfl, rfl, rfl, rfl⟩
        refine position_step h ?_ hsh.1 (hsh.2.1.trans (update_fields _ _).2.2.1) hsh.2.2.1 hsh.2.2.2 rfl rfl
        intro R hR hRs hRb
        refine ⟨⟨R.books.funded, fun Y => R.books.paid Y + x.ext Y, R.books.received, R.books.refunded,
          R.books.emitted, 0, 0, R.books.deposited, R.books.withdrawn, 0⟩, ?_, rfl, ?_⟩
        · simp only [Books.pay, hRb]
        · rw [← hRs] at heq
          exact withdraw_runInv hR heq rfl rfl
    · exact h
  | claim user =>
    unfold step
    simp only
    split
    · rename_i s x heq
      have hsh : s.pool.ext = (update r.st.now r.st.pool).1.ext ∧
          s.pool.sched = (update r.st.now r.st.pool).1.sched ∧
          s.pool.last = (update r.st.now r.st.pool).1.last ∧ s.now = r.st.now := by
        unfold claim at heq
        simp only [bind_ok_iff, orErr_ok, Except.ok.injEq, Prod.mk.injEq] at heq
        obtain ⟨u, hu, pay, hpay, rfl, rfl⟩ := heq
        exact ⟨rfl, rfl, rfl, rfl⟩
      refine position_step h ?_ hsh.1 (hsh.2.1.trans (update_fields _ _).2.2.1) hsh.2.2.1 hsh.2.2.2 rfl rfl
      intro R hR hRs hRb
      refine ⟨⟨R.books.funded, fun Y => R.books.paid Y + x.ext Y, R.books.received, R.books.refunded,
        R.books.emitted, 0, 0, R.books.deposited, R.books.withdrawn, 0⟩, ?_, rfl, ?_⟩
      · simp only [Books.pay, hRb]
      · rw [← hRs] at heq
        exact claim_runInv hR heq rfl rfl
    · exact h
  | incentivize Y amount periods isAstro =>
    unfold step
    simp only
    split
    · rename_i s heq
      obtain ⟨ev, C, hI, hF, hl, hE⟩ := h.update
      unfold incentivize at heq
      simp only [bind_ok_iff, Except.ok.injEq] at heq
      obtain ⟨c, hc, p, hp, rfl⟩ := heq
      have hstop := (fromInput_ok hc).2.2.2.2.1
      have hS := save_inv hI
      obtain ⟨hsp, hfin, hus, hlp, _⟩ := save_incentivizePool (rem := (update r.st.now r.st.pool).2) hp
      have hI2 := incentivizePool_inv hS hsp
        (by rw [(save_fields _ _).2.2.2.2.1, hl]; exact hstop)
      have hF2 := hF.incentivizePool (by rw [hl]; exact hc) (by rw [hl]; exact hE) hI.asc hI.next hp
      refine ⟨Nat.le_of_eq (hlp.trans hl), hE, ev, C, hI2, ?_⟩
      have : (credit r.books.funded Y amount) X = r.books.funded X + if X = Y then amount else 0 := by
        rw [credit_apply]; split <;> simp
      simp only
      rw [this]
      exact hF2.congr rfl rfl rfl
    · exact h
  | removeReward Y bypass =>
    unfold step
    simp only
    split
    · rename_i s n heq
      obtain ⟨ev, C, hI, hF, hl, hE⟩ := h.update
      unfold removeReward at heq
      simp only [bind_ok_iff, Except.ok.injEq, Prod.mk.injEq, Prod.exists] at heq
      obtain ⟨p, rem, m, hd, rfl, rfl⟩ := heq
      obtain ⟨hI2, _⟩ := deregister_inv hI hd
      obtain ⟨hfin, hus, hlp, _, _, _, e, he, hrem⟩ := deregister_fields hd
      have hF2 := hF.deregister hI.asc hI.next (fun hXY => hok hXY.symm) hd
      refine ⟨Nat.le_of_eq (hlp.trans hl), hE, _, C, save_inv hI2, ?_⟩
      have : (credit r.books.refunded Y m) X = r.books.refunded X + if X = Y then m else 0 := by
        rw [credit_apply]; split <;> simp
      simp only
      rw [this]
      exact hF2.congr rfl rfl rfl
    · exact h
  | setAstro rps =>
    obtain ⟨ev, C, hI, hF, hl, hE⟩ := h.update
    have hS := save_inv hI
    exact ⟨Nat.le_of_eq hl, hE, ev, C, hS.congr' rfl rfl rfl rfl rfl rfl rfl rfl, hF.congr rfl rfl rfl⟩
  | disableAstro =>
    obtain ⟨ev, C, hI, hF, hl, hE⟩ := h.update
    have hS := save_inv hI
    exact ⟨Nat.le_of_eq hl, hE, ev, C, hS.congr' rfl rfl rfl rfl rfl rfl rfl rfl, hF.congr rfl rfl rfl⟩
  | touch =>
    obtain ⟨ev, C, hI, hF, hl, hE⟩ := h.update
    exact ⟨Nat.le_of_eq hl, hE, ev, C, save_inv hI, hF.congr rfl rfl rfl⟩
  | wait d =>
    obtain ⟨hl, hE, ev, C, hI, hF⟩ := h
    exact ⟨Nat.le_trans hl (Nat.le_add_right _ _), Nat.le_trans hE (Nat.le_add_right _ _), ev, C, hI, hF⟩
  | sendLp src dst n =>
    unfold step
    simp only
    split
    · exact h
    · exact h

theorem run_runFund {X : I} (me : U) : ∀ (ops : List (Op I U)) (r : Run I U), RunFund X r →
    TidyRemovals X me r ops → RunFund X (run me r ops)
  | [], _, h, _ => h
  | o :: os, _, h, hc => run_runFund me os _ (step_runFund h me o (by
      have := hc.1
      cases o <;> exact this)) hc.2

theorem start_runFund (X : I) (lp : U → Nat) (now : Nat) (hnow : EPOCHS_START ≤ now) :
    RunFund X (start lp now : Run I U) := by
  obtain ⟨h1, ev, C, hI, hC, _⟩ := start_runInv X False lp now (U := U)
  refine ⟨h1, hnow, ev, C, hI, ?_⟩
  have hC0 : C = 0 := by
    simp only [start, Books.zero] at hC
    omega
  subst hC0
  refine ⟨?_, ?_, ?_, ?_⟩
  · intro x hx; simp [start, Pool.empty] at hx
  · intro e he; simp [start, Pool.empty] at he
  · intro x hx; simp [start, Pool.empty] at hx
  · intro T; simp [start, Pool.empty, rateOf, Books.zero]

end Verif.Incentives
