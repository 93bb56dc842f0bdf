import Verif.Incentives.Props

/-!
# The `ExternalRewardSchedules` query (C123)

The query lists the periods of an external reward of a pool from now on.  We show that the pages put
together are one gapless list of periods starting now, that the rate listed for a period is the rate at
which the reward is emitted during every second of it, and that nothing is emitted after the last period.
-/

namespace Verif.Incentives

open Verif

variable {I U : Type}

/-- `MAX_PAGE_LIMIT` (`packages/astroport/src/incentives.rs:28`). -/
def MAX_PAGE_LIMIT : Nat := 50

/-- `ScheduleResponse` (`packages/astroport/src/incentives.rs`): rate, first and last moment of a period. -/
structure Period where
  rps : Nat
  start : Nat
  stop : Nat
  deriving DecidableEq, Repr

/-- The periods of stored pieces, each starting where the one before ended
(`contracts/tokenomics/incentives/src/query.rs:255-265`, the closure over `start_after`). -/
def periods : Nat → List (Nat × Nat) → List Period
  | _, [] => []
  | prev, (k, r) :: rest => ⟨r, prev, k⟩ :: periods k rest

/-- `query_external_reward_schedules` (`contracts/tokenomics/incentives/src/query.rs:202-271`) for one pool.  The query runs
`update_rewards` on a copy of the pool. -/
def schedulesQuery (s : State I U) (X : I) (startAfter limit : Option Nat) : Res (List Period) := do
  let m := min (limit.getD MAX_PAGE_LIMIT) MAX_PAGE_LIMIT
  require (0 < m) (.invalid "limit must be > 0")
  let p := (update s.now s.pool).1
  let e ← orErr (p.ext X) (.invalid "RewardNotFound")
  let a := startAfter.getD s.now
  if a < e.next then
    .ok (⟨e.rps, s.now, e.next⟩ :: periods e.next ((after e.next (p.sched X)).take (m - 1)))
  else
    .ok (periods a ((after a (p.sched X)).take m))

/-! ## Specification -/

/-- The periods follow one another without gap from `a` to `b`. -/
def Gapless : Nat → List Period → Nat → Prop
  | a, [], b => a = b
  | a, x :: rest, b => x.start = a ∧ a < x.stop ∧ Gapless x.stop rest b

/-- A reader of the query: `n` pages of `m` periods, each page asked for after the end of the last period
seen; it stops at an empty page or an error. -/
def readPages (s : State I U) (X : I) (m : Nat) : Nat → Option Nat → List Period
  | 0, _ => []
  | n + 1, a =>
    match schedulesQuery s X a (some m) with
    | .error _ => []
    | .ok l =>
      match l.getLast? with
      | none => []
      | some x => l ++ readPages s X m n (some x.stop)

/-! ## Lemmas -/

theorem periods_take : ∀ (l : List (Nat × Nat)) (a m : Nat), periods a (l.take m) = (periods a l).take m
  | [], a, m => by simp [periods]
  | (k, r) :: rest, a, 0 => by simp [periods]
  | (k, r) :: rest, a, m + 1 => by simp [periods, periods_take rest]

theorem periods_gapless : ∀ (l : List (Nat × Nat)) (a : Nat), Ascending l → (∀ x ∈ l, a < x.1) →
    ∃ b, a ≤ b ∧ Gapless a (periods a l) b ∧ ∀ x ∈ l, x.1 ≤ b
  | [], a, _, _ => ⟨a, Nat.le_refl _, rfl, by simp⟩
  | (k, r) :: rest, a, h, hgt => by
    have hk : a < k := hgt (k, r) (by simp)
    obtain ⟨b, hb, hg, hx⟩ := periods_gapless rest k h.tail h.head_lt
    refine ⟨b, by omega, ⟨rfl, hk, hg⟩, ?_⟩
    intro x hx'
    rcases List.mem_cons.1 hx' with rfl | hx'
    · exact hb
    · exact hx x hx'

theorem periods_rate : ∀ (l : List (Nat × Nat)) (a : Nat), Ascending l → (∀ x ∈ l, a < x.1) →
    ∀ y ∈ periods a l, a ≤ y.start ∧ ∀ t, y.start < t → t ≤ y.stop → pieceRate l t = y.rps
  | [], a, _, _, y, hy => by simp [periods] at hy
  | (k, r) :: rest, a, h, hgt, y, hy => by
    have hk : a < k := hgt (k, r) (by simp)
    rcases List.mem_cons.1 hy with rfl | hy
    · refine ⟨Nat.le_refl _, fun t _ ht => ?_⟩
      simp only at ht
      simp [pieceRate, ht]
    · obtain ⟨h1, h2⟩ := periods_rate rest k h.tail h.head_lt y hy
      refine ⟨by omega, fun t ht1 ht2 => ?_⟩
      have : ¬ t ≤ k := by omega
      simp [pieceRate, this, h2 t ht1 ht2]

/-- Splitting the list of periods at one of them splits the pieces. -/
theorem periods_split : ∀ (l : List (Nat × Nat)) (a : Nat), Ascending l → (∀ x ∈ l, a < x.1) →
    ∀ (zs : List Period) (y : Period) (post : List Period), periods a l = zs ++ y :: post →
      post = periods y.stop (after y.stop l) ∧ a < y.stop
  | [], a, _, _, zs, y, post, hz => by simp [periods] at hz
  | (k, r) :: rest, a, h, hgt, zs, y, post, hz => by
    have hk : a < k := hgt (k, r) (by simp)
    have hlt := h.head_lt
    cases zs with
    | nil =>
      simp only [periods, List.nil_append, List.cons.injEq] at hz
      obtain ⟨rfl, rfl⟩ := hz
      refine ⟨?_, hk⟩
      simp only [after, List.filter_cons, Nat.lt_irrefl, decide_false, Bool.false_eq_true, if_false]
      congr 1
      exact (List.filter_eq_self.2 (fun x hx => by simpa using hlt x hx)).symm
    | cons z zs =>
      simp only [periods, List.cons_append, List.cons.injEq] at hz
      obtain ⟨h1, h2⟩ := periods_split rest k h.tail hlt zs y post hz.2
      refine ⟨?_, by omega⟩
      rw [h1]
      congr 1
      have : ¬ y.stop < k := by omega
      simp [after, this]

theorem after_after {l : List (Nat × Nat)} {a b : Nat} (h : a ≤ b) : after b (after a l) = after b l := by
  unfold after
  rw [List.filter_filter]
  apply List.filter_congr
  intro x _
  by_cases hx : b < x.1
  · simp [hx]; omega
  · simp [hx]

/-- All periods of a running reward. -/
def allPeriods (now : Nat) (e : Ext) (l : List (Nat × Nat)) : List Period :=
  ⟨e.rps, now, e.next⟩ :: periods e.next (after e.next l)

theorem schedulesQuery_first {s : State I U} {X : I} {m : Nat} (hm : 0 < m) (hm' : m ≤ MAX_PAGE_LIMIT) {e : Ext}
    (he : (update s.now s.pool).1.ext X = some e) (hn : s.now < e.next) :
    schedulesQuery s X none (some m) =
      .ok ((allPeriods s.now e ((update s.now s.pool).1.sched X)).take m) := by
  unfold schedulesQuery
  obtain ⟨m, rfl⟩ : ∃ k, m = k + 1 := ⟨m - 1, by omega⟩
  simp only [Option.getD_some, Option.getD_none, Nat.min_eq_left hm', require, Nat.succ_pos, if_true, ok_bind, he,
    orErr, if_pos hn]
  simp [allPeriods, periods_take]

theorem schedulesQuery_next {s : State I U} {X : I} {m : Nat} (hm : 0 < m) (hm' : m ≤ MAX_PAGE_LIMIT) {e : Ext}
    (hasc : Ascending ((update s.now s.pool).1.sched X))
    (he : (update s.now s.pool).1.ext X = some e)
    {zs : List Period} {y : Period} {post : List Period}
    (hz : allPeriods s.now e ((update s.now s.pool).1.sched X) = zs ++ y :: post) :
    schedulesQuery s X (some y.stop) (some m) = .ok (post.take m) := by
  have key : post = periods y.stop (after y.stop ((update s.now s.pool).1.sched X)) ∧ e.next ≤ y.stop := by
    cases zs with
    | nil =>
      simp only [allPeriods, List.nil_append, List.cons.injEq] at hz
      obtain ⟨rfl, rfl⟩ := hz
      exact ⟨rfl, Nat.le_refl _⟩
    | cons z zs =>
      simp only [allPeriods, List.cons_append, List.cons.injEq] at hz
      obtain ⟨h1, h2⟩ := periods_split _ _ (hasc.after e.next) (fun x hx => (mem_after.1 hx).2) _ _ _ hz.2
      refine ⟨?_, Nat.le_of_lt h2⟩
      rw [h1, after_after (Nat.le_of_lt h2)]
  obtain ⟨h1, h2⟩ := key
  unfold schedulesQuery
  simp only [Option.getD_some, Nat.min_eq_left hm', require, hm, if_true, ok_bind, he, orErr,
    if_neg (Nat.not_lt.2 h2)]
  rw [h1, periods_take]

/-- Reading `n` pages of `m` gives the first `n · m` periods. -/
theorem readPages_eq {s : State I U} {X : I} {m : Nat} (hm : 0 < m) (hm' : m ≤ MAX_PAGE_LIMIT) {e : Ext}
    (hasc : Ascending ((update s.now s.pool).1.sched X))
    (he : (update s.now s.pool).1.ext X = some e) (hn : s.now < e.next) (n : Nat) :
    readPages s X m n none = (allPeriods s.now e ((update s.now s.pool).1.sched X)).take (n * m) := by
  have gen : ∀ (n : Nat) (a : Option Nat) (pre post : List Period),
      allPeriods s.now e ((update s.now s.pool).1.sched X) = pre ++ post →
      schedulesQuery s X a (some m) = .ok (post.take m) → readPages s X m n a = post.take (n * m) := by
    intro n
    induction n with
    | zero => intro _ _ _ _ _; simp [readPages]
    | succ n ih =>
      intro a pre post hsp hr
      unfold readPages
      simp only [hr]
      cases hl : (post.take m).getLast? with
      | none =>
        rw [List.getLast?_eq_none_iff] at hl
        rcases List.take_eq_nil_iff.1 hl with h | h
        · omega
        · subst h; simp
      | some y =>
        simp only
        obtain ⟨zs, hz⟩ := List.getLast?_eq_some_iff.1 hl
        have hpost : post = zs ++ y :: post.drop m := by
          conv => lhs; rw [← List.take_append_drop m post, hz]
          simp
        have hsp' : allPeriods s.now e ((update s.now s.pool).1.sched X) = (pre ++ zs) ++ y :: post.drop m := by
          rw [hsp]; conv => lhs; rw [hpost]
          simp
        rw [ih (some y.stop) (pre ++ zs ++ [y]) (post.drop m) (by rw [hsp']; simp)
          (schedulesQuery_next hm hm' hasc he hsp')]
        rw [Nat.succ_mul, Nat.add_comm (n * m) m, List.take_add]
  exact gen n none [] _ rfl (schedulesQuery_first hm hm' he hn)

/-! ## C123 -/

variable [Fintype I] [DecidableEq I] [DecidableEq U] [Fintype U]

/-- C123: at any moment of any history, if the reward runs, all its periods can be read page by page: with
enough pages, whatever the page size allowed, the reader gets one and the same gapless list starting now.
The rate listed for a period is the rate at which the reward is emitted during each of its seconds
(the rate used in the books of C31), and no second after the end of the list emits anything. -/
theorem C123_schedules_complete (me : U) (lp : U → Nat) (now : Nat) (ops : List (Op I U)) (X : I)
    (hrun : ∃ l, schedulesQuery (run me (start lp now) ops).st X none none = .ok l) :
    ∃ (l : List Period) (last : Nat),
      (∀ m n, 0 < m → m ≤ MAX_PAGE_LIMIT → l.length ≤ n * m →
        readPages (run me (start lp now) ops).st X m n none = l) ∧
      l ≠ [] ∧ Gapless (run me (start lp now) ops).st.now l last ∧
      (∀ y ∈ l, ∀ t, y.start < t → t ≤ y.stop → rateOf (run me (start lp now) ops).st.pool X t = y.rps) ∧
      ∀ t, last < t → rateOf (run me (start lp now) ops).st.pool X t = 0 := by
  have hinv : RunInv X False (run me (start lp now) ops) := run_runInv me ops _ (start_runInv X False lp now)
  generalize run me (start lp now) ops = r at *
  have hinv' := hinv
  obtain ⟨hl0, ev0, C0, hI0, _⟩ := hinv'
  obtain ⟨ev, C, hI, _, hl, _⟩ := hinv.update
  have hup : ∀ t, r.st.now < t → rateOf r.st.pool X t = rateOf (update r.st.now r.st.pool).1 X t :=
    fun t ht => (rateOf_update X hI0.asc hI0.next ht).symm
  have hasc := hI.asc
  obtain ⟨l0, hq⟩ := hrun
  have he : ∃ e, (update r.st.now r.st.pool).1.ext X = some e := by
    unfold schedulesQuery at hq
    simp only [bind_ok_iff, orErr_ok] at hq
    obtain ⟨_, _, e, he, _⟩ := hq
    exact ⟨e, he⟩
  obtain ⟨e, he⟩ := he
  have hn := hI.next e he
  rw [hl] at hn
  obtain ⟨b, hb, hg, hx⟩ := periods_gapless (after e.next ((update r.st.now r.st.pool).1.sched X)) e.next (hasc.after _)
    (fun x hx => (mem_after.1 hx).2)
  refine ⟨allPeriods r.st.now e ((update r.st.now r.st.pool).1.sched X), b, ?_, ?_, ⟨rfl, hn, hg⟩, ?_, ?_⟩
  · intro m n hm hm' hlen
    rw [readPages_eq hm hm' hasc he hn n]
    exact List.take_of_length_le hlen
  · simp [allPeriods]
  · intro y hy t ht1 ht2
    rcases List.mem_cons.1 hy with rfl | hy
    · simp only at ht1 ht2
      rw [hup t ht1]
      unfold rateOf; rw [he]
      simp [rateAt, ht2]
    · obtain ⟨h1, h2⟩ := periods_rate _ _ (hasc.after e.next) (fun x hx => (mem_after.1 hx).2) y hy
      have hlt : e.next < t := by omega
      rw [hup t (by omega)]
      unfold rateOf; rw [he]
      simp only [rateAt, if_neg (Nat.not_le.2 hlt)]
      rw [← h2 t ht1 ht2, pieceRate_after hasc hlt]
  · intro t ht
    rw [hup t (by omega)]
    unfold rateOf; rw [he]
    have hlt : e.next < t := by omega
    simp only [rateAt, if_neg (Nat.not_le.2 hlt)]
    rw [← pieceRate_after hasc hlt, pieceRate_zero]
    intro x hx'
    have := hx x hx'
    omega

/-- C123, continued: the query fails exactly when the reward does not run now: then no later second of it
emits anything either. -/
theorem C123_not_found (me : U) (lp : U → Nat) (now : Nat) (ops : List (Op I U)) (X : I)
    (hrun : ∀ l, schedulesQuery (run me (start lp now) ops).st X none none ≠ .ok l) (t : Nat)
    (ht : (run me (start lp now) ops).st.now < t) : rateOf (run me (start lp now) ops).st.pool X t = 0 := by
  have hinv : RunInv X False (run me (start lp now) ops) := run_runInv me ops _ (start_runInv X False lp now)
  generalize run me (start lp now) ops = r at *
  have hinv' := hinv
  obtain ⟨hl0, ev0, C0, hI0, _⟩ := hinv'
  rw [← rateOf_update X hI0.asc hI0.next ht]
  unfold rateOf
  cases he : (update r.st.now r.st.pool).1.ext X with
  | none => rfl
  | some e =>
    exfalso
    have : ∃ l, schedulesQuery r.st X none none = .ok l := by
      unfold schedulesQuery
      simp only [Option.getD_none, Nat.min_self, require, MAX_PAGE_LIMIT, ok_bind, he, orErr]
      by_cases hn : r.st.now < e.next
      · exact ⟨_, by simp only [if_pos hn]; rfl⟩
      · exact ⟨_, by simp only [if_neg hn]; rfl⟩
    obtain ⟨l, hl⟩ := this
    exact hrun l hl

/-- C123, continued: whatever `start_after` and `limit` are asked for, an answer is truthful: its periods follow
one another without gap, are all in the future, at most `limit` of them, and their rates are the rates of the
emission. -/
theorem C123_page_truthful (me : U) (lp : U → Nat) (now : Nat) (ops : List (Op I U)) (X : I)
    (startAfter limit : Option Nat) (l : List Period)
    (h : schedulesQuery (run me (start lp now) ops).st X startAfter limit = .ok l) :
    l.length ≤ min (limit.getD MAX_PAGE_LIMIT) MAX_PAGE_LIMIT ∧
    (∃ a b, (run me (start lp now) ops).st.now ≤ a ∧ Gapless a l b) ∧
    ∀ y ∈ l, (run me (start lp now) ops).st.now ≤ y.start ∧
      ∀ t, y.start < t → t ≤ y.stop → rateOf (run me (start lp now) ops).st.pool X t = y.rps := by
  have hinv : RunInv X False (run me (start lp now) ops) := run_runInv me ops _ (start_runInv X False lp now)
  generalize run me (start lp now) ops = r at *
  have hinv' := hinv
  obtain ⟨hl0, ev0, C0, hI0, _⟩ := hinv'
  obtain ⟨ev, C, hI, _, hl, _⟩ := hinv.update
  have hup : ∀ t, r.st.now < t → rateOf r.st.pool X t = rateOf (update r.st.now r.st.pool).1 X t :=
    fun t ht => (rateOf_update X hI0.asc hI0.next ht).symm
  have hasc := hI.asc
  unfold schedulesQuery at h
  simp only [bind_ok_iff, require_ok, exists_const, orErr_ok] at h
  obtain ⟨hm, e, he, h⟩ := h
  have hn := hI.next e he
  rw [hl] at hn
  generalize min (limit.getD MAX_PAGE_LIMIT) MAX_PAGE_LIMIT = m at *
  generalize hsched : (update r.st.now r.st.pool).1.sched X = sc at *
  -- rates of stored pieces
  have rate : ∀ a k, e.next ≤ a → ∀ y ∈ periods a ((after a sc).take k), a ≤ y.start ∧
      ∀ t, y.start < t → t ≤ y.stop → rateOf r.st.pool X t = y.rps := by
    intro a k ha y hy
    rw [periods_take] at hy
    obtain ⟨h1, h2⟩ := periods_rate _ _ (hasc.after a) (fun x hx => (mem_after.1 hx).2) y (List.mem_of_mem_take hy)
    refine ⟨h1, fun t ht1 ht2 => ?_⟩
    have hlt : e.next < t := by omega
    rw [hup t (by omega)]
    unfold rateOf; rw [he]
    simp only [rateAt, if_neg (Nat.not_le.2 hlt)]
    rw [hsched, ← h2 t ht1 ht2, pieceRate_after hasc (by omega)]
  have gap : ∀ a k, ∃ b, Gapless a (periods a ((after a sc).take k)) b := by
    intro a k
    obtain ⟨b, _, hg, _⟩ := periods_gapless ((after a sc).take k) a ((hasc.after a).sublist (List.take_sublist _ _))
      (fun x hx => (mem_after.1 (List.mem_of_mem_take hx)).2)
    exact ⟨b, hg⟩
  have len : ∀ a k, (periods a ((after a sc).take k)).length ≤ k := by
    intro a k
    rw [periods_take, List.length_take]; omega
  split at h
  · rename_i ha
    simp only [Except.ok.injEq] at h
    subst h
    refine ⟨?_, ?_, ?_⟩
    · have := len e.next (m - 1)
      simp only [List.length_cons]; omega
    · obtain ⟨b, hb⟩ := gap e.next (m - 1)
      exact ⟨_, b, Nat.le_refl _, rfl, hn, hb⟩
    · intro y hy
      rcases List.mem_cons.1 hy with rfl | hy
      · refine ⟨Nat.le_refl _, fun t ht1 ht2 => ?_⟩
        simp only at ht1 ht2
        rw [hup t ht1]
        unfold rateOf; rw [he]
        simp [rateAt, ht2]
      · obtain ⟨h1, h2⟩ := rate _ _ (Nat.le_refl _) y hy
        exact ⟨by omega, h2⟩
  · rename_i ha
    simp only [Except.ok.injEq] at h
    subst h
    refine ⟨len _ _, ?_, ?_⟩
    · obtain ⟨b, hb⟩ := gap (startAfter.getD r.st.now) m
      exact ⟨_, b, by omega, hb⟩
    · intro y hy
      obtain ⟨h1, h2⟩ := rate _ _ (by omega) y hy
      exact ⟨by omega, h2⟩

section Witness

/-- Three overlapping schedules of different lengths. -/
def wThree : List (Op (Fin 2) (Fin 4)) :=
  [.deposit 1 1 100, .incentivize 0 900000000 3 false, .incentivize 0 100000000 1 false, .wait 1000,
   .incentivize 0 500000000 2 false, .wait 1000]

/-- Non-vacuity: the reward runs in three periods with falling rates; two pages of two show all of them. -/
example : (readPages (run 0 wStart wThree).st 0 2 2 none).length = 3 ∧
    readPages (run 0 wStart wThree).st 0 2 2 none = readPages (run 0 wStart wThree).st 0 50 1 none ∧
    ((readPages (run 0 wStart wThree).st 0 2 2 none).map Period.rps).Pairwise (· > ·) ∧
    okAnd (schedulesQuery (run 0 wStart wThree).st 0 none none) (fun l => decide (l.length = 3)) = true := by
  decide +kernel

/-- Non-vacuity of `C123_not_found`: nothing of reward 1 was ever announced. -/
example : okAnd (schedulesQuery (run 0 wStart wThree).st 1 none none) (fun _ => true) = false := by
  decide +kernel

end Witness

end Verif.Incentives
