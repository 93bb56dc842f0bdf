import Verif.Incentives.Account

/-!
# Incentives: the accounting invariant holds along every history
-/

namespace Verif.Incentives

variable {I U : Type}

theorem isOk_val {r : Res Nat} (h : isOk r = true) : r = .ok (val r) := by
  cases r with
  | ok a => rfl
  | error e => simp [isOk] at h

theorem payAll_ok [Fintype I] {p : Pool I U} {rem : Removed I} {u : User I} {x : Paid I}
    (h : payAll p rem u = .ok x) :
    (∀ X, payExt p rem u X = .ok (x.ext X)) ∧ payAstro p u = .ok x.int := by
  unfold payAll at h
  simp only [bind_ok_iff, require_ok, exists_const, Except.ok.injEq] at h
  obtain ⟨h1, a, ha, rfl⟩ := h
  exact ⟨fun X => isOk_val (h1 X), ha⟩

theorem fromInput_ok {now amount periods : Nat} {c : Schedule} (h : fromInput now amount periods = .ok c) :
    1 ≤ periods ∧ periods ≤ MAX_PERIODS ∧
    c.nextEpochStart = EPOCHS_START + (now % EPOCHS_START / EPOCH_LENGTH + 1) * EPOCH_LENGTH ∧
    c.stop = c.nextEpochStart + periods * EPOCH_LENGTH ∧ now < c.stop ∧
    c.rps = amount * DEC / (c.stop - now) ∧ DEC ≤ c.rps := by
  unfold fromInput at h
  simp only [bind_ok_iff, require_ok, exists_const, csub_ok, Except.ok.injEq] at h
  obtain ⟨h1, len, ⟨h2, rfl⟩, h3, h4, rfl⟩ := h
  refine ⟨by omega, by omega, rfl, rfl, by simp only; omega, rfl, by simp only; omega⟩

theorem extend_basic {e : Ext} {l : List (Nat × Nat)} {c : Schedule} {now : Nat} (hasc : Ascending l)
    (hnow : now < e.next) (hstop : now < c.stop) :
    Ascending (extend e l c).2 ∧ now < (extend e l c).1.next ∧ (extend e l c).1.index = e.index ∧
    (extend e l c).1.orphaned = e.orphaned := by
  unfold extend
  split
  · refine ⟨?_, hstop, rfl, rfl⟩
    simp only
    split
    · exact hasc.upsert
    · exact hasc
  · exact ⟨(saveAll_spec _ l hasc (overlap_spec _ _ _ (hasc.after _)).1).1, hnow, rfl, rfl⟩

theorem Inv.congr [Fintype U] {X : I} {p q : Pool I U} {rem : Removed I} {ev : U → List Nat} {paid C : Nat}
    (hI : Inv X p rem ev paid C) (h1 : q.totalLp = p.totalLp) (h2 : q.last = p.last)
    (h3 : idx q X = idx p X) (h3' : orphAct q X = orphAct p X)
    (h4 : q.users = p.users) (h5 : Ascending (q.sched X)) (h6 : q.fin = p.fin) (h7 : q.orph = p.orph)
    (hn : ∀ e, q.ext X = some e → p.last < e.next) (hx : rem X = none) : Inv X q rem ev paid C := by
  have hamt : ∀ u, amt q u = amt p u := by intro u; unfold amt; rw [h4]
  have huid : ∀ u, uidx q X u = uidx p X u := by intro u; unfold uidx; rw [h4]
  constructor
  · exact h5
  · rw [h2]; exact hn
  · intro _; exact hx
  · rw [h6]; exact hI.finAsc
  · rw [h6, h2]; exact hI.finLe
  · rw [h4, h2]; exact hI.lc
  · rw [h4, h3]; exact hI.e0
  · rw [h4]; exact hI.e1
  · intro u x hx'; rw [h4] at hx'
    have := hI.sub u x hx'
    rw [finishedOf_eq] at this ⊢
    rw [h6]; exact this
  · rw [h1]; simp only [hamt]; exact hI.total
  · have := hI.acct
    simp only [hamt, huid, h3, h3', h7]
    exact this

/-- Changing anything but the data of `X` (and the stored removals) keeps the invariant. -/
theorem Inv.congr' [Fintype U] {X : I} {p q : Pool I U} {rem rem' : Removed I} {ev : U → List Nat} {paid C : Nat}
    (hI : Inv X p rem ev paid C) (h1 : q.totalLp = p.totalLp) (h2 : q.last = p.last)
    (h3 : q.ext X = p.ext X) (h4 : q.users = p.users) (h5 : q.sched X = p.sched X) (h6 : q.fin = p.fin)
    (h7 : q.orph = p.orph) (hx : rem' X = rem X) : Inv X q rem' ev paid C := by
  have hamt : ∀ u, amt q u = amt p u := by intro u; unfold amt; rw [h4]
  have huid : ∀ u, uidx q X u = uidx p X u := by intro u; unfold uidx; rw [h4]
  have hidx : idx q X = idx p X := by unfold idx; rw [h3]
  have hoa : orphAct q X = orphAct p X := by unfold orphAct; rw [h3]
  have hri : remIdx rem' X = remIdx rem X := by unfold remIdx; rw [hx]
  have hro : remOrph rem' X = remOrph rem X := by unfold remOrph; rw [hx]
  constructor
  · rw [h5]; exact hI.asc
  · rw [h2, h3]; exact hI.next
  · rw [h3, hx]; exact hI.excl
  · rw [h6]; exact hI.finAsc
  · rw [h6, h2]; exact hI.finLe
  · rw [h4, h2]; exact hI.lc
  · rw [h4, hidx]; exact hI.e0
  · rw [h4]; exact hI.e1
  · intro u x hx'; rw [h4] at hx'
    have := hI.sub u x hx'
    rw [finishedOf_eq] at this ⊢
    rw [h6, hri]; exact this
  · rw [h1]; simp only [hamt]; exact hI.total
  · have := hI.acct
    simp only [hamt, huid, hidx, hoa, hro, h7]
    exact this

/-- Adding a schedule keeps the books of every reward. -/
theorem incentivizePool_inv [Fintype U] [Fintype I] [DecidableEq I] {X Y : I} {p q : Pool I U}
    {ev : U → List Nat} {paid C : Nat} {c : Schedule} {isAstro : Bool}
    (hI : Inv X p noRem ev paid C) (h : incentivizePool p Y c isAstro = .ok q) (hstop : p.last < c.stop) :
    Inv X q noRem ev paid C := by
  unfold incentivizePool at h
  simp only [bind_ok_iff, require_ok, exists_const] at h
  obtain ⟨_, h⟩ := h
  by_cases hXY : X = Y
  · subst hXY
    cases he : p.ext X with
    | none =>
      rw [he] at h
      simp only [Except.ok.injEq] at h
      subst h
      refine hI.congr rfl rfl ?_ ?_ rfl hI.asc rfl rfl ?_ rfl
      · simp [idx, he]
      · simp [orphAct, he]
      · intro e h1
        simp only [Function.update_self, Option.some.injEq] at h1
        subst h1; exact hstop
    | some e =>
      rw [he] at h
      simp only [Except.ok.injEq] at h
      subst h
      obtain ⟨h1, h2, h3, h4⟩ := extend_basic hI.asc (hI.next e he) hstop
      refine hI.congr rfl rfl ?_ ?_ rfl ?_ rfl rfl ?_ rfl
      · simp [idx, he, h3]
      · simp [orphAct, he, h4]
      · simp only [Function.update_self]; exact h1
      · intro e' h5
        simp only [Function.update_self, Option.some.injEq] at h5
        subst h5; exact h2
  · split at h
    · simp only [Except.ok.injEq] at h
      subst h
      exact hI.congr' rfl rfl (Function.update_of_ne hXY _ _) rfl rfl rfl rfl rfl
    · simp only [Except.ok.injEq] at h
      subst h
      exact hI.congr' rfl rfl (Function.update_of_ne hXY _ _) rfl (Function.update_of_ne hXY _ _) rfl rfl rfl

/-- Removing a reward keeps the books of every reward: what had accrued stays an entitlement. -/
theorem deregister_inv [Fintype U] [DecidableEq I] {X Y : I} {p q : Pool I U} {rem rem' : Removed I}
    {ev : U → List Nat} {paid C n : Nat} {bypass : Bool}
    (hI : Inv X p rem ev paid C) (h : deregister p rem Y bypass = .ok ((q, rem'), n)) :
    Inv X q rem' (fun u => ev u ++ (if X = Y then [idx p X] else [])) paid C ∧
      (X = Y → ∃ e, p.ext X = some e) := by
  unfold deregister at h
  simp only [bind_ok_iff, orErr_ok, u128_ok, Except.ok.injEq, Prod.mk.injEq] at h
  obtain ⟨e, he, m, _, ⟨rfl, rfl⟩, rfl⟩ := h
  by_cases hXY : X = Y
  · subst hXY
    refine ⟨?_, fun _ => ⟨e, he⟩⟩
    have hrem : rem X = none := hI.excl (by rw [he]; simp)
    have hidx : idx p X = e.index := by unfold idx; rw [he]
    have hoa : orphAct p X = e.orphaned := by unfold orphAct; rw [he]
    simp only [if_true, hidx]
    constructor
    · simp only [Function.update_self]
      split
      · exact hI.asc.filter _
      · exact (hI.asc.filter _).filter _
    · intro e' h; simp at h
    · intro h; simp at h
    · exact hI.finAsc
    · exact hI.finLe
    · exact hI.lc
    · intro u x _ h0; simp at h0
    · intro u x hx h t hev
      cases hevu : ev u with
      | nil =>
        rw [hevu] at hev
        simp only [List.nil_append, List.cons.injEq] at hev
        have := hI.e0 u x hx hevu
        rw [hidx] at this
        omega
      | cons a b =>
        rw [hevu] at hev
        simp only [List.cons_append, List.cons.injEq] at hev
        rw [← hev.1]
        exact hI.e1 u x hx a b hevu
    · intro u x hx
      have := hI.sub u x hx
      rw [finishedOf_eq] at this ⊢
      have h1 : remIdx rem X = [] := by unfold remIdx; rw [hrem]
      rw [h1, List.append_nil] at this
      have h2 : remIdx (Function.update rem X (some (e.index, e.orphaned))) X = [e.index] := by
        unfold remIdx; rw [Function.update_self]
      rw [h2]
      exact this.append (List.Sublist.refl _)
    · exact hI.total
    · have := hI.acct
      have h1 : remOrph rem X = 0 := by unfold remOrph; rw [hrem]
      have h2 : remOrph (Function.update rem X (some (e.index, e.orphaned))) X = e.orphaned := by
        unfold remOrph; rw [Function.update_self]
      have h3 : ∀ q : Pool I U, q.ext X = none → idx q X = 0 ∧ orphAct q X = 0 := by
        intro q hq; unfold idx orphAct; rw [hq]; simp
      obtain ⟨h4, h5⟩ := h3 { p with
        ext := Function.update p.ext X none
        sched := Function.update p.sched X (if bypass = true then
          (p.sched X).filter (fun x => x.1 ≠ e.next) else
          ((p.sched X).filter (fun x => x.1 ≠ e.next)).filter (fun x => ¬ e.next < x.1)) }
        (Function.update_self ..)
      rw [h4, h5, h2]
      simp only [entl_end]
      rw [h1, hidx, hoa] at this
      exact (by omega : _ ≤ C)
  · refine ⟨?_, fun h => absurd h hXY⟩
    simp only [hXY, if_false, List.append_nil]
    exact hI.congr' rfl rfl (Function.update_of_ne hXY _ _) rfl (Function.update_of_ne hXY _ _) rfl rfl
      (Function.update_of_ne hXY _ _)

/-! ## Histories -/

/-- The contract still remembers every incarnation that ended since the last sync, and nobody holds an
empty position. -/
def Exact (X : I) (p : Pool I U) (rem : Removed I) (ev : U → List Nat) : Prop :=
  ∀ u x, p.users u = some x → 0 < x.amount ∧ finishedOf p rem x.lastClaim X = ev u

/-- Either nothing is to be removed, or nothing was stored and nobody synced in this very block. -/
def Fresh (p : Pool I U) (rem : Removed I) : Prop :=
  rem = noRem ∨ ((∀ x ∈ p.fin, x.1 < p.last) ∧ ∀ u x, p.users u = some x → x.lastClaim < p.last)

/-- With stakers present nothing is orphaned when a reward is removed. -/
def NoOrphan (p : Pool I U) (rem : Removed I) : Prop :=
  (∃ u x, p.users u = some x) → ∀ X, remOrph rem X = 0

theorem exact_save [Fintype I] {X : I} {p : Pool I U} {rem : Removed I} {ev : U → List Nat}
    (h : Exact X p rem ev) (hasc : Ascending p.fin) (hle : ∀ x ∈ p.fin, x.1 ≤ p.last) (hf : Fresh p rem)
    (ho : NoOrphan p rem) : Exact X (save p rem) noRem ev := by
  intro u x hx
  have hx' : p.users u = some x := hx
  obtain ⟨h1, h2⟩ := h u x hx'
  refine ⟨h1, ?_⟩
  rw [← h2, finishedOf_eq, finishedOf_eq]
  have h0 : remIdx (noRem : Removed I) X = [] := rfl
  rw [h0, List.append_nil]
  rcases hf with hf | ⟨hf1, hf2⟩
  · subst hf
    have : (save p noRem).fin = p.fin := by
      unfold save
      simp [savedIdx, noRem]
    rw [this, h0, List.append_nil]
  · have hs : ∀ Y, (savedIdx rem Y).toList = remIdx rem Y := by
      intro Y
      have := ho ⟨u, x, hx'⟩ Y
      unfold savedIdx remIdx
      unfold remOrph at this
      rcases hr : rem Y with _ | ⟨i, o⟩
      · simp
      · rw [hr] at this
        simp only at this
        simp [this]
    unfold save
    simp only
    split
    · rw [upsert_last hasc hle, List.filterMap_append, filterMap_single]
      have : p.fin.filter (fun x => x.1 < p.last) = p.fin := by
        rw [List.filter_eq_self]
        intro y hy; simpa using hf1 y hy
      rw [this]
      congr 1
      simp only
      rw [if_pos (hf2 u x hx'), hs]
    · rename_i hne
      have : remIdx rem X = [] := by
        rw [← hs]
        by_contra hc
        apply hne
        refine ⟨X, ?_⟩
        cases hsx : savedIdx rem X with
        | none => rw [hsx] at hc; simp at hc
        | some a => rfl
      rw [this, List.append_nil]

/-- The accounting invariant of reward `X` in a running history (`ex`: the history is clean). -/
def RunInv [Fintype U] (X : I) (ex : Prop) (r : Run I U) : Prop :=
  r.st.pool.last ≤ r.st.now ∧ ∃ ev C, Inv X r.st.pool noRem ev (r.books.paid X) C ∧
    C + ∑ t ∈ Finset.Ioc r.st.pool.last r.st.now, rateOf r.st.pool X t ≤ r.books.emitted X ∧
    (ex → Exact X r.st.pool noRem ev)

theorem update_noOrphan {p : Pool I U} {now : Nat} [Fintype U] (htot : ∑ u, amt p u = p.totalLp)
    (hpos : ∀ u x, p.users u = some x → 0 < x.amount) :
    NoOrphan (update now p).1 (update now p).2 ∧
    (p.last < now → (∃ u x, p.users u = some x) → ∀ X e, (update now p).1.ext X = some e → e.orphaned = 0) := by
  have hT : (∃ u x, p.users u = some x) → p.totalLp ≠ 0 := by
    rintro ⟨u, x, hx⟩
    have h1 := le_sum (amt p) u
    have h2 := hpos u x hx
    have h3 : amt p u = x.amount := by unfold amt; rw [hx]
    omega
  have hsp : ∀ T i o c, T ≠ 0 → (spread T i o c).2 = 0 := by
    intro T i o c h; unfold spread; rw [if_neg h]
  constructor
  · intro hex X
    rw [(update_fields now p).1] at hex
    have hT := hT hex
    by_cases hl : now ≤ p.last
    · have : (update now p).2 X = none := by unfold update; rw [if_pos hl]
      unfold remOrph; rw [this]
    · have h1 : (update now p).2 X = (p.ext X).bind fun e => (updExt now p.last p.totalLp (p.sched X) e).2 := by
        unfold update; rw [if_neg hl]
      unfold remOrph
      rw [h1]
      cases he : p.ext X with
      | none => rfl
      | some e =>
        simp only [Option.bind_some]
        have h2 : (updExt now p.last p.totalLp (p.sched X) e).2 = none ∨
            ∃ i o c, (updExt now p.last p.totalLp (p.sched X) e).2 = some (spread p.totalLp i o c) := by
          unfold updExt
          split
          · simp only
            split
            · left; rfl
            · right; exact ⟨_, _, _, rfl⟩
          · left; rfl
        rcases h2 with h2 | ⟨i, o, c, h2⟩
        · rw [h2]
        · rw [h2]; exact hsp _ _ _ _ hT
  · intro hl hex X e he
    have hT := hT hex
    unfold update at he
    rw [if_neg (by omega)] at he
    simp only at he
    cases he' : p.ext X with
    | none => rw [he'] at he; simp at he
    | some e' =>
      rw [he'] at he
      simp only [Option.bind_some] at he
      unfold updExt at he
      split at he
      · simp only at he
        split at he
        · simp only [Option.some.injEq] at he
          subst he; exact hsp _ _ _ _ hT
        · simp at he
      · simp only [Option.some.injEq] at he
        subst he; exact hsp _ _ _ _ hT

/-- State inside a call, after `update_rewards`. -/
theorem RunInv.update [Fintype U] {X : I} {ex : Prop} {r : Run I U} (h : RunInv X ex r) :
    ∃ ev C, Inv X (update r.st.now r.st.pool).1 (update r.st.now r.st.pool).2 ev (r.books.paid X) C ∧
      C ≤ r.books.emitted X ∧ (Incentives.update r.st.now r.st.pool).1.last = r.st.now ∧
      (ex → Exact X (Incentives.update r.st.now r.st.pool).1 (Incentives.update r.st.now r.st.pool).2 ev ∧
        Fresh (Incentives.update r.st.now r.st.pool).1 (Incentives.update r.st.now r.st.pool).2 ∧
        NoOrphan (Incentives.update r.st.now r.st.pool).1 (Incentives.update r.st.now r.st.pool).2) := by
  obtain ⟨hl, ev, C, hI, hC, hex⟩ := h
  obtain ⟨hu, hT, hs, hf, ho, hla⟩ := update_fields r.st.now r.st.pool
  refine ⟨_, _, update_inv hI hl, hC, by rw [hla]; omega, ?_⟩
  intro hx
  have hE := hex hx
  refine ⟨?_, ?_, ?_⟩
  · intro u x hux
    rw [hu] at hux
    obtain ⟨h1, h2⟩ := hE u x hux
    refine ⟨h1, ?_⟩
    rw [finishedOf_eq] at h2 ⊢
    show _ = ev u ++ _
    rw [hf, ← h2]
    simp [remIdx, noRem]
  · by_cases hlt : r.st.now ≤ r.st.pool.last
    · left
      unfold Incentives.update; rw [if_pos hlt]; rfl
    · right
      rw [hf, hu, hla]
      refine ⟨?_, ?_⟩
      · intro y hy; have := hI.finLe y hy; omega
      · intro u x hx; have := hI.lc u x hx; omega
  · exact (update_noOrphan hI.total (fun u x hx => (hE u x hx).1)).1

theorem RunInv.of [Fintype U] {X : I} {ex : Prop} {s : State I U} {b : Books I U} {ev : U → List Nat} {C : Nat}
    (hI : Inv X s.pool noRem ev (b.paid X) C) (hC : C ≤ b.emitted X) (hl : s.pool.last = s.now)
    (hex : ex → Exact X s.pool noRem ev) :
    RunInv X ex ⟨s, b⟩ := by
  refine ⟨Nat.le_of_eq hl, ev, C, hI, ?_, hex⟩
  simp only [hl, Finset.Ioc_self, Finset.sum_empty, Nat.add_zero]
  exact hC

theorem exact_position [DecidableEq U] {X : I} {p q : Pool I U} {ev : U → List Nat} {u : U}
    (h : Exact X p noRem ev) (hle : ∀ x ∈ p.fin, x.1 ≤ p.last) (hfin : q.fin = p.fin)
    (hother : ∀ v, v ≠ u → q.users v = p.users v)
    (hme : q.users u = none ∨ ∃ a, 0 < a ∧ q.users u = some (sync p ⟨a, fun _ => none, none, 0⟩)) :
    Exact X q noRem (Function.update ev u []) := by
  intro v x hx
  by_cases hv : v = u
  · subst hv
    rcases hme with h1 | ⟨a, ha, h1⟩
    · rw [h1] at hx; simp at hx
    · rw [h1] at hx
      have := Option.some.inj hx
      subst this
      refine ⟨ha, ?_⟩
      rw [Function.update_self, finishedOf_eq]
      have h0 : remIdx (noRem : Removed I) X = [] := rfl
      rw [h0, List.append_nil, hfin, List.filterMap_eq_nil_iff]
      intro y hy
      have := hle y hy
      show (if p.last < y.1 then y.2 X else none) = none
      rw [if_neg (by omega)]
  · rw [hother v hv] at hx
    rw [Function.update_of_ne hv]
    obtain ⟨h1, h2⟩ := h v x hx
    refine ⟨h1, ?_⟩
    rw [← h2, finishedOf_eq, finishedOf_eq, hfin]

theorem Exact.congr {X : I} {p q : Pool I U} {ev : U → List Nat} (h : Exact X p noRem ev)
    (h1 : q.fin = p.fin) (h2 : q.users = p.users) : Exact X q noRem ev := by
  intro u x hx
  rw [h2] at hx
  obtain ⟨h3, h4⟩ := h u x hx
  refine ⟨h3, ?_⟩
  rw [← h4, finishedOf_eq, finishedOf_eq, h1]

variable [Fintype I] [DecidableEq I] [DecidableEq U] [Fintype U]

theorem deposit_runInv {X : I} {ex : Prop} {r : Run I U} (h : RunInv X ex r) {me sender staker : U} {n : Nat}
    {s' : State I U} {x : Paid I} (hd : deposit me r.st sender staker n = .ok (s', x))
    (hn : ex → n ≠ 0) {b : Books I U} (hb1 : b.paid X = r.books.paid X + x.ext X)
    (hb2 : b.emitted X = r.books.emitted X) : RunInv X ex ⟨s', b⟩ := by
  obtain ⟨ev, C, hI, hC, hl, hex⟩ := h.update
  have hex' := fun hx => exact_save (hex hx).1 hI.finAsc hI.finLe (hex hx).2.1 (hex hx).2.2
  have husers := (update_fields r.st.now r.st.pool).1
  unfold deposit at hd
  simp only [bind_ok_iff] at hd
  obtain ⟨lp, _, hd⟩ := hd
  have hS := save_inv hI
  cases hu : r.st.pool.users staker with
  | none =>
    rw [hu] at hd
    simp only [bind_ok_iff, u128_ok, Except.ok.injEq, Prod.mk.injEq] at hd
    obtain ⟨T, ⟨_, rfl⟩, rfl, rfl⟩ := hd
    refine RunInv.of (ev := Function.update ev staker []) (C := C) ?_ (by rw [hb2]; exact hC) hl ?_
    · rw [hb1]
      have hz : amt (save (update r.st.now r.st.pool).1 (update r.st.now r.st.pool).2) staker = 0 := by
        unfold amt; rw [(save_fields _ _).1, husers, hu]
      refine position_inv (u := staker) (n := 0) hS rfl rfl rfl rfl rfl ?_ ?_ ?_ (by simp)
      · intro v hv; exact Function.update_of_ne hv _ _
      · right; exact ⟨n, Function.update_self ..⟩
      · rw [hz]
        have : ∀ q : Pool I U, ∀ y, q.users staker = some y → amt q staker = y.amount := by
          intro q y hy; unfold amt; rw [hy]
        rw [this _ _ (Function.update_self ..)]
        rfl
    · intro hx
      refine exact_position (hex' hx) hS.finLe rfl (fun v hv => Function.update_of_ne hv _ _) ?_
      right; exact ⟨n, Nat.pos_of_ne_zero (hn hx), Function.update_self ..⟩
  | some u =>
    rw [hu] at hd
    simp only [bind_ok_iff, u128_ok, Except.ok.injEq, Prod.mk.injEq] at hd
    obtain ⟨pay, hpay, a, ⟨_, rfl⟩, T, ⟨_, rfl⟩, rfl, rfl⟩ := hd
    have husr : (update r.st.now r.st.pool).1.users staker = some u := by rw [husers, hu]
    refine RunInv.of (ev := Function.update ev staker []) (C := C) ?_ (by rw [hb2]; exact hC) hl ?_
    · rw [hb1]
      have hb := payExt_le hI husr ((payAll_ok hpay).1 X)
      have hz : amt (save (update r.st.now r.st.pool).1 (update r.st.now r.st.pool).2) staker = u.amount := by
        unfold amt; rw [(save_fields _ _).1, husr]
      refine position_inv (u := staker) (n := pay.ext X) hS rfl rfl rfl rfl rfl ?_ ?_ ?_ hb
      · intro v hv; exact Function.update_of_ne hv _ _
      · right; exact ⟨u.amount + n, Function.update_self ..⟩
      · rw [hz]
        have : ∀ q : Pool I U, ∀ y, q.users staker = some y → amt q staker = y.amount := by
          intro q y hy; unfold amt; rw [hy]
        rw [this _ _ (Function.update_self ..)]
        show (update r.st.now r.st.pool).1.totalLp + n + u.amount =
          (update r.st.now r.st.pool).1.totalLp + (u.amount + n)
        omega
    · intro hx
      refine exact_position (hex' hx) hS.finLe rfl (fun v hv => Function.update_of_ne hv _ _) ?_
      right
      exact ⟨u.amount + n, by have := ((hex hx).1 staker u husr).1; omega, Function.update_self ..⟩

theorem withdraw_runInv {X : I} {ex : Prop} {r : Run I U} (h : RunInv X ex r) {me user : U} {n : Nat}
    {s' : State I U} {x : Paid I} (hd : withdraw me r.st user n = .ok (s', x))
    {b : Books I U} (hb1 : b.paid X = r.books.paid X + x.ext X)
    (hb2 : b.emitted X = r.books.emitted X) : RunInv X ex ⟨s', b⟩ := by
  obtain ⟨ev, C, hI, hC, hl, hex⟩ := h.update
  have hex' := fun hx => exact_save (hex hx).1 hI.finAsc hI.finLe (hex hx).2.1 (hex hx).2.2
  have husers := (update_fields r.st.now r.st.pool).1
  unfold withdraw at hd
  simp only [bind_ok_iff, orErr_ok, require_ok, exists_const, csub_ok, Except.ok.injEq, Prod.mk.injEq] at hd
  obtain ⟨u, hu, hn, pay, hpay, T, ⟨hT, rfl⟩, lp, _, rfl, rfl⟩ := hd
  have hS := save_inv hI
  have husr : (update r.st.now r.st.pool).1.users user = some u := by rw [husers, hu]
  refine RunInv.of (ev := Function.update ev user []) (C := C) ?_ (by rw [hb2]; exact hC) hl ?_
  · rw [hb1]
    have hb := payExt_le hI husr ((payAll_ok hpay).1 X)
    have hz : amt (save (update r.st.now r.st.pool).1 (update r.st.now r.st.pool).2) user = u.amount := by
      unfold amt; rw [(save_fields _ _).1, husr]
    refine position_inv (u := user) (n := pay.ext X) hS rfl rfl rfl rfl rfl ?_ ?_ ?_ hb
    · intro v hv; exact Function.update_of_ne hv _ _
    · by_cases h0 : u.amount - n = 0
      · left
        exact (Function.update_self ..).trans (if_pos h0)
      · right
        exact ⟨u.amount - n, (Function.update_self ..).trans (if_neg h0)⟩
    · rw [hz]
      have hq : ∀ q : Pool I U, ∀ y : User I, q.users user = (if u.amount - n = 0 then none else some y) →
          y.amount = u.amount - n → amt q user = u.amount - n := by
        intro q y hy hya
        unfold amt; rw [hy]
        split
        · rename_i heq; split at heq
          · omega
          · simp at heq
        · rename_i z heq; split at heq
          · simp at heq
          · rw [← Option.some.inj heq]; exact hya
      rw [hq _ _ (Function.update_self ..) rfl]
      show (update r.st.now r.st.pool).1.totalLp - n + u.amount =
          (update r.st.now r.st.pool).1.totalLp + (u.amount - n)
      omega
  · intro hx
    refine exact_position (hex' hx) hS.finLe rfl (fun v hv => Function.update_of_ne hv _ _) ?_
    by_cases h0 : u.amount - n = 0
    · left
      exact (Function.update_self ..).trans (if_pos h0)
    · right
      exact ⟨u.amount - n, by omega, (Function.update_self ..).trans (if_neg h0)⟩

theorem claim_runInv {X : I} {ex : Prop} {r : Run I U} (h : RunInv X ex r) {user : U}
    {s' : State I U} {x : Paid I} (hd : claim r.st user = .ok (s', x))
    {b : Books I U} (hb1 : b.paid X = r.books.paid X + x.ext X)
    (hb2 : b.emitted X = r.books.emitted X) : RunInv X ex ⟨s', b⟩ := by
  obtain ⟨ev, C, hI, hC, hl, hex⟩ := h.update
  have hex' := fun hx => exact_save (hex hx).1 hI.finAsc hI.finLe (hex hx).2.1 (hex hx).2.2
  have husers := (update_fields r.st.now r.st.pool).1
  unfold claim at hd
  simp only [bind_ok_iff, orErr_ok, Except.ok.injEq, Prod.mk.injEq] at hd
  obtain ⟨u, hu, pay, hpay, rfl, rfl⟩ := hd
  have hS := save_inv hI
  have husr : (update r.st.now r.st.pool).1.users user = some u := by rw [husers, hu]
  refine RunInv.of (ev := Function.update ev user []) (C := C) ?_ (by rw [hb2]; exact hC) hl ?_
  · rw [hb1]
    have hb := payExt_le hI husr ((payAll_ok hpay).1 X)
    have hz : amt (save (update r.st.now r.st.pool).1 (update r.st.now r.st.pool).2) user = u.amount := by
      unfold amt; rw [(save_fields _ _).1, husr]
    refine position_inv (u := user) (n := pay.ext X) hS rfl rfl rfl rfl rfl ?_ ?_ ?_ hb
    · intro v hv; exact Function.update_of_ne hv _ _
    · right; exact ⟨u.amount, Function.update_self ..⟩
    · rw [hz]
      have : ∀ q : Pool I U, ∀ y, q.users user = some y → amt q user = y.amount := by
        intro q y hy; unfold amt; rw [hy]
      rw [this _ _ (Function.update_self ..)]
      rfl
  · intro hx
    refine exact_position (hex' hx) hS.finLe rfl (fun v hv => Function.update_of_ne hv _ _) ?_
    right
    exact ⟨u.amount, ((hex hx).1 user u husr).1, Function.update_self ..⟩

omit [DecidableEq U] [Fintype U] in
theorem save_incentivizePool {p q : Pool I U} {rem : Removed I} {Y : I} {c : Schedule} {isAstro : Bool}
    (h : incentivizePool p Y c isAstro = .ok q) :
    incentivizePool (save p rem) Y c isAstro = .ok (save q rem) ∧ q.fin = p.fin ∧ q.users = p.users ∧
      q.last = p.last ∧ q.totalLp = p.totalLp ∧ q.orph = p.orph ∧ q.int = p.int := by
  unfold incentivizePool at h ⊢
  simp only [bind_ok_iff, require_ok, exists_const] at h ⊢
  have h2 := h.2
  have h1' : ¬ (Fintype.card {Y : I // ((save p rem).ext Y).isSome = true} = MAX_REWARD_TOKENS ∧
      (save p rem).ext Y = none ∧ isAstro = false) := h.1
  have : (save p rem).ext Y = p.ext Y := rfl
  rw [this] at h1' ⊢
  cases he : p.ext Y with
  | none =>
    rw [he] at h2
    simp only [Except.ok.injEq] at h2 ⊢
    subst h2
    rw [he] at h1'
    exact ⟨⟨by first | exact h1' | simpa using h1' | simp, rfl⟩, rfl, rfl, rfl, rfl, rfl, rfl⟩
  | some e =>
    rw [he] at h2
    simp only [Except.ok.injEq] at h2 ⊢
    subst h2
    rw [he] at h1'
    exact ⟨⟨by first | exact h1' | simpa using h1' | simp, rfl⟩, rfl, rfl, rfl, rfl, rfl, rfl⟩

omit [Fintype I] [DecidableEq U] [Fintype U] in
theorem deregister_fields {p q : Pool I U} {rem rem' : Removed I} {Y : I} {bypass : Bool} {n : Nat}
    (h : deregister p rem Y bypass = .ok ((q, rem'), n)) :
    q.fin = p.fin ∧ q.users = p.users ∧ q.last = p.last ∧ q.totalLp = p.totalLp ∧ q.orph = p.orph ∧
      q.int = p.int ∧ ∃ e, p.ext Y = some e ∧ rem' = Function.update rem Y (some (e.index, e.orphaned)) := by
  unfold deregister at h
  simp only [bind_ok_iff, orErr_ok, u128_ok, Except.ok.injEq, Prod.mk.injEq] at h
  obtain ⟨e, he, m, _, ⟨rfl, rfl⟩, rfl⟩ := h
  exact ⟨rfl, rfl, rfl, rfl, rfl, rfl, e, he, rfl⟩

theorem step_runInv {X : I} {ex : Prop} {r : Run I U} (h : RunInv X ex r) (me : U) (o : Op I U)
    (hok : ex → (match (generalizing := false) o with
      | .deposit _ _ n => n ≠ 0
      | .removeReward _ _ => r.st.pool.last < r.st.now
      | _ => True)) :
    RunInv X ex (step me r o) := by
  cases o with
  | deposit sender staker n =>
    unfold step
    simp only
    split
    · rename_i s x heq
      split at heq
      · simp at heq
      · exact deposit_runInv h heq hok rfl rfl
    · exact h
  | withdraw user n =>
    unfold step
    simp only
    split
    · rename_i s x heq
      split at heq
      · simp at heq
      · exact withdraw_runInv h heq rfl rfl
    · exact h
  | claim user =>
    unfold step
    simp only
    split
    · rename_i s x heq
      exact claim_runInv h heq rfl rfl
    · exact h
  | incentivize Y amount periods isAstro =>
    unfold step
    simp only
    split
    · rename_i s heq
      obtain ⟨ev, C, hI, hC, hl, hex⟩ := h.update
      have hex' := fun hx => exact_save (hex hx).1 hI.finAsc hI.finLe (hex hx).2.1 (hex hx).2.2
      unfold incentivize at heq
      simp only [bind_ok_iff, Except.ok.injEq] at heq
      obtain ⟨c, hc, p, hp, rfl⟩ := heq
      have hstop := (fromInput_ok hc).2.2.2.2.1
      have hS := save_inv hI
      obtain ⟨hsp, hfin, hus, hlp, _⟩ := save_incentivizePool (rem := (update r.st.now r.st.pool).2) hp
      have hI2 := incentivizePool_inv hS hsp
        (by rw [(save_fields _ _).2.2.2.2.1, hl]; exact hstop)
      refine RunInv.of (ev := ev) (C := C) hI2 hC (hlp.trans hl) ?_
      intro hx
      refine (hex' hx).congr ?_ hus
      show (if _ then _ else _) = (if _ then _ else _)
      rw [hfin, hlp]
    · exact h
  | removeReward Y bypass =>
    unfold step
    simp only
    split
    · rename_i s n heq
      obtain ⟨ev, C, hI, hC, hl, hex⟩ := h.update
      unfold removeReward at heq
      simp only [bind_ok_iff, Except.ok.injEq, Prod.mk.injEq, Prod.exists] at heq
      obtain ⟨p, rem, m, hd, rfl, rfl⟩ := heq
      obtain ⟨hI2, _⟩ := deregister_inv hI hd
      obtain ⟨hfin, hus, hlp, _, _, _, e, he, hrem⟩ := deregister_fields hd
      refine RunInv.of (C := C) (save_inv hI2) hC (hlp.trans hl) ?_
      intro hx
      obtain ⟨hE, hF, hO⟩ := hex hx
      have hlt := hok hx
      simp only at hlt
      obtain ⟨hl0, ev0, C0, hI0, _, hE0⟩ := h
      have hE0 := hE0 hx
      refine exact_save ?_ hI2.finAsc hI2.finLe ?_ ?_
      · intro u x hux
        rw [hus] at hux
        obtain ⟨h1, h2⟩ := hE u x hux
        refine ⟨h1, ?_⟩
        show _ = ev u ++ _
        rw [← h2, finishedOf_eq, finishedOf_eq, hfin, List.append_assoc]
        congr 1
        by_cases hXY : X = Y
        · subst hXY
          have hr : (update r.st.now r.st.pool).2 X = none := hI.excl (by rw [he]; simp)
          have h3 : remIdx (update r.st.now r.st.pool).2 X = [] := by unfold remIdx; rw [hr]
          have h4 : idx (update r.st.now r.st.pool).1 X = e.index := by unfold idx; rw [he]
          rw [h3, hrem, if_pos rfl, h4]
          unfold remIdx; rw [Function.update_self]; rfl
        · rw [if_neg hXY, List.append_nil, hrem]
          unfold remIdx; rw [Function.update_of_ne hXY]
      · right
        rw [hfin, hus, hlp, hl]
        obtain ⟨hu, _, _, hf, _, _⟩ := update_fields r.st.now r.st.pool
        rw [hf, hu]
        refine ⟨?_, ?_⟩
        · intro y hy; have := hI0.finLe y hy; omega
        · intro u x hx; have := hI0.lc u x hx; omega
      · intro hex1 Z
        rw [hus] at hex1
        have h1 := hO hex1 Z
        by_cases hZ : Z = Y
        · subst hZ
          rw [(update_fields r.st.now r.st.pool).1] at hex1
          have := (update_noOrphan hI0.total (fun u x hx => (hE0 u x hx).1)).2 hlt hex1 Z e he
          rw [hrem]
          unfold remOrph; rw [Function.update_self]; exact this
        · rw [hrem]
          unfold remOrph at h1 ⊢
          rw [Function.update_of_ne hZ]; exact h1
    · exact h
  | setAstro rps =>
    obtain ⟨ev, C, hI, hC, hl, hex⟩ := h.update
    have hex' := fun hx => exact_save (hex hx).1 hI.finAsc hI.finLe (hex hx).2.1 (hex hx).2.2
    have hS := save_inv hI
    exact RunInv.of (ev := ev) (C := C) (hS.congr' rfl rfl rfl rfl rfl rfl rfl rfl) hC hl
      (fun hx => (hex' hx).congr rfl rfl)
  | disableAstro =>
    obtain ⟨ev, C, hI, hC, hl, hex⟩ := h.update
    have hex' := fun hx => exact_save (hex hx).1 hI.finAsc hI.finLe (hex hx).2.1 (hex hx).2.2
    have hS := save_inv hI
    exact RunInv.of (ev := ev) (C := C) (hS.congr' rfl rfl rfl rfl rfl rfl rfl rfl) hC hl
      (fun hx => (hex' hx).congr rfl rfl)
  | touch =>
    obtain ⟨ev, C, hI, hC, hl, hex⟩ := h.update
    have hex' := fun hx => exact_save (hex hx).1 hI.finAsc hI.finLe (hex hx).2.1 (hex hx).2.2
    exact RunInv.of (ev := ev) (C := C) (save_inv hI) hC hl hex'
  | wait d =>
    obtain ⟨hl, ev, C, hI, hC, hex⟩ := h
    refine ⟨Nat.le_trans hl (Nat.le_add_right _ _), ev, C, hI, ?_, hex⟩
    show C + ∑ t ∈ Finset.Ioc r.st.pool.last (r.st.now + d), rateOf r.st.pool X t ≤
      r.books.emitted X + ∑ t ∈ Finset.Ioc r.st.now (r.st.now + d), rateOf r.st.pool X t
    rw [sum_Ioc_split _ hl (Nat.le_add_right _ _)]
    omega
  | sendLp src dst n =>
    unfold step
    simp only
    split
    · exact h
    · exact h

theorem run_runInv {X : I} (me : U) : ∀ (ops : List (Op I U)) (r : Run I U), RunInv X False r →
    RunInv X False (run me r ops)
  | [], _, h => h
  | o :: os, r, h => run_runInv me os _ (step_runInv h me o (fun hf => hf.elim))

theorem run_runInv_clean {X : I} (me : U) : ∀ (ops : List (Op I U)) (r : Run I U), RunInv X True r →
    Clean me r ops → RunInv X True (run me r ops)
  | [], _, h, _ => h
  | o :: os, r, h, hc => run_runInv_clean me os _ (step_runInv h me o (fun _ => by
      have := hc.1
      cases o <;> exact this)) hc.2

theorem start_runInv (X : I) (ex : Prop) (lp : U → Nat) (now : Nat) :
    RunInv X ex (start lp now : Run I U) := by
  refine ⟨Nat.zero_le _, fun _ => [], 0, ?_, ?_, ?_⟩
  · constructor
    · exact List.Pairwise.nil
    · intro e h; exact absurd h (by simp [start, Pool.empty])
    · intro _; rfl
    · exact List.Pairwise.nil
    · intro x hx; simp [start, Pool.empty] at hx
    · intro u x hx; simp [start, Pool.empty] at hx
    · intro u x hx; simp [start, Pool.empty] at hx
    · intro u x hx; simp [start, Pool.empty] at hx
    · intro u x hx; simp [start, Pool.empty] at hx
    · simp [start, Pool.empty, amt]
    · simp [start, Pool.empty, amt, Books.zero, orphAct, remOrph, noRem]
  · simp [start, Pool.empty, rateOf]
  · intro _ u x hx; simp [start, Pool.empty] at hx

end Verif.Incentives
