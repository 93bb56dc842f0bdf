import Verif.Incentives.Conserve

/-!
# Incentives: LP tokens and ASTRO emissions along every history
-/

namespace Verif.Incentives

variable {I U : Type}

/-- Current ASTRO index. -/
def aidx (p : Pool I U) : Nat := match p.int with | none => 0 | some r => r.index
/-- ASTRO not assigned to anybody. -/
def aorph (p : Pool I U) : Nat := match p.int with | none => 0 | some r => r.orphaned
/-- `u`'s stored ASTRO index. -/
def auidx (p : Pool I U) (u : U) : Nat := match p.users u with | none => 0 | some x => x.int.getD 0

/-- ASTRO accounting of a pool: stakers' claims, payments and orphaned ASTRO within `E`. -/
structure AInv [Fintype U] (p : Pool I U) (paid E : Nat) : Prop where
  le : ∀ u x, p.users u = some x → x.int.getD 0 ≤ aidx p
  total : ∑ u, amt p u = p.totalLp
  acct : ∑ u, amt p u * (aidx p - auidx p u) + DEC * paid + aorph p ≤ E

theorem payAstro_le {p : Pool I U} {u : User I} {n : Nat} (h : payAstro p u = .ok n)
    (hle : u.int.getD 0 ≤ aidx p) : DEC * n ≤ u.amount * (aidx p - u.int.getD 0) := by
  unfold payAstro at h
  unfold aidx at *
  cases hi : p.int with
  | none => rw [hi] at h; simp only [Except.ok.injEq] at h; subst h; simp
  | some r =>
    rw [hi] at h hle
    simp only [u128_ok] at h hle ⊢
    obtain ⟨_, rfl⟩ := h
    have : idxDiff r.index (u.int.getD 0) = r.index - u.int.getD 0 := by
      unfold idxDiff; split
      · omega
      · rfl
    rw [this]
    exact mulDec_bound _ _

theorem AInv.update [Fintype U] {p : Pool I U} {paid E now : Nat} (h : AInv p paid E) (hl : p.last ≤ now) :
    AInv (update now p).1 paid (E + astroRate p * (now - p.last)) := by
  by_cases hn : now ≤ p.last
  · have : now = p.last := by omega
    subst this
    have : Incentives.update p.last p = (p, noRem) := by
      unfold Incentives.update; rw [if_pos (Nat.le_refl _)]; rfl
    rw [this]
    simp only [Nat.sub_self, Nat.mul_zero, Nat.add_zero]
    exact h
  · obtain ⟨hu, hT, _⟩ := update_fields now p
    have hi : (Incentives.update now p).1.int = p.int.map (updAstro now p.last p.totalLp) := by
      unfold Incentives.update; rw [if_neg hn]
    have hamt : ∀ u, amt (Incentives.update now p).1 u = amt p u := by intro u; unfold amt; rw [hu]
    have huid : ∀ u, auidx (Incentives.update now p).1 u = auidx p u := by intro u; unfold auidx; rw [hu]
    cases hp : p.int with
    | none =>
      rw [hp] at hi
      have h1 : aidx (Incentives.update now p).1 = aidx p := by unfold aidx; rw [hi, hp]; rfl
      have h2 : aorph (Incentives.update now p).1 = aorph p := by unfold aorph; rw [hi, hp]; rfl
      refine ⟨?_, ?_, ?_⟩
      · intro u x hx; rw [hu] at hx; rw [h1]; exact h.le u x hx
      · simp only [hamt, hT]; exact h.total
      · simp only [hamt, huid, h1, h2]; have := h.acct; omega
    | some r =>
      rw [hp] at hi
      have h0 : aidx p = r.index := by unfold aidx; rw [hp]
      have h0' : aorph p = r.orphaned := by unfold aorph; rw [hp]
      have hr : astroRate p = r.rps := by unfold astroRate; rw [hp]
      have h1 : aidx (Incentives.update now p).1 =
          (spread p.totalLp r.index r.orphaned (r.rps * (now - p.last))).1 := by
        unfold aidx; rw [hi]; rfl
      have h2 : aorph (Incentives.update now p).1 =
          (spread p.totalLp r.index r.orphaned (r.rps * (now - p.last))).2 := by
        unfold aorph; rw [hi]; rfl
      have hge : aidx p ≤ aidx (Incentives.update now p).1 := by
        rw [h0, h1]; unfold spread; split <;> simp
      have hle : ∀ u, auidx p u ≤ aidx p := by
        intro u
        unfold auidx
        cases hx : p.users u with
        | none => simp
        | some x => exact h.le u x hx
      refine ⟨?_, ?_, ?_⟩
      · intro u x hx; rw [hu] at hx; exact Nat.le_trans (h.le u x hx) hge
      · simp only [hamt, hT]; exact h.total
      · simp only [hamt, huid, h1, h2, hr]
        have := spread_bound (a := amt p) (f := fun u i => if i < r.index then i else i - auidx p u)
          (T := p.totalLp) (i := r.index) (o := r.orphaned) (c := r.rps * (now - p.last)) h.total (by
            intro u d
            have := hle u
            rw [h0] at this
            rw [if_neg (by omega), if_neg (by omega)]
            omega)
        have hsp : r.index ≤ (spread p.totalLp r.index r.orphaned (r.rps * (now - p.last))).1 := by
          unfold spread; split <;> simp
        simp only [Nat.lt_irrefl, if_false, if_neg (Nat.not_lt.2 hsp)] at this
        have hac := h.acct
        rw [h0, h0'] at hac
        omega

theorem AInv.position [Fintype U] {p q : Pool I U} {paid E n : Nat} {u : U} (h : AInv p paid E)
    (hint : q.int = p.int) (hother : ∀ v, v ≠ u → q.users v = p.users v)
    (hme : q.users u = none ∨ ∃ x, q.users u = some x ∧ x.int = p.int.map Astro.index)
    (htot : q.totalLp + amt p u = p.totalLp + amt q u)
    (hpay : DEC * n ≤ amt p u * (aidx p - auidx p u)) : AInv q (paid + n) E := by
  have hi : aidx q = aidx p := by unfold aidx; rw [hint]
  have ho : aorph q = aorph p := by unfold aorph; rw [hint]
  have hamt : ∀ v, v ≠ u → amt q v = amt p v := by intro v hv; unfold amt; rw [hother v hv]
  have huid : ∀ v, v ≠ u → auidx q v = auidx p v := by intro v hv; unfold auidx; rw [hother v hv]
  have hself : ∀ x, q.users u = some x → x.int.getD 0 = aidx p := by
    intro x hx
    rcases hme with h1 | ⟨y, h1, h2⟩
    · rw [h1] at hx; simp at hx
    · rw [h1] at hx
      rw [← Option.some.inj hx, h2]
      unfold aidx
      cases p.int <;> rfl
  refine ⟨?_, ?_, ?_⟩
  · intro v x hx
    by_cases hv : v = u
    · subst hv; rw [hself x hx, hi]
    · rw [hother v hv] at hx; rw [hi]; exact h.le v x hx
  · have := sum_change (f := amt p) (g := amt q) (u := u) hamt
    have := h.total
    omega
  · have hc := sum_change (f := fun v => amt p v * (aidx p - auidx p v))
      (g := fun v => amt q v * (aidx q - auidx q v)) (u := u)
      (by intro v hv; simp only [hamt v hv, huid v hv, hi])
    have hz : amt q u * (aidx q - auidx q u) = 0 := by
      cases hq : q.users u with
      | none => unfold amt; rw [hq]; simp
      | some x =>
        have : auidx q u = aidx p := by unfold auidx; rw [hq]; exact hself x hq
        rw [hi, this]; simp
    rw [hz] at hc
    have := h.acct
    rw [Nat.mul_add, ho]
    omega

theorem AInv.congr [Fintype U] {p q : Pool I U} {paid E : Nat} (h : AInv p paid E) (h1 : q.users = p.users)
    (h2 : q.totalLp = p.totalLp) (h3 : aidx q = aidx p) (h4 : aorph q = aorph p) : AInv q paid E := by
  have hamt : ∀ u, amt q u = amt p u := by intro u; unfold amt; rw [h1]
  have huid : ∀ u, auidx q u = auidx p u := by intro u; unfold auidx; rw [h1]
  refine ⟨?_, ?_, ?_⟩
  · intro u x hx; rw [h1] at hx; rw [h3]; exact h.le u x hx
  · simp only [hamt, h2]; exact h.total
  · simp only [hamt, huid, h3, h4]; exact h.acct

/-! ## Histories -/

/-- LP tokens and ASTRO in a running history of the contract `me`. -/
structure LpInv [Fintype U] (me : U) (r : Run I U) : Prop where
  last : r.st.pool.last ≤ r.st.now
  held : r.st.lp me = r.st.pool.totalLp + r.books.donated
  own : ∀ u, r.books.withdrawn u + amt r.st.pool u = r.books.deposited u
  astro : ∃ E, AInv r.st.pool r.books.astroPaid E ∧
    E + astroRate r.st.pool * (r.st.now - r.st.pool.last) ≤ r.books.astroEmitted

variable [Fintype I] [DecidableEq I] [DecidableEq U] [Fintype U]

omit [Fintype I] [DecidableEq I] [DecidableEq U] in
theorem LpInv.update {me : U} {r : Run I U} (h : LpInv me r) :
    ∃ E, AInv (update r.st.now r.st.pool).1 r.books.astroPaid E ∧ E ≤ r.books.astroEmitted ∧
      (Incentives.update r.st.now r.st.pool).1.last = r.st.now := by
  obtain ⟨E, hA, hE⟩ := h.astro
  refine ⟨_, hA.update h.last, hE, ?_⟩
  rw [(update_fields r.st.now r.st.pool).2.2.2.2.2]; have := h.last; omega

omit [Fintype I] [DecidableEq I] [DecidableEq U] [Fintype U] in
theorem amt_some {q : Pool I U} {u : U} {y : User I} (h : q.users u = some y) : amt q u = y.amount := by
  unfold amt; rw [h]

omit [Fintype I] [DecidableEq I] [DecidableEq U] in
theorem LpInv.simple {me : U} {r : Run I U} (h : LpInv me r) {s : State I U} {b : Books I U}
    (h1 : s.pool.users = r.st.pool.users) (h2 : s.pool.totalLp = r.st.pool.totalLp) (h3 : s.lp = r.st.lp)
    (h4 : s.now = r.st.now) (h5 : s.pool.last = (Incentives.update r.st.now r.st.pool).1.last)
    (h6 : aidx s.pool = aidx (Incentives.update r.st.now r.st.pool).1)
    (h7 : aorph s.pool = aorph (Incentives.update r.st.now r.st.pool).1)
    (hb1 : b.donated = r.books.donated) (hb2 : b.withdrawn = r.books.withdrawn)
    (hb3 : b.deposited = r.books.deposited) (hb4 : b.astroPaid = r.books.astroPaid)
    (hb5 : b.astroEmitted = r.books.astroEmitted) : LpInv me ⟨s, b⟩ := by
  obtain ⟨E, hA, hE, hl⟩ := h.update
  obtain ⟨hu, hT, _⟩ := update_fields r.st.now r.st.pool
  refine ⟨?_, ?_, ?_, E, ?_, ?_⟩
  · show s.pool.last ≤ s.now; rw [h5, hl, h4]
  · show s.lp me = s.pool.totalLp + b.donated; rw [h3, h2, hb1]; exact h.held
  · intro u
    show b.withdrawn u + amt s.pool u = b.deposited u
    have : amt s.pool u = amt r.st.pool u := by unfold amt; rw [h1]
    rw [hb2, hb3, this]; exact h.own u
  · show AInv s.pool b.astroPaid E
    rw [hb4]
    exact hA.congr (by rw [h1, hu]) (by rw [h2, hT]) h6 h7
  · show E + astroRate s.pool * (s.now - s.pool.last) ≤ b.astroEmitted
    rw [h5, hl, h4, hb5, Nat.sub_self, Nat.mul_zero]; exact hE

omit [Fintype I] [DecidableEq I] [DecidableEq U] in
theorem LpInv.position {me : U} {r : Run I U} (h : LpInv me r) {s : State I U} {b : Books I U} {user : U}
    {x : Paid I} (hoth : ∀ v, v ≠ user → s.pool.users v = r.st.pool.users v)
    (hme : s.pool.users user = none ∨ ∃ y, s.pool.users user = some y ∧
      y.int = (Incentives.update r.st.now r.st.pool).1.int.map Astro.index)
    (htot : s.pool.totalLp + amt r.st.pool user = r.st.pool.totalLp + amt s.pool user)
    (hint : s.pool.int = (Incentives.update r.st.now r.st.pool).1.int)
    (hlast : s.pool.last = (Incentives.update r.st.now r.st.pool).1.last) (hnow : s.now = r.st.now)
    (hpay : DEC * x.int ≤ amt (Incentives.update r.st.now r.st.pool).1 user *
      (aidx (Incentives.update r.st.now r.st.pool).1 - auidx (Incentives.update r.st.now r.st.pool).1 user))
    (hheld : s.lp me = s.pool.totalLp + b.donated)
    (hown : ∀ v, b.withdrawn v + amt s.pool v = b.deposited v)
    (hb1 : b.astroPaid = r.books.astroPaid + x.int) (hb2 : b.astroEmitted = r.books.astroEmitted) :
    LpInv me ⟨s, b⟩ := by
  obtain ⟨E, hA, hE, hl⟩ := h.update
  obtain ⟨hu, hT, _⟩ := update_fields r.st.now r.st.pool
  refine ⟨?_, hheld, hown, E, ?_, ?_⟩
  · show s.pool.last ≤ s.now; rw [hlast, hl, hnow]
  · show AInv s.pool b.astroPaid E
    rw [hb1]
    refine hA.position (u := user) hint (fun v hv => by rw [hoth v hv, hu]) hme ?_ hpay
    have : amt (Incentives.update r.st.now r.st.pool).1 user = amt r.st.pool user := by unfold amt; rw [hu]
    rw [this, hT]; exact htot
  · show E + astroRate s.pool * (s.now - s.pool.last) ≤ b.astroEmitted
    rw [hlast, hl, hnow, hb2, Nat.sub_self, Nat.mul_zero]; exact hE

theorem step_lpInv {me : U} {r : Run I U} (h : LpInv me r) (o : Op I U) : LpInv me (step me r o) := by
  obtain ⟨E, hA, hE, hl⟩ := h.update
  obtain ⟨hu, hT, _⟩ := update_fields r.st.now r.st.pool
  cases o with
  | deposit sender staker n =>
    unfold step
    simp only
    split
    · rename_i s x heq
      split at heq
      · simp at heq
      rename_i hsm
      unfold deposit at heq
      simp only [bind_ok_iff] at heq
      obtain ⟨lp, hlp, hd⟩ := heq
      have hheld : lp me = r.st.lp me + n := by
        rw [move_apply hlp, if_neg (fun hh => hsm hh.symm), if_pos rfl]
      have hfin : ∀ (q : Pool I U) (a0 pay : Nat), amt r.st.pool staker = a0 →
          (∃ y, q.users staker = some y ∧ y.int = (update r.st.now r.st.pool).1.int.map Astro.index ∧
            y.amount = a0 + n) →
          (∀ v, v ≠ staker → q.users v = r.st.pool.users v) →
          q.totalLp = r.st.pool.totalLp + n → q.int = (update r.st.now r.st.pool).1.int →
          q.last = (update r.st.now r.st.pool).1.last → x.int = pay →
          DEC * pay ≤ amt (update r.st.now r.st.pool).1 staker *
            (aidx (update r.st.now r.st.pool).1 - auidx (update r.st.now r.st.pool).1 staker) →
          LpInv me (⟨⟨q, lp, r.st.now⟩, { r.books.pay staker x with
            deposited := credit r.books.deposited staker n }⟩ : Run I U) := by
        rintro q a0 pay ha0 ⟨y, hy, hyi, hya⟩ hoth htot hint hlast hpay hle
        have hself : amt q staker = a0 + n := by rw [amt_some hy, hya]
        have hself' : amt (update r.st.now r.st.pool).1 staker = a0 := by
          rw [← ha0]; unfold amt; rw [hu]
        refine ⟨?_, ?_, ?_, E, ?_, ?_⟩
        · show q.last ≤ r.st.now; rw [hlast, hl]
        · show lp me = q.totalLp + r.books.donated
          rw [hheld, htot, h.held]; omega
        · intro v
          show r.books.withdrawn v + amt q v = credit r.books.deposited staker n v
          have := h.own v
          rw [credit_apply]
          by_cases hv : v = staker
          · subst hv; rw [if_pos rfl, hself]; omega
          · rw [if_neg hv]
            have : amt q v = amt r.st.pool v := by unfold amt; rw [hoth v hv]
            omega
        · show AInv q (r.books.astroPaid + x.int) E
          rw [hpay]
          refine hA.position (u := staker) hint (fun v hv => by rw [hoth v hv, hu])
            (Or.inr ⟨y, hy, hyi⟩) ?_ hle
          rw [htot, hself, hself', hT]; omega
        · show E + astroRate q * (r.st.now - q.last) ≤ r.books.astroEmitted
          rw [hlast, hl, Nat.sub_self, Nat.mul_zero]; exact hE
      cases hus : r.st.pool.users staker with
      | none =>
        rw [hus] at hd
        simp only [bind_ok_iff, u128_ok, Except.ok.injEq, Prod.mk.injEq] at hd
        obtain ⟨T, ⟨_, rfl⟩, rfl, rfl⟩ := hd
        refine hfin _ 0 0 (by unfold amt; rw [hus]) ⟨_, Function.update_self .., rfl, by simp [sync]⟩ ?_ ?_ rfl rfl rfl
          (by simp)
        · intro v hv; exact (Function.update_of_ne hv _ _).trans (by rw [hu])
        · show (update r.st.now r.st.pool).1.totalLp + n = _; rw [hT]
      | some u =>
        rw [hus] at hd
        simp only [bind_ok_iff, u128_ok, Except.ok.injEq, Prod.mk.injEq] at hd
        obtain ⟨pay, hpay, a, ⟨_, rfl⟩, T, ⟨_, rfl⟩, rfl, rfl⟩ := hd
        have husr : (update r.st.now r.st.pool).1.users staker = some u := by rw [hu, hus]
        refine hfin _ u.amount pay.int (amt_some hus) ⟨_, Function.update_self .., rfl, rfl⟩ ?_ ?_ rfl rfl rfl ?_
        · intro v hv; exact (Function.update_of_ne hv _ _).trans (by rw [hu])
        · show (update r.st.now r.st.pool).1.totalLp + n = _; rw [hT]
        · rw [amt_some husr]
          have : auidx (update r.st.now r.st.pool).1 staker = u.int.getD 0 := by unfold auidx; rw [husr]
          rw [this]
          exact payAstro_le (payAll_ok hpay).2 (hA.le _ _ husr)
    · exact h
  | withdraw user n =>
    unfold step
    simp only
    split
    · rename_i s x heq
      split at heq
      · simp at heq
      rename_i hsm
      unfold withdraw at heq
      simp only [bind_ok_iff, orErr_ok, require_ok, exists_const, csub_ok, Except.ok.injEq,
        Prod.mk.injEq] at heq
      obtain ⟨u, hus, hn, pay, hpay, T, ⟨hTn, rfl⟩, lp, hlp, hs, rfl⟩ := heq
      have husr : (update r.st.now r.st.pool).1.users user = some u := by rw [hu, hus]
      have hheld : lp me + n = r.st.lp me := by
        have h1 := move_le hlp
        rw [move_apply hlp, if_pos rfl, if_neg (fun hh => hsm hh.symm)]; omega
      have f1 : s.pool.users = Function.update (update r.st.now r.st.pool).1.users user
          (if u.amount - n = 0 then none else
            some (sync (update r.st.now r.st.pool).1 { u with amount := u.amount - n })) := by
        rw [← hs]; rfl
      have f2 : s.pool.totalLp = (update r.st.now r.st.pool).1.totalLp - n := by rw [← hs]; rfl
      have f3 : s.pool.int = (update r.st.now r.st.pool).1.int := by rw [← hs]; rfl
      have f4 : s.pool.last = (update r.st.now r.st.pool).1.last := by rw [← hs]; rfl
      have f5 : s.lp = lp ∧ s.now = r.st.now := by rw [← hs]; exact ⟨rfl, rfl⟩
      have hself := amt_some hus
      have ham : amt s.pool user = u.amount - n := by
        unfold amt
        rw [f1, Function.update_self]
        split
        · rename_i h0
          split at h0
          · omega
          · simp at h0
        · rename_i h0
          split at h0
          · simp at h0
          · rw [← Option.some.inj h0]; rfl
      have hoth : ∀ v, v ≠ user → s.pool.users v = r.st.pool.users v := by
        intro v hv; rw [f1, Function.update_of_ne hv, hu]
      refine h.position (user := user) (x := pay) hoth ?_ ?_ f3 f4 f5.2 ?_ ?_ ?_ rfl rfl
      · rw [f1, Function.update_self]
        split
        · left; rfl
        · right; exact ⟨_, rfl, rfl⟩
      · rw [ham, f2, hself, hT]; rw [hT] at hTn; omega
      · rw [amt_some husr]
        have : auidx (update r.st.now r.st.pool).1 user = u.int.getD 0 := by unfold auidx; rw [husr]
        rw [this]
        exact payAstro_le (payAll_ok hpay).2 (hA.le _ _ husr)
      · show s.lp me = s.pool.totalLp + r.books.donated
        have := h.held
        rw [f5.1, f2, hT]; rw [hT] at hTn; omega
      · intro v
        show credit r.books.withdrawn user n v + amt s.pool v = r.books.deposited v
        have := h.own v
        rw [credit_apply]
        by_cases hv : v = user
        · subst hv
          rw [if_pos rfl, ham]; omega
        · rw [if_neg hv]
          unfold amt at this ⊢
          rw [hoth v hv]; exact this
    · exact h
  | claim user =>
    unfold step
    simp only
    split
    · rename_i s x heq
      unfold claim at heq
      simp only [bind_ok_iff, orErr_ok, Except.ok.injEq, Prod.mk.injEq] at heq
      obtain ⟨u, hus, pay, hpay, hs, rfl⟩ := heq
      have husr : (update r.st.now r.st.pool).1.users user = some u := by rw [hu, hus]
      have f1 : s.pool.users = Function.update (update r.st.now r.st.pool).1.users user
          (some (sync (update r.st.now r.st.pool).1 u)) := by
        rw [← hs]; rfl
      have f2 : s.pool.totalLp = (update r.st.now r.st.pool).1.totalLp := by rw [← hs]; rfl
      have f3 : s.pool.int = (update r.st.now r.st.pool).1.int := by rw [← hs]; rfl
      have f4 : s.pool.last = (update r.st.now r.st.pool).1.last := by rw [← hs]; rfl
      have f5 : s.lp = r.st.lp ∧ s.now = r.st.now := by rw [← hs]; exact ⟨rfl, rfl⟩
      have hself := amt_some hus
      have ham : amt s.pool user = u.amount := by
        have : s.pool.users user = some (sync (update r.st.now r.st.pool).1 u) := by
          rw [f1, Function.update_self]
        rw [amt_some this]; rfl
      have hoth : ∀ v, v ≠ user → s.pool.users v = r.st.pool.users v := by
        intro v hv; rw [f1, Function.update_of_ne hv, hu]
      refine h.position (user := user) (x := pay) hoth ?_ ?_ f3 f4 f5.2 ?_ ?_ ?_ rfl rfl
      · right; exact ⟨_, by rw [f1, Function.update_self], rfl⟩
      · rw [ham, f2, hself, hT]
      · rw [amt_some husr]
        have : auidx (update r.st.now r.st.pool).1 user = u.int.getD 0 := by unfold auidx; rw [husr]
        rw [this]
        exact payAstro_le (payAll_ok hpay).2 (hA.le _ _ husr)
      · show s.lp me = s.pool.totalLp + r.books.donated
        rw [f5.1, f2, hT]; exact h.held
      · intro v
        show r.books.withdrawn v + amt s.pool v = r.books.deposited v
        have := h.own v
        by_cases hv : v = user
        · subst hv; rw [ham, ← hself]; exact this
        · unfold amt at this ⊢
          rw [hoth v hv]; exact this
    · exact h
  | incentivize Y amount periods isAstro =>
    unfold step
    simp only
    split
    · rename_i s heq
      unfold incentivize at heq
      simp only [bind_ok_iff, Except.ok.injEq] at heq
      obtain ⟨c, hc, p, hp, rfl⟩ := heq
      have hp' : p.users = (update r.st.now r.st.pool).1.users ∧
          p.totalLp = (update r.st.now r.st.pool).1.totalLp ∧
          p.last = (update r.st.now r.st.pool).1.last ∧
          p.int = (update r.st.now r.st.pool).1.int := by
        unfold incentivizePool at hp
        simp only [bind_ok_iff, require_ok, exists_const] at hp
        replace hp := hp.2
        split at hp <;> (simp only [Except.ok.injEq] at hp; subst hp; exact ⟨rfl, rfl, rfl, rfl⟩)
      obtain ⟨h1, h2, h3, h4⟩ := hp'
      refine h.simple ?_ ?_ rfl rfl ?_ ?_ ?_ rfl rfl rfl rfl rfl
      · show p.users = _; rw [h1, hu]
      · show p.totalLp = _; rw [h2, hT]
      · exact h3
      · show aidx (save p _) = _; unfold aidx; rw [(save_fields _ _).2.2.2.2.2, h4]
      · show aorph (save p _) = _; unfold aorph; rw [(save_fields _ _).2.2.2.2.2, h4]
    · exact h
  | removeReward Y bypass =>
    unfold step
    simp only
    split
    · rename_i s n heq
      unfold removeReward at heq
      simp only [bind_ok_iff, Except.ok.injEq, Prod.mk.injEq, Prod.exists] at heq
      obtain ⟨p, rem, m, hd, rfl, rfl⟩ := heq
      have hp' : p.users = (update r.st.now r.st.pool).1.users ∧
          p.totalLp = (update r.st.now r.st.pool).1.totalLp ∧
          p.last = (update r.st.now r.st.pool).1.last ∧
          p.int = (update r.st.now r.st.pool).1.int := by
        unfold deregister at hd
        simp only [bind_ok_iff, orErr_ok, u128_ok, Except.ok.injEq, Prod.mk.injEq] at hd
        obtain ⟨e, he, m, _, ⟨rfl, rfl⟩, rfl⟩ := hd
        exact ⟨rfl, rfl, rfl, rfl⟩
      obtain ⟨h1, h2, h3, h4⟩ := hp'
      refine h.simple ?_ ?_ rfl rfl ?_ ?_ ?_ rfl rfl rfl rfl rfl
      · show p.users = _; rw [h1, hu]
      · show p.totalLp = _; rw [h2, hT]
      · exact h3
      · show aidx (save p _) = _; unfold aidx; rw [(save_fields _ _).2.2.2.2.2, h4]
      · show aorph (save p _) = _; unfold aorph; rw [(save_fields _ _).2.2.2.2.2, h4]
    · exact h
  | setAstro rps =>
    have hi : ∀ o : Option Astro, (match (some (match o with
        | some r => { r with rps := rps } | none => (⟨rps, 0, 0⟩ : Astro))) with
        | none => (0, 0) | some r => (r.index, r.orphaned)) =
        (match o with | none => (0, 0) | some r => (r.index, r.orphaned)) := by
      intro o; cases o <;> rfl
    refine h.simple hu hT rfl rfl rfl ?_ ?_ rfl rfl rfl rfl rfl
    · show (match (setAstro r.st rps).pool.int with | none => 0 | some r => r.index) = aidx _
      unfold setAstro aidx
      simp only [save]
      cases (update r.st.now r.st.pool).1.int <;> rfl
    · show (match (setAstro r.st rps).pool.int with | none => 0 | some r => r.orphaned) = aorph _
      unfold setAstro aorph
      simp only [save]
      cases (update r.st.now r.st.pool).1.int <;> rfl
  | disableAstro =>
    refine h.simple hu hT rfl rfl rfl ?_ ?_ rfl rfl rfl rfl rfl
    · show (match (disableAstro r.st).pool.int with | none => 0 | some r => r.index) = aidx _
      unfold disableAstro aidx
      simp only [save]
      cases (update r.st.now r.st.pool).1.int <;> rfl
    · show (match (disableAstro r.st).pool.int with | none => 0 | some r => r.orphaned) = aorph _
      unfold disableAstro aorph
      simp only [save]
      cases (update r.st.now r.st.pool).1.int <;> rfl
  | touch => exact h.simple hu hT rfl rfl rfl rfl rfl rfl rfl rfl rfl rfl
  | wait d =>
    obtain ⟨E, hA, hE⟩ := h.astro
    have hla := h.last
    refine ⟨Nat.le_trans hla (Nat.le_add_right _ _), h.held, h.own, E, hA, ?_⟩
    show E + astroRate r.st.pool * (r.st.now + d - r.st.pool.last) ≤
      r.books.astroEmitted + astroRate r.st.pool * d
    have : r.st.now + d - r.st.pool.last = (r.st.now - r.st.pool.last) + d := by omega
    rw [this, Nat.mul_add]
    omega
  | sendLp src dst n =>
    unfold step
    simp only
    split
    · rename_i lp heq
      split at heq
      · simp at heq
      rename_i hsm
      refine ⟨h.last, ?_, h.own, h.astro⟩
      show lp me = r.st.pool.totalLp + (r.books.donated + _)
      have := h.held
      rw [move_apply heq, if_neg (fun hh => hsm hh.symm)]
      by_cases hd : dst = me
      · subst hd; simp; omega
      · rw [if_neg (fun hh => hd hh.symm), if_neg hd]; omega
    · exact h

theorem run_lpInv {me : U} : ∀ (ops : List (Op I U)) (r : Run I U), LpInv me r → LpInv me (run me r ops)
  | [], _, h => h
  | o :: os, _, h => run_lpInv os _ (step_lpInv h o)

omit [Fintype I] [DecidableEq I] [DecidableEq U] in
theorem start_lpInv (me : U) (lp : U → Nat) (now : Nat) (h : lp me = 0) :
    LpInv me (start lp now : Run I U) := by
  refine ⟨by simp [start, Pool.empty], by simp [start, Pool.empty, Books.zero, h],
    by simp [start, Pool.empty, Books.zero, amt], 0, ⟨?_, ?_, ?_⟩, ?_⟩
  · intro u x hx; simp [start, Pool.empty] at hx
  · simp [start, Pool.empty, amt]
  · simp [start, Pool.empty, Books.zero, aidx, aorph, amt]
  · simp [start, Pool.empty, Books.zero, astroRate]

end Verif.Incentives
