import Verif.Incentives.Props

/-!
# Incentives: no emitted ASTRO is lost (C111) and removals refund exactly the future (C31)

Specification: `lost` (bound on rounding), the books of `Spec.lean`, and the rates announced (`rateOf`).
-/

namespace Verif.Incentives

variable {I U : Type} [Fintype I] [DecidableEq I] [DecidableEq U] [Fintype U]

/-! ## Effect of one event on the ASTRO accounts -/

omit [Fintype I] [DecidableEq I] [DecidableEq U] [Fintype U] in
theorem payAstro_ge {p : Pool I U} {u : User I} {n : Nat} (h : payAstro p u = .ok n)
    (hle : u.int.getD 0 ≤ aidx p) : u.amount * (aidx p - u.int.getD 0) ≤ DEC * n + DEC := by
  unfold payAstro at h
  unfold aidx at *
  cases hi : p.int with
  | none => simp
  | some r =>
    rw [hi] at h hle
    simp only [u128_ok] at h hle ⊢
    obtain ⟨_, rfl⟩ := h
    have : idxDiff r.index (u.int.getD 0) = r.index - u.int.getD 0 := by
      unfold idxDiff; split
      · omega
      · rfl
    rw [this]
    unfold mulDec
    have := Nat.div_add_mod (u.amount * (r.index - u.int.getD 0)) DEC
    have := Nat.mod_lt (u.amount * (r.index - u.int.getD 0)) DEC_pos
    omega

/-- What an event does: nothing to the pool, time, a call that changes no position, or one that changes one. -/
structure Moves (me : U) (r r' : Run I U) : Prop where
  lp : ∑ u, r'.st.lp u = ∑ u, r.st.lp u
  kind :
    (∃ d, r'.st.pool = r.st.pool ∧ r'.st.now = r.st.now + d ∧ r'.books.astroPaid = r.books.astroPaid ∧
      r'.books.astroEmitted = r.books.astroEmitted + astroRate r.st.pool * d) ∨
    (r'.st.now = r.st.now ∧ r'.st.pool.last = r.st.now ∧ r'.books.astroEmitted = r.books.astroEmitted ∧
      r'.books.astroPaid = r.books.astroPaid ∧
      r'.st.pool.users = r.st.pool.users ∧
      aidx r'.st.pool = aidx (update r.st.now r.st.pool).1 ∧ aorph r'.st.pool = aorph (update r.st.now r.st.pool).1) ∨
    (∃ u n, r'.st.now = r.st.now ∧ r'.st.pool.last = r.st.now ∧ r'.books.astroEmitted = r.books.astroEmitted ∧
      r'.books.astroPaid = r.books.astroPaid + n ∧
      (∀ v, v ≠ u → r'.st.pool.users v = r.st.pool.users v) ∧
      aidx r'.st.pool = aidx (update r.st.now r.st.pool).1 ∧ aorph r'.st.pool = aorph (update r.st.now r.st.pool).1 ∧
      amt r.st.pool u * (aidx (update r.st.now r.st.pool).1 - auidx r.st.pool u) ≤ DEC * n + DEC ∧
      amt r.st.pool u * (aidx (update r.st.now r.st.pool).1 - auidx r.st.pool u) ≥ DEC * n)

theorem step_moves {me : U} {r : Run I U} (h : LpInv me r) (o : Op I U) : Moves me r (step me r o) := by
  obtain ⟨E, hA, hE, hl⟩ := h.update
  obtain ⟨hu, hT, _⟩ := update_fields r.st.now r.st.pool
  have hself : Moves me r r :=
    ⟨rfl, Or.inl ⟨0, rfl, rfl, rfl, by rw [Nat.mul_zero, Nat.add_zero]⟩⟩
  have hpay : ∀ (user : U) (u : User I) (pay : Paid I), r.st.pool.users user = some u →
      payAll (update r.st.now r.st.pool).1 (update r.st.now r.st.pool).2 u = .ok pay →
      amt r.st.pool user * (aidx (update r.st.now r.st.pool).1 - auidx r.st.pool user) ≤ DEC * pay.int + DEC ∧
      amt r.st.pool user * (aidx (update r.st.now r.st.pool).1 - auidx r.st.pool user) ≥ DEC * pay.int := by
    intro user u pay hus hp
    have husr : (update r.st.now r.st.pool).1.users user = some u := by rw [hu, hus]
    have h2 : auidx r.st.pool user = u.int.getD 0 := by unfold auidx; rw [hus]
    rw [amt_some hus, h2]
    exact ⟨payAstro_ge (payAll_ok hp).2 (hA.le _ _ husr), payAstro_le (payAll_ok hp).2 (hA.le _ _ husr)⟩
  cases o with
  | deposit sender staker n =>
    unfold step
    simp only
    split
    · rename_i s x heq
      split at heq
      · simp at heq
      unfold deposit at heq
      simp only [bind_ok_iff] at heq
      obtain ⟨lp, hlp, hd⟩ := heq
      cases hus : r.st.pool.users staker with
      | none =>
        rw [hus] at hd
        simp only [bind_ok_iff, u128_ok, Except.ok.injEq, Prod.mk.injEq] at hd
        obtain ⟨T, ⟨_, rfl⟩, rfl, rfl⟩ := hd
        refine ⟨sum_move hlp, Or.inr (Or.inr ⟨staker, 0, rfl, hl, rfl, rfl, ?_, rfl, rfl, ?_, ?_⟩)⟩
        · intro v hv; exact (Function.update_of_ne hv _ _).trans (by rw [hu])
        · have : amt r.st.pool staker = 0 := by unfold amt; rw [hus]
          rw [this]; simp
        · simp
      | some u =>
        rw [hus] at hd
        simp only [bind_ok_iff, u128_ok, Except.ok.injEq, Prod.mk.injEq] at hd
        obtain ⟨pay, hp, a, ⟨_, rfl⟩, T, ⟨_, rfl⟩, rfl, rfl⟩ := hd
        refine ⟨sum_move hlp, Or.inr (Or.inr ⟨staker, pay.int, rfl, hl, rfl, rfl, ?_, rfl, rfl, ?_, ?_⟩)⟩
        · intro v hv; exact (Function.update_of_ne hv _ _).trans (by rw [hu])
        · exact (hpay _ _ _ hus hp).1
        · exact (hpay _ _ _ hus hp).2
    · exact hself
  | withdraw user n =>
    unfold step
    simp only
    split
    · rename_i s x heq
      split at heq
      · simp at heq
      unfold withdraw at heq
      simp only [bind_ok_iff, orErr_ok, require_ok, exists_const, csub_ok, Except.ok.injEq,
        Prod.mk.injEq] at heq
      obtain ⟨u, hus, hn, pay, hp, T, ⟨hTn, rfl⟩, lp, hlp, rfl, rfl⟩ := heq
      refine ⟨sum_move hlp, Or.inr (Or.inr ⟨user, pay.int, rfl, hl, rfl, rfl, ?_, rfl, rfl, ?_, ?_⟩)⟩
      · intro v hv; exact (Function.update_of_ne hv _ _).trans (by rw [hu])
      · exact (hpay _ _ _ hus hp).1
      · exact (hpay _ _ _ hus hp).2
    · exact hself
  | claim user =>
    unfold step
    simp only
    split
    · rename_i s x heq
      unfold claim at heq
      simp only [bind_ok_iff, orErr_ok, Except.ok.injEq, Prod.mk.injEq] at heq
      obtain ⟨u, hus, pay, hp, rfl, rfl⟩ := heq
      refine ⟨rfl, Or.inr (Or.inr ⟨user, pay.int, rfl, hl, rfl, rfl, ?_, rfl, rfl, ?_, ?_⟩)⟩
      · intro v hv; exact (Function.update_of_ne hv _ _).trans (by rw [hu])
      · exact (hpay _ _ _ hus hp).1
      · exact (hpay _ _ _ hus hp).2
    · exact hself
  | incentivize Y amount periods isAstro =>
    unfold step
    simp only
    split
    · rename_i s heq
      unfold incentivize at heq
      simp only [bind_ok_iff, Except.ok.injEq] at heq
      obtain ⟨c, hc, p, hp, rfl⟩ := heq
      have hp' : p.users = (update r.st.now r.st.pool).1.users ∧
          p.last = (update r.st.now r.st.pool).1.last ∧
          p.int = (update r.st.now r.st.pool).1.int := by
        unfold incentivizePool at hp
        simp only [bind_ok_iff, require_ok, exists_const] at hp
        replace hp := hp.2
        split at hp <;> (simp only [Except.ok.injEq] at hp; subst hp; exact ⟨rfl, rfl, rfl⟩)
      obtain ⟨h1, h3, h4⟩ := hp'
      refine ⟨rfl, Or.inr (Or.inl ⟨rfl, h3.trans hl, rfl, rfl, h1.trans hu, ?_, ?_⟩)⟩
      · show aidx (save p _) = _; unfold aidx; rw [(save_fields _ _).2.2.2.2.2, h4]
      · show aorph (save p _) = _; unfold aorph; rw [(save_fields _ _).2.2.2.2.2, h4]
    · exact hself
  | removeReward Y bypass =>
    unfold step
    simp only
    split
    · rename_i s n heq
      unfold removeReward at heq
      simp only [bind_ok_iff, Except.ok.injEq, Prod.mk.injEq, Prod.exists] at heq
      obtain ⟨p, rem, m, hd, rfl, rfl⟩ := heq
      have hp' : p.users = (update r.st.now r.st.pool).1.users ∧
          p.last = (update r.st.now r.st.pool).1.last ∧
          p.int = (update r.st.now r.st.pool).1.int := by
        unfold deregister at hd
        simp only [bind_ok_iff, orErr_ok, u128_ok, Except.ok.injEq, Prod.mk.injEq] at hd
        obtain ⟨e, he, m, _, ⟨rfl, rfl⟩, rfl⟩ := hd
        exact ⟨rfl, rfl, rfl⟩
      obtain ⟨h1, h3, h4⟩ := hp'
      refine ⟨rfl, Or.inr (Or.inl ⟨rfl, h3.trans hl, rfl, rfl, h1.trans hu, ?_, ?_⟩)⟩
      · show aidx (save p _) = _; unfold aidx; rw [(save_fields _ _).2.2.2.2.2, h4]
      · show aorph (save p _) = _; unfold aorph; rw [(save_fields _ _).2.2.2.2.2, h4]
    · exact hself
  | setAstro rps =>
    refine ⟨rfl, Or.inr (Or.inl ⟨rfl, hl, rfl, rfl, hu, ?_, ?_⟩)⟩
    · show (match (setAstro r.st rps).pool.int with | none => 0 | some r => r.index) = aidx _
      unfold setAstro aidx
      simp only [save]
      cases (update r.st.now r.st.pool).1.int <;> rfl
    · show (match (setAstro r.st rps).pool.int with | none => 0 | some r => r.orphaned) = aorph _
      unfold setAstro aorph
      simp only [save]
      cases (update r.st.now r.st.pool).1.int <;> rfl
  | disableAstro =>
    refine ⟨rfl, Or.inr (Or.inl ⟨rfl, hl, rfl, rfl, hu, ?_, ?_⟩)⟩
    · show (match (disableAstro r.st).pool.int with | none => 0 | some r => r.index) = aidx _
      unfold disableAstro aidx
      simp only [save]
      cases (update r.st.now r.st.pool).1.int <;> rfl
    · show (match (disableAstro r.st).pool.int with | none => 0 | some r => r.orphaned) = aorph _
      unfold disableAstro aorph
      simp only [save]
      cases (update r.st.now r.st.pool).1.int <;> rfl
  | touch => exact ⟨rfl, Or.inr (Or.inl ⟨rfl, hl, rfl, rfl, hu, rfl, rfl⟩)⟩
  | wait d => exact ⟨rfl, Or.inl ⟨d, rfl, rfl, rfl, rfl⟩⟩
  | sendLp src dst n =>
    unfold step
    simp only
    split
    · rename_i lp heq
      split at heq
      · simp at heq
      exact ⟨sum_move heq, Or.inl ⟨0, rfl, rfl, rfl, by rw [Nat.mul_zero]; rfl⟩⟩
    · exact hself

/-! ## C111: emitted ASTRO reaches the stakers -/

/-- What the stakers have earned in ASTRO and not claimed (atomics). -/
def earned (p : Pool I U) : Nat := ∑ u, amt p u * (aidx p - auidx p u)

omit [Fintype I] [DecidableEq I] [DecidableEq U] in
/-- Accrual loses less than one atomic unit per staked LP token. -/
theorem update_earned {me : U} {r : Run I U} (h : LpInv me r) :
    earned r.st.pool + aorph r.st.pool + astroRate r.st.pool * (r.st.now - r.st.pool.last) ≤
      ∑ u, amt r.st.pool u * (aidx (update r.st.now r.st.pool).1 - auidx r.st.pool u) +
        aorph (update r.st.now r.st.pool).1 + r.st.pool.totalLp := by
  obtain ⟨E, hA, _⟩ := h.astro
  have hle : ∀ u, auidx r.st.pool u ≤ aidx r.st.pool := by
    intro u
    unfold auidx
    cases hx : r.st.pool.users u with
    | none => simp
    | some x => exact hA.le u x hx
  by_cases hn : r.st.now ≤ r.st.pool.last
  · have : Incentives.update r.st.now r.st.pool = (r.st.pool, noRem) := by
      unfold Incentives.update; rw [if_pos hn]; rfl
    rw [this, Nat.sub_eq_zero_of_le hn, Nat.mul_zero]
    unfold earned
    dsimp only
    omega
  · have hi : (Incentives.update r.st.now r.st.pool).1.int =
        r.st.pool.int.map (updAstro r.st.now r.st.pool.last r.st.pool.totalLp) := by
      unfold Incentives.update; rw [if_neg hn]
    cases hp : r.st.pool.int with
    | none =>
      rw [hp] at hi
      have h1 : aidx (Incentives.update r.st.now r.st.pool).1 = aidx r.st.pool := by unfold aidx; rw [hi, hp]; rfl
      have h2 : aorph (Incentives.update r.st.now r.st.pool).1 = aorph r.st.pool := by unfold aorph; rw [hi, hp]; rfl
      have h3 : astroRate r.st.pool = 0 := by unfold astroRate; rw [hp]
      rw [h1, h2, h3]
      unfold earned
      omega
    | some a =>
      rw [hp] at hi
      have h0 : aidx r.st.pool = a.index := by unfold aidx; rw [hp]
      have h0' : aorph r.st.pool = a.orphaned := by unfold aorph; rw [hp]
      have hr : astroRate r.st.pool = a.rps := by unfold astroRate; rw [hp]
      have h1 : aidx (Incentives.update r.st.now r.st.pool).1 =
          (spread r.st.pool.totalLp a.index a.orphaned (a.rps * (r.st.now - r.st.pool.last))).1 := by
        unfold aidx; rw [hi]; rfl
      have h2 : aorph (Incentives.update r.st.now r.st.pool).1 =
          (spread r.st.pool.totalLp a.index a.orphaned (a.rps * (r.st.now - r.st.pool.last))).2 := by
        unfold aorph; rw [hi]; rfl
      rw [h1, h2, hr, h0']
      unfold earned
      generalize a.rps * (r.st.now - r.st.pool.last) = c
      unfold spread
      split
      · rw [h0]; dsimp only; omega
      · rename_i hT0
        dsimp only
        have hs : ∑ u, amt r.st.pool u * (a.index + (a.orphaned + c) / r.st.pool.totalLp - auidx r.st.pool u) =
            ∑ u, amt r.st.pool u * (aidx r.st.pool - auidx r.st.pool u) +
              r.st.pool.totalLp * ((a.orphaned + c) / r.st.pool.totalLp) := by
          rw [← hA.total, Finset.sum_mul, ← Finset.sum_add_distrib]
          refine Finset.sum_congr rfl fun u _ => ?_
          rw [← Nat.mul_add]
          congr 1
          have := hle u
          rw [hA.total]
          generalize (a.orphaned + c) / r.st.pool.totalLp = w
          omega
        rw [hs]
        have := Nat.div_add_mod (a.orphaned + c) r.st.pool.totalLp
        have := Nat.mod_lt (a.orphaned + c) (Nat.pos_of_ne_zero hT0)
        omega

/-- The bound kept along a history: `k` events, `L` LP tokens in existence. -/
def Kept (L k : Nat) (r : Run I U) : Prop :=
  ∑ u, r.st.lp u = L ∧
  r.books.astroEmitted ≤ DEC * r.books.astroPaid + earned r.st.pool + aorph r.st.pool +
    astroRate r.st.pool * (r.st.now - r.st.pool.last) + k * (L + DEC)

omit [Fintype I] [DecidableEq I] [DecidableEq U] in
theorem total_le {me : U} {r : Run I U} (h : LpInv me r) : r.st.pool.totalLp ≤ ∑ u, r.st.lp u := by
  have := le_sum r.st.lp me
  have := h.held
  omega

theorem kept_step {me : U} {r : Run I U} {L k : Nat} (h : LpInv me r) (hk : Kept L k r) (o : Op I U) :
    Kept L (k + 1) (step me r o) := by
  have hm := step_moves h o
  have h' : LpInv me (step me r o) := step_lpInv h o
  generalize step me r o = r' at hm h'
  obtain ⟨hL, hk⟩ := hk
  have hup := update_earned h
  have htot := total_le h
  refine ⟨hm.lp.trans hL, ?_⟩
  have hk1 : (k + 1) * (L + DEC) = k * (L + DEC) + (L + DEC) := by ring
  rw [hk1]
  rcases hm.kind with ⟨d, h1, h2, h3, h4⟩ | ⟨h1, h2, h3, h4, h5, h6, h7⟩ | ⟨u, n, h1, h2, h3, h4, h5, h6, h7, h8, h9⟩
  · rw [h1, h2, h3, h4]
    have := h.last
    have e : r.st.now + d - r.st.pool.last = (r.st.now - r.st.pool.last) + d := by omega
    rw [e, Nat.mul_add]
    omega
  · have e : earned r'.st.pool = ∑ u, amt r.st.pool u * (aidx (update r.st.now r.st.pool).1 - auidx r.st.pool u) := by
      unfold earned
      refine Finset.sum_congr rfl fun v _ => ?_
      have : amt r'.st.pool v = amt r.st.pool v := by unfold amt; rw [h5]
      have h8 : auidx r'.st.pool v = auidx r.st.pool v := by unfold auidx; rw [h5]
      rw [this, h8, h6]
    rw [e, h7, h3, h4, h2, h1, Nat.sub_self, Nat.mul_zero]
    omega
  · have e : ∑ u, amt r.st.pool u * (aidx (update r.st.now r.st.pool).1 - auidx r.st.pool u) ≤
        earned r'.st.pool + (DEC * n + DEC) := by
      unfold earned
      have hc := sum_change (f := fun v => amt r.st.pool v * (aidx (update r.st.now r.st.pool).1 - auidx r.st.pool v))
        (g := fun v => amt r'.st.pool v * (aidx r'.st.pool - auidx r'.st.pool v)) (u := u) (by
          intro v hv
          have e1 : amt r'.st.pool v = amt r.st.pool v := by unfold amt; rw [h5 v hv]
          have e2 : auidx r'.st.pool v = auidx r.st.pool v := by unfold auidx; rw [h5 v hv]
          simp only [e1, e2, h6])
      omega
    rw [h7, h3, h4, h2, h1, Nat.sub_self, Nat.mul_zero, Nat.mul_add]
    omega

theorem kept_run {me : U} {L : Nat} : ∀ (ops : List (Op I U)) (r : Run I U) (k : Nat), LpInv me r → Kept L k r →
    Kept L (k + ops.length) (run me r ops)
  | [], _, _, _, hk => hk
  | o :: os, r, k, h, hk => by
    have := kept_run os (step me r o) (k + 1) (step_lpInv h o) (kept_step h hk o)
    have e : k + (o :: os).length = k + 1 + os.length := by simp; omega
    rw [e]
    exact this

/-- **C111.** In every history all emitted ASTRO (the rate in force, second by second) was paid to stakers, can be
claimed by them, or is waiting (`orphaned`) for the next staker: what is missing is rounding, at most
one token per event and per staker plus one atomic unit (10⁻¹⁸) per event and LP token in existence. -/
theorem C111_emitted_astro_not_lost (me : U) (lp : U → Nat) (now : Nat) (hme : lp me = 0) (ops : List (Op I U))
    (hq : ∀ u x, (run me (start lp now) ops).st.pool.users u = some x →
      isOk (pendingAstro (run me (start lp now) ops).st u) = true) :
    let r := run me (start lp now) ops
    r.books.astroEmitted ≤ DEC * (r.books.astroPaid + ∑ u, claimableAstro r.st u) + aorph (touch r.st).pool +
      (ops.length + 1) * (∑ u, lp u) + (ops.length + Fintype.card U) * DEC := by
  intro r
  have hinv : LpInv me r := run_lpInv ops _ (start_lpInv me lp now hme)
  have h0 : Kept (∑ u, lp u) 0 (start lp now : Run I U) := by
    refine ⟨rfl, ?_⟩
    simp [start, Books.zero]
  have hk := kept_run ops _ 0 (start_lpInv me lp now hme) h0
  rw [Nat.zero_add] at hk
  obtain ⟨hL, hk⟩ := hk
  have hup := update_earned hinv
  have htot := total_le hinv
  have h4 : aorph (touch r.st).pool = aorph (update r.st.now r.st.pool).1 := rfl
  obtain ⟨E, hA, hE, _⟩ := hinv.update
  have hc : ∑ u, amt r.st.pool u * (aidx (update r.st.now r.st.pool).1 - auidx r.st.pool u) ≤
      ∑ u, (DEC * claimableAstro r.st u + DEC) := by
    refine Finset.sum_le_sum fun u _ => ?_
    cases hus : r.st.pool.users u with
    | none =>
      have : amt r.st.pool u = 0 := by unfold amt; rw [hus]
      rw [this]; simp
    | some x =>
      have hx : (update r.st.now r.st.pool).1.users u = some x := by rw [(update_fields _ _).1, hus]
      have h2 : auidx r.st.pool u = x.int.getD 0 := by unfold auidx; rw [hus]
      have hok := hq u x hus
      have hp : pendingAstro r.st u = payAstro (update r.st.now r.st.pool).1 x := by
        unfold pendingAstro; simp only; rw [hus]
      rw [show (run me (start lp now) ops).st = r.st from rfl, hp] at hok
      have hv := isOk_val hok
      rw [amt_some hus, h2]
      unfold claimableAstro
      rw [hp]
      exact payAstro_ge hv (hA.le _ _ hx)
  rw [Finset.sum_add_distrib, ← Finset.mul_sum] at hc
  simp only [Finset.sum_const, Finset.card_univ, nsmul_eq_mul, Nat.cast_id] at hc
  rw [show (run me (start lp now) ops) = r from rfl] at hk hL
  rw [hL] at htot
  rw [h4]
  have e1 : ops.length * (∑ u, lp u + DEC) = ops.length * ∑ u, lp u + ops.length * DEC := by ring
  have e2 : (ops.length + 1) * ∑ u, lp u = ops.length * ∑ u, lp u + ∑ u, lp u := by ring
  have e3 : (ops.length + Fintype.card U) * DEC = ops.length * DEC + Fintype.card U * DEC := by ring
  rw [e1] at hk
  rw [e2, e3, Nat.mul_add]
  omega

omit [DecidableEq I] [DecidableEq U] [Fintype U] in
/-- **C111.** ASTRO that was emitted while nobody was staking goes to whoever stakes next: as soon as time passes with
somebody staking, none is waiting any more. -/
theorem C111_orphaned_astro_distributed (s : State I U) (ht : s.pool.totalLp ≠ 0) (hn : s.pool.last < s.now) :
    aorph (touch s).pool = 0 := by
  show aorph (update s.now s.pool).1 = 0
  unfold Incentives.update aorph
  rw [if_neg (by omega)]
  dsimp only
  cases s.pool.int with
  | none => rfl
  | some r => simp only [Option.map_some, updAstro, spread, if_neg ht]

/-- A history in which ASTRO is emitted before anybody stakes. -/
def wEarly : List (Op (Fin 2) (Fin 4)) :=
  [.setAstro (10 * DEC), .wait 1000, .deposit 1 1 300, .deposit 2 2 100, .wait 100, .claim 1, .wait 50]

/-- Non-vacuity: the stakers get all of the 11500 tokens emitted, also those of the time before they came. -/
example : let r := run 0 wStart wEarly
    r.books.astroEmitted = 11500 * DEC ∧ r.books.astroPaid = 8250 ∧ claimableAstro r.st 1 = 375 ∧
    claimableAstro r.st 2 = 2875 ∧ isOk (pendingAstro r.st 1) = true ∧ isOk (pendingAstro r.st 2) = true := by
  decide +kernel

/-! ## C31: refunds -/

/-- **C31.** Removing a reward sends back exactly (rounded down) what would have been emitted from now on, plus the
rewards that had accrued for nobody: up to the end of the last schedule, or only of the running one if the upcoming
schedules are bypassed. -/
theorem C31_refund_exact (me : U) (lp : U → Nat) (now : Nat) (ops : List (Op I U)) (X : I) (bypass : Bool)
    (s' : State I U) (n : Nat) (h : removeReward (run me (start lp now) ops).st X bypass = .ok (s', n)) :
    ∃ e T0, (touch (run me (start lp now) ops).st).pool.ext X = some e ∧ ∀ T, (if bypass then T = e.next else T0 ≤ T) →
      n = (∑ t ∈ Finset.Ioc (run me (start lp now) ops).st.now T,
        rateOf (touch (run me (start lp now) ops).st).pool X t + e.orphaned) / DEC := by
  have hinv : RunInv X False (run me (start lp now) ops) := run_runInv me ops _ (start_runInv X False lp now)
  generalize run me (start lp now) ops = r at h hinv
  obtain ⟨ev, C, hI, _, hl, _⟩ := hinv.update
  have hasc := hI.asc
  have hnext := hI.next
  unfold removeReward at h
  simp only [bind_ok_iff, Except.ok.injEq, Prod.mk.injEq, Prod.exists] at h
  obtain ⟨q, rem', m, hd, rfl, rfl⟩ := h
  have hrate : ∀ t, rateOf (touch r.st).pool X t = rateOf (update r.st.now r.st.pool).1 X t := fun t => rfl
  have hext : (touch r.st).pool.ext X = (update r.st.now r.st.pool).1.ext X := rfl
  simp only [hrate, hext]
  generalize (update r.st.now r.st.pool).1 = p at hd hasc hnext hl
  unfold Incentives.deregister at hd
  simp only [bind_ok_iff, orErr_ok, u128_ok, Except.ok.injEq, Prod.mk.injEq] at hd
  obtain ⟨e, he, m, ⟨_, hm⟩, ⟨rfl, rfl⟩, rfl⟩ := hd
  obtain ⟨T0, hT1, hT2⟩ := exists_bound (p.sched X) e.next
  have hne := hnext e he
  rw [hl] at hne
  have hr : ∀ t, rateOf p X t = rateAt e (p.sched X) t := by intro t; unfold rateOf; rw [he]
  have hfirst : ∑ t ∈ Finset.Ioc r.st.now e.next, rateOf p X t = e.rps * (e.next - r.st.now) := by
    apply sum_Ioc_const
    intro t ht
    rw [Finset.mem_Ioc] at ht
    rw [hr]
    simp [rateAt, ht.2]
  refine ⟨e, T0, he, ?_⟩
  intro T hT
  rw [← hm, hl]
  cases bypass with
  | true =>
    simp only [if_true] at hT
    subst hT
    rw [hfirst]
    simp
  | false =>
    simp only [Bool.false_eq_true, if_false] at hT ⊢
    have hup : upcoming e.next (after e.next ((p.sched X).filter (fun x => x.1 ≠ e.next))) =
        ∑ t ∈ Finset.Ioc e.next T, pieceRate (p.sched X) t := by
      rw [upcoming_spec _ _ T ((hasc.filter _).after _) (fun x hx => (mem_after.1 hx).2) ?_]
      · apply sum_Ioc_congr
        intro t h1 _
        apply pieceRate_congr ((hasc.filter _).after _) hasc
        intro x hx
        rw [mem_after, List.mem_filter]
        constructor
        · intro hh; exact hh.1.1
        · intro hh; exact ⟨⟨hh, by simp; omega⟩, by omega⟩
      · intro x hx
        have := hT2 x (List.mem_filter.1 (mem_after.1 hx).1).1
        omega
    rw [hup, sum_Ioc_split _ (Nat.le_of_lt hne) (by omega : e.next ≤ T), hfirst]
    congr 3
    apply sum_Ioc_congr
    intro t h1 _
    rw [hr]
    simp [rateAt, Nat.not_le.2 h1]

/-- Non-vacuity: a removal in the middle of two overlapping schedules refunds a part of the funds. -/
example : okAnd (removeReward (run 0 wStart wOverlap).st 0 false) (fun x =>
    decide (0 < x.2 ∧ x.2 < (run 0 wStart wOverlap).books.funded 0)) = true := by
  decide +kernel

end Verif.Incentives
