import Verif.Incentives.Props

/-!
# Incentives: rewards are pro rata (C30)
-/

namespace Verif.Incentives

variable {I U : Type} [Fintype I] [DecidableEq I] [DecidableEq U] [Fintype U]

/-- `v` has a position of `a` LP whose reward indexes were brought up to date in the current block. -/
def Synced (s : State I U) (v : U) (a : Nat) : Prop :=
  s.pool.last = s.now ∧ s.pool.users v = some (sync s.pool ⟨a, fun _ => none, none, 0⟩)

omit [DecidableEq I] [DecidableEq U] [Fintype U] in
theorem synced_congr {s s' : State I U} {v : U} {a : Nat} (h : Synced s v a) (hn : s'.now = s.now)
    (hl : s'.pool.last = s.pool.last) (hx : s'.pool.ext = s.pool.ext) (hi : s'.pool.int = s.pool.int)
    (hu : s'.pool.users v = s.pool.users v) : Synced s' v a := by
  refine ⟨by rw [hl, hn, h.1], ?_⟩
  rw [hu, h.2]
  simp only [sync, hx, hi, hl]

/-! ## Segments without changes of positions -/

/-- Calls that change no position and no schedule: claims by anybody, updates, time. -/
def Passive : Op I U → Prop
  | .claim _ => True
  | .touch => True
  | .wait _ => True
  | _ => False

/-- Is it a claim by `u`? -/
def claimBy (u : U) : Op I U → Bool
  | .claim v => decide (v = u)
  | _ => false

/-- Proof device: books of one staker since a given moment. -/
structure Seg (X : I) (u : U) (a T o0 em0 rec0 L0 : Nat) (q : Run I U) (x : User I) (P G Cc c k : Nat) : Prop where
  inv : RunInv X True q
  usr : q.st.pool.users u = some x
  amount : x.amount = a
  tot : q.st.pool.totalLp = T
  tpos : 0 < T
  shape : finishedOf q.st.pool noRem x.lastClaim X = [] ∨
    ∃ h, finishedOf q.st.pool noRem x.lastClaim X = [h] ∧ q.st.pool.ext X = none
  recv : q.books.received u X = rec0 + P
  pay1 : DEC * P ≤ a * G
  pay2 : a * G ≤ DEC * (P + c)
  lo : T * (G + entl ((x.ext X).getD 0) (finishedOf q.st.pool noRem x.lastClaim X) (idx q.st.pool X)) +
    orphAct q.st.pool X ≤ o0 + Cc
  hi : o0 + Cc ≤ T * (G + entl ((x.ext X).getD 0) (finishedOf q.st.pool noRem x.lastClaim X) (idx q.st.pool X)) +
    orphAct q.st.pool X + T * k
  em : em0 + Cc + ∑ t ∈ Finset.Ioc q.st.pool.last q.st.now, rateOf q.st.pool X t = q.books.emitted X
  orp : orphAct q.st.pool X = 0 ∨ q.st.pool.last = L0

variable {X : I} {u : U} {a T o0 em0 rec0 L0 : Nat}

omit [Fintype I] [DecidableEq I] [DecidableEq U] in
/-- Books after `update_rewards`. -/
theorem Seg.update {q : Run I U} {x : User I} {P G Cc c k : Nat} (h : Seg X u a T o0 em0 rec0 L0 q x P G Cc c k) :
    let p := (Incentives.update q.st.now q.st.pool).1
    let rem := (Incentives.update q.st.now q.st.pool).2
    let E := entl ((x.ext X).getD 0) (finishedOf p rem x.lastClaim X) (idx p X)
    ∃ Cc', (finishedOf p rem x.lastClaim X = [] ∨ ∃ h, finishedOf p rem x.lastClaim X = [h] ∧ p.ext X = none) ∧
      T * (G + E) + orphAct p X ≤ o0 + Cc' ∧ o0 + Cc' ≤ T * (G + E) + orphAct p X + T * (k + 1) ∧
      em0 + Cc' = q.books.emitted X ∧
      ((x.ext X).getD 0 ≤ idx p X ∨ finishedOf p rem x.lastClaim X ≠ []) ∧
      (orphAct p X = 0 ∨ q.st.now = L0) := by
  obtain ⟨hl, ev, C, hI, hC, hex⟩ := h.inv
  have hE := hex trivial
  have hev := (hE u x h.usr).2
  simp only
  refine ⟨Cc + ∑ t ∈ Finset.Ioc q.st.pool.last q.st.now, rateOf q.st.pool X t, ?_⟩
  by_cases hlt : q.st.now ≤ q.st.pool.last
  · have heq : q.st.pool.last = q.st.now := by omega
    rw [update_now heq]
    have hz : Finset.Ioc q.st.pool.last q.st.now = ∅ := by rw [heq]; exact Finset.Ioc_self _
    have hem := h.em
    rw [hz, Finset.sum_empty] at hem ⊢
    refine ⟨h.shape, h.lo, ?_, hem, ?_, by rw [← heq]; exact h.orp⟩
    · have := h.hi; rw [Nat.mul_add T k 1]; dsimp only; omega
    · by_cases h0 : finishedOf q.st.pool noRem x.lastClaim X = []
      · left; exact hI.e0 u x h.usr (hev.symm.trans h0)
      · right; exact h0
  · have hfs : ∀ rem : Removed I, ∀ p : Pool I U, p.fin = q.st.pool.fin →
        finishedOf p rem x.lastClaim X = finishedOf q.st.pool noRem x.lastClaim X ++ remIdx rem X := by
      intro rem p hp
      rw [finishedOf_eq, finishedOf_eq, hp]
      simp [remIdx, noRem]
    have hfin := (update_fields q.st.now q.st.pool).2.2.2.1
    rw [hfs _ _ hfin]
    have hlo := h.lo
    have hhi := h.hi
    have hsp : ∀ i o s, (spread q.st.pool.totalLp i o s).2 = 0 ∧
        (spread q.st.pool.totalLp i o s).1 = i + (o + s) / T ∧ T * ((o + s) / T) ≤ o + s ∧
        o + s ≤ T * ((o + s) / T) + T := by
      intro i o s
      have htp := h.tpos
      unfold spread
      rw [h.tot, if_neg (by omega)]
      refine ⟨rfl, rfl, Nat.mul_div_le _ _, ?_⟩
      have := Nat.lt_mul_div_succ (o + s) htp
      rw [Nat.mul_add, Nat.mul_one] at this
      omega
    have hem := h.em
    rcases update_cases (p := q.st.pool) (now := q.st.now) X (by omega) hI.asc hI.next with
      ⟨f1, f2, f3⟩ | ⟨e, he, ⟨rr, n, f1, f2, f3, f4, f5, f6⟩ | ⟨f1, f2, f3, f4, f5⟩⟩
    · have hri : remIdx (Incentives.update q.st.now q.st.pool).2 X = [] := by unfold remIdx; rw [f3]
      have h1 : idx (Incentives.update q.st.now q.st.pool).1 X = idx q.st.pool X := by
        unfold idx; rw [f1, f2]
      have h2 : orphAct (Incentives.update q.st.now q.st.pool).1 X = orphAct q.st.pool X := by
        unfold orphAct; rw [f1, f2]
      have h3 : ∑ t ∈ Finset.Ioc q.st.pool.last q.st.now, rateOf q.st.pool X t = 0 := by
        apply Finset.sum_eq_zero; intro t _; unfold rateOf; rw [f1]
      rw [hri, List.append_nil, h1, h2, h3]
      rw [h3] at hem
      refine ⟨?_, hlo, ?_, hem, ?_, Or.inl (by unfold orphAct; rw [f1])⟩
      · rcases h.shape with h4 | ⟨g, h4, _⟩
        · left; exact h4
        · right; exact ⟨g, h4, f2⟩
      · rw [Nat.mul_add T k 1]; omega
      · by_cases h0 : finishedOf q.st.pool noRem x.lastClaim X = []
        · left; exact hI.e0 u x h.usr (hev.symm.trans h0)
        · right; exact h0
    · have hri : remIdx (Incentives.update q.st.now q.st.pool).2 X = [] := by unfold remIdx; rw [f2]
      have hnil : finishedOf q.st.pool noRem x.lastClaim X = [] := by
        rcases h.shape with h4 | ⟨g, _, h4⟩
        · exact h4
        · rw [he] at h4; simp at h4
      obtain ⟨s1, s2, s3, s4⟩ := hsp e.index e.orphaned
        (∑ t ∈ Finset.Ioc q.st.pool.last q.st.now, rateOf q.st.pool X t)
      have h1 := idx_some f1
      have h2 : orphAct (Incentives.update q.st.now q.st.pool).1 X = 0 := by
        unfold orphAct; rw [f1]; exact s1
      have h0 : (x.ext X).getD 0 ≤ e.index := by
        have := hI.e0 u x h.usr (hev.symm.trans hnil)
        rw [idx_some he] at this; exact this
      have h3 : orphAct q.st.pool X = e.orphaned := by unfold orphAct; rw [he]
      rw [hri, List.append_nil, h1, h2]
      simp only [hnil, entl, idx_some he, h3, s2] at hlo hhi ⊢
      have hsplit : ∀ g, T * (G + (e.index + g - (x.ext X).getD 0)) =
          T * (G + (e.index - (x.ext X).getD 0)) + T * g := by
        intro g
        rw [← Nat.mul_add]; congr 1; omega
      refine ⟨Or.inl trivial, ?_, ?_, by omega, Or.inl (Nat.le_trans h0 (Nat.le_add_right _ _)), Or.inl trivial⟩
      · rw [hsplit]; omega
      · rw [hsplit, Nat.mul_add T k 1]; omega
    · have hri : remIdx (Incentives.update q.st.now q.st.pool).2 X = [(spread q.st.pool.totalLp e.index e.orphaned
          (∑ t ∈ Finset.Ioc q.st.pool.last q.st.now, rateOf q.st.pool X t)).1] := by unfold remIdx; rw [f2]
      have hnil : finishedOf q.st.pool noRem x.lastClaim X = [] := by
        rcases h.shape with h4 | ⟨g, _, h4⟩
        · exact h4
        · rw [he] at h4; simp at h4
      obtain ⟨s1, s2, s3, s4⟩ := hsp e.index e.orphaned
        (∑ t ∈ Finset.Ioc q.st.pool.last q.st.now, rateOf q.st.pool X t)
      have h1 := idx_none f1
      have h2 : orphAct (Incentives.update q.st.now q.st.pool).1 X = 0 := by
        unfold orphAct; rw [f1]
      have h0 : (x.ext X).getD 0 ≤ e.index := by
        have := hI.e0 u x h.usr (hev.symm.trans hnil)
        rw [idx_some he] at this; exact this
      have h3 : orphAct q.st.pool X = e.orphaned := by unfold orphAct; rw [he]
      rw [hri, h1, h2]
      simp only [hnil, List.nil_append, entl, List.sum_nil, Nat.add_zero, idx_some he, h3, s2] at hlo hhi ⊢
      have hsplit : ∀ g, T * (G + (e.index + g - (x.ext X).getD 0)) =
          T * (G + (e.index - (x.ext X).getD 0)) + T * g := by
        intro g
        rw [← Nat.mul_add]; congr 1; omega
      refine ⟨Or.inr ⟨_, rfl, f1⟩, ?_, ?_, by omega, Or.inr (by simp), Or.inl trivial⟩
      · rw [hsplit]; omega
      · rw [hsplit, Nat.mul_add T k 1]; omega

/-- In such a segment the owed amount is one rounded-down product. -/
theorem owed_shape {a w : Nat} {fs : List Nat} {p : Pool I U}
    (h : fs = [] ∨ ∃ g, fs = [g] ∧ p.ext X = none) :
    owed a w fs (idx p X) = mulDec a (entl w fs (idx p X)) := by
  rcases h with rfl | ⟨g, rfl, h⟩
  · rfl
  · rw [idx_none h]; simp [owed, entl, mulDec_zero]

theorem mulDec_hi (a d : Nat) : a * d ≤ DEC * (mulDec a d + 1) := by
  have := lt_mulDec_mul a d
  rw [Nat.mul_comm] at this
  rw [Nat.mul_comm DEC, Nat.mul_comm a d]; omega

theorem Seg.step {q : Run I U} {x : User I} {P G Cc c k : Nat} (h : Seg X u a T o0 em0 rec0 L0 q x P G Cc c k)
    (me : U) (o : Op I U) (ho : Passive o) :
    ∃ x' P' G' Cc', Seg X u a T o0 em0 rec0 L0 (step me q o) x' P' G' Cc' (c + (claimBy u o).toNat) (k + 1) := by
  have hS := step_runInv h.inv me o (fun _ => by cases o <;> first | exact ho.elim | trivial)
  obtain ⟨ev, C, hI, hC, hl, hex⟩ := h.inv.update
  obtain ⟨hE, hF, hN⟩ := hex trivial
  obtain ⟨Cc', hsh, hlo, hhi, hem, hge, hop⟩ := h.update
  obtain ⟨hu, hT, hs, hf, horph, hla⟩ := update_fields q.st.now q.st.pool
  have hxu : (Incentives.update q.st.now q.st.pool).1.users u = some x := by rw [hu, h.usr]
  have hsv := finishedOf_save_exact (X := X) (fun u x hx => (hE u x hx).1) hI.finAsc hI.finLe hF hN hxu
  -- calls that do not concern `u`
  have other : ∀ q' : Run I U, RunInv X True q' → q'.st.now = q.st.now →
      q'.st.pool.last = (Incentives.update q.st.now q.st.pool).1.last →
      q'.st.pool.fin = (save (Incentives.update q.st.now q.st.pool).1 (Incentives.update q.st.now q.st.pool).2).fin →
      q'.st.pool.ext = (Incentives.update q.st.now q.st.pool).1.ext →
      q'.st.pool.totalLp = q.st.pool.totalLp →
      q'.st.pool.users u = q.st.pool.users u → q'.books.received u X = q.books.received u X →
      q'.books.emitted = q.books.emitted → ∀ c', c ≤ c' →
      ∃ x' P' G' Cc', Seg X u a T o0 em0 rec0 L0 q' x' P' G' Cc' c' (k + 1) := by
    intro q' h0 h1 h2 h3 h4 h5 h6 h7 h8 c' hc'
    have hfs : finishedOf q'.st.pool noRem x.lastClaim X = finishedOf (Incentives.update q.st.now q.st.pool).1
        (Incentives.update q.st.now q.st.pool).2 x.lastClaim X := by
      rw [finishedOf_congr h3, hsv]
    have hid : idx q'.st.pool X = idx (Incentives.update q.st.now q.st.pool).1 X := by unfold idx; rw [h4]
    have hor : orphAct q'.st.pool X = orphAct (Incentives.update q.st.now q.st.pool).1 X := by
      unfold orphAct; rw [h4]
    refine ⟨x, P, G, Cc', h0, by rw [h6, h.usr], h.amount, by rw [h5, h.tot], h.tpos, ?_, by rw [h7, h.recv],
      h.pay1, ?_, ?_, ?_, ?_, by rw [hor, h2, hl]; exact hop⟩
    · rw [hfs, h4]; exact hsh
    · exact Nat.le_trans h.pay2 (Nat.mul_le_mul_left _ (by omega))
    · rw [hfs, hid, hor]; exact hlo
    · rw [hfs, hid, hor]; exact hhi
    · rw [h2, hl, h1, h8, Finset.Ioc_self, Finset.sum_empty]; exact hem
  cases o with
  | claim v =>
    by_cases hv : v = u
    · subst hv
      unfold Incentives.step at hS ⊢
      simp only at hS ⊢
      cases heq : claim q.st v with
      | error e =>
        simp only
        refine ⟨x, P, G, Cc, h.inv, h.usr, h.amount, h.tot, h.tpos, h.shape, h.recv, h.pay1, ?_, h.lo, ?_, h.em, h.orp⟩
        · exact Nat.le_trans h.pay2 (Nat.mul_le_mul_left _ (by omega))
        · have := h.hi; rw [Nat.mul_add T k 1]; omega
      | ok y =>
        obtain ⟨s, pd⟩ := y
        rw [heq] at hS
        simp only at hS ⊢
        have hpd := (C34_claim_pays_pending heq X).1
        unfold claim at heq
        simp only [bind_ok_iff, orErr_ok, Except.ok.injEq, Prod.mk.injEq] at heq
        obtain ⟨y, hy, pay, hpay, hs', rfl⟩ := heq
        rw [h.usr] at hy
        have := Option.some.inj hy
        subst this
        have f1 : s.pool.users v = some (sync (Incentives.update q.st.now q.st.pool).1 x) := by
          rw [← hs']; exact Function.update_self ..
        have f2 : s.pool.ext = (Incentives.update q.st.now q.st.pool).1.ext := by rw [← hs']; rfl
        have f3 : s.pool.last = (Incentives.update q.st.now q.st.pool).1.last := by rw [← hs']; rfl
        have f4 : s.now = q.st.now := by rw [← hs']
        have f5 : s.pool.totalLp = q.st.pool.totalLp := by rw [← hs', ← hT]; rfl
        have hpx := (payAll_ok hpay).1 X
        -- the amount paid
        have hpe : pay.ext X = mulDec a (entl ((x.ext X).getD 0) (finishedOf
            (Incentives.update q.st.now q.st.pool).1 (Incentives.update q.st.now q.st.pool).2 x.lastClaim X)
            (idx (Incentives.update q.st.now q.st.pool).1 X)) := by
          rw [← owed_shape hsh, ← h.amount]
          unfold payExt at hpx
          simp only [bind_ok_iff, Except.ok.injEq] at hpx
          obtain ⟨m1, hm1, m2, hm2, hm⟩ := hpx
          rw [← hm]
          rcases hsh with hsh | ⟨g, hsh, hno⟩
          · rw [hsh] at hm1 hm2 hge ⊢
            simp only [payFinished, Except.ok.injEq] at hm1
            subst hm1
            simp only [owed, Nat.zero_add]
            rcases hge with hge | hge
            · unfold payCurrent at hm2
              unfold idx at hge ⊢
              cases hx : (Incentives.update q.st.now q.st.pool).1.ext X with
              | none =>
                rw [hx] at hm2
                simp only [Except.ok.injEq] at hm2
                rw [← hm2]; simp [mulDec_zero]
              | some e =>
                rw [hx] at hm2 hge
                simp only [u128_ok, if_true] at hm2 hge
                rw [← hm2.2]
                have : idxDiff e.index ((x.ext X).getD 0) = e.index - (x.ext X).getD 0 := by
                  unfold idxDiff; split
                  · omega
                  · rfl
                rw [this]
            · exact absurd rfl hge
          · rw [hsh] at hm1 ⊢
            simp only [payFinished, payRest, bind_ok_iff, csub_ok, u128_ok, Except.ok.injEq] at hm1
            obtain ⟨d, ⟨_, rfl⟩, b, ⟨_, rfl⟩, z, rfl, rfl⟩ := hm1
            rw [hno] at hm2
            simp only [payCurrent, Except.ok.injEq] at hm2
            subst hm2
            rw [idx_none hno]
            simp [owed, mulDec_zero]
        have hfin0 : finishedOf s.pool noRem (sync (Incentives.update q.st.now q.st.pool).1 x).lastClaim X = [] := by
          obtain ⟨_, ev', C', hI', _⟩ := hS
          rw [finishedOf_eq]
          have h0 : remIdx (noRem : Removed I) X = [] := rfl
          rw [h0, List.append_nil, List.filterMap_eq_nil_iff]
          intro z hz
          have := hI'.finLe z hz
          show (if (Incentives.update q.st.now q.st.pool).1.last < z.1 then z.2 X else none) = none
          have h2 : z.1 ≤ s.pool.last := this
          rw [f3] at h2
          rw [if_neg (by omega)]
        have hid : idx s.pool X = idx (Incentives.update q.st.now q.st.pool).1 X := by unfold idx; rw [f2]
        have hor : orphAct s.pool X = orphAct (Incentives.update q.st.now q.st.pool).1 X := by
          unfold orphAct; rw [f2]
        have hui : ((sync (Incentives.update q.st.now q.st.pool).1 x).ext X).getD 0 = idx s.pool X := by
          rw [hid]
          show ((Incentives.update q.st.now q.st.pool).1.ext X |>.map Ext.index).getD 0 = _
          unfold idx
          cases (Incentives.update q.st.now q.st.pool).1.ext X <;> rfl
        refine ⟨_, P + pay.ext X, G + entl ((x.ext X).getD 0) (finishedOf
            (Incentives.update q.st.now q.st.pool).1 (Incentives.update q.st.now q.st.pool).2 x.lastClaim X)
            (idx (Incentives.update q.st.now q.st.pool).1 X), Cc', hS, f1, h.amount, by rw [f5, h.tot], h.tpos,
            Or.inl hfin0, ?_, ?_, ?_, ?_, ?_, ?_, ?_⟩
        · show q.books.received v X + (if v = v then pay.ext X else 0) = _
          rw [if_pos rfl, h.recv]; omega
        · rw [hpe, Nat.mul_add, Nat.mul_add]
          exact Nat.add_le_add h.pay1 (mulDec_bound _ _)
        · have h1 := h.pay2
          have h2 := mulDec_hi a (entl ((x.ext X).getD 0) (finishedOf
            (Incentives.update q.st.now q.st.pool).1 (Incentives.update q.st.now q.st.pool).2 x.lastClaim X)
            (idx (Incentives.update q.st.now q.st.pool).1 X))
          rw [← hpe] at h2
          have hc1 : (claimBy v (Op.claim v : Op I U)).toNat = 1 := by simp [claimBy]
          rw [hc1]
          simp only [Nat.mul_add] at h1 h2 ⊢
          omega
        · show T * (_ + entl _ (finishedOf s.pool noRem _ X) (idx s.pool X)) + orphAct s.pool X ≤ _
          rw [hfin0, hui, hor]
          simp only [entl, Nat.sub_self, Nat.add_zero]
          exact hlo
        · show _ ≤ T * (_ + entl _ (finishedOf s.pool noRem _ X) (idx s.pool X)) + orphAct s.pool X + _
          rw [hfin0, hui, hor]
          simp only [entl, Nat.sub_self, Nat.add_zero]
          exact hhi
        · show em0 + Cc' + ∑ t ∈ Finset.Ioc s.pool.last s.now, _ = q.books.emitted X
          rw [f3, hl, f4, Finset.Ioc_self, Finset.sum_empty]; exact hem
        · show orphAct s.pool X = 0 ∨ s.pool.last = L0
          rw [hor, f3, hl]; exact hop
    · have hun := users_untouched (me := me) (r := q) (o := .claim v) (v := u) hv
      have hc0 : (claimBy u (Op.claim v : Op I U)).toNat = 0 := by simp [claimBy, hv]
      rw [hc0]
      unfold Incentives.step at hS hun ⊢
      simp only at hS hun ⊢
      cases heq : claim q.st v with
      | error e =>
        simp only
        refine ⟨x, P, G, Cc, h.inv, h.usr, h.amount, h.tot, h.tpos, h.shape, h.recv, h.pay1, h.pay2, h.lo, ?_, h.em, h.orp⟩
        have := h.hi; rw [Nat.mul_add T k 1]; omega
      | ok y =>
        obtain ⟨s, pd⟩ := y
        rw [heq] at hS hun
        simp only at hS hun ⊢
        unfold claim at heq
        simp only [bind_ok_iff, orErr_ok, Except.ok.injEq, Prod.mk.injEq] at heq
        obtain ⟨y, hy, pay, hpay, hs', rfl⟩ := heq
        refine other _ hS (by rw [← hs']) (by rw [← hs']; rfl) (by rw [← hs']; rfl) (by rw [← hs']; rfl)
          (by rw [← hs', ← hT]; rfl) hun ?_ rfl _ (Nat.le_refl _)
        show q.books.received u X + (if u = v then pay.ext X else 0) = _
        rw [if_neg (fun hh => hv hh.symm)]; rfl
  | touch =>
    exact other _ hS rfl rfl rfl rfl hT (congrFun hu u) rfl rfl _ (by omega)
  | wait d =>
    have hlast := h.inv.1
    refine ⟨x, P, G, Cc, hS, h.usr, h.amount, h.tot, h.tpos, h.shape, h.recv, h.pay1, ?_, h.lo, ?_, ?_, h.orp⟩
    · exact Nat.le_trans h.pay2 (Nat.mul_le_mul_left _ (by omega))
    · have := h.hi; rw [Nat.mul_add T k 1]; dsimp only [Incentives.step]; omega
    · show em0 + Cc + ∑ t ∈ Finset.Ioc q.st.pool.last (q.st.now + d), rateOf q.st.pool X t =
        q.books.emitted X + ∑ t ∈ Finset.Ioc q.st.now (q.st.now + d), rateOf q.st.pool X t
      rw [sum_Ioc_split _ hlast (Nat.le_add_right _ _), ← h.em]
      omega
  | deposit _ _ _ => exact ho.elim
  | withdraw _ _ => exact ho.elim
  | incentivize _ _ _ _ => exact ho.elim
  | removeReward _ _ => exact ho.elim
  | setAstro _ => exact ho.elim
  | disableAstro => exact ho.elim
  | sendLp _ _ _ => exact ho.elim

theorem Seg.run (me : U) : ∀ (ops : List (Op I U)) (q : Run I U) (x : User I) (P G Cc c k : Nat),
    Seg X u a T o0 em0 rec0 L0 q x P G Cc c k → (∀ o ∈ ops, Passive o) →
    ∃ x' P' G' Cc', Seg X u a T o0 em0 rec0 L0 (run me q ops) x' P' G' Cc' (c + ops.countP (claimBy u))
      (k + ops.length)
  | [], _, x, P, G, Cc, _, _, h, _ => ⟨x, P, G, Cc, h⟩
  | o :: os, q, x, P, G, Cc, c, k, h, ho => by
    obtain ⟨x', P', G', Cc', h'⟩ := h.step me o (ho o (by simp))
    obtain ⟨x2, P2, G2, Cc2, h2⟩ := Seg.run me os _ _ _ _ _ _ _ h' (fun o h => ho o (by simp [h]))
    refine ⟨x2, P2, G2, Cc2, ?_⟩
    have e1 : c + (o :: os).countP (claimBy u) = c + (claimBy u o).toNat + os.countP (claimBy u) := by
      rw [List.countP_cons]
      cases claimBy u o <;> simp <;> omega
    have e2 : k + (o :: os).length = k + 1 + os.length := by rw [List.length_cons]; omega
    rw [e1, e2]
    exact h2

/-! ## C30 -/

/-- C30: two stakers with the same amount, both up to date in the current block, can claim the same in
every later history (of any calls) that does not change their positions. -/
theorem C30_equal_positions (me : U) (r : Run I U) (v w : U) (a : Nat) (hv : Synced r.st v a)
    (hw : Synced r.st w a) (ops : List (Op I U)) (hops : ∀ o ∈ ops, Untouched v o ∧ Untouched w o) (X : I) :
    pending (run me r ops).st v X = pending (run me r ops).st w X ∧
    pendingAstro (run me r ops).st v = pendingAstro (run me r ops).st w := by
  have h : ∀ (ops : List (Op I U)) (r : Run I U), r.st.pool.users v = r.st.pool.users w →
      (∀ o ∈ ops, Untouched v o ∧ Untouched w o) →
      (run me r ops).st.pool.users v = (run me r ops).st.pool.users w := by
    intro ops
    induction ops with
    | nil => intro r h _; exact h
    | cons o os ih =>
      intro r h ho
      apply ih
      · rw [users_untouched (ho o (by simp)).1, users_untouched (ho o (by simp)).2, h]
      · intro o h; exact ho o (by simp [h])
  have h2 := h ops r (by rw [hv.2, hw.2]) hops
  unfold pending pendingAstro
  rw [h2]
  exact ⟨rfl, rfl⟩

/-- A successful deposit leaves the staker up to date. -/
theorem C30_deposit_syncs {me sender staker : U} {s s' : State I U} {n : Nat} {x : Paid I}
    (hl : s.pool.last ≤ s.now) (h : deposit me s sender staker n = .ok (s', x)) :
    Synced s' staker (amt s.pool staker + n) := by
  have hl1 : (update s.now s.pool).1.last = s.now := by
    rw [(update_fields s.now s.pool).2.2.2.2.2]; omega
  unfold deposit at h
  simp only [bind_ok_iff] at h
  obtain ⟨lp, _, hd⟩ := h
  cases hu : s.pool.users staker with
  | none =>
    rw [hu] at hd
    simp only [bind_ok_iff, u128_ok, Except.ok.injEq, Prod.mk.injEq] at hd
    obtain ⟨T, _, rfl, rfl⟩ := hd
    refine ⟨hl1, ?_⟩
    have : amt s.pool staker = 0 := by unfold amt; rw [hu]
    rw [this, Nat.zero_add]
    exact Function.update_self ..
  | some u =>
    rw [hu] at hd
    simp only [bind_ok_iff, u128_ok, Except.ok.injEq, Prod.mk.injEq] at hd
    obtain ⟨pay, _, a, ⟨_, rfl⟩, T, _, rfl, rfl⟩ := hd
    refine ⟨hl1, ?_⟩
    rw [amt_some hu]
    exact Function.update_self ..

/-- A successful claim leaves the staker up to date, with the same amount. -/
theorem C30_claim_syncs {v : U} {s s' : State I U} {x : Paid I}
    (hl : s.pool.last ≤ s.now) (h : claim s v = .ok (s', x)) : Synced s' v (amt s.pool v) := by
  have hl1 : (update s.now s.pool).1.last = s.now := by
    rw [(update_fields s.now s.pool).2.2.2.2.2]; omega
  unfold claim at h
  simp only [bind_ok_iff, orErr_ok, Except.ok.injEq, Prod.mk.injEq] at h
  obtain ⟨u, hu, pay, hpay, rfl, rfl⟩ := h
  refine ⟨hl1, ?_⟩
  rw [amt_some hu]
  exact Function.update_self ..

/-- C30, partial: let `u` hold `a` of the `T` staked LP tokens, up to date, and let time pass with any
schedule of claims by `u` and by others.  The stream has `C` atomics to give in that time (its announced
rate second by second, plus what was orphaned at the start).  Then what `u` received and can still
claim is at most the share `a/T · C`, and at least that share minus one unit per claim (and one for the
pending claim) minus `a` atomics (`10^-18` units per LP token) per call that touched the pool.
Missing: the claimed bound of one unit per claim alone, which is false when positions exceed `10^18`
(`C30_touch_rounding_violated`). -/
theorem C30_pro_rata_partial (me : U) (lp : U → Nat) (now : Nat) (before : List (Op I U))
    (hclean : Clean me (start lp now) before) (X : I) (u : U) (a : Nat) (ha : 0 < a)
    (hsync : Synced (run me (start lp now) before).st u a) (seg : List (Op I U)) (hseg : ∀ o ∈ seg, Passive o)
    (htime : (run me (start lp now) before).st.now < (run me (run me (start lp now) before) seg).st.now)
    (hE : (run me (run me (start lp now) before) seg).books.emitted X < U128 * DEC) :
    let r := run me (start lp now) before
    let r' := run me r seg
    let T := r.st.pool.totalLp
    let C := orphAct r.st.pool X + (r'.books.emitted X - r.books.emitted X)
    ∃ total, r'.books.received u X + claimable r'.st u X = r.books.received u X + total ∧
      DEC * T * total ≤ a * C ∧
      a * C ≤ DEC * T * (total + seg.countP (claimBy u) + 1) + a * T * (seg.length + 1) := by
  intro r r' T C
  have hR : RunInv X True r := run_runInv_clean me before _ (start_runInv X True lp now) hclean
  have hus : r.st.pool.users u = some (sync r.st.pool ⟨a, fun _ => none, none, 0⟩) := hsync.2
  have hseg0 : Seg X u a T (orphAct r.st.pool X) (r.books.emitted X) (r.books.received u X) r.st.pool.last r
      (sync r.st.pool ⟨a, fun _ => none, none, 0⟩) 0 0 0 0 0 := by
    obtain ⟨_, ev, C', hI, _⟩ := id hR
    have hfin0 : finishedOf r.st.pool noRem (sync r.st.pool
        (⟨a, fun _ => none, none, 0⟩ : User I)).lastClaim X = [] := by
      rw [finishedOf_eq]
      have h0 : remIdx (noRem : Removed I) X = [] := rfl
      rw [h0, List.append_nil, List.filterMap_eq_nil_iff]
      intro z hz
      have := hI.finLe z hz
      show (if r.st.pool.last < z.1 then z.2 X else none) = none
      rw [if_neg (by omega)]
    have hui : ((sync r.st.pool (⟨a, fun _ => none, none, 0⟩ : User I)).ext X).getD 0 = idx r.st.pool X := by
      show ((r.st.pool.ext X).map Ext.index).getD 0 = _
      unfold idx
      cases r.st.pool.ext X <;> rfl
    refine ⟨hR, hus, rfl, rfl, ?_, Or.inl hfin0, rfl, by simp, by simp, ?_, ?_, ?_, Or.inr rfl⟩
    · have h1 := le_sum (amt r.st.pool) u
      rw [amt_some hus] at h1
      have h2 := hI.total
      have h3 : (sync r.st.pool (⟨a, fun _ => none, none, 0⟩ : User I)).amount = a := rfl
      show 0 < r.st.pool.totalLp
      omega
    · rw [hfin0, hui]; simp [entl]
    · rw [hfin0, hui]; simp [entl]
    · rw [hsync.1, Finset.Ioc_self, Finset.sum_empty]; rfl
  obtain ⟨x, P, G, Cc, hS⟩ := Seg.run me seg r _ _ _ _ _ _ hseg0 hseg
  obtain ⟨Cc', hsh, hlo, hhi, hem, hge, hop⟩ := hS.update
  have hpend := pending_exact hS.inv hE hS.usr
  have hcl : claimable r'.st u X = mulDec a (entl ((x.ext X).getD 0) (finishedOf
      (update r'.st.now r'.st.pool).1 (update r'.st.now r'.st.pool).2 x.lastClaim X)
      (idx (update r'.st.now r'.st.pool).1 X)) := by
    unfold claimable
    rw [show pending r'.st u X = _ from hpend, ← owed_shape hsh, ← hS.amount]
    rfl
  refine ⟨P + claimable r'.st u X, ?_, ?_, ?_⟩
  · have := hS.recv
    show (run me r seg).books.received u X + _ = _
    rw [this]; omega
  all_goals
    have hC : C = orphAct r.st.pool X + Cc' := by
      show orphAct r.st.pool X + ((run me r seg).books.emitted X - r.books.emitted X) = _
      rw [← hem]; omega
    rw [hC, hcl]
    have h1 := hS.pay1
    have h2 := hS.pay2
    rw [Nat.zero_add] at h2 hhi
    generalize hEe : entl ((x.ext X).getD 0) (finishedOf (update (run me r seg).st.now (run me r seg).st.pool).1
        (update (run me r seg).st.now (run me r seg).st.pool).2 x.lastClaim X)
        (idx (update (run me r seg).st.now (run me r seg).st.pool).1 X) = E at hlo hhi
    have h3 := mulDec_bound a E
    have h4 := mulDec_hi a E
  · calc DEC * T * (P + mulDec a E) = T * (DEC * P + DEC * mulDec a E) := by ring
      _ ≤ T * (a * G + a * E) := Nat.mul_le_mul_left _ (by omega)
      _ = a * (T * (G + E)) := by ring
      _ ≤ a * (orphAct r.st.pool X + Cc') := Nat.mul_le_mul_left _ (by omega)
  · have horp : orphAct (update (run me r seg).st.now (run me r seg).st.pool).1 X = 0 := by
      rcases hop with h | h
      · exact h
      · have := hsync.1
        have h6 : r.st.now < (run me r seg).st.now := htime
        have h7 : r.st.pool.last = r.st.now := hsync.1
        omega
    have h5 : a * (G + E) ≤ DEC * (P + mulDec a E + seg.countP (claimBy u) + 1) := by
      simp only [Nat.mul_add] at h2 h4 ⊢
      omega
    calc a * (orphAct r.st.pool X + Cc') ≤ a * (T * (G + E) + T * (seg.length + 1)) :=
          Nat.mul_le_mul_left _ (by rw [horp] at hhi; exact hhi)
      _ = T * (a * (G + E)) + a * T * (seg.length + 1) := by ring
      _ ≤ T * (DEC * (P + mulDec a E + seg.countP (claimBy u) + 1)) + a * T * (seg.length + 1) := by
          exact Nat.add_le_add_right (Nat.mul_le_mul_left _ h5) _
      _ = _ := by ring

section Witness

/-- A large staker `1` (`5·10^18` LP), a tiny staker `2`, one reward of about one unit per second. -/
def wBig : List (Op (Fin 2) (Fin 4)) :=
  [.deposit 1 1 5000000000000000000, .deposit 2 2 1, .incentivize 0 1300000 1 false]
/-- All LP tokens are held by `1` and `2`. -/
def wRich : Run (Fin 2) (Fin 4) :=
  start (fun u => if u = 1 then 5000000000000000000 else if u = 2 then 10 else 0) (EPOCHS_START + 1)
/-- Ten seconds pass; the tiny staker claims every second. -/
def wNoisy : List (Op (Fin 2) (Fin 4)) := (List.range 10).flatMap fun _ => [.wait 1, .claim 2]

/-- C30 is violated: claims of a tiny staker every second take away all rewards of a large one, who
earns 10 units when nobody claims. -/
theorem C30_touch_rounding_violated :
    claimable (run 0 (run 0 wRich wBig) [.wait 10]).st 1 0 = 10 ∧
    claimable (run 0 (run 0 wRich wBig) wNoisy).st 1 0 = 0 ∧
    (run 0 (run 0 wRich wBig) wNoisy).books.received 1 0 = 0 ∧
    (run 0 (run 0 wRich wBig) wNoisy).st.now = (run 0 (run 0 wRich wBig) [.wait 10]).st.now := by
  decide +kernel

/-- The hypotheses of `C30_pro_rata_partial` hold in a usual history in which `3` gets something. -/
def wBefore : List (Op (Fin 2) (Fin 4)) :=
  [.deposit 1 1 100, .incentivize 0 100000000 1 false, .wait 1000, .deposit 2 3 300]
/-- Claims by both, at different times. -/
def wSeg : List (Op (Fin 2) (Fin 4)) := [.wait 500, .claim 1, .wait 100, .claim 3, .touch, .wait 77]

example : Clean 0 wStart wBefore := by
  simp only [wBefore, Clean, and_true]; decide
example : Synced (run 0 wStart wBefore).st 3 300 := by
  have h2 : ∃ s x, deposit 0 (run 0 wStart (wBefore.take 3)).st 2 3 300 = .ok (s, x) := by
    have h3 : okAnd (deposit 0 (run 0 wStart (wBefore.take 3)).st 2 3 300) (fun _ => true) = true := by decide +kernel
    revert h3
    cases deposit 0 (run 0 wStart (wBefore.take 3)).st 2 3 300 with
    | error e => intro h3; simp [okAnd] at h3
    | ok y => intro _; exact ⟨y.1, y.2, rfl⟩
  obtain ⟨s, x, h2⟩ := h2
  have h4 := C30_deposit_syncs (by decide +kernel) h2
  have h5 : amt (run 0 wStart (wBefore.take 3)).st.pool 3 = 0 := by decide +kernel
  rw [h5] at h4
  have h6 : (run 0 wStart wBefore).st = s := by
    show (step 0 (run 0 wStart (wBefore.take 3)) (.deposit 2 3 300)).st = s
    unfold step
    simp only [show ((2 : Fin 4) = 0) = False from by decide, if_false, h2]
  rw [h6]
  exact h4
example : (∀ o ∈ wSeg, Passive o) ∧ (run 0 wStart wBefore).st.now < (run 0 (run 0 wStart wBefore) wSeg).st.now ∧
    0 < (run 0 (run 0 wStart wBefore) wSeg).books.received 3 0 ∧
    0 < claimable (run 0 (run 0 wStart wBefore) wSeg).st 3 0 ∧ wSeg.countP (claimBy 3) = 1 ∧
    (run 0 (run 0 wStart wBefore) wSeg).books.emitted 0 < U128 * DEC := by
  refine ⟨?_, by decide +kernel, by decide +kernel, by decide +kernel, by decide, ?_⟩
  · simp [wSeg, Passive]
  · decide +kernel
/-- Two stakers synced in the same block with the same amount. -/
example : claimable (run 0 wStart [.deposit 1 1 100, .incentivize 0 100000000 1 false, .wait 1000, .deposit 2 3 100,
    .claim 1, .wait 500, .deposit 2 2 50, .wait 1000]).st 1 0 =
    claimable (run 0 wStart [.deposit 1 1 100, .incentivize 0 100000000 1 false, .wait 1000, .deposit 2 3 100,
    .claim 1, .wait 500, .deposit 2 2 50, .wait 1000]).st 3 0 ∧
    0 < claimable (run 0 wStart [.deposit 1 1 100, .incentivize 0 100000000 1 false, .wait 1000, .deposit 2 3 100,
    .claim 1, .wait 500, .deposit 2 2 50, .wait 1000]).st 3 0 := by decide +kernel

end Witness

end Verif.Incentives
