import Verif.Incentives.Lp

/-!
# Incentives: what exactly a staker is owed in a clean history
-/

namespace Verif.Incentives

variable {I U : Type}

/-- Amount owed for a position of `a` LP with stored index `u`, after incarnations ending at indexes
`fs` and a running one at index `i`. -/
def owed (a u : Nat) (fs : List Nat) (i : Nat) : Nat :=
  match fs with
  | [] => mulDec a (i - u)
  | h :: t => mulDec a (h - u) + (t.map (mulDec a)).sum + mulDec a i

theorem mulDec_zero (a : Nat) : mulDec a 0 = 0 := by simp [mulDec]

theorem owed_end (a u : Nat) (fs : List Nat) (i : Nat) : owed a u (fs ++ [i]) 0 = owed a u fs i := by
  cases fs with
  | nil => simp [owed, mulDec_zero]
  | cons h t => simp [owed, mulDec_zero]; omega

theorem mulDec_mono_right {a d e : Nat} (h : d ≤ e) : mulDec a d ≤ mulDec a e :=
  Nat.div_le_div_right (Nat.mul_le_mul_left _ h)

theorem mulDec_lt {a d : Nat} (h : a * d < U128 * DEC) : mulDec a d < U128 := by
  unfold mulDec; exact Nat.div_lt_of_lt_mul (by rw [Nat.mul_comm DEC]; exact h)

theorem owed_mono (a u : Nat) (fs : List Nat) {i j : Nat} (hij : i ≤ j) : owed a u fs i ≤ owed a u fs j := by
  cases fs with
  | nil => exact mulDec_mono_right (by omega)
  | cons h t =>
    simp only [owed]
    have := mulDec_mono_right (a := a) hij
    omega

theorem payRest_ok {a : Nat} : ∀ {l : List Nat}, a * l.sum < U128 * DEC →
    payRest a l = .ok (l.map (mulDec a)).sum
  | [], _ => rfl
  | f :: rest, h => by
    rw [List.sum_cons, Nat.mul_add] at h
    have h1 : mulDec a f < U128 := mulDec_lt (by omega)
    have h2 := payRest_ok (a := a) (l := rest) (by omega)
    unfold payRest
    rw [h2]
    simp [u128, h1, ok_bind]

theorem payFinished_ok {a u : Nat} {h : Nat} {t : List Nat} (hu : u ≤ h)
    (hb : a * (h - u + t.sum) < U128 * DEC) :
    payFinished a u (h :: t) = .ok (mulDec a (h - u) + (t.map (mulDec a)).sum) := by
  rw [Nat.mul_add] at hb
  have h1 : mulDec a (h - u) < U128 := mulDec_lt (by omega)
  have h2 := payRest_ok (a := a) (l := t) (by omega)
  unfold payFinished
  simp only
  rw [h2]
  simp [csub, hu, u128, h1, ok_bind]

theorem payCurrent_ok {p : Pool I U} {X : I} {a u : Nat} (hu : u ≤ idx p X)
    (hb : a * (idx p X - u) < U128 * DEC) :
    payCurrent a u (p.ext X) = .ok (mulDec a (idx p X - u)) := by
  unfold idx at *
  cases he : p.ext X with
  | none => simp [payCurrent, mulDec_zero]
  | some e =>
    rw [he] at hu hb
    simp only at hu hb ⊢
    have h1 : mulDec a (e.index - u) < U128 := mulDec_lt (by omega)
    have : idxDiff e.index u = e.index - u := by
      unfold idxDiff; split
      · omega
      · rfl
    simp [payCurrent, this, u128, h1]

/-- When the contract remembers every ended incarnation, it pays exactly what is owed. -/
theorem payExt_exact [Fintype U] {X : I} {p : Pool I U} {rem : Removed I} {ev : U → List Nat} {paid C : Nat}
    (hI : Inv X p rem ev paid C) (hE : Exact X p rem ev) (hC : C < U128 * DEC) {v : U} {x : User I}
    (hx : p.users v = some x) :
    payExt p rem x X = .ok (owed x.amount ((x.ext X).getD 0) (finishedOf p rem x.lastClaim X) (idx p X)) := by
  have hfs := (hE v x hx).2
  have hamt : amt p v = x.amount := by unfold amt; rw [hx]
  have hu : uidx p X v = (x.ext X).getD 0 := by unfold uidx; rw [hx]
  have hb : x.amount * entl ((x.ext X).getD 0) (ev v) (idx p X) < U128 * DEC := by
    have h1 := le_sum (fun v => amt p v * entl (uidx p X v) (ev v) (idx p X)) v
    simp only [hamt, hu] at h1
    have := hI.acct
    omega
  have h0 := hI.e0 v x hx
  have h1 := hI.e1 v x hx
  unfold payExt
  rw [hfs]
  generalize (x.ext X).getD 0 = w at *
  cases hev : ev v with
  | nil =>
    rw [hev] at hb h0
    simp only [payFinished, ok_bind, if_true, owed]
    rw [payCurrent_ok (h0 rfl) hb]
    simp [ok_bind]
  | cons h t =>
    rw [hev] at hb h1
    have h1 := h1 h t rfl
    simp only [entl, Nat.mul_add] at hb
    have h2 := payFinished_ok (a := x.amount) h1 (t := t) (by rw [Nat.mul_add]; omega)
    simp only [h2, ok_bind, List.cons_ne_nil, if_false, owed]
    rw [payCurrent_ok (Nat.zero_le _) (by rw [Nat.sub_zero]; omega)]
    simp [ok_bind, Nat.sub_zero]

theorem payAstro_exact {p : Pool I U} {u : User I} (hle : u.int.getD 0 ≤ aidx p)
    (hb : u.amount * (aidx p - u.int.getD 0) < U128 * DEC) :
    payAstro p u = .ok (mulDec u.amount (aidx p - u.int.getD 0)) := by
  unfold payAstro
  unfold aidx at *
  cases hi : p.int with
  | none => simp [mulDec_zero]
  | some r =>
    rw [hi] at hle hb
    simp only at hle hb ⊢
    have h1 : mulDec u.amount (r.index - u.int.getD 0) < U128 := mulDec_lt (by omega)
    have : idxDiff r.index (u.int.getD 0) = r.index - u.int.getD 0 := by
      unfold idxDiff; split
      · omega
      · rfl
    simp [this, u128, h1]

variable [Fintype I] [DecidableEq I] [DecidableEq U] [Fintype U]

/-- Pending rewards of a staker in a clean history. -/
theorem pending_exact {X : I} {r : Run I U} (h : RunInv X True r) (hC : r.books.emitted X < U128 * DEC)
    {v : U} {x : User I} (hx : r.st.pool.users v = some x) :
    pending r.st v X = .ok (owed x.amount ((x.ext X).getD 0)
      (finishedOf (update r.st.now r.st.pool).1 (update r.st.now r.st.pool).2 x.lastClaim X)
      (idx (update r.st.now r.st.pool).1 X)) := by
  obtain ⟨ev, C, hI, hCE, hl, hex⟩ := h.update
  unfold pending
  simp only [hx]
  exact payExt_exact hI (hex trivial).1 (by omega) (v := v) (by rw [(update_fields _ _).1, hx])

/-- `save` loses nothing in a clean history. -/
theorem finishedOf_save_exact {p : Pool I U} {rem : Removed I} {v : U} {x : User I} {X : I}
    (hpos : ∀ u x, p.users u = some x → 0 < x.amount) (hasc : Ascending p.fin)
    (hle : ∀ x ∈ p.fin, x.1 ≤ p.last) (hf : Fresh p rem) (ho : NoOrphan p rem) (hx : p.users v = some x) :
    finishedOf (save p rem) noRem x.lastClaim X = finishedOf p rem x.lastClaim X := by
  have h : Exact X p rem (fun u => match p.users u with
      | none => [] | some y => finishedOf p rem y.lastClaim X) := by
    intro u y hy
    refine ⟨hpos u y hy, ?_⟩
    simp only [hy]
  have := (exact_save h hasc hle hf ho v x hx).2
  rw [this]
  simp only [hx]

omit [Fintype I] [DecidableEq I] [DecidableEq U] [Fintype U] in
theorem update_now {p : Pool I U} {now : Nat} (h : p.last = now) : update now p = (p, noRem) := by
  unfold update; rw [if_pos (by omega)]; rfl

omit [Fintype I] [DecidableEq I] [DecidableEq U] [Fintype U] in
theorem finishedOf_congr {p q : Pool I U} (h : q.fin = p.fin) (rem : Removed I) (lc : Nat) (X : I) :
    finishedOf q rem lc X = finishedOf p rem lc X := by
  rw [finishedOf_eq, finishedOf_eq, h]

omit [Fintype I] [DecidableEq I] [DecidableEq U] [Fintype U] in
theorem idx_none {p : Pool I U} {X : I} (h : p.ext X = none) : idx p X = 0 := by unfold idx; rw [h]

omit [Fintype I] [DecidableEq I] [DecidableEq U] [Fintype U] in
theorem idx_some {p : Pool I U} {X : I} {e : Ext} (h : p.ext X = some e) : idx p X = e.index := by
  unfold idx; rw [h]

/-- A call that does not concern `v`'s position. -/
def Untouched (v : U) : Op I U → Prop
  | .deposit _ staker _ => staker ≠ v
  | .withdraw user _ => user ≠ v
  | .claim user => user ≠ v
  | _ => True

theorem users_untouched {me v : U} {r : Run I U} {o : Op I U} (h : Untouched v o) :
    (step me r o).st.pool.users v = r.st.pool.users v := by
  have hu := (update_fields r.st.now r.st.pool).1
  cases o with
  | deposit sender staker n =>
    unfold step
    simp only
    split
    · rename_i s x heq
      split at heq
      · simp at heq
      have hv : v ≠ staker := fun hh => h hh.symm
      unfold deposit at heq
      simp only [bind_ok_iff] at heq
      obtain ⟨lp, _, hd⟩ := heq
      split at hd
      · simp only [bind_ok_iff, u128_ok, Except.ok.injEq, Prod.mk.injEq] at hd
        obtain ⟨T, _, rfl, rfl⟩ := hd
        exact (Function.update_of_ne hv _ _).trans (by rw [hu])
      · simp only [bind_ok_iff, u128_ok, Except.ok.injEq, Prod.mk.injEq] at hd
        obtain ⟨pay, _, a, _, T, _, rfl, rfl⟩ := hd
        exact (Function.update_of_ne hv _ _).trans (by rw [hu])
    · rfl
  | withdraw user n =>
    unfold step
    simp only
    split
    · rename_i s x heq
      split at heq
      · simp at heq
      have hv : v ≠ user := fun hh => h hh.symm
      unfold withdraw at heq
      simp only [bind_ok_iff, orErr_ok, require_ok, exists_const, csub_ok, Except.ok.injEq,
        Prod.mk.injEq] at heq
      obtain ⟨u, _, hn, pay, hpay, T, _, lp, _, rfl, rfl⟩ := heq
      exact (Function.update_of_ne hv _ _).trans (by rw [hu])
    · rfl
  | claim user =>
    unfold step
    simp only
    split
    · rename_i s x heq
      have hv : v ≠ user := fun hh => h hh.symm
      unfold claim at heq
      simp only [bind_ok_iff, orErr_ok, Except.ok.injEq, Prod.mk.injEq] at heq
      obtain ⟨u, _, pay, hpay, rfl, rfl⟩ := heq
      exact (Function.update_of_ne hv _ _).trans (by rw [hu])
    · rfl
  | incentivize Y amount periods isAstro =>
    unfold step
    simp only
    split
    · rename_i s heq
      unfold incentivize at heq
      simp only [bind_ok_iff, Except.ok.injEq] at heq
      obtain ⟨c, hc, p, hp, rfl⟩ := heq
      unfold incentivizePool at hp
      simp only [bind_ok_iff, require_ok, exists_const] at hp
      replace hp := hp.2
      split at hp <;> (simp only [Except.ok.injEq] at hp; subst hp; exact congrFun hu v)
    · rfl
  | removeReward Y bypass =>
    unfold step
    simp only
    split
    · rename_i s n heq
      unfold removeReward at heq
      simp only [bind_ok_iff, Except.ok.injEq, Prod.mk.injEq, Prod.exists] at heq
      obtain ⟨p, rem, m, hd, rfl, rfl⟩ := heq
      exact (congrFun (deregister_fields hd).2.1 v).trans (congrFun hu v)
    · rfl
  | setAstro rps => exact congrFun hu v
  | disableAstro => exact congrFun hu v
  | touch => exact congrFun hu v
  | wait d => rfl
  | sendLp src dst n =>
    unfold step
    simp only
    split <;> rfl

/-- What a call by somebody else does to the history of incarnations `v` can claim: nothing, or
the running one ends at its current index. -/
theorem step_owed {X : I} {me v : U} {r : Run I U} {o : Op I U} {x : User I} (h : RunInv X True r)
    (hv : Untouched v o) (hx : r.st.pool.users v = some x) (hw : ∀ d, o ≠ .wait d)
    (hok : match (generalizing := false) o with
      | .deposit _ _ n => n ≠ 0
      | .removeReward _ _ => r.st.pool.last < r.st.now
      | _ => True) (a u : Nat) :
    owed a u (finishedOf (update (step me r o).st.now (step me r o).st.pool).1
        (update (step me r o).st.now (step me r o).st.pool).2 x.lastClaim X)
      (idx (update (step me r o).st.now (step me r o).st.pool).1 X) =
    owed a u (finishedOf (update r.st.now r.st.pool).1 (update r.st.now r.st.pool).2 x.lastClaim X)
      (idx (update r.st.now r.st.pool).1 X) := by
  obtain ⟨ev, C, hI, hC, hl, hex⟩ := h.update
  obtain ⟨hE, hF, hN⟩ := hex trivial
  have hu := (update_fields r.st.now r.st.pool).1
  have hxu : (update r.st.now r.st.pool).1.users v = some x := by rw [hu, hx]
  have hsv := finishedOf_save_exact (X := X) (fun u x hx => (hE u x hx).1) hI.finAsc hI.finLe hF hN hxu
  -- a call that leaves the reward and the store as `save` does
  have same : ∀ s' : State I U, s'.now = r.st.now → s'.pool.last = (update r.st.now r.st.pool).1.last →
      s'.pool.fin = (save (update r.st.now r.st.pool).1 (update r.st.now r.st.pool).2).fin →
      idx s'.pool X = idx (update r.st.now r.st.pool).1 X →
      owed a u (finishedOf (update s'.now s'.pool).1 (update s'.now s'.pool).2 x.lastClaim X)
        (idx (update s'.now s'.pool).1 X) =
      owed a u (finishedOf (update r.st.now r.st.pool).1 (update r.st.now r.st.pool).2 x.lastClaim X)
        (idx (update r.st.now r.st.pool).1 X) := by
    intro s' h1 h2 h3 h4
    rw [update_now (by rw [h2, hl, h1]), h4, finishedOf_congr h3, hsv]
  cases o with
  | deposit sender staker n =>
    unfold step
    simp only
    split
    · rename_i s y heq
      split at heq
      · simp at heq
      unfold deposit at heq
      simp only [bind_ok_iff] at heq
      obtain ⟨lp, _, hd⟩ := heq
      split at hd
      · simp only [bind_ok_iff, u128_ok, Except.ok.injEq, Prod.mk.injEq] at hd
        obtain ⟨T, _, rfl, rfl⟩ := hd
        exact same _ rfl rfl rfl rfl
      · simp only [bind_ok_iff, u128_ok, Except.ok.injEq, Prod.mk.injEq] at hd
        obtain ⟨pay, _, a, _, T, _, rfl, rfl⟩ := hd
        exact same _ rfl rfl rfl rfl
    · rfl
  | withdraw user n =>
    unfold step
    simp only
    split
    · rename_i s y heq
      split at heq
      · simp at heq
      unfold withdraw at heq
      simp only [bind_ok_iff, orErr_ok, require_ok, exists_const, csub_ok, Except.ok.injEq,
        Prod.mk.injEq] at heq
      obtain ⟨u, _, hn, pay, hpay, T, _, lp, _, rfl, rfl⟩ := heq
      exact same _ rfl rfl rfl rfl
    · rfl
  | claim user =>
    unfold step
    simp only
    split
    · rename_i s y heq
      unfold claim at heq
      simp only [bind_ok_iff, orErr_ok, Except.ok.injEq, Prod.mk.injEq] at heq
      obtain ⟨u, _, pay, hpay, rfl, rfl⟩ := heq
      exact same _ rfl rfl rfl rfl
    · rfl
  | incentivize Y amount periods isAstro =>
    unfold step
    simp only
    split
    · rename_i s heq
      unfold incentivize at heq
      simp only [bind_ok_iff, Except.ok.injEq] at heq
      obtain ⟨c, hc, p, hp, rfl⟩ := heq
      have hstop := (fromInput_ok hc).2.2.2.2.1
      unfold incentivizePool at hp
      simp only [bind_ok_iff, require_ok, exists_const] at hp
      replace hp := hp.2
      have hid : ∀ q q' : Pool I U, q.ext X = q'.ext X → idx q X = idx q' X := by
        intro q q' he; unfold idx; rw [he]
      cases hY : (update r.st.now r.st.pool).1.ext Y with
      | none =>
        rw [hY] at hp
        simp only [Except.ok.injEq] at hp
        subst hp
        refine same _ rfl rfl rfl ?_
        by_cases hXY : X = Y
        · subst hXY
          rw [idx_none hY, idx_some (Function.update_self ..)]
        · exact hid _ _ (Function.update_of_ne hXY _ _)
      | some e =>
        rw [hY] at hp
        simp only [Except.ok.injEq] at hp
        subst hp
        refine same _ rfl rfl rfl ?_
        by_cases hXY : X = Y
        · subst hXY
          rw [idx_some hY, idx_some (Function.update_self ..)]
          unfold extend
          split <;> rfl
        · exact hid _ _ (Function.update_of_ne hXY _ _)
    · rfl
  | removeReward Y bypass =>
    unfold step
    simp only
    split
    · rename_i s n heq
      unfold removeReward at heq
      simp only [bind_ok_iff, Except.ok.injEq, Prod.mk.injEq, Prod.exists] at heq
      obtain ⟨p, rem, m, hd, rfl, rfl⟩ := heq
      obtain ⟨hI2, _⟩ := deregister_inv hI hd
      obtain ⟨hfin, hus, hlp, _, _, _, e, he, hrem⟩ := deregister_fields hd
      have hlt : r.st.pool.last < r.st.now := hok
      have hxp : p.users v = some x := by rw [hus, hxu]
      obtain ⟨_, hNo⟩ := update_noOrphan (now := r.st.now) (p := r.st.pool)
        (by have := hI.total; rw [(update_fields _ _).2.1] at this
            rw [← this]; apply Finset.sum_congr rfl; intro u _; unfold amt; rw [hu])
        (fun u x hx => (hE u x (by rw [hu]; exact hx)).1)
      have hfresh : Fresh p rem := by
        right
        obtain ⟨hl0, ev0, C0, hI0, _⟩ := h
        rw [hfin, hus, hlp, hl, (update_fields _ _).2.2.2.1, hu]
        refine ⟨fun y hy => ?_, fun u y hy => ?_⟩
        · have := hI0.finLe y hy; omega
        · have := hI0.lc u y hy; omega
      have hno : NoOrphan p rem := by
        intro hex Z
        rw [hus] at hex
        unfold remOrph
        rw [hrem]
        by_cases hZ : Z = Y
        · subst hZ
          rw [Function.update_self]
          rw [hu] at hex
          exact hNo hlt hex Z e he
        · rw [Function.update_of_ne hZ]
          exact hN hex Z
      have hsv2 := finishedOf_save_exact (X := X) (fun u y hy => (hE u y (by rw [← hus]; exact hy)).1)
        hI2.finAsc hI2.finLe hfresh hno hxp
      have hup : update r.st.now (save p rem) = (save p rem, noRem) := update_now (by
        show p.last = _; rw [hlp, hl])
      show owed a u (finishedOf (update r.st.now (save p rem)).1 (update r.st.now (save p rem)).2 x.lastClaim X)
        (idx (update r.st.now (save p rem)).1 X) = _
      rw [hup]
      show owed a u (finishedOf (save p rem) noRem x.lastClaim X) (idx (save p rem) X) = _
      rw [hsv2, finishedOf_eq, hfin, hrem, finishedOf_eq]
      have hidx : idx (save p rem) X = idx p X := rfl
      rw [← hrem, hidx]
      unfold deregister at hd
      simp only [bind_ok_iff, orErr_ok, u128_ok, Except.ok.injEq, Prod.mk.injEq] at hd
      obtain ⟨e', he', m, _, ⟨hp, hr⟩, rfl⟩ := hd
      by_cases hXY : X = Y
      · subst hXY
        have h1 : remIdx rem X = [e.index] := by unfold remIdx; rw [hrem, Function.update_self]
        have h2 : remIdx (update r.st.now r.st.pool).2 X = [] := by
          have := hI.excl (by rw [he]; simp)
          unfold remIdx; rw [this]
        have h3 : idx p X = 0 := by unfold idx; rw [← hp]; simp
        have h4 : idx (update r.st.now r.st.pool).1 X = e.index := by unfold idx; rw [he]
        rw [h1, h2, h3, h4, List.append_nil, owed_end]
      · have h1 : remIdx rem X = remIdx (update r.st.now r.st.pool).2 X := by
          unfold remIdx; rw [hrem, Function.update_of_ne hXY]
        have h3 : idx p X = idx (update r.st.now r.st.pool).1 X := by
          unfold idx; rw [← hp]; simp only [Function.update_of_ne hXY]
        rw [h1, h3]
    · rfl
  | setAstro rps => exact same _ rfl rfl rfl rfl
  | disableAstro => exact same _ rfl rfl rfl rfl
  | touch => exact same _ rfl rfl rfl rfl
  | wait d => exact absurd rfl (hw d)
  | sendLp src dst n =>
    unfold step
    simp only
    split <;> rfl

omit [Fintype I] [DecidableEq I] [DecidableEq U] in
/-- Time only adds to what is owed. -/
theorem wait_owed {X : I} {v : U} {r : Run I U} {x : User I} (h : RunInv X True r)
    (hx : r.st.pool.users v = some x) (d a u : Nat) :
    owed a u (finishedOf (update r.st.now r.st.pool).1 (update r.st.now r.st.pool).2 x.lastClaim X)
      (idx (update r.st.now r.st.pool).1 X) ≤
    owed a u (finishedOf (update (r.st.now + d) r.st.pool).1 (update (r.st.now + d) r.st.pool).2 x.lastClaim X)
      (idx (update (r.st.now + d) r.st.pool).1 X) := by
  obtain ⟨hl, ev, C, hI, hC, hex⟩ := h
  have hE := hex trivial
  have hT : r.st.pool.totalLp ≠ 0 := by
    have h1 := le_sum (amt r.st.pool) v
    have h2 := (hE v x hx).1
    have h3 : amt r.st.pool v = x.amount := by unfold amt; rw [hx]
    have := hI.total
    omega
  have hmono : ∀ i o c c', c ≤ c' → (spread r.st.pool.totalLp i o c).1 ≤ (spread r.st.pool.totalLp i o c').1 := by
    intro i o c c' hc
    unfold spread
    rw [if_neg hT, if_neg hT]
    exact Nat.add_le_add_left (Nat.div_le_div_right (by omega)) _
  have hge : ∀ i o c, i ≤ (spread r.st.pool.totalLp i o c).1 := by
    intro i o c; unfold spread; split <;> simp
  rw [finishedOf_eq, finishedOf_eq, (update_fields _ _).2.2.2.1, (update_fields _ _).2.2.2.1]
  generalize (r.st.pool.fin.filterMap fun y => if x.lastClaim < y.1 then y.2 X else none) = F
  have hrem : ∀ rem : Removed I, ∀ o, rem X = o → remIdx rem X = match o with | none => [] | some y => [y.1] := by
    intro rem o ho; unfold remIdx; rw [ho]; cases o <;> rfl
  have hidx : ∀ q : Pool I U, ∀ o, q.ext X = o → idx q X = match o with | none => 0 | some e => e.index := by
    intro q o ho; unfold idx; rw [ho]; cases o <;> rfl
  have hmon : ∀ t, (∑ s ∈ Finset.Ioc r.st.pool.last t, rateOf r.st.pool X s) ≤
      ∑ s ∈ Finset.Ioc r.st.pool.last (t + d), rateOf r.st.pool X s := by
    intro t
    exact Finset.sum_le_sum_of_subset (Finset.Ioc_subset_Ioc_right (by omega))
  by_cases h1 : r.st.now = r.st.pool.last
  · rw [update_now h1.symm]
    by_cases hd : d = 0
    · subst hd
      rw [Nat.add_zero, update_now h1.symm]
    · rcases update_cases (p := r.st.pool) (now := r.st.now + d) X (by omega) hI.asc hI.next with
        ⟨g1, g2, g3⟩ | ⟨e, he, ⟨rr, n, g1, g2, _⟩ | ⟨g1, g2, _⟩⟩
      · rw [hrem _ _ g3, hidx _ _ g2, hidx _ _ g1]; rfl
      · rw [hrem _ _ g2, hidx _ _ g1, hidx _ _ he]
        exact owed_mono _ _ _ (hge _ _ _)
      · rw [hrem _ _ g2, hidx _ _ g1, hidx _ _ he]
        simp only
        rw [owed_end]
        have : remIdx (noRem : Removed I) X = [] := rfl
        rw [this, List.append_nil]
        exact owed_mono _ _ _ (hge _ _ _)
  · rcases update_cases (p := r.st.pool) (now := r.st.now) X (by omega) hI.asc hI.next with
        ⟨f1, f2, f3⟩ | ⟨e, he, ⟨rr, n, f1, f2, f3, f4, f5, f6⟩ | ⟨f1, f2, f3, f4, f5⟩⟩ <;>
      rcases update_cases (p := r.st.pool) (now := r.st.now + d) X (by omega) hI.asc hI.next with
        ⟨g1, g2, g3⟩ | ⟨e', he', ⟨rr', n', g1, g2, g3, g4, g5, g6⟩ | ⟨g1, g2, g3, g4, g5⟩⟩
    · rw [hrem _ _ g3, hidx _ _ g2, hrem _ _ f3, hidx _ _ f2]
    · rw [f1] at he'; simp at he'
    · rw [f1] at he'; simp at he'
    · rw [he] at g1; simp at g1
    · rw [he] at he'
      have := Option.some.inj he'
      subst this
      rw [hrem _ _ g2, hidx _ _ g1, hrem _ _ f2, hidx _ _ f1]
      exact owed_mono _ _ _ (hmono _ _ _ _ (hmon _))
    · rw [he] at he'
      have := Option.some.inj he'
      subst this
      rw [hrem _ _ g2, hidx _ _ g1, hrem _ _ f2, hidx _ _ f1]
      simp only [List.append_nil]
      rw [owed_end]
      exact owed_mono _ _ _ (hmono _ _ _ _ (hmon _))
    · rw [he] at g1; simp at g1
    · -- ended before, cannot run again by itself
      rw [he] at he'
      have := Option.some.inj he'
      subst this
      exfalso
      rcases g4 with g4 | ⟨q, g4⟩
      · omega
      · have := f5 _ g4
        simp only at this
        omega
    · rw [he] at he'
      have := Option.some.inj he'
      subst this
      rw [hrem _ _ g2, hidx _ _ g1, hrem _ _ f2, hidx _ _ f1]
      simp only
      rw [owed_end, owed_end]
      exact owed_mono _ _ _ (hmono _ _ _ _ (hmon _))

theorem emitted_step (me : U) (r : Run I U) (o : Op I U) (X : I) :
    r.books.emitted X ≤ (step me r o).books.emitted X := by
  cases o with
  | wait d => exact Nat.le_add_right _ _
  | deposit sender staker n => unfold step; simp only; split <;> exact Nat.le_refl _
  | withdraw user n => unfold step; simp only; split <;> exact Nat.le_refl _
  | claim user => unfold step; simp only; split <;> exact Nat.le_refl _
  | incentivize Y amount periods isAstro => unfold step; simp only; split <;> exact Nat.le_refl _
  | removeReward Y bypass => unfold step; simp only; split <;> exact Nat.le_refl _
  | setAstro rps => exact Nat.le_refl _
  | disableAstro => exact Nat.le_refl _
  | touch => exact Nat.le_refl _
  | sendLp src dst n => unfold step; simp only; split <;> exact Nat.le_refl _

/-- Along a clean history that does not concern `v`, what `v` can claim only grows. -/
theorem pending_mono {X : I} {me v : U} : ∀ (ops : List (Op I U)) (r : Run I U), RunInv X True r →
    Clean me r ops → (∀ o ∈ ops, Untouched v o) → ∀ x, r.st.pool.users v = some x →
    (run me r ops).st.pool.users v = some x ∧ ∀ a u,
    owed a u (finishedOf (update r.st.now r.st.pool).1 (update r.st.now r.st.pool).2 x.lastClaim X)
      (idx (update r.st.now r.st.pool).1 X) ≤
    owed a u (finishedOf (update (run me r ops).st.now (run me r ops).st.pool).1
      (update (run me r ops).st.now (run me r ops).st.pool).2 x.lastClaim X)
      (idx (update (run me r ops).st.now (run me r ops).st.pool).1 X)
  | [], _, _, _, _, x, hx => ⟨hx, fun _ _ => Nat.le_refl _⟩
  | o :: os, r, h, hc, hu, x, hx => by
    have hok : match (generalizing := false) o with
        | .deposit _ _ n => n ≠ 0
        | .removeReward _ _ => r.st.pool.last < r.st.now
        | _ => True := by
      have := hc.1
      cases o <;> exact this
    have hs := step_runInv h me o (fun _ => hok)
    have hxs : (step me r o).st.pool.users v = some x := by
      rw [users_untouched (hu o (by simp)), hx]
    obtain ⟨h1, h2⟩ := pending_mono os (step me r o) hs hc.2 (fun o ho => hu o (by simp [ho])) x hxs
    refine ⟨h1, fun a u => Nat.le_trans ?_ (h2 a u)⟩
    by_cases hw : ∃ d, o = .wait d
    · obtain ⟨d, rfl⟩ := hw
      exact wait_owed h hx d a u
    · rw [step_owed h (hu o (by simp)) hx (fun d hd => hw ⟨d, hd⟩) hok]

end Verif.Incentives
