import Verif.PCL.Props

/-!
# C190: a concentrated pool after a gift

Anyone can send a pool coins outside of any message to it.  The concentrated pool works with whatever it holds,
and each of its operations first solves for the invariant of these holdings.  This file shows what follows when
the solver has no answer: trades, deposits and the queries about them stop, for everyone and for as long as the
holdings stay the same; a withdrawal goes through exactly when the solver has an answer for what would remain.
-/

namespace Verif.PCL

open Verif.Stable (dmul ddiv dadd toU128 withPrec absDiff payout)
open Verif.XYK (sendOpt)

variable {A : Type} [DecidableEq A]

/-! ## Specification -/

/-- The invariant for `x0` and `x1` (decimal form) under the price scale and curve parameters at time `now`. -/
def solve (p : Pool) (now : Nat) (x0 x1 : Nat) : Res Nat := do
  let y1 ← dmul x1 p.price.scale
  let ag ← ampGamma p now
  calcD ag x0 y1

/-- The pool has LP tokens but its solver has no answer for what the pool holds at time `now`. -/
def Unsolvable (su : Setup) (me : A) (s : State A) (now : Nat) : Prop :=
  s.supply ≠ 0 ∧ ∀ xs d, decPools su (fun i => s.bal i me) = .ok xs →
    solve s.pool now (xs false) (xs true) ≠ .ok d

/-- Asset `i` in decimal form. -/
def units (su : Setup) (me : A) (s : State A) (i : Bool) : Nat := s.bal i me * 10 ^ (18 - su.prec i)

/-- The part of asset `i` (decimal form) that goes with `n` of the LP tokens: the ratio is rounded down to 18
digits, and one LP unit is kept back. -/
def part (su : Setup) (me : A) (s : State A) (n : Nat) (i : Bool) : Nat :=
  units su me s i * ((n - 1) * DEC / s.supply) / DEC

/-- The value per LP token of `x0` and `x1` (decimal form) shared by `lp` LP tokens. -/
def valueOf (p : Pool) (now lp x0 x1 : Nat) : Res Nat := do
  let d ← solve p now x0 x1
  let xcp ← getXcp d p.price.scale
  let l ← withPrec lp LP_PREC
  ddiv xcp l

/-- The value per LP token of what remains when `n` LP tokens leave with their part of the assets. -/
def restValue (su : Setup) (me : A) (s : State A) (now n : Nat) : Res Nat :=
  valueOf s.pool now (s.supply - n) (units su me s false - part su me s n false)
    (units su me s true - part su me s n true)

/-- Operations that neither withdraw nor change the curve parameters, and transfers that do not involve the
pool. -/
def Quiet (me : A) : Op A → Prop
  | .withdraw .. | .promote .. | .stop .. => False
  | .send _ _ v _ => v ≠ me
  | _ => True

/-! ## Lemmas -/

theorem computeSwap_solves {pp : PParams} {p : Pool} {now : Nat} {xs : Bool → Nat} {i : Bool} {off mk fs : Nat}
    {r : Swapped} (h : computeSwap pp p now xs i off mk fs = .ok r) :
    ∃ d, solve p now (xs false) (xs true) = .ok d := by
  simp only [computeSwap, bind_ok_iff] at h
  obtain ⟨x1, h1, ag, h2, d, h3, _⟩ := h
  exact ⟨d, by simp only [solve, h1, h2, h3, ok_bind]⟩

theorem rawShares_solves {pp : PParams} {p : Pool} {now total : Nat} {xs d : Bool → Nat} {n0 n1 : Nat}
    {r : Nat × Price} (ht : total ≠ 0) (h : rawShares pp p now total xs d n0 n1 = .ok r) :
    ∃ d, solve p now (xs false) (xs true) = .ok d := by
  simp only [rawShares, bind_ok_iff, if_neg ht] at h
  obtain ⟨ag, h2, _, _, x1, h1, d, h3, _⟩ := h
  exact ⟨d, by simp only [solve, h1, h2, h3, ok_bind]⟩

theorem calculateShares_solves {pp : PParams} {p : Pool} {now total : Nat} {xs d : Bool → Nat} {tol : Option Nat}
    {r : Nat × Pool} (ht : total ≠ 0) (h : calculateShares pp p now total xs d tol = .ok r) :
    ∃ d, solve p now (xs false) (xs true) = .ok d := by
  simp only [calculateShares, bind_ok_iff, Prod.exists] at h
  obtain ⟨_, _, n0, _, n1, _, m1, _, sh, pr, hr, _⟩ := h
  exact rawShares_solves ht hr

theorem total_ne {su total : Nat} (h0 : su ≠ 0) (h : withPrec su LP_PREC = .ok total) : total ≠ 0 := by
  simp only [Stable.withPrec_ok, LP_PREC] at h
  obtain ⟨_, _, rfl⟩ := h
  simpa using h0

/-! ## What stops -/

/-- **C190**: while the solver has no answer for what the pool holds, every trade and every deposit fails,
whoever sends it, whatever the amounts, limits and fees, and so do the queries that quote them. -/
theorem C190_unsolvable_stops (su : Setup) (me : A) (s : State A) (now : Nat) (h : Unsolvable su me s now) :
    (∀ fo u i n b m r f s', exec su me now fo s (.swap u i n b m r f) ≠ .ok s') ∧
    (∀ fo u d t m r s', exec su me now fo s (.provide u d t m r) ≠ .ok s') ∧
    (∀ i n f r, simulation su me s now i n f ≠ .ok r) ∧
    (∀ d t r, simulateProvide su me s now d t ≠ .ok r) ∧
    (∀ r, lpPrice su me s now ≠ .ok r) ∧ ∀ r, cumulativePrices su me s now ≠ .ok r := by
  obtain ⟨h0, h⟩ := h
  refine ⟨?_, ?_, ?_, ?_, ?_, ?_⟩
  · intro fo u i n b m r f s' e
    simp only [exec, bind_ok_iff, require_ok, exists_const, Prod.exists, Except.ok.injEq] at e
    obtain ⟨hu, _, _, e, rfl⟩ := e
    obtain ⟨xs, _, _, _, _, _, sp⟩ := swap_spec (by simpa [Op.signer] using hu) e
    obtain ⟨d, hd⟩ := computeSwap_solves sp.hr
    exact h _ _ sp.hxs hd
  · intro fo u d t m r s' e
    simp only [exec, bind_ok_iff, require_ok, exists_const, Prod.exists, Except.ok.injEq] at e
    obtain ⟨hu, _, _, e, rfl⟩ := e
    obtain ⟨_, _, _, _, sp⟩ := provide_spec e
    obtain ⟨d, hd⟩ := calculateShares_solves (total_ne h0 sp.htot) sp.hcs
    exact h _ _ sp.hxs hd
  · intro i n f r e
    simp only [simulation, bind_ok_iff] at e
    obtain ⟨_, _, xs, hxs, _, _, _, _, r, hr, _⟩ := e
    obtain ⟨d, hd⟩ := computeSwap_solves hr
    exact h _ _ hxs hd
  · intro d t r e
    simp only [simulateProvide, bind_ok_iff, Prod.exists] at e
    obtain ⟨_, ht, _, _, xs, hxs, _, _, hcs, _⟩ := e
    obtain ⟨d, hd⟩ := calculateShares_solves (total_ne h0 ht) hcs
    exact h _ _ hxs hd
  · intro r e
    simp only [lpPrice, bind_ok_iff] at e
    obtain ⟨t, ht, e⟩ := e
    rw [if_pos (total_ne h0 ht)] at e
    simp only [bind_ok_iff] at e
    obtain ⟨xs, hxs, x1, h1, ag, h2, d, h3, _⟩ := e
    exact h _ d hxs (by simp only [solve, h1, h2, h3, ok_bind])
  · intro r e
    simp only [cumulativePrices, calcLastPrices, bind_ok_iff] at e
    obtain ⟨xs, hxs, _, ⟨_, _, r, hr, _⟩, _⟩ := e
    obtain ⟨d, hd⟩ := computeSwap_solves hr
    exact h _ _ hxs hd

omit [DecidableEq A] in
/-- The parts of the state the solver looks at. -/
theorem unsolvable_congr {su : Setup} {me : A} {s s' : State A} {t now : Nat}
    (h : Unsolvable su me s t) (hs : s'.supply = s.supply) (hb : ∀ i, s'.bal i me = s.bal i me)
    (hp : s'.pool = s.pool) (h1 : s.pool.futureTime ≤ t) (h2 : t ≤ now) : Unsolvable su me s' now := by
  refine ⟨by rw [hs]; exact h.1, fun xs d hx hd => ?_⟩
  have e : (fun i => s'.bal i me) = fun i => s.bal i me := funext hb
  rw [e] at hx
  refine h.2 xs d hx ?_
  rw [hp] at hd
  unfold solve ampGamma at hd ⊢
  rw [if_neg (by omega)] at hd ⊢
  exact hd

/-- **C190**: nothing but time passes there.  Once the curve parameters have settled, a pool whose solver has no
answer keeps its assets, LP supply and prices, and still has no answer, after any sequence of trades, deposits,
changes of fees and transfers that do not reach the pool, of any senders and at any times. -/
theorem C190_stays_stopped (su : Setup) (me : A) : ∀ (es : List (Event A)) (s : State A) (t : Nat),
    Unsolvable su me s t → s.pool.futureTime ≤ t → Timed t es → (∀ e ∈ es, Quiet me e.op) →
    (∀ i, (run su me s es).bal i me = s.bal i me) ∧ (run su me s es).supply = s.supply ∧
    (run su me s es).pool = s.pool ∧ ∀ now, t ≤ now → (∀ e ∈ es, e.now ≤ now) →
      Unsolvable su me (run su me s es) now
  | [], s, t, h, hf, _, _ =>
    ⟨fun _ => rfl, rfl, rfl, fun _ hn _ => unsolvable_congr h rfl (fun _ => rfl) rfl hf hn⟩
  | e :: es, s, t, h, hf, ht, hq => by
    have hn : Unsolvable su me s e.now := unsolvable_congr h rfl (fun _ => rfl) rfl hf ht.1
    have key : (∀ i, (step su me s e).bal i me = s.bal i me) ∧ (step su me s e).supply = s.supply ∧
        (step su me s e).pool = s.pool := by
      have stop := C190_unsolvable_stops su me s e.now hn
      have q := hq e (List.mem_cons_self ..)
      unfold step
      cases hx : exec su me e.now e.fo s e.op with
      | error _ => exact ⟨fun _ => rfl, rfl, rfl⟩
      | ok s' =>
        show (∀ i, s'.bal i me = s.bal i me) ∧ s'.supply = s.supply ∧ s'.pool = s.pool
        obtain ⟨now, fo, op⟩ := e
        cases op with
        | swap u i n b m r f => exact absurd hx (stop.1 _ _ _ _ _ _ _ _ _)
        | provide u d t m r => exact absurd hx (stop.2.1 _ _ _ _ _ _ _)
        | withdraw u n m => exact q.elim
        | promote u a g t => exact q.elim
        | stop u => exact q.elim
        | update u v =>
          simp only [exec, bind_ok_iff, authorised, require_ok, exists_const, Except.ok.injEq] at hx
          obtain ⟨_, _, _, _, rfl⟩ := hx
          exact ⟨fun _ => rfl, rfl, rfl⟩
        | enableShare u b r =>
          simp only [exec, bind_ok_iff, authorised, require_ok, exists_const, Except.ok.injEq] at hx
          obtain ⟨_, _, _, rfl⟩ := hx
          exact ⟨fun _ => rfl, rfl, rfl⟩
        | disableShare u =>
          simp only [exec, bind_ok_iff, authorised, require_ok, exists_const, Except.ok.injEq] at hx
          obtain ⟨_, _, rfl⟩ := hx
          exact ⟨fun _ => rfl, rfl, rfl⟩
        | send i u v n =>
          simp only [exec, bind_ok_iff, require_ok, exists_const, Except.ok.injEq] at hx
          obtain ⟨hu, b, hb, rfl⟩ := hx
          have hu' : u ≠ me := by simpa [Op.signer] using hu
          have hv : v ≠ me := q
          have e := move_apply hb me
          simp [Ne.symm hu', Ne.symm hv] at e
          refine ⟨fun j => ?_, rfl, rfl⟩
          show (if j = i then b else s.bal j) me = _
          by_cases hj : j = i
          · rw [if_pos hj, hj]; omega
          · rw [if_neg hj]
        | sendLp u v n =>
          simp only [exec, bind_ok_iff, require_ok, exists_const, Except.ok.injEq] at hx
          obtain ⟨_, _, _, rfl⟩ := hx
          exact ⟨fun _ => rfl, rfl, rfl⟩
    have h' : Unsolvable su me (step su me s e) e.now := unsolvable_congr h key.2.1 key.1 key.2.2 hf ht.1
    have ih := C190_stays_stopped su me es (step su me s e) e.now h' (by rw [key.2.2]; exact Nat.le_trans hf ht.1)
      ht.2 (fun x hx => hq x (List.mem_cons_of_mem _ hx))
    refine ⟨fun i => (ih.1 i).trans (key.1 i), ih.2.1.trans key.2.1, ih.2.2.1.trans key.2.2, fun now _ hl => ?_⟩
    exact ih.2.2.2 now (hl e (List.mem_cons_self ..)) (fun x hx => hl x (List.mem_cons_of_mem _ hx))

/-! ## Withdrawals -/

omit [DecidableEq A] in
theorem part_le (su : Setup) (me : A) (s : State A) (n : Nat) (i : Bool) (h : n ≤ s.supply) :
    (n - 1) * DEC / s.supply ≤ DEC ∧ part su me s n i ≤ units su me s i := by
  have hq : (n - 1) * DEC / s.supply ≤ DEC :=
    Nat.div_le_of_le_mul (Nat.mul_le_mul_right _ (by omega))
  refine ⟨hq, ?_⟩
  unfold part
  exact Nat.div_le_of_le_mul (by rw [Nat.mul_comm DEC]; exact Nat.mul_le_mul_left _ hq)

omit [DecidableEq A] in
theorem units_lt {su : Setup} {me : A} {s : State A} {i : Bool} (hb : s.bal i me < U128) :
    units su me s i < U256 := by
  have h1 : 10 ^ (18 - su.prec i) ≤ 10 ^ 18 := Nat.pow_le_pow_right (by decide) (Nat.sub_le _ _)
  have h2 : s.bal i me * 10 ^ (18 - su.prec i) ≤ U128 * 10 ^ 18 := Nat.mul_le_mul (Nat.le_of_lt hb) h1
  have h3 : U128 * 10 ^ 18 < U256 := by decide +kernel
  exact Nat.lt_of_le_of_lt h2 h3

theorem paid {l l' : A → Nat} {me u : A} {n : Nat} (hu : u ≠ me) (h : move l me u n = .ok l') :
    l' u = l u + n := by
  have e := move_apply h u
  simp [hu] at e
  exact e

theorem dec_lt : DEC < U256 := by decide +kernel

omit [DecidableEq A] in
theorem share_eq {su : Setup} {me : A} {s : State A} {i : Bool} {n : Nat} (h0 : s.supply ≠ 0) (hs : n ≤ s.supply)
    (hu : units su me s i < U256) :
    shareInAsset (units su me s i) (n - 1) s.supply = .ok (part su me s n i) := by
  have hl := part_le su me s n i hs
  simp only [shareInAsset, if_pos h0, bind_ok_iff, dec256FromRatio_ok, Stable.dmul_ok]
  exact ⟨_, ⟨h0, Nat.lt_of_le_of_lt hl.1 dec_lt, rfl⟩, Nat.lt_of_le_of_lt hl.2 hu, rfl⟩

omit [DecidableEq A] in
theorem part_bal {su : Setup} {me : A} {s : State A} {i : Bool} {n : Nat} (hs : n ≤ s.supply) :
    part su me s n i / 10 ^ (18 - su.prec i) ≤ s.bal i me := by
  have : part su me s n i / 10 ^ (18 - su.prec i) ≤ units su me s i / 10 ^ (18 - su.prec i) :=
    Nat.div_le_div_right (part_le su me s n i hs).2
  unfold units at this
  rwa [Stable.scale_cancel] at this

theorem valueOf_iff {p : Pool} {now lp x0 x1 v : Nat} : valueOf p now lp x0 x1 = .ok v ↔
    ∃ y ag d xcp rest, dmul x1 p.price.scale = .ok y ∧ ampGamma p now = .ok ag ∧ calcD ag x0 y = .ok d ∧
      getXcp d p.price.scale = .ok xcp ∧ withPrec lp LP_PREC = .ok rest ∧ ddiv xcp rest = .ok v := by
  simp only [valueOf, solve, bind_ok_iff]
  constructor
  · rintro ⟨d, ⟨y, h1, ag, h2, h3⟩, xcp, h4, rest, h5, h6⟩
    exact ⟨y, ag, d, xcp, rest, h1, h2, h3, h4, h5, h6⟩
  · rintro ⟨y, ag, d, xcp, rest, h1, h2, h3, h4, h5, h6⟩
    exact ⟨d, ⟨y, h1, ag, h2, h3⟩, xcp, h4, rest, h5, h6⟩

theorem withdraw_value {su : Setup} {me : A} {s : State A} {now : Nat} {u : A} {n : Nat} {s' : State A}
    {a : Nat × Nat} {xs : Bool → Nat} {r0 r1 : Nat} (sp : WithdrawSpec su me s now u n s' a xs r0 r1) :
    ∃ v, valueOf s.pool now (s.supply - n) (xs false - r0) (xs true - r1) = .ok v := by
  obtain ⟨x1, ag, d, xcp, rest, h1, h2, h3, h4, h5, h6⟩ := sp.hreal
  rw [sp.hsup.2] at h5
  exact ⟨_, valueOf_iff.2 ⟨x1, ag, d, xcp, rest, h1, h2, h3, h4, h5, h6⟩⟩

/-- What a withdrawal that goes through means, in terms of the parts above. -/
theorem withdraw_rest {su : Setup} {me : A} {s : State A} {now : Nat} {u : A} {n : Nat}
    {mins : Option (List (Bool × Nat))} {s' : State A} {a : Nat × Nat} (hu : u ≠ me) (hlp : n ≤ s.lp u)
    {xs r c : Bool → Nat} (hdec : decPools su (fun i => s.bal i me) = .ok xs)
    (hr : ∀ i, shareInAsset (xs i) (n - 1) s.supply = .ok (r i))
    (hto : ∀ i, toU128 (r i) (su.prec i) = .ok (c i))
    (h : withdraw su me s now u n mins = .ok (s', a)) :
    (∃ v, valueOf s.pool now (s.supply - n) (xs false - r false) (xs true - r true) = .ok v) ∧
      s'.lp u = s.lp u - n ∧ s'.supply = s.supply - n ∧ ∀ i, s'.bal i u = s.bal i u + c i := by
  obtain ⟨xs', r0, r1, sp⟩ := withdraw_spec h
  have hx : xs' = xs := Except.ok.inj (sp.hxs.symm.trans hdec)
  subst hx
  have e0 : r0 = r false := Except.ok.inj (sp.hr0.symm.trans (hr false))
  have e1 : r1 = r true := Except.ok.inj (sp.hr1.symm.trans (hr true))
  subst e0 e1
  have a0 := Except.ok.inj (sp.ha0.symm.trans (hto false))
  have a1 := Except.ok.inj (sp.ha1.symm.trans (hto true))
  refine ⟨withdraw_value sp, ?_, sp.hsup.2, ?_⟩
  · have := sp.hlp
    unfold debit at this
    rw [if_pos hlp] at this
    rw [← Except.ok.inj this]
    simp
  · intro i
    cases i
    · rw [← a0]; exact paid hu sp.hb0
    · rw [← a1]; exact paid hu sp.hb1

theorem withdraw_goes {su : Setup} {me : A} {s : State A} {now : Nat} {u : A} {n : Nat} {v : Nat}
    {mins : Option (List (Bool × Nat))} (hn : 0 < n) (hlp : n ≤ s.lp u) (hs : n ≤ s.supply)
    {xs r c : Bool → Nat} (hdec : decPools su (fun i => s.bal i me) = .ok xs) (hle : ∀ i, r i ≤ xs i)
    (hr : ∀ i, shareInAsset (xs i) (n - 1) s.supply = .ok (r i)) (hpl : ∀ i, c i ≤ s.bal i me)
    (hto : ∀ i, toU128 (r i) (su.prec i) = .ok (c i)) (hpay : ∀ i, 0 < c i)
    (h : valueOf s.pool now (s.supply - n) (xs false - r false) (xs true - r true) = .ok v) :
    ∃ x, withdraw su me s now u n mins = .ok x := by
  obtain ⟨x1, ag, d, xcp, rest, h1, h2, h3, h4, h5, h6⟩ := valueOf_iff.1 h
  obtain ⟨b0, hb0⟩ := move_succeeds (b := u) (hpl false)
  obtain ⟨b1, hb1⟩ := move_succeeds (b := u) (hpl true)
  have hd : debit s.lp u n = .ok (Function.update s.lp u (s.lp u - n)) := by
    unfold debit; rw [if_pos hlp]
  have p0 : pay su false (s.bal false) me u (c false) = .ok b0 := by
    simp only [pay, bind_ok_iff, require_ok, exists_const]
    exact ⟨fun h => absurd h.2 (Nat.pos_iff_ne_zero.1 (hpay false)), hb0⟩
  have p1 : pay su true (s.bal true) me u (c true) = .ok b1 := by
    simp only [pay, bind_ok_iff, require_ok, exists_const]
    exact ⟨fun h => absurd h.2 (Nat.pos_iff_ne_zero.1 (hpay true)), hb1⟩
  have c0 : csub (xs false) (r false) = .ok (xs false - r false) := (csub_ok _ _ _).2 ⟨hle false, rfl⟩
  have c1 : csub (xs true) (r true) = .ok (xs true - r true) := (csub_ok _ _ _).2 ⟨hle true, rfl⟩
  have c2 : csub s.supply n = .ok (s.supply - n) := (csub_ok _ _ _).2 ⟨hs, rfl⟩
  have c3 : require (n ≠ 0) (.invalid "invalid coins") = .ok () := (require_ok _ _ _).2 (by omega)
  refine ⟨({ s with bal := fun i => if i then b1 else b0, lp := Function.update s.lp u (s.lp u - n),
                    supply := s.supply - n, pool := { s.pool with price := { s.pool.price with real := v } } },
    (c false, c true)), ?_⟩
  simp only [withdraw, bind_ok_iff]
  exact ⟨(), c3, _, hd, _, hdec, _, hr false, _, hr true, _, c0, _, c1, _, h1, _, h2, _, h3, _, h4, _, c2, _, h5, _,
    h6, _, hto false, _, hto true, _, p0, _, p1, rfl⟩

/-- **C190 (partial: it depends on the solver, which is not proved to have an answer for all holdings)**: a holder
can withdraw `n` of their LP tokens, for at least one unit of each asset, exactly when the value of what remains
can be computed; limits, other holders and the earlier history play no part.  The holder receives their part of
each asset, rounded down to whole units. -/
theorem C190_withdraw_exactly_partial (su : Setup) (me : A) (s : State A) (now : Nat) (fo u : A) (n : Nat)
    (mins : Option (List (Bool × Nat))) (hu : u ≠ me) (hn : 0 < n) (hlp : n ≤ s.lp u) (hs : n ≤ s.supply)
    (hp : ∀ i, su.prec i ≤ 18) (hb : ∀ i, s.bal i me < U128)
    (hpay : ∀ i, 0 < part su me s n i / 10 ^ (18 - su.prec i)) :
    ((∃ s', exec su me now fo s (.withdraw u n mins) = .ok s') ↔ ∃ v, restValue su me s now n = .ok v) ∧
    ∀ s', exec su me now fo s (.withdraw u n mins) = .ok s' →
      s'.lp u = s.lp u - n ∧ s'.supply = s.supply - n ∧
      ∀ i, s'.bal i u = s.bal i u + part su me s n i / 10 ^ (18 - su.prec i) := by
  have hun : ∀ i, units su me s i < U256 := fun i => units_lt (hb i)
  have hdec : decPools su (fun i => s.bal i me) = .ok (units su me s) := decPools_eq hp hun
  have hle := fun i => (part_le su me s n i hs).2
  have hr : ∀ i, shareInAsset (units su me s i) (n - 1) s.supply = .ok (part su me s n i) := fun i =>
    share_eq (by omega) hs (hun i)
  have hpl : ∀ i, part su me s n i / 10 ^ (18 - su.prec i) ≤ s.bal i me := fun i => part_bal hs
  have hto : ∀ i, toU128 (part su me s n i) (su.prec i) = .ok (part su me s n i / 10 ^ (18 - su.prec i)) := fun i =>
    (Stable.toU128_ok _ _ _).2 ⟨hp i, Nat.lt_of_le_of_lt (hpl i) (hb i), rfl⟩
  have ex : ∀ s', exec su me now fo s (.withdraw u n mins) = .ok s' ↔
      ∃ a, withdraw su me s now u n mins = .ok (s', a) := by
    intro s'
    simp only [exec, bind_ok_iff, require_ok, exists_const, Prod.exists, Except.ok.injEq]
    constructor
    · rintro ⟨_, _, a, b, h, rfl⟩
      exact ⟨a, b, h⟩
    · rintro ⟨a, b, h⟩
      exact ⟨by simpa [Op.signer] using hu, s', a, b, h, rfl⟩
  refine ⟨⟨?_, ?_⟩, ?_⟩
  · rintro ⟨s', h⟩
    obtain ⟨a, h⟩ := (ex s').1 h
    exact (withdraw_rest hu hlp hdec hr hto h).1
  · rintro ⟨v, h⟩
    obtain ⟨⟨s', a⟩, hw⟩ := withdraw_goes (mins := mins) hn hlp hs hdec hle hr hpl hto hpay h
    exact ⟨s', (ex s').2 ⟨a, hw⟩⟩
  · intro s' h
    obtain ⟨a, h⟩ := (ex s').1 h
    exact (withdraw_rest hu hlp hdec hr hto h).2

/-! ## The gift -/

/-- A new pool with the parameters used on mainnet for a volatile pair, its first deposit of a million of each
asset (6 digits) at time 2000, made by account 2. -/
def demoRich : State Acct :=
  run demoSetup 0 { demo0 with bal := fun _ a => if a = 0 then 0 else 10 ^ 24 }
    [⟨2000, 1, .provide 2 (fun _ => 10 ^ 12) none none 2⟩]

/-- Account 3 sends the pool `10^23` units of the first asset. -/
def demoGift : State Acct := run demoSetup 0 demoRich [⟨2000, 1, .send false 3 0 (10 ^ 23)⟩]

theorem demoGift_unsolvable : Unsolvable demoSetup 0 demoGift 2000 := by
  have h0 : demoGift.supply ≠ 0 := by decide +kernel
  have h : fails (do
      let xs ← decPools demoSetup (fun i => demoGift.bal i 0)
      solve demoGift.pool 2000 (xs false) (xs true)) = true := by decide +kernel
  refine ⟨h0, fun xs d hx hd => ?_⟩
  rw [fails_iff] at h
  refine h d ?_
  rw [hx, ok_bind]
  exact hd

/-- **C190 is violated**: a plain transfer of coins to a concentrated pool can stop it.  Before the transfer,
trades both ways, deposits and withdrawals work.  After it no trade and no deposit succeeds at any later time,
whoever tries and whatever they ask for, and the holder of the LP tokens can withdraw neither a half nor 99% of
them. -/
theorem C190_gift_stops_pool_violated :
    (okAnd (exec demoSetup 0 2000 1 demoRich (.swap 3 false (10 ^ 9) none none 3 ⟨0, none⟩)) (fun _ => true) = true ∧
     okAnd (exec demoSetup 0 2000 1 demoRich (.swap 3 true (10 ^ 9) none none 3 ⟨0, none⟩)) (fun _ => true) = true ∧
     okAnd (exec demoSetup 0 2000 1 demoRich (.provide 3 (fun _ => 10 ^ 9) none none 3)) (fun _ => true) = true ∧
     okAnd (exec demoSetup 0 2000 1 demoRich (.withdraw 2 (5 * 10 ^ 11) none)) (fun _ => true) = true) ∧
    (okAnd (exec demoSetup 0 2000 1 demoRich (.send false 3 0 (10 ^ 23)))
      (fun s => decide (s.bal false 0 = 10 ^ 12 + 10 ^ 23)) = true) ∧
    (∀ now, 2000 ≤ now →
      (∀ fo u i n b m r f s', exec demoSetup 0 now fo demoGift (.swap u i n b m r f) ≠ .ok s') ∧
      ∀ fo u d t m r s', exec demoSetup 0 now fo demoGift (.provide u d t m r) ≠ .ok s') ∧
    fails (exec demoSetup 0 2000 1 demoGift (.withdraw 2 (5 * 10 ^ 11) none)) = true ∧
    fails (exec demoSetup 0 2000 1 demoGift (.withdraw 2 (99 * 10 ^ 10) none)) = true := by
  refine ⟨⟨by decide +kernel, by decide +kernel, by decide +kernel, by decide +kernel⟩, by decide +kernel, ?_,
    by decide +kernel, by decide +kernel⟩
  intro now hn
  have hf : demoGift.pool.futureTime ≤ 2000 := by decide +kernel
  have := C190_unsolvable_stops demoSetup 0 demoGift now
    (unsolvable_congr demoGift_unsolvable rfl (fun _ => rfl) rfl hf hn)
  exact ⟨this.1, this.2.1⟩

/-- The hypotheses of `C190_stays_stopped`: the pool above and trades, deposits and transfers of others. -/
example :
    let es : List (Event Acct) := [⟨2001, 1, .swap 3 false (10 ^ 9) none none 3 ⟨0, none⟩⟩,
      ⟨2005, 1, .provide 3 (fun _ => 10 ^ 9) none none 3⟩, ⟨2005, 1, .send true 2 3 7⟩]
    Unsolvable demoSetup 0 demoGift 2000 ∧ demoGift.pool.futureTime ≤ 2000 ∧ Timed 2000 es ∧
      ∀ e ∈ es, Quiet 0 e.op := by
  refine ⟨demoGift_unsolvable, by decide +kernel, ⟨by decide, by decide, by decide, trivial⟩, ?_⟩
  intro e he
  simp only [List.mem_cons, List.not_mem_nil, or_false] at he
  rcases he with rfl | rfl | rfl
  · trivial
  · trivial
  · show (3 : Acct) ≠ 0
    decide

/-- The hypotheses of `C190_withdraw_exactly_partial`, and both outcomes: half of the LP tokens can be withdrawn
before the gift, not after it. -/
example :
    (∀ i, demoSetup.prec i ≤ 18) ∧ (∀ i, demoGift.bal i 0 < U128) ∧ 5 * 10 ^ 11 ≤ demoGift.lp 2 ∧
    5 * 10 ^ 11 ≤ demoGift.supply ∧
    (∀ i, 0 < part demoSetup 0 demoGift (5 * 10 ^ 11) i / 10 ^ (18 - demoSetup.prec i)) ∧
    okAnd (restValue demoSetup 0 demoRich 2000 (5 * 10 ^ 11)) (fun v => decide (0 < v)) = true ∧
    fails (restValue demoSetup 0 demoGift 2000 (5 * 10 ^ 11)) = true := by
  decide +kernel

end Verif.PCL
