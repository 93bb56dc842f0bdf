import Verif.Duality.Trades

/-!
# Quotes: C107

The queries of the pair with orderbook integration, against the transactions they announce.
-/

namespace Verif.Duality

open Verif.PCL (Setup FeeInfo Pool SD demoSetup demoParams decPools decPools_ok decPools_eq computeSwap calcD
  beforeSwapCheck)
open Verif.XYK (sendOpt)

variable {A : Type} [DecidableEq A]

/-! ## Trades are processed alike -/

theorem chargeAll_feesAll {su : Setup} {me : A} {c : PCL.State A} {f : FeeInfo A} :
    ∀ {ts : List Trade} {xs xs' : Bool → Nat} {bal bal' : Bool → A → Nat},
      chargeAll su me c f ts xs bal = .ok (xs', bal') → feesAll su c f ts xs = .ok xs' := by
  intro ts
  induction ts with
  | nil =>
    intro xs xs' bal bal' h
    simp only [chargeAll, Except.ok.injEq, Prod.mk.injEq] at h
    rw [← h.1]; rfl
  | cons t ts ih =>
    intro xs xs' bal bal' h
    simp only [chargeAll, charge, bind_ok_iff, Prod.exists, Except.ok.injEq, Prod.mk.injEq] at h
    obtain ⟨_, _, ⟨_, shU, mkU, hf, _, _, _, _, rfl, rfl⟩, h⟩ := h
    simp only [feesAll, bind_ok_iff, Prod.exists]
    exact ⟨_, _, _, hf, ih h⟩

theorem settle_processQ {su : Setup} {me : A} {c : PCL.State A} {now : Nat} {f : FeeInfo A} {ts : List Trade}
    {xs xs' : Bool → Nat} {bal bal' : Bool → A → Nat} {pool : Pool}
    (h : settle su me c now f ts xs bal = .ok (pool, xs', bal')) :
    processQ su c now f ts xs = .ok (pool, xs') := by
  unfold settle at h
  unfold processQ
  split at h
  · rename_i hn
    simp only [Except.ok.injEq, Prod.mk.injEq] at h
    rw [if_pos hn, h.1, h.2.1]
  · rename_i hn
    simp only [process, bind_ok_iff, Prod.exists, Except.ok.injEq, Prod.mk.injEq] at h
    obtain ⟨ys, _, hc, i, base, quote, ht, p, hp, rfl, rfl, _⟩ := h
    rw [if_neg hn, chargeAll_feesAll hc, ok_bind, ht, ok_bind]
    dsimp only
    rw [hp, ok_bind]

/-- An empty reserve has no invariant. -/
theorem calcD_zero {ag : PCL.AG} {x0 x1 d : Nat} (hz : x0 = 0 ∨ x1 = 0) : calcD ag x0 x1 ≠ .ok d := by
  intro h
  have hs : PCL.dsqrt 0 = 0 := by
    unfold PCL.dsqrt
    simp
  have hx : x0 * x1 / DEC = 0 := by rcases hz with rfl | rfl <;> simp
  simp only [calcD, PCL.geoMean, bind_ok_iff, Stable.dmul_ok, Except.ok.injEq, hx] at h
  obtain ⟨_, ⟨_, ⟨_, rfl⟩, rfl⟩, st, ⟨_, rfl⟩, h⟩ := h
  rw [hs] at h
  have hM : PCL.MAX_ITER = Nat.succ 63 := rfl
  rw [hM] at h
  have h1 : ∃ x, PCL.dStep ag.amp ag.gamma x0 x1 (SD.ofDec (PCL.NN * 0 / DEC)) = .ok x := by
    unfold PCL.newtonS at h
    rw [bind_ok_iff] at h
    obtain ⟨x, hx, _⟩ := h
    exact ⟨x, hx⟩
  obtain ⟨x, hx⟩ := h1
  rw [Nat.mul_zero, Nat.zero_div] at hx
  unfold PCL.dStep at hx
  rw [bind_ok_iff] at hx
  obtain ⟨v, hv, _⟩ := hx
  simp only [PCL.fInv, bind_ok_iff] at hv
  obtain ⟨_, _, d2, hd2, _, _, _, _, _, _, _, _, _, _, _, hq, _⟩ := hv
  have e2 : d2.val = 0 := by
    simp only [SD.pow, SD.ofDec, if_true, Except.ok.injEq] at hd2
    rw [← hd2]
  simp only [SD.div, bind_ok_iff, Stable.ddiv_ok] at hq
  obtain ⟨_, ⟨hne, _⟩, _⟩ := hq
  exact hne e2

/-! ## C107 -/

/-- **C107.** The share query, asked in the same block, announces exactly what a withdrawal then pays, including the
fees of trades on the orderbook that have not been processed yet. -/
theorem C107_share_quote_exact (su : Setup) (me : A) (s s' : State A) (now : Nat) (u : A) (n : Nat)
    (mins : Option (List (Bool × Nat))) (e : Env A) (a : Nat × Nat)
    (h : withdraw su me s now u n mins e = .ok (s', a)) : queryShare su me s now n e = .ok a := by
  obtain ⟨bal, bal', os, ts, t', pools, xs, pool, rr, book', c, fin, sp⟩ := withdraw_spec h
  have hset := settle_processQ sp.hsettle
  unfold queryShare current
  rw [sp.hrenew.hos, ok_bind, sp.ht, ok_bind, sp.hpools, ok_bind, sp.hrenew.hts, ok_bind, hset, ok_bind]
  dsimp only
  rw [(sp.hr false).1, ok_bind, (sp.hr true).1, ok_bind, sp.ha0, ok_bind, sp.ha1, ok_bind]

omit [DecidableEq A] in
/-- The reserves without the coins that arrived with the message. -/
theorem pools_before {su : Setup} {me : A} {bal bal1 : Bool → A → Nat} {os : List Order} {t d pools dd : Bool → Nat}
    (hb : ∀ i, bal1 i me = bal i me + d i) (ht : totals (fun i => bal1 i me) os = .ok t)
    (hp : decPools su t = .ok pools) (hd : ∀ i, dd i = d i * 10 ^ (18 - su.prec i)) :
    ∃ t0, totals (fun i => bal i me) os = .ok t0 ∧ decPools su t0 = .ok (fun i => pools i - dd i) := by
  have h1 := totals_ok ht
  have h2 := decPools_ok hp
  refine ⟨_, totals_eq (fun i => ?_), ?_⟩
  · have := h1 i
    rw [hb i] at this
    omega
  · have e : (fun i => pools i - dd i) = fun i => (bal i me + inOrders os i) * 10 ^ (18 - su.prec i) := by
      funext i
      rw [(h2 i).2.1, (h1 i).1, hb i, hd i]
      rw [show bal i me + d i + inOrders os i = bal i me + inOrders os i + d i by omega, Nat.add_mul _ (d i)]
      omega
    rw [e]
    refine decPools_eq (fun i => (h2 i).1) (fun i => ?_)
    refine lt_of_le_of_lt ?_ (h2 i).2.2
    rw [(h2 i).2.1, (h1 i).1, hb i]
    exact Nat.mul_le_mul_right _ (by omega)

/-- **C107.** The deposit simulation announces exactly what the deposit mints. -/
theorem C107_deposit_quote_exact (su : Setup) (me : A) (s s' : State A) (now : Nat) (u : A) (d : Bool → Nat)
    (tol minLp : Option Nat) (rc : A) (e : Env A) (share : Nat) (hu : u ≠ me)
    (h : provide su me s now u d tol minLp rc e = .ok (s', share)) :
    simulateProvide su me s now d tol e = .ok share := by
  obtain ⟨b0, bal, bal', total, os, ts, t', pools, dd, x, xs, pool, pool', shareD, book', c, sp⟩ := provide_spec h
  have hb : ∀ i, b0 i me = s.pcl.bal i me + d i := by
    intro i
    have := move_apply (sp.hb0 i) me
    rw [if_neg (fun hh => hu hh.symm), if_pos rfl] at this
    exact this
  obtain ⟨t0, ht0, hp0⟩ := pools_before hb sp.ht sp.hpools (fun i => (decPools_ok sp.hdd i).2.1)
  have hx : x = fun i => pools i - dd i := by funext i; exact (sp.hx i).2
  have hset := settle_processQ sp.hsettle
  rw [hx] at hset
  unfold simulateProvide current
  rw [sp.htot, ok_bind, sp.hrenew.hos, ok_bind, ht0, ok_bind, hp0, ok_bind, sp.hrenew.hts, ok_bind, hset, ok_bind]
  dsimp only
  rw [sp.hdd, ok_bind, sp.hcs, ok_bind]
  exact sp.hshare

/-- **C107.** The swap simulation announces exactly what the swap then pays, and its spread and commission. -/
theorem C107_swap_quote_exact (su : Setup) (me : A) (s s' : State A) (now : Nat) (u : A) (i : Bool) (n : Nat)
    (b m : Option Nat) (rc : A) (e : Env A) (o : PCL.SwapOut) (hu : u ≠ me)
    (h : swap su me s now u i n b m rc e = .ok (s', o)) :
    simulation su me s now i n e = .ok (o.ret, o.spread, o.commission) := by
  obtain ⟨bo, bal, bal', os, ts, t', pools, xs, pool, off, fs, old, rr, out, book', c, l1, l2, sp⟩ := swap_spec h
  have hm := move_apply sp.hbo me
  rw [if_neg (fun hh => hu hh.symm), if_pos rfl] at hm
  have hoff := sp.hoff
  rw [Stable.withPrec_ok] at hoff
  obtain ⟨t0, ht0, hp0⟩ := pools_before (bal := s.pcl.bal) (d := fun j => if j = i then n else 0)
    (dd := fun j => if j = i then off else 0) (fun j => by
      rw [set2_apply]
      by_cases hj : j = i
      · subst hj; simp only [if_true]; exact hm
      · simp only [if_neg hj]; rfl) sp.ht sp.hpools (fun j => by
      by_cases hj : j = i
      · subst hj; simp only [if_true]; exact hoff.2.2.symm
      · simp only [if_neg hj, Nat.zero_mul])
  have hx : set2 pools i (pools i - off) = fun j => pools j - (fun j => if j = i then off else 0) j := by
    funext j
    rw [set2_apply]
    by_cases hj : j = i
    · subst hj; simp
    · simp [hj]
  have hset := settle_processQ sp.hsettle
  rw [hx] at hset
  have hchk : beforeSwapCheck xs off = .ok () := by
    have h1 := sp.hchk
    simp only [beforeSwapCheck, bind_ok_iff, require_ok, exists_const] at h1 ⊢
    refine ⟨h1.1, ?_⟩
    intro hz
    have hr := sp.hr
    simp only [computeSwap, bind_ok_iff, Stable.dmul_ok] at hr
    obtain ⟨x1, ⟨_, hx1⟩, ag, _, d, hd, _⟩ := hr
    refine calcD_zero ?_ hd
    rcases hz with hz | hz
    · exact Or.inl hz
    · right; rw [← hx1, hz]; simp
  unfold simulation current
  rw [sp.hoff, ok_bind, sp.hrenew.hos, ok_bind, ht0, ok_bind, hp0, ok_bind, sp.hrenew.hts, ok_bind, hset, ok_bind]
  dsimp only
  rw [hchk, ok_bind, sp.hfs, ok_bind, sp.hr, ok_bind, sp.hret, ok_bind, sp.hspr, ok_bind, sp.hcm, ok_bind]

/-- **C107.** The pool query reports everything the pair owns, in its balance and on the orderbook. -/
theorem C107_pool_query_complete (su : Setup) (me : A) (s : State A) (t : Bool → Nat) (hr : Reachable su me s)
    (h : queryPool me s = .ok t) : ∀ i, t i = held me s i := by
  simp only [queryPool, bind_ok_iff] at h
  obtain ⟨os, hos, ht⟩ := h
  have hk : Known s := by
    rcases hr.inv.know with h | ⟨k, hk, hn⟩
    · exact h
    · exact absurd hn (simAll_found hos k hk)
  unfold Known at hk
  rw [hk] at hos
  have e := simAll_all hr.inv.nodup hos
  intro i
  rw [(totals_ok ht i).1, e]
  simp [held, inOrders, onBook, List.map_map, Function.comp_def]

/-- Non-vacuity: with a pending trade of two million units, the quotes of a swap, a withdrawal and a deposit, and the
transactions themselves. -/
example : okAnd demo (fun s =>
    let z := run demoSetup 0 s (demoStart ++ [⟨2000, 1, .fill 0 2000000 2100000⟩])
    let e : Env Acct := { quiet with f := ⟨5 * 10 ^ 17, some 3⟩ }
    okAnd (swap demoSetup 0 z 2000 3 false 1000000 none none 3 e) (fun x =>
      okAnd (simulation demoSetup 0 z 2000 false 1000000 e) (fun y => decide (y.1 = x.2.ret ∧ 0 < y.1))) &&
    okAnd (withdraw demoSetup 0 z 2000 2 500000000 none e) (fun x =>
      okAnd (queryShare demoSetup 0 z 2000 500000000 e) (fun y => decide (y = x.2 ∧ 0 < y.1))) &&
    okAnd (provide demoSetup 0 z 2000 2 (fun _ => 1000000) none none 2 e) (fun x =>
      okAnd (simulateProvide demoSetup 0 z 2000 (fun _ => 1000000) none e) (fun y => decide (y = x.2 ∧ 0 < y))) &&
    okAnd (queryPool 0 z) (fun t => decide (t false = 998000000 ∧ t true = 1002100000))) = true := by
  decide +kernel

end Verif.Duality
