import Verif.Duality.Quotes
import Verif.PCL.Reverse

/-!
# Price queries and reverse quotes of the pair with orders on the Duality orderbook (C144, C147)
-/

namespace Verif.Duality

open Verif
open Verif.Stable (dmul ddiv dadd withPrec toU128)
open Verif.PCL (Pool PParams Setup FeeInfo LP_PREC AG calcD getXcp ampGamma decPools feeShare makerShare
  computeSwap calcLastPrices accumulate computeOffer offerUnits demoSetup)

variable {A : Type} [DecidableEq A]

/-! ## Model -/

/-- `query_reverse_simulation`, contracts/pair_concentrated_duality/src/queries.rs:237-291. -/
def reverseSimulation (su : Setup) (me : A) (s : State A) (now : Nat) (k : Bool) (want : Nat) (e : Env A) :
    Res (Nat × Nat × Nat) := do
  let w ← withPrec want (su.prec k)
  let (pool, xs) ← current su me s now e
  let r ← computeOffer s.pcl.params pool now xs k w
  offerUnits su k r

/-- `query_cumulative_prices`, contracts/pair_concentrated_duality/src/queries.rs:294-345. -/
def cumulativePrices (su : Setup) (me : A) (s : State A) (now : Nat) (e : Env A) : Res (Nat × Nat) := do
  let (pool, xs) ← current su me s now e
  require (¬ (xs false = 0 ∨ xs true = 0)) (.invalid "Pools are empty")
  let price ← calcLastPrices s.pcl.params pool now xs
  let c ← accumulate s.pcl.twap now price
  .ok (c.cum false, c.cum true)

/-- `query_lp_price`, contracts/pair_concentrated_duality/src/queries.rs:348-393. -/
def lpPrice (su : Setup) (me : A) (s : State A) (now : Nat) (e : Env A) : Res Nat := do
  let total ← withPrec s.pcl.supply LP_PREC
  if total ≠ 0 then do
    let (pool, xs) ← current su me s now e
    let x1 ← dmul (xs true) pool.price.scale
    let ag ← ampGamma pool now
    let d ← calcD ag (xs false) x1
    let xcp ← getXcp d pool.price.scale
    ddiv xcp total
  else .ok 0

/-! ## Specification -/

/-- The plain concentrated pool that holds `t` in its own balance. -/
def plain (me : A) (s : State A) (t : Bool → Nat) : PCL.State A :=
  { s.pcl with bal := fun i a => if a = me then t i else s.pcl.bal i a }

/-! ## Theorems -/

omit [DecidableEq A] in
theorem current_quiet {su : Setup} {me : A} {s : State A} {now : Nat} {e : Env A} {os : List Order} {t : Bool → Nat}
    (hos : simAll s.ob.pre s.book s.ob.orders = .ok os) (ht : queryPool me s = .ok t)
    (hq : fetchTrades su s.ob os e.flip = .ok []) :
    current su me s now e = (do let xs ← decPools su t; .ok (s.pcl.pool, xs)) := by
  unfold queryPool at ht
  rw [hos, ok_bind] at ht
  unfold current
  rw [hos, ok_bind, ht, ok_bind]
  cases h : decPools su t with
  | error x => rfl
  | ok xs =>
    rw [ok_bind, hq, ok_bind, ok_bind]
    unfold processQ
    rw [if_pos rfl]

/-- **C147, C144.**  While no fills of its orders are waiting to be accounted for, the reverse quote, the LP value and the
cumulative prices of the pair are those of a plain concentrated pool that holds everything the pair owns (`queryPool`,
see C107) in its own balance.  (Cumulative prices are refused for a pool with an empty side.) -/
theorem C147_orderbook_quotes_as_plain_pool (su : Setup) (me : A) (s : State A) (now : Nat) (e : Env A)
    (os : List Order) (t : Bool → Nat) (hos : simAll s.ob.pre s.book s.ob.orders = .ok os)
    (ht : queryPool me s = .ok t) (hq : fetchTrades su s.ob os e.flip = .ok []) :
    (∀ k want, reverseSimulation su me s now k want e = PCL.reverseSimulation su me (plain me s t) now k want) ∧
    lpPrice su me s now e = PCL.lpPrice su me (plain me s t) now ∧
    (0 < t false → 0 < t true →
      cumulativePrices su me s now e = PCL.cumulativePrices su me (plain me s t) now) := by
  have hc := current_quiet (now := now) hos ht hq
  have hb : (fun i => (plain me s t).bal i me) = t := by funext i; simp [plain]
  refine ⟨fun k want => ?_, ?_, fun h0 h1 => ?_⟩
  · unfold reverseSimulation PCL.reverseSimulation
    rw [hc, hb]
    cases hw : withPrec want (su.prec k) with
    | error x => rfl
    | ok w =>
      rw [ok_bind, ok_bind]
      cases h : decPools su t with
      | error x => rfl
      | ok xs => rfl
  · unfold lpPrice PCL.lpPrice
    rw [hc, hb, show (plain me s t).supply = s.pcl.supply from rfl]
    cases hw : withPrec s.pcl.supply LP_PREC with
    | error x => rfl
    | ok total =>
      rw [ok_bind, ok_bind]
      split
      · cases h : decPools su t with
        | error x => rfl
        | ok xs => rfl
      · rfl
  · unfold cumulativePrices PCL.cumulativePrices
    rw [hc, hb]
    cases h : decPools su t with
    | error x => rfl
    | ok xs =>
      have hx := PCL.decPools_ok h
      have p0 : 0 < 10 ^ (18 - su.prec false) := Nat.pow_pos (by norm_num)
      have p1 : 0 < 10 ^ (18 - su.prec true) := Nat.pow_pos (by norm_num)
      have z0 : xs false ≠ 0 := by rw [(hx false).2.1]; exact Nat.ne_of_gt (Nat.mul_pos h0 p0)
      have z1 : xs true ≠ 0 := by rw [(hx true).2.1]; exact Nat.ne_of_gt (Nat.mul_pos h1 p1)
      have hreq : require (¬ (xs false = 0 ∨ xs true = 0)) (.invalid "Pools are empty") = (.ok () : Res Unit) :=
        (require_ok _ _ _).2 (by simp [z0, z1])
      rw [ok_bind, ok_bind, ok_bind]
      dsimp only
      rw [hreq, ok_bind]
      rfl

/-- **C144.**  The cumulative prices the pair reports in a block are exactly those a swap in this block stores, also when
fills are waiting. -/
theorem C144_orderbook_report_is_what_a_swap_stores (su : Setup) (me : A) (s s' : State A) (now : Nat) (u : A) (i : Bool)
    (n : Nat) (b m : Option Nat) (rc : A) (e : Env A) (o : PCL.SwapOut) (hu : u ≠ me)
    (h : swap su me s now u i n b m rc e = .ok (s', o)) :
    cumulativePrices su me s now e = .ok (s'.pcl.twap.cum false, s'.pcl.twap.cum true) := by
  obtain ⟨bo, bal, bal', os, ts, t', pools, xs, pool, off, fs, old, rr, out, book', c, l1, l2, sp⟩ := swap_spec h
  have hm := move_apply sp.hbo me
  rw [if_neg (fun hh => hu hh.symm), if_pos rfl] at hm
  have hoff := sp.hoff
  rw [Stable.withPrec_ok] at hoff
  obtain ⟨t0, ht0, hp0⟩ := pools_before (bal := s.pcl.bal) (d := fun j => if j = i then n else 0)
    (dd := fun j => if j = i then off else 0) (fun j => by
      rw [set2_apply]
      by_cases hj : j = i
      · subst hj; simp only [if_true]; exact hm
      · simp only [if_neg hj]; rfl) sp.ht sp.hpools (fun j => by
      by_cases hj : j = i
      · subst hj; simp only [if_true]; exact hoff.2.2.symm
      · simp only [if_neg hj, Nat.zero_mul])
  have hx : set2 pools i (pools i - off) = fun j => pools j - (fun j => if j = i then off else 0) j := by
    funext j
    rw [set2_apply]
    by_cases hj : j = i
    · subst hj; simp
    · simp [hj]
  have hset := settle_processQ sp.hsettle
  rw [hx] at hset
  have hreq : require (¬ (xs false = 0 ∨ xs true = 0)) (.invalid "Pools are empty") = (.ok () : Res Unit) := by
    rw [require_ok]
    intro hz
    have hr := sp.hr
    simp only [computeSwap, bind_ok_iff, Stable.dmul_ok] at hr
    obtain ⟨x1, ⟨_, hx1⟩, ag, _, d, hd, _⟩ := hr
    refine calcD_zero ?_ hd
    rcases hz with hz | hz
    · exact Or.inl hz
    · right; rw [← hx1, hz]; simp
  unfold cumulativePrices current
  rw [sp.hrenew.hos, ok_bind, ht0, ok_bind, hp0, ok_bind, sp.hrenew.hts, ok_bind, hset, ok_bind]
  dsimp only
  rw [hreq, ok_bind, sp.hold, ok_bind, sp.htw, ok_bind]

/-- Non-vacuity: in the example pool with a fill waiting, the report in the block of a swap and what the swap stores; and
without one, the reverse quote for a million units. -/
example : okAnd demo (fun s =>
    let y := run demoSetup 0 s demoStart
    let z := run demoSetup 0 s (demoStart ++ [⟨2000, 1, .fill 0 2000000 2100000⟩])
    let e : Env Acct := { quiet with f := ⟨5 * 10 ^ 17, some 3⟩ }
    okAnd (swap demoSetup 0 z 3000 3 false 1000000 none none 3 e) (fun x =>
      okAnd (cumulativePrices demoSetup 0 z 3000 e) (fun c =>
        decide (c = (x.1.pcl.twap.cum false, x.1.pcl.twap.cum true) ∧ z.pcl.twap.cum false < c.1))) &&
    okAnd (simAll y.ob.pre y.book y.ob.orders) (fun os =>
      okAnd (fetchTrades demoSetup y.ob os e.flip) (fun ts => decide (ts = [])) &&
      okAnd (queryPool 0 y) (fun t => decide (0 < t false ∧ 0 < t true ∧ y.pcl.bal false 0 < t false)) &&
      okAnd (reverseSimulation demoSetup 0 y 2000 true 1000000 e) (fun q => decide (1000000 < q.1)))) = true := by
  decide +kernel

end Verif.Duality
