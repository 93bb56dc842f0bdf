import Verif.Inj.Quotes
import Verif.PCL.Reverse

/-!
# Price queries and reverse quotes of the pair with orders on the Injective exchange (C147)
-/

namespace Verif.Inj

open Verif
open Verif.Stable (dmul ddiv dadd withPrec toU128)
open Verif.PCL (Pool Setup LP_PREC AG calcD getXcp ampGamma decPools computeOffer offerUnits demoSetup)

variable {A : Type} [DecidableEq A]

/-! ## Model -/

/-- `query_reverse_simulation`, contracts/pair_concentrated_inj/src/queries.rs:213-249. -/
def reverseSimulation (su : Setup) (me : A) (s : State A) (now : Nat) (k : Bool) (want : Nat) :
    Res (Nat × Nat × Nat) := do
  let w ← withPrec want (su.prec k)
  let xs ← pools su (fun i => s.pcl.bal i me) s.sub
  let r ← computeOffer s.pcl.params s.pcl.pool now xs k w
  offerUnits su k r

/-- `query_lp_price`, contracts/pair_concentrated_inj/src/queries.rs:252-280. -/
def lpPrice (su : Setup) (me : A) (s : State A) (now : Nat) : Res Nat := do
  let total ← withPrec s.pcl.supply LP_PREC
  if total ≠ 0 then do
    let xs ← pools su (fun i => s.pcl.bal i me) s.sub
    let x1 ← dmul (xs true) s.pcl.pool.price.scale
    let ag ← ampGamma s.pcl.pool now
    let d ← calcD ag (xs false) x1
    let xcp ← getXcp d s.pcl.pool.price.scale
    ddiv xcp total
  else .ok 0

/-! ## Specification -/

/-- The plain concentrated pool that holds the coins of the pair and of its subaccount in its own balance. -/
def plain (me : A) (s : State A) : PCL.State A :=
  { s.pcl with bal := fun i a => if a = me then s.pcl.bal i me + s.sub i else s.pcl.bal i a }

/-! ## Theorems -/

/-- **C147.**  The reverse quote and the LP value of the pair are those of a plain concentrated pool that holds everything
the pair owns in its own balance (amounts for which the pool query answers). -/
theorem C147_injective_quotes_as_plain_pool (su : Setup) (me : A) (s : State A) (now : Nat) (a : Nat × Nat)
    (h : queryPool su me s = .ok a) :
    (∀ k want, reverseSimulation su me s now k want = PCL.reverseSimulation su me (plain me s) now k want) ∧
    lpPrice su me s now = PCL.lpPrice su me (plain me s) now := by
  unfold queryPool at h
  rw [bind_ok_iff] at h
  obtain ⟨xs, hxs, _⟩ := h
  have hx := pools_ok hxs
  have hd : decPools su (fun i => (plain me s).bal i me) = .ok xs := by
    have e : (fun i => (plain me s).bal i me) = fun i => s.pcl.bal i me + s.sub i := by funext i; simp [plain]
    rw [e, PCL.decPools_eq (fun i => (hx i).1) (fun i => by rw [← (hx i).2.1]; exact (hx i).2.2)]
    congr 1
    funext i
    exact (hx i).2.1.symm
  refine ⟨fun k want => ?_, ?_⟩
  · unfold reverseSimulation PCL.reverseSimulation
    rw [hxs, hd]
    cases hw : withPrec want (su.prec k) with
    | error x => rfl
    | ok w => rfl
  · unfold lpPrice PCL.lpPrice
    rw [hxs, hd, show (plain me s).supply = s.pcl.supply from rfl]
    cases hw : withPrec s.pcl.supply LP_PREC with
    | error x => rfl
    | ok total => rfl

/-- Non-vacuity: in the example pool, which has coins on the exchange, the pool query answers and so does the reverse
quote for a million units. -/
example : okAnd demo (fun s =>
    let z := run demoSetup 0 s demoStart
    decide (0 < z.sub false) &&
    okAnd (queryPool demoSetup 0 z) (fun t => decide (z.pcl.bal false 0 < t.1)) &&
    okAnd (lpPrice demoSetup 0 z 3000) (fun p => decide (10 ^ 18 ≤ p)) &&
    okAnd (reverseSimulation demoSetup 0 z 3000 true 1000000) (fun q => decide (900000 < q.1))) = true := by
  decide +kernel

end Verif.Inj
