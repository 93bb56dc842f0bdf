import Verif.PCL.Queries

/-!
# Reverse quotes of concentrated pools (C147)

How much has to be offered to receive a given amount.  The code cannot know the fee in advance and uses the largest one.
-/

namespace Verif.PCL

open Verif Verif.Stable

variable {A : Type} [DecidableEq A]

/-! ## Model -/

/-- `compute_offer_amount`, packages/astroport_pcl_common/src/utils.rs:311-350: `k` is the asked asset; the amount to
offer, the spread and the fee. -/
def computeOffer (pp : PParams) (p : Pool) (now : Nat) (xs : Bool → Nat) (k : Bool) (want : Nat) :
    Res (Nat × Nat × Nat) := do
  let s := p.price.scale
  let w ← (if k then dmul want s else .ok want)
  let x1 ← dmul (xs true) s
  let ag ← ampGamma p now
  let d ← calcD ag (xs false) x1
  let om ← csub DEC pp.out
  let inv ← ddiv DEC om
  let before ← dmul w inv
  let fee ← csub before w
  let newAsk ← csub (if k then x1 else xs false) before
  let newY ← calcY ag d newAsk (!k)
  let dy ← csub newY (if k then xs false else x1)
  if k then .ok (dy, dy - before, fee)
  else do
    let a ← ddiv dy s
    let b ← ddiv (dy - before) s
    let c ← ddiv fee s
    .ok (a, b, c)

/-- The three amounts in units of the offered asset, e.g. contracts/pair_concentrated/src/queries.rs:225-229. -/
def offerUnits (su : Setup) (k : Bool) (r : Nat × Nat × Nat) : Res (Nat × Nat × Nat) := do
  let o ← toU128 r.1 (su.prec !k)
  let sp ← toU128 r.2.1 (su.prec !k)
  let c ← toU128 r.2.2 (su.prec !k)
  .ok (o, sp, c)

/-- `query_reverse_simulation`, contracts/pair_concentrated/src/queries.rs:202-230. -/
def reverseSimulation (su : Setup) (me : A) (s : State A) (now : Nat) (k : Bool) (want : Nat) :
    Res (Nat × Nat × Nat) := do
  let w ← withPrec want (su.prec k)
  let xs ← decPools su (fun j => s.bal j me)
  let r ← computeOffer s.params s.pool now xs k w
  offerUnits su k r

/-! ## Specification -/

/-- The amount `w` grossed up by the fee `f` (18 digits): `w / (1 - f)`. -/
def grossUp (w f : Nat) : Nat := w * (10 ^ 18 * 10 ^ 18 / (10 ^ 18 - f)) / 10 ^ 18

/-- `internal` and back: the second asset is counted in units of the first at the price scale. -/
def inScale (p : Pool) (i : Bool) (n : Nat) : Nat := if i then n * p.price.scale / 10 ^ 18 else n

/-- Out of the pool's internal units. -/
def outScale (p : Pool) (i : Bool) (n : Nat) : Nat := if i then n * 10 ^ 18 / p.price.scale else n

/-! ## Proofs -/

theorem grossUp_covers {w f dy rate : Nat} (hf : f < 10 ^ 18) (h : grossUp w f ≤ dy) (hr : rate ≤ f) :
    w ≤ dy - rate * dy / 10 ^ 18 + w / 10 ^ 18 + 3 := by
  unfold grossUp at h
  obtain ⟨om, hom⟩ : ∃ om, om = 10 ^ 18 - f := ⟨_, rfl⟩
  rw [← hom] at h
  have hom0 : 0 < om := by omega
  obtain ⟨v, hv⟩ : ∃ v, v = 10 ^ 18 * 10 ^ 18 / om := ⟨_, rfl⟩
  rw [← hv] at h
  obtain ⟨g, hg⟩ : ∃ g, g = w * v / 10 ^ 18 := ⟨_, rfl⟩
  rw [← hg] at h
  -- what the floors lose
  have h1 : 10 ^ 18 * 10 ^ 18 < om * (v + 1) := by rw [hv]; exact Nat.lt_mul_div_succ _ hom0
  have h2 : w * v < 10 ^ 18 * (g + 1) := by rw [hg]; exact Nat.lt_mul_div_succ _ (by norm_num)
  obtain ⟨q, hq⟩ : ∃ q, q = rate * dy / 10 ^ 18 := ⟨_, rfl⟩
  rw [← hq]
  have h3 : 10 ^ 18 * q ≤ rate * dy := by rw [hq]; exact Nat.mul_div_le _ _
  have h4 : rate * dy ≤ f * dy := Nat.mul_le_mul_right _ hr
  obtain ⟨e, he⟩ : ∃ e, e = w / 10 ^ 18 := ⟨_, rfl⟩
  rw [← he]
  have h5 : w < 10 ^ 18 * (e + 1) := by rw [he]; exact Nat.lt_mul_div_succ _ (by norm_num)
  have hfo : f + om = 10 ^ 18 := by omega
  have hqdy : q ≤ dy := by
    have : 10 ^ 18 * q ≤ 10 ^ 18 * dy := by
      calc 10 ^ 18 * q ≤ f * dy := le_trans h3 h4
        _ ≤ 10 ^ 18 * dy := Nat.mul_le_mul_right _ hf.le
    exact Nat.le_of_mul_le_mul_left this (by norm_num)
  -- om * dy ≤ 10^18 * (dy - q)
  have h6 : om * dy ≤ 10 ^ 18 * (dy - q) := by
    have e1 : f * dy + om * dy = 10 ^ 18 * dy := by rw [← Nat.add_mul, hfo]
    rw [Nat.mul_sub]
    omega
  have h7 : om * g ≤ 10 ^ 18 * (dy - q) := le_trans (Nat.mul_le_mul_left _ h) h6
  -- w * 10^36 < om * v * w + om * w
  have h8 : w * (10 ^ 18 * 10 ^ 18) ≤ om * (w * v) + om * w := by
    calc w * (10 ^ 18 * 10 ^ 18) ≤ w * (om * (v + 1)) := Nat.mul_le_mul_left _ h1.le
      _ = om * (w * v) + om * w := by ring
  have h9 : om * (w * v) ≤ om * (10 ^ 18 * (g + 1)) := Nat.mul_le_mul_left _ h2.le
  have h10 : om * (10 ^ 18 * (g + 1)) = 10 ^ 18 * (om * g) + 10 ^ 18 * om := by ring
  have h11 : om * w ≤ 10 ^ 18 * (10 ^ 18 * (e + 1)) :=
    Nat.mul_le_mul (by omega) h5.le
  have h12 : 10 ^ 18 * (om * g) ≤ 10 ^ 18 * (10 ^ 18 * (dy - q)) := Nat.mul_le_mul_left _ h7
  have h13 : 10 ^ 18 * om ≤ 10 ^ 18 * 10 ^ 18 := Nat.mul_le_mul_left _ (by omega)
  have h14 : (10 ^ 18 * 10 ^ 18) * w ≤ (10 ^ 18 * 10 ^ 18) * (dy - q + e + 2) := by
    calc (10 ^ 18 * 10 ^ 18) * w = w * (10 ^ 18 * 10 ^ 18) := Nat.mul_comm _ _
      _ ≤ 10 ^ 18 * (10 ^ 18 * (dy - q)) + 10 ^ 18 * 10 ^ 18 + 10 ^ 18 * (10 ^ 18 * (e + 1)) := by omega
      _ = (10 ^ 18 * 10 ^ 18) * (dy - q + e + 2) := by ring
  have := Nat.le_of_mul_le_mul_left h14 (by norm_num)
  omega

omit [DecidableEq A] in
/-- **C147 (partial).**  What is quoted: the asked amount (in the pool's internal units) is grossed up by the largest
fee, taken from its reserve, and the offer is what the other reserve must grow by so that the invariant stays the same
(`calcD` and `calcY` solve the pool's equation, see C146), rounded down to units.  The gross amount covers every fee up to
`out_fee`: whoever gets at least the gross amount out of the curve is left with the asked amount, up to three units of
the 18th digit and `10 ^ -18` of the amount.  Missing: that swapping the quoted offer always returns the asked amount, which
is false (`C147_reverse_quote_violated`). -/
theorem C147_reverse_quote_partial (su : Setup) (me : A) (s : State A) (now : Nat) (k : Bool) (want : Nat)
    (o sp c : Nat) (h : reverseSimulation su me s now k want = .ok (o, sp, c)) :
    ∃ (x : Bool → Nat) (ag : AG) (d y w g : Nat),
      (∀ i, x i = inScale s.pool i (s.bal i me * 10 ^ (18 - su.prec i))) ∧
      ampGamma s.pool now = .ok ag ∧ calcD ag (x false) (x true) = .ok d ∧
      w = inScale s.pool k (want * 10 ^ (18 - su.prec k)) ∧ g = grossUp w s.params.out ∧
      g ≤ x k ∧ calcY ag d (x k - g) (!k) = .ok y ∧ x (!k) ≤ y ∧
      o = outScale s.pool (!k) (y - x (!k)) / 10 ^ (18 - su.prec (!k)) ∧
      sp = outScale s.pool (!k) (y - x (!k) - g) / 10 ^ (18 - su.prec (!k)) ∧
      c = outScale s.pool (!k) (g - w) / 10 ^ (18 - su.prec (!k)) ∧
      ∀ dy rate, g ≤ dy → rate ≤ s.params.out → w ≤ dy - rate * dy / 10 ^ 18 + w / 10 ^ 18 + 3 := by
  have hD : DEC = 10 ^ 18 := rfl
  unfold reverseSimulation at h
  rw [bind_ok_iff] at h; obtain ⟨wd, hw, h⟩ := h
  rw [bind_ok_iff] at h; obtain ⟨xs, hxs, h⟩ := h
  rw [bind_ok_iff] at h; obtain ⟨r, hr, h⟩ := h
  rw [withPrec_ok] at hw
  have hx := decPools_ok hxs
  have ew : wd = want * 10 ^ (18 - su.prec k) := hw.2.2.symm
  unfold offerUnits at h
  simp only [bind_ok_iff, toU128_ok, Except.ok.injEq, Prod.mk.injEq] at h
  obtain ⟨o', ⟨_, _, h1⟩, sp', ⟨_, _, h2⟩, c', ⟨_, _, h3⟩, rfl, rfl, rfl⟩ := h
  unfold computeOffer at hr
  extract_lets sc at hr
  rw [bind_ok_iff] at hr; obtain ⟨w, hwi, hr⟩ := hr
  rw [bind_ok_iff] at hr; obtain ⟨x1, hx1, hr⟩ := hr
  rw [bind_ok_iff] at hr; obtain ⟨ag, hag, hr⟩ := hr
  rw [bind_ok_iff] at hr; obtain ⟨d, hd, hr⟩ := hr
  rw [bind_ok_iff] at hr; obtain ⟨om, hom, hr⟩ := hr
  rw [bind_ok_iff] at hr; obtain ⟨inv, hinv, hr⟩ := hr
  rw [bind_ok_iff] at hr; obtain ⟨before, hb, hr⟩ := hr
  rw [bind_ok_iff] at hr; obtain ⟨fee, hfee, hr⟩ := hr
  rw [bind_ok_iff] at hr; obtain ⟨nA, hnA, hr⟩ := hr
  rw [bind_ok_iff] at hr; obtain ⟨y, hy, hr⟩ := hr
  rw [bind_ok_iff] at hr; obtain ⟨dy, hdy, hr⟩ := hr
  rw [csub_ok] at hom hfee hnA hdy
  rw [dmul_ok] at hb hx1
  rw [ddiv_ok] at hinv
  have ewi : w = inScale s.pool k wd := by
    unfold inScale
    cases k
    · simp only [Bool.false_eq_true, if_false, Except.ok.injEq] at hwi ⊢; exact hwi.symm
    · simp only [if_true, dmul_ok] at hwi ⊢; rw [← hD]; exact hwi.2.symm
  have eg : before = grossUp w s.params.out := by
    unfold grossUp
    rw [← hb.2, ← hinv.2.2, ← hom.2, hD]
  have ex1 : x1 = inScale s.pool true (xs true) := by
    unfold inScale; rw [if_pos rfl, ← hD]; exact hx1.2.symm
  have ef : xs false = inScale s.pool false (xs false) := by unfold inScale; simp
  have ek : (if k then x1 else xs false) = inScale s.pool k (xs k) := by
    cases k
    · exact ef
    · exact ex1
  have enk : (if k then xs false else x1) = inScale s.pool (!k) (xs (!k)) := by
    cases k
    · exact ex1
    · exact ef
  rw [ek] at hnA
  rw [enk] at hdy
  have hout : s.params.out < 10 ^ 18 := by
    have := hinv.1
    rw [← hom.2, hD] at this
    rw [hD] at hom
    omega
  refine ⟨fun i => inScale s.pool i (xs i), ag, d, y, w, before, fun i => by simp only [(hx i).2.1], hag, ?_, ?_, eg, hnA.1,
    ?_, hdy.1, ?_, ?_, ?_, ?_⟩
  · simp only [← ef, ← ex1]; exact hd
  · rw [ewi, ew]
  · simp only [hnA.2]; exact hy
  · rw [← h1]; congr 1
    simp only [hdy.2]
    cases k
    · simp only [Bool.false_eq_true, if_false, bind_ok_iff, ddiv_ok, Except.ok.injEq] at hr
      obtain ⟨a, ⟨_, _, ha⟩, b, _, c, _, rfl⟩ := hr
      unfold outScale; rw [if_pos (by rfl), ← hD]; exact ha.symm
    · simp only [if_true, Except.ok.injEq] at hr
      rw [← hr]; unfold outScale; simp
  · rw [← h2]; congr 1
    simp only [hdy.2]
    cases k
    · simp only [Bool.false_eq_true, if_false, bind_ok_iff, ddiv_ok, Except.ok.injEq] at hr
      obtain ⟨a, _, b, ⟨_, _, hb⟩, c, _, rfl⟩ := hr
      unfold outScale; rw [if_pos (by rfl), ← hD]; exact hb.symm
    · simp only [if_true, Except.ok.injEq] at hr
      rw [← hr]; unfold outScale; simp
  · rw [← h3]; congr 1
    rw [hfee.2]
    cases k
    · simp only [Bool.false_eq_true, if_false, bind_ok_iff, ddiv_ok, Except.ok.injEq] at hr
      obtain ⟨a, _, b, _, c, ⟨_, _, hc⟩, rfl⟩ := hr
      unfold outScale; rw [if_pos (by rfl), ← hD]; exact hc.symm
    · simp only [if_true, Except.ok.injEq] at hr
      rw [← hr]; unfold outScale; simp
  · intro dy' rate h4 h5
    exact grossUp_covers hout (eg ▸ h4) h5

/-- **C147 is violated.**  In the pool of the example the reverse quote for 10 units of the second asset is an offer of 22
units, which buys only 9; and the quote for 100000 whole tokens buys one unit less than asked. -/
theorem C147_reverse_quote_violated :
    let s := run demoSetup 0 demo0 demoHistory
    okAnd (reverseSimulation demoSetup 0 s 2000 true 10) (fun q => decide (q.1 = 22)) = true ∧
    okAnd (simulation demoSetup 0 s 2000 false 22 ⟨0, none⟩) (fun r => decide (r.1 = 9)) = true ∧
    okAnd (reverseSimulation demoSetup 0 s 2000 true (10 ^ 11)) (fun q =>
      okAnd (simulation demoSetup 0 s 2000 false q.1 ⟨0, none⟩) (fun r => decide (r.1 = 10 ^ 11 - 1))) = true := by
  decide +kernel

/-- Non-vacuity: quotes for 1000 whole tokens of either asset; the swaps of the quoted offers return a little more. -/
example :
    let s := run demoSetup 0 demo0 demoHistory
    okAnd (reverseSimulation demoSetup 0 s 2000 true (10 ^ 9)) (fun q => decide (q.1 = 2247985645) &&
      okAnd (simulation demoSetup 0 s 2000 false q.1 ⟨0, none⟩) (fun r => decide (r.1 = 1000002916))) = true ∧
    okAnd (reverseSimulation demoSetup 0 s 2000 false (10 ^ 9)) (fun q => decide (q.1 = 449856988) &&
      okAnd (simulation demoSetup 0 s 2000 true q.1 ⟨0, none⟩) (fun r => decide (r.1 = 1000002944))) = true := by
  decide +kernel

end Verif.PCL
