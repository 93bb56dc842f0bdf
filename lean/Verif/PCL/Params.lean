import Verif.PCL.Lemmas
import Mathlib.Tactic.Linarith
import Mathlib.Tactic.Ring
import Mathlib.Tactic.NormNum

/-!
# C49, C50, C51: parameters, the amp/gamma ramp and the dynamic fee of the concentrated pool
-/

namespace Verif.PCL

open Verif.Stable (dmul ddiv dadd toU128 withPrec absDiff payout)

variable {A : Type} [DecidableEq A]

/-! ## Specification -/

/-- The documented ranges (atomics, 18 digits): fees 0.005% to 1%, fee gamma 0 to 1, repeg threshold 0 to 0.01,
price scale step 0 to 1, half time 1 second to 7 days. -/
structure InRange (p : PParams) : Prop where
  mid : 5 * 10 ^ 13 ≤ p.mid ∧ p.mid ≤ 10 ^ 16
  out : 5 * 10 ^ 13 ≤ p.out ∧ p.out ≤ 10 ^ 16
  feeGamma : p.feeGamma ≤ 10 ^ 18
  repeg : p.repeg ≤ 10 ^ 16
  delta : p.delta ≤ 10 ^ 18
  maHalf : 1 ≤ p.maHalf ∧ p.maHalf ≤ 7 * 86400

/-- The documented ranges: amp 0.1 to 100000, gamma 0.00000001 to 0.02. -/
structure InAG (a : AG) : Prop where
  amp : 10 ^ 17 ≤ a.amp ∧ a.amp ≤ 10 ^ 23
  gamma : 10 ^ 10 ≤ a.gamma ∧ a.gamma ≤ 2 * 10 ^ 16

/-- Last block time of a history. -/
def lastTime (t : Nat) : List (Event A) → Nat
  | [] => t
  | e :: es => lastTime e.now es

/-! ## C49 -/

theorem setParam_ok {old lo hi v : Nat} {new : Option Nat} (h : setParam old new lo hi = .ok v) :
    (new = none ∧ v = old) ∨ (new = some v ∧ lo ≤ v ∧ v ≤ hi) := by
  unfold setParam at h
  cases new with
  | none => left; simp at h; exact ⟨rfl, h.symm⟩
  | some w =>
    right
    simp only [validateParam, bind_ok_iff, require_ok, exists_const, Except.ok.injEq] at h
    obtain ⟨⟨h1, h2⟩, rfl⟩ := h
    exact ⟨rfl, h1, h2⟩

theorem setOut_ok {mid old v : Nat} {new : Option Nat} (h : setOut mid old new = .ok v) :
    (new = none ∧ v = old) ∨ (new = some v ∧ MIN_FEE ≤ v ∧ v ≤ MAX_FEE ∧ mid < v) := by
  unfold setOut at h
  cases new with
  | none => left; simp at h; exact ⟨rfl, h.symm⟩
  | some w =>
    right
    simp only [validateParam, bind_ok_iff, require_ok, exists_const, Except.ok.injEq] at h
    obtain ⟨⟨h1, h2⟩, h3, rfl⟩ := h
    exact ⟨rfl, h1, h2, by omega⟩

/-- An accepted update: each given value is stored and within its limits, the others stay. -/
theorem updateParams_ok {p q : PParams} {u : UpdateParams} (h : updateParams p u = .ok q) :
    ((u.mid = none ∧ q.mid = p.mid) ∨ (u.mid = some q.mid ∧ MIN_FEE ≤ q.mid ∧ q.mid ≤ MAX_FEE)) ∧
    ((u.out = none ∧ q.out = p.out) ∨ (u.out = some q.out ∧ MIN_FEE ≤ q.out ∧ q.out ≤ MAX_FEE ∧ q.mid < q.out)) ∧
    ((u.feeGamma = none ∧ q.feeGamma = p.feeGamma) ∨ (u.feeGamma = some q.feeGamma ∧ q.feeGamma ≤ FEE_GAMMA_MAX)) ∧
    ((u.repeg = none ∧ q.repeg = p.repeg) ∨ (u.repeg = some q.repeg ∧ q.repeg ≤ REPEG_MAX)) ∧
    ((u.delta = none ∧ q.delta = p.delta) ∨ (u.delta = some q.delta ∧ q.delta ≤ DELTA_MAX)) ∧
    ((u.maHalf = none ∧ q.maHalf = p.maHalf) ∨ (u.maHalf = some q.maHalf ∧ MA_MIN ≤ q.maHalf ∧ q.maHalf ≤ MA_MAX)) := by
  simp only [updateParams, bind_ok_iff, Except.ok.injEq] at h
  obtain ⟨_, h1, _, h2, _, h3, _, h4, _, h5, _, h6, rfl⟩ := h
  refine ⟨setParam_ok h1, setOut_ok h2, ?_, ?_, ?_, setParam_ok h6⟩
  · exact (setParam_ok h3).imp id (fun h => ⟨h.1, h.2.2⟩)
  · exact (setParam_ok h4).imp id (fun h => ⟨h.1, h.2.2⟩)
  · exact (setParam_ok h5).imp id (fun h => ⟨h.1, h.2.2⟩)

theorem InRange_update {p q : PParams} {u : UpdateParams} (hp : InRange p) (h : updateParams p u = .ok q) :
    InRange q := by
  have e1 : MIN_FEE = 5 * 10 ^ 13 := rfl
  have e2 : MAX_FEE = 10 ^ 16 := rfl
  have e3 : FEE_GAMMA_MAX = 10 ^ 18 := rfl
  have e4 : REPEG_MAX = 10 ^ 16 := rfl
  have e5 : DELTA_MAX = 10 ^ 18 := rfl
  have e6 : MA_MIN = 1 := rfl
  have e7 : MA_MAX = 604800 := rfl
  obtain ⟨h1, h2, h3, h4, h5, h6⟩ := updateParams_ok h
  obtain ⟨a1, a2, a3, a4, a5, a6⟩ := hp
  refine ⟨?_, ?_, ?_, ?_, ?_, ?_⟩
  all_goals omega

theorem create_params {bal : Bool → A → Nat} {u : PParams} {amp gamma scale now : Nat} {s : State A}
    (h : create bal u amp gamma scale now = .ok s) :
    InRange s.params ∧ s.params.mid < s.params.out ∧ s.params = u := by
  simp only [create, bind_ok_iff, require_ok, exists_const, Except.ok.injEq] at h
  obtain ⟨_, p, hp, ag, _, rfl⟩ := h
  have e1 : MIN_FEE = 5 * 10 ^ 13 := rfl
  have e2 : MAX_FEE = 10 ^ 16 := rfl
  have e3 : FEE_GAMMA_MAX = 10 ^ 18 := rfl
  have e4 : REPEG_MAX = 10 ^ 16 := rfl
  have e5 : DELTA_MAX = 10 ^ 18 := rfl
  have e6 : MA_MIN = 1 := rfl
  have e7 : MA_MAX = 604800 := rfl
  obtain ⟨h1, h2, h3, h4, h5, h6⟩ := updateParams_ok hp
  simp only [reduceCtorEq, false_and, false_or, Option.some.injEq] at h1 h2 h3 h4 h5 h6
  refine ⟨⟨?_, ?_, ?_, ?_, ?_, ?_⟩, h2.2.2.2, ?_⟩
  all_goals dsimp only
  · omega
  · omega
  · omega
  · omega
  · omega
  · omega
  · obtain ⟨a1, a2, a3, a4, a5, a6⟩ := u
    obtain ⟨b1, b2, b3, b4, b5, b6⟩ := p
    simp_all

theorem params_step {su : Setup} {me : A} {s : State A} {e : Event A} :
    (step su me s e).params = s.params ∨
      ∃ u v, e.op = .update u v ∧ updateParams s.params v = .ok (step su me s e).params := by
  unfold step
  cases hx : exec su me e.now e.fo s e.op with
  | error _ => exact Or.inl rfl
  | ok s' =>
    rcases exec_cases hx with ⟨h, _⟩ | ⟨u, v, h1, _, h2, _⟩ | ⟨_, _, _, _, _, _, _, h⟩ | ⟨_, _, _, _, h⟩
    · exact Or.inl h
    · exact Or.inr ⟨u, v, h1, h2⟩
    · exact Or.inl h
    · exact Or.inl h

/-- **C49 (partial).** Through every history of transactions by anybody, all pool parameters stay inside their
documented ranges.  Missing: that `out_fee` stays above `mid_fee`, which fails when the owner raises `mid_fee`
alone (`C49_mid_fee_above_out_fee_violated`); see `C49_out_above_mid_partial`. -/
theorem C49_ranges_partial (su : Setup) (me : A) (bal : Bool → A → Nat) (u : PParams)
    (amp gamma scale t0 : Nat) (s : State A) (hc : create bal u amp gamma scale t0 = .ok s)
    (es : List (Event A)) : InRange (run su me s es).params := by
  have h0 := (create_params hc).1
  clear hc
  induction es generalizing s with
  | nil => exact h0
  | cons e es ih =>
    apply ih (step su me s e)
    rcases params_step (su := su) (me := me) (s := s) (e := e) with h | ⟨_, v, _, h⟩
    · rw [h]; exact h0
    · exact InRange_update h0 h

/-- **C49 (partial).** `out_fee` stays above `mid_fee` through every history in which updates of `mid_fee` also
give `out_fee`.  Missing: updates of `mid_fee` alone. -/
theorem C49_out_above_mid_partial (su : Setup) (me : A) (bal : Bool → A → Nat) (u : PParams)
    (amp gamma scale t0 : Nat) (s : State A) (hc : create bal u amp gamma scale t0 = .ok s)
    (es : List (Event A))
    (hes : ∀ e ∈ es, ∀ a v, e.op = .update a v → v.mid ≠ none → v.out ≠ none) :
    (run su me s es).params.mid < (run su me s es).params.out := by
  have h0 := (create_params hc).2.1
  clear hc
  induction es generalizing s with
  | nil => exact h0
  | cons e es ih =>
    apply ih (step su me s e) (fun e' h' => hes e' (List.mem_cons_of_mem _ h'))
    rcases params_step (su := su) (me := me) (s := s) (e := e) with h | ⟨a, v, hop, h⟩
    · rw [h]; exact h0
    · obtain ⟨h1, h2, _⟩ := updateParams_ok h
      rcases h2 with ⟨h2, h3⟩ | ⟨_, _, _, h2⟩
      · rcases h1 with ⟨_, h1⟩ | ⟨h1, _⟩
        · omega
        · exact absurd h2 (hes e (List.mem_cons_self ..) a v hop (by rw [h1]; simp))
      · exact h2

/-- Only the owner changes the parameters. -/
theorem C49_only_owner_updates (su : Setup) (me : A) (now : Nat) (fo : A) (s s' : State A) (o : Op A)
    (h : exec su me now fo s o = .ok s') (hne : s'.params ≠ s.params ∨ s'.pool.ramp ≠ s.pool.ramp) :
    o.signer = s.owner.getD fo := by
  rcases exec_cases h with ⟨h1, h2⟩ | ⟨u, v, rfl, h1, _, _⟩ | ⟨u, _, _, _, rfl, h1, _, _⟩ | ⟨u, rfl, h1, _, _⟩
  · rcases hne with h | h
    · exact absurd h1 h
    · exact absurd h2 h
  · exact h1
  · exact h1
  · exact h1

/-- How a transaction can change the fee share and the owner. -/
theorem exec_share {su : Setup} {me : A} {now : Nat} {fo : A} {s s' : State A} {o : Op A}
    (h : exec su me now fo s o = .ok s') :
    s'.owner = s.owner ∧ (s'.share = s.share ∨
      (∃ u bps r, o = .enableShare u bps r ∧ u = s.owner.getD fo ∧ 0 < bps ∧ bps ≤ 1000 ∧ s'.share = some (bps, r)) ∨
      ∃ u, o = .disableShare u ∧ u = s.owner.getD fo ∧ s'.share = none) := by
  unfold exec at h
  simp only [bind_ok_iff, require_ok, exists_const] at h
  obtain ⟨hsig, h⟩ := h
  cases o with
  | provide u d t m r =>
    simp only [bind_ok_iff, Prod.exists, Except.ok.injEq] at h
    obtain ⟨_, _, h, rfl⟩ := h
    obtain ⟨_, _, _, _, sp⟩ := provide_spec h
    exact ⟨sp.hrest.2.1, Or.inl sp.hrest.2.2⟩
  | withdraw u n m =>
    simp only [bind_ok_iff, Prod.exists, Except.ok.injEq] at h
    obtain ⟨_, _, _, h, rfl⟩ := h
    obtain ⟨_, _, _, sp⟩ := withdraw_spec h
    exact ⟨sp.hrest.2.1, Or.inl sp.hrest.2.2.1⟩
  | swap u i n b m r f =>
    simp only [bind_ok_iff, Prod.exists, Except.ok.injEq] at h
    obtain ⟨_, _, h, rfl⟩ := h
    obtain ⟨_, _, _, _, _, _, sp⟩ := swap_spec (by simpa [Op.signer] using hsig) h
    exact ⟨sp.hrest.2.1, Or.inl sp.hrest.2.2.1⟩
  | enableShare u bps r =>
    simp only [bind_ok_iff, authorised, require_ok, exists_const, Except.ok.injEq] at h
    obtain ⟨hu, hb, rfl⟩ := h
    rw [not_or] at hb
    have e : MAX_FEE_SHARE_BPS = 1000 := rfl
    exact ⟨rfl, Or.inr (Or.inl ⟨u, bps, r, rfl, hu, by omega, by omega, rfl⟩)⟩
  | disableShare u =>
    simp only [bind_ok_iff, authorised, require_ok, exists_const, Except.ok.injEq] at h
    obtain ⟨hu, rfl⟩ := h
    exact ⟨rfl, Or.inr (Or.inr ⟨u, rfl, hu, rfl⟩)⟩
  | update u v =>
    simp only [bind_ok_iff, Except.ok.injEq] at h
    obtain ⟨_, _, _, _, rfl⟩ := h
    exact ⟨rfl, Or.inl rfl⟩
  | promote u a g t =>
    simp only [bind_ok_iff, Except.ok.injEq] at h
    obtain ⟨_, _, _, _, rfl⟩ := h
    exact ⟨rfl, Or.inl rfl⟩
  | stop u =>
    simp only [bind_ok_iff, Except.ok.injEq] at h
    obtain ⟨_, _, _, _, rfl⟩ := h
    exact ⟨rfl, Or.inl rfl⟩
  | send i u v n =>
    simp only [bind_ok_iff, Except.ok.injEq] at h
    obtain ⟨_, _, rfl⟩ := h
    exact ⟨rfl, Or.inl rfl⟩
  | sendLp u v n =>
    simp only [bind_ok_iff, Except.ok.injEq] at h
    obtain ⟨_, _, rfl⟩ := h
    exact ⟨rfl, Or.inl rfl⟩

/-- **C49, fee sharing.**  Only the owner sets, changes or ends the fee share, no other transaction touches it. -/
theorem C49_only_owner_shares_fees (su : Setup) (me : A) (now : Nat) (fo : A) (s s' : State A) (o : Op A)
    (h : exec su me now fo s o = .ok s') (hne : s'.share ≠ s.share) : o.signer = s.owner.getD fo := by
  obtain ⟨_, h | ⟨u, bps, r, rfl, hu, _⟩ | ⟨u, rfl, hu, _⟩⟩ := exec_share h
  · exact absurd h hne
  · exact hu
  · exact hu

/-- **C49, fee sharing.**  Through every history the share of the fees that goes to the fee share address is between one
basis point and 10%. -/
theorem C49_fee_share_range (su : Setup) (me : A) (s : State A) (h0 : s.share = none) (es : List (Event A)) (bps : Nat) (r : A)
    (h : (run su me s es).share = some (bps, r)) : 0 < bps ∧ bps ≤ 1000 := by
  have key : ∀ (es : List (Event A)) (s : State A), (∀ b r, s.share = some (b, r) → 0 < b ∧ b ≤ 1000) →
      ∀ b r, (run su me s es).share = some (b, r) → 0 < b ∧ b ≤ 1000 := by
    intro es
    induction es with
    | nil => intro s h; exact h
    | cons e es ih =>
      intro s h
      apply ih (step su me s e)
      intro b r hb
      unfold step at hb
      cases hx : exec su me e.now e.fo s e.op with
      | error _ => rw [hx] at hb; exact h b r hb
      | ok s' =>
        rw [hx] at hb
        simp only [commit'] at hb
        obtain ⟨_, h1 | ⟨u, b', r', _, _, h2, h3, h1⟩ | ⟨u, _, _, h1⟩⟩ := exec_share hx
        · rw [h1] at hb; exact h b r hb
        · rw [h1] at hb
          obtain ⟨rfl, rfl⟩ : b' = b ∧ r' = r := by simpa using hb
          exact ⟨h2, h3⟩
        · rw [h1] at hb; simp at hb
  exact key es s (by rw [h0]; simp) bps r h

/-- Accounts of the examples: the pair is 0, the owner 1. -/
abbrev Acct := Fin 4

/-- Two native tokens with 6 digits. -/
def demoSetup : Setup := ⟨fun _ => 6, fun _ => true⟩

/-- The parameters used on mainnet for a volatile pair. -/
def demoParams : PParams :=
  { mid := 26 * 10 ^ 14, out := 45 * 10 ^ 14, feeGamma := 23 * 10 ^ 13, repeg := 2 * 10 ^ 12,
    delta := 146 * 10 ^ 12, maHalf := 600 }

/-- A pool just created at time 1000 with amp 40 and gamma 0.000145. -/
def demo0 : State Acct :=
  { params := demoParams,
    pool := { initial := ⟨0, 0⟩, future := ⟨40 * 10 ^ 18, 145 * 10 ^ 12⟩, futureTime := 1000, initialTime := 0,
              price := { oracle := 10 ^ 18, last := 10 ^ 18, scale := 10 ^ 18, lastUpdate := 1000, profit := 0,
                         real := 0 } },
    twap := { cum := fun _ => 0, last := 1000 }, owner := some 1, share := none,
    bal := fun _ a => if a = 0 then 0 else 10 ^ 15, lp := fun _ => 0, supply := 0 }

/-- **C49 is violated**: the owner of a pool with `mid_fee` 0.26% and `out_fee` 0.45% can set `mid_fee` alone to
1%; the pool then charges more when balanced than when imbalanced. -/
theorem C49_mid_fee_above_out_fee_violated :
    okAnd (create (A := Acct) demo0.bal demoParams (40 * 10 ^ 18) (145 * 10 ^ 12) (10 ^ 18) 1000)
      (fun s => decide (s.params = demoParams)) = true ∧
    okAnd (exec demoSetup 0 2000 2 demo0 (.update 1 { mid := some (10 ^ 16) }))
      (fun s => decide (s.params.out < s.params.mid)) = true := by decide +kernel

/-- Non-vacuity: the owner sets a fee share of 5%, a stranger cannot, and 11% is refused. -/
example :
    okAnd (exec demoSetup 0 2000 2 demo0 (.enableShare 1 500 3)) (fun s => decide (s.share = some (500, 3))) = true ∧
    fails (exec demoSetup 0 2000 2 demo0 (.enableShare 2 500 3)) = true ∧
    fails (exec demoSetup 0 2000 2 demo0 (.enableShare 1 1100 3)) = true := by decide +kernel

/-- Non-vacuity: a combined update is accepted, one out of range or by a stranger is refused. -/
example :
    okAnd (exec demoSetup 0 2000 2 demo0 (.update 1 { mid := some (10 ^ 15), out := some (2 * 10 ^ 15) }))
      (fun s => decide (s.params.mid = 10 ^ 15)) = true ∧
    fails (exec demoSetup 0 2000 2 demo0 (.update 1 { out := some (10 ^ 15) })) = true ∧
    fails (exec demoSetup 0 2000 2 demo0 (.update 1 { maHalf := some 0 })) = true ∧
    fails (exec demoSetup 0 2000 2 demo0 (.update 2 { feeGamma := some 0 })) = true := by decide +kernel

/-! ## C50 -/

theorem newAG_ok {amp gamma : Nat} {a : AG} (h : newAG amp gamma = .ok a) : a = ⟨amp, gamma⟩ ∧ InAG a := by
  simp only [newAG, validateParam, bind_ok_iff, require_ok, exists_const, Except.ok.injEq] at h
  obtain ⟨h1, h2, rfl⟩ := h
  have e1 : AMP_MIN = 10 ^ 17 := rfl
  have e2 : AMP_MAX = 99999999999999991611392 := rfl
  have e3 : GAMMA_MIN = 10 ^ 10 := rfl
  have e4 : GAMMA_MAX = 2 * 10 ^ 16 := rfl
  refine ⟨rfl, ⟨by dsimp only; omega, by dsimp only; omega⟩, by dsimp only; omega, by dsimp only; omega⟩

theorem lerp_ok {a0 a1 left passed total v : Nat} :
    lerp a0 a1 left passed total = .ok v ↔
      a0 * left + a1 * passed < U128 ∧ total ≠ 0 ∧ v = (a0 * left + a1 * passed) / total := by
  simp only [lerp, bind_ok_iff, u128_ok, cdiv_ok]
  constructor
  · rintro ⟨_, ⟨_, rfl⟩, _, ⟨_, rfl⟩, _, ⟨h, rfl⟩, h0, rfl⟩
    exact ⟨h, h0, rfl⟩
  · rintro ⟨h, h0, rfl⟩
    exact ⟨_, ⟨by omega, rfl⟩, _, ⟨by omega, rfl⟩, _, ⟨h, rfl⟩, h0, rfl⟩

/-- A weighted mean rounded down stays between the end points. -/
theorem lerp_between {a0 a1 left passed total v : Nat} (h : lerp a0 a1 left passed total = .ok v)
    (ht : left + passed = total) : min a0 a1 ≤ v ∧ v ≤ max a0 a1 := by
  obtain ⟨_, h0, rfl⟩ := lerp_ok.1 h
  constructor
  · rw [Nat.le_div_iff_mul_le (by omega), ← ht, Nat.mul_add]
    exact Nat.add_le_add (Nat.mul_le_mul_right _ (Nat.min_le_left _ _))
      (Nat.mul_le_mul_right _ (Nat.min_le_right _ _))
  · apply Nat.div_le_of_le_mul
    rw [← ht, Nat.add_mul, Nat.mul_comm a0, Nat.mul_comm a1]
    exact Nat.add_le_add (Nat.mul_le_mul_left _ (Nat.le_max_left _ _))
      (Nat.mul_le_mul_left _ (Nat.le_max_right _ _))

theorem ampGamma_ramping {p : Pool} {now : Nat} {ag : AG} (hlt : now < p.futureTime)
    (h : ampGamma p now = .ok ag) :
    p.initialTime ≤ now ∧
    lerp p.initial.amp p.future.amp (p.futureTime - now) (now - p.initialTime) (p.futureTime - p.initialTime) = .ok ag.amp ∧
    lerp p.initial.gamma p.future.gamma (p.futureTime - now) (now - p.initialTime) (p.futureTime - p.initialTime) = .ok ag.gamma := by
  simp only [ampGamma, hlt, if_true, bind_ok_iff, csub_ok, Except.ok.injEq] at h
  obtain ⟨_, ⟨h1, rfl⟩, _, ⟨h2, rfl⟩, _, ⟨h3, rfl⟩, a, ha, g, hg, rfl⟩ := h
  have e : p.futureTime - p.initialTime - (now - p.initialTime) = p.futureTime - now := by omega
  rw [e] at ha hg
  exact ⟨h2, ha, hg⟩

/-- Invariant of the ramp at time `now`. -/
structure RampInv (p : Pool) (now : Nat) : Prop where
  past : p.initialTime ≤ now
  fut : InAG p.future
  ini : now < p.futureTime → InAG p.initial ∧ p.initialTime + 86400 ≤ p.futureTime

theorem RampInv.mono {p : Pool} {t t' : Nat} (h : RampInv p t) (ht : t ≤ t') : RampInv p t' :=
  ⟨le_trans h.past ht, h.fut, fun hl => h.ini (lt_of_le_of_lt ht hl)⟩

theorem RampInv.range {p : Pool} {now : Nat} (h : RampInv p now) {ag : AG} (ha : ampGamma p now = .ok ag) :
    InAG ag := by
  by_cases hlt : now < p.futureTime
  · obtain ⟨h1, h2, h3⟩ := ampGamma_ramping hlt ha
    obtain ⟨⟨i1, i2⟩, _⟩ := h.ini hlt
    obtain ⟨f1, f2⟩ := h.fut
    have b1 := lerp_between h2 (by omega)
    have b2 := lerp_between h3 (by omega)
    constructor
    · have := Nat.le_max_left p.initial.amp p.future.amp
      constructor
      · exact le_trans (Nat.le_min.2 ⟨i1.1, f1.1⟩) b1.1
      · exact le_trans b1.2 (Nat.max_le.2 ⟨i1.2, f1.2⟩)
    · constructor
      · exact le_trans (Nat.le_min.2 ⟨i2.1, f2.1⟩) b2.1
      · exact le_trans b2.2 (Nat.max_le.2 ⟨i2.2, f2.2⟩)
  · simp only [ampGamma, hlt, if_false, Except.ok.injEq] at ha
    rw [← ha]; exact h.fut

/-- What an accepted promotion means. -/
theorem promote_ok {p q : Pool} {now a g t : Nat} (h : promote p now a g t = .ok q) :
    p.initialTime + 86400 ≤ now ∧ now + 86400 ≤ t ∧ InAG ⟨a, g⟩ ∧
    ∃ cur, ampGamma p now = .ok cur ∧
      max cur.amp a * 10 ^ 18 < (10 ^ 19 + 1) * min cur.amp a ∧
      max cur.gamma g * 10 ^ 18 < (10 ^ 19 + 1) * min cur.gamma g ∧
      q = { p with initial := cur, initialTime := now, future := ⟨a, g⟩, futureTime := t } := by
  simp only [promote, changeOk, bind_ok_iff, require_ok, exists_const, decDiv_ok, Except.ok.injEq] at h
  obtain ⟨h1, ag, hag, cur, hcur, ⟨r1, ⟨z1, e1⟩, h2⟩, ⟨r2, ⟨z2, e2⟩, h3⟩, rfl⟩ := h
  obtain ⟨rfl, hin⟩ := newAG_ok hag
  have hm : MIN_CHANGING_TIME = 86400 := rfl
  have hD : DEC = 10 ^ 18 := rfl
  have hM : MAX_CHANGE = 10 ^ 19 := rfl
  dsimp only at *
  refine ⟨by omega, by omega, hin, cur, hcur, ?_, ?_, rfl⟩
  · rw [← Nat.div_lt_iff_lt_mul (by omega), ← hD, e1]; omega
  · rw [← Nat.div_lt_iff_lt_mul (by omega), ← hD, e2]; omega

theorem stopPromotion_ok {p q : Pool} {now : Nat} (h : stopPromotion p now = .ok q) :
    ∃ cur, ampGamma p now = .ok cur ∧ q = { p with future := cur, futureTime := now } := by
  simp only [stopPromotion, bind_ok_iff, Except.ok.injEq] at h
  obtain ⟨cur, h1, rfl⟩ := h
  exact ⟨cur, h1, rfl⟩

theorem RampInv_congr {p q : Pool} {now : Nat} (h : q.ramp = p.ramp) (hi : RampInv p now) : RampInv q now := by
  simp only [Pool.ramp, Prod.mk.injEq] at h
  obtain ⟨h1, h2, h3, h4⟩ := h
  obtain ⟨a, b, c⟩ := hi
  exact ⟨by rw [h3]; exact a, by rw [h2]; exact b, by rw [h1, h3, h4]; exact c⟩

theorem RampInv_exec {su : Setup} {me : A} {now t : Nat} {fo : A} {s s' : State A} {o : Op A}
    (hi : RampInv s.pool t) (ht : t ≤ now) (h : exec su me now fo s o = .ok s') :
    RampInv s'.pool now ∧ s.pool.initialTime ≤ s'.pool.initialTime := by
  have hi' := hi.mono ht
  rcases exec_cases h with ⟨_, h2⟩ | ⟨_, _, _, _, _, h2⟩ | ⟨_, a, g, f, _, _, h2, _⟩ | ⟨_, _, _, h2, _⟩
  · have := h2
    simp only [Pool.ramp, Prod.mk.injEq] at this
    exact ⟨RampInv_congr h2 hi', by omega⟩
  · rw [h2]; exact ⟨hi', le_refl _⟩
  · obtain ⟨h3, h4, h5, cur, h6, _, _, h7⟩ := promote_ok h2
    rw [h7]
    exact ⟨⟨le_refl _, h5, fun _ => ⟨hi'.range h6, h4⟩⟩, hi'.past⟩
  · obtain ⟨cur, h3, h4⟩ := stopPromotion_ok h2
    rw [h4]
    exact ⟨⟨hi'.past, hi'.range h3, fun hl => absurd hl (lt_irrefl _)⟩, le_refl _⟩

theorem RampInv_run {su : Setup} {me : A} (es : List (Event A)) : ∀ {t : Nat} {s : State A},
    RampInv s.pool t → Timed t es →
    RampInv (run su me s es).pool (lastTime t es) ∧
      s.pool.initialTime ≤ (run su me s es).pool.initialTime := by
  induction es with
  | nil => intro t s hi _; exact ⟨hi, le_refl _⟩
  | cons e es ih =>
    intro t s hi ht
    obtain ⟨h1, h2⟩ := ht
    have key : RampInv (step su me s e).pool e.now ∧ s.pool.initialTime ≤ (step su me s e).pool.initialTime := by
      unfold step
      cases hx : exec su me e.now e.fo s e.op with
      | error _ => exact ⟨hi.mono h1, le_refl _⟩
      | ok s' => exact RampInv_exec hi h1 hx
    obtain ⟨k1, k2⟩ := ih key.1 h2
    exact ⟨k1, le_trans key.2 k2⟩

theorem RampInv_create {bal : Bool → A → Nat} {u : PParams} {amp gamma scale now : Nat} {s : State A}
    (h : create bal u amp gamma scale now = .ok s) : RampInv s.pool now := by
  simp only [create, bind_ok_iff, require_ok, exists_const, Except.ok.injEq] at h
  obtain ⟨_, p, hp, ag, hag, rfl⟩ := h
  exact ⟨Nat.zero_le _, (newAG_ok hag).2, fun hl => absurd hl (lt_irrefl _)⟩

/-- **C50.** Through every history of transactions by anybody, at any later time: when amp and gamma are defined,
they are within their documented ranges; during a ramp they are between the initial and the future values, and
from its end on they equal the future values. -/
theorem C50_between_end_points (su : Setup) (me : A) (bal : Bool → A → Nat) (u : PParams)
    (amp gamma scale t0 : Nat) (s : State A) (hc : create bal u amp gamma scale t0 = .ok s)
    (es : List (Event A)) (ht : Timed t0 es) (now : Nat) (hn : lastTime t0 es ≤ now) :
    let p := (run su me s es).pool
    (now < p.futureTime → p.initialTime + 86400 ≤ p.futureTime ∧ p.initialTime ≤ now) ∧
    ∀ ag, ampGamma p now = .ok ag →
      (10 ^ 17 ≤ ag.amp ∧ ag.amp ≤ 10 ^ 23 ∧ 10 ^ 10 ≤ ag.gamma ∧ ag.gamma ≤ 2 * 10 ^ 16) ∧
      (p.futureTime ≤ now → ag = p.future) ∧
      (now < p.futureTime →
        (min p.initial.amp p.future.amp ≤ ag.amp ∧ ag.amp ≤ max p.initial.amp p.future.amp) ∧
        (min p.initial.gamma p.future.gamma ≤ ag.gamma ∧ ag.gamma ≤ max p.initial.gamma p.future.gamma)) := by
  obtain ⟨h, _⟩ := RampInv_run (su := su) (me := me) es (RampInv_create hc) ht
  intro p
  have hi : RampInv p now := h.mono hn
  refine ⟨fun hl => ⟨(hi.ini hl).2, hi.past⟩, fun ag ha => ?_⟩
  have hr := hi.range ha
  refine ⟨⟨hr.amp.1, hr.amp.2, hr.gamma.1, hr.gamma.2⟩, fun hl => ?_, fun hl => ?_⟩
  · simp only [ampGamma, Nat.not_lt.2 hl, if_false, Except.ok.injEq] at ha
    exact ha.symm
  · obtain ⟨h1, h2, h3⟩ := ampGamma_ramping hl ha
    exact ⟨lerp_between h2 (by omega), lerp_between h3 (by omega)⟩

/-- **C50.** The exact ramp: linear in time between the two end points, rounded down. -/
theorem C50_linear (p : Pool) (now : Nat) (ag : AG) (hl : now < p.futureTime) (h : ampGamma p now = .ok ag) :
    ag.amp = (p.initial.amp * (p.futureTime - now) + p.future.amp * (now - p.initialTime)) /
      (p.futureTime - p.initialTime) ∧
    ag.gamma = (p.initial.gamma * (p.futureTime - now) + p.future.gamma * (now - p.initialTime)) /
      (p.futureTime - p.initialTime) := by
  obtain ⟨_, h2, h3⟩ := ampGamma_ramping hl h
  exact ⟨(lerp_ok.1 h2).2.2, (lerp_ok.1 h3).2.2⟩

/-- **C50.** An accepted promotion comes from the owner, a day or more after the previous one started, lasts a day
or more, aims at values in the documented ranges, and changes amp and gamma at most tenfold (up to the 18 digit
rounding of the quotient). -/
theorem C50_promotion_limits (su : Setup) (me : A) (now : Nat) (fo : A) (s s' : State A) (u : A)
    (a g t : Nat) (h : exec su me now fo s (.promote u a g t) = .ok s') :
    u = s.owner.getD fo ∧ s.pool.initialTime + 86400 ≤ now ∧ now + 86400 ≤ t ∧
    (10 ^ 17 ≤ a ∧ a ≤ 10 ^ 23) ∧ (10 ^ 10 ≤ g ∧ g ≤ 2 * 10 ^ 16) ∧
    ∃ cur, ampGamma s.pool now = .ok cur ∧
      (max cur.amp a * 10 ^ 18 < (10 ^ 19 + 1) * min cur.amp a) ∧
      (max cur.gamma g * 10 ^ 18 < (10 ^ 19 + 1) * min cur.gamma g) ∧
      s'.pool = { s.pool with initial := cur, initialTime := now, future := ⟨a, g⟩, futureTime := t } := by
  simp only [exec, bind_ok_iff, require_ok, exists_const, authorised, Except.ok.injEq] at h
  obtain ⟨_, hu, p, hp, rfl⟩ := h
  obtain ⟨h1, h2, h3, cur, h4, h5, h6, h7⟩ := promote_ok hp
  exact ⟨hu, h1, h2, h3.amp, h3.gamma, cur, h4, h5, h6, h7⟩

/-- **C50.** No transaction makes amp or gamma jump: right after it, they are what they were right before (when
still defined, which only a promotion of more than `10 ^ 15` seconds can prevent). -/
theorem C50_no_jump (su : Setup) (me : A) (now : Nat) (fo : A) (s s' : State A) (o : Op A)
    (hi : RampInv s.pool now) (h : exec su me now fo s o = .ok s') :
    (∀ ag, ampGamma s'.pool now = .ok ag → ampGamma s.pool now = .ok ag) ∧
    (s'.pool.futureTime ≤ now + 10 ^ 15 → ampGamma s'.pool now = ampGamma s.pool now) := by
  rcases exec_cases h with ⟨_, h2⟩ | ⟨_, _, _, _, _, h2⟩ | ⟨_, a, g, f, _, _, h2, _⟩ | ⟨_, _, _, h2, _⟩
  · rw [ampGamma_congr h2 now]; exact ⟨fun _ h => h, fun _ => rfl⟩
  · rw [h2]; exact ⟨fun _ h => h, fun _ => rfl⟩
  · obtain ⟨h3, h4, h5, cur, h6, _, _, h7⟩ := promote_ok h2
    have hl : now < s'.pool.futureTime := by rw [h7]; dsimp only; omega
    have k : ∀ x y, x * (f - now) + y * (now - now) = x * (f - now) := by intro x y; simp
    constructor
    · intro ag hag
      obtain ⟨_, b1, b2⟩ := ampGamma_ramping hl hag
      have c1 := (lerp_ok.1 b1).2.2
      have c2 := (lerp_ok.1 b2).2.2
      rw [h7] at c1 c2
      dsimp only at c1 c2
      rw [k, Nat.mul_div_cancel _ (by omega)] at c1 c2
      rw [h6]
      obtain ⟨x, y⟩ := ag
      obtain ⟨x', y'⟩ := cur
      simp_all
    · intro hle
      have hr := hi.range h6
      rw [h6]
      unfold ampGamma
      rw [if_pos hl, h7]
      rw [h7] at hle
      dsimp only at hle ⊢
      have hU : U128 = 2 ^ 128 := rfl
      have hb : ∀ x ≤ 10 ^ 23, x * (f - now) < U128 := by
        intro x hx
        calc x * (f - now) ≤ 10 ^ 23 * 10 ^ 15 := Nat.mul_le_mul hx (by omega)
          _ < U128 := by rw [hU]; norm_num
      simp only [bind_ok_iff, csub_ok, Except.ok.injEq]
      refine ⟨_, ⟨by omega, rfl⟩, _, ⟨le_refl _, rfl⟩, _, ⟨by omega, rfl⟩, cur.amp, ?_, cur.gamma, ?_, rfl⟩
      · rw [Nat.sub_self, Nat.sub_zero, lerp_ok, Nat.mul_zero, Nat.add_zero, Nat.mul_div_cancel _ (by omega)]
        exact ⟨hb _ hr.amp.2, by omega, rfl⟩
      · rw [Nat.sub_self, Nat.sub_zero, lerp_ok, Nat.mul_zero, Nat.add_zero, Nat.mul_div_cancel _ (by omega)]
        exact ⟨hb _ (le_trans hr.gamma.2 (by norm_num)), by omega, rfl⟩
  · obtain ⟨cur, h3, h4⟩ := stopPromotion_ok h2
    have e : ampGamma s'.pool now = ampGamma s.pool now := by
      rw [h3, h4]; simp [ampGamma]
    rw [e]
    exact ⟨fun _ h => h, fun _ => rfl⟩

/-- **C50.** Two promotions never start within a day of each other, whatever happens in between. -/
theorem C50_promotions_a_day_apart (su : Setup) (me : A) (s s1 : State A) (e1 e2 : Event A)
    (es : List (Event A)) (t0 : Nat) (hi : RampInv s.pool t0) (ht : Timed t0 (e1 :: es ++ [e2]))
    (u1 u2 : A) (a1 g1 f1 a2 g2 f2 : Nat) (ho1 : e1.op = .promote u1 a1 g1 f1)
    (ho2 : e2.op = .promote u2 a2 g2 f2)
    (h1 : exec su me e1.now e1.fo s e1.op = .ok s1)
    (h2 : Succeeds (exec su me e2.now e2.fo (run su me s1 es) e2.op)) :
    e1.now + 86400 ≤ e2.now := by
  obtain ⟨s2, h2⟩ := h2
  obtain ⟨k1, k2⟩ := ht
  have hs1 := RampInv_exec hi k1 h1
  rw [ho1] at h1
  rw [ho2] at h2
  obtain ⟨_, _, _, _, _, cur, _, _, _, heq⟩ := C50_promotion_limits _ _ _ _ _ _ _ _ _ _ h1
  have hd := (C50_promotion_limits _ _ _ _ _ _ _ _ _ _ h2).2.1
  have hT : Timed e1.now es := by
    clear hd h2 hs1 k1 ho2 h1 ho1 heq
    generalize e1.now = t at k2
    induction es generalizing t with
    | nil => trivial
    | cons e es ih => exact ⟨k2.1, ih e.now k2.2⟩
  have hm := (RampInv_run (su := su) (me := me) es hs1.1 hT).2
  rw [heq] at hm
  dsimp only at hm
  omega

/-- The largest amp is documented as 100000, but that value itself is refused: the limit is a floating point
literal that is slightly smaller. -/
theorem C50_documented_max_amp_refused (p : Pool) (now g t : Nat) :
    ¬ ∃ q, promote p now (10 ^ 23) g t = .ok q := by
  rintro ⟨q, h⟩
  simp only [promote, newAG, validateParam, bind_ok_iff, require_ok, exists_const] at h
  obtain ⟨_, _, ⟨⟨_, h1⟩, _⟩, _⟩ := h
  have e2 : AMP_MAX = 99999999999999991611392 := rfl
  omega

/-- Non-vacuity: ramp from 40 to 80 over two days starting a day after creation; half way amp is 60; stopping
keeps it there; another promotion within a day is refused, later accepted; strangers are refused. -/
example :
    okAnd (exec demoSetup 0 100000 2 demo0 (.promote 1 (80 * 10 ^ 18) (145 * 10 ^ 12) 272800)) (fun s =>
      okAnd (ampGamma s.pool 186400) (fun a => decide (a.amp = 60 * 10 ^ 18)) &&
      okAnd (exec demoSetup 0 186400 2 s (.stop 1)) (fun s =>
        okAnd (ampGamma s.pool 999999999) (fun a => decide (a.amp = 60 * 10 ^ 18)) &&
        okAnd (exec demoSetup 0 186400 2 s (.promote 1 (80 * 10 ^ 18) (145 * 10 ^ 12) 600000)) (fun _ => true)) &&
      fails (exec demoSetup 0 186399 2 s (.promote 1 (70 * 10 ^ 18) (145 * 10 ^ 12) 600000))) = true ∧
    fails (exec demoSetup 0 100000 2 demo0 (.promote 1 (401 * 10 ^ 18) (145 * 10 ^ 12) 272800)) = true ∧
    fails (exec demoSetup 0 100000 2 demo0 (.promote 2 (80 * 10 ^ 18) (145 * 10 ^ 12) 272800)) = true ∧
    RampInv demo0.pool 1000 := by
  refine ⟨by decide +kernel, by decide +kernel, by decide +kernel, ⟨by decide, ⟨?_, ?_⟩, ?_⟩⟩
  · decide +kernel
  · decide +kernel
  · intro h; exact absurd h (by decide)

/-! ## C81: a running ramp can be stopped -/

/-- **C81 (partial).** When the ramp ends within `10 ^ 15` seconds of its start, amp and gamma are defined at
every later time, so they never block a transaction, and the owner can stop the ramp at any time.
Missing: ramps with a later end, for which it is false (`C81_far_ramp_blocks_pool_violated`). -/
theorem C81_ramp_defined_partial (su : Setup) (me : A) (s : State A) (now : Nat) (fo u : A)
    (hi : RampInv s.pool now) (hf : s.pool.futureTime ≤ s.pool.initialTime + 10 ^ 15 ∨ s.pool.futureTime ≤ now)
    (hu : u = s.owner.getD fo) (hme : u ≠ me) :
    (∃ ag, ampGamma s.pool now = .ok ag) ∧
    ∃ s', exec su me now fo s (.stop u) = .ok s' ∧ s'.pool.futureTime = now := by
  have key : ∃ ag, ampGamma s.pool now = .ok ag := by
    by_cases hl : now < s.pool.futureTime
    · obtain ⟨⟨i1, i2⟩, i3⟩ := hi.ini hl
      obtain ⟨f1, f2⟩ := hi.fut
      have hp := hi.past
      have hU : U128 = 2 ^ 128 := rfl
      have hb : ∀ x y, x ≤ 10 ^ 23 → y ≤ 10 ^ 23 →
          x * (s.pool.futureTime - now) + y * (now - s.pool.initialTime) < U128 := by
        intro x y hx hy
        calc x * (s.pool.futureTime - now) + y * (now - s.pool.initialTime)
            ≤ 10 ^ 23 * (s.pool.futureTime - now) + 10 ^ 23 * (now - s.pool.initialTime) :=
              Nat.add_le_add (Nat.mul_le_mul_right _ hx) (Nat.mul_le_mul_right _ hy)
          _ = 10 ^ 23 * (s.pool.futureTime - s.pool.initialTime) := by rw [← Nat.mul_add]; congr 1; omega
          _ ≤ 10 ^ 23 * 10 ^ 15 := Nat.mul_le_mul_left _ (by omega)
          _ < U128 := by rw [hU]; norm_num
      have e : s.pool.futureTime - s.pool.initialTime - (now - s.pool.initialTime) = s.pool.futureTime - now := by
        omega
      obtain ⟨va, hva⟩ : ∃ v, v = (s.pool.initial.amp * (s.pool.futureTime - now) +
        s.pool.future.amp * (now - s.pool.initialTime)) / (s.pool.futureTime - s.pool.initialTime) := ⟨_, rfl⟩
      obtain ⟨vg, hvg⟩ : ∃ v, v = (s.pool.initial.gamma * (s.pool.futureTime - now) +
        s.pool.future.gamma * (now - s.pool.initialTime)) / (s.pool.futureTime - s.pool.initialTime) := ⟨_, rfl⟩
      refine ⟨⟨va, vg⟩, ?_⟩
      simp only [ampGamma, hl, if_true, bind_ok_iff, csub_ok, Except.ok.injEq]
      refine ⟨_, ⟨by omega, rfl⟩, _, ⟨by omega, rfl⟩, _, ⟨by omega, rfl⟩, va, ?_, vg, ?_, rfl⟩
      · rw [e, lerp_ok]
        exact ⟨hb _ _ i1.2 f1.2, by omega, hva⟩
      · rw [e, lerp_ok]
        exact ⟨hb _ _ (le_trans i2.2 (by norm_num)) (le_trans f2.2 (by norm_num)), by omega, hvg⟩
    · exact ⟨s.pool.future, by simp [ampGamma, hl]⟩
  refine ⟨key, ?_⟩
  obtain ⟨ag, hag⟩ := key
  refine ⟨{ s with pool := { s.pool with future := ag, futureTime := now } }, ?_, rfl⟩
  simp only [exec, bind_ok_iff, authorised, stopPromotion, Op.signer, Except.ok.injEq]
  exact ⟨(), (require_ok _ _ _).2 hme, (), (require_ok _ _ _).2 hu, _, ⟨ag, hag, rfl⟩, rfl⟩

theorem ampGamma_far {p : Pool} {now : Nat} (hp : p.initialTime ≤ now) (h : now < p.futureTime)
    (hb : U128 ≤ p.initial.amp * (p.futureTime - now)) : ¬ ∃ ag, ampGamma p now = .ok ag := by
  rintro ⟨ag, hag⟩
  obtain ⟨_, h1, _⟩ := ampGamma_ramping h hag
  have := (lerp_ok.1 h1).1
  omega

/-- A running pool whose owner promoted amp from 250 to 300 with an end time in nanoseconds. -/
def farState : State Acct :=
  { demo0 with
    pool := { demo0.pool with future := ⟨250 * 10 ^ 18, 145 * 10 ^ 12⟩ } }

theorem stuck {su : Setup} {me : A} {now : Nat} {fo : A} {s : State A} {o : Op A}
    (h : ¬ ∃ ag, ampGamma s.pool now = .ok ag)
    (ho : (∃ u d t m r, o = .provide u d t m r) ∨ (∃ u n m, o = .withdraw u n m) ∨
      (∃ u i n b m r f, o = .swap u i n b m r f) ∨ (∃ u, o = .stop u) ∨ (∃ u a g t, o = .promote u a g t)) :
    ¬ ∃ s', exec su me now fo s o = .ok s' := by
  rintro ⟨s', hx⟩
  unfold exec at hx
  simp only [bind_ok_iff, require_ok, exists_const] at hx
  obtain ⟨hsig, hx⟩ := hx
  rcases ho with ⟨u, d, t, m, r, rfl⟩ | ⟨u, n, m, rfl⟩ | ⟨u, i, n, b, m, r, f, rfl⟩ | ⟨u, rfl⟩ | ⟨u, a, g, t, rfl⟩
  · simp only [bind_ok_iff, Prod.exists, Except.ok.injEq] at hx
    obtain ⟨_, _, hx, _⟩ := hx
    obtain ⟨_, _, _, _, sp⟩ := provide_spec hx
    have hc := sp.hcs
    simp only [calculateShares, rawShares, bind_ok_iff, require_ok, exists_const, Prod.exists] at hc
    obtain ⟨_, _, _, _, _, _, _, _, _, ⟨ag, hag, _⟩, _⟩ := hc
    exact h ⟨ag, hag⟩
  · simp only [bind_ok_iff, Prod.exists, Except.ok.injEq] at hx
    obtain ⟨_, _, _, hx, _⟩ := hx
    obtain ⟨_, _, _, sp⟩ := withdraw_spec hx
    obtain ⟨_, ag, _, _, _, _, hag, _⟩ := sp.hreal
    exact h ⟨ag, hag⟩
  · simp only [bind_ok_iff, Prod.exists, Except.ok.injEq] at hx
    obtain ⟨_, _, hx, _⟩ := hx
    obtain ⟨_, _, _, _, _, _, sp⟩ := swap_spec (by simpa [Op.signer] using hsig) hx
    have hc := sp.hr
    simp only [computeSwap, bind_ok_iff] at hc
    obtain ⟨_, _, ag, hag, _⟩ := hc
    exact h ⟨ag, hag⟩
  · simp only [bind_ok_iff, authorised, require_ok, exists_const] at hx
    obtain ⟨_, p, hp, _⟩ := hx
    obtain ⟨ag, hag, _⟩ := stopPromotion_ok hp
    exact h ⟨ag, hag⟩
  · simp only [bind_ok_iff, authorised, require_ok, exists_const] at hx
    obtain ⟨_, p, hp, _⟩ := hx
    obtain ⟨_, _, _, ag, hag, _⟩ := promote_ok hp
    exact h ⟨ag, hag⟩

/-- **C81 is violated**: a promotion whose end time is given in nanoseconds is accepted (amp from 250 to 300).
From then on, for the next hundred million years, no swap, no deposit, no withdrawal, no other promotion and not
even stopping the promotion succeeds, whoever calls: computing amp overflows 128 bits. -/
theorem C81_far_ramp_blocks_pool_violated :
    ∃ s1, exec demoSetup 0 100000 2 farState (.promote 1 (300 * 10 ^ 18) (145 * 10 ^ 12) 1700000000000000000) = .ok s1 ∧
    ∀ now, 100000 ≤ now → now ≤ 3 * 10 ^ 15 → ∀ (s : State Acct), s.pool.ramp = s1.pool.ramp → ∀ (fo : Acct) (o : Op Acct),
      ((∃ u d t m r, o = .provide u d t m r) ∨ (∃ u n m, o = .withdraw u n m) ∨
        (∃ u i n b m r f, o = .swap u i n b m r f) ∨ (∃ u, o = .stop u) ∨ (∃ u a g t, o = .promote u a g t)) →
      ¬ ∃ s', exec demoSetup 0 now fo s o = .ok s' := by
  have hx : okAnd (exec demoSetup 0 100000 2 farState (.promote 1 (300 * 10 ^ 18) (145 * 10 ^ 12) 1700000000000000000))
      (fun s => decide (s.pool.ramp =
        (⟨250 * 10 ^ 18, 145 * 10 ^ 12⟩, ⟨300 * 10 ^ 18, 145 * 10 ^ 12⟩, 100000, 1700000000000000000))) = true := by
    decide +kernel
  cases he : exec demoSetup 0 100000 2 farState (.promote 1 (300 * 10 ^ 18) (145 * 10 ^ 12) 1700000000000000000) with
  | error e => rw [he] at hx; simp [okAnd] at hx
  | ok s1 =>
    rw [he] at hx
    simp only [okAnd, decide_eq_true_eq] at hx
    refine ⟨s1, rfl, ?_⟩
    intro now h1 h2 s hs fo o ho
    apply stuck _ ho
    rw [hx] at hs
    simp only [Pool.ramp, Prod.mk.injEq] at hs
    obtain ⟨a1, a2, a3, a4⟩ := hs
    have hU : U128 = 2 ^ 128 := rfl
    apply ampGamma_far
    · omega
    · omega
    · rw [a1, a4, hU]; dsimp only; omega

/-! ## C51 -/

theorem feeRate_parts {p : PParams} {x0 x1 fee : Nat} (h : feeRate p x0 x1 = .ok fee) :
    ∃ k, k ≤ DEC ∧ fee = k * p.mid / DEC + (DEC - k) * p.out / DEC := by
  simp only [feeRate, bind_ok_iff, Stable.dadd_ok, Stable.dmul_ok, Stable.ddiv_ok, csub_ok] at h
  obtain ⟨_, _, _, _, _, _, _, _, _, _, _, _, _, _, k, _, _, ⟨_, rfl⟩, _, ⟨hk, rfl⟩, _, ⟨_, rfl⟩, _, rfl⟩ := h
  exact ⟨_, hk, rfl⟩

/-- **C51 (partial).** For any reserves, the fee rate lies between `mid_fee` and `out_fee` when
`mid_fee ≤ out_fee`, except that rounding may put it one unit of the 18th digit below `mid_fee`
(`C51_fee_below_mid_violated`). -/
theorem C51_fee_between_partial (p : PParams) (x0 x1 fee : Nat) (hmo : p.mid ≤ p.out)
    (h : feeRate p x0 x1 = .ok fee) : p.mid ≤ fee + 1 ∧ fee ≤ p.out := by
  obtain ⟨k, hk, rfl⟩ := feeRate_parts h
  have hD := DEC_pos
  have e : k * p.mid + (DEC - k) * p.mid = DEC * p.mid := by
    rw [← Nat.add_mul]; congr 1; omega
  have e2 : k * p.out + (DEC - k) * p.out = DEC * p.out := by
    rw [← Nat.add_mul]; congr 1; omega
  have m1 : (DEC - k) * p.mid ≤ (DEC - k) * p.out := Nat.mul_le_mul_left _ hmo
  have m2 : k * p.mid ≤ k * p.out := Nat.mul_le_mul_left _ hmo
  generalize k * p.mid = a at *
  generalize (DEC - k) * p.out = b at *
  constructor
  · have h1 : DEC * p.mid ≤ a + b := by omega
    have h2 := Nat.div_add_mod a DEC
    have h3 := Nat.div_add_mod b DEC
    have h4 := Nat.mod_lt a hD
    have h5 := Nat.mod_lt b hD
    have h6 : DEC * p.mid < DEC * (a / DEC + b / DEC + 2) := by
      rw [Nat.mul_add, Nat.mul_add]; omega
    have := Nat.lt_of_mul_lt_mul_left h6
    omega
  · have h1 : a + b ≤ DEC * p.out := by omega
    have h2 : DEC * (a / DEC + b / DEC) ≤ DEC * p.out := by
      rw [Nat.mul_add]
      exact le_trans (Nat.add_le_add (Nat.mul_div_le _ _) (Nat.mul_div_le _ _)) h1
    exact Nat.le_of_mul_le_mul_left h2 hD

/-- The same with the fees the other way round (possible by C49): then the fee is between `out_fee` and
`mid_fee`. -/
theorem C51_fee_between_reversed_partial (p : PParams) (x0 x1 fee : Nat) (hmo : p.out ≤ p.mid)
    (h : feeRate p x0 x1 = .ok fee) : p.out ≤ fee + 1 ∧ fee ≤ p.mid := by
  obtain ⟨k, hk, rfl⟩ := feeRate_parts h
  have hD := DEC_pos
  have e : k * p.mid + (DEC - k) * p.mid = DEC * p.mid := by
    rw [← Nat.add_mul]; congr 1; omega
  have e2 : k * p.out + (DEC - k) * p.out = DEC * p.out := by
    rw [← Nat.add_mul]; congr 1; omega
  have m1 : (DEC - k) * p.out ≤ (DEC - k) * p.mid := Nat.mul_le_mul_left _ hmo
  have m2 : k * p.out ≤ k * p.mid := Nat.mul_le_mul_left _ hmo
  generalize k * p.mid = a at *
  generalize (DEC - k) * p.out = b at *
  constructor
  · have h1 : DEC * p.out ≤ a + b := by omega
    have h2 := Nat.div_add_mod a DEC
    have h3 := Nat.div_add_mod b DEC
    have h4 := Nat.mod_lt a hD
    have h5 := Nat.mod_lt b hD
    have h6 : DEC * p.out < DEC * (a / DEC + b / DEC + 2) := by
      rw [Nat.mul_add, Nat.mul_add]; omega
    have := Nat.lt_of_mul_lt_mul_left h6
    omega
  · have h1 : a + b ≤ DEC * p.mid := by omega
    have h2 : DEC * (a / DEC + b / DEC) ≤ DEC * p.mid := by
      rw [Nat.mul_add]
      exact le_trans (Nat.add_le_add (Nat.mul_div_le _ _) (Nat.mul_div_le _ _)) h1
    exact Nat.le_of_mul_le_mul_left h2 hD

/-- Balanced reserves pay (nearly) `mid_fee`, very imbalanced ones `out_fee`. -/
example :
    okAnd (feeRate demoParams (10 ^ 24) (10 ^ 24)) (fun f => decide (f = 26 * 10 ^ 14)) = true ∧
    okAnd (feeRate demoParams (10 ^ 24) (5 * 10 ^ 24)) (fun f => decide (f = 45 * 10 ^ 14)) = true ∧
    okAnd (feeRate demoParams (10 ^ 24) (102 * 10 ^ 22)) (fun f => decide (26 * 10 ^ 14 < f ∧ f < 45 * 10 ^ 14)) = true := by
  decide +kernel

/-- **C51 is violated** by one unit of the 18th digit: nearly balanced reserves are charged less than
`mid_fee`. -/
theorem C51_fee_below_mid_violated :
    okAnd (feeRate { demoParams with feeGamma := 10 ^ 18 } (10 ^ 18) (10 ^ 18 + 4 * 10 ^ 9))
      (fun f => decide (f + 1 = demoParams.mid)) = true := by decide +kernel

/-! ## C82: the fee is defined -/

/-- **C82 (partial).** With a positive fee gamma the fee is defined for all reserves worth at least `10 ^ -9`
together (and below `2 ^ 128` billionths).  Missing: fee gamma zero, which the parameter range allows and for which it
is false (`C82_zero_fee_gamma_blocks_balanced_pool_violated`). -/
theorem C82_fee_defined_partial (p : PParams) (hp : InRange p) (hg : p.feeGamma ≠ 0) (x0 x1 : Nat)
    (hlo : 10 ^ 9 ≤ x0 + x1) (hhi : x0 + x1 < 2 ^ 128 * 10 ^ 9) : ∃ fee, feeRate p x0 x1 = .ok fee := by
  have hU : U256 = 2 ^ 256 := rfl
  have hD : DEC = 10 ^ 18 := rfl
  have hN : NPOW2 = 4 * DEC := rfl
  have hF : FEE_TOL = 10 ^ 15 := rfl
  have hDp := DEC_pos
  have h4 : 4 * (x0 * x1) ≤ (x0 + x1) * (x0 + x1) := by
    nlinarith [sq_nonneg ((x0 : Int) - x1)]
  have hS : (x0 + x1) * (x0 + x1) < 2 ^ 256 * 10 ^ 18 := by
    calc (x0 + x1) * (x0 + x1) < (2 ^ 128 * 10 ^ 9) * (2 ^ 128 * 10 ^ 9) := Nat.mul_lt_mul'' hhi hhi
      _ = 2 ^ 256 * 10 ^ 18 := by norm_num
  have hS1 : 10 ^ 18 ≤ (x0 + x1) * (x0 + x1) := by
    calc 10 ^ 18 = 10 ^ 9 * 10 ^ 9 := by norm_num
      _ ≤ _ := Nat.mul_le_mul hlo hlo
  obtain ⟨m, hm⟩ : ∃ m, x0 * x1 / DEC = m := ⟨_, rfl⟩
  obtain ⟨s2, hs2⟩ : ∃ m, (x0 + x1) * (x0 + x1) / DEC = m := ⟨_, rfl⟩
  have hm4 : m * NPOW2 / DEC = 4 * m := by
    rw [hN, ← Nat.mul_assoc, Nat.mul_div_cancel _ hDp, Nat.mul_comm]
  have hle : 4 * m ≤ s2 := by
    rw [← hs2, Nat.le_div_iff_mul_le hDp, Nat.mul_assoc]
    refine le_trans (Nat.mul_le_mul_left 4 ?_) h4
    rw [← hm]; exact Nat.div_mul_le_self _ _
  have hs2p : 0 < s2 := by rw [← hs2]; exact Nat.div_pos (by rw [hD]; exact hS1) hDp
  have hs2U : s2 < U256 := by
    rw [← hs2, hU, Nat.div_lt_iff_lt_mul hDp, hD]; exact hS
  obtain ⟨k0, hk0⟩ : ∃ k, 4 * m * DEC / s2 = k := ⟨_, rfl⟩
  have hk0le : k0 ≤ DEC := by
    rw [← hk0]
    apply Nat.div_le_of_le_mul
    exact Nat.mul_le_mul_right _ hle
  obtain ⟨k, hk⟩ : ∃ k, p.feeGamma * DEC / (p.feeGamma + DEC - k0) = k := ⟨_, rfl⟩
  have hkle : k ≤ DEC := by
    rw [← hk]
    apply Nat.div_le_of_le_mul
    exact Nat.mul_le_mul_right _ (by omega)
  obtain ⟨k', hk'⟩ : ∃ k', (if k ≤ FEE_TOL then 0 else k) = k' := ⟨_, rfl⟩
  have hk'le : k' ≤ DEC := by rw [← hk']; split <;> omega
  have hmid := hp.mid
  have hout := hp.out
  have hfg := hp.feeGamma
  have b1 : k' * p.mid / DEC ≤ p.mid := Nat.div_le_of_le_mul (Nat.mul_le_mul_right _ hk'le)
  have b2 : (DEC - k') * p.out / DEC ≤ p.out := Nat.div_le_of_le_mul (Nat.mul_le_mul_right _ (by omega))
  have hmle : m ≤ s2 := by omega
  refine ⟨k' * p.mid / DEC + (DEC - k') * p.out / DEC, ?_⟩
  simp only [feeRate, bind_ok_iff, Stable.dadd_ok, Stable.dmul_ok, Stable.ddiv_ok, csub_ok, dpow_two]
  refine ⟨_, ⟨by omega, rfl⟩, m, ⟨by omega, hm⟩, 4 * m, ⟨by omega, hm4⟩, s2, ⟨by omega, hs2⟩, k0,
    ⟨by omega, by omega, hk0⟩, _, ⟨by omega, rfl⟩, _, ⟨by omega, rfl⟩, k, ⟨by omega, by omega, hk⟩, _,
    ⟨?_, rfl⟩, _, ⟨?_, rfl⟩, _, ⟨?_, rfl⟩, ?_, ?_⟩
  all_goals rw [hk']
  · omega
  · exact hk'le
  · omega
  · omega

/-- **C82 is violated**: fee gamma zero is within the allowed range, but then a pool with exactly balanced
reserves (of tokens with six digits) cannot compute its fee (zero divided by zero), so nobody can swap. -/
theorem C82_zero_fee_gamma_blocks_balanced_pool_violated :
    InRange { demoParams with feeGamma := 0 } ∧
    okAnd (exec demoSetup 0 2000 2 demo0 (.update 1 { feeGamma := some 0 }))
      (fun s => decide (s.params.feeGamma = 0)) = true ∧
    (∀ n, ¬ ∃ fee, feeRate { demoParams with feeGamma := 0 } (n * 10 ^ 12) (n * 10 ^ 12) = .ok fee) := by
  refine ⟨⟨by decide, by decide, by decide, by decide, by decide, by decide⟩, by decide +kernel, ?_⟩
  rintro n ⟨fee, h⟩
  have hN : NPOW2 = 4 * DEC := rfl
  have hDp := DEC_pos
  simp only [feeRate, bind_ok_iff, Stable.dadd_ok, Stable.dmul_ok, Stable.ddiv_ok, csub_ok, dpow_two] at h
  obtain ⟨_, ⟨_, rfl⟩, m, ⟨_, hm⟩, m4, ⟨_, hm4⟩, s2, ⟨_, hs2⟩, k0, ⟨hz, _, hk0⟩, _, ⟨_, rfl⟩, den, ⟨hle, hden⟩, k,
    ⟨hz2, _⟩, _⟩ := h
  have hD : DEC = 10 ^ 18 := rfl
  have e1 : m = n * n * 10 ^ 6 := by
    rw [← hm, show n * 10 ^ 12 * (n * 10 ^ 12) = n * n * 10 ^ 6 * DEC by rw [hD]; ring, Nat.mul_div_cancel _ hDp]
  have e2 : s2 = 4 * m := by
    rw [← hs2, e1, show (n * 10 ^ 12 + n * 10 ^ 12) * (n * 10 ^ 12 + n * 10 ^ 12) =
      4 * (n * n * 10 ^ 6) * DEC by rw [hD]; ring, Nat.mul_div_cancel _ hDp]
  have e3 : m4 = 4 * m := by
    rw [← hm4, hN, ← Nat.mul_assoc, Nat.mul_div_cancel _ hDp, Nat.mul_comm]
  have e4 : k0 = DEC := by
    rw [← hk0, e3, ← e2, Nat.mul_comm, Nat.mul_div_cancel _ (Nat.pos_of_ne_zero hz)]
  rw [e4] at hden
  omega

end Verif.PCL
