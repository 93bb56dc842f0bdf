import Verif.Oracle.Props
import Verif.Upgrade.Versions

/-!
# Upgrading an oracle (C155)

Oracles of version 1.0 stored two cumulative prices, two averages and a time.  The upgrade rewrites them as the tables of the
present code and looks up the number of decimals of the two assets.
-/

namespace Verif.Oracle

variable {I : Type} [DecidableEq I]

/-- contracts/periphery/oracle/src/migration.rs:6-18, `PriceCumulativeLastV100`. -/
structure V100 where
  cumulative0 : Nat
  cumulative1 : Nat
  average0 : Nat
  average1 : Nat
  ts : Nat

/-- contracts/periphery/oracle/src/state.rs:43-52, `store_precisions`; `decimals` answers the query to the token, the chain or
the coin registry. -/
def storePrecision (decimals : I → Res Nat) (p : I → Option Nat) (i : I) : Res (I → Option Nat) := do
  let d ← decimals i
  .ok (Function.update p i (some d))

/-- contracts/periphery/oracle/src/contract.rs:194-252, `migrate`, for the two assets of the stored configuration. -/
def migrate (stored : Upgrade.Stamp) (a b : I) (decimals : I → Res Nat) (old : V100) : Res (Upgrade.Stamp × State I) := do
  let st ← Upgrade.migrate stored ⟨.oracle, false⟩
  let p ← storePrecision decimals (fun _ => none) a
  let p ← storePrecision decimals p b
  .ok (st, { cumulative := [(a, b, old.cumulative0), (b, a, old.cumulative1)]
             average := [(a, b, old.average0), (b, a, old.average1)]
             ts := old.ts
             precision := p })

/-! ## Specification -/

/-- The old record read for the direction from one asset to the other: its cumulative price and its average. -/
def V100.side (old : V100) : Bool → Nat × Nat
  | false => (old.cumulative0, old.average0)
  | true => (old.cumulative1, old.average1)

/-! ## C155 -/

/-- C155: after the upgrade the oracle answers with the averages it had before: for a token with a stored average, the amount
times this average in units of the answer; for one without, the pair's quote for one whole token, where a whole token has the
number of decimals that was looked up. -/
theorem C155_answers_as_before {stored st : Upgrade.Stamp} {a b : I} {decimals : I → Res Nat} {old : V100} {s : State I}
    (h : migrate stored a b decimals old = .ok (st, s)) (hab : a ≠ b) (side : Bool) (amount : Nat) (sim : Nat → I → Res Nat)
    (r : List (I × Nat)) (hc : consult s (if side then b else a) amount sim = .ok r) :
    ∃ q, r = [(if side then a else b, q)] ∧
      ((old.side side).2 ≠ 0 → q = amount * (old.side side).2 / 10 ^ 18 / 10 ^ 6) ∧
      ((old.side side).2 = 0 → ∃ d one, decimals (if side then b else a) = .ok d ∧
        sim (10 ^ d) (if side then a else b) = .ok one ∧ q = one * amount / 10 ^ d) := by
  simp only [migrate, storePrecision, bind_ok_iff, Except.ok.injEq, Prod.mk.injEq] at h
  obtain ⟨_, _, p0, ⟨d0, hd0, rfl⟩, p1, ⟨d1, hd1, rfl⟩, _, rfl⟩ := h
  obtain ⟨p, hp, _, hmap, hall⟩ := C66_consult_exact _ _ _ _ _ hc
  have hba : b ≠ a := fun e => hab e.symm
  cases side with
  | false =>
    simp only [Bool.false_eq_true, if_false] at *
    have hf : ([(a, b, old.average0), (b, a, old.average1)].filter (fun x => decide (x.1 = a))) = [(a, b, old.average0)] := by
      simp [List.filter, hba]
    rw [hf] at hmap hall
    obtain ⟨⟨y, q⟩, rfl⟩ : ∃ x, r = [x] := by
      have : r.length = 1 := by
        have := congrArg List.length hmap
        simpa using this
      exact List.length_eq_one_iff.1 this
    obtain ⟨v, hv, h1, h2⟩ := hall 0 y q rfl
    simp only [List.getElem?_cons_zero, Option.some.injEq, Prod.mk.injEq, true_and] at hv
    obtain ⟨rfl, rfl⟩ := hv
    rw [Function.update_of_ne hab, Function.update_self] at hp
    simp only [Option.some.injEq] at hp
    subst hp
    refine ⟨q, rfl, h1, fun hz => ?_⟩
    obtain ⟨one, h3, h4⟩ := h2 hz
    exact ⟨d0, one, hd0, h3, h4⟩
  | true =>
    simp only [if_true] at *
    have hf : ([(a, b, old.average0), (b, a, old.average1)].filter (fun x => decide (x.1 = b))) = [(b, a, old.average1)] := by
      simp [List.filter, hab]
    rw [hf] at hmap hall
    obtain ⟨⟨y, q⟩, rfl⟩ : ∃ x, r = [x] := by
      have : r.length = 1 := by
        have := congrArg List.length hmap
        simpa using this
      exact List.length_eq_one_iff.1 this
    obtain ⟨v, hv, h1, h2⟩ := hall 0 y q rfl
    simp only [List.getElem?_cons_zero, Option.some.injEq, Prod.mk.injEq, true_and] at hv
    obtain ⟨rfl, rfl⟩ := hv
    rw [Function.update_self] at hp
    simp only [Option.some.injEq] at hp
    subst hp
    refine ⟨q, rfl, h1, fun hz => ?_⟩
    obtain ⟨one, h3, h4⟩ := h2 hz
    exact ⟨d1, one, hd1, h3, h4⟩

/-- C155: the upgrade does not shorten or restart the averaging: the next update, whenever it is, needs a full day since the
last one *before* the upgrade, and its averages are the growth of the cumulative prices since then over that time. -/
theorem C155_averaging_goes_on {stored st : Upgrade.Stamp} {a b : I} {decimals : I → Res Nat} {old : V100} {s s' : State I}
    (h : migrate stored a b decimals old = .ok (st, s)) (hab : a ≠ b) (now : Nat) (c0 c1 : Nat)
    (hu : update s now [(a, b, c0), (b, a, c1)] = .ok s') :
    old.ts + 86400 ≤ now ∧ s'.ts = now ∧
    s'.average = [(a, b, (c0 + 2 ^ 128 - old.cumulative0) % 2 ^ 128 * 10 ^ 18 / (now - old.ts)),
                  (b, a, (c1 + 2 ^ 128 - old.cumulative1) % 2 ^ 128 * 10 ^ 18 / (now - old.ts))] := by
  simp only [migrate, storePrecision, bind_ok_iff, Except.ok.injEq, Prod.mk.injEq] at h
  obtain ⟨_, _, p0, ⟨d0, hd0, rfl⟩, p1, ⟨d1, hd1, rfl⟩, _, rfl⟩ := h
  obtain ⟨h1, h2, _⟩ := C66_full_day_between_updates _ _ _ _ hu
  refine ⟨h1, h2, ?_⟩
  have hba : b ≠ a := fun e => hab e.symm
  simp only [update, averages, averagesFor, bind_ok_iff, csub_ok, require_ok, exists_const, Except.ok.injEq] at hu
  obtain ⟨el, ⟨_, rfl⟩, _, avg, hav, rfl⟩ := hu
  rw [if_pos ⟨trivial, trivial⟩, if_neg (fun e => hba e.1), if_neg (fun e => hab e.1), if_pos ⟨trivial, trivial⟩] at hav
  simp only [bind_ok_iff, Except.ok.injEq, averageOf, dec256FromRatio, wrappingSub, cdiv_ok, u256_ok, DEC, U128] at hav
  obtain ⟨_, ⟨_, ⟨_, ⟨_, rfl⟩, _, rfl⟩, _, rfl, rfl⟩, _, ⟨_, ⟨_, ⟨_, ⟨_, rfl⟩, _, rfl⟩, _, rfl, rfl⟩, _, rfl, rfl⟩, rfl⟩ := hav
  rfl

omit [DecidableEq I] in
/-- C155: only oracles of the versions 1.0.0 to 1.0.2 are accepted, and the upgrade fails if the number of decimals of one of
the assets is not known. -/
theorem C155_accepted {stored st : Upgrade.Stamp} [DecidableEq I] {a b : I} {decimals : I → Res Nat} {old : V100} {s : State I}
    (h : migrate stored a b decimals old = .ok (st, s)) :
    stored.name = "astroport-oracle" ∧ stored.version ∈ ([⟨1, 0, 0⟩, ⟨1, 0, 1⟩, ⟨1, 0, 2⟩] : List Upgrade.Version) ∧
    (∃ d, decimals a = .ok d) ∧ (∃ d, decimals b = .ok d) ∧ st = Upgrade.stamp .oracle := by
  simp only [migrate, storePrecision, Upgrade.migrate, bind_ok_iff, require_ok, exists_const, Except.ok.injEq,
    Prod.mk.injEq] at h
  obtain ⟨_, ⟨h1, rfl⟩, p0, ⟨d0, hd0, rfl⟩, p1, ⟨d1, hd1, rfl⟩, rfl, rfl⟩ := h
  simp only [Upgrade.accepts, Bool.and_eq_true, decide_eq_true_eq] at h1
  exact ⟨h1.1, h1.2, ⟨d0, hd0⟩, ⟨d1, hd1⟩, rfl⟩

/-- An oracle with averages 2 and 0.5 (per unit, in the scale of six digits), upgraded, answers 20 and 5 for an amount of 10,
refuses an update within the day, and averages over the whole time afterwards. -/
example :
    okAnd (migrate ⟨"astroport-oracle", 1, 0, 2⟩ false true (fun _ => .ok 6)
        ⟨1000, 500, 2 * 10 ^ 24, 5 * 10 ^ 23, 700000⟩) (fun r =>
      okAnd (consult r.2 false 10 (fun _ _ => .error .overflow)) (fun l => decide (l = [(true, 20)])) &&
      okAnd (consult r.2 true 10 (fun _ _ => .error .overflow)) (fun l => decide (l = [(false, 5)])) &&
      fails (update r.2 (700000 + 86399) [(false, true, 90000), (true, false, 90000)]) &&
      okAnd (update r.2 (700000 + 86400) [(false, true, 87400), (true, false, 86900)])
        (fun s => decide (s.average = [(false, true, 10 ^ 18), (true, false, 10 ^ 18)]))) = true := by decide +kernel

end Verif.Oracle
