import Verif.XYK.Lemmas
import Mathlib.Data.Rat.Cast.Order
import Mathlib.Algebra.Order.Field.Basic
import Mathlib.Tactic.FieldSimp
import Mathlib.Data.Nat.Sqrt

/-!
# C08–C17: constant product pair
-/

namespace Verif.XYK
variable {A : Type} [DecidableEq A]

/-- Fee configurations the factory / pair can hold: rates of at most 100 %, share of at most 100 %. -/
def Fees.Valid (f : Fees A) : Prop :=
  f.total ≤ 10 ^ 18 ∧ f.maker ≤ 10 ^ 18 ∧ ∀ p, f.share = some p → p.1 ≤ 10000

/-! ### C08 -/

omit [DecidableEq A] in
theorem Fees.Valid.split {f : Fees A} (hf : f.Valid) {c x y : Nat}
    (h : splitFees f c = .ok (x, y)) : x + y ≤ c := by
  classical exact splitFees_le hf.2.1 hf.2.2 h

/-- **C08 (partial).**  Any successful swap (any sender, receiver, valid fees): the product of the
reserves does not decrease as long as the offered reserve after the swap is at most `10^18` raw units;
and for reserves of any size the loss is below one `10^-18`-th of an ask unit times the offer reserve.
Missing: the full claim for larger reserves is false of the code (`C08_constant_product_violated`). -/
theorem C08_constant_product_partial (me : A) (s s' : State A) (now : Nat) (u : A) (hu : u ≠ me)
    (i : Bool) (n : Nat) (b m : Option Nat) (r : A) (f : Fees A) (hf : f.Valid) (out : SwapOut)
    (h : swap me s now u i n b m r f = .ok (s', out)) :
    (s'.bal i me ≤ 10 ^ 18 →
      s.bal i me * s.bal (!i) me ≤ s'.bal i me * s'.bal (!i) me) ∧
    s.bal i me * s.bal (!i) me * 10 ^ 18 < s'.bal i me * (s'.bal (!i) me * 10 ^ 18 + 1) := by
  have sp := swap_spec hu h
  obtain ⟨ss⟩ := computeSwap_spec sp.hsw
  obtain ⟨hg1, hg2, _, _⟩ := gross_arith ss.ho ss.hq ss.hgross
  have hask := swap_ask_ge sp
  have hsplit := hf.split sp.hsplit
  have hret := ss.hret
  have hcle := ss.hle
  simp only at hret hcle
  have hnew : s.bal (!i) me - ss.gross ≤ s'.bal (!i) me := by omega
  have hoff := move_apply sp.hbo me
  simp [Ne.symm hu] at hoff
  rw [hoff]
  have hD : DEC = 10 ^ 18 := rfl
  constructor
  · intro hsmall
    have := k_of_small (by rw [hD]; exact hsmall) hg2
    exact le_trans this (Nat.mul_le_mul_left _ hnew)
  · rw [← hD]
    refine lt_of_lt_of_le hg2 ?_
    apply Nat.mul_le_mul_left
    have := Nat.mul_le_mul_right DEC hnew
    omega

/-- No fees at all. -/
def noFees : Fees Nat := ⟨0, 0, none, none⟩
/-- The standard 0.3 % commission, a third of it to the Maker (account 8), 5 % shared with account 9. -/
def fees03 : Fees Nat := ⟨3 * 10 ^ 15, 33 * 10 ^ 16, some 8, some (500, 9)⟩

/-- A demo pool: account 0 is the pair, everybody else starts with 10^6 of both assets; account 1
provides 40000/90000. -/
def demo : State Nat :=
  run 0 (init fun _ a => if a = 0 then 0 else 10 ^ 6) [.provide 5 1 40000 90000 none none 1]

example : fees03.Valid := by
  refine ⟨by decide, by decide, ?_⟩
  intro p hp
  simp [fees03] at hp
  subst hp
  decide

/-- Non-vacuity of the swap theorems: a swap of 1000 units on the demo pool. -/
example : okAnd (swap 0 demo 9 2 true 1000 none (some (10 ^ 17)) 2 fees03) (fun x =>
    x.2.ret = 438 ∧ x.2.commission = 1 ∧ x.1.bal true 0 = 91000 ∧ x.1.bal true 0 ≤ 10 ^ 18) = true := by
  decide +kernel

/-- The code violates C08: in a pool reached by one deposit of `2·10^18 - 1` units of both assets (less
than two tokens of an 18-decimals asset), with a 0.3 % commission, offering 1 unit returns 1 unit; the
product of the reserves drops. -/
theorem C08_constant_product_violated :
    let s := run 0 (init fun _ a => if a = 0 then 0 else 10 ^ 19)
      [.provide 5 1 (2 * 10 ^ 18 - 1) (2 * 10 ^ 18 - 1) none none 1]
    okAnd (swap 0 s 6 2 true 1 none none 2 fees03) (fun x =>
      x.1.bal true 0 * x.1.bal false 0 < s.bal true 0 * s.bal false 0) = true := by
  decide +kernel

/-! ### C10 -/

/-- **C10 (partial).**  Any successful swap: trader output + commission (the gross output) is at most
the ask reserve, shared fee + maker fee is at most the commission, the gross output is the exact
constant product floor or one more, and — the recipients not being the pair itself — reserves change by
exactly offer in and (return + maker fee + shared fee) out.  The gross output is strictly less than the
reserve unless the offer exceeds `10^18` times the product of the reserves.
Missing: strictness without that side condition, false in the code (`C10_reserve_drained`). -/
theorem C10_swap_accounting_partial (me : A) (s s' : State A) (now : Nat) (u : A) (hu : u ≠ me)
    (i : Bool) (n : Nat) (b m : Option Nat) (r : A) (f : Fees A) (hf : f.Valid) (out : SwapOut)
    (h : swap me s now u i n b m r f = .ok (s', out)) :
    out.ret + out.commission ≤ s.bal (!i) me ∧
    out.makerFee + out.feeShare ≤ out.commission ∧
    s.bal (!i) me * n / (s.bal i me + n) ≤ out.ret + out.commission ∧
    out.ret + out.commission ≤ s.bal (!i) me * n / (s.bal i me + n) + 1 ∧
    s'.bal i me = s.bal i me + n ∧
    (r ≠ me → f.feeAddr ≠ some me → (∀ p, f.share = some p → p.2 ≠ me) →
      s'.bal (!i) me + (out.ret + (if f.feeAddr = none then 0 else out.makerFee) +
        (if f.share = none then 0 else out.feeShare)) = s.bal (!i) me) ∧
    (s.bal i me + n ≤ s.bal i me * s.bal (!i) me * 10 ^ 18 →
      out.ret + out.commission < s.bal (!i) me) := by
  have sp := swap_spec hu h
  obtain ⟨ss⟩ := computeSwap_spec sp.hsw
  obtain ⟨hg1, hg2, hg3, hg4⟩ := gross_arith ss.ho ss.hq ss.hgross
  have hsplit := hf.split sp.hsplit
  have hret := ss.hret
  have hcle := ss.hle
  simp only at hret hcle
  have hgr : out.ret + out.commission = ss.gross := by omega
  have hoff := move_apply sp.hbo me
  simp [Ne.symm hu] at hoff
  refine ⟨by omega, by omega, by omega, by omega, hoff, ?_, ?_⟩
  · intro hr hfa hsh
    obtain ⟨l1, l2, h1, h2, h3⟩ := sp.hba
    have e1 := move_apply h1 me
    have e1' := move_le h1
    simp [Ne.symm hr] at e1
    have e2 : l2 me + (if f.share = none then 0 else out.feeShare) = l1 me := by
      cases hs : f.share with
      | none => simp [hs, sendOpt] at h2; simp [h2]
      | some p =>
        simp only [hs, Option.map_some, sendOpt] at h2
        have := move_apply h2 me
        have hle := move_le h2
        simp [Ne.symm (hsh p hs)] at this
        simp; omega
    have e3 : s'.bal (!i) me + (if f.feeAddr = none then 0 else out.makerFee) = l2 me := by
      cases hs : f.feeAddr with
      | none => simp [hs, sendOpt] at h3; simp [h3]
      | some p =>
        simp only [hs, sendOpt] at h3
        have hp : me ≠ p := fun hp => hfa (by rw [hs, hp])
        have := move_apply h3 me
        have hle := move_le h3
        simp [hp] at this
        simp; omega
    omega
  · intro hbig
    rw [hgr]
    rcases Nat.lt_or_ge ss.gross (s.bal (!i) me) with hlt | hge
    · exact hlt
    · exfalso
      have : s.bal (!i) me - ss.gross = 0 := by omega
      rw [this] at hg2
      have hD : DEC = 10 ^ 18 := rfl
      rw [← hD] at hbig
      omega

/-- The code violates the strict part of C10: in a pool of 1001/1001 units (one minimal deposit), an
offer of `2·10^24` units takes the whole other reserve, because the 18-digit quotient truncates to zero.
Afterwards the pool is dead: trading and depositing both fail. -/
theorem C10_reserve_drained :
    let s := run 0 (init fun _ a => if a = 0 then 0 else 10 ^ 30)
      [.provide 5 1 1001 1001 none none 1]
    okAnd (swap 0 s 6 2 true (2 * 10 ^ 24) (some (10 ^ 37)) none 2 noFees) (fun x =>
      x.2.ret = 1001 ∧ x.1.bal false 0 = 0 ∧
      fails (swap 0 x.1 7 3 false 100000 none (some (5 * 10 ^ 17)) 3 noFees) ∧
      fails (provide 0 x.1 7 3 100000 100000 none none 3)) = true := by
  decide +kernel

/-! ### C11 -/

/-- **C11.**  If a swap succeeds, then `max_spread` (0.5 % if absent) is at most 50 % and:
* with belief price `p > 0` (atomics), the gross output is at least
  `(1 - max_spread - 10^-18)` of `offer / p`, where `offer / p` may be lowered by rounding of
  `offer·10^-18 + 1`;
* without one, `spread ≤ (max_spread + 10^-18)·(gross output + spread)`. -/
theorem C11_swap_slippage_enforced (me : A) (s s' : State A) (now : Nat) (u : A) (hu : u ≠ me)
    (i : Bool) (n : Nat) (b m : Option Nat) (r : A) (f : Fees A) (out : SwapOut)
    (h : swap me s now u i n b m r f = .ok (s', out)) :
    let ms : ℚ := ((m.getD 5000000000000000 : ℕ) : ℚ) / 10 ^ 18
    let gross : ℚ := (out.ret : ℚ) + out.commission
    ms ≤ 1 / 2 ∧
    (∀ p, b = some p → 0 < p ∧
      (1 - ms - 1 / 10 ^ 18) * ((n : ℚ) / ((p : ℚ) / 10 ^ 18) - n / 10 ^ 18 - 1) ≤ gross) ∧
    (b = none → (out.spread : ℚ) ≤ (ms + 1 / 10 ^ 18) * (gross + out.spread)) := by
  intro ms gross
  have sp := (swap_spec hu h).hspread
  unfold assertMaxSpread at sp
  simp only [bind_ok_iff, require_ok] at sp
  obtain ⟨_, hms, hb⟩ := sp
  have hmsN : m.getD 5000000000000000 ≤ 5 * 10 ^ 17 := by
    simpa [defaultSlippage, maxAllowedSlippage] using hms
  have hms' : ms ≤ 1 / 2 := by
    have : ((m.getD 5000000000000000 : ℕ) : ℚ) ≤ 5 * 10 ^ 17 := by exact_mod_cast hmsN
    simp only [ms]
    rw [div_le_iff₀ (by norm_num)]
    linarith
  have hms0 : 0 ≤ ms := by positivity
  have hDq : (DEC : ℚ) = 10 ^ 18 := by norm_num [DEC]
  have hgross : (gross : ℚ) = ((out.ret + out.commission : ℕ) : ℚ) := by simp [gross]
  refine ⟨hms', ?_, ?_⟩
  · intro p hp
    subst hp
    simp only [bind_ok_iff, orErr_ok, u128_ok] at hb
    obtain ⟨inv, hinv, e, ⟨_, rfl⟩, hb⟩ := hb
    unfold decInv at hinv
    split at hinv
    · simp at hinv
    next hp0 =>
    simp at hinv
    have hppos : 0 < p := Nat.pos_of_ne_zero hp0
    refine ⟨hppos, ?_⟩
    have hpq : (0 : ℚ) < p := by exact_mod_cast hppos
    -- lower bound of the expected return
    have hi1 : DEC * DEC < (inv + 1) * p := by rw [← hinv]; exact lt_succ_div_mul _ hppos
    have hi2 : n * inv < (mulDec n inv + 1) * DEC := lt_mulDec_mul _ _
    generalize he : mulDec n inv = e at *
    have hi1q : (10 ^ 18 * 10 ^ 18 : ℚ) < ((inv : ℚ) + 1) * p := by
      rw [← hDq]; exact_mod_cast hi1
    have hi2q : (n : ℚ) * inv < ((e : ℚ) + 1) * 10 ^ 18 := by
      rw [← hDq]; exact_mod_cast hi2
    have hinvq : (10 ^ 18 * 10 ^ 18 : ℚ) / p - 1 ≤ inv := by
      rw [sub_le_iff_le_add, div_le_iff₀ hpq]; exact hi1q.le
    have hlow : (n : ℚ) / ((p : ℚ) / 10 ^ 18) - n / 10 ^ 18 - 1 ≤ e := by
      have hn0 : (0 : ℚ) ≤ n := by positivity
      have h1 : (n : ℚ) * ((10 ^ 18 * 10 ^ 18 : ℚ) / p - 1) ≤ n * inv :=
        mul_le_mul_of_nonneg_left hinvq hn0
      have h2 : (n : ℚ) / ((p : ℚ) / 10 ^ 18) - n / 10 ^ 18 =
          (n * ((10 ^ 18 * 10 ^ 18 : ℚ) / p - 1)) / 10 ^ 18 := by
        field_simp
      rw [h2, sub_le_iff_le_add, div_le_iff₀ (by norm_num)]
      linarith
    have hfac : (0 : ℚ) ≤ 1 - ms - 1 / 10 ^ 18 := by
      have : (1 : ℚ) / 10 ^ 18 ≤ 1 / 2 := by norm_num
      linarith
    refine le_trans (mul_le_mul_of_nonneg_left hlow hfac) ?_
    rw [hgross]
    split at hb
    next hlt =>
      simp only [bind_ok_iff, decFromRatio_ok, require_ok] at hb
      obtain ⟨x, ⟨he0, _, rfl⟩, hx⟩ := hb
      have hx' : (e - (out.ret + out.commission)) * DEC / e ≤ m.getD defaultSlippage := by omega
      have h3 : (e - (out.ret + out.commission)) * DEC < (m.getD defaultSlippage + 1) * e := by
        refine lt_of_lt_of_le (lt_succ_div_mul _ (Nat.pos_of_ne_zero he0)) ?_
        exact Nat.mul_le_mul_right _ (by omega)
      have h3q : ((e : ℚ) - (out.ret + out.commission : ℕ)) * 10 ^ 18 <
          ((m.getD 5000000000000000 : ℕ) + 1) * e := by
        rw [← hDq, ← Nat.cast_sub hlt.le]; exact_mod_cast h3
      have : ((e : ℚ) - (out.ret + out.commission : ℕ)) ≤ (ms + 1 / 10 ^ 18) * e := by
        have h4 : (ms + 1 / 10 ^ 18) * e = (((m.getD 5000000000000000 : ℕ) + 1) * e) / 10 ^ 18 := by
          simp only [ms]; ring
        rw [h4, le_div_iff₀ (by norm_num)]
        exact h3q.le
      linarith
    next hge =>
      have hge' : (e : ℚ) ≤ ((out.ret + out.commission : ℕ) : ℚ) := by
        exact_mod_cast Nat.le_of_not_lt hge
      have he0 : (0 : ℚ) ≤ e := by positivity
      have : (1 - ms - 1 / 10 ^ 18) * (e : ℚ) ≤ 1 * e := by
        apply mul_le_mul_of_nonneg_right _ he0
        have : (0 : ℚ) ≤ 1 / 10 ^ 18 := by norm_num
        linarith
      linarith
  · intro hb0
    subst hb0
    simp only [bind_ok_iff, u128_ok, decFromRatio_ok, require_ok] at hb
    obtain ⟨t, ⟨_, rfl⟩, x, ⟨ht0, _, rfl⟩, hx⟩ := hb
    have h3 : out.spread * DEC <
        (m.getD defaultSlippage + 1) * (out.ret + out.commission + out.spread) := by
      refine lt_of_lt_of_le (lt_succ_div_mul _ (Nat.pos_of_ne_zero ht0)) ?_
      exact Nat.mul_le_mul_right _ (by omega)
    have h3q : (out.spread : ℚ) * 10 ^ 18 <
        ((m.getD 5000000000000000 : ℕ) + 1) * ((out.ret + out.commission + out.spread : ℕ) : ℚ) := by
      rw [← hDq]; exact_mod_cast h3
    have h4 : (ms + 1 / 10 ^ 18) * (gross + out.spread) =
        (((m.getD 5000000000000000 : ℕ) + 1) * ((out.ret + out.commission + out.spread : ℕ) : ℚ)) /
          10 ^ 18 := by
      simp only [ms, gross]; push_cast; ring
    rw [h4, le_div_iff₀ (by norm_num)]
    exact h3q.le

/-- Non-vacuity, with a belief price (2.25 of asset 1 per asset 0) and default spread: accepted; with a
too optimistic one, or without enough `max_spread`: rejected. -/
example : okAnd (swap 0 demo 9 2 true 100 (some (2265 * 10 ^ 15)) none 2 fees03) (fun x =>
      x.2.ret = 44) = true ∧
    fails (swap 0 demo 9 2 true 100 (some (20 * 10 ^ 17)) none 2 fees03) = true ∧
    fails (swap 0 demo 9 2 true 1000 none (some (10 ^ 16)) 2 fees03) = true := by
  decide +kernel

end Verif.XYK
