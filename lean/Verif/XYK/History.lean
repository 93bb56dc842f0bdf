import Verif.XYK.Props
import Mathlib.Algebra.BigOperators.Ring.Finset

/-!
# C09, C12–C17: history properties of the constant product pair
-/

open scoped BigOperators

namespace Verif.XYK
variable {A : Type} [DecidableEq A]

/-! ### Inversion of one transaction -/

theorem exec_cases {me : A} {s s' : State A} {o : Op A} (h : exec me s o = .ok s') :
    match (generalizing := false) o with
    | .provide now u d0 d1 tol minLp r => u ≠ me ∧ ∃ x, provide me s now u d0 d1 tol minLp r = .ok (s', x)
    | .withdraw now u n mins => u ≠ me ∧ ∃ x, withdraw me s now u n mins = .ok (s', x)
    | .swap now u i n b m r f => u ≠ me ∧ ∃ x, swap me s now u i n b m r f = .ok (s', x)
    | .send i u v n => u ≠ me ∧ ∃ l, move (s.bal i) u v n = .ok l ∧
        s' = { s with bal := fun j => if j = i then l else s.bal j }
    | .sendLp u v n => u ≠ me ∧ ∃ l, move s.lp u v n = .ok l ∧ s' = { s with lp := l } := by
  unfold exec at h
  simp only [bind_ok_iff, require_ok] at h
  obtain ⟨_, h0, k⟩ := h
  cases o <;> refine ⟨h0, ?_⟩ <;> simp only [bind_ok_iff, Except.ok.injEq, Prod.exists] at k ⊢
  · obtain ⟨a, b, k, rfl⟩ := k; exact ⟨_, k⟩
  · obtain ⟨a, b, c, k, rfl⟩ := k; exact ⟨_, _, k⟩
  · obtain ⟨a, b, k, rfl⟩ := k; exact ⟨_, k⟩
  · obtain ⟨l, k, rfl⟩ := k; exact ⟨l, k, rfl⟩
  · obtain ⟨l, k, rfl⟩ := k; exact ⟨l, k, rfl⟩

/-! ### C14: the LP ledger and the locked minimum -/

/-- LP supply is the sum of all LP balances, and is 0 or has 1000 locked in the contract. -/
def LpInv [Fintype A] (me : A) (s : State A) : Prop :=
  s.supply = ∑ a, s.lp a ∧ (s.supply = 0 ∨ 1000 ≤ s.lp me)

theorem lpInv_exec [Fintype A] {me : A} {s s' : State A} {o : Op A} (hi : LpInv me s)
    (h : exec me s o = .ok s') :
    LpInv me s' ∧ (s.supply ≠ 0 → s'.supply ≠ 0) ∧ s.lp me ≤ s'.lp me := by
  have k := exec_cases h
  clear h
  obtain ⟨hsum, hlock⟩ := hi
  cases o with
  | provide now u d0 d1 tol minLp r =>
    obtain ⟨hs, share, h⟩ := k
    have sp := provide_spec hs h
    have hl : s.lp me + (if s.supply = 0 then 1000 else 0) ≤ s'.lp me := by
      rw [sp.hlp, credit_apply, credit_apply]; simp only [if_true]; split <;> split <;> omega
    refine ⟨⟨?_, ?_⟩, ?_, by omega⟩
    · rw [sp.hlp, sum_credit, sum_credit, sp.hsup, hsum]
    · right; split at hl <;> omega
    · intro h0; rw [sp.hsup]; omega
  | withdraw now u n mins =>
    obtain ⟨hs, ⟨r0, r1⟩, h⟩ := k
    have sp := withdraw_spec hs h
    have hu : u ≠ me := hs
    have hl : s'.lp me = s.lp me := by rw [sp.hlp]; simp [Ne.symm hu]
    have hd : debit s.lp u n = .ok s'.lp := by
      rw [debit_ok]
      refine ⟨sp.hfund, ?_⟩
      funext c
      rw [sp.hlp, Function.update_apply]
      split
      next h => rw [h]
      next => rfl
    have hsd := sum_debit hd
    have hsup := sp.hsup
    have hle := le_sum s'.lp me
    have h0 : s.supply ≠ 0 → 1000 ≤ s.lp me := fun h => hlock.resolve_left h
    refine ⟨⟨by omega, ?_⟩, ?_, by omega⟩
    · by_cases hz : s.supply = 0
      · left; omega
      · right; have := h0 hz; omega
    · intro hz; have := h0 hz; omega
  | swap now u i n b m r f =>
    obtain ⟨hs, out, h⟩ := k
    have sp := swap_spec hs h
    unfold LpInv
    rw [sp.hsup, sp.hlp]; exact ⟨⟨hsum, hlock⟩, id, le_refl _⟩
  | send i u v n =>
    obtain ⟨hs, l, h, rfl⟩ := k
    exact ⟨⟨hsum, hlock⟩, id, le_refl _⟩
  | sendLp u v n =>
    obtain ⟨hs, l, h, rfl⟩ := k
    have hu : u ≠ me := hs
    have hl : s.lp me ≤ l me := by
      rw [move_apply h]; simp [Ne.symm hu]
    refine ⟨⟨?_, ?_⟩, id, hl⟩
    · show s.supply = ∑ a, l a
      rw [sum_move h]; exact hsum
    · show s.supply = 0 ∨ 1000 ≤ l me
      omega

theorem lpInv_step [Fintype A] {me : A} {s : State A} (o : Op A) (hi : LpInv me s) :
    LpInv me (step me s o) ∧ (s.supply ≠ 0 → (step me s o).supply ≠ 0) ∧
      s.lp me ≤ (step me s o).lp me := by
  unfold step
  cases he : exec me s o with
  | ok s' => simpa [commit'] using lpInv_exec hi he
  | error e => exact ⟨hi, id, le_refl _⟩

theorem lpInv_run [Fintype A] {me : A} {s : State A} (os : List (Op A)) (hi : LpInv me s) :
    LpInv me (run me s os) ∧ (s.supply ≠ 0 → (run me s os).supply ≠ 0) ∧
      s.lp me ≤ (run me s os).lp me := by
  induction os generalizing s with
  | nil => exact ⟨hi, id, le_refl _⟩
  | cons o os ih =>
    obtain ⟨h1, h2, h3⟩ := lpInv_step o hi
    obtain ⟨g1, g2, g3⟩ := ih h1
    exact ⟨g1, fun h => g2 (h2 h), le_trans h3 g3⟩

theorem lpInv_init [Fintype A] (me : A) (bal : Bool → A → Nat) : LpInv me (init bal) := by
  simp [LpInv, init]

/-- **C14.**  In every history of a freshly created pair: the LP supply is always the sum of all LP
balances; once any LP token exists, the pair itself holds at least 1000 of them forever (its balance
never decreases, whatever anybody does), so the supply never returns to zero or below 1000. -/
theorem C14_minimum_liquidity_locked [Fintype A] (me : A) (bal : Bool → A → Nat)
    (os os' : List (Op A)) :
    let s := run me (init bal) os
    let s' := run me s os'
    s'.supply = ∑ a, s'.lp a ∧ s.lp me ≤ s'.lp me ∧
    (0 < s.supply → 1000 ≤ s.lp me ∧ 1000 ≤ s'.supply) := by
  intro s s'
  obtain ⟨h1, _, _⟩ := lpInv_run os (lpInv_init me bal)
  obtain ⟨g1, g2, g3⟩ := lpInv_run os' h1
  refine ⟨g1.1, g3, fun hpos => ?_⟩
  have h1' : 1000 ≤ s.lp me := h1.2.resolve_left (by show s.supply ≠ 0; omega)
  refine ⟨h1', ?_⟩
  have := le_sum s'.lp me
  have := g1.1
  have g3' : s.lp me ≤ s'.lp me := g3
  show 1000 ≤ s'.supply
  have e : s'.supply = ∑ a, s'.lp a := g1.1
  omega

/-! ### C09: LP value -/

theorem provide_rate {p d T share : Nat} (h : share * p ≤ d * T) : p * (T + share) ≤ (p + d) * T := by
  calc p * (T + share) = p * T + share * p := by ring
    _ ≤ p * T + d * T := by omega
    _ = _ := by ring

theorem withdraw_rate {p r T n T' : Nat} (hr : r ≤ p) (hT : T' + n = T) (h : r * T ≤ p * n) :
    p * T' ≤ (p - r) * T := by
  obtain ⟨q, rfl⟩ := Nat.exists_eq_add_of_le hr
  have : r + q - r = q := by omega
  rw [this]
  subst hT
  nlinarith

/-- Ops that are not swaps. -/
def Op.isSwap : Op A → Bool
  | .swap .. => true
  | _ => false

theorem rate_exec {me : A} {s s' : State A} {o : Op A} (hsup : s.supply ≠ 0)
    (hns : o.isSwap = false) (h : exec me s o = .ok s') (i : Bool) :
    s.bal i me * s'.supply ≤ s'.bal i me * s.supply := by
  have k := exec_cases h
  clear h
  cases o with
  | provide now u d0 d1 tol minLp r =>
    obtain ⟨hs, share, h⟩ := k
    have hu : u ≠ me := hs
    have sp := provide_spec hs h
    obtain ⟨_, _, _, h0, h1, _⟩ := calculateShares_pos_total hsup sp.hshare
    have e0 := move_apply sp.hb0 me
    have e1 := move_apply sp.hb1 me
    simp [Ne.symm hu] at e0 e1
    have hS : s'.supply = s.supply + share := by rw [sp.hsup]; simp [hsup]
    rw [hS]
    cases i
    · rw [e0]; exact provide_rate h0
    · rw [e1]; exact provide_rate h1
  | withdraw now u n mins =>
    obtain ⟨hs, ⟨r0, r1⟩, h⟩ := k
    have hu : u ≠ me := hs
    have sp := withdraw_spec hs h
    have h0 := (shareInAsset_ok hsup sp.hr0).2
    have h1 := (shareInAsset_ok hsup sp.hr1).2
    have e0 := move_apply sp.hb0 me
    have e1 := move_apply sp.hb1 me
    have l0 := move_le sp.hb0
    have l1 := move_le sp.hb1
    simp [Ne.symm hu] at e0 e1
    cases i
    · rw [e0]; exact withdraw_rate l0 sp.hsup h0
    · rw [e1]; exact withdraw_rate l1 sp.hsup h1
  | swap now u i n b m r f => simp [Op.isSwap] at hns
  | send j u v n =>
    obtain ⟨hs, l, h, rfl⟩ := k
    have hu : u ≠ me := hs
    have e := move_apply h me
    simp [Ne.symm hu] at e
    show s.bal i me * s.supply ≤ (if i = j then l else s.bal i) me * s.supply
    apply Nat.mul_le_mul_right
    by_cases hij : i = j
    · subst hij; simp [e]
    · simp [hij]
  | sendLp u v n =>
    obtain ⟨hs, l, h, rfl⟩ := k
    exact le_refl _

/-- `a/b ≤ c/d` and `c/d ≤ e/f` give `a/b ≤ e/f`, cross-multiplied. -/
theorem cross_trans {a b c d e f : Nat} (hd : 0 < d) (h1 : a * d ≤ c * b) (h2 : c * f ≤ e * d) :
    a * f ≤ e * b := by
  have : a * f * d ≤ e * b * d := by
    calc a * f * d = a * d * f := by ring
      _ ≤ c * b * f := Nat.mul_le_mul_right _ h1
      _ = c * f * b := by ring
      _ ≤ e * d * b := Nat.mul_le_mul_right _ h2
      _ = _ := by ring
  exact Nat.le_of_mul_le_mul_right this hd

theorem rate_run [Fintype A] {me : A} {s : State A} (os : List (Op A)) (hi : LpInv me s)
    (hsup : s.supply ≠ 0) (hns : ∀ o ∈ os, o.isSwap = false) (i : Bool) :
    s.bal i me * (run me s os).supply ≤ (run me s os).bal i me * s.supply := by
  induction os generalizing s with
  | nil => exact le_refl _
  | cons o os ih =>
    obtain ⟨h1, h2, _⟩ := lpInv_step o hi
    have hm := h2 hsup
    have hstep : s.bal i me * (step me s o).supply ≤ (step me s o).bal i me * s.supply := by
      unfold step
      cases he : exec me s o with
      | ok s' => simpa [commit'] using rate_exec hsup (hns o (by simp)) he i
      | error e => exact le_refl _
    exact cross_trans (Nat.pos_of_ne_zero hm) hstep
      (ih h1 hm (fun o ho => hns o (by simp [ho])))

/-- **C09, provide / withdraw / transfers.**  Along every history without swaps, starting at any
reachable state with LP tokens, the amount of each asset that stands behind one LP token never falls
(`pool'/supply' ≥ pool/supply`, cross-multiplied): nobody's provide or withdraw takes value from the
others. -/
theorem C09_assets_per_lp_never_fall [Fintype A] (me : A) (bal : Bool → A → Nat)
    (os os' : List (Op A)) (hpos : 0 < (run me (init bal) os).supply)
    (hns : ∀ o ∈ os', o.isSwap = false) (i : Bool) :
    let s := run me (init bal) os
    let s' := run me s os'
    s.bal i me * s'.supply ≤ s'.bal i me * s.supply :=
  rate_run os' (lpInv_run os (lpInv_init me bal)).1 (by omega) hns i

theorem product_exec {me : A} {s s' : State A} {o : Op A} (hsup : s.supply ≠ 0)
    (hf : ∀ now u i n b m r f, o = .swap now u i n b m r f → f.Valid)
    (hsmall : ∀ i, s'.bal i me ≤ 10 ^ 18) (h : exec me s o = .ok s') :
    s.bal false me * s.bal true me * s'.supply ^ 2 ≤
      s'.bal false me * s'.bal true me * s.supply ^ 2 := by
  by_cases hns : o.isSwap = false
  · have h0 := rate_exec hsup hns h false
    have h1 := rate_exec hsup hns h true
    calc s.bal false me * s.bal true me * s'.supply ^ 2
        = (s.bal false me * s'.supply) * (s.bal true me * s'.supply) := by ring
      _ ≤ (s'.bal false me * s.supply) * (s'.bal true me * s.supply) := Nat.mul_le_mul h0 h1
      _ = _ := by ring
  · have k := exec_cases h
    clear h
    cases o with
    | swap now u i n b m r f =>
      obtain ⟨hs, out, h⟩ := k
      have sp := swap_spec hs h
      rw [sp.hsup]
      apply Nat.mul_le_mul_right
      have := (C08_constant_product_partial me s s' now u hs i n b m r f
        (hf _ _ _ _ _ _ _ _ rfl) out h).1 (hsmall i)
      cases i
      · simpa using this
      · simpa [Nat.mul_comm] using this
    | _ => simp [Op.isSwap] at hns

/-- **C09, with swaps (partial).**  Along every history (any mix of transactions, any valid fees)
during which the reserves stay at or below `10^18` raw units, `reserve₀·reserve₁ / supply²` never
falls: the pool's liquidity per LP token only grows.
Missing: reserves above `10^18` units, where a swap can lose a fraction of a unit
(`C08_constant_product_violated`). -/
theorem C09_liquidity_per_lp_never_falls_partial [Fintype A] (me : A) (bal : Bool → A → Nat)
    (os os' : List (Op A)) (hpos : 0 < (run me (init bal) os).supply)
    (hf : ∀ now u i n b m r f, Op.swap now u i n b m r f ∈ os' → f.Valid)
    (hsmall : ∀ k i, (run me (run me (init bal) os) (os'.take k)).bal i me ≤ 10 ^ 18) :
    let s := run me (init bal) os
    let s' := run me s os'
    s.bal false me * s.bal true me * s'.supply ^ 2 ≤
      s'.bal false me * s'.bal true me * s.supply ^ 2 := by
  intro s s'
  have hi : LpInv me s := (lpInv_run os (lpInv_init me bal)).1
  have hs0 : s.supply ≠ 0 := by show (run me (init bal) os).supply ≠ 0; omega
  change ∀ k i, (run me s (os'.take k)).bal i me ≤ 10 ^ 18 at hsmall
  clear hpos
  simp only [s']
  clear_value s
  clear s'
  induction os' generalizing s with
  | nil => exact le_refl _
  | cons o os' ih =>
    obtain ⟨h1, h2, _⟩ := lpInv_step o hi
    have hm := h2 hs0
    have hstep : s.bal false me * s.bal true me * (step me s o).supply ^ 2 ≤
        (step me s o).bal false me * (step me s o).bal true me * s.supply ^ 2 := by
      have hb := hsmall 1
      simp only [List.take_succ_cons, List.take_zero, run, List.foldl_cons, List.foldl_nil] at hb
      unfold step at hb ⊢
      cases he : exec me s o with
      | ok s' =>
        rw [he] at hb
        have := product_exec hs0 (fun now u i n b m r f e => hf now u i n b m r f (by simp [e])) hb he
        simpa [commit'] using this
      | error e => exact le_refl _
    have ht := ih (s := step me s o)
      (fun now u i n b m r f he => hf now u i n b m r f (by simp [he])) h1 hm
      (fun k i => by simpa [run] using hsmall (k + 1) i)
    exact cross_trans (d := (step me s o).supply ^ 2) (by positivity) hstep ht

theorem loss_exec {me : A} {s s' : State A} {o : Op A} (hsup : s.supply ≠ 0)
    (hf : ∀ now u i n b m r f, o = .swap now u i n b m r f → f.Valid) {q : Nat}
    (hq : ∀ now u i n b m r f, o = .swap now u i n b m r f → q ≤ s'.bal (!i) me) (h : exec me s o = .ok s') :
    s.bal false me * s.bal true me * s'.supply ^ 2 * (q * 10 ^ 18) ^ (if o.isSwap then 1 else 0) ≤
      s'.bal false me * s'.bal true me * s.supply ^ 2 * (q * 10 ^ 18 + 1) ^ (if o.isSwap then 1 else 0) := by
  by_cases hns : o.isSwap = false
  · have h0 := rate_exec hsup hns h false
    have h1 := rate_exec hsup hns h true
    simp only [hns, Bool.false_eq_true, if_false, pow_zero, mul_one]
    calc s.bal false me * s.bal true me * s'.supply ^ 2
        = (s.bal false me * s'.supply) * (s.bal true me * s'.supply) := by ring
      _ ≤ (s'.bal false me * s.supply) * (s'.bal true me * s.supply) := Nat.mul_le_mul h0 h1
      _ = _ := by ring
  · have k := exec_cases h
    clear h
    cases o with
    | swap now u i n b m r f =>
      obtain ⟨hs, out, h⟩ := k
      have sp := swap_spec hs h
      have hp := (C08_constant_product_partial me s s' now u hs i n b m r f
        (hf _ _ _ _ _ _ _ _ rfl) out h).2
      rw [sp.hsup]
      simp only [Op.isSwap, if_true, pow_one]
      have hprod : s.bal false me * s.bal true me = s.bal i me * s.bal (!i) me := by
        cases i <;> simp [Nat.mul_comm]
      have hprod' : s'.bal false me * s'.bal true me = s'.bal i me * s'.bal (!i) me := by
        cases i <;> simp [Nat.mul_comm]
      rw [hprod, hprod']
      have hy := hq _ _ _ _ _ _ _ _ rfl
      generalize s'.bal (!i) me = y at *
      have key : s.bal i me * s.bal (!i) me * (q * 10 ^ 18) ≤ s'.bal i me * y * (q * 10 ^ 18 + 1) := by
        calc s.bal i me * s.bal (!i) me * (q * 10 ^ 18)
            = s.bal i me * s.bal (!i) me * 10 ^ 18 * q := by ring
          _ ≤ s'.bal i me * (y * 10 ^ 18 + 1) * q := Nat.mul_le_mul_right _ (le_of_lt hp)
          _ = s'.bal i me * (y * q * 10 ^ 18 + q) := by ring
          _ ≤ s'.bal i me * (y * q * 10 ^ 18 + y) := by
            apply Nat.mul_le_mul_left
            omega
          _ = _ := by ring
      calc s.bal i me * s.bal (!i) me * s.supply ^ 2 * (q * 10 ^ 18)
          = s.bal i me * s.bal (!i) me * (q * 10 ^ 18) * s.supply ^ 2 := by ring
        _ ≤ s'.bal i me * y * (q * 10 ^ 18 + 1) * s.supply ^ 2 := Nat.mul_le_mul_right _ key
        _ = _ := by ring
    | _ => simp [Op.isSwap] at hns

/-- Losses along two stretches multiply, cross-multiplied. -/
theorem loss_trans {p0 p1 p2 S0 S1 S2 c e l : Nat} (hS : 0 < S1)
    (h1 : p0 * S1 * c ^ e ≤ p1 * S0 * (c + 1) ^ e) (h2 : p1 * S2 * c ^ l ≤ p2 * S1 * (c + 1) ^ l) :
    p0 * S2 * (c ^ e * c ^ l) ≤ p2 * S0 * ((c + 1) ^ e * (c + 1) ^ l) := by
  have : p0 * S2 * (c ^ e * c ^ l) * S1 ≤ p2 * S0 * ((c + 1) ^ e * (c + 1) ^ l) * S1 := by
    calc p0 * S2 * (c ^ e * c ^ l) * S1 = (p0 * S1 * c ^ e) * (S2 * c ^ l) := by ring
      _ ≤ (p1 * S0 * (c + 1) ^ e) * (S2 * c ^ l) := Nat.mul_le_mul_right _ h1
      _ = (p1 * S2 * c ^ l) * (S0 * (c + 1) ^ e) := by ring
      _ ≤ (p2 * S1 * (c + 1) ^ l) * (S0 * (c + 1) ^ e) := Nat.mul_le_mul_right _ h2
      _ = _ := by ring
  exact Nat.le_of_mul_le_mul_right this hS

/-- **C09, with swaps and reserves of any size.**  Along every history (any mix of transactions, any valid
fees, reserves of any size) during which both reserves stay at or above `q` units, `reserve₀·reserve₁ / supply²`
falls by at most a factor `q·10^18 / (q·10^18 + 1)` per swap: rounding in the trader's favour costs the LP holders
less than one part in `q·10^18` of the pool per swap, whoever trades, however often. -/
theorem C09_rounding_loss_bounded [Fintype A] (me : A) (bal : Bool → A → Nat)
    (os os' : List (Op A)) (hpos : 0 < (run me (init bal) os).supply)
    (hf : ∀ now u i n b m r f, Op.swap now u i n b m r f ∈ os' → f.Valid) (q : Nat)
    (hq : ∀ k i, q ≤ (run me (run me (init bal) os) (os'.take k)).bal i me) :
    let s := run me (init bal) os
    let s' := run me s os'
    let swaps := (os'.filter Op.isSwap).length
    s.bal false me * s.bal true me * s'.supply ^ 2 * (q * 10 ^ 18) ^ swaps ≤
      s'.bal false me * s'.bal true me * s.supply ^ 2 * (q * 10 ^ 18 + 1) ^ swaps := by
  intro s s' swaps
  have hi : LpInv me s := (lpInv_run os (lpInv_init me bal)).1
  have hs0 : s.supply ≠ 0 := by show (run me (init bal) os).supply ≠ 0; omega
  change ∀ k i, q ≤ (run me s (os'.take k)).bal i me at hq
  clear hpos
  simp only [s', swaps]
  clear_value s
  clear s' swaps
  induction os' generalizing s with
  | nil => simp [run]
  | cons o os' ih =>
    obtain ⟨h1, h2, _⟩ := lpInv_step o hi
    have hm := h2 hs0
    have hb := hq 1
    simp only [List.take_succ_cons, List.take_zero, run, List.foldl_cons, List.foldl_nil] at hb
    have ht := ih (s := step me s o)
      (fun now u i n b m r f he => hf now u i n b m r f (by simp [he])) h1 hm
      (fun k i => by simpa [run] using hq (k + 1) i)
    have hstep : s.bal false me * s.bal true me * (step me s o).supply ^ 2 *
          (q * 10 ^ 18) ^ (if o.isSwap then 1 else 0) ≤
        (step me s o).bal false me * (step me s o).bal true me * s.supply ^ 2 *
          (q * 10 ^ 18 + 1) ^ (if o.isSwap then 1 else 0) := by
      unfold step at hb ⊢
      cases he : exec me s o with
      | ok s' =>
        rw [he] at hb
        have := loss_exec hs0 (fun now u i n b m r f e => hf now u i n b m r f (by simp [e]))
          (fun _ _ i _ _ _ _ _ _ => hb (!i)) he
        simpa [commit'] using this
      | error e =>
        show _ * _ * _ * _ ≤ _ * _ * _ * _
        apply Nat.mul_le_mul_left
        exact Nat.pow_le_pow_left (Nat.le_succ _) _
    have hlen : ((o :: os').filter Op.isSwap).length =
        (if o.isSwap then 1 else 0) + (os'.filter Op.isSwap).length := by
      rw [List.filter_cons]
      split <;> simp [Nat.add_comm]
    rw [hlen, pow_add, pow_add]
    show s.bal false me * s.bal true me * (run me (step me s o) os').supply ^ 2 * _ ≤
      (run me (step me s o) os').bal false me * (run me (step me s o) os').bal true me * s.supply ^ 2 * _
    have hS : 0 < (step me s o).supply ^ 2 := by positivity
    generalize (if o.isSwap then 1 else 0) = e at *
    generalize (os'.filter Op.isSwap).length = l at *
    exact loss_trans hS hstep ht

/-- Non-vacuity: a large pool (reserves above `10^18`), two swaps; both reserves stay above `10^18`. -/
example :
    let s := run (0 : Nat) (init fun _ a => if a = 0 then 0 else 10 ^ 21)
      [.provide 5 1 (10 ^ 20) (3 * 10 ^ 20) none none 1]
    let os' : List (Op Nat) := [.swap 6 2 true (10 ^ 17) none none 2 fees03, .swap 7 2 false 12345 none none 2 fees03]
    0 < s.supply ∧ (os'.filter Op.isSwap).length = 2 ∧
    (∀ k ∈ [0, 1, 2], ∀ i, 10 ^ 18 ≤ (run 0 s (os'.take k)).bal i 0) ∧
    (run 0 s os').bal true 0 ≠ s.bal true 0 := by
  decide +kernel

/-- The code violates the full claim: in a pool reached by one deposit of `2·10^18 - 1` units of both assets a
swap of one unit lowers the product of the reserves, with the LP supply unchanged: the LP holders lose (a
little). -/
theorem C09_liquidity_per_lp_violated :
    let s := run (0 : Nat) (init fun _ a => if a = 0 then 0 else 10 ^ 19)
      [.provide 5 1 (2 * 10 ^ 18 - 1) (2 * 10 ^ 18 - 1) none none 1]
    let s' := run 0 s [.swap 6 2 true 1 none none 2 fees03]
    0 < s.supply ∧
    s'.bal false 0 * s'.bal true 0 * s.supply ^ 2 < s.bal false 0 * s.bal true 0 * s'.supply ^ 2 := by
  decide +kernel

/-- **C09, claims are covered.**  In every reachable state the redeemable amounts of all LP holders
together never exceed the reserves. -/
theorem C09_claims_covered [Fintype A] (me : A) (bal : Bool → A → Nat) (os : List (Op A))
    (c0 c1 : A → Nat)
    (hq : ∀ a, queryShare me (run me (init bal) os) ((run me (init bal) os).lp a) =
      .ok (c0 a, c1 a)) :
    let s := run me (init bal) os
    (∑ a, c0 a) ≤ s.bal false me ∧ (∑ a, c1 a) ≤ s.bal true me := by
  intro s
  have hi : LpInv me s := (lpInv_run os (lpInv_init me bal)).1
  change ∀ a, queryShare me s (s.lp a) = .ok (c0 a, c1 a) at hq
  clear_value s
  have hq' : ∀ a, shareInAsset (s.bal false me) (s.lp a) s.supply = .ok (c0 a) ∧
      shareInAsset (s.bal true me) (s.lp a) s.supply = .ok (c1 a) := by
    intro a
    have := hq a
    unfold queryShare at this
    simp only [bind_ok_iff, Except.ok.injEq, Prod.mk.injEq] at this
    obtain ⟨x, hx, y, hy, rfl, rfl⟩ := this
    exact ⟨hx, hy⟩
  rcases Nat.eq_zero_or_pos s.supply with hz | hpos
  · have h0 : ∀ p n r, shareInAsset p n 0 = .ok r → r = 0 := by
      intro p n r h
      unfold shareInAsset at h
      simp only [if_true, bind_ok_iff, Except.ok.injEq, u128_ok, mulDec] at h
      obtain ⟨x, rfl, _, rfl⟩ := h
      simp
    rw [hz] at hq'
    have e0 : ∀ a, c0 a = 0 := fun a => h0 _ _ _ (hq' a).1
    have e1 : ∀ a, c1 a = 0 := fun a => h0 _ _ _ (hq' a).2
    simp [e0, e1]
  · have key : ∀ (p : Nat) (c : A → Nat), (∀ a, c a * s.supply ≤ p * s.lp a) → ∑ a, c a ≤ p := by
      intro p c hc
      have h1 : (∑ a, c a) * s.supply ≤ p * s.supply := by
        rw [Finset.sum_mul]
        calc ∑ a, c a * s.supply ≤ ∑ a, p * s.lp a := Finset.sum_le_sum (fun a _ => hc a)
          _ = p * ∑ a, s.lp a := by rw [Finset.mul_sum]
          _ = p * s.supply := by rw [hi.1]
      exact Nat.le_of_mul_le_mul_right h1 hpos
    exact ⟨key _ _ fun a => (shareInAsset_ok (by omega) (hq' a).1).2,
      key _ _ fun a => (shareInAsset_ok (by omega) (hq' a).2).2⟩

/-- Non-vacuity: a history on the demo pool with provide, swap, withdrawal, donation, LP transfer in which
every transaction succeeds, and the claims of the two holders exist. -/
example :
    let s := run 0 demo [.provide 9 2 4000 9000 none none 2, .swap 10 3 true 900 none (some (10 ^ 17)) 3 fees03,
      .send false 3 0 77, .sendLp 1 4 100, .withdraw 11 2 3000 none]
    s.supply = 63000 ∧ s.bal false 0 = 41697 ∧ s.lp 0 = 1000 ∧
    okAnd (queryShare 0 s (s.lp 1)) (fun x => x = (38983, 89154)) = true := by
  decide +kernel

/-! ### C12 -/

/-- **C12, deposits.**  A successful provide with `min_lp_to_receive = m` credits the receiver with at
least `m` LP tokens. -/
theorem C12_min_lp_respected (me : A) (s s' : State A) (now : Nat) (u : A) (hu : u ≠ me) (d0 d1 : Nat)
    (tol : Option Nat) (m : Nat) (r : A) (share : Nat)
    (h : provide me s now u d0 d1 tol (some m) r = .ok (s', share)) :
    s.lp r + m ≤ s'.lp r := by
  have sp := provide_spec hu h
  have := sp.hmin
  rw [sp.hlp, credit_apply, credit_apply]
  simp at this ⊢
  split <;> omega

/-- **C12, withdrawals (partial).**  A successful withdrawal naming a minimum for each of the two
pool assets (once each, any order) pays the sender at least these minimums.
Missing: the code also accepts a list naming the same asset twice and then compares the second minimum
with the other asset (`C12_duplicate_minimum_violated`). -/
theorem C12_min_assets_respected_partial (me : A) (s s' : State A) (now : Nat) (u : A) (hu : u ≠ me)
    (n : Nat) (i : Bool) (m k : Nat) (out : Nat × Nat)
    (h : withdraw me s now u n (some [(i, m), (!i, k)]) = .ok (s', out)) :
    s.bal i u + m ≤ s'.bal i u ∧ s.bal (!i) u + k ≤ s'.bal (!i) u := by
  obtain ⟨r0, r1⟩ := out
  have sp := withdraw_spec hu h
  have e0 := move_apply sp.hb0 u
  have e1 := move_apply sp.hb1 u
  simp [hu] at e0 e1
  have hm := sp.hmin
  unfold ensureMinAssets at hm
  cases i <;> simp [bind_ok_iff] at hm <;> simp [e0, e1] <;> omega

/-- Non-vacuity: minimums in either order are enforced. -/
example :
    okAnd (withdraw 0 demo 9 1 6000 (some [(true, 9000), (false, 4000)])) (fun x => x.2 = (4000, 9000)) = true ∧
    fails (withdraw 0 demo 9 1 6000 (some [(true, 9001), (false, 4000)])) = true ∧
    okAnd (provide 0 demo 9 2 4000 9000 none (some 6000) 2) (fun x => x.2 = 6000) = true ∧
    fails (provide 0 demo 9 2 4000 9000 none (some 6001) 2) = true := by
  decide +kernel

/-- The code violates C12 for a list naming asset 0 twice (minimum 5 and minimum 100): the withdrawal
of 5 units of asset 0 and 100 of asset 1 is accepted, although less than 100 units of asset 0 are paid. -/
theorem C12_duplicate_minimum_violated :
    ensureMinAssets false true 5 100 (some [(false, 5), (false, 100)]) = .ok () := by decide

/-! ### C13 -/

/-- The number of LP tokens a provider gets. -/
theorem C13_minted_amount (me : A) (s s' : State A) (now : Nat) (u : A) (hu : u ≠ me) (d0 d1 : Nat)
    (tol minLp : Option Nat) (r : A) (share : Nat)
    (h : provide me s now u d0 d1 tol minLp r = .ok (s', share)) :
    (s.supply = 0 → 0 < share ∧ share + 1000 = Nat.sqrt (d0 * d1)) ∧
    (s.supply ≠ 0 →
      share = min (d0 * s.supply / s.bal false me) (d1 * s.supply / s.bal true me)) := by
  have sp := provide_spec hu h
  constructor
  · intro h0
    have := sp.hshare
    rw [h0] at this
    exact calculateShares_zero_total this
  · intro h0
    exact (calculateShares_pos_total h0 sp.hshare).2.2.1

/-- **C13 (partial).**  A successful provide mints a positive number of LP tokens if it is the first
one, or if each deposit is worth at least one LP unit, or if the provider asked for a positive minimum.
Missing: without these, the code accepts a deposit and mints nothing
(`C13_positive_shares_violated`). -/
theorem C13_positive_shares_partial (me : A) (s s' : State A) (now : Nat) (u : A) (hu : u ≠ me)
    (d0 d1 : Nat) (tol minLp : Option Nat) (r : A) (share : Nat)
    (h : provide me s now u d0 d1 tol minLp r = .ok (s', share))
    (hyp : s.supply = 0 ∨ (s.bal false me ≤ d0 * s.supply ∧ s.bal true me ≤ d1 * s.supply) ∨
      0 < minLp.getD 0) : 0 < share := by
  have sp := provide_spec hu h
  rcases hyp with h0 | ⟨h0, h1⟩ | hm
  · exact ((C13_minted_amount me s s' now u hu d0 d1 tol minLp r share h).1 h0).1
  · by_cases hz : s.supply = 0
    · exact ((C13_minted_amount me s s' now u hu d0 d1 tol minLp r share h).1 hz).1
    · obtain ⟨p0, p1, he, _⟩ := calculateShares_pos_total hz sp.hshare
      rw [he]
      exact lt_min (Nat.div_pos h0 (Nat.pos_of_ne_zero p0)) (Nat.div_pos h1 (Nat.pos_of_ne_zero p1))
  · have := sp.hmin; omega

/-- A pool with 2000 LP tokens and 12000/12000 units (2000 deposited, 10000 donated). -/
def donated : State Nat :=
  run 0 (init fun _ a => if a = 0 then 0 else 20000)
    [.provide 5 1 2000 2000 none none 1, .send false 1 0 10000, .send true 1 0 10000]

/-- The code violates C13: depositing 5 and 5 units into that pool is accepted and mints nothing. -/
theorem C13_positive_shares_violated :
    (do let (s', share) ← provide 0 donated 1 7 5 5 none none 7
        .ok (share, s'.bal false 0, s'.bal false 7, s'.lp 7) : Res (Nat × Nat × Nat × Nat)) =
      .ok (0, 12005, 19995, 0) := by decide +kernel

/-! ### C15 -/

/-- **C15, swap.**  A swap that succeeds returns exactly what `Simulation` quotes in the state before. -/
theorem C15_simulation_equals_swap (me : A) (s s' : State A) (now : Nat) (u : A) (hu : u ≠ me)
    (i : Bool) (n : Nat) (b m : Option Nat) (r : A) (f : Fees A) (out : SwapOut)
    (h : swap me s now u i n b m r f = .ok (s', out)) :
    simulation me s i n f = .ok ⟨out.ret, out.spread, out.commission⟩ :=
  (swap_spec hu h).hsw

/-- **C15, withdraw.**  A withdrawal pays exactly what the share query quotes in the state before. -/
theorem C15_share_equals_withdraw (me : A) (s s' : State A) (now : Nat) (u : A) (hu : u ≠ me)
    (n : Nat) (mins : Option (List (Bool × Nat))) (out : Nat × Nat)
    (h : withdraw me s now u n mins = .ok (s', out)) :
    queryShare me s n = .ok out ∧ s'.bal false u = s.bal false u + out.1 ∧
      s'.bal true u = s.bal true u + out.2 := by
  obtain ⟨r0, r1⟩ := out
  have sp := withdraw_spec hu h
  have e0 := move_apply sp.hb0 u
  have e1 := move_apply sp.hb1 u
  simp [hu] at e0 e1
  refine ⟨?_, e0, e1⟩
  unfold queryShare
  rw [sp.hr0, sp.hr1]
  rfl

/-- **C15, provide.**  A provide mints to the receiver exactly what the provide simulation quotes. -/
theorem C15_simulate_provide_equals_provide (me : A) (s s' : State A) (now : Nat) (u : A) (hu : u ≠ me)
    (d0 d1 : Nat) (tol minLp : Option Nat) (r : A) (hr : r ≠ me) (share : Nat)
    (h : provide me s now u d0 d1 tol minLp r = .ok (s', share)) :
    simulateProvide me s d0 d1 tol = .ok share ∧ s'.lp r = s.lp r + share := by
  have sp := provide_spec hu h
  constructor
  · unfold simulateProvide
    simp only [bind_ok_iff, require_ok]
    have := sp.hd0
    have := sp.hd1
    exact ⟨(), by omega, sp.hshare⟩
  · rw [sp.hlp, credit_apply, credit_apply]
    simp [hr]

/-! ### C16 -/

theorem offer_arith {o a ask rate b N : Nat} (hN : N = o * a / (a - b)) (hb : b < a) (g : Nat)
    (hg : g = (a * DEC - o * a * DEC / (N + 1)) / DEC) (hle : o * a * DEC / (N + 1) ≤ a * DEC)
    (hbe : b = mulDec ask (DEC * DEC / (DEC - rate))) (hr : rate < DEC) :
    b ≤ g ∧ ask * (DEC * DEC) < (g - mulDec g rate + 1) * (DEC * DEC) + ask * DEC := by
  have hab : 0 < a - b := by omega
  have hD := DEC_pos
  have h1 : o * a < (N + 1) * (a - b) := by rw [hN]; exact lt_succ_div_mul _ hab
  have h2 : o * a * DEC / (N + 1) < (a - b) * DEC := by
    rw [Nat.div_lt_iff_lt_mul (by omega)]
    calc o * a * DEC < (N + 1) * (a - b) * DEC := Nat.mul_lt_mul_of_pos_right h1 hD
      _ = _ := by ring
  have h3 : b ≤ g := by
    rw [hg, Nat.le_div_iff_mul_le hD]
    have : (a - b) * DEC = a * DEC - b * DEC := Nat.sub_mul _ _ _
    have : b * DEC ≤ a * DEC := Nat.mul_le_mul_right _ hb.le
    omega
  refine ⟨h3, ?_⟩
  -- return = ceil(g (1 - rate)) ≥ b (1 - rate)
  have hc : mulDec g rate * DEC ≤ g * rate := mulDec_mul_le _ _
  have hx1 : DEC * DEC < (DEC * DEC / (DEC - rate) + 1) * (DEC - rate) :=
    lt_succ_div_mul _ (by omega)
  have hx2 : ask * (DEC * DEC / (DEC - rate)) < (b + 1) * DEC := by
    rw [hbe]; exact lt_mulDec_mul _ _
  generalize DEC * DEC / (DEC - rate) = inv at *
  generalize mulDec g rate = c at *
  obtain ⟨w, hw⟩ := Nat.exists_eq_add_of_le hr.le
  have hw' : DEC - rate = w := by omega
  rw [hw'] at hx1
  have hcg : c ≤ g := by
    have : c * DEC ≤ g * DEC := le_trans hc (Nat.mul_le_mul_left _ hr.le)
    exact Nat.le_of_mul_le_mul_right this hD
  obtain ⟨t, ht⟩ := Nat.exists_eq_add_of_le hcg
  have ht' : g - c = t := by omega
  rw [ht']
  -- t*DEC ≥ g*w
  have h5 : g * w ≤ t * DEC := by
    have e1 : g * DEC = g * rate + g * w := by rw [← Nat.mul_add, ← hw]
    have e2 : g * DEC = c * DEC + t * DEC := by rw [← Nat.add_mul, ← ht]
    omega
  have hwD : w ≤ DEC := by omega
  have hwpos : 0 < w := by omega
  -- chain
  have h6 : ask * (DEC * DEC) ≤ ask * ((inv + 1) * w) := Nat.mul_le_mul_left _ hx1.le
  have h7 : ask * inv * w < (b + 1) * DEC * w := Nat.mul_lt_mul_of_pos_right hx2 hwpos
  have h8 : b * w ≤ g * w := Nat.mul_le_mul_right _ h3
  have h9 : (b + 1) * DEC * w ≤ (t + 1) * (DEC * DEC) := by
    have : (b + 1) * w ≤ (t + 1) * DEC := by
      have e1 : (b + 1) * w = b * w + w := by ring
      have e2 : (t + 1) * DEC = t * DEC + DEC := by ring
      omega
    calc (b + 1) * DEC * w = (b + 1) * w * DEC := by ring
      _ ≤ (t + 1) * DEC * DEC := Nat.mul_le_mul_right _ this
      _ = _ := by ring
  have h10 : ask * w ≤ ask * DEC := Nat.mul_le_mul_left _ hwD
  have h11 : ask * ((inv + 1) * w) = ask * inv * w + ask * w := by ring
  omega

/-- **C16 (partial).**  If reverse simulation quotes `q` for the wanted amount `ask` (below `10^18`),
then a swap offering one unit more than `q` that computes at all returns at least `ask - 1`.
Missing: the full claim — offering `q` itself returns at least `ask` — is false of the code
(`C16_reverse_simulation_violated`), because it rounds the needed offer down. -/
theorem C16_reverse_simulation_partial (me : A) (s : State A) (i : Bool) (ask : Nat) (f : Fees A)
    (q : OfferResult) (r : SwapResult) (hask : ask < 10 ^ 18) (hrate : f.total < 10 ^ 18)
    (hq : reverseSimulation me s i ask f = .ok q)
    (hr : simulation me s i (q.offer + 1) f = .ok r) :
    ask ≤ r.ret + 1 := by
  unfold reverseSimulation computeOfferAmount at hq
  simp only [bind_ok_iff, csub_ok, u128_ok, cdiv_ok, decDiv_ok, Except.ok.injEq] at hq
  obtain ⟨_, hck, w, ⟨_, rfl⟩, inv, ⟨_, _, rfl⟩, b, ⟨_, hb⟩, rest, ⟨hab, rfl⟩, N, ⟨hne, rfl⟩, off,
    ⟨hoN, rfl⟩, _, ⟨_, rfl⟩, _, _, _, _, _, _, rfl⟩ := hq
  obtain ⟨ss⟩ := computeSwap_spec hr
  have hgr := ss.hgross
  have hq := ss.hq
  have hret := ss.hret
  have hcom := ss.hcom
  simp only [mul_one] at hgr hq hne hoN hr
  set o := s.bal i me
  set a := s.bal (!i) me
  have hN1 : o + (o * a / (a - b) - o + 1) = o * a / (a - b) + 1 := by omega
  rw [hN1] at hgr hq
  have hD : DEC = 10 ^ 18 := rfl
  have key := offer_arith (o := o) (a := a) (ask := ask) (rate := f.total) rfl (by omega) _ hgr hq
    hb.symm (by rw [hD]; exact hrate)
  have h2 := key.2
  have hDp := DEC_pos
  rw [← hcom, ← hret] at h2
  generalize r.ret = t at h2 ⊢
  by_contra hcon
  have h3 : t + 2 ≤ ask := by omega
  have h4 : (t + 2) * (DEC * DEC) ≤ ask * (DEC * DEC) := Nat.mul_le_mul_right _ h3
  have h5 : ask * DEC < DEC * DEC := Nat.mul_lt_mul_of_pos_right (by rw [hD]; exact hask) hDp
  have h6 : (t + 2) * (DEC * DEC) = (t + 1) * (DEC * DEC) + DEC * DEC := by ring
  omega

/-- Non-vacuity of C16. -/
example : okAnd (reverseSimulation 0 demo true 500 fees03) (fun q =>
    q.offer = 1141 ∧ okAnd (simulation 0 demo true (q.offer + 1) fees03) (fun r => r.ret = 500)) = true := by
  decide +kernel

/-- The code violates C16: reserves 1000/1 000 000, no fee, 500 units wanted: the quote is 0 units;
and for 1500 units the quote is 1, which returns 999. -/
theorem C16_reverse_simulation_violated :
    computeOfferAmount 1000 1000000 500 0 = .ok ⟨0, 0, 0⟩ ∧
    computeOfferAmount 1000 1000000 1500 0 = .ok ⟨1, 0, 0⟩ ∧
    computeSwap 1000 1000000 1 0 = .ok ⟨999, 1, 0⟩ := by decide

/-! ### C17 -/

/-- Specification: what asset-0's price accumulator must grow by in one transaction at time `now`
against reserves `x`/`y`, the last update having been at `last`. -/
def priceTime (last now x y : Nat) : Nat :=
  if last < now ∧ x ≠ 0 ∧ y ≠ 0 then (now - last) * 10 ^ 6 * y / x else 0

theorem accumulate_spec {c c' : Twap} {now x y : Nat} (h0 : c.p0 < U128) (h1 : c.p1 < U128)
    (h : accumulate c now x y = .ok c') :
    c'.p0 = (c.p0 + priceTime c.last now x y) % U128 ∧
    c'.p1 = (c.p1 + priceTime c.last now y x) % U128 ∧
    c'.last = max c.last now := by
  unfold accumulate at h
  unfold priceTime
  split at h
  next hle =>
    simp only [Except.ok.injEq] at h
    subst h
    have : ¬ c.last < now := by omega
    simp only [this, false_and, if_false, Nat.add_zero]
    exact ⟨(Nat.mod_eq_of_lt h0).symm, (Nat.mod_eq_of_lt h1).symm, by omega⟩
  next hle =>
    have hlt : c.last < now := by omega
    simp only at h
    split at h
    next hxy =>
      simp only [bind_ok_iff, u128_ok, mulRatio_ok, Except.ok.injEq] at h
      obtain ⟨t, ⟨_, rfl⟩, a, ⟨_, _, rfl⟩, b, ⟨_, _, rfl⟩, rfl⟩ := h
      simp only [hlt, true_and, hxy.1, hxy.2, ne_eq, not_false_eq_true, and_self, if_true]
      exact (Nat.max_eq_right hlt.le).symm
    next hxy =>
      simp only [Except.ok.injEq] at h
      subst h
      have e1 : ¬ (c.last < now ∧ x ≠ 0 ∧ y ≠ 0) := fun h => hxy h.2
      have e2 : ¬ (c.last < now ∧ y ≠ 0 ∧ x ≠ 0) := fun h => hxy ⟨h.2.2, h.2.1⟩
      simp only [e1, e2, if_false, Nat.add_zero]
      exact ⟨(Nat.mod_eq_of_lt h0).symm, (Nat.mod_eq_of_lt h1).symm, by omega⟩

/-- Block time of the transactions that touch the pair. -/
def Op.time : Op A → Option Nat
  | .provide now .. | .withdraw now .. | .swap now .. => some now
  | _ => none

/-- Specification: the growth of accumulator `i` over a history — for every successful pair
transaction, `elapsed seconds × 10^6 × price of asset i`, price and elapsed time taken right before it. -/
def growth (me : A) (i : Bool) (s : State A) : List (Op A) → Nat
  | [] => 0
  | o :: os =>
    (match exec me s o, o.time with
      | .ok _, some now => priceTime s.twap.last now (s.bal i me) (s.bal (!i) me)
      | _, _ => 0) + growth me i (step me s o) os

/-- Accumulator of asset `i`. -/
def Twap.acc (t : Twap) (i : Bool) : Nat := if i then t.p1 else t.p0

theorem twap_exec {me : A} {s s' : State A} {o : Op A} (h0 : s.twap.p0 < U128) (h1 : s.twap.p1 < U128)
    (h : exec me s o = .ok s') :
    match o.time with
    | some now => (∀ i, s'.twap.acc i =
        (s.twap.acc i + priceTime s.twap.last now (s.bal i me) (s.bal (!i) me)) % U128) ∧
        s'.twap.last = max s.twap.last now
    | none => s'.twap = s.twap := by
  have k := exec_cases h
  clear h
  have key : ∀ now, accumulate s.twap now (s.bal false me) (s.bal true me) = .ok s'.twap →
      (∀ i, s'.twap.acc i =
        (s.twap.acc i + priceTime s.twap.last now (s.bal i me) (s.bal (!i) me)) % U128) ∧
        s'.twap.last = max s.twap.last now := by
    intro now ha
    obtain ⟨a, b, c⟩ := accumulate_spec h0 h1 ha
    refine ⟨fun i => ?_, c⟩
    cases i
    · simpa [Twap.acc] using a
    · simpa [Twap.acc] using b
  cases o with
  | provide now u d0 d1 tol minLp r =>
    obtain ⟨hs, share, h⟩ := k
    exact key _ (provide_spec hs h).htw
  | withdraw now u n mins =>
    obtain ⟨hs, ⟨r0, r1⟩, h⟩ := k
    exact key _ (withdraw_spec hs h).htw
  | swap now u i n b m r f =>
    obtain ⟨hs, out, h⟩ := k
    exact key _ (swap_spec hs h).htw
  | send i u v n =>
    obtain ⟨hs, l, h, rfl⟩ := k
    rfl
  | sendLp u v n =>
    obtain ⟨hs, l, h, rfl⟩ := k
    rfl

theorem acc_lt {t : Twap} (h0 : t.p0 < U128) (h1 : t.p1 < U128) (i : Bool) : t.acc i < U128 := by
  cases i <;> simpa [Twap.acc]

/-- **C17.**  Over every history from every state (accumulators in range), each accumulator ends at its
initial value plus the exact time-weighted price growth, modulo `2^128`; so the wrapped difference of
two readings is the growth between them whenever that is below `2^128`. -/
theorem C17_accumulator_growth (me : A) (s : State A) (os : List (Op A)) (i : Bool)
    (h0 : s.twap.p0 < U128) (h1 : s.twap.p1 < U128) :
    let s' := run me s os
    s'.twap.acc i = (s.twap.acc i + growth me i s os) % U128 ∧
    (growth me i s os < U128 →
      (s'.twap.acc i + U128 - s.twap.acc i) % U128 = growth me i s os) := by
  intro s'
  have main : s'.twap.acc i = (s.twap.acc i + growth me i s os) % U128 := by
    simp only [s']
    clear s'
    induction os generalizing s with
    | nil => exact (Nat.mod_eq_of_lt (acc_lt h0 h1 i)).symm
    | cons o os ih =>
      have hU : 0 < U128 := by decide
      cases he : exec me s o with
      | error e =>
        have hst : step me s o = s := by simp [step, he, commit']
        simp only [run, List.foldl_cons, growth, hst, he, Nat.zero_add]
        exact ih s h0 h1
      | ok s1 =>
        have hst : step me s o = s1 := by simp [step, he, commit']
        have ht := twap_exec h0 h1 he
        simp only [run, List.foldl_cons, growth, hst, he]
        cases htm : o.time with
        | none =>
          rw [htm] at ht
          have ht : s1.twap = s.twap := ht
          have := ih s1 (by rw [ht]; exact h0) (by rw [ht]; exact h1)
          simp only [Nat.zero_add]
          rw [← ht]; exact this
        | some now =>
          rw [htm] at ht
          obtain ⟨ht, _⟩ := ht
          have f0 : s1.twap.p0 < U128 := by
            have := ht false
            simp only [Twap.acc] at this
            simp at this
            rw [this]; exact Nat.mod_lt _ hU
          have f1 : s1.twap.p1 < U128 := by
            have := ht true
            simp only [Twap.acc] at this
            simp at this
            rw [this]; exact Nat.mod_lt _ hU
          have := ih s1 f0 f1
          simp only [run] at this
          rw [this, ht i, Nat.mod_add_mod, Nat.add_assoc]
  refine ⟨main, fun hg => ?_⟩
  rw [main]
  have ha := acc_lt h0 h1 i
  generalize s.twap.acc i = a at *
  generalize growth me i s os = g at *
  rcases Nat.lt_or_ge (a + g) U128 with hlt | hge
  · rw [Nat.mod_eq_of_lt hlt]
    have : a + g + U128 - a = g + U128 := by omega
    rw [this, Nat.add_mod_right, Nat.mod_eq_of_lt hg]
  · have e : (a + g) % U128 = a + g - U128 := by
      rw [Nat.mod_eq_sub_mod hge, Nat.mod_eq_of_lt (by omega)]
    rw [e]
    have : a + g - U128 + U128 - a = g := by omega
    rw [this, Nat.mod_eq_of_lt hg]

/-- **C17, no double counting.**  A transaction in a block that already updated the accumulators leaves
them as they are. -/
theorem C17_once_per_block (me : A) (s s' : State A) (o : Op A) (h0 : s.twap.p0 < U128)
    (h1 : s.twap.p1 < U128) (h : exec me s o = .ok s')
    (hnow : ∀ now, o.time = some now → now ≤ s.twap.last) : s'.twap = s.twap := by
  have ht := twap_exec h0 h1 h
  cases htm : o.time with
  | none => rw [htm] at ht; exact ht
  | some now =>
    rw [htm] at ht
    obtain ⟨ht, hl⟩ := ht
    have hle := hnow now htm
    have hz : ∀ x y, priceTime s.twap.last now x y = 0 := by
      intro x y; unfold priceTime; simp; omega
    have a0 := ht false
    have a1 := ht true
    rw [hz, Nat.add_zero, Nat.mod_eq_of_lt (acc_lt h0 h1 _)] at a0 a1
    simp only [Twap.acc] at a0 a1
    simp at a0 a1
    have hl' : s'.twap.last = s.twap.last := by omega
    cases h2 : s'.twap
    cases h3 : s.twap
    simp_all

/-- Non-vacuity: two swaps ten seconds apart make accumulator 0 grow by a positive amount. -/
example :
    let os := [.swap 10 3 true 900 none (some (10 ^ 17)) 3 fees03, .swap 20 3 true 900 none (some (10 ^ 17)) 3 fees03]
    growth 0 false demo os = 5 * 10 ^ 6 * 90000 / 40000 + 10 * 10 ^ 6 * 90900 / 39605 := by
  decide +kernel

end Verif.XYK
