import Verif.PCL.Gifts
import Verif.PCL.Solver

/-!
# C195: a concentrated pool stops working when it is large

Balances are 128 bit numbers, but the solver's intermediate products have 256 bits of which 18 digits are behind the point.
A pool with 10^12 tokens of each asset (counting the second at the price scale), whose `amp * gamma^2` is at least 0.00000001,
is beyond the solver: no deposit can take a pool there, and a pool brought there by transfers accepts no trade and no
deposit.  Already well below this limit, trades of some sizes fail while smaller and larger ones succeed.
-/

namespace Verif.PCL

open Verif.Stable (dmul ddiv dadd toU128 withPrec absDiff payout)

variable {A : Type} [DecidableEq A]

/-! ## Specification -/

/-- `amp * gamma^2`, in 18 digits. -/
def strength (ag : AG) : Nat := ag.amp * (ag.gamma * ag.gamma / 10 ^ 18) / 10 ^ 18

/-- The pool's parameters at time `now` give `amp * gamma^2` at least 0.00000001. -/
def Strong (p : Pool) (now : Nat) : Prop := ∀ ag, ampGamma p now = .ok ag → 10 ^ 10 ≤ strength ag

/-- `n` of the first and `m` of the second asset are at least 10^12 tokens each, the second counted at the price scale. -/
def Huge (su : Setup) (p : Pool) (n m : Nat) : Prop :=
  10 ^ 30 ≤ n * 10 ^ (18 - su.prec false) ∧ 10 ^ 48 ≤ m * 10 ^ (18 - su.prec true) * p.price.scale

/-! ## Proofs -/

theorem dsqrt_ge {x : Nat} (h : 10 ^ 42 ≤ x) : 10 ^ 30 ≤ dsqrt x := by
  unfold dsqrt
  have h1 := sqrtScale_le x 9
  generalize sqrtScale x 9 = i at *
  have h2 : 10 ^ (21 + i) ≤ Nat.sqrt (x * 100 ^ i) := by
    rw [Nat.le_sqrt]
    calc 10 ^ (21 + i) * 10 ^ (21 + i) = 10 ^ 42 * 100 ^ i := by
          rw [show (100 : Nat) = 10 ^ 2 by norm_num, ← pow_mul, ← pow_add, ← pow_add]; congr 1; omega
      _ ≤ x * 100 ^ i := Nat.mul_le_mul_right _ h
  calc 10 ^ 30 = 10 ^ (21 + i) * 10 ^ (9 - i) := by rw [← pow_add]; congr 1; omega
    _ ≤ _ := Nat.mul_le_mul_right _ h2

theorem mul_mag {a b c : SD} (h : SD.mul a b = .ok c) : c.val = a.val * b.val / 10 ^ 18 ∧ c.val < 2 ^ 256 := by
  simp only [SD.mul, bind_ok_iff, Stable.dmul_ok, Except.ok.injEq] at h
  obtain ⟨v, ⟨h1, rfl⟩, rfl⟩ := h
  exact ⟨rfl, h1⟩

theorem mulDec_mag {a c : SD} {b : Nat} (h : SD.mulDec a b = .ok c) : c.val = a.val * b / 10 ^ 18 := by
  simp only [SD.mulDec, bind_ok_iff, Stable.dmul_ok, Except.ok.injEq] at h
  obtain ⟨v, ⟨h1, rfl⟩, rfl⟩ := h
  rfl

theorem dfdd_small {x0 x1 d a g : Nat} {v : SD} (h : dfdd (SD.ofDec d) (SD.ofDec x0) (SD.ofDec x1) a g = .ok v)
    (h0 : 10 ^ 30 ≤ x0) (h1 : 10 ^ 30 ≤ x1) (hd : 2 * 10 ^ 30 ≤ d) :
    a * (g * g / 10 ^ 18) / 10 ^ 18 < 10 ^ 10 := by
  by_contra hc
  rw [not_lt] at hc
  unfold dfdd at h
  rw [bind_ok_iff] at h; obtain ⟨g2, h1', h⟩ := h
  rw [bind_ok_iff] at h; obtain ⟨ag, h2, h⟩ := h
  rw [bind_ok_iff] at h; obtain ⟨g1, h3, h⟩ := h
  rw [bind_ok_iff] at h; obtain ⟨d2, h4, h⟩ := h
  rw [bind_ok_iff] at h; obtain ⟨mul, h5, h⟩ := h
  rw [bind_ok_iff] at h; obtain ⟨prod, h6, h⟩ := h
  rw [bind_ok_iff] at h; obtain ⟨sum, h7, h⟩ := h
  rw [bind_ok_iff] at h; obtain ⟨k0, h8, h⟩ := h
  rw [bind_ok_iff] at h; obtain ⟨k0p, h9, h⟩ := h
  rw [bind_ok_iff] at h; obtain ⟨gk, h10, h⟩ := h
  rw [bind_ok_iff] at h; obtain ⟨gk2, h11, h⟩ := h
  rw [bind_ok_iff] at h; obtain ⟨agk0, h12, h⟩ := h
  rw [bind_ok_iff] at h; obtain ⟨k, h13, h⟩ := h
  rw [bind_ok_iff] at h; obtain ⟨pag, h14, h⟩ := h
  rw [bind_ok_iff] at h; obtain ⟨n1, h15, h⟩ := h
  rw [bind_ok_iff] at h; obtain ⟨gpk, h16, h⟩ := h
  rw [bind_ok_iff] at h; obtain ⟨knum, h17, h⟩ := h
  rw [bind_ok_iff] at h; obtain ⟨d3, h18, h⟩ := h
  rw [bind_ok_iff] at h; obtain ⟨p1, h19, h⟩ := h
  rw [bind_ok_iff] at h; obtain ⟨p2, h20, h⟩ := h
  rw [bind_ok_iff] at h; obtain ⟨p3, h21, h⟩ := h
  rw [bind_ok_iff] at h; obtain ⟨kden, h22, h⟩ := h
  rw [bind_ok_iff] at h; obtain ⟨t1, h23, h⟩ := h
  rw [bind_ok_iff] at h; obtain ⟨t2, h24, h⟩ := h
  clear h h10 h11 h12 h13 h18 h19 h20 h21 h22
  -- the factor `amp * gamma^2`
  rw [dpow_two, Stable.dmul_ok] at h1'
  obtain ⟨_, rfl⟩ := h1'
  rw [Stable.dmul_ok] at h2
  obtain ⟨_, hag⟩ := h2
  have hA : 10 ^ 10 ≤ ag := hag ▸ hc
  -- the product of the reserves
  have e5 := (mul_mag h5).1
  have e6 := mulDec_mag h6
  have e9 := (mul_mag h9).1
  have b5 : 10 ^ 42 ≤ mul.val := by
    rw [e5]
    show 10 ^ 42 ≤ x0 * x1 / 10 ^ 18
    rw [Nat.le_div_iff_mul_le (by norm_num)]
    calc 10 ^ 42 * 10 ^ 18 = 10 ^ 30 * 10 ^ 30 := by norm_num
      _ ≤ x0 * x1 := Nat.mul_le_mul h0 h1
  have b6 : 4 * 10 ^ 42 ≤ prod.val := by
    rw [e6, show NPOW2 = 4 * 10 ^ 18 from rfl]
    omega
  have b9 : 8 * 10 ^ 42 ≤ k0p.val := by
    rw [e9]
    show 8 * 10 ^ 42 ≤ 2 * 10 ^ 18 * prod.val / 10 ^ 18
    omega
  rw [Stable.dmul_ok] at h14
  have e14 : ag * 10 ^ 18 ≤ pag := by
    rw [← h14.2, show DEC = 10 ^ 18 from rfl, Nat.le_div_iff_mul_le (by norm_num)]
    calc ag * 10 ^ 18 * 10 ^ 18 = 10 ^ 36 * ag := by ring
      _ ≤ PADDING * ag := Nat.mul_le_mul_right _ (by norm_num [PADDING])
  have e15 := mulDec_mag h15
  have b15 : 8 * 10 ^ 52 ≤ n1.val := by
    rw [e15, Nat.le_div_iff_mul_le (by norm_num)]
    calc 8 * 10 ^ 52 * 10 ^ 18 = 8 * 10 ^ 42 * (10 ^ 10 * 10 ^ 18) := by norm_num
      _ ≤ k0p.val * pag := Nat.mul_le_mul b9 (le_trans (Nat.mul_le_mul_right _ hA) e14)
  -- `k0` is not negative
  have n4 : d2.neg = false := by
    unfold SD.pow at h4
    split at h4
    · cases h4; rfl
    · simp only [bind_ok_iff, Except.ok.injEq] at h4
      obtain ⟨_, _, rfl⟩ := h4
      rfl
  have n6 : prod.neg = false := by
    simp only [SD.mul, SD.mulDec, SD.ofDec, bind_ok_iff, Except.ok.injEq] at h5 h6
    obtain ⟨_, _, rfl⟩ := h5
    obtain ⟨_, _, rfl⟩ := h6
    rfl
  have n8 : k0.neg = false := by
    simp only [SD.div, bind_ok_iff, Except.ok.injEq] at h8
    obtain ⟨_, _, rfl⟩ := h8
    simp [n4, n6]
  rw [Stable.dadd_ok] at h3
  have b16 : 10 ^ 18 ≤ gpk.val := by
    simp only [SD.add, SD.ofDec, n8, if_true, bind_ok_iff, Stable.dadd_ok, Except.ok.injEq] at h16
    obtain ⟨_, ⟨_, rfl⟩, rfl⟩ := h16
    have : g + 10 ^ 18 = g1 := h3.2
    exact le_trans (this ▸ Nat.le_add_left _ _) (Nat.le_add_left g1 k0.val)
  have b7 : 2 * 10 ^ 30 ≤ sum.val := by
    simp only [SD.add, SD.ofDec, if_true, bind_ok_iff, Stable.dadd_ok, Except.ok.injEq] at h7
    obtain ⟨_, ⟨_, rfl⟩, rfl⟩ := h7
    rw [Nat.two_mul]
    exact Nat.add_le_add h0 h1
  have b17 : 8 * 10 ^ 52 ≤ knum.val := by
    rw [(mul_mag h17).1, Nat.le_div_iff_mul_le (by norm_num)]
    exact Nat.mul_le_mul b15 b16
  have b23 : 16 * 10 ^ 64 ≤ t1.val := by
    rw [(mul_mag h23).1, Nat.le_div_iff_mul_le (by norm_num)]
    calc 16 * 10 ^ 64 * 10 ^ 18 = 8 * 10 ^ 52 * (2 * 10 ^ 30) := by norm_num
      _ ≤ _ := Nat.mul_le_mul b17 hd
  have b24 : 32 * 10 ^ 76 ≤ t2.val := by
    rw [(mul_mag h24).1, Nat.le_div_iff_mul_le (by norm_num)]
    calc 32 * 10 ^ 76 * 10 ^ 18 = 16 * 10 ^ 64 * (2 * 10 ^ 30) := by norm_num
      _ ≤ _ := Nat.mul_le_mul b23 b7
  have := (mul_mag h24).2
  have : (2 : Nat) ^ 256 < 32 * 10 ^ 76 := by norm_num
  omega

theorem calcD_huge {ag : AG} {x0 x1 d : Nat} (h0 : 10 ^ 30 ≤ x0) (h1 : 10 ^ 30 ≤ x1) (hs : 10 ^ 10 ≤ strength ag) :
    calcD ag x0 x1 ≠ .ok d := by
  intro h
  simp only [calcD, geoMean, bind_ok_iff, Except.ok.injEq, Stable.dmul_ok] at h
  obtain ⟨g, ⟨p, ⟨_, hp⟩, rfl⟩, st, ⟨_, hst⟩, h⟩ := h
  have bp : 10 ^ 42 ≤ p := by
    rw [← hp, show DEC = 10 ^ 18 from rfl, Nat.le_div_iff_mul_le (by norm_num)]
    calc 10 ^ 42 * 10 ^ 18 = 10 ^ 30 * 10 ^ 30 := by norm_num
      _ ≤ x0 * x1 := Nat.mul_le_mul h0 h1
  have bg := dsqrt_ge bp
  have bst : 2 * 10 ^ 30 ≤ st := by
    rw [← hst, show DEC = 10 ^ 18 from rfl, show NN = 2 * 10 ^ 18 from rfl]
    omega
  rw [show MAX_ITER = (MAX_ITER - 1) + 1 from rfl] at h
  simp only [newtonS, dStep, bind_ok_iff] at h
  obtain ⟨_, ⟨_, _, v, hv, _⟩, _⟩ := h
  have := dfdd_small hv h0 h1 bst
  unfold strength at hs
  omega

omit [DecidableEq A] in
theorem huge_unsolvable (su : Setup) (me : A) (s : State A) (now : Nat) (h0 : s.supply ≠ 0) (hp : Strong s.pool now)
    (h : Huge su s.pool (s.bal false me) (s.bal true me)) : Unsolvable su me s now := by
  refine ⟨h0, fun xs d hx hd => ?_⟩
  simp only [decPools, bind_ok_iff, Except.ok.injEq] at hx
  obtain ⟨a, ha, b, hb, rfl⟩ := hx
  obtain ⟨_, _, ea⟩ := (Stable.withPrec_ok _ _ _).1 ha
  obtain ⟨_, _, eb⟩ := (Stable.withPrec_ok _ _ _).1 hb
  simp only [solve, bind_ok_iff, Stable.dmul_ok] at hd
  obtain ⟨y, ⟨_, hy⟩, ag, hag, hd⟩ := hd
  refine calcD_huge (ea ▸ h.1) ?_ (hp ag hag) hd
  rw [← hy, show DEC = 10 ^ 18 from rfl, Nat.le_div_iff_mul_le (by norm_num)]
  have := h.2
  simp only [reduceIte]
  rw [← eb]
  exact le_trans (by norm_num) this

/-- **C195, deposits.**  No deposit, the first one or a later one, takes a pool to 10^12 tokens or more on both sides. -/
theorem C195_deposits_stop_at_limit (su : Setup) (me : A) (s s' : State A) (now : Nat) (u : A) (d : Bool → Nat)
    (tol minLp : Option Nat) (r : A) (n : Nat) (hp : Strong s.pool now)
    (h : Huge su s.pool (s.bal false me + d false) (s.bal true me + d true)) :
    provide su me s now u d tol minLp r ≠ .ok (s', n) := by
  intro e
  simp only [provide, bind_ok_iff, Prod.exists] at e
  obtain ⟨total, _, dd, hd, xs, hx, _, _, hc, _⟩ := e
  simp only [decPools, bind_ok_iff, Except.ok.injEq] at hx hd
  obtain ⟨a, ha, b, hb, rfl⟩ := hx
  obtain ⟨a', ha', b', hb', rfl⟩ := hd
  obtain ⟨_, _, ea⟩ := (Stable.withPrec_ok _ _ _).1 ha
  obtain ⟨_, _, eb⟩ := (Stable.withPrec_ok _ _ _).1 hb
  obtain ⟨_, _, ea'⟩ := (Stable.withPrec_ok _ _ _).1 ha'
  obtain ⟨_, _, eb'⟩ := (Stable.withPrec_ok _ _ _).1 hb'
  simp only [calculateShares, bind_ok_iff, Prod.exists, Stable.dadd_ok, Stable.dmul_ok] at hc
  obtain ⟨_, _, n0, ⟨_, e0⟩, n1, ⟨_, e1⟩, m1, ⟨_, em⟩, _, _, hr, _⟩ := hc
  simp only [rawShares, bind_ok_iff] at hr
  obtain ⟨ag, hag, D, hD, _⟩ := hr
  obtain ⟨k0, k1⟩ := h
  rw [Nat.add_mul] at k0 k1
  rw [ea, ea'] at k0
  rw [eb, eb'] at k1
  simp only [Bool.false_eq_true, reduceIte] at e0 e1
  refine calcD_huge (e0 ▸ k0) ?_ (hp ag hag) hD
  rw [← em, ← e1, show DEC = 10 ^ 18 from rfl, Nat.le_div_iff_mul_le (by norm_num)]
  exact le_trans (by norm_num) k1

/-- **C195, trades.**  A pool with LP tokens that holds 10^12 tokens or more on both sides refuses every trade and every
deposit, whoever sends it. -/
theorem C195_large_pools_stop (su : Setup) (me : A) (s : State A) (now : Nat) (h0 : s.supply ≠ 0) (hp : Strong s.pool now)
    (h : Huge su s.pool (s.bal false me) (s.bal true me)) :
    (∀ fo u i n b m r f s', exec su me now fo s (.swap u i n b m r f) ≠ .ok s') ∧
    ∀ fo u d t m r s', exec su me now fo s (.provide u d t m r) ≠ .ok s' :=
  let k := C190_unsolvable_stops su me s now (huge_unsolvable su me s now h0 hp h)
  ⟨k.1, k.2.1⟩

/-- The pool of `demo0`, everyone else with plenty of tokens. -/
def demoPlenty : State Acct := { demo0 with bal := fun _ a => if a = 0 then 0 else 10 ^ 36 }

/-- A pool of 9 * 10^10 and 10^11 tokens. -/
def demoLarge : State Acct :=
  run demoSetup 0 demoPlenty [⟨2000, 1, .provide 2 (fun i => if i then 10 ^ 17 else 9 * 10 ^ 16) none none 2⟩]

/-- **C195 is violated**: a first deposit of 10^12 tokens of each asset fails, although the balances have room for 10^20 times
as much; and a pool of 9 * 10^10 and 10^11 tokens accepts a trade of 1000 tokens and one of 10^9 tokens, but not one of
10^6 tokens. -/
theorem C195_every_size_violated :
    fails (provide demoSetup 0 demoPlenty 2000 2 (fun _ => 10 ^ 18) none none 2) = true ∧
    demoLarge.supply ≠ 0 ∧
    fails (exec demoSetup 0 2010 1 demoLarge (.swap 3 false (10 ^ 9) none (some (5 * 10 ^ 17)) 3 ⟨0, none⟩)) = false ∧
    fails (exec demoSetup 0 2010 1 demoLarge (.swap 3 false (10 ^ 12) none (some (5 * 10 ^ 17)) 3 ⟨0, none⟩)) = true ∧
    fails (exec demoSetup 0 2010 1 demoLarge (.swap 3 false (10 ^ 15) none (some (5 * 10 ^ 17)) 3 ⟨0, none⟩)) = false := by
  decide +kernel

/-- Non-vacuity: the mainnet parameters are strong, the deposit of 10^12 tokens of each asset is huge. -/
example : Strong demoPlenty.pool 2000 ∧ Huge demoSetup demoPlenty.pool (0 + 10 ^ 18) (0 + 10 ^ 18) := by
  constructor
  · intro ag h
    have : ag = ⟨40 * 10 ^ 18, 145 * 10 ^ 12⟩ := by
      simp [ampGamma, demoPlenty, demo0] at h
      exact h.symm
    subst this
    decide +kernel
  · unfold Huge
    decide +kernel

/-- A pool brought over the limit by a transfer. -/
def demoOver : State Acct :=
  run demoSetup 0 demoPlenty [⟨2000, 1, .provide 2 (fun _ => 10 ^ 15) none none 2⟩,
    ⟨2001, 1, .send false 3 0 (10 ^ 18)⟩, ⟨2001, 1, .send true 3 0 (10 ^ 18)⟩]

example : demoOver.supply ≠ 0 ∧ Strong demoOver.pool 2010 ∧
    Huge demoSetup demoOver.pool (demoOver.bal false 0) (demoOver.bal true 0) := by
  have h2 : demoOver.supply ≠ 0 ∧ ampGamma demoOver.pool 2010 = .ok ⟨40 * 10 ^ 18, 145 * 10 ^ 12⟩ := by decide +kernel
  refine ⟨h2.1, ?_, ?_⟩
  · intro ag h
    rw [h2.2, Except.ok.injEq] at h
    subst h
    decide +kernel
  · unfold Huge
    decide +kernel

end Verif.PCL
