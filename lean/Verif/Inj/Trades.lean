import Verif.Inj.Quotes
import Verif.PCL.Repeg

/-!
# Executed orders of the Injective pool: C115, C116

Specification: `sold` (the asset the pair has sold on balance), `orderFee` (the fee on it).
-/

namespace Verif.Inj

open Verif.PCL (Setup FeeInfo Pool PParams demoSetup demoParams decPools decPools_ok feeRate calcD getXcp updatePrice
  updatePrice_ok updateOracle_ok updateProfit_ok LP_PREC)
open Verif.XYK (sendOpt)
open Verif.Duality (set2 set2_apply bank)
open Verif.Stable (dmul ddiv withPrec absDiff)

variable {A : Type} [DecidableEq A]

/-- What the chain and the factory say to a transaction that accounts for executed orders. -/
def Op.env : Op A → Option (Env A)
  | .provide _ _ _ _ e | .swap _ _ _ _ _ _ e | .emergency _ _ e | .block e => some e
  | _ => none

/-- Every such transaction starts by accounting for executed orders at the reserves before it (calls at the beginning
of a block only if the pair takes part and something happened). -/
theorem settles_first {su : Setup} {me : A} {now : Nat} {fo : A} {s s' : State A} {o : Op A} {e : Env A}
    (he : o.env = some e) (h : exec su me now fo s o = .ok s') :
    (o = .block e ∧ (s.ob.ready = false ∨ s.ob.enabled = false ∨
      (s.ob.need = false ∧ ¬ changed s.ob.last s.sub))) ∨
    ∃ xs pool xs' fee, pools su (fun i => s.pcl.bal i me) s.sub = .ok xs ∧
      settle su s.pcl now e.f s.ob.last s.sub xs = .ok (pool, xs', fee) := by
  obtain ⟨hsig, hx⟩ := exec_cases h
  rcases hx with ⟨u, d, t, r, e', sh, rfl, hx⟩ | ⟨u, n, x, rfl, hx⟩ | ⟨u, i, n, b, m, r, e', x, rfl, hx⟩ |
    ⟨u, ac, e', rfl, hx⟩ | ⟨u, p, q, rfl, ob, _, rfl⟩ | ⟨u, n, rfl, _, _, _, rfl⟩ | ⟨x, c, rfl, hax, hx, rfl⟩ |
    ⟨e', rfl, hx⟩ | ⟨rfl, rfl⟩ | ⟨x, y, rfl, _, rfl⟩ <;> cases he
  · right
    have hu : u ≠ me := fun hh => hsig (by rw [hh]; rfl)
    obtain ⟨b0, total, ps, dd, xs, pool, fee, shareD, sp⟩ := provide_spec hx
    refine ⟨_, pool, xs, fee, pools_before (bal := s.pcl.bal) (d := d) ?_ sp.hps
      (fun i => (decPools_ok sp.hdd i).2.1), sp.hsettle⟩
    intro i
    have := move_apply (sp.hb0 i) me
    rw [if_neg (fun hh => hu hh.symm), if_pos rfl] at this
    exact this
  · right
    have hu : u ≠ me := fun hh => hsig (by rw [hh]; rfl)
    obtain ⟨bo, bal, ps, xs, pool, fee, off, rr, out, l1, sp⟩ := swap_spec hx
    exact ⟨_, pool, xs, fee, sp.before hu, sp.hsettle⟩
  · right
    obtain ⟨_, xs, xs', fee, h1, h2, _, _⟩ := emergency_spec hx
    exact ⟨xs, _, xs', fee, h1, h2⟩
  · have hx' := hx
    unfold beginBlock at hx'
    split at hx'
    · rename_i h1
      left
      refine ⟨rfl, ?_⟩
      cases h2 : s.ob.ready
      · exact Or.inl rfl
      · cases h3 : s.ob.enabled
        · exact Or.inr (Or.inl rfl)
        · exact absurd ⟨h2, h3⟩ h1
    · split at hx'
      · rename_i h1
        left
        refine ⟨rfl, Or.inr (Or.inr ?_)⟩
        cases h2 : s.ob.need
        · refine ⟨rfl, fun hc => h1 (Or.inr hc)⟩
        · exact absurd (Or.inl h2) h1
      · right
        simp only [bind_ok_iff, Prod.exists] at hx'
        obtain ⟨xs, hxs, pool, xs', fee, hset, _⟩ := hx'
        exact ⟨xs, pool, xs', fee, hxs, hset⟩

/-! ## C116: fills that block the pool -/

omit [DecidableEq A] in
/-- Trades that left the second asset's balance as it was have no price. -/
theorem balanced_quote_unpriced {su : Setup} {c : PCL.State A} {now : Nat} {f : FeeInfo A} {last sub xs : Bool → Nat}
    (h1 : last false ≠ sub false) (h2 : last true = sub true) : ∀ r, settle su c now f last sub xs ≠ .ok r := by
  intro ⟨pool, xs', fee⟩ h
  rcases settle_cases h with ⟨hc, _⟩ | ⟨_, h⟩
  · exact hc (fun hh => h1 hh.1)
  · simp only [process, bind_ok_iff, Prod.exists, Stable.withPrec_ok, Stable.ddiv_ok] at h
    obtain ⟨_, _, _, _, _, _, _, _, _, _, ⟨_, _, hd⟩, _, ⟨hz, _⟩, _⟩ := h
    rw [h2] at hd
    apply hz
    rw [← hd]
    simp [absDiff]

omit [DecidableEq A] in
/-- Trades that left the first asset's balance as it was have no fee. -/
theorem balanced_base_no_fee {su : Setup} {c : PCL.State A} {now : Nat} {f : FeeInfo A} {last sub xs : Bool → Nat}
    (h1 : last false = sub false) (h2 : last true ≠ sub true) (hf : f.addr ≠ none) :
    ∀ r, settle su c now f last sub xs ≠ .ok r := by
  intro ⟨pool, xs', fee⟩ h
  rcases settle_cases h with ⟨hc, _⟩ | ⟨_, h⟩
  · exact hc (fun hh => h2 hh.2)
  · simp only [process, bind_ok_iff, Prod.exists] at h
    obtain ⟨_, _, _, _, _, _, h, _⟩ := h
    unfold tradeFee at h
    split at h
    · rename_i hn; exact hf hn
    · simp only [bind_ok_iff] at h
      obtain ⟨_, _, _, _, h⟩ := h
      rw [if_neg (by omega), if_neg (by omega)] at h
      cases h

/-- Fills of both sides of the pair's orders: `249` lots of the first asset are sold at 1.004 and `251` lots are bought
at 0.996, for the same amount of the second asset. -/
def demoBalanced : List (Event Nat) := demoStart ++
  [⟨2500, 1, .fill (fun i => if i then 0 else 249000) (fun i => if i then 249996 else 0)⟩,
   ⟨2500, 1, .fill (fun i => if i then 249996 else 0) (fun i => if i then 0 else 251000)⟩]

/-- **C116 (violated).** The English claim: traders on the exchange cannot stop the pool.  A trader who buys from the
pair and sells back for the same amount of the second asset leaves the pool in a state in which every swap, deposit,
emergency withdrawal and call at the beginning of a block fails, for all accounts, amounts, fees and times, until
somebody trades on the exchange again or the chain deactivates the pair. -/
theorem C116_balanced_fills_block_pool_violated :
    ∃ (s : State Nat), Reachable demoSetup 0 s ∧ s.pcl.supply = 10 ^ 9 ∧ s.posted.length = 4 ∧
      ∀ (now : Nat) (fo : Nat) (o : Op Nat) (e : Env Nat), o.env = some e →
        ∀ s', exec demoSetup 0 now fo s o ≠ .ok s' := by
  have h : okAnd demo (fun s =>
      let z := run demoSetup 0 s demoBalanced
      decide (z.ob.last false ≠ z.sub false ∧ z.ob.last true = z.sub true ∧ z.pcl.supply = 10 ^ 9 ∧
        z.posted.length = 4 ∧ z.ob.ready = true ∧ z.ob.enabled = true)) = true := by decide +kernel
  rw [okAnd_iff] at h
  obtain ⟨s0, h0, h⟩ := h
  simp only [decide_eq_true_eq] at h
  obtain ⟨h1, h2, h3, h4, h5, h6⟩ := h
  refine ⟨run demoSetup 0 s0 demoBalanced, ⟨_, _, _, _, _, _, _, _, _, _, s0, _, h0, rfl⟩, h3, h4, ?_⟩
  intro now fo o e he s' h
  rcases settles_first he h with ⟨_, hb⟩ | ⟨xs, pool, xs', fee, _, hs⟩
  · rcases hb with hb | hb | ⟨_, hb⟩
    · rw [hb] at h5; cases h5
    · rw [hb] at h6; cases h6
    · exact hb (fun hh => h1 hh.1)
  · exact balanced_quote_unpriced h1 h2 _ hs

/-- Fills of both sides that leave the amount of the first asset as it was: a million units are sold at 1.004 and
bought back at 0.996. -/
def demoRoundTrip : List (Event Nat) := demoStart ++
  [⟨2500, 1, .fill (fun i => if i then 0 else 1000000) (fun i => if i then 1004000 else 0)⟩,
   ⟨2500, 1, .fill (fun i => if i then 996000 else 0) (fun i => if i then 0 else 1000000)⟩]

/-- **C116 (violated).** The same for a round trip that returns the first asset, a loss for the trader of 0.8%, while
there is a receiver of fees. -/
theorem C116_round_trip_blocks_pool_violated :
    ∃ (s : State Nat), Reachable demoSetup 0 s ∧ s.pcl.supply = 10 ^ 9 ∧ s.posted.length = 4 ∧
      ∀ (now : Nat) (fo : Nat) (o : Op Nat) (e : Env Nat), o.env = some e → e.f.addr ≠ none →
        ∀ s', exec demoSetup 0 now fo s o ≠ .ok s' := by
  have h : okAnd demo (fun s =>
      let z := run demoSetup 0 s demoRoundTrip
      decide (z.ob.last false = z.sub false ∧ z.ob.last true ≠ z.sub true ∧ z.pcl.supply = 10 ^ 9 ∧
        z.posted.length = 4 ∧ z.ob.ready = true ∧ z.ob.enabled = true)) = true := by decide +kernel
  rw [okAnd_iff] at h
  obtain ⟨s0, h0, h⟩ := h
  simp only [decide_eq_true_eq] at h
  obtain ⟨h1, h2, h3, h4, h5, h6⟩ := h
  refine ⟨run demoSetup 0 s0 demoRoundTrip, ⟨_, _, _, _, _, _, _, _, _, _, s0, _, h0, rfl⟩, h3, h4, ?_⟩
  intro now fo o e he hf s' h
  rcases settles_first he h with ⟨_, hb⟩ | ⟨xs, pool, xs', fee, _, hs⟩
  · rcases hb with hb | hb | ⟨_, hb⟩
    · rw [hb] at h5; cases h5
    · rw [hb] at h6; cases h6
    · exact hb (fun hh => h2 hh.2)
  · exact balanced_base_no_fee h1 h2 hf _ hs

omit [DecidableEq A] in
/-- **C116 (partial).** Fills that changed both balances always have a price, and without a receiver of fees they are
refused only if the price update refuses them (a loss for the liquidity providers).  Missing: fills that leave one
balance as it was (violated), and the fee. -/
theorem C116_unbalanced_fills_priced_partial (su : Setup) (c : PCL.State A) (now : Nat) (f : FeeInfo A)
    (last sub xs : Bool → Nat) (hp : ∀ i, su.prec i ≤ 18) (hl : ∀ i, last i < 2 ^ 128) (hs : ∀ i, sub i < 2 ^ 128)
    (h0 : last false ≠ sub false) (h1 : last true ≠ sub true) (hf : f.addr = none)
    (hx : xs true * c.pool.price.scale / DEC < U256) (hsup : c.supply < 2 ^ 128) :
    ∃ price, price = absDiff (last false) (sub false) * 10 ^ (18 - su.prec false) * 10 ^ 18 /
        (absDiff (last true) (sub true) * 10 ^ (18 - su.prec true)) ∧
      ∀ pool xs' fee, settle su c now f last sub xs = .ok (pool, xs', fee) ↔
        (updatePrice c.params c.pool now (c.supply * 10 ^ 12) (xs false) (xs true * c.pool.price.scale / DEC) price =
          .ok pool ∧ xs' = xs ∧ fee = none) := by
  refine ⟨_, rfl, fun pool xs' fee => ?_⟩
  have hc : changed last sub := fun hh => h0 hh.1
  unfold settle
  rw [if_pos hc]
  unfold process
  have hU : U256 = 2 ^ 256 := rfl
  have hK : ∀ i, 10 ^ (18 - su.prec i) ≤ 10 ^ 18 := fun i => Nat.pow_le_pow_right (by decide) (by omega)
  have hKp : ∀ i, 0 < 10 ^ (18 - su.prec i) := fun i => Nat.pow_pos (by decide)
  have habs : ∀ i, absDiff (last i) (sub i) < 2 ^ 128 := by
    intro i
    have := hl i
    have := hs i
    unfold absDiff
    split <;> omega
  have hw : ∀ i, withPrec (absDiff (last i) (sub i)) (su.prec i) =
      .ok (absDiff (last i) (sub i) * 10 ^ (18 - su.prec i)) := by
    intro i
    rw [Stable.withPrec_ok]
    refine ⟨hp i, ?_, rfl⟩
    calc absDiff (last i) (sub i) * 10 ^ (18 - su.prec i) ≤ 2 ^ 128 * 10 ^ 18 := Nat.mul_le_mul (habs i).le (hK i)
      _ < U256 := by rw [hU]; decide
  have hne : absDiff (last true) (sub true) * 10 ^ (18 - su.prec true) ≠ 0 := by
    apply Nat.mul_ne_zero _ (hKp true).ne'
    unfold absDiff
    split <;> omega
  have hd : ddiv (absDiff (last false) (sub false) * 10 ^ (18 - su.prec false))
      (absDiff (last true) (sub true) * 10 ^ (18 - su.prec true)) = .ok
      (absDiff (last false) (sub false) * 10 ^ (18 - su.prec false) * DEC /
        (absDiff (last true) (sub true) * 10 ^ (18 - su.prec true))) := by
    rw [Stable.ddiv_ok]
    refine ⟨hne, ?_, rfl⟩
    refine lt_of_le_of_lt (Nat.div_le_self _ _) ?_
    calc absDiff (last false) (sub false) * 10 ^ (18 - su.prec false) * DEC
        ≤ 2 ^ 128 * 10 ^ 18 * 10 ^ 18 :=
          Nat.mul_le_mul (Nat.mul_le_mul (habs false).le (hK false)) (le_refl _)
      _ < U256 := by rw [hU]; decide
  have hm : dmul (xs true) c.pool.price.scale = .ok (xs true * c.pool.price.scale / DEC) := by
    rw [Stable.dmul_ok]; exact ⟨hx, rfl⟩
  have ht : withPrec c.supply LP_PREC = .ok (c.supply * 10 ^ 12) := by
    rw [Stable.withPrec_ok]
    refine ⟨by decide, ?_, rfl⟩
    calc c.supply * 10 ^ (18 - LP_PREC) ≤ 2 ^ 128 * 10 ^ 12 := Nat.mul_le_mul hsup.le (by decide)
      _ < U256 := by rw [hU]; decide
  have htf : tradeFee su c f last sub xs (xs true * c.pool.price.scale / DEC) =
      .ok (xs, xs false, xs true * c.pool.price.scale / DEC, none) := by
    unfold tradeFee
    rw [hf]
  rw [hm, ok_bind, htf, ok_bind]
  dsimp only
  rw [hw false, ok_bind, hw true, ok_bind, hd, ok_bind, ht, ok_bind]
  have hD : DEC = 10 ^ 18 := rfl
  rw [hD]
  simp only [bind_ok_iff, Except.ok.injEq, Prod.mk.injEq]
  constructor
  · rintro ⟨p, h1, rfl, rfl, rfl⟩; exact ⟨h1, rfl, rfl⟩
  · rintro ⟨h1, rfl, rfl⟩; exact ⟨pool, h1, rfl, rfl, rfl⟩

/-- Non-vacuity: after the first sell order was taken, the emergency withdrawal records its price. -/
example : okAnd demo (fun s =>
    let z := run demoSetup 0 s demoTaken
    decide (z.ob.last false ≠ z.sub false ∧ z.ob.last true ≠ z.sub true) &&
    okAnd (exec demoSetup 0 3000 1 z (.emergency 9 false quiet)) (fun w =>
      decide (w.ob.last false = w.sub false ∧ w.pcl.pool.price.last = 9965000 * 10 ^ 18 / 10004860))) = true := by
  decide +kernel

/-! ## C115: executed orders are charged once, and nothing else is -/

/-- The asset the pair has given away on the exchange on balance. -/
def sold (last sub : Bool → Nat) : Bool := if last false > sub false then false else true

/-- The part of the fee on `n` units that goes to the receiver of fees: `rate` is the pool's fee, `part` the receiver's
part of it. -/
def orderFee (n rate part : Nat) : Nat := n * (rate * part / 10 ^ 18) / 10 ^ 18

omit [DecidableEq A] in
/-- The fee of executed orders. -/
theorem settle_fee {su : Setup} {c : PCL.State A} {now : Nat} {f : FeeInfo A} {last sub xs xs' : Bool → Nat}
    {pool : Pool} {fee : Option (Fee A)} {dst : A} (hf : f.addr = some dst) (hc : changed last sub)
    (h : settle su c now f last sub xs = .ok (pool, xs', fee)) :
    ∃ rate, feeRate c.params (xs false) (xs true * c.pool.price.scale / DEC) = .ok rate ∧
      fee = some ⟨sold last sub, dst, orderFee (absDiff (last (sold last sub)) (sub (sold last sub))) rate f.maker⟩ := by
  rcases settle_cases h with ⟨hn, _⟩ | ⟨_, hp⟩
  · exact absurd hc hn
  · simp only [process, bind_ok_iff, Prod.exists, Stable.dmul_ok] at hp
    obtain ⟨_, ⟨_, rfl⟩, xs1, i0, i1, fee', ht, _, _, _, _, _, _, _, _, _, _, h2⟩ := hp
    have e2 : fee' = fee := by
      simp only [Except.ok.injEq, Prod.mk.injEq] at h2
      exact h2.2.2
    subst e2
    clear h2
    unfold tradeFee at ht
    rw [hf] at ht
    simp only [bind_ok_iff, u128_ok] at ht
    obtain ⟨rate, hr, _, ⟨_, rfl⟩, ht⟩ := ht
    refine ⟨_, hr, ?_⟩
    unfold sold
    split at ht
    · rename_i hgt
      rw [if_pos hgt]
      simp only [bind_ok_iff, u128_ok, Except.ok.injEq, Prod.mk.injEq] at ht
      obtain ⟨_, ⟨_, rfl⟩, _, _, _, _, _, _, _, ht⟩ := ht
      exact ht.symm
    · rename_i hgt
      rw [if_neg hgt]
      split at ht
      · simp only [bind_ok_iff, u128_ok, Except.ok.injEq, Prod.mk.injEq] at ht
        obtain ⟨_, ⟨_, rfl⟩, _, _, _, _, _, _, _, _, _, _, _, ht⟩ := ht
        exact ht.symm
      · cases ht

theorem payFee_dst {me dst : A} {bal bal' : Bool → A → Nat} {i : Bool} {n : Nat} (hd : dst ≠ me)
    (h : payFee me bal (some ⟨i, dst, n⟩) = .ok bal') :
    ∀ j, bal' j dst = bal j dst + if j = i then n else 0 := by
  simp only [payFee, bank, bind_ok_iff, require_ok, exists_const, Except.ok.injEq] at h
  obtain ⟨l, ⟨_, hl⟩, rfl⟩ := h
  intro j
  rw [set2_apply]
  split
  · rename_i hj
    subst hj
    rw [move_apply hl dst, if_neg hd, if_pos rfl]
  · simp

/-- **C115 (partial).** A deposit, an emergency withdrawal or the placing of new orders after orders of the pair were
executed pays the receiver of fees its part of the pool's fee on the net amount the pair sold, in the asset sold, and
nothing else, to the unit.  Missing: swaps, which pay their own fee as well (next theorem). -/
theorem C115_fee_exact_partial (su : Setup) (me : A) (now : Nat) (fo : A) (s s' : State A) (o : Op A) (e : Env A)
    (dst : A) (ho : (∃ u d t r, o = .provide u d t r e) ∨ (∃ u a, o = .emergency u a e) ∨
      (o = .block e ∧ s'.posted ≠ [] ∧ s' ≠ s))
    (hf : e.f.addr = some dst) (hme : dst ≠ me) (hsg : o.signer ≠ some dst) (hc : changed s.ob.last s.sub)
    (h : exec su me now fo s o = .ok s') :
    ∃ xs rate, pools su (fun i => s.pcl.bal i me) s.sub = .ok xs ∧
      feeRate s.pcl.params (xs false) (xs true * s.pcl.pool.price.scale / DEC) = .ok rate ∧
      ∀ i, s'.pcl.bal i dst = s.pcl.bal i dst + if i = sold s.ob.last s.sub then
        orderFee (absDiff (s.ob.last i) (s.sub i)) rate e.f.maker else 0 := by
  obtain ⟨hsig, hx⟩ := exec_cases h
  have fin : ∀ (bal bal' : Bool → A → Nat) (rate : Nat),
      payFee me bal (some ⟨sold s.ob.last s.sub, dst, orderFee (absDiff (s.ob.last (sold s.ob.last s.sub))
        (s.sub (sold s.ob.last s.sub))) rate e.f.maker⟩) = .ok bal' → ∀ i, bal' i dst = bal i dst +
        if i = sold s.ob.last s.sub then orderFee (absDiff (s.ob.last i) (s.sub i)) rate e.f.maker else 0 := by
    intro bal bal' rate hp i
    rw [payFee_dst hme hp i]
    by_cases hi : i = sold s.ob.last s.sub
    · rw [if_pos hi, if_pos hi, hi]
    · rw [if_neg hi, if_neg hi]
  rcases ho with ⟨u, d, t, r, rfl⟩ | ⟨u, a, rfl⟩ | ⟨rfl, hpost, hne⟩
  · rcases hx with ⟨_, _, _, _, _, _, hx, hy⟩ | ⟨_, _, _, hx, _⟩ | ⟨_, _, _, _, _, _, _, _, hx, _⟩ | ⟨_, _, _, hx, _⟩ |
      ⟨_, _, _, hx, _⟩ | ⟨_, _, hx, _⟩ | ⟨_, _, hx, _⟩ | ⟨_, hx, _⟩ | ⟨hx, _⟩ | ⟨_, _, hx, _⟩ <;> cases hx
    have hu : u ≠ me := fun hh => hsig (by rw [hh]; rfl)
    have hud : dst ≠ u := fun hh => hsg (by rw [hh]; rfl)
    obtain ⟨b0, total, ps, dd, xs, pool, fee, shareD, sp⟩ := provide_spec hy
    have hps := pools_before (bal := s.pcl.bal) (d := d) (fun i => by
      have := move_apply (sp.hb0 i) me
      rw [if_neg (fun hh => hu hh.symm), if_pos rfl] at this
      exact this) sp.hps (fun i => (decPools_ok sp.hdd i).2.1)
    obtain ⟨rate, hr, hfee⟩ := settle_fee hf hc sp.hsettle
    have hpay := sp.hpay
    rw [hfee] at hpay
    refine ⟨_, rate, hps, hr, fun i => ?_⟩
    rw [fin _ _ _ hpay i, move_apply (sp.hb0 i) dst, if_neg hud, if_neg hme, Nat.add_zero]
  · rcases hx with ⟨_, _, _, _, _, _, hx, _⟩ | ⟨_, _, _, hx, _⟩ | ⟨_, _, _, _, _, _, _, _, hx, _⟩ | ⟨_, _, _, hx, hy⟩ |
      ⟨_, _, _, hx, _⟩ | ⟨_, _, hx, _⟩ | ⟨_, _, hx, _⟩ | ⟨_, hx, _⟩ | ⟨hx, _⟩ | ⟨_, _, hx, _⟩ <;> cases hx
    obtain ⟨_, xs, xs', fee, hxs, hset, hp, hs⟩ := emergency_spec hy
    obtain ⟨rate, hr, hfee⟩ := settle_fee hf hc hset
    rw [hfee] at hp
    refine ⟨xs, rate, hxs, hr, fun i => ?_⟩
    rw [fin _ _ _ hp i, leave_other hme i]
  · rcases hx with ⟨_, _, _, _, _, _, hx, _⟩ | ⟨_, _, _, hx, _⟩ | ⟨_, _, _, _, _, _, _, _, hx, _⟩ | ⟨_, _, _, hx, _⟩ |
      ⟨_, _, _, hx, _⟩ | ⟨_, _, hx, _⟩ | ⟨_, _, hx, _⟩ | ⟨_, hx, hy⟩ | ⟨hx, _⟩ | ⟨_, _, hx, _⟩ <;> cases hx
    rcases beginBlock_spec hy with hs | ⟨_, _, _, xs, pool, xs', fee, hxs, hset, hs | ⟨bal, b0, b1, l, need, base,
      quote, ag, dd, hp, hb0, hb1, _, _, _, _, _, _, hs⟩⟩
    · exact absurd hs hne
    · rw [hs] at hpost; exact absurd rfl hpost
    · obtain ⟨rate, hr, hfee⟩ := settle_fee hf hc hset
      rw [hfee] at hp
      refine ⟨xs, rate, hxs, hr, fun i => ?_⟩
      rw [← fin _ _ _ hp i, hs]
      cases i
      · exact adjust_other hme hb0
      · exact adjust_other hme hb1

/-- **C115 (partial).** A swap that follows executed orders pays the fee on them and its own, and nothing else. -/
theorem C115_swap_fee_exact_partial (su : Setup) (me : A) (s s' : State A) (now : Nat) (u : A) (j : Bool) (n : Nat)
    (b m : Option Nat) (rc : A) (e : Env A) (x : PCL.SwapOut) (dst : A) (hf : e.f.addr = some dst) (hme : dst ≠ me)
    (hu : u ≠ me) (hud : dst ≠ u) (hrc : dst ≠ rc) (hc : changed s.ob.last s.sub)
    (h : swap su me s now u j n b m rc e = .ok (s', x)) :
    ∃ xs rate, pools su (fun i => s.pcl.bal i me) s.sub = .ok xs ∧
      feeRate s.pcl.params (xs false) (xs true * s.pcl.pool.price.scale / DEC) = .ok rate ∧
      ∀ i, s'.pcl.bal i dst = s.pcl.bal i dst + (if i = sold s.ob.last s.sub then
        orderFee (absDiff (s.ob.last i) (s.sub i)) rate e.f.maker else 0) + (if i = !j then x.maker else 0) := by
  obtain ⟨bo, bal, ps, xs, pool, fee, off, r, out, l1, sp⟩ := swap_spec h
  obtain ⟨rate, hr, hfee⟩ := settle_fee hf hc sp.hsettle
  refine ⟨_, rate, sp.before hu, hr, fun i => ?_⟩
  have hpay := sp.hpay
  rw [hfee] at hpay
  have h1 : bal i dst = s.pcl.bal i dst + if i = sold s.ob.last s.sub then
      orderFee (absDiff (s.ob.last i) (s.sub i)) rate e.f.maker else 0 := by
    rw [payFee_dst hme hpay i]
    congr 1
    · rw [set2_apply]
      split
      · rename_i hi
        rw [move_apply sp.hbo dst, if_neg hud, if_neg hme, hi, Nat.add_zero]
      · rfl
    · by_cases hi : i = sold s.ob.last s.sub
      · rw [if_pos hi, if_pos hi, hi]
      · rw [if_neg hi, if_neg hi]
  rw [← h1]
  by_cases hi : i = j
  · subst hi
    rw [sp.hci, if_neg (by simp)]; rfl
  · have hj' : i = !j := by cases i <;> cases j <;> simp_all
    rw [if_pos hj']
    subst hj'
    have h2 := sp.hl2
    rw [hf] at h2
    rw [move_apply (show move l1 me dst x.maker = .ok _ from h2) dst, if_neg hme, if_pos rfl, move_apply sp.hl1 dst,
      if_neg hme, if_neg hrc, Nat.add_zero]

/-- **C115 (partial).** Once a deposit, swap or emergency withdrawal has accounted for executed orders, or new orders
were placed, nothing is waiting: the next transaction charges nothing and records no price for them.  Missing: withdrawals and blocks that
take the pair off the exchange, see the violations below. -/
theorem C115_charged_once_partial (su : Setup) (me : A) (now : Nat) (fo : A) (s s' : State A) (o : Op A) (e : Env A)
    (ho : o.env = some e) (hb : o = .block e → s'.posted ≠ [] ∧ s' ≠ s) (h : exec su me now fo s o = .ok s') :
    ¬ changed s'.ob.last s'.sub ∧
    ∀ (c : PCL.State A) t f xs, settle su c t f s'.ob.last s'.sub xs = .ok (c.pool, xs, none) := by
  have key : ¬ changed s'.ob.last s'.sub := by
    obtain ⟨hsig, hx⟩ := exec_cases h
    rcases hx with ⟨u, d, t, r, e', sh, rfl, hx⟩ | ⟨u, n, x, rfl, hx⟩ | ⟨u, i, n, b, m, r, e', x, rfl, hx⟩ |
      ⟨u, ac, e', rfl, hx⟩ | ⟨u, p, q, rfl, ob, _, rfl⟩ | ⟨u, n, rfl, _, _, _, rfl⟩ | ⟨x, c, rfl, hax, hx, rfl⟩ |
      ⟨e', rfl, hx⟩ | ⟨rfl, rfl⟩ | ⟨x, y, rfl, _, rfl⟩ <;> cases ho
    · obtain ⟨b0, total, ps, dd, xs, pool, fee, shareD, sp⟩ := provide_spec hx
      rw [sp.hob, sp.hrest.2.2.1]; simp [changed]
    · obtain ⟨bo, bal, ps, xs, pool, fee, off, rr, out, l1, sp⟩ := swap_spec hx
      rw [sp.hob, sp.hrest.2.2.2.2.1]; simp [changed]
    · obtain ⟨_, xs, xs', fee, _, _, hp, hs⟩ := emergency_spec hx
      rw [hs]; simp [changed]
    · obtain ⟨hp, hne⟩ := hb rfl
      rcases beginBlock_spec hx with hs | ⟨_, _, _, xs, pool, xs', fee, _, _, hs | ⟨bal, b0, b1, l, need, base, quote,
        ag, dd, _, hb0, hb1, _, _, _, _, _, _, hs⟩⟩
      · exact absurd hs hne
      · rw [hs] at hp; exact absurd rfl hp
      · rw [hs]; simp [changed]
  refine ⟨key, fun c t f xs => ?_⟩
  unfold settle
  rw [if_neg key]

/-- Non-vacuity of the three theorems: after the first sell order was taken, the receiver of fees (account 4) gets the
fee on 9965000 units of asset 0 with a deposit, with a swap and with new orders. -/
example : okAnd demo (fun s =>
    let z := run demoSetup 0 s demoTaken
    okAnd (exec demoSetup 0 3000 1 z (.provide 2 (fun _ => 10 ^ 8) none 2 taxed)) (fun w =>
      decide (w.pcl.bal false 4 = 10 ^ 15 + 15777 ∧ w.pcl.bal true 4 = 10 ^ 15)) &&
    okAnd (exec demoSetup 0 3000 1 z (.swap 3 false (10 ^ 7) none none 3 taxed)) (fun w =>
      decide (w.pcl.bal false 4 = 10 ^ 15 + 15777 ∧ w.pcl.bal true 4 = 10 ^ 15 + 13002)) &&
    okAnd (exec demoSetup 0 3000 1 z (.block taxed)) (fun w =>
      decide (w.pcl.bal false 4 = 10 ^ 15 + 15777 ∧ w.posted.length = 4))) = true := by
  decide +kernel

/-! ### Trades that never happened -/

/-- Whether accounting for the difference between the recorded and the actual balances would lower the value of an LP
token. -/
def lossy (su : Setup) (me : A) (s : State A) (f : FeeInfo A) : Bool :=
  okAnd (pools su (fun i => s.pcl.bal i me) s.sub) (fun xs =>
    okAnd (dmul (xs true) s.pcl.pool.price.scale) (fun x1 =>
      okAnd (tradeFee su s.pcl f s.ob.last s.sub xs x1) (fun t =>
        okAnd (withPrec s.pcl.supply LP_PREC) (fun total =>
          okAnd (calcD s.pcl.pool.future t.2.1 t.2.2.1) (fun d =>
            okAnd (getXcp d s.pcl.pool.price.scale) (fun xcp =>
              okAnd (ddiv xcp total) (fun r => decide (r < s.pcl.pool.price.real))))))))

theorem okAnd_ok {α : Type} (a : α) (f : α → Bool) : okAnd (.ok a : Res α) f = f a := rfl

omit [DecidableEq A] in
theorem lossy_blocks {su : Setup} {me : A} {s : State A} {f : FeeInfo A} (hl : lossy su me s f = true)
    (hc : changed s.ob.last s.sub) (h0 : s.pcl.pool.price.real ≠ 0) {now : Nat} (hn : s.pcl.pool.futureTime ≤ now)
    {xs : Bool → Nat} (hxs : pools su (fun i => s.pcl.bal i me) s.sub = .ok xs) :
    ∀ r, settle su s.pcl now f s.ob.last s.sub xs ≠ .ok r := by
  intro ⟨pool, xs', fee⟩ h
  rcases settle_cases h with ⟨hn, _⟩ | ⟨_, h⟩
  · exact hn hc
  · simp only [process, bind_ok_iff, Prod.exists] at h
    obtain ⟨x1, hx1, xs1, i0, i1, fee', ht, _, _, _, _, price, _, total, htot, p, hp, _⟩ := h
    obtain ⟨ag, pr1, d, xcp, pr2, hag, h1, hd, hx, h2, _, _⟩ := updatePrice_ok hp
    have hag' : ag = s.pcl.pool.future := by
      unfold PCL.ampGamma at hag
      rw [if_neg (by omega)] at hag
      simp only [Except.ok.injEq] at hag
      exact hag.symm
    have e1 : pr1.real = s.pcl.pool.price.real ∧ pr1.scale = s.pcl.pool.price.scale := by
      rcases updateOracle_ok h1 with ⟨_, h⟩ | ⟨_, _, _, _, h⟩ <;> rw [h] <;> exact ⟨rfl, rfl⟩
    subst hag'
    rcases updateProfit_ok h2 with ⟨h3, _⟩ | ⟨_, r, h3, h4, _⟩
    · exact h0 (e1.1 ▸ h3)
    · rw [e1.1] at h4
      have h5 := h4 (by simp; omega)
      unfold lossy at hl
      rw [hxs, okAnd_ok, hx1, okAnd_ok, ht, okAnd_ok, htot, okAnd_ok] at hl
      dsimp only at hl
      rw [hd, okAnd_ok] at hl
      rw [hx, okAnd_ok, h3, okAnd_ok, decide_eq_true_eq] at hl
      omega

theorem lossy_fails {su : Setup} {me : A} {s : State A} {f : FeeInfo A} (hl : lossy su me s f = true)
    (hc : changed s.ob.last s.sub) (h0 : s.pcl.pool.price.real ≠ 0) (hr : s.ob.ready = true) (hen : s.ob.enabled = true)
    {now : Nat} (hn : s.pcl.pool.futureTime ≤ now) {fo : A} {o : Op A} {e : Env A} (ho : o.env = some e) (hf : e.f = f) :
    fails (exec su me now fo s o) = true := by
  rw [fails_iff]
  intro s' h
  rcases settles_first ho h with ⟨_, hb⟩ | ⟨xs, pool, xs', fee, hxs, hs⟩
  · rcases hb with hb | hb | ⟨_, hb⟩
    · rw [hb] at hr; cases hr
    · rw [hb] at hen; cases hen
    · exact hb hc
  · rw [hf] at hs
    exact lossy_blocks hl hc h0 hn hxs _ hs

/-- The provider of the example withdraws 99% of the liquidity, for which the pair has to leave the exchange.  No order
was ever executed. -/
def demoExit : List (Event Nat) := demoStart ++ [⟨3000, 1, .withdraw 2 990000000⟩]

/-- **C115 (violated).** The English claim: only executed orders are charged, so that a pool none of whose orders was
executed works as if it had none.  In the example nobody ever trades on the exchange; a provider withdraws, the pair
takes its coins from the exchange to pay, and from then on takes the coins it has taken itself for coins sold.  The fee
on this trade that never happened would lower the value of LP tokens, so that at all later times every swap, deposit,
emergency withdrawal and call at the beginning of a block fails, for all accounts and amounts, while half of the fees
goes to a receiver; failed transactions change nothing. -/
theorem C115_withdrawal_freezes_pool_violated :
    ∃ s, demo = .ok s ∧
    (let z := run demoSetup 0 s demoExit
     z.pcl.supply = 10000000 ∧ z.pcl.lp 2 = 9999000 ∧ z.pcl.bal false 0 = 10001002 ∧ z.posted = [] ∧
     ∀ (es : List (Event Nat)), (∀ x ∈ es, 3000 ≤ x.now ∧ ∃ e, x.op.env = some e ∧ e.f = taxed.f) →
      (∀ x ∈ es, fails (exec demoSetup 0 x.now x.fo z x.op) = true) ∧ run demoSetup 0 z es = z) := by
  have hx : okAnd demo (fun s =>
      let z := run demoSetup 0 s demoExit
      decide (z.pcl.supply = 10000000 ∧ z.pcl.lp 2 = 9999000 ∧ z.pcl.bal false 0 = 10001002 ∧ z.posted = []) &&
      (lossy demoSetup 0 z taxed.f && decide (changed z.ob.last z.sub ∧ z.pcl.pool.price.real ≠ 0 ∧
        z.ob.ready = true ∧ z.ob.enabled = true ∧ z.pcl.pool.futureTime = 1000))) = true := by decide +kernel
  obtain ⟨s, hs, h⟩ := okAnd_iff.1 hx
  simp only [Bool.and_eq_true, decide_eq_true_eq] at h
  obtain ⟨⟨h1, h2, h3, h4⟩, h5, h6, h7, h8, h9, h10⟩ := h
  refine ⟨s, hs, h1, h2, h3, h4, ?_⟩
  have one : ∀ x : Event Nat, (3000 ≤ x.now ∧ ∃ e, x.op.env = some e ∧ e.f = taxed.f) →
      fails (exec demoSetup 0 x.now x.fo (run demoSetup 0 s demoExit) x.op) = true := by
    rintro x ⟨hn, e, he, hf⟩
    exact lossy_fails h5 h6 h7 h8 h9 (by omega) he hf
  intro es hes
  refine ⟨fun x hxm => one x (hes x hxm), ?_⟩
  induction es with
  | nil => rfl
  | cons e rest ih =>
    have hrun : ∀ z, run demoSetup 0 z (e :: rest) = run demoSetup 0 (step demoSetup 0 z e) rest := fun _ => rfl
    rw [hrun]
    have hst : step demoSetup 0 (run demoSetup 0 s demoExit) e = run demoSetup 0 s demoExit := by
      have := one e (hes e List.mem_cons_self)
      unfold step
      cases hy : exec demoSetup 0 e.now e.fo (run demoSetup 0 s demoExit) e.op with
      | ok s' => rw [hy] at this; cases this
      | error _ => rfl
    rw [hst]
    exact ih (fun x hxm => hes x (List.mem_cons_of_mem _ hxm))

/-- **C115 (violated).** A trade that never happened is charged to the liquidity providers: nobody ever trades on the
exchange, a provider withdraws as above, account 5 sends the pair one token of asset 0, and the next deposit pays the
receiver of fees 43044 units for an executed order. -/
theorem C115_phantom_trade_charged_violated : okAnd demo (fun s =>
    let z := run demoSetup 0 s (demoExit ++ [⟨3000, 1, .admin (.send false 5 0 (10 ^ 6))⟩])
    decide (z.pcl.bal false 4 = 10 ^ 15) &&
    okAnd (exec demoSetup 0 3010 1 z (.provide 2 (fun _ => 10 ^ 8) none 2 taxed)) (fun w =>
      decide (w.pcl.bal false 4 = 10 ^ 15 + 43044))) = true := by
  decide +kernel

/-- The chain of the example when the trades of the last hours were too small for an order. -/
def tiny : Env Nat := { taxed with avg := some (100, 100) }

/-- **C115 (violated).** Executed orders are not always charged: the pair's first sell order was taken; at the beginning
of the next block recent trades are too small for new orders, the pair leaves the exchange, records the price but drops
the fee, of which the receiver gets nothing; and it still takes its former balance for the last one, so that
every later swap, deposit and block fails while that receiver is set. -/
theorem C115_fee_dropped_violated :
    ∃ s, demo = .ok s ∧
    (let z := run demoSetup 0 s (demoTaken ++ [⟨3000, 1, .block tiny⟩])
     z.pcl.pool.price.last = 9965000 * 10 ^ 18 / 10004860 ∧ z.posted = [] ∧ z.sub false = 0 ∧
     z.pcl.bal false 4 = 10 ^ 15 ∧ z.pcl.bal true 4 = 10 ^ 15 ∧
     ∀ now fo o e, 3000 ≤ now → o.env = some e → e.f = taxed.f → fails (exec demoSetup 0 now fo z o) = true) := by
  have hx : okAnd demo (fun s =>
      let z := run demoSetup 0 s (demoTaken ++ [⟨3000, 1, .block tiny⟩])
      decide (z.pcl.pool.price.last = 9965000 * 10 ^ 18 / 10004860 ∧ z.posted = [] ∧ z.sub false = 0 ∧
        z.pcl.bal false 4 = 10 ^ 15 ∧ z.pcl.bal true 4 = 10 ^ 15) &&
      (lossy demoSetup 0 z taxed.f && decide (changed z.ob.last z.sub ∧ z.pcl.pool.price.real ≠ 0 ∧
        z.ob.ready = true ∧ z.ob.enabled = true ∧ z.pcl.pool.futureTime = 1000))) = true := by decide +kernel
  obtain ⟨s, hs, h⟩ := okAnd_iff.1 hx
  simp only [Bool.and_eq_true, decide_eq_true_eq] at h
  obtain ⟨⟨h1, h2, h3, h4, h4'⟩, h5, h6, h7, h8, h9, h10⟩ := h
  refine ⟨s, hs, h1, h2, h3, h4, h4', ?_⟩
  intro now fo o e hn he hf
  exact lossy_fails h5 h6 h7 h8 h9 (by omega) he hf

end Verif.Inj
