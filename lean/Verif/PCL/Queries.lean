import Verif.PCL.Props
import Verif.PCL.Repeg

/-!
# Price queries of concentrated pools (C144)
-/

namespace Verif.PCL

open Verif Verif.Stable

variable {A : Type} [DecidableEq A]

/-- **C144.**  The cumulative prices reported in a block are exactly the ones a swap in this block would store, whoever
trades what. -/
theorem C144_report_is_what_a_swap_stores (su : Setup) (me : A) (now : Nat) (fo : A) (s s' : State A)
    (u : A) (i : Bool) (n : Nat) (b m : Option Nat) (rc : A) (f : FeeInfo A)
    (h : exec su me now fo s (.swap u i n b m rc f) = .ok s') :
    cumulativePrices su me s now = .ok (s'.twap.cum false, s'.twap.cum true) := by
  unfold exec at h
  simp only [bind_ok_iff, require_ok, exists_const, Prod.exists, Except.ok.injEq] at h
  obtain ⟨hsig, _, _, h, rfl⟩ := h
  obtain ⟨xs, _, _, old, _, _, sp⟩ := swap_spec (by simpa [Op.signer] using hsig) h
  unfold cumulativePrices
  rw [sp.hxs, ok_bind, sp.hold, ok_bind, sp.htw, ok_bind]

omit [DecidableEq A] in
/-- **C144.**  A report made no later than the last update is the stored pair.  Later it is the stored pair plus the
elapsed seconds times one rate for each direction, modulo `2 ^ 128`.  The rates are those of the price `p` which the pool
quotes for a small trade now, and of `1 / p`. -/
theorem C144_report_extends_stored (su : Setup) (me : A) (s : State A) (now : Nat) (c : Nat × Nat)
    (h : cumulativePrices su me s now = .ok c) :
    (now ≤ s.twap.last → c = (s.twap.cum false, s.twap.cum true)) ∧
    (s.twap.last < now → ∃ xs p, decPools su (fun i => s.bal i me) = .ok xs ∧
      calcLastPrices s.params s.pool now xs = .ok p ∧ p ≠ 0 ∧
      c.1 = (s.twap.cum false + (now - s.twap.last) *
        (10 ^ 18 * 10 ^ 18 / p * 999999999999999983222784 / 10 ^ 18 / 10 ^ 18)) % 2 ^ 128 ∧
      c.2 = (s.twap.cum true + (now - s.twap.last) *
        (p * 999999999999999983222784 / 10 ^ 18 / 10 ^ 18)) % 2 ^ 128) := by
  unfold cumulativePrices at h
  rw [bind_ok_iff] at h
  obtain ⟨xs, hxs, h⟩ := h
  rw [bind_ok_iff] at h
  obtain ⟨p, hp, h⟩ := h
  rw [bind_ok_iff] at h
  obtain ⟨c', hc, h⟩ := h
  rw [Except.ok.injEq] at h
  subst h
  rcases accumulate_ok hc with ⟨hle, rfl⟩ | ⟨hlt, h0, _, e1, e2⟩
  · exact ⟨fun _ => rfl, fun hlt => absurd hlt (by omega)⟩
  · refine ⟨fun hle => absurd hle (by omega), fun _ => ⟨xs, p, hxs, hp, h0, ?_, ?_⟩⟩
    · have hT : TWAP_PRECISION_DEC = 999999999999999983222784 := rfl
      have hD : DEC = 10 ^ 18 := rfl
      have hU : U128 = 2 ^ 128 := rfl
      rw [hT, hD, hU] at e2
      exact e2
    · have hT : TWAP_PRECISION_DEC = 999999999999999983222784 := rfl
      have hD : DEC = 10 ^ 18 := rfl
      have hU : U128 = 2 ^ 128 := rfl
      rw [hT, hD, hU] at e1
      exact e1

/-- **C144 (partial).**  A swap does not change what is reported in its block.  Missing: the same for deposits, for
which it is false (`C144_deposit_changes_report_violated`). -/
theorem C144_report_stands_in_block_partial (su : Setup) (me : A) (now : Nat) (fo : A) (s s' : State A)
    (u : A) (i : Bool) (n : Nat) (b m : Option Nat) (rc : A) (f : FeeInfo A) (c c' : Nat × Nat)
    (h : exec su me now fo s (.swap u i n b m rc f) = .ok s')
    (hc : cumulativePrices su me s now = .ok c) (hc' : cumulativePrices su me s' now = .ok c') : c' = c := by
  have e := C144_report_is_what_a_swap_stores su me now fo s s' u i n b m rc f h
  rw [hc, Except.ok.injEq] at e
  rw [e]
  refine (C144_report_extends_stored su me s' now c' hc').1 ?_
  unfold exec at h
  simp only [bind_ok_iff, require_ok, exists_const, Prod.exists, Except.ok.injEq] at h
  obtain ⟨hsig, _, _, h, rfl⟩ := h
  obtain ⟨xs, _, _, old, _, _, sp⟩ := swap_spec (by simpa [Op.signer] using hsig) h
  rcases accumulate_ok sp.htw with ⟨hle, h'⟩ | ⟨_, _, h', _⟩
  · rw [h']; exact hle
  · rw [h']

/-- **C144 is violated** by deposits.  In the example a pool is created and traded with once, and then asked for its
cumulative prices at time 100000.  Account 2 deposits `10 ^ 9` of both assets in the same block.  The second report, at
the same time, is lower by a third in one direction and higher by half in the other: a deposit accumulates the price of
the last trade, while the report uses the present one. -/
theorem C144_deposit_changes_report_violated :
    let s := run demoSetup 0 demo0 demoHistory
    let s' := run demoSetup 0 s [⟨100000, 1, .provide 2 (fun _ => 10 ^ 9) none none 2⟩]
    s.supply < s'.supply ∧
    cumulativePrices demoSetup 0 s 100000 = .ok (44660567000, 220969133000) ∧
    cumulativePrices demoSetup 0 s' 100000 = .ok (66869131000, 146804007000) := by
  decide +kernel

omit [DecidableEq A] in
/-- What the first deposit into an empty pool mints and stores. -/
theorem first_shares {pp : PParams} {p q : Pool} {now share : Nat} {xs d : Bool → Nat} {tol : Option Nat}
    (hxs : ∀ i, xs i = 0) (h : calculateShares pp p now 0 xs d tol = .ok (share, q)) :
    ∃ x1 ag dd xcp, dmul (d true) p.price.scale = .ok x1 ∧ ampGamma p now = .ok ag ∧
      calcD ag (d false) x1 = .ok dd ∧ getXcp dd p.price.scale = .ok xcp ∧ share + 1000 * 10 ^ 12 = xcp ∧
      share ≠ 0 ∧ q = { p with price := { p.price with real := DEC, profit := DEC } } := by
  unfold calculateShares at h
  rw [bind_ok_iff] at h
  obtain ⟨_, _, h⟩ := h
  rw [bind_ok_iff] at h
  obtain ⟨new0, hn0, h⟩ := h
  rw [bind_ok_iff] at h
  obtain ⟨n1, hn1, h⟩ := h
  rw [bind_ok_iff] at h
  obtain ⟨x1, hx1, h⟩ := h
  rw [bind_ok_iff] at h
  obtain ⟨⟨sh, price⟩, hraw, h⟩ := h
  rw [dadd_ok, hxs, Nat.zero_add] at hn0 hn1
  obtain ⟨_, rfl⟩ := hn0
  obtain ⟨_, rfl⟩ := hn1
  unfold rawShares at hraw
  rw [bind_ok_iff] at hraw
  obtain ⟨ag, hag, hraw⟩ := hraw
  rw [bind_ok_iff] at hraw
  obtain ⟨dd, hdd, hraw⟩ := hraw
  rw [if_pos rfl] at hraw
  simp only [bind_ok_iff, require_ok, exists_const, Except.ok.injEq, Prod.mk.injEq, csub_ok, withPrec_ok, LP_PREC,
    MINIMUM_LIQUIDITY] at hraw
  obtain ⟨xcp, hxcp, _, ⟨_, _, rfl⟩, mint, ⟨hle, rfl⟩, hm0, rfl, rfl⟩ := hraw
  simp only at h
  rw [bind_ok_iff] at h
  obtain ⟨after, ha, h⟩ := h
  rw [bind_ok_iff] at h
  obtain ⟨ratio, hr, h⟩ := h
  rw [bind_ok_iff] at h
  obtain ⟨b0, hb0, h⟩ := h
  rw [bind_ok_iff] at h
  obtain ⟨b1', hb1', h⟩ := h
  rw [bind_ok_iff] at h
  obtain ⟨b1, hb1, h⟩ := h
  rw [dadd_ok, Nat.zero_add] at ha
  obtain ⟨_, rfl⟩ := ha
  rw [ddiv_ok, Nat.mul_div_cancel_left _ (Nat.pos_of_ne_zero hm0)] at hr
  obtain ⟨_, _, rfl⟩ := hr
  rw [dmul_ok, Nat.mul_div_cancel _ DEC_pos] at hb0
  obtain ⟨_, rfl⟩ := hb0
  have hz : ¬ (absDiff (d false) (d false) ≥ MIN_TRADE_SIZE ∧ absDiff (d true) b1 ≥ MIN_TRADE_SIZE) := by
    simp [absDiff, MIN_TRADE_SIZE]
  rw [if_neg hz, Except.ok.injEq, Prod.mk.injEq] at h
  obtain ⟨rfl, rfl⟩ := h
  exact ⟨x1, ag, dd, xcp, hx1, hag, hdd, hxcp, by omega, hm0, rfl⟩

/-- **C144.**  The value of one LP token reported right after the first deposit into an empty pool is 1, up to the part
of one smallest unit of LP tokens which is not minted. -/
theorem C144_lp_price_starts_at_one (su : Setup) (me : A) (now : Nat) (fo : A) (s s' : State A)
    (u : A) (d : Bool → Nat) (tol minLp : Option Nat) (rc : A)
    (hempty : s.supply = 0) (hbal : ∀ i, s.bal i me = 0)
    (h : exec su me now fo s (.provide u d tol minLp rc) = .ok s') :
    ∃ p, lpPrice su me s' now = .ok p ∧ 10 ^ 18 ≤ p ∧ (p - 10 ^ 18) * s'.supply < 10 ^ 18 := by
  unfold exec at h
  simp only [bind_ok_iff, require_ok, exists_const, Prod.exists, Except.ok.injEq] at h
  obtain ⟨hsig, _, _, h, rfl⟩ := h
  rename_i s1 sh
  obtain ⟨total, dd, xs, shareD, sp⟩ := provide_spec h
  have hu : u ≠ me := by simpa [Op.signer] using hsig
  have htot := sp.htot
  rw [hempty, withPrec_ok, Nat.zero_mul] at htot
  obtain ⟨_, _, rfl⟩ := htot
  have hx0 : ∀ i, xs i = 0 := by
    have hx := sp.hxs
    simp only [decPools, hbal, bind_ok_iff, withPrec_ok, Nat.zero_mul, Except.ok.injEq] at hx
    obtain ⟨_, ⟨_, _, rfl⟩, _, ⟨_, _, rfl⟩, rfl⟩ := hx
    intro i; cases i <;> rfl
  obtain ⟨x1, ag, dv, xcp, hx1, hag, hdv, hxcp, hsum, hs0, hq⟩ := first_shares hx0 sp.hcs
  have hb : (fun i => s1.bal i me) = d := by
    funext i
    have e := move_apply (sp.hbal i) me
    rw [hbal] at e
    simpa [Ne.symm hu] using e
  have hshare := sp.hshare
  rw [toU128_ok] at hshare
  obtain ⟨_, _, hshare⟩ := hshare
  have hsup := sp.hsup
  rw [hempty, if_pos rfl] at hsup
  obtain ⟨hsup, hlt⟩ := hsup
  have h6 : LP_PREC = 6 := rfl
  rw [h6] at hshare
  have hlo : s1.supply * 10 ^ 12 ≤ xcp := by omega
  have hhi : xcp < (s1.supply + 1) * 10 ^ 12 := by omega
  have hspos : 1000 ≤ s1.supply := by omega
  have ht : withPrec s1.supply LP_PREC = .ok (s1.supply * 10 ^ 12) := by
    rw [withPrec_ok]
    refine ⟨by decide, ?_, rfl⟩
    have hU : U128 = 2 ^ 128 := rfl
    have hV : U256 = 2 ^ 256 := rfl
    rw [hU] at hlt
    rw [hV, h6]
    omega
  have hpos : 0 < s1.supply * 10 ^ 12 := by omega
  have hD : DEC = 10 ^ 18 := rfl
  have h1 : 10 ^ 18 ≤ xcp * 10 ^ 18 / (s1.supply * 10 ^ 12) := by
    rw [Nat.le_div_iff_mul_le hpos, Nat.mul_comm]
    exact Nat.mul_le_mul_right _ hlo
  have h2 : (xcp * 10 ^ 18 / (s1.supply * 10 ^ 12)) * (s1.supply * 10 ^ 12) ≤ xcp * 10 ^ 18 := Nat.div_mul_le_self _ _
  have h3 : xcp * 10 ^ 18 < (s1.supply + 1) * 10 ^ 12 * 10 ^ 18 := Nat.mul_lt_mul_of_pos_right hhi (by decide)
  have h4 : xcp * 10 ^ 18 / (s1.supply * 10 ^ 12) < U256 := by
    have hV : U256 = 2 ^ 256 := rfl
    rw [hV, Nat.div_lt_iff_lt_mul hpos]
    omega
  generalize hpv : xcp * 10 ^ 18 / (s1.supply * 10 ^ 12) = v at h1 h2 h4
  refine ⟨v, ?_, h1, ?_⟩
  · unfold lpPrice
    rw [ht, ok_bind, if_pos (by omega), hb, sp.hdd, ok_bind, hq]
    show (dmul (dd true) s.pool.price.scale >>= _) = _
    rw [hx1, ok_bind]
    show (ampGamma s.pool now >>= _) = _
    rw [hag, ok_bind, hdv, ok_bind, hxcp, ok_bind, ddiv_ok, hD, hpv]
    exact ⟨by omega, h4, rfl⟩
  · rw [Nat.sub_mul]
    have h5 : v * s1.supply * 10 ^ 12 < (s1.supply + 1) * 10 ^ 18 * 10 ^ 12 := by
      rw [Nat.mul_assoc]
      omega
    have h6 := Nat.lt_of_mul_lt_mul_right h5
    omega

/-- Non-vacuity: the first deposit of the example. -/
example : okAnd (lpPrice demoSetup 0 (run demoSetup 0 demo0 [⟨2000, 1, .provide 2 (fun _ => 10 ^ 12) none none 2⟩]) 2000)
    (fun p => p = 10 ^ 18) = true ∧ demo0.supply = 0 ∧ (∀ i, demo0.bal i 0 = 0) ∧
    (run demoSetup 0 demo0 [⟨2000, 1, .provide 2 (fun _ => 10 ^ 12) none none 2⟩]).supply = 10 ^ 12 := by
  decide +kernel

/-- Non-vacuity: a report before the swap of the example and the values this swap stores. -/
example :
    let s := run demoSetup 0 demo0 [⟨2000, 1, .provide 2 (fun _ => 10 ^ 12) none none 2⟩]
    let s' := run demoSetup 0 s [⟨5000, 1, .swap 3 false (5 * 10 ^ 11) none (some (5 * 10 ^ 17)) 3 ⟨0, none⟩⟩]
    s.supply ≠ 0 ∧ s'.bal false 3 < s.bal false 3 ∧ s.twap.last < s'.twap.last ∧
    cumulativePrices demoSetup 0 s 5000 = .ok (s'.twap.cum false, s'.twap.cum true) := by
  decide +kernel

end Verif.PCL
