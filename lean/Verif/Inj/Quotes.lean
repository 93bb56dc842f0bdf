import Verif.Inj.Ledgers
import Verif.Duality.Quotes

/-!
# Withdrawals, settings, emergencies and quotes of the Injective pool: C114, C117, C118, C120

Specification: `held` (what the pair owns, in its balance and in its subaccount).
-/

namespace Verif.Inj

open Verif.PCL (Setup FeeInfo Pool demoSetup demoParams decPools decPools_ok decPools_eq computeSwap
  beforeSwapCheck shareInAsset refund_bounds sendOpt_total)
open Verif.XYK (sendOpt)
open Verif.Duality (set2 set2_apply bank realAfter calcD_zero)

variable {A : Type} [DecidableEq A]

/-- What the pair owns of asset `i`. -/
def held (me : A) (s : State A) (i : Bool) : Nat := s.pcl.bal i me + s.sub i

/-! ## C114: withdrawals -/

theorem WithdrawSpec.supply {su : Setup} {me : A} {s : State A} {now : Nat} {u : A} {n : Nat} {s' : State A}
    {a : Nat × Nat} {xs r own : Bool → Nat} {z : State A} (sp : WithdrawSpec su me s now u n s' a xs r own z) :
    s.pcl.supply ≠ 0 := by
  intro h0
  have h1 := (sp.hr false).1
  simp only [shareInAsset, h0, ne_eq, not_true, if_false, bind_ok_iff, Except.ok.injEq, Stable.dmul_ok] at h1
  obtain ⟨_, rfl, _, h1⟩ := h1
  have h2 := sp.ha0
  rw [Stable.toU128_ok] at h2
  rw [← h1] at h2
  simp only [Nat.mul_zero, Nat.zero_div] at h2
  exact sp.hb0.2 h2.2.2.symm

/-- **C114.** A withdrawal of `n` LP tokens pays the proportion `(n - 1) / supply` of everything the pair owns, in its
balance and on the exchange: never more, and less by less than one unit plus `10 ^ -18` of it. -/
theorem C114_withdraw_pro_rata (su : Setup) (me : A) (s s' : State A) (now : Nat) (u : A) (n : Nat) (a : Nat × Nat)
    (h : withdraw su me s now u n = .ok (s', a)) :
    (a.1 * s.pcl.supply ≤ held me s false * (n - 1) ∧
     held me s false * (n - 1) * 10 ^ 18 < held me s false * s.pcl.supply + (a.1 + 1) * s.pcl.supply * 10 ^ 18) ∧
    (a.2 * s.pcl.supply ≤ held me s true * (n - 1) ∧
     held me s true * (n - 1) * 10 ^ 18 < held me s true * s.pcl.supply + (a.2 + 1) * s.pcl.supply * 10 ^ 18) := by
  obtain ⟨xs, r, own, z, sp⟩ := withdraw_spec h
  have hsup := sp.supply
  have hp := pools_ok sp.hxs
  have one : ∀ (i : Bool) (a : Nat), Stable.toU128 (r i) (su.prec i) = .ok a →
      a * s.pcl.supply ≤ held me s i * (n - 1) ∧
      held me s i * (n - 1) * 10 ^ 18 < held me s i * s.pcl.supply + (a + 1) * s.pcl.supply * 10 ^ 18 := by
    intro i a ha
    have h1 := (sp.hr i).1
    rw [(hp i).2.1] at h1
    exact refund_bounds hsup h1 ha
  exact ⟨one false a.1 sp.ha0, one true a.2 sp.ha1⟩

/-- **C114.** The amounts reach the sender, who loses exactly the LP tokens stated; the LP tokens of others stay, and
the amounts are those of the share query. -/
theorem C114_withdraw_pays_sender (su : Setup) (me : A) (s s' : State A) (now : Nat) (u : A) (n : Nat) (a : Nat × Nat)
    (hu : u ≠ me) (h : withdraw su me s now u n = .ok (s', a)) :
    queryShare su me s n = .ok a ∧
    s'.pcl.bal false u = s.pcl.bal false u + a.1 ∧ s'.pcl.bal true u = s.pcl.bal true u + a.2 ∧
    s'.pcl.lp u + n = s.pcl.lp u ∧ s'.pcl.supply + n = s.pcl.supply ∧ ∀ v, v ≠ u → s'.pcl.lp v = s.pcl.lp v := by
  obtain ⟨xs, r, own, z, sp⟩ := withdraw_spec h
  have hz : ∀ i, z.pcl.bal i u = s.pcl.bal i u := by
    intro i
    rw [sp.hz]; split
    · exact leave_other hu i
    · rfl
  refine ⟨?_, ?_, ?_, ?_, ?_, ?_⟩
  · unfold queryShare
    rw [sp.hxs, ok_bind, (sp.hr false).1, ok_bind, (sp.hr true).1, ok_bind, sp.ha0, ok_bind, sp.ha1, ok_bind]
  · rw [move_apply sp.hb0.1 u, if_neg hu, if_pos rfl, hz]
  · rw [move_apply sp.hb1.1 u, if_neg hu, if_pos rfl, hz]
  · have := debit_apply sp.hlp u
    have := debit_le sp.hlp
    simp_all
  · have := sp.hsup; omega
  · intro v hv
    rw [debit_apply sp.hlp v, if_neg hv]

/-- **C114.** Coins on the exchange are available to liquidity providers: whenever the share query answers with
amounts that are not zero, the provider has the LP tokens, and the value of what remains can be computed, the withdrawal
succeeds, however little the pair has in its own balance. -/
theorem C114_withdrawal_never_short (su : Setup) (me : A) (s : State A) (now : Nat) (u : A) (n : Nat) (a : Nat × Nat)
    (hq : queryShare su me s n = .ok a) (h0 : a.1 ≠ 0) (h1 : a.2 ≠ 0) (hlp : n ≤ s.pcl.lp u)
    (hn : n ≤ s.pcl.supply)
    (hv : ∃ xs r0 r1 v, pools su (fun i => s.pcl.bal i me) s.sub = .ok xs ∧
      shareInAsset (xs false) (n - 1) s.pcl.supply = .ok r0 ∧ shareInAsset (xs true) (n - 1) s.pcl.supply = .ok r1 ∧
      realAfter s.pcl.pool now (fun i => if i then xs true - r1 else xs false - r0) (s.pcl.supply - n) = .ok v) :
    ∃ s', withdraw su me s now u n = .ok (s', a) := by
  obtain ⟨xs, r0, r1, v, hxs, hr0, hr1, hreal⟩ := hv
  unfold queryShare at hq
  rw [hxs, ok_bind, hr0, ok_bind, hr1, ok_bind] at hq
  simp only [bind_ok_iff, Except.ok.injEq] at hq
  obtain ⟨a0, ha0, a1, ha1, rfl⟩ := hq
  dsimp only at h0 h1
  have hp := pools_ok hxs
  have hsup : s.pcl.supply ≠ 0 := by
    intro hz
    simp only [shareInAsset, hz, ne_eq, not_true, if_false, bind_ok_iff, Except.ok.injEq, Stable.dmul_ok] at hr0
    obtain ⟨_, rfl, _, hr0⟩ := hr0
    rw [Stable.toU128_ok, ← hr0] at ha0
    simp only [Nat.mul_zero, Nat.zero_div] at ha0
    exact h0 ha0.2.2.symm
  have hle : ∀ i r, shareInAsset (xs i) (n - 1) s.pcl.supply = .ok r → r ≤ xs i := by
    intro i r hr
    rw [PCL.shareInAsset_ok hr hsup]
    have : (n - 1) * DEC / s.pcl.supply ≤ DEC :=
      Nat.div_le_of_le_mul (Nat.mul_le_mul_right _ (by omega))
    exact Nat.div_le_of_le_mul (by rw [Nat.mul_comm DEC]; exact Nat.mul_le_mul_left _ this)
  have hown : decPools su (fun i => s.pcl.bal i me) = .ok (fun i => s.pcl.bal i me * 10 ^ (18 - su.prec i)) := by
    refine decPools_eq (fun i => (hp i).1) (fun i => lt_of_le_of_lt ?_ (hp i).2.2)
    rw [(hp i).2.1]; exact Nat.mul_le_mul_right _ (Nat.le_add_right _ _)
  have hd : ∃ lp, debit s.pcl.lp u n = .ok lp := by simp [debit, hlp]
  obtain ⟨lp, hd⟩ := hd
  have hcs : ∀ a b, b ≤ a → csub a b = .ok (a - b) := fun a b h => (csub_ok _ _ _).2 ⟨h, rfl⟩
  generalize hz : (if r0 > s.pcl.bal false me * 10 ^ (18 - su.prec false) ∨
    r1 > s.pcl.bal true me * 10 ^ (18 - su.prec true) then leave me s else s) = z
  have enough : ∀ i r a, shareInAsset (xs i) (n - 1) s.pcl.supply = .ok r → Stable.toU128 r (su.prec i) = .ok a →
      (z = s → r ≤ s.pcl.bal i me * 10 ^ (18 - su.prec i)) → (z = s ∨ z = leave me s) →
      a ≤ z.pcl.bal i me := by
    intro i r a hr ha hzs hor
    rw [Stable.toU128_ok] at ha
    have hK : 0 < 10 ^ (18 - su.prec i) := Nat.pow_pos (by decide)
    rw [← ha.2.2]
    rcases hor with h | h
    · rw [h]; exact Nat.div_le_of_le_mul (by rw [Nat.mul_comm]; exact hzs h)
    · rw [h]
      show _ ≤ credit (s.pcl.bal i) me (s.sub i) me
      rw [credit_self]
      refine Nat.div_le_of_le_mul ?_
      have := hle i r hr
      rw [(hp i).2.1] at this
      rw [Nat.mul_comm]; exact this
  have hor : z = s ∨ z = leave me s := by rw [← hz]; split <;> simp
  have hstay : z = s → (r0 ≤ s.pcl.bal false me * 10 ^ (18 - su.prec false) ∧
      r1 ≤ s.pcl.bal true me * 10 ^ (18 - su.prec true)) ∨ z = leave me s := by
    intro h
    by_cases hc : r0 > s.pcl.bal false me * 10 ^ (18 - su.prec false) ∨
        r1 > s.pcl.bal true me * 10 ^ (18 - su.prec true)
    · right; rw [← hz, if_pos hc]
    · left; omega
  have e0 : a0 ≤ z.pcl.bal false me := by
    by_cases hl : z = leave me s
    · refine enough false r0 a0 hr0 ha0 (fun h => ?_) hor
      rcases hstay h with h' | h'
      · exact h'.1
      · rw [Stable.toU128_ok] at ha0
        by_cases hc : r0 > s.pcl.bal false me * 10 ^ (18 - su.prec false)
        · exfalso
          have hx := hle false r0 hr0
          rw [(hp false).2.1] at hx
          have hb : z.pcl.bal false me = s.pcl.bal false me + s.sub false := by
            rw [hl]; show credit (s.pcl.bal false) me (s.sub false) me = _; rw [credit_self]
          rw [h] at hb
          have : s.sub false = 0 := by omega
          rw [this, Nat.add_zero] at hx
          omega
        · omega
    · exact enough false r0 a0 hr0 ha0 (fun h => ((hstay h).resolve_right hl).1) hor
  have e1 : a1 ≤ z.pcl.bal true me := by
    by_cases hl : z = leave me s
    · refine enough true r1 a1 hr1 ha1 (fun h => ?_) hor
      rcases hstay h with h' | h'
      · exact h'.2
      · rw [Stable.toU128_ok] at ha1
        by_cases hc : r1 > s.pcl.bal true me * 10 ^ (18 - su.prec true)
        · exfalso
          have hx := hle true r1 hr1
          rw [(hp true).2.1] at hx
          have hb : z.pcl.bal true me = s.pcl.bal true me + s.sub true := by
            rw [hl]; show credit (s.pcl.bal true) me (s.sub true) me = _; rw [credit_self]
          rw [h] at hb
          have : s.sub true = 0 := by omega
          rw [this, Nat.add_zero] at hx
          omega
        · omega
    · exact enough true r1 a1 hr1 ha1 (fun h => ((hstay h).resolve_right hl).2) hor
  obtain ⟨b0, hb0⟩ := move_succeeds (b := u) e0
  obtain ⟨b1, hb1⟩ := move_succeeds (b := u) e1
  unfold withdraw
  simp only [hd, ok_bind, hxs, hr0, hr1, hown, hcs _ _ (hle false r0 hr0), hcs _ _ (hle true r1 hr1), hcs _ _ hn,
    hreal, ha0, ha1, hz, bank]
  rw [show require (a0 ≠ 0) (.invalid "invalid coins") = .ok () from (require_ok _ _ _).2 h0, ok_bind, hb0, ok_bind,
    show require (a1 ≠ 0) (.invalid "invalid coins") = .ok () from (require_ok _ _ _).2 h1, ok_bind, hb1, ok_bind]
  exact ⟨_, rfl⟩

/-- Non-vacuity of C114: with 19.9 of both coins on the exchange, a withdrawal of 99% needs some of them. -/
example : okAnd demo (fun s =>
    let z := run demoSetup 0 s demoStart
    okAnd (queryShare demoSetup 0 z 990000000) (fun a => decide (a = (990098998, 989901257)) &&
      decide (z.pcl.bal false 0 = 980198000 ∧ held 0 z false = 1000100000)) &&
    okAnd (withdraw demoSetup 0 z 3000 2 990000000) (fun x => decide (x.2 = (990098998, 989901257)) &&
      decide (x.1.pcl.bal false 0 = 10001002))) = true := by
  decide +kernel

/-! ## C117: settings -/

/-- **C117.** The number of orders is changed by the pair's owner alone (the factory's owner by default), to a number
between 1 and 30; the ticks are changed by `UpdateMarketTicks` alone, which anybody may call, to those of the exchange
(the quantity tick in tokens); the number of trades needed for the averages never changes. -/
theorem C117_settings (su : Setup) (me : A) (now : Nat) (fo : A) (s s' : State A) (o : Op A)
    (h : exec su me now fo s o = .ok s') :
    (s'.ob.number ≠ s.ob.number → ∃ n, o = .orders (s.pcl.owner.getD fo) n ∧ 1 ≤ n ∧ n ≤ 30 ∧ s'.ob.number = n) ∧
    ((s'.ob.priceTick ≠ s.ob.priceTick ∨ s'.ob.qtyTick ≠ s.ob.qtyTick) → ∃ u p q, o = .ticks u p q ∧
      s'.ob.priceTick = p ∧ s'.ob.qtyTick = q / 10 ^ 18 * 10 ^ 18 / 10 ^ su.prec false) ∧
    s'.ob.minTrades = s.ob.minTrades := by
  obtain ⟨hsig, hx⟩ := exec_cases h
  rcases hx with ⟨u, d, t, r, e', sh, rfl, hx⟩ | ⟨u, n, x, rfl, hx⟩ | ⟨u, i, n, b, m, r, e', x, rfl, hx⟩ |
    ⟨u, ac, e', rfl, hx⟩ | ⟨u, p, q, rfl, ob, hob, rfl⟩ | ⟨u, n, rfl, hu, h1, h2, rfl⟩ | ⟨x, c, rfl, hax, hx, rfl⟩ |
    ⟨e', rfl, hx⟩ | ⟨rfl, rfl⟩ | ⟨x, y, rfl, _, rfl⟩
  · obtain ⟨b0, total, ps, dd, xs, pool, fee, shareD, sp⟩ := provide_spec hx
    rw [sp.hob]; simp
  · obtain ⟨xs, r, own, z, sp⟩ := withdraw_spec hx
    rw [sp.hob]; simp
  · obtain ⟨bo, bal, ps, xs, pool, fee, off, rr, out, l1, sp⟩ := swap_spec hx
    rw [sp.hob]; simp
  · obtain ⟨_, xs, xs', fee, _, _, hp, hs⟩ := emergency_spec hx
    rw [hs]; simp
  · simp only [setTicks, bind_ok_iff, require_ok, exists_const, Except.ok.injEq, dec256FromRatio_ok] at hob
    obtain ⟨_, ⟨_, _, rfl⟩, _, rfl⟩ := hob
    exact ⟨fun h => absurd rfl h, fun _ => ⟨u, p, q, rfl, rfl, rfl⟩, rfl⟩
  · exact ⟨fun _ => ⟨n, by rw [hu], h1, h2, rfl⟩, fun h => by simp at h, rfl⟩
  · simp
  · rcases beginBlock_spec hx with rfl | ⟨_, _, _, xs, pool, xs', fee, _, _, rfl | ⟨bal, b0, b1, l, need, base, quote,
      ag, dd, hp, hb0, hb1, _, _, _, _, _, _, hs⟩⟩
    · simp
    · simp [leave]
    · rw [hs]; simp
  · simp [deactivate, leave]
  · simp

/-- **C117.** In every history the number of orders is between 1 and 30 and the number of trades needed for the averages
between 1 and 3000. -/
theorem C117_settings_in_range (su : Setup) (me : A) (s : State A) (hr : Reachable su me s) :
    1 ≤ s.ob.number ∧ s.ob.number ≤ 30 ∧ 1 ≤ s.ob.minTrades ∧ s.ob.minTrades ≤ 3000 := by
  obtain ⟨_, _, _, _, _, _, _, _, _, _, s0, es, h0, rfl⟩ := hr
  have hi := (create_spec h0).2.2.2.2.2.2
  clear h0
  induction es generalizing s0 with
  | nil => exact hi
  | cons e rest ih =>
    have hrun : run su me s0 (e :: rest) = run su me (step su me s0 e) rest := rfl
    rw [hrun]
    refine ih _ ?_
    unfold step
    cases hx : exec su me e.now e.fo s0 e.op with
    | error _ => exact hi
    | ok s' =>
      show 1 ≤ s'.ob.number ∧ s'.ob.number ≤ 30 ∧ 1 ≤ s'.ob.minTrades ∧ s'.ob.minTrades ≤ 3000
      obtain ⟨h1, _, h3⟩ := C117_settings su me e.now e.fo s0 s' e.op hx
      rw [h3]
      by_cases hn : s'.ob.number = s0.ob.number
      · rw [hn]; exact hi
      · obtain ⟨n, _, a, b, hn⟩ := h1 hn
        rw [hn]; exact ⟨a, b, hi.2.2⟩

/-- Non-vacuity: the factory's owner (account 1) sets the number of orders; others and out-of-range numbers are refused;
anybody updates the ticks. -/
example : okAnd demo (fun s =>
    okAnd (exec demoSetup 0 2000 1 s (.orders 1 30)) (fun z => decide (z.ob.number = 30)) &&
    fails (exec demoSetup 0 2000 1 s (.orders 1 31)) && fails (exec demoSetup 0 2000 1 s (.orders 1 0)) &&
    fails (exec demoSetup 0 2000 1 s (.orders 2 5)) &&
    okAnd (exec demoSetup 0 2000 1 s (.ticks 7 (10 ^ 14) (10 ^ 22)))
      (fun z => decide (z.ob.priceTick = 10 ^ 14 ∧ z.ob.qtyTick = 10 ^ 16))) = true := by
  decide +kernel

/-! ## C118: leaving the exchange -/

/-- **C118.** The emergency withdrawal, which anybody may call, succeeds only when the chain says that the pair is not
called any more; like a call of `deactivate` by the chain it takes everything from the exchange back into the pair
(less the fee on executed orders), cancels all orders and stops the pair from placing new ones until a swap or deposit
finds it active again. -/
theorem C118_everything_returns (su : Setup) (me : A) (now : Nat) (fo : A) (s s' : State A) (o : Op A)
    (ho : o = .deactivate ∨ ∃ u active e, o = .emergency u active e)
    (h : exec su me now fo s o = .ok s') :
    (∀ u active e, o = .emergency u active e → active = false) ∧
    (∀ i, s'.sub i = 0) ∧ s'.posted = [] ∧ s'.ob.enabled = false ∧ ¬ changed s'.ob.last s'.sub ∧
    (∀ e n, beginBlock su me s' n e = .ok s') ∧
    (o = .deactivate → ∀ i, s'.pcl.bal i me = held me s i) ∧
    (∀ u active e, o = .emergency u active e → ∀ i, s'.pcl.bal i me ≤ held me s i ∧
      ((e.f.addr = none ∨ ¬ changed s.ob.last s.sub) → s'.pcl.bal i me = held me s i)) := by
  obtain ⟨hsig, hx⟩ := exec_cases h
  have hblk : ∀ z : State A, z.ob.enabled = false → ∀ e n, beginBlock su me z n e = .ok z := by
    intro z hz e n
    unfold beginBlock
    rw [if_pos]
    rw [hz]; simp
  have hl : ∀ i, (leave me s).pcl.bal i me = held me s i := by
    intro i
    show credit (s.pcl.bal i) me (s.sub i) me = _
    rw [credit_self]; rfl
  rcases ho with rfl | ⟨u, active, e, rfl⟩
  · rcases hx with ⟨_, _, _, _, _, _, hx, _⟩ | ⟨_, _, _, hx, _⟩ | ⟨_, _, _, _, _, _, _, _, hx, _⟩ | ⟨_, _, _, hx, _⟩ |
      ⟨_, _, _, hx, _⟩ | ⟨_, _, hx, _⟩ | ⟨_, _, hx, _⟩ | ⟨_, hx, _⟩ | ⟨_, rfl⟩ | ⟨_, _, hx, _⟩ <;> try cases hx
    refine ⟨by simp, fun _ => rfl, rfl, rfl, by simp [deactivate, changed, leave], hblk _ rfl, fun _ i => hl i, by simp⟩
  · rcases hx with ⟨_, _, _, _, _, _, hx, _⟩ | ⟨_, _, _, hx, _⟩ | ⟨_, _, _, _, _, _, _, _, hx, _⟩ | ⟨_, _, _, hx, hy⟩ |
      ⟨_, _, _, hx, _⟩ | ⟨_, _, hx, _⟩ | ⟨_, _, hx, _⟩ | ⟨_, hx, _⟩ | ⟨hx, _⟩ | ⟨_, _, hx, _⟩ <;> cases hx
    obtain ⟨ha, xs, xs', fee, hxs, hset, hp, hs⟩ := emergency_spec hy
    have hsub : s'.sub = fun _ => 0 := by rw [hs]
    have hen : s'.ob.enabled = false := by rw [hs]
    have hlast : s'.ob.last = fun _ => 0 := by rw [hs]
    refine ⟨?_, fun i => by rw [hsub], by rw [hs], hen, by rw [hsub, hlast]; simp [changed], hblk _ hen, by simp, ?_⟩
    · intro u' a' e' hh
      cases hh; exact ha
    · intro u' a' e' hh i
      cases hh
      constructor
      · rw [← hl i]
        cases fee with
        | none => simp only [payFee, Except.ok.injEq] at hp; rw [hp]
        | some x =>
          simp only [payFee, bank, bind_ok_iff, require_ok, exists_const, Except.ok.injEq] at hp
          obtain ⟨l, ⟨_, hm⟩, hp⟩ := hp
          rw [← hp, set2_apply]
          split
          · rename_i hi
            rw [move_apply hm me, hi]
            have := move_le hm
            simp only [if_true]
            split <;> omega
          · exact le_refl _
      · intro hno
        have hfee : fee = none := by
          rcases settle_cases hset with ⟨_, _, _, hf⟩ | ⟨hc, hpr⟩
          · exact hf
          · rcases hno with hno | hno
            · simp only [process, tradeFee, hno, bind_ok_iff, Except.ok.injEq, Prod.exists, Prod.mk.injEq] at hpr
              obtain ⟨_, _, _, _, _, _, ⟨_, _, _, rfl⟩, _, _, _, _, _, _, _, _, _, _, _, _, rfl⟩ := hpr
              rfl
            · exact absurd hc hno
        rw [hfee] at hp
        simp only [payFee, Except.ok.injEq] at hp
        rw [← hp, hl i]

/-- Non-vacuity: both ways out of the exchange from the pool with orders. -/
example : okAnd demo (fun s =>
    let z := run demoSetup 0 s demoStart
    okAnd (exec demoSetup 0 3000 1 z (.emergency 9 false taxed)) (fun w =>
      decide (w.pcl.bal false 0 = 1000100000 ∧ w.sub false = 0 ∧ w.posted = [] ∧ z.sub false = 19902000)) &&
    fails (exec demoSetup 0 3000 1 z (.emergency 9 true taxed)) &&
    okAnd (exec demoSetup 0 3000 1 z .deactivate) (fun w => decide (w.pcl.bal true 0 = held 0 z true))) = true := by
  decide +kernel

/-! ## C120: quotes -/

omit [DecidableEq A] in
/-- The reserves without the coins that arrived with the message. -/
theorem pools_before {su : Setup} {me : A} {bal bal1 : Bool → A → Nat} {sub d ps dd : Bool → Nat}
    (hb : ∀ i, bal1 i me = bal i me + d i) (hp : pools su (fun i => bal1 i me) sub = .ok ps)
    (hd : ∀ i, dd i = d i * 10 ^ (18 - su.prec i)) :
    pools su (fun i => bal i me) sub = .ok (fun i => ps i - dd i) := by
  have h2 := pools_ok hp
  have e : (fun i => ps i - dd i) = fun i => (bal i me + sub i) * 10 ^ (18 - su.prec i) := by
    funext i
    rw [(h2 i).2.1, hb i, hd i]
    rw [show bal i me + d i + sub i = bal i me + sub i + d i by omega, Nat.add_mul _ (d i)]
    omega
  rw [e]
  refine pools_eq (fun i => (h2 i).1) (fun i => ?_)
  refine lt_of_le_of_lt ?_ (h2 i).2.2
  rw [(h2 i).2.1, hb i]
  exact Nat.mul_le_mul_right _ (by omega)

theorem SwapSpec.before {su : Setup} {me : A} {s : State A} {now : Nat} {u : A} {i : Bool} {n : Nat}
    {b m : Option Nat} {rc : A} {e : Env A} {s' : State A} {o : PCL.SwapOut}
    {bo : A → Nat} {bal : Bool → A → Nat} {ps xs : Bool → Nat} {pool : Pool} {fee : Option (Fee A)} {off : Nat}
    {r : PCL.Swapped} {out : Nat} {l1 : A → Nat}
    (sp : SwapSpec su me s now u i n b m rc e s' o bo bal ps xs pool fee off r out l1) (hu : u ≠ me) :
    pools su (fun i => s.pcl.bal i me) s.sub = .ok (set2 ps i (ps i - off)) := by
  have hm := move_apply sp.hbo me
  rw [if_neg (fun hh => hu hh.symm), if_pos rfl] at hm
  have hoff := sp.hoff
  rw [Stable.withPrec_ok] at hoff
  have hp0 := pools_before (bal := s.pcl.bal) (d := fun j => if j = i then n else 0)
    (dd := fun j => if j = i then off else 0) (fun j => by
      rw [set2_apply]
      by_cases hj : j = i
      · subst hj; simp only [if_true]; exact hm
      · simp only [if_neg hj]; rfl) sp.hps (fun j => by
      by_cases hj : j = i
      · subst hj; simp only [if_true]; exact hoff.2.2.symm
      · simp only [if_neg hj, Nat.zero_mul])
  rw [hp0]
  congr 1
  funext j
  rw [set2_apply]
  by_cases hj : j = i
  · subst hj; simp
  · simp [hj]

/-- **C120 (partial).** While no executed orders are waiting to be accounted for, the swap simulation announces exactly
what the swap then pays, and its spread and commission.  Missing: executed orders that are waiting (the simulation does
not look at them, see `C120_pending_orders_ignored_violated`). -/
theorem C120_swap_quote_exact_partial (su : Setup) (me : A) (s s' : State A) (now : Nat) (u : A) (i : Bool) (n : Nat)
    (b m : Option Nat) (rc : A) (e : Env A) (o : PCL.SwapOut) (hu : u ≠ me)
    (hq : ∀ i, s.ob.last i = s.sub i)
    (h : swap su me s now u i n b m rc e = .ok (s', o)) :
    simulation su me s now i n e.f = .ok (o.ret, o.spread, o.commission) := by
  obtain ⟨bo, bal, ps, xs, pool, fee, off, r, out, l1, sp⟩ := swap_spec h
  have hp0 := sp.before hu
  have hset := sp.hsettle
  have hnc : ¬ changed s.ob.last s.sub := by simp [changed, hq]
  unfold settle at hset
  rw [if_neg hnc] at hset
  simp only [Except.ok.injEq, Prod.mk.injEq] at hset
  obtain ⟨rfl, hxs, _⟩ := hset
  have hr := sp.hr
  rw [← hxs] at hr
  unfold simulation
  rw [sp.hoff, ok_bind, hp0, ok_bind, sp.hchk, ok_bind, hr, ok_bind, sp.hret, ok_bind, sp.hspr, ok_bind, sp.hcm, ok_bind]

/-- The pool of the example after a trader has taken all of the pair's first sell order. -/
def demoTaken : List (Event Nat) := demoStart ++
  [⟨2500, 1, .fill (fun i => if i then 0 else 9965000) (fun i => if i then 10004860 else 0)⟩]

/-- **C120 (violated).** The English claim: the simulation announces what the swap pays.  In the pool of the example a
trader takes the pair's first sell order; then account 3 swaps 10 of asset 0: the simulation announces 9977212 units,
the swap pays 9975543, at the same time and with the same fees. -/
theorem C120_pending_orders_ignored_violated : okAnd demo (fun s =>
    let z := run demoSetup 0 s demoTaken
    okAnd (simulation demoSetup 0 z 3000 false (10 ^ 7) taxed.f) (fun q => decide (q.1 = 9977212)) &&
    okAnd (swap demoSetup 0 z 3000 3 false (10 ^ 7) none none 3 taxed) (fun x => decide (x.2.ret = 9975543))) = true := by
  decide +kernel

/-- Non-vacuity of the partial theorem: nothing is waiting after the pair has placed its orders. -/
example : okAnd demo (fun s =>
    let z := run demoSetup 0 s demoStart
    decide (z.ob.last false = z.sub false ∧ z.ob.last true = z.sub true ∧ z.sub true = 19870000) &&
    okAnd (simulation demoSetup 0 z 3000 false (10 ^ 7) taxed.f) (fun q =>
      okAnd (swap demoSetup 0 z 3000 3 false (10 ^ 7) none none 3 taxed) (fun x =>
        decide (q.1 = x.2.ret ∧ q.1 > 9 * 10 ^ 6)))) = true := by
  decide +kernel

omit [DecidableEq A] in
/-- **C120.** The pool query reports everything the pair owns, in its balance and on the exchange. -/
theorem C120_pool_query_complete (su : Setup) (me : A) (s : State A) (t : Nat × Nat)
    (h : queryPool su me s = .ok t) : t.1 = held me s false ∧ t.2 = held me s true := by
  simp only [queryPool, bind_ok_iff, Except.ok.injEq, Stable.toU128_ok] at h
  obtain ⟨xs, hxs, _, ⟨_, _, rfl⟩, _, ⟨_, _, rfl⟩, rfl⟩ := h
  have hp := pools_ok hxs
  have hK : ∀ i, 0 < 10 ^ (18 - su.prec i) := fun i => Nat.pow_pos (by decide)
  dsimp only
  rw [(hp false).2.1, (hp true).2.1, Nat.mul_div_cancel _ (hK _), Nat.mul_div_cancel _ (hK _)]
  exact ⟨rfl, rfl⟩

end Verif.Inj
