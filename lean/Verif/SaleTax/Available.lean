import Verif.SaleTax.Honest
import Verif.XYK.Available

/-!
# Pairs with sale tax are always there (C189)

Over the model of `SaleTax/Entry.lean`: in every history of a pair with sale tax, whatever its tax admin did, whoever holds LP
tokens can withdraw and pays no tax, whoever has one of the assets can trade, and whoever has both can deposit - unless the pair was
left alone for so long that its price accumulators overflow.
-/

namespace Verif.SaleTax.Entry

open Verif Verif.XYK
open Verif.Asset (Str Coin assertSent assertCoins sent declared)
open Verif.XYK.Entry (Chain Env Cfg attach ValidFunds isNative label label_infos User Allowed coinsOf InTime sharesFor)

set_option linter.unusedSectionVars false

variable {A : Type} [DecidableEq A]

/-! ## Specification -/

/-- The pair has just been created: no LP tokens, a tax table that passed the checks. -/
structure Created (denomOk : String → Bool) (c : Cfg A) (w : State A) : Prop where
  cfg : ∃ taxes admin, initConfig denomOk (infosOf c) taxes admin = .ok w.cfg
  supply : w.chain.supply = 0
  lp : ∀ a, w.chain.bank c.lp a = 0
  twap : w.chain.twap = ⟨0, 0, 0⟩
  tracked : w.chain.tracked = fun _ => 0

/-- What the pair has of its asset `i`. -/
def pool (c : Cfg A) (w : State A) (i : Bool) : Nat := w.chain.of (c.infos i) c.me

/-- Since the last deposit, withdrawal or trade the price, both ways, times the seconds (with six digits) stays below `2^128`. -/
def ClockOk (c : Cfg A) (w : State A) (now : Nat) : Prop :=
  (now - w.chain.twap.last) * 10 ^ 6 < 2 ^ 128 ∧
  (now - w.chain.twap.last) * 10 ^ 6 * pool c w true / pool c w false < 2 ^ 128 ∧
  (now - w.chain.twap.last) * 10 ^ 6 * pool c w false / pool c w true < 2 ^ 128

/-! ## Lemmas -/

theorem created_good {denomOk : String → Bool} {c : Cfg A} (hc : c.Ok) {w0 w : State A} (h0 : Created denomOk c w0) {ts : List (Tx A)}
    (hw : w = run denomOk c w0 ts) : GoodTaxes (infosOf c) w.cfg.taxes := by
  obtain ⟨taxes, admin, hi⟩ := h0.cfg
  rw [hw]
  exact (C173_histories_are_pair_histories denomOk c hc w0 (initConfig_good hi) ts).1

/-- The deduction of a tax of at most one half. -/
theorem deduct_half {infos : Bool → SaleTax.Info} {t : Taxes A} (hg : GoodTaxes infos t) (k : String) (n : Nat) :
    ∃ net tax, deduct n (getTax t k) = .ok (net, tax) ∧ tax + net = n ∧ n ≤ 2 * net := by
  cases h : getTax t k with
  | none => exact ⟨n, 0, rfl, by omega, by omega⟩
  | some p =>
    obtain ⟨r, a⟩ := p
    obtain ⟨hr, _⟩ := getTax_good hg h
    have h2 : 2 * mulDec n r ≤ n := by
      unfold mulDec
      have hD : 0 < DEC := by norm_num [DEC]
      refine Nat.le_of_mul_le_mul_right ?_ hD
      calc 2 * (n * r / DEC) * DEC = 2 * (n * r / DEC * DEC) := by ring
        _ ≤ 2 * (n * r) := Nat.mul_le_mul_left _ (Nat.div_mul_le_self ..)
        _ = n * (2 * r) := by ring
        _ ≤ n * DEC := Nat.mul_le_mul_left _ hr
    refine ⟨n - mulDec n r, mulDec n r, ?_, by omega, by omega⟩
    simp only [deduct, bind_ok_iff, csub_ok, Except.ok.injEq]
    exact ⟨_, ⟨by omega, rfl⟩, rfl⟩

/-- A trade of a moderate amount succeeds whatever the taxes. -/
theorem taxed_swap_succeeds {infos : Bool → SaleTax.Info} (hclash : NoClash infos) {cfg : SaleTax.Config A}
    (hg : GoodTaxes infos cfg.taxes) {me u r : A} (hu : u ≠ me) (hr : r ≠ me) {s : XYK.State A} {now n : Nat} {i : Bool} {f : Fees A}
    (hbal : n ≤ s.bal i u) (hhalf : 2 * n ≤ s.bal i me) (hworth : 4 * s.bal i me ≤ n * s.bal (!i) me) (hn : n ≠ 0)
    (hsmall : ∀ j, s.bal j me + n < 2 ^ 128) (hf : f.total ≤ DEC ∧ f.maker ≤ DEC)
    (htw : InTime s.twap now (s.bal false me) (s.bal true me)) :
    ∃ q s' out, simulation infos cfg me s i n f = .ok q ∧
      SaleTax.swap infos cfg me s now u i n none (some (5 * 10 ^ 17)) r f = .ok (s', out) ∧
      s.bal (!i) r + q.ret ≤ s'.bal (!i) r := by
  obtain ⟨net, tax, hd, hsum, hnet⟩ := deduct_half hg (infos i).str n
  have ho : s.bal i me ≠ 0 := by omega
  have ha : s.bal (!i) me ≠ 0 := by
    intro h
    rw [h, Nat.mul_zero] at hworth
    omega
  have hal : s.bal (!i) me < 2 ^ 128 := Nat.lt_of_le_of_lt (Nat.le_add_right ..) (hsmall _)
  have hol : s.bal i me < 2 ^ 128 := Nat.lt_of_le_of_lt (Nat.le_add_right ..) (hsmall _)
  have hh : 2 * net ≤ s.bal i me := by omega
  have hw : 2 * s.bal i me ≤ net * s.bal (!i) me := by
    have : n * s.bal (!i) me ≤ 2 * net * s.bal (!i) me := Nat.mul_le_mul_right _ hnet
    have e : 2 * net * s.bal (!i) me = 2 * (net * s.bal (!i) me) := by ring
    omega
  obtain ⟨q, hq, hqa⟩ := XYK.Entry.computeSwap_succeeds ho ha (show net ≠ 0 by omega) hf.1 hol hal (XYK.Entry.half_value hh hal)
  have hl := XYK.Entry.half_trade hh hw ho hal hq
  have hcs : computeSwapTax (s.bal i me) (s.bal (!i) me) n f.total (getTax cfg.taxes (infos i).str) =
      .ok ⟨q.ret, q.spread, q.commission, net, tax⟩ := by
    simp only [computeSwapTax, hd, ok_bind, hq]
  obtain ⟨tw, htw⟩ := XYK.Entry.accumulate_succeeds htw
  obtain ⟨bo, hbo⟩ := move_succeeds (l := s.bal i) (b := me) hbal
  have a0 := move_apply hbo me
  rw [if_neg (Ne.symm hu), if_pos rfl] at a0
  obtain ⟨ba, hba⟩ := move_succeeds (l := s.bal (!i)) (a := me) (b := r) (n := q.ret) (by omega)
  have a1 := move_apply hba r
  rw [if_neg hr, if_pos rfl] at a1
  have a1' := move_apply hba me
  rw [if_pos rfl, if_neg (Ne.symm hr)] at a1'
  have hni : (!i) ≠ i := by cases i <;> simp
  -- the tax
  have htax : ∃ bal, sendTax infos me (fun j => if j = i then bo else ba) i tax (getTax cfg.taxes (infos i).str) = .ok bal ∧
      bal (!i) = ba := by
    cases h : getTax cfg.taxes (infos i).str with
    | none => exact ⟨_, rfl, by simp [hni]⟩
    | some p =>
      obtain ⟨rate, a⟩ := p
      by_cases ht : tax = 0
      · exact ⟨fun j => if j = i then bo else ba, by simp [sendTax, ht], by simp [hni]⟩
      · obtain ⟨l, hl⟩ := move_succeeds (l := bo) (a := me) (b := a) (n := tax) (by omega)
        refine ⟨fun j => if j = i then l else (if j = i then bo else ba), ?_, by simp [hni]⟩
        simp only [sendTax, ne_eq, ht, not_false_eq_true, if_true, taxedAsset_eq hclash hg h, ok_bind, hl]
  obtain ⟨bal, hbal', hba'⟩ := htax
  obtain ⟨mk, hmk, hmkle⟩ : ∃ mk, (match f.feeAddr with | some _ => mulDec q.commission f.maker | none => 0) = mk ∧
      mk ≤ q.commission := by
    cases f.feeAddr with
    | none => exact ⟨0, rfl, Nat.zero_le _⟩
    | some a => exact ⟨_, rfl, mulDec_le hf.2⟩
  obtain ⟨ba2, hba2⟩ : ∃ ba2, sendOpt ba me f.feeAddr mk = .ok ba2 := by
    cases hfa : f.feeAddr with
    | none => exact ⟨ba, rfl⟩
    | some a => exact move_succeeds (by omega)
  have a2 := XYK.Entry.sendOpt_right hba2 hr
  refine ⟨⟨q.ret, q.spread, q.commission⟩, { s with
      bal := fun j => if j = i then bal i else ba2
      twap := tw
      tracked := fun j => if j = i then s.bal i me + net else s.bal (!i) me - (q.ret + mk) },
    ⟨q.ret, q.spread, q.commission, mk, tax⟩, ?_, ?_, ?_⟩
  · simp only [simulation, hcs, ok_bind]
  · have hsi := hsmall i
    have hsn := hsmall (!i)
    unfold SaleTax.swap
    simp only [bind_ok_iff, Except.ok.injEq]
    refine ⟨bo, hbo, s.bal i me, (csub_ok _ _ _).2 ⟨by omega, by omega⟩, _, hcs, q.ret + q.commission,
      (u128_ok _ _).2 ⟨Nat.lt_of_le_of_lt hqa hal, rfl⟩, (), hl, ba, hba, bal, hbal', ba2, ?_, s.bal i me + net,
      (u128_ok _ _).2 ⟨Nat.lt_of_le_of_lt (show s.bal i me + net ≤ s.bal i me + n by omega) hsi, rfl⟩, s.bal (!i) me - (q.ret + mk), ?_, tw, ?_, ?_⟩
    · rw [hba', ← hba2, ← hmk]
      cases f.feeAddr <;> rfl
    · refine (csub_ok _ _ _).2 ?_
      rw [← hmk] at hmkle ⊢
      cases hfa : f.feeAddr <;> simp only [hfa] at hmkle ⊢ <;> exact ⟨by omega, trivial⟩
    · cases i
      · exact htw
      · exact htw
    · rw [← hmk]
      cases f.feeAddr <;> rfl
  · simp only [hni, if_false]
    omega

/-- Messages of the plain pair that this pair understands in the same way. -/
theorem of_withdraw {denomOk : String → Bool} {c : Cfg A} {w : State A} {e : Env A} {x : A} {funds : List Coin} {v : Chain A}
    {as : List Asset.Asset} (mins : Option (List (Asset.Info × Nat)))
    (h : XYK.Entry.exec c w.chain (.call e x funds (.withdraw as none)) = .ok v) :
    exec denomOk c w (.call e x funds (.withdraw as mins)) = .ok { w with chain := v } := by
  simp only [XYK.Entry.exec, XYK.Entry.execute, bind_ok_iff, require_ok, exists_const, Except.ok.injEq] at h
  obtain ⟨h1, h2, w1, h3, p, h4, rfl⟩ := h
  simp only [exec, execute, bind_ok_iff, require_ok, exists_const, Except.ok.injEq]
  exact ⟨h1, h2, w1, h3, p, h4, rfl⟩

theorem of_provide {denomOk : String → Bool} {c : Cfg A} {w : State A} {e : Env A} {x : A} {funds : List Coin} {v : Chain A}
    {as : List Asset.Asset} {tol : Option Nat} {r : Option A} (minLp : Option Nat)
    (h : XYK.Entry.exec c w.chain (.call e x funds (.provide as tol none r)) = .ok v) :
    exec denomOk c w (.call e x funds (.provide as tol minLp r)) = .ok { w with chain := v } := by
  simp only [XYK.Entry.exec, XYK.Entry.execute, bind_ok_iff, require_ok, exists_const, Except.ok.injEq] at h
  obtain ⟨h1, h2, w1, h3, p, h4, rfl⟩ := h
  simp only [exec, execute, bind_ok_iff, require_ok, exists_const, Except.ok.injEq]
  exact ⟨h1, h2, w1, h3, p, h4, rfl⟩

/-! ## Theorems -/

/-- **C189, withdrawing.**  In every history, whatever taxes are or were set, whoever holds LP tokens of the pair can hand them in at
once, alone, in any quantity that is worth at least one unit of each coin, and gets what the `Share` query names, without tax - as long as
the pair's clock is in order. -/
theorem C189_withdraw_available_partial [Fintype A] (denomOk : String → Bool) (c : Cfg A) (hc : c.Ok) (hclash : NoClash (infosOf c))
    (w0 w : State A) (h0 : Created denomOk c w0) (ts : List (Tx A)) (hw : w = run denomOk c w0 ts) (e : Env A) (x : A) (hx : User c x)
    (n : Nat) (hn : n ≠ 0) (hbal : n ≤ w.chain.bank c.lp x) (hsmall : ∀ i, pool c w i < 2 ^ 128)
    (hr : ∀ r, queryShare c.me (XYK.Entry.view c w.chain) n = .ok r →
      (isNative (c.infos false) = true → r.1 ≠ 0) ∧ (isNative (c.infos true) = true → r.2 ≠ 0))
    (hclock : ClockOk c w e.now) (mins : Option (List (Asset.Info × Nat))) :
    ∃ r w', queryShare c.me (XYK.Entry.view c w.chain) n = .ok r ∧
      exec denomOk c w (.call e x [⟨c.lp, n⟩] (.withdraw [] mins)) = .ok w' ∧
      w'.chain.of (c.infos false) x = w.chain.of (c.infos false) x + r.1 ∧
      w'.chain.of (c.infos true) x = w.chain.of (c.infos true) x + r.2 ∧
      w'.chain.bank c.lp x + n = w.chain.bank c.lp x := by
  obtain ⟨taxes, admin, hi⟩ := h0.cfg
  obtain ⟨hsum, _⟩ := C173_claims_covered_on_chain denomOk c hc hclash w0 taxes admin hi h0.supply h0.lp h0.twap h0.tracked ts
  rw [← hw] at hsum
  have hsup : n ≤ w.chain.supply := by
    have : w.chain.bank c.lp x ≤ ∑ z, w.chain.bank c.lp z :=
      Finset.single_le_sum (f := fun z => w.chain.bank c.lp z) (fun _ _ => Nat.zero_le _) (Finset.mem_univ x)
    omega
  obtain ⟨a0, b0⟩ := XYK.Entry.shareInAsset_succeeds (pool := pool c w false) (n := n) (supply := w.chain.supply) (by omega) hsup
    (hsmall false)
  obtain ⟨a1, b1⟩ := XYK.Entry.shareInAsset_succeeds (pool := pool c w true) (n := n) (supply := w.chain.supply) (by omega) hsup
    (hsmall true)
  have hq : queryShare c.me (XYK.Entry.view c w.chain) n = .ok (pool c w false * (n * DEC / w.chain.supply) / DEC,
      pool c w true * (n * DEC / w.chain.supply) / DEC) := by
    simp only [queryShare, XYK.Entry.view, bind_ok_iff]
    exact ⟨_, a0, _, a1, rfl⟩
  have hr1 := hr _ hq
  obtain ⟨v, h1, h2, h3⟩ := XYK.Entry.withdraw_succeeds c hc e w.chain x hx.1 (fun i => by cases i; exact hx.2.1; exact hx.2.2) n hn
    hbal hsup hsmall (fun i => by
      cases i
      · exact hr1.1
      · exact hr1.2) hclock
  exact ⟨_, { w with chain := v }, hq, of_withdraw mins h1, h2 false, h2 true, h3⟩

/-- **C189, trading.**  In every history, whatever taxes are set, whoever has one of the assets of the pair - coins or tokens - can
trade: at most half of what the pair has of that asset, worth at least four units of the other one, with a maximum spread of 50 %.
The receiver gets at least what the `Simulation` query names - as long as the pair's clock is in order. -/
theorem C189_trade_available_partial (denomOk : String → Bool) (c : Cfg A) (hc : c.Ok) (hclash : NoClash (infosOf c))
    (hchk : ∀ i, Asset.Info.check c.okAddr (c.infos i) = .ok ())
    (w0 w : State A) (h0 : Created denomOk c w0) (ts : List (Tx A)) (hw : w = run denomOk c w0 ts) (e : Env A)
    (hf : e.total ≤ 10 ^ 18 ∧ e.maker ≤ 10 ^ 18) (x : A) (hx : User c x) (i : Bool) (n : Nat) (hn : n ≠ 0)
    (hbal : n ≤ w.chain.of (c.infos i) x) (hhalf : 2 * n ≤ pool c w i) (hworth : 4 * pool c w i ≤ n * pool c w !i)
    (hsmall : ∀ j, pool c w j + n < 2 ^ 128) (rcv : Option A) (hrcv : rcv.getD x ≠ c.me) (hclock : ClockOk c w e.now) :
    ∃ q, simulation (infosOf c) w.cfg c.me (XYK.Entry.view c w.chain) i n (fees e) = .ok q ∧
      (∀ d, c.infos i = .native d → ∃ w',
        exec denomOk c w (.call e x [⟨d, n⟩] (.swap ⟨.native d, n⟩ none (some (5 * 10 ^ 17)) rcv)) = .ok w' ∧
        w.chain.of (c.infos !i) (rcv.getD x) + q.ret ≤ w'.chain.of (c.infos !i) (rcv.getD x)) ∧
      (∀ t, c.infos i = .token (c.addr t) → ∃ w',
        exec denomOk c w (.send e t x x n none (some (5 * 10 ^ 17)) rcv) = .ok w' ∧
        w.chain.of (c.infos !i) (rcv.getD x) + q.ret ≤ w'.chain.of (c.infos !i) (rcv.getD x)) := by
  have hg := created_good hc h0 hw
  obtain ⟨q, s', out, h1, h2, h3⟩ := taxed_swap_succeeds (s := XYK.Entry.view c w.chain) (now := e.now) (f := fees e) hclash hg hx.1 hrcv
    hbal hhalf hworth hn hsmall hf hclock
  have key : ∀ w' : State A, view c w' = ⟨s', w.cfg⟩ →
      w.chain.of (c.infos !i) (rcv.getD x) + q.ret ≤ w'.chain.of (c.infos !i) (rcv.getD x) := by
    intro w' hv
    have e1 : w'.chain.of (c.infos !i) = s'.bal (!i) := congrFun (congrArg (fun v : World A => v.st.bal) hv) (!i)
    rw [e1]
    exact h3
  refine ⟨q, h1, fun d hd => ?_, fun t ht => ?_⟩
  · obtain ⟨w', g1, g2⟩ := (C174_coin_trade_iff denomOk c hc e w hg x hx i d hd (by rw [← hd]; exact hchk i) n hn none
      (some (5 * 10 ^ 17)) rcv ⟨s', w.cfg⟩).2 ⟨out, h2, rfl⟩
    exact ⟨w', g1, key w' g2⟩
  · obtain ⟨w', g1, g2⟩ := (C174_token_trade_iff denomOk c hc e w hg t x x hx.1 hx.1 i ht n (fun h => absurd rfl h) none
      (some (5 * 10 ^ 17)) rcv ⟨s', w.cfg⟩).2 ⟨out, h2, rfl⟩
    exact ⟨w', g1, key w' g2⟩

/-- **C189, depositing.**  In every history, whatever taxes are set, whoever has both assets of the pair - coins, or tokens the pair
may take - can deposit them without tax: the first deposit must be worth more than 1000 LP tokens, later ones must be within the
tolerance that the depositor accepts.  They get the square root of the product less 1000, or the smaller of the two proportions of the
supply - as long as the pair's clock is in order. -/
theorem C189_deposit_available_partial (denomOk : String → Bool) (c : Cfg A) (hc : c.Ok)
    (hchk : ∀ i, Asset.Info.check c.okAddr (c.infos i) = .ok ()) (w0 w : State A) (_h0 : Created denomOk c w0) (ts : List (Tx A))
    (_hw : w = run denomOk c w0 ts) (e : Env A) (x : A) (hx : User c x) (d : Bool → Nat) (hd : ∀ i, d i ≠ 0)
    (hbal : ∀ i, d i ≤ w.chain.of (c.infos i) x) (hallow : ∀ i t, c.infos i = .token t → d i ≤ w.chain.allow t x c.me)
    (hsmall : ∀ i, pool c w i + d i < 2 ^ 128) (tol minLp : Option Nat) (rcv : Option A) (hrcv : rcv.getD x ≠ c.me)
    (hfirst : w.chain.supply = 0 → 1000 < Nat.sqrt (d false * d true))
    (hmore : w.chain.supply ≠ 0 → pool c w false ≠ 0 ∧ pool c w true ≠ 0 ∧
      d false * w.chain.supply / pool c w false < 2 ^ 128 ∧ d true * w.chain.supply / pool c w true < 2 ^ 128 ∧
      assertSlippageTolerance tol (d false) (d true) (pool c w false) (pool c w true) = .ok ())
    (hclock : ClockOk c w e.now) :
    ∃ w', exec denomOk c w (.call e x (coinsOf c d false ++ coinsOf c d true)
        (.provide [⟨c.infos false, d false⟩, ⟨c.infos true, d true⟩] tol minLp rcv)) = .ok w' ∧
      w'.chain.bank c.lp (rcv.getD x) = w.chain.bank c.lp (rcv.getD x) +
        if w.chain.supply = 0 then Nat.sqrt (d false * d true) - 1000
        else min (d false * w.chain.supply / pool c w false) (d true * w.chain.supply / pool c w true) := by
  obtain ⟨v, h1, h2⟩ := XYK.Entry.provide_succeeds c hc e w.chain x hx hchk d hd hbal hallow hsmall tol none rcv hrcv hfirst hmore
    (Nat.zero_le _) hclock
  exact ⟨{ w with chain := v }, of_provide minLp h1, h2⟩

/-- A successful trade brings the price accumulators up to date. -/
theorem trade_clock {infos : Bool → SaleTax.Info} {cfg : SaleTax.Config A} {me : A} {s s' : XYK.State A} {now n : Nat} {u r : A}
    (hu : u ≠ me) {i : Bool} {b m : Option Nat} {f : Fees A} {out : SaleTax.Out}
    (h : SaleTax.swap infos cfg me s now u i n b m r f = .ok (s', out)) :
    ∃ t, accumulate s.twap now (s.bal false me) (s.bal true me) = .ok t := by
  unfold SaleTax.swap at h
  simp only [bind_ok_iff, Except.ok.injEq] at h
  obtain ⟨bo, h0, op, g0, q, _, g, _, _, _, ba, _, bal, _, ba1, _, tOf, _, ta, _, tw, htw, _⟩ := h
  have a0 := move_apply h0 me
  rw [if_neg hu.symm, if_pos rfl] at a0
  rw [csub_ok] at g0
  have e0 : op = s.bal i me := by omega
  rw [e0] at htw
  cases i
  · exact ⟨tw, htw⟩
  · exact ⟨tw, htw⟩

/-- When the accumulators cannot be brought up to date, every deposit, withdrawal and trade fails. -/
theorem stuck {denomOk : String → Bool} {c : Cfg A} (hc : c.Ok) {w : State A} (hg : GoodTaxes (infosOf c) w.cfg.taxes) {e : Env A}
    (hno : ∀ t, accumulate w.chain.twap e.now (pool c w false) (pool c w true) ≠ .ok t) (w' : State A) :
    (∀ x funds m, (∀ t a, m ≠ .updateConfig t a) → exec denomOk c w (.call e x funds m) ≠ .ok w') ∧
    ∀ t owner spender n b m r, exec denomOk c w (.send e t owner spender n b m r) ≠ .ok w' := by
  have one : ∀ {x i n b m r s'}, [TOp.swap e.now x i n b m r (fees e)].foldlM (texec denomOk (infosOf c) c.me) (view c w) ≠ .ok s' := by
    intro x i n b m r s' h
    simp only [List.foldlM_cons, List.foldlM_nil, bind_ok_iff, pure_eq_ok, Except.ok.injEq, texec, require_ok, exists_const] at h
    obtain ⟨s1, ⟨hx, ⟨s2, out⟩, h1, _⟩, _⟩ := h
    obtain ⟨t, ht⟩ := trade_clock hx h1
    exact hno t ht
  have mism : ∀ {w1 w' : Chain A} {funds : List Coin} {u : A} {offer : Asset.Asset} {b m : Option Nat} {r : Option A} {out : SaleTax.Out},
      label c offer.info = none → swapMsg c e w.cfg w1 funds u offer b m r ≠ .ok (w', out) := by
    intro w1 w' funds u offer b m r out hl h
    unfold swapMsg at h
    simp only [bind_ok_iff] at h
    obtain ⟨_, _, _, _, _, _, i, hi, _⟩ := h
    unfold label at hl
    split_ifs at hl with h0 h1
    rw [if_neg (fun e => h0 e), if_neg (fun e => h1 e)] at hi
    cases hi
  have plain := fun v => (XYK.Entry.stuck c hc w.chain v e hno).1
  refine ⟨fun x funds m hm h => ?_, fun t owner spender n b m r h => ?_⟩
  · have hM := C173_messages_are_pair_transactions denomOk c hc w w' _ hg h
    cases m with
    | provide assets tol minLp r =>
      simp only [exec, execute, bind_ok_iff, require_ok, exists_const, Except.ok.injEq] at h
      obtain ⟨h1, h2, w1, h3, p, h4, _⟩ := h
      refine plain p.1 x funds (.provide assets tol none r) (fun _ => by simp) ?_
      simp only [XYK.Entry.exec, XYK.Entry.execute, bind_ok_iff, require_ok, exists_const, Except.ok.injEq]
      exact ⟨h1, h2, w1, h3, p, h4, rfl⟩
    | withdraw assets mins =>
      simp only [exec, execute, bind_ok_iff, require_ok, exists_const, Except.ok.injEq] at h
      obtain ⟨h1, h2, w1, h3, p, h4, _⟩ := h
      refine plain p.1 x funds (.withdraw assets none) (fun _ => by simp) ?_
      simp only [XYK.Entry.exec, XYK.Entry.execute, bind_ok_iff, require_ok, exists_const, Except.ok.injEq]
      exact ⟨h1, h2, w1, h3, p, h4, rfl⟩
    | updateConfig t a => exact hm t a rfl
    | receive u n b m r =>
      simp only [exec, execute, bind_ok_iff, require_ok, exists_const] at h
      obtain ⟨⟨_, h0, h1⟩, _, _, _, h2, _⟩ := h
      rcases h2 with h2 | h2
      · exact h0 h2
      · exact h1 h2
    | swap offer b m r =>
      cases hl : label c offer.info with
      | some i =>
        simp only [meaning, hl] at hM
        exact one hM
      | none =>
        simp only [exec, execute, bind_ok_iff, Except.ok.injEq] at h
        obtain ⟨_, _, _, _, w1, _, _, _, _, _, ⟨w2, out⟩, hsw, _⟩ := h
        exact mism hl hsw
  · have hM := C173_messages_are_pair_transactions denomOk c hc w w' _ hg h
    cases hl : label c (.token (c.addr t)) with
    | some i =>
      simp only [meaning, hl] at hM
      exact one hM
    | none =>
      simp only [exec, execute, bind_ok_iff, Except.ok.injEq] at h
      obtain ⟨_, _, w1, _, _, _, ⟨w2, out⟩, hsw, _⟩ := h
      exact mism (offer := ⟨.token (c.addr t), n⟩) hl hsw

/-- Account 1 has `10^30` coins and deposits them with 2000 tokens. -/
def stuckStart : State Nat :=
  { demoState with chain := { XYK.Entry.demoChain with bank := fun d a => if d = "uluna".toList ∧ a = 1 then 10 ^ 30 else 0 } }

/-- The deposit. -/
def stuckState : State Nat :=
  run (fun _ => true) demoCfg stuckStart [.call (XYK.Entry.demoEnv 2000) 1 [⟨"uluna".toList, 10 ^ 30⟩]
    (.provide [⟨.token "t9".toList, 2000⟩, ⟨.native "uluna".toList, 10 ^ 30⟩] none none none)]

theorem demo_created : Created (fun _ => true) demoCfg demoState := by
  refine ⟨⟨[("uluna", 5 * 10 ^ 16, 5)], 6, by rfl⟩, rfl, fun a => ?_, rfl, rfl⟩
  have : ¬ demoCfg.lp = "uluna".toList := by decide
  show (if demoCfg.lp = "uluna".toList ∧ a ∈ [1, 2, 3] then 10 ^ 9 else 0) = 0
  rw [if_neg (not_and_of_not_left _ this)]

theorem stuck_created : Created (fun _ => true) demoCfg stuckStart := by
  refine ⟨demo_created.cfg, rfl, fun a => ?_, rfl, rfl⟩
  have : ¬ demoCfg.lp = "uluna".toList := by decide
  show (if demoCfg.lp = "uluna".toList ∧ a = 1 then 10 ^ 30 else 0) = 0
  rw [if_neg (not_and_of_not_left _ this)]

/-- **C189 is false of the code.**  Account 1 holds all LP tokens of a pair with sale tax that has `10^30` units of `uluna` and 2000
tokens, and can withdraw in the first days.  Eight days after the last message the price accumulators overflow, and from then on every
deposit, withdrawal and trade fails, whoever sends it and whenever. -/
theorem C189_stuck_violated :
    Created (fun _ => true) demoCfg stuckStart ∧
    (∃ ts, stuckState = run (fun _ => true) demoCfg stuckStart ts) ∧
    (∃ w', exec (fun _ => true) demoCfg stuckState
      (.call (XYK.Entry.demoEnv 300000) 1 [⟨"lp".toList, 10 ^ 16⟩] (.withdraw [] none)) = .ok w') ∧
    stuckState.chain.bank "lp".toList 1 = 44721359549994793 ∧
    ∀ e : Env Nat, 702000 ≤ e.now → ∀ w',
      (∀ x funds m, (∀ t a, m ≠ .updateConfig t a) → exec (fun _ => true) demoCfg stuckState (.call e x funds m) ≠ .ok w') ∧
      ∀ t owner spender n b m r, exec (fun _ => true) demoCfg stuckState (.send e t owner spender n b m r) ≠ .ok w' := by
  refine ⟨stuck_created, ⟨_, rfl⟩, ?_, by decide +kernel, fun e he w' => ?_⟩
  · have : (exec (fun _ => true) demoCfg stuckState
        (.call (XYK.Entry.demoEnv 300000) 1 [⟨"lp".toList, 10 ^ 16⟩] (.withdraw [] none))).isOk = true := by decide +kernel
    cases h : exec (fun _ => true) demoCfg stuckState
        (.call (XYK.Entry.demoEnv 300000) 1 [⟨"lp".toList, 10 ^ 16⟩] (.withdraw [] none)) with
    | error e => rw [h] at this; cases this
    | ok s' => exact ⟨s', rfl⟩
  · have hg := created_good demo_ok stuck_created (w := stuckState) rfl
    have h0 : pool demoCfg stuckState false = 10 ^ 30 := by decide +kernel
    have h1 : pool demoCfg stuckState true = 2000 := by decide +kernel
    have h2 : stuckState.chain.twap.last = 2000 := by decide +kernel
    refine stuck demo_ok hg (XYK.Entry.accumulate_fails (by omega) (by rw [h0]; norm_num) (by rw [h1]; norm_num) (Or.inr ?_)) w'
    rw [h0, h1, h2, Nat.le_div_iff_mul_le (by norm_num)]
    have : 700000 ≤ e.now - 2000 := by omega
    calc 2 ^ 128 * 2000 ≤ 700000 * 10 ^ 6 * 10 ^ 30 := by norm_num
      _ ≤ (e.now - 2000) * 10 ^ 6 * 10 ^ 30 := Nat.mul_le_mul_right _ (Nat.mul_le_mul_right _ this)

/-! ## Examples -/

/-- In the history of `SaleTax/Entry.lean` - with a tax of one half set on the way - all the conditions hold. -/
example : let w := run (fun _ => true) demoCfg demoState demoTxs
    (∀ x ∈ [1, 2, 3], User demoCfg x) ∧ (∀ i, Asset.Info.check demoCfg.okAddr (demoCfg.infos i) = .ok ()) ∧
    w.chain.bank demoCfg.lp 1 = 18999000 ∧
    getTax w.cfg.taxes "uluna" = some (5 * 10 ^ 17, 4) ∧
    2 * 10 ^ 6 ≤ pool demoCfg w false ∧ 4 * pool demoCfg w false ≤ 10 ^ 6 * pool demoCfg w true ∧
    ((XYK.Entry.demoEnv (10 ^ 9)).now - w.chain.twap.last) * 10 ^ 6 * pool demoCfg w true / pool demoCfg w false < 2 ^ 128 ∧
    (exec (fun _ => true) demoCfg w (.call (XYK.Entry.demoEnv (10 ^ 9)) 2 [⟨"uluna".toList, 10 ^ 6⟩]
      (.swap ⟨.native "uluna".toList, 10 ^ 6⟩ none (some (5 * 10 ^ 17)) none))).isOk = true ∧
    (exec (fun _ => true) demoCfg w (.send (XYK.Entry.demoEnv (10 ^ 9)) 9 3 3 (10 ^ 6) none (some (5 * 10 ^ 17)) none)).isOk = true ∧
    (exec (fun _ => true) demoCfg w (.call (XYK.Entry.demoEnv (10 ^ 9)) 1 [⟨"lp".toList, 10 ^ 6⟩] (.withdraw [] none))).isOk = true ∧
    (exec (fun _ => true) demoCfg w (.call (XYK.Entry.demoEnv (10 ^ 9)) 1 [⟨"uluna".toList, 10 ^ 6⟩]
      (.provide [⟨.token "t9".toList, 4 * 10 ^ 6⟩, ⟨.native "uluna".toList, 10 ^ 6⟩] (some (5 * 10 ^ 17)) none none))).isOk = true := by
  refine ⟨by decide, fun i => by cases i <;> decide, by decide +kernel, by decide +kernel, by decide +kernel, by decide +kernel,
    by decide +kernel, by decide +kernel, by decide +kernel, by decide +kernel, by decide +kernel⟩

end Verif.SaleTax.Entry
