import Verif.Joint.Value
import Verif.XYK.Available

/-!
# Constant product pairs are always there (C172)

Over the model of `Joint/Market.lean`: in every history of the exchange whoever holds LP tokens of a constant product pair can
withdraw, whoever has one of its assets can trade, and whoever has both can deposit - unless the pair was left alone for so long
that its price accumulators overflow, which makes every message to it fail.
-/

namespace Verif.Market

open Verif Verif.Exchange
open Verif.Asset (Str Info Coin sent)
open Verif.Ledgers (Led Cfg Moved attach ValidFunds)

set_option linter.unusedSectionVars false

variable {A : Type} [DecidableEq A]

/-! ## Specification -/

/-- Since the last message that moved the clock of the pair the price, both ways, times the seconds (with six digits) stays
below `2^128`. -/
def ClockOk (last now x y : Nat) : Prop :=
  (now - last) * 10 ^ 6 < 2 ^ 128 ∧ (now - last) * 10 ^ 6 * y / x < 2 ^ 128 ∧ (now - last) * 10 ^ 6 * x / y < 2 ^ 128

/-- An account that is no contract of the exchange and not the token contract of an asset of the pair. -/
def User (S : Site A) (s : Sys A) (b : Born) (x : A) : Prop := Outside S s x ∧ ∀ i, b.infos i ≠ .token (S.addr x)

instance (S : Site A) (s : Sys A) (b : Born) (x : A) : Decidable (User S s b x) := inferInstanceAs (Decidable (_ ∧ _))

/-! ## Lemmas -/

/-- The assets of every pair passed the checks of the factory. -/
def Checked (S : Site A) (s : Sys A) : Prop := ∀ p b, s.born p = some b → ∀ i, Asset.Info.check S.okAddr (b.infos i) = .ok ()

theorem exec_checked {S : Site A} {s s' : Sys A} (hI : Inv S s) (hc : Checked S s) {o : Op A} (h : exec S s o = .ok s') :
    Checked S s' := by
  have plain : Plain o → Checked S s' := by
    intro ho
    obtain ⟨_, hb, _⟩ := plain_acts hI.pb hI.router hI.fees ho h
    unfold Checked
    rw [hb]
    exact hc
  cases o with
  | factory o =>
    simp only [exec, bind_ok_iff, require_ok, exists_const, Except.ok.injEq] at h
    obtain ⟨ho, f, hf, rfl⟩ := h
    exact hc
  | create now x funds t infos ps dec p =>
    simp only [exec, create, Factory.createPair, bind_ok_iff, require_ok, exists_const, orErr_ok, Except.ok.injEq] at h
    obtain ⟨hx, _, key, ⟨⟨⟩, hchk, hnone, c', hc', hperm, hdis, rfl⟩, c, hcc, code, hcode, ⟨hp, hpx⟩, h⟩ := h
    split at h
    · rename_i a b
      simp only [bind_ok_iff, require_ok, exists_const, Factory.reply, Except.ok.injEq] at h
      obtain ⟨⟨ha, hb⟩, l1, h1, r, hr, l2, h2, f, ⟨_, rfl⟩, rfl⟩ := h
      have hall := (Factory.checkAssetInfos_ok.1 hchk).2
      intro q d hd i
      by_cases e : q = p
      · subst e
        simp only [Function.update_self, Option.some.injEq] at hd
        subst hd
        cases i
        · exact hall a (by simp)
        · exact hall b (by simp)
      · simp only [Function.update_of_ne e] at hd
        exact hc q d hd i
    · exact absurd h (by simp)
  | call => exact plain trivial
  | send => exact plain trivial
  | route => exact plain trivial
  | transfer => exact plain trivial
  | transferFrom => exact plain trivial
  | approve => exact plain trivial
  | issue k dst n =>
    simp only [exec, bind_ok_iff, require_ok, exists_const, Except.ok.injEq] at h
    obtain ⟨hk, rfl⟩ := h
    exact hc
  | destroy k src n =>
    simp only [exec, bind_ok_iff, require_ok, exists_const, Except.ok.injEq] at h
    obtain ⟨⟨hk, _⟩, l, _, rfl⟩ := h
    exact hc

theorem run_checked {S : Site A} (hS : S.Ok) (os : List (Op A)) : ∀ {s : Sys A}, Inv S s → Checked S s →
    Checked S (run S s os) := by
  induction os with
  | nil => exact fun _ h => h
  | cons o os ih =>
    intro s hI hL
    have := commit'_inv (fun s => Inv S s ∧ Checked S s) ⟨hI, hL⟩ (r := exec S s o)
      fun s' hs => ⟨exec_inv hS hI hs, exec_checked hI hL hs⟩
    exact ih this.1 this.2

theorem start_checked {S : Site A} {s : Sys A} (h : Start S s) : Checked S s := by
  intro p b hb
  rw [h.born] at hb
  cases hb

theorem start_shares {S : Site A} {s : Sys A} (h : Start S s) : Shares s.w := by
  intro p st hp
  rw [h.pair] at hp
  cases hp

/-- What is known of a constant product pair in every history. -/
theorem xyk_facts {S : Site A} (hS : S.Ok) {s0 s : Sys A} (h0 : Start S s0) {os : List (Op A)} (hs : s = run S s0 os) {p : A}
    {b : Born} (hb : s.born p = some b) {L : Nat} {tw : XYK.Twap} {tr : Bool → Nat} {sh : Option (Nat × A)}
    (hp : s.w.pair p = some (.xyk L tw tr sh)) (now : Nat) :
    Inv S s ∧ (xykCfg ((net S s).cfg p)).Ok ∧ xykCfg ((net S s).cfg p) = ⟨p, b.infos, S.lpOf p, S.addr, S.okAddr⟩ ∧
      (∀ i, Asset.Info.check S.okAddr (b.infos i) = .ok ()) ∧ (∀ q, sh = some q → q.1 ≤ 10000) ∧
      (((env s now).xyk p).total ≤ DEC ∧ ((env s now).xyk p).maker ≤ DEC) := by
  have hI : Inv S s := hs ▸ run_inv hS os (start_inv h0)
  have hC : Checked S s := hs ▸ run_checked hS os (start_inv h0) (start_checked h0)
  have hsh : Shares s.w := hs ▸ run_shares hS os (start_inv h0) (start_shares h0)
  have hf := env_fees hI.fees now p
  have ho := hI.cfg_ok (p := p) (by rw [hp]; rfl)
  refine ⟨hI, ⟨ho.ne, ho.lp⟩, by simp [xykCfg, net, hb], hC p b hb, fun q hq => ?_, hf⟩
  exact Nat.le_trans (hsh p _ hp q hq).2 (by norm_num)

theorem Pair.put_led (w : World A) (p : A) (l : Led A) (st : Pair A) : (w.put p l st).led = l := rfl

theorem xyk_of (x : XYK.Entry.Chain A) (k : Info) : (xykLed x).of k = x.of k := by cases k <;> rfl

theorem chain_of (l : Led A) (s : Nat) (t : XYK.Twap) (tr : Bool → Nat) (sh : Option (Nat × A)) (k : Info) :
    (xykChain l s t tr sh).of k = l.of k := by cases k <;> rfl

/-! ## Theorems -/

/-- **C172, withdrawing.**  In every history, whoever holds LP tokens of a constant product pair can hand them in at once, alone
and in any quantity for which there is at least one unit of each asset, and gets what the pair's `Share` query names - as long as
the pair's clock is in order. -/
theorem C172_withdraw_available_partial [Fintype A] (S : Site A) (hS : S.Ok) (s0 s : Sys A) (h0 : Start S s0) (os : List (Op A))
    (hs : s = run S s0 os) (p : A) (b : Born) (hb : s.born p = some b) (L : Nat) (tw : XYK.Twap) (tr : Bool → Nat)
    (sh : Option (Nat × A)) (hp : s.w.pair p = some (.xyk L tw tr sh)) (now : Nat) (x : A) (hx : User S s b x) (n : Nat)
    (hn : n ≠ 0) (hbal : n ≤ s.w.led.of (.native (S.lpOf p)) x) (hsmall : ∀ i, s.w.led.of (b.infos i) p < 2 ^ 128)
    (hr : ∀ r, shareOf (net S s) s.w p n = .ok r → (Ledgers.isNative (b.infos false) = true → r.1 ≠ 0) ∧
      (Ledgers.isNative (b.infos true) = true → r.2 ≠ 0))
    (hclock : ClockOk tw.last now (s.w.led.of (b.infos false) p) (s.w.led.of (b.infos true) p)) :
    ∃ r s', shareOf (net S s) s.w p n = .ok r ∧
      exec S s (.call now p x [⟨S.lpOf p, n⟩] (.xyk (.withdraw [] none))) = .ok s' ∧
      s'.w.led.of (b.infos false) x = s.w.led.of (b.infos false) x + r.1 ∧
      s'.w.led.of (b.infos true) x = s.w.led.of (b.infos true) x + r.2 ∧
      s'.w.led.of (.native (S.lpOf p)) x + n = s.w.led.of (.native (S.lpOf p)) x := by
  obtain ⟨hI, hok, hcfg, hchk, hshare, hfee⟩ := xyk_facts hS h0 hs hb hp now
  have hlp := (hs ▸ run_lpAll hS os (start_inv h0) (start_lpAll h0) : LpAll S s) p _ hp
  have hxp : x ≠ p := by
    rintro rfl
    rw [hx.1.2] at hb
    cases hb
  have hsup : n ≤ L := by
    have h1 : L = ∑ z, s.w.led.of (.native (S.lpOf p)) z := hlp.1
    have h2 : s.w.led.of (.native (S.lpOf p)) x ≤ ∑ z, s.w.led.of (.native (S.lpOf p)) z :=
      Finset.single_le_sum (fun _ _ => Nat.zero_le _) (Finset.mem_univ x)
    omega
  generalize hw : xykChain s.w.led L tw tr sh = w
  have eo : ∀ k, w.of k = s.w.led.of k := fun k => by rw [← hw]; exact chain_of ..
  have es : w.supply = L := by rw [← hw]; rfl
  have et : w.twap = tw := by rw [← hw]; rfl
  rw [hcfg] at hok
  obtain ⟨a0, b0⟩ := XYK.Entry.shareInAsset_succeeds (pool := s.w.led.of (b.infos false) p) (n := n) (supply := L) (by omega) hsup
    (hsmall false)
  obtain ⟨a1, b1⟩ := XYK.Entry.shareInAsset_succeeds (pool := s.w.led.of (b.infos true) p) (n := n) (supply := L) (by omega) hsup
    (hsmall true)
  have hq : shareOf (net S s) s.w p n = .ok (s.w.led.of (b.infos false) p * (n * DEC / L) / DEC,
      s.w.led.of (b.infos true) p * (n * DEC / L) / DEC) := by
    simp only [shareOf, hp, orErr, ok_bind, XYK.queryShare, XYK.Entry.view, net_me, bind_ok_iff, hcfg, chain_of]
    exact ⟨_, a0, _, a1, rfl⟩
  have hr1 := hr _ hq
  obtain ⟨w', h1, h2, h3⟩ := XYK.Entry.withdraw_succeeds ⟨p, b.infos, S.lpOf p, S.addr, S.okAddr⟩ hok ((env s now).xyk p) w x hxp hx.2 n hn
    (by have := congrFun (eo (.native (S.lpOf p))) x; exact Nat.le_trans hbal (Nat.le_of_eq this.symm)) (by rw [es]; exact hsup)
    (fun i => by rw [eo]; exact hsmall i)
    (fun i => by
      rw [eo, es]
      cases i
      · exact hr1.1
      · exact hr1.2)
    (by rw [eo, eo, et]; exact hclock)
  refine ⟨_, { s with w := s.w.put p (xykLed w') (.xyk w'.supply w'.twap w'.tracked w'.share) }, hq, ?_, ?_, ?_, ?_⟩
  · simp only [exec, bind_ok_iff, require_ok, exists_const, atPair, callTx, hp, Except.ok.injEq, hcfg, hw]
    exact ⟨hx.1, _, ⟨w', h1, rfl⟩, rfl⟩
  · simp only [Pair.put_led, xyk_of]
    have := h2 false
    simp only [eo, es] at this
    exact this
  · simp only [Pair.put_led, xyk_of]
    have := h2 true
    simp only [eo, es] at this
    exact this
  · simp only [Pair.put_led, xyk_of, ← eo]
    exact h3

/-- **C172, trading.**  In every history, whoever has one of the assets of a constant product pair - coins or tokens - can trade:
at most half of what the pair has of that asset, worth at least two units of the other one, with a maximum spread of 50 %.  The
trade needs nobody's consent, and the receiver gets at least what the pair's `Simulation` query names - as long as the pair's
clock is in order. -/
theorem C172_trade_available_partial (S : Site A) (hS : S.Ok) (s0 s : Sys A) (h0 : Start S s0) (os : List (Op A))
    (hs : s = run S s0 os) (p : A) (b : Born) (hb : s.born p = some b) (L : Nat) (tw : XYK.Twap) (tr : Bool → Nat)
    (sh : Option (Nat × A)) (hp : s.w.pair p = some (.xyk L tw tr sh)) (now : Nat) (x : A) (hx : User S s b x) (i : Bool) (n : Nat)
    (hn : n ≠ 0) (hbal : n ≤ s.w.led.of (b.infos i) x) (hhalf : 2 * n ≤ s.w.led.of (b.infos i) p)
    (hworth : 2 * s.w.led.of (b.infos i) p ≤ n * s.w.led.of (b.infos !i) p)
    (hsmall : ∀ j, s.w.led.of (b.infos j) p + n < 2 ^ 128) (rcv : Option A) (hrcv : rcv.getD x ≠ p)
    (hclock : ClockOk tw.last now (s.w.led.of (b.infos false) p) (s.w.led.of (b.infos true) p)) :
    ∃ r, quote (net S s) (env s now) s.w p (b.infos i) (b.infos !i) n = .ok r ∧
      (∀ d, b.infos i = .native d → ∃ s',
        exec S s (.call now p x [⟨d, n⟩] (.xyk (.swap ⟨b.infos i, n⟩ none (some (5 * 10 ^ 17)) rcv))) = .ok s' ∧
        s.w.led.of (b.infos !i) (rcv.getD x) + r ≤ s'.w.led.of (b.infos !i) (rcv.getD x)) ∧
      (∀ t, b.infos i = .token (S.addr t) → ∀ ask, ∃ s',
        exec S s (.send now p t x x n ask none (some (5 * 10 ^ 17)) rcv) = .ok s' ∧
        s.w.led.of (b.infos !i) (rcv.getD x) + r ≤ s'.w.led.of (b.infos !i) (rcv.getD x)) := by
  obtain ⟨hI, hok, hcfg, hchk, hshare, hfee⟩ := xyk_facts hS h0 hs hb hp now
  have hxp : x ≠ p := by
    rintro rfl
    rw [hx.1.2] at hb
    cases hb
  generalize hw : xykChain s.w.led L tw tr sh = w
  have eo : ∀ k, w.of k = s.w.led.of k := fun k => by rw [← hw]; exact chain_of ..
  have et : w.twap = tw := by rw [← hw]; rfl
  have esh : w.share = sh := by rw [← hw]; rfl
  rw [hcfg] at hok
  have hlab : Ledgers.label ((net S s).cfg p) (b.infos i) = some i := by
    have hne := hok.ne
    simp only at hne
    cases i
    · simp [Ledgers.label, net, hb]
    · simp [Ledgers.label, net, hb, hne.symm]
  -- the conditions of the trade
  have ho0 : s.w.led.of (b.infos i) p ≠ 0 := by omega
  have ha0 : s.w.led.of (b.infos !i) p ≠ 0 := by
    intro h
    rw [h, Nat.mul_zero] at hworth
    omega
  have hal : s.w.led.of (b.infos !i) p < 2 ^ 128 := Nat.lt_of_le_of_lt (Nat.le_add_right ..) (hsmall _)
  have hlim : ∀ q, XYK.computeSwap (s.w.led.of (b.infos i) p) (s.w.led.of (b.infos !i) p) n ((env s now).xyk p).total = .ok q →
      XYK.assertMaxSpread none (some (5 * 10 ^ 17)) n (q.ret + q.commission) q.spread = .ok () :=
    fun q hq => XYK.Entry.half_trade hhalf hworth ho0 hal hq
  have hval := XYK.Entry.half_value hhalf hal
  have hall : ∀ j, s.w.led.of (b.infos j) p ≠ 0 := by
    intro j
    by_cases hj : j = i
    · subst hj; exact ho0
    · have : j = !i := by cases i <;> cases j <;> simp_all
      subst this; exact ha0
  obtain ⟨q, hq, _⟩ := XYK.Entry.computeSwap_succeeds ho0 ha0 hn hfee.1 (Nat.lt_of_le_of_lt (Nat.le_add_right ..) (hsmall i)) hal hval
  refine ⟨q.ret, ?_, fun d hd => ?_, fun t ht ask => ?_⟩
  · simp only [quote, hp, orErr, ok_bind, hlab, XYK.simulation, XYK.Entry.view, net_me, bind_ok_iff, hcfg, chain_of,
      Except.ok.injEq]
    exact ⟨q, hq, rfl⟩
  · obtain ⟨w', q', h1, h2, h3⟩ := XYK.Entry.swap_coin_succeeds ⟨p, b.infos, S.lpOf p, S.addr, S.okAddr⟩ hok ((env s now).xyk p) w x
      hxp hx.2 i d hd (by rw [← hd]; exact hchk i) n hn (by rw [eo]; exact hbal) (fun j => by rw [eo]; exact hall j)
      (by rw [eo]; exact hsmall i) (by rw [eo]; exact hal) hfee (by rw [esh]; exact hshare) (by rw [eo, eo]; exact hval) none
      (some (5 * 10 ^ 17)) rcv hrcv (by rw [eo, eo]; exact hlim) (by rw [eo, eo, et]; exact hclock)
    simp only [eo] at h1
    rw [hq] at h1
    obtain rfl := Except.ok.inj h1
    refine ⟨{ s with w := s.w.put p (xykLed w') (.xyk w'.supply w'.twap w'.tracked w'.share) }, ?_, ?_⟩
    · simp only [exec, bind_ok_iff, require_ok, exists_const, atPair, callTx, hp, Except.ok.injEq, hcfg, hw]
      exact ⟨hx.1, _, ⟨w', h2, rfl⟩, rfl⟩
    · simp only [Pair.put_led, xyk_of]
      simp only [eo] at h3
      exact h3
  · obtain ⟨w', q', h1, h2, h3⟩ := XYK.Entry.swap_token_succeeds ⟨p, b.infos, S.lpOf p, S.addr, S.okAddr⟩ hok ((env s now).xyk p) w x t
      hxp i ht n hn (by rw [eo]; exact hbal) (fun j => by rw [eo]; exact hall j)
      (by rw [eo]; exact hsmall i) (by rw [eo]; exact hal) hfee (by rw [esh]; exact hshare) (by rw [eo, eo]; exact hval) none
      (some (5 * 10 ^ 17)) rcv hrcv (by rw [eo, eo]; exact hlim) (by rw [eo, eo, et]; exact hclock)
    simp only [eo] at h1
    rw [hq] at h1
    obtain rfl := Except.ok.inj h1
    refine ⟨{ s with w := s.w.put p (xykLed w') (.xyk w'.supply w'.twap w'.tracked w'.share) }, ?_, ?_⟩
    · simp only [exec, bind_ok_iff, require_ok, exists_const, atPair, sendTx, hp, Except.ok.injEq, hcfg, hw]
      exact ⟨hx.1, _, ⟨w', h2, rfl⟩, rfl⟩
    · simp only [Pair.put_led, xyk_of]
      simp only [eo] at h3
      exact h3

/-- The coins that belong to a deposit. -/
def depositCoins (b : Born) (d : Bool → Nat) : List Coin :=
  [false, true].flatMap fun i => match b.infos i with
    | .native k => if d i = 0 then [] else [⟨k, d i⟩]
    | .token _ => []

/-- **C172, depositing.**  In every history, whoever has both assets of a constant product pair - coins, or tokens the pair may take -
can deposit them - the first deposit must be worth more than 1000 LP tokens, later ones must be within the tolerance that the
depositor accepts - and gets the square root of their product less 1000, or the smaller of the two proportions of the supply; as long
as the pair's clock is in order. -/
theorem C172_deposit_available_partial (S : Site A) (hS : S.Ok) (s0 s : Sys A) (h0 : Start S s0) (os : List (Op A))
    (hs : s = run S s0 os) (p : A) (b : Born) (hb : s.born p = some b) (L : Nat) (tw : XYK.Twap) (tr : Bool → Nat)
    (sh : Option (Nat × A)) (hp : s.w.pair p = some (.xyk L tw tr sh)) (now : Nat) (x : A) (hx : User S s b x) (d : Bool → Nat)
    (hd : ∀ i, d i ≠ 0) (hbal : ∀ i, d i ≤ s.w.led.of (b.infos i) x)
    (hallow : ∀ i t, b.infos i = .token t → d i ≤ s.w.led.allow t x p) (hsmall : ∀ i, s.w.led.of (b.infos i) p + d i < 2 ^ 128)
    (tol : Option Nat) (rcv : Option A) (hrcv : rcv.getD x ≠ p) (hfirst : L = 0 → 1000 < Nat.sqrt (d false * d true))
    (hmore : L ≠ 0 → s.w.led.of (b.infos false) p ≠ 0 ∧ s.w.led.of (b.infos true) p ≠ 0 ∧
      d false * L / s.w.led.of (b.infos false) p < 2 ^ 128 ∧ d true * L / s.w.led.of (b.infos true) p < 2 ^ 128 ∧
      XYK.assertSlippageTolerance tol (d false) (d true) (s.w.led.of (b.infos false) p) (s.w.led.of (b.infos true) p) = .ok ())
    (hclock : ClockOk tw.last now (s.w.led.of (b.infos false) p) (s.w.led.of (b.infos true) p)) :
    ∃ s', exec S s (.call now p x (depositCoins b d)
        (.xyk (.provide [⟨b.infos false, d false⟩, ⟨b.infos true, d true⟩] tol none rcv))) = .ok s' ∧
      s'.w.led.of (.native (S.lpOf p)) (rcv.getD x) = s.w.led.of (.native (S.lpOf p)) (rcv.getD x) +
        if L = 0 then Nat.sqrt (d false * d true) - 1000
        else min (d false * L / s.w.led.of (b.infos false) p) (d true * L / s.w.led.of (b.infos true) p) := by
  obtain ⟨hI, hok, hcfg, hchk, hshare, hfee⟩ := xyk_facts hS h0 hs hb hp now
  have hxp : x ≠ p := by
    rintro rfl
    rw [hx.1.2] at hb
    cases hb
  generalize hw : xykChain s.w.led L tw tr sh = w
  have eo : ∀ k, w.of k = s.w.led.of k := fun k => by rw [← hw]; exact chain_of ..
  have es : w.supply = L := by rw [← hw]; rfl
  have et : w.twap = tw := by rw [← hw]; rfl
  rw [hcfg] at hok
  obtain ⟨w', h1, h2⟩ := XYK.Entry.provide_succeeds ⟨p, b.infos, S.lpOf p, S.addr, S.okAddr⟩ hok ((env s now).xyk p) w x
    ⟨hxp, hx.2 false, hx.2 true⟩ hchk d hd (fun i => by rw [eo]; exact hbal i) (by rw [← hw]; exact hallow)
    (fun i => by rw [eo]; exact hsmall i) tol none rcv hrcv (by rw [es]; exact hfirst) (by rw [es, eo, eo]; exact hmore) (Nat.zero_le _) (by rw [eo, eo, et]; exact hclock)
  refine ⟨{ s with w := s.w.put p (xykLed w') (.xyk w'.supply w'.twap w'.tracked w'.share) }, ?_, ?_⟩
  · simp only [exec, bind_ok_iff, require_ok, exists_const, atPair, callTx, hp, Except.ok.injEq, hcfg, hw]
    have ec : depositCoins b d = XYK.Entry.coinsOf ⟨p, b.infos, S.lpOf p, S.addr, S.okAddr⟩ d false ++
        XYK.Entry.coinsOf ⟨p, b.infos, S.lpOf p, S.addr, S.okAddr⟩ d true := by
      simp only [depositCoins, List.flatMap_cons, List.flatMap_nil, List.append_nil]
      rfl
    rw [ec]
    exact ⟨hx.1, _, ⟨w', h1, rfl⟩, rfl⟩
  · simp only [eo, es] at h2
    have e := congrFun (eo (.native (S.lpOf p))) (rcv.getD x)
    rw [← e]
    exact h2

/-- A constant product pair whose clock is not in order: every deposit, withdrawal and trade fails, whoever sends it. -/
theorem pair_stuck {S : Site A} {s : Sys A} (hI : Inv S s) {p : A} {b : Born} (hb : s.born p = some b) {L : Nat} {tw : XYK.Twap}
    {tr : Bool → Nat} {sh : Option (Nat × A)} (hp : s.w.pair p = some (.xyk L tw tr sh)) {now : Nat} (hnow : tw.last < now)
    (h0 : ∀ i, s.w.led.of (b.infos i) p ≠ 0)
    (ho : 2 ^ 128 ≤ (now - tw.last) * 10 ^ 6 * s.w.led.of (b.infos true) p / s.w.led.of (b.infos false) p ∨
      2 ^ 128 ≤ (now - tw.last) * 10 ^ 6 * s.w.led.of (b.infos false) p / s.w.led.of (b.infos true) p) (s' : Sys A) :
    (∀ x funds m, (∀ sh, m ≠ .updateConfig sh) → exec S s (.call now p x funds (.xyk m)) ≠ .ok s') ∧
    ∀ t owner spender n ask be m r, exec S s (.send now p t owner spender n ask be m r) ≠ .ok s' := by
  have hcfg : xykCfg ((net S s).cfg p) = ⟨p, b.infos, S.lpOf p, S.addr, S.okAddr⟩ := by simp [xykCfg, net, hb]
  have hok : (xykCfg ((net S s).cfg p)).Ok := by
    have ho := hI.cfg_ok (p := p) (by rw [hp]; rfl)
    exact ⟨ho.ne, ho.lp⟩
  have key := fun w' => XYK.Entry.stuck (xykCfg ((net S s).cfg p)) hok (xykChain s.w.led L tw tr sh) w' ((env s now).xyk p) (by
    intro t
    rw [hcfg]
    simp only [chain_of]
    exact XYK.Entry.accumulate_fails hnow (h0 false) (h0 true) ho t)
  refine ⟨fun x funds m hm h => ?_, fun t owner spender n ask be m r h => ?_⟩
  · simp only [exec, bind_ok_iff, require_ok, exists_const, atPair, callTx, hp, Except.ok.injEq] at h
    obtain ⟨_, w', ⟨x', h1, _⟩, _⟩ := h
    exact (key x').1 x funds m hm h1
  · simp only [exec, bind_ok_iff, require_ok, exists_const, atPair, sendTx, hp, Except.ok.injEq] at h
    obtain ⟨_, w', ⟨x', h1, _⟩, _⟩ := h
    exact (key x').2 t owner spender n be m r h1

/-! ## Examples -/

/-- A pair of `2000` units of one coin and `10^30` of another. -/
def stuckOps : List (Op Acct) :=
  [.create 1000 1 [⟨"uluna".toList, 10⟩] .xyk [.native "uatom".toList, .native "uluna".toList] (.xyk false) demoDec 10,
   .issue (.native "uatom".toList) 1 (10 ^ 30),
   .call 2000 10 1 [⟨"uatom".toList, 10 ^ 30⟩, ⟨"uluna".toList, 2000⟩]
     (.xyk (.provide [⟨.native "uatom".toList, 10 ^ 30⟩, ⟨.native "uluna".toList, 2000⟩] none none none))]

/-- When the clock of a constant product pair was last moved. -/
def lastOf : Pair Acct → Option Nat
  | .xyk _ tw _ _ => some tw.last
  | _ => none

/-- The history of the counterexample. -/
def stuckSys : Sys Acct := run demoSite demoStart stuckOps

/-- **C172 is false of the code.**  1 holds all LP tokens of a pair with `10^30` units of `uatom` and 2000 of `uluna`, and can
withdraw in the first days.  Eight days after the last message `accumulate_prices` (contracts/pair/src/contract.rs:844-876)
overflows in `multiply_ratio`, and from then on every deposit, withdrawal and trade fails, whoever sends it and whenever. -/
theorem C172_stuck_violated :
    (∃ s', exec demoSite stuckSys (.call 300000 10 1 [⟨demoSite.lpOf 10, 10 ^ 16⟩] (.xyk (.withdraw [] none))) = .ok s') ∧
    demoSite.lpOf 10 = "lpk".toList ∧ stuckSys.w.led.of (.native "lpk".toList) 1 = 44721359549994793 ∧
    ∀ now, 702000 ≤ now → ∀ s',
      (∀ x funds m, (∀ sh, m ≠ .updateConfig sh) → exec demoSite stuckSys (.call now 10 x funds (.xyk m)) ≠ .ok s') ∧
      ∀ t owner spender n ask be m r, exec demoSite stuckSys (.send now 10 t owner spender n ask be m r) ≠ .ok s' := by
  refine ⟨?_, by decide +kernel, by decide +kernel, fun now hnow s' => ?_⟩
  · have : (exec demoSite stuckSys (.call 300000 10 1 [⟨demoSite.lpOf 10, 10 ^ 16⟩] (.xyk (.withdraw [] none)))).isOk = true := by
      decide +kernel
    cases h : exec demoSite stuckSys (.call 300000 10 1 [⟨demoSite.lpOf 10, 10 ^ 16⟩] (.xyk (.withdraw [] none))) with
    | error e => rw [h] at this; cases this
    | ok s' => exact ⟨s', rfl⟩
  · have hI : Inv demoSite stuckSys := run_inv demoSite_ok stuckOps (start_inv demo_start)
    have hb : (stuckSys.born 10).map (fun b => (b.infos false, b.infos true)) =
        some (.native "uatom".toList, .native "uluna".toList) := by decide +kernel
    have hp : (stuckSys.w.pair 10).map lastOf = some (some 2000) := by decide +kernel
    have h0 : stuckSys.w.led.of (.native "uatom".toList) 10 = 10 ^ 30 := by decide +kernel
    have h1 : stuckSys.w.led.of (.native "uluna".toList) 10 = 2000 := by decide +kernel
    cases hb' : stuckSys.born 10 with
    | none => rw [hb'] at hb; cases hb
    | some b =>
      cases hp' : stuckSys.w.pair 10 with
      | none => rw [hp'] at hp; cases hp
      | some st =>
        rw [hb'] at hb
        rw [hp'] at hp
        simp only [Option.map_some, Option.some.injEq, Prod.mk.injEq] at hb hp
        cases st with
        | xyk L tw tr sh =>
          simp only [lastOf, Option.some.injEq] at hp
          refine pair_stuck hI hb' hp' (by omega) (fun i => ?_) (Or.inr ?_) s'
          · cases i
            · rw [hb.1, h0]; norm_num
            · rw [hb.2, h1]; norm_num
          · rw [hb.1, hb.2, h0, h1, hp, Nat.le_div_iff_mul_le (by norm_num)]
            have : 700000 ≤ now - 2000 := by omega
            calc 2 ^ 128 * 2000 ≤ 700000 * 10 ^ 6 * 10 ^ 30 := by norm_num
              _ ≤ (now - 2000) * 10 ^ 6 * 10 ^ 30 := Nat.mul_le_mul_right _ (Nat.mul_le_mul_right _ this)
        | stable => cases hp
        | pcl => cases hp

/-- In the history of `Joint/Market.lean` all the conditions hold for user 1 or 2 at the constant product pair 10. -/
example : (∀ b, demoSys.born 10 = some b → ∀ x, x ∈ [1, 2, 3] → User demoSite demoSys b x) ∧
    (demoSys.w.pair 10).map lastOf = some (some 2000) ∧
    demoSys.w.led.of (.native (demoSite.lpOf 10)) 3 = 10 ^ 6 ∧
    (∀ k ∈ [Info.native "uatom".toList, .native "uluna".toList], demoSys.w.led.of k 10 = 10 ^ 12) ∧
    okAnd (shareOf (net demoSite demoSys) demoSys.w 10 (10 ^ 6)) (fun r => r.1 ≠ 0 ∧ r.2 ≠ 0) ∧
    ClockOk 2000 (10 ^ 10) (10 ^ 12) (10 ^ 12) := by
  refine ⟨?_, by decide +kernel, by decide +kernel, by decide +kernel, by decide +kernel, by unfold ClockOk; norm_num⟩
  have h : (demoSys.born 10).all (fun b => decide (∀ x ∈ [(1 : Acct), 2, 3], User demoSite demoSys b x)) = true := by decide +kernel
  intro b hb
  rw [hb] at h
  simpa using h

/-- Three centuries later 3 withdraws, 2 trades, 1 deposits. -/
example : (exec demoSite demoSys (.call (10 ^ 10) 10 3 [⟨demoSite.lpOf 10, 10 ^ 6⟩] (.xyk (.withdraw [] none)))).isOk = true ∧
    (exec demoSite demoSys (.call (10 ^ 10) 10 2 [⟨"uatom".toList, 5 * 10 ^ 11⟩]
      (.xyk (.swap ⟨.native "uatom".toList, 5 * 10 ^ 11⟩ none (some (5 * 10 ^ 17)) none)))).isOk = true ∧
    (exec demoSite demoSys (.call (10 ^ 10) 10 1 [⟨"uatom".toList, 10 ^ 6⟩, ⟨"uluna".toList, 10 ^ 6⟩]
      (.xyk (.provide [⟨.native "uatom".toList, 10 ^ 6⟩, ⟨.native "uluna".toList, 10 ^ 6⟩] none none none)))).isOk = true := by
  decide +kernel

/-- A constant product pair of a coin and a token: after an approval deposits of both go through, by the first user and by the next,
and withdrawals too. -/
def tokenOps : List (Op Acct) :=
  [.create 1000 1 [⟨"uluna".toList, 10⟩] .xyk [.token "t9".toList, .native "uatom".toList] (.xyk false) demoDec 14,
   .approve "t9".toList 1 14 (10 ^ 13),
   .call 2000 14 1 [⟨"uatom".toList, 10 ^ 7⟩]
     (.xyk (.provide [⟨.token "t9".toList, 10 ^ 7⟩, ⟨.native "uatom".toList, 10 ^ 7⟩] none none none))]

example : let s := run demoSite demoSys tokenOps
    (s.born 14).any (fun b => decide (User demoSite s b 1) && decide (depositCoins b (fun _ => 10 ^ 6) = [⟨"uatom".toList, 10 ^ 6⟩])) =
      true ∧
    10 ^ 6 ≤ s.w.led.allow "t9".toList 1 14 ∧ s.w.led.of (.token "t9".toList) 14 = 10 ^ 7 ∧
    (exec demoSite s (.call 3000 14 1 [⟨"uatom".toList, 10 ^ 6⟩]
      (.xyk (.provide [⟨.token "t9".toList, 10 ^ 6⟩, ⟨.native "uatom".toList, 10 ^ 6⟩] none none none)))).isOk = true ∧
    (exec demoSite s (.call 3000 14 1 [⟨demoSite.lpOf 14, 10 ^ 6⟩] (.xyk (.withdraw [] none)))).isOk = true := by
  decide +kernel

end Verif.Market
