import Verif.Joint.Available
import Verif.Stable.Available
import Verif.Stable.Honest

/-!
# Stableswap pools of ordinary size are always there (C175)

Over the model of `Joint/Market.lean`: in every history of the exchange, when the reserves of a stableswap pair are of ordinary size
(between `0.00001` and `10^16` tokens and not too far apart), whoever holds its LP tokens can withdraw, whoever has one of its
assets can trade, and whoever has them can deposit.  The solvers converge because the amplification stays in its range in every
history; the messages succeed by C174.
-/

namespace Verif.Market

open Verif Verif.Exchange
open Verif.Asset (Str Info Coin sent)
open Verif.Ledgers (Led Cfg Moved attach ValidFunds)

set_option linter.unusedSectionVars false

variable {A : Type} [DecidableEq A]

/-! ## Specification -/

/-- The amplification of a stableswap pair can be computed at time `now`: the last change is not in the future, and the end of the
ramp is a time. -/
def AmpTime (am : Stable.Amp) (now : Nat) : Prop := am.initTime ≤ now ∧ am.nextTime < 2 ^ 64

/-- The decimals and kinds of the assets of a pair. -/
def Born.setup (b : Born) : Stable.Setup := ⟨b.prec, fun i => Ledgers.isNative (b.infos i)⟩

/-! ## Lemmas: the amplification stays in its range -/

/-- The stored amplification is in its range, and a ramp lasts a day. -/
def AmpOk (c : Stable.Amp) : Prop := Stable.AmpInv c c.initTime

theorem currentAmp_range {c : Stable.Amp} (h : AmpOk c) {t a : Nat} (ha : Stable.currentAmp c t = .ok a) :
    100 ≤ a ∧ a ≤ 1000000 * 100 := by
  by_cases ht : c.initTime ≤ t
  · obtain ⟨h1, h2, _⟩ := Stable.currentAmp_inv (t := t) { h with past := ht } a ha
    exact ⟨h1, h2⟩
  · have e : Stable.currentAmp c c.initTime = .ok a := by
      unfold Stable.currentAmp at ha ⊢
      have h0 : t - c.initTime = 0 := by omega
      rw [h0] at ha
      rw [Nat.sub_self]
      by_cases hn : t < c.nextTime
      · rw [if_pos hn] at ha
        by_cases hn' : c.initTime < c.nextTime
        · rw [if_pos hn']
          exact ha
        · have hz : c.nextTime - c.initTime = 0 := by omega
          simp only [hz, Verif.cdiv] at ha
          exfalso
          split_ifs at ha <;> simp only [bind_ok_iff] at ha <;> obtain ⟨_, _, _, h, _⟩ := ha <;> simp at h
      · have : ¬ c.initTime < c.nextTime := by omega
        rw [if_neg hn] at ha
        rw [if_neg this]
        exact ha
    obtain ⟨h1, h2, _⟩ := Stable.currentAmp_inv h a e
    exact ⟨h1, h2⟩

theorem currentAmp_found {c : Stable.Amp} (h : AmpOk c) {now : Nat} (ht : AmpTime c now) :
    ∃ a, Stable.currentAmp c now = .ok a ∧ 100 ≤ a ∧ a ≤ 10 ^ 8 := by
  have := h.init_hi
  have := h.next_hi
  have := h.day
  have he := Stable.currentAmp_eq (c := c) ⟨by omega, by omega, ht.2, by omega⟩ ht.1
  obtain ⟨h1, h2⟩ := currentAmp_range h he
  exact ⟨_, he, h1, by omega⟩

theorem ampOk_exec {su : Stable.Setup} {me : A} {now : Nat} {fo : A} {s s' : Stable.State A} {o : Stable.Op A} (hi : AmpOk s.amp)
    (h : Stable.exec su me now fo s o = .ok s') : AmpOk s'.amp := by
  rcases (Stable.exec_amp h).2 with he | ⟨_, u, next, tt, _, hs⟩ | ⟨_, u, _, hs⟩
  · rw [he]; exact hi
  · obtain ⟨a1, a2, a3, a4, a5, a6, a7, a8, a9, a10⟩ := Stable.startChangingAmp_spec hs
    obtain ⟨b1, b2⟩ := currentAmp_range hi a3
    exact ⟨b1, b2, by omega, by omega, le_refl _, by omega⟩
  · obtain ⟨a3, a4, a5, a6⟩ := Stable.stopChangingAmp_spec hs
    obtain ⟨b1, b2⟩ := currentAmp_range hi a3
    exact ⟨b1, b2, by omega, by omega, le_refl _, by omega⟩

theorem ampOk_foldlM {c : Cfg A} : ∀ {es : List (Stable.Event A)} {s s' : Stable.State A}, AmpOk s.amp →
    es.foldlM (Stable.Entry.exec1 c) s = .ok s' → AmpOk s'.amp
  | [], s, s', hi, h => by
    simp only [List.foldlM_nil, pure_eq_ok, Except.ok.injEq] at h
    subst h
    exact hi
  | e :: es, s, s', hi, h => by
    simp only [List.foldlM_cons, bind_ok_iff] at h
    obtain ⟨s1, h1, h2⟩ := h
    exact ampOk_foldlM (ampOk_exec hi h1) h2

/-- The amplification of every stableswap pair is in its range. -/
def Amps (w : World A) : Prop := ∀ p L tw am ow sh, w.pair p = some (.stable L tw am ow sh) → AmpOk am

theorem atPair_amps {n : Net A} {w w' : World A} {p : A} {t : PTx A} (hn : ∀ p st, w.pair p = some st → (n.cfg p).Ok)
    (h : atPair n w p t = .ok w') (hs : Amps w) : Amps w' := by
  have put : ∀ {l : Led A} {st : Pair A}, (∀ L tw am ow sh, st = .stable L tw am ow sh → AmpOk am) → Amps (w.put p l st) := by
    intro l st hst q L tw am ow sh hq
    by_cases e : q = p
    · subst e
      have : (w.put q l st).pair q = some st := Function.update_self ..
      rw [this, Option.some.injEq] at hq
      exact hst _ _ _ _ _ hq
    · have : (w.put p l st).pair q = w.pair q := Function.update_of_ne e ..
      rw [this] at hq
      exact hs q _ _ _ _ _ hq
  unfold atPair at h
  split at h
  · simp only [bind_ok_iff, Except.ok.injEq] at h
    obtain ⟨x, hx, rfl⟩ := h
    refine put ?_
    intro _ _ _ _ _ e
    cases e
  · rename_i s tw am ow sh t hst
    simp only [bind_ok_iff, Except.ok.injEq] at h
    obtain ⟨x, hx, rfl⟩ := h
    refine put ?_
    intro _ _ _ _ _ e
    cases e
    have hm := Stable.Entry.C162_messages_are_pair_transactions _ (hn p _ hst) _ _ _ hx
    exact ampOk_foldlM (s := Stable.Entry.view (n.cfg p) ⟨w.led, s, tw, am, ow, sh⟩) (hs p _ _ _ _ _ hst) hm
  · simp only [bind_ok_iff, Except.ok.injEq] at h
    obtain ⟨x, hx, rfl⟩ := h
    refine put ?_
    intro _ _ _ _ _ e
    cases e
  · exact absurd h (by simp)
  · exact absurd h (by simp)

theorem Acts.amps {n : Net A} {P T : A → Prop} {w w' : World A} (hme : ∀ p, (n.cfg p).me = p) (a : Acts n P T w w')
    (hn : ∀ p st, w.pair p = some st → (n.cfg p).Ok) (hs : Amps w) : Amps w' := by
  induction a with
  | nil => exact hs
  | same hl hq _ ih => exact ih (fun p st h => hn p st (by rw [← hq]; exact h)) fun p L tw am ow sh h => hs p L tw am ow sh (by rw [← hq]; exact h)
  | move hp m hq _ ih => exact ih (fun p st h => hn p st (by rw [← hq]; exact h)) fun p L tw am ow sh h => hs p L tw am ow sh (by rw [← hq]; exact h)
  | @run w w1 _ p t ht hp hf h _ ih =>
    obtain ⟨st, st', h1, h2, h3, _⟩ := atPair_flow (hme p) h
    refine ih (fun q x hq => ?_) (atPair_amps hn h hs)
    by_cases e : q = p
    · subst e
      exact hn q _ h1
    · exact hn q x (by rw [← h3 q e]; exact hq)

theorem exec_amps {S : Site A} {s s' : Sys A} (hI : Inv S s) (hs : Amps s.w) {o : Op A} (h : exec S s o = .ok s') :
    Amps s'.w := by
  have plain : Plain o → Amps s'.w := by
    intro ho
    obtain ⟨_, _, ha, _⟩ := plain_acts hI.pb hI.router hI.fees ho h
    exact ha.amps (net_me S s) (fun p st hp => hI.cfg_ok (by rw [hp]; rfl)) hs
  cases o with
  | factory o =>
    simp only [exec, bind_ok_iff, require_ok, exists_const, Except.ok.injEq] at h
    obtain ⟨ho, f, hf, rfl⟩ := h
    exact hs
  | create now x funds t infos ps dec p =>
    obtain ⟨a, b, c, code, st, prec, l1, l2, rfl, hab, ha, hb, hx, hp, hpx, hq, hc, hdis, hperm, hcode, hi, h1, h2, rfl⟩ := create_ok h
    intro q L tw am ow sh hst'
    by_cases e : q = p
    · subst e
      simp only [Function.update_self, Option.some.injEq] at hst'
      subst hst'
      unfold instantiate at hi
      split at hi
      · simp [bind_ok_iff] at hi
      · rename_i amp owner
        simp only [bind_ok_iff, Except.ok.injEq, Prod.mk.injEq, Pair.stable.injEq, Stable.initAmp, require_ok, exists_const] at hi
        obtain ⟨_, _, _, ⟨h1, rfl⟩, _, _, _, _, ⟨_, _, rfl, _, _⟩, _⟩ := hi
        have e1 : Stable.MAX_AMP = 1000000 := rfl
        have e2 : Stable.AMP_PRECISION = 100 := rfl
        rw [e1] at h1
        refine ⟨?_, ?_, ?_, ?_, ?_, ?_⟩ <;> dsimp only <;> try rw [e2]
        all_goals omega
      · simp [bind_ok_iff] at hi
      · simp at hi
    · simp only [Function.update_of_ne e] at hst'
      exact hs q _ _ _ _ _ hst'
  | call => exact plain trivial
  | send => exact plain trivial
  | route => exact plain trivial
  | transfer => exact plain trivial
  | transferFrom => exact plain trivial
  | approve => exact plain trivial
  | issue k dst n =>
    simp only [exec, bind_ok_iff, require_ok, exists_const, Except.ok.injEq] at h
    obtain ⟨hk, rfl⟩ := h
    exact hs
  | destroy k src n =>
    simp only [exec, bind_ok_iff, require_ok, exists_const, Except.ok.injEq] at h
    obtain ⟨⟨hk, _⟩, l, _, rfl⟩ := h
    exact hs

theorem run_amps {S : Site A} (hS : S.Ok) (os : List (Op A)) : ∀ {s : Sys A}, Inv S s → Amps s.w → Amps (run S s os).w := by
  induction os with
  | nil => exact fun _ h => h
  | cons o os ih =>
    intro s hI hL
    have := commit'_inv (fun s => Inv S s ∧ Amps s.w) ⟨hI, hL⟩ (r := exec S s o)
      fun s' hs => ⟨exec_inv hS hI hs, exec_amps hI hL hs⟩
    exact ih this.1 this.2

theorem start_amps {S : Site A} {s : Sys A} (h : Start S s) : Amps s.w := by
  intro p L tw am ow sh hp
  rw [h.pair] at hp
  cases hp

/-- What is known of a stableswap pair in every history. -/
theorem stable_facts {S : Site A} (hS : S.Ok) {s0 s : Sys A} (h0 : Start S s0) {os : List (Op A)} (hs : s = run S s0 os) {p : A}
    {b : Born} (hb : s.born p = some b) {L : Nat} {tw : Stable.Twap} {am : Stable.Amp} {ow : Option A} {sh : Option (Nat × A)}
    (hp : s.w.pair p = some (.stable L tw am ow sh)) (now : Nat) :
    ((net S s).cfg p).Ok ∧ (net S s).cfg p = ⟨p, b.infos, S.lpOf p, S.addr, S.okAddr, b.prec⟩ ∧
      (∀ i, Asset.Info.check S.okAddr (b.infos i) = .ok ()) ∧ (∀ q, sh = some q → q.1 ≤ 10000) ∧
      (((env s now).stable p).total ≤ DEC ∧ ((env s now).stable p).maker ≤ DEC) ∧ AmpOk am := by
  have hI : Inv S s := hs ▸ run_inv hS os (start_inv h0)
  have hC : Checked S s := hs ▸ run_checked hS os (start_inv h0) (start_checked h0)
  have hsh : Shares s.w := hs ▸ run_shares hS os (start_inv h0) (start_shares h0)
  have ha : Amps s.w := hs ▸ run_amps hS os (start_inv h0) (start_amps h0)
  have hf := env_fees hI.fees now p
  refine ⟨hI.cfg_ok (by rw [hp]; rfl), by simp [net, hb], hC p b hb, fun q hq => ?_, hf, ha p _ _ _ _ _ hp⟩
  exact Nat.le_trans (hsh p _ hp q hq).2 (by norm_num)

/-! ## Theorems -/

/-- **C175, withdrawing.**  In every history, whoever holds LP tokens of a stableswap pair of ordinary size can hand them in at
once, alone, in any quantity for which there is at least one unit of each asset, and gets what the pair's `Share` query names. -/
theorem C175_withdraw_available [Fintype A] (S : Site A) (hS : S.Ok) (s0 s : Sys A) (h0 : Start S s0) (os : List (Op A))
    (hs : s = run S s0 os) (p : A) (b : Born) (hb : s.born p = some b) (L : Nat) (tw : Stable.Twap) (am : Stable.Amp) (ow : Option A)
    (sh : Option (Nat × A)) (hp : s.w.pair p = some (.stable L tw am ow sh)) (now : Nat) (ham : AmpTime am now)
    (hidle : now ≤ tw.last + 10 ^ 16) (hsize : Stable.Ordinary b.setup (fun j => s.w.led.of (b.infos j) p))
    (hfar : Stable.Within b.setup (125 * 10 ^ 12) (fun j => s.w.led.of (b.infos j) p))
    (x : A) (hx : User S s b x) (n : Nat) (hn : n ≠ 0) (hbal : n ≤ s.w.led.of (.native (S.lpOf p)) x)
    (hr : ∀ r, shareOf (net S s) s.w p n = .ok r → r.1 ≠ 0 ∧ r.2 ≠ 0) :
    ∃ r s', shareOf (net S s) s.w p n = .ok r ∧
      exec S s (.call now p x [⟨S.lpOf p, n⟩] (.stable (.withdraw [] none))) = .ok s' ∧
      s'.w.led.of (b.infos false) x = s.w.led.of (b.infos false) x + r.1 ∧
      s'.w.led.of (b.infos true) x = s.w.led.of (b.infos true) x + r.2 ∧
      s'.w.led.of (.native (S.lpOf p)) x + n = s.w.led.of (.native (S.lpOf p)) x := by
  obtain ⟨hok, hcfg, hchk, hshare, hfee, hamp⟩ := stable_facts hS h0 hs hb hp now
  have hlp := (hs ▸ run_lpAll hS os (start_inv h0) (start_lpAll h0) : LpAll S s) p _ hp
  have hxp : x ≠ p := by
    rintro rfl
    rw [hx.1.2] at hb
    cases hb
  have hsup : n ≤ L := by
    have h1 : L = ∑ z, s.w.led.of (.native (S.lpOf p)) z := hlp.1
    have h2 : s.w.led.of (.native (S.lpOf p)) x ≤ ∑ z, s.w.led.of (.native (S.lpOf p)) z :=
      Finset.single_le_sum (fun _ _ => Nat.zero_le _) (Finset.mem_univ x)
    omega
  have hlt := hsize.lt
  obtain ⟨a0, b0⟩ := XYK.Entry.shareInAsset_succeeds (pool := s.w.led.of (b.infos false) p) (n := n) (supply := L) (by omega) hsup
    (hlt false)
  obtain ⟨a1, b1⟩ := XYK.Entry.shareInAsset_succeeds (pool := s.w.led.of (b.infos true) p) (n := n) (supply := L) (by omega) hsup
    (hlt true)
  have hq : shareOf (net S s) s.w p n = .ok (s.w.led.of (b.infos false) p * (n * DEC / L) / DEC,
      s.w.led.of (b.infos true) p * (n * DEC / L) / DEC) := by
    simp only [shareOf, hp, orErr, ok_bind, Stable.queryShare, Stable.Entry.view, bind_ok_iff, hcfg]
    exact ⟨_, a0, _, a1, rfl⟩
  have hr1 := hr _ hq
  obtain ⟨amp, ha, ha1, ha2⟩ := currentAmp_found hamp ham
  rw [hcfg] at hok
  generalize hc : (⟨p, b.infos, S.lpOf p, S.addr, S.okAddr, b.prec⟩ : Cfg A) = c at *
  have em : c.me = p := by rw [← hc]
  have ei : c.infos = b.infos := by rw [← hc]
  have el : c.lp = S.lpOf p := by rw [← hc]
  have eu : Stable.Entry.setup c = b.setup := by rw [← hc]; rfl
  have hD : 0 < DEC := by norm_num [DEC]
  have key : Succeeds (Stable.withdraw (Stable.Entry.setup c) c.me (Stable.Entry.view c ⟨s.w.led, L, tw, am, ow, sh⟩) now x n none) := by
    rw [eu, em]
    have ev : ∀ i, (Stable.Entry.view c ⟨s.w.led, L, tw, am, ow, sh⟩).bal i = s.w.led.of (b.infos i) := fun i => by
      simp only [Stable.Entry.view, ei]
    refine Stable.withdraw_succeeds hxp hn ?_ hsup hsize.prec (fun i => by rw [ev]; exact hlt i) (fun i => ?_) ⟨amp, ha⟩ ?_
    · simp only [Stable.Entry.view, el]
      exact hbal
    · rw [ev]
      have : s.w.led.of (b.infos i) p * (n * DEC / L) / DEC ≠ 0 := by
        cases i
        · exact hr1.1
        · exact hr1.2
      by_contra hlt'
      exact this (Nat.div_eq_of_lt (Nat.lt_of_not_le hlt'))
    · intro amp' pools h1 h2
      have : amp' = amp := by
        have h1' : Stable.currentAmp am now = .ok amp' := h1
        rw [ha] at h1'
        exact (Except.ok.inj h1').symm
      subst this
      have e : (fun i => (Stable.Entry.view c ⟨s.w.led, L, tw, am, ow, sh⟩).bal i p) = fun j => s.w.led.of (b.infos j) p := by
        funext i; rw [ev]
      rw [e] at h2
      exact Stable.accumulate_found hsize hfar ha1 ha2 hidle h2
  obtain ⟨⟨v, r0, r1⟩, hv⟩ := key
  have hspec := Stable.C48_withdraw_pro_rata _ _ _ _ _ _ (em ▸ hxp) _ _ _ _ (by change L ≠ 0; omega) hv
  have hrs : (r0, r1) = (s.w.led.of (b.infos false) p * (n * DEC / L) / DEC, s.w.led.of (b.infos true) p * (n * DEC / L) / DEC) := by
    have hv' := hv
    unfold Stable.withdraw at hv'
    simp only [bind_ok_iff, Except.ok.injEq, Prod.mk.injEq] at hv'
    obtain ⟨_, _, _, _, q0, g0, q1, g1, _, _, _, _, _, _, _, _, _, _, _, _, _, _, _, _, _, _, _, rfl, rfl⟩ := hv'
    simp only [Stable.Entry.view, em, ei] at g0 g1
    rw [a0] at g0
    rw [a1] at g1
    rw [← Except.ok.inj g0, ← Except.ok.inj g1]
  have hu : Stable.Entry.User c x := by
    rw [← hc]
    exact ⟨hxp, hx.2 false, hx.2 true⟩
  obtain ⟨w', hw, hvw⟩ := (Stable.Entry.C174_withdraw_iff c hok ((env s now).stable p) ⟨s.w.led, L, tw, am, ow, sh⟩ x hu n none v).2 ⟨_, hv⟩
  refine ⟨_, { s with w := s.w.put p w'.led (.stable w'.supply w'.twap w'.amp w'.owner w'.share) }, hq, ?_, ?_, ?_, ?_⟩
  · simp only [exec, bind_ok_iff, require_ok, exists_const, atPair, callTx, hp, Except.ok.injEq, hcfg]
    rw [el] at hw
    exact ⟨hx.1, _, ⟨w', hw, rfl⟩, rfl⟩
  all_goals
    subst hvw
    simp only [Stable.Entry.view, ei, el] at hspec
    simp only [Prod.mk.injEq] at hrs
    simp only [Pair.put_led]
  · rw [← hrs.1]; exact hspec.2.2.2.2.1
  · rw [← hrs.2]; exact hspec.2.2.2.2.2.1
  · exact hspec.2.2.2.1

/-- What the pair's `Simulation` query answers (return amount, spread, commission). -/
def stableQuote (S : Site A) (s : Sys A) (p : A) (now : Nat) (i : Bool) (n : Nat) : Res XYK.SwapResult :=
  match s.w.pair p with
  | some (.stable L tw am ow sh) => Stable.simulation (Stable.Entry.setup ((net S s).cfg p)) p
      (Stable.Entry.view ((net S s).cfg p) ⟨s.w.led, L, tw, am, ow, sh⟩) now i n
      (Stable.Entry.fees ((env s now).stable p) ⟨s.w.led, L, tw, am, ow, sh⟩)
  | _ => .error (.invalid "no such contract")

/-- **C175, trading.**  In every history, the `Simulation` query of a stableswap pair of ordinary size answers for every offer of
at least `0.00002 · k` tokens, where neither reserve is more than `k³` times the other; and whoever has the offered coins or tokens
can trade them, alone and at once, unless their own spread limit refuses the answer; the receiver gets at least the quoted
amount. -/
theorem C175_trade_available (S : Site A) (hS : S.Ok) (s0 s : Sys A) (h0 : Start S s0) (os : List (Op A))
    (hs : s = run S s0 os) (p : A) (b : Born) (hb : s.born p = some b) (L : Nat) (tw : Stable.Twap) (am : Stable.Amp) (ow : Option A)
    (sh : Option (Nat × A)) (hp : s.w.pair p = some (.stable L tw am ow sh)) (now : Nat) (ham : AmpTime am now)
    (hidle : now ≤ tw.last + 10 ^ 16) (hsize : Stable.Ordinary b.setup (fun j => s.w.led.of (b.infos j) p)) (k : Nat) (hk : 1 ≤ k)
    (hk2 : k ≤ 5 * 10 ^ 4) (hfar : Stable.Within b.setup (k ^ 3) (fun j => s.w.led.of (b.infos j) p))
    (x : A) (hx : User S s b x) (i : Bool) (n : Nat) (hbal : n ≤ s.w.led.of (b.infos i) x)
    (hn1 : 2 * 10 ^ 13 * k ≤ Stable.inAtto b.setup i n) (hn2 : Stable.inAtto b.setup i n ≤ 10 ^ 35)
    (rcv : Option A) (hrcv : rcv.getD x ≠ p) (belief maxSpread : Option Nat)
    (hlim : ∀ r, stableQuote S s p now i n = .ok r →
      XYK.assertMaxSpread belief maxSpread n (r.ret + r.commission) r.spread = .ok ()) :
    ∃ r, stableQuote S s p now i n = .ok r ∧ quote (net S s) (env s now) s.w p (b.infos i) (b.infos !i) n = .ok r.ret ∧
      (∀ d, b.infos i = .native d → ∀ ask, ∃ s',
        exec S s (.call now p x [⟨d, n⟩] (.stable (.swap ⟨.native d, n⟩ ask belief maxSpread rcv))) = .ok s' ∧
        s.w.led.of (b.infos !i) (rcv.getD x) + r.ret ≤ s'.w.led.of (b.infos !i) (rcv.getD x)) ∧
      (∀ t, b.infos i = .token (S.addr t) → ∀ ask, ∃ s',
        exec S s (.send now p t x x n ask belief maxSpread rcv) = .ok s' ∧
        s.w.led.of (b.infos !i) (rcv.getD x) + r.ret ≤ s'.w.led.of (b.infos !i) (rcv.getD x)) := by
  obtain ⟨hok, hcfg, hchk, hshare, hfee, hamp⟩ := stable_facts hS h0 hs hb hp now
  have hxp : x ≠ p := by
    rintro rfl
    rw [hx.1.2] at hb
    cases hb
  obtain ⟨amp, ha, ha1, ha2⟩ := currentAmp_found hamp ham
  have hlab : Ledgers.label ((net S s).cfg p) (b.infos i) = some i := by
    have := Ledgers.label_infos hok i
    rw [hcfg] at this ⊢
    exact this
  have hquote : stableQuote S s p now i n = Stable.simulation (Stable.Entry.setup ((net S s).cfg p)) p
      (Stable.Entry.view ((net S s).cfg p) ⟨s.w.led, L, tw, am, ow, sh⟩) now i n
      (Stable.Entry.fees ((env s now).stable p) ⟨s.w.led, L, tw, am, ow, sh⟩) := by
    simp only [stableQuote, hp]
  have hexq : ∀ r, stableQuote S s p now i n = .ok r → quote (net S s) (env s now) s.w p (b.infos i) (b.infos !i) n = .ok r.ret := by
    intro r hr
    rw [hquote] at hr
    simp only [Exchange.quote, hp, orErr, ok_bind, hlab, net_me, bind_ok_iff, Except.ok.injEq]
    exact ⟨r, hr, rfl⟩
  rw [hcfg] at hok hquote
  rw [hquote] at hlim
  simp only [hquote] at hexq ⊢
  clear hquote hlab
  generalize hc : (⟨p, b.infos, S.lpOf p, S.addr, S.okAddr, b.prec⟩ : Cfg A) = c at *
  have em : c.me = p := by rw [← hc]
  have ei : c.infos = b.infos := by rw [← hc]
  have ea : c.addr = S.addr := by rw [← hc]
  have eok : c.okAddr = S.okAddr := by rw [← hc]
  have eu : Stable.Entry.setup c = b.setup := by rw [← hc]; rfl
  have ev : ∀ i, (Stable.Entry.view c ⟨s.w.led, L, tw, am, ow, sh⟩).bal i = s.w.led.of (b.infos i) := fun i => by
    simp only [Stable.Entry.view, ei]
  have e : (fun i => (Stable.Entry.view c ⟨s.w.led, L, tw, am, ow, sh⟩).bal i p) = fun j => s.w.led.of (b.infos j) p := by
    funext i; rw [ev]
  obtain ⟨⟨v, out⟩, hv⟩ := Stable.C151_swap_available (Stable.Entry.setup c) p (Stable.Entry.view c ⟨s.w.led, L, tw, am, ow, sh⟩) now amp ha ha1 ha2
    (by rw [eu, e]; exact hsize) k hk hk2 (by rw [eu, e]; exact hfar) hidle x hxp i n (by rw [ev]; exact hbal) (by rw [eu]; exact hn1)
    (by rw [eu]; exact hn2) (Stable.Entry.fees ((env s now).stable p) ⟨s.w.led, L, tw, am, ow, sh⟩) hfee hshare belief maxSpread
    (rcv.getD x) hlim
  have hsim := Stable.C80_simulation_exact _ _ _ _ _ _ hxp _ _ _ _ _ _ _ hv
  have hspec := Stable.swap_spec hxp hv
  have hgot : s.w.led.of (b.infos !i) (rcv.getD x) + out.ret ≤ v.bal (!i) (rcv.getD x) := by
    obtain ⟨l1, l2, g1, g2, g3⟩ := hspec.hba
    have m1 := move_apply g1 (rcv.getD x)
    rw [if_neg hrcv, if_pos rfl, ev] at m1
    have m2 := XYK.Entry.sendOpt_right g2 hrcv
    have m3 := XYK.Entry.sendOpt_right g3 hrcv
    omega
  refine ⟨_, hsim, hexq _ hsim, fun d hd ask => ?_, fun t ht ask => ?_⟩
  · have hu : Stable.Entry.User c x := by
      rw [← hc]
      exact ⟨hxp, hx.2 false, hx.2 true⟩
    have hn0 : n ≠ 0 := by
      rintro rfl
      simp [Stable.inAtto] at hn1
      omega
    obtain ⟨w', hw, hvw⟩ := (Stable.Entry.C174_coin_trade_iff c hok ((env s now).stable p) ⟨s.w.led, L, tw, am, ow, sh⟩ x hu i d
      (by rw [ei]; exact hd) (by rw [eok, ← hd]; exact hchk i) n hn0 ask belief maxSpread rcv v).2 ⟨_, by rw [em]; exact hv⟩
    refine ⟨{ s with w := s.w.put p w'.led (.stable w'.supply w'.twap w'.amp w'.owner w'.share) }, ?_, ?_⟩
    · simp only [exec, bind_ok_iff, require_ok, exists_const, atPair, callTx, hp, Except.ok.injEq, hcfg]
      exact ⟨hx.1, _, ⟨w', hw, rfl⟩, rfl⟩
    · subst hvw
      simp only [Stable.Entry.view, ei] at hgot
      exact hgot
  · obtain ⟨w', hw, hvw⟩ := (Stable.Entry.C174_token_trade_iff c hok ((env s now).stable p) ⟨s.w.led, L, tw, am, ow, sh⟩ t x x (em ▸ hxp)
      (em ▸ hxp) i (by rw [ei, ea]; exact ht) n (fun h => absurd rfl h) ask belief maxSpread rcv v).2 ⟨_, by rw [em]; exact hv⟩
    refine ⟨{ s with w := s.w.put p w'.led (.stable w'.supply w'.twap w'.amp w'.owner w'.share) }, ?_, ?_⟩
    · simp only [exec, bind_ok_iff, require_ok, exists_const, atPair, sendTx, hp, Except.ok.injEq, hcfg]
      exact ⟨hx.1, _, ⟨w', hw, rfl⟩, rfl⟩
    · subst hvw
      simp only [Stable.Entry.view, ei] at hgot
      exact hgot

/-- What the pair's `SimulateProvide` query answers (contracts/pair_stable/src/contract.rs:1253-1273). -/
def stableProvideQuote (S : Site A) (s : Sys A) (p : A) (now : Nat) (d : Bool → Nat) : Res Nat :=
  match s.w.pair p with
  | some (.stable L tw am ow sh) => Stable.simulateProvide (Stable.Entry.setup ((net S s).cfg p)) p
      (Stable.Entry.view ((net S s).cfg p) ⟨s.w.led, L, tw, am, ow, sh⟩) now d
  | _ => .error (.invalid "no such contract")

/-- **C175, depositing.**  In every history, a stableswap pair whose reserves are between `0.0001` and `10^10` tokens, and that has
not minted more than 100 LP tokens per token, takes every deposit of coins and approved tokens that keeps it in this range, by
anybody, and mints what the pair's `SimulateProvide` query names - unless this query refuses the deposit as worth less than one
unit. -/
theorem C175_deposit_available (S : Site A) (hS : S.Ok) (s0 s : Sys A) (h0 : Start S s0) (os : List (Op A))
    (hs : s = run S s0 os) (p : A) (b : Born) (hb : s.born p = some b) (L : Nat) (tw : Stable.Twap) (am : Stable.Amp) (ow : Option A)
    (sh : Option (Nat × A)) (hp : s.w.pair p = some (.stable L tw am ow sh)) (now : Nat) (ham : AmpTime am now)
    (hidle : now ≤ tw.last + 10 ^ 16) (h18 : ∀ i, b.prec i ≤ 18) (hL : L ≠ 0) (x : A) (hx : User S s b x) (d : Bool → Nat)
    (hd : ¬ (d false = 0 ∧ d true = 0)) (hbal : ∀ i, d i ≤ s.w.led.of (b.infos i) x)
    (hallow : ∀ i t, b.infos i = .token t → d i ≤ s.w.led.allow t x p)
    (hlo : ∀ i, 10 ^ 14 ≤ Stable.inAtto b.setup i (s.w.led.of (b.infos i) p))
    (hhi : ∀ i, Stable.inAtto b.setup i (s.w.led.of (b.infos i) p + d i) ≤ 10 ^ 28)
    (hvalue : L * 10 ^ (18 - b.setup.greatest) ≤ 100 * (Stable.inAtto b.setup false (s.w.led.of (b.infos false) p) +
      Stable.inAtto b.setup true (s.w.led.of (b.infos true) p)))
    (rcv : Option A) :
    stableProvideQuote S s p now d = .error (.invalid "LiquidityAmountTooSmall") ∨
    ∃ m s', stableProvideQuote S s p now d = .ok m ∧
      exec S s (.call now p x (depositCoins b d)
        (.stable (.provide [⟨b.infos false, d false⟩, ⟨b.infos true, d true⟩] none rcv))) = .ok s' ∧
      s'.w.led.of (.native (S.lpOf p)) (rcv.getD x) = s.w.led.of (.native (S.lpOf p)) (rcv.getD x) + m := by
  obtain ⟨hok, hcfg, hchk, hshare, hfee, hamp⟩ := stable_facts hS h0 hs hb hp now
  have hxp : x ≠ p := by
    rintro rfl
    rw [hx.1.2] at hb
    cases hb
  obtain ⟨amp, ha, ha1, ha2⟩ := currentAmp_found hamp ham
  have hquote : stableProvideQuote S s p now d = Stable.simulateProvide (Stable.Entry.setup ((net S s).cfg p)) p
      (Stable.Entry.view ((net S s).cfg p) ⟨s.w.led, L, tw, am, ow, sh⟩) now d := by
    simp only [stableProvideQuote, hp]
  rw [hcfg] at hok hquote
  rw [hquote]
  clear hquote
  generalize hc : (⟨p, b.infos, S.lpOf p, S.addr, S.okAddr, b.prec⟩ : Cfg A) = c at *
  have em : c.me = p := by rw [← hc]
  have ei : c.infos = b.infos := by rw [← hc]
  have el : c.lp = S.lpOf p := by rw [← hc]
  have eok : c.okAddr = S.okAddr := by rw [← hc]
  have eu : Stable.Entry.setup c = b.setup := by rw [← hc]; rfl
  have ev : ∀ i, (Stable.Entry.view c ⟨s.w.led, L, tw, am, ow, sh⟩).bal i = s.w.led.of (b.infos i) := fun i => by
    simp only [Stable.Entry.view, ei]
  rcases Stable.C151_deposit_available (Stable.Entry.setup c) p (Stable.Entry.view c ⟨s.w.led, L, tw, am, ow, sh⟩) now amp ha ha1 ha2
    (by rw [eu]; exact h18) hidle x d hd (fun i => by rw [ev]; exact hbal i) (fun i => by rw [ev, eu]; exact hlo i)
    (fun i => by rw [ev, eu]; exact hhi i) hL (by rw [ev, ev, eu]; exact hvalue) (rcv.getD x) with ⟨⟨v, m⟩, hv⟩ | h
  swap
  · exact Or.inl h
  · right
    have hu : Stable.Entry.User c x := by
      rw [← hc]
      exact ⟨hxp, hx.2 false, hx.2 true⟩
    have hal : Stable.Entry.Allowed c s.w.led x d := by
      intro i t hi
      rw [em]
      rw [ei] at hi
      exact hallow i t hi
    have hcoins : Stable.Entry.coinsOf c d false ++ Stable.Entry.coinsOf c d true = depositCoins b d := by
      simp only [Stable.Entry.coinsOf, depositCoins, ei, List.flatMap_cons, List.flatMap_nil, List.append_nil]
      cases b.infos false <;> cases b.infos true <;> rfl
    obtain ⟨w', hw, hvw⟩ := (Stable.Entry.C174_deposit_iff c hok (fun i => by rw [eok, ei]; exact hchk i) ((env s now).stable p)
      ⟨s.w.led, L, tw, am, ow, sh⟩ x hu d hal none rcv v).2 ⟨m, by rw [em]; exact hv⟩
    have hsim : Stable.simulateProvide (Stable.Entry.setup c) p (Stable.Entry.view c ⟨s.w.led, L, tw, am, ow, sh⟩) now d = .ok m ∧
        v.lp = credit (credit (s.w.led.bank c.lp) p (if L = 0 then XYK.minimumLiquidity else 0)) (rcv.getD x) m := by
      have hv' := hv
      unfold Stable.provide at hv'
      simp only [bind_ok_iff, require_ok, exists_const, Except.ok.injEq, Prod.mk.injEq] at hv'
      obtain ⟨g1, g2, b0, _, b1, _, a', g3, sh', g4, _, _, _, _, _, rfl, rfl⟩ := hv'
      refine ⟨?_, rfl⟩
      unfold Stable.simulateProvide
      simp only [bind_ok_iff, require_ok, exists_const]
      exact ⟨g1, a', g3, g4⟩
    refine ⟨m, { s with w := s.w.put p w'.led (.stable w'.supply w'.twap w'.amp w'.owner w'.share) }, hsim.1, ?_, ?_⟩
    · simp only [exec, bind_ok_iff, require_ok, exists_const, atPair, callTx, hp, Except.ok.injEq, hcfg]
      rw [hcoins, ei] at hw
      exact ⟨hx.1, _, ⟨w', hw, rfl⟩, rfl⟩
    · subst hvw
      have := congrFun hsim.2 (rcv.getD x)
      rw [if_neg hL] at this
      simp only [Stable.Entry.view, el, credit, Nat.add_zero, Function.update_eq_self, Function.update_self] at this
      exact this

/-! ## Examples -/

/-- What was stored last: amplification and the time of the accumulators. -/
def ampOf : Pair Acct → Option (Nat × Nat × Nat)
  | .stable L tw am _ _ => some (L, tw.last, am.initTime)
  | _ => none

/-- In the history of `Joint/Market.lean` the conditions hold for users 1, 2 and 3 at the stableswap pair 11, with reserves of
`10^6` tokens (`10^12` units of 6 decimals), `k = 1`, and offers of at least 20 units. -/
example : (∀ b, demoSys.born 11 = some b → (∀ x, x ∈ [1, 2, 3] → User demoSite demoSys b x) ∧
      Stable.Ordinary b.setup (fun j => demoSys.w.led.of (b.infos j) 11) ∧
      Stable.Within b.setup (1 ^ 3) (fun j => demoSys.w.led.of (b.infos j) 11) ∧
      2 * 10 ^ 13 * 1 ≤ Stable.inAtto b.setup true 20 ∧ b.infos true = .native "uusd".toList) ∧
    (demoSys.w.pair 11).map ampOf = some (some (2 * 10 ^ 12, 2000, 1000)) ∧
    okAnd (shareOf (net demoSite demoSys) demoSys.w 11 (10 ^ 6)) (fun r => r.1 ≠ 0 ∧ r.2 ≠ 0) ∧
    okAnd (stableQuote demoSite demoSys 11 (10 ^ 10) true (10 ^ 9)) (fun r =>
      XYK.assertMaxSpread none none (10 ^ 9) (r.ret + r.commission) r.spread = .ok ()) ∧
    okAnd (stableProvideQuote demoSite demoSys 11 (10 ^ 10) fun _ => 10 ^ 6) (fun m => m = 2 * 10 ^ 6) := by
  refine ⟨?_, by decide +kernel, by decide +kernel, by decide +kernel, by decide +kernel⟩
  have h : (demoSys.born 11).all (fun b => decide ((∀ x ∈ [(1 : Acct), 2, 3], User demoSite demoSys b x) ∧
      (∀ i, b.setup.prec i ≤ 18) ∧ (∀ i, 10 ^ 13 ≤ Stable.inAtto b.setup i (demoSys.w.led.of (b.infos i) 11)) ∧
      (∀ i, Stable.inAtto b.setup i (demoSys.w.led.of (b.infos i) 11) ≤ 10 ^ 34) ∧
      (∀ i, Stable.inAtto b.setup i (demoSys.w.led.of (b.infos i) 11) ≤
        1 ^ 3 * Stable.inAtto b.setup (!i) (demoSys.w.led.of (b.infos !i) 11)) ∧
      2 * 10 ^ 13 * 1 ≤ Stable.inAtto b.setup true 20 ∧ b.infos true = .native "uusd".toList)) = true := by decide +kernel
  intro b hb
  rw [hb] at h
  simp only [Option.all_some, decide_eq_true_eq] at h
  obtain ⟨h1, h2, h3, h4, h5, h6, h7⟩ := h
  exact ⟨h1, ⟨h2, h3, h4⟩, h5, h6, h7⟩

/-- Three centuries later 1 withdraws, deposits coins and approved tokens, and trades tokens. -/
example : (exec demoSite demoSys (.call (10 ^ 10) 11 1 [⟨demoSite.lpOf 11, 10 ^ 6⟩] (.stable (.withdraw [] none)))).isOk = true ∧
    (exec demoSite demoSys (.send (10 ^ 10) 11 9 1 1 (10 ^ 6) none none none none)).isOk = true ∧
    (exec demoSite demoSys (.call (10 ^ 10) 11 1 [⟨"uusd".toList, 10 ^ 6⟩]
      (.stable (.provide [⟨.token "t9".toList, 10 ^ 6⟩, ⟨.native "uusd".toList, 10 ^ 6⟩] none none)))).isOk = true := by
  decide +kernel

end Verif.Market
