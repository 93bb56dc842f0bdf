import Verif.SaleTax.Entry
import Verif.XYK.Honest

/-!
# Messages to sale-tax pairs that pay what they declare (C174)

As `XYK/Honest.lean`, for the constant product pair that taxes what is offered.
-/

namespace Verif.SaleTax.Entry

open Verif Verif.XYK
open Verif.Asset (Str Coin assertSent assertCoins sent declared)
open Verif.XYK.Entry (Chain Env Cfg attach ValidFunds isNative pay payNonzero transferFrom label label_infos label_some
  infos_inj Moved Rest move_moved pay_moved payNonzero_moved transferFrom_moved attach_spec User Allowed Payable coinsOf funds
  chain_move payNonzero_of_move of_stored)

set_option linter.unusedSectionVars false

variable {A : Type} [DecidableEq A]

/-- The converse of `tax_meaning`. -/
theorem tax_converse {c : Cfg A} {i : Bool} {w : Chain A} {n : Nat} {tc : Option (Nat × A)} {bal : Bool → A → Nat}
    (h : sendTax (infosOf c) c.me (fun j => w.of (c.infos j)) i n tc = .ok bal) :
    ∃ w', payNonzero c w (.native (nameOf (c.infos i))) (tc.map (·.2)) n = .ok w' := by
  cases tc with
  | none => exact ⟨w, rfl⟩
  | some p =>
    obtain ⟨rate, a⟩ := p
    by_cases hn : n = 0
    · exact ⟨w, by simp [payNonzero, hn]⟩
    · simp only [sendTax, ne_eq, hn, not_false_eq_true, if_true, bind_ok_iff, Except.ok.injEq] at h
      obtain ⟨k, hk, l, hl, _⟩ := h
      have conv : ∀ k, infosOf c k = .native (infosOf c i).str → c.infos k = .native (nameOf (c.infos i)) := by
        intro k hk
        refine toInfo_inj ?_
        rw [show toInfo (c.infos k) = infosOf c k from rfl, hk]
        rw [show (infosOf c i).str = (toInfo (c.infos i)).str from rfl, str_toInfo]
        rfl
      have hkk : c.infos k = .native (nameOf (c.infos i)) := by
        unfold taxedAsset at hk
        split_ifs at hk with h1 h2
        · simp only [Except.ok.injEq] at hk
          rw [← hk]
          exact conv i h1
        · simp only [Except.ok.injEq] at hk
          rw [← hk]
          exact conv _ h2
      rw [hkk] at hl
      obtain ⟨w', h', _⟩ := payNonzero_of_move (c := c) (w := w) (k := .native (nameOf (c.infos i))) (dst := some a) (n := n)
        (l := l) hl
      exact ⟨w', h'⟩

/-- The converse of `swap_meaning`. -/
theorem swap_converse {c : Cfg A} (hc : c.Ok) {e : Env A} {cfg : SaleTax.Config A} (hgt : GoodTaxes (infosOf c) cfg.taxes)
    {w w1 : Chain A} {v : XYK.State A} {funds : List Coin} {payer sender : A}
    {i : Bool} {n : Nat} {belief maxSpread : Option Nat} {dest : Option A} {out : SaleTax.Out}
    (hin : Moved w (c.infos i) payer (some c.me) n w1) (hsent : assertSent ⟨c.infos i, n⟩ funds = .ok ())
    (h : SaleTax.swap (infosOf c) cfg c.me (XYK.Entry.view c w) e.now payer i n belief maxSpread (dest.getD sender) (fees e) =
      .ok (v, out)) :
    ∃ w', swapMsg c e cfg w1 funds sender ⟨c.infos i, n⟩ belief maxSpread dest = .ok (w', out) := by
  unfold SaleTax.swap at h
  simp only [bind_ok_iff, Except.ok.injEq, Prod.mk.injEq] at h
  obtain ⟨bo, hbo, po, hpo, r, hr, g, hg, ⟨⟩, hms, b1, g1, bal, htax, b3, g3, tO, hO, tA, hA, tw, htw, _, rfl⟩ := h
  have hm := hin.move
  simp only [sendOpt] at hm
  have ev : ∀ j, (XYK.Entry.view c w).bal j = w.of (c.infos j) := fun _ => rfl
  rw [ev, hm, Except.ok.injEq] at hbo
  subst hbo
  have hother : ∀ j, j ≠ i → w1.of (c.infos j) = w.of (c.infos j) := fun j hj =>
    hin.other _ fun e => hj (infos_inj hc e)
  have hni : (!i) ≠ i := by cases i <;> simp
  have hne : c.infos i ≠ c.infos (!i) := fun e => hni (infos_inj hc e).symm
  have hname : String.ofList (nameOf (c.infos i)) = (infosOf c i).str := (str_toInfo _).symm
  generalize htc : getTax cfg.taxes (infosOf c i).str = tc at hr htax
  obtain ⟨w2, k2, e2⟩ := payNonzero_of_move
    (w := { w1 with twap := tw, tracked := fun j => if j = i then tO else tA }) (dst := some (dest.getD sender)) (k := c.infos (!i))
    (c := c) (n := r.ret) (l := b1) (by rw [of_stored, hother _ hni]; exact g1)
  have m2 := payNonzero_moved k2
  have el : (fun j => if j = i then w1.of (c.infos i) else b1) = fun j => w2.of (c.infos j) := by
    funext j
    by_cases hj : j = i
    · rw [if_pos hj, hj, m2.other _ hne]
      exact (of_stored ..).symm
    · have : j = !i := by cases i <;> cases j <;> simp_all
      rw [if_neg hj, this, e2]
  rw [el] at htax
  obtain ⟨w3, k3⟩ := tax_converse htax
  have h3 := tax_meaning hc hgt htc.symm (payNonzero_moved k3)
  rw [htax, Except.ok.injEq] at h3
  obtain ⟨w4, k4, e4⟩ := payNonzero_of_move (c := c) (w := w3) (k := c.infos (!i)) (by
    rw [h3] at g3
    exact g3)
  have hp : ∀ j, (if c.infos j = c.infos i then csub (w1.of (c.infos j) c.me) n else .ok (w1.of (c.infos j) c.me)) =
      .ok (if j = i then po else w.of (c.infos (!i)) c.me) := by
    intro j
    by_cases hj : j = i
    · subst hj
      rw [if_pos rfl, if_pos rfl]
      exact hpo
    · rw [if_neg fun e => hj (infos_inj hc e), if_neg hj, hother j hj]
      have : j = !i := by cases i <;> cases j <;> simp_all
      rw [this]
  refine ⟨w4, ?_⟩
  unfold swapMsg
  simp only [bind_ok_iff, Except.ok.injEq, Prod.mk.injEq]
  have htwap : w1.twap = w.twap := hin.rest.twap
  refine ⟨(), hsent, _, hp false, _, hp true, i, ?_, r, ?_, g, hg, (), hms, tO, ?_, tA, ?_, tw, ?_,
    w2, k2, w3, by rw [hname, htc]; exact k3, w4, k4, rfl, rfl⟩
  · cases i
    · rw [if_pos rfl]
    · rw [if_neg hc.ne.symm, if_pos rfl]
  · rw [hname, htc]
    cases i
    · exact hr
    · exact hr
  · cases i
    · exact hO
    · exact hO
  · cases i
    · exact hA
    · exact hA
  · rw [htwap]
    cases i
    · exact htw
    · exact htw

/-! ## C174 -/

/-- **C174, trading coins.**  A swap message with the offered coins attached succeeds exactly when the taxed trade does, and has
exactly its effect. -/
theorem C174_coin_trade_iff (denomOk : String → Bool) (c : Cfg A) (hc : c.Ok) (e : Env A) (w : State A)
    (hg : GoodTaxes (infosOf c) w.cfg.taxes) (x : A) (hx : User c x) (i : Bool) (k : Str)
    (hi : c.infos i = .native k) (hk : Asset.Info.check c.okAddr (.native k) = .ok ()) (n : Nat) (hn : n ≠ 0)
    (belief maxSpread : Option Nat) (dest : Option A) (v : World A) :
    (∃ w', exec denomOk c w (.call e x [⟨k, n⟩] (.swap ⟨.native k, n⟩ belief maxSpread dest)) = .ok w' ∧ view c w' = v) ↔
    ∃ out, SaleTax.swap (infosOf c) w.cfg c.me (XYK.Entry.view c w.chain) e.now x i n belief maxSpread (dest.getD x) (fees e) =
      .ok (v.st, out) ∧ v.cfg = w.cfg := by
  have mv : ∀ {w1 : Chain A}, attach w.chain x c.me [⟨k, n⟩] = .ok w1 → Moved w.chain (c.infos i) x (some c.me) n w1 := by
    intro w1 h1
    simp only [attach, bind_ok_iff, Except.ok.injEq, exists_eq_right] at h1
    rw [hi]
    exact move_moved h1
  constructor
  · rintro ⟨w', h, rfl⟩
    simp only [exec, execute, bind_ok_iff, require_ok, exists_const, Except.ok.injEq] at h
    obtain ⟨_, _, w1, h1, _, _, _, ⟨w2, out⟩, h2, rfl⟩ := h
    rw [← hi] at h2
    obtain ⟨i', hi', h3⟩ := swap_meaning (offer := ⟨c.infos i, n⟩) hc hg (mv h1) h2
    simp only [label_infos hc, Option.some.injEq] at hi'
    subst hi'
    exact ⟨out, h3, rfl⟩
  · rintro ⟨out, h, hv⟩
    have h' := h
    unfold SaleTax.swap at h'
    simp only [bind_ok_iff] at h'
    obtain ⟨bo, hbo, _⟩ := h'
    obtain ⟨w1, k1, _⟩ := chain_move (w := w.chain) (k := c.infos i) hbo
    have hat : attach w.chain x c.me [⟨k, n⟩] = .ok w1 := by
      rw [hi] at k1
      simp only [attach, k1, ok_bind]
    have hsent : assertSent ⟨c.infos i, n⟩ [⟨k, n⟩] = .ok () := by
      rw [hi]
      exact (Asset.C67_single_coin k n _).2 ⟨rfl, hn⟩
    obtain ⟨w', h1⟩ := swap_converse hc hg (mv hat) hsent h
    obtain ⟨i', hi', h2⟩ := swap_meaning (offer := ⟨c.infos i, n⟩) hc hg (mv hat) h1
    simp only [label_infos hc, Option.some.injEq] at hi'
    subst hi'
    rw [h, Except.ok.injEq, Prod.mk.injEq] at h2
    refine ⟨{ w with chain := w' }, ?_, ?_⟩
    · simp only [exec, execute, bind_ok_iff, require_ok, exists_const, Except.ok.injEq]
      exact ⟨hx, ⟨by simp, by simp [hn]⟩, w1, hat, (), hk, rfl, (w', out), by rw [← hi]; exact h1, rfl⟩
    · obtain ⟨s, cf⟩ := v
      simp only at hv h2
      rw [hv, h2.1]
      rfl

/-- **C174, trading tokens.**  Sending tokens to the pair with a swap message - oneself, or on behalf of an owner who allows it -
succeeds exactly when the taxed trade does, and has exactly its effect. -/
theorem C174_token_trade_iff (denomOk : String → Bool) (c : Cfg A) (hc : c.Ok) (e : Env A) (w : State A)
    (hg : GoodTaxes (infosOf c) w.cfg.taxes) (token owner spender : A) (ho : owner ≠ c.me)
    (hs : spender ≠ c.me) (i : Bool) (hi : c.infos i = .token (c.addr token)) (n : Nat)
    (hal : owner ≠ spender → n ≤ w.chain.allow (c.addr token) owner spender)
    (belief maxSpread : Option Nat) (dest : Option A) (v : World A) :
    (∃ w', exec denomOk c w (.send e token owner spender n belief maxSpread dest) = .ok w' ∧ view c w' = v) ↔
    ∃ out, SaleTax.swap (infosOf c) w.cfg c.me (XYK.Entry.view c w.chain) e.now owner i n belief maxSpread (dest.getD spender)
      (fees e) = .ok (v.st, out) ∧ v.cfg = w.cfg := by
  have mv : ∀ {w1 : Chain A}, (if owner = spender then w.chain.move (.token (c.addr token)) owner c.me n
        else transferFrom w.chain (c.addr token) owner spender c.me n) = .ok w1 →
      Moved w.chain (c.infos i) owner (some c.me) n w1 := by
    intro w1 h1
    rw [hi]
    split_ifs at h1
    · exact move_moved h1
    · exact transferFrom_moved h1
  constructor
  · rintro ⟨w', h, rfl⟩
    simp only [exec, execute, bind_ok_iff, require_ok, exists_const, Except.ok.injEq] at h
    obtain ⟨_, w1, h1, _, ⟨w2, out⟩, h2, rfl⟩ := h
    rw [← hi] at h2
    obtain ⟨i', hi', h3⟩ := swap_meaning (offer := ⟨c.infos i, n⟩) hc hg (mv h1) h2
    simp only [label_infos hc, Option.some.injEq] at hi'
    subst hi'
    exact ⟨out, h3, rfl⟩
  · rintro ⟨out, h, hv⟩
    have h' := h
    unfold SaleTax.swap at h'
    simp only [bind_ok_iff] at h'
    obtain ⟨bo, hbo, _⟩ := h'
    have hin : ∃ w1, (if owner = spender then w.chain.move (.token (c.addr token)) owner c.me n
        else transferFrom w.chain (c.addr token) owner spender c.me n) = .ok w1 := by
      have hb : Verif.move (w.chain.tok (c.addr token)) owner c.me n = .ok bo := by
        have e : (XYK.Entry.view c w.chain).bal i = w.chain.tok (c.addr token) := by
          change w.chain.of (c.infos i) = _
          rw [hi]
          rfl
        rw [← e]
        exact hbo
      split_ifs with hos
      · obtain ⟨l1, h1, _⟩ := chain_move (w := w.chain) (k := .token (c.addr token)) hb
        exact ⟨l1, h1⟩
      · simp only [transferFrom, (csub_ok _ _ _).2 ⟨hal hos, rfl⟩, ok_bind, hb]
        exact ⟨_, rfl⟩
    obtain ⟨w1, k1⟩ := hin
    have hsent : assertSent ⟨c.infos i, n⟩ [] = .ok () := by
      rw [hi]
      rfl
    obtain ⟨w', h1⟩ := swap_converse hc hg (mv k1) hsent h
    obtain ⟨i', hi', h2⟩ := swap_meaning (offer := ⟨c.infos i, n⟩) hc hg (mv k1) h1
    simp only [label_infos hc, Option.some.injEq] at hi'
    subst hi'
    rw [h, Except.ok.injEq, Prod.mk.injEq] at h2
    refine ⟨{ w with chain := w' }, ?_, ?_⟩
    · simp only [exec, execute, bind_ok_iff, require_ok, exists_const, Except.ok.injEq]
      refine ⟨⟨ho, hs⟩, w1, k1, ?_, (w', out), by rw [← hi]; exact h1, rfl⟩
      cases i
      · exact Or.inl hi
      · exact Or.inr hi
    · obtain ⟨s, cf⟩ := v
      simp only at hv h2
      rw [hv, h2.1]
      rfl

/-- **C174, withdrawing.**  A withdrawal message with LP tokens attached succeeds exactly when the withdrawal does and pays at least
one unit of every coin, and has exactly its effect.  The minimum amounts of the message play no part. -/
theorem C174_withdraw_iff (denomOk : String → Bool) (c : Cfg A) (hc : c.Ok) (e : Env A) (w : State A) (x : A) (hx : User c x)
    (n : Nat) (mins : Option (List (Asset.Info × Nat))) (v : World A) :
    (∃ w', exec denomOk c w (.call e x [⟨c.lp, n⟩] (.withdraw [] mins)) = .ok w' ∧ view c w' = v) ↔
    ∃ rs, XYK.withdraw c.me (XYK.Entry.view c w.chain) e.now x n none = .ok (v.st, rs) ∧ Payable c rs ∧ v.cfg = w.cfg := by
  have esent : sent [⟨c.lp, n⟩] c.lp = n := by simp [sent]
  constructor
  · rintro ⟨w', h, rfl⟩
    simp only [exec, execute, bind_ok_iff, require_ok, exists_const, Except.ok.injEq] at h
    obtain ⟨_, _, w1, h1, ⟨w2, rs⟩, h2, rfl⟩ := h
    have h3 := XYK.Entry.withdraw_meaning hc hx.1 h1 h2
    rw [esent] at h3
    exact ⟨rs, h3, XYK.Entry.withdraw_payable h2, rfl⟩
  · rintro ⟨rs, h, hpay, hv⟩
    obtain ⟨hz, w1, w', h1, h2⟩ := XYK.Entry.withdraw_converse (mins := none) hc hpay h
    have h3 := XYK.Entry.withdraw_meaning hc hx.1 h1 h2
    rw [esent] at h3
    simp only [Option.map_none] at h3
    rw [h, Except.ok.injEq, Prod.mk.injEq] at h3
    refine ⟨{ w with chain := w' }, ?_, ?_⟩
    · simp only [exec, execute, bind_ok_iff, require_ok, exists_const, Except.ok.injEq]
      exact ⟨hx, ⟨by simp, by simp [hz]⟩, w1, h1, (w', rs), h2, rfl⟩
    · obtain ⟨s, cf⟩ := v
      simp only at hv h3
      rw [hv, h3.1]
      rfl

/-- **C174, depositing.**  A deposit message that declares both assets, with its coins attached and its tokens allowed, succeeds
exactly when the deposit does, and has exactly its effect.  The minimum of LP tokens of the message plays no part. -/
theorem C174_deposit_iff (denomOk : String → Bool) (c : Cfg A) (hc : c.Ok)
    (hchk : ∀ i, Asset.Info.check c.okAddr (c.infos i) = .ok ()) (e : Env A) (w : State A) (x : A) (hx : User c x)
    (d : Bool → Nat) (hal : Allowed c w.chain x d) (tol minLp : Option Nat) (dest : Option A) (v : World A) :
    (∃ w', exec denomOk c w (.call e x (coinsOf c d false ++ coinsOf c d true)
      (.provide [⟨c.infos false, d false⟩, ⟨c.infos true, d true⟩] tol minLp dest)) = .ok w' ∧ view c w' = v) ↔
    ∃ share, XYK.provide c.me (XYK.Entry.view c w.chain) e.now x (d false) (d true) tol none (dest.getD x) = .ok (v.st, share) ∧
      v.cfg = w.cfg := by
  have ed : ∀ i, declared [⟨c.infos false, d false⟩, ⟨c.infos true, d true⟩] (c.infos i) = d i := by
    intro i
    cases i <;> simp [declared, hc.ne, hc.ne.symm]
  constructor
  · rintro ⟨w', h, rfl⟩
    simp only [exec, execute, bind_ok_iff, require_ok, exists_const, Except.ok.injEq] at h
    obtain ⟨_, hf, w1, h1, ⟨w2, share⟩, h2, rfl⟩ := h
    have h3 := XYK.Entry.provide_meaning hc hx.1 hf h1 h2
    rw [ed, ed] at h3
    exact ⟨share, h3, rfl⟩
  · rintro ⟨share, h, hv⟩
    have hf : ValidFunds (funds c d) := Stable.Entry.funds_valid (XYK.Entry.cv_ok hc) d
    obtain ⟨w1, w', h1, h2⟩ := XYK.Entry.provide_converse hc hx.1 hal hchk h
    have h3 := XYK.Entry.provide_meaning hc hx.1 hf h1 h2
    rw [ed, ed, h, Except.ok.injEq, Prod.mk.injEq] at h3
    refine ⟨{ w with chain := w' }, ?_, ?_⟩
    · simp only [exec, execute, bind_ok_iff, require_ok, exists_const, Except.ok.injEq]
      exact ⟨hx, hf, w1, h1, (w', share), h2, rfl⟩
    · obtain ⟨s, cf⟩ := v
      simp only at hv h3
      rw [hv, h3.1]
      rfl

/-- A pair that taxes a coin at five percent: deposits, trades in both directions and withdrawals go through. -/
example : (∀ x ∈ [1, 2, 3], User demoCfg x) ∧ (∀ i, Asset.Info.check demoCfg.okAddr (demoCfg.infos i) = .ok ()) ∧
    Allowed demoCfg demoState.chain 1 (fun _ => 10 ^ 7) ∧ GoodTaxes (infosOf demoCfg) demoState.cfg.taxes ∧
    okAnd (exec (fun _ => true) demoCfg demoState (.call (XYK.Entry.demoEnv 5) 1 [⟨"uluna".toList, 10 ^ 7⟩] (.provide
      [⟨demoCfg.infos false, 10 ^ 7⟩, ⟨demoCfg.infos true, 10 ^ 7⟩] none none none))) (fun w =>
      okAnd (exec (fun _ => true) demoCfg w (.call (XYK.Entry.demoEnv 6) 2 [⟨"uluna".toList, 10 ^ 4⟩]
        (.swap ⟨.native "uluna".toList, 10 ^ 4⟩ none none none))) (fun w' => decide (w'.chain.bank "uluna".toList 5 = 500)) &&
      (exec (fun _ => true) demoCfg w (.send (XYK.Entry.demoEnv 6) 9 3 3 (10 ^ 4) none none (some 4))).isOk &&
      (exec (fun _ => true) demoCfg w (.call (XYK.Entry.demoEnv 6) 1 [⟨"lp".toList, 10 ^ 6⟩] (.withdraw [] none))).isOk) = true := by
  refine ⟨by decide, fun i => by cases i <;> decide, fun i t h => ?_, ?_, by decide +kernel⟩
  · cases i <;> simp [demoCfg, XYK.Entry.demoCfg] at h <;> subst h <;> decide +kernel
  · intro d rate rec hp
    simp only [demoState, List.mem_singleton, Prod.mk.injEq] at hp
    obtain ⟨rfl, rfl, rfl⟩ := hp
    exact ⟨by decide, false, by decide⟩

end Verif.SaleTax.Entry
