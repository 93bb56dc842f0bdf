import Verif.Joint.Market

/-!
# What LP tokens of constant product pairs are worth in every history of the exchange (C171)

Over the model of `Joint/Market.lean`: no sequence of transactions of anybody, through whatever pairs, routes, fees and factory
settings, takes anything from the holders of a constant product pair's LP tokens.
-/

namespace Verif.Market

open Verif Verif.Exchange
open Verif.Asset (Str Info Coin sent)
open Verif.Ledgers (Led Cfg Moved attach ValidFunds)

set_option linter.unusedSectionVars false

variable {A : Type} [DecidableEq A]

/-! ## Specification -/

/-- The share of the fees that a pair pays to somebody: basis points and receiver. -/
def feeShareOf : Pair A → Option (Nat × A)
  | .xyk _ _ _ sh => sh
  | .stable _ _ _ _ sh => sh
  | .pcl _ _ _ _ _ sh => sh

/-- Between 1 and 1000 basis points. -/
def ShareOk (sh : Option (Nat × A)) : Prop := ∀ x, sh = some x → 1 ≤ x.1 ∧ x.1 ≤ 1000

/-! ## Lemmas: the shared fee -/

theorem stable_share {c : Cfg A} {w w' : Stable.Entry.Chain A} {t : Stable.Entry.Tx A}
    (h : Stable.Entry.exec c w t = .ok w') : w'.share = w.share ∨ ShareOk w'.share := by
  have swapped : ∀ {e : Stable.Entry.Env A} {w w' : Stable.Entry.Chain A} {sender : A}
      {offer : Asset.Asset} {ask : Option Info} {belief maxSpread : Option Nat} {dest : Option A} {out : XYK.SwapOut},
      Stable.Entry.swapMsg c e w sender offer ask belief maxSpread dest = .ok (w', out) → w'.share = w.share := by
    intro e w w' sender offer ask be ms dest out h
    unfold Stable.Entry.swapMsg at h
    simp only [bind_ok_iff, Except.ok.injEq, Prod.mk.injEq] at h
    obtain ⟨p0, h0, p1, h1, ⟨i, j⟩, hij, amp, hamp, r, hr, g, hg, ⟨⟩, hms, ⟨sh, mk⟩, hsp, pools, hpools, tw, htw, l2, g2, l3,
      g3, l4, g4, rfl, rfl⟩ := h
    rfl
  cases t with
  | call e x funds m =>
    simp only [Stable.Entry.exec, bind_ok_iff, require_ok, exists_const] at h
    obtain ⟨_, _, l1, h1, h2⟩ := h
    cases m with
    | receive u n ask b m r =>
      simp only [Stable.Entry.execute, bind_ok_iff, Except.ok.injEq] at h2
      obtain ⟨_, _, ⟨w2, out⟩, h, rfl⟩ := h2
      have := swapped h
      exact Or.inl this
    | swap offer ask b m r =>
      simp only [Stable.Entry.execute, bind_ok_iff, Except.ok.injEq] at h2
      obtain ⟨_, _, _, _, _, _, ⟨w2, out⟩, h, rfl⟩ := h2
      have := swapped h
      exact Or.inl this
    | provide assets minLp r =>
      simp only [Stable.Entry.execute, bind_ok_iff, Except.ok.injEq] at h2
      obtain ⟨⟨w2, sh⟩, h, rfl⟩ := h2
      unfold Stable.Entry.provideMsg at h
      simp only [bind_ok_iff, require_ok, exists_const, Except.ok.injEq, Prod.mk.injEq] at h
      obtain ⟨d, hd, ⟨⟩, hco, p0, hp0, p1, hp1, amp, hamp, sh, hsh, hmin, pools, hpools, tw, htw, l2, h2, l3, h3, rfl, rfl⟩ := h
      exact Or.inl rfl
    | withdraw assets mins =>
      simp only [Stable.Entry.execute, bind_ok_iff, Except.ok.injEq] at h2
      obtain ⟨⟨w2, rs⟩, h, rfl⟩ := h2
      unfold Stable.Entry.withdrawMsg at h
      simp only [bind_ok_iff, require_ok, exists_const, Except.ok.injEq, Prod.mk.injEq] at h
      obtain ⟨co, hone, hden, r0, hr0, r1, hr1, _, ⟨⟩, hmin, pools, hpools, amp, hamp, tw, htw, l2, h2, l3, h3, l4, h4, sup, hsup,
        rfl, rfl⟩ := h
      exact Or.inl rfl
    | updateConfig u =>
      simp only [Stable.Entry.execute, Stable.Entry.updateConfig, bind_ok_iff, require_ok, exists_const] at h2
      cases u <;> simp only [bind_ok_iff, require_ok, exists_const, Except.ok.injEq] at h2
      · obtain ⟨_, a, _, rfl⟩ := h2
        exact Or.inl rfl
      · obtain ⟨_, a, _, rfl⟩ := h2
        exact Or.inl rfl
      · obtain ⟨_, hb, rfl⟩ := h2
        refine Or.inr fun x hx => ?_
        simp only [Option.some.injEq] at hx
        subst hx
        simp only [Stable.MAX_FEE_SHARE_BPS] at hb
        exact ⟨by simp only; omega, by simp only; omega⟩
      · obtain ⟨_, rfl⟩ := h2
        exact Or.inr fun x hx => by cases hx
  | send e token owner spender n ask b m r =>
    simp only [Stable.Entry.exec, Stable.Entry.execute, bind_ok_iff, require_ok, exists_const, Except.ok.injEq] at h
    obtain ⟨_, l1, hin, _, ⟨w2, out⟩, h, rfl⟩ := h
    have := swapped h
    exact Or.inl this
  | transfer e k src dst n =>
    simp only [Stable.Entry.exec, bind_ok_iff, require_ok, exists_const, Except.ok.injEq] at h
    obtain ⟨_, l, h, rfl⟩ := h
    exact Or.inl rfl
  | transferFrom e token owner spender dst n =>
    simp only [Stable.Entry.exec, bind_ok_iff, require_ok, exists_const, Except.ok.injEq] at h
    obtain ⟨_, l, h, rfl⟩ := h
    exact Or.inl rfl
  | approve e token owner spender n =>
    simp only [Stable.Entry.exec, bind_ok_iff, require_ok, exists_const, Except.ok.injEq] at h
    obtain ⟨_, rfl⟩ := h
    exact Or.inl rfl

theorem pcl_share {c : Cfg A} {w w' : PCL.Entry.Chain A} {t : PCL.Entry.Tx A}
    (h : PCL.Entry.exec c w t = .ok w') : w'.share = w.share ∨ ShareOk w'.share := by
  have swapped : ∀ {e : PCL.Entry.Env A} {w w' : PCL.Entry.Chain A} {sender : A}
      {offer : Asset.Asset} {belief maxSpread : Option Nat} {dest : Option A} {out : PCL.SwapOut},
      PCL.Entry.swapMsg c e w sender offer belief maxSpread dest = .ok (w', out) → w'.share = w.share := by
    intro e w w' sender offer be ms dest out h
    unfold PCL.Entry.swapMsg at h
    simp only [bind_ok_iff, Except.ok.injEq, Prod.mk.injEq] at h
    obtain ⟨i, hi, off, hoff, ps, hps, rest, hrest, ⟨⟩, hbs, old, hold, fs, hfs, r, hr, o, ho, pool, hpool, ret, hret, sp,
      hsp, ⟨⟩, hms, sa, hsa, ma, hma, tw, htw, cm, hcm, l2, g2, l3, g3, l4, g4, rfl, rfl⟩ := h
    rfl
  cases t with
  | call e x funds m =>
    simp only [PCL.Entry.exec, bind_ok_iff, require_ok, exists_const] at h
    obtain ⟨_, _, l1, h1, h2⟩ := h
    cases m with
    | receive u n b m r =>
      simp only [PCL.Entry.execute, bind_ok_iff, Except.ok.injEq] at h2
      obtain ⟨_, _, ⟨w2, out⟩, h, rfl⟩ := h2
      have := swapped h
      exact Or.inl this
    | swap offer b m r =>
      simp only [PCL.Entry.execute, bind_ok_iff, Except.ok.injEq] at h2
      obtain ⟨_, _, _, _, _, _, _, _, ⟨w2, out⟩, h, rfl⟩ := h2
      have := swapped h
      exact Or.inl this
    | provide assets tol minLp r =>
      simp only [PCL.Entry.execute, bind_ok_iff, Except.ok.injEq] at h2
      obtain ⟨⟨w2, sh⟩, h, rfl⟩ := h2
      unfold PCL.Entry.provideMsg at h
      simp only [bind_ok_iff, require_ok, exists_const, Except.ok.injEq, Prod.mk.injEq] at h
      obtain ⟨total, htot, ps, hps, ⟨as', dd⟩, hget, ⟨⟩, hco, p0, hp0, p1, hp1, ⟨sd, pool⟩, hsh, sh, hto, hmin, tw, htw, l2,
        h2, l3, h3, hnz, sup, hsup, rfl, rfl⟩ := h
      exact Or.inl rfl
    | withdraw assets mins =>
      simp only [PCL.Entry.execute, bind_ok_iff, Except.ok.injEq] at h2
      obtain ⟨⟨w2, rs⟩, h, rfl⟩ := h2
      unfold PCL.Entry.withdrawMsg at h
      simp only [bind_ok_iff, require_ok, exists_const, Except.ok.injEq, Prod.mk.injEq] at h
      obtain ⟨co, hone, hden, xs, hxs, _, r0, hr0, r1, hr1, y0, hy0, y1, hy1, iy, hiy, ag, hag, d, hd, xcp, hxcp, rest, hrest,
        rd, hrd, real, hreal, a0, ha0, a1, ha1, l2, h2, l3, h3, l4, h4, rfl, rfl⟩ := h
      exact Or.inl rfl
    | updateConfig u =>
      simp only [PCL.Entry.execute, PCL.Entry.updateConfig, bind_ok_iff, require_ok, exists_const] at h2
      cases u <;> simp only [bind_ok_iff, require_ok, exists_const, Except.ok.injEq] at h2
      · obtain ⟨_, a, _, rfl⟩ := h2
        exact Or.inl rfl
      · obtain ⟨_, a, _, rfl⟩ := h2
        exact Or.inl rfl
      · obtain ⟨_, a, _, rfl⟩ := h2
        exact Or.inl rfl
      · obtain ⟨_, hb, rfl⟩ := h2
        refine Or.inr fun x hx => ?_
        simp only [Option.some.injEq] at hx
        subst hx
        simp only [PCL.MAX_FEE_SHARE_BPS] at hb
        exact ⟨by simp only; omega, by simp only; omega⟩
      · obtain ⟨_, rfl⟩ := h2
        exact Or.inr fun x hx => by cases hx
  | send e token owner spender n b m r =>
    simp only [PCL.Entry.exec, PCL.Entry.execute, bind_ok_iff, require_ok, exists_const, Except.ok.injEq] at h
    obtain ⟨_, l1, hin, _, ⟨w2, out⟩, h, rfl⟩ := h
    have := swapped h
    exact Or.inl this
  | transfer e k src dst n =>
    simp only [PCL.Entry.exec, bind_ok_iff, require_ok, exists_const, Except.ok.injEq] at h
    obtain ⟨_, l, h, rfl⟩ := h
    exact Or.inl rfl
  | transferFrom e token owner spender dst n =>
    simp only [PCL.Entry.exec, bind_ok_iff, require_ok, exists_const, Except.ok.injEq] at h
    obtain ⟨_, l, h, rfl⟩ := h
    exact Or.inl rfl
  | approve e token owner spender n =>
    simp only [PCL.Entry.exec, bind_ok_iff, require_ok, exists_const, Except.ok.injEq] at h
    obtain ⟨_, rfl⟩ := h
    exact Or.inl rfl

/-- The shared fee of every pair is in bounds. -/
def Shares (w : World A) : Prop := ∀ p st, w.pair p = some st → ShareOk (feeShareOf st)

theorem atPair_shares {n : Net A} {w w' : World A} {p : A} {t : PTx A} (h : atPair n w p t = .ok w') (hs : Shares w) :
    Shares w' := by
  have put : ∀ {l : Led A} {st : Pair A}, ShareOk (feeShareOf st) → Shares (w.put p l st) := by
    intro l st hst q st' hq
    by_cases e : q = p
    · subst e
      have : (w.put q l st).pair q = some st := Function.update_self ..
      rw [this] at hq
      cases hq
      exact hst
    · have : (w.put p l st).pair q = w.pair q := Function.update_of_ne e ..
      rw [this] at hq
      exact hs q st' hq
  unfold atPair at h
  split at h
  · rename_i s tw tr sh t hst
    simp only [bind_ok_iff, Except.ok.injEq] at h
    obtain ⟨x, hx, rfl⟩ := h
    refine put ?_
    by_cases e : x.share = (xykChain w.led s tw tr sh).share
    · have := hs p _ hst
      change ShareOk x.share
      rw [e]
      exact this
    · obtain ⟨_, _, _, hb⟩ := XYK.Entry.C160_fee_share_by_owner _ _ _ _ hx e
      exact fun y hy => hb y hy
  · rename_i s tw am ow sh t hst
    simp only [bind_ok_iff, Except.ok.injEq] at h
    obtain ⟨x, hx, rfl⟩ := h
    refine put ?_
    rcases stable_share hx with e | e
    · have := hs p _ hst
      change ShareOk x.share
      rw [e]
      exact this
    · exact e
  · rename_i s pa po tw ow sh t hst
    simp only [bind_ok_iff, Except.ok.injEq] at h
    obtain ⟨x, hx, rfl⟩ := h
    refine put ?_
    rcases pcl_share hx with e | e
    · have := hs p _ hst
      change ShareOk x.share
      rw [e]
      exact this
    · exact e
  · exact absurd h (by simp)
  · exact absurd h (by simp)

theorem Acts.shares {n : Net A} {P T : A → Prop} {w w' : World A} (a : Acts n P T w w') (hs : Shares w) : Shares w' := by
  induction a with
  | nil => exact hs
  | same hl hq _ ih => exact ih (fun p st h => hs p st (by rw [← hq]; exact h))
  | move hp m hq _ ih => exact ih (fun p st h => hs p st (by rw [← hq]; exact h))
  | run ht hp hf h _ ih => exact ih (atPair_shares h hs)

theorem exec_shares {S : Site A} {s s' : Sys A} (hI : Inv S s) (hs : Shares s.w) {o : Op A} (h : exec S s o = .ok s') :
    Shares s'.w := by
  have plain : Plain o → Shares s'.w := by
    intro ho
    obtain ⟨_, _, ha, _⟩ := plain_acts hI.pb hI.router hI.fees ho h
    exact ha.shares hs
  cases o with
  | factory o =>
    simp only [exec, bind_ok_iff, require_ok, exists_const, Except.ok.injEq] at h
    obtain ⟨ho, f, hf, rfl⟩ := h
    exact hs
  | create now x funds t infos ps dec p =>
    obtain ⟨a, b, c, code, st, prec, l1, l2, rfl, hab, ha, hb, hx, hp, hpx, hq, hc, hdis, hperm, hcode, hi, h1, h2, rfl⟩ := create_ok h
    intro q st' hst'
    by_cases e : q = p
    · subst e
      simp only [Function.update_self, Option.some.injEq] at hst'
      subst hst'
      have h3 := (instantiate_new hi).2.2
      intro x hx
      exfalso
      cases st <;> simp only [feeShareOf] at hx <;> subst hx <;> simp [Pair.shareTo] at h3
    · simp only [Function.update_of_ne e] at hst'
      exact hs q st' hst'
  | call => exact plain trivial
  | send => exact plain trivial
  | route => exact plain trivial
  | transfer => exact plain trivial
  | transferFrom => exact plain trivial
  | approve => exact plain trivial
  | issue k dst n =>
    simp only [exec, bind_ok_iff, require_ok, exists_const, Except.ok.injEq] at h
    obtain ⟨hk, rfl⟩ := h
    exact hs
  | destroy k src n =>
    simp only [exec, bind_ok_iff, require_ok, exists_const, Except.ok.injEq] at h
    obtain ⟨⟨hk, _⟩, l, _, rfl⟩ := h
    exact hs

theorem run_shares {S : Site A} (hS : S.Ok) (os : List (Op A)) : ∀ {s : Sys A}, Inv S s → Shares s.w →
    Shares (run S s os).w := by
  induction os with
  | nil => exact fun _ h => h
  | cons o os ih =>
    intro s hI hL
    have := commit'_inv (fun s => Inv S s ∧ Shares s.w) ⟨hI, hL⟩ (r := exec S s o)
      fun s' hs => ⟨exec_inv hS hI hs, exec_shares hI hL hs⟩
    exact ih this.1 this.2

/-! ## Lemmas: one message to a constant product pair -/

/-- What is behind an LP token does not fall: `x·y / supply²`, in whole numbers. -/
def NoLoss (me : A) (s s' : XYK.State A) : Prop :=
  s.bal false me * s.bal true me * s'.supply ^ 2 ≤ s'.bal false me * s'.bal true me * s.supply ^ 2

theorem noLoss_ops [Fintype A] {me : A} : ∀ {ops : List (XYK.Op A)} {s s' : XYK.State A}, s.supply ≠ 0 → XYK.LpInv me s →
    (∀ o ∈ ops, o.isSwap = false) → ops.foldlM (XYK.exec me) s = .ok s' → NoLoss me s s' ∧ s'.supply ≠ 0
  | [], s, s', h0, _, _, h => by
    simp only [List.foldlM_nil, pure_eq_ok, Except.ok.injEq] at h
    subst h
    exact ⟨le_refl _, h0⟩
  | o :: ops, s, s', h0, hi, hn, h => by
    simp only [List.foldlM_cons, bind_ok_iff] at h
    obtain ⟨s1, h1, h2⟩ := h
    have hl := XYK.lpInv_exec hi h1
    have hs1 : s1.supply ≠ 0 := hl.2.1 h0
    obtain ⟨g, g0⟩ := noLoss_ops hs1 hl.1 (fun o ho => hn o (List.mem_cons_of_mem _ ho)) h2
    have hns := hn o List.mem_cons_self
    have r0 := XYK.rate_exec h0 hns h1 false
    have r1 := XYK.rate_exec h0 hns h1 true
    refine ⟨?_, g0⟩
    have hstep : NoLoss me s s1 := by
      unfold NoLoss
      calc s.bal false me * s.bal true me * s1.supply ^ 2
          = (s.bal false me * s1.supply) * (s.bal true me * s1.supply) := by ring
        _ ≤ (s1.bal false me * s.supply) * (s1.bal true me * s.supply) := Nat.mul_le_mul r0 r1
        _ = _ := by ring
    exact XYK.cross_trans (d := s1.supply ^ 2) (by positivity) hstep g

theorem noLoss_swap [Fintype A] {me : A} {s s' : XYK.State A} {o : XYK.Op A} (h0 : s.supply ≠ 0) (hi : XYK.LpInv me s)
    (hf : ∀ now u i n b m r f, o = .swap now u i n b m r f → f.Valid) (hsmall : ∀ i, s'.bal i me ≤ 10 ^ 18)
    (h : XYK.exec me s o = .ok s') : NoLoss me s s' ∧ s'.supply ≠ 0 :=
  ⟨XYK.product_exec h0 hf hsmall h, (XYK.lpInv_exec hi h).2.1 h0⟩

theorem transferOps_noSwap {c : XYK.Entry.Cfg A} {k : Info} {src dst : A} {n : Nat} {o : XYK.Op A}
    (h : o ∈ XYK.Entry.transferOps c k src dst n) : o.isSwap = false := by
  unfold XYK.Entry.transferOps at h
  split at h
  · simp only [List.mem_singleton] at h
    subst h
    rfl
  · split_ifs at h
    · simp only [List.mem_singleton] at h
      subst h
      rfl
    · cases h

/-- One transaction at a constant product pair. -/
theorem message_noLoss [Fintype A] {c : XYK.Entry.Cfg A} (hc : c.Ok) {w w' : XYK.Entry.Chain A} {t : XYK.Entry.Tx A}
    (hf : (PTx.xyk t).FeesOk) (hsh : ShareOk w.share) (h0 : w.supply ≠ 0) (hi : XYK.LpInv c.me (XYK.Entry.view c w))
    (hsmall : ∀ i, w'.of (c.infos i) c.me ≤ 10 ^ 18) (h : XYK.Entry.exec c w t = .ok w') :
    NoLoss c.me (XYK.Entry.view c w) (XYK.Entry.view c w') ∧ w'.supply ≠ 0 := by
  have hm := XYK.Entry.C160_messages_are_pair_transactions c hc w w' t h
  clear h
  have hfees : ∀ e : XYK.Entry.Env A, e.total ≤ 10 ^ 18 ∧ e.maker ≤ 10 ^ 18 → (XYK.Entry.fees e w).Valid :=
    fun e he => ⟨he.1, he.2, fun x hx => Nat.le_trans (hsh x hx).2 (by norm_num)⟩
  cases t with
  | call e x funds m =>
    cases m with
    | receive u n b m r => exact noLoss_ops h0 hi (by simp [XYK.Entry.meaning]) hm
    | provide assets tol minLp r => exact noLoss_ops h0 hi (by simp [XYK.Entry.meaning, XYK.Op.isSwap]) hm
    | withdraw assets mins => exact noLoss_ops h0 hi (by simp [XYK.Entry.meaning, XYK.Op.isSwap]) hm
    | updateConfig u =>
      refine noLoss_ops h0 hi ?_ hm
      intro o ho
      simp only [XYK.Entry.meaning, List.mem_flatMap] at ho
      obtain ⟨a, _, ho⟩ := ho
      exact transferOps_noSwap ho
    | swap offer b m r =>
      simp only [XYK.Entry.meaning] at hm
      split at hm
      · simp only [List.foldlM_cons, List.foldlM_nil, bind_ok_iff, pure_eq_ok, Except.ok.injEq] at hm
        obtain ⟨s1, h1, rfl⟩ := hm
        refine noLoss_swap h0 hi ?_ hsmall h1
        intro _ _ _ _ _ _ _ f e
        cases e
        exact hfees _ hf
      · exact noLoss_ops h0 hi (by simp) hm
  | send e tk owner spender n b m r =>
    simp only [XYK.Entry.meaning] at hm
    split at hm
    · simp only [List.foldlM_cons, List.foldlM_nil, bind_ok_iff, pure_eq_ok, Except.ok.injEq] at hm
      obtain ⟨s1, h1, rfl⟩ := hm
      refine noLoss_swap h0 hi ?_ hsmall h1
      intro _ _ _ _ _ _ _ f e
      cases e
      exact hfees _ hf
    · exact noLoss_ops h0 hi (by simp) hm
  | transfer k src dst n => exact noLoss_ops h0 hi (fun o ho => transferOps_noSwap ho) hm
  | transferFrom t owner spender dst n => exact noLoss_ops h0 hi (fun o ho => transferOps_noSwap ho) hm
  | approve => exact noLoss_ops h0 hi (by simp [XYK.Entry.meaning]) hm

/-! ## Lemmas: whole transactions -/

/-- What holds of a constant product pair of assets `infos` with LP tokens in circulation. -/
structure Live [Fintype A] (w : World A) (lp : Str) (infos : Bool → Info) (q : A) (st : Pair A) : Prop where
  pair : w.pair q = some st
  kind : kindOf st = .xyk
  supply : supplyOf st ≠ 0
  lpOk : LpOk w.led lp q st
  shares : Shares w
  small : ∀ i, ∑ z, w.led.of (infos i) z ≤ 10 ^ 18

/-- What is behind an LP token of pair `q` does not fall. -/
def Kept (infos : Bool → Info) (q : A) (w w' : World A) (st st' : Pair A) : Prop :=
  w.led.of (infos false) q * w.led.of (infos true) q * supplyOf st' ^ 2 ≤
    w'.led.of (infos false) q * w'.led.of (infos true) q * supplyOf st ^ 2

theorem kept_trans {infos : Bool → Info} {q : A} {w w1 w' : World A} {st st1 st' : Pair A} (h0 : supplyOf st1 ≠ 0)
    (h1 : Kept infos q w w1 st st1) (h2 : Kept infos q w1 w' st1 st') : Kept infos q w w' st st' :=
  XYK.cross_trans (d := supplyOf st1 ^ 2) (by positivity) h1 h2

theorem kept_mono {infos : Bool → Info} {q : A} {w w' : World A} {st : Pair A}
    (h : ∀ i, w.led.of (infos i) q ≤ w'.led.of (infos i) q) : Kept infos q w w' st st :=
  Nat.mul_le_mul_right _ (Nat.mul_le_mul (h false) (h true))

/-- A message to the pair itself. -/
theorem atPair_kept [Fintype A] {n : Net A} {w w' : World A} {q : A} {t : PTx A} {st : Pair A} (hme : (n.cfg q).me = q)
    (hok : (n.cfg q).Ok) (hf : t.FeesOk) (h : atPair n w q t = .ok w') (hl : Live w (n.cfg q).lp (n.cfg q).infos q st) :
    ∃ st', Live w' (n.cfg q).lp (n.cfg q).infos q st' ∧ Kept (n.cfg q).infos q w w' st st' := by
  obtain ⟨s0, s1, h1, h2, _, hk, f⟩ := atPair_flow hme h
  obtain rfl : s0 = st := by
    have := hl.pair
    rw [h1] at this
    exact Option.some.inj this
  have hsum : ∀ i, ∑ z, w'.led.of ((n.cfg q).infos i) z ≤ 10 ^ 18 := fun i => by
    rw [f.sum (hok.lp i)]
    exact hl.small i
  have hboth : supplyOf s1 ≠ 0 ∧ Kept (n.cfg q).infos q w w' s0 s1 := by
    have hle : ∀ i, w'.led.of ((n.cfg q).infos i) q ≤ 10 ^ 18 := fun i =>
      Nat.le_trans (Finset.single_le_sum (f := fun z => w'.led.of ((n.cfg q).infos i) z) (fun _ _ => Nat.zero_le _)
        (Finset.mem_univ q)) (hsum i)
    unfold atPair at h
    rw [h1] at h
    split at h
    · rename_i s tw tr sh t hs
      cases hs
      simp only [bind_ok_iff, Except.ok.injEq] at h
      obtain ⟨x, hx, rfl⟩ := h
      have e2 : s1 = .xyk x.supply x.twap x.tracked x.share := by
        have e : (w.put q (xykLed x) (.xyk x.supply x.twap x.tracked x.share)).pair q = some _ := Function.update_self ..
        rw [e] at h2
        exact (Option.some.inj h2).symm
      subst e2
      have e : (xykCfg (n.cfg q)).me = q := hme
      have := message_noLoss (c := xykCfg (n.cfg q)) ⟨hok.ne, hok.lp⟩ (w := xykChain w.led s tw tr sh) (w' := x) hf
        (hl.shares q _ hl.pair) hl.supply (by rw [e]; exact hl.lpOk) (fun i => by
          rw [e, ← xykLed_of]
          exact hle i) hx
      refine ⟨this.2, ?_⟩
      have hn := this.1
      unfold NoLoss at hn
      simp only [e, XYK.Entry.view] at hn
      unfold Kept
      have e3 : ∀ k, (w.put q (xykLed x) (.xyk x.supply x.twap x.tracked x.share)).led.of k = x.of k := fun k => xykLed_of x k
      have e4 : ∀ k, w.led.of k = (xykChain w.led s tw tr sh).of k := fun k => by cases k <;> rfl
      rw [e3, e3, e4, e4]
      exact hn
    · rename_i hs
      cases hs
      exact absurd hl.kind (by simp [kindOf])
    · rename_i hs
      cases hs
      exact absurd hl.kind (by simp [kindOf])
    · exact absurd h (by simp)
    · exact absurd h (by simp)
  exact ⟨s1, ⟨h2, hk.trans hl.kind, hboth.1, atPair_lp hme hok h h1 h2 hl.lpOk, atPair_shares h hl.shares, hsum⟩, hboth.2⟩

/-- Payments of others and messages to pairs: what is behind an LP token does not fall. -/
theorem Acts.kept [Fintype A] {n : Net A} {P T : A → Prop} {w w' : World A} (hme : ∀ p, (n.cfg p).me = p)
    (hinj : ∀ p q, (n.cfg p).lp = (n.cfg q).lp → p = q) (a : Acts n P T w w') (hok : ∀ p, (w.pair p).isSome → (n.cfg p).Ok)
    {q : A} (hq : ¬ P q) (hn : ∀ i p, (n.cfg q).infos i ≠ .native (n.cfg p).lp) {st : Pair A}
    (hl : Live w (n.cfg q).lp (n.cfg q).infos q st) :
    ∃ st', Live w' (n.cfg q).lp (n.cfg q).infos q st' ∧ Kept (n.cfg q).infos q w w' st st' := by
  induction a generalizing st with
  | nil => exact ⟨st, hl, kept_mono fun _ => le_refl _⟩
  | @same w w1 w' he hp _ ih =>
    obtain ⟨st', h1, h2⟩ := ih (by rw [hp]; exact hok) (st := st)
      ⟨by rw [hp]; exact hl.pair, hl.kind, hl.supply, by unfold LpOk; rw [he]; exact hl.lpOk,
        fun p st h => hl.shares p st (by rw [← hp]; exact h), fun i => by rw [he]; exact hl.small i⟩
    exact ⟨st', h1, kept_trans hl.supply (kept_mono fun i => by rw [he]) h2⟩
  | @move w w1 w' k src dst x hs m hp _ ih =>
    have hm : ∀ k, w.led.of k q ≤ w1.led.of k q := m.mono (fun e : q = src => hq (by rw [e]; exact hs))
    obtain ⟨st', h1, h2⟩ := ih (by rw [hp]; exact hok) (st := st)
      ⟨by rw [hp]; exact hl.pair, hl.kind, hl.supply,
        ⟨hl.lpOk.1.trans (Moved.sum m _).symm, hl.lpOk.2.imp_right fun h => Nat.le_trans h (hm _)⟩,
        fun p st h => hl.shares p st (by rw [← hp]; exact h), fun i => by rw [Moved.sum m]; exact hl.small i⟩
    exact ⟨st', h1, kept_trans hl.supply (kept_mono fun i => hm _) h2⟩
  | @run w w1 w' p t hT hp hf hr _ ih =>
    obtain ⟨s0, s1, h1, h2, ho, _, f⟩ := atPair_flow (hme p) hr
    have hok' : ∀ p, (w1.pair p).isSome → (n.cfg p).Ok := by
      intro r hs
      by_cases e : r = p
      · exact e ▸ hok p (by rw [h1]; rfl)
      · rw [ho r e] at hs
        exact hok r hs
    by_cases e : q = p
    · subst e
      obtain ⟨st1, g1, g2⟩ := atPair_kept (hme q) (hok q (by rw [h1]; rfl)) hf hr hl
      obtain ⟨st', g3, g4⟩ := ih hok' g1
      exact ⟨st', g3, kept_trans g1.supply g2 g4⟩
    · have hm : ∀ k, w.led.of k q ≤ w1.led.of k q := by
        refine f.mono ?_
        rintro (e' | e')
        · exact hq (by rw [e']; exact hp)
        · exact e e'
      have hne : (Info.native (n.cfg q).lp) ≠ .native (n.cfg p).lp := fun he => e (hinj q p (Info.native.inj he))
      obtain ⟨st', g3, g4⟩ := ih hok' (st := st)
        ⟨(ho q e).trans hl.pair, hl.kind, hl.supply,
          ⟨hl.lpOk.1.trans (f.sum hne).symm, hl.lpOk.2.imp_right fun h => Nat.le_trans h (hm _)⟩,
          atPair_shares hr hl.shares, fun i => by rw [f.sum (hn i p)]; exact hl.small i⟩
      exact ⟨st', g3, kept_trans hl.supply (kept_mono fun i => hm _) g4⟩

theorem net_infos {S : Site A} {s : Sys A} {q : A} {b : Born} (hb : s.born q = some b) : ((net S s).cfg q).infos = b.infos := by
  simp only [net, hb]

theorem exec_kept [Fintype A] {S : Site A} (hS : S.Ok) {s s' : Sys A} (hI : Inv S s) {o : Op A} (h : exec S s o = .ok s')
    {q : A} {b : Born} (hb : s.born q = some b) (hn : ∀ i, isLp S (b.infos i) = false) {st : Pair A}
    (hl : Live s.w (S.lpOf q) b.infos q st) (hsmall : ∀ i, ∑ z, s'.w.led.of (b.infos i) z ≤ 10 ^ 18) :
    ∃ st', Live s'.w (S.lpOf q) b.infos q st' ∧ Kept b.infos q s.w s'.w st st' := by
  have hinj : ∀ p q, ((net S s).cfg p).lp = ((net S s).cfg q).lp → p = q := fun p q e => by
    rw [net_lp, net_lp] at e
    exact hS.inj e
  have acts : ∀ {P T : A → Prop} {w : World A}, Acts (net S s) P T s.w w → ¬ P q →
      ∃ st', Live w (S.lpOf q) b.infos q st' ∧ Kept b.infos q s.w w st st' := by
    intro P T w ha hP
    have := ha.kept (net_me S s) hinj (fun p hp => hI.cfg_ok hp) (q := q) hP (fun i p => by
      rw [net_lp, net_infos hb]
      exact (not_lp hS (hn i) p).symm) (st := st) (by rw [net_lp, net_infos hb]; exact hl)
    rw [net_lp, net_infos hb] at this
    exact this
  have plain : Plain o → ∃ st', Live s'.w (S.lpOf q) b.infos q st' ∧ Kept b.infos q s.w s'.w st st' := by
    intro ho
    obtain ⟨_, _, ha, hz⟩ := plain_acts hI.pb hI.router hI.fees ho h
    exact acts ha fun hp => by
      rw [hz q hp] at hb
      cases hb
  have other : ∀ {k : Info} {v : A → Nat}, isLp S k = false → s.w.led.of k q ≤ v q →
      s' = { s with w := { s.w with led := s.w.led.set k v } } →
      ∃ st', Live s'.w (S.lpOf q) b.infos q st' ∧ Kept b.infos q s.w s'.w st st' := by
    intro k v hk hv e
    subst e
    have hm : ∀ j, s.w.led.of j q ≤ (s.w.led.set k v).of j q := by
      intro j
      by_cases e : j = k
      · subst e
        rw [Ledgers.of_set, if_pos rfl]
        exact hv
      · rw [set_of_ne e]
    exact ⟨st, ⟨hl.pair, hl.kind, hl.supply, by
      unfold LpOk
      rw [set_of_ne (not_lp hS hk q)]
      exact hl.lpOk, hl.shares, hsmall⟩, kept_mono fun i => hm _⟩
  cases o with
  | factory o =>
    simp only [exec, bind_ok_iff, require_ok, exists_const, Except.ok.injEq] at h
    obtain ⟨ho, f, hf, rfl⟩ := h
    exact ⟨st, hl, kept_mono fun _ => le_refl _⟩
  | create now x funds t infos ps dec p =>
    have hsh := exec_shares hI hl.shares h
    obtain ⟨a, b', c, code, st', prec, l1, l2, rfl, hab, ha, hb', hx, hp, hpx, hq, hc, hdis, hperm, hcode, hi, h1, h2, rfl⟩ := create_ok h
    have e : q ≠ p := by
      rintro rfl
      rw [hp.2] at hb
      cases hb
    obtain ⟨st1, g1, g2⟩ := acts (create_acts h1 h2) (by
      rintro (e' | e')
      · rw [e', hx.2] at hb
        cases hb
      · exact e e')
    exact ⟨st1, ⟨(Function.update_of_ne e ..).trans g1.pair, g1.kind, g1.supply, g1.lpOk, hsh, g1.small⟩, g2⟩
  | call => exact plain trivial
  | send => exact plain trivial
  | route => exact plain trivial
  | transfer => exact plain trivial
  | transferFrom => exact plain trivial
  | approve => exact plain trivial
  | issue k dst n =>
    simp only [exec, bind_ok_iff, require_ok, exists_const, Except.ok.injEq] at h
    obtain ⟨hk, rfl⟩ := h
    refine other hk ?_ rfl
    rw [credit_apply]
    split_ifs <;> omega
  | destroy k src n =>
    simp only [exec, bind_ok_iff, require_ok, exists_const, Except.ok.injEq] at h
    obtain ⟨⟨hk, hsrc⟩, l, hd, rfl⟩ := h
    refine other hk ?_ rfl
    have := debit_apply hd q
    rw [if_neg (fun e : q = src => by rw [e, hsrc.2] at hb; cases hb)] at this
    rw [this]

/-! ## C171 -/

/-- **C171, shared fees.**  In every history of the exchange the share of the fees that a pair of whatever kind pays to somebody
is between 1 and 1000 basis points, if there is one. -/
theorem C171_fee_share_bounded (S : Site A) (hS : S.Ok) (s0 : Sys A) (h0 : Start S s0) (os : List (Op A)) (p : A) (st : Pair A)
    (hp : (run S s0 os).w.pair p = some st) (bps : Nat) (r : A) (h : feeShareOf st = some (bps, r)) : 1 ≤ bps ∧ bps ≤ 1000 :=
  run_shares hS os (start_inv h0) (fun p st hp => by rw [h0.pair] at hp; cases hp) p st hp _ h

/-- **C171 (partial).**  Take any constant product pair with LP tokens in circulation, at any time of any history of the whole
exchange, and anything that happens afterwards: deposits, withdrawals, trades at this and other pairs, routes through it, gifts,
new pairs, changes of fees and owners, failed transactions, coins issued and destroyed.  The pair still has LP tokens, and
`reserve · reserve / supply²` has not fallen: nobody has taken anything from those who hold its LP tokens.
Missing: assets of which more than `10^18` units exist (then a trade may take a unit too much, `C171_lp_value_violated`), and
pairs one of whose assets is the LP token of another pair. -/
theorem C171_lp_value_never_falls_partial [Fintype A] (S : Site A) (hS : S.Ok) (s0 : Sys A) (h0 : Start S s0)
    (os more : List (Op A)) (q : A) (b : Born) (hb : (run S s0 os).born q = some b) (st : Pair A)
    (hst : (run S s0 os).w.pair q = some st) (hk : kindOf st = .xyk) (hs : supplyOf st ≠ 0)
    (hlp : ∀ i, isLp S (b.infos i) = false)
    (hsmall : ∀ n i, ∑ z, (run S s0 (os ++ more.take n)).w.led.of (b.infos i) z ≤ 10 ^ 18) :
    ∃ st', (run S s0 (os ++ more)).w.pair q = some st' ∧ supplyOf st' ≠ 0 ∧
      (run S s0 os).w.led.of (b.infos false) q * (run S s0 os).w.led.of (b.infos true) q * supplyOf st' ^ 2 ≤
        (run S s0 (os ++ more)).w.led.of (b.infos false) q * (run S s0 (os ++ more)).w.led.of (b.infos true) q *
          supplyOf st ^ 2 := by
  have e : ∀ more, run S s0 (os ++ more) = run S (run S s0 os) more := fun more => by simp [run, List.foldl_append]
  have hI := run_inv hS os (start_inv h0)
  have hL := run_lpAll hS os (start_inv h0) (start_lpAll h0)
  have hsh := run_shares hS os (start_inv h0) (fun p st hp => by rw [h0.pair] at hp; cases hp)
  simp only [e] at hsmall ⊢
  generalize run S s0 os = s at *
  have hl : Live s.w (S.lpOf q) b.infos q st := ⟨hst, hk, hs, hL q st hst, hsh, hsmall 0⟩
  clear e h0 hL hsh hst hk hs
  have go : ∃ st', Live (run S s more).w (S.lpOf q) b.infos q st' ∧ Kept b.infos q s.w (run S s more).w st st' := by
    induction more generalizing s st with
    | nil => exact ⟨st, hl, kept_mono fun _ => le_refl _⟩
    | cons o more ih =>
      have h1 := hsmall 1
      have hstep : Inv S (step S s o) ∧ (step S s o).born q = some b ∧
          ∃ st', Live (step S s o).w (S.lpOf q) b.infos q st' ∧ Kept b.infos q s.w (step S s o).w st st' := by
        simp only [List.take_succ_cons, List.take_zero, run, List.foldl_cons, List.foldl_nil] at h1
        unfold step at h1 ⊢
        cases hx : exec S s o with
        | ok s' =>
          rw [hx] at h1
          exact ⟨exec_inv hS hI hx, (exec_born hI hx q b hb).1, exec_kept hS hI hx hb hlp hl h1⟩
        | error e => exact ⟨hI, hb, st, hl, kept_mono fun _ => le_refl _⟩
      obtain ⟨g1, g2, st1, g3, g4⟩ := hstep
      obtain ⟨st', g5, g6⟩ := ih st1 (step S s o) g2 g1 (fun n i => by simpa [run] using hsmall (n + 1) i) g3
      exact ⟨st', g5, kept_trans g3.supply g4 g6⟩
  obtain ⟨st', g1, g2⟩ := go
  exact ⟨st', g1.pair, g1.supply, g2⟩

/-- Another history: a pair of which two people hold LP tokens; then a route through it, a trade, a withdrawal, a gift and a shared
fee. -/
def demoMore : List (Op Acct) :=
  [.call 2001 10 2 [⟨"uatom".toList, 10 ^ 9⟩] (.xyk (.swap ⟨.native "uatom".toList, 10 ^ 9⟩ none none none)),
   .route 2001 (.coins 2 [⟨"uatom".toList, 10 ^ 8⟩]) (Router.asOps demoRoute) none (some 5) (some (10 ^ 17)),
   .call 2002 10 3 [⟨"lpk".toList, 10 ^ 6⟩] (.xyk (.withdraw [] none)),
   .call 2002 10 7 [] (.xyk (.updateConfig (some (1000, 6)))),
   .transfer (.native "uluna".toList) 2 10 5,
   .call 2003 10 2 [⟨"uluna".toList, 10 ^ 9⟩] (.xyk (.swap ⟨.native "uluna".toList, 10 ^ 9⟩ none none none))]

/-- All of it happens, and the total amounts stay below `10^18`. -/
example : (List.range 6).map (fun n => (exec demoSite (run demoSite demoSys (demoMore.take n))
    (demoMore.getD n (.approve [] 1 1 0))).isOk) = [true, true, true, true, true, true] := by decide +kernel

example : ((demoSys.born 10).map fun b => (b.infos false, b.infos true)) =
      some (.native "uatom".toList, .native "uluna".toList) ∧
    (demoSys.w.pair 10).map (fun st => (kindOf st, supplyOf st)) = some (.xyk, 10 ^ 12) ∧
    isLp demoSite (.native "uatom".toList) = false ∧ isLp demoSite (.native "uluna".toList) = false ∧
    (∀ n ∈ List.range 7, ∀ k ∈ [Info.native "uatom".toList, .native "uluna".toList],
      ∑ z, (run demoSite demoSys (demoMore.take n)).w.led.of k z = 3 * 10 ^ 15) ∧
    ((run demoSite demoSys demoMore).w.pair 10).map (fun st => (supplyOf st, feeShareOf st)) =
      some (10 ^ 12 - 10 ^ 6, some (1000, 6)) := by decide +kernel

/-- A pair with `2·10^18 - 1` units of both assets. -/
def demoLarge : List (Op Acct) :=
  [.issue (.native "uatom".toList) 1 (2 * 10 ^ 18), .issue (.native "uluna".toList) 1 (2 * 10 ^ 18),
   .create 1000 1 [⟨"uluna".toList, 10⟩] .xyk [.native "uatom".toList, .native "uluna".toList] (.xyk false) demoDec 10,
   .call 2000 10 1 [⟨"uatom".toList, 2 * 10 ^ 18 - 1⟩, ⟨"uluna".toList, 2 * 10 ^ 18 - 1⟩]
     (.xyk (.provide [⟨.native "uatom".toList, 2 * 10 ^ 18 - 1⟩, ⟨.native "uluna".toList, 2 * 10 ^ 18 - 1⟩] none none none))]

/-- **C171, found false beyond `10^18` units.**  In a history of the exchange that anybody can bring about, offering one unit of
one asset pays one unit of the other, and `reserve · reserve / supply²` falls. -/
theorem C171_lp_value_violated :
    let s := run demoSite demoStart demoLarge
    okAnd (exec demoSite s (.call 2001 10 2 [⟨"uluna".toList, 1⟩]
        (.xyk (.swap ⟨.native "uluna".toList, 1⟩ none none none)))) (fun s' =>
      s'.w.led.of (.native "uatom".toList) 10 * s'.w.led.of (.native "uluna".toList) 10 <
        s.w.led.of (.native "uatom".toList) 10 * s.w.led.of (.native "uluna".toList) 10 ∧
      (s'.w.pair 10).map supplyOf = (s.w.pair 10).map supplyOf) = true := by
  decide +kernel

end Verif.Market
