import Verif.SaleTax.History
import Verif.XYK.Entry

/-!
# Messages to a constant product pair with sale tax (C173)

As `XYK/Entry.lean`, for the pair that taxes what is offered: any account may send any message with any coins, token
contracts call the pair when somebody sends them tokens.  Deposits and withdrawals are the same code as in the plain pair
except that the minimum amounts of the message are dropped; trades pay the tax as bank coins whose denom is the *text* of
the offered asset.

Assumed and simplified as in `XYK/Entry.lean`.
-/

namespace Verif.SaleTax.Entry

open Verif Verif.XYK
open Verif.Asset (Str Coin assertSent assertCoins sent declared)
open Verif.XYK.Entry (Chain Env Cfg attach ValidFunds isNative pay payNonzero transferFrom label label_infos label_some
  infos_inj Moved Rest move_moved pay_moved payNonzero_moved transferFrom_moved attach_spec)

set_option linter.unusedSectionVars false

variable {A : Type} [DecidableEq A]

/-- `AssetInfo::to_string`, packages/astroport/src/asset.rs (Display impl): the denom or the address. -/
def nameOf : Asset.Info → Str
  | .native d => d
  | .token t => t

/-- The same asset as `Model.lean` writes it. -/
def toInfo : Asset.Info → SaleTax.Info
  | .native d => .native (String.ofList d)
  | .token t => .token (String.ofList t)

/-- The two assets as `Model.lean` writes them. -/
def infosOf (c : Cfg A) : Bool → SaleTax.Info := fun i => toInfo (c.infos i)

/-- The fees in force; this pair shares none with a third party. -/
def fees (e : Env A) : Fees A := ⟨e.total, e.maker, e.feeAddr, none⟩

/-- The chain (its `share` is not used) and the tax part of the pair's `Config`. -/
structure State (A : Type) where
  chain : Chain A
  cfg : SaleTax.Config A

/-- `swap`, contracts/pair_xyk_sale_tax/src/contract.rs:594-746, with the messages it sends executed: the proceeds, the tax
as bank coins, the Maker's fee. -/
def swapMsg (c : Cfg A) (e : Env A) (cfg : SaleTax.Config A) (w : Chain A) (funds : List Coin) (sender : A)
    (offer : Asset.Asset) (belief maxSpread : Option Nat) (dest : Option A) : Res (Chain A × SaleTax.Out) := do
  assertSent offer funds
  let p0 ← (if c.infos false = offer.info then csub (w.of (c.infos false) c.me) offer.amount
    else .ok (w.of (c.infos false) c.me))
  let p1 ← (if c.infos true = offer.info then csub (w.of (c.infos true) c.me) offer.amount
    else .ok (w.of (c.infos true) c.me))
  let i ← (if offer.info = c.infos false then .ok false
    else if offer.info = c.infos true then .ok true else .error (.invalid "AssetMismatch") : Res Bool)
  let offerPool := if i then p1 else p0
  let askPool := if i then p0 else p1
  let tc := getTax cfg.taxes (String.ofList (nameOf offer.info))
  let r ← computeSwapTax offerPool askPool offer.amount e.total tc
  let gross ← u128 (r.ret + r.commission)
  assertMaxSpread belief maxSpread r.offer gross r.spread
  let maker := match e.feeAddr with
    | some _ => mulDec r.commission e.maker
    | none => 0
  let tOff ← u128 (offerPool + r.offer)
  let tAsk ← csub askPool (r.ret + maker)
  let tw ← accumulate w.twap e.now p0 p1
  let w1 : Chain A := { w with twap := tw, tracked := fun j => if j = i then tOff else tAsk }
  let w2 ← payNonzero c w1 (c.infos !i) (some (dest.getD sender)) r.ret
  let w3 ← payNonzero c w2 (.native (nameOf offer.info)) (tc.map (·.2)) r.tax
  let w4 ← payNonzero c w3 (c.infos !i) e.feeAddr maker
  .ok (w4, { ret := r.ret, spread := r.spread, commission := r.commission, makerFee := maker, tax := r.tax })

/-- `ExecuteMsg` (packages/astroport/src/pair.rs) with the parameters of this pair's `update_config`
(packages/astroport/src/pair_xyk_sale_tax.rs, `SaleTaxConfigUpdates`). -/
inductive Msg (A : Type) where
  | receive (sender : A) (amount : Nat) (belief maxSpread : Option Nat) (dest : Option A)
  | provide (assets : List Asset.Asset) (tol minLp : Option Nat) (receiver : Option A)
  | swap (offer : Asset.Asset) (belief maxSpread : Option Nat) (dest : Option A)
  | withdraw (assets : List Asset.Asset) (mins : Option (List (Asset.Info × Nat)))
  | updateConfig (taxes : Option (Taxes A)) (admin : Option A)

/-- `execute`, contracts/pair_xyk_sale_tax/src/contract.rs:219-271, and `receive_cw20`, 276-321.  `provide_liquidity`
(contracts/pair_xyk_sale_tax/src/contract.rs:339-436) and `withdraw_liquidity` (contracts/pair_xyk_sale_tax/src/contract.rs:490-556) are the code of the plain pair without `min_lp_to_receive` and
`min_assets_to_receive`. -/
def execute (denomOk : String → Bool) (c : Cfg A) (e : Env A) (w : State A) (sender : A) (funds : List Coin) :
    Msg A → Res (State A)
  | .receive user amount belief maxSpread dest => do
    require (c.infos false = .token (c.addr sender) ∨ c.infos true = .token (c.addr sender)) .unauthorized
    let (v, _) ← swapMsg c e w.cfg w.chain funds user ⟨.token (c.addr sender), amount⟩ belief maxSpread dest
    .ok { w with chain := v }
  | .provide assets tol _ receiver => do
    let (v, _) ← XYK.Entry.provideMsg c e w.chain funds sender assets tol none receiver
    .ok { w with chain := v }
  | .swap offer belief maxSpread dest => do
    Asset.Info.check c.okAddr offer.info
    require (isNative offer.info = true) (.invalid "Cw20DirectSwap")
    let (v, _) ← swapMsg c e w.cfg w.chain funds sender offer belief maxSpread dest
    .ok { w with chain := v }
  | .withdraw assets _ => do
    let (v, _) ← XYK.Entry.withdrawMsg c e w.chain funds sender assets none
    .ok { w with chain := v }
  | .updateConfig taxes admin => do
    let cfg ← updateConfig denomOk (infosOf c) w.cfg e.owner sender taxes admin
    .ok { w with cfg := cfg }

/-- What can happen on the chain. -/
inductive Tx (A : Type) where
  | call (e : Env A) (sender : A) (funds : List Coin) (m : Msg A)
  | send (e : Env A) (token owner spender : A) (amount : Nat) (belief maxSpread : Option Nat) (dest : Option A)
  | transfer (k : Asset.Info) (src dst : A) (n : Nat)
  | transferFrom (token : Str) (owner spender dst : A) (n : Nat)
  | approve (token : Str) (owner spender : A) (n : Nat)

/-- One transaction.  Any account but the pair and the token contracts of the pool may call anything. -/
def exec (denomOk : String → Bool) (c : Cfg A) (w : State A) : Tx A → Res (State A)
  | .call e sender funds m => do
    require (sender ≠ c.me ∧ c.infos false ≠ .token (c.addr sender) ∧ c.infos true ≠ .token (c.addr sender)) .unauthorized
    require (ValidFunds funds) (.invalid "invalid coins")
    let v ← attach w.chain sender c.me funds
    execute denomOk c e { w with chain := v } sender funds m
  | .send e token owner spender amount belief maxSpread dest => do
    require (owner ≠ c.me ∧ spender ≠ c.me) .unauthorized
    let v ← (if owner = spender then w.chain.move (.token (c.addr token)) owner c.me amount
      else transferFrom w.chain (c.addr token) owner spender c.me amount)
    execute denomOk c e { w with chain := v } token [] (.receive spender amount belief maxSpread dest)
  | .transfer k src dst n => do
    require (src ≠ c.me) .unauthorized
    let v ← w.chain.move k src dst n
    .ok { w with chain := v }
  | .transferFrom token owner spender dst n => do
    require (owner ≠ c.me ∧ spender ≠ c.me) .unauthorized
    let v ← transferFrom w.chain token owner spender dst n
    .ok { w with chain := v }
  | .approve token owner spender n => do
    require (owner ≠ c.me) .unauthorized
    .ok { w with chain := { w.chain with
      allow := fun t o s => if t = token ∧ o = owner ∧ s = spender then n else w.chain.allow t o s } }

/-- Reverting step. -/
def step (denomOk : String → Bool) (c : Cfg A) (w : State A) (t : Tx A) : State A := commit' w (exec denomOk c w t)

/-- History. -/
def run (denomOk : String → Bool) (c : Cfg A) (w : State A) (ts : List (Tx A)) : State A := ts.foldl (step denomOk c) w

/-- What the pair's own transactions see of the chain. -/
def view (c : Cfg A) (w : State A) : World A := ⟨XYK.Entry.view c w.chain, w.cfg⟩

/-- A plain transfer, as the pair's ledgers see it. -/
def transferOps (c : Cfg A) (k : Asset.Info) (src dst : A) (n : Nat) : List (TOp A) :=
  match label c k with
  | some i => [.send i src dst n]
  | none => if k = .native c.lp then [.sendLp src dst n] else []

/-- **Specification.**  What a transaction on the chain means for the pair: a deposit of exactly the declared amounts, a
withdrawal of the LP coins that were attached, a trade of exactly the offered amount paid by the account whose coins or
tokens moved, a change of settings by the sender of the message, or plain transfers. -/
def meaning (c : Cfg A) : Tx A → List (TOp A)
  | .call e x _ (.provide assets tol minLp r) =>
    [.provide e.now x (declared assets (c.infos false)) (declared assets (c.infos true)) tol minLp (r.getD x)]
  | .call e x _ (.swap offer b m r) =>
    match label c offer.info with
    | some i => [.swap e.now x i offer.amount b m (r.getD x) (fees e)]
    | none => []
  | .call e x funds (.withdraw _ mins) =>
    [.withdraw e.now x (sent funds c.lp) (mins.map fun l => l.map fun a => (decide (a.1 = c.infos true), a.2))]
  | .call e x funds (.updateConfig taxes admin) =>
    (funds.flatMap fun a => transferOps c (.native a.denom) x c.me a.amount) ++ [.config ⟨e.owner, x, taxes, admin⟩]
  | .call _ _ _ (.receive ..) => []
  | .send e t owner spender n b m r =>
    match label c (.token (c.addr t)) with
    | some i => [.swap e.now owner i n b m (r.getD spender) (fees e)]
    | none => []
  | .transfer k src dst n => transferOps c k src dst n
  | .transferFrom t owner _ dst n => transferOps c (.token t) owner dst n
  | .approve .. => []

/-! ## Lemmas -/

theorem toInfo_inj {k l : Asset.Info} (h : toInfo k = toInfo l) : k = l := by
  have hs : ∀ {a b : Str}, String.ofList a = String.ofList b → a = b := by
    intro a b e
    have := congrArg String.toList e
    simpa using this
  cases k <;> cases l <;> simp only [toInfo, SaleTax.Info.native.injEq, SaleTax.Info.token.injEq, reduceCtorEq] at h
  · rw [hs h]
  · rw [hs h]

theorem str_toInfo (k : Asset.Info) : (toInfo k).str = String.ofList (nameOf k) := by cases k <;> rfl

/-- Two transfers at the level of the pair. -/
theorem transfer_meaning {denomOk : String → Bool} {c : Cfg A} (hc : c.Ok) {w w' : State A} {k : Asset.Info} {src dst : A}
    {n : Nat} (hs : src ≠ c.me) (m : Moved w.chain k src (some dst) n w'.chain) (hcfg : w'.cfg = w.cfg) :
    (transferOps c k src dst n).foldlM (texec denomOk (infosOf c) c.me) (view c w) = .ok (view c w') := by
  have h := XYK.Entry.transfer_meaning hc hs m
  unfold XYK.Entry.transferOps at h
  unfold transferOps
  split at h
  · rename_i i hi
    rw [hi]
    simp only [List.foldlM_cons, List.foldlM_nil, bind_ok_iff, pure_eq_ok, Except.ok.injEq, exists_eq_right] at h ⊢
    unfold XYK.exec at h
    unfold texec
    simp only [bind_ok_iff, Except.ok.injEq] at h ⊢
    obtain ⟨⟨⟩, _, l, hl, he⟩ := h
    refine ⟨(), (require_ok _ _ _).2 hs, l, hl, ?_⟩
    unfold view
    rw [hcfg, ← he]
  · rename_i hi
    rw [hi]
    split_ifs at h ⊢ with hk
    · skip
      simp only [List.foldlM_cons, List.foldlM_nil, bind_ok_iff, pure_eq_ok, Except.ok.injEq, exists_eq_right] at h ⊢
      unfold XYK.exec at h
      unfold texec
      simp only [bind_ok_iff, Except.ok.injEq] at h ⊢
      obtain ⟨⟨⟩, _, l, hl, he⟩ := h
      refine ⟨(), (require_ok _ _ _).2 hs, l, hl, ?_⟩
      unfold view
      rw [hcfg, ← he]
    · skip
      simp only [List.foldlM_nil, pure_eq_ok, Except.ok.injEq] at h ⊢
      unfold view
      rw [hcfg, ← h]

theorem attach_meaning {denomOk : String → Bool} {c : Cfg A} (hc : c.Ok) {x : A} (hs : x ≠ c.me)
    {cfg : SaleTax.Config A} : ∀ {funds : List Coin} {w w' : Chain A}, attach w x c.me funds = .ok w' →
    (funds.flatMap fun a => transferOps c (.native a.denom) x c.me a.amount).foldlM (texec denomOk (infosOf c) c.me)
      (view c ⟨w, cfg⟩) = .ok (view c ⟨w', cfg⟩)
  | [], w, w', h => by
    simp only [attach, Except.ok.injEq] at h
    subst h
    rfl
  | a :: as, w, w', h => by
    simp only [attach, bind_ok_iff] at h
    obtain ⟨w1, h1, h2⟩ := h
    rw [List.flatMap_cons]
    exact XYK.Entry.foldlM_append_ok
      (transfer_meaning (w := ⟨w, cfg⟩) (w' := ⟨w1, cfg⟩) hc hs (move_moved h1) rfl) (attach_meaning hc hs h2)

theorem Moved.same {w w' : Chain A} {k : Asset.Info} {src : A} {dst : Option A} {n : Nat} (m : Moved w k src dst n w')
    (h : dst = none ∨ n = 0) (j : Asset.Info) : w'.of j = w.of j := by
  by_cases hj : j = k
  · subst hj
    have := m.move
    rcases h with rfl | rfl
    · simpa [sendOpt, eq_comm] using this
    · cases dst with
      | none => simpa [sendOpt, eq_comm] using this
      | some a =>
        simp only [sendOpt, XYK.Entry.move_zero, Except.ok.injEq] at this
        exact this.symm
  · exact m.other j hj

/-- The bank coins of the tax are coins of one of the two pool assets. -/
theorem tax_meaning {c : Cfg A} (hc : c.Ok) {cfg : SaleTax.Config A} (hg : GoodTaxes (infosOf c) cfg.taxes) {i : Bool}
    {w w' : Chain A} {n : Nat} {tc : Option (Nat × A)} (htc : tc = getTax cfg.taxes (infosOf c i).str)
    (m : Moved w (.native (nameOf (c.infos i))) c.me (tc.map (·.2)) n w') :
    sendTax (infosOf c) c.me (fun j => w.of (c.infos j)) i n tc = .ok (fun j => w'.of (c.infos j)) := by
  cases tc with
  | none =>
    simp only [sendTax, Except.ok.injEq]
    funext j
    exact (Moved.same m (Or.inl rfl) _).symm
  | some p =>
    obtain ⟨rate, a⟩ := p
    by_cases hn : n = 0
    · simp only [sendTax, hn, ne_eq, not_true_eq_false, if_false, Except.ok.injEq]
      funext j
      exact (Moved.same m (Or.inr hn) _).symm
    · simp only [sendTax, ne_eq, hn, not_false_eq_true, if_true]
      obtain ⟨_, j, hj⟩ := getTax_good hg htc.symm
      obtain ⟨k, hk, hkk⟩ : ∃ k, taxedAsset (infosOf c) i = .ok k ∧ c.infos k = .native (nameOf (c.infos i)) := by
        have conv : ∀ k, infosOf c k = .native (infosOf c i).str → c.infos k = .native (nameOf (c.infos i)) := by
          intro k hk
          refine toInfo_inj ?_
          rw [show toInfo (c.infos k) = infosOf c k from rfl, hk]
          rw [show (infosOf c i).str = (toInfo (c.infos i)).str from rfl, str_toInfo]
          rfl
        unfold taxedAsset
        by_cases h1 : infosOf c i = .native (infosOf c i).str
        · exact ⟨i, by rw [if_pos h1], conv i h1⟩
        · have hne : ∀ a b : Bool, a ≠ b → a = !b := by decide
          have hji : j = !i := hne j i (by rintro rfl; exact h1 hj)
          rw [if_neg h1, ← hji, if_pos hj]
          exact ⟨j, rfl, conv j hj⟩
      rw [hk]
      have hm := m.move
      simp only [Option.map_some, sendOpt, ← hkk] at hm
      rw [ok_bind, hm, ok_bind, Except.ok.injEq]
      funext l
      by_cases hl : l = k
      · rw [if_pos hl, hl]
      · rw [if_neg hl]
        exact (m.other _ fun e => hl (infos_inj hc (e.trans hkk.symm))).symm

/-- A trade on coins or tokens that have just arrived. -/
theorem swap_meaning {c : Cfg A} (hc : c.Ok) {e : Env A} {cfg : SaleTax.Config A} (hgt : GoodTaxes (infosOf c) cfg.taxes)
    {w w1 w' : Chain A} {funds : List Coin} {payer sender : A}
    {offer : Asset.Asset} {belief maxSpread : Option Nat} {dest : Option A} {out : SaleTax.Out}
    (hin : Moved w offer.info payer (some c.me) offer.amount w1)
    (h : swapMsg c e cfg w1 funds sender offer belief maxSpread dest = .ok (w', out)) :
    ∃ i, label c offer.info = some i ∧
      SaleTax.swap (infosOf c) cfg c.me (XYK.Entry.view c w) e.now payer i offer.amount belief maxSpread (dest.getD sender)
        (fees e) = .ok (XYK.Entry.view c w', out) := by
  unfold swapMsg at h
  simp only [bind_ok_iff, Except.ok.injEq, Prod.mk.injEq] at h
  obtain ⟨_, _, p0, h0, p1, h1, i, hi, r, hr, g, hg, ⟨⟩, hms, tO, hO, tA, hA, tw, htw, w2, g2, w3, g3, w4, g4, rfl, rfl⟩ := h
  have hk : offer.info = c.infos i := by
    split_ifs at hi <;> simp_all
  have hm := hin.move
  rw [hk] at hm hin
  simp only [sendOpt] at hm
  have hother : ∀ j, j ≠ i → w1.of (c.infos j) = w.of (c.infos j) := fun j hj =>
    hin.other _ fun e => hj (infos_inj hc e)
  refine ⟨i, by rw [hk]; exact label_infos hc i, ?_⟩
  have hname : String.ofList (nameOf offer.info) = (infosOf c i).str := by
    rw [hk]
    exact (str_toInfo _).symm
  rw [hname] at hr g3
  have hnk : nameOf offer.info = nameOf (c.infos i) := by rw [hk]
  rw [hnk] at g3
  generalize htc : getTax cfg.taxes (infosOf c i).str = tc at hr g3
  have m2 := payNonzero_moved g2
  have m3 := payNonzero_moved g3
  have m4 := payNonzero_moved g4
  have rr := (m2.rest.trans m3.rest).trans m4.rest
  have hne : c.infos i ≠ c.infos (!i) := by
    intro e
    have := infos_inj hc e
    cases i <;> simp at this
  -- the pools
  have hpo : csub (w1.of (c.infos i) c.me) offer.amount = .ok (if i then p1 else p0) := by
    cases i
    · rw [if_pos hk.symm] at h0
      exact h0
    · rw [if_pos hk.symm] at h1
      exact h1
  have hpa : w.of (c.infos (!i)) c.me = if i then p0 else p1 := by
    rw [← hother (!i) (by cases i <;> simp)]
    cases i
    · rw [if_neg (by rw [hk]; exact hc.ne.symm), Except.ok.injEq] at h1
      exact h1
    · rw [if_neg (by rw [hk]; exact hc.ne), Except.ok.injEq] at h0
      exact h0
  have ho1 : ∀ k, Chain.of { w1 with twap := tw, tracked := fun j => if j = i then tO else tA } k = w1.of k := by
    intro k
    cases k <;> rfl
  have ht := tax_meaning hc hgt htc.symm m3
  have e2 : (fun j => w2.of (c.infos j)) = fun j => if j = i then w1.of (c.infos i) else w2.of (c.infos (!i)) := by
    funext j
    by_cases hj : j = i
    · rw [if_pos hj, hj, m2.other _ hne, ho1]
    · rw [if_neg hj]
      have : j = !i := by cases i <;> cases j <;> simp_all
      rw [this]
  rw [e2] at ht
  unfold SaleTax.swap
  simp only [bind_ok_iff, Except.ok.injEq, Prod.mk.injEq]
  have ea : (XYK.Entry.view c w).bal (!i) = w.of (c.infos (!i)) := rfl
  refine ⟨_, hm, _, hpo, r, ?_, g, hg, (), hms, w2.of (c.infos (!i)), ?_,
    (fun j => w3.of (c.infos j)), ?_, w4.of (c.infos (!i)), ?_, tO, hO, tA, ?_, tw, ?_, ?_, rfl⟩
  · rw [ea, hpa, htc]
    exact hr
  · rw [ea, ← hother (!i) (by cases i <;> simp)]
    have := m2.move
    rw [ho1] at this
    exact this
  · rw [htc]
    exact ht
  · exact m4.move
  · rw [ea, hpa]
    exact hA
  · rw [ea, hpa]
    have e0 : (if i then (if i then p0 else p1) else (if i then p1 else p0)) = p0 := by cases i <;> rfl
    have e1 : (if i then (if i then p1 else p0) else (if i then p0 else p1)) = p1 := by cases i <;> rfl
    rw [e0, e1]
    have := hin.rest.twap
    show accumulate w.twap e.now p0 p1 = .ok tw
    rw [← this]
    exact htw
  · have hlp : w4.bank c.lp = w.bank c.lp := by
      refine (m4.other (.native c.lp) (hc.lp _).symm).trans (Eq.trans ?_ ((m2.other (.native c.lp) (hc.lp _).symm).trans
        (hin.other (.native c.lp) (hc.lp _).symm)))
      show w3.of (.native c.lp) = w2.of (.native c.lp)
      cases htc' : tc with
      | none =>
        rw [htc'] at m3
        exact Moved.same m3 (Or.inl rfl) _
      | some p =>
        refine m3.other _ ?_
        intro e
        obtain ⟨rate, a⟩ := p
        obtain ⟨_, j, hj⟩ := getTax_good hgt (htc.trans htc')
        have hj' : c.infos j = .native (nameOf (c.infos i)) := by
          refine toInfo_inj ?_
          rw [show toInfo (c.infos j) = infosOf c j from rfl, hj]
          rw [show (infosOf c i).str = (toInfo (c.infos i)).str from rfl, str_toInfo]
          rfl
        exact hc.lp j (hj'.trans e.symm)
    unfold XYK.Entry.view
    simp only
    rw [hlp, rr.supply, rr.twap, rr.tracked]
    have hsup : w1.supply = w.supply := hin.rest.supply
    simp only [hsup]
    congr 1
    funext j
    by_cases hj : j = i
    · rw [if_pos hj, hj]
      exact (m4.other _ hne).symm
    · rw [if_neg hj]
      have : j = !i := by cases i <;> cases j <;> simp_all
      rw [this]

/-! ## C173 -/

/-- **C173.**  Whatever accounts send to a pair with sale tax (any message, any attached coins, cw20 tokens sent by their
owners or by approved spenders), a transaction that succeeds is, for the pair, exactly the deposit, withdrawal, trade,
change of settings or transfers that `meaning` names, and the tax is paid from the pool's own coins of the taxed asset.
No assumption on the names of the assets is needed. -/
theorem C173_messages_are_pair_transactions (denomOk : String → Bool) (c : Cfg A) (hc : c.Ok) (w w' : State A) (t : Tx A)
    (hg : GoodTaxes (infosOf c) w.cfg.taxes) (h : exec denomOk c w t = .ok w') :
    (meaning c t).foldlM (texec denomOk (infosOf c) c.me) (view c w) = .ok (view c w') := by
  cases t with
  | call e x funds m =>
    simp only [exec, bind_ok_iff, require_ok, exists_const] at h
    obtain ⟨⟨hs, ht0, ht1⟩, hf, w1, ha, h⟩ := h
    cases m with
    | receive u n b m r =>
      simp only [execute, bind_ok_iff, require_ok, exists_const] at h
      exact absurd h.1 (by simp [ht0, ht1])
    | provide assets tol minLp r =>
      simp only [execute, bind_ok_iff, Except.ok.injEq] at h
      obtain ⟨⟨w2, sh⟩, h, rfl⟩ := h
      simp only [meaning, List.foldlM_cons, List.foldlM_nil, bind_ok_iff, pure_eq_ok, Except.ok.injEq, exists_eq_right]
      unfold texec
      simp only [bind_ok_iff, Except.ok.injEq]
      exact ⟨(), (require_ok _ _ _).2 hs, (_, sh), XYK.Entry.provide_meaning hc hs hf ha h, rfl⟩
    | swap offer b m r =>
      simp only [execute, bind_ok_iff, require_ok, exists_const, Except.ok.injEq] at h
      obtain ⟨_, _, hn, ⟨w2, out⟩, h, rfl⟩ := h
      have hm : Moved w.chain offer.info x (some c.me) offer.amount w1 := by
        have hsent : assertSent offer funds = .ok () := by
          unfold swapMsg at h
          simp only [bind_ok_iff] at h
          exact h.choose_spec.1
        obtain ⟨k, n⟩ := offer
        cases k with
        | token t => simp [isNative] at hn
        | native d =>
          obtain ⟨rfl, _⟩ := (Asset.C67_single_coin d n funds).1 hsent
          simp only [attach, bind_ok_iff, Except.ok.injEq, exists_eq_right] at ha
          exact move_moved ha
      obtain ⟨i, hi, hsw⟩ := swap_meaning hc hg hm h
      simp only [meaning, hi, List.foldlM_cons, List.foldlM_nil, bind_ok_iff, pure_eq_ok, Except.ok.injEq, exists_eq_right]
      unfold texec
      simp only [bind_ok_iff, Except.ok.injEq]
      exact ⟨(), (require_ok _ _ _).2 hs, (_, out), hsw, rfl⟩
    | withdraw assets mins =>
      simp only [execute, bind_ok_iff, Except.ok.injEq] at h
      obtain ⟨⟨w2, rs⟩, h, rfl⟩ := h
      simp only [meaning, List.foldlM_cons, List.foldlM_nil, bind_ok_iff, pure_eq_ok, Except.ok.injEq, exists_eq_right]
      unfold texec
      simp only [bind_ok_iff, Except.ok.injEq]
      exact ⟨(), (require_ok _ _ _).2 hs, (_, rs), XYK.Entry.withdraw_meaning hc hs ha h, rfl⟩
    | updateConfig taxes admin =>
      simp only [execute, bind_ok_iff, Except.ok.injEq] at h
      obtain ⟨cfg, hcf, rfl⟩ := h
      simp only [meaning]
      refine XYK.Entry.foldlM_append_ok (attach_meaning (cfg := w.cfg) hc hs ha) ?_
      simp only [List.foldlM_cons, List.foldlM_nil, bind_ok_iff, pure_eq_ok, Except.ok.injEq, exists_eq_right]
      unfold texec
      simp only [bind_ok_iff, Except.ok.injEq]
      exact ⟨(), (require_ok _ _ _).2 hs, cfg, hcf, rfl⟩
  | send e token owner spender n b m r =>
    simp only [exec, execute, bind_ok_iff, require_ok, exists_const, Except.ok.injEq] at h
    obtain ⟨⟨hs, _⟩, w1, hin, _, ⟨w2, out⟩, h, rfl⟩ := h
    have hm : Moved w.chain (.token (c.addr token)) owner (some c.me) n w1 := by
      split_ifs at hin with ho
      · exact move_moved hin
      · exact transferFrom_moved hin
    obtain ⟨i, hi, hsw⟩ := swap_meaning (offer := ⟨.token (c.addr token), n⟩) hc hg hm h
    simp only at hi hsw
    simp only [meaning, hi, List.foldlM_cons, List.foldlM_nil, bind_ok_iff, pure_eq_ok, Except.ok.injEq, exists_eq_right]
    unfold texec
    simp only [bind_ok_iff, Except.ok.injEq]
    exact ⟨(), (require_ok _ _ _).2 hs, (_, out), hsw, rfl⟩
  | transfer k src dst n =>
    simp only [exec, bind_ok_iff, require_ok, exists_const, Except.ok.injEq] at h
    obtain ⟨hs, v, hv, rfl⟩ := h
    exact transfer_meaning (w' := { w with chain := v }) hc hs (move_moved hv) rfl
  | transferFrom token owner spender dst n =>
    simp only [exec, bind_ok_iff, require_ok, exists_const, Except.ok.injEq] at h
    obtain ⟨hs, v, hv, rfl⟩ := h
    exact transfer_meaning (w' := { w with chain := v }) hc hs.1 (transferFrom_moved hv) rfl
  | approve token owner spender n =>
    simp only [exec, bind_ok_iff, require_ok, exists_const, Except.ok.injEq] at h
    obtain ⟨_, rfl⟩ := h
    simp only [meaning, List.foldlM_nil, pure_eq_ok, Except.ok.injEq]
    rfl

theorem execute_cfg {denomOk : String → Bool} {c : Cfg A} {e : Env A} {w w' : State A} {x : A} {funds : List Coin}
    {m : Msg A} (h : execute denomOk c e w x funds m = .ok w') :
    w'.cfg = w.cfg ∨ ∃ taxes admin, m = .updateConfig taxes admin ∧
      updateConfig denomOk (infosOf c) w.cfg e.owner x taxes admin = .ok w'.cfg := by
  cases m with
  | receive u n b m r =>
    simp only [execute, bind_ok_iff, Except.ok.injEq] at h
    obtain ⟨_, _, _, _, rfl⟩ := h
    exact Or.inl rfl
  | provide assets tol minLp r =>
    simp only [execute, bind_ok_iff, Except.ok.injEq] at h
    obtain ⟨_, _, rfl⟩ := h
    exact Or.inl rfl
  | swap offer b m r =>
    simp only [execute, bind_ok_iff, Except.ok.injEq] at h
    obtain ⟨_, _, _, _, _, _, rfl⟩ := h
    exact Or.inl rfl
  | withdraw assets mins =>
    simp only [execute, bind_ok_iff, Except.ok.injEq] at h
    obtain ⟨_, _, rfl⟩ := h
    exact Or.inl rfl
  | updateConfig taxes admin =>
    simp only [execute, bind_ok_iff, Except.ok.injEq] at h
    obtain ⟨cfg, hcf, rfl⟩ := h
    exact Or.inr ⟨taxes, admin, rfl, hcf⟩

theorem exec_cfg {denomOk : String → Bool} {c : Cfg A} {w w' : State A} {t : Tx A} (h : exec denomOk c w t = .ok w') :
    w'.cfg = w.cfg ∨ ∃ e x funds taxes admin, t = .call e x funds (.updateConfig taxes admin) ∧
      updateConfig denomOk (infosOf c) w.cfg e.owner x taxes admin = .ok w'.cfg := by
  cases t with
  | call e x funds m =>
    simp only [exec, bind_ok_iff] at h
    obtain ⟨_, _, _, _, v, _, h⟩ := h
    rcases execute_cfg h with h | ⟨taxes, admin, rfl, hu⟩
    · exact Or.inl h
    · exact Or.inr ⟨e, x, funds, taxes, admin, rfl, hu⟩
  | send e token owner spender n b m r =>
    simp only [exec, bind_ok_iff] at h
    obtain ⟨_, _, v, _, h⟩ := h
    rcases execute_cfg h with h | ⟨taxes, admin, hm, _⟩
    · exact Or.inl h
    · cases hm
  | transfer k src dst n =>
    simp only [exec, bind_ok_iff, Except.ok.injEq] at h
    obtain ⟨_, _, _, _, rfl⟩ := h
    exact Or.inl rfl
  | transferFrom token owner spender dst n =>
    simp only [exec, bind_ok_iff, Except.ok.injEq] at h
    obtain ⟨_, _, _, _, rfl⟩ := h
    exact Or.inl rfl
  | approve token owner spender n =>
    simp only [exec, bind_ok_iff, Except.ok.injEq] at h
    obtain ⟨_, _, rfl⟩ := h
    exact Or.inl rfl

theorem exec_good {denomOk : String → Bool} {c : Cfg A} {w w' : State A} {t : Tx A} (h : exec denomOk c w t = .ok w')
    (hg : GoodTaxes (infosOf c) w.cfg.taxes) : GoodTaxes (infosOf c) w'.cfg.taxes := by
  rcases exec_cfg h with h | ⟨e, x, funds, taxes, admin, _, h⟩
  · rw [h]; exact hg
  · exact updateConfig_good hg h

theorem run_foldlM {denomOk : String → Bool} {infos : Bool → SaleTax.Info} {me : A} : ∀ {os : List (TOp A)} {s s' : World A},
    os.foldlM (texec denomOk infos me) s = .ok s' → trun denomOk infos me s os = s'
  | [], s, s', h => by
    simp only [List.foldlM_nil, pure_eq_ok, Except.ok.injEq] at h
    exact h
  | o :: os, s, s', h => by
    simp only [List.foldlM_cons, bind_ok_iff] at h
    obtain ⟨s1, h1, h2⟩ := h
    show trun denomOk infos me (tstep denomOk infos me s o) os = s'
    have : tstep denomOk infos me s o = s1 := by unfold tstep; rw [h1]; rfl
    rw [this]
    exact run_foldlM h2

/-- **C173.**  Every history of messages is, for the pair, a history of its own transactions, and in every history each
configured tax is at most one half and concerns a native asset of the pair. -/
theorem C173_histories_are_pair_histories (denomOk : String → Bool) (c : Cfg A) (hc : c.Ok) (w : State A)
    (hg : GoodTaxes (infosOf c) w.cfg.taxes) (ts : List (Tx A)) :
    GoodTaxes (infosOf c) (run denomOk c w ts).cfg.taxes ∧
    ∃ os, view c (run denomOk c w ts) = trun denomOk (infosOf c) c.me (view c w) os := by
  induction ts generalizing w with
  | nil => exact ⟨hg, [], rfl⟩
  | cons t ts ih =>
    show GoodTaxes _ (run denomOk c (step denomOk c w t) ts).cfg.taxes ∧
      ∃ os, view c (run denomOk c (step denomOk c w t) ts) = _
    cases hx : exec denomOk c w t with
    | error e =>
      have : step denomOk c w t = w := by unfold step; rw [hx]; rfl
      rw [this]
      exact ih w hg
    | ok w' =>
      have : step denomOk c w t = w' := by unfold step; rw [hx]; rfl
      rw [this]
      obtain ⟨h1, os, ho⟩ := ih w' (exec_good hx hg)
      refine ⟨h1, meaning c t ++ os, ?_⟩
      rw [ho]
      unfold trun
      rw [List.foldl_append]
      have := run_foldlM (C173_messages_are_pair_transactions denomOk c hc w w' t hg hx)
      unfold trun at this
      rw [this]

/-- **C173.**  Nobody but the pool's own token contracts can announce tokens to the pair. -/
theorem C173_spoofed_tokens_refused (denomOk : String → Bool) (c : Cfg A) (e : Env A) (w : State A) (x : A)
    (funds : List Coin) (u : A) (n : Nat) (b m : Option Nat) (r : Option A) (hx : ∀ i, c.infos i ≠ .token (c.addr x)) :
    execute denomOk c e w x funds (.receive u n b m r) = .error .unauthorized := by
  simp [execute, require, hx false, hx true]

/-- **C173.**  The taxes and the account that may set them change only by a message of that account, to what the message
says. -/
theorem C173_taxes_by_admin (denomOk : String → Bool) (c : Cfg A) (w w' : State A) (t : Tx A)
    (h : exec denomOk c w t = .ok w') (hne : w'.cfg ≠ w.cfg) :
    ∃ e funds taxes admin, t = .call e w.cfg.admin funds (.updateConfig taxes admin) ∧
      w'.cfg.taxes = taxes.getD w.cfg.taxes ∧ w'.cfg.admin = admin.getD w.cfg.admin := by
  rcases exec_cfg h with hs | ⟨e, x, funds, taxes, admin, rfl, hu⟩
  · exact absurd hs hne
  · have h1 := (C18_config_admin_only denomOk (infosOf c) w.cfg ⟨e.owner, x, taxes, admin⟩).1
    have h2 := (C18_config_admin_only denomOk (infosOf c) w.cfg ⟨e.owner, x, taxes, admin⟩).2 _ hu
    have hx : x = w.cfg.admin := h1 (by
      unfold cfgStep
      simp only
      rw [hu]
      exact hne)
    subst hx
    exact ⟨e, funds, taxes, admin, rfl, h2⟩

/-! ### What a taxed trade moves -/

/-- **C173.**  A trade with `n` coins of denom `d`: the trader pays `n`; if `d` is taxed, the recipient of the tax gets
`n * rate` rounded down and the pair keeps the rest; nobody else's balance of these coins changes. -/
theorem C173_coins_taxed (denomOk : String → Bool) (c : Cfg A) (hc : c.Ok) (w w' : State A) (e : Env A) (x : A)
    (funds : List Coin) (d : Str) (n : Nat) (b m : Option Nat) (r : Option A)
    (h : exec denomOk c w (.call e x funds (.swap ⟨.native d, n⟩ b m r)) = .ok w') :
    match getTax w.cfg.taxes (String.ofList d) with
    | none => ∀ y, w'.chain.bank d y + (if y = x then n else 0) = w.chain.bank d y + (if y = c.me then n else 0)
    | some (rate, a) => n * rate / 10 ^ 18 ≤ n ∧
      ∀ y, w'.chain.bank d y + (if y = x then n else 0) =
        w.chain.bank d y + (if y = a then n * rate / 10 ^ 18 else 0) + (if y = c.me then n - n * rate / 10 ^ 18 else 0) := by
  simp only [exec, execute, bind_ok_iff, require_ok, exists_const, Except.ok.injEq] at h
  obtain ⟨⟨hs, _⟩, _, v, ha, _, _, _, ⟨w2, out⟩, h, rfl⟩ := h
  unfold swapMsg at h
  simp only [bind_ok_iff, Except.ok.injEq, Prod.mk.injEq] at h
  obtain ⟨_, hsent, p0, h0, p1, h1, i, hi, q, hq, g, hg, ⟨⟩, hms, tO, hO, tA, hA, tw, htw, v2, g2, v3, g3, v4, g4, rfl, rfl⟩ := h
  obtain ⟨rfl, _⟩ := (Asset.C67_single_coin d n funds).1 hsent
  simp only [attach, bind_ok_iff, Except.ok.injEq, exists_eq_right] at ha
  have hk : Asset.Info.native d = c.infos i := by
    split_ifs at hi <;> simp_all
  have hne : Asset.Info.native d ≠ c.infos (!i) := by
    rw [hk]
    intro e
    have := infos_inj hc e
    cases i <;> simp at this
  have m1 := move_moved ha
  have m2 := payNonzero_moved g2
  have m3 := payNonzero_moved g3
  have m4 := payNonzero_moved g4
  have e2 : v2.bank d = v.bank d := m2.other (.native d) hne
  have e4 : v4.bank d = v3.bank d := m4.other (.native d) hne
  have a1 := m1.move
  simp only [sendOpt] at a1
  have b1 : ∀ y, v.bank d y = (if y = x then w.chain.bank d y - n else w.chain.bank d y) + (if y = c.me then n else 0) := by
    intro y
    have := move_apply a1 y
    by_cases hy : y = x
    · have hym : y ≠ c.me := fun e => hs (hy.symm.trans e)
      simp only [if_pos hy, if_neg hym] at this ⊢
      exact this
    · simp only [if_neg hy] at this ⊢
      exact this
  have hle : n ≤ w.chain.bank d x := move_le a1
  have a3 := m3.move
  simp only [nameOf] at a3 hq
  change sendOpt (v2.bank d) c.me _ _ = .ok (v3.bank d) at a3
  rw [e2] at a3
  unfold computeSwapTax at hq
  simp only [bind_ok_iff, Except.ok.injEq, Prod.exists] at hq
  obtain ⟨net, tax, hded, q', _, rfl⟩ := hq
  simp only at a3
  cases htc : getTax w.cfg.taxes (String.ofList d) with
  | none =>
    simp only
    rw [htc] at a3
    simp only [Option.map_none, sendOpt, Except.ok.injEq] at a3
    intro y
    show v4.bank d y + _ = _
    rw [e4, ← a3, b1 y]
    by_cases hy : y = x
    · rw [hy, if_pos rfl, if_pos rfl, if_neg hs]
      omega
    · simp only [if_neg hy]
      omega
  | some p =>
    obtain ⟨rate, a⟩ := p
    simp only
    rw [htc] at a3 hded
    simp only [Option.map_some, sendOpt] at a3
    simp only [deduct, bind_ok_iff, csub_ok, Except.ok.injEq, Prod.mk.injEq] at hded
    obtain ⟨_, ⟨htle, rfl⟩, rfl, rfl⟩ := hded
    have hmul : mulDec n rate = n * rate / 10 ^ 18 := rfl
    rw [hmul] at a3 htle
    refine ⟨htle, fun y => ?_⟩
    show v4.bank d y + _ = _
    have h3 := move_apply a3 y
    have hle3 := move_le a3
    rw [e4]
    have bm := b1 c.me
    rw [if_neg (Ne.symm hs), if_pos rfl] at bm
    have by' := b1 y
    generalize n * rate / 10 ^ 18 = tx at *
    by_cases hy : y = x
    · have hym : y ≠ c.me := fun e => hs (hy.symm.trans e)
      rw [hy] at by' h3 ⊢
      rw [hy] at hym
      simp only [if_neg hym, if_true] at h3 by' ⊢
      by_cases hxa : x = a
      · simp only [if_pos hxa] at h3 ⊢
        omega
      · simp only [if_neg hxa] at h3 ⊢
        omega
    · by_cases hym : y = c.me
      · rw [hym] at by' h3 ⊢
        simp only [if_neg (Ne.symm hs), if_true] at h3 by' ⊢
        by_cases hya : c.me = a
        · simp only [if_pos hya] at h3 ⊢
          omega
        · simp only [if_neg hya] at h3 ⊢
          omega
      · simp only [if_neg hy, if_neg hym] at h3 by' ⊢
        by_cases hya : y = a
        · simp only [if_pos hya] at h3 ⊢
          omega
        · simp only [if_neg hya] at h3 ⊢
          omega

/-! ### Whose funds are spent -/

/-- The account that pays: the sender of a message, the owner of the tokens. -/
def Tx.payer : Tx A → A
  | .call _ x _ _ | .send _ _ x _ _ _ _ _ | .transfer _ x _ _ | .transferFrom _ x _ _ _ | .approve _ x _ _ => x

theorem swap_mono {c : Cfg A} {e : Env A} {cfg : SaleTax.Config A} {w w' : Chain A} {funds : List Coin} {sender a : A}
    {offer : Asset.Asset} {belief maxSpread : Option Nat} {dest : Option A} {out : SaleTax.Out} (ha : a ≠ c.me)
    (h : swapMsg c e cfg w funds sender offer belief maxSpread dest = .ok (w', out)) (j : Asset.Info) :
    w.of j a ≤ w'.of j a := by
  unfold swapMsg at h
  simp only [bind_ok_iff, Except.ok.injEq, Prod.mk.injEq] at h
  obtain ⟨_, _, p0, h0, p1, h1, i, hi, r, hr, g, hg, _, hms, tO, hO, tA, hA, tw, htw, w2, g2, w3, g3, w4, g4, rfl, rfl⟩ := h
  have m2 := (payNonzero_moved g2).mono ha j
  have m3 := (payNonzero_moved g3).mono ha j
  have m4 := (payNonzero_moved g4).mono ha j
  refine Nat.le_trans (Nat.le_trans (Nat.le_trans (Nat.le_of_eq ?_) m2) m3) m4
  cases j <;> rfl

theorem execute_mono {denomOk : String → Bool} {c : Cfg A} {e : Env A} {w w' : State A} {x a : A} {funds : List Coin}
    {m : Msg A} (ha : a ≠ c.me) (hx : a ≠ x) (h : execute denomOk c e w x funds m = .ok w') (j : Asset.Info) :
    w.chain.of j a ≤ w'.chain.of j a := by
  cases m with
  | receive u n b m r =>
    simp only [execute, bind_ok_iff, Except.ok.injEq] at h
    obtain ⟨_, _, ⟨w2, out⟩, h, rfl⟩ := h
    exact swap_mono ha h j
  | swap offer b m r =>
    simp only [execute, bind_ok_iff, Except.ok.injEq] at h
    obtain ⟨_, _, _, _, ⟨w2, out⟩, h, rfl⟩ := h
    exact swap_mono ha h j
  | provide assets tol minLp r =>
    simp only [execute, bind_ok_iff, Except.ok.injEq] at h
    obtain ⟨⟨w2, sh⟩, h, rfl⟩ := h
    refine XYK.Entry.execute_mono (c := c) (e := e) (x := x) (funds := funds) (m := .provide assets tol none r) ha hx ?_ j
    simp only [XYK.Entry.execute]
    rw [h]
    rfl
  | withdraw assets mins =>
    simp only [execute, bind_ok_iff, Except.ok.injEq] at h
    obtain ⟨⟨w2, rs⟩, h, rfl⟩ := h
    refine XYK.Entry.execute_mono (c := c) (e := e) (x := x) (funds := funds) (m := .withdraw assets none) ha hx ?_ j
    simp only [XYK.Entry.execute]
    rw [h]
    rfl
  | updateConfig taxes admin =>
    simp only [execute, bind_ok_iff, Except.ok.injEq] at h
    obtain ⟨cfg, _, rfl⟩ := h
    exact le_refl _

/-- **C173.**  No message makes anybody's balance of anything (coins, tokens, LP tokens) smaller but the sender's own, or
the balance of the token owner who approved the transfer. -/
theorem C173_only_the_payer_pays (denomOk : String → Bool) (c : Cfg A) (w w' : State A) (t : Tx A)
    (h : exec denomOk c w t = .ok w') (a : A) (ha : a ≠ c.me) (k : Asset.Info)
    (hlt : w'.chain.of k a < w.chain.of k a) : a = t.payer := by
  by_contra hp
  refine absurd hlt (Nat.not_lt.2 ?_)
  cases t with
  | call e x funds m =>
    simp only [exec, bind_ok_iff, require_ok, exists_const] at h
    obtain ⟨_, _, w1, h1, h2⟩ := h
    exact Nat.le_trans (XYK.Entry.attach_mono h1 hp k) (execute_mono ha hp h2 k)
  | send e token owner spender n b m r =>
    simp only [exec, execute, bind_ok_iff, require_ok, exists_const, Except.ok.injEq] at h
    obtain ⟨_, w1, hin, _, ⟨w2, out⟩, h, rfl⟩ := h
    refine Nat.le_trans ?_ (swap_mono ha h k)
    split_ifs at hin with ho
    · exact (move_moved hin).mono hp k
    · exact (transferFrom_moved hin).mono hp k
  | transfer j src dst n =>
    simp only [exec, bind_ok_iff, require_ok, exists_const, Except.ok.injEq] at h
    obtain ⟨_, v, hv, rfl⟩ := h
    exact (move_moved hv).mono hp k
  | transferFrom token owner spender dst n =>
    simp only [exec, bind_ok_iff, require_ok, exists_const, Except.ok.injEq] at h
    obtain ⟨_, v, hv, rfl⟩ := h
    exact (transferFrom_moved hv).mono hp k
  | approve token owner spender n =>
    simp only [exec, bind_ok_iff, require_ok, exists_const, Except.ok.injEq] at h
    obtain ⟨_, rfl⟩ := h
    refine Nat.le_of_eq ?_
    cases k <;> rfl

/-- **C173.**  On the chain: from the creation of the pair (no LP token exists yet) on, after any messages, what all
LP holders together can redeem is in the pair, and once there are LP tokens the first 1000 stay locked in it.  The names of
the two assets must differ (see `C18_same_name_violated`). -/
theorem C173_claims_covered_on_chain [Fintype A] (denomOk : String → Bool) (c : Cfg A) (hc : c.Ok)
    (hclash : NoClash (infosOf c)) (w : State A) (taxes : Taxes A) (admin : A)
    (hi : initConfig denomOk (infosOf c) taxes admin = .ok w.cfg) (h0 : w.chain.supply = 0)
    (h1 : ∀ a, w.chain.bank c.lp a = 0) (h2 : w.chain.twap = ⟨0, 0, 0⟩) (h3 : w.chain.tracked = fun _ => 0)
    (ts : List (Tx A)) :
    let w' := (run denomOk c w ts).chain
    w'.supply = ∑ a, w'.bank c.lp a ∧ (0 < w'.supply → 1000 ≤ w'.bank c.lp c.me) ∧
    ∀ c0 c1 : A → Nat, (∀ a, queryShare c.me (XYK.Entry.view c w') (w'.bank c.lp a) = .ok (c0 a, c1 a)) →
      (∑ a, c0 a) ≤ w'.of (c.infos false) c.me ∧ (∑ a, c1 a) ≤ w'.of (c.infos true) c.me := by
  intro w'
  have hv : view c w = start (fun i => w.chain.of (c.infos i)) w.cfg := by
    unfold view XYK.Entry.view start XYK.init
    simp only [h0, h2, h3]
    congr 2
    funext a
    exact h1 a
  obtain ⟨_, os, ho⟩ := C173_histories_are_pair_histories denomOk c hc w (initConfig_good hi) ts
  rw [hv] at ho
  have hl := C134_lp_tokens_backed denomOk (infosOf c) hclash c.me (fun i => w.chain.of (c.infos i)) taxes admin w.cfg hi os
  rw [← ho] at hl
  exact hl

/-! ## The theorems apply -/

/-- A pool of a coin and of token 9. -/
def demoCfg : Cfg Nat := XYK.Entry.demoCfg

theorem demo_ok : demoCfg.Ok := XYK.Entry.demo_ok

/-- The coin is taxed by 5 % for account 5; account 6 sets the taxes. -/
def demoState : State Nat := ⟨XYK.Entry.demoChain, ⟨[("uluna", 5 * 10 ^ 16, 5)], 6⟩⟩

/-- Deposit (the minimum is ignored), a taxed trade with coins, trades with tokens, a change of the tax by somebody else and
by the admin, a taxed trade, a withdrawal. -/
def demoTxs : List (Tx Nat) :=
  [.call (XYK.Entry.demoEnv 5) 1 [⟨"uluna".toList, 10 ^ 7⟩]
     (.provide [⟨.token "t9".toList, 4 * 10 ^ 7⟩, ⟨.native "uluna".toList, 10 ^ 7⟩] none (some (10 ^ 9)) none),
   .call (XYK.Entry.demoEnv 6) 2 [⟨"uluna".toList, 10 ^ 4⟩] (.swap ⟨.native "uluna".toList, 10 ^ 4⟩ none none none),
   .send (XYK.Entry.demoEnv 7) 9 3 3 (10 ^ 4) none none (some 4),
   .call (XYK.Entry.demoEnv 7) 7 [] (.updateConfig (some []) none),
   .call (XYK.Entry.demoEnv 7) 6 [] (.updateConfig (some [("uluna", 5 * 10 ^ 17, 4)]) (some 7)),
   .call (XYK.Entry.demoEnv 7) 5 [] (.receive 5 (10 ^ 4) none none none),
   .call (XYK.Entry.demoEnv 6) 2 [⟨"uluna".toList, 10 ^ 4⟩] (.swap ⟨.native "uluna".toList, 10 ^ 4⟩ none none none),
   .call (XYK.Entry.demoEnv 8) 1 [⟨"lp".toList, 10 ^ 6⟩] (.withdraw [] (some []))]

example : GoodTaxes (infosOf demoCfg) demoState.cfg.taxes ∧ NoClash (infosOf demoCfg) ∧
    initConfig (fun _ => true) (infosOf demoCfg) [("uluna", 5 * 10 ^ 16, 5)] 6 = .ok demoState.cfg := by
  refine ⟨?_, ⟨by decide +kernel, by decide +kernel⟩, by rfl⟩
  intro d r a h
  simp only [demoState, List.mem_singleton, Prod.mk.injEq] at h
  obtain ⟨rfl, rfl, rfl⟩ := h
  exact ⟨by decide, false, by decide +kernel⟩

example : (List.range 8).map (fun n => (exec (fun _ => true) demoCfg (run (fun _ => true) demoCfg demoState (demoTxs.take n))
    (demoTxs.getD n (.approve [] 1 0 0))).isOk) = [true, true, true, false, true, false, true, true] := by decide +kernel

example : let w := run (fun _ => true) demoCfg demoState demoTxs
    w.chain.bank "uluna".toList 5 = 500 ∧ w.chain.bank "uluna".toList 4 = 2497 + 5000 ∧
    w.chain.bank "uluna".toList 2 = 10 ^ 9 - 2 * 10 ^ 4 ∧ w.cfg.admin = 7 ∧ w.chain.supply = 19000000 := by decide +kernel

end Verif.SaleTax.Entry
