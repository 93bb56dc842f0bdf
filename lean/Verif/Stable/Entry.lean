import Verif.Stable.Ledgers
import Verif.Asset.Ledgers

/-!
# Messages to a stableswap pair (C162)

What `XYK/Entry.lean` does for the constant product pair, for the stableswap pair: any account may send any message with
any coins attached, token contracts call the pair when somebody sends them tokens, and the pair has to find out what
really arrived.

Assumed of the world outside: the bank moves attached coins before the pair runs, and the cw20 tokens of the pool (not
other contracts) behave as cw20 tokens do.  Simplified: `auto_stake` (see `Joint/AutoStake.lean`); ownership handover
(see `Ownership`); the buffer of observations (see `Observation`).
-/

namespace Verif.Stable.Entry

open Verif Verif.Stable Verif.Ledgers
open Verif.XYK (Fees SwapOut checkSwapParameters splitFees sendOpt assertMaxSpread ensureMinAssets
  minimumLiquidity shareInAsset)
open Verif.Asset (Str Info Coin assertSent assertCoins sent declared)

set_option linter.unusedSectionVars false

variable {A : Type} [DecidableEq A]

/-- The ledgers, the supply of the LP token, and the storage of the pair. -/
structure Chain (A : Type) where
  led : Led A
  supply : Nat
  twap : Twap
  amp : Amp
  owner : Option A
  share : Option (Nat × A)

/-- The block time and what the factory answers (`query_fee_info`, packages/astroport/src/querier.rs:197-213, and its
owner). -/
structure Env (A : Type) where
  now : Nat
  owner : A
  total : Nat
  maker : Nat
  feeAddr : Option A

/-- The fees in force: those of the factory and the pair's own `fee_share`. -/
def fees (e : Env A) (w : Chain A) : Fees A := ⟨e.total, e.maker, e.feeAddr, w.share⟩

/-- Precisions and kinds of the two assets. -/
def setup (c : Cfg A) : Setup := ⟨c.prec, fun i => isNative (c.infos i)⟩

/-- `select_pools`, contracts/pair_stable/src/utils.rs:70-113, for two pools: the second argument is only looked at when
there is no first. -/
def selectPools (c : Cfg A) : Option Info → Option Info → Res (Bool × Bool)
  | some offer, _ => do
    let i ← orErr (label c offer) (.invalid "AssetMismatch")
    .ok (i, !i)
  | none, some ask => do
    let i ← orErr (label c ask) (.invalid "AssetMismatch")
    .ok (!i, i)
  | none, none => .error (.invalid "VariableAssetMissed")

/-- `swap`, contracts/pair_stable/src/contract.rs:525-694, with the messages it sends executed. -/
def swapMsg (c : Cfg A) (e : Env A) (w : Chain A) (sender : A) (offer : Asset.Asset) (ask : Option Info)
    (belief maxSpread : Option Nat) (dest : Option A) : Res (Chain A × SwapOut) := do
  let p0 ← (if c.infos false = offer.info then csub (w.led.of (c.infos false) c.me) offer.amount
    else .ok (w.led.of (c.infos false) c.me))
  let p1 ← (if c.infos true = offer.info then csub (w.led.of (c.infos true) c.me) offer.amount
    else .ok (w.led.of (c.infos true) c.me))
  let (i, j) ← selectPools c (some offer.info) ask
  let amp ← currentAmp w.amp e.now
  let r ← quote (setup c) amp i offer.amount (fun k => if k then p1 else p0) e.total
  let gross ← u128 (r.ret + r.commission)
  assertMaxSpread belief maxSpread offer.amount gross r.spread
  let (shareAmt, maker) ← splitFees (fees e w) r.commission
  let pools ← decPools (setup c) (fun k => if k then p1 else p0)
  let tw ← accumulate (setup c) amp e.now w.twap pools
  let l2 ← payNonzero c.me w.led (c.infos j) (some (dest.getD sender)) r.ret
  let l3 ← payNonzero c.me l2 (c.infos j) (w.share.map (·.2)) shareAmt
  let l4 ← payNonzero c.me l3 (c.infos j) e.feeAddr maker
  .ok ({ w with led := l4, twap := tw },
       { ret := r.ret, spread := r.spread, commission := r.commission, makerFee := maker, feeShare := shareAmt })

/-- The checks of `get_assets_collection`, contracts/pair_stable/src/utils.rs:476-529 (with `check_assets`, 42-45, and
`check_asset_infos`, 27-39). -/
def getAssets (c : Cfg A) (assets : List Asset.Asset) : Res (Bool → Nat) := do
  require (assets.map Asset.Asset.info).Nodup (.invalid "DoublingAssets")
  Asset.forAll (fun a => Asset.Info.check c.okAddr a.info) assets
  require (assets.length = 2) (.invalid "InvalidNumberOfAssets")
  Asset.forAll (fun a => require (label c a.info ≠ none) (.invalid "InvalidAsset")) assets
  require (¬ assets.all fun a => decide (a.amount = 0)) (.invalid "InvalidZeroAmount")
  .ok (fun i => amountOf assets (c.infos i))

/-- One pool of `provide_liquidity`, contracts/pair_stable/src/contract.rs:363-388: a coin is already in the balance. -/
def poolBefore (c : Cfg A) (w : Led A) (i : Bool) (d : Nat) : Res Nat := do
  require (¬ (d = 0 ∧ w.of (c.infos i) c.me = 0)) (.invalid "InvalidProvideLPsWithSingleToken")
  if isNative (c.infos i) then csub (w.of (c.infos i) c.me) d else .ok (w.of (c.infos i) c.me)

/-- `provide_liquidity`, contracts/pair_stable/src/contract.rs:338-450, with the messages it sends executed. -/
def provideMsg (c : Cfg A) (e : Env A) (w : Chain A) (funds : List Coin) (sender : A) (assets : List Asset.Asset)
    (minLp : Option Nat) (receiver : Option A) : Res (Chain A × Nat) := do
  let d ← getAssets c assets
  assertCoins funds assets [c.infos false, c.infos true]
  let p0 ← poolBefore c w.led false (d false)
  let p1 ← poolBefore c w.led true (d true)
  let amp ← currentAmp w.amp e.now
  let share ← calculateShares (setup c) amp w.supply (fun i => if i then p1 else p0) d
  let locked := if w.supply = 0 then minimumLiquidity else 0
  require (¬ share < minLp.getD 0) (.invalid "ProvideSlippageViolation")
  let pools ← decPools (setup c) (fun i => w.led.of (c.infos i) c.me)
  let tw ← accumulate (setup c) amp e.now w.twap pools
  let l2 ← pull c w.led sender false (d false)
  let l3 ← pull c l2 sender true (d true)
  let l4 := mint (mint l3 c.lp c.me locked) c.lp (receiver.getD sender) share
  .ok ({ w with led := l4, twap := tw, supply := w.supply + locked + share }, share)

/-- `withdraw_liquidity`, contracts/pair_stable/src/contract.rs:453-509, with the messages it sends executed. -/
def withdrawMsg (c : Cfg A) (e : Env A) (w : Chain A) (funds : List Coin) (sender : A) (assets : List Asset.Asset)
    (mins : Option (List (Info × Nat))) : Res (Chain A × (Nat × Nat)) := do
  let x ← oneCoin funds
  require (x.denom = c.lp) (.invalid "MissingDenom")
  let r0 ← shareInAsset (w.led.of (c.infos false) c.me) x.amount w.supply
  let r1 ← shareInAsset (w.led.of (c.infos true) c.me) x.amount w.supply
  require (assets = []) (.invalid "Imbalanced withdraw is currently disabled")
  ensureMinAssets (c.infos false) (c.infos true) r0 r1 mins
  let pools ← decPools (setup c) (fun i => w.led.of (c.infos i) c.me)
  let amp ← currentAmp w.amp e.now
  let tw ← accumulate (setup c) amp e.now w.twap pools
  let l2 ← pay c.me w.led (c.infos false) sender r0
  let l3 ← pay c.me l2 (c.infos true) sender r1
  let l4 ← burn l3 c.lp c.me x.amount
  let sup ← csub w.supply x.amount
  .ok ({ w with led := l4, twap := tw, supply := sup }, (r0, r1))

/-- `StablePoolUpdateParams` (packages/astroport/src/pair.rs). -/
inductive Update (A : Type) where
  | startAmp (next nextTime : Nat)
  | stopAmp
  | enableShare (bps : Nat) (recipient : A)
  | disableShare

/-- `update_config`, contracts/pair_stable/src/contract.rs:1064-1132. -/
def updateConfig (e : Env A) (w : Chain A) (sender : A) (u : Update A) : Res (Chain A) := do
  require (sender = w.owner.getD e.owner) .unauthorized
  match u with
  | .startAmp next t => do
    let a ← startChangingAmp w.amp e.now next t
    .ok { w with amp := a }
  | .stopAmp => do
    let a ← stopChangingAmp w.amp e.now
    .ok { w with amp := a }
  | .enableShare bps r => do
    require (¬ (bps = 0 ∨ bps > MAX_FEE_SHARE_BPS)) (.invalid "FeeShareOutOfBounds")
    .ok { w with share := some (bps, r) }
  | .disableShare => .ok { w with share := none }

/-- `ExecuteMsg` (packages/astroport/src/pair.rs). -/
inductive Msg (A : Type) where
  | receive (sender : A) (amount : Nat) (ask : Option Info) (belief maxSpread : Option Nat) (dest : Option A)
  | provide (assets : List Asset.Asset) (minLp : Option Nat) (receiver : Option A)
  | swap (offer : Asset.Asset) (ask : Option Info) (belief maxSpread : Option Nat) (dest : Option A)
  | withdraw (assets : List Asset.Asset) (mins : Option (List (Info × Nat)))
  | updateConfig (u : Update A)

/-- `execute`, contracts/pair_stable/src/contract.rs:189-284, and `receive_cw20`, 289-325 with `check_cw20_in_pool`,
contracts/pair_stable/src/utils.rs:50-59: `sender` calls with `funds` attached. -/
def execute (c : Cfg A) (e : Env A) (w : Chain A) (sender : A) (funds : List Coin) : Msg A → Res (Chain A)
  | .receive user amount ask belief maxSpread dest => do
    require (c.infos false = .token (c.addr sender) ∨ c.infos true = .token (c.addr sender)) .unauthorized
    let (w, _) ← swapMsg c e w user ⟨.token (c.addr sender), amount⟩ ask belief maxSpread dest
    .ok w
  | .provide assets minLp receiver => do
    let (w, _) ← provideMsg c e w funds sender assets minLp receiver
    .ok w
  | .swap offer ask belief maxSpread dest => do
    Asset.Info.check c.okAddr offer.info
    require (isNative offer.info = true) (.invalid "Cw20DirectSwap")
    assertSent offer funds
    let (w, _) ← swapMsg c e w sender offer ask belief maxSpread dest
    .ok w
  | .withdraw assets mins => do
    let (w, _) ← withdrawMsg c e w funds sender assets mins
    .ok w
  | .updateConfig u => updateConfig e w sender u

/-- What can happen on the chain.  `send` is `Send` (or, by a spender, `SendFrom`) of any cw20 token to the pair with a
swap message. -/
inductive Tx (A : Type) where
  | call (e : Env A) (sender : A) (funds : List Coin) (m : Msg A)
  | send (e : Env A) (token owner spender : A) (amount : Nat) (ask : Option Info) (belief maxSpread : Option Nat)
      (dest : Option A)
  | transfer (e : Env A) (k : Info) (src dst : A) (n : Nat)
  | transferFrom (e : Env A) (token : Str) (owner spender dst : A) (n : Nat)
  | approve (e : Env A) (token : Str) (owner spender : A) (n : Nat)

/-- One transaction.  Any account but the pair and the token contracts of the pool may call anything. -/
def exec (c : Cfg A) (w : Chain A) : Tx A → Res (Chain A)
  | .call e sender funds m => do
    require (sender ≠ c.me ∧ c.infos false ≠ .token (c.addr sender) ∧ c.infos true ≠ .token (c.addr sender)) .unauthorized
    require (ValidFunds funds) (.invalid "invalid coins")
    let l ← attach w.led sender c.me funds
    execute c e { w with led := l } sender funds m
  | .send e token owner spender amount ask belief maxSpread dest => do
    require (owner ≠ c.me ∧ spender ≠ c.me) .unauthorized
    let l ← (if owner = spender then w.led.move (.token (c.addr token)) owner c.me amount
      else Ledgers.transferFrom w.led (c.addr token) owner spender c.me amount)
    execute c e { w with led := l } token [] (.receive spender amount ask belief maxSpread dest)
  | .transfer _ k src dst n => do
    require (src ≠ c.me) .unauthorized
    let l ← w.led.move k src dst n
    .ok { w with led := l }
  | .transferFrom _ token owner spender dst n => do
    require (owner ≠ c.me ∧ spender ≠ c.me) .unauthorized
    let l ← Ledgers.transferFrom w.led token owner spender dst n
    .ok { w with led := l }
  | .approve _ token owner spender n => do
    require (owner ≠ c.me) .unauthorized
    .ok { w with led := { w.led with
      allow := fun t o s => if t = token ∧ o = owner ∧ s = spender then n else w.led.allow t o s } }

/-- Reverting step. -/
def step (c : Cfg A) (w : Chain A) (t : Tx A) : Chain A := commit' w (exec c w t)

/-- History. -/
def run (c : Cfg A) (w : Chain A) (ts : List (Tx A)) : Chain A := ts.foldl (step c) w

/-! ## Specification -/

/-- What the pair's own transactions see of the chain. -/
def view (c : Cfg A) (w : Chain A) : State A :=
  { bal := fun i => w.led.of (c.infos i), lp := w.led.bank c.lp, supply := w.supply, twap := w.twap, amp := w.amp,
    owner := w.owner, share := w.share }

/-- A plain transfer, as the pair's ledgers see it. -/
def transferOps (c : Cfg A) (k : Info) (src dst : A) (n : Nat) : List (Op A) :=
  match label c k with
  | some i => [.send i src dst n]
  | none => if k = .native c.lp then [.sendLp src dst n] else []

/-- The administration. -/
def Update.op (x : A) : Update A → Op A
  | .startAmp n t => .startAmp x n t
  | .stopAmp => .stopAmp x
  | .enableShare b r => .enableShare x b r
  | .disableShare => .disableShare x

/-- The surroundings of a transaction. -/
def Tx.env : Tx A → Env A
  | .call e .. | .send e .. | .transfer e .. | .transferFrom e .. | .approve e .. => e

/-- **Specification.**  What a transaction on the chain means for the pair: a deposit of exactly the declared amounts, a
withdrawal of the LP coins that were attached, a trade of exactly the offered amount *paid by the account whose coins or
tokens moved*, or plain transfers (coins attached to a change of the settings are such a transfer). -/
def ops (c : Cfg A) (w : Chain A) : Tx A → List (Op A)
  | .call _ x _ (.provide assets minLp r) =>
    [.provide x (fun i => declared assets (c.infos i)) minLp (r.getD x)]
  | .call e x _ (.swap offer _ b m r) =>
    match label c offer.info with
    | some i => [.swap x i offer.amount b m (r.getD x) (fees e w)]
    | none => []
  | .call _ x funds (.withdraw _ mins) =>
    [.withdraw x (sent funds c.lp) (mins.map fun l => l.map fun a => (decide (a.1 = c.infos true), a.2))]
  | .call _ x funds (.updateConfig u) =>
    (funds.flatMap fun a => transferOps c (.native a.denom) x c.me a.amount) ++ [u.op x]
  | .call _ _ _ (.receive ..) => []
  | .send e t owner spender n _ b m r =>
    match label c (.token (c.addr t)) with
    | some i => [.swap owner i n b m (r.getD spender) (fees e w)]
    | none => []
  | .transfer _ k src dst n => transferOps c k src dst n
  | .transferFrom _ t owner _ dst n => transferOps c (.token t) owner dst n
  | .approve .. => []

/-- The same with the block time and the factory's owner. -/
def meaning (c : Cfg A) (w : Chain A) (t : Tx A) : List (Event A) :=
  (ops c w t).map fun o => ⟨t.env.now, t.env.owner, o⟩

/-- One transaction of the pair. -/
def exec1 (c : Cfg A) (s : State A) (ev : Event A) : Res (State A) := Stable.exec (setup c) c.me ev.now ev.fo s ev.op

/-! ## Lemmas -/

theorem payout_eq (l : A → Nat) (a b : A) (n : Nat) : payout l a b n = Verif.move l a b n := by
  unfold payout
  split_ifs with h
  · rw [h, move_zero]
  · rfl

theorem view_ext {c : Cfg A} {w w' : Chain A} (h1 : ∀ i, w'.led.of (c.infos i) = w.led.of (c.infos i))
    (h2 : w'.led.bank c.lp = w.led.bank c.lp) (h3 : w'.supply = w.supply) (h4 : w'.twap = w.twap) (h5 : w'.amp = w.amp)
    (h6 : w'.owner = w.owner) (h7 : w'.share = w.share) : view c w' = view c w := by
  unfold view
  simp only [h1, h2, h3, h4, h5, h6, h7]

theorem transfer_meaning {c : Cfg A} (hc : c.Ok) {w : Chain A} {l' : Led A} {k : Info} {src dst : A} {n : Nat} (e : Env A)
    (hs : src ≠ c.me) (m : Ledgers.Moved w.led k src (some dst) n l') :
    ((transferOps c k src dst n).map fun o => (⟨e.now, e.owner, o⟩ : Event A)).foldlM (exec1 c) (view c w) =
      .ok (view c { w with led := l' }) := by
  unfold transferOps
  have hm := m.move
  simp only [sendOpt] at hm
  have hlp : k ≠ .native c.lp → l'.bank c.lp = w.led.bank c.lp := fun hk => m.other (.native c.lp) (Ne.symm hk)
  split
  · rename_i i hi
    have hk := label_some hi
    subst hk
    simp only [List.map_cons, List.map_nil, List.foldlM_cons, List.foldlM_nil, bind_ok_iff, pure_eq_ok, Except.ok.injEq,
      exists_eq_right]
    unfold exec1 Stable.exec
    simp only [bind_ok_iff, Except.ok.injEq]
    refine ⟨(), (require_ok _ _ _).2 hs, _, hm, ?_⟩
    unfold view
    simp only [hlp (hc.lp i)]
    congr 1
    funext j
    by_cases hj : j = i
    · rw [if_pos hj, hj]
    · rw [if_neg hj]
      exact (m.other _ fun e => hj (infos_inj hc e)).symm
  · rename_i hl
    have hb : ∀ i, l'.of (c.infos i) = w.led.of (c.infos i) := fun i => m.other _ (by
      rintro rfl
      rw [label_infos hc] at hl
      simp at hl)
    split_ifs with hk
    · subst hk
      simp only [List.map_cons, List.map_nil, List.foldlM_cons, List.foldlM_nil, bind_ok_iff, pure_eq_ok,
        Except.ok.injEq, exists_eq_right]
      unfold exec1 Stable.exec
      simp only [bind_ok_iff, Except.ok.injEq]
      refine ⟨(), (require_ok _ _ _).2 hs, _, hm, ?_⟩
      unfold view
      simp only [hb]
      rfl
    · simp only [List.map_nil, List.foldlM_nil, pure_eq_ok, Except.ok.injEq]
      exact (view_ext (w := w) (w' := { w with led := l' }) hb (hlp hk) rfl rfl rfl rfl rfl).symm

theorem attach_meaning {c : Cfg A} (hc : c.Ok) {x : A} (e : Env A) (hs : x ≠ c.me) :
    ∀ {funds : List Coin} {w : Chain A} {l' : Led A}, attach w.led x c.me funds = .ok l' →
    ((funds.flatMap fun a => transferOps c (.native a.denom) x c.me a.amount).map
      fun o => (⟨e.now, e.owner, o⟩ : Event A)).foldlM (exec1 c) (view c w) = .ok (view c { w with led := l' })
  | [], w, l', h => by
    simp only [attach, Except.ok.injEq] at h
    subst h
    rfl
  | a :: as, w, l', h => by
    simp only [attach, bind_ok_iff] at h
    obtain ⟨l1, h1, h2⟩ := h
    rw [List.flatMap_cons, List.map_append]
    exact foldlM_append_ok (transfer_meaning hc e hs (move_moved h1))
      (attach_meaning (w := { w with led := l1 }) hc e hs h2)

theorem select_some {c : Cfg A} {k : Info} {ask : Option Info} {i j : Bool}
    (h : selectPools c (some k) ask = .ok (i, j)) : label c k = some i ∧ j = !i := by
  simp only [selectPools, bind_ok_iff, orErr_ok, Except.ok.injEq, Prod.mk.injEq] at h
  obtain ⟨i', h, rfl, rfl⟩ := h
  exact ⟨h, rfl⟩

/-- A trade on coins or tokens that have just arrived. -/
theorem swap_meaning {c : Cfg A} (hc : c.Ok) {e : Env A} {w w' : Chain A} {l1 : Led A} {payer sender : A}
    {offer : Asset.Asset} {ask : Option Info} {belief maxSpread : Option Nat} {dest : Option A} {out : SwapOut}
    (hin : Ledgers.Moved w.led offer.info payer (some c.me) offer.amount l1)
    (h : swapMsg c e { w with led := l1 } sender offer ask belief maxSpread dest = .ok (w', out)) :
    ∃ i, label c offer.info = some i ∧
      Stable.swap (setup c) c.me (view c w) e.now payer i offer.amount belief maxSpread (dest.getD sender) (fees e w) =
        .ok (view c w', out) := by
  unfold swapMsg at h
  simp only [bind_ok_iff, Except.ok.injEq, Prod.mk.injEq] at h
  obtain ⟨p0, h0, p1, h1, ⟨i, j⟩, hij, amp, hamp, r, hr, g, hg, ⟨⟩, hms, ⟨sh, mk⟩, hsp, pools, hpools, tw, htw, l2, g2, l3,
    g3, l4, g4, rfl, rfl⟩ := h
  obtain ⟨hi, rfl⟩ := select_some hij
  refine ⟨i, hi, ?_⟩
  have hk := label_some hi
  have hm := hin.move
  rw [hk] at hm hin
  simp only [sendOpt] at hm
  have hother : ∀ j, j ≠ i → l1.of (c.infos j) = w.led.of (c.infos j) := fun j hj =>
    hin.other _ fun e => hj (infos_inj hc e)
  have m2 := payNonzero_moved g2
  have m3 := payNonzero_moved g3
  have m4 := payNonzero_moved g4
  have hne : ∀ j, j = i → c.infos j ≠ c.infos (!i) := by
    rintro j rfl e
    have := infos_inj hc e
    cases j <;> simp at this
  have hpo : csub (l1.of (c.infos i) c.me) offer.amount = .ok (if i then p1 else p0) := by
    cases i
    · rw [if_pos hk.symm] at h0
      exact h0
    · rw [if_pos hk.symm] at h1
      exact h1
  have hpa : w.led.of (c.infos (!i)) c.me = if i then p0 else p1 := by
    rw [← hother (!i) (by cases i <;> simp)]
    cases i
    · rw [if_neg (by rw [hk]; exact hc.ne.symm), Except.ok.injEq] at h1
      exact h1
    · rw [if_neg (by rw [hk]; exact hc.ne), Except.ok.injEq] at h0
      exact h0
  have ea : (view c w).bal (!i) = w.led.of (c.infos (!i)) := rfl
  have hfun : (fun j => if j = i then (if i then p1 else p0) else w.led.of (c.infos (!i)) c.me) =
      fun k => if k then p1 else p0 := by
    funext j
    rw [hpa]
    cases i <;> cases j <;> rfl
  unfold Stable.swap
  simp only [bind_ok_iff, Except.ok.injEq, Prod.mk.injEq]
  refine ⟨_, hm, _, hpo, amp, hamp, r, ?_, g, hg, (), hms, (sh, mk), hsp, ?_⟩
  · rw [ea, hfun]
    exact hr
  refine ⟨l2.of (c.infos (!i)), ?_, l3.of (c.infos (!i)), ?_, l4.of (c.infos (!i)), ?_, pools, ?_, tw, htw, ?_, rfl⟩
  · rw [payout_eq, ea, ← hother (!i) (by cases i <;> simp)]
    exact m2.move
  · exact m3.move
  · exact m4.move
  · rw [ea, hfun]
    exact hpools
  · have hb : ∀ j, j ≠ c.infos (!i) → l4.of j = l1.of j := fun j hj =>
      (m4.other j hj).trans ((m3.other j hj).trans (m2.other j hj))
    have hlp : l4.bank c.lp = w.led.bank c.lp :=
      (hb (.native c.lp) (hc.lp _).symm).trans (hin.other (.native c.lp) (hc.lp _).symm)
    unfold view
    simp only
    rw [hlp]
    congr 1
    funext j
    by_cases hj : j = i
    · rw [if_pos hj, ← hj]
      exact (hb _ (by rw [hj]; exact hne i rfl)).symm
    · rw [if_neg hj]
      have : j = !i := by cases i <;> cases j <;> simp_all
      rw [this]

/-- A deposit names both assets. -/
theorem getAssets_ok {c : Cfg A} {assets : List Asset.Asset} {d : Bool → Nat}
    (h : getAssets c assets = .ok d) :
    d = (fun i => declared assets (c.infos i)) ∧ ¬ (d false = 0 ∧ d true = 0) ∧ ∀ i, ∃ x ∈ assets, x.info = c.infos i := by
  simp only [getAssets, bind_ok_iff, require_ok, exists_const, Except.ok.injEq] at h
  obtain ⟨hn, ⟨⟩, _, hl, ⟨⟩, hin, hz, rfl⟩ := h
  have hd : ∀ k, amountOf assets k = declared assets k := amountOf_eq hn
  have hall : ∀ i, ∃ x ∈ assets, x.info = c.infos i := by
    obtain ⟨a, b, rfl⟩ := List.length_eq_two.1 hl
    have ha := forAll_ok hin a (by simp)
    have hb := forAll_ok hin b (by simp)
    simp only [require_ok, ne_eq] at ha hb
    obtain ⟨ia, ha⟩ := Option.ne_none_iff_exists'.1 ha
    obtain ⟨ib, hb⟩ := Option.ne_none_iff_exists'.1 hb
    have ea := label_some ha
    have eb := label_some hb
    have hne : ia ≠ ib := by
      rintro rfl
      simp [ea, eb] at hn
    intro i
    by_cases hi : i = ia
    · exact ⟨a, by simp, by rw [ea, hi]⟩
    · refine ⟨b, by simp, ?_⟩
      have : i = ib := by cases i <;> cases ia <;> cases ib <;> simp_all
      rw [eb, this]
  refine ⟨funext fun i => hd _, ?_, hall⟩
  rintro ⟨z0, z1⟩
  refine hz ?_
  rw [List.all_eq_true]
  intro x hx
  rw [decide_eq_true_eq]
  have hx' := forAll_ok hin x hx
  simp only [require_ok, ne_eq] at hx'
  obtain ⟨i, hi⟩ := Option.ne_none_iff_exists'.1 hx'
  have ex := label_some hi
  have : declared assets x.info = x.amount := Asset.declared_of_mem hn hx
  rw [← this, ← hd, ex]
  cases i
  · exact z0
  · exact z1

/-- One asset of a deposit: either its coins are there already, or the tokens are fetched. -/
theorem deposit_asset {c : Cfg A} {l l1 l2 l3 : Led A} {funds : List Coin} {x : A} {i : Bool} {d p : Nat}
    (hs : x ≠ c.me) (hbank : ∀ d, Verif.move (l.bank d) x c.me (sent funds d) = .ok (l1.bank d))
    (htok : l1.tok = l.tok) (hd : ∀ k, c.infos i = .native k → sent funds k = d)
    (hp : poolBefore c l1 i d = .ok p) (h2 : l2.of (c.infos i) = l1.of (c.infos i))
    (h : pull c l2 x i d = .ok l3) :
    Verif.move (l.of (c.infos i)) x c.me d = .ok (l3.of (c.infos i)) ∧ p = l.of (c.infos i) c.me ∧
      l1.of (c.infos i) c.me = l.of (c.infos i) c.me + (if (setup c).native i then d else 0) ∧
      ¬ (d = 0 ∧ l.of (c.infos i) c.me = 0) := by
  unfold pull at h
  simp only [poolBefore, bind_ok_iff, require_ok, exists_const] at hp
  obtain ⟨hz, hp⟩ := hp
  cases hk : c.infos i with
  | native k =>
    have hnat : (setup c).native i = true := by simp [setup, hk, isNative]
    simp only [hk, Except.ok.injEq] at h h2 hp hz
    subst h
    have hm := hbank k
    rw [hd k hk] at hm
    have e := move_apply hm c.me
    rw [if_neg (Ne.symm hs), if_pos rfl] at e
    simp only [isNative, if_true, csub_ok] at hp
    have e' : l1.of (.native k) c.me = l.of (.native k) c.me + d := e
    rw [e'] at hp hz
    rw [if_pos hnat]
    refine ⟨by rw [h2]; exact hm, by omega, e', ?_⟩
    rintro ⟨rfl, h0⟩
    exact hz ⟨rfl, by omega⟩
  | token t =>
    have hnat : ¬ (setup c).native i = true := by simp [setup, hk, isNative]
    simp only [hk] at h h2 hp hz
    have e : l1.of (.token t) = l.of (.token t) := congrFun htok t
    have hw : l2.of (.token t) = l.of (.token t) := by rw [h2, e]
    simp only [isNative, Bool.false_eq_true, if_false, Except.ok.injEq, e] at hp hz
    rw [if_neg hnat, e]
    refine ⟨?_, hp.symm, rfl, hz⟩
    split_ifs at h with h0
    · simp only [Except.ok.injEq] at h
      subst h
      rw [h0, move_zero, hw]
    · have hm := (transferFrom_moved h).move
      simp only [sendOpt] at hm
      rw [hw] at hm
      exact hm

theorem provide_meaning {c : Cfg A} (hc : c.Ok) {e : Env A} {w w' : Chain A} {l1 : Led A} {funds : List Coin} {x : A}
    {assets : List Asset.Asset} {minLp : Option Nat} {r : Option A} {share : Nat} (hs : x ≠ c.me)
    (hf : ValidFunds funds) (ha : attach w.led x c.me funds = .ok l1)
    (h : provideMsg c e { w with led := l1 } funds x assets minLp r = .ok (w', share)) :
    Stable.provide (setup c) c.me (view c w) e.now x (fun i => declared assets (c.infos i)) minLp (r.getD x) =
      .ok (view c w', share) := by
  obtain ⟨hbank, htok⟩ := attach_spec hs ha
  unfold provideMsg at h
  simp only [bind_ok_iff, require_ok, exists_const, Except.ok.injEq, Prod.mk.injEq] at h
  obtain ⟨d, hd, ⟨⟩, hco, p0, hp0, p1, hp1, amp, hamp, sh, hsh, hmin, pools, hpools, tw, htw, l2, h2, l3, h3, rfl, rfl⟩ := h
  obtain ⟨rfl, hnz, hall⟩ := getAssets_ok hd
  have hsent := Asset.C67_sent_equals_declared_partial funds assets _ hf.1 (by
    intro k hk
    simp only [List.mem_cons, List.not_mem_nil, or_false] at hk
    rcases hk with hk | hk
    · obtain ⟨y, hy, he⟩ := hall false
      exact ⟨y, hy, he.trans hk.symm⟩
    · obtain ⟨y, hy, he⟩ := hall true
      exact ⟨y, hy, he.trans hk.symm⟩) hco
  obtain ⟨o2, b2⟩ := pull_other h2
  obtain ⟨o3, b3⟩ := pull_other h3
  obtain ⟨m0, e0, q0, z0⟩ := deposit_asset (i := false) (l2 := l1) hs hbank htok
    (fun k hk => by rw [hsent, ← hk]) hp0 rfl h2
  obtain ⟨m1, e1, q1, z1⟩ := deposit_asset (i := true) (l2 := l2) hs hbank htok
    (fun k hk => by rw [hsent, ← hk]) hp1 (o2 _ hc.ne.symm) h3
  have hlp0 : l1.bank c.lp = w.led.bank c.lp := by
    have := hbank c.lp
    rw [hsent, Asset.declared_of_not_mem, move_zero, Except.ok.injEq] at this
    · exact this.symm
    · intro y hy he
      have := (Asset.C67_declared_was_sent funds assets _ hf.1 hco).2.1 y hy
      simp only [List.mem_cons, List.not_mem_nil, or_false] at this
      rcases this with h | h
      · exact hc.lp false (h.symm.trans he)
      · exact hc.lp true (h.symm.trans he)
  have hlp : l3.bank c.lp = w.led.bank c.lp := by rw [b3, b2]; exact hlp0
  unfold Stable.provide
  simp only [bind_ok_iff, require_ok, exists_const, Except.ok.injEq, Prod.mk.injEq]
  refine ⟨hnz, ⟨z0, z1⟩, l2.of (c.infos false), ?_, l3.of (c.infos true), ?_, amp, hamp, sh, ?_, hmin, pools, ?_, tw, htw,
    ?_, rfl⟩
  · rw [payout_eq]
    exact m0
  · rw [payout_eq]
    exact m1
  · have : (fun i => (view c w).bal i c.me) = fun i => if i then p1 else p0 := by
      funext i
      cases i
      · exact e0.symm
      · exact e1.symm
    rw [this]
    exact hsh
  · have : (fun i => (view c w).bal i c.me + if (setup c).native i then declared assets (c.infos i) else 0) =
        fun i => l1.of (c.infos i) c.me := by
      funext i
      cases i
      · exact q0.symm
      · exact q1.symm
    rw [this]
    exact hpools
  · unfold view
    simp only
    congr 1
    · funext j
      rw [mint_of _ (hc.lp j), mint_of _ (hc.lp j)]
      cases j
      · exact (o3 _ hc.ne).symm
      · rfl
    · simp only [mint, Function.update_self, hlp]

theorem ensure_label {c : Cfg A} (hc : c.Ok) {r0 r1 : Nat} {mins : Option (List (Info × Nat))}
    (h : ensureMinAssets (c.infos false) (c.infos true) r0 r1 mins = .ok ()) :
    ensureMinAssets false true r0 r1 (mins.map fun l => l.map fun a => (decide (a.1 = c.infos true), a.2)) = .ok () := by
  match mins, h with
  | none, _ => rfl
  | some [], h => simp [ensureMinAssets] at h
  | some [_], h => simp [ensureMinAssets] at h
  | some (_ :: _ :: _ :: _), h => simp [ensureMinAssets] at h
  | some [(i, m), (j, n)], h =>
    simp only [ensureMinAssets, bind_ok_iff, require_ok, exists_const] at h
    obtain ⟨hi, hj, h⟩ := h
    simp only [ensureMinAssets, Option.map_some, List.map_cons, List.map_nil, bind_ok_iff, require_ok, exists_const]
    refine ⟨by cases decide (i = c.infos true) <;> simp, by cases decide (j = c.infos true) <;> simp, ?_⟩
    rcases hi with rfl | rfl
    · rw [decide_eq_false hc.ne]
      simpa using h
    · rw [decide_eq_true rfl]
      simpa [hc.ne] using h

theorem withdraw_meaning {c : Cfg A} (hc : c.Ok) {e : Env A} {w w' : Chain A} {l1 : Led A} {funds : List Coin} {x : A}
    {assets : List Asset.Asset} {mins : Option (List (Info × Nat))} {rs : Nat × Nat} (hs : x ≠ c.me)
    (ha : attach w.led x c.me funds = .ok l1)
    (h : withdrawMsg c e { w with led := l1 } funds x assets mins = .ok (w', rs)) :
    Stable.withdraw (setup c) c.me (view c w) e.now x (sent funds c.lp)
      (mins.map fun l => l.map fun a => (decide (a.1 = c.infos true), a.2)) = .ok (view c w', rs) := by
  obtain ⟨hbank, htok⟩ := attach_spec hs ha
  unfold withdrawMsg at h
  simp only [bind_ok_iff, require_ok, exists_const, Except.ok.injEq, Prod.mk.injEq] at h
  obtain ⟨co, hone, hden, r0, hr0, r1, hr1, _, ⟨⟩, hmin, pools, hpools, amp, hamp, tw, htw, l2, h2, l3, h3, l4, h4, sup, hsup,
    rfl, rfl⟩ := h
  obtain ⟨rfl, hz⟩ := oneCoin_ok hone
  have hsent : sent [co] c.lp = co.amount := by simp [sent, hden]
  have hof : ∀ i, l1.of (c.infos i) = w.led.of (c.infos i) := by
    intro i
    have hi := hc.lp i
    generalize c.infos i = k at *
    cases k with
    | native k =>
      have hk : co.denom ≠ k := fun e => hi (by rw [← e, hden])
      have := hbank k
      have z : sent [co] k = 0 := by simp [sent, hk]
      rw [z, move_zero, Except.ok.injEq] at this
      exact this.symm
    | token t => exact congrFun htok t
  have m2 := pay_moved h2
  have m3 := pay_moved h3
  have hb3 : l3.bank c.lp = l1.bank c.lp :=
    (m3.other (.native c.lp) (hc.lp _).symm).trans (m2.other (.native c.lp) (hc.lp _).symm)
  have hlp1 := hbank c.lp
  rw [hsent] at hlp1 ⊢
  simp only [hof] at hr0 hr1 hpools
  have n0 := pay_nonzero h2
  have n1 := pay_nonzero h3
  have hburn := h4
  simp only [burn, bind_ok_iff, Except.ok.injEq] at hburn
  obtain ⟨lp, hlp, hl4⟩ := hburn
  unfold Stable.withdraw
  simp only [bind_ok_iff, require_ok, exists_const, Except.ok.injEq, Prod.mk.injEq]
  refine ⟨hz, _, hlp1, r0, hr0, r1, hr1, (), ensure_label hc hmin, pools, hpools, amp, hamp, tw, htw, ⟨n0, n1⟩,
    l2.of (c.infos false), ?_, l3.of (c.infos true), ?_, lp, ?_, sup, hsup, ?_, rfl, rfl⟩
  · have := m2.move
    rw [hof] at this
    exact this
  · have := m3.move
    rw [m2.other _ hc.ne.symm, hof] at this
    exact this
  · rw [← hb3]
    exact hlp
  · unfold view
    simp only
    congr 1
    · funext j
      rw [burn_of h4 _ (hc.lp j)]
      cases j
      · exact (m3.other _ hc.ne).symm
      · rfl
    · rw [← hl4]
      simp

/-! ## C162 -/

/-- **C162.**  Whatever accounts send to the pair (any message, any attached coins, cw20 tokens sent by their owners or by
approved spenders), a transaction that succeeds is, for the pair, exactly the deposit, withdrawal, trade, change of
settings or transfers that `meaning` names: nothing is credited that was not paid. -/
theorem C162_messages_are_pair_transactions (c : Cfg A) (hc : c.Ok) (w w' : Chain A) (t : Tx A)
    (h : exec c w t = .ok w') : (meaning c w t).foldlM (exec1 c) (view c w) = .ok (view c w') := by
  unfold meaning
  cases t with
  | call e x funds m =>
    simp only [exec, bind_ok_iff, require_ok, exists_const] at h
    obtain ⟨⟨hs, ht0, ht1⟩, hf, l1, ha, h⟩ := h
    cases m with
    | receive u n ask b m r =>
      simp only [execute, bind_ok_iff, require_ok, exists_const] at h
      exact absurd h.1 (by simp [ht0, ht1])
    | provide assets minLp r =>
      simp only [execute, bind_ok_iff, Except.ok.injEq] at h
      obtain ⟨⟨w2, sh⟩, h, rfl⟩ := h
      simp only [ops, Tx.env, List.map_cons, List.map_nil, List.foldlM_cons, List.foldlM_nil, bind_ok_iff, pure_eq_ok,
        Except.ok.injEq, exists_eq_right]
      unfold exec1 Stable.exec
      simp only [bind_ok_iff, Except.ok.injEq]
      exact ⟨(), (require_ok _ _ _).2 hs, (_, sh), provide_meaning hc hs hf ha h, rfl⟩
    | swap offer ask b m r =>
      simp only [execute, bind_ok_iff, require_ok, exists_const, Except.ok.injEq] at h
      obtain ⟨_, _, hn, ⟨⟩, hsent, ⟨w2, out⟩, h, rfl⟩ := h
      have hm : Ledgers.Moved w.led offer.info x (some c.me) offer.amount l1 := by
        obtain ⟨k, n⟩ := offer
        cases k with
        | token t => simp [isNative] at hn
        | native d =>
          obtain ⟨rfl, _⟩ := (Asset.C67_single_coin d n funds).1 hsent
          simp only [attach, bind_ok_iff, Except.ok.injEq, exists_eq_right] at ha
          exact move_moved ha
      obtain ⟨i, hi, hsw⟩ := swap_meaning hc hm h
      simp only [ops, Tx.env, hi, List.map_cons, List.map_nil, List.foldlM_cons, List.foldlM_nil, bind_ok_iff, pure_eq_ok,
        Except.ok.injEq, exists_eq_right]
      unfold exec1 Stable.exec
      simp only [bind_ok_iff, Except.ok.injEq]
      exact ⟨(), (require_ok _ _ _).2 hs, (_, out), hsw, rfl⟩
    | withdraw assets mins =>
      simp only [execute, bind_ok_iff, Except.ok.injEq] at h
      obtain ⟨⟨w2, rs⟩, h, rfl⟩ := h
      simp only [ops, Tx.env, List.map_cons, List.map_nil, List.foldlM_cons, List.foldlM_nil, bind_ok_iff, pure_eq_ok,
        Except.ok.injEq, exists_eq_right]
      unfold exec1 Stable.exec
      simp only [bind_ok_iff, Except.ok.injEq]
      exact ⟨(), (require_ok _ _ _).2 hs, (_, rs), withdraw_meaning hc hs ha h, rfl⟩
    | updateConfig u =>
      simp only [execute, updateConfig, bind_ok_iff, require_ok, exists_const] at h
      obtain ⟨hau, h⟩ := h
      simp only [ops, Tx.env, List.map_append, List.map_cons, List.map_nil]
      refine foldlM_append_ok (attach_meaning hc e hs ha) ?_
      simp only [List.foldlM_cons, List.foldlM_nil, bind_ok_iff, pure_eq_ok, Except.ok.injEq, exists_eq_right]
      have hau' : authorised (view c { w with led := l1 }) e.owner x = .ok () := (require_ok _ _ _).2 hau
      unfold exec1 Stable.exec
      cases u with
      | startAmp n t =>
        simp only [bind_ok_iff, Except.ok.injEq] at h
        obtain ⟨a, hx, rfl⟩ := h
        simp only [Update.op, bind_ok_iff, Except.ok.injEq]
        exact ⟨(), (require_ok _ _ _).2 hs, (), hau', a, hx, rfl⟩
      | stopAmp =>
        simp only [bind_ok_iff, Except.ok.injEq] at h
        obtain ⟨a, hx, rfl⟩ := h
        simp only [Update.op, bind_ok_iff, Except.ok.injEq]
        exact ⟨(), (require_ok _ _ _).2 hs, (), hau', a, hx, rfl⟩
      | enableShare b r =>
        simp only [bind_ok_iff, require_ok, exists_const, Except.ok.injEq] at h
        obtain ⟨hx, rfl⟩ := h
        simp only [Update.op, bind_ok_iff, Except.ok.injEq]
        exact ⟨(), (require_ok _ _ _).2 hs, (), hau', (), (require_ok _ _ _).2 hx, rfl⟩
      | disableShare =>
        simp only [Except.ok.injEq] at h
        subst h
        simp only [Update.op, bind_ok_iff, Except.ok.injEq]
        exact ⟨(), (require_ok _ _ _).2 hs, (), hau', rfl⟩
  | send e token owner spender n ask b m r =>
    simp only [exec, execute, bind_ok_iff, require_ok, exists_const, Except.ok.injEq] at h
    obtain ⟨⟨hs, _⟩, l1, hin, _, ⟨w2, out⟩, h, rfl⟩ := h
    have hm : Ledgers.Moved w.led (.token (c.addr token)) owner (some c.me) n l1 := by
      split_ifs at hin with ho
      · exact move_moved hin
      · exact transferFrom_moved hin
    obtain ⟨i, hi, hsw⟩ := swap_meaning (offer := ⟨.token (c.addr token), n⟩) hc hm h
    simp only at hi hsw
    simp only [ops, Tx.env, hi, List.map_cons, List.map_nil, List.foldlM_cons, List.foldlM_nil, bind_ok_iff, pure_eq_ok,
      Except.ok.injEq, exists_eq_right]
    unfold exec1 Stable.exec
    simp only [bind_ok_iff, Except.ok.injEq]
    exact ⟨(), (require_ok _ _ _).2 hs, (_, out), hsw, rfl⟩
  | transfer e k src dst n =>
    simp only [exec, bind_ok_iff, require_ok, exists_const, Except.ok.injEq] at h
    obtain ⟨hs, l, h, rfl⟩ := h
    exact transfer_meaning hc e hs (move_moved h)
  | transferFrom e token owner spender dst n =>
    simp only [exec, bind_ok_iff, require_ok, exists_const, Except.ok.injEq] at h
    obtain ⟨⟨hs, _⟩, l, h, rfl⟩ := h
    exact transfer_meaning hc e hs (transferFrom_moved h)
  | approve e token owner spender n =>
    simp only [exec, bind_ok_iff, require_ok, exists_const, Except.ok.injEq] at h
    obtain ⟨_, rfl⟩ := h
    simp only [ops, List.map_nil, List.foldlM_nil, pure_eq_ok, Except.ok.injEq]
    refine (view_ext (fun i => ?_) rfl rfl rfl rfl rfl rfl).symm
    cases c.infos i <;> rfl

theorem run_foldlM {c : Cfg A} : ∀ {es : List (Event A)} {s s' : State A}, es.foldlM (exec1 c) s = .ok s' →
    Stable.run (setup c) c.me s es = s'
  | [], s, s', h => by
    simp only [List.foldlM_nil, pure_eq_ok, Except.ok.injEq] at h
    exact h
  | o :: os, s, s', h => by
    simp only [List.foldlM_cons, bind_ok_iff] at h
    obtain ⟨s1, h1, h2⟩ := h
    show Stable.run (setup c) c.me (Stable.step (setup c) c.me s o) os = s'
    have : Stable.step (setup c) c.me s o = s1 := by
      unfold Stable.step
      unfold exec1 at h1
      rw [h1]
      rfl
    rw [this]
    exact run_foldlM h2

/-- Block times do not decrease, starting from `t0`. -/
def TimedTx (t0 : Nat) : List (Tx A) → Prop
  | [] => True
  | t :: ts => t0 ≤ t.env.now ∧ TimedTx t.env.now ts

theorem timed_mono {t t' : Nat} (h : t ≤ t') : ∀ {es : List (Event A)}, Timed t' es → Timed t es
  | [], _ => trivial
  | _ :: _, he => ⟨Nat.le_trans h he.1, he.2⟩

theorem timed_append {t n : Nat} (h : t ≤ n) {es : List (Event A)} (he : Timed n es) :
    ∀ {xs : List (Event A)}, (∀ x ∈ xs, x.now = n) → Timed t (xs ++ es)
  | [], _ => timed_mono h he
  | x :: xs, hx => by
    have e := hx x (by simp)
    refine ⟨by rw [e]; exact h, ?_⟩
    rw [e]
    exact timed_append (Nat.le_refl n) he fun y hy => hx y (by simp [hy])

/-- **C162.**  Every history of messages is, for the pair, a history of its own transactions, in the same order of block
times: what the other theorems say about the pair's transactions holds on the chain. -/
theorem C162_histories_are_pair_histories (c : Cfg A) (hc : c.Ok) (w : Chain A) (ts : List (Tx A)) (t0 : Nat)
    (ht : TimedTx t0 ts) : ∃ es, view c (run c w ts) = Stable.run (setup c) c.me (view c w) es ∧ Timed t0 es := by
  induction ts generalizing w t0 with
  | nil => exact ⟨[], rfl, trivial⟩
  | cons t ts ih =>
    show ∃ es, view c (run c (step c w t) ts) = _ ∧ _
    obtain ⟨es, ho, hes⟩ := ih (step c w t) t.env.now ht.2
    cases hx : exec c w t with
    | error e =>
      have : step c w t = w := by unfold step; rw [hx]; rfl
      rw [this] at ho ⊢
      exact ⟨es, ho, timed_mono ht.1 hes⟩
    | ok w' =>
      have : step c w t = w' := by unfold step; rw [hx]; rfl
      rw [this] at ho ⊢
      refine ⟨meaning c w t ++ es, ?_, timed_append ht.1 hes ?_⟩
      · rw [ho, ← run_foldlM (C162_messages_are_pair_transactions c hc w w' t hx)]
        exact List.foldl_append.symm
      · intro x hx
        unfold meaning at hx
        obtain ⟨o, _, rfl⟩ := List.mem_map.1 hx
        rfl

/-- **C162.**  Nobody but the pool's own token contracts can announce tokens to the pair: such a message from any other
account is refused, whatever it claims and whatever coins come with it. -/
theorem C162_spoofed_tokens_refused (c : Cfg A) (e : Env A) (w : Chain A) (x : A) (funds : List Coin) (u : A) (n : Nat)
    (ask : Option Info) (b m : Option Nat) (r : Option A) (hx : ∀ i, c.infos i ≠ .token (c.addr x)) :
    execute c e w x funds (.receive u n ask b m r) = .error .unauthorized := by
  simp [execute, require, hx false, hx true]

theorem swap_paid {c : Cfg A} {w w' : Chain A} {u : A} {i : Bool} {n : Nat} {b m : Option Nat} {r : A} {f : Fees A} {ev : Event A}
    (hev : ev.op = .swap u i n b m r f) (hm : [ev].foldlM (exec1 c) (view c w) = .ok (view c w')) :
    w'.led.of (c.infos i) c.me = w.led.of (c.infos i) c.me + n ∧ n ≤ w.led.of (c.infos i) u := by
  simp only [List.foldlM_cons, List.foldlM_nil, bind_ok_iff, pure_eq_ok, Except.ok.injEq, exists_eq_right] at hm
  unfold exec1 Stable.exec at hm
  rw [hev] at hm
  simp only [bind_ok_iff, Except.ok.injEq] at hm
  obtain ⟨_, hs, ⟨v, o⟩, hv, hvv⟩ := hm
  have hs : u ≠ c.me := (require_ok _ _ _).1 hs
  simp only at hvv
  subst hvv
  unfold Stable.swap at hv
  simp only [bind_ok_iff, Except.ok.injEq, Prod.mk.injEq] at hv
  obtain ⟨bo, hbo, hv⟩ := hv
  have hb : (view c w').bal i = bo := by
    obtain ⟨_, _, _, _, _, _, _, _, _, _, _, _, _, _, _, _, _, _, _, _, _, _, hv, _⟩ := hv
    rw [← hv]
    simp
  have := move_apply hbo c.me
  rw [if_neg (Ne.symm hs), if_pos rfl] at this
  refine ⟨?_, move_le hbo⟩
  show (view c w').bal i c.me = (view c w).bal i c.me + n
  rw [hb, this]

/-- **C162.**  What is traded has been paid: after a trade with coins the pair holds exactly the offered amount more of
the offered coin, and the trader had it. -/
theorem C162_offer_was_paid (c : Cfg A) (hc : c.Ok) (w w' : Chain A) (e : Env A) (x : A) (funds : List Coin)
    (offer : Asset.Asset) (ask : Option Info) (b m : Option Nat) (r : Option A)
    (h : exec c w (.call e x funds (.swap offer ask b m r)) = .ok w') :
    w'.led.of offer.info c.me = w.led.of offer.info c.me + offer.amount ∧ offer.amount ≤ w.led.of offer.info x ∧
      ∃ d, offer.info = .native d ∧ funds = [⟨d, offer.amount⟩] := by
  have hm := C162_messages_are_pair_transactions c hc w w' _ h
  simp only [exec, execute, bind_ok_iff, require_ok, exists_const, Except.ok.injEq] at h
  obtain ⟨⟨hs, _⟩, _, l1, _, _, _, hn, ⟨⟩, hsent, ⟨w2, out⟩, h, rfl⟩ := h
  have hl : ∃ i, label c offer.info = some i := by
    unfold swapMsg at h
    simp only [bind_ok_iff] at h
    obtain ⟨_, _, _, _, ⟨i, j⟩, hi, _⟩ := h
    exact ⟨i, (select_some hi).1⟩
  obtain ⟨i, hi⟩ := hl
  simp only [meaning, ops, hi, List.map_cons, List.map_nil] at hm
  obtain ⟨h1, h2⟩ := swap_paid rfl hm
  have hk := label_some hi
  refine ⟨by rw [hk]; exact h1, by rw [hk]; exact h2, ?_⟩
  obtain ⟨k, n⟩ := offer
  cases k with
  | token t => simp [isNative] at hn
  | native d => exact ⟨d, rfl, ((Asset.C67_single_coin d n funds).1 hsent).1⟩

/-- **C162.**  Tokens traded by sending them: likewise, and they come from their owner, who sent them or approved the
sender for at least that amount. -/
theorem C162_tokens_were_paid (c : Cfg A) (hc : c.Ok) (w w' : Chain A) (e : Env A) (t owner spender : A) (n : Nat)
    (ask : Option Info) (b m : Option Nat) (r : Option A) (h : exec c w (.send e t owner spender n ask b m r) = .ok w') :
    w'.led.tok (c.addr t) c.me = w.led.tok (c.addr t) c.me + n ∧ n ≤ w.led.tok (c.addr t) owner ∧
      (∃ i, c.infos i = .token (c.addr t)) ∧
      w'.led.allow (c.addr t) owner spender + (if owner = spender then 0 else n) = w.led.allow (c.addr t) owner spender := by
  have hm := C162_messages_are_pair_transactions c hc w w' _ h
  simp only [exec, execute, bind_ok_iff, require_ok, exists_const, Except.ok.injEq] at h
  obtain ⟨⟨hs, _⟩, l1, hin, hau, ⟨w2, out⟩, h, rfl⟩ := h
  have hal : w2.led.allow = l1.allow := by
    unfold swapMsg at h
    simp only [bind_ok_iff, Except.ok.injEq, Prod.mk.injEq] at h
    obtain ⟨p0, h0, p1, h1, ⟨i, j⟩, hij, amp, hamp, r, hr, g, hg, ⟨⟩, hms, ⟨sh, mk⟩, hsp, pools, hpools, tw, htw, l2, g2, l3,
      g3, l4, g4, rfl, rfl⟩ := h
    exact (payNonzero_keeps g4).trans ((payNonzero_keeps g3).trans (payNonzero_keeps g2))
  obtain ⟨i, hk⟩ : ∃ i, c.infos i = .token (c.addr t) := by
    rcases hau with h | h
    · exact ⟨false, h⟩
    · exact ⟨true, h⟩
  have hi : label c (.token (c.addr t)) = some i := by rw [← hk]; exact label_infos hc i
  simp only [meaning, ops, hi, List.map_cons, List.map_nil] at hm
  obtain ⟨h1, h2⟩ := swap_paid rfl hm
  rw [hk] at h1 h2
  refine ⟨h1, h2, ⟨i, hk⟩, ?_⟩
  rw [hal]
  split_ifs at hin ⊢ with ho
  · rw [move_keeps hin, Nat.add_zero]
  · exact (transferFrom_allow hin).2

/-! ### Whose funds are spent -/

/-- The account that pays: the sender of a message, the owner of the tokens. -/
def Tx.payer : Tx A → A
  | .call _ x _ _ | .send _ _ x _ _ _ _ _ _ | .transfer _ _ x _ _ | .transferFrom _ _ x _ _ _ | .approve _ _ x _ _ => x

theorem swap_mono {c : Cfg A} {e : Env A} {w w' : Chain A} {sender a : A} {offer : Asset.Asset} {ask : Option Info}
    {belief maxSpread : Option Nat} {dest : Option A} {out : SwapOut} (ha : a ≠ c.me)
    (h : swapMsg c e w sender offer ask belief maxSpread dest = .ok (w', out)) (j : Info) :
    w.led.of j a ≤ w'.led.of j a := by
  unfold swapMsg at h
  simp only [bind_ok_iff, Except.ok.injEq, Prod.mk.injEq] at h
  obtain ⟨p0, h0, p1, h1, ⟨i, j⟩, hij, amp, hamp, r, hr, g, hg, ⟨⟩, hms, ⟨sh, mk⟩, hsp, pools, hpools, tw, htw, l2, g2, l3,
    g3, l4, g4, rfl, rfl⟩ := h
  exact Nat.le_trans (Nat.le_trans ((payNonzero_moved g2).mono ha _) ((payNonzero_moved g3).mono ha _))
    ((payNonzero_moved g4).mono ha _)

theorem execute_mono {c : Cfg A} {e : Env A} {w w' : Chain A} {x a : A} {funds : List Coin} {m : Msg A} (ha : a ≠ c.me)
    (hx : a ≠ x) (h : execute c e w x funds m = .ok w') (j : Info) : w.led.of j a ≤ w'.led.of j a := by
  cases m with
  | receive u n ask b m r =>
    simp only [execute, bind_ok_iff, Except.ok.injEq] at h
    obtain ⟨_, _, ⟨w2, out⟩, h, rfl⟩ := h
    exact swap_mono ha h j
  | swap offer ask b m r =>
    simp only [execute, bind_ok_iff, Except.ok.injEq] at h
    obtain ⟨_, _, _, _, _, _, ⟨w2, out⟩, h, rfl⟩ := h
    exact swap_mono ha h j
  | provide assets minLp r =>
    simp only [execute, bind_ok_iff, Except.ok.injEq] at h
    obtain ⟨⟨w2, sh⟩, h, rfl⟩ := h
    unfold provideMsg at h
    simp only [bind_ok_iff, require_ok, exists_const, Except.ok.injEq, Prod.mk.injEq] at h
    obtain ⟨d, hd, ⟨⟩, hco, p0, hp0, p1, hp1, amp, hamp, sh, hsh, hmin, pools, hpools, tw, htw, l2, h2, l3, h3, rfl, rfl⟩ := h
    exact Nat.le_trans (Nat.le_trans (pull_mono h2 hx j) (pull_mono h3 hx j))
      (Nat.le_trans (mint_mono j a) (mint_mono j a))
  | withdraw assets mins =>
    simp only [execute, bind_ok_iff, Except.ok.injEq] at h
    obtain ⟨⟨w2, rs⟩, h, rfl⟩ := h
    unfold withdrawMsg at h
    simp only [bind_ok_iff, require_ok, exists_const, Except.ok.injEq, Prod.mk.injEq] at h
    obtain ⟨co, hone, hden, r0, hr0, r1, hr1, _, ⟨⟩, hmin, pools, hpools, amp, hamp, tw, htw, l2, h2, l3, h3, l4, h4, sup, hsup,
      rfl, rfl⟩ := h
    exact Nat.le_trans (Nat.le_trans ((pay_moved h2).mono ha j) ((pay_moved h3).mono ha j)) (burn_mono h4 j ha)
  | updateConfig u =>
    simp only [execute, updateConfig, bind_ok_iff, require_ok, exists_const] at h
    refine Nat.le_of_eq ?_
    cases u <;> simp only [bind_ok_iff, require_ok, exists_const, Except.ok.injEq] at h
    · obtain ⟨_, a, _, rfl⟩ := h
      rfl
    · obtain ⟨_, a, _, rfl⟩ := h
      rfl
    · obtain ⟨_, _, rfl⟩ := h
      rfl
    · obtain ⟨_, rfl⟩ := h
      rfl

/-- **C162.**  No message makes anybody's balance of anything (coins, tokens, LP tokens) smaller but the sender's own, or
the balance of the token owner who approved the transfer. -/
theorem C162_only_the_payer_pays (c : Cfg A) (w w' : Chain A) (t : Tx A) (h : exec c w t = .ok w') (a : A)
    (ha : a ≠ c.me) (k : Info) (hlt : w'.led.of k a < w.led.of k a) : a = t.payer := by
  by_contra hp
  refine absurd hlt (Nat.not_lt.2 ?_)
  cases t with
  | call e x funds m =>
    simp only [exec, bind_ok_iff, require_ok, exists_const] at h
    obtain ⟨_, _, l1, h1, h2⟩ := h
    exact Nat.le_trans (attach_mono h1 hp k) (execute_mono ha hp h2 k)
  | send e token owner spender n ask b m r =>
    simp only [exec, execute, bind_ok_iff, require_ok, exists_const, Except.ok.injEq] at h
    obtain ⟨_, l1, hin, _, ⟨w2, out⟩, h, rfl⟩ := h
    refine Nat.le_trans ?_ (swap_mono ha h k)
    split_ifs at hin with ho
    · exact (move_moved hin).mono hp k
    · exact (transferFrom_moved hin).mono hp k
  | transfer e j src dst n =>
    simp only [exec, bind_ok_iff, require_ok, exists_const, Except.ok.injEq] at h
    obtain ⟨_, l, h, rfl⟩ := h
    exact (move_moved h).mono hp k
  | transferFrom e token owner spender dst n =>
    simp only [exec, bind_ok_iff, require_ok, exists_const, Except.ok.injEq] at h
    obtain ⟨_, l, h, rfl⟩ := h
    exact (transferFrom_moved h).mono hp k
  | approve e token owner spender n =>
    simp only [exec, bind_ok_iff, require_ok, exists_const, Except.ok.injEq] at h
    obtain ⟨_, rfl⟩ := h
    refine Nat.le_of_eq ?_
    cases k <;> rfl

/-- **C162.**  Tokens are fetched for a deposit within what the depositor approved for the pair, and the approval is used
up by exactly that. -/
theorem C162_deposit_within_allowance (c : Cfg A) (hc : c.Ok) (w w' : Chain A) (e : Env A) (x : A) (funds : List Coin)
    (assets : List Asset.Asset) (minLp : Option Nat) (r : Option A)
    (h : exec c w (.call e x funds (.provide assets minLp r)) = .ok w') (i : Bool) (t : Str)
    (hi : c.infos i = .token t) :
    w'.led.allow t x c.me + declared assets (.token t) = w.led.allow t x c.me := by
  simp only [exec, execute, bind_ok_iff, require_ok, exists_const, Except.ok.injEq] at h
  obtain ⟨_, _, l1, h1, ⟨w2, sh⟩, h, rfl⟩ := h
  unfold provideMsg at h
  simp only [bind_ok_iff, require_ok, exists_const, Except.ok.injEq, Prod.mk.injEq] at h
  obtain ⟨d, hd, ⟨⟩, hco, p0, hp0, p1, hp1, amp, hamp, sh, hsh, hmin, pools, hpools, tw, htw, l2, h2, l3, h3, rfl, rfl⟩ := h
  obtain ⟨rfl, _⟩ := getAssets_ok hd
  have ha := attach_keeps h1
  have hpull : ∀ {v v' : Led A} {j : Bool} {d : Nat}, pull c v x j d = .ok v' →
      if c.infos j = .token t then v'.allow t x c.me + d = v.allow t x c.me else v'.allow t x c.me = v.allow t x c.me := by
    intro v v' j d hv
    unfold pull at hv
    split at hv
    · rename_i k hk
      simp only [Except.ok.injEq] at hv
      rw [if_neg (by rw [hk]; simp), hv]
    · rename_i t' hk
      split_ifs at hv with h0
      · simp only [Except.ok.injEq] at hv
        rw [hv, h0]
        split_ifs <;> rfl
      · obtain ⟨q1, q2⟩ := transferFrom_allow hv
        by_cases ht : t' = t
        · subst ht
          rw [if_pos hk]
          exact q2
        · rw [if_neg (by rw [hk]; simpa using ht)]
          exact q1 _ _ _ fun hh => ht hh.1.symm
  have a2 := hpull h2
  have a3 := hpull h3
  rw [← ha]
  show l3.allow t x c.me + _ = _
  cases i
  · rw [if_pos hi] at a2
    rw [if_neg (fun e => hc.ne (hi.trans e.symm))] at a3
    rw [a3, ← hi]
    exact a2
  · rw [if_pos hi] at a3
    rw [if_neg (fun e => hc.ne (e.trans hi.symm))] at a2
    rw [← a2, ← hi]
    exact a3

/-- **C162.**  The amplification and the shared fee change only by a message of the pair's owner (the factory's owner as
long as the pair has none of its own), and no message changes the owner, the handover aside. -/
theorem C162_settings_by_owner (c : Cfg A) (w w' : Chain A) (t : Tx A) (h : exec c w t = .ok w') :
    w'.owner = w.owner ∧ ((w'.amp ≠ w.amp ∨ w'.share ≠ w.share) →
      ∃ e funds u, t = .call e (w.owner.getD e.owner) funds (.updateConfig u)) := by
  have hsw : ∀ {e : Env A} {l : Led A} {v : Chain A} {sender : A} {offer : Asset.Asset} {ask : Option Info}
      {belief maxSpread : Option Nat} {dest : Option A} {out : SwapOut},
      swapMsg c e { w with led := l } sender offer ask belief maxSpread dest = .ok (v, out) →
      v.owner = w.owner ∧ v.amp = w.amp ∧ v.share = w.share := by
    intro e l v sender offer ask belief maxSpread dest out h
    unfold swapMsg at h
    simp only [bind_ok_iff, Except.ok.injEq, Prod.mk.injEq] at h
    obtain ⟨p0, h0, p1, h1, ⟨i, j⟩, hij, amp, hamp, r, hr, g, hg, ⟨⟩, hms, ⟨sh, mk⟩, hsp, pools, hpools, tw, htw, l2, g2, l3,
      g3, l4, g4, rfl, rfl⟩ := h
    exact ⟨rfl, rfl, rfl⟩
  have same : ∀ {P : Prop}, w'.owner = w.owner ∧ w'.amp = w.amp ∧ w'.share = w.share →
      w'.owner = w.owner ∧ ((w'.amp ≠ w.amp ∨ w'.share ≠ w.share) → P) := by
    rintro P ⟨h1, h2, h3⟩
    refine ⟨h1, ?_⟩
    rintro (hh | hh)
    · exact absurd h2 hh
    · exact absurd h3 hh
  cases t with
  | call e x funds m =>
    simp only [exec, bind_ok_iff, require_ok, exists_const] at h
    obtain ⟨⟨hs, _⟩, _, l1, h1, h2⟩ := h
    cases m with
    | receive u n ask b m r =>
      simp only [execute, bind_ok_iff, Except.ok.injEq] at h2
      obtain ⟨_, _, ⟨w2, out⟩, h, rfl⟩ := h2
      exact same (hsw h)
    | swap offer ask b m r =>
      simp only [execute, bind_ok_iff, Except.ok.injEq] at h2
      obtain ⟨_, _, _, _, _, _, ⟨w2, out⟩, h, rfl⟩ := h2
      exact same (hsw h)
    | provide assets minLp r =>
      simp only [execute, bind_ok_iff, Except.ok.injEq] at h2
      obtain ⟨⟨w2, sh⟩, h, rfl⟩ := h2
      unfold provideMsg at h
      simp only [bind_ok_iff, require_ok, exists_const, Except.ok.injEq, Prod.mk.injEq] at h
      obtain ⟨d, hd, ⟨⟩, hco, p0, hp0, p1, hp1, amp, hamp, sh, hsh, hmin, pools, hpools, tw, htw, l2, h2, l3, h3, rfl,
        rfl⟩ := h
      exact same ⟨rfl, rfl, rfl⟩
    | withdraw assets mins =>
      simp only [execute, bind_ok_iff, Except.ok.injEq] at h2
      obtain ⟨⟨w2, rs⟩, h, rfl⟩ := h2
      unfold withdrawMsg at h
      simp only [bind_ok_iff, require_ok, exists_const, Except.ok.injEq, Prod.mk.injEq] at h
      obtain ⟨co, hone, hden, r0, hr0, r1, hr1, _, ⟨⟩, hmin, pools, hpools, amp, hamp, tw, htw, l2, h2, l3, h3, l4, h4, sup,
        hsup, rfl, rfl⟩ := h
      exact same ⟨rfl, rfl, rfl⟩
    | updateConfig u =>
      simp only [execute, updateConfig, bind_ok_iff, require_ok, exists_const] at h2
      obtain ⟨hx, h2⟩ := h2
      refine ⟨?_, fun _ => ⟨e, funds, u, by rw [hx]⟩⟩
      cases u <;> simp only [bind_ok_iff, require_ok, exists_const, Except.ok.injEq] at h2
      · obtain ⟨a, _, rfl⟩ := h2
        rfl
      · obtain ⟨a, _, rfl⟩ := h2
        rfl
      · obtain ⟨_, rfl⟩ := h2
        rfl
      · subst h2
        rfl
  | send e token owner spender n ask b m r =>
    simp only [exec, execute, bind_ok_iff, require_ok, exists_const, Except.ok.injEq] at h
    obtain ⟨_, l1, hin, _, ⟨w2, out⟩, h, rfl⟩ := h
    exact same (hsw h)
  | transfer e j src dst n =>
    simp only [exec, bind_ok_iff, require_ok, exists_const, Except.ok.injEq] at h
    obtain ⟨_, l, h, rfl⟩ := h
    exact same ⟨rfl, rfl, rfl⟩
  | transferFrom e token owner spender dst n =>
    simp only [exec, bind_ok_iff, require_ok, exists_const, Except.ok.injEq] at h
    obtain ⟨_, l, h, rfl⟩ := h
    exact same ⟨rfl, rfl, rfl⟩
  | approve e token owner spender n =>
    simp only [exec, bind_ok_iff, require_ok, exists_const, Except.ok.injEq] at h
    obtain ⟨_, rfl⟩ := h
    exact same ⟨rfl, rfl, rfl⟩

/-- The chain when a pair has just been created: no LP token exists yet (`instantiate`, contracts/pair_stable/src/contract.rs:
63-130). -/
structure Fresh (c : Cfg A) (w : Chain A) (amp now : Nat) : Prop where
  supply : w.supply = 0
  lp : ∀ a, w.led.bank c.lp a = 0
  twap : w.twap = { cum := fun _ => 0, last := 0 }
  amp : initAmp amp now = .ok w.amp
  share : w.share = none

/-- **C162.**  On the chain: from the creation of the pair on, after any messages, what all LP holders together can redeem
is in the pair, and once there are LP tokens the first 1000 stay locked in it. -/
theorem C162_claims_covered_on_chain [Fintype A] (c : Cfg A) (hc : c.Ok) (w : Chain A) (amp t : Nat) (hw : Fresh c w amp t)
    (ts : List (Tx A)) (t0 : Nat) (ht : TimedTx t0 ts) :
    let w' := run c w ts
    w'.supply = ∑ a, w'.led.bank c.lp a ∧ (0 < w'.supply → 1000 ≤ w'.led.bank c.lp c.me) ∧
    ∀ q : Bool → A → Nat, (∀ a, queryShare c.me (view c w') (w'.led.bank c.lp a) = .ok (q false a, q true a)) →
      ∀ i, (∑ a, q i a) ≤ w'.led.of (c.infos i) c.me := by
  intro w'
  have hv : create (fun i => w.led.of (c.infos i)) w.owner amp t = .ok (view c w) := by
    unfold create view
    rw [hw.amp, hw.supply, hw.twap, hw.share, ok_bind]
    congr 2
    funext a
    exact (hw.lp a).symm
  obtain ⟨es, ho, _⟩ := C162_histories_are_pair_histories c hc w ts t0 ht
  change view c w' = _ at ho
  obtain ⟨h1, h2⟩ := C141_lp_supply_and_locked_minimum (setup c) c.me _ _ amp t _ es [] hv
  rw [← ho] at h1 h2
  have h3 := C141_claims_covered (setup c) c.me _ _ amp t _ es hv
  rw [← ho] at h3
  exact ⟨h1, fun hp => h2.1.resolve_left (Nat.pos_iff_ne_zero.1 hp), fun q hq i => h3 q hq i⟩

/-! ## The theorems apply -/

/-- A pool of a coin and of token 9. -/
def demoCfg : Cfg Nat :=
  { me := 0, infos := fun i => if i then .token ("t9".toList) else .native "uluna".toList, lp := "lp".toList
    addr := fun n => if n = 9 then "t9".toList else "x".toList, okAddr := fun _ => true, prec := fun _ => 6 }

theorem demo_ok : demoCfg.Ok := ⟨by decide, fun i => by cases i <;> decide⟩

def demoEnv (now : Nat) : Env Nat := ⟨now, 7, 3 * 10 ^ 15, 3 * 10 ^ 17, some 8⟩

def demoChain : Chain Nat :=
  { led := { bank := fun d a => if d = "uluna".toList ∧ a ∈ [1, 2, 3] then 10 ^ 12 else 0
             tok := fun t a => if t = "t9".toList ∧ a ∈ [1, 2, 3] then 10 ^ 12 else 0
             allow := fun t o s => if t = "t9".toList ∧ o = 1 ∧ s = 0 then 10 ^ 10 else 0 }
    supply := 0, twap := { cum := fun _ => 0, last := 0 }, amp := ⟨10000, 1, 10000, 1⟩, owner := none, share := none }

theorem demo_fresh : Fresh demoCfg demoChain 100 1 :=
  ⟨rfl, fun a => by simp [demoChain, demoCfg], rfl, by decide, rfl⟩

/-- Deposit, trade with coins (and with the wrong coins), trade with tokens, by the owner and by a spender without approval,
announce tokens that do not exist, withdraw, change the settings as the owner and as somebody else. -/
def demoTxs : List (Tx Nat) :=
  [.call (demoEnv 5) 1 [⟨"uluna".toList, 10 ^ 9⟩]
     (.provide [⟨.token "t9".toList, 4 * 10 ^ 9⟩, ⟨.native "uluna".toList, 10 ^ 9⟩] none none),
   .call (demoEnv 6) 2 [⟨"uluna".toList, 10 ^ 6⟩] (.swap ⟨.native "uluna".toList, 10 ^ 6⟩ none none (some (10 ^ 17)) none),
   .call (demoEnv 6) 2 [⟨"uluna".toList, 10 ^ 5⟩] (.swap ⟨.native "uluna".toList, 10 ^ 6⟩ none none (some (10 ^ 17)) none),
   .send (demoEnv 7) 9 3 3 (10 ^ 6) none none (some (10 ^ 17)) (some 4),
   .send (demoEnv 7) 9 2 3 (10 ^ 6) none none (some (10 ^ 17)) none,
   .call (demoEnv 7) 5 [] (.receive 5 (10 ^ 6) none none (some (10 ^ 17)) none),
   .call (demoEnv 8) 1 [⟨"lp".toList, 10 ^ 8⟩] (.withdraw [] none),
   .call (demoEnv 9) 7 [] (.updateConfig (.enableShare 500 4)),
   .call (demoEnv 9) 6 [] (.updateConfig .disableShare)]

example : TimedTx 1 demoTxs := by simp [TimedTx, demoTxs, Tx.env, demoEnv]

example : (List.range 9).map (fun n => (exec demoCfg (run demoCfg demoChain (demoTxs.take n)) (demoTxs.getD n
    (.approve (demoEnv 1) [] 1 0 0))).isOk) = [true, true, false, true, false, false, true, true, false] := by decide +kernel

example : let w := run demoCfg demoChain demoTxs
    w.led.bank "uluna".toList 0 < 10 ^ 9 ∧ 10 ^ 12 < w.led.tok "t9".toList 2 ∧ 0 < w.led.bank "uluna".toList 4 ∧
    w.led.bank "lp".toList 0 = 1000 ∧ w.led.allow "t9".toList 1 0 = 6 * 10 ^ 9 ∧ w.share = some (500, 4) := by decide +kernel

/-! ## C163 -/

/-- **C163, partial.**  A trade pays in the other asset of the pool, and in nothing else: no balance of any third asset
changes.
Missing: that a trade which names the asset it wants is refused when that asset is not the one paid
(`C163_asked_asset_ignored_violated`). -/
theorem C163_other_asset_paid_partial (c : Cfg A) (w w' : Chain A) (e : Env A) (x : A) (funds : List Coin)
    (offer : Asset.Asset) (ask : Option Info) (b m : Option Nat) (r : Option A)
    (h : exec c w (.call e x funds (.swap offer ask b m r)) = .ok w') :
    ∃ i, c.infos i = offer.info ∧ ∀ k, k ≠ offer.info → k ≠ c.infos (!i) → w'.led.of k = w.led.of k := by
  simp only [exec, execute, bind_ok_iff, require_ok, exists_const, Except.ok.injEq] at h
  obtain ⟨⟨hs, _⟩, _, l1, ha, _, _, hn, ⟨⟩, hsent, ⟨w2, out⟩, h, rfl⟩ := h
  unfold swapMsg at h
  simp only [bind_ok_iff, Except.ok.injEq, Prod.mk.injEq] at h
  obtain ⟨p0, h0, p1, h1, ⟨i, j⟩, hij, amp, hamp, r, hr, g, hg, ⟨⟩, hms, ⟨sh, mk⟩, hsp, pools, hpools, tw, htw, l2, g2, l3,
    g3, l4, g4, rfl, rfl⟩ := h
  obtain ⟨hi, rfl⟩ := select_some hij
  refine ⟨i, (label_some hi).symm, fun k h1 h2 => ?_⟩
  show l4.of k = _
  rw [(payNonzero_moved g4).other k h2, (payNonzero_moved g3).other k h2, (payNonzero_moved g2).other k h2]
  obtain ⟨o, n⟩ := offer
  cases o with
  | token t => simp [isNative] at hn
  | native d =>
    obtain ⟨rfl, _⟩ := (Asset.C67_single_coin d n funds).1 hsent
    simp only [attach, bind_ok_iff, Except.ok.injEq, exists_eq_right] at ha
    exact (move_moved ha).other k h1

/-- **C163.**  The asset asked for makes no difference to any message. -/
theorem C163_asked_asset_makes_no_difference (c : Cfg A) (w : Chain A) (e : Env A) (x : A) (funds : List Coin)
    (offer : Asset.Asset) (ask ask' : Option Info) (b m : Option Nat) (r : Option A) :
    exec c w (.call e x funds (.swap offer ask b m r)) = exec c w (.call e x funds (.swap offer ask' b m r)) := rfl

/-- **C163 is violated**: somebody offers LUNA asking for a coin that is not in the pool (or for LUNA itself), and is paid in
the pool's token. -/
theorem C163_asked_asset_ignored_violated :
    let w := run demoCfg demoChain (demoTxs.take 1)
    ∀ ask ∈ [Info.native "uusd".toList, .native "uluna".toList],
      let t : Tx Nat := .call (demoEnv 6) 2 [⟨"uluna".toList, 10 ^ 6⟩]
        (.swap ⟨.native "uluna".toList, 10 ^ 6⟩ (some ask) none (some (10 ^ 17)) none)
      okAnd (exec demoCfg w t) (fun w' => decide (w'.led.of ask 2 ≤ w.led.of ask 2 ∧
        w.led.tok "t9".toList 2 < w'.led.tok "t9".toList 2)) = true := by decide +kernel

end Verif.Stable.Entry
