import Verif.XYK.History
import Verif.XYK.Deposits
import Verif.Asset.Props

/-!
# Messages to a constant product pair (C160)

`XYK/Model.lean` describes what a pair does with a deposit, a withdrawal or an offer that has arrived.  Here the messages
themselves are modelled: any account may send any message with any coins, token contracts call the pair when somebody
sends them tokens, and the pair has to find out what really arrived.

Assumed of the world outside: the bank moves attached coins before the pair runs, and the cw20 tokens of the pool (not
other contracts) behave as cw20 tokens do: `Send` moves the tokens and then calls the recipient, naming the spender.
Simplified: `auto_stake` (see `Joint/AutoStake.lean`); texts that are not valid addresses or messages are refused before
they come here.
-/

namespace Verif.XYK.Entry

open Verif Verif.XYK
open Verif.Asset (Str Info Coin assertSent assertCoins sent declared)

set_option linter.unusedSectionVars false

variable {A : Type} [DecidableEq A]

/-- `Config` of the pair as far as it never changes (`PairInfo`, packages/astroport/src/asset.rs:600-615), and the address
of every account as text. -/
structure Cfg (A : Type) where
  me : A
  infos : Bool → Info
  /-- denom of the LP token -/
  lp : Str
  addr : A → Str
  /-- valid addresses -/
  okAddr : Str → Bool

/-- The balances of all coins and of all cw20 tokens, allowances (token, owner, spender), the supply of the LP token, and
the storage of the pair. -/
structure Chain (A : Type) where
  bank : Str → A → Nat
  tok : Str → A → Nat
  allow : Str → A → A → Nat
  supply : Nat
  twap : Twap
  tracked : Bool → Nat
  share : Option (Nat × A)

/-- The block time and what the factory answers (`query_fee_info`, packages/astroport/src/querier.rs:197-213, and its
owner). -/
structure Env (A : Type) where
  now : Nat
  owner : A
  total : Nat
  maker : Nat
  feeAddr : Option A

/-- The fees in force: those of the factory and the pair's own `fee_share`. -/
def fees (e : Env A) (w : Chain A) : Fees A := ⟨e.total, e.maker, e.feeAddr, w.share⟩

/-- The ledger of an asset. -/
def Chain.of (w : Chain A) : Info → A → Nat
  | .native d => w.bank d
  | .token t => w.tok t

/-- The chain with another ledger of an asset. -/
def Chain.set (w : Chain A) : Info → (A → Nat) → Chain A
  | .native d, l => { w with bank := Function.update w.bank d l }
  | .token t, l => { w with tok := Function.update w.tok t l }

/-- A transfer. -/
def Chain.move (w : Chain A) (k : Info) (src dst : A) (n : Nat) : Res (Chain A) := do
  let l ← Verif.move (w.of k) src dst n
  .ok (w.set k l)

/-- The bank: coins attached to a message. -/
def attach (w : Chain A) (src dst : A) : List Coin → Res (Chain A)
  | [] => .ok w
  | c :: cs => do
    let w ← w.move (.native c.denom) src dst c.amount
    attach w src dst cs

/-- Attached coins as the bank accepts them: each denom once, none zero. -/
def ValidFunds (funds : List Coin) : Prop := (funds.map Coin.denom).Nodup ∧ ∀ c ∈ funds, c.amount ≠ 0

instance (funds : List Coin) : Decidable (ValidFunds funds) := inferInstanceAs (Decidable (_ ∧ _))

/-- `is_native_token`, packages/astroport/src/asset.rs:486-491. -/
def isNative : Info → Bool
  | .native _ => true
  | .token _ => false

/-- `Asset::into_msg`, packages/astroport/src/asset.rs:183-202, and its execution: the bank refuses to send nothing. -/
def pay (c : Cfg A) (w : Chain A) (k : Info) (dst : A) (n : Nat) : Res (Chain A) := do
  require (¬ (isNative k = true ∧ n = 0)) (.invalid "invalid coins")
  w.move k c.me dst n

/-- The payments of `swap`, each skipped when there is nothing to pay: contracts/pair/src/contract.rs:681-684, 699-711,
716-724 with `calculate_maker_fee`, 886-900. -/
def payNonzero (c : Cfg A) (w : Chain A) (k : Info) (dst : Option A) (n : Nat) : Res (Chain A) :=
  match dst with
  | none => .ok w
  | some a => if n = 0 then .ok w else pay c w k a n

/-- `swap`, contracts/pair/src/contract.rs:616-774, with the messages it sends executed. -/
def swapMsg (c : Cfg A) (e : Env A) (w : Chain A) (funds : List Coin) (sender : A) (offer : Asset.Asset)
    (belief maxSpread : Option Nat) (dest : Option A) : Res (Chain A × SwapOut) := do
  assertSent offer funds
  let p0 ← (if c.infos false = offer.info then csub (w.of (c.infos false) c.me) offer.amount
    else .ok (w.of (c.infos false) c.me))
  let p1 ← (if c.infos true = offer.info then csub (w.of (c.infos true) c.me) offer.amount
    else .ok (w.of (c.infos true) c.me))
  let i ← (if offer.info = c.infos false then .ok false
    else if offer.info = c.infos true then .ok true else .error (.invalid "AssetMismatch") : Res Bool)
  let offerPool := if i then p1 else p0
  let askPool := if i then p0 else p1
  let r ← computeSwap offerPool askPool offer.amount e.total
  let gross ← u128 (r.ret + r.commission)
  assertMaxSpread belief maxSpread offer.amount gross r.spread
  let (shareAmt, maker) ← splitFees (fees e w) r.commission
  let tOff ← u128 (offerPool + offer.amount)
  let tAsk ← csub askPool (r.ret + maker + shareAmt)
  let tw ← accumulate w.twap e.now p0 p1
  let w1 : Chain A := { w with twap := tw, tracked := fun j => if j = i then tOff else tAsk }
  let w2 ← payNonzero c w1 (c.infos !i) (some (dest.getD sender)) r.ret
  let w3 ← payNonzero c w2 (c.infos !i) (w.share.map (·.2)) shareAmt
  let w4 ← payNonzero c w3 (c.infos !i) e.feeAddr maker
  .ok (w4, { ret := r.ret, spread := r.spread, commission := r.commission, makerFee := maker, feeShare := shareAmt })

/-- `TransferFrom` of a cw20 token (packages `cw20-base`): within the allowance. -/
def transferFrom (w : Chain A) (t : Str) (owner spender dst : A) (n : Nat) : Res (Chain A) := do
  let left ← csub (w.allow t owner spender) n
  let l ← Verif.move (w.tok t) owner dst n
  .ok { w with tok := Function.update w.tok t l
               allow := fun t' o s => if t' = t ∧ o = owner ∧ s = spender then left else w.allow t' o s }

/-- One pool of `provide_liquidity`, contracts/pair/src/contract.rs:376-397: a coin is already in the balance. -/
def poolBefore (c : Cfg A) (w : Chain A) (i : Bool) (d : Nat) : Res Nat :=
  if isNative (c.infos i) then csub (w.of (c.infos i) c.me) d else .ok (w.of (c.infos i) c.me)

/-- The deposit of one asset arrives: contracts/pair/src/contract.rs:379-390, executed. -/
def pull (c : Cfg A) (w : Chain A) (sender : A) (i : Bool) (d : Nat) : Res (Chain A) :=
  match c.infos i with
  | .native _ => .ok w
  | .token t => transferFrom w t sender c.me c.me d

/-- `provide_liquidity`, contracts/pair/src/contract.rs:351-456, with the messages it sends executed. -/
def provideMsg (c : Cfg A) (e : Env A) (w : Chain A) (funds : List Coin) (sender : A) (assets : List Asset.Asset)
    (tol minLp : Option Nat) (receiver : Option A) : Res (Chain A × Nat) := do
  let (d0, d1) ← getDeposits (assets.map fun a => (a.info, a.amount)) (c.infos false) (c.infos true)
  Asset.forAll (fun a => Asset.Info.check c.okAddr a.info) assets
  assertCoins funds assets [c.infos false, c.infos true]
  let p0 ← poolBefore c w false d0
  let p1 ← poolBefore c w true d1
  let share ← calculateShares d0 d1 p0 p1 w.supply tol
  let locked := if w.supply = 0 then minimumLiquidity else 0
  require (¬ share < minLp.getD 0) (.invalid "ProvideSlippageViolation")
  let t0 ← u128 (p0 + d0)
  let t1 ← u128 (p1 + d1)
  let tw ← accumulate w.twap e.now p0 p1
  let w1 : Chain A := { w with twap := tw, tracked := fun j => if j then t1 else t0 }
  let w2 ← pull c w1 sender false d0
  let w3 ← pull c w2 sender true d1
  -- `tf_mint_msg`: the locked part to the pair, the share to the receiver
  let lp := credit (credit (w3.bank c.lp) c.me locked) (receiver.getD sender) share
  .ok ({ w3 with bank := Function.update w3.bank c.lp lp, supply := w.supply + locked + share }, share)

/-- `cw_utils::one_coin`. -/
def oneCoin : List Coin → Res Coin
  | [x] => if x.amount = 0 then .error (.invalid "NoFunds") else .ok x
  | [] => .error (.invalid "NoFunds")
  | _ => .error (.invalid "MultipleDenoms")

/-- `withdraw_liquidity`, contracts/pair/src/contract.rs:507-577, with the messages it sends executed. -/
def withdrawMsg (c : Cfg A) (e : Env A) (w : Chain A) (funds : List Coin) (sender : A) (assets : List Asset.Asset)
    (mins : Option (List (Info × Nat))) : Res (Chain A × (Nat × Nat)) := do
  let x ← oneCoin funds
  require (x.denom = c.lp) (.invalid "MissingDenom")
  let r0 ← shareInAsset (w.of (c.infos false) c.me) x.amount w.supply
  let r1 ← shareInAsset (w.of (c.infos true) c.me) x.amount w.supply
  require (assets = []) (.invalid "Imbalanced withdraw is currently disabled")
  ensureMinAssets (c.infos false) (c.infos true) r0 r1 mins
  let t0 ← csub (w.of (c.infos false) c.me) r0
  let t1 ← csub (w.of (c.infos true) c.me) r1
  let tw ← accumulate w.twap e.now (w.of (c.infos false) c.me) (w.of (c.infos true) c.me)
  let w1 : Chain A := { w with twap := tw, tracked := fun j => if j then t1 else t0 }
  let w2 ← pay c w1 (c.infos false) sender r0
  let w3 ← pay c w2 (c.infos true) sender r1
  -- `tf_burn_msg`
  let lp ← debit (w3.bank c.lp) c.me x.amount
  let sup ← csub w.supply x.amount
  .ok ({ w3 with bank := Function.update w3.bank c.lp lp, supply := sup }, (r0, r1))

/-- `update_config`, contracts/pair/src/contract.rs:779-838. -/
def updateConfig (e : Env A) (w : Chain A) (sender : A) (share : Option (Nat × A)) : Res (Chain A) := do
  require (sender = e.owner) .unauthorized
  match share with
  | some (bps, _) => require (¬ (bps = 0 ∨ bps > 1000)) (.invalid "FeeShareOutOfBounds")
  | none => .ok ()
  .ok { w with share := share }

/-- `ExecuteMsg` (packages/astroport/src/pair.rs). -/
inductive Msg (A : Type) where
  | receive (sender : A) (amount : Nat) (belief maxSpread : Option Nat) (dest : Option A)
  | provide (assets : List Asset.Asset) (tol minLp : Option Nat) (receiver : Option A)
  | swap (offer : Asset.Asset) (belief maxSpread : Option Nat) (dest : Option A)
  | withdraw (assets : List Asset.Asset) (mins : Option (List (Info × Nat)))
  | updateConfig (share : Option (Nat × A))

/-- `execute`, contracts/pair/src/contract.rs:224-278, and `receive_cw20`, 283-328: `sender` calls with `funds` attached. -/
def execute (c : Cfg A) (e : Env A) (w : Chain A) (sender : A) (funds : List Coin) : Msg A → Res (Chain A)
  | .receive user amount belief maxSpread dest => do
    require (c.infos false = .token (c.addr sender) ∨ c.infos true = .token (c.addr sender)) .unauthorized
    let (w, _) ← swapMsg c e w funds user ⟨.token (c.addr sender), amount⟩ belief maxSpread dest
    .ok w
  | .provide assets tol minLp receiver => do
    let (w, _) ← provideMsg c e w funds sender assets tol minLp receiver
    .ok w
  | .swap offer belief maxSpread dest => do
    Asset.Info.check c.okAddr offer.info
    require (isNative offer.info = true) (.invalid "Cw20DirectSwap")
    let (w, _) ← swapMsg c e w funds sender offer belief maxSpread dest
    .ok w
  | .withdraw assets mins => do
    let (w, _) ← withdrawMsg c e w funds sender assets mins
    .ok w
  | .updateConfig share => updateConfig e w sender share

/-- What can happen on the chain.  `send` is `Send` (or, by a spender, `SendFrom`) of any cw20 token to the pair with a
swap message. -/
inductive Tx (A : Type) where
  | call (e : Env A) (sender : A) (funds : List Coin) (m : Msg A)
  | send (e : Env A) (token owner spender : A) (amount : Nat) (belief maxSpread : Option Nat) (dest : Option A)
  | transfer (k : Info) (src dst : A) (n : Nat)
  | transferFrom (token : Str) (owner spender dst : A) (n : Nat)
  | approve (token : Str) (owner spender : A) (n : Nat)

/-- One transaction.  Any account but the pair and the token contracts of the pool may call anything. -/
def exec (c : Cfg A) (w : Chain A) : Tx A → Res (Chain A)
  | .call e sender funds m => do
    require (sender ≠ c.me ∧ c.infos false ≠ .token (c.addr sender) ∧ c.infos true ≠ .token (c.addr sender)) .unauthorized
    require (ValidFunds funds) (.invalid "invalid coins")
    let w ← attach w sender c.me funds
    execute c e w sender funds m
  | .send e token owner spender amount belief maxSpread dest => do
    require (owner ≠ c.me ∧ spender ≠ c.me) .unauthorized
    let w ← (if owner = spender then w.move (.token (c.addr token)) owner c.me amount
      else transferFrom w (c.addr token) owner spender c.me amount)
    execute c e w token [] (.receive spender amount belief maxSpread dest)
  | .transfer k src dst n => do
    require (src ≠ c.me) .unauthorized
    w.move k src dst n
  | .transferFrom token owner spender dst n => do
    require (owner ≠ c.me ∧ spender ≠ c.me) .unauthorized
    transferFrom w token owner spender dst n
  | .approve token owner spender n => do
    require (owner ≠ c.me) .unauthorized
    .ok { w with allow := fun t o s => if t = token ∧ o = owner ∧ s = spender then n else w.allow t o s }

/-- Reverting step. -/
def step (c : Cfg A) (w : Chain A) (t : Tx A) : Chain A := commit' w (exec c w t)

/-- History. -/
def run (c : Cfg A) (w : Chain A) (ts : List (Tx A)) : Chain A := ts.foldl (step c) w

/-! ## Lemmas -/

theorem move_zero (l : A → Nat) (a b : A) : Verif.move l a b 0 = .ok l := by
  refine move_ok.2 ⟨l, debit_ok.2 ⟨Nat.zero_le _, by simp⟩, ?_⟩
  simp [credit]

theorem move_move {l l₁ l₂ : A → Nat} {a b : A} (hab : a ≠ b) {m n : Nat} (h1 : Verif.move l a b m = .ok l₁)
    (h2 : Verif.move l₁ a b n = .ok l₂) : Verif.move l a b (m + n) = .ok l₂ := by
  have hm := move_le h1
  have hn := move_le h2
  have e1 := move_apply h1
  have e2 := move_apply h2
  have ha := e1 a
  rw [if_pos rfl, if_neg hab] at ha
  obtain ⟨l', h⟩ := move_succeeds (l := l) (a := a) (b := b) (n := m + n) (by omega)
  rw [h]
  congr 1
  funext x
  rw [move_apply h, e2, e1]
  by_cases hx : x = a
  · have hxb : x ≠ b := fun e => hab (hx.symm.trans e)
    simp only [if_pos hx, if_neg hxb]
    omega
  · simp only [if_neg hx]
    split_ifs <;> omega

/-- Everything but the ledgers is the same. -/
structure Rest (w w' : Chain A) : Prop where
  supply : w'.supply = w.supply
  twap : w'.twap = w.twap
  tracked : w'.tracked = w.tracked
  share : w'.share = w.share

theorem Rest.refl (w : Chain A) : Rest w w := ⟨rfl, rfl, rfl, rfl⟩

theorem Rest.trans {w w' w'' : Chain A} (h : Rest w w') (g : Rest w' w'') : Rest w w'' :=
  ⟨g.supply.trans h.supply, g.twap.trans h.twap, g.tracked.trans h.tracked, g.share.trans h.share⟩

/-- A transfer of one asset (to nobody: none) and nothing else. -/
structure Moved (w : Chain A) (k : Info) (src : A) (dst : Option A) (n : Nat) (w' : Chain A) : Prop where
  move : sendOpt (w.of k) src dst n = .ok (w'.of k)
  other : ∀ j, j ≠ k → w'.of j = w.of j
  rest : Rest w w'

theorem of_set (w : Chain A) (k j : Info) (l : A → Nat) : (w.set k l).of j = if j = k then l else w.of j := by
  cases k <;> cases j <;> simp [Chain.set, Chain.of, Function.update_apply]

theorem rest_set (w : Chain A) (k : Info) (l : A → Nat) : Rest w (w.set k l) := by
  cases k <;> exact ⟨rfl, rfl, rfl, rfl⟩

theorem moved_set {w : Chain A} {k : Info} {src dst : A} {n : Nat} {l : A → Nat}
    (h : Verif.move (w.of k) src dst n = .ok l) : Moved w k src (some dst) n (w.set k l) :=
  ⟨by rw [of_set, if_pos rfl]; exact h, fun j hj => by rw [of_set, if_neg hj], rest_set w k l⟩

theorem move_moved {w w' : Chain A} {k : Info} {src dst : A} {n : Nat} (h : w.move k src dst n = .ok w') :
    Moved w k src (some dst) n w' := by
  simp only [Chain.move, bind_ok_iff, Except.ok.injEq] at h
  obtain ⟨l, h1, rfl⟩ := h
  exact moved_set h1

theorem pay_moved {c : Cfg A} {w w' : Chain A} {k : Info} {dst : A} {n : Nat} (h : pay c w k dst n = .ok w') :
    Moved w k c.me (some dst) n w' := by
  simp only [pay, bind_ok_iff, require_ok, exists_const] at h
  exact move_moved h.2

theorem payNonzero_moved {c : Cfg A} {w w' : Chain A} {k : Info} {dst : Option A} {n : Nat}
    (h : payNonzero c w k dst n = .ok w') : Moved w k c.me dst n w' := by
  unfold payNonzero at h
  cases dst with
  | none =>
    simp only [Except.ok.injEq] at h
    subst h
    exact ⟨rfl, fun _ _ => rfl, Rest.refl w⟩
  | some a =>
    simp only at h
    by_cases hn : n = 0
    · rw [if_pos hn, Except.ok.injEq] at h
      subst h
      subst hn
      exact ⟨move_zero _ _ _, fun _ _ => rfl, Rest.refl w⟩
    · rw [if_neg hn] at h
      exact pay_moved h

theorem transferFrom_moved {w w' : Chain A} {t : Str} {owner spender dst : A} {n : Nat}
    (h : transferFrom w t owner spender dst n = .ok w') : Moved w (.token t) owner (some dst) n w' := by
  simp only [transferFrom, bind_ok_iff, csub_ok, Except.ok.injEq] at h
  obtain ⟨left, ⟨_, rfl⟩, l, h1, rfl⟩ := h
  refine ⟨?_, ?_, ⟨rfl, rfl, rfl, rfl⟩⟩
  · simp only [Chain.of, Function.update_self]
    exact h1
  · intro j hj
    cases j with
    | native d => rfl
    | token t' =>
      have : t' ≠ t := fun e => hj (by rw [e])
      simp [Chain.of, this]

theorem sent_cons (x : Coin) (xs : List Coin) (d : Str) :
    sent (x :: xs) d = (if x.denom = d then x.amount else 0) + sent xs d := by
  unfold sent
  by_cases h : x.denom = d <;> simp [h]

theorem attach_spec {src dst : A} (hne : src ≠ dst) : ∀ {funds : List Coin} {w w' : Chain A},
    attach w src dst funds = .ok w' →
    (∀ d, Verif.move (w.bank d) src dst (sent funds d) = .ok (w'.bank d)) ∧ w'.tok = w.tok ∧ Rest w w'
  | [], w, w', h => by
    simp only [attach, Except.ok.injEq] at h
    subst h
    exact ⟨fun d => move_zero _ _ _, rfl, Rest.refl w⟩
  | x :: xs, w, w', h => by
    simp only [attach, bind_ok_iff] at h
    obtain ⟨w1, h1, h2⟩ := h
    obtain ⟨i1, i2, i3⟩ := attach_spec hne h2
    have m := move_moved h1
    refine ⟨fun d => ?_, ?_, m.rest.trans i3⟩
    · rw [sent_cons]
      by_cases hd : x.denom = d
      · rw [if_pos hd]
        subst hd
        exact move_move hne m.move (i1 _)
      · rw [if_neg hd, Nat.zero_add]
        have := m.other (.native d) (by simpa using fun e => hd e.symm)
        have e : w1.bank d = w.bank d := this
        rw [← e]
        exact i1 d
    · funext t
      rw [i2]
      exact m.other (.token t) (by simp)

/-- What the pair's own transactions see of the chain. -/
def view (c : Cfg A) (w : Chain A) : State A :=
  { bal := fun i => w.of (c.infos i), lp := w.bank c.lp, supply := w.supply, twap := w.twap, tracked := w.tracked }

/-- The two assets differ, and neither is the LP token. -/
structure Cfg.Ok (c : Cfg A) : Prop where
  ne : c.infos false ≠ c.infos true
  lp : ∀ i, c.infos i ≠ .native c.lp

/-- Which of the two assets. -/
def label (c : Cfg A) (k : Info) : Option Bool :=
  if k = c.infos false then some false else if k = c.infos true then some true else none

/-- A plain transfer, as the pair's ledgers see it. -/
def transferOps (c : Cfg A) (k : Info) (src dst : A) (n : Nat) : List (Op A) :=
  match label c k with
  | some i => [.send i src dst n]
  | none => if k = .native c.lp then [.sendLp src dst n] else []

/-- **Specification.**  What a transaction on the chain means for the pair: a deposit of exactly the declared amounts, a
withdrawal of the LP coins that were attached, a trade of exactly the offered amount *paid by the account whose coins or
tokens moved*, or plain transfers. -/
def meaning (c : Cfg A) (w : Chain A) : Tx A → List (Op A)
  | .call e x _ (.provide assets tol minLp r) =>
    [.provide e.now x (declared assets (c.infos false)) (declared assets (c.infos true)) tol minLp (r.getD x)]
  | .call e x _ (.swap offer b m r) =>
    match label c offer.info with
    | some i => [.swap e.now x i offer.amount b m (r.getD x) (fees e w)]
    | none => []
  | .call e x funds (.withdraw _ mins) =>
    [.withdraw e.now x (sent funds c.lp) (mins.map fun l => l.map fun a => (decide (a.1 = c.infos true), a.2))]
  | .call _ x funds (.updateConfig _) => funds.flatMap fun a => transferOps c (.native a.denom) x c.me a.amount
  | .call _ _ _ (.receive ..) => []
  | .send e t owner spender n b m r =>
    match label c (.token (c.addr t)) with
    | some i => [.swap e.now owner i n b m (r.getD spender) (fees e w)]
    | none => []
  | .transfer k src dst n => transferOps c k src dst n
  | .transferFrom t owner _ dst n => transferOps c (.token t) owner dst n
  | .approve .. => []

theorem label_infos {c : Cfg A} (hc : c.Ok) (i : Bool) : label c (c.infos i) = some i := by
  cases i
  · simp [label]
  · simp [label, hc.ne.symm]

theorem label_some {c : Cfg A} {k : Info} {i : Bool} (h : label c k = some i) : k = c.infos i := by
  unfold label at h
  split_ifs at h <;> simp_all

theorem infos_inj {c : Cfg A} (hc : c.Ok) {i j : Bool} (h : c.infos i = c.infos j) : i = j := by
  have := congrArg (label c) h
  rw [label_infos hc, label_infos hc] at this
  simpa using this

theorem transfer_meaning {c : Cfg A} (hc : c.Ok) {w w' : Chain A} {k : Info} {src dst : A} {n : Nat}
    (hs : src ≠ c.me) (m : Moved w k src (some dst) n w') :
    (transferOps c k src dst n).foldlM (XYK.exec c.me) (view c w) = .ok (view c w') := by
  obtain ⟨r1, r2, r3, r4⟩ := m.rest
  unfold transferOps
  have hm := m.move
  simp only [sendOpt] at hm
  have hlp : k ≠ .native c.lp → w'.bank c.lp = w.bank c.lp := fun hk => m.other (.native c.lp) (Ne.symm hk)
  split
  · rename_i i hi
    have hk := label_some hi
    subst hk
    simp only [List.foldlM_cons, List.foldlM_nil, bind_ok_iff, pure_eq_ok, Except.ok.injEq, exists_eq_right]
    unfold XYK.exec
    simp only [bind_ok_iff, Except.ok.injEq]
    refine ⟨(), (require_ok _ _ _).2 hs, _, hm, ?_⟩
    unfold view
    simp only [hlp (hc.lp i), r1, r2, r3]
    congr 1
    funext j
    by_cases hj : j = i
    · rw [if_pos hj, hj]
    · rw [if_neg hj]
      exact (m.other _ fun e => hj (infos_inj hc e)).symm
  · rename_i hl
    have hb : ∀ i, w'.of (c.infos i) = w.of (c.infos i) := fun i => m.other _ (by
      rintro rfl
      rw [label_infos hc] at hl
      simp at hl)
    split_ifs with hk
    · subst hk
      simp only [List.foldlM_cons, List.foldlM_nil, bind_ok_iff, pure_eq_ok, Except.ok.injEq, exists_eq_right]
      unfold XYK.exec
      simp only [bind_ok_iff, Except.ok.injEq]
      refine ⟨(), (require_ok _ _ _).2 hs, _, hm, ?_⟩
      unfold view
      simp only [hb, r1, r2, r3]
      rfl
    · simp only [List.foldlM_nil, pure_eq_ok, Except.ok.injEq]
      unfold view
      simp only [hb, r1, r2, r3, hlp hk]

theorem foldlM_append_ok {σ α : Type} {f : σ → α → Res σ} {xs ys : List α} {s s' s'' : σ}
    (h1 : xs.foldlM f s = .ok s') (h2 : ys.foldlM f s' = .ok s'') : (xs ++ ys).foldlM f s = .ok s'' := by
  rw [List.foldlM_append, h1]
  exact h2

theorem attach_meaning {c : Cfg A} (hc : c.Ok) {x : A} (hs : x ≠ c.me) : ∀ {funds : List Coin} {w w' : Chain A},
    attach w x c.me funds = .ok w' →
    (funds.flatMap fun a => transferOps c (.native a.denom) x c.me a.amount).foldlM (XYK.exec c.me) (view c w) =
      .ok (view c w')
  | [], w, w', h => by
    simp only [attach, Except.ok.injEq] at h
    subst h
    rfl
  | a :: as, w, w', h => by
    simp only [attach, bind_ok_iff] at h
    obtain ⟨w1, h1, h2⟩ := h
    rw [List.flatMap_cons]
    exact foldlM_append_ok (transfer_meaning hc hs (move_moved h1)) (attach_meaning hc hs h2)

/-! ### Trades -/

/-- A trade on coins or tokens that have just arrived. -/
theorem swap_meaning {c : Cfg A} (hc : c.Ok) {e : Env A} {w w1 w' : Chain A} {funds : List Coin} {payer sender : A}
    {offer : Asset.Asset} {belief maxSpread : Option Nat} {dest : Option A} {out : SwapOut}
    (hin : Moved w offer.info payer (some c.me) offer.amount w1)
    (h : swapMsg c e w1 funds sender offer belief maxSpread dest = .ok (w', out)) :
    ∃ i, label c offer.info = some i ∧
      XYK.swap c.me (view c w) e.now payer i offer.amount belief maxSpread (dest.getD sender) (fees e w) =
        .ok (view c w', out) := by
  unfold swapMsg at h
  simp only [bind_ok_iff, Except.ok.injEq, Prod.mk.injEq] at h
  obtain ⟨_, _, p0, h0, p1, h1, i, hi, r, hr, g, hg, ⟨⟩, hms, ⟨sh, mk⟩, hsp, tO, hO, tA, hA, tw, htw, w2, g2, w3, g3, w4, g4,
    rfl, rfl⟩ := h
  have hk : offer.info = c.infos i := by
    split_ifs at hi <;> simp_all
  have hm := hin.move
  rw [hk] at hm hin
  simp only [sendOpt] at hm
  have hother : ∀ j, j ≠ i → w1.of (c.infos j) = w.of (c.infos j) := fun j hj =>
    hin.other _ fun e => hj (infos_inj hc e)
  refine ⟨i, by rw [hk]; exact label_infos hc i, ?_⟩
  have m2 := payNonzero_moved g2
  have m3 := payNonzero_moved g3
  have m4 := payNonzero_moved g4
  have rr := (m2.rest.trans m3.rest).trans m4.rest
  have hne : ∀ j, j = i → c.infos j ≠ c.infos (!i) := by
    rintro j rfl e
    have := infos_inj hc e
    cases j <;> simp at this
  -- the pools
  have hpo : csub (w1.of (c.infos i) c.me) offer.amount = .ok (if i then p1 else p0) := by
    cases i
    · rw [if_pos hk.symm] at h0
      exact h0
    · rw [if_pos hk.symm] at h1
      exact h1
  have hpa : w.of (c.infos (!i)) c.me = if i then p0 else p1 := by
    rw [← hother (!i) (by cases i <;> simp)]
    cases i
    · rw [if_neg (by rw [hk]; exact hc.ne.symm), Except.ok.injEq] at h1
      exact h1
    · rw [if_neg (by rw [hk]; exact hc.ne), Except.ok.injEq] at h0
      exact h0
  have hshare : w1.share = w.share := hin.rest.share
  have hfees : fees e w1 = fees e w := by unfold fees; rw [hshare]
  unfold XYK.swap
  simp only [bind_ok_iff, Except.ok.injEq, Prod.mk.injEq]
  have ea : (view c w).bal (!i) = w.of (c.infos (!i)) := rfl
  refine ⟨_, hm, _, hpo, r, ?_, g, hg, (), hms, (sh, mk), ?_, ?_⟩
  · rw [ea, hpa]
    exact hr
  · rw [← hfees]
    exact hsp
  refine ⟨w2.of (c.infos (!i)), ?_, w3.of (c.infos (!i)), ?_, w4.of (c.infos (!i)), ?_, tO, hO, tA, ?_, tw, ?_, ?_, rfl⟩
  · rw [ea, ← hother (!i) (by cases i <;> simp)]
    exact m2.move
  · have := m3.move
    rw [hshare] at this
    exact this
  · exact m4.move
  · rw [ea, hpa]
    exact hA
  · rw [ea, hpa]
    have e0 : (if i then (if i then p0 else p1) else (if i then p1 else p0)) = p0 := by cases i <;> rfl
    have e1 : (if i then (if i then p1 else p0) else (if i then p0 else p1)) = p1 := by cases i <;> rfl
    rw [e0, e1]
    have := hin.rest.twap
    show accumulate w.twap e.now p0 p1 = .ok tw
    rw [← this]
    exact htw
  · have hb : ∀ j, j ≠ c.infos (!i) → w4.of j = w1.of j := fun j hj =>
      (m4.other j hj).trans ((m3.other j hj).trans (m2.other j hj))
    have hlp : w4.bank c.lp = w.bank c.lp :=
      (hb (.native c.lp) (hc.lp _).symm).trans (hin.other (.native c.lp) (hc.lp _).symm)
    unfold view
    simp only
    rw [hlp, rr.supply, rr.twap, rr.tracked]
    have hsup : w1.supply = w.supply := hin.rest.supply
    simp only [hsup]
    congr 1
    funext j
    by_cases hj : j = i
    · rw [if_pos hj, ← hj]
      exact (hb _ (by rw [hj]; exact hne i rfl)).symm
    · rw [if_neg hj]
      have : j = !i := by cases i <;> cases j <;> simp_all
      rw [this]

/-! ### Deposits and withdrawals -/

/-- One asset of a deposit: either its coins are there already, or the tokens are fetched. -/
theorem deposit_asset {c : Cfg A} {w w1 w2 w3 : Chain A} {funds : List Coin} {x : A} {i : Bool} {d p : Nat}
    (hs : x ≠ c.me) (hbank : ∀ d, Verif.move (w.bank d) x c.me (sent funds d) = .ok (w1.bank d))
    (htok : w1.tok = w.tok) (hd : ∀ k, c.infos i = .native k → sent funds k = d)
    (hp : poolBefore c w1 i d = .ok p) (h2 : w2.of (c.infos i) = w1.of (c.infos i))
    (h : pull c w2 x i d = .ok w3) :
    ∃ b, Verif.move (w.of (c.infos i)) x c.me d = .ok b ∧ csub (b c.me) d = .ok p ∧ w3.of (c.infos i) = b := by
  unfold pull at h
  unfold poolBefore at hp
  generalize c.infos i = k at *
  cases k with
  | native k =>
    simp only [Except.ok.injEq] at h
    subst h
    have := hbank k
    rw [hd k rfl] at this
    refine ⟨_, this, hp, ?_⟩
    exact h2
  | token t =>
    simp only at h
    have m := transferFrom_moved h
    have hm := m.move
    simp only [sendOpt] at hm
    have hw : w2.of (.token t) = w.of (.token t) := by
      rw [h2]
      exact congrFun htok t
    rw [hw] at hm
    refine ⟨_, hm, ?_, rfl⟩
    have := move_apply hm c.me
    rw [if_neg (Ne.symm hs), if_pos rfl] at this
    rw [this, csub_ok]
    simp only [isNative, Bool.false_eq_true, if_false, Except.ok.injEq] at hp
    have e : w1.of (.token t) = w.of (.token t) := congrFun htok t
    rw [e] at hp
    exact ⟨Nat.le_add_left _ _, by rw [Nat.add_sub_cancel]; exact hp⟩

theorem pull_other {c : Cfg A} {w w' : Chain A} {x : A} {i : Bool} {d : Nat} (h : pull c w x i d = .ok w') :
    (∀ j, j ≠ c.infos i → w'.of j = w.of j) ∧ w'.bank = w.bank ∧ Rest w w' := by
  unfold pull at h
  generalize c.infos i = k at *
  cases k with
  | native k =>
    simp only [Except.ok.injEq] at h
    subst h
    exact ⟨fun _ _ => rfl, rfl, Rest.refl _⟩
  | token t =>
    have m := transferFrom_moved h
    exact ⟨m.other, funext fun d => m.other (.native d) (by simp), m.rest⟩

theorem of_infos {c : Cfg A} (hc : c.Ok) {v w : Chain A} (ht : v.tok = w.tok)
    (hb : ∀ d, d ≠ c.lp → v.bank d = w.bank d) (i : Bool) : v.of (c.infos i) = w.of (c.infos i) := by
  have := hc.lp i
  generalize c.infos i = k at *
  cases k with
  | native k => exact hb k fun e => this (by rw [e])
  | token t => exact congrFun ht t

theorem declared_two {c : Cfg A} (hc : c.Ok) {assets : List Asset.Asset} {a b : Nat}
    (h : getDeposits (assets.map fun a => (a.info, a.amount)) (c.infos false) (c.infos true) = .ok (a, b)) :
    a ≠ 0 ∧ b ≠ 0 ∧ declared assets (c.infos false) = a ∧ declared assets (c.infos true) = b ∧
      ∀ i, ∃ x ∈ assets, x.info = c.infos i := by
  obtain ⟨ha, hb, h⟩ := (C91_deposits_name_each_asset_once _ _ _ hc.ne a b).1 h
  refine ⟨ha, hb, ?_⟩
  have hl : assets.length = 2 := by
    rcases h with h | h <;> simpa using congrArg List.length h
  obtain ⟨⟨k, m⟩, ⟨l, n⟩, rfl⟩ := List.length_eq_two.1 hl
  simp only [List.map_cons, List.map_nil, List.cons.injEq, Prod.mk.injEq, and_true] at h
  rcases h with ⟨⟨rfl, rfl⟩, rfl, rfl⟩ | ⟨⟨rfl, rfl⟩, rfl, rfl⟩
  · refine ⟨by simp [declared, hc.ne.symm], by simp [declared, hc.ne], fun i => ?_⟩
    cases i
    · exact ⟨_, List.mem_cons_self, rfl⟩
    · exact ⟨_, List.mem_cons_of_mem _ List.mem_cons_self, rfl⟩
  · refine ⟨by simp [declared, hc.ne.symm], by simp [declared, hc.ne], fun i => ?_⟩
    cases i
    · exact ⟨_, List.mem_cons_of_mem _ List.mem_cons_self, rfl⟩
    · exact ⟨_, List.mem_cons_self, rfl⟩

theorem provide_meaning {c : Cfg A} (hc : c.Ok) {e : Env A} {w w1 w' : Chain A} {funds : List Coin} {x : A}
    {assets : List Asset.Asset} {tol minLp : Option Nat} {r : Option A} {share : Nat} (hs : x ≠ c.me)
    (hf : ValidFunds funds) (ha : attach w x c.me funds = .ok w1)
    (h : provideMsg c e w1 funds x assets tol minLp r = .ok (w', share)) :
    XYK.provide c.me (view c w) e.now x (declared assets (c.infos false)) (declared assets (c.infos true)) tol minLp
      (r.getD x) = .ok (view c w', share) := by
  obtain ⟨hbank, htok, hrest⟩ := attach_spec hs ha
  unfold provideMsg at h
  simp only [bind_ok_iff, require_ok, exists_const, Except.ok.injEq, Prod.mk.injEq] at h
  obtain ⟨⟨d0, d1⟩, hd, ⟨⟩, hchk, ⟨⟩, hco, p0, hp0, p1, hp1, sh, hsh, hmin, t0, ht0, t1, ht1, tw, htw, w2, h2, w3, h3, rfl,
    rfl⟩ := h
  obtain ⟨n0, n1, e0, e1, hall⟩ := declared_two hc hd
  have hsent := Asset.C67_sent_equals_declared_partial funds assets _ hf.1 (by
    intro k hk
    simp only [List.mem_cons, List.not_mem_nil, or_false] at hk
    rcases hk with hk | hk
    · obtain ⟨y, hy, he⟩ := hall false
      exact ⟨y, hy, he.trans hk.symm⟩
    · obtain ⟨y, hy, he⟩ := hall true
      exact ⟨y, hy, he.trans hk.symm⟩) hco
  obtain ⟨o2, b2, r2⟩ := pull_other h2
  obtain ⟨o3, b3, r3⟩ := pull_other h3
  have rr := r2.trans r3
  obtain ⟨b0, m0, c0, f0⟩ := deposit_asset (i := false) (w2 := { w1 with twap := tw, tracked := fun j => if j then t1 else t0 })
    hs hbank htok (fun k hk => by rw [hsent, ← hk, e0]) hp0 (by cases c.infos false <;> rfl) h2
  obtain ⟨b1, m1, c1, f1⟩ := deposit_asset (i := true) (w2 := w2) hs hbank htok
    (fun k hk => by rw [hsent, ← hk, e1]) hp1 (by rw [o2 _ hc.ne.symm]; cases c.infos true <;> rfl) h3
  have hlp0 : w1.bank c.lp = w.bank c.lp := by
    have := hbank c.lp
    rw [hsent, Asset.declared_of_not_mem, move_zero, Except.ok.injEq] at this
    · exact this.symm
    · intro y hy he
      have := (Asset.C67_declared_was_sent funds assets _ hf.1 hco).2.1 y hy
      simp only [List.mem_cons, List.not_mem_nil, or_false] at this
      rcases this with h | h
      · exact hc.lp false (h.symm.trans he)
      · exact hc.lp true (h.symm.trans he)
  have hlp : w3.bank c.lp = w.bank c.lp := by rw [b3, b2]; exact hlp0
  unfold XYK.provide
  simp only [bind_ok_iff, require_ok, exists_const, Except.ok.injEq, Prod.mk.injEq]
  rw [e0, e1]
  have hsup : w1.supply = w.supply := hrest.supply
  have htwap : w1.twap = w.twap := hrest.twap
  refine ⟨by simp [n0, n1], b0, m0, b1, m1, p0, c0, p1, c1, sh, ?_, hmin, t0, ht0, t1, ht1, tw, ?_, ?_, rfl⟩
  · rw [hsup] at hsh
    exact hsh
  · rw [htwap] at htw
    exact htw
  · unfold view
    simp only [Function.update_self, hlp, hsup, rr.twap, rr.tracked]
    congr 1
    funext j
    symm
    refine Eq.trans (of_infos hc (w := w3) ?_ ?_ j) ?_
    · rfl
    · exact fun d hd => Function.update_of_ne hd _ _
    cases j
    · rw [o3 _ hc.ne]
      exact f0
    · exact f1

theorem ensure_label {c : Cfg A} (hc : c.Ok) {r0 r1 : Nat} {mins : Option (List (Info × Nat))}
    (h : ensureMinAssets (c.infos false) (c.infos true) r0 r1 mins = .ok ()) :
    ensureMinAssets false true r0 r1 (mins.map fun l => l.map fun a => (decide (a.1 = c.infos true), a.2)) = .ok () := by
  match mins, h with
  | none, _ => rfl
  | some [], h => simp [ensureMinAssets] at h
  | some [_], h => simp [ensureMinAssets] at h
  | some (_ :: _ :: _ :: _), h => simp [ensureMinAssets] at h
  | some [(i, m), (j, n)], h =>
    simp only [ensureMinAssets, bind_ok_iff, require_ok, exists_const] at h
    obtain ⟨hi, hj, h⟩ := h
    simp only [ensureMinAssets, Option.map_some, List.map_cons, List.map_nil, bind_ok_iff, require_ok, exists_const]
    refine ⟨by cases decide (i = c.infos true) <;> simp, by cases decide (j = c.infos true) <;> simp, ?_⟩
    rcases hi with rfl | rfl
    · rw [decide_eq_false hc.ne]
      simpa using h
    · rw [decide_eq_true rfl]
      simpa [hc.ne] using h

theorem withdraw_meaning {c : Cfg A} (hc : c.Ok) {e : Env A} {w w1 w' : Chain A} {funds : List Coin} {x : A}
    {assets : List Asset.Asset} {mins : Option (List (Info × Nat))} {rs : Nat × Nat} (hs : x ≠ c.me)
    (ha : attach w x c.me funds = .ok w1) (h : withdrawMsg c e w1 funds x assets mins = .ok (w', rs)) :
    XYK.withdraw c.me (view c w) e.now x (sent funds c.lp)
      (mins.map fun l => l.map fun a => (decide (a.1 = c.infos true), a.2)) = .ok (view c w', rs) := by
  obtain ⟨hbank, htok, hrest⟩ := attach_spec hs ha
  unfold withdrawMsg at h
  simp only [bind_ok_iff, require_ok, exists_const, Except.ok.injEq, Prod.mk.injEq] at h
  obtain ⟨co, hone, hden, r0, hr0, r1, hr1, _, ⟨⟩, hmin, t0, ht0, t1, ht1, tw, htw, w2, h2, w3, h3, lp, hlp, sup, hsup, rfl,
    rfl⟩ := h
  have hfunds : funds = [co] ∧ co.amount ≠ 0 := by
    unfold oneCoin at hone
    split at hone
    · split_ifs at hone with hz
      simp only [Except.ok.injEq] at hone
      subst hone
      exact ⟨rfl, hz⟩
    · simp at hone
    · simp at hone
  obtain ⟨rfl, hz⟩ := hfunds
  have hsent : sent [co] c.lp = co.amount := by simp [sent, hden]
  have hof : ∀ i, w1.of (c.infos i) = w.of (c.infos i) := by
    intro i
    have hi := hc.lp i
    generalize c.infos i = k at *
    cases k with
    | native k =>
      have hk : co.denom ≠ k := fun e => hi (by rw [← e, hden])
      have := hbank k
      have z : sent [co] k = 0 := by simp [sent, hk]
      rw [z, move_zero, Except.ok.injEq] at this
      exact this.symm
    | token t => exact congrFun htok t
  have m2 := pay_moved h2
  have m3 := pay_moved h3
  have rr := m2.rest.trans m3.rest
  have hb3 : w3.bank c.lp = w1.bank c.lp :=
    (m3.other (.native c.lp) (hc.lp _).symm).trans (m2.other (.native c.lp) (hc.lp _).symm)
  have hs1 : w1.supply = w.supply := hrest.supply
  have ht1' : w1.twap = w.twap := hrest.twap
  have hofw : ∀ k, Chain.of { w1 with twap := tw, tracked := fun j => if j then t1 else t0 } k = w1.of k := by
    intro k
    cases k <;> rfl
  have hlp1 := hbank c.lp
  rw [hsent] at hlp1 ⊢
  rw [hof, hs1] at hr0 hr1
  rw [hof] at ht0 ht1
  rw [hof, hof, ht1'] at htw
  unfold XYK.withdraw
  simp only [bind_ok_iff, require_ok, exists_const, Except.ok.injEq, Prod.mk.injEq]
  refine ⟨hz, _, hlp1, r0, hr0, r1, hr1, (), ensure_label hc hmin, t0, ht0, t1, ht1, tw, htw, w2.of (c.infos false), ?_,
    w3.of (c.infos true), ?_, lp, ?_, sup, ?_, ?_, rfl, rfl⟩
  · have := m2.move
    rw [hofw, hof] at this
    exact this
  · have := m3.move
    rw [m2.other _ hc.ne.symm, hofw, hof] at this
    exact this
  · rw [← hb3]
    exact hlp
  · rw [hs1] at hsup
    exact hsup
  · unfold view
    simp only [Function.update_self, rr.twap, rr.tracked]
    congr 1
    funext j
    symm
    refine Eq.trans (of_infos hc (w := w3) ?_ ?_ j) ?_
    · rfl
    · exact fun d hd => Function.update_of_ne hd _ _
    cases j
    · exact m3.other _ hc.ne
    · rfl

/-! ## C160 -/

/-- **C160.**  Whatever accounts send to the pair (any message, any attached coins, cw20 tokens sent by their owners or by
approved spenders), a transaction that succeeds is, for the pair, exactly the deposit, withdrawal, trade or transfers
that `meaning` names: nothing is credited that was not paid, and what the other theorems say about the pair's own
transactions holds on the chain. -/
theorem C160_messages_are_pair_transactions (c : Cfg A) (hc : c.Ok) (w w' : Chain A) (t : Tx A)
    (h : exec c w t = .ok w') : (meaning c w t).foldlM (XYK.exec c.me) (view c w) = .ok (view c w') := by
  cases t with
  | call e x funds m =>
    simp only [exec, bind_ok_iff, require_ok, exists_const] at h
    obtain ⟨⟨hs, ht0, ht1⟩, hf, w1, ha, h⟩ := h
    cases m with
    | receive u n b m r =>
      simp only [execute, bind_ok_iff, require_ok, exists_const] at h
      exact absurd h.1 (by simp [ht0, ht1])
    | provide assets tol minLp r =>
      simp only [execute, bind_ok_iff, Except.ok.injEq] at h
      obtain ⟨⟨w2, sh⟩, h, rfl⟩ := h
      simp only [meaning, List.foldlM_cons, List.foldlM_nil, bind_ok_iff, pure_eq_ok, Except.ok.injEq, exists_eq_right]
      unfold XYK.exec
      simp only [bind_ok_iff, Except.ok.injEq]
      exact ⟨(), (require_ok _ _ _).2 hs, (_, sh), provide_meaning hc hs hf ha h, rfl⟩
    | swap offer b m r =>
      simp only [execute, bind_ok_iff, require_ok, exists_const, Except.ok.injEq] at h
      obtain ⟨_, _, hn, ⟨w2, out⟩, h, rfl⟩ := h
      have hm : Moved w offer.info x (some c.me) offer.amount w1 := by
        have hsent : assertSent offer funds = .ok () := by
          unfold swapMsg at h
          simp only [bind_ok_iff] at h
          exact h.choose_spec.1
        obtain ⟨k, n⟩ := offer
        cases k with
        | token t => simp [isNative] at hn
        | native d =>
          obtain ⟨rfl, _⟩ := (Asset.C67_single_coin d n funds).1 hsent
          simp only [attach, bind_ok_iff, Except.ok.injEq, exists_eq_right] at ha
          exact move_moved ha
      obtain ⟨i, hi, hsw⟩ := swap_meaning hc hm h
      simp only [meaning, hi, List.foldlM_cons, List.foldlM_nil, bind_ok_iff, pure_eq_ok, Except.ok.injEq, exists_eq_right]
      unfold XYK.exec
      simp only [bind_ok_iff, Except.ok.injEq]
      exact ⟨(), (require_ok _ _ _).2 hs, (_, out), hsw, rfl⟩
    | withdraw assets mins =>
      simp only [execute, bind_ok_iff, Except.ok.injEq] at h
      obtain ⟨⟨w2, rs⟩, h, rfl⟩ := h
      simp only [meaning, List.foldlM_cons, List.foldlM_nil, bind_ok_iff, pure_eq_ok, Except.ok.injEq, exists_eq_right]
      unfold XYK.exec
      simp only [bind_ok_iff, Except.ok.injEq]
      exact ⟨(), (require_ok _ _ _).2 hs, (_, rs), withdraw_meaning hc hs ha h, rfl⟩
    | updateConfig share =>
      simp only [execute, updateConfig, bind_ok_iff, require_ok, exists_const] at h
      have hw : w' = { w1 with share := share } := by
        have h := h.2
        split at h
        · simp only [bind_ok_iff, require_ok, exists_const, Except.ok.injEq] at h
          exact h.2.symm
        · simp only [ok_bind, Except.ok.injEq] at h
          exact h.symm
      subst hw
      have := attach_meaning hc hs ha
      simp only [meaning]
      rw [this]
      unfold view
      congr 2
  | send e token owner spender n b m r =>
    simp only [exec, execute, bind_ok_iff, require_ok, exists_const, Except.ok.injEq] at h
    obtain ⟨⟨hs, _⟩, w1, hin, _, ⟨w2, out⟩, h, rfl⟩ := h
    have hm : Moved w (.token (c.addr token)) owner (some c.me) n w1 := by
      split_ifs at hin with ho
      · exact move_moved hin
      · exact transferFrom_moved hin
    obtain ⟨i, hi, hsw⟩ := swap_meaning (offer := ⟨.token (c.addr token), n⟩) hc hm h
    simp only at hi hsw
    simp only [meaning, hi, List.foldlM_cons, List.foldlM_nil, bind_ok_iff, pure_eq_ok, Except.ok.injEq, exists_eq_right]
    unfold XYK.exec
    simp only [bind_ok_iff, Except.ok.injEq]
    exact ⟨(), (require_ok _ _ _).2 hs, (_, out), hsw, rfl⟩
  | transfer k src dst n =>
    simp only [exec, bind_ok_iff, require_ok, exists_const] at h
    exact transfer_meaning hc h.1 (move_moved h.2)
  | transferFrom token owner spender dst n =>
    simp only [exec, bind_ok_iff, require_ok, exists_const] at h
    exact transfer_meaning hc h.1.1 (transferFrom_moved h.2)
  | approve token owner spender n =>
    simp only [exec, bind_ok_iff, require_ok, exists_const, Except.ok.injEq] at h
    obtain ⟨_, rfl⟩ := h
    simp only [meaning, List.foldlM_nil, pure_eq_ok, Except.ok.injEq]
    unfold view
    congr 1

theorem run_foldlM {me : A} : ∀ {os : List (Op A)} {s s' : State A}, os.foldlM (XYK.exec me) s = .ok s' →
    XYK.run me s os = s'
  | [], s, s', h => by
    simp only [List.foldlM_nil, pure_eq_ok, Except.ok.injEq] at h
    exact h
  | o :: os, s, s', h => by
    simp only [List.foldlM_cons, bind_ok_iff] at h
    obtain ⟨s1, h1, h2⟩ := h
    show XYK.run me (XYK.step me s o) os = s'
    have : XYK.step me s o = s1 := by unfold XYK.step; rw [h1]; rfl
    rw [this]
    exact run_foldlM h2

theorem run_append {me : A} {s : State A} (xs ys : List (Op A)) :
    XYK.run me s (xs ++ ys) = XYK.run me (XYK.run me s xs) ys := List.foldl_append

/-- **C160.**  Every history of messages is, for the pair, a history of its own transactions. -/
theorem C160_histories_are_pair_histories (c : Cfg A) (hc : c.Ok) (w : Chain A) (ts : List (Tx A)) :
    ∃ os, view c (run c w ts) = XYK.run c.me (view c w) os := by
  induction ts generalizing w with
  | nil => exact ⟨[], rfl⟩
  | cons t ts ih =>
    show ∃ os, view c (run c (step c w t) ts) = _
    obtain ⟨os, ho⟩ := ih (step c w t)
    cases hx : exec c w t with
    | error e =>
      have : step c w t = w := by unfold step; rw [hx]; rfl
      rw [this] at ho ⊢
      exact ⟨os, ho⟩
    | ok w' =>
      have : step c w t = w' := by unfold step; rw [hx]; rfl
      rw [this] at ho ⊢
      refine ⟨meaning c w t ++ os, ?_⟩
      rw [run_append, run_foldlM (C160_messages_are_pair_transactions c hc w w' t hx)]
      exact ho

/-- **C160.**  Nobody but the pool's own token contracts can announce tokens to the pair: such a message from any other
account is refused, whatever it claims and whatever coins come with it. -/
theorem C160_spoofed_tokens_refused (c : Cfg A) (e : Env A) (w : Chain A) (x : A) (funds : List Coin) (u : A) (n : Nat)
    (b m : Option Nat) (r : Option A) (hx : ∀ i, c.infos i ≠ .token (c.addr x)) :
    execute c e w x funds (.receive u n b m r) = .error .unauthorized := by
  simp [execute, require, hx false, hx true]

/-- **C160.**  What is traded has been paid: after a trade with coins the pair holds exactly the offered amount more of
the offered coin, and the trader had it. -/
theorem C160_offer_was_paid (c : Cfg A) (hc : c.Ok) (w w' : Chain A) (e : Env A) (x : A) (funds : List Coin)
    (offer : Asset.Asset) (b m : Option Nat) (r : Option A)
    (h : exec c w (.call e x funds (.swap offer b m r)) = .ok w') :
    w'.of offer.info c.me = w.of offer.info c.me + offer.amount ∧ offer.amount ≤ w.of offer.info x ∧
      ∃ d, offer.info = .native d ∧ funds = [⟨d, offer.amount⟩] := by
  have hm := C160_messages_are_pair_transactions c hc w w' _ h
  simp only [exec, execute, bind_ok_iff, require_ok, exists_const, Except.ok.injEq] at h
  obtain ⟨⟨hs, _⟩, _, w1, _, _, _, hn, ⟨w2, out⟩, h, rfl⟩ := h
  have hsent : assertSent offer funds = .ok () := by
    unfold swapMsg at h
    simp only [bind_ok_iff] at h
    exact h.choose_spec.1
  have hl : ∃ i, label c offer.info = some i := by
    unfold swapMsg at h
    simp only [bind_ok_iff] at h
    obtain ⟨_, _, _, _, _, _, i, hi, _⟩ := h
    refine ⟨i, ?_⟩
    unfold label
    split_ifs at hi ⊢ <;> simp_all
  obtain ⟨i, hi⟩ := hl
  simp only [meaning, hi, List.foldlM_cons, List.foldlM_nil, bind_ok_iff, pure_eq_ok, Except.ok.injEq, exists_eq_right] at hm
  unfold XYK.exec at hm
  simp only [bind_ok_iff, Except.ok.injEq] at hm
  obtain ⟨_, _, ⟨v, o⟩, hv, hvv⟩ := hm
  simp only at hvv
  subst hvv
  unfold XYK.swap at hv
  simp only [bind_ok_iff, Except.ok.injEq, Prod.mk.injEq] at hv
  obtain ⟨bo, hbo, hv⟩ := hv
  have hb : (view c w2).bal i = bo := by
    obtain ⟨_, _, _, _, _, _, _, _, _, _, _, _, _, _, _, _, _, _, _, _, _, _, hv, _⟩ := hv
    rw [← hv]
    simp
  have hk := label_some hi
  have := move_apply hbo c.me
  rw [if_neg (Ne.symm hs), if_pos rfl] at this
  refine ⟨?_, ?_, ?_⟩
  · rw [hk]
    show (view c w2).bal i c.me = (view c w).bal i c.me + offer.amount
    rw [hb, this]
  · rw [hk]
    exact move_le hbo
  · obtain ⟨k, n⟩ := offer
    cases k with
    | token t => simp [isNative] at hn
    | native d => exact ⟨d, rfl, ((Asset.C67_single_coin d n funds).1 hsent).1⟩

/-- **C160.**  Tokens traded by sending them: likewise, and they come from their owner, who sent them or approved the
sender for at least that amount. -/
theorem C160_tokens_were_paid (c : Cfg A) (hc : c.Ok) (w w' : Chain A) (e : Env A) (t owner spender : A) (n : Nat)
    (b m : Option Nat) (r : Option A) (h : exec c w (.send e t owner spender n b m r) = .ok w') :
    w'.tok (c.addr t) c.me = w.tok (c.addr t) c.me + n ∧ n ≤ w.tok (c.addr t) owner ∧
      (∃ i, c.infos i = .token (c.addr t)) ∧ (owner = spender ∨ n ≤ w.allow (c.addr t) owner spender) := by
  have hm := C160_messages_are_pair_transactions c hc w w' _ h
  simp only [exec, execute, bind_ok_iff, require_ok, exists_const, Except.ok.injEq] at h
  obtain ⟨⟨hs, _⟩, w1, hin, hau, ⟨w2, out⟩, h, rfl⟩ := h
  have hal : owner = spender ∨ n ≤ w.allow (c.addr t) owner spender := by
    split_ifs at hin with ho
    · exact Or.inl ho
    · simp only [transferFrom, bind_ok_iff, csub_ok] at hin
      obtain ⟨_, ⟨hle, _⟩, _⟩ := hin
      exact Or.inr hle
  obtain ⟨i, hk⟩ : ∃ i, c.infos i = .token (c.addr t) := by
    rcases hau with h | h
    · exact ⟨false, h⟩
    · exact ⟨true, h⟩
  have hi : label c (.token (c.addr t)) = some i := by rw [← hk]; exact label_infos hc i
  simp only [meaning, hi, List.foldlM_cons, List.foldlM_nil, bind_ok_iff, pure_eq_ok, Except.ok.injEq, exists_eq_right] at hm
  unfold XYK.exec at hm
  simp only [bind_ok_iff, Except.ok.injEq] at hm
  obtain ⟨_, _, ⟨v, o⟩, hv, hvv⟩ := hm
  simp only at hvv
  subst hvv
  unfold XYK.swap at hv
  simp only [bind_ok_iff, Except.ok.injEq, Prod.mk.injEq] at hv
  obtain ⟨bo, hbo, hv⟩ := hv
  have hb : (view c w2).bal i = bo := by
    obtain ⟨_, _, _, _, _, _, _, _, _, _, _, _, _, _, _, _, _, _, _, _, _, _, hv, _⟩ := hv
    rw [← hv]
    simp
  have := move_apply hbo c.me
  rw [if_neg (Ne.symm hs), if_pos rfl] at this
  have ew : (view c w).bal i = w.tok (c.addr t) := by
    show w.of (c.infos i) = _
    rw [hk]; rfl
  have ew2 : (view c w2).bal i = w2.tok (c.addr t) := by
    show w2.of (c.infos i) = _
    rw [hk]; rfl
  refine ⟨?_, ?_, ⟨i, hk⟩, hal⟩
  · rw [← ew2, hb, this, ew]
  · have := move_le hbo
    rw [ew] at this
    exact this

/-! ### Whose funds are spent -/

/-- The account that pays: the sender of a message, the owner of the tokens. -/
def Tx.payer : Tx A → A
  | .call _ x _ _ | .send _ _ x _ _ _ _ _ | .transfer _ x _ _ | .transferFrom _ x _ _ _ | .approve _ x _ _ => x

theorem Moved.mono {w w' : Chain A} {k : Info} {src : A} {dst : Option A} {n : Nat} (m : Moved w k src dst n w') {a : A}
    (ha : a ≠ src) (j : Info) : w.of j a ≤ w'.of j a := by
  by_cases hj : j = k
  · subst hj
    have := m.move
    cases dst with
    | none =>
      simp only [sendOpt, Except.ok.injEq] at this
      rw [this]
    | some d =>
      simp only [sendOpt] at this
      rw [move_apply this, if_neg ha]
      exact Nat.le_add_right _ _
  · rw [m.other j hj]

theorem attach_mono {src dst : A} : ∀ {funds : List Coin} {w w' : Chain A}, attach w src dst funds = .ok w' →
    ∀ {a : A}, a ≠ src → ∀ j, w.of j a ≤ w'.of j a
  | [], w, w', h, a, ha, j => by
    simp only [attach, Except.ok.injEq] at h
    rw [h]
  | x :: xs, w, w', h, a, ha, j => by
    simp only [attach, bind_ok_iff] at h
    obtain ⟨w1, h1, h2⟩ := h
    exact Nat.le_trans ((move_moved h1).mono ha j) (attach_mono h2 ha j)

theorem pull_mono {c : Cfg A} {w w' : Chain A} {x a : A} {i : Bool} {d : Nat} (h : pull c w x i d = .ok w')
    (ha : a ≠ x) (j : Info) : w.of j a ≤ w'.of j a := by
  unfold pull at h
  split at h
  · simp only [Except.ok.injEq] at h
    rw [h]
  · exact (transferFrom_moved h).mono ha j

theorem swap_mono {c : Cfg A} {e : Env A} {w w' : Chain A} {funds : List Coin} {sender a : A} {offer : Asset.Asset}
    {belief maxSpread : Option Nat} {dest : Option A} {out : SwapOut} (ha : a ≠ c.me)
    (h : swapMsg c e w funds sender offer belief maxSpread dest = .ok (w', out)) (j : Info) : w.of j a ≤ w'.of j a := by
  unfold swapMsg at h
  simp only [bind_ok_iff, Except.ok.injEq, Prod.mk.injEq] at h
  obtain ⟨_, _, p0, h0, p1, h1, i, hi, r, hr, g, hg, _, hms, ⟨sh, mk⟩, hsp, tO, hO, tA, hA, tw, htw, w2, g2, w3, g3, w4, g4,
    rfl, rfl⟩ := h
  have m2 := (payNonzero_moved g2).mono ha j
  have m3 := (payNonzero_moved g3).mono ha j
  have m4 := (payNonzero_moved g4).mono ha j
  refine Nat.le_trans (Nat.le_trans (Nat.le_trans (Nat.le_of_eq ?_) m2) m3) m4
  cases j <;> rfl

theorem of_lp_mono {w : Chain A} {d : Str} {l : A → Nat} {n : Nat} {a : A} (h : w.bank d a ≤ l a) (j : Info) :
    w.of j a ≤ Chain.of { w with bank := Function.update w.bank d l, supply := n } j a := by
  cases j with
  | token t => exact le_refl _
  | native k =>
    by_cases hk : k = d
    · subst hk
      simpa [Chain.of] using h
    · simp [Chain.of, hk]

theorem execute_mono {c : Cfg A} {e : Env A} {w w' : Chain A} {x a : A} {funds : List Coin} {m : Msg A} (ha : a ≠ c.me)
    (hx : a ≠ x) (h : execute c e w x funds m = .ok w') (j : Info) : w.of j a ≤ w'.of j a := by
  cases m with
  | receive u n b m r =>
    simp only [execute, bind_ok_iff, Except.ok.injEq] at h
    obtain ⟨_, _, ⟨w2, out⟩, h, rfl⟩ := h
    exact swap_mono ha h j
  | swap offer b m r =>
    simp only [execute, bind_ok_iff, Except.ok.injEq] at h
    obtain ⟨_, _, _, _, ⟨w2, out⟩, h, rfl⟩ := h
    exact swap_mono ha h j
  | provide assets tol minLp r =>
    simp only [execute, bind_ok_iff, Except.ok.injEq] at h
    obtain ⟨⟨w2, sh⟩, h, rfl⟩ := h
    unfold provideMsg at h
    simp only [bind_ok_iff, require_ok, exists_const, Except.ok.injEq, Prod.mk.injEq] at h
    obtain ⟨⟨d0, d1⟩, hd, _, hchk, _, hco, p0, hp0, p1, hp1, sh, hsh, hmin, t0, ht0, t1, ht1, tw, htw, w2, h2, w3, h3, rfl,
      rfl⟩ := h
    have m2 := pull_mono h2 hx j
    have m3 := pull_mono h3 hx j
    refine Nat.le_trans (Nat.le_trans (Nat.le_trans (Nat.le_of_eq ?_) m2) m3) (of_lp_mono ?_ j)
    · cases j <;> rfl
    · rw [credit_apply, credit_apply]
      split_ifs <;> omega
  | withdraw assets mins =>
    simp only [execute, bind_ok_iff, Except.ok.injEq] at h
    obtain ⟨⟨w2, rs⟩, h, rfl⟩ := h
    unfold withdrawMsg at h
    simp only [bind_ok_iff, require_ok, exists_const, Except.ok.injEq, Prod.mk.injEq] at h
    obtain ⟨co, hone, hden, r0, hr0, r1, hr1, _, _, hmin, t0, ht0, t1, ht1, tw, htw, w2, h2, w3, h3, lp, hlp, sup, hsup, rfl,
      rfl⟩ := h
    have m2 := (pay_moved h2).mono ha j
    have m3 := (pay_moved h3).mono ha j
    refine Nat.le_trans (Nat.le_trans (Nat.le_trans (Nat.le_of_eq ?_) m2) m3) (of_lp_mono ?_ j)
    · cases j <;> rfl
    · rw [debit_apply hlp, if_neg ha]
  | updateConfig share =>
    simp only [execute, updateConfig, bind_ok_iff, require_ok, exists_const] at h
    have hw : w' = { w with share := share } := by
      have h := h.2
      split at h
      · simp only [bind_ok_iff, require_ok, exists_const, Except.ok.injEq] at h
        exact h.2.symm
      · simp only [ok_bind, Except.ok.injEq] at h
        exact h.symm
    subst hw
    refine Nat.le_of_eq ?_
    cases j <;> rfl

/-- **C160.**  No message makes anybody's balance of anything (coins, tokens, LP tokens) smaller but the sender's own, or
the balance of the token owner who approved the transfer. -/
theorem C160_only_the_payer_pays (c : Cfg A) (w w' : Chain A) (t : Tx A) (h : exec c w t = .ok w') (a : A)
    (ha : a ≠ c.me) (k : Info) (hlt : w'.of k a < w.of k a) : a = t.payer := by
  by_contra hp
  refine absurd hlt (Nat.not_lt.2 ?_)
  cases t with
  | call e x funds m =>
    simp only [exec, bind_ok_iff, require_ok, exists_const] at h
    obtain ⟨_, _, w1, h1, h2⟩ := h
    exact Nat.le_trans (attach_mono h1 hp k) (execute_mono ha hp h2 k)
  | send e token owner spender n b m r =>
    simp only [exec, execute, bind_ok_iff, require_ok, exists_const, Except.ok.injEq] at h
    obtain ⟨_, w1, hin, _, ⟨w2, out⟩, h, rfl⟩ := h
    refine Nat.le_trans ?_ (swap_mono ha h k)
    split_ifs at hin with ho
    · exact (move_moved hin).mono hp k
    · exact (transferFrom_moved hin).mono hp k
  | transfer j src dst n =>
    simp only [exec, bind_ok_iff, require_ok, exists_const] at h
    exact (move_moved h.2).mono hp k
  | transferFrom token owner spender dst n =>
    simp only [exec, bind_ok_iff, require_ok, exists_const] at h
    exact (transferFrom_moved h.2).mono hp k
  | approve token owner spender n =>
    simp only [exec, bind_ok_iff, require_ok, exists_const, Except.ok.injEq] at h
    obtain ⟨_, rfl⟩ := h
    refine Nat.le_of_eq ?_
    cases k <;> rfl

/-! ### Allowances and the shared fee -/

theorem payNonzero_keeps {c : Cfg A} {w w' : Chain A} {k : Info} {dst : Option A} {n : Nat}
    (h : payNonzero c w k dst n = .ok w') : w'.allow = w.allow := by
  have hset : ∀ l, (w.set k l).allow = w.allow := by intro l; cases k <;> rfl
  unfold payNonzero pay at h
  split at h
  · simp only [Except.ok.injEq] at h
    rw [h]
  · split_ifs at h with hn
    · simp only [Except.ok.injEq] at h
      rw [h]
    · simp only [Chain.move, bind_ok_iff, Except.ok.injEq] at h
      obtain ⟨_, _, l, _, rfl⟩ := h
      exact hset l

theorem swap_keeps {c : Cfg A} {e : Env A} {w w' : Chain A} {funds : List Coin} {sender : A} {offer : Asset.Asset}
    {belief maxSpread : Option Nat} {dest : Option A} {out : SwapOut}
    (h : swapMsg c e w funds sender offer belief maxSpread dest = .ok (w', out)) :
    w'.allow = w.allow ∧ w'.share = w.share := by
  unfold swapMsg at h
  simp only [bind_ok_iff, Except.ok.injEq, Prod.mk.injEq] at h
  obtain ⟨_, _, p0, h0, p1, h1, i, hi, r, hr, g, hg, _, hms, ⟨sh, mk⟩, hsp, tO, hO, tA, hA, tw, htw, w2, g2, w3, g3, w4, g4,
    rfl, rfl⟩ := h
  refine ⟨?_, ?_⟩
  · rw [payNonzero_keeps g4, payNonzero_keeps g3, payNonzero_keeps g2]
  · rw [(payNonzero_moved g4).rest.share, (payNonzero_moved g3).rest.share, (payNonzero_moved g2).rest.share]

theorem move_keeps {w w' : Chain A} {k : Info} {src dst : A} {n : Nat} (h : w.move k src dst n = .ok w') :
    w'.allow = w.allow := by
  simp only [Chain.move, bind_ok_iff, Except.ok.injEq] at h
  obtain ⟨l, _, rfl⟩ := h
  cases k <;> rfl

theorem attach_keeps {src dst : A} : ∀ {funds : List Coin} {w w' : Chain A}, attach w src dst funds = .ok w' →
    w'.allow = w.allow
  | [], w, w', h => by
    simp only [attach, Except.ok.injEq] at h
    rw [h]
  | x :: xs, w, w', h => by
    simp only [attach, bind_ok_iff] at h
    obtain ⟨w1, h1, h2⟩ := h
    exact (attach_keeps h2).trans (move_keeps h1)

/-- **C160.**  Tokens are fetched for a deposit within what the depositor approved for the pair, and the approval is used
up by that. -/
theorem C160_deposit_within_allowance (c : Cfg A) (hc : c.Ok) (w w' : Chain A) (e : Env A) (x : A) (funds : List Coin)
    (assets : List Asset.Asset) (tol minLp : Option Nat) (r : Option A)
    (h : exec c w (.call e x funds (.provide assets tol minLp r)) = .ok w') (i : Bool) (t : Str)
    (hi : c.infos i = .token t) :
    w'.allow t x c.me + declared assets (.token t) = w.allow t x c.me := by
  simp only [exec, execute, bind_ok_iff, require_ok, exists_const, Except.ok.injEq] at h
  obtain ⟨_, _, w1, h1, ⟨w2, sh⟩, h, rfl⟩ := h
  unfold provideMsg at h
  simp only [bind_ok_iff, require_ok, exists_const, Except.ok.injEq, Prod.mk.injEq] at h
  obtain ⟨⟨d0, d1⟩, hd, _, hchk, _, hco, p0, hp0, p1, hp1, sh, hsh, hmin, t0, ht0, t1, ht1, tw, htw, w2, h2, w3, h3, rfl,
    rfl⟩ := h
  obtain ⟨_, _, e0, e1, _⟩ := declared_two hc hd
  have ha := attach_keeps h1
  -- what one `pull` does to the allowance of token `t`
  have hpull : ∀ {v v' : Chain A} {j : Bool} {d : Nat}, pull c v x j d = .ok v' →
      if c.infos j = .token t then v'.allow t x c.me + d = v.allow t x c.me else v'.allow t x c.me = v.allow t x c.me := by
    intro v v' j d hv
    unfold pull at hv
    split at hv
    · rename_i k hk
      simp only [Except.ok.injEq] at hv
      rw [if_neg (by rw [hk]; simp), hv]
    · rename_i t' hk
      simp only [transferFrom, bind_ok_iff, csub_ok, Except.ok.injEq] at hv
      obtain ⟨_, ⟨hle, rfl⟩, l, _, rfl⟩ := hv
      by_cases ht : t' = t
      · subst ht
        rw [if_pos hk]
        simp only [and_self, if_true]
        omega
      · rw [if_neg (by rw [hk]; simpa using ht)]
        simp [Ne.symm ht]
  have a2 := hpull h2
  have a3 := hpull h3
  have key : w3.allow t x c.me + declared assets (.token t) = w1.allow t x c.me := by
    cases i
    · rw [if_pos hi] at a2
      rw [if_neg (fun e => hc.ne (hi.trans e.symm))] at a3
      rw [a3, ← hi, e0]
      exact a2
    · rw [if_pos hi] at a3
      rw [if_neg (fun e => hc.ne (e.trans hi.symm))] at a2
      rw [← hi, e1, a3]
      exact a2
  rw [← ha]
  exact key

/-- **C160.**  Tokens sent by an approved spender use up the approval by exactly the amount sent; their owner's own sending
leaves every approval as it is. -/
theorem C160_approval_used_up (c : Cfg A) (w w' : Chain A) (e : Env A) (t owner spender : A) (n : Nat)
    (b m : Option Nat) (r : Option A) (h : exec c w (.send e t owner spender n b m r) = .ok w') :
    w'.allow (c.addr t) owner spender + (if owner = spender then 0 else n) = w.allow (c.addr t) owner spender := by
  simp only [exec, execute, bind_ok_iff, require_ok, exists_const, Except.ok.injEq] at h
  obtain ⟨_, w1, hin, _, ⟨w2, out⟩, h, rfl⟩ := h
  rw [(swap_keeps h).1]
  split_ifs at hin ⊢ with ho
  · rw [move_keeps hin, Nat.add_zero]
  · simp only [transferFrom, bind_ok_iff, csub_ok, Except.ok.injEq] at hin
    obtain ⟨_, ⟨hle, rfl⟩, l, _, rfl⟩ := hin
    simp only [and_self, if_true]
    omega

/-- **C160.**  The shared fee changes only by a message of the factory's owner, to what that message says, and it is never
set outside 1 to 1000 basis points. -/
theorem C160_fee_share_by_owner (c : Cfg A) (w w' : Chain A) (t : Tx A) (h : exec c w t = .ok w')
    (hne : w'.share ≠ w.share) :
    ∃ e funds, t = .call e e.owner funds (.updateConfig w'.share) ∧ ∀ p ∈ w'.share, 1 ≤ p.1 ∧ p.1 ≤ 1000 := by
  cases t with
  | call e x funds m =>
    simp only [exec, bind_ok_iff, require_ok, exists_const] at h
    obtain ⟨⟨hs, _⟩, _, w1, h1, h2⟩ := h
    have hs1 : w1.share = w.share := (attach_spec hs h1).2.2.share
    cases m with
    | receive u n b m r =>
      simp only [execute, bind_ok_iff, Except.ok.injEq] at h2
      obtain ⟨_, _, ⟨w2, out⟩, h, rfl⟩ := h2
      exact absurd ((swap_keeps h).2.trans hs1) hne
    | swap offer b m r =>
      simp only [execute, bind_ok_iff, Except.ok.injEq] at h2
      obtain ⟨_, _, _, _, ⟨w2, out⟩, h, rfl⟩ := h2
      exact absurd ((swap_keeps h).2.trans hs1) hne
    | provide assets tol minLp r =>
      simp only [execute, bind_ok_iff, Except.ok.injEq] at h2
      obtain ⟨⟨w2, sh⟩, h, rfl⟩ := h2
      unfold provideMsg at h
      simp only [bind_ok_iff, require_ok, exists_const, Except.ok.injEq, Prod.mk.injEq] at h
      obtain ⟨⟨d0, d1⟩, hd, _, hchk, _, hco, p0, hp0, p1, hp1, sh, hsh, hmin, t0, ht0, t1, ht1, tw, htw, w2, h2, w3, h3, rfl,
        rfl⟩ := h
      refine absurd ?_ hne
      exact (pull_other h3).2.2.share.trans ((pull_other h2).2.2.share.trans hs1)
    | withdraw assets mins =>
      simp only [execute, bind_ok_iff, Except.ok.injEq] at h2
      obtain ⟨⟨w2, rs⟩, h, rfl⟩ := h2
      unfold withdrawMsg at h
      simp only [bind_ok_iff, require_ok, exists_const, Except.ok.injEq, Prod.mk.injEq] at h
      obtain ⟨co, hone, hden, r0, hr0, r1, hr1, _, _, hmin, t0, ht0, t1, ht1, tw, htw, w2, h2, w3, h3, lp, hlp, sup, hsup, rfl,
        rfl⟩ := h
      refine absurd ?_ hne
      exact (pay_moved h3).rest.share.trans ((pay_moved h2).rest.share.trans hs1)
    | updateConfig share =>
      simp only [execute, updateConfig, bind_ok_iff, require_ok, exists_const] at h2
      obtain ⟨hx, h2⟩ := h2
      refine ⟨e, funds, ?_⟩
      subst hx
      split at h2
      · rename_i bps a
        simp only [bind_ok_iff, require_ok, exists_const, Except.ok.injEq] at h2
        obtain ⟨hb, rfl⟩ := h2
        refine ⟨rfl, ?_⟩
        intro p hp
        simp only [Option.mem_def, Option.some.injEq] at hp
        subst hp
        simp only
        omega
      · simp only [ok_bind, Except.ok.injEq] at h2
        subst h2
        exact ⟨rfl, by simp⟩
  | send e token owner spender n b m r =>
    simp only [exec, execute, bind_ok_iff, require_ok, exists_const, Except.ok.injEq] at h
    obtain ⟨_, w1, hin, _, ⟨w2, out⟩, h, rfl⟩ := h
    refine absurd ((swap_keeps h).2.trans ?_) hne
    split_ifs at hin with ho
    · exact (move_moved hin).rest.share
    · exact (transferFrom_moved hin).rest.share
  | transfer j src dst n =>
    simp only [exec, bind_ok_iff, require_ok, exists_const] at h
    exact absurd (move_moved h.2).rest.share hne
  | transferFrom token owner spender dst n =>
    simp only [exec, bind_ok_iff, require_ok, exists_const] at h
    exact absurd (transferFrom_moved h.2).rest.share hne
  | approve token owner spender n =>
    simp only [exec, bind_ok_iff, require_ok, exists_const, Except.ok.injEq] at h
    obtain ⟨_, rfl⟩ := h
    exact absurd rfl hne

/-- **C160.**  On the chain: from the creation of the pair (no LP token exists yet) on, after any messages, what all
LP holders together can redeem is in the pair, and once there are LP tokens the first 1000 stay locked in it. -/
theorem C160_claims_covered_on_chain [Fintype A] (c : Cfg A) (hc : c.Ok) (w : Chain A) (h0 : w.supply = 0)
    (h1 : ∀ a, w.bank c.lp a = 0) (h2 : w.twap = ⟨0, 0, 0⟩) (h3 : w.tracked = fun _ => 0) (ts : List (Tx A)) :
    let w' := run c w ts
    w'.supply = ∑ a, w'.bank c.lp a ∧ (0 < w'.supply → 1000 ≤ w'.bank c.lp c.me) ∧
    ∀ c0 c1 : A → Nat, (∀ a, queryShare c.me (view c w') (w'.bank c.lp a) = .ok (c0 a, c1 a)) →
      (∑ a, c0 a) ≤ w'.of (c.infos false) c.me ∧ (∑ a, c1 a) ≤ w'.of (c.infos true) c.me := by
  intro w'
  have hv : view c w = XYK.init (fun i => w.of (c.infos i)) := by
    unfold view XYK.init
    simp only [h0, h2, h3]
    congr 1
    funext a
    exact h1 a
  obtain ⟨os, ho⟩ := C160_histories_are_pair_histories c hc w ts
  rw [hv] at ho
  change view c w' = _ at ho
  have hl := C14_minimum_liquidity_locked c.me (fun i => w.of (c.infos i)) os []
  simp only [XYK.run, List.foldl_nil] at hl
  change view c w' = List.foldl _ _ _ at ho
  rw [← ho] at hl
  refine ⟨hl.1, fun hp => (hl.2.2 hp).1, fun c0 c1 hq => ?_⟩
  have := C09_claims_covered c.me (fun i => w.of (c.infos i)) os c0 c1
  simp only [XYK.run] at this
  rw [← ho] at this
  exact this hq

/-! ## The theorems apply -/

/-- A pool of a coin and of token 9. -/
def demoCfg : Cfg Nat :=
  { me := 0, infos := fun i => if i then .token ("t9".toList) else .native "uluna".toList, lp := "lp".toList
    addr := fun n => if n = 9 then "t9".toList else "x".toList, okAddr := fun _ => true }

theorem demo_ok : demoCfg.Ok := ⟨by decide, fun i => by cases i <;> decide⟩

def demoEnv (now : Nat) : Env Nat := ⟨now, 7, 3 * 10 ^ 15, 3 * 10 ^ 17, some 8⟩

def demoChain : Chain Nat :=
  { bank := fun d a => if d = "uluna".toList ∧ a ∈ [1, 2, 3] then 10 ^ 9 else 0
    tok := fun t a => if t = "t9".toList ∧ a ∈ [1, 2, 3] then 10 ^ 9 else 0
    allow := fun t o s => if t = "t9".toList ∧ o = 1 ∧ s = 0 then 10 ^ 8 else 0
    supply := 0, twap := ⟨0, 0, 0⟩, tracked := fun _ => 0, share := none }

/-- Deposit, trade with coins (and with the wrong coins), trade with tokens, by the owner and by a spender without approval,
announce tokens that do not exist, withdraw. -/
def demoTxs : List (Tx Nat) :=
  [.call (demoEnv 5) 1 [⟨"uluna".toList, 10 ^ 7⟩]
     (.provide [⟨.token "t9".toList, 4 * 10 ^ 7⟩, ⟨.native "uluna".toList, 10 ^ 7⟩] none none none),
   .call (demoEnv 6) 2 [⟨"uluna".toList, 10 ^ 4⟩] (.swap ⟨.native "uluna".toList, 10 ^ 4⟩ none none none),
   .call (demoEnv 6) 2 [⟨"uluna".toList, 10 ^ 3⟩] (.swap ⟨.native "uluna".toList, 10 ^ 4⟩ none none none),
   .send (demoEnv 7) 9 3 3 (10 ^ 4) none none (some 4),
   .send (demoEnv 7) 9 2 3 (10 ^ 4) none none none,
   .call (demoEnv 7) 5 [] (.receive 5 (10 ^ 4) none none none),
   .call (demoEnv 8) 1 [⟨"lp".toList, 10 ^ 6⟩] (.withdraw [] none)]

example : (List.range 7).map (fun n => (exec demoCfg (run demoCfg demoChain (demoTxs.take n)) (demoTxs.getD n
    (.approve [] 1 0 0))).isOk) = [true, true, false, true, false, false, true] := by decide +kernel

example : let w := run demoCfg demoChain demoTxs
    w.bank "uluna".toList 0 = 9507126 ∧ w.tok "t9".toList 2 = 10 ^ 9 + 39841 ∧ w.bank "uluna".toList 4 = 2497 ∧
    w.bank "lp".toList 1 = 18999000 ∧ w.supply = 19000000 := by decide +kernel

example : (exec demoCfg demoChain (.call (demoEnv 5) 7 [] (.updateConfig (some (1000, 4))))).isOk = true ∧
    (exec demoCfg demoChain (.call (demoEnv 5) 7 [] (.updateConfig (some (1001, 4))))).isOk = false ∧
    (exec demoCfg demoChain (.call (demoEnv 5) 6 [] (.updateConfig (some (1000, 4))))).isOk = false ∧
    (run demoCfg demoChain demoTxs).allow "t9".toList 1 0 = 6 * 10 ^ 7 := by decide +kernel

end Verif.XYK.Entry
