import Verif.Router.Props
import Verif.XYK.Entry
import Verif.Stable.Entry
import Verif.PCL.Entry

/-!
# The router in front of real pairs (C165, C166)

`Router/Model.lean` lets the contracts behind the router do anything.  Here they are the pairs of this repository: constant
product, stableswap and concentrated pairs, in any number, each with its own code (`XYK/Entry.lean`, `Stable/Entry.lean`,
`PCL/Entry.lean`), over common ledgers of coins and cw20 tokens.

Assumed as there: the bank and the cw20 tokens on the route behave as such.  Simplified: `auto_stake` and pairs of other
types; texts that are not valid addresses or messages are refused before they come here.
-/

namespace Verif.Exchange

open Verif
open Verif.Asset (Str Info Coin sent)
open Verif.Ledgers (Led Cfg Moved attach ValidFunds)
open Verif.Router (SwapOp ReplyData assertOperations hopBelief)

set_option linter.unusedSectionVars false

variable {A : Type} [DecidableEq A]

/-! ## Model -/

/-- What a pair contract stores, and the supply of its LP token: the fields of `XYK.Entry.Chain`, `Stable.Entry.Chain` and
`PCL.Entry.Chain` (contracts/pair/src/state.rs:9-28, contracts/pair_stable/src/state.rs:12-35,
packages/astroport_pcl_common/src/state.rs:21-43) without the ledgers. -/
inductive Pair (A : Type) where
  | xyk (supply : Nat) (twap : XYK.Twap) (tracked : Bool → Nat) (share : Option (Nat × A))
  | stable (supply : Nat) (twap : Stable.Twap) (amp : Stable.Amp) (owner : Option A) (share : Option (Nat × A))
  | pcl (supply : Nat) (params : PCL.PParams) (pool : PCL.Pool) (twap : PCL.Twap) (owner : Option A)
      (share : Option (Nat × A))

/-- All balances and allowances, all pairs, and the router's storage (contracts/router/src/state.rs). -/
structure World (A : Type) where
  led : Led A
  pair : A → Option (Pair A)
  reply : Option (ReplyData A)

/-- Addresses: the router, what each pair was created with, the factory's directory (`query_pair_info`,
packages/astroport/src/querier.rs:216-227), and the account behind a contract address. -/
structure Net (A : Type) where
  router : A
  cfg : A → Cfg A
  pairOf : Info → Info → Option A
  okAddr : Str → Bool
  contract : Str → Option A

/-- The block time, and what the factory answers to each pair. -/
structure Env (A : Type) where
  now : Nat
  owner : A
  total : A → Nat
  maker : A → Nat
  feeAddr : Option A
  registered : A → Bool

/-- What a constant product pair was created with. -/
def xykCfg (c : Cfg A) : XYK.Entry.Cfg A := ⟨c.me, c.infos, c.lp, c.addr, c.okAddr⟩

/-- The ledgers as a constant product pair sees them. -/
def xykChain (l : Led A) (s : Nat) (t : XYK.Twap) (tr : Bool → Nat) (sh : Option (Nat × A)) : XYK.Entry.Chain A :=
  ⟨l.bank, l.tok, l.allow, s, t, tr, sh⟩

/-- The ledgers of a constant product pair's chain. -/
def xykLed (w : XYK.Entry.Chain A) : Led A := ⟨w.bank, w.tok, w.allow⟩

/-- What the factory answers to a constant product pair. -/
def Env.xyk (e : Env A) (p : A) : XYK.Entry.Env A := ⟨e.now, e.owner, e.total p, e.maker p, e.feeAddr⟩

/-- What the factory answers to a stableswap pair. -/
def Env.stable (e : Env A) (p : A) : Stable.Entry.Env A := ⟨e.now, e.owner, e.total p, e.maker p, e.feeAddr⟩

/-- What the factory answers to a concentrated pair. -/
def Env.pcl (e : Env A) (p : A) : PCL.Entry.Env A := ⟨e.now, e.owner, e.maker p, e.feeAddr, e.registered p⟩

/-- The world after pair `p` ran. -/
def World.put (w : World A) (p : A) (l : Led A) (s : Pair A) : World A :=
  { w with led := l, pair := Function.update w.pair p (some s) }

/-- The account of the token that is offered. -/
def tokenOf (n : Net A) : Info → Res A
  | .native _ => .ok n.router
  | .token t => orErr (n.contract t) (.invalid "no such contract")

/-- `asset_into_swap_msg`, contracts/router/src/operations.rs:87-131, and the delivery of the message: a coin is attached to
`Swap`, a token is sent with a swap message to the pair. -/
def pairSwap (n : Net A) (e : Env A) (w : World A) (p payer : A) (offer : Info) (amount : Nat) (ask : Info)
    (belief maxSpread : Option Nat) (dest : Option A) : Res (World A) := do
  let st ← orErr (w.pair p) (.invalid "no such contract")
  let tk ← tokenOf n offer
  match st with
  | .xyk s t tr sh => do
    let x ← XYK.Entry.exec (xykCfg (n.cfg p)) (xykChain w.led s t tr sh) (match offer with
      | .native d => .call (e.xyk p) payer [⟨d, amount⟩] (.swap ⟨.native d, amount⟩ belief maxSpread dest)
      | .token _ => .send (e.xyk p) tk payer payer amount belief maxSpread dest)
    .ok (w.put p (xykLed x) (.xyk x.supply x.twap x.tracked x.share))
  | .stable s t am ow sh => do
    let x ← Stable.Entry.exec (n.cfg p) ⟨w.led, s, t, am, ow, sh⟩ (match offer with
      | .native d => .call (e.stable p) payer [⟨d, amount⟩] (.swap ⟨.native d, amount⟩ (some ask) belief maxSpread dest)
      | .token _ => .send (e.stable p) tk payer payer amount (some ask) belief maxSpread dest)
    .ok (w.put p x.led (.stable x.supply x.twap x.amp x.owner x.share))
  | .pcl s pa po t ow sh => do
    let x ← PCL.Entry.exec (n.cfg p) ⟨w.led, s, pa, po, t, ow, sh⟩ (match offer with
      | .native d => .call (e.pcl p) payer [⟨d, amount⟩] (.swap ⟨.native d, amount⟩ belief maxSpread dest)
      | .token _ => .send (e.pcl p) tk payer payer amount belief maxSpread dest)
    .ok (w.put p x.led (.pcl x.supply x.params x.pool x.twap x.owner x.share))

/-- `execute_swap_operation`, contracts/router/src/operations.rs:21-72: everything the router holds of the offered asset goes
to the pair that the factory names. -/
def hop (n : Net A) (e : Env A) (w : World A) (dest : Option A) (maxSpread : Option Nat) (single : Bool) :
    SwapOp → Res (World A)
  | .native _ _ => .error (.invalid "NativeSwapNotSupported")
  | .astro offer ask => do
    let p ← orErr (n.pairOf offer ask) (.invalid "pair not found")
    pairSwap n e w p n.router offer (w.led.of offer n.router) ask (hopBelief single) maxSpread dest

/-- The messages of a route one after the other: contracts/router/src/contract.rs:151-180; the last one pays `rcv`. -/
def hops (n : Net A) (e : Env A) (rcv : A) (maxSpread : Option Nat) (single : Bool) : World A → List SwapOp → Res (World A)
  | w, [] => .ok w
  | w, [op] => hop n e w (some rcv) maxSpread single op
  | w, op :: op' :: ops => do
    let w ← hop n e w none maxSpread single op
    hops n e rcv maxSpread single w (op' :: ops)

/-- `reply`, contracts/router/src/contract.rs:198-228: the amount reported as `return_amount`. -/
def finish (w : World A) : Res Nat := do
  let d ← orErr w.reply (.invalid "not found")
  let amount ← csub (w.led.of d.assetInfo d.receiver) d.prevBalance
  require (∀ m, d.minimumReceive = some m → ¬ amount < m) (.invalid "AssertionMinimumReceive")
  .ok amount

/-- `execute_swap_operations`, contracts/router/src/contract.rs:136-195, and `reply`, 198-228. -/
def route (n : Net A) (e : Env A) (w : World A) (sender : A) (ops : List SwapOp) (minimum : Option Nat) (dest : Option A)
    (maxSpread : Option Nat) : Res (World A × Nat) := do
  assertOperations n.okAddr ops
  let last ← orErr ops.getLast? (.invalid "unwrap on None")
  let rcv := dest.getD sender
  let w1 := { w with reply := some ⟨last.target, w.led.of last.target rcv, minimum, rcv⟩ }
  let w2 ← hops n e rcv maxSpread (decide (ops.length = 1)) w1 ops
  let out ← finish w2
  .ok (w2, out)

/-- How a call of the router is paid: coins attached to it, tokens sent to it (by their owner or by a spender), or nothing but
the claim, in a message `Receive` that no token contract sent. -/
inductive Payment (A : Type) where
  | coins (x : A) (funds : List Coin)
  | tokens (t : Str) (owner spender : A) (amount : Nat)
  | forged (x : A) (funds : List Coin) (claimed : A)

/-- `execute` and `receive_cw20`, contracts/router/src/contract.rs:69-124, with the payment that comes along.  The router and the
pairs themselves start no transaction. -/
def exec (n : Net A) (e : Env A) (w : World A) (pay : Payment A) (ops : List SwapOp) (minimum : Option Nat)
    (dest : Option A) (maxSpread : Option Nat) : Res (World A × Nat) :=
  match pay with
  | .coins x funds => do
    require (x ≠ n.router ∧ w.pair x = none) .unauthorized
    require (ValidFunds funds) (.invalid "invalid coins")
    let l ← attach w.led x n.router funds
    route n e { w with led := l } x ops minimum dest maxSpread
  | .tokens t owner spender amount => do
    require (owner ≠ n.router ∧ w.pair owner = none) .unauthorized
    let l ← (if owner = spender then w.led.move (.token t) owner n.router amount
      else Ledgers.transferFrom w.led t owner spender n.router amount)
    route n e { w with led := l } spender ops minimum dest maxSpread
  | .forged x funds claimed => do
    require (x ≠ n.router ∧ w.pair x = none) .unauthorized
    require (ValidFunds funds) (.invalid "invalid coins")
    let l ← attach w.led x n.router funds
    route n e { w with led := l } claimed ops minimum dest maxSpread

/-- `query_simulation` of a pair: contracts/pair/src/contract.rs:985-1027, contracts/pair_stable/src/contract.rs:809-866,
contracts/pair_concentrated/src/queries.rs:145-199; the quoted return amount. -/
def quote (n : Net A) (e : Env A) (w : World A) (p : A) (offer _ask : Info) (x : Nat) : Res Nat := do
  let st ← orErr (w.pair p) (.invalid "no such contract")
  let i ← orErr (Ledgers.label (n.cfg p) offer) (.invalid "AssetMismatch")
  match st with
  | .xyk s t tr sh => do
    let r ← XYK.simulation (n.cfg p).me (XYK.Entry.view (xykCfg (n.cfg p)) (xykChain w.led s t tr sh)) i x
      (XYK.Entry.fees (e.xyk p) (xykChain w.led s t tr sh))
    .ok r.ret
  | .stable s t am ow sh => do
    let r ← Stable.simulation (Stable.Entry.setup (n.cfg p)) (n.cfg p).me (Stable.Entry.view (n.cfg p) ⟨w.led, s, t, am, ow, sh⟩)
      e.now i x (Stable.Entry.fees (e.stable p) ⟨w.led, s, t, am, ow, sh⟩)
    .ok r.ret
  | .pcl s pa po t ow sh => do
    let r ← PCL.simulation (PCL.Entry.setup (n.cfg p)) (n.cfg p).me (PCL.Entry.view (n.cfg p) ⟨w.led, s, pa, po, t, ow, sh⟩)
      e.now i x (e.pcl p).fees
    .ok r.1

/-! ## Specification -/

/-- Who receives the pair's own share of the fees. -/
def Pair.shareTo : Pair A → Option A
  | .xyk _ _ _ sh => sh.map (·.2)
  | .stable _ _ _ _ sh => sh.map (·.2)
  | .pcl _ _ _ _ _ sh => sh.map (·.2)

/-- Pairs know their own address, have two assets which are not their LP token; the router is not a pair; the text of a
contract's address is its address. -/
structure Net.Ok (n : Net A) (w : World A) : Prop where
  me : ∀ p s, w.pair p = some s → (n.cfg p).me = p
  ok : ∀ p s, w.pair p = some s → (n.cfg p).Ok
  router : w.pair n.router = none
  addr : ∀ t x, n.contract t = some x → ∀ p, (n.cfg p).addr x = t

/-- For these two assets the factory names, if at all, a pair of the two. -/
def Net.Trades (n : Net A) (q : Info × Info) : Prop :=
  ∀ p, n.pairOf q.1 q.2 = some p → ∃ i, (n.cfg p).infos i = q.1 ∧ (n.cfg p).infos (!i) = q.2

/-- Who pays. -/
def Payment.payer : Payment A → A
  | .coins x _ => x
  | .tokens _ owner _ _ => owner
  | .forged x _ _ => x

/-- What is paid of an asset. -/
def Payment.amount : Payment A → Info → Nat
  | .coins _ funds, .native d => sent funds d
  | .coins _ _, .token _ => 0
  | .tokens t _ _ n, k => if k = .token t then n else 0
  | .forged _ funds _, .native d => sent funds d
  | .forged _ _ _, .token _ => 0

/-- Who receives if nobody is named: the account that the router takes for the sender. -/
def Payment.sender : Payment A → A
  | .coins x _ => x
  | .tokens _ _ spender _ => spender
  | .forged _ _ claimed => claimed

/-- The account receives no fees: neither the maker's nor the share of a pair. -/
def NoFees (e : Env A) (w : World A) (z : A) : Prop :=
  e.feeAddr ≠ some z ∧ ∀ p st, w.pair p = some st → st.shareTo ≠ some z

/-! ## Lemmas: one hop -/

/-- A trade at one pair, on the ledgers: the offer goes to the pair, the pair pays the receiver and the fees, all in the other
asset. -/
structure Traded (e : Env A) (w w' : World A) (p payer : A) (o a : Info) (x : Nat) (dst : A) (out : Nat) : Prop where
  led : ∃ l1 l2 l3 sh s m, Moved w.led o payer (some p) x l1 ∧ Moved l1 a p (some dst) out l2 ∧ Moved l2 a p sh s l3 ∧
    Moved l3 a p e.feeAddr m w'.led ∧ (∀ st, w.pair p = some st → sh = st.shareTo)
  other : ∀ q, q ≠ p → w'.pair q = w.pair q
  same : ∃ st st', w.pair p = some st ∧ w'.pair p = some st' ∧ st'.shareTo = st.shareTo
  reply : w'.reply = w.reply

theorem xyk_moved {w w' : XYK.Entry.Chain A} {k : Info} {src : A} {dst : Option A} {n : Nat}
    (h : XYK.Entry.Moved w k src dst n w') : Moved (xykLed w) k src dst n (xykLed w') := by
  have e : ∀ (v : XYK.Entry.Chain A) j, (xykLed v).of j = v.of j := fun v j => by cases j <;> rfl
  exact ⟨by rw [e, e]; exact h.move, fun j hj => by rw [e, e]; exact h.other j hj⟩

theorem label_other {c : Cfg A} (hc : c.Ok) {o a : Info} {i j : Bool} (h1 : c.infos i = o) (h2 : c.infos (!i) = a)
    (h : o = c.infos j) : c.infos (!j) = a := by
  have : i = j := Ledgers.infos_inj hc (h1.trans h)
  rw [← this]
  exact h2

theorem attach_one {w w' : Led A} {src dst : A} {d : Str} {n : Nat} (h : attach w src dst [⟨d, n⟩] = .ok w') :
    Moved w (.native d) src (some dst) n w' := by
  simp only [attach, bind_ok_iff, Except.ok.injEq] at h
  obtain ⟨v, h1, rfl⟩ := h
  exact Ledgers.move_moved h1

theorem xyk_attach_one {w w' : XYK.Entry.Chain A} {src dst : A} {d : Str} {n : Nat}
    (h : XYK.Entry.attach w src dst [⟨d, n⟩] = .ok w') : XYK.Entry.Moved w (.native d) src (some dst) n w' := by
  simp only [XYK.Entry.attach, bind_ok_iff, Except.ok.injEq] at h
  obtain ⟨v, h1, rfl⟩ := h
  exact XYK.Entry.move_moved h1

/-- The payments of a constant product pair. -/
theorem xyk_paid {c : XYK.Entry.Cfg A} {e : XYK.Entry.Env A} {w w' : XYK.Entry.Chain A} {funds : List Coin} {sender : A}
    {offer : Asset.Asset} {belief maxSpread : Option Nat} {dest : Option A} {out : XYK.SwapOut}
    (h : XYK.Entry.swapMsg c e w funds sender offer belief maxSpread dest = .ok (w', out)) :
    ∃ i l2 l3, offer.info = c.infos i ∧ Moved (xykLed w) (c.infos !i) c.me (some (dest.getD sender)) out.ret l2 ∧
      Moved l2 (c.infos !i) c.me (w.share.map (·.2)) out.feeShare l3 ∧
      Moved l3 (c.infos !i) c.me e.feeAddr out.makerFee (xykLed w') ∧ w'.share = w.share := by
  unfold XYK.Entry.swapMsg at h
  simp only [bind_ok_iff, Except.ok.injEq, Prod.mk.injEq] at h
  obtain ⟨_, _, p0, h0, p1, h1, i, hi, r, hr, g, hg, ⟨⟩, hms, ⟨sh, mk⟩, hsp, tO, hO, tA, hA, tw, htw, w2, g2, w3, g3, w4, g4,
    rfl, rfl⟩ := h
  have hk : offer.info = c.infos i := by
    split_ifs at hi <;> simp_all
  have m2 := XYK.Entry.payNonzero_moved g2
  have m3 := XYK.Entry.payNonzero_moved g3
  have m4 := XYK.Entry.payNonzero_moved g4
  have m2' := xyk_moved m2
  change Moved (xykLed w) (c.infos !i) c.me (some (dest.getD sender)) r.ret (xykLed w2) at m2'
  exact ⟨i, xykLed w2, xykLed w3, hk, m2', xyk_moved m3, xyk_moved m4,
    m4.rest.share.trans (m3.rest.share.trans m2.rest.share)⟩

/-- The payments of a stableswap pair. -/
theorem stable_paid {c : Cfg A} {e : Stable.Entry.Env A} {w w' : Stable.Entry.Chain A} {sender : A}
    {offer : Asset.Asset} {ask : Option Info} {belief maxSpread : Option Nat} {dest : Option A} {out : XYK.SwapOut}
    (h : Stable.Entry.swapMsg c e w sender offer ask belief maxSpread dest = .ok (w', out)) :
    ∃ i l2 l3, offer.info = c.infos i ∧ Moved w.led (c.infos !i) c.me (some (dest.getD sender)) out.ret l2 ∧
      Moved l2 (c.infos !i) c.me (w.share.map (·.2)) out.feeShare l3 ∧
      Moved l3 (c.infos !i) c.me e.feeAddr out.makerFee w'.led ∧ w'.share = w.share := by
  unfold Stable.Entry.swapMsg at h
  simp only [bind_ok_iff, Except.ok.injEq, Prod.mk.injEq] at h
  obtain ⟨p0, h0, p1, h1, ⟨i, j⟩, hij, amp, hamp, r, hr, g, hg, ⟨⟩, hms, ⟨sh, mk⟩, hsp, pools, hpools, tw, htw, l2, g2, l3,
    g3, l4, g4, rfl, rfl⟩ := h
  obtain ⟨hi, rfl⟩ := Stable.Entry.select_some hij
  exact ⟨i, l2, l3, Ledgers.label_some hi, Ledgers.payNonzero_moved g2, Ledgers.payNonzero_moved g3,
    Ledgers.payNonzero_moved g4, rfl⟩

/-- The payments of a concentrated pair. -/
theorem pcl_paid {c : Cfg A} {e : PCL.Entry.Env A} {w w' : PCL.Entry.Chain A} {sender : A}
    {offer : Asset.Asset} {belief maxSpread : Option Nat} {dest : Option A} {out : PCL.SwapOut}
    (h : PCL.Entry.swapMsg c e w sender offer belief maxSpread dest = .ok (w', out)) :
    ∃ i l2 l3, offer.info = c.infos i ∧ Moved w.led (c.infos !i) c.me (some (dest.getD sender)) out.ret l2 ∧
      Moved l2 (c.infos !i) c.me (w.share.map (·.2)) out.share l3 ∧
      Moved l3 (c.infos !i) c.me e.feeAddr out.maker w'.led ∧ w'.share = w.share := by
  unfold PCL.Entry.swapMsg at h
  simp only [bind_ok_iff, orErr_ok, Except.ok.injEq, Prod.mk.injEq] at h
  obtain ⟨i, hi, off, hoff, ps, hps, rest, hrest, ⟨⟩, hbs, old, hold, fs, hfs, r, hr, o, ho, pool, hpool, ret, hret, sp, hsp,
    ⟨⟩, hms, sa, hsa, ma, hma, tw, htw, cm, hcm, l2, g2, l3, g3, l4, g4, rfl, rfl⟩ := h
  exact ⟨i, l2, l3, Ledgers.label_some hi, Ledgers.pay_moved g2, Ledgers.payNonzero_moved g3,
    Ledgers.payNonzero_moved g4, rfl⟩

theorem xykCfg_ok {c : Cfg A} (h : c.Ok) : (xykCfg c).Ok := ⟨h.ne, h.lp⟩

theorem xyk_label (c : Cfg A) (k : Info) : XYK.Entry.label (xykCfg c) k = Ledgers.label c k := rfl

/-- A trade at a pair pays what the pair would have quoted, and moves nothing but the offer, the payment and the fees. -/
theorem traded {n : Net A} {e : Env A} {w w' : World A} (hn : n.Ok w) {p payer : A} {o a : Info} {x : Nat} (hoa : n.Trades (o, a))
    {belief maxSpread : Option Nat} {dest : Option A} (hp : n.pairOf o a = some p) (hpay : payer ≠ p)
    (h : pairSwap n e w p payer o x a belief maxSpread dest = .ok w') :
    ∃ out, Traded e w w' p payer o a x (dest.getD payer) out ∧ quote n e w p o a x = .ok out := by
  obtain ⟨i0, ho, ha⟩ := hoa p hp
  simp only [pairSwap, bind_ok_iff, orErr_ok] at h
  obtain ⟨st, hst, tk, htk, h⟩ := h
  have hme := hn.me p st hst
  have hok := hn.ok p st hst
  have hadd : ∀ t, o = .token t → (n.cfg p).addr tk = t := by
    rintro t rfl
    simp only [tokenOf, orErr_ok] at htk
    exact hn.addr t tk htk p
  cases st with
  | xyk s t tr sh =>
    simp only [bind_ok_iff, Except.ok.injEq] at h
    obtain ⟨y, h, rfl⟩ := h
    have main : ∃ v out funds, XYK.Entry.Moved (xykChain w.led s t tr sh) o payer (some (xykCfg (n.cfg p)).me) x v ∧
        XYK.Entry.swapMsg (xykCfg (n.cfg p)) (e.xyk p) v funds payer ⟨o, x⟩ belief maxSpread dest = .ok (y, out) := by
      cases o with
      | native d =>
        simp only [XYK.Entry.exec, XYK.Entry.execute, bind_ok_iff, require_ok, exists_const, Except.ok.injEq] at h
        obtain ⟨_, _, v, h1, _, h2, _, ⟨y', out⟩, h3, rfl⟩ := h
        exact ⟨v, out, _, xyk_attach_one h1, h3⟩
      | token tt =>
        have := hadd tt rfl
        subst this
        simp only [XYK.Entry.exec, XYK.Entry.execute, bind_ok_iff, require_ok, exists_const, Except.ok.injEq, if_true] at h
        obtain ⟨_, v, h1, _, ⟨y', out⟩, h3, rfl⟩ := h
        exact ⟨v, out, _, XYK.Entry.move_moved h1, h3⟩
    obtain ⟨v, out, funds, m1, h3⟩ := main
    obtain ⟨i, l2, l3, hi, m2, m3, m4, hsh⟩ := xyk_paid h3
    obtain ⟨j, hj, hsw⟩ := XYK.Entry.swap_meaning (xykCfg_ok hok) m1 h3
    have hq := XYK.C15_simulation_equals_swap _ _ _ _ _ (by
      show payer ≠ (n.cfg p).me
      rw [hme]; exact hpay) _ _ _ _ _ _ _ hsw
    have hai : (xykCfg (n.cfg p)).infos (!i) = a := label_other hok ho ha hi
    rw [hai] at m2 m3 m4
    have m1' := xyk_moved m1
    change Moved w.led o payer (some (n.cfg p).me) x (xykLed v) at m1'
    change Moved (xykLed v) a (n.cfg p).me _ _ l2 at m2
    change Moved l2 a (n.cfg p).me _ _ l3 at m3
    change Moved l3 a (n.cfg p).me _ _ _ at m4
    rw [hme] at m1' m2 m3 m4
    have hv : v.share = sh := m1.rest.share
    rw [hv] at m3 hsh
    refine ⟨out.ret, ⟨⟨_, _, _, _, _, _, m1', m2, m3, m4, ?_⟩, ?_, ?_, rfl⟩, ?_⟩
    · intro st' hst'
      rw [hst] at hst'
      cases hst'
      rfl
    · intro q hq
      exact Function.update_of_ne hq _ _
    · refine ⟨_, _, hst, Function.update_self .., ?_⟩
      simp only [Pair.shareTo, hsh]
    · simp only [quote, bind_ok_iff, orErr_ok]
      refine ⟨_, hst, j, hj, ?_⟩
      simp only [bind_ok_iff, Except.ok.injEq]
      exact ⟨_, hq, rfl⟩
  | stable s t am ow sh =>
    simp only [bind_ok_iff, Except.ok.injEq] at h
    obtain ⟨y, h, rfl⟩ := h
    have main : ∃ v out, Moved w.led o payer (some (n.cfg p).me) x v ∧
        Stable.Entry.swapMsg (n.cfg p) (e.stable p) ⟨v, s, t, am, ow, sh⟩ payer ⟨o, x⟩ (some a) belief maxSpread dest =
          .ok (y, out) := by
      cases o with
      | native d =>
        simp only [Stable.Entry.exec, Stable.Entry.execute, bind_ok_iff, require_ok, exists_const, Except.ok.injEq] at h
        obtain ⟨_, _, v, h1, _, h2, _, _, h4, ⟨y', out⟩, h3, rfl⟩ := h
        exact ⟨v, out, attach_one h1, h3⟩
      | token tt =>
        have := hadd tt rfl
        subst this
        simp only [Stable.Entry.exec, Stable.Entry.execute, bind_ok_iff, require_ok, exists_const, Except.ok.injEq, if_true] at h
        obtain ⟨_, v, h1, _, ⟨y', out⟩, h3, rfl⟩ := h
        exact ⟨v, out, Ledgers.move_moved h1, h3⟩
    obtain ⟨v, out, m1, h3⟩ := main
    obtain ⟨i, l2, l3, hi, m2, m3, m4, hsh⟩ := stable_paid h3
    obtain ⟨j, hj, hsw⟩ := Stable.Entry.swap_meaning (w := ⟨w.led, s, t, am, ow, sh⟩) hok m1 h3
    have hq := Stable.C80_simulation_exact _ _ _ _ _ _ (by rw [hme]; exact hpay) _ _ _ _ _ _ _ hsw
    have hai : (n.cfg p).infos (!i) = a := label_other hok ho ha hi
    rw [hai] at m2 m3 m4
    rw [hme] at m1 m2 m3 m4
    refine ⟨out.ret, ⟨⟨_, _, _, _, _, _, m1, m2, m3, m4, ?_⟩, ?_, ?_, rfl⟩, ?_⟩
    · intro st' hst'
      rw [hst] at hst'
      cases hst'
      rfl
    · intro q hq
      exact Function.update_of_ne hq _ _
    · refine ⟨_, _, hst, Function.update_self .., ?_⟩
      simp only [Pair.shareTo, hsh]
    · simp only [quote, bind_ok_iff, orErr_ok]
      refine ⟨_, hst, j, hj, ?_⟩
      simp only [bind_ok_iff, Except.ok.injEq]
      exact ⟨_, hq, rfl⟩
  | pcl s pa po t ow sh =>
    simp only [bind_ok_iff, Except.ok.injEq] at h
    obtain ⟨y, h, rfl⟩ := h
    have main : ∃ v out, Moved w.led o payer (some (n.cfg p).me) x v ∧
        PCL.Entry.swapMsg (n.cfg p) (e.pcl p) ⟨v, s, pa, po, t, ow, sh⟩ payer ⟨o, x⟩ belief maxSpread dest =
          .ok (y, out) := by
      cases o with
      | native d =>
        simp only [PCL.Entry.exec, PCL.Entry.execute, bind_ok_iff, require_ok, exists_const, Except.ok.injEq] at h
        obtain ⟨_, _, v, h1, _, h2, _, _, h4, _, ⟨y', out⟩, h3, rfl⟩ := h
        exact ⟨v, out, attach_one h1, h3⟩
      | token tt =>
        have := hadd tt rfl
        subst this
        simp only [PCL.Entry.exec, PCL.Entry.execute, bind_ok_iff, require_ok, exists_const, Except.ok.injEq, if_true] at h
        obtain ⟨_, v, h1, _, ⟨y', out⟩, h3, rfl⟩ := h
        exact ⟨v, out, Ledgers.move_moved h1, h3⟩
    obtain ⟨v, out, m1, h3⟩ := main
    obtain ⟨i, l2, l3, hi, m2, m3, m4, hsh⟩ := pcl_paid h3
    have hpm : payer ≠ (n.cfg p).me := by rw [hme]; exact hpay
    obtain ⟨j, hj, hsw⟩ := PCL.Entry.swap_meaning (w := ⟨w.led, s, pa, po, t, ow, sh⟩) hok hpm m1 h3
    have hq := PCL.C88_swap_quote_exact _ _ _ _ _ _ _ _ _ _ _ _ _ hpm hsw
    have hai : (n.cfg p).infos (!i) = a := label_other hok ho ha hi
    rw [hai] at m2 m3 m4
    rw [hme] at m1 m2 m3 m4
    refine ⟨out.ret, ⟨⟨_, _, _, _, _, _, m1, m2, m3, m4, ?_⟩, ?_, ?_, rfl⟩, ?_⟩
    · intro st' hst'
      rw [hst] at hst'
      cases hst'
      rfl
    · intro q hq
      exact Function.update_of_ne hq _ _
    · refine ⟨_, _, hst, Function.update_self .., ?_⟩
      simp only [Pair.shareTo, hsh]
    · simp only [quote, bind_ok_iff, orErr_ok]
      refine ⟨_, hst, j, hj, ?_⟩
      simp only [bind_ok_iff, Except.ok.injEq]
      exact ⟨_, hq, rfl⟩

theorem Traded.ok {n : Net A} {e : Env A} {w w' : World A} {p payer : A} {o a : Info} {x : Nat} {dst : A} {out : Nat}
    (h : Traded e w w' p payer o a x dst out) (hn : n.Ok w) : n.Ok w' := by
  obtain ⟨st, st', h1, h2, _⟩ := h.same
  have back : ∀ q s, w'.pair q = some s → ∃ s', w.pair q = some s' := by
    intro q s hs
    by_cases hq : q = p
    · exact ⟨st, by rw [hq]; exact h1⟩
    · rw [h.other q hq] at hs
      exact ⟨s, hs⟩
  refine ⟨?_, ?_, ?_, hn.addr⟩
  · intro q s hs
    obtain ⟨s', hs'⟩ := back q s hs
    exact hn.me q s' hs'
  · intro q s hs
    obtain ⟨s', hs'⟩ := back q s hs
    exact hn.ok q s' hs'
  · cases hr : w'.pair n.router with
    | none => rfl
    | some s =>
      obtain ⟨s', hs'⟩ := back _ s hr
      rw [hn.router] at hs'
      cases hs'

/-- What a transfer does to one account. -/
theorem moved_apply {w w' : Led A} {k : Info} {src : A} {dst : Option A} {n : Nat} (m : Moved w k src dst n w') {z : A}
    (hz : z ≠ src) : w'.of k z = w.of k z + (if dst = some z then n else 0) := by
  have := m.move
  cases dst with
  | none =>
    simp only [XYK.sendOpt, Except.ok.injEq] at this
    simp [this]
  | some d =>
    simp only [XYK.sendOpt] at this
    rw [move_apply this, if_neg hz]
    by_cases hd : z = d
    · simp [hd]
    · have : d ≠ z := fun e => hd e.symm
      simp [hd, this]

/-- Assets that are neither offered nor asked for do not move. -/
theorem Traded.keep {e : Env A} {w w' : World A} {p payer : A} {o a : Info} {x : Nat} {dst : A} {out : Nat}
    (h : Traded e w w' p payer o a x dst out) {k : Info} (ho : k ≠ o) (ha : k ≠ a) : w'.led.of k = w.led.of k := by
  obtain ⟨l1, l2, l3, sh, s, m, m1, m2, m3, m4, _⟩ := h.led
  rw [m4.other k ha, m3.other k ha, m2.other k ha, m1.other k ho]

/-- Nobody but the payer and the pair has less. -/
theorem Traded.mono {e : Env A} {w w' : World A} {p payer : A} {o a : Info} {x : Nat} {dst : A} {out : Nat}
    (h : Traded e w w' p payer o a x dst out) {z : A} (hz : z ≠ payer) (hp : z ≠ p) (k : Info) :
    w.led.of k z ≤ w'.led.of k z := by
  obtain ⟨l1, l2, l3, sh, s, m, m1, m2, m3, m4, _⟩ := h.led
  exact Nat.le_trans (m1.mono hz k) (Nat.le_trans (m2.mono hp k) (Nat.le_trans (m3.mono hp k) (m4.mono hp k)))

/-- The offered asset: it goes from the payer to the pair. -/
theorem Traded.offered {e : Env A} {w w' : World A} {p payer : A} {o a : Info} {x : Nat} {dst : A} {out : Nat}
    (h : Traded e w w' p payer o a x dst out) (hoa : o ≠ a) (hp : payer ≠ p) :
    w'.led.of o payer + x = w.led.of o payer ∧ ∀ z, z ≠ payer → z ≠ p → w'.led.of o z = w.led.of o z := by
  obtain ⟨l1, l2, l3, sh, s, m, m1, m2, m3, m4, _⟩ := h.led
  have e1 : w'.led.of o = l1.of o := by rw [m4.other o hoa, m3.other o hoa, m2.other o hoa]
  have hm : Verif.move (w.led.of o) payer p x = .ok (l1.of o) := m1.move
  refine ⟨?_, fun z h1 h2 => ?_⟩
  · have := move_le hm
    rw [e1, move_apply hm, if_pos rfl, if_neg hp]
    omega
  · rw [e1, move_apply hm, if_neg h1, if_neg h2]
    rfl

/-- The other asset: the receiver gets the payment, fee receivers get fees. -/
theorem Traded.asked {e : Env A} {w w' : World A} {p payer : A} {o a : Info} {x : Nat} {dst : A} {out : Nat}
    (h : Traded e w w' p payer o a x dst out) (hoa : o ≠ a) {z : A} (hz : z ≠ p) (hf : e.feeAddr ≠ some z)
    (hs : ∀ st, w.pair p = some st → st.shareTo ≠ some z) :
    w'.led.of a z = w.led.of a z + (if dst = z then out else 0) := by
  obtain ⟨l1, l2, l3, sh, s, m, m1, m2, m3, m4, hsh⟩ := h.led
  obtain ⟨st, _, hst, _⟩ := h.same
  have e1 := m1.other a (fun h => hoa h.symm)
  have h3 : ¬ sh = some z := by rw [hsh st hst]; exact hs st hst
  rw [moved_apply m4 hz, moved_apply m3 hz, moved_apply m2 hz, e1, if_neg hf, if_neg h3]
  simp

theorem Moved.sum [Fintype A] {w w' : Led A} {k : Info} {src : A} {dst : Option A} {n : Nat} (m : Moved w k src dst n w')
    (j : Info) : ∑ z, w'.of j z = ∑ z, w.of j z := by
  by_cases hj : j = k
  · subst hj
    have := m.move
    cases dst with
    | none =>
      simp only [XYK.sendOpt, Except.ok.injEq] at this
      rw [this]
    | some d => exact sum_move this
  · rw [m.other j hj]

theorem Traded.sum [Fintype A] {e : Env A} {w w' : World A} {p payer : A} {o a : Info} {x : Nat} {dst : A} {out : Nat}
    (h : Traded e w w' p payer o a x dst out) (k : Info) : ∑ z, w'.led.of k z = ∑ z, w.led.of k z := by
  obtain ⟨l1, l2, l3, sh, s, m, m1, m2, m3, m4, hsh⟩ := h.led
  rw [Moved.sum m4, Moved.sum m3, Moved.sum m2, Moved.sum m1]

/-! ## Lemmas: routes -/

/-- The hops of a route: each offers all that the router holds; all but the last pay the router. -/
inductive Steps (n : Net A) (e : Env A) (rcv : A) : World A → List (Info × Info) → World A → Prop
  | one {w w' : World A} {q : Info × Info} {p : A} {out : Nat} (hp : n.pairOf q.1 q.2 = some p) (hq : q.1 ≠ q.2)
      (hr : n.router ≠ p) (ht : Traded e w w' p n.router q.1 q.2 (w.led.of q.1 n.router) rcv out)
      (hs : quote n e w p q.1 q.2 (w.led.of q.1 n.router) = .ok out) : Steps n e rcv w [q] w'
  | cons {w w1 w' : World A} {q r : Info × Info} {l : List (Info × Info)} {p : A} {out : Nat}
      (hp : n.pairOf q.1 q.2 = some p) (hq : q.1 ≠ q.2) (hr : n.router ≠ p)
      (ht : Traded e w w1 p n.router q.1 q.2 (w.led.of q.1 n.router) n.router out)
      (hs : quote n e w p q.1 q.2 (w.led.of q.1 n.router) = .ok out) (hc : q.2 = r.1)
      (hl : Steps n e rcv w1 (r :: l) w') : Steps n e rcv w (q :: r :: l) w'

theorem hop_step {n : Net A} {e : Env A} {w w' : World A} {dest : Option A} {ms : Option Nat} {single : Bool}
    {q : Info × Info} (hn : n.Ok w) (hq : n.Trades q) (h : hop n e w dest ms single (.astro q.1 q.2) = .ok w') :
    ∃ p out, n.pairOf q.1 q.2 = some p ∧ n.router ≠ p ∧
      Traded e w w' p n.router q.1 q.2 (w.led.of q.1 n.router) (dest.getD n.router) out ∧
      quote n e w p q.1 q.2 (w.led.of q.1 n.router) = .ok out := by
  simp only [hop, bind_ok_iff, orErr_ok] at h
  obtain ⟨p, hp, h⟩ := h
  have hr : n.router ≠ p := by
    intro hr
    simp only [pairSwap, bind_ok_iff, orErr_ok] at h
    obtain ⟨st, hst, _⟩ := h
    rw [← hr, hn.router] at hst
    cases hst
  obtain ⟨out, ht, hq⟩ := traded hn hq hp hr h
  exact ⟨p, out, hp, hr, ht, hq⟩

theorem hops_steps {n : Net A} {e : Env A} {rcv : A} {ms : Option Nat} {single : Bool} :
    ∀ {l : List (Info × Info)} {w w' : World A}, n.Ok w → (∀ q ∈ l, n.Trades q) → l ≠ [] → (∀ q ∈ l, q.1 ≠ q.2) →
    l.IsChain (fun x y => x.2 = y.1) → hops n e rcv ms single w (Router.asOps l) = .ok w' → Steps n e rcv w l w'
  | [], _, _, _, _, h, _, _, _ => absurd rfl h
  | [q], w, w', hn, htr, _, hne, _, h => by
    simp only [Router.asOps, List.map_cons, List.map_nil, hops] at h
    obtain ⟨p, out, hp, hr, ht, hq⟩ := hop_step hn (htr q (by simp)) h
    exact .one hp (hne q (by simp)) hr ht hq
  | q :: r :: l, w, w', hn, htr, _, hne, hc, h => by
    simp only [Router.asOps, List.map_cons, hops, bind_ok_iff] at h
    obtain ⟨w1, h1, h2⟩ := h
    obtain ⟨p, out, hp, hr, ht, hq⟩ := hop_step hn (htr q (by simp)) h1
    exact .cons hp (hne q (by simp)) hr ht hq hc.rel
      (hops_steps (ht.ok hn) (fun s hs => htr s (by simp [List.mem_cons.1 hs])) (by simp) (fun s hs => hne s (by simp [List.mem_cons.1 hs])) hc.tail h2)

/-- The pairs of a route. -/
def OnRoute (n : Net A) (l : List (Info × Info)) (p : A) : Prop := ∃ q ∈ l, n.pairOf q.1 q.2 = some p

theorem Steps.reply {n : Net A} {e : Env A} {rcv : A} {w w' : World A} {l : List (Info × Info)} (h : Steps n e rcv w l w') :
    w'.reply = w.reply := by
  induction h with
  | one hp hq hr ht hs => exact ht.reply
  | cons hp hq hr ht hs hc hl ih => rw [ih, ht.reply]

theorem Steps.mono {n : Net A} {e : Env A} {rcv : A} {w w' : World A} {l : List (Info × Info)} (h : Steps n e rcv w l w')
    {z : A} (hz : z ≠ n.router) (hp : ¬ OnRoute n l z) (k : Info) : w.led.of k z ≤ w'.led.of k z := by
  induction h with
  | one hp' hq hr ht hs => exact ht.mono hz (fun e => hp ⟨_, List.mem_singleton.2 rfl, by rw [e]; exact hp'⟩) k
  | cons hp' hq hr ht hs hc hl ih =>
    refine Nat.le_trans (ht.mono hz (fun e => hp ⟨_, List.mem_cons_self, by rw [e]; exact hp'⟩) k) (ih ?_)
    rintro ⟨q, hm, hq⟩
    exact hp ⟨q, List.mem_cons_of_mem _ hm, hq⟩

theorem Steps.sum [Fintype A] {n : Net A} {e : Env A} {rcv : A} {w w' : World A} {l : List (Info × Info)}
    (h : Steps n e rcv w l w') (k : Info) : ∑ z, w'.led.of k z = ∑ z, w.led.of k z := by
  induction h with
  | one hp hq hr ht hs => exact ht.sum k
  | cons hp hq hr ht hs hc hl ih => rw [ih, ht.sum k]

/-- Pairs off the route store what they stored. -/
theorem Steps.other {n : Net A} {e : Env A} {rcv : A} {w w' : World A} {l : List (Info × Info)} (h : Steps n e rcv w l w')
    {z : A} (hp : ¬ OnRoute n l z) : w'.pair z = w.pair z := by
  induction h with
  | one hp' hq hr ht hs => exact ht.other z (fun e => hp ⟨_, List.mem_singleton.2 rfl, by rw [e]; exact hp'⟩)
  | cons hp' hq hr ht hs hc hl ih =>
    rw [ih (by
      rintro ⟨q, hm, hq⟩
      exact hp ⟨q, List.mem_cons_of_mem _ hm, hq⟩), ht.other z (fun e => hp ⟨_, List.mem_cons_self, by rw [e]; exact hp'⟩)]

theorem Traded.noFees {e : Env A} {w w' : World A} {p payer : A} {o a : Info} {x : Nat} {dst : A} {out : Nat}
    (h : Traded e w w' p payer o a x dst out) {z : A} (hz : NoFees e w z) : NoFees e w' z := by
  refine ⟨hz.1, fun q st hq => ?_⟩
  by_cases hqp : q = p
  · obtain ⟨s, s', h1, h2, h3⟩ := h.same
    subst hqp
    rw [h2, Option.some.injEq] at hq
    rw [← hq, h3]
    exact hz.2 q s h1
  · rw [h.other q hqp] at hq
    exact hz.2 q st hq

/-- The router ends with nothing of what was offered on the way, and has all else that it had. -/
theorem Steps.router {n : Net A} {e : Env A} {rcv : A} {w w' : World A} {l : List (Info × Info)} (h : Steps n e rcv w l w')
    (hrcv : rcv ≠ n.router) (hf : NoFees e w n.router) (k : Info) :
    w'.led.of k n.router = if k ∈ l.map Prod.fst then 0 else w.led.of k n.router := by
  induction h with
  | @one w w' q p out hp hq hr ht hs =>
    by_cases hk : k = q.1
    · subst hk
      have := (ht.offered hq hr).1
      simp only [List.map_cons, List.map_nil, List.mem_singleton, if_true]
      omega
    · rw [if_neg (by simpa using hk)]
      by_cases hk2 : k = q.2
      · subst hk2
        rw [ht.asked hq hr hf.1 (fun st hst => hf.2 p st hst), if_neg hrcv, Nat.add_zero]
      · rw [ht.keep hk hk2]
  | @cons w w1 w' q r l p out hp hq hr ht hs hc hl ih =>
    rw [ih (ht.noFees hf)]
    by_cases hkl : k ∈ (r :: l).map Prod.fst
    · rw [if_pos hkl, if_pos (by rw [List.map_cons]; exact List.mem_cons_of_mem _ hkl)]
    · rw [if_neg hkl]
      by_cases hk : k = q.1
      · subst hk
        have := (ht.offered hq hr).1
        rw [if_pos (by simp)]
        omega
      · rw [if_neg (by
          rw [List.map_cons, List.mem_cons]
          rintro (h | h)
          · exact hk h
          · exact hkl h)]
        have hk2 : k ≠ q.2 := by
          intro e
          apply hkl
          rw [e, hc]
          simp
        rw [ht.keep hk hk2]

/-- An account that neither pays nor receives in a trade, and receives no fees. -/
theorem Traded.idle {e : Env A} {w w' : World A} {p payer : A} {o a : Info} {x : Nat} {dst : A} {out : Nat}
    (h : Traded e w w' p payer o a x dst out) (hoa : o ≠ a) (hpp : payer ≠ p) {z : A} (h1 : z ≠ payer) (h2 : z ≠ p)
    (h3 : z ≠ dst) (h4 : NoFees e w z) (k : Info) : w'.led.of k z = w.led.of k z := by
  by_cases ho : k = o
  · subst ho
    exact (h.offered hoa hpp).2 z h1 h2
  · by_cases ha : k = a
    · subst ha
      rw [h.asked hoa h2 h4.1 (fun st hst => h4.2 p st hst), if_neg (fun e => h3 e.symm), Nat.add_zero]
    · rw [h.keep ho ha]

/-- A quote depends only on what the pair stores and holds. -/
theorem quote_congr {n : Net A} {e : Env A} {w w' : World A} {p : A} {o a : Info} {x : Nat} (hn : n.Ok w)
    (h1 : w'.pair p = w.pair p) (h2 : ∀ k, w'.led.of k p = w.led.of k p) : quote n e w' p o a x = quote n e w p o a x := by
  unfold quote
  rw [h1]
  cases hst : w.pair p with
  | none => rfl
  | some st =>
    have hme := hn.me p st hst
    have hx : ∀ (l : Led A) s t tr sh k, (xykChain l s t tr sh).of k = l.of k := fun l s t tr sh k => by cases k <;> rfl
    cases hl : Ledgers.label (n.cfg p) o with
    | none => rfl
    | some i =>
      cases st with
      | xyk s t tr sh =>
        simp only [orErr, ok_bind, XYK.simulation, XYK.Entry.view, XYK.Entry.fees, hx, hme, h2]
      | stable s t am ow sh =>
        simp only [orErr, ok_bind, Stable.simulation, Stable.Entry.view, Stable.Entry.fees, hme, h2]
      | pcl s pa po t ow sh =>
        simp only [orErr, ok_bind, PCL.simulation, PCL.Entry.view, hme, h2]

/-- The directory as `SimulateSwapOperations` of the router uses it. -/
def Net.chain (n : Net A) : Router.Chain A := ⟨n.router, n.okAddr, n.pairOf⟩

/-- Along a route the receiver gets what the pairs quoted before. -/
theorem Steps.quoted {n : Net A} {e : Env A} {rcv : A} {w w' : World A} {l : List (Info × Info)} (h : Steps n e rcv w l w')
    (w0 : World A) (hn0 : n.Ok w0) (hn : n.Ok w)
    (h0 : ∀ p, OnRoute n l p → w.pair p = w0.pair p ∧ ∀ k, w.led.of k p = w0.led.of k p)
    (hrcv : rcv ≠ n.router) (hf : NoFees e w rcv) (hfr : NoFees e w n.router) (hfp : ∀ p, OnRoute n l p → NoFees e w p ∧ p ≠ rcv)
    (hd : (l.map fun q => n.pairOf q.1 q.2).Nodup) (hz : ∀ s ∈ l, ∀ h, l.head? = some h → s.1 ≠ h.1 → w.led.of s.1 n.router = 0) :
    ∀ q, l.head? = some q → ∃ out t, l.getLast? = some t ∧
      Router.simulateLoop n.chain (quote n e w0) (Router.asOps l) (w.led.of q.1 n.router) = .ok out ∧
      w'.led.of t.2 rcv = w.led.of t.2 rcv + out := by
  induction h with
  | @one w w' q p out hp hq hr ht hs =>
    intro q' hq'
    simp only [List.head?_cons, Option.some.injEq] at hq'
    subst hq'
    have hon : OnRoute n [q] p := ⟨q, by simp, hp⟩
    obtain ⟨hst, hb⟩ := h0 p hon
    refine ⟨out, q, rfl, ?_, ?_⟩
    · have : n.chain.pairOf q.1 q.2 = some p := hp
      simp only [Router.asOps, List.map_cons, List.map_nil, Router.simulateLoop, this, orErr, ok_bind]
      rw [← quote_congr hn0 hst hb, hs]
      rfl
    · rw [ht.asked hq (fun e => (hfp p hon).2 e.symm) hf.1 (fun st hst => hf.2 p st hst), if_pos rfl]
  | @cons w w1 w' q r l p out hp hq hr ht hs hc hl ih =>
    intro q' hq'
    simp only [List.head?_cons, Option.some.injEq] at hq'
    subst hq'
    have hon : OnRoute n (q :: r :: l) p := ⟨q, by simp, hp⟩
    obtain ⟨hst, hb⟩ := h0 p hon
    have sub : ∀ z, OnRoute n (r :: l) z → OnRoute n (q :: r :: l) z := fun z ⟨s, hs, h⟩ => ⟨s, List.mem_cons_of_mem _ hs, h⟩
    rw [List.map_cons, List.nodup_cons] at hd
    have hpn : ∀ z, OnRoute n (r :: l) z → z ≠ p := by
      rintro z ⟨s, hm, h⟩ rfl
      apply hd.1
      rw [hp, ← h]
      exact List.mem_map_of_mem (f := fun q : Info × Info => n.pairOf q.1 q.2) hm
    have hnr : ∀ z, OnRoute n (r :: l) z → z ≠ n.router := by
      rintro z hz rfl
      clear ih
      have : ∀ {l : List (Info × Info)} {w w' : World A}, Steps n e rcv w l w' → ¬ OnRoute n l n.router := by
        intro l w w' h
        induction h with
        | one hp hq hr ht hs =>
          rintro ⟨s, hs, h⟩
          rw [List.mem_singleton.1 hs, hp, Option.some.injEq] at h
          exact hr h.symm
        | cons hp hq hr ht hs hc hl ih =>
          rintro ⟨s, hs, h⟩
          rcases List.mem_cons.1 hs with rfl | hs
          · rw [hp, Option.some.injEq] at h
            exact hr h.symm
          · exact ih ⟨s, hs, h⟩
      exact this hl hz
    have hih := ih (ht.ok hn) ?_ (ht.noFees hf) (ht.noFees hfr) ?_ hd.2 ?_ r rfl
    · obtain ⟨o, t, h1, h2, h3⟩ := hih
      refine ⟨o, t, by rw [List.getLast?_cons_cons]; exact h1, ?_, ?_⟩
      · have hpc : n.chain.pairOf q.1 q.2 = some p := hp
        have hw1 : w1.led.of r.1 n.router = out := by
          rw [← hc, ht.asked hq hr hfr.1 (fun st hst => hfr.2 p st hst), if_pos rfl]
          have := hz r (by simp) q rfl (by rw [← hc]; exact fun e => hq e.symm)
          rw [hc, this, Nat.zero_add]
        rw [hw1] at h2
        have : Router.asOps (q :: r :: l) = .astro q.1 q.2 :: Router.asOps (r :: l) := rfl
        rw [this, Router.simulateLoop, hpc]
        simp only [orErr, ok_bind]
        rw [← quote_congr hn0 hst hb, hs, ok_bind]
        exact h2
      · rw [h3, ht.idle hq hr hrcv (fun e => (hfp p hon).2 e.symm) hrcv hf]
    · intro z hzr
      obtain ⟨a1, a2⟩ := h0 z (sub z hzr)
      refine ⟨by rw [ht.other z (hpn z hzr), a1], fun k => ?_⟩
      rw [ht.idle hq hr (hnr z hzr) (hpn z hzr) (hnr z hzr) (hfp z (sub z hzr)).1, a2]
    · intro z hzr
      exact ⟨ht.noFees (hfp z (sub z hzr)).1, (hfp z (sub z hzr)).2⟩
    · intro s hs r' hr' hne
      simp only [List.head?_cons, Option.some.injEq] at hr'
      subst hr'
      by_cases hsq : s.1 = q.1
      · have := (ht.offered hq hr).1
        rw [hsq]
        omega
      · rw [ht.keep hsq (by rw [hc]; exact hne)]
        exact hz s (List.mem_cons_of_mem _ hs) q rfl hsq

theorem Net.Ok.same {n : Net A} {w v : World A} (h : n.Ok w) (hv : v.pair = w.pair) : n.Ok v := by
  obtain ⟨l, p, r⟩ := v
  obtain rfl : p = w.pair := hv
  exact ⟨h.me, h.ok, h.router, h.addr⟩

theorem asOps_inj {l l' : List (Info × Info)} (h : Router.asOps l = Router.asOps l') : l = l' := by
  unfold Router.asOps at h
  refine List.map_injective_iff.2 ?_ h
  intro x y hxy
  simp only [SwapOp.astro.injEq] at hxy
  exact Prod.ext hxy.1 hxy.2

/-- What a call of the router does before its first hop. -/
theorem exec_paid {n : Net A} {e : Env A} {w w' : World A} {pay : Payment A} {ops : List SwapOp} {minimum : Option Nat}
    {dest : Option A} {ms : Option Nat} {out : Nat} (h : exec n e w pay ops minimum dest ms = .ok (w', out)) :
    pay.payer ≠ n.router ∧ w.pair pay.payer = none ∧ ∃ l : Led A,
      (∀ k, Verif.move (w.led.of k) pay.payer n.router (pay.amount k) = .ok (l.of k)) ∧
      route n e { w with led := l } pay.sender ops minimum dest ms = .ok (w', out) := by
  have coins : ∀ (x : A) (funds : List Coin) (l : Led A), x ≠ n.router → attach w.led x n.router funds = .ok l →
      ∀ k, Verif.move (w.led.of k) x n.router (match k with | .native d => sent funds d | .token _ => 0) = .ok (l.of k) := by
    intro x funds l hx hl k
    obtain ⟨h1, h2⟩ := Ledgers.attach_spec hx hl
    cases k with
    | native d => exact h1 d
    | token t =>
      have : l.of (.token t) = w.led.of (.token t) := congrFun h2 t
      rw [this]
      exact Ledgers.move_zero _ _ _
  cases pay with
  | coins x funds =>
    simp only [exec, bind_ok_iff, require_ok, exists_const] at h
    obtain ⟨⟨h1, h2⟩, _, l, hl, h⟩ := h
    refine ⟨h1, h2, l, fun k => ?_, h⟩
    have := coins x funds l h1 hl k
    cases k <;> exact this
  | tokens t owner spender amount =>
    simp only [exec, bind_ok_iff, require_ok, exists_const] at h
    obtain ⟨⟨h1, h2⟩, l, hl, h⟩ := h
    have m : Moved w.led (.token t) owner (some n.router) amount l := by
      split_ifs at hl
      · exact Ledgers.move_moved hl
      · exact Ledgers.transferFrom_moved hl
    refine ⟨h1, h2, l, fun k => ?_, h⟩
    simp only [Payment.amount, Payment.payer]
    by_cases hk : k = .token t
    · subst hk
      rw [if_pos rfl]
      exact m.move
    · rw [if_neg hk, m.other k hk]
      exact Ledgers.move_zero _ _ _
  | forged x funds claimed =>
    simp only [exec, bind_ok_iff, require_ok, exists_const] at h
    obtain ⟨⟨h1, h2⟩, _, l, hl, h⟩ := h
    refine ⟨h1, h2, l, fun k => ?_, h⟩
    have := coins x funds l h1 hl k
    cases k <;> exact this

/-- What a route does. -/
theorem route_steps {n : Net A} {e : Env A} {w w' : World A} {sender : A} {ops : List SwapOp} {minimum : Option Nat}
    {dest : Option A} {ms : Option Nat} {out : Nat} (hn : n.Ok w) (htr : ∀ l, ops = Router.asOps l → ∀ q ∈ l, n.Trades q)
    (h : route n e w sender ops minimum dest ms = .ok (w', out)) :
    ∃ (l : List (Info × Info)) (t : Info × Info) (rd : ReplyData A), ops = Router.asOps l ∧ l.getLast? = some t ∧
      (∀ q ∈ l, q.1 ≠ q.2) ∧
      assertOperations n.okAddr ops = .ok () ∧
      Steps n e (dest.getD sender) { w with reply := some rd } l w' ∧
      w'.led.of t.2 (dest.getD sender) = w.led.of t.2 (dest.getD sender) + out ∧
      ∀ m, minimum = some m → m ≤ out := by
  simp only [route, bind_ok_iff, orErr_ok, Except.ok.injEq, Prod.mk.injEq] at h
  obtain ⟨⟨⟩, ha, last, hlast, w2, h2, o, hfin, rfl, rfl⟩ := h
  obtain ⟨l, rfl, h1, _, hv, hc⟩ := (Router.C40_accepted_routes _ _).1 ha
  simp only [Router.asOps, List.getLast?_map, Option.map_eq_some_iff] at hlast
  obtain ⟨t, ht, rfl⟩ := hlast
  have hne : l ≠ [] := by
    rintro rfl
    simp at h1
  have hs := hops_steps (by exact hn.same rfl) (htr l rfl) hne (fun q hq => (hv q hq).1) hc h2
  refine ⟨l, t, _, rfl, ht, fun q hq => (hv q hq).1, ha, hs, ?_⟩
  have hr := hs.reply
  simp only [finish, bind_ok_iff, orErr_ok, hr, Option.some.injEq, exists_eq_left', csub_ok, require_ok, exists_const,
    Except.ok.injEq] at hfin
  obtain ⟨_, ⟨hle, rfl⟩, hmin, rfl⟩ := hfin
  simp only [SwapOp.target] at hle hmin ⊢
  refine ⟨by omega, fun m hm => ?_⟩
  have := hmin m hm
  omega

/-! ## C165 -/

/-- **C165, minimum.**  A call of the router that succeeds reports an amount `out`, at least the stated minimum, and the
receiver has that much more of the asset that the last hop asks for (counted from after the payment, if the receiver is who
pays, or the router itself).  No assumption on who receives fees, on the pairs on the route, or on what the router held. -/
theorem C165_minimum_received (n : Net A) (e : Env A) (w w' : World A) (hn : n.Ok w) (pay : Payment A)
    (l : List (Info × Info)) (htr : ∀ q ∈ l, n.Trades q) (minimum : Option Nat) (dest : Option A) (ms : Option Nat)
    (out : Nat)
    (h : exec n e w pay (Router.asOps l) minimum dest ms = .ok (w', out)) :
    (∀ m, minimum = some m → m ≤ out) ∧ ∃ t, l.getLast? = some t ∧
      w'.led.of t.2 (dest.getD pay.sender) + (if dest.getD pay.sender = pay.payer then pay.amount t.2 else 0) =
        w.led.of t.2 (dest.getD pay.sender) + (if dest.getD pay.sender = n.router then pay.amount t.2 else 0) + out := by
  obtain ⟨hpr, _, l1, hm, hr⟩ := exec_paid h
  obtain ⟨l', t, rd, hl, ht, _, _, _, hb, hmin⟩ := route_steps (by exact hn.same rfl) (fun l' e => asOps_inj e ▸ htr) hr
  obtain rfl := asOps_inj hl
  refine ⟨hmin, t, ht, ?_⟩
  generalize dest.getD pay.sender = rcv at *
  have hk := hm t.2
  have e1 := move_apply hk rcv
  have hle := move_le hk
  change w'.led.of t.2 rcv = l1.of t.2 rcv + out at hb
  rw [hb, e1]
  by_cases h1 : rcv = pay.payer
  · subst h1
    rw [if_pos rfl, if_neg hpr, if_pos rfl]
    omega
  · rw [if_neg h1, if_neg h1]
    split_ifs <;> omega

/-- **C165, nobody else pays.**  Whoever calls the router with whatever message — also one that claims tokens which never
came — only the account whose coins or tokens came along has less afterwards, and only by what came along; besides it only
the router and the pairs on the route pay anything. -/
theorem C165_only_the_payer_pays (n : Net A) (e : Env A) (w w' : World A) (hn : n.Ok w) (pay : Payment A)
    (l : List (Info × Info)) (htr : ∀ q ∈ l, n.Trades q) (minimum : Option Nat) (dest : Option A) (ms : Option Nat)
    (out : Nat)
    (h : exec n e w pay (Router.asOps l) minimum dest ms = .ok (w', out)) (z : A) (hz : z ≠ n.router)
    (hp : ∀ q ∈ l, n.pairOf q.1 q.2 ≠ some z) (k : Info) :
    w.led.of k z ≤ w'.led.of k z + (if z = pay.payer then pay.amount k else 0) := by
  obtain ⟨hpr, _, l1, hm, hr⟩ := exec_paid h
  obtain ⟨l', t, rd, hl, ht, _, _, hs, _⟩ := route_steps (by exact hn.same rfl) (fun l' e => asOps_inj e ▸ htr) hr
  obtain rfl := asOps_inj hl
  have h1 := hs.mono hz (fun ⟨q, hq, h⟩ => hp q hq h) k
  change l1.of k z ≤ _ at h1
  have e1 := move_apply (hm k) z
  have hle := move_le (hm k)
  by_cases hzp : z = pay.payer
  · subst hzp
    rw [if_pos rfl, if_neg hpr] at e1
    rw [if_pos rfl]
    omega
  · rw [if_neg hzp, if_neg hz] at e1
    rw [if_neg hzp]
    omega

/-- **C165, the router keeps nothing of the route.**  Of every asset that is offered on the way the router holds nothing
afterwards; of every other asset it holds what it held plus what was paid. -/
theorem C165_router_keeps_nothing (n : Net A) (e : Env A) (w w' : World A) (hn : n.Ok w) (pay : Payment A)
    (l : List (Info × Info)) (htr : ∀ q ∈ l, n.Trades q) (minimum : Option Nat) (dest : Option A) (ms : Option Nat)
    (out : Nat)
    (hrcv : dest.getD pay.sender ≠ n.router) (hf : NoFees e w n.router)
    (h : exec n e w pay (Router.asOps l) minimum dest ms = .ok (w', out)) (k : Info) :
    w'.led.of k n.router = if k ∈ l.map Prod.fst then 0 else w.led.of k n.router + pay.amount k := by
  obtain ⟨hpr, _, l1, hm, hr⟩ := exec_paid h
  obtain ⟨l', t, rd, hl, ht, _, _, hs, _⟩ := route_steps (by exact hn.same rfl) (fun l' e => asOps_inj e ▸ htr) hr
  obtain rfl := asOps_inj hl
  rw [hs.router hrcv hf k]
  have e1 := move_apply (hm k) n.router
  rw [if_neg (fun e => hpr e.symm), if_pos rfl] at e1
  split_ifs
  · rfl
  · exact e1

/-- **C165, other pairs.**  Pairs that are not on the route keep what they store. -/
theorem C165_other_pairs_keep_their_state (n : Net A) (e : Env A) (w w' : World A) (hn : n.Ok w) (pay : Payment A)
    (l : List (Info × Info)) (htr : ∀ q ∈ l, n.Trades q) (minimum : Option Nat) (dest : Option A) (ms : Option Nat)
    (out : Nat)
    (h : exec n e w pay (Router.asOps l) minimum dest ms = .ok (w', out)) (p : A)
    (hp : ∀ q ∈ l, n.pairOf q.1 q.2 ≠ some p) : w'.pair p = w.pair p := by
  obtain ⟨_, _, l1, hm, hr⟩ := exec_paid h
  obtain ⟨l', t, rd, hl, ht, _, _, hs, _⟩ := route_steps (by exact hn.same rfl) (fun l' e => asOps_inj e ▸ htr) hr
  obtain rfl := asOps_inj hl
  exact hs.other (fun ⟨q, hq, h⟩ => hp q hq h)

/-- **C165, nothing appears or vanishes.** -/
theorem C165_totals_kept [Fintype A] (n : Net A) (e : Env A) (w w' : World A) (hn : n.Ok w) (pay : Payment A)
    (l : List (Info × Info)) (htr : ∀ q ∈ l, n.Trades q) (minimum : Option Nat) (dest : Option A) (ms : Option Nat)
    (out : Nat) (h : exec n e w pay (Router.asOps l) minimum dest ms = .ok (w', out)) (k : Info) :
    ∑ z, w'.led.of k z = ∑ z, w.led.of k z := by
  obtain ⟨_, _, l1, hm, hr⟩ := exec_paid h
  obtain ⟨l', t, rd, hl, ht, _, _, hs, _⟩ := route_steps (by exact hn.same rfl) (fun l' e => asOps_inj e ▸ htr) hr
  rw [hs.sum k]
  exact sum_move (hm k)

/-- **C165, the receiver gets what was quoted.**  The router holds nothing of the assets on the way, no pair is used twice,
and neither the receiver, the router nor the pairs on the way receive fees: then the route delivers what
`SimulateSwapOperations` of the router answered before the payment, for the amount of the first asset that was paid. -/
theorem C165_pays_the_quote (n : Net A) (e : Env A) (w w' : World A) (hn : n.Ok w) (pay : Payment A) (q : Info × Info)
    (l : List (Info × Info)) (htr : ∀ s ∈ q :: l, n.Trades s) (minimum : Option Nat) (dest : Option A) (ms : Option Nat)
    (out : Nat)
    (hempty : ∀ s ∈ q :: l, w.led.of s.1 n.router = 0) (hpaid : ∀ s ∈ l, s.1 ≠ q.1 → pay.amount s.1 = 0)
    (hd : ((q :: l).map fun s => n.pairOf s.1 s.2).Nodup) (hrcv : dest.getD pay.sender ≠ n.router)
    (hfees : NoFees e w n.router ∧ NoFees e w (dest.getD pay.sender) ∧
      ∀ s ∈ q :: l, ∀ p, n.pairOf s.1 s.2 = some p → NoFees e w p)
    (hnp : ∀ s ∈ q :: l, n.pairOf s.1 s.2 ≠ some (dest.getD pay.sender))
    (h : exec n e w pay (Router.asOps (q :: l)) minimum dest ms = .ok (w', out)) :
    Router.simulate n.chain (quote n e w) (pay.amount q.1) (Router.asOps (q :: l)) = .ok out := by
  obtain ⟨hpr, hpp, l1, hm, hr⟩ := exec_paid h
  obtain ⟨l', t, rd, hl, ht, hne, ha, hs, hb, _⟩ := route_steps (by exact hn.same rfl) (fun l' e => asOps_inj e ▸ htr) hr
  obtain rfl := asOps_inj hl
  have hpairs : ∀ p, OnRoute n (q :: l) p → p ≠ n.router ∧ p ≠ pay.payer := by
    rintro p hon
    have : ∀ {l : List (Info × Info)} {v v' : World A}, Steps n e (dest.getD pay.sender) v l v' → ∀ p, OnRoute n l p →
        v.pair p ≠ none := by
      intro l v v' hst
      induction hst with
      | one hp hq hr ht hs =>
        rintro p ⟨s, hm, h⟩
        rw [List.mem_singleton.1 hm, hp, Option.some.injEq] at h
        obtain ⟨st, _, h1, _⟩ := ht.same
        rw [← h, h1]
        simp
      | @cons v v1 v' q r l p' out hp hq hr ht hs hc hl ih =>
        rintro p ⟨s, hm, h⟩
        obtain ⟨st, st', h1, h2, _⟩ := ht.same
        by_cases hpp : p = p'
        · rw [hpp, h1]
          simp
        · rw [← ht.other p hpp]
          refine ih p ?_
          rcases List.mem_cons.1 hm with rfl | hm
          · rw [hp, Option.some.injEq] at h
            exact absurd h.symm hpp
          · exact ⟨s, hm, h⟩
    have h1 : w.pair p ≠ none := this hs p hon
    exact ⟨fun e => h1 (by rw [e]; exact hn.router), fun e => h1 (by rw [e]; exact hpp)⟩
  have hrouter : ∀ k, l1.of k n.router = w.led.of k n.router + pay.amount k := by
    intro k
    have e1 := move_apply (hm k) n.router
    rwa [if_neg (fun e => hpr e.symm), if_pos rfl] at e1
  obtain ⟨o, t', ht', hsim, hbal⟩ := hs.quoted w hn (hn.same rfl) (by
      intro p hon
      refine ⟨rfl, fun k => ?_⟩
      have e1 := move_apply (hm k) p
      rw [if_neg (hpairs p hon).2, if_neg (hpairs p hon).1] at e1
      exact e1) hrcv hfees.2.1 hfees.1 (fun p ⟨s, hm, h⟩ => ⟨hfees.2.2 s hm p h, fun e => hnp s hm (by rw [← e]; exact h)⟩) hd
    (by
      intro s hs' q' hq' hsq
      simp only [List.head?_cons, Option.some.injEq] at hq'
      subst hq'
      show l1.of s.1 n.router = 0
      rw [hrouter, hempty s hs']
      rcases List.mem_cons.1 hs' with rfl | hs'
      · exact absurd rfl hsq
      · rw [hpaid s hs' hsq]) q rfl
  rw [ht, Option.some.injEq] at ht'
  subst ht'
  have ho : o = out := by
    change w'.led.of t.2 _ = l1.of t.2 _ + out at hb
    change w'.led.of t.2 _ = l1.of t.2 _ + o at hbal
    omega
  subst ho
  have hx : l1.of q.1 n.router = pay.amount q.1 := by
    rw [hrouter, hempty q (by simp), Nat.zero_add]
  change Router.simulateLoop _ _ _ (l1.of q.1 n.router) = _ at hsim
  rw [hx] at hsim
  have ha' : assertOperations n.chain.okAddr (Router.asOps (q :: l)) = .ok () := ha
  simp only [Router.simulate, ha', ok_bind]
  exact hsim

/-- **C165, only the router runs single hops.**  `ExecuteSwapOperation` sent by anybody else is refused:
contracts/router/src/operations.rs:30-32. -/
def single (n : Net A) (e : Env A) (w : World A) (sender : A) (dest : Option A) (ms : Option Nat) (one : Bool) (op : SwapOp) :
    Res (World A) := do
  require (n.router = sender) .unauthorized
  hop n e w dest ms one op

/-- **C165, single hops.**  Nobody but the router itself runs a hop outside of a route. -/
theorem C165_single_hops_by_the_router_only (n : Net A) (e : Env A) (w : World A) (sender : A) (dest : Option A)
    (ms : Option Nat) (one : Bool) (op : SwapOp) (hs : sender ≠ n.router) :
    single n e w sender dest ms one op = .error .unauthorized := by
  have : ¬ n.router = sender := fun e => hs e.symm
  simp [single, require, this]

/-! ## C166 -/

/-- **C166 (partial).**  Everything that comes along with a route is traded: this holds if nothing but assets that are offered
on the route comes along — then the router holds no more of anything than before.  Missing: coins of other denoms. -/
theorem C166_all_that_was_sent_is_traded_partial (n : Net A) (e : Env A) (w w' : World A) (hn : n.Ok w) (pay : Payment A)
    (l : List (Info × Info)) (htr : ∀ q ∈ l, n.Trades q) (minimum : Option Nat) (dest : Option A) (ms : Option Nat)
    (out : Nat)
    (hrcv : dest.getD pay.sender ≠ n.router) (hf : NoFees e w n.router) (hon : ∀ k, pay.amount k ≠ 0 → k ∈ l.map Prod.fst)
    (h : exec n e w pay (Router.asOps l) minimum dest ms = .ok (w', out)) (k : Info) :
    w'.led.of k n.router ≤ w.led.of k n.router := by
  rw [C165_router_keeps_nothing n e w w' hn pay l htr minimum dest ms out hrcv hf h k]
  by_cases hk : k ∈ l.map Prod.fst
  · rw [if_pos hk]
    exact Nat.zero_le _
  · rw [if_neg hk]
    have : pay.amount k = 0 := by
      by_contra h0
      exact hk (hon k h0)
    omega

/-! ## A run -/

/-- Three pairs in a row: constant product `uatom`/`uluna` at 10, concentrated `uluna`/`t9` at 11, stableswap `t9`/`uusd` at
12. -/
def demoNet : Net Nat :=
  { router := 20
    cfg := fun p =>
      { me := p
        infos := fun i =>
          if p = 10 then (if i then .native "uluna".toList else .native "uatom".toList)
          else if p = 11 then (if i then .token "t9".toList else .native "uluna".toList)
          else (if i then .native "uusd".toList else .token "t9".toList)
        lp := if p = 10 then "lp10".toList else if p = 11 then "lp11".toList else "lp12".toList
        addr := fun x => if x = 9 then "t9".toList else "x".toList
        okAddr := fun _ => true
        prec := fun _ => 6 }
    pairOf := fun o a =>
      if (o, a) = (.native "uatom".toList, .native "uluna".toList) ∨ (o, a) = (.native "uluna".toList, .native "uatom".toList)
      then some 10
      else if (o, a) = (.native "uluna".toList, .token "t9".toList) ∨ (o, a) = (.token "t9".toList, .native "uluna".toList)
      then some 11
      else if (o, a) = (.token "t9".toList, .native "uusd".toList) ∨ (o, a) = (.native "uusd".toList, .token "t9".toList)
      then some 12 else none
    okAddr := fun _ => true
    contract := fun t => if t = "t9".toList then some 9 else none }

def demoEnv : Env Nat := ⟨2001, 7, fun _ => 3 * 10 ^ 15, fun _ => 3 * 10 ^ 17, some 8, fun _ => true⟩

/-- The concentrated pair after its first deposit. -/
def demoPcl : PCL.Entry.Chain Nat := PCL.Entry.run PCL.Entry.demoCfg PCL.Entry.demoChain (PCL.Entry.demoTxs.take 1)

def demoWorld : World Nat :=
  { led :=
      { bank := fun d a =>
          if a = 1 ∧ (d = "uatom".toList ∨ d = "uluna".toList ∨ d = "uusd".toList) then 10 ^ 12
          else if a = 10 ∧ (d = "uatom".toList ∨ d = "uluna".toList) then 10 ^ 12
          else if a = 11 ∧ d = "uluna".toList then 10 ^ 12
          else if a = 12 ∧ d = "uusd".toList then 10 ^ 12 else 0
        tok := fun t a => if t = "t9".toList ∧ a ∈ [1, 11, 12] then 10 ^ 12 else 0
        allow := fun _ _ _ => 0 }
    pair := fun p =>
      if p = 10 then some (.xyk (10 ^ 12) ⟨0, 0, 0⟩ (fun _ => 0) none)
      else if p = 11 then
        some (.pcl demoPcl.supply demoPcl.params demoPcl.pool demoPcl.twap demoPcl.owner demoPcl.share)
      else if p = 12 then some (.stable (2 * 10 ^ 12) { cum := fun _ => 0, last := 0 } ⟨10000, 1, 10000, 1⟩ none none)
      else none
    reply := none }

def demoRoute : List (Info × Info) :=
  [(.native "uatom".toList, .native "uluna".toList), (.native "uluna".toList, .token "t9".toList),
    (.token "t9".toList, .native "uusd".toList)]

theorem demo_ok : demoNet.Ok demoWorld := by
  refine ⟨fun _ _ _ => rfl, fun p s h => ?_, rfl, fun t x h p => ?_⟩
  · have hp : p = 10 ∨ p = 11 ∨ p = 12 := by
      simp only [demoWorld] at h
      split_ifs at h <;> tauto
    rcases hp with rfl | rfl | rfl
    · exact ⟨by decide, fun i => by cases i <;> decide⟩
    · exact ⟨by decide, fun i => by cases i <;> decide⟩
    · exact ⟨by decide, fun i => by cases i <;> decide⟩
  · simp only [demoNet] at h
    split_ifs at h with h1
    obtain rfl := Option.some.inj h
    rw [h1]
    rfl

theorem demo_trades (q : Info × Info) : demoNet.Trades q := by
  obtain ⟨o, a⟩ := q
  intro p h
  simp only [demoNet] at h
  split_ifs at h with h1 h2 h3 <;> obtain rfl := Option.some.inj h
  · rcases h1 with h1 | h1 <;> rw [Prod.mk.injEq] at h1 <;> obtain ⟨rfl, rfl⟩ := h1
    · exact ⟨false, rfl, rfl⟩
    · exact ⟨true, rfl, rfl⟩
  · rcases h2 with h1 | h1 <;> rw [Prod.mk.injEq] at h1 <;> obtain ⟨rfl, rfl⟩ := h1
    · exact ⟨false, rfl, rfl⟩
    · exact ⟨true, rfl, rfl⟩
  · rcases h3 with h1 | h1 <;> rw [Prod.mk.injEq] at h1 <;> obtain ⟨rfl, rfl⟩ := h1
    · exact ⟨false, rfl, rfl⟩
    · exact ⟨true, rfl, rfl⟩

/-- Three hops, paid in coins; the last one pays 5, the fees go to 8. -/
example : okAnd (exec demoNet demoEnv demoWorld (.coins 1 [⟨"uatom".toList, 10 ^ 8⟩]) (Router.asOps demoRoute)
    (some 99132317) (some 5) (some (10 ^ 17))) fun r => r.2 = 99132317 ∧
      r.1.led.of (.native "uusd".toList) 5 = 99132317 ∧ r.1.led.of (.native "uatom".toList) 1 = 10 ^ 12 - 10 ^ 8 ∧
      r.1.led.of (.native "uluna".toList) 20 = 0 := by decide +kernel

/-- One more unit is refused. -/
example : fails (exec demoNet demoEnv demoWorld (.coins 1 [⟨"uatom".toList, 10 ^ 8⟩]) (Router.asOps demoRoute)
    (some 99132318) (some 5) (some (10 ^ 17))) := by decide +kernel

/-- It is what the router quoted. -/
example : Router.simulate demoNet.chain (quote demoNet demoEnv demoWorld) (10 ^ 8) (Router.asOps demoRoute) =
    .ok 99132317 := by decide +kernel

/-- Only 8 receives fees, and no pair is used twice. -/
example : (∀ z, z ≠ 8 → NoFees demoEnv demoWorld z) ∧ (demoRoute.map fun s => demoNet.pairOf s.1 s.2).Nodup := by
  have hs : ∀ p st, demoWorld.pair p = some st → st.shareTo = none := by
    intro p st h
    simp only [demoWorld] at h
    split_ifs at h <;> obtain rfl := Option.some.inj h
    · rfl
    · exact by decide +kernel
    · rfl
  refine ⟨fun z hz => ⟨fun h => hz (Option.some.inj h).symm, fun p st h => ?_⟩, by decide⟩
  rw [hs p st h]
  simp

/-- Paid in tokens, the other way round; a spender without allowance is refused. -/
example : (exec demoNet demoEnv demoWorld (.tokens "t9".toList 1 1 (10 ^ 8))
    (Router.asOps [(.token "t9".toList, .native "uluna".toList), (.native "uluna".toList, .native "uatom".toList)])
    none none (some (10 ^ 17))).isOk = true ∧
    (exec demoNet demoEnv demoWorld (.tokens "t9".toList 1 2 (10 ^ 8))
    (Router.asOps [(.token "t9".toList, .native "uluna".toList)]) none none (some (10 ^ 17))).isOk = false ∧
    (exec demoNet demoEnv demoWorld (.forged 2 [] 2)
    (Router.asOps [(.token "t9".toList, .native "uluna".toList)]) none none (some (10 ^ 17))).isOk = false := by decide +kernel

/-- **C166 is false of the code.**  Account 1 sends, along with 10^8 `uatom` for a route, 10^6 `uusd` that are no part of it.
The call succeeds, account 1 is not given the `uusd` back, and account 3, who holds nothing and pays nothing, takes them with a
next call: contracts/router/src/contract.rs:136-195 and contracts/router/src/operations.rs:46-53. -/
theorem C166_all_that_was_sent_is_traded_violated :
    okAnd (exec demoNet demoEnv demoWorld (.coins 1 [⟨"uatom".toList, 10 ^ 8⟩, ⟨"uusd".toList, 10 ^ 6⟩])
      (Router.asOps [(.native "uatom".toList, .native "uluna".toList)]) none none (some (10 ^ 17))) fun r =>
      r.1.led.of (.native "uusd".toList) 1 = 10 ^ 12 - 10 ^ 6 ∧ r.1.led.of (.native "uusd".toList) 20 = 10 ^ 6 ∧
      okAnd (exec demoNet demoEnv r.1 (.coins 3 [])
        (Router.asOps [(.native "uusd".toList, .token "t9".toList)]) none none (some (10 ^ 17))) fun v =>
        r.1.led.of (.token "t9".toList) 3 = 0 ∧ 0 < v.1.led.of (.token "t9".toList) 3 ∧
        v.1.led.of (.native "uusd".toList) 20 = 0 := by decide +kernel

end Verif.Exchange
