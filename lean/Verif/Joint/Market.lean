import Verif.Joint.Flows
import Verif.Factory.Props

/-!
# The whole exchange in one history: factory, pairs, router (C167, C168, C169, C170)

The factory (`Factory/Model.lean`) creates constant product, stableswap and concentrated pairs, whose code is that of
`XYK/Entry.lean`, `Stable/Entry.lean` and `PCL/Entry.lean`; the router (`Joint/Exchange.lean`) trades through whatever pairs
the factory names; fees, the fee address, the owner and the directory are read from the factory as it is at that time.
Everything runs over common ledgers of coins and cw20 tokens, in any order and number.

Assumed: the bank, the token factory and the cw20 tokens behave as such; a new contract has an address that is not in use; pairs
and the router start no transactions.  Simplified: `auto_stake`, pairs of other types, the tracking contracts (creation fails if
one is wanted and the factory has no code for it), migrations.  A pair one of whose assets is its own LP token is refused here;
the code accepts it for constant product pairs (if the address of the new contract is guessed), but no first deposit into such a
pair is possible.
-/

namespace Verif.Market

open Verif Verif.Exchange
open Verif.Asset (Str Info Coin sent)
open Verif.Ledgers (Led Cfg Moved attach ValidFunds)
open Verif.Factory (PairType pairKey queryPair queryFeeInfo)
open Verif.Router (SwapOp)

set_option linter.unusedSectionVars false

variable {A : Type} [DecidableEq A]

/-! ## Model -/

/-- The contracts that the code ids of pair configurations stand for. -/
inductive Code where
  | xyk
  | stable
  | pcl
  deriving DecidableEq

/-- `init_params`: `XYKPoolParams` (packages/astroport/src/pair.rs:227-234; absent: no tracking), `StablePoolParams`
(258-265), `ConcentratedPoolParams` (packages/astroport/src/pair_concentrated.rs:13-41). -/
inductive Params (A : Type) where
  | xyk (track : Bool)
  | stable (amp : Nat) (owner : Option A)
  | pcl (u : PCL.PParams) (amp gamma scale : Nat) (track : Bool)

/-- What does not change: the router, the chain's fee for a new denom and who receives it, addresses as texts, valid
addresses, the account behind a contract's address, the denom of each contract's LP token
(`factory/<address>/astroport/share`, `tf_create_denom_msg` with `LP_SUBDENOM`, packages/astroport/src/token_factory.rs:214-233
and packages/astroport/src/common.rs:9), whose LP token a denom is, and the stored codes. -/
structure Site (A : Type) where
  router : A
  community : A
  denomFee : List Coin
  addr : A → Str
  okAddr : Str → Bool
  contract : Str → Option A
  lpOf : A → Str
  minter : Str → Option A
  code : Nat → Option Code

/-- What a pair was created with (`PairInfo`, packages/astroport/src/asset.rs:602-612), and the decimals of its assets
(contracts/pair_stable/src/state.rs:53-67, packages/astroport_pcl_common/src/state.rs:400-411). -/
structure Born where
  infos : Bool → Info
  type : PairType
  prec : Bool → Nat

/-- The factory, what each pair was created with, all balances, the pairs and the router. -/
structure Sys (A : Type) where
  f : Factory.State A
  born : A → Option Born
  w : World A

/-- What the pairs and the router know and ask: the directory is the factory's. -/
def net (S : Site A) (s : Sys A) : Net A where
  router := S.router
  cfg p := match s.born p with
    | some b => ⟨p, b.infos, S.lpOf p, S.addr, S.okAddr, b.prec⟩
    | none => ⟨p, fun _ => .native [], S.lpOf p, S.addr, S.okAddr, fun _ => 0⟩
  pairOf a b := queryPair s.f [a, b]
  okAddr := S.okAddr
  contract := S.contract

/-- `query_fee_info` (packages/astroport/src/querier.rs:197-213): basis points of the pair's type as decimals. -/
def feeOf (s : Sys A) (sel : Nat × Nat → Nat) (p : A) : Nat :=
  match (s.born p).bind fun b => queryFeeInfo s.f b.type with
  | some (_, c) => sel c * 10 ^ 14
  | none => 0

/-- What the factory answers at time `now`: its owner, the fees of the pair's type, the fee address, and whether it knows a pair
of these assets. -/
def env (s : Sys A) (now : Nat) : Env A where
  now := now
  owner := s.f.own.owner
  total := feeOf s Prod.fst
  maker := feeOf s Prod.snd
  feeAddr := s.f.config.feeAddress
  registered p := match s.born p with
    | some b => (queryPair s.f [b.infos false, b.infos true]).isSome
    | none => false

/-- `instantiate` of the three contracts with `reply` to the creation of the LP denom:
contracts/pair/src/contract.rs:51-116 and 120-196, contracts/pair_stable/src/contract.rs:63-130 and 134-159,
contracts/pair_concentrated/src/contract.rs:63-172 and 176-253; `dec` are the decimals that the assets have at that time.
Constant product pairs keep no decimals. -/
def instantiate (S : Site A) (f : Factory.State A) (dec : Info → Option Nat) (now : Nat) (a b : Info) :
    Code → Params A → Res (Pair A × (Bool → Nat))
  | .xyk, .xyk track => do
    Asset.Info.check S.okAddr a
    Asset.Info.check S.okAddr b
    require (a ≠ b) (.invalid "DoublingAssets")
    require (track = true → f.config.tracker.isSome = true) (.invalid "Tracker config is not set")
    .ok (.xyk 0 ⟨0, 0, 0⟩ (fun _ => 0) none, fun _ => 0)
  | .stable, .stable amp owner => do
    Factory.checkAssetInfos S.okAddr [a, b]
    let am ← Stable.initAmp amp now
    let d0 ← orErr (dec a) (.invalid "not found")
    let d1 ← orErr (dec b) (.invalid "not found")
    .ok (.stable 0 { cum := fun _ => 0, last := 0 } am owner none, fun i => if i then d1 else d0)
  | .pcl, .pcl u amp gamma scale track => do
    Factory.checkAssetInfos S.okAddr [a, b]
    let d0 ← orErr (dec a) (.invalid "not found")
    let d1 ← orErr (dec b) (.invalid "not found")
    let st ← PCL.create (fun _ (_ : A) => 0) u amp gamma scale now
    require (track = true → f.config.tracker.isSome = true) (.invalid "Tracker config is not set")
    .ok (.pcl 0 st.params st.pool st.twap none none, fun i => if i then d1 else d0)
  | _, _ => .error (.invalid "parse error")

/-- No contract of the exchange. -/
def Outside (S : Site A) (s : Sys A) (x : A) : Prop := x ≠ S.router ∧ s.born x = none

instance (S : Site A) (s : Sys A) (x : A) : Decidable (Outside S s x) := inferInstanceAs (Decidable (_ ∧ _))

/-- `execute_create_pair` (contracts/factory/src/contract.rs:291-351), the instantiation of the pair at the new address `p`, which
receives the coins that came along and pays for its LP denom, and `reply` (355-383). -/
def create (S : Site A) (s : Sys A) (now : Nat) (sender : A) (funds : List Coin) (t : PairType) (infos : List Info)
    (params : Params A) (dec : Info → Option Nat) (p : A) : Res (Sys A) := do
  require (Outside S s sender) .unauthorized
  require (ValidFunds funds) (.invalid "invalid coins")
  let key ← Factory.createPair S.okAddr s.f sender t infos
  let c ← orErr (kvGet t.name s.f.pairConfigs) (.invalid "PairConfigNotFound")
  let code ← orErr (S.code c.codeId) (.invalid "no such code")
  require (Outside S s p ∧ p ≠ sender) (.invalid "address in use")
  match infos with
  | [a, b] => do
    require (a ≠ .native (S.lpOf p) ∧ b ≠ .native (S.lpOf p)) (.invalid "own LP token")
    let l ← attach s.w.led sender p funds
    let (st, prec) ← instantiate S s.f dec now a b code params
    let l ← attach l p S.community S.denomFee
    let f ← Factory.reply s.f key p
    .ok { f := f, born := Function.update s.born p (some ⟨fun i => if i then b else a, t, prec⟩)
          w := { s.w with led := l, pair := Function.update s.w.pair p (some st) } }
  | _ => .error (.invalid "asset_infos must contain exactly two elements")

/-- Messages to a pair. -/
inductive PMsg (A : Type) where
  | xyk (m : XYK.Entry.Msg A)
  | stable (m : Stable.Entry.Msg A)
  | pcl (m : PCL.Entry.Msg A)

/-- A transaction at pair `p` in the terms of its contract. -/
inductive PTx (A : Type) where
  | xyk (t : XYK.Entry.Tx A)
  | stable (t : Stable.Entry.Tx A)
  | pcl (t : PCL.Entry.Tx A)

/-- A transaction at a pair; a message that the contract does not know is refused. -/
def atPair (n : Net A) (w : World A) (p : A) (t : PTx A) : Res (World A) :=
  match w.pair p, t with
  | some (.xyk s tw tr sh), .xyk t => do
    let x ← XYK.Entry.exec (xykCfg (n.cfg p)) (xykChain w.led s tw tr sh) t
    .ok (w.put p (xykLed x) (.xyk x.supply x.twap x.tracked x.share))
  | some (.stable s tw am ow sh), .stable t => do
    let x ← Stable.Entry.exec (n.cfg p) ⟨w.led, s, tw, am, ow, sh⟩ t
    .ok (w.put p x.led (.stable x.supply x.twap x.amp x.owner x.share))
  | some (.pcl s pa po tw ow sh), .pcl t => do
    let x ← PCL.Entry.exec (n.cfg p) ⟨w.led, s, pa, po, tw, ow, sh⟩ t
    .ok (w.put p x.led (.pcl x.supply x.params x.pool x.twap x.owner x.share))
  | none, _ => .error (.invalid "no such contract")
  | _, _ => .error (.invalid "parse error")

/-- A message with coins. -/
def callTx (e : Env A) (p sender : A) (funds : List Coin) : PMsg A → PTx A
  | .xyk m => .xyk (.call (e.xyk p) sender funds m)
  | .stable m => .stable (.call (e.stable p) sender funds m)
  | .pcl m => .pcl (.call (e.pcl p) sender funds m)

/-- cw20 tokens sent to a pair with a swap message (`Cw20HookMsg::Swap`, packages/astroport/src/pair.rs:91-100; the asset asked
for is ignored by constant product and concentrated pairs). -/
def sendTx (e : Env A) (w : World A) (p token owner spender : A) (amount : Nat) (ask : Option Info)
    (belief maxSpread : Option Nat) (dest : Option A) : PTx A :=
  match w.pair p with
  | some (.stable ..) => .stable (.send (e.stable p) token owner spender amount ask belief maxSpread dest)
  | some (.pcl ..) => .pcl (.send (e.pcl p) token owner spender amount belief maxSpread dest)
  | _ => .xyk (.send (e.xyk p) token owner spender amount belief maxSpread dest)

/-- What can happen.  `issue` and `destroy` are other coins and tokens coming into being and vanishing. -/
inductive Op (A : Type) where
  | factory (o : Factory.Op A)
  | create (now : Nat) (sender : A) (funds : List Coin) (t : PairType) (infos : List Info) (params : Params A)
      (dec : Info → Option Nat) (p : A)
  | call (now : Nat) (p sender : A) (funds : List Coin) (m : PMsg A)
  | send (now : Nat) (p token owner spender : A) (amount : Nat) (ask : Option Info) (belief maxSpread : Option Nat)
      (dest : Option A)
  | route (now : Nat) (pay : Payment A) (ops : List SwapOp) (minimum : Option Nat) (dest : Option A) (maxSpread : Option Nat)
  | transfer (k : Info) (src dst : A) (n : Nat)
  | transferFrom (t : Str) (owner spender dst : A) (n : Nat)
  | approve (t : Str) (owner spender : A) (n : Nat)
  | issue (k : Info) (dst : A) (n : Nat)
  | destroy (k : Info) (src : A) (n : Nat)

/-- The LP token of some contract. -/
def isLp (S : Site A) : Info → Bool
  | .native d => (S.minter d).isSome
  | .token _ => false

/-- Pairs are created by `create` above. -/
def isCreate : Factory.Op A → Bool
  | .create .. => true
  | _ => false

/-- One transaction. -/
def exec (S : Site A) (s : Sys A) : Op A → Res (Sys A)
  | .factory o => do
    require (isCreate o = false) (.invalid "see create")
    let f ← Factory.exec S.okAddr s.f o
    .ok { s with f := f }
  | .create now sender funds t infos params dec p => create S s now sender funds t infos params dec p
  | .call now p sender funds m => do
    require (Outside S s sender) .unauthorized
    let w ← atPair (net S s) s.w p (callTx (env s now) p sender funds m)
    .ok { s with w := w }
  | .send now p token owner spender amount ask belief maxSpread dest => do
    require (Outside S s owner) .unauthorized
    let w ← atPair (net S s) s.w p (sendTx (env s now) s.w p token owner spender amount ask belief maxSpread dest)
    .ok { s with w := w }
  | .route now pay ops minimum dest maxSpread => do
    let r ← Exchange.exec (net S s) (env s now) s.w pay ops minimum dest maxSpread
    .ok { s with w := r.1 }
  | .transfer k src dst n => do
    require (Outside S s src) .unauthorized
    let l ← s.w.led.move k src dst n
    .ok { s with w := { s.w with led := l } }
  | .transferFrom t owner spender dst n => do
    require (Outside S s owner) .unauthorized
    let l ← Ledgers.transferFrom s.w.led t owner spender dst n
    .ok { s with w := { s.w with led := l } }
  | .approve t owner spender n => do
    require (Outside S s owner) .unauthorized
    .ok { s with w := { s.w with led := { s.w.led with
      allow := fun t' o sp => if t' = t ∧ o = owner ∧ sp = spender then n else s.w.led.allow t' o sp } } }
  | .issue k dst n => do
    require (isLp S k = false) .unauthorized
    .ok { s with w := { s.w with led := s.w.led.set k (credit (s.w.led.of k) dst n) } }
  | .destroy k src n => do
    require (isLp S k = false ∧ Outside S s src) .unauthorized
    let l ← debit (s.w.led.of k) src n
    .ok { s with w := { s.w with led := s.w.led.set k l } }

/-- A failed transaction changes nothing. -/
def step (S : Site A) (s : Sys A) (o : Op A) : Sys A := commit' s (exec S s o)

/-- A history. -/
def run (S : Site A) (s : Sys A) (os : List (Op A)) : Sys A := os.foldl (step S) s

/-- `query_share` of a pair: contracts/pair/src/contract.rs:973-979, contracts/pair_stable/src/contract.rs:794-800,
contracts/pair_concentrated/src/queries.rs:115-142. -/
def shareOf (n : Net A) (w : World A) (p : A) (x : Nat) : Res (Nat × Nat) := do
  let st ← orErr (w.pair p) (.invalid "no such contract")
  match st with
  | .xyk s t tr sh => XYK.queryShare (n.cfg p).me (XYK.Entry.view (xykCfg (n.cfg p)) (xykChain w.led s t tr sh)) x
  | .stable s t am ow sh => Stable.queryShare (n.cfg p).me (Stable.Entry.view (n.cfg p) ⟨w.led, s, t, am, ow, sh⟩) x
  | .pcl s pa po t ow sh =>
    PCL.queryShare (PCL.Entry.setup (n.cfg p)) (n.cfg p).me (PCL.Entry.view (n.cfg p) ⟨w.led, s, pa, po, t, ow, sh⟩) x

/-! ## Specification -/

/-- The supply of a pair's LP token. -/
def supplyOf : Pair A → Nat
  | .xyk s _ _ _ => s
  | .stable s _ _ _ _ => s
  | .pcl s _ _ _ _ _ => s

/-- The contract whose code a pair runs. -/
def kindOf : Pair A → Code
  | .xyk .. => .xyk
  | .stable .. => .stable
  | .pcl .. => .pcl

/-- Each LP denom belongs to one contract, and the text of a contract's address is its address. -/
structure Site.Ok (S : Site A) : Prop where
  lp : ∀ p, S.minter (S.lpOf p) = some p
  addr : ∀ t x, S.contract t = some x → S.addr x = t

/-- The beginning: a factory without pairs, and no LP token exists. -/
structure Start (S : Site A) (s : Sys A) : Prop where
  born : ∀ p, s.born p = none
  pair : ∀ p, s.w.pair p = none
  lp : ∀ p a, s.w.led.bank (S.lpOf p) a = 0
  factory : ∃ owner config pcs, Factory.instantiate owner config pcs = .ok s.f

/-- The accounts that may pay in a transaction: whoever signs it or approved it, the router for a route, and a new pair for its
LP denom. -/
def Pays (S : Site A) : Op A → A → Prop
  | .factory _, _ => False
  | .create _ x _ _ _ _ _ p, z => z = x ∨ z = p
  | .call _ _ x _ _, z => z = x
  | .send _ _ _ owner _ _ _ _ _ _, z => z = owner
  | .route _ pay _ _ _ _, z => z = pay.payer ∨ z = S.router
  | .transfer _ src _ _, z => z = src
  | .transferFrom _ owner _ _ _, z => z = owner
  | .approve .., _ => False
  | .issue .., _ => False
  | .destroy _ src _, z => z = src

/-- The pairs that a transaction talks to: those it names, and those that the factory names for the hops of a route. -/
def Talks (s : Sys A) : Op A → A → Prop
  | .call _ p _ _ _, z => z = p
  | .send _ p _ _ _ _ _ _ _ _, z => z = p
  | .route _ _ ops _ _ _, z => ∃ a b, SwapOp.astro a b ∈ ops ∧ queryPair s.f [a, b] = some z
  | _, _ => False

/-! ## Lemmas: sequences of payments and messages to pairs -/

/-- Who pays in a transaction at a pair. -/
def PTx.payer : PTx A → A
  | .xyk t => t.payer
  | .stable t => t.payer
  | .pcl t => t.payer

/-- The fees that a constant product pair reads from the factory are at most 100 %. -/
def PTx.FeesOk : PTx A → Prop
  | .xyk (.call e _ _ _) => e.total ≤ 10 ^ 18 ∧ e.maker ≤ 10 ^ 18
  | .xyk (.send e _ _ _ _ _ _ _) => e.total ≤ 10 ^ 18 ∧ e.maker ≤ 10 ^ 18
  | _ => True

/-- The fees of all pairs are at most 100 %. -/
def FeesOk (e : Env A) : Prop := ∀ p, e.total p ≤ 10 ^ 18 ∧ e.maker p ≤ 10 ^ 18

/-- Payments by accounts `P` and messages to pairs `T`, paid by accounts `P`. -/
inductive Acts (n : Net A) (P T : A → Prop) : World A → World A → Prop
  | nil {w : World A} : Acts n P T w w
  | same {w w1 w' : World A} (hl : ∀ k, w1.led.of k = w.led.of k) (hq : w1.pair = w.pair) (a : Acts n P T w1 w') : Acts n P T w w'
  | move {w w1 w' : World A} {k : Info} {src dst : A} {x : Nat} (hp : P src) (m : Moved w.led k src (some dst) x w1.led)
      (hq : w1.pair = w.pair) (a : Acts n P T w1 w') : Acts n P T w w'
  | run {w w1 w' : World A} {p : A} {t : PTx A} (ht : T p) (hp : P t.payer) (hf : t.FeesOk) (h : atPair n w p t = .ok w1)
      (a : Acts n P T w1 w') : Acts n P T w w'

theorem atPair_flow {n : Net A} {w w' : World A} {p : A} {t : PTx A} (hme : (n.cfg p).me = p)
    (h : atPair n w p t = .ok w') :
    ∃ st st', w.pair p = some st ∧ w'.pair p = some st' ∧ (∀ q, q ≠ p → w'.pair q = w.pair q) ∧
      kindOf st' = kindOf st ∧ Flow (Two t.payer p) (n.cfg p).lp w.led (supplyOf st) w'.led (supplyOf st') := by
  unfold atPair at h
  split at h
  · rename_i s tw tr sh t hst
    simp only [bind_ok_iff, Except.ok.injEq] at h
    obtain ⟨x, hx, rfl⟩ := h
    have hf := xyk_flow hx
    refine ⟨_, _, hst, Function.update_self .., fun q hq => Function.update_of_ne hq .., rfl, ?_⟩
    have : (xykCfg (n.cfg p)).me = p := hme
    rw [this] at hf
    exact hf
  · rename_i s tw am ow sh t hst
    simp only [bind_ok_iff, Except.ok.injEq] at h
    obtain ⟨x, hx, rfl⟩ := h
    have hf := stable_flow hx
    refine ⟨_, _, hst, Function.update_self .., fun q hq => Function.update_of_ne hq .., rfl, ?_⟩
    rw [hme] at hf
    exact hf
  · rename_i s pa po tw ow sh t hst
    simp only [bind_ok_iff, Except.ok.injEq] at h
    obtain ⟨x, hx, rfl⟩ := h
    have hf := pcl_flow hx
    refine ⟨_, _, hst, Function.update_self .., fun q hq => Function.update_of_ne hq .., rfl, ?_⟩
    rw [hme] at hf
    exact hf
  · exact absurd h (by simp)
  · exact absurd h (by simp)

/-- The LP tokens of a pair: all belong to somebody, and once there are any, 1000 belong to the pair. -/
def LpOk [Fintype A] (l : Led A) (lp : Str) (p : A) (st : Pair A) : Prop :=
  supplyOf st = ∑ z, l.of (.native lp) z ∧ (supplyOf st = 0 ∨ 1000 ≤ l.of (.native lp) p)

theorem foldlM_inv {σ α : Type} {g : σ → α → Res σ} {I : σ → Prop} (hI : ∀ s a s', I s → g s a = .ok s' → I s') :
    ∀ {xs : List α} {s s' : σ}, I s → xs.foldlM g s = .ok s' → I s'
  | [], s, s', hi, h => by
    simp only [List.foldlM_nil, pure_eq_ok, Except.ok.injEq] at h
    exact h ▸ hi
  | x :: xs, s, s', hi, h => by
    simp only [List.foldlM_cons, bind_ok_iff] at h
    obtain ⟨s1, h1, h2⟩ := h
    exact foldlM_inv hI (hI _ _ _ hi h1) h2

theorem atPair_lp [Fintype A] {n : Net A} {w w' : World A} {p : A} {t : PTx A} {st st' : Pair A} (hme : (n.cfg p).me = p)
    (hok : (n.cfg p).Ok) (h : atPair n w p t = .ok w') (hst : w.pair p = some st) (hst' : w'.pair p = some st')
    (hi : LpOk w.led (n.cfg p).lp p st) : LpOk w'.led (n.cfg p).lp p st' := by
  unfold atPair at h
  rw [hst] at h
  split at h
  · rename_i s tw tr sh t hs
    simp only [bind_ok_iff, Except.ok.injEq] at h
    obtain ⟨x, hx, rfl⟩ := h
    cases hs
    have : st' = .xyk x.supply x.twap x.tracked x.share := by
      have e : (w.put p (xykLed x) (.xyk x.supply x.twap x.tracked x.share)).pair p = some _ := Function.update_self ..
      rw [e] at hst'
      exact (Option.some.inj hst').symm
    subst this
    have hm := XYK.Entry.C160_messages_are_pair_transactions (xykCfg (n.cfg p)) ⟨hok.ne, hok.lp⟩ _ _ _ hx
    have hi' : XYK.LpInv (xykCfg (n.cfg p)).me (XYK.Entry.view (xykCfg (n.cfg p)) (xykChain w.led s tw tr sh)) := by
      have e : (xykCfg (n.cfg p)).me = p := hme
      rw [e]
      exact hi
    have := foldlM_inv (I := XYK.LpInv (xykCfg (n.cfg p)).me) (fun s a s' hi h => (XYK.lpInv_exec hi h).1) hi' hm
    have e : (xykCfg (n.cfg p)).me = p := hme
    rw [e] at this
    exact this
  · rename_i s tw am ow sh t hs
    simp only [bind_ok_iff, Except.ok.injEq] at h
    obtain ⟨x, hx, rfl⟩ := h
    cases hs
    have : st' = .stable x.supply x.twap x.amp x.owner x.share := by
      have e : (w.put p x.led (.stable x.supply x.twap x.amp x.owner x.share)).pair p = some _ := Function.update_self ..
      rw [e] at hst'
      exact (Option.some.inj hst').symm
    subst this
    have hm := Stable.Entry.C162_messages_are_pair_transactions (n.cfg p) hok _ _ _ hx
    have hi' : Stable.LpInv (n.cfg p).me (Stable.Entry.view (n.cfg p) ⟨w.led, s, tw, am, ow, sh⟩) := by
      rw [hme]
      exact hi
    have := foldlM_inv (I := Stable.LpInv (n.cfg p).me) (fun s a s' hi h => (Stable.lpInv_step hi h).1) hi' hm
    rw [hme] at this
    exact this
  · rename_i s pa po tw ow sh t hs
    simp only [bind_ok_iff, Except.ok.injEq] at h
    obtain ⟨x, hx, rfl⟩ := h
    cases hs
    have : st' = .pcl x.supply x.params x.pool x.twap x.owner x.share := by
      have e : (w.put p x.led (.pcl x.supply x.params x.pool x.twap x.owner x.share)).pair p = some _ := Function.update_self ..
      rw [e] at hst'
      exact (Option.some.inj hst').symm
    subst this
    have hm := PCL.Entry.C164_messages_are_pair_transactions (n.cfg p) hok _ _ _ hx
    have hi' : PCL.LpInv (n.cfg p).me (PCL.Entry.view (n.cfg p) ⟨w.led, s, pa, po, tw, ow, sh⟩) := by
      rw [hme]
      exact hi
    have := foldlM_inv (I := PCL.LpInv (n.cfg p).me) (fun s a s' hi h => (PCL.lpInv_step hi h).1) hi' hm
    rw [hme] at this
    exact this
  · exact absurd h (by simp)
  · exact absurd h (by simp)

/-- Nothing of an asset stays nothing. -/
theorem moved_zero {l l1 : Led A} {k j : Info} {src dst : A} {x : Nat} (m : Moved l k src (some dst) x l1)
    (h : ∀ a, l.of j a = 0) (a : A) : l1.of j a = 0 := by
  by_cases hj : j = k
  · subst hj
    have hm : Verif.move (l.of j) src dst x = .ok (l1.of j) := m.move
    have e := move_apply hm a
    have hle := move_le hm
    rw [h src] at hle
    rw [h a] at e
    rw [e]
    split_ifs <;> omega
  · rw [m.other j hj]
    exact h a

theorem flow_zero {P : A → Prop} {lp : Str} {l l' : Led A} {s s' : Nat} (f : Flow P lp l s l' s') {k : Info}
    (hk : k ≠ .native lp) (h : ∀ a, l.of k a = 0) (a : A) : l'.of k a = 0 := by
  induction f with
  | done h' => rw [h']; exact h a
  | move hp m _ ih => exact ih (moved_zero m h)
  | mint h' ho _ ih => exact ih (fun a => by rw [ho k hk]; exact h a)
  | burn hp h' ho hs _ ih => exact ih (fun a => by rw [ho k hk]; exact h a)

namespace Acts

variable {n : Net A} {P T : A → Prop}

theorem trans {w w1 w' : World A} (a : Acts n P T w w1) (b : Acts n P T w1 w') : Acts n P T w w' := by
  induction a with
  | nil => exact b
  | same hl hq _ ih => exact .same hl hq (ih b)
  | move hp m hq _ ih => exact .move hp m hq (ih b)
  | run ht hp hf h _ ih => exact .run ht hp hf h (ih b)

theorem moved {w : World A} {l : Led A} {k : Info} {src dst : A} {x : Nat} (hp : P src)
    (m : Moved w.led k src (some dst) x l) : Acts n P T w { w with led := l } :=
  .move (w1 := { w with led := l }) hp m rfl .nil

theorem attached {src dst : A} (hp : P src) : ∀ {funds : List Coin} {w : World A} {l : Led A},
    attach w.led src dst funds = .ok l → Acts n P T w { w with led := l }
  | [], w, l, h => by
    simp only [attach, Except.ok.injEq] at h
    subst h
    exact .nil
  | c :: cs, w, l, h => by
    simp only [attach, bind_ok_iff] at h
    obtain ⟨v, h1, h2⟩ := h
    exact .move (w1 := { w with led := v }) hp (Ledgers.move_moved h1) rfl (attached hp h2)

/-- A pair that gets no message keeps its state. -/
theorem other {w w' : World A} (hme : ∀ p, (n.cfg p).me = p) (a : Acts n P T w w') {q : A} (hq : ¬ T q) :
    w'.pair q = w.pair q := by
  induction a with
  | nil => rfl
  | same hl hp _ ih => rw [ih, hp]
  | move hp m hp' _ ih => rw [ih, hp']
  | @run w w1 w' p t ht hp hf h _ ih =>
    obtain ⟨_, _, _, _, ho, _⟩ := atPair_flow (hme p) h
    rw [ih, ho q (fun e => hq (by rw [e]; exact ht))]

/-- No pair comes or goes, and none changes its kind. -/
theorem kind {w w' : World A} (hme : ∀ p, (n.cfg p).me = p) (a : Acts n P T w w') (q : A) :
    (w'.pair q).map kindOf = (w.pair q).map kindOf := by
  induction a with
  | nil => rfl
  | same hl hp _ ih => rw [ih, hp]
  | move hp m hp' _ ih => rw [ih, hp']
  | @run w w1 w' p t ht hp hf h _ ih =>
    obtain ⟨st, st', h1, h2, ho, hk, _⟩ := atPair_flow (hme p) h
    rw [ih]
    by_cases e : q = p
    · rw [e, h1, h2, Option.map_some, Option.map_some, hk]
    · rw [ho q e]

/-- Who neither pays nor gets a message has no less of anything. -/
theorem mono {w w' : World A} (hme : ∀ p, (n.cfg p).me = p) (a : Acts n P T w w') {z : A} (hz : ¬ P z) (ht : ¬ T z)
    (k : Info) : w.led.of k z ≤ w'.led.of k z := by
  induction a with
  | nil => rfl
  | same hl hp _ ih => rw [← hl]; exact ih
  | @move w w1 w' j src dst x hp m hp' _ ih =>
    exact Nat.le_trans (m.mono (fun e : z = src => hz (by rw [e]; exact hp)) k) ih
  | @run w w1 w' p t hT hp hf h _ ih =>
    obtain ⟨_, _, _, _, _, _, f⟩ := atPair_flow (hme p) h
    refine Nat.le_trans (f.mono ?_ k) ih
    rintro (e | e)
    · exact hz (by rw [e]; exact hp)
    · exact ht (by rw [e]; exact hT)

/-- What is no LP token of a pair that got a message is only passed on. -/
theorem sum [Fintype A] {w w' : World A} (hme : ∀ p, (n.cfg p).me = p) (a : Acts n P T w w') {k : Info}
    (hk : ∀ p, T p → (w.pair p).isSome → k ≠ .native (n.cfg p).lp) : ∑ z, w'.led.of k z = ∑ z, w.led.of k z := by
  induction a with
  | nil => rfl
  | same hl hp _ ih => rw [ih (by rw [hp]; exact hk), hl]
  | move hp m hp' _ ih => rw [ih (by rw [hp']; exact hk)]; exact Moved.sum m k
  | @run w w1 w' p t hT hp hf h _ ih =>
    obtain ⟨st, st', h1, h2, ho, _, f⟩ := atPair_flow (hme p) h
    rw [ih ?_, f.sum (hk p hT (by rw [h1]; rfl))]
    intro q hq hs
    by_cases e : q = p
    · exact e ▸ hk p hT (by rw [h1]; rfl)
    · rw [ho q e] at hs
      exact hk q hq hs

/-- What does not exist does not come into being, unless it is the LP token of a pair that got a message. -/
theorem zero {w w' : World A} (hme : ∀ p, (n.cfg p).me = p) (a : Acts n P T w w') {k : Info}
    (hk : ∀ p, (w.pair p).isSome → k ≠ .native (n.cfg p).lp) (h0 : ∀ z, w.led.of k z = 0) (z : A) : w'.led.of k z = 0 := by
  induction a with
  | nil => exact h0 z
  | same hl hp _ ih => exact ih (by rw [hp]; exact hk) (fun z => by rw [hl]; exact h0 z)
  | move hp m hp' _ ih => exact ih (by rw [hp']; exact hk) (moved_zero m h0)
  | @run w w1 w' p t hT hp hf h _ ih =>
    obtain ⟨st, st', h1, h2, ho, _, f⟩ := atPair_flow (hme p) h
    refine ih ?_ (flow_zero f (hk p (by rw [h1]; rfl)) h0)
    intro q hs
    by_cases e : q = p
    · exact e ▸ hk p (by rw [h1]; rfl)
    · rw [ho q e] at hs
      exact hk q hs

/-- The LP tokens of every pair stay in order. -/
theorem lpOk [Fintype A] {w w' : World A} (hme : ∀ p, (n.cfg p).me = p) (hinj : ∀ p q, (n.cfg p).lp = (n.cfg q).lp → p = q)
    (a : Acts n P T w w') (hok : ∀ p, (w.pair p).isSome → (n.cfg p).Ok) {q : A} (hq : ¬ P q) {st st' : Pair A}
    (h : w.pair q = some st) (h' : w'.pair q = some st') (hi : LpOk w.led (n.cfg q).lp q st) :
    LpOk w'.led (n.cfg q).lp q st' := by
  induction a generalizing st with
  | nil =>
    rw [h] at h'
    cases h'
    exact hi
  | same hl hp _ ih =>
    refine ih (by rw [hp]; exact hok) (by rw [hp]; exact h) h' ?_
    unfold LpOk
    rw [hl]
    exact hi
  | @move w w1 w' j src dst x hp m hp' _ ih =>
    refine ih (by rw [hp']; exact hok) (by rw [hp']; exact h) h' ?_
    refine ⟨hi.1.trans (Moved.sum m _).symm, hi.2.imp_right fun hi => Nat.le_trans hi ?_⟩
    exact m.mono (fun e : q = src => hq (by rw [e]; exact hp)) _
  | @run w w1 w' p t hT hp hf hr _ ih =>
    obtain ⟨s0, s1, h1, h2, ho, _, f⟩ := atPair_flow (hme p) hr
    have hok' : ∀ p, (w1.pair p).isSome → (n.cfg p).Ok := by
      intro r hs
      by_cases e : r = p
      · exact e ▸ hok p (by rw [h1]; rfl)
      · rw [ho r e] at hs
        exact hok r hs
    by_cases e : q = p
    · subst e
      exact ih hok' h2 h' (atPair_lp (hme q) (hok q (by rw [h1]; rfl)) hr h h2 hi)
    · refine ih hok' ((ho q e).trans h) h' ?_
      have hne : (Info.native (n.cfg q).lp) ≠ .native (n.cfg p).lp := fun he => e (hinj q p (Info.native.inj he))
      refine ⟨hi.1.trans (f.sum hne).symm, hi.2.imp_right fun hi => Nat.le_trans hi (f.mono ?_ _)⟩
      rintro (e' | e')
      · exact hq (by rw [e']; exact hp)
      · exact e e'

end Acts

theorem pairSwap_at {n : Net A} {e : Env A} {w w' : World A} {p payer : A} {o a : Info} {x : Nat} {be ms : Option Nat}
    {dest : Option A} (he : FeesOk e) (h : pairSwap n e w p payer o x a be ms dest = .ok w') :
    ∃ t, atPair n w p t = .ok w' ∧ t.payer = payer ∧ t.FeesOk := by
  simp only [pairSwap, bind_ok_iff, orErr_ok] at h
  obtain ⟨st, hst, tk, -, h⟩ := h
  cases st with
  | xyk s t tr sh =>
    cases o with
    | native d =>
      refine ⟨.xyk (.call (e.xyk p) payer [⟨d, x⟩] (.swap ⟨.native d, x⟩ be ms dest)), ?_, rfl, he p⟩
      simp only [atPair, hst]
      exact h
    | token d =>
      refine ⟨.xyk (.send (e.xyk p) tk payer payer x be ms dest), ?_, rfl, he p⟩
      simp only [atPair, hst]
      exact h
  | stable s t am ow sh =>
    cases o with
    | native d =>
      refine ⟨.stable (.call (e.stable p) payer [⟨d, x⟩] (.swap ⟨.native d, x⟩ (some a) be ms dest)), ?_, rfl, trivial⟩
      simp only [atPair, hst]
      exact h
    | token d =>
      refine ⟨.stable (.send (e.stable p) tk payer payer x (some a) be ms dest), ?_, rfl, trivial⟩
      simp only [atPair, hst]
      exact h
  | pcl s pa po t ow sh =>
    cases o with
    | native d =>
      refine ⟨.pcl (.call (e.pcl p) payer [⟨d, x⟩] (.swap ⟨.native d, x⟩ be ms dest)), ?_, rfl, trivial⟩
      simp only [atPair, hst]
      exact h
    | token d =>
      refine ⟨.pcl (.send (e.pcl p) tk payer payer x be ms dest), ?_, rfl, trivial⟩
      simp only [atPair, hst]
      exact h

theorem hop_acts {n : Net A} {e : Env A} {P T : A → Prop} {w w' : World A} {dest : Option A} {ms : Option Nat} {single : Bool}
    {op : SwapOp} (he : FeesOk e) (hP : P n.router) (hT : ∀ a b p, op = .astro a b → n.pairOf a b = some p → T p)
    (h : hop n e w dest ms single op = .ok w') : Acts n P T w w' := by
  cases op with
  | native a b => exact absurd h (by simp [hop])
  | astro a b =>
    simp only [hop, bind_ok_iff, orErr_ok] at h
    obtain ⟨p, hp, h⟩ := h
    obtain ⟨t, ht, hx, hf⟩ := pairSwap_at he h
    exact .run (hT a b p rfl hp) (by rw [hx]; exact hP) hf ht .nil

theorem hops_acts {n : Net A} {e : Env A} {P T : A → Prop} {rcv : A} {ms : Option Nat} {single : Bool} (he : FeesOk e)
    (hP : P n.router) :
    ∀ {ops : List SwapOp} {w w' : World A}, (∀ a b p, SwapOp.astro a b ∈ ops → n.pairOf a b = some p → T p) →
      hops n e rcv ms single w ops = .ok w' → Acts n P T w w'
  | [], w, w', _, h => by
    simp only [hops, Except.ok.injEq] at h
    subst h
    exact .nil
  | [op], w, w', hT, h => by
    simp only [hops] at h
    exact hop_acts he hP (fun a b p ho => hT a b p (by simp [ho])) h
  | op :: op' :: ops, w, w', hT, h => by
    simp only [hops, bind_ok_iff] at h
    obtain ⟨w1, h1, h2⟩ := h
    exact (hop_acts he hP (fun a b p ho => hT a b p (by simp [ho])) h1).trans
      (hops_acts he hP (fun a b p ho => hT a b p (List.mem_cons_of_mem _ ho)) h2)

theorem route_acts {n : Net A} {e : Env A} {P T : A → Prop} {w : World A} {pay : Payment A} {ops : List SwapOp}
    {minimum : Option Nat} {dest : Option A} {ms : Option Nat} {r : World A × Nat} (he : FeesOk e) (hP : P n.router) (hpay : P pay.payer)
    (hT : ∀ a b p, SwapOp.astro a b ∈ ops → n.pairOf a b = some p → T p)
    (h : Exchange.exec n e w pay ops minimum dest ms = .ok r) : w.pair pay.payer = none ∧ Acts n P T w r.1 := by
  have go : ∀ {l : Led A} {x : A}, route n e { w with led := l } x ops minimum dest ms = .ok r →
      Acts n P T { w with led := l } r.1 := by
    intro l x h
    simp only [route, bind_ok_iff, orErr_ok, Except.ok.injEq] at h
    obtain ⟨⟨⟩, ha, last, hlast, w2, h2, o, hfin, rfl⟩ := h
    exact .same (w1 := ⟨l, w.pair, some ⟨last.target, l.of last.target (dest.getD x), minimum, dest.getD x⟩⟩) (fun _ => rfl) rfl (hops_acts he hP hT h2)
  cases pay with
  | coins x funds =>
    simp only [Exchange.exec, bind_ok_iff, require_ok, exists_const] at h
    obtain ⟨⟨h1, h2⟩, _, l, hl, h⟩ := h
    exact ⟨h2, (Acts.attached hpay hl).trans (go h)⟩
  | tokens t owner spender amount =>
    simp only [Exchange.exec, bind_ok_iff, require_ok, exists_const] at h
    obtain ⟨⟨h1, h2⟩, l, hl, h⟩ := h
    have m : Moved w.led (.token t) owner (some n.router) amount l := by
      split_ifs at hl
      · exact Ledgers.move_moved hl
      · exact Ledgers.transferFrom_moved hl
    exact ⟨h2, (Acts.moved hpay m).trans (go h)⟩
  | forged x funds claimed =>
    simp only [Exchange.exec, bind_ok_iff, require_ok, exists_const] at h
    obtain ⟨⟨h1, h2⟩, _, l, hl, h⟩ := h
    exact ⟨h2, (Acts.attached hpay hl).trans (go h)⟩

theorem callTx_payer (e : Env A) (p x : A) (funds : List Coin) (m : PMsg A) : (callTx e p x funds m).payer = x := by
  cases m <;> rfl

theorem callTx_fees {e : Env A} (he : FeesOk e) (p x : A) (funds : List Coin) (m : PMsg A) : (callTx e p x funds m).FeesOk := by
  cases m
  · exact he p
  · trivial
  · trivial

theorem sendTx_fees {e : Env A} (he : FeesOk e) (w : World A) (p token owner spender : A) (amount : Nat) (ask : Option Info)
    (be ms : Option Nat) (dest : Option A) : (sendTx e w p token owner spender amount ask be ms dest).FeesOk := by
  unfold sendTx
  split
  · trivial
  · trivial
  · exact he p

theorem env_fees {s : Sys A} (h : Factory.CfgInv s.f) (now : Nat) : FeesOk (env s now) := by
  have go : ∀ (sel : Nat × Nat → Nat), (∀ a b : Nat, a ≤ 10000 → b ≤ 10000 → sel (a, b) ≤ 10000) → ∀ p, feeOf s sel p ≤ 10 ^ 18 := by
    intro sel hsel p
    unfold feeOf
    split
    · rename_i fa c hc
      obtain ⟨b, hb, hq⟩ := Option.bind_eq_some_iff.1 hc
      simp only [queryFeeInfo, Option.map_eq_some_iff, Prod.mk.injEq] at hq
      obtain ⟨pc, hpc, _, rfl⟩ := hq
      have hv := h.2 _ (kvGet_mem hpc)
      calc sel (pc.totalFeeBps, pc.makerFeeBps) * 10 ^ 14 ≤ 10000 * 10 ^ 14 := Nat.mul_le_mul_right _ (hsel _ _ hv.2.1 hv.2.2)
        _ = 10 ^ 18 := by norm_num
    · exact Nat.zero_le _
  exact fun p => ⟨go Prod.fst (fun _ _ h _ => h) p, go Prod.snd (fun _ _ _ h => h) p⟩

theorem sendTx_payer (e : Env A) (w : World A) (p token owner spender : A) (amount : Nat) (ask : Option Info)
    (be ms : Option Nat) (dest : Option A) : (sendTx e w p token owner spender amount ask be ms dest).payer = owner := by
  unfold sendTx
  split <;> rfl

/-- Transactions that only pass on assets and talk to pairs. -/
def Plain : Op A → Prop
  | .call .. => True
  | .send .. => True
  | .route .. => True
  | .transfer .. => True
  | .transferFrom .. => True
  | .approve .. => True
  | _ => False

/-- What plain transactions do: nothing is created, and who pays is no contract of the exchange except the router. -/
theorem plain_acts {S : Site A} {s s' : Sys A} {o : Op A} (hpb : ∀ p, (s.w.pair p).isSome = (s.born p).isSome)
    (hr : s.born S.router = none) (hc : Factory.CfgInv s.f) (ho : Plain o) (h : exec S s o = .ok s') :
    s'.f = s.f ∧ s'.born = s.born ∧ Acts (net S s) (Pays S o) (Talks s o) s.w s'.w ∧ ∀ z, Pays S o z → s.born z = none := by
  cases o with
  | factory o => exact absurd ho id
  | create => exact absurd ho id
  | issue => exact absurd ho id
  | destroy => exact absurd ho id
  | call now p sender funds m =>
    simp only [exec, bind_ok_iff, require_ok, exists_const, Except.ok.injEq] at h
    obtain ⟨hout, w, hw, rfl⟩ := h
    exact ⟨rfl, rfl, .run (p := p) rfl (callTx_payer ..) (callTx_fees (env_fees hc now) ..) hw .nil, fun z hz => by rw [show z = sender from hz]; exact hout.2⟩
  | send now p token owner spender amount ask be ms dest =>
    simp only [exec, bind_ok_iff, require_ok, exists_const, Except.ok.injEq] at h
    obtain ⟨hout, w, hw, rfl⟩ := h
    exact ⟨rfl, rfl, .run (p := p) rfl (sendTx_payer ..) (sendTx_fees (env_fees hc now) ..) hw .nil, fun z hz => by rw [show z = owner from hz]; exact hout.2⟩
  | route now pay ops minimum dest ms =>
    simp only [exec, bind_ok_iff, Except.ok.injEq] at h
    obtain ⟨r, hx, rfl⟩ := h
    obtain ⟨h1, h2⟩ := route_acts (P := Pays S (.route now pay ops minimum dest ms))
      (T := Talks s (.route now pay ops minimum dest ms)) (env_fees hc now) (Or.inr rfl) (Or.inl rfl)
      (fun a b p ho hp => ⟨a, b, ho, hp⟩) hx
    refine ⟨rfl, rfl, h2, ?_⟩
    rintro z (e | e)
    · have := hpb pay.payer
      rw [h1] at this
      rw [e]
      exact Option.isSome_eq_false_iff.1 this.symm |> Option.isNone_iff_eq_none.1
    · rw [e]; exact hr
  | transfer k src dst n =>
    simp only [exec, bind_ok_iff, require_ok, exists_const, Except.ok.injEq] at h
    obtain ⟨hout, l, hl, rfl⟩ := h
    exact ⟨rfl, rfl, .moved rfl (Ledgers.move_moved hl), fun z hz => by rw [show z = src from hz]; exact hout.2⟩
  | transferFrom t owner spender dst n =>
    simp only [exec, bind_ok_iff, require_ok, exists_const, Except.ok.injEq] at h
    obtain ⟨hout, l, hl, rfl⟩ := h
    exact ⟨rfl, rfl, .moved rfl (Ledgers.transferFrom_moved hl), fun z hz => by rw [show z = owner from hz]; exact hout.2⟩
  | approve t owner spender n =>
    simp only [exec, bind_ok_iff, require_ok, exists_const, Except.ok.injEq] at h
    obtain ⟨hout, rfl⟩ := h
    refine ⟨rfl, rfl, Acts.same ?_ ?_ .nil, fun z hz => absurd hz id⟩
    · intro k
      cases k <;> rfl
    · rfl

/-! ## Lemmas: the factory -/

theorem instantiate_new {S : Site A} {f : Factory.State A} {dec : Info → Option Nat} {now : Nat} {a b : Info} {code : Code}
    {ps : Params A} {st : Pair A} {prec : Bool → Nat} (h : instantiate S f dec now a b code ps = .ok (st, prec)) :
    supplyOf st = 0 ∧ kindOf st = code ∧ st.shareTo = none := by
  unfold instantiate at h
  split at h
  · simp only [bind_ok_iff, Except.ok.injEq, Prod.mk.injEq] at h
    obtain ⟨_, _, _, _, _, _, _, _, rfl, _⟩ := h
    exact ⟨rfl, rfl, rfl⟩
  · simp only [bind_ok_iff, Except.ok.injEq, Prod.mk.injEq] at h
    obtain ⟨_, _, _, _, _, _, _, _, rfl, _⟩ := h
    exact ⟨rfl, rfl, rfl⟩
  · simp only [bind_ok_iff, Except.ok.injEq, Prod.mk.injEq] at h
    obtain ⟨_, _, _, _, _, _, _, _, _, _, rfl, _⟩ := h
    exact ⟨rfl, rfl, rfl⟩
  · exact absurd h (by simp)

/-- What a successful creation did. -/
theorem create_ok {S : Site A} {s s' : Sys A} {now : Nat} {x : A} {funds : List Coin} {t : PairType} {infos : List Info}
    {ps : Params A} {dec : Info → Option Nat} {p : A} (h : create S s now x funds t infos ps dec p = .ok s') :
    ∃ a b c code st prec l1 l2, infos = [a, b] ∧ a ≠ b ∧ a ≠ .native (S.lpOf p) ∧ b ≠ .native (S.lpOf p) ∧
      Outside S s x ∧ Outside S s p ∧ p ≠ x ∧ queryPair s.f infos = none ∧
      kvGet t.name s.f.pairConfigs = some c ∧ c.isDisabled = false ∧ (c.permissioned = true → x = s.f.own.owner) ∧
      S.code c.codeId = some code ∧ instantiate S s.f dec now a b code ps = .ok (st, prec) ∧
      attach s.w.led x p funds = .ok l1 ∧ attach l1 p S.community S.denomFee = .ok l2 ∧
      s' = { f := { s.f with pairs := kvInsert (pairKey infos) p s.f.pairs }
             born := Function.update s.born p (some ⟨fun i => if i then b else a, t, prec⟩)
             w := { s.w with led := l2, pair := Function.update s.w.pair p (some st) } } := by
  simp only [create, Factory.createPair, bind_ok_iff, require_ok, exists_const, orErr_ok, Except.ok.injEq] at h
  obtain ⟨hx, _, key, ⟨⟨⟩, hchk, hnone, c', hc', hperm, hdis, rfl⟩, c, hc, code, hcode, ⟨hp, hpx⟩, h⟩ := h
  rw [hc] at hc'
  obtain rfl := Option.some.inj hc'
  split at h
  · rename_i a b
    simp only [bind_ok_iff, require_ok, exists_const, Factory.reply, Except.ok.injEq] at h
    obtain ⟨⟨ha, hb⟩, l1, h1, r, hr, l2, h2, f, ⟨_, rfl⟩, rfl⟩ := h
    obtain ⟨st, prec⟩ := r
    have hab := (Factory.checkAssetInfos_ok.1 hchk).1
    refine ⟨a, b, c, code, st, prec, l1, l2, rfl, by simpa using hab, ha, hb, hx, hp, hpx, hnone, hc, hdis, ?_, hcode, hr, h1, h2, rfl⟩
    intro hp
    by_contra hne
    exact hperm ⟨hp, hne⟩
  · exact absurd h (by simp)

/-- What the factory itself does: pairs are only taken off the list, types stay, and valid fees. -/
theorem factory_ok {okAddr : Str → Bool} {f f' : Factory.State A} {o : Factory.Op A} (ho : isCreate o = false)
    (h : Factory.exec okAddr f o = .ok f') :
    (∀ k p, kvGet k f'.pairs = some p → kvGet k f.pairs = some p) ∧
    ∀ t : PairType, (kvGet t.name f.pairConfigs).isSome → (kvGet t.name f'.pairConfigs).isSome := by
  cases o with
  | own t =>
    simp only [Factory.exec, bind_ok_iff, Except.ok.injEq] at h
    obtain ⟨_, _, rfl⟩ := h
    exact ⟨fun _ _ h => h, fun _ h => h⟩
  | updateConfig x u =>
    simp only [Factory.exec, Factory.updateConfig, bind_ok_iff, require_ok, exists_const, Except.ok.injEq] at h
    obtain ⟨_, rfl⟩ := h
    exact ⟨fun _ _ h => h, fun _ h => h⟩
  | updateTracker x code tf =>
    simp only [Factory.exec, Factory.updateTracker, bind_ok_iff, require_ok, exists_const] at h
    obtain ⟨_, h⟩ := h
    split at h
    · simp only [Except.ok.injEq] at h
      subst h
      exact ⟨fun _ _ h => h, fun _ h => h⟩
    · simp only [bind_ok_iff, Except.ok.injEq] at h
      obtain ⟨_, _, rfl⟩ := h
      exact ⟨fun _ _ h => h, fun _ h => h⟩
  | updatePairConfig x c =>
    simp only [Factory.exec, Factory.updatePairConfig, bind_ok_iff, require_ok, exists_const, Except.ok.injEq] at h
    obtain ⟨_, _, rfl⟩ := h
    refine ⟨fun _ _ h => h, fun t ht => ?_⟩
    simp only [kvGet_insert]
    split_ifs
    · rfl
    · exact ht
  | create => exact absurd ho (by simp [isCreate])
  | deregister x infos =>
    simp only [Factory.exec, bind_ok_iff, Except.ok.injEq] at h
    obtain ⟨y, hy, rfl⟩ := h
    obtain ⟨_, _, _, h4⟩ := Factory.deregister_ok.1 hy
    rw [h4]
    refine ⟨fun k p hk => ?_, fun _ h => h⟩
    simp only [kvGet_remove] at hk
    split_ifs at hk
    exact hk

/-! ## Lemmas: the invariant -/

theorem net_me (S : Site A) (s : Sys A) (p : A) : ((net S s).cfg p).me = p := by
  simp only [net]
  split <;> rfl

theorem net_lp (S : Site A) (s : Sys A) (p : A) : ((net S s).cfg p).lp = S.lpOf p := by
  simp only [net]
  split <;> rfl

theorem Site.Ok.inj {S : Site A} (hS : S.Ok) {p q : A} (h : S.lpOf p = S.lpOf q) : p = q := by
  have := hS.lp p
  rw [h, hS.lp q] at this
  exact (Option.some.inj this).symm

/-- What holds in every history. -/
structure Inv (S : Site A) (s : Sys A) : Prop where
  pb : ∀ p, (s.w.pair p).isSome = (s.born p).isSome
  ok : ∀ p b, s.born p = some b → b.infos false ≠ b.infos true ∧ ∀ i, b.infos i ≠ .native (S.lpOf p)
  router : s.born S.router = none
  dir : ∀ k p, kvGet k s.f.pairs = some p → ∃ b, s.born p = some b ∧ k = pairKey [b.infos false, b.infos true]
  cfg : ∀ p b, s.born p = some b → (kvGet b.type.name s.f.pairConfigs).isSome
  fees : Factory.CfgInv s.f
  unborn : ∀ p, s.born p = none → ∀ a, s.w.led.of (.native (S.lpOf p)) a = 0

/-- The LP tokens of all pairs are in order. -/
def LpAll [Fintype A] (S : Site A) (s : Sys A) : Prop := ∀ p st, s.w.pair p = some st → LpOk s.w.led (S.lpOf p) p st

theorem Inv.born_of {S : Site A} {s : Sys A} (hI : Inv S s) {p : A} {st : Pair A} (h : s.w.pair p = some st) :
    ∃ b, s.born p = some b := by
  have := hI.pb p
  rw [h] at this
  exact Option.isSome_iff_exists.1 this.symm

theorem Inv.pair_none {S : Site A} {s : Sys A} (hI : Inv S s) {p : A} (h : s.born p = none) : s.w.pair p = none := by
  have := hI.pb p
  rw [h] at this
  exact Option.not_isSome_iff_eq_none.1 (by rw [this]; simp)

theorem Inv.cfg_ok {S : Site A} {s : Sys A} (hI : Inv S s) {p : A} (h : (s.w.pair p).isSome) : ((net S s).cfg p).Ok := by
  rw [hI.pb p] at h
  obtain ⟨b, hb⟩ := Option.isSome_iff_exists.1 h
  obtain ⟨h1, h2⟩ := hI.ok p b hb
  simp only [net, hb]
  exact ⟨h1, h2⟩

/-- Addresses are as the router and the pairs need them. -/
theorem Inv.net_ok {S : Site A} {s : Sys A} (hS : S.Ok) (hI : Inv S s) : (net S s).Ok s.w where
  me p _ _ := net_me S s p
  ok p st h := hI.cfg_ok (by rw [h]; rfl)
  router := hI.pair_none hI.router
  addr t x h p := by
    have : ((net S s).cfg p).addr = S.addr := by
      simp only [net]
      split <;> rfl
    rw [this]
    exact hS.addr t x h

theorem set_of_ne {l : Led A} {k j : Info} {v : A → Nat} (h : j ≠ k) : (l.set k v).of j = l.of j := by
  cases k <;> cases j <;> simp_all [Led.set, Led.of, Function.update_of_ne]

theorem not_lp {S : Site A} (hS : S.Ok) {k : Info} (h : isLp S k = false) (p : A) : (Info.native (S.lpOf p)) ≠ k := by
  rintro rfl
  simp [isLp, hS.lp p] at h

theorem exec_inv {S : Site A} (hS : S.Ok) {s s' : Sys A} (hI : Inv S s) {o : Op A} (h : exec S s o = .ok s') : Inv S s' := by
  have plain : Plain o → Inv S s' := by
    intro ho
    obtain ⟨hf, hb, ha, hz⟩ := plain_acts hI.pb hI.router hI.fees ho h
    refine ⟨fun p => ?_, by rw [hb]; exact hI.ok, by rw [hb]; exact hI.router, by rw [hf, hb]; exact hI.dir,
      by rw [hf, hb]; exact hI.cfg, by rw [hf]; exact hI.fees, fun p hp => ?_⟩
    · have := congrArg Option.isSome (ha.kind (net_me S s) p)
      rw [Option.isSome_map, Option.isSome_map, hI.pb p] at this
      rw [hb, this]
    · rw [hb] at hp
      refine ha.zero (net_me S s) ?_ (hI.unborn p hp)
      intro q hq he
      rw [net_lp] at he
      rw [← hS.inj (Info.native.inj he), hI.pair_none hp] at hq
      exact absurd hq (by simp)
  cases o with
  | factory o =>
    simp only [exec, bind_ok_iff, require_ok, exists_const, Except.ok.injEq] at h
    obtain ⟨ho, f, hf, rfl⟩ := h
    obtain ⟨h1, h2⟩ := factory_ok ho hf
    exact ⟨hI.pb, hI.ok, hI.router, fun k p hk => hI.dir k p (h1 k p hk), fun p b hb => h2 _ (hI.cfg p b hb),
      Factory.exec_cfgInv hI.fees o hf, hI.unborn⟩
  | create now x funds t infos ps dec p =>
    obtain ⟨a, b, c, code, st, prec, l1, l2, rfl, hab, ha, hb, hx, hp, hpx, hq, hc, hdis, hperm, hcode, hi, h1, h2, rfl⟩ := create_ok h
    refine ⟨fun q => ?_, fun q d hd => ?_, ?_, fun k q hk => ?_, fun q d hd => ?_, hI.fees, fun q hd => ?_⟩
    · by_cases e : q = p
      · subst e; simp
      · simp only [Function.update_of_ne e]; exact hI.pb q
    · by_cases e : q = p
      · subst e
        simp only [Function.update_self, Option.some.injEq] at hd
        subst hd
        exact ⟨hab, fun i => by cases i <;> assumption⟩
      · simp only [Function.update_of_ne e] at hd
        exact hI.ok q d hd
    · simp only [Function.update_of_ne (Ne.symm hp.1)]
      exact hI.router
    · simp only [kvGet_insert] at hk
      split_ifs at hk with e
      · simp only [Option.some.injEq] at hk
        subst hk
        exact ⟨_, Function.update_self .., e⟩
      · obtain ⟨d, hd, hk⟩ := hI.dir k q hk
        have : q ≠ p := by
          rintro rfl
          rw [hp.2] at hd
          cases hd
        exact ⟨d, by simp only [Function.update_of_ne this]; exact hd, hk⟩
    · by_cases e : q = p
      · subst e
        simp only [Function.update_self, Option.some.injEq] at hd
        subst hd
        change (kvGet t.name s.f.pairConfigs).isSome
        rw [hc]; rfl
      · simp only [Function.update_of_ne e] at hd
        exact hI.cfg q d hd
    · have e : q ≠ p := by
        rintro rfl
        simp at hd
      simp only [Function.update_of_ne e] at hd
      have a1 : Acts (net S s) (fun _ => True) (fun _ => False) s.w { s.w with led := l1 } := .attached trivial h1
      have a2 : Acts (net S s) (fun _ => True) (fun _ => False) { s.w with led := l1 } { s.w with led := l2 } := .attached trivial h2
      refine (a1.trans a2).zero (net_me S s) ?_ (hI.unborn q hd)
      intro r hr he
      rw [net_lp] at he
      rw [← hS.inj (Info.native.inj he), hI.pair_none hd] at hr
      exact absurd hr (by simp)
  | call => exact plain trivial
  | send => exact plain trivial
  | route => exact plain trivial
  | transfer => exact plain trivial
  | transferFrom => exact plain trivial
  | approve => exact plain trivial
  | issue k dst n =>
    simp only [exec, bind_ok_iff, require_ok, exists_const, Except.ok.injEq] at h
    obtain ⟨hk, rfl⟩ := h
    exact ⟨hI.pb, hI.ok, hI.router, hI.dir, hI.cfg, hI.fees, fun p hp a => by
      rw [set_of_ne (not_lp hS hk p)]; exact hI.unborn p hp a⟩
  | destroy k src n =>
    simp only [exec, bind_ok_iff, require_ok, exists_const, Except.ok.injEq] at h
    obtain ⟨⟨hk, _⟩, l, _, rfl⟩ := h
    exact ⟨hI.pb, hI.ok, hI.router, hI.dir, hI.cfg, hI.fees, fun p hp a => by
      rw [set_of_ne (not_lp hS hk p)]; exact hI.unborn p hp a⟩

theorem start_inv {S : Site A} {s : Sys A} (h : Start S s) : Inv S s := by
  obtain ⟨owner, config, pcs, hf⟩ := h.factory
  simp only [Factory.instantiate, bind_ok_iff, require_ok, exists_const, Except.ok.injEq] at hf
  obtain ⟨_, m, hm, hf⟩ := hf
  refine ⟨fun p => by rw [h.born, h.pair]; rfl, fun p b hb => ?_, h.born _, fun k p hk => ?_, fun p b hb => ?_, ?_, fun p _ a => h.lp p a⟩
  · rw [h.born] at hb; cases hb
  · rw [← hf] at hk; cases hk
  · rw [h.born] at hb; cases hb
  · rw [← hf]; exact Factory.storeConfigs_inv hm ⟨List.Pairwise.nil, by simp⟩

theorem run_inv {S : Site A} (hS : S.Ok) (os : List (Op A)) : ∀ {s : Sys A}, Inv S s → Inv S (run S s os) := by
  induction os with
  | nil => exact fun h => h
  | cons o os ih => exact fun h => ih (commit'_inv (Inv S) h fun s' hs => exec_inv hS h hs)

theorem exec_lpAll [Fintype A] {S : Site A} (hS : S.Ok) {s s' : Sys A} (hI : Inv S s) (hL : LpAll S s) {o : Op A}
    (h : exec S s o = .ok s') : LpAll S s' := by
  have hinj : ∀ p q, ((net S s).cfg p).lp = ((net S s).cfg q).lp → p = q := fun p q e => by
    rw [net_lp, net_lp] at e
    exact hS.inj e
  have plain : Plain o → LpAll S s' := by
    intro ho p st' hp'
    obtain ⟨hf, hb, ha, hz⟩ := plain_acts hI.pb hI.router hI.fees ho h
    have hk := ha.kind (net_me S s) p
    rw [hp', Option.map_some] at hk
    obtain ⟨st, hp, _⟩ := Option.map_eq_some_iff.1 hk.symm
    have := ha.lpOk (net_me S s) hinj (fun q hq => hI.cfg_ok hq) (q := p) (fun hz' => by
      obtain ⟨b, hb'⟩ := hI.born_of hp
      rw [hz p hz'] at hb'
      cases hb') hp hp' (by rw [net_lp]; exact hL p st hp)
    rw [net_lp] at this
    exact this
  have other : ∀ {k : Info} {v : A → Nat}, isLp S k = false → ∀ p st, s.w.pair p = some st →
      LpOk (s.w.led.set k v) (S.lpOf p) p st := by
    intro k v hk p st hp
    unfold LpOk
    rw [set_of_ne (not_lp hS hk p)]
    exact hL p st hp
  cases o with
  | factory o =>
    simp only [exec, bind_ok_iff, require_ok, exists_const, Except.ok.injEq] at h
    obtain ⟨ho, f, hf, rfl⟩ := h
    exact hL
  | create now x funds t infos ps dec p =>
    obtain ⟨a, b, c, code, st, prec, l1, l2, rfl, hab, ha, hb, hx, hp, hpx, hq, hc, hdis, hperm, hcode, hi, h1, h2, rfl⟩ := create_ok h
    have a1 : Acts (net S s) (Two x p) (fun _ => False) s.w { s.w with led := l1 } := .attached (two_fst _ _) h1
    have a2 : Acts (net S s) (Two x p) (fun _ => False) { s.w with led := l1 } { s.w with led := l2 } := .attached (two_snd _ _) h2
    have a := a1.trans a2
    intro q st' hst'
    by_cases e : q = p
    · subst e
      simp only [Function.update_self, Option.some.injEq] at hst'
      subst hst'
      have h0 : ∀ z, l2.of (.native (S.lpOf q)) z = 0 := by
        refine a.zero (net_me S s) ?_ (hI.unborn q hp.2)
        intro r hr he
        rw [net_lp] at he
        rw [← hS.inj (Info.native.inj he), hI.pair_none hp.2] at hr
        exact absurd hr (by simp)
      have hs := (instantiate_new hi).1
      exact ⟨by simp only [hs, h0, Finset.sum_const_zero], Or.inl hs⟩
    · simp only [Function.update_of_ne e] at hst'
      have := a.lpOk (net_me S s) hinj (fun q hq => hI.cfg_ok hq) (q := q) (by
        rintro (e' | e')
        · obtain ⟨b, hb'⟩ := hI.born_of hst'
          rw [e', hx.2] at hb'
          cases hb'
        · exact e e') hst' hst' (by rw [net_lp]; exact hL q st' hst')
      rw [net_lp] at this
      exact this
  | call => exact plain trivial
  | send => exact plain trivial
  | route => exact plain trivial
  | transfer => exact plain trivial
  | transferFrom => exact plain trivial
  | approve => exact plain trivial
  | issue k dst n =>
    simp only [exec, bind_ok_iff, require_ok, exists_const, Except.ok.injEq] at h
    obtain ⟨hk, rfl⟩ := h
    exact other hk
  | destroy k src n =>
    simp only [exec, bind_ok_iff, require_ok, exists_const, Except.ok.injEq] at h
    obtain ⟨⟨hk, _⟩, l, _, rfl⟩ := h
    exact other hk

theorem run_lpAll [Fintype A] {S : Site A} (hS : S.Ok) (os : List (Op A)) : ∀ {s : Sys A}, Inv S s → LpAll S s →
    LpAll S (run S s os) := by
  induction os with
  | nil => exact fun _ h => h
  | cons o os ih =>
    intro s hI hL
    have := commit'_inv (fun s => Inv S s ∧ LpAll S s) ⟨hI, hL⟩ (r := exec S s o)
      fun s' hs => ⟨exec_inv hS hI hs, exec_lpAll hS hI hL hs⟩
    exact ih this.1 this.2

theorem start_lpAll [Fintype A] {S : Site A} {s : Sys A} (h : Start S s) : LpAll S s := by
  intro p st hp
  rw [h.pair] at hp
  cases hp

theorem create_acts {S : Site A} {s : Sys A} {x p : A} {funds fee : List Coin} {l1 l2 : Led A}
    (h1 : attach s.w.led x p funds = .ok l1) (h2 : attach l1 p S.community fee = .ok l2) :
    Acts (net S s) (Two x p) (fun _ => False) s.w { s.w with led := l2 } :=
  Acts.trans (w1 := { s.w with led := l1 }) (.attached (two_fst _ _) h1) (.attached (w := { s.w with led := l1 }) (two_snd _ _) h2)

/-- What a pair is stays. -/
theorem exec_born {S : Site A} {s s' : Sys A} (hI : Inv S s) {o : Op A} (h : exec S s o = .ok s') (p : A) (b : Born)
    (hb : s.born p = some b) : s'.born p = some b ∧ (s'.w.pair p).map kindOf = (s.w.pair p).map kindOf := by
  have plain : Plain o → s'.born p = some b ∧ (s'.w.pair p).map kindOf = (s.w.pair p).map kindOf := by
    intro ho
    obtain ⟨_, hb', ha, _⟩ := plain_acts hI.pb hI.router hI.fees ho h
    exact ⟨by rw [hb']; exact hb, ha.kind (net_me S s) p⟩
  cases o with
  | factory o =>
    simp only [exec, bind_ok_iff, require_ok, exists_const, Except.ok.injEq] at h
    obtain ⟨ho, f, hf, rfl⟩ := h
    exact ⟨hb, rfl⟩
  | create now x funds t infos ps dec q =>
    obtain ⟨a, b', c, code, st, prec, l1, l2, rfl, hab, ha, hb', hx, hq, hqx, hn, hc, hdis, hperm, hcode, hi, h1, h2, rfl⟩ := create_ok h
    have e : p ≠ q := by
      rintro rfl
      rw [hq.2] at hb
      cases hb
    simp only [Function.update_of_ne e]
    exact ⟨hb, trivial⟩
  | call => exact plain trivial
  | send => exact plain trivial
  | route => exact plain trivial
  | transfer => exact plain trivial
  | transferFrom => exact plain trivial
  | approve => exact plain trivial
  | issue k dst n =>
    simp only [exec, bind_ok_iff, require_ok, exists_const, Except.ok.injEq] at h
    obtain ⟨hk, rfl⟩ := h
    exact ⟨hb, rfl⟩
  | destroy k src n =>
    simp only [exec, bind_ok_iff, require_ok, exists_const, Except.ok.injEq] at h
    obtain ⟨⟨hk, _⟩, l, _, rfl⟩ := h
    exact ⟨hb, rfl⟩

/-! ## C167 -/

/-- **C167, creation.**  Whatever happened before: a pair that is created has two different assets, of which the factory knew no
pair, in either order; afterwards it is found in either order, at an address that was not in use, with the assets and the
type that were asked for and the contract that the configuration of that type names; the type was enabled, and who created it
was the owner if the type is permissioned.  The pair's LP token has no supply and nobody holds any, it shares no fees.  No
other pair changes, no other lookup, and nobody else has less of anything. -/
theorem C167_create (S : Site A) (hS : S.Ok) (s0 s s' : Sys A) (h0 : Start S s0) (os : List (Op A)) (hs : s = run S s0 os)
    (now : Nat) (x : A) (funds : List Coin) (t : PairType) (infos : List Info) (ps : Params A) (dec : Info → Option Nat) (p : A)
    (h : exec S s (.create now x funds t infos ps dec p) = .ok s') :
    (∃ a b, infos = [a, b] ∧ a ≠ b ∧
      (∀ l, l.Perm infos → queryPair s.f l = none ∧ queryPair s'.f l = some p) ∧
      s.born p = none ∧ (∃ d, s'.born p = some d ∧ d.infos false = a ∧ d.infos true = b ∧ d.type = t)) ∧
    (∃ st, s'.w.pair p = some st ∧ supplyOf st = 0 ∧ st.shareTo = none ∧
      ∃ c, kvGet t.name s.f.pairConfigs = some c ∧ c.isDisabled = false ∧ (c.permissioned = true → x = s.f.own.owner) ∧
        S.code c.codeId = some (kindOf st)) ∧
    (∀ z, s'.w.led.of (.native (S.lpOf p)) z = 0) ∧
    (∀ q, q ≠ p → s'.w.pair q = s.w.pair q ∧ s'.born q = s.born q ∧
      (q ≠ x → ∀ k, s.w.led.of k q ≤ s'.w.led.of k q)) ∧
    ∀ l, pairKey l ≠ pairKey infos → queryPair s'.f l = queryPair s.f l := by
  have hI : Inv S s := hs ▸ run_inv hS os (start_inv h0)
  obtain ⟨a, b, c, code, st, prec, l1, l2, rfl, hab, ha, hb, hx, hp, hpx, hq, hc, hdis, hperm, hcode, hi, h1, h2, rfl⟩ := create_ok h
  have hA := create_acts h1 h2
  obtain ⟨i1, i2, i3⟩ := instantiate_new hi
  refine ⟨⟨a, b, rfl, hab, fun l hl => ⟨?_, ?_⟩, hp.2, _, Function.update_self .., rfl, rfl, rfl⟩,
    ⟨st, Function.update_self .., i1, i3, c, hc, hdis, hperm, by rw [i2]; exact hcode⟩, ?_, fun q hq => ⟨?_, ?_, ?_⟩, fun l hl => ?_⟩
  · rw [Factory.C35_lookup_any_order _ hl]; exact hq
  · simp only [queryPair, Factory.pairKey_perm hl, kvGet_insert, if_true]
  · refine hA.zero (net_me S s) ?_ (hI.unborn p hp.2)
    intro r hr he
    rw [net_lp] at he
    rw [← hS.inj (Info.native.inj he), hI.pair_none hp.2] at hr
    exact absurd hr (by simp)
  · exact Function.update_of_ne hq ..
  · exact Function.update_of_ne hq ..
  · intro hx k
    refine hA.mono (net_me S s) ?_ (fun h => h) k
    rintro (e | e)
    · exact hx e
    · exact hq e
  · simp only [queryPair, kvGet_insert, if_neg hl]

/-- **C167, a pair stays what it is.**  Its assets, type, decimals and contract never change, whatever happens. -/
theorem C167_pairs_never_change (S : Site A) (hS : S.Ok) (s0 : Sys A) (h0 : Start S s0) (os more : List (Op A)) (p : A)
    (b : Born) (hb : (run S s0 os).born p = some b) :
    (run S s0 (os ++ more)).born p = some b ∧
      ((run S s0 (os ++ more)).w.pair p).map kindOf = ((run S s0 os).w.pair p).map kindOf := by
  have e : run S s0 (os ++ more) = run S (run S s0 os) more := by simp [run, List.foldl_append]
  rw [e]
  have hI := run_inv hS os (start_inv h0)
  generalize run S s0 os = s at *
  clear e h0
  induction more generalizing s with
  | nil => exact ⟨hb, rfl⟩
  | cons o more ih =>
    have hs := commit'_inv (fun s' => Inv S s' ∧ s'.born p = some b ∧ (s'.w.pair p).map kindOf = (s.w.pair p).map kindOf)
      (r := exec S s o) ⟨hI, hb, rfl⟩ fun s' hs => ⟨exec_inv hS hI hs, exec_born hI hs p b hb⟩
    obtain ⟨h1, h2⟩ := ih (step S s o) hs.2.1 hs.1
    exact ⟨h1, h2.trans hs.2.2⟩

/-- **C167, nothing but creation makes pairs.**  Every pair was made by some creation of the history, at its address, with its
assets and its type. -/
theorem C167_only_creation_makes_pairs (S : Site A) (hS : S.Ok) (s0 : Sys A) (h0 : Start S s0) (os : List (Op A)) (p : A) :
    (((run S s0 os).w.pair p).isSome = true ↔ ((run S s0 os).born p).isSome = true) ∧
    ∀ b, (run S s0 os).born p = some b → ∃ now x funds ps dec,
      Op.create now x funds b.type [b.infos false, b.infos true] ps dec p ∈ os := by
  refine ⟨by rw [(run_inv hS os (start_inv h0)).pb p], ?_⟩
  have hI := start_inv h0
  have hn : s0.born p = none := h0.born p
  clear h0
  induction os generalizing s0 with
  | nil =>
    intro b hb
    change s0.born p = some b at hb
    rw [hn] at hb
    cases hb
  | cons o os ih =>
    intro b hb
    have hI1 : Inv S (step S s0 o) := commit'_inv (Inv S) hI fun s' hs => exec_inv hS hI hs
    by_cases h1 : (step S s0 o).born p = none
    · obtain ⟨now, x, funds, ps, dec, hm⟩ := ih _ hI1 h1 b hb
      exact ⟨now, x, funds, ps, dec, List.mem_cons_of_mem _ hm⟩
    · obtain ⟨d, hd⟩ := Option.ne_none_iff_exists'.1 h1
      have hbd : d = b := by
        have : ∀ (os : List (Op A)) (s : Sys A), Inv S s → s.born p = some d → (run S s os).born p = some d := by
          intro os
          induction os with
          | nil => exact fun _ _ h => h
          | cons o os ih' =>
            intro s hI hb
            have hs := commit'_inv (fun s' => Inv S s' ∧ s'.born p = some d) (r := exec S s o) ⟨hI, hb⟩
              fun s' hs => ⟨exec_inv hS hI hs, (exec_born hI hs p d hb).1⟩
            exact ih' _ hs.1 hs.2
        have h2 := this os _ hI1 hd
        change (run S s0 (o :: os)).born p = some d at h2
        rw [hb] at h2
        exact (Option.some.inj h2).symm
      subst hbd
      unfold step at hd
      cases hx : exec S s0 o with
      | error e => rw [hx] at hd; change s0.born p = _ at hd; rw [hn] at hd; cases hd
      | ok s1 =>
        rw [hx] at hd
        change s1.born p = _ at hd
        have plain : Plain o → False := by
          intro ho
          obtain ⟨_, hb', _⟩ := plain_acts hI.pb hI.router hI.fees ho hx
          rw [hb', hn] at hd
          cases hd
        cases o with
        | factory o =>
          simp only [exec, bind_ok_iff, require_ok, exists_const, Except.ok.injEq] at hx
          obtain ⟨ho, f, hf, rfl⟩ := hx
          rw [hn] at hd
          cases hd
        | create now x funds t infos ps dec q =>
          obtain ⟨a, b', c, code, st, prec, l1, l2, rfl, _, _, _, _, hq, _, _, _, _, _, _, _, _, _, rfl⟩ := create_ok hx
          by_cases e : p = q
          · subst e
            simp only [Function.update_self, Option.some.injEq] at hd
            subst hd
            exact ⟨now, x, funds, ps, dec, List.mem_cons_self⟩
          · simp only [Function.update_of_ne e] at hd
            rw [hn] at hd
            cases hd
        | call => exact (plain trivial).elim
        | send => exact (plain trivial).elim
        | route => exact (plain trivial).elim
        | transfer => exact (plain trivial).elim
        | transferFrom => exact (plain trivial).elim
        | approve => exact (plain trivial).elim
        | issue k dst n =>
          simp only [exec, bind_ok_iff, require_ok, exists_const, Except.ok.injEq] at hx
          obtain ⟨hk, rfl⟩ := hx
          rw [hn] at hd
          cases hd
        | destroy k src n =>
          simp only [exec, bind_ok_iff, require_ok, exists_const, Except.ok.injEq] at hx
          obtain ⟨⟨hk, _⟩, l, _, rfl⟩ := hx
          rw [hn] at hd
          cases hd

/-- **C167, fees.**  In every history every pair finds the configuration of its type in the factory, and the fees that it
reads there are at most 100 %. -/
theorem C167_fees_are_always_there (S : Site A) (hS : S.Ok) (s0 : Sys A) (h0 : Start S s0) (os : List (Op A)) (now : Nat) (p : A)
    (b : Born) (hb : (run S s0 os).born p = some b) :
    (∃ fa total maker, queryFeeInfo (run S s0 os).f b.type = some (fa, total, maker) ∧
      (env (run S s0 os) now).total p = total * 10 ^ 14 ∧ (env (run S s0 os) now).maker p = maker * 10 ^ 14) ∧
    (env (run S s0 os) now).total p ≤ 10 ^ 18 ∧ (env (run S s0 os) now).maker p ≤ 10 ^ 18 := by
  have hI := run_inv hS os (start_inv h0)
  generalize run S s0 os = s at *
  obtain ⟨c, hc⟩ := Option.isSome_iff_exists.1 (hI.cfg p b hb)
  have hv := hI.fees.2 _ (kvGet_mem hc)
  have hq : queryFeeInfo s.f b.type = some (s.f.config.feeAddress, c.totalFeeBps, c.makerFeeBps) := by
    simp only [queryFeeInfo, hc, Option.map_some]
  have ht : (env s now).total p = c.totalFeeBps * 10 ^ 14 := by simp only [env, feeOf, hb, Option.bind_some, hq]
  have hm : (env s now).maker p = c.makerFeeBps * 10 ^ 14 := by simp only [env, feeOf, hb, Option.bind_some, hq]
  refine ⟨⟨_, _, _, hq, ht, hm⟩, ?_, ?_⟩
  · rw [ht]
    calc c.totalFeeBps * 10 ^ 14 ≤ 10000 * 10 ^ 14 := Nat.mul_le_mul_right _ hv.2.1
      _ = 10 ^ 18 := by norm_num
  · rw [hm]
    calc c.makerFeeBps * 10 ^ 14 ≤ 10000 * 10 ^ 14 := Nat.mul_le_mul_right _ hv.2.2
      _ = 10 ^ 18 := by norm_num

/-! ## C168 -/

theorem shares_covered [Fintype A] {r supply : Nat} {lp c : A → Nat} (hs : supply = ∑ a, lp a)
    (hq : ∀ a, XYK.shareInAsset r (lp a) supply = .ok (c a)) : ∑ a, c a ≤ r := by
  rcases Nat.eq_zero_or_pos supply with hz | hpos
  · have h0 : ∀ a, c a = 0 := by
      intro a
      have h := hq a
      rw [hz] at h
      unfold XYK.shareInAsset at h
      simp only [if_true, bind_ok_iff, Except.ok.injEq, u128_ok, mulDec] at h
      obtain ⟨x, rfl, _, h⟩ := h
      rw [← h]
      simp
    simp [h0]
  · have hle : ∀ a, c a * supply ≤ r * lp a := fun a => (XYK.shareInAsset_ok (by omega) (hq a)).2
    have hsum : (∑ a, c a) * supply ≤ r * supply := by
      rw [Finset.sum_mul]
      calc ∑ a, c a * supply ≤ ∑ a, r * lp a := Finset.sum_le_sum fun a _ => hle a
        _ = r * supply := by rw [← Finset.mul_sum, ← hs]
    exact Nat.le_of_mul_le_mul_right hsum hpos

/-- **C168, LP tokens.**  At every time, of every pair: the supply of its LP token is what all accounts together hold, and
once there is any the pair itself holds at least 1000, for ever. -/
theorem C168_lp_supply [Fintype A] (S : Site A) (hS : S.Ok) (s0 : Sys A) (h0 : Start S s0) (os : List (Op A)) (p : A)
    (st : Pair A) (hp : (run S s0 os).w.pair p = some st) :
    supplyOf st = ∑ z, (run S s0 os).w.led.of (.native (S.lpOf p)) z ∧
      (supplyOf st = 0 ∨ 1000 ≤ (run S s0 os).w.led.of (.native (S.lpOf p)) p) :=
  run_lpAll hS os (start_inv h0) (start_lpAll h0) p st hp

/-- **C168, claims.**  At every time, of every pair: what its share query answers to all holders of its LP token together is
no more than the pair holds. -/
theorem C168_claims_covered [Fintype A] (S : Site A) (hS : S.Ok) (s0 : Sys A) (h0 : Start S s0) (os : List (Op A)) (p : A)
    (b : Born) (hb : (run S s0 os).born p = some b) (c : Bool → A → Nat)
    (hq : ∀ a, shareOf (net S (run S s0 os)) (run S s0 os).w p ((run S s0 os).w.led.of (.native (S.lpOf p)) a) =
      .ok (c false a, c true a)) (i : Bool) :
    ∑ a, c i a ≤ (run S s0 os).w.led.of (b.infos i) p := by
  have hL := run_lpAll hS os (start_inv h0) (start_lpAll h0)
  generalize run S s0 os = s at *
  have hcfg : (net S s).cfg p = ⟨p, b.infos, S.lpOf p, S.addr, S.okAddr, b.prec⟩ := by simp only [net, hb]
  cases hp : s.w.pair p with
  | none =>
    have hz : ∀ a, c i a = 0 := by
      intro a
      have := hq a
      simp only [shareOf, hp, orErr, bind_ok_iff] at this
      obtain ⟨_, h, _⟩ := this
      cases h
    simp [hz]
  | some st =>
    have hl := (hL p st hp).1
    cases st with
    | xyk su t tr sh =>
      refine shares_covered hl fun a => ?_
      have := hq a
      simp only [shareOf, hp, orErr, ok_bind, hcfg, XYK.queryShare, bind_ok_iff, Except.ok.injEq, Prod.mk.injEq] at this
      obtain ⟨x, hx, y, hy, rfl, rfl⟩ := this
      cases i
      · exact hx
      · exact hy
    | stable su t am ow sh =>
      refine shares_covered hl fun a => ?_
      have := hq a
      simp only [shareOf, hp, orErr, ok_bind, hcfg, Stable.queryShare, bind_ok_iff, Except.ok.injEq, Prod.mk.injEq] at this
      obtain ⟨x, hx, y, hy, rfl, rfl⟩ := this
      cases i
      · exact hx
      · exact hy
    | pcl su pa po t ow sh =>
      refine PCL.Entry.claims_covered (PCL.Entry.setup ((net S s).cfg p)) p
        (PCL.Entry.view ((net S s).cfg p) ⟨s.w.led, su, pa, po, t, ow, sh⟩) ?_ c ?_ i |>.trans ?_
      · rw [hcfg]; exact hl
      · intro a
        have := hq a
        simp only [shareOf, hp, orErr, ok_bind] at this
        rw [net_me] at this
        rw [← this, hcfg]
        rfl
      · rw [hcfg]; exact le_rfl

/-! ## C169 -/

/-- **C169, who pays.**  Whatever happened before, a transaction takes from nobody but who signs it or approved it (for a
creation also the new pair, for a route also the router), and the pairs that it talks to. -/
theorem C169_only_payers_pay (S : Site A) (hS : S.Ok) (s0 s s' : Sys A) (h0 : Start S s0) (os : List (Op A))
    (hs : s = run S s0 os) (o : Op A) (h : exec S s o = .ok s') (z : A) (hz : ¬ Pays S o z) (ht : ¬ Talks s o z) (k : Info) :
    s.w.led.of k z ≤ s'.w.led.of k z := by
  have hI : Inv S s := hs ▸ run_inv hS os (start_inv h0)
  have plain : Plain o → s.w.led.of k z ≤ s'.w.led.of k z := by
    intro ho
    obtain ⟨_, _, ha, _⟩ := plain_acts hI.pb hI.router hI.fees ho h
    exact ha.mono (net_me S s) hz ht k
  cases o with
  | factory o =>
    simp only [exec, bind_ok_iff, require_ok, exists_const, Except.ok.injEq] at h
    obtain ⟨ho, f, hf, rfl⟩ := h
    exact le_rfl
  | create now x funds t infos ps dec p =>
    obtain ⟨a, b, c, code, st, prec, l1, l2, rfl, _, _, _, _, _, _, _, _, _, _, _, _, h1, h2, rfl⟩ := create_ok h
    exact (create_acts h1 h2).mono (net_me S s) hz (fun h => h) k
  | call => exact plain trivial
  | send => exact plain trivial
  | route => exact plain trivial
  | transfer => exact plain trivial
  | transferFrom => exact plain trivial
  | approve => exact plain trivial
  | issue j dst n =>
    simp only [exec, bind_ok_iff, require_ok, exists_const, Except.ok.injEq] at h
    obtain ⟨hk, rfl⟩ := h
    by_cases e : k = j
    · subst e
      simp only [Ledgers.of_set, if_true]
      rw [credit_apply]
      split_ifs <;> omega
    · simp only [set_of_ne e]
      exact le_rfl
  | destroy j src n =>
    simp only [exec, bind_ok_iff, require_ok, exists_const, Except.ok.injEq] at h
    obtain ⟨⟨hk, _⟩, l, hl, rfl⟩ := h
    by_cases e : k = j
    · subst e
      simp only [Ledgers.of_set, if_true]
      rw [debit_apply hl, if_neg (show ¬ z = src from hz)]
    · simp only [set_of_ne e]
      exact le_rfl

/-- No transaction of the history talks to `p`. -/
def Untouched (S : Site A) (p : A) : Sys A → List (Op A) → Prop
  | _, [] => True
  | s, o :: os => ¬ Talks s o p ∧ Untouched S p (step S s o) os

theorem exec_untouched {S : Site A} {s s' : Sys A} (hI : Inv S s) {o : Op A} (h : exec S s o = .ok s') {p : A} {st : Pair A}
    (hp : s.w.pair p = some st) (ht : ¬ Talks s o p) : s'.w.pair p = some st ∧ ¬ Pays S o p := by
  obtain ⟨b, hb⟩ := hI.born_of hp
  have out : ∀ {x : A}, Outside S s x → p ≠ x := by
    rintro x hx rfl
    rw [hx.2] at hb
    cases hb
  have plain : Plain o → s'.w.pair p = some st ∧ ¬ Pays S o p := by
    intro ho
    obtain ⟨_, _, ha, hz⟩ := plain_acts hI.pb hI.router hI.fees ho h
    refine ⟨by rw [ha.other (net_me S s) ht]; exact hp, fun hp' => ?_⟩
    rw [hz p hp'] at hb
    cases hb
  cases o with
  | factory o =>
    simp only [exec, bind_ok_iff, require_ok, exists_const, Except.ok.injEq] at h
    obtain ⟨ho, f, hf, rfl⟩ := h
    exact ⟨hp, fun h => h⟩
  | create now x funds t infos ps dec q =>
    obtain ⟨a, b, c, code, st', prec, l1, l2, rfl, _, _, _, hx, hq, _, _, _, _, _, _, _, h1, h2, rfl⟩ := create_ok h
    exact ⟨by simp only [Function.update_of_ne (out hq)]; exact hp, fun e => e.elim (out hx) (out hq)⟩
  | call => exact plain trivial
  | send => exact plain trivial
  | route => exact plain trivial
  | transfer => exact plain trivial
  | transferFrom => exact plain trivial
  | approve => exact plain trivial
  | issue j dst n =>
    simp only [exec, bind_ok_iff, require_ok, exists_const, Except.ok.injEq] at h
    obtain ⟨hk, rfl⟩ := h
    exact ⟨hp, fun h => h⟩
  | destroy j src n =>
    simp only [exec, bind_ok_iff, require_ok, exists_const, Except.ok.injEq] at h
    obtain ⟨⟨hk, hx⟩, l, hl, rfl⟩ := h
    exact ⟨hp, out hx⟩

/-- **C169, pairs are isolated.**  While no transaction talks to a pair, whatever else happens on the exchange, it keeps all
that it stores, also the supply of its LP token, and it loses nothing of any asset. -/
theorem C169_pairs_are_isolated (S : Site A) (hS : S.Ok) (s0 s : Sys A) (h0 : Start S s0) (os more : List (Op A))
    (hs : s = run S s0 os) (p : A) (st : Pair A) (hp : s.w.pair p = some st) (hu : Untouched S p s more) :
    (run S s more).w.pair p = some st ∧ ∀ k, s.w.led.of k p ≤ (run S s more).w.led.of k p := by
  induction more generalizing s os with
  | nil => exact ⟨hp, fun _ => le_rfl⟩
  | cons o more ih =>
    have hI : Inv S s := hs ▸ run_inv hS os (start_inv h0)
    have h1 : (step S s o).w.pair p = some st ∧ ∀ k, s.w.led.of k p ≤ (step S s o).w.led.of k p := by
      unfold step
      cases hx : exec S s o with
      | error e => exact ⟨hp, fun _ => le_rfl⟩
      | ok s1 =>
        obtain ⟨h1, h2⟩ := exec_untouched hI hx hp hu.1
        exact ⟨h1, fun k => C169_only_payers_pay S hS s0 s s1 h0 os hs o hx p h2 hu.1 k⟩
    obtain ⟨h2, h3⟩ := ih (step S s o) (os ++ [o]) (by rw [hs]; simp [run, List.foldl_append]) h1.1 hu.2
    exact ⟨h2, fun k => Nat.le_trans (h1.2 k) (h3 k)⟩

/-- **C169, nothing appears or vanishes.**  Apart from LP tokens of the pairs that it talks to, and from what is issued or
destroyed elsewhere, a transaction keeps the total of every asset. -/
theorem C169_totals_kept [Fintype A] (S : Site A) (hS : S.Ok) (s0 s s' : Sys A) (h0 : Start S s0) (os : List (Op A))
    (hs : s = run S s0 os) (o : Op A) (h : exec S s o = .ok s') (k : Info) (hk : ∀ p, Talks s o p → k ≠ .native (S.lpOf p))
    (hi : ∀ a n, o ≠ .issue k a n ∧ o ≠ .destroy k a n) : ∑ z, s'.w.led.of k z = ∑ z, s.w.led.of k z := by
  have hI : Inv S s := hs ▸ run_inv hS os (start_inv h0)
  have plain : Plain o → ∑ z, s'.w.led.of k z = ∑ z, s.w.led.of k z := by
    intro ho
    obtain ⟨_, _, ha, _⟩ := plain_acts hI.pb hI.router hI.fees ho h
    exact ha.sum (net_me S s) (fun p hp _ => by rw [net_lp]; exact hk p hp)
  cases o with
  | factory o =>
    simp only [exec, bind_ok_iff, require_ok, exists_const, Except.ok.injEq] at h
    obtain ⟨ho, f, hf, rfl⟩ := h
    rfl
  | create now x funds t infos ps dec p =>
    obtain ⟨a, b, c, code, st, prec, l1, l2, rfl, _, _, _, _, _, _, _, _, _, _, _, _, h1, h2, rfl⟩ := create_ok h
    exact (create_acts h1 h2).sum (net_me S s) (fun p hp => hp.elim)
  | call => exact plain trivial
  | send => exact plain trivial
  | route => exact plain trivial
  | transfer => exact plain trivial
  | transferFrom => exact plain trivial
  | approve => exact plain trivial
  | issue j dst n =>
    simp only [exec, bind_ok_iff, require_ok, exists_const, Except.ok.injEq] at h
    obtain ⟨_, rfl⟩ := h
    have e : k ≠ j := by
      rintro rfl
      exact (hi dst n).1 rfl
    simp only [set_of_ne e]
  | destroy j src n =>
    simp only [exec, bind_ok_iff, require_ok, exists_const, Except.ok.injEq] at h
    obtain ⟨⟨_, _⟩, l, hl, rfl⟩ := h
    have e : k ≠ j := by
      rintro rfl
      exact (hi src n).2 rfl
    simp only [set_of_ne e]

theorem pairSwap_reply {n : Net A} {e : Env A} {w w' : World A} {p payer : A} {o a : Info} {x : Nat} {be ms : Option Nat}
    {dest : Option A} (h : pairSwap n e w p payer o x a be ms dest = .ok w') : w'.reply = w.reply := by
  simp only [pairSwap, bind_ok_iff, orErr_ok] at h
  obtain ⟨st, hst, tk, -, h⟩ := h
  cases st <;>
  · simp only [bind_ok_iff, Except.ok.injEq] at h
    obtain ⟨_, _, rfl⟩ := h
    rfl

theorem hops_reply {n : Net A} {e : Env A} {rcv : A} {ms : Option Nat} {single : Bool} : ∀ {ops : List SwapOp} {w w' : World A},
    hops n e rcv ms single w ops = .ok w' → w'.reply = w.reply := by
  have one : ∀ {op : SwapOp} {dest : Option A} {w w' : World A}, hop n e w dest ms single op = .ok w' → w'.reply = w.reply := by
    intro op dest w w' h
    cases op with
    | native a b => exact absurd h (by simp [hop])
    | astro a b =>
      simp only [hop, bind_ok_iff, orErr_ok] at h
      obtain ⟨p, hp, h⟩ := h
      exact pairSwap_reply h
  intro ops
  induction ops with
  | nil =>
    intro w w' h
    simp only [hops, Except.ok.injEq] at h
    rw [h]
  | cons op ops ih =>
    intro w w' h
    cases ops with
    | nil => exact one h
    | cons op' ops =>
      simp only [hops, bind_ok_iff] at h
      obtain ⟨w1, h1, h2⟩ := h
      rw [ih h2, one h1]

/-- **C169, minimum.**  Whatever the factory names for the hops, also if it confuses assets: a route that succeeds has raised
the receiver's balance of the asset that the last hop asks for (counted from after the payment) by `out`, and that is at
least the minimum that was set. -/
theorem C169_minimum_received (S : Site A) (s s' : Sys A) (now : Nat) (pay : Payment A) (ops : List SwapOp) (minimum : Option Nat)
    (dest : Option A) (ms : Option Nat) (h : exec S s (.route now pay ops minimum dest ms) = .ok s') :
    ∃ out last, ops.getLast? = some last ∧ (∀ m, minimum = some m → m ≤ out) ∧
      s'.w.led.of last.target (dest.getD pay.sender) +
          (if dest.getD pay.sender = pay.payer then pay.amount last.target else 0) =
        s.w.led.of last.target (dest.getD pay.sender) +
          (if dest.getD pay.sender = S.router then pay.amount last.target else 0) + out := by
  simp only [exec, bind_ok_iff, Except.ok.injEq] at h
  obtain ⟨⟨w', out⟩, hx, rfl⟩ := h
  obtain ⟨hpr, _, l1, hm, hr⟩ := exec_paid hx
  simp only [route, bind_ok_iff, orErr_ok, Except.ok.injEq, Prod.mk.injEq] at hr
  obtain ⟨⟨⟩, ha, last, hlast, w2, h2, o, hfin, rfl, rfl⟩ := hr
  have hrep := hops_reply h2
  simp only [finish, bind_ok_iff, orErr_ok, hrep, Option.some.injEq, exists_eq_left', csub_ok, require_ok, exists_const,
    Except.ok.injEq] at hfin
  obtain ⟨_, ⟨hle, rfl⟩, hmin, rfl⟩ := hfin
  refine ⟨w2.led.of last.target (dest.getD pay.sender) - l1.of last.target (dest.getD pay.sender), last, hlast,
    fun m hm => ?_, ?_⟩
  · have := hmin m hm
    omega
  · generalize dest.getD pay.sender = rcv at *
    have hk := hm last.target
    have e1 := move_apply hk rcv
    have hle' := move_le hk
    have hpr' : pay.payer ≠ S.router := hpr
    have hle2 : l1.of last.target rcv ≤ w2.led.of last.target rcv := hle
    change l1.of last.target rcv = _ + (if rcv = S.router then _ else 0) at e1
    change w2.led.of last.target rcv + _ = _
    by_cases h1 : rcv = pay.payer
    · subst h1
      rw [if_pos rfl, if_neg hpr'] at e1
      rw [if_pos rfl, if_neg hpr']
      omega
    · rw [if_neg h1] at e1
      rw [if_neg h1]
      split_ifs at e1 ⊢ <;> omega

/-! ## C170 -/

/-- The two assets cannot be confused with those of any pair: no identifier begins with another, and none is empty. -/
def Clear (s : Sys A) (q : Info × Info) : Prop :=
  q.1.bytes ≠ [] ∧ q.2.bytes ≠ [] ∧ ∀ p b, s.born p = some b →
    (∀ i, (b.infos i).bytes ≠ []) ∧ Factory.Distinguishable [q.1, q.2] [b.infos false, b.infos true]

theorem clear_trades {S : Site A} {s : Sys A} (hI : Inv S s) {q : Info × Info} (hc : Clear s q) : (net S s).Trades q := by
  intro p hp
  change kvGet (pairKey [q.1, q.2]) s.f.pairs = some p at hp
  obtain ⟨b, hb, hk⟩ := hI.dir _ p hp
  obtain ⟨h1, h2, h3⟩ := hc
  obtain ⟨h4, h5⟩ := h3 p b hb
  have hperm := (Factory.C36_no_confusion_partial _ _ (by simp [h1, h2]) (by
    intro a ha
    simp only [List.mem_cons, List.not_mem_nil, or_false] at ha
    rcases ha with rfl | rfl
    · exact h4 false
    · exact h4 true) h5).1 hk
  have hcfg : ((net S s).cfg p).infos = b.infos := by simp only [net, hb]
  rw [hcfg]
  have hm : q.1 ∈ [b.infos false, b.infos true] := hperm.subset (by simp)
  simp only [List.mem_cons, List.not_mem_nil, or_false] at hm
  rcases hm with e | e
  · refine ⟨false, e.symm, ?_⟩
    rw [e] at hperm
    have := (List.perm_cons _).1 hperm
    exact (List.singleton_perm.1 this |> List.cons.inj).1.symm
  · refine ⟨true, e.symm, ?_⟩
    rw [e] at hperm
    have := (List.perm_cons _).1 (hperm.trans (List.Perm.swap _ _ _))
    exact (List.singleton_perm.1 this |> List.cons.inj).1.symm

/-- **C170, partial: the directory.**  Whatever happened, if the two assets cannot be confused with those of any pair, the factory
names for them, if at all, a pair of exactly these two.
Missing: assets that can be confused (`C170_directory_violated`). -/
theorem C170_directory_partial (S : Site A) (hS : S.Ok) (s0 s : Sys A) (h0 : Start S s0) (os : List (Op A))
    (hs : s = run S s0 os) (a c : Info) (hc : Clear s (a, c)) (p : A) (hp : queryPair s.f [a, c] = some p) :
    ∃ b, s.born p = some b ∧ ((b.infos false = a ∧ b.infos true = c) ∨ (b.infos false = c ∧ b.infos true = a)) := by
  have hI : Inv S s := hs ▸ run_inv hS os (start_inv h0)
  obtain ⟨b, hb, _⟩ := hI.dir _ p hp
  obtain ⟨i, h1, h2⟩ := clear_trades hI hc p hp
  have hcfg : ((net S s).cfg p).infos = b.infos := by simp only [net, hb]
  rw [hcfg] at h1 h2
  refine ⟨b, hb, ?_⟩
  cases i
  · exact Or.inl ⟨h1, h2⟩
  · exact Or.inr ⟨h2, h1⟩

/-- **C170, partial: the quote.**  Whatever happened, a route whose assets cannot be confused, on which no pair is used twice,
with a router that holds nothing of the assets on the way, and fees that go neither to the receiver nor the router nor the pairs
on the way, delivers what the router's simulation answered before.
Missing: assets that can be confused (`C170_quote_violated`). -/
theorem C170_pays_the_quote_partial (S : Site A) (hS : S.Ok) (s0 s s' : Sys A) (h0 : Start S s0) (os : List (Op A))
    (hs : s = run S s0 os) (now : Nat) (pay : Payment A) (q : Info × Info) (l : List (Info × Info)) (minimum : Option Nat)
    (dest : Option A) (ms : Option Nat) (hc : ∀ r ∈ q :: l, Clear s r)
    (hempty : ∀ r ∈ q :: l, s.w.led.of r.1 S.router = 0) (hpaid : ∀ r ∈ l, r.1 ≠ q.1 → pay.amount r.1 = 0)
    (hd : ((q :: l).map fun r => queryPair s.f [r.1, r.2]).Nodup) (hrcv : dest.getD pay.sender ≠ S.router)
    (hfees : NoFees (env s now) s.w S.router ∧ NoFees (env s now) s.w (dest.getD pay.sender) ∧
      ∀ r ∈ q :: l, ∀ p, queryPair s.f [r.1, r.2] = some p → NoFees (env s now) s.w p)
    (hnp : ∀ r ∈ q :: l, queryPair s.f [r.1, r.2] ≠ some (dest.getD pay.sender))
    (h : exec S s (.route now pay (Router.asOps (q :: l)) minimum dest ms) = .ok s') :
    ∃ out last, (q :: l).getLast? = some last ∧
      Router.simulate (net S s).chain (quote (net S s) (env s now) s.w) (pay.amount q.1) (Router.asOps (q :: l)) = .ok out ∧
      s'.w.led.of last.2 (dest.getD pay.sender) + (if dest.getD pay.sender = pay.payer then pay.amount last.2 else 0) =
        s.w.led.of last.2 (dest.getD pay.sender) + out := by
  have hI : Inv S s := hs ▸ run_inv hS os (start_inv h0)
  simp only [exec, bind_ok_iff, Except.ok.injEq] at h
  obtain ⟨⟨w', out⟩, hx, rfl⟩ := h
  have htr : ∀ r ∈ q :: l, (net S s).Trades r := fun r hr => clear_trades hI (hc r hr)
  have h1 := C165_pays_the_quote (net S s) (env s now) s.w w' (hI.net_ok hS) pay q l htr minimum dest ms out hempty hpaid hd hrcv
    hfees hnp hx
  obtain ⟨_, t, ht, hb⟩ := C165_minimum_received (net S s) (env s now) s.w w' (hI.net_ok hS) pay (q :: l) htr minimum dest ms out hx
  refine ⟨out, t, ht, h1, ?_⟩
  rw [if_neg (show ¬ dest.getD pay.sender = (net S s).router from hrcv)] at hb
  exact hb

/-! ## A run -/

/-- Accounts: users 1 to 5, owner 7, fees 8, the token 9, pairs 10 to 12, community 13, router 15. -/
abbrev Acct := Fin 16

def demoSite : Site Acct where
  router := 15
  community := 13
  denomFee := [⟨"uluna".toList, 10⟩]
  addr a := if a = 9 then "t9".toList else "x".toList
  okAddr t := decide (t = "t9".toList ∨ t = "uluna".toList)
  contract t := if t = "t9".toList then some 9 else none
  lpOf p := "lp".toList ++ [Char.ofNat (97 + p.val)]
  minter d := (List.finRange 16).find? fun p => d = "lp".toList ++ [Char.ofNat (97 + p.val)]
  code n := if n = 1 then some .xyk else if n = 2 then some .stable else if n = 3 then some .pcl else none

theorem demoSite_ok : demoSite.Ok where
  lp := by decide
  addr t x h := by
    simp only [demoSite] at h ⊢
    split_ifs at h with h1
    obtain rfl := Option.some.inj h
    rw [h1]
    rfl

def demoConfigs : List Factory.PairConfig :=
  [⟨1, .xyk, 30, 3000, false, false, false⟩, ⟨2, .stable, 30, 3000, false, false, false⟩,
   ⟨3, .custom "pcl".toList, 0, 3000, false, false, true⟩]

def demoStart : Sys Acct where
  f := ⟨⟨7, none⟩, ⟨1, some 8, none, 2, 6, none⟩,
    kvInsert (PairType.custom "pcl".toList).name ⟨3, .custom "pcl".toList, 0, 3000, false, false, true⟩
      (kvInsert PairType.stable.name ⟨2, .stable, 30, 3000, false, false, false⟩
        (kvInsert PairType.xyk.name ⟨1, .xyk, 30, 3000, false, false, false⟩ [])), []⟩
  born _ := none
  w := { led := { bank := fun d a => if a ∈ [1, 2, 7] ∧ d ∈ ["uatom".toList, "uluna".toList, "uusd".toList] then 10 ^ 15 else 0
                  tok := fun t a => if a ∈ [1, 2] ∧ t = "t9".toList then 10 ^ 15 else 0
                  allow := fun _ _ _ => 0 }
         pair := fun _ => none, reply := none }

theorem demo_start : Start demoSite demoStart where
  born _ := rfl
  pair _ := rfl
  lp := by decide
  factory := ⟨7, ⟨1, some 8, none, 2, 6, none⟩, demoConfigs, rfl⟩

def demoDec : Info → Option Nat := fun _ => some 6

/-- Three pairs are created, get deposits and are traded through; other coins come and go; the fees change; the concentrated pair
is taken off the directory. -/
def demoOps : List (Op Acct) :=
  [.create 1000 1 [⟨"uluna".toList, 10⟩] .xyk [.native "uatom".toList, .native "uluna".toList] (.xyk false) demoDec 10,
   .create 1000 1 [⟨"uluna".toList, 10⟩] .stable [.token "t9".toList, .native "uusd".toList] (.stable 100 none) demoDec 11,
   .create 1000 1 [⟨"uluna".toList, 10⟩] (.custom "pcl".toList) [.native "uluna".toList, .token "t9".toList]
     (.pcl PCL.demoParams (40 * 10 ^ 18) (145 * 10 ^ 12) (10 ^ 18) false) demoDec 12,
   .create 1000 7 [⟨"uluna".toList, 10⟩] (.custom "pcl".toList) [.native "uluna".toList, .token "t9".toList]
     (.pcl PCL.demoParams (40 * 10 ^ 18) (145 * 10 ^ 12) (10 ^ 18) false) demoDec 12,
   .create 1001 2 [⟨"uluna".toList, 10⟩] .xyk [.native "uluna".toList, .native "uatom".toList] (.xyk false) demoDec 14,
   .approve "t9".toList 1 11 (10 ^ 13),
   .approve "t9".toList 1 12 (10 ^ 13),
   .call 2000 10 1 [⟨"uatom".toList, 10 ^ 12⟩, ⟨"uluna".toList, 10 ^ 12⟩]
     (.xyk (.provide [⟨.native "uatom".toList, 10 ^ 12⟩, ⟨.native "uluna".toList, 10 ^ 12⟩] none none none)),
   .call 2000 11 1 [⟨"uusd".toList, 10 ^ 12⟩]
     (.stable (.provide [⟨.token "t9".toList, 10 ^ 12⟩, ⟨.native "uusd".toList, 10 ^ 12⟩] none none)),
   .call 2000 12 1 [⟨"uluna".toList, 10 ^ 12⟩]
     (.pcl (.provide [⟨.token "t9".toList, 10 ^ 12⟩, ⟨.native "uluna".toList, 10 ^ 12⟩] none none none)),
   .transfer (.native "lpk".toList) 1 3 (10 ^ 6),
   .issue (.native "uusd".toList) 4 77,
   .issue (.native "lpk".toList) 4 77,
   .factory (.updatePairConfig 7 ⟨1, .xyk, 100, 5000, false, false, false⟩)]

def demoRoute : List (Info × Info) :=
  [(.native "uatom".toList, .native "uluna".toList), (.native "uluna".toList, .token "t9".toList),
    (.token "t9".toList, .native "uusd".toList)]

/-- Not the owner, the pair exists, and LP tokens are not issued by others; all else happens. -/
example : (List.range 14).map (fun n => (exec demoSite (run demoSite demoStart (demoOps.take n))
    (demoOps.getD n (.approve [] 1 1 0))).isOk) =
      [true, true, false, true, false, true, true, true, true, true, true, true, false, true] := by decide +kernel

/-- The history of the examples below. -/
def demoSys : Sys Acct := run demoSite demoStart demoOps

/-- A route through all three. -/
example : okAnd (exec demoSite demoSys (.route 2001 (.coins 2 [⟨"uatom".toList, 10 ^ 8⟩]) (Router.asOps demoRoute) none (some 5)
    (some (10 ^ 17)))) fun s => 98 * 10 ^ 6 < s.w.led.of (.native "uusd".toList) 5 ∧
      Router.simulate (net demoSite demoSys).chain (quote (net demoSite demoSys) (env demoSys 2001) demoSys.w) (10 ^ 8)
        (Router.asOps demoRoute) = .ok (s.w.led.of (.native "uusd".toList) 5) ∧
      s.w.led.of (.native "uatom".toList) 2 = 10 ^ 15 - 10 ^ 8 ∧
      s.w.led.of (.native "uluna".toList) 15 = 0 := by decide +kernel

/-- The assets of the route cannot be confused with those of the three pairs, and only 8 receives fees. -/
example : (∀ q ∈ demoRoute, Clear demoSys q) ∧ (∀ z, z ≠ 8 → NoFees (env demoSys 2001) demoSys.w z) ∧
    (demoRoute.map fun r => queryPair demoSys.f [r.1, r.2]) = [some 10, some 12, some 11] := by
  have h1 : ∀ q ∈ demoRoute, q.1.bytes ≠ [] ∧ q.2.bytes ≠ [] ∧ ∀ p : Acct, (demoSys.born p).all (fun b => decide
      ((∀ i, (b.infos i).bytes ≠ []) ∧ ∀ x ∈ [q.1, q.2], ∀ y ∈ [b.infos false, b.infos true],
        (x.bytes <+: y.bytes ∨ y.bytes <+: x.bytes) → x = y)) = true := by decide +kernel
  have h2 : ∀ p : Acct, (demoSys.w.pair p).all (fun st => decide (st.shareTo = none)) = true := by decide +kernel
  refine ⟨fun q hq => ?_, fun z hz => ⟨fun h => hz ?_, fun p st hp => ?_⟩, by decide +kernel⟩
  · obtain ⟨a, b, c⟩ := h1 q hq
    refine ⟨a, b, fun p d hd => ?_⟩
    have := c p
    rw [hd] at this
    simp only [Option.all_some, decide_eq_true_eq] at this
    exact this
  · have : (env demoSys 2001).feeAddr = some 8 := by decide +kernel
    rw [this] at h
    exact (Option.some.inj h).symm
  · have := h2 p
    rw [hp] at this
    simp only [Option.all_some, decide_eq_true_eq] at this
    rw [this]
    simp

/-- The deposits at 10 and 12 and the transfers leave the stableswap pair alone; a deposit there does not. -/
example : Untouched demoSite 11 (run demoSite demoStart (demoOps.take 9)) (demoOps.drop 9) ∧
    ¬ Untouched demoSite 11 (run demoSite demoStart (demoOps.take 8)) (demoOps.drop 8) ∧
    (demoSys.w.pair 11).map supplyOf = some (2 * 10 ^ 12) ∧
    demoSys.w.led.of (.native (demoSite.lpOf 11)) 11 = 1000 := by
  refine ⟨?_, fun h => h.1 rfl, by decide +kernel, by decide +kernel⟩
  simp only [demoOps, List.drop, Untouched, Talks]
  simp

/-- **C170 is false of the code: the directory.**  There is a pair of the coins `uatom` and `uluna`; asked for the coin `uatom`
and the token whose address reads `uluna`, the factory names that pair: `pair_key`, contracts/factory/src/state.rs:31-39. -/
theorem C170_directory_violated :
    queryPair demoSys.f [.native "uatom".toList, .token "uluna".toList] = some 10 ∧
    (demoSys.born 10).map (fun b => [b.infos false, b.infos true]) =
      some [.native "uatom".toList, .native "uluna".toList] := by decide +kernel

/-- **C170 is false of the code: the quote.**  Asked to trade `uatom` for the token whose address reads `uluna`, the router's
simulation quotes 98990100 of it; the trade succeeds and the receiver has none of it. -/
theorem C170_quote_violated :
    Router.simulate (net demoSite demoSys).chain (quote (net demoSite demoSys) (env demoSys 2001) demoSys.w) (10 ^ 8)
      (Router.asOps [(.native "uatom".toList, .token "uluna".toList)]) = .ok 98990100 ∧
    okAnd (exec demoSite demoSys (.route 2001 (.coins 2 [⟨"uatom".toList, 10 ^ 8⟩])
      (Router.asOps [(.native "uatom".toList, .token "uluna".toList)]) none (some 5) (some (10 ^ 17)))) fun s =>
      s.w.led.of (.token "uluna".toList) 5 = 0 ∧ s.w.led.of (.native "uluna".toList) 5 = 98990100 := by decide +kernel

end Verif.Market
