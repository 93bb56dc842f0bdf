import Verif.Tracker.Props
import Verif.Asset.Model

/-!
# Setting up tracked tokens (C176)

The staking contract and the pools create their token at the token factory, and with tracking a contract that the chain calls before
every movement of it.  Here the token factory, the bank, all trackers and all such contracts run on one chain, together with
everybody else: anybody may create denoms, set hooks and admins of denoms of their own, create trackers, mint, burn and send.

Assumed: the bank and the token factory behave as described in `Tracker/Model.lean`; addresses of contracts are nobody's own; a new
contract has an address that is not in use; the account of the token factory module signs nothing.  Simplified: the contracts mint and
burn their own token and send any at will (what they do is the subject of other modules); migration of trackers; a hook at an address
without a tracker refuses every movement.  The trackers work over block heights, as the pools ask for; the staking contract leaves the
choice out of its message (contracts/tokenomics/staking/src/contract.rs:194-197), which this repository's tracker reads as heights.
-/

namespace Verif.Tracked

open Verif
open Verif.Asset (Str)
open Verif.Tracker (Env)

set_option linter.unusedSectionVars false

variable {A : Type} [DecidableEq A]

/-! ## Model -/

/-- Denoms: those of the token factory carry the creator's address (`factory/<creator>/<subdenom>`). -/
inductive Denom (A : Type) where
  | plain (s : Str)
  | factory (creator : A) (sub : Str)
  deriving DecidableEq

/-- The token factory's record of a denom: who may mint, burn and set the hook, and the hook. -/
structure Auth (A : Type) where
  admin : Option A
  hook : Option A

/-- The storage of a tracker: contracts/periphery/tokenfactory_tracker/src/state.rs:5-27. -/
structure Book (A : Type) where
  cfg : Tracker.Cfg A (Denom A)
  bals : A → Snap Nat
  total : Snap Nat

/-- What a contract stores of its token: `Config.xastro_denom` and `TrackerData.tracker_addr`
(contracts/tokenomics/staking/src/state.rs), `PairInfo.liquidity_token` and `Config.tracker_addr`
(contracts/pair/src/state.rs, packages/astroport_pcl_common/src/state.rs). -/
structure Contract (A : Type) where
  denom : Denom A
  tracker : Option A

/-- The chain. -/
structure Chain (A : Type) where
  auth : Denom A → Option (Auth A)
  bank : Denom A → A → Nat
  supply : Denom A → Nat
  book : A → Option (Book A)
  contract : A → Option (Contract A)

/-- The account of the token factory module, and which addresses are those of contracts. -/
structure Site (A : Type) where
  mod : A
  isContract : A → Bool

/-- The chain calls the hook of a denom before it moves coins; a tracker refuses other denoms than its own
(contracts/periphery/tokenfactory_tracker/src/contract.rs:43-78). -/
def callHook (w : Chain A) (e : Env) (d : Denom A) (src dst : A) (n : Nat) : Res (Chain A) :=
  match (w.auth d).bind Auth.hook with
  | none => .ok w
  | some h => do
    let b ← orErr (w.book h) (.invalid "no such contract")
    let s ← Tracker.hook b.cfg ⟨w.bank d, w.supply d, b.bals, b.total⟩ e d src dst n
    .ok { w with book := Function.update w.book h (some { b with bals := s.bals, total := s.total }) }

/-- The token factory's `MsgMint` as described in contracts/periphery/tokenfactory_tracker/src/contract.rs:46-50. -/
def mint (S : Site A) (w : Chain A) (e : Env) (d : Denom A) (dst : A) (n : Nat) : Res (Chain A) := do
  let sup ← u128 (w.supply d + n)
  let w : Chain A := { w with supply := Function.update w.supply d sup
                              bank := Function.update w.bank d (credit (w.bank d) S.mod n) }
  let w ← callHook w e d S.mod dst n
  let l ← move (w.bank d) S.mod dst n
  .ok { w with bank := Function.update w.bank d l }

/-- The token factory's `MsgBurn`. -/
def burn (S : Site A) (w : Chain A) (e : Env) (d : Denom A) (src : A) (n : Nat) : Res (Chain A) := do
  let w ← callHook w e d src S.mod n
  let l ← move (w.bank d) src S.mod n
  let l ← debit l S.mod n
  let sup ← csub (w.supply d) n
  .ok { w with bank := Function.update w.bank d l
               supply := Function.update w.supply d sup }

/-- The bank's `MsgSend`. -/
def send (S : Site A) (w : Chain A) (e : Env) (d : Denom A) (src dst : A) (n : Nat) : Res (Chain A) := do
  require (src ≠ S.mod ∧ dst ≠ S.mod) .unauthorized
  let w ← callHook w e d src dst n
  let l ← move (w.bank d) src dst n
  .ok { w with bank := Function.update w.bank d l }

/-- `MsgCreateDenom`: the creator becomes the admin. -/
def createDenom (w : Chain A) (x : A) (sub : Str) : Res (Chain A) := do
  require ((w.auth (.factory x sub)).isNone = true) (.invalid "denom exists")
  .ok { w with auth := Function.update w.auth (.factory x sub) (some ⟨some x, none⟩) }

/-- Only the admin of a denom may do this. -/
def adminOf (w : Chain A) (d : Denom A) (x : A) : Res (Auth A) := do
  let a ← orErr (w.auth d) (.invalid "no such denom")
  require (a.admin = some x) .unauthorized
  .ok a

/-- `MsgSetBeforeSendHook`. -/
def setHook (w : Chain A) (d : Denom A) (x : A) (h : Option A) : Res (Chain A) := do
  let a ← adminOf w d x
  .ok { w with auth := Function.update w.auth d (some { a with hook := h }) }

/-- `instantiate` of the tracker, contracts/periphery/tokenfactory_tracker/src/contract.rs:16-41 (the checks of the address and
of the denom's spelling are left out). -/
def newTracker (S : Site A) (w : Chain A) (t : A) (d : Denom A) (module : A) (seconds : Bool) : Res (Chain A) := do
  require (S.isContract t = true ∧ (w.book t).isNone = true ∧ (w.contract t).isNone = true) (.invalid "address in use")
  .ok { w with book := Function.update w.book t (some ⟨⟨d, module, seconds⟩, fun _ => Snap.empty, Snap.empty⟩) }

/-- `reply` to the creation of the denom and `reply` to that of the tracker:
contracts/tokenomics/staking/src/contract.rs:153-232, contracts/pair/src/contract.rs:120-196,
contracts/pair_concentrated/src/contract.rs:176-253, contracts/pair_xyk_sale_tax/src/contract.rs:120-195.  `track` is the
module account that the trackers are told (`TrackerData.token_factory_addr`, or the factory's `TrackerConfig`), if tracking is
wanted (the staking contract always wants it). -/
def replies (S : Site A) (w : Chain A) (p : A) (d : Denom A) (track : Option A) (t : A) : Res (Chain A) :=
  match track with
  | none => .ok { w with contract := Function.update w.contract p (some ⟨d, none⟩) }
  | some module => do
    let w : Chain A := { w with contract := Function.update w.contract p (some ⟨d, none⟩) }
    let w ← newTracker S w t d module false
    let w : Chain A := { w with contract := Function.update w.contract p (some ⟨d, some t⟩) }
    setHook w d p (some t)

/-- `instantiate` of such a contract at the new address `p`: contracts/tokenomics/staking/src/contract.rs:53-103,
contracts/pair/src/contract.rs:51-116, contracts/pair_concentrated/src/contract.rs:63-172,
contracts/pair_xyk_sale_tax/src/contract.rs:47-116; of these only the message that creates the denom. -/
def setup (S : Site A) (w : Chain A) (p : A) (sub : Str) (track : Option A) (t : A) : Res (Chain A) := do
  require (S.isContract p = true ∧ (w.contract p).isNone = true ∧ (w.book p).isNone = true) (.invalid "address in use")
  let w ← createDenom w p sub
  replies S w p (.factory p sub) track t

/-- What an account may do. -/
inductive Act (A : Type) where
  | createDenom (sub : Str)
  | setHook (d : Denom A) (h : Option A)
  | changeAdmin (d : Denom A) (x : Option A)
  | mint (d : Denom A) (dst : A) (n : Nat)
  | burn (d : Denom A) (n : Nat)
  | send (d : Denom A) (dst : A) (n : Nat)
  | newTracker (t : A) (d : Denom A) (module : A) (seconds : Bool)

/-- What can happen.  The contracts set up here mint and burn their own token, and send. -/
inductive Tx (A : Type) where
  | setup (p : A) (sub : Str) (track : Option A) (t : A)
  | mint (p dst : A) (n : Nat)
  | burn (p : A) (n : Nat)
  | send (p : A) (d : Denom A) (dst : A) (n : Nat)
  | user (x : A) (a : Act A)

/-- One transaction. -/
def exec (S : Site A) (w : Chain A) (e : Env) : Tx A → Res (Chain A)
  | .setup p sub track t => setup S w p sub track t
  | .mint p dst n => do
    let c ← orErr (w.contract p) (.invalid "no such contract")
    let _ ← adminOf w c.denom p
    mint S w e c.denom dst n
  | .burn p n => do
    let c ← orErr (w.contract p) (.invalid "no such contract")
    let _ ← adminOf w c.denom p
    burn S w e c.denom p n
  | .send p d dst n => do
    let _ ← orErr (w.contract p) (.invalid "no such contract")
    send S w e d p dst n
  | .user x a => do
    require (x ≠ S.mod ∧ S.isContract x = false) .unauthorized
    match a with
    | .createDenom sub => createDenom w x sub
    | .setHook d h => setHook w d x h
    | .changeAdmin d y => do
      let a ← adminOf w d x
      .ok { w with auth := Function.update w.auth d (some { a with admin := y }) }
    | .mint d dst n => do
      let _ ← adminOf w d x
      mint S w e d dst n
    | .burn d n => do
      let _ ← adminOf w d x
      burn S w e d x n
    | .send d dst n => send S w e d x dst n
    | .newTracker t d module seconds => newTracker S w t d module seconds

/-- A failed transaction changes nothing. -/
def step (S : Site A) (w : Chain A) (o : Env × Tx A) : Chain A := commit' w (exec S w o.1 o.2)

/-- A history. -/
def run (S : Site A) (w : Chain A) (os : List (Env × Tx A)) : Chain A := os.foldl (step S) w

/-- `balance_at` of a tracker, contracts/periphery/tokenfactory_tracker/src/query.rs:27-40. -/
def balanceAt (w : Chain A) (t : A) (now : Env) (a : A) (u : Option Nat) : Option Nat :=
  (w.book t).map fun b => Tracker.balanceAt b.cfg ⟨w.bank b.cfg.denom, w.supply b.cfg.denom, b.bals, b.total⟩ now a u

/-- `total_supply_at` of a tracker, contracts/periphery/tokenfactory_tracker/src/query.rs:42-55. -/
def totalSupplyAt (w : Chain A) (t : A) (now : Env) (u : Option Nat) : Option Nat :=
  (w.book t).map fun b => Tracker.totalSupplyAt b.cfg ⟨w.bank b.cfg.denom, w.supply b.cfg.denom, b.bals, b.total⟩ now u

/-! ## Specification -/

/-- The beginning: no denom of the token factory, no tracker and no such contract; any other coins. -/
structure Start (w : Chain A) : Prop where
  auth : ∀ d, w.auth d = none
  bank : ∀ x s a, w.bank (.factory x s) a = 0
  supply : ∀ x s, w.supply (.factory x s) = 0
  book : ∀ t, w.book t = none
  contract : ∀ p, w.contract p = none

/-- Heights never decrease along the history and have not passed `now`. -/
def Timely (os : List (Env × Tx A)) (now : Env) : Prop :=
  Mono (fun o => o.1.height) 0 os ∧ ∀ o ∈ os, o.1.height ≤ now.height

/-- What a question about height `u` is about: now, or after all transactions of earlier blocks. -/
def past (os : List (Env × Tx A)) (now : Env) (u : Option Nat) : List (Env × Tx A) :=
  if u = none ∨ u = some now.height then os else os.takeWhile fun o => decide (o.1.height < u.getD 0)

/-! ## Lemmas -/

/-- A contract whose token is tracked. -/
structure Placed (w : Chain A) (p : A) (d : Denom A) (t : A) (b : Book A) : Prop where
  contract : w.contract p = some ⟨d, some t⟩
  auth : w.auth d = some ⟨some p, some t⟩
  book : w.book t = some b
  denom : b.cfg.denom = d

/-- What a tracker works on. -/
def part (w : Chain A) (d : Denom A) (b : Book A) : Tracker.State A := ⟨w.bank d, w.supply d, b.bals, b.total⟩

theorem callHook_own {w w' : Chain A} {e : Env} {d : Denom A} {src dst : A} {n : Nat} {t : A} {b : Book A} {a : Auth A}
    (ha : w.auth d = some a) (ht : a.hook = some t) (hb : w.book t = some b) (h : callHook w e d src dst n = .ok w') :
    ∃ s, Tracker.hook b.cfg (part w d b) e d src dst n = .ok s ∧ s.bank = w.bank d ∧ s.supply = w.supply d ∧
      w' = { w with book := Function.update w.book t (some { b with bals := s.bals, total := s.total }) } := by
  unfold callHook at h
  simp only [ha, Option.bind_some, ht, hb, orErr, ok_bind, bind_ok_iff, Except.ok.injEq] at h
  obtain ⟨s, hs, rfl⟩ := h
  obtain ⟨_, h1, h2, _⟩ := Tracker.hook_ok hs
  exact ⟨s, hs, h1, h2, rfl⟩

theorem callHook_other {w w' : Chain A} {e : Env} {d : Denom A} {src dst : A} {n : Nat} (h : callHook w e d src dst n = .ok w') :
    w'.bank = w.bank ∧ w'.supply = w.supply ∧ w'.auth = w.auth ∧ w'.contract = w.contract ∧
      (∀ t b, w.book t = some b → b.cfg.denom ≠ d → w'.book t = some b) ∧ (∀ t, (w'.book t).isNone = (w.book t).isNone) := by
  unfold callHook at h
  split at h
  · obtain rfl := Except.ok.inj h
    exact ⟨rfl, rfl, rfl, rfl, fun _ _ h _ => h, fun _ => rfl⟩
  · rename_i h' hh
    simp only [bind_ok_iff, orErr_ok, Except.ok.injEq] at h
    obtain ⟨b, hb, s, hs, rfl⟩ := h
    obtain ⟨hd, _⟩ := Tracker.hook_ok hs
    refine ⟨rfl, rfl, rfl, rfl, fun t b' ht hne => ?_, fun t => ?_⟩
    · by_cases e : t = h'
      · subst e
        rw [hb] at ht
        cases ht
        exact absurd hd.symm hne
      · simp only [Function.update_of_ne e]
        exact ht
    · by_cases e : t = h'
      · subst e
        simp only [Function.update_self, hb]
        rfl
      · simp only [Function.update_of_ne e]

/-- A movement of another denom. -/
structure Apart (w w' : Chain A) (d : Denom A) : Prop where
  bank : ∀ d', d' ≠ d → w'.bank d' = w.bank d'
  supply : ∀ d', d' ≠ d → w'.supply d' = w.supply d'
  auth : w'.auth = w.auth
  contract : w'.contract = w.contract
  book : ∀ t b, w.book t = some b → b.cfg.denom ≠ d → w'.book t = some b

theorem mint_apart {S : Site A} {w w' : Chain A} {e : Env} {d : Denom A} {dst : A} {n : Nat} (h : mint S w e d dst n = .ok w') :
    Apart w w' d := by
  simp only [mint, bind_ok_iff, Except.ok.injEq] at h
  obtain ⟨sup, _, w1, h1, l, _, rfl⟩ := h
  obtain ⟨h2, h3, h4, h5, h6, _⟩ := callHook_other h1
  exact ⟨fun d' hd => by simp only [Function.update_of_ne hd, h2], fun d' hd => by simp only [h3, Function.update_of_ne hd], h4, h5, h6⟩

theorem burn_apart {S : Site A} {w w' : Chain A} {e : Env} {d : Denom A} {src : A} {n : Nat} (h : burn S w e d src n = .ok w') :
    Apart w w' d := by
  simp only [burn, bind_ok_iff, Except.ok.injEq] at h
  obtain ⟨w1, h1, l, _, l2, _, sup, _, rfl⟩ := h
  obtain ⟨h2, h3, h4, h5, h6, _⟩ := callHook_other h1
  exact ⟨fun d' hd => by simp only [Function.update_of_ne hd, h2], fun d' hd => by simp only [h3, Function.update_of_ne hd], h4, h5, h6⟩

theorem send_apart {S : Site A} {w w' : Chain A} {e : Env} {d : Denom A} {src dst : A} {n : Nat} (h : send S w e d src dst n = .ok w') :
    Apart w w' d ∧ w'.supply = w.supply := by
  simp only [send, bind_ok_iff, require_ok, exists_const, Except.ok.injEq] at h
  obtain ⟨_, w1, h1, l, _, rfl⟩ := h
  obtain ⟨h2, h3, h4, h5, h6, _⟩ := callHook_other h1
  exact ⟨⟨fun d' hd => by simp only [Function.update_of_ne hd, h2], fun d' hd => by simp only [h3], h4, h5, h6⟩, h3⟩

theorem Apart.placed {w w' : Chain A} {p : A} {d d' : Denom A} {t : A} {b : Book A} (h : Apart w w' d') (hp : Placed w p d t b)
    (hd : d ≠ d') : Placed w' p d t b ∧ part w' d b = part w d b :=
  ⟨⟨by rw [h.contract]; exact hp.contract, by rw [h.auth]; exact hp.auth, h.book t b hp.book (by rw [hp.denom]; exact hd), hp.denom⟩,
    by unfold part; rw [h.bank d hd, h.supply d hd]⟩

theorem Placed.again {w w' : Chain A} {p : A} {d : Denom A} {t : A} {b : Book A} (hp : Placed w p d t b) {bals : A → Snap Nat}
    {total : Snap Nat} (h1 : w'.contract = w.contract) (h2 : w'.auth = w.auth)
    (h3 : w'.book t = some { b with bals := bals, total := total }) : Placed w' p d t { b with bals := bals, total := total } :=
  ⟨by rw [h1]; exact hp.contract, by rw [h2]; exact hp.auth, h3, hp.denom⟩

theorem mint_own {S : Site A} {w w' : Chain A} {e : Env} {d : Denom A} {dst : A} {n : Nat} {p t : A} {b : Book A}
    (hp : Placed w p d t b) (hm : b.cfg.mod = S.mod) (h : mint S w e d dst n = .ok w') :
    ∃ b', b'.cfg = b.cfg ∧ Placed w' p d t b' ∧ Tracker.exec b.cfg (part w d b) e (.mint dst n) = .ok (part w' d b') := by
  simp only [mint, bind_ok_iff, Except.ok.injEq] at h
  obtain ⟨sup, hsup, w1, h1, l, hl, rfl⟩ := h
  obtain ⟨s, hs, e1, e2, rfl⟩ := callHook_own (t := t) (b := b) (by exact hp.auth) rfl (by exact hp.book) h1
  refine ⟨{ b with bals := s.bals, total := s.total }, rfl, hp.again rfl rfl (by simp only [Function.update_self]), ?_⟩
  simp only [Function.update_self] at e1 e2 hl
  simp only [part, Function.update_self] at hs
  simp only [Tracker.exec, bind_ok_iff, Except.ok.injEq, hp.denom, hm]
  refine ⟨sup, hsup, s, hs, l, by rw [e1]; exact hl, ?_⟩
  simp only [part, Function.update_self, e2]

theorem burn_own {S : Site A} {w w' : Chain A} {e : Env} {d : Denom A} {src : A} {n : Nat} {p t : A} {b : Book A}
    (hp : Placed w p d t b) (hm : b.cfg.mod = S.mod) (h : burn S w e d src n = .ok w') :
    ∃ b', b'.cfg = b.cfg ∧ Placed w' p d t b' ∧ Tracker.exec b.cfg (part w d b) e (.burn src n) = .ok (part w' d b') := by
  simp only [burn, bind_ok_iff, Except.ok.injEq] at h
  obtain ⟨w1, h1, l, hl, l2, hl2, sup, hsup, rfl⟩ := h
  obtain ⟨s, hs, e1, e2, rfl⟩ := callHook_own (t := t) (b := b) (by exact hp.auth) rfl (by exact hp.book) h1
  refine ⟨{ b with bals := s.bals, total := s.total }, rfl, hp.again rfl rfl (by simp only [Function.update_self]), ?_⟩
  simp only at hl hsup
  simp only [Tracker.exec, bind_ok_iff, Except.ok.injEq, hp.denom, hm]
  refine ⟨s, hs, l, by rw [e1]; exact hl, l2, hl2, sup, by rw [e2]; exact hsup, ?_⟩
  simp only [part, Function.update_self]

theorem send_own {S : Site A} {w w' : Chain A} {e : Env} {d : Denom A} {src dst : A} {n : Nat} {p t : A} {b : Book A}
    (hp : Placed w p d t b) (hm : b.cfg.mod = S.mod) (h : send S w e d src dst n = .ok w') :
    ∃ b', b'.cfg = b.cfg ∧ Placed w' p d t b' ∧ Tracker.exec b.cfg (part w d b) e (.send src dst n) = .ok (part w' d b') := by
  simp only [send, bind_ok_iff, require_ok, exists_const, Except.ok.injEq] at h
  obtain ⟨hne, w1, h1, l, hl, rfl⟩ := h
  obtain ⟨s, hs, e1, e2, rfl⟩ := callHook_own (t := t) (b := b) (by exact hp.auth) rfl (by exact hp.book) h1
  refine ⟨{ b with bals := s.bals, total := s.total }, rfl, hp.again rfl rfl (by simp only [Function.update_self]), ?_⟩
  simp only at hl
  simp only [Tracker.exec, bind_ok_iff, require_ok, exists_const, Except.ok.injEq, hp.denom, hm]
  refine ⟨hne, s, hs, l, by rw [e1]; exact hl, ?_⟩
  simp only [part, Function.update_self, e2]

/-- What a transaction does to denom `d`. -/
def moves (w : Chain A) (d : Denom A) : Tx A → Option (Tracker.Op A (Denom A))
  | .setup .. => none
  | .mint p dst n => if (w.contract p).map Contract.denom = some d then some (.mint dst n) else none
  | .burn p n => if (w.contract p).map Contract.denom = some d then some (.burn p n) else none
  | .send p d' dst n => if d' = d then some (.send p dst n) else none
  | .user _ (.mint d' dst n) => if d' = d then some (.mint dst n) else none
  | .user x (.burn d' n) => if d' = d then some (.burn x n) else none
  | .user x (.send d' dst n) => if d' = d then some (.send x dst n) else none
  | .user _ _ => none

theorem adminOf_ok {w : Chain A} {d : Denom A} {x : A} {a : Auth A} (h : adminOf w d x = .ok a) :
    w.auth d = some a ∧ a.admin = some x := by
  simp only [adminOf, bind_ok_iff, orErr_ok, require_ok, exists_const, Except.ok.injEq] at h
  obtain ⟨a', h1, h2, rfl⟩ := h
  exact ⟨h1, h2⟩

/-- A tracked token stays tracked, and the tracker sees every movement. -/
theorem exec_placed {S : Site A} {w w' : Chain A} {e : Env} {x : Tx A} {p : A} {d : Denom A} {t : A} {b : Book A}
    (hp : Placed w p d t b) (hc : S.isContract p = true) (hm : b.cfg.mod = S.mod) (h : exec S w e x = .ok w') :
    ∃ b', b'.cfg = b.cfg ∧ Placed w' p d t b' ∧
      match moves w d x with
      | some o => Tracker.exec b.cfg (part w d b) e o = .ok (part w' d b')
      | none => part w' d b' = part w d b := by
  have apart : ∀ {d'}, Apart w w' d' → d ≠ d' → ∃ b', b'.cfg = b.cfg ∧ Placed w' p d t b' ∧ part w' d b' = part w d b :=
    fun ha hd => ⟨b, rfl, ha.placed hp hd⟩
  have notMine : ∀ {y d'} {a : Auth A}, S.isContract y = false → adminOf w d' y = .ok a → d' ≠ d := by
    rintro y d' a hy ha rfl
    obtain ⟨h1, h2⟩ := adminOf_ok ha
    rw [hp.auth] at h1
    cases h1
    simp only [Option.some.injEq] at h2
    subst h2
    rw [hc] at hy
    cases hy
  cases x with
  | setup q sub track t' =>
    refine ⟨b, rfl, ?_⟩
    simp only [moves]
    simp only [exec, setup, createDenom, bind_ok_iff, require_ok, exists_const, Except.ok.injEq] at h
    obtain ⟨⟨h1, h2, h3⟩, w1, ⟨h4, rfl⟩, h⟩ := h
    have hqp : p ≠ q := by
      rintro rfl
      rw [hp.contract] at h2
      cases h2
    have hdd : d ≠ .factory q sub := by
      rintro rfl
      rw [hp.auth] at h4
      cases h4
    cases track with
    | none =>
      simp only [replies, Except.ok.injEq] at h
      subst h
      exact ⟨⟨by simp only [Function.update_of_ne hqp]; exact hp.contract, by simp only [Function.update_of_ne hdd]; exact hp.auth,
        hp.book, hp.denom⟩, rfl⟩
    | some module =>
      simp only [replies, newTracker, setHook, bind_ok_iff, require_ok, exists_const, Except.ok.injEq] at h
      obtain ⟨w2, ⟨⟨_, h5, _⟩, rfl⟩, a, ha, rfl⟩ := h
      have htt : t ≠ t' := by
        rintro rfl
        rw [hp.book] at h5
        cases h5
      exact ⟨⟨by simp only [Function.update_of_ne hqp]; exact hp.contract, by simp only [Function.update_of_ne hdd]; exact hp.auth,
        by simp only [Function.update_of_ne htt]; exact hp.book, hp.denom⟩, rfl⟩
  | mint q dst n =>
    simp only [exec, bind_ok_iff, orErr_ok] at h
    obtain ⟨c, hc', a, ha, h⟩ := h
    simp only [moves, hc', Option.map_some, Option.some.injEq]
    by_cases hd : c.denom = d
    · rw [if_pos hd]
      rw [hd] at h
      exact mint_own hp hm h
    · rw [if_neg hd]
      exact apart (mint_apart h) (Ne.symm hd)
  | burn q n =>
    simp only [exec, bind_ok_iff, orErr_ok] at h
    obtain ⟨c, hc', a, ha, h⟩ := h
    simp only [moves, hc', Option.map_some, Option.some.injEq]
    by_cases hd : c.denom = d
    · rw [if_pos hd]
      rw [hd] at h
      exact burn_own hp hm h
    · rw [if_neg hd]
      exact apart (burn_apart h) (Ne.symm hd)
  | send q d' dst n =>
    simp only [exec, bind_ok_iff, orErr_ok] at h
    obtain ⟨c, hc', h⟩ := h
    simp only [moves]
    by_cases hd : d' = d
    · rw [if_pos hd]
      rw [hd] at h
      exact send_own hp hm h
    · rw [if_neg hd]
      exact apart (send_apart h).1 (Ne.symm hd)
  | user y act =>
    simp only [exec, bind_ok_iff, require_ok, exists_const] at h
    obtain ⟨⟨_, hy⟩, h⟩ := h
    cases act with
    | createDenom sub =>
      refine ⟨b, rfl, ?_⟩
      simp only [moves]
      simp only [createDenom, bind_ok_iff, require_ok, exists_const, Except.ok.injEq] at h
      obtain ⟨h4, rfl⟩ := h
      have hdd : d ≠ .factory y sub := by
        rintro rfl
        rw [hp.auth] at h4
        cases h4
      exact ⟨⟨hp.contract, by simp only [Function.update_of_ne hdd]; exact hp.auth, hp.book, hp.denom⟩, rfl⟩
    | setHook d' h' =>
      refine ⟨b, rfl, ?_⟩
      simp only [moves]
      simp only [setHook, bind_ok_iff, Except.ok.injEq] at h
      obtain ⟨a, ha, rfl⟩ := h
      have hdd := (notMine hy ha).symm
      exact ⟨⟨hp.contract, by simp only [Function.update_of_ne hdd]; exact hp.auth, hp.book, hp.denom⟩, rfl⟩
    | changeAdmin d' z =>
      refine ⟨b, rfl, ?_⟩
      simp only [moves]
      simp only [bind_ok_iff, Except.ok.injEq] at h
      obtain ⟨a, ha, rfl⟩ := h
      have hdd := (notMine hy ha).symm
      exact ⟨⟨hp.contract, by simp only [Function.update_of_ne hdd]; exact hp.auth, hp.book, hp.denom⟩, rfl⟩
    | mint d' dst n =>
      simp only [bind_ok_iff] at h
      obtain ⟨a, ha, h⟩ := h
      simp only [moves, if_neg (notMine hy ha)]
      exact apart (mint_apart h) (notMine hy ha).symm
    | burn d' n =>
      simp only [bind_ok_iff] at h
      obtain ⟨a, ha, h⟩ := h
      simp only [moves, if_neg (notMine hy ha)]
      exact apart (burn_apart h) (notMine hy ha).symm
    | send d' dst n =>
      simp only at h
      simp only [moves]
      by_cases hd : d' = d
      · rw [if_pos hd]
        rw [hd] at h
        exact send_own hp hm h
      · rw [if_neg hd]
        exact apart (send_apart h).1 (Ne.symm hd)
    | newTracker t' d' module seconds =>
      refine ⟨b, rfl, ?_⟩
      simp only [moves]
      simp only [newTracker, bind_ok_iff, require_ok, exists_const, Except.ok.injEq] at h
      obtain ⟨⟨_, h5, _⟩, rfl⟩ := h
      have htt : t ≠ t' := by
        rintro rfl
        rw [hp.book] at h5
        cases h5
      exact ⟨⟨hp.contract, hp.auth, by simp only [Function.update_of_ne htt]; exact hp.book, hp.denom⟩, rfl⟩

/-- Before the contract exists nothing is known of its denoms. -/
structure Clean (w : Chain A) (p : A) : Prop where
  contract : w.contract p = none
  auth : ∀ s, w.auth (.factory p s) = none
  bank : ∀ s a, w.bank (.factory p s) a = 0
  supply : ∀ s, w.supply (.factory p s) = 0

theorem Apart.clean {w w' : Chain A} {p : A} {d : Denom A} (h : Apart w w' d) (hc : Clean w p) (hd : ∀ s, d ≠ .factory p s) :
    Clean w' p :=
  ⟨by rw [h.contract]; exact hc.contract, fun s => by rw [h.auth]; exact hc.auth s,
    fun s a => by rw [h.bank _ (hd s).symm]; exact hc.bank s a, fun s => by rw [h.supply _ (hd s).symm]; exact hc.supply s⟩

theorem move_zero {l l' : A → Nat} {src dst : A} {n : Nat} (hl : ∀ a, l a = 0) (h : move l src dst n = .ok l') : ∀ a, l' a = 0 := by
  have h0 := move_le h
  rw [hl] at h0
  obtain rfl : n = 0 := by omega
  intro a
  rw [move_apply h a]
  simp [hl]

theorem send_clean {S : Site A} {w w' : Chain A} {e : Env} {d : Denom A} {src dst : A} {n : Nat} {p : A} (hc : Clean w p)
    (h : send S w e d src dst n = .ok w') : Clean w' p := by
  obtain ⟨ha, hs⟩ := send_apart h
  refine ⟨by rw [ha.contract]; exact hc.contract, fun s => by rw [ha.auth]; exact hc.auth s, fun s a => ?_,
    fun s => by rw [hs]; exact hc.supply s⟩
  by_cases hd : Denom.factory p s = d
  · simp only [send, bind_ok_iff, require_ok, exists_const, Except.ok.injEq] at h
    obtain ⟨_, w1, h1, l, hl, rfl⟩ := h
    obtain ⟨h2, _⟩ := callHook_other h1
    simp only [hd, Function.update_self]
    refine move_zero (fun a => ?_) hl a
    rw [h2, ← hd]
    exact hc.bank s a
  · rw [ha.bank _ hd]
    exact hc.bank s a

/-- Only its own setup makes a contract. -/
theorem exec_clean {S : Site A} {w w' : Chain A} {e : Env} {x : Tx A} {p : A} (hp : S.isContract p = true) (hc : Clean w p)
    (h : exec S w e x = .ok w') :
    Clean w' p ∨ ∃ sub track t, x = .setup p sub track t ∧
      ((track = none ∧ w'.contract p = some ⟨.factory p sub, none⟩) ∨
        ∃ m, track = some m ∧ ∃ b, Placed w' p (.factory p sub) t b ∧ b.cfg = ⟨.factory p sub, m, false⟩ ∧
          part w' (.factory p sub) b = Tracker.init) := by
  have known : ∀ {d y} {a : Auth A}, adminOf w d y = .ok a → ∀ s, d ≠ .factory p s := by
    rintro d y a ha s rfl
    have h1 := (adminOf_ok ha).1
    rw [hc.auth s] at h1
    cases h1
  cases x with
  | setup q sub track t =>
    simp only [exec, setup, createDenom, bind_ok_iff, require_ok, exists_const, Except.ok.injEq] at h
    obtain ⟨⟨h1, h2, h3⟩, w1, ⟨h4, rfl⟩, h⟩ := h
    by_cases hq : q = p
    · subst hq
      right
      refine ⟨sub, track, t, rfl, ?_⟩
      cases track with
      | none =>
        simp only [replies, Except.ok.injEq] at h
        subst h
        exact .inl ⟨rfl, by simp only [Function.update_self]⟩
      | some m =>
        simp only [replies, newTracker, setHook, bind_ok_iff, require_ok, exists_const, Except.ok.injEq] at h
        obtain ⟨w2, ⟨⟨_, h5, _⟩, rfl⟩, a, ha, rfl⟩ := h
        obtain ⟨ha, ha'⟩ := adminOf_ok ha
        simp only [Function.update_self, Option.some.injEq] at ha
        subst ha
        refine .inr ⟨m, rfl, ⟨⟨.factory q sub, m, false⟩, fun _ => Snap.empty, Snap.empty⟩,
          ⟨by simp only [Function.update_self], by simp only [Function.update_self], by simp only [Function.update_self], rfl⟩, rfl, ?_⟩
        simp only [part, Tracker.init, hc.supply, Tracker.State.mk.injEq, and_true]
        exact funext fun a => hc.bank sub a
    · left
      have hdd : ∀ s, Denom.factory p s ≠ .factory q sub := fun s h => hq (by cases h; rfl)
      cases track with
      | none =>
        simp only [replies, Except.ok.injEq] at h
        subst h
        exact ⟨by simp only [Function.update_of_ne (Ne.symm hq)]; exact hc.contract,
          fun s => by simp only [Function.update_of_ne (hdd s)]; exact hc.auth s, hc.bank, hc.supply⟩
      | some m =>
        simp only [replies, newTracker, setHook, bind_ok_iff, require_ok, exists_const, Except.ok.injEq] at h
        obtain ⟨w2, ⟨⟨_, h5, _⟩, rfl⟩, a, ha, rfl⟩ := h
        exact ⟨by simp only [Function.update_of_ne (Ne.symm hq)]; exact hc.contract,
          fun s => by simp only [Function.update_of_ne (hdd s)]; exact hc.auth s, hc.bank, hc.supply⟩
  | mint q dst n =>
    simp only [exec, bind_ok_iff, orErr_ok] at h
    obtain ⟨c, hc', a, ha, h⟩ := h
    exact .inl ((mint_apart h).clean hc (known ha))
  | burn q n =>
    simp only [exec, bind_ok_iff, orErr_ok] at h
    obtain ⟨c, hc', a, ha, h⟩ := h
    exact .inl ((burn_apart h).clean hc (known ha))
  | send q d' dst n =>
    simp only [exec, bind_ok_iff, orErr_ok] at h
    obtain ⟨c, hc', h⟩ := h
    exact .inl (send_clean hc h)
  | user y act =>
    simp only [exec, bind_ok_iff, require_ok, exists_const] at h
    obtain ⟨⟨_, hy⟩, h⟩ := h
    left
    cases act with
    | createDenom sub =>
      simp only [createDenom, bind_ok_iff, require_ok, exists_const, Except.ok.injEq] at h
      obtain ⟨h4, rfl⟩ := h
      refine ⟨hc.contract, fun s => ?_, hc.bank, hc.supply⟩
      have hdd : Denom.factory p s ≠ .factory y sub := by
        intro h
        cases h
        rw [hp] at hy
        cases hy
      simp only [Function.update_of_ne hdd]
      exact hc.auth s
    | setHook d' h' =>
      simp only [setHook, bind_ok_iff, Except.ok.injEq] at h
      obtain ⟨a, ha, rfl⟩ := h
      exact ⟨hc.contract, fun s => by simp only [Function.update_of_ne (known ha s).symm]; exact hc.auth s, hc.bank, hc.supply⟩
    | changeAdmin d' z =>
      simp only [bind_ok_iff, Except.ok.injEq] at h
      obtain ⟨a, ha, rfl⟩ := h
      exact ⟨hc.contract, fun s => by simp only [Function.update_of_ne (known ha s).symm]; exact hc.auth s, hc.bank, hc.supply⟩
    | mint d' dst n =>
      simp only [bind_ok_iff] at h
      obtain ⟨a, ha, h⟩ := h
      exact (mint_apart h).clean hc (known ha)
    | burn d' n =>
      simp only [bind_ok_iff] at h
      obtain ⟨a, ha, h⟩ := h
      exact (burn_apart h).clean hc (known ha)
    | send d' dst n => exact send_clean hc h
    | newTracker t' d' module seconds =>
      simp only [newTracker, bind_ok_iff, require_ok, exists_const, Except.ok.injEq] at h
      obtain ⟨_, rfl⟩ := h
      exact ⟨hc.contract, hc.auth, hc.bank, hc.supply⟩

/-- What a contract stores of its token never changes, and contracts are at addresses of contracts. -/
theorem exec_contract {S : Site A} {w w' : Chain A} {e : Env} {x : Tx A} (h : exec S w e x = .ok w') (p : A) :
    w'.contract p = w.contract p ∨ (w.contract p = none ∧ S.isContract p = true) := by
  cases x with
  | setup q sub track t =>
    simp only [exec, setup, createDenom, bind_ok_iff, require_ok, exists_const, Except.ok.injEq] at h
    obtain ⟨⟨h1, h2, h3⟩, w1, ⟨h4, rfl⟩, h⟩ := h
    by_cases hq : p = q
    · subst hq
      exact .inr ⟨by simpa using h2, h1⟩
    · left
      cases track with
      | none =>
        simp only [replies, Except.ok.injEq] at h
        subst h
        simp only [Function.update_of_ne hq]
      | some m =>
        simp only [replies, newTracker, setHook, bind_ok_iff, require_ok, exists_const, Except.ok.injEq] at h
        obtain ⟨w2, ⟨⟨_, h5, _⟩, rfl⟩, a, ha, rfl⟩ := h
        simp only [Function.update_of_ne hq]
  | mint q dst n =>
    simp only [exec, bind_ok_iff, orErr_ok] at h
    obtain ⟨c, hc', a, ha, h⟩ := h
    exact .inl (by rw [(mint_apart h).contract])
  | burn q n =>
    simp only [exec, bind_ok_iff, orErr_ok] at h
    obtain ⟨c, hc', a, ha, h⟩ := h
    exact .inl (by rw [(burn_apart h).contract])
  | send q d' dst n =>
    simp only [exec, bind_ok_iff, orErr_ok] at h
    obtain ⟨c, hc', h⟩ := h
    exact .inl (by rw [(send_apart h).1.contract])
  | user y act =>
    simp only [exec, bind_ok_iff, require_ok, exists_const] at h
    obtain ⟨_, h⟩ := h
    left
    cases act with
    | createDenom sub =>
      simp only [createDenom, bind_ok_iff, require_ok, exists_const, Except.ok.injEq] at h
      obtain ⟨h4, rfl⟩ := h
      rfl
    | setHook d' h' =>
      simp only [setHook, bind_ok_iff, Except.ok.injEq] at h
      obtain ⟨a, ha, rfl⟩ := h
      rfl
    | changeAdmin d' z =>
      simp only [bind_ok_iff, Except.ok.injEq] at h
      obtain ⟨a, ha, rfl⟩ := h
      rfl
    | mint d' dst n =>
      simp only [bind_ok_iff] at h
      obtain ⟨a, ha, h⟩ := h
      rw [(mint_apart h).contract]
    | burn d' n =>
      simp only [bind_ok_iff] at h
      obtain ⟨a, ha, h⟩ := h
      rw [(burn_apart h).contract]
    | send d' dst n => rw [(send_apart h).1.contract]
    | newTracker t' d' module seconds =>
      simp only [newTracker, bind_ok_iff, require_ok, exists_const, Except.ok.injEq] at h
      obtain ⟨_, rfl⟩ := h
      rfl

theorem step_contract (S : Site A) (w : Chain A) (o : Env × Tx A) (p : A) :
    (step S w o).contract p = w.contract p ∨ (w.contract p = none ∧ S.isContract p = true) := by
  unfold step commit'
  cases h : exec S w o.1 o.2 with
  | error => exact .inl rfl
  | ok w' => exact exec_contract h p

theorem run_contract (S : Site A) (os : List (Env × Tx A)) (p : A) : ∀ w : Chain A,
    (run S w os).contract p = w.contract p ∨ (w.contract p = none ∧ S.isContract p = true) := by
  induction os with
  | nil => exact fun _ => .inl rfl
  | cons o os ih =>
    intro w
    rcases ih (step S w o) with h | ⟨h, hc⟩
    · rcases step_contract S w o p with h' | h'
      · exact .inl (h.trans h')
      · exact .inr h'
    · rcases step_contract S w o p with h' | h'
      · exact .inr ⟨h' ▸ h, hc⟩
      · exact .inr h'

/-- What the tracker at work sees of a transaction; `foreign` of its own denom stands for nothing. -/
def pick (S : Site A) (w : Chain A) (p : A) (d : Denom A) (o : Env × Tx A) : Tracker.Op A (Denom A) :=
  if (w.contract p).isNone = true then .foreign d S.mod S.mod 0 else
    match exec S w o.1 o.2 with
    | .ok _ => (moves w d o.2).getD (.foreign d S.mod S.mod 0)
    | .error _ => .foreign d S.mod S.mod 0

/-- The history as the tracker sees it. -/
def seen (S : Site A) (p : A) (d : Denom A) : Chain A → List (Env × Tx A) → List (Env × Tracker.Op A (Denom A))
  | _, [] => []
  | w, o :: os => (o.1, pick S w p d o) :: seen S p d (step S w o) os

theorem seen_mono (S : Site A) (p : A) (d : Denom A) (c : Tracker.Cfg A (Denom A)) (hc : c.seconds = false)
    (os : List (Env × Tx A)) : ∀ (w : Chain A) (H : Nat), Mono (fun o => o.1.height) H os →
      Mono (fun o => Tracker.unit c o.1) H (seen S p d w os) := by
  induction os with
  | nil => exact fun _ _ _ => trivial
  | cons o os ih =>
    intro w H h
    have hu : Tracker.unit c o.1 = o.1.height := by simp [Tracker.unit, hc]
    exact ⟨by simp only [hu]; exact h.1, by simp only [hu]; exact ih _ _ h.2⟩

theorem seen_mem (S : Site A) (p : A) (d : Denom A) (os : List (Env × Tx A)) : ∀ (w : Chain A), ∀ o ∈ seen S p d w os,
    ∃ o' ∈ os, o'.1 = o.1 := by
  induction os with
  | nil => intro w o h; cases h
  | cons o os ih =>
    intro w x hx
    rcases List.mem_cons.mp hx with rfl | hx
    · exact ⟨o, List.mem_cons_self, rfl⟩
    · obtain ⟨o', h1, h2⟩ := ih _ x hx
      exact ⟨o', List.mem_cons_of_mem _ h1, h2⟩

theorem seen_takeWhile (S : Site A) (p : A) (d : Denom A) (c : Tracker.Cfg A (Denom A)) (hc : c.seconds = false) (u : Nat)
    (os : List (Env × Tx A)) : ∀ (w : Chain A),
      ((seen S p d w os).takeWhile fun o => decide (Tracker.unit c o.1 < u)) =
        seen S p d w (os.takeWhile fun o => decide (o.1.height < u)) := by
  induction os with
  | nil => exact fun _ => rfl
  | cons o os ih =>
    intro w
    have hu : Tracker.unit c o.1 = o.1.height := by simp [Tracker.unit, hc]
    simp only [seen, List.takeWhile_cons, hu]
    by_cases h : o.1.height < u
    · simp only [h, decide_true, if_true, ih]
      rfl
    · simp only [h, decide_false]
      rfl

/-- The chain and the tracker agree. -/
def Agree (S : Site A) (w : Chain A) (p : A) (d : Denom A) (t : A) (s : Tracker.State A) : Prop :=
  (∃ b, Placed w p d t b ∧ b.cfg = ⟨d, S.mod, false⟩ ∧ part w d b = s) ∨ (Clean w p ∧ s = Tracker.init)

theorem idle (S : Site A) (d : Denom A) (s : Tracker.State A) (e : Env) :
    Tracker.step ⟨d, S.mod, false⟩ s (e, .foreign d S.mod S.mod 0) = s := by
  simp [Tracker.step, commit', Tracker.exec, require]

theorem step_agree {S : Site A} {w : Chain A} {p : A} {sub : Str} {t : A} {s : Tracker.State A} {o : Env × Tx A}
    (hp : S.isContract p = true) (h : Agree S w p (.factory p sub) t s)
    (hm : ∀ sub m t, o.2 = .setup p sub (some m) t → m = S.mod)
    (hf : (step S w o).contract p = none ∨ (step S w o).contract p = some ⟨.factory p sub, some t⟩) :
    Agree S (step S w o) p (.factory p sub) t
      (Tracker.step ⟨.factory p sub, S.mod, false⟩ s (o.1, pick S w p (.factory p sub) o)) := by
  rcases h with ⟨b, hb, hbc, rfl⟩ | ⟨hcl, rfl⟩
  · have hsome : ¬ (w.contract p).isNone = true := by rw [hb.contract]; simp
    unfold pick step commit'
    rw [if_neg hsome]
    cases hx : exec S w o.1 o.2 with
    | error => exact .inl ⟨b, hb, hbc, (idle ..).symm⟩
    | ok w' =>
      obtain ⟨b', hb', hp', hmv⟩ := exec_placed hb hp (by rw [hbc]) hx
      refine .inl ⟨b', hp', hb'.trans hbc, ?_⟩
      cases hmo : moves w (.factory p sub) o.2 with
      | none =>
        rw [hmo] at hmv
        simp only [Option.getD_none, idle]
        exact hmv
      | some x =>
        rw [hmo] at hmv
        simp only [hbc] at hmv
        simp only [Option.getD_some, Tracker.step, hmv, commit']
  · have hnone : (w.contract p).isNone = true := by rw [hcl.contract]; rfl
    unfold pick
    rw [if_pos hnone, idle]
    unfold step commit' at hf ⊢
    cases hx : exec S w o.1 o.2 with
    | error => exact .inr ⟨hcl, rfl⟩
    | ok w' =>
      rw [hx] at hf
      simp only at hf
      rcases exec_clean hp hcl hx with h | ⟨sub', track, t', ho, h⟩
      · exact .inr ⟨h, rfl⟩
      · rcases h with ⟨_, h⟩ | ⟨m, rfl, b, hb, hbc, hi⟩
        · rw [h] at hf
          rcases hf with hf | hf <;> cases hf
        · have hc := hb.contract
          rw [hc] at hf
          rcases hf with hf | hf
          · cases hf
          · cases hf
            obtain rfl := hm _ _ _ ho
            exact .inl ⟨b, hb, hbc, hi⟩

/-- Along a history. -/
theorem run_agree {S : Site A} {p : A} {sub : Str} {t : A} (hp : S.isContract p = true) (os : List (Env × Tx A)) :
    ∀ {w : Chain A} {s : Tracker.State A}, Agree S w p (.factory p sub) t s →
      (∀ o ∈ os, ∀ sub m t, o.2 = .setup p sub (some m) t → m = S.mod) →
      ((run S w os).contract p = none ∨ (run S w os).contract p = some ⟨.factory p sub, some t⟩) →
      Agree S (run S w os) p (.factory p sub) t
        (Tracker.run ⟨.factory p sub, S.mod, false⟩ s (seen S p (.factory p sub) w os)) := by
  induction os with
  | nil => exact fun h _ _ => h
  | cons o os ih =>
    intro w s h hm hf
    refine ih (step_agree hp h (hm o List.mem_cons_self) ?_) (fun o ho => hm o (List.mem_cons_of_mem _ ho)) hf
    rcases run_contract S os p (step S w o) with h' | h'
    · rw [← h']
      exact hf
    · exact .inl h'.1

theorem start_clean {w : Chain A} (h : Start w) (p : A) : Clean w p :=
  ⟨h.contract p, fun _ => h.auth _, fun s a => h.bank p s a, fun s => h.supply p s⟩

theorem exec_setup_contract {S : Site A} {w w' : Chain A} {e : Env} {p : A} {sub : Str} {m t : A}
    (h : exec S w e (.setup p sub (some m) t) = .ok w') : w'.contract p = some ⟨.factory p sub, some t⟩ := by
  simp only [exec, setup, createDenom, replies, newTracker, setHook, bind_ok_iff, require_ok, exists_const, Except.ok.injEq] at h
  obtain ⟨_, w1, ⟨_, rfl⟩, w2, ⟨_, rfl⟩, a, _, rfl⟩ := h
  simp only [Function.update_self]

/-- What the contracts store is about a denom of their own. -/
theorem run_denom {S : Site A} (os : List (Env × Tx A)) {p d t} (hp : S.isContract p = true) : ∀ {w : Chain A}, Clean w p →
    (run S w os).contract p = some ⟨d, some t⟩ → ∃ sub, d = .factory p sub := by
  induction os with
  | nil =>
    intro w hc h
    rw [show run S w [] = w from rfl, hc.contract] at h
    cases h
  | cons o os ih =>
    intro w hc h
    change (run S (step S w o) os).contract p = _ at h
    have key : Clean (step S w o) p ∨ ∃ sub t, (step S w o).contract p = some ⟨.factory p sub, t⟩ := by
      unfold step commit'
      cases hx : exec S w o.1 o.2 with
      | error => exact .inl hc
      | ok w' =>
        rcases exec_clean hp hc hx with h | ⟨sub, _, t, _, ⟨_, h⟩ | ⟨_, _, b, hb, _⟩⟩
        · exact .inl h
        · exact .inr ⟨_, _, h⟩
        · exact .inr ⟨_, _, hb.contract⟩
    rcases key with h' | ⟨sub, t', h'⟩
    · exact ih h' h
    · rcases run_contract S os p (step S w o) with h2 | h2
      · rw [h2, h'] at h
        cases h
        exact ⟨sub, rfl⟩
      · rw [h2.1] at h'
        cases h'

theorem isContract_of {S : Site A} {w : Chain A} (h0 : Start w) {os : List (Env × Tx A)} {p : A} {c : Contract A}
    (h : (run S w os).contract p = some c) : S.isContract p = true := by
  rcases run_contract S os p w with h' | h'
  · rw [h', h0.contract] at h
    cases h
  · exact h'.2

/-- All the histories of a tracked token at once. -/
theorem tracked {S : Site A} {w : Chain A} (h0 : Start w) {os : List (Env × Tx A)} {now : Env} (ht : Timely os now)
    {p : A} {d : Denom A} {t : A} (hc : (run S w os).contract p = some ⟨d, some t⟩)
    (hm : ∀ o ∈ os, ∀ sub m t, o.2 = .setup p sub (some m) t → m = S.mod) :
    ∃ (c : Tracker.Cfg A (Denom A)) (os' : List (Env × Tracker.Op A (Denom A))) (b : Book A), c = ⟨d, S.mod, false⟩ ∧ Tracker.Timely c os' now ∧
      (run S w os).book t = some b ∧ b.cfg = c ∧ part (run S w os) d b = Tracker.run c Tracker.init os' ∧
      ∀ u, (Tracker.atStart c os' u).bank = (run S w (os.takeWhile fun o => decide (o.1.height < u))).bank d ∧
        (Tracker.atStart c os' u).supply = (run S w (os.takeWhile fun o => decide (o.1.height < u))).supply d := by
  have hp := isContract_of h0 hc
  obtain ⟨sub, rfl⟩ := run_denom os hp (start_clean h0 p) hc
  have hi : Agree S w p (.factory p sub) t Tracker.init := .inr ⟨start_clean h0 p, rfl⟩
  rcases run_agree hp os hi hm (.inr hc) with ⟨b, hb, hbc, hpart⟩ | ⟨h, _⟩
  · refine ⟨⟨.factory p sub, S.mod, false⟩, seen S p (.factory p sub) w os, b, rfl,
      ⟨seen_mono S p _ _ rfl os w 0 ht.1, fun o ho => ?_⟩, hb.book, hbc, hpart, fun u => ?_⟩
    · obtain ⟨o', h1, h2⟩ := seen_mem S p _ os w o ho
      have := ht.2 o' h1
      rw [h2] at this
      simpa [Tracker.unit] using this
    · unfold Tracker.atStart
      rw [seen_takeWhile S p _ _ rfl u os w]
      have hsplit := List.takeWhile_append_dropWhile (p := fun o : Env × Tx A => decide (o.1.height < u)) (l := os)
      have hend : (run S w (os.takeWhile fun o => decide (o.1.height < u))).contract p = none ∨
          (run S w (os.takeWhile fun o => decide (o.1.height < u))).contract p = some ⟨.factory p sub, some t⟩ := by
        have hrun : run S (run S w (os.takeWhile fun o => decide (o.1.height < u))) (os.dropWhile fun o => decide (o.1.height < u)) =
            run S w os := by
          unfold run
          rw [← List.foldl_append, hsplit]
        rcases run_contract S (os.dropWhile fun o => decide (o.1.height < u)) p
          (run S w (os.takeWhile fun o => decide (o.1.height < u))) with h | h
        · right
          rw [← h, hrun, hc]
        · exact .inl h.1
      rcases run_agree hp _ hi (fun o ho => hm o (List.takeWhile_subset _ ho)) hend with ⟨b', _, _, h⟩ | ⟨h, h'⟩
      · rw [← h]
        exact ⟨rfl, rfl⟩
      · rw [h']
        exact ⟨funext fun a => (h.bank sub a).symm, (h.supply sub).symm⟩
  · rw [h.contract] at hc
    cases hc

/-! ## Theorems -/

/-- **C176.**  Tracking is in place before the first token: when a contract has been set up with tracking (whoever did what before),
its token has no supply, the contract is its admin, the chain will call the contract's tracker before every movement of it, and that
tracker knows the token, the module account it was told and no balances. -/
theorem C176_in_place_from_the_start (S : Site A) (w : Chain A) (h0 : Start w) (os : List (Env × Tx A)) (e : Env) (p : A) (sub : Str)
    (m t : A) (w' : Chain A) (h : exec S (run S w os) e (.setup p sub (some m) t) = .ok w') :
    w'.contract p = some ⟨.factory p sub, some t⟩ ∧ w'.auth (.factory p sub) = some ⟨some p, some t⟩ ∧
      w'.supply (.factory p sub) = 0 ∧ (∀ a, w'.bank (.factory p sub) a = 0) ∧
      w'.book t = some ⟨⟨.factory p sub, m, false⟩, fun _ => Snap.empty, Snap.empty⟩ := by
  have hs := h
  simp only [exec, setup, bind_ok_iff, require_ok, exists_const] at hs
  obtain ⟨⟨h1, h2, _⟩, _⟩ := hs
  have hclean : ∀ os : List (Env × Tx A), (run S w os).contract p = none → Clean (run S w os) p := by
    intro os
    induction os using List.reverseRecOn with
    | nil => exact fun _ => start_clean h0 p
    | append_singleton os o ih =>
      intro hn
      have hr : run S w (os ++ [o]) = step S (run S w os) o := by unfold run; rw [List.foldl_append]; rfl
      rw [hr] at hn ⊢
      have hbefore : (run S w os).contract p = none := by
        rcases step_contract S (run S w os) o p with h | h
        · rw [← h]; exact hn
        · exact h.1
      unfold step commit' at hn ⊢
      cases hx : exec S (run S w os) o.1 o.2 with
      | error => exact ih hbefore
      | ok w' =>
        rw [hx] at hn
        rcases exec_clean h1 (ih hbefore) hx with h | ⟨sub, _, t, _, ⟨_, h⟩ | ⟨_, _, b, hb, _⟩⟩
        · exact h
        · rw [h] at hn
          cases hn
        · have := hb.contract
          simp only at hn
          rw [hn] at this
          cases this
  have hcl := hclean os (by simpa using h2)
  rcases exec_clean h1 hcl h with hc | ⟨sub', track, t', ho, ⟨hn, _⟩ | ⟨m', hm, b, hb, hbc, hi⟩⟩
  · have hh := exec_setup_contract h
    rw [hc.contract] at hh
    cases hh
  · cases ho
    cases hn
  · cases ho
    cases hm
    obtain ⟨bc, bb, bt⟩ := b
    simp only [part, Tracker.init, Tracker.State.mk.injEq] at hi
    obtain ⟨i1, i2, rfl, rfl⟩ := hi
    simp only at hbc
    subst hbc
    exact ⟨hb.contract, hb.auth, i2, fun a => by rw [i1], hb.book⟩

/-- **C176.**  In every history of the chain, with any other denoms, hooks, trackers and contracts: for a contract that was set up with
tracking and the right module account, its tracker answers for every account (other than the module's) and every height the balance
that the bank had at the beginning of that block, and for now the balance now. -/
theorem C176_balances_are_recorded (S : Site A) (w : Chain A) (h0 : Start w) (os : List (Env × Tx A)) (now : Env)
    (ht : Timely os now) (p : A) (d : Denom A) (t : A) (hc : (run S w os).contract p = some ⟨d, some t⟩)
    (hm : ∀ o ∈ os, ∀ sub m t, o.2 = .setup p sub (some m) t → m = S.mod) (a : A) (ha : a ≠ S.mod) (u : Option Nat) :
    balanceAt (run S w os) t now a u = some ((run S w (past os now u)).bank d a) := by
  obtain ⟨c, os', b, rfl, htime, hbook, hbc, hpart, hpast⟩ := tracked h0 ht hc hm
  have key := Tracker.C58_balance_history ⟨d, S.mod, false⟩ os' now htime a ha u
  unfold balanceAt
  rw [hbook, Option.map_some, hbc]
  change some (Tracker.balanceAt _ (part (run S w os) d b) now a u) = _
  rw [hpart, key]
  unfold past
  have hun : Tracker.unit (⟨d, S.mod, false⟩ : Tracker.Cfg A (Denom A)) now = now.height := rfl
  rw [hun]
  split
  · rw [← hpart]
    rfl
  · rw [(hpast _).1]

/-- **C176.**  And its answers for the supply are never below the supply at the beginning of that block, or now (burns can leave them
above: C96). -/
theorem C176_supply_is_never_understated (S : Site A) (w : Chain A) (h0 : Start w) (os : List (Env × Tx A)) (now : Env)
    (ht : Timely os now) (p : A) (d : Denom A) (t : A) (hc : (run S w os).contract p = some ⟨d, some t⟩)
    (hm : ∀ o ∈ os, ∀ sub m t, o.2 = .setup p sub (some m) t → m = S.mod) (u : Option Nat) :
    ∃ v, totalSupplyAt (run S w os) t now u = some v ∧ (run S w (past os now u)).supply d ≤ v := by
  obtain ⟨c, os', b, rfl, htime, hbook, hbc, hpart, hpast⟩ := tracked h0 ht hc hm
  have key := Tracker.C96_never_understated ⟨d, S.mod, false⟩ os' now htime u
  refine ⟨Tracker.totalSupplyAt ⟨d, S.mod, false⟩ (Tracker.run ⟨d, S.mod, false⟩ Tracker.init os') now u, ?_, ?_⟩
  · unfold totalSupplyAt
    rw [hbook, Option.map_some, hbc]
    change some (Tracker.totalSupplyAt _ (part (run S w os) d b) now u) = _
    rw [hpart]
  · refine le_trans (le_of_eq ?_) key
    unfold past
    have hun : Tracker.unit (⟨d, S.mod, false⟩ : Tracker.Cfg A (Denom A)) now = now.height := rfl
    rw [hun]
    split
    · rw [← hpart]
      rfl
    · rw [(hpast _).2]

/-- **C176.**  Nobody but the contract mints, burns or redirects the hook of its token: none of this succeeds for an account that is no
contract, in no history. -/
theorem C176_nobody_else_controls_it (S : Site A) (w : Chain A) (h0 : Start w) (os : List (Env × Tx A)) (p : A) (d : Denom A) (t : A)
    (hc : (run S w os).contract p = some ⟨d, some t⟩)
    (hm : ∀ o ∈ os, ∀ sub m t, o.2 = .setup p sub (some m) t → m = S.mod) (e : Env) (x : A) (a : Act A)
    (ha : (∃ h, a = .setHook d h) ∨ (∃ y, a = .changeAdmin d y) ∨ (∃ y n, a = .mint d y n) ∨ ∃ n, a = .burn d n) (w' : Chain A) :
    exec S (run S w os) e (.user x a) ≠ .ok w' := by
  intro h
  have hp := isContract_of h0 hc
  obtain ⟨sub, rfl⟩ := run_denom os hp (start_clean h0 p) hc
  rcases run_agree (t := t) hp os (.inr ⟨start_clean h0 p, rfl⟩) hm (.inr hc) with ⟨b, hb, _⟩ | ⟨hcl, _⟩
  · simp only [exec, bind_ok_iff, require_ok, exists_const] at h
    obtain ⟨⟨_, hx⟩, h⟩ := h
    have no : ∀ {au : Auth A}, adminOf (run S w os) (.factory p sub) x = .ok au → False := by
      intro au hau
      obtain ⟨h1, h2⟩ := adminOf_ok hau
      rw [hb.auth] at h1
      cases h1
      cases h2
      rw [hp] at hx
      cases hx
    rcases ha with ⟨_, rfl⟩ | ⟨_, rfl⟩ | ⟨_, _, rfl⟩ | ⟨_, rfl⟩
    · simp only [setHook, bind_ok_iff] at h
      obtain ⟨a, h1, _⟩ := h
      exact no h1
    all_goals
      simp only [bind_ok_iff] at h
      obtain ⟨a, h1, _⟩ := h
      exact no h1
  · rw [hcl.contract] at hc
    cases hc

/-! ## Concrete cases -/

/-- Accounts: 0 the module, 1 to 4 users, 5 to 9 contracts. -/
def demoSite : Site (Fin 10) := ⟨0, fun x => decide (5 ≤ x.val)⟩

/-- The beginning, with some other coins. -/
def demoStart : Chain (Fin 10) :=
  ⟨fun _ => none, fun d _ => match d with | .plain _ => 1000 | _ => 0, fun d => match d with | .plain _ => 10000 | _ => 0,
    fun _ => none, fun _ => none⟩

theorem demoStart_start : Start demoStart :=
  ⟨fun _ => rfl, fun _ _ _ => rfl, fun _ _ => rfl, fun _ => rfl, fun _ => rfl⟩

/-- Contract 5 is set up with tracker 6; user 1 points the hook of a denom of their own there too, in vain; tokens are minted, sent
and burnt. -/
def demoOps : List (Env × Tx (Fin 10)) :=
  [(⟨1, 5⟩, .setup 5 ['l', 'p'] (some 0) 6), (⟨2, 11⟩, .mint 5 1 100), (⟨2, 11⟩, .user 1 (.createDenom ['x'])),
    (⟨3, 16⟩, .user 1 (.setHook (.factory 1 ['x']) (some 6))), (⟨3, 16⟩, .user 1 (.mint (.factory 1 ['x']) 2 7)),
    (⟨4, 22⟩, .user 1 (.send (.factory 5 ['l', 'p']) 2 30)), (⟨6, 33⟩, .user 2 (.send (.factory 5 ['l', 'p']) 5 10)),
    (⟨7, 40⟩, .burn 5 10), (⟨8, 46⟩, .user 1 (.setHook (.factory 5 ['l', 'p']) none))]

instance (os : List (Env × Tx A)) (now : Env) : Decidable (Timely os now) := inferInstanceAs (Decidable (_ ∧ _))

example : Timely demoOps ⟨9, 50⟩ ∧
    ((run demoSite demoStart demoOps).contract 5).map (fun c => (c.denom, c.tracker)) = some (.factory 5 ['l', 'p'], some 6) ∧
    ([1, 2, 4, 5, 6, 7, 8].map fun u => (balanceAt (run demoSite demoStart demoOps) 6 ⟨9, 50⟩ 2 (some u))) =
      [some 0, some 0, some 0, some 30, some 30, some 20, some 20] ∧
    ([none, some 3, some 7].map fun u => totalSupplyAt (run demoSite demoStart demoOps) 6 ⟨9, 50⟩ u) =
      [some 100, some 100, some 100] ∧
    (run demoSite demoStart demoOps).supply (.factory 5 ['l', 'p']) = 90 ∧
    (run demoSite demoStart demoOps).supply (.factory 1 ['x']) = 0 := by decide +kernel

example : ∀ o ∈ demoOps, ∀ sub m t, o.2 = .setup 5 sub (some m) t → m = demoSite.mod := by
  intro o ho sub m t h
  simp only [demoOps, List.mem_cons, List.not_mem_nil, or_false] at ho
  rcases ho with rfl | rfl | rfl | rfl | rfl | rfl | rfl | rfl | rfl <;> cases h
  rfl

/-- **C176.**  The module account is needed: a contract whose tracker is told another account has no record of that account's
balance (account 1 holds 100 and the tracker says 0, now and later). -/
theorem C176_module_account_matters :
    ∃ (os : List (Env × Tx (Fin 10))) (now : Env), Timely os now ∧
      ((run demoSite demoStart os).contract 5).map (fun c => (c.denom, c.tracker)) = some (.factory 5 ['l', 'p'], some 6) ∧
      (run demoSite demoStart os).bank (.factory 5 ['l', 'p']) 1 = 100 ∧
      balanceAt (run demoSite demoStart os) 6 now 1 none = some 0 ∧ balanceAt (run demoSite demoStart os) 6 now 1 (some 8) = some 0 :=
  ⟨[(⟨1, 5⟩, .setup 5 ['l', 'p'] (some 1) 6), (⟨2, 11⟩, .mint 5 1 100)], ⟨7, 40⟩, by decide +kernel⟩

end Verif.Tracked
