import Verif.Vesting.Props
import Verif.Ownership.Model
import Verif.Asset.Ledgers

/-!
# Messages to the vesting contract (C177)

The vesting contract as it stands on a chain: any account may send any message with any coins attached, token contracts call it
when somebody sends them tokens (their own, or another's that they may spend), coins and tokens move between accounts, and the
contract pays by messages.  What `Vesting/Model.lean` takes for granted - that the tokens of a registration have arrived, and
who is the owner - is here part of the model.

Assumed: cw20 tokens follow `cw20-base`.  Simplified: addresses are accounts; messages that cannot be parsed fail and are left out.
-/

namespace Verif.Vesting.Entry

open Verif Verif.Vesting
open Verif.Asset (Str Coin sent)
open Verif.Ledgers (Led attach ValidFunds isNative pay transferFrom Moved move_moved pay_moved transferFrom_moved attach_spec)

set_option linter.unusedSectionVars false

variable {A : Type} [DecidableEq A]

/-- `CONFIG.vesting_token` (contracts/tokenomics/vesting/src/state.rs:9-16), the contract's own address and the addresses as text. -/
structure Cfg (A : Type) where
  me : A
  token : Asset.Info
  addr : A → Str

/-- The ledgers of the chain, `CONFIG.owner` with `OWNERSHIP_PROPOSAL`, `VESTING_INFO` (contracts/tokenomics/vesting/src/state.rs:18-25)
and the block time. -/
structure Chain (A : Type) where
  led : Led A
  own : Ownership.State A
  info : A → Option Info
  now : Nat

/-- `register_vesting_accounts`, contracts/tokenomics/vesting/src/contract.rs:158-213. -/
def registerMsg (w : Chain A) (accounts : List (A × List Schedule)) (amount : Nat) : Res (Chain A) := do
  let (infos, dep) ← registerLoop w.now w.info 0 accounts
  require (dep = amount) (.invalid "VestingScheduleAmountError")
  .ok { w with info := infos }

/-- `claim`, contracts/tokenomics/vesting/src/contract.rs:244-283, with its payment executed; returns the amount paid. -/
def claimMsg (c : Cfg A) (w : Chain A) (sender : A) (recipient : Option A) (amount : Option Nat) : Res (Chain A × Nat) := do
  let i ← orErr (w.info sender) (.invalid "not found")
  let avail ← available w.now i
  let x ← claimAmount avail amount
  if x ≠ 0 then do
    let r ← u128 (i.released + x)
    let led ← pay c.me w.led c.token (recipient.getD sender) x
    .ok ({ w with info := Function.update w.info sender (some { i with released := r }), led := led }, x)
  else .ok (w, x)

/-- `withdraw_from_active_schedule`, contracts/tokenomics/vesting/src/contract.rs:348-418, with its payment executed. -/
def withdrawMsg (c : Cfg A) (w : Chain A) (sender account : A) (recipient : Option A) (amount : Nat) : Res (Chain A) := do
  require (amount ≠ 0) (.invalid "ZeroAmountWithdrawal")
  require (sender = w.own.owner) .unauthorized
  let i ← orErr (w.info account) (.invalid "not found")
  let ss ← cutActive w.now amount i.schedules
  let led ← pay c.me w.led c.token (recipient.getD sender) amount
  .ok { w with info := Function.update w.info account (some { i with schedules := ss }), led := led }

/-- `cw_utils::must_pay`: exactly one coin, of this denom. -/
def mustPay (funds : List Coin) (d : Str) : Res Nat :=
  match funds with
  | [x] =>
    if x.amount = 0 then .error (.invalid "NoFunds")
    else if x.denom = d then .ok x.amount else .error (.invalid "MissingDenom")
  | [] => .error (.invalid "NoFunds")
  | _ => .error (.invalid "MultipleDenoms")

/-- `ExecuteMsg`, packages/astroport/src/vesting.rs:18-60, and `Cw20HookMsg` inside `Receive`. -/
inductive Msg (A : Type)
  | claim (recipient : Option A) (amount : Option Nat)
  | receive (sender : A) (amount : Nat) (accounts : List (A × List Schedule))
  | register (accounts : List (A × List Schedule))
  | withdraw (account : A) (recipient : Option A) (amount : Nat)
  | ownership (m : Ownership.Msg A)

/-- `execute`, contracts/tokenomics/vesting/src/contract.rs:71-128, and `receive_cw20`, 133-151.  The attached coins have arrived. -/
def execute (c : Cfg A) (w : Chain A) (sender : A) (funds : List Coin) : Msg A → Res (Chain A)
  | .claim r n => do
    let (w, _) ← claimMsg c w sender r n
    .ok w
  | .receive user n l => do
    require (user = w.own.owner ∧ c.token = .token (c.addr sender)) .unauthorized
    registerMsg w l n
  | .register l =>
    match c.token with
    | .native d => do
      require (sender = w.own.owner) .unauthorized
      let n ← mustPay funds d
      registerMsg w l n
    | .token _ => .error .unauthorized
  | .withdraw a r n => withdrawMsg c w sender a r n
  | .ownership m => do
    let o ← Ownership.exec w.own ⟨sender, w.now, m⟩
    .ok { w with own := o }

/-- What can happen on the chain. -/
inductive Tx (A : Type)
  /-- a message with coins attached -/
  | call (sender : A) (funds : List Coin) (m : Msg A)
  /-- `Send` (`owner = spender`) or `SendFrom` of a token to the contract, with a registration inside -/
  | send (token owner spender : A) (amount : Nat) (accounts : List (A × List Schedule))
  | transfer (k : Asset.Info) (src dst : A) (n : Nat)
  | transferFrom (token : Str) (owner spender dst : A) (n : Nat)
  | approve (token : Str) (owner spender : A) (n : Nat)
  | wait (seconds : Nat)

/-- One transaction.  Any account but the contract itself and the contract of the vesting token may call anything; a token contract
calls the contract with what was really sent. -/
def exec (c : Cfg A) (w : Chain A) : Tx A → Res (Chain A)
  | .call x funds m => do
    require (x ≠ c.me ∧ c.token ≠ .token (c.addr x)) .unauthorized
    require (ValidFunds funds) (.invalid "invalid coins")
    let led ← attach w.led x c.me funds
    execute c { w with led := led } x funds m
  | .send token owner spender n l => do
    require (owner ≠ c.me ∧ spender ≠ c.me) .unauthorized
    let led ← (if owner = spender then w.led.move (.token (c.addr token)) owner c.me n
      else transferFrom w.led (c.addr token) owner spender c.me n)
    execute c { w with led := led } token [] (.receive spender n l)
  | .transfer k src dst n => do
    require (src ≠ c.me) .unauthorized
    let led ← w.led.move k src dst n
    .ok { w with led := led }
  | .transferFrom t owner spender dst n => do
    require (owner ≠ c.me ∧ spender ≠ c.me) .unauthorized
    let led ← transferFrom w.led t owner spender dst n
    .ok { w with led := led }
  | .approve t owner spender n => do
    require (owner ≠ c.me) .unauthorized
    .ok { w with led := { w.led with allow := fun t' o s => if t' = t ∧ o = owner ∧ s = spender then n else w.led.allow t' o s } }
  | .wait d => .ok { w with now := w.now + d }

/-- Reverting step. -/
def step (c : Cfg A) (w : Chain A) (t : Tx A) : Chain A := commit' w (exec c w t)

/-- History. -/
def run (c : Cfg A) (w : Chain A) (ts : List (Tx A)) : Chain A := ts.foldl (step c) w

/-- `instantiate`, contracts/tokenomics/vesting/src/contract.rs:30-49: an owner, no accounts; ledgers and time are arbitrary. -/
def start (led : Led A) (owner : A) (now : Nat) : Chain A := ⟨led, ⟨owner, none⟩, fun _ => none, now⟩

/-! ## Specification -/

/-- What the vesting transactions see of the chain. -/
def view (c : Cfg A) (w : Chain A) : State A := ⟨w.own.owner, w.info, w.led.of c.token, w.now⟩

/-- Coins of the vesting token that come along with a message. -/
def arrives (c : Cfg A) (x : A) (funds : List Coin) : List (Op A) :=
  match c.token with
  | .native d => [.transfer x c.me (sent funds d)]
  | .token _ => []

/-- A transfer, if it is one of the vesting token. -/
def moves (c : Cfg A) (k : Asset.Info) (src dst : A) (n : Nat) : List (Op A) := if k = c.token then [.transfer src dst n] else []

/-- **Specification.**  What a transaction on the chain means for vesting: a claim or withdrawal by the sender, a registration paid
with exactly what was sent, a new owner who has accepted, or plain transfers of the vesting token. -/
def meaning (c : Cfg A) : Tx A → List (Op A)
  | .call x funds (.claim r n) => arrives c x funds ++ [.claim x r n]
  | .call x funds (.register l) =>
    match c.token with
    | .native d => [.register x l (sent funds d)]
    | .token _ => []
  | .call x funds (.withdraw a r n) => arrives c x funds ++ [.withdraw x a r n]
  | .call x funds (.ownership .claim) => arrives c x funds ++ [.setOwner x]
  | .call x funds (.ownership _) => arrives c x funds
  | .call _ _ (.receive ..) => []
  | .send _ owner spender n l => [.transfer owner spender n, .register spender l n]
  | .transfer k src dst n => moves c k src dst n
  | .transferFrom t owner _ dst n => moves c (.token t) owner dst n
  | .approve .. => []
  | .wait d => [.wait d]

/-- One vesting transaction after the other, all of which succeed. -/
def thenAll (me : A) (s : State A) (ops : List (Op A)) : Res (State A) :=
  ops.foldlM (fun s o => do
    let (s, _) ← Vesting.exec me s o
    .ok s) s

/-! ## Lemmas -/

theorem thenAll_append {me : A} {xs ys : List (Op A)} {s s' s'' : State A} (h1 : thenAll me s xs = .ok s')
    (h2 : thenAll me s' ys = .ok s'') : thenAll me s (xs ++ ys) = .ok s'' := by
  unfold thenAll at *
  rw [List.foldlM_append, h1]
  exact h2

theorem thenAll_one {me : A} {o : Op A} {s s' : State A} : thenAll me s [o] = .ok s' ↔ ∃ n, Vesting.exec me s o = .ok (s', n) := by
  unfold thenAll
  simp only [List.foldlM_cons, List.foldlM_nil, bind_ok_iff, pure_eq_ok, Except.ok.injEq, exists_eq_right, Prod.exists]
  constructor
  · rintro ⟨a, b, h, rfl⟩
    exact ⟨b, h⟩
  · rintro ⟨n, h⟩
    exact ⟨s', n, h, rfl⟩

theorem thenAll_run {me : A} : ∀ {ops : List (Op A)} {s s' : State A}, thenAll me s ops = .ok s' → Vesting.run me s ops = s' := by
  intro ops
  induction ops with
  | nil =>
    intro s s' h
    simp only [thenAll, List.foldlM_nil, pure_eq_ok, Except.ok.injEq] at h
    exact h
  | cons o os ih =>
    intro s s' h
    unfold thenAll at h
    simp only [List.foldlM_cons, bind_ok_iff, Except.ok.injEq, Prod.exists] at h
    obtain ⟨s1, ⟨a, n, h1, rfl⟩, h2⟩ := h
    have e : Vesting.run me s (o :: os) = Vesting.run me (Vesting.step me s o) os := rfl
    rw [e]
    have : Vesting.step me s o = a := by
      unfold Vesting.step
      rw [h1]
      rfl
    rw [this]
    exact ih h2

/-- Coins arrive. -/
theorem attach_meaning {c : Cfg A} {w : Chain A} {led : Led A} {x : A} {funds : List Coin} (hx : x ≠ c.me)
    (h : attach w.led x c.me funds = .ok led) : thenAll c.me (view c w) (arrives c x funds) = .ok (view c { w with led := led }) := by
  obtain ⟨hb, ht⟩ := attach_spec hx h
  unfold arrives
  cases hk : c.token with
  | native d =>
    simp only [thenAll_one, Vesting.exec, bind_ok_iff, require_ok, exists_const, Except.ok.injEq, Prod.mk.injEq]
    refine ⟨0, hx, led.bank d, ?_, ?_, rfl⟩
    · simp only [view, hk]
      exact hb d
    · simp only [view, hk]
      rfl
  | token t =>
    simp only [thenAll, List.foldlM_nil, pure_eq_ok, view, hk, Ledgers.Led.of, ht]

theorem moves_meaning {c : Cfg A} {w : Chain A} {led : Led A} {k : Asset.Info} {src dst : A} {n : Nat} (hs : src ≠ c.me)
    (m : Moved w.led k src (some dst) n led) :
    thenAll c.me (view c w) (moves c k src dst n) = .ok (view c { w with led := led }) := by
  unfold moves
  split_ifs with hk
  · subst hk
    simp only [thenAll_one, Vesting.exec, bind_ok_iff, require_ok, exists_const, Except.ok.injEq, Prod.mk.injEq]
    exact ⟨0, hs, _, m.move, rfl, rfl⟩
  · simp only [thenAll, List.foldlM_nil, pure_eq_ok, view, m.other _ (Ne.symm hk)]

theorem claim_meaning {c : Cfg A} {w w' : Chain A} {x : A} {r : Option A} {n : Option Nat} {paid : Nat}
    (h : claimMsg c w x r n = .ok (w', paid)) : Vesting.claim c.me (view c w) x r n = .ok (view c w', paid) := by
  unfold claimMsg at h
  unfold Vesting.claim
  simp only [bind_ok_iff, orErr_ok] at h ⊢
  obtain ⟨i, hi, av, hav, y, hy, h⟩ := h
  refine ⟨i, hi, av, hav, y, hy, ?_⟩
  split at h
  · rename_i hy0
    simp only [bind_ok_iff, Except.ok.injEq, Prod.mk.injEq] at h
    obtain ⟨rel, hrel, led, hled, rfl, rfl⟩ := h
    rw [if_pos hy0]
    simp only [bind_ok_iff, Except.ok.injEq, Prod.mk.injEq]
    exact ⟨rel, hrel, _, (pay_moved hled).move, rfl, trivial⟩
  · rename_i hy0
    simp only [Except.ok.injEq, Prod.mk.injEq] at h
    obtain ⟨rfl, rfl⟩ := h
    rw [if_neg hy0]

theorem withdraw_meaning {c : Cfg A} {w w' : Chain A} {x a : A} {r : Option A} {n : Nat}
    (h : withdrawMsg c w x a r n = .ok w') : Vesting.withdraw c.me (view c w) x a r n = .ok (view c w') := by
  unfold withdrawMsg at h
  unfold Vesting.withdraw
  simp only [bind_ok_iff, require_ok, exists_const, orErr_ok, Except.ok.injEq] at h ⊢
  obtain ⟨hn, hx, i, hi, ss, hss, led, hled, rfl⟩ := h
  exact ⟨hn, hx, i, hi, ss, hss, _, (pay_moved hled).move, rfl⟩

theorem mustPay_ok {funds : List Coin} {d : Str} {n : Nat} (h : mustPay funds d = .ok n) : funds = [⟨d, n⟩] ∧ n ≠ 0 := by
  unfold mustPay at h
  split at h
  · rename_i x
    split_ifs at h with h1 h2
    simp only [Except.ok.injEq] at h
    subst h
    exact ⟨by rw [← h2], h1⟩
  · cases h
  · cases h

/-- A registration of what has just arrived from the sender. -/
theorem register_meaning {c : Cfg A} {w w' : Chain A} {l0 : A → Nat} {x : A} {l : List (A × List Schedule)} {n : Nat}
    (hmove : Verif.move l0 x c.me n = .ok (w.led.of c.token)) (hx : x = w.own.owner) (h : registerMsg w l n = .ok w') :
    Vesting.register c.me ⟨w.own.owner, w.info, l0, w.now⟩ x l n = .ok (view c w') := by
  unfold registerMsg at h
  simp only [bind_ok_iff, require_ok, exists_const, Except.ok.injEq, Prod.exists] at h
  obtain ⟨infos, dep, h1, h2, rfl⟩ := h
  unfold Vesting.register
  simp only [bind_ok_iff, require_ok, exists_const, Except.ok.injEq, Prod.exists]
  exact ⟨_, hmove, hx, infos, dep, h1, h2, rfl⟩

theorem move_via {l l1 : A → Nat} {o x m : A} {n : Nat} (hom : o ≠ m) (hxm : x ≠ m) (h : Verif.move l o m n = .ok l1) :
    ∃ l', Verif.move l o x n = .ok l' ∧ Verif.move l' x m n = .ok l1 := by
  obtain ⟨l', h'⟩ := move_succeeds (l := l) (a := o) (b := x) (move_le h)
  refine ⟨l', h', ?_⟩
  have hle := move_le h
  have e1 := move_apply h
  have e' := move_apply h'
  have hx : n ≤ l' x := by
    rw [e' x]
    split_ifs <;> simp_all
  obtain ⟨l2, h2⟩ := move_succeeds (l := l') (a := x) (b := m) hx
  rw [h2]
  congr 1
  funext z
  rw [move_apply h2, e1, e']
  have hlz : z = o → n ≤ l z := fun e => e ▸ hle
  by_cases hzo : z = o <;> by_cases hzx : z = x <;> by_cases hzm : z = m <;> simp_all

/-! ## C177 -/

/-- **C177.**  Whatever accounts send to the vesting contract (any message, any attached coins, tokens sent by their owners or by
approved spenders), a transaction that succeeds is, for vesting, exactly the claim, registration, withdrawal, change of owner or
transfers that `meaning` names: registrations are paid with what was sent, nothing else is counted. -/
theorem C177_messages_are_vesting_transactions (c : Cfg A) (w w' : Chain A) (t : Tx A) (h : exec c w t = .ok w') :
    thenAll c.me (view c w) (meaning c t) = .ok (view c w') := by
  cases t with
  | call x funds m =>
    simp only [exec, bind_ok_iff, require_ok, exists_const] at h
    obtain ⟨⟨hx, htok⟩, hf, led, ha, h⟩ := h
    cases m with
    | claim r n =>
      simp only [execute, bind_ok_iff, Except.ok.injEq, Prod.exists] at h
      obtain ⟨w1, paid, h1, rfl⟩ := h
      refine thenAll_append (attach_meaning hx ha) (thenAll_one.2 ⟨paid, ?_⟩)
      simp only [Vesting.exec, bind_ok_iff, require_ok, exists_const]
      exact ⟨hx, claim_meaning h1⟩
    | receive u n l =>
      simp only [execute, bind_ok_iff, require_ok, exists_const] at h
      exact absurd h.1.2 htok
    | register l =>
      simp only [execute, meaning] at h ⊢
      cases hk : c.token with
      | token s => simp [hk] at h
      | native d =>
        simp only [hk, bind_ok_iff, require_ok, exists_const] at h
        obtain ⟨hown, n, hp, h⟩ := h
        obtain ⟨rfl, hn⟩ := mustPay_ok hp
        have es : sent [⟨d, n⟩] d = n := by simp [sent]
        obtain ⟨hb, _⟩ := attach_spec hx ha
        have hm := hb d
        rw [es] at hm
        refine thenAll_one.2 ⟨0, ?_⟩
        simp only [Vesting.exec, bind_ok_iff, require_ok, exists_const, Except.ok.injEq, Prod.mk.injEq]
        refine ⟨hx, _, ?_, rfl, trivial⟩
        rw [es]
        have e0 : view c w = ⟨w.own.owner, w.info, w.led.bank d, w.now⟩ := by simp [view, hk, Ledgers.Led.of]
        rw [e0]
        exact register_meaning (c := c) (w := { w with led := led }) (by rw [hk]; exact hm) hown h
    | withdraw a r n =>
      simp only [execute] at h
      refine thenAll_append (attach_meaning hx ha) (thenAll_one.2 ⟨0, ?_⟩)
      simp only [Vesting.exec, bind_ok_iff, require_ok, exists_const, Except.ok.injEq, Prod.mk.injEq]
      exact ⟨hx, _, withdraw_meaning h, rfl, trivial⟩
    | ownership m =>
      simp only [execute, bind_ok_iff, Except.ok.injEq] at h
      obtain ⟨o, ho, rfl⟩ := h
      cases m with
      | propose a e =>
        simp only [Ownership.exec, Ownership.propose, bind_ok_iff, require_ok, exists_const, Except.ok.injEq] at ho
        obtain ⟨_, _, _, rfl⟩ := ho
        exact attach_meaning hx ha
      | drop =>
        simp only [Ownership.exec, Ownership.drop, bind_ok_iff, require_ok, exists_const, Except.ok.injEq] at ho
        obtain ⟨_, rfl⟩ := ho
        exact attach_meaning hx ha
      | claim =>
        simp only [Ownership.exec, Ownership.claim, bind_ok_iff, require_ok, exists_const, Except.ok.injEq] at ho
        obtain ⟨p, _, hp, _, rfl⟩ := ho
        refine thenAll_append (attach_meaning hx ha) (thenAll_one.2 ⟨0, ?_⟩)
        simp only [Vesting.exec, view, hp]
  | send token owner spender n l =>
    simp only [exec, execute, bind_ok_iff, require_ok, exists_const] at h
    obtain ⟨⟨ho, hs⟩, led, hin, ⟨hown, hk⟩, h⟩ := h
    have hm : Moved w.led (.token (c.addr token)) owner (some c.me) n led := by
      split_ifs at hin
      · exact move_moved hin
      · exact transferFrom_moved hin
    have hmove : Verif.move (w.led.of c.token) owner c.me n = .ok (led.of c.token) := by
      rw [hk]
      exact hm.move
    obtain ⟨l', g1, g2⟩ := move_via ho hs hmove
    refine thenAll_append (s' := ⟨w.own.owner, w.info, l', w.now⟩) (xs := [_]) (thenAll_one.2 ⟨0, ?_⟩) (thenAll_one.2 ⟨0, ?_⟩)
    · simp only [Vesting.exec, bind_ok_iff, require_ok, exists_const, Except.ok.injEq, Prod.mk.injEq]
      exact ⟨ho, l', g1, rfl, trivial⟩
    · simp only [Vesting.exec, bind_ok_iff, require_ok, exists_const, Except.ok.injEq, Prod.mk.injEq]
      exact ⟨hs, _, register_meaning (c := c) (w := { w with led := led }) g2 hown h, rfl, trivial⟩
  | transfer k src dst n =>
    simp only [exec, bind_ok_iff, require_ok, exists_const, Except.ok.injEq] at h
    obtain ⟨hs, led, hl, rfl⟩ := h
    exact moves_meaning hs (move_moved hl)
  | transferFrom t owner spender dst n =>
    simp only [exec, bind_ok_iff, require_ok, exists_const, Except.ok.injEq] at h
    obtain ⟨hs, led, hl, rfl⟩ := h
    exact moves_meaning hs.1 (transferFrom_moved hl)
  | approve t owner spender n =>
    simp only [exec, bind_ok_iff, require_ok, exists_const, Except.ok.injEq] at h
    obtain ⟨_, rfl⟩ := h
    simp only [meaning, thenAll, List.foldlM_nil, pure_eq_ok, Except.ok.injEq, view]
    cases c.token <;> rfl
  | wait d =>
    simp only [exec, Except.ok.injEq] at h
    subst h
    exact thenAll_one.2 ⟨0, rfl⟩

/-- The transactions of a history that succeed. -/
def accepted (c : Cfg A) : Chain A → List (Tx A) → List (Tx A)
  | _, [] => []
  | w, t :: ts =>
    match exec c w t with
    | .ok w' => t :: accepted c w' ts
    | .error _ => accepted c w ts

/-- **C177, histories.**  The vesting contract after any history of the chain is the vesting contract after exactly the claims,
registrations, withdrawals, changes of owner and transfers that the accepted transactions mean. -/
theorem C177_histories (c : Cfg A) (w : Chain A) (ts : List (Tx A)) :
    view c (run c w ts) = Vesting.run c.me (view c w) ((accepted c w ts).flatMap (meaning c)) := by
  induction ts generalizing w with
  | nil => rfl
  | cons t ts ih =>
    have e : run c w (t :: ts) = run c (step c w t) ts := rfl
    rw [e, ih]
    cases h : exec c w t with
    | error x =>
      have e1 : step c w t = w := by
        unfold step
        rw [h]
        rfl
      rw [e1]
      simp only [accepted, h]
    | ok w' =>
      have e1 : step c w t = w' := by
        unfold step
        rw [h]
        rfl
      rw [e1]
      simp only [accepted, h, List.flatMap_cons]
      have := thenAll_run (C177_messages_are_vesting_transactions c w w' t h)
      unfold Vesting.run at *
      rw [List.foldl_append, this]

theorem view_start (c : Cfg A) (led : Led A) (owner : A) (now : Nat) :
    view c (start led owner now) = initial owner (led.of c.token) now := rfl

theorem inv_chain (c : Cfg A) (led : Led A) (owner : A) (now : Nat) (ts : List (Tx A)) :
    Inv (view c (run c (start led owner now) ts)) := by
  rw [C177_histories, view_start]
  exact inv_run (inv_initial owner _ now) _

/-- **C177, funding.**  In every history of the chain the vesting contract's own balance of the vesting token covers everything it
still owes to all accounts together, now or later, and no account was paid more than its schedules have unlocked. -/
theorem C177_fully_funded_on_chain [Fintype A] (c : Cfg A) (led : Led A) (owner : A) (now : Nat) (ts : List (Tx A)) :
    let w := run c (start led owner now) ts
    ∑ a, (totalAll (schedulesOf (view c w) a) - releasedOf (view c w) a) ≤ w.led.of c.token c.me ∧
    ∀ a, releasedOf (view c w) a ≤ dueAll (schedulesOf (view c w) a) w.now := by
  intro w
  have hi : Inv (view c w) := inv_chain c led owner now ts
  refine ⟨?_, ?_⟩
  · have e : view c w = Vesting.run c.me (initial owner (led.of c.token) now)
        ((accepted c (start led owner now) ts).flatMap (meaning c)) := by
      rw [← view_start]
      exact C177_histories c _ ts
    have := (C25_fully_funded c.me owner (led.of c.token) now ((accepted c (start led owner now) ts).flatMap (meaning c))).1
    rw [← e] at this
    exact this
  · intro a
    unfold releasedOf schedulesOf
    cases hia : (view c w).info a with
    | none => simp
    | some i => exact hi.released a i hia

/-- **C177, claims.**  Whatever happened before, every account that has vesting schedules can claim at any time, with nothing
attached, and its claim pays the chosen recipient exactly what has been unlocked and not yet paid (unless its schedules add up to
more than 128 bits). -/
theorem C177_claim_available [Fintype A] (c : Cfg A) (led : Led A) (owner : A) (now : Nat) (ts : List (Tx A)) (a : A) (i : Info)
    (r : Option A) (ha : a ≠ c.me) (hat : c.token ≠ .token (c.addr a)) (hr : r.getD a ≠ c.me)
    (hia : (run c (start led owner now) ts).info a = some i) (hU : totalAll i.schedules < U128) :
    let w := run c (start led owner now) ts
    ∃ w', exec c w (.call a [] (.claim r none)) = .ok w' ∧
      w'.led.of c.token (r.getD a) = w.led.of c.token (r.getD a) + (dueAll i.schedules w.now - i.released) ∧
      releasedOf (view c w') a = dueAll i.schedules w.now ∧ schedulesOf (view c w') a = i.schedules := by
  intro w
  have hi : Inv (view c w) := inv_chain c led owner now ts
  have hf : Funded c.me (view c w) := (C177_fully_funded_on_chain c led owner now ts).1
  have hia' : (view c w).info a = some i := hia
  have hv := hi.valid a i hia'
  have hrel : i.released ≤ dueAll i.schedules w.now := hi.released a i hia'
  have hdt := dueAll_le_total hv w.now
  have hav : available w.now i = .ok (dueAll i.schedules w.now - i.released) := by
    unfold available
    rw [sumUnlocked_ok hv (by omega), ok_bind, csub_ok]
    exact ⟨by omega, by omega⟩
  have hoa : owed (view c w) a = totalAll i.schedules - i.released := by
    simp [owed, schedulesOf, releasedOf, hia']
  have hle : owed (view c w) a ≤ ∑ b, owed (view c w) b := le_sum (owed (view c w)) a
  have hbal : totalAll i.schedules - i.released ≤ w.led.of c.token c.me := by
    have h1 : ∑ b, owed (view c w) b ≤ w.led.of c.token c.me := hf
    omega
  by_cases h0 : dueAll i.schedules w.now - i.released = 0
  · refine ⟨w, ?_, by omega, ?_, ?_⟩
    · simp only [exec, execute, bind_ok_iff, require_ok, exists_const, Except.ok.injEq, Prod.exists]
      refine ⟨⟨ha, hat⟩, by decide, w.led, rfl, w, 0, ?_, rfl⟩
      have e1 : orErr (w.info a) (.invalid "not found") = .ok i := by
        rw [hia]
        rfl
      simp only [claimMsg, e1, ok_bind, hav, claimAmount, h0]
      rfl
    · simp only [releasedOf, hia']
      omega
    · simp only [schedulesOf, hia']
  · obtain ⟨l, hl⟩ := move_succeeds (l := w.led.of c.token) (a := c.me) (b := r.getD a)
      (n := dueAll i.schedules w.now - i.released) (by omega)
    have hp : pay c.me w.led c.token (r.getD a) (dueAll i.schedules w.now - i.released) = .ok (w.led.set c.token l) := by
      simp only [pay, bind_ok_iff, require_ok, exists_const, Ledgers.Led.move]
      exact ⟨fun h => h0 h.2, l, hl, rfl⟩
    refine ⟨{ w with info := Function.update w.info a (some { i with released := dueAll i.schedules w.now }),
                     led := w.led.set c.token l }, ?_, ?_, ?_, ?_⟩
    · simp only [exec, execute, bind_ok_iff, require_ok, exists_const, Except.ok.injEq, Prod.exists]
      refine ⟨⟨ha, hat⟩, by decide, w.led, rfl, _, dueAll i.schedules w.now - i.released, ?_, rfl⟩
      have e1 : orErr (w.info a) (.invalid "not found") = .ok i := by
        rw [hia]
        rfl
      have e2 : u128 (i.released + (dueAll i.schedules w.now - i.released)) = .ok (dueAll i.schedules w.now) := by
        rw [u128_ok]
        exact ⟨by omega, by omega⟩
      simp only [claimMsg, e1, ok_bind, hav, claimAmount]
      rw [if_pos h0]
      simp only [e2, ok_bind, hp]
    · simp only [Ledgers.of_set, if_true]
      rw [move_apply hl, if_pos rfl, if_neg hr]
    · simp [releasedOf, view]
    · simp [schedulesOf, view]

theorem registerLoop_paid {now : Nat} {l : List (A × List Schedule)} {infos infos' : A → Option Info} {acc d : Nat}
    (h : registerLoop now infos acc l = .ok (infos', d)) : d = acc + (l.map fun e => totalAll e.2).sum := by
  induction l generalizing infos acc with
  | nil =>
    simp [registerLoop] at h
    simp [h.2]
  | cons x rest ih =>
    obtain ⟨b, ss⟩ := x
    unfold registerLoop at h
    simp only [bind_ok_iff, require_ok, exists_const] at h
    obtain ⟨_, acc', hacc, i, _, h⟩ := h
    have h1 := ih h
    have h2 := addTotals_ok hacc
    simp only [List.map_cons, List.sum_cons]
    omega

/-- **C177, registrations.**  Schedules are registered only by the contract's owner (or by an approved spender who is the owner), and
only together with a payment to the contract, in the vesting token, of exactly the sum of the totals of all new schedules. -/
theorem C177_registrations_are_paid_for (c : Cfg A) (w w' : Chain A) :
    (∀ x funds l, exec c w (.call x funds (.register l)) = .ok w' →
      x = w.own.owner ∧ w'.led.of c.token c.me = w.led.of c.token c.me + (l.map fun e => totalAll e.2).sum ∧
      w'.led.of c.token x + (l.map fun e => totalAll e.2).sum = w.led.of c.token x) ∧
    (∀ t o x n l, exec c w (.send t o x n l) = .ok w' →
      x = w.own.owner ∧ n = (l.map fun e => totalAll e.2).sum ∧ w'.led.of c.token c.me = w.led.of c.token c.me + n ∧
      w'.led.of c.token o + n = w.led.of c.token o ∧
      (o ≠ x → w'.led.allow (c.addr t) o x + n = w.led.allow (c.addr t) o x)) := by
  constructor
  · intro x funds l h
    simp only [exec, execute, bind_ok_iff, require_ok, exists_const] at h
    obtain ⟨⟨hx, _⟩, _, led, ha, h⟩ := h
    cases hk : c.token with
    | token s => simp [hk] at h
    | native d =>
      simp only [hk, bind_ok_iff, require_ok, exists_const] at h
      obtain ⟨hown, n, hp, h⟩ := h
      obtain ⟨rfl, hn⟩ := mustPay_ok hp
      simp only [registerMsg, bind_ok_iff, require_ok, exists_const, Except.ok.injEq, Prod.exists] at h
      obtain ⟨infos, dep, h1, rfl, rfl⟩ := h
      have e := registerLoop_paid h1
      rw [Nat.zero_add] at e
      have hm := (attach_spec hx ha).1 d
      have es : sent [⟨d, dep⟩] d = dep := by simp [sent]
      rw [es] at hm
      have hle := move_le hm
      have h2 := move_apply hm c.me
      have h3 := move_apply hm x
      rw [if_neg hx.symm, if_pos rfl] at h2
      rw [if_pos rfl, if_neg hx] at h3
      refine ⟨hown, ?_, ?_⟩
      · simp only [Ledgers.Led.of]
        omega
      · simp only [Ledgers.Led.of]
        omega
  · intro t o x n l h
    simp only [exec, execute, bind_ok_iff, require_ok, exists_const] at h
    obtain ⟨⟨ho, hs⟩, led, hin, ⟨hown, hk⟩, h⟩ := h
    simp only [registerMsg, bind_ok_iff, require_ok, exists_const, Except.ok.injEq, Prod.exists] at h
    obtain ⟨infos, dep, h1, rfl, rfl⟩ := h
    have e := registerLoop_paid h1
    rw [Nat.zero_add] at e
    have hm : Moved w.led (.token (c.addr t)) o (some c.me) dep led := by
      split_ifs at hin
      · exact move_moved hin
      · exact transferFrom_moved hin
    have hmove : Verif.move (w.led.of c.token) o c.me dep = .ok (led.of c.token) := by
      rw [hk]
      exact hm.move
    have hle := move_le hmove
    have h2 := move_apply hmove c.me
    have h3 := move_apply hmove o
    rw [if_neg ho.symm, if_pos rfl] at h2
    rw [if_pos rfl, if_neg ho] at h3
    refine ⟨hown, e, by omega, ?_, fun hne => ?_⟩
    · show led.of c.token o + dep = w.led.of c.token o
      omega
    rw [if_neg hne] at hin
    exact (Ledgers.transferFrom_allow hin).2

/-- **C177, spoofing.**  Nobody but the vesting token can make the contract believe that tokens have arrived: every `Receive` message
sent by an account is refused, tokens of any other contract are refused, and if the vesting token is a coin so are all tokens. -/
theorem C177_spoofed_tokens_refused (c : Cfg A) (w w' : Chain A) :
    (∀ x funds u n l, exec c w (.call x funds (.receive u n l)) ≠ .ok w') ∧
    (∀ t o x n l, c.token ≠ .token (c.addr t) → exec c w (.send t o x n l) ≠ .ok w') := by
  constructor
  · intro x funds u n l h
    simp only [exec, execute, bind_ok_iff, require_ok, exists_const] at h
    obtain ⟨⟨_, ht⟩, _, _, _, ⟨_, h⟩, _⟩ := h
    exact ht h
  · intro t o x n l ht h
    simp only [exec, execute, bind_ok_iff, require_ok, exists_const] at h
    obtain ⟨_, _, _, ⟨_, h⟩, _⟩ := h
    exact ht h

/-- **C177, other people's money.**  Whatever anybody sends to the contract costs nobody but them (and, for claims and withdrawals, the
contract itself, in the vesting token only). -/
theorem C177_only_the_sender_pays (c : Cfg A) (w w' : Chain A) (x : A) (funds : List Coin) (m : Msg A)
    (h : exec c w (.call x funds m) = .ok w') (k : Asset.Info) (y : A) (hy : y ≠ x) (hk : y = c.me → k ≠ c.token) :
    w.led.of k y ≤ w'.led.of k y ∧ w'.led.allow = w.led.allow := by
  simp only [exec, bind_ok_iff, require_ok, exists_const] at h
  obtain ⟨⟨hx, htok⟩, hf, led, ha, h⟩ := h
  have h1 := Ledgers.attach_mono ha hy k
  have h2 := Ledgers.attach_keeps ha
  have payment : ∀ {dst n led'}, pay c.me led c.token dst n = .ok led' → w.led.of k y ≤ led'.of k y ∧ led'.allow = w.led.allow := by
    intro dst n led' hp
    refine ⟨h1.trans ?_, (Ledgers.pay_keeps hp).trans h2⟩
    by_cases hym : y = c.me
    · rw [(pay_moved hp).other k (hk hym)]
    · exact (pay_moved hp).mono hym k
  cases m with
  | claim r n =>
    simp only [execute, bind_ok_iff, Except.ok.injEq, Prod.exists] at h
    obtain ⟨w1, paid, h, rfl⟩ := h
    simp only [claimMsg, bind_ok_iff, orErr_ok] at h
    obtain ⟨i, hi, av, hav, z, hz, h⟩ := h
    split at h
    · simp only [bind_ok_iff, Except.ok.injEq, Prod.mk.injEq] at h
      obtain ⟨rel, hrel, led', hp, rfl, rfl⟩ := h
      exact payment hp
    · simp only [Except.ok.injEq, Prod.mk.injEq] at h
      obtain ⟨rfl, rfl⟩ := h
      exact ⟨h1, h2⟩
  | receive u n l =>
    simp only [execute, bind_ok_iff, require_ok, exists_const] at h
    exact absurd h.1.2 htok
  | register l =>
    simp only [execute] at h
    split at h
    · simp only [registerMsg, bind_ok_iff, require_ok, exists_const, Except.ok.injEq, Prod.exists] at h
      obtain ⟨_, _, _, _, _, _, _, rfl⟩ := h
      exact ⟨h1, h2⟩
    · cases h
  | withdraw a r n =>
    simp only [execute, withdrawMsg, bind_ok_iff, require_ok, exists_const, orErr_ok, Except.ok.injEq] at h
    obtain ⟨_, _, _, _, _, _, led', hp, rfl⟩ := h
    exact payment hp
  | ownership m =>
    simp only [execute, bind_ok_iff, Except.ok.injEq] at h
    obtain ⟨o, ho, rfl⟩ := h
    exact ⟨h1, h2⟩

theorem registerLoop_other {now : Nat} {l : List (A × List Schedule)} {infos infos' : A → Option Info} {acc d : Nat}
    (h : registerLoop now infos acc l = .ok (infos', d)) (a : A) (ha : a ∉ l.map Prod.fst) : infos' a = infos a := by
  induction l generalizing infos acc with
  | nil =>
    simp [registerLoop] at h
    rw [h.1]
  | cons x rest ih =>
    obtain ⟨b, ss⟩ := x
    unfold registerLoop at h
    simp only [bind_ok_iff, require_ok, exists_const] at h
    obtain ⟨_, acc', hacc, i, _, h⟩ := h
    simp only [List.map_cons, List.mem_cons, not_or] at ha
    rw [ih h ha.2, Function.update_of_ne ha.1]

/-- **C177, whose vesting.**  The vesting of an account changes only by its own claim, by the owner's withdrawal from it, or by the
owner's registration that names it.  Everything else - messages of others, tokens, coins, time - leaves it as it was. -/
theorem C177_vesting_changes_only_by (c : Cfg A) (w w' : Chain A) (t : Tx A) (h : exec c w t = .ok w') (a : A)
    (hne : w'.info a ≠ w.info a) :
    (∃ funds r n, t = .call a funds (.claim r n)) ∨
    (∃ funds r n, t = .call w.own.owner funds (.withdraw a r n)) ∨
    (∃ funds l, t = .call w.own.owner funds (.register l) ∧ a ∈ l.map Prod.fst) ∨
    (∃ token o n l, t = .send token o w.own.owner n l ∧ c.token = .token (c.addr token) ∧ a ∈ l.map Prod.fst) := by
  cases t with
  | call x funds m =>
    simp only [exec, bind_ok_iff, require_ok, exists_const] at h
    obtain ⟨⟨hx, htok⟩, hf, led, ha, h⟩ := h
    cases m with
    | claim r n =>
      simp only [execute, bind_ok_iff, Except.ok.injEq, Prod.exists] at h
      obtain ⟨w1, paid, h, rfl⟩ := h
      simp only [claimMsg, bind_ok_iff, orErr_ok] at h
      obtain ⟨i, hi, av, hav, z, hz, h⟩ := h
      by_cases hax : a = x
      · subst hax
        exact Or.inl ⟨funds, r, n, rfl⟩
      split at h
      · simp only [bind_ok_iff, Except.ok.injEq, Prod.mk.injEq] at h
        obtain ⟨rel, hrel, led', hp, rfl, rfl⟩ := h
        exact absurd (Function.update_of_ne hax _ _) hne
      · simp only [Except.ok.injEq, Prod.mk.injEq] at h
        obtain ⟨rfl, rfl⟩ := h
        exact absurd rfl hne
    | receive u n l =>
      simp only [execute, bind_ok_iff, require_ok, exists_const] at h
      exact absurd h.1.2 htok
    | register l =>
      simp only [execute] at h
      split at h
      · simp only [registerMsg, bind_ok_iff, require_ok, exists_const, Except.ok.injEq, Prod.exists] at h
        obtain ⟨hown, n, hp, infos, dep, h1, _, rfl⟩ := h
        refine Or.inr (Or.inr (Or.inl ⟨funds, l, by rw [hown], ?_⟩))
        by_contra hmem
        exact hne (registerLoop_other h1 a hmem)
      · cases h
    | withdraw b r n =>
      simp only [execute, withdrawMsg, bind_ok_iff, require_ok, exists_const, orErr_ok, Except.ok.injEq] at h
      obtain ⟨_, hown, i, hi, ss, _, led', hp, rfl⟩ := h
      by_cases hab : a = b
      · subst hab
        exact Or.inr (Or.inl ⟨funds, r, n, by rw [hown]⟩)
      · exact absurd (Function.update_of_ne hab _ _) hne
    | ownership m =>
      simp only [execute, bind_ok_iff, Except.ok.injEq] at h
      obtain ⟨o, ho, rfl⟩ := h
      exact absurd rfl hne
  | send token owner spender n l =>
    simp only [exec, execute, bind_ok_iff, require_ok, exists_const] at h
    obtain ⟨⟨ho, hs⟩, led, hin, ⟨hown, hk⟩, h⟩ := h
    simp only [registerMsg, bind_ok_iff, require_ok, exists_const, Except.ok.injEq, Prod.exists] at h
    obtain ⟨infos, dep, h1, rfl, rfl⟩ := h
    refine Or.inr (Or.inr (Or.inr ⟨token, owner, dep, l, by rw [hown], hk, ?_⟩))
    by_contra hmem
    exact hne (registerLoop_other h1 a hmem)
  | transfer k src dst n =>
    simp only [exec, bind_ok_iff, require_ok, exists_const, Except.ok.injEq] at h
    obtain ⟨hs, led, hl, rfl⟩ := h
    exact absurd rfl hne
  | transferFrom t owner spender dst n =>
    simp only [exec, bind_ok_iff, require_ok, exists_const, Except.ok.injEq] at h
    obtain ⟨hs, led, hl, rfl⟩ := h
    exact absurd rfl hne
  | approve t owner spender n =>
    simp only [exec, bind_ok_iff, require_ok, exists_const, Except.ok.injEq] at h
    obtain ⟨_, rfl⟩ := h
    exact absurd rfl hne
  | wait d =>
    simp only [exec, Except.ok.injEq] at h
    subst h
    exact absurd rfl hne

/-- **C177, other assets stay.**  Coins and tokens other than the vesting token that were sent to the contract never leave it again. -/
theorem C177_other_assets_stay (c : Cfg A) (w : Chain A) (ts : List (Tx A)) (k : Asset.Info) (hk : k ≠ c.token) :
    w.led.of k c.me ≤ (run c w ts).led.of k c.me := by
  induction ts generalizing w with
  | nil => exact le_refl _
  | cons t ts ih =>
    have e : run c w (t :: ts) = run c (step c w t) ts := rfl
    rw [e]
    refine le_trans ?_ (ih _)
    unfold step
    refine commit'_inv (fun w' : Chain A => w.led.of k c.me ≤ w'.led.of k c.me) (le_refl _) fun w' h => ?_
    cases t with
    | call x funds m =>
      have hx : c.me ≠ x := by
        simp only [exec, bind_ok_iff, require_ok, exists_const] at h
        exact fun e => h.1.1 e.symm
      exact (C177_only_the_sender_pays c w w' x funds m h k c.me hx fun _ => hk).1
    | send token owner spender n l =>
      simp only [exec, execute, bind_ok_iff, require_ok, exists_const] at h
      obtain ⟨⟨ho, hs⟩, led, hin, ⟨hown, hkk⟩, h⟩ := h
      simp only [registerMsg, bind_ok_iff, require_ok, exists_const, Except.ok.injEq, Prod.exists] at h
      obtain ⟨infos, dep, h1, rfl, rfl⟩ := h
      have hm : Moved w.led (.token (c.addr token)) owner (some c.me) dep led := by
        split_ifs at hin
        · exact move_moved hin
        · exact transferFrom_moved hin
      exact hm.mono ho.symm k
    | transfer k' src dst n =>
      simp only [exec, bind_ok_iff, require_ok, exists_const, Except.ok.injEq] at h
      obtain ⟨hs, led, hl, rfl⟩ := h
      exact (move_moved hl).mono hs.symm k
    | transferFrom t owner spender dst n =>
      simp only [exec, bind_ok_iff, require_ok, exists_const, Except.ok.injEq] at h
      obtain ⟨hs, led, hl, rfl⟩ := h
      exact (transferFrom_moved hl).mono hs.1.symm k
    | approve t owner spender n =>
      simp only [exec, bind_ok_iff, require_ok, exists_const, Except.ok.injEq] at h
      obtain ⟨_, rfl⟩ := h
      cases k <;> exact le_refl _
    | wait d =>
      simp only [exec, Except.ok.injEq] at h
      subst h
      exact le_refl _

/-- What a transaction does to the ownership of the contract: nothing, unless it is an ownership message. -/
theorem own_of {c : Cfg A} {w w' : Chain A} {t : Tx A} (h : exec c w t = .ok w') :
    w'.own = w.own ∨ ∃ x funds m, t = .call x funds (.ownership m) ∧ Ownership.exec w.own ⟨x, w.now, m⟩ = .ok w'.own := by
  cases t with
  | call x funds m =>
    simp only [exec, bind_ok_iff, require_ok, exists_const] at h
    obtain ⟨⟨hx, htok⟩, hf, led, ha, h⟩ := h
    cases m with
    | claim r n =>
      simp only [execute, bind_ok_iff, Except.ok.injEq, Prod.exists] at h
      obtain ⟨w1, paid, h, rfl⟩ := h
      simp only [claimMsg, bind_ok_iff, orErr_ok] at h
      obtain ⟨i, hi, av, hav, z, hz, h⟩ := h
      split at h
      · simp only [bind_ok_iff, Except.ok.injEq, Prod.mk.injEq] at h
        obtain ⟨rel, hrel, led', hp, rfl, rfl⟩ := h
        exact Or.inl rfl
      · simp only [Except.ok.injEq, Prod.mk.injEq] at h
        obtain ⟨rfl, rfl⟩ := h
        exact Or.inl rfl
    | receive u n l =>
      simp only [execute, bind_ok_iff, require_ok, exists_const] at h
      exact absurd h.1.2 htok
    | register l =>
      simp only [execute] at h
      split at h
      · simp only [registerMsg, bind_ok_iff, require_ok, exists_const, Except.ok.injEq, Prod.exists] at h
        obtain ⟨hown, n, hp, infos, dep, h1, _, rfl⟩ := h
        exact Or.inl rfl
      · cases h
    | withdraw b r n =>
      simp only [execute, withdrawMsg, bind_ok_iff, require_ok, exists_const, orErr_ok, Except.ok.injEq] at h
      obtain ⟨_, hown, i, hi, ss, _, led', hp, rfl⟩ := h
      exact Or.inl rfl
    | ownership m =>
      simp only [execute, bind_ok_iff, Except.ok.injEq] at h
      obtain ⟨o, ho, rfl⟩ := h
      exact Or.inr ⟨x, funds, m, rfl, ho⟩
  | send token owner spender n l =>
    simp only [exec, execute, registerMsg, bind_ok_iff, require_ok, exists_const, Except.ok.injEq, Prod.exists] at h
    obtain ⟨_, led, hin, _, infos, dep, h1, _, rfl⟩ := h
    exact Or.inl rfl
  | transfer k src dst n =>
    simp only [exec, bind_ok_iff, require_ok, exists_const, Except.ok.injEq] at h
    obtain ⟨hs, led, hl, rfl⟩ := h
    exact Or.inl rfl
  | transferFrom t owner spender dst n =>
    simp only [exec, bind_ok_iff, require_ok, exists_const, Except.ok.injEq] at h
    obtain ⟨hs, led, hl, rfl⟩ := h
    exact Or.inl rfl
  | approve t owner spender n =>
    simp only [exec, bind_ok_iff, require_ok, exists_const, Except.ok.injEq] at h
    obtain ⟨_, rfl⟩ := h
    exact Or.inl rfl
  | wait d =>
    simp only [exec, Except.ok.injEq] at h
    subst h
    exact Or.inl rfl

/-- **C177, the owner.**  The owner changes only when the account that the owner has proposed accepts in time, itself; and a proposal is
made or dropped only by the owner. -/
theorem C177_owner_changes_only_by (c : Cfg A) (w w' : Chain A) (t : Tx A) (h : exec c w t = .ok w') :
    (w'.own.owner ≠ w.own.owner → ∃ funds ttl, t = .call w'.own.owner funds (.ownership .claim) ∧
      w.own.proposal = some ⟨w'.own.owner, ttl⟩ ∧ w.now ≤ ttl) ∧
    (w'.own.owner = w.own.owner → w'.own.proposal ≠ w.own.proposal →
      (∃ x funds, t = .call x funds (.ownership .claim)) ∨ ∃ funds m, t = .call w.own.owner funds (.ownership m)) := by
  rcases own_of h with e | ⟨x, funds, m, rfl, ho⟩
  · rw [e]
    exact ⟨fun hne => absurd rfl hne, fun _ hne => absurd rfl hne⟩
  · cases m with
    | propose a e =>
      simp only [Ownership.exec, Ownership.propose, bind_ok_iff, require_ok, exists_const, Except.ok.injEq] at ho
      obtain ⟨hx, _, _, ho⟩ := ho
      rw [← ho]
      exact ⟨fun hne => absurd rfl hne, fun _ _ => Or.inr ⟨funds, _, by rw [hx]⟩⟩
    | drop =>
      simp only [Ownership.exec, Ownership.drop, bind_ok_iff, require_ok, exists_const, Except.ok.injEq] at ho
      obtain ⟨hx, ho⟩ := ho
      rw [← ho]
      exact ⟨fun hne => absurd rfl hne, fun _ _ => Or.inr ⟨funds, _, by rw [hx]⟩⟩
    | claim =>
      simp only [Ownership.exec, Ownership.claim, bind_ok_iff, require_ok, exists_const, orErr_ok, Except.ok.injEq] at ho
      obtain ⟨p, hp, hx, ht, ho⟩ := ho
      rw [← ho]
      refine ⟨fun _ => ⟨funds, p.ttl, by rw [hx], by rw [hp], by omega⟩, fun _ _ => Or.inl ⟨x, funds, rfl⟩⟩

/-! ## Examples -/

/-- Vesting of a token: account 0 is the contract, 1 its owner, 3 the token's contract. -/
def demoToken : Cfg Acc := ⟨0, .token "t3".toList, fun a => "t".toList ++ (toString a.val).toList⟩

/-- Vesting of a coin. -/
def demoCoin : Cfg Acc := ⟨0, .native "u".toList, fun a => "t".toList ++ (toString a.val).toList⟩

/-- Everybody has 5000 of everything. -/
def rich : Led Acc := ⟨fun _ _ => 5000, fun _ _ => 5000, fun _ _ _ => 0⟩

/-- The owner pays for schedules with their own tokens and with those of account 2 who allowed it; the owner cannot register what was
not paid, others cannot register at all; time passes; account 2 claims; ownership moves to account 2. -/
def tokenStory : List (Tx Acc) :=
  [.send 3 1 1 1010 [(2, [⟨⟨100, 10⟩, some ⟨200, 1010⟩⟩])],
   .approve "t3".toList 2 1 600,
   .send 3 2 1 500 [(1, [⟨⟨150, 500⟩, none⟩])],
   .send 3 1 1 10 [(1, [⟨⟨150, 500⟩, none⟩])],
   .send 3 2 2 500 [(2, [⟨⟨150, 500⟩, none⟩])],
   .send 2 1 1 500 [(2, [⟨⟨150, 500⟩, none⟩])],
   .call 1 [] (.receive 1 500 [(2, [⟨⟨150, 500⟩, none⟩])]),
   .wait 128,
   .call 2 [] (.claim none (some 100)),
   .call 1 [] (.withdraw 2 none 200),
   .call 1 [] (.ownership (.propose 2 1000)),
   .call 2 [⟨"v".toList, 7⟩] (.ownership .claim)]

example :
    let w := run demoToken (start rich 1 5) tokenStory
    (accepted demoToken (start rich 1 5) tokenStory).length = 8 ∧
    w.own.owner = 2 ∧ w.led.of demoToken.token 0 = 5000 + 1010 + 500 - 100 - 200 ∧ w.led.bank "v".toList 0 = 5007 ∧
    releasedOf (view demoToken w) 2 = 100 ∧ totalAll (schedulesOf (view demoToken w) 2) = 810 ∧
    okAnd (exec demoToken w (.call 2 [] (.claim (some 1) none)))
      (fun w' => w'.led.of demoToken.token 1 = w.led.of demoToken.token 1 + 240) = true := by
  decide +kernel

/-- The same with a coin: exactly the totals must be attached, by the owner. -/
def coinStory : List (Tx Acc) :=
  [.call 1 [⟨"u".toList, 1010⟩] (.register [(2, [⟨⟨100, 10⟩, some ⟨200, 1010⟩⟩])]),
   .call 2 [⟨"u".toList, 1010⟩] (.register [(2, [⟨⟨100, 10⟩, some ⟨200, 1010⟩⟩])]),
   .call 1 [⟨"u".toList, 1009⟩] (.register [(2, [⟨⟨100, 10⟩, some ⟨200, 1010⟩⟩])]),
   .call 1 [⟨"u".toList, 1010⟩, ⟨"v".toList, 1⟩] (.register [(2, [⟨⟨100, 10⟩, some ⟨200, 1010⟩⟩])]),
   .call 1 [⟨"v".toList, 1010⟩] (.register [(2, [⟨⟨100, 10⟩, some ⟨200, 1010⟩⟩])]),
   .send 3 1 1 1010 [(2, [⟨⟨100, 10⟩, some ⟨200, 1010⟩⟩])],
   .wait 128,
   .call 2 [⟨"u".toList, 3⟩] (.claim none (some 100))]

example :
    let w := run demoCoin (start rich 1 5) coinStory
    (accepted demoCoin (start rich 1 5) coinStory).length = 3 ∧
    w.led.of demoCoin.token 0 = 5000 + 1010 - 100 + 3 ∧ w.led.of demoCoin.token 2 = 5000 + 100 - 3 ∧
    releasedOf (view demoCoin w) 2 = 100 := by
  decide +kernel

end Verif.Vesting.Entry
