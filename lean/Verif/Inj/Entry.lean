import Verif.Inj.Ledgers
import Verif.PCL.Entry

/-!
# Messages to the pair with orderbook integration on Injective: C184

Any account sends any message with any coins attached; LP tokens are a cw20 token and come back through its `Send` and
`SendFrom`.  `Inj/Model.lean` starts where the pair knows what was paid; here the pair has to find it out.

Simplified: the transactions of `Inj/Model.lean` take coins and LP tokens from the sender themselves, so that here coins
attached to deposits and trades, and LP tokens sent by their owner, are not moved a second time (the checks make them exactly
what those transactions take, which is what the theorems say); tokens sent out of an allowance belong to the spender before
the pair takes them; `auto_stake` (see `Joint/AutoStake.lean`); ownership handover (see `Ownership`).

Specification: `holds` (what an account has of a denom), `Asset.sent` (what is attached of a denom).
-/

namespace Verif.Inj.Entry

open Verif Verif.Inj
open Verif.PCL (Setup)
open Verif.Asset (Str Info Coin assertSent assertCoins sent declared)
open Verif.Ledgers (ValidFunds label)
open Verif.Duality (set2 set2_apply)

set_option linter.unusedSectionVars false

variable {A : Type} [DecidableEq A]

/-- What never changes about a pair: it trades two coins, and its LP token is the contract `lpt`
(contracts/pair_concentrated_inj/src/contract.rs:57-170). -/
structure Cfg (A : Type) where
  me : A
  den : Bool → Str
  lpt : A
  prec : Bool → Nat
  /-- valid addresses -/
  okAddr : Str → Bool
  addr : A → Str

/-- The two coins differ. -/
structure Cfg.Ok (c : Cfg A) : Prop where
  ne : c.den false ≠ c.den true

/-- The same as the configuration of a pair whose assets may be tokens (which has an LP denom, not used here). -/
def Cfg.gen (c : Cfg A) : Ledgers.Cfg A :=
  { me := c.me, infos := fun i => .native (c.den i), lp := c.den false ++ c.den true ++ ['/'], addr := c.addr
    okAddr := c.okAddr, prec := c.prec }

/-- Precisions and kinds of the two assets. -/
def Cfg.su (c : Cfg A) : Setup := PCL.Entry.setup c.gen

/-- The pair with the ledgers of its coins and of its LP token, the allowances of the LP token (owner, spender), and the
ledgers of all other coins. -/
structure Chain (A : Type) where
  st : State A
  allow : A → A → Nat
  others : Str → A → Nat

/-- The ledger of a denom. -/
def holds (c : Cfg A) (w : Chain A) (d : Str) : A → Nat :=
  if d = c.den false then w.st.pcl.bal false
  else if d = c.den true then w.st.pcl.bal true
  else w.others d

/-- The bank: a transfer of a coin. -/
def transfer (c : Cfg A) (w : Chain A) (src dst : A) (x : Coin) : Res (Chain A) := do
  let l ← Verif.move (holds c w x.denom) src dst x.amount
  if x.denom = c.den false then
    .ok { w with st := { w.st with pcl := { w.st.pcl with bal := set2 w.st.pcl.bal false l } } }
  else if x.denom = c.den true then
    .ok { w with st := { w.st with pcl := { w.st.pcl with bal := set2 w.st.pcl.bal true l } } }
  else .ok { w with others := Function.update w.others x.denom l }

/-- The bank: coins attached to a message. -/
def attach (c : Cfg A) (w : Chain A) (src dst : A) : List Coin → Res (Chain A)
  | [] => .ok w
  | x :: xs => do
    let w ← transfer c w src dst x
    attach c w src dst xs

/-- Block time, the factory's owner, whether the factory knows the pair, what the exchange says and decides (whether the pair
is active at it, the tick sizes of the market). -/
structure Around (A : Type) where
  now : Nat
  fo : A
  registered : Bool
  active : Bool
  price : Nat
  qty : Nat
  env : Env A

/-- `Cw20HookMsg` (packages/astroport/src/pair.rs): only withdrawals are supported, contracts/pair_concentrated_inj/src/contract.rs:322-340. -/
inductive Hook where
  | withdraw (assets : List Asset.Asset)
  | other

/-- `ConcentratedObPoolUpdateParams` (packages/astroport/src/pair_concentrated_inj.rs). -/
inductive Update where
  | update (u : PCL.UpdateParams)
  | promote (amp gamma futureTime : Nat)
  | stop
  | orders (number : Nat)

/-- `ExecuteMsg`, packages/astroport/src/pair_concentrated_inj.rs:31-73; `execute` drops the asset a trade asks for. -/
inductive Msg (A : Type) where
  | receive (sender : A) (amount : Nat) (h : Hook)
  | provide (assets : List Asset.Asset) (tol : Option Nat) (receiver : Option A)
  | swap (offer : Asset.Asset) (belief maxSpread : Option Nat) (dest : Option A)
  | updateConfig (u : Update)
  | emergency
  | ticks

/-- The pair's own transaction for a change of the settings, contracts/pair_concentrated_inj/src/contract.rs:879-905. -/
def Update.op (x : A) : Update → Op A
  | .update u => .admin (.update x u)
  | .promote a g t => .admin (.promote x a g t)
  | .stop => .admin (.stop x)
  | .orders n => .orders x n

/-- What `provide_liquidity` checks before it computes: contracts/pair_concentrated_inj/src/contract.rs:366-424 (the checks of the plain
pair, `getAssets`, and the attached coins). -/
def deposits (c : Cfg A) (e : Around A) (funds : List Coin) (assets : List Asset.Asset) : Res (Bool → Nat) := do
  let (as', _) ← PCL.Entry.getAssets c.gen ⟨e.now, e.fo, 0, none, e.registered⟩ assets
  assertCoins funds as' [.native (c.den false), .native (c.den true)]
  .ok fun i => declared as' (.native (c.den i))

/-- The pair's own transaction for a message, contracts/pair_concentrated_inj/src/contract.rs:228-340: receipts (322-340, 600-602, 619-624),
deposits (366-424), trades (253-277), settings (278), the orderbook (313-314). -/
def toOp (c : Cfg A) (e : Around A) (sender : A) (funds : List Coin) : Msg A → Res (Op A)
  | .receive user amount h => do
    match h with
    | .other => .error (.invalid "NotSupported")
    | .withdraw assets => do
      require (sender = c.lpt) .unauthorized
      require (assets = []) (.invalid "Imbalanced withdraw is currently disabled")
      .ok (.withdraw user amount)
  | .provide assets tol receiver => do
    let d ← deposits c e funds assets
    .ok (.provide sender d tol (receiver.getD sender) e.env)
  | .swap offer belief maxSpread dest => do
    Asset.Info.check c.okAddr offer.info
    let i ← orErr (label c.gen offer.info) (.invalid "InvalidAsset")
    assertSent offer funds
    .ok (.swap sender i offer.amount belief maxSpread (dest.getD sender) e.env)
  | .updateConfig u => .ok (u.op sender)
  | .emergency => .ok (.emergency sender e.active e.env)
  | .ticks => .ok (.ticks sender e.price e.qty)

/-- Messages whose coins are not looked at. -/
def Msg.blind : Msg A → Bool
  | .provide .. | .swap .. => false
  | _ => true

/-- `execute`, contracts/pair_concentrated_inj/src/contract.rs:228-317: `sender` calls with `funds` attached. -/
def execute (c : Cfg A) (e : Around A) (w : Chain A) (sender : A) (funds : List Coin) (m : Msg A) : Res (Chain A) := do
  require (ValidFunds funds) (.invalid "invalid coins")
  let o ← toOp c e sender funds m
  let w ← (if m.blind then attach c w sender c.me funds else .ok w)
  let s ← Inj.exec c.su c.me e.now e.fo w.st o
  .ok { w with st := s }

/-- What can happen on the chain: messages to the pair, `Send` and `SendFrom` of LP tokens to the pair, transfers of coins and
LP tokens, allowances, calls by the chain, fills of orders on the exchange. -/
inductive Tx (A : Type) where
  | call (e : Around A) (sender : A) (funds : List Coin) (m : Msg A)
  | sendLp (e : Around A) (owner : A) (amount : Nat) (h : Hook)
  | sendLpFrom (e : Around A) (owner spender : A) (amount : Nat) (h : Hook)
  | send (e : Around A) (src dst : A) (x : Coin)
  | moveLp (e : Around A) (src dst : A) (n : Nat)
  | approve (e : Around A) (owner spender : A) (n : Nat)
  | block (e : Around A)
  | deactivate (e : Around A)
  | fill (e : Around A) (sold paid : Bool → Nat)

/-- One transaction; neither the pair nor the LP token's contract signs one. -/
def exec (c : Cfg A) (w : Chain A) : Tx A → Res (Chain A)
  | .call e sender funds m => do
    require (sender ≠ c.me ∧ sender ≠ c.lpt) .unauthorized
    execute c e w sender funds m
  | .sendLp e owner amount h => do
    require (owner ≠ c.me) .unauthorized
    execute c e w c.lpt [] (.receive owner amount h)
  | .sendLpFrom e owner spender amount h => do
    require (owner ≠ c.me ∧ spender ≠ c.me) .unauthorized
    let left ← csub (w.allow owner spender) amount
    let l ← Verif.move w.st.pcl.lp owner spender amount
    let w : Chain A := { w with
      st := { w.st with pcl := { w.st.pcl with lp := l } }
      allow := fun o s => if o = owner ∧ s = spender then left else w.allow o s }
    execute c e w c.lpt [] (.receive spender amount h)
  | .send _ src dst x => do
    require (src ≠ c.me) .unauthorized
    transfer c w src dst x
  | .moveLp _ src dst n => do
    require (src ≠ c.me) .unauthorized
    let l ← Verif.move w.st.pcl.lp src dst n
    .ok { w with st := { w.st with pcl := { w.st.pcl with lp := l } } }
  | .approve _ owner spender n => do
    require (owner ≠ c.me) .unauthorized
    .ok { w with allow := fun o s => if o = owner ∧ s = spender then n else w.allow o s }
  | .block e => do
    let s ← beginBlock c.su c.me w.st e.now e.env
    .ok { w with st := s }
  | .deactivate _ => .ok { w with st := Inj.deactivate c.me w.st }
  | .fill _ sold paid => do
    let s ← Inj.fill w.st sold paid
    .ok { w with st := s }

/-- History; failed transactions change nothing. -/
def run (c : Cfg A) (w : Chain A) (ts : List (Tx A)) : Chain A := ts.foldl (fun w t => commit' w (exec c w t)) w

/-! ## Lemmas -/

theorem gen_ok {c : Cfg A} (hc : c.Ok) : c.gen.Ok := by
  refine ⟨?_, ?_⟩
  · intro h
    simp only [Cfg.gen, Info.native.injEq] at h
    exact hc.ne h
  · intro i h
    simp only [Cfg.gen, Info.native.injEq] at h
    have h1 := congrArg List.length h
    cases i <;> simp at h1 <;> omega

theorem label_ok {c : Cfg A} {k : Info} {i : Bool} (h : label c.gen k = some i) : k = .native (c.den i) := by
  unfold label at h
  split_ifs at h with h1 h2
  · simp only [Option.some.injEq] at h; subst h; exact h1
  · simp only [Option.some.injEq] at h; subst h; exact h2

/-- What a transfer does to the ledgers. -/
theorem transfer_holds {c : Cfg A} (hc : c.Ok) {w w' : Chain A} {src dst : A} {x : Coin}
    (h : transfer c w src dst x = .ok w') (d : Str) :
    Verif.move (holds c w d) src dst (if d = x.denom then x.amount else 0) = .ok (holds c w' d) ∧
      w'.st.pcl.lp = w.st.pcl.lp ∧ w'.allow = w.allow := by
  simp only [transfer, bind_ok_iff] at h
  obtain ⟨l, hl, h⟩ := h
  have hne := hc.ne
  refine ⟨?_, ?_⟩
  · by_cases hd : d = x.denom
    · subst hd
      rw [if_pos rfl, hl]
      split_ifs at h with h0 h1 <;> simp only [Except.ok.injEq] at h <;> subst h
      · rw [h0]; simp [holds]
      · rw [h1]; simp [holds, hne.symm]
      · simp [holds, h0, h1]
    · rw [if_neg hd, Ledgers.move_zero]
      congr 1
      split_ifs at h with h0 h1 <;> simp only [Except.ok.injEq] at h <;> subst h
      · rw [h0] at hd; simp [holds, hd, set2_apply]
      · rw [h1] at hd; simp [holds, hd, set2_apply]
      · simp [holds, hd]
  · split_ifs at h <;> simp only [Except.ok.injEq] at h <;> subst h <;> exact ⟨rfl, rfl⟩

theorem attach_holds {c : Cfg A} (hc : c.Ok) {src dst a : A} (hsd : src ≠ dst) (ha : a ≠ dst) : ∀ {funds : List Coin} {w w' : Chain A},
    attach c w src dst funds = .ok w' → (∀ d, holds c w d a = holds c w' d a + (if a = src then sent funds d else 0)) ∧
      w'.st.pcl.lp = w.st.pcl.lp ∧ w'.allow = w.allow := by
  intro funds
  induction funds with
  | nil =>
    intro w w' h
    simp only [attach, Except.ok.injEq] at h
    subst h
    simp [sent]
  | cons x xs ih =>
    intro w w' h
    simp only [attach, bind_ok_iff] at h
    obtain ⟨w1, h1, h⟩ := h
    obtain ⟨i1, i2, i3⟩ := ih h
    refine ⟨fun d => ?_, ?_, ?_⟩
    · have e1 := i1 d
      have e2 := (transfer_holds hc h1 d).1
      have e3 := move_apply e2 a
      have e4 := move_le e2
      rw [if_neg ha] at e3
      have hs : sent (x :: xs) d = (if d = x.denom then x.amount else 0) + sent xs d := by
        unfold sent
        by_cases hd : d = x.denom
        · simp [hd]
        · simp [hd, Ne.symm hd]
      rw [hs]
      by_cases hx : a = src
      · subst hx
        simp only at e1 e3 ⊢
        split_ifs at * <;> omega
      · simp only [if_neg hx] at e1 e3 ⊢
        omega
    · rw [i2, (transfer_holds hc h1 []).2.1]
    · rw [i3, (transfer_holds hc h1 []).2.2]

/-! ## Specification -/

/-- A plain transfer, as the pair's ledgers see it. -/
def transferOps (c : Cfg A) (src dst : A) (x : Coin) : List (Op A) :=
  if x.denom = c.den false then [.admin (.send false src dst x.amount)]
  else if x.denom = c.den true then [.admin (.send true src dst x.amount)]
  else []

/-- **Specification.**  What a transaction on the chain means for the pair: a deposit of exactly the declared amounts, a
trade of exactly the offered amount, a withdrawal of exactly the LP tokens that were sent (which pass to the spender first
if they come out of an allowance), or (settings and the orderbook) the transfer of the attached coins and the change. -/
def ops (c : Cfg A) : Tx A → List (Op A)
  | .call e x _ (.provide assets tol r) =>
    [.provide x (fun i => declared assets (.native (c.den i))) tol (r.getD x) e.env]
  | .call e x _ (.swap offer b m r) =>
    [.swap x (decide (offer.info = .native (c.den true))) offer.amount b m (r.getD x) e.env]
  | .call _ x funds (.updateConfig u) => funds.flatMap (transferOps c x c.me) ++ [u.op x]
  | .call e x funds .emergency => funds.flatMap (transferOps c x c.me) ++ [.emergency x e.active e.env]
  | .call e x funds .ticks => funds.flatMap (transferOps c x c.me) ++ [.ticks x e.price e.qty]
  | .call _ _ _ (.receive ..) => []
  | .sendLp _ x n _ => [.withdraw x n]
  | .sendLpFrom _ o x n _ => [.admin (.sendLp o x n), .withdraw x n]
  | .send _ src dst x => transferOps c src dst x
  | .moveLp _ src dst n => [.admin (.sendLp src dst n)]
  | .approve .. => []
  | .block e => [.block e.env]
  | .deactivate _ => [.deactivate]
  | .fill _ n p => [.fill n p]

/-- The surroundings of a transaction. -/
def Tx.around : Tx A → Around A
  | .call e .. | .sendLp e .. | .sendLpFrom e .. | .send e .. | .moveLp e .. | .approve e .. | .block e | .deactivate e
  | .fill e .. => e

/-- The same with the block time and the factory's owner. -/
def meaning (c : Cfg A) (t : Tx A) : List (Event A) := (ops c t).map fun o => ⟨t.around.now, t.around.fo, o⟩

/-- One transaction of the pair. -/
def exec1 (c : Cfg A) (s : State A) (ev : Event A) : Res (State A) := Inj.exec c.su c.me ev.now ev.fo s ev.op

/-- Who pays: the signer, or the owner of an allowance that is used. -/
def Tx.payer : Tx A → Option A
  | .call _ x _ _ | .sendLp _ x _ _ | .sendLpFrom _ x _ _ _ | .send _ x _ _ | .moveLp _ x _ _ => some x
  | _ => none

/-- What the payer gives away of a denom. -/
def Tx.given : Tx A → Str → Nat
  | .call _ _ funds _, d => sent funds d
  | .send _ _ _ x, d => sent [x] d
  | _, _ => 0

/-- What the payer gives away of the LP token. -/
def Tx.givenLp : Tx A → Nat
  | .sendLp _ _ n _ | .sendLpFrom _ _ _ n _ | .moveLp _ _ _ n => n
  | _ => 0

/-! ## Messages are transactions of the pair -/

theorem deposits_ok {c : Cfg A} (hc : c.Ok) {e : Around A} {funds : List Coin} {assets : List Asset.Asset} {d : Bool → Nat}
    (hv : ValidFunds funds) (h : deposits c e funds assets = .ok d) :
    (d = fun i => declared assets (.native (c.den i))) ∧ (∀ k, sent funds k = declared assets (.native k)) ∧
      e.registered = true := by
  simp only [deposits, bind_ok_iff, Prod.exists, Except.ok.injEq] at h
  obtain ⟨as', dd, hg, ⟨⟩, ha, rfl⟩ := h
  obtain ⟨_, hd, hall, hin⟩ := PCL.Entry.getAssets_ok (gen_ok hc) hg
  refine ⟨by funext i; exact hd _, fun k => ?_, ?_⟩
  · rw [← hd]
    refine Asset.C67_sent_equals_declared_partial funds as' _ hv.1 (fun k hk => ?_) ha k
    simp only [List.mem_cons, Info.native.injEq, List.not_mem_nil, or_false] at hk
    rcases hk with rfl | rfl
    · exact hall false
    · exact hall true
  · unfold PCL.Entry.getAssets at hg
    simp only [bind_ok_iff, require_ok, exists_const] at hg
    exact hg.1

theorem label_eq {c : Cfg A} (hc : c.Ok) {k : Info} {i : Bool} (h : label c.gen k = some i) :
    decide (k = .native (c.den true)) = i := by
  rw [label_ok h]
  cases i
  · simp [hc.ne]
  · simp

theorem sent_one (d k : Str) (n : Nat) : sent [⟨d, n⟩] k = if d = k then n else 0 := by
  unfold sent
  by_cases h : d = k <;> simp [h]

theorem transfer_meaning {c : Cfg A} {w w' : Chain A} {src dst : A} {x : Coin} {n : Nat} {fo : A} (hs : src ≠ c.me)
    (h : transfer c w src dst x = .ok w') :
    ((transferOps c src dst x).map fun o => (⟨n, fo, o⟩ : Event A)).foldlM (exec1 c) w.st = .ok w'.st := by
  simp only [transfer, bind_ok_iff] at h
  obtain ⟨l, hl, h⟩ := h
  unfold transferOps
  have hset : ∀ (b : Bool → A → Nat) i, (fun j => if j = i then l else b j) = set2 b i l := by
    intro b i; funext j; rw [set2_apply]
  have hsig : (some src : Option A) ≠ some c.me := by simpa using hs
  split_ifs at h ⊢ with h0 h1 <;> simp only [Except.ok.injEq] at h <;> subst h
  · simp only [holds, h0, if_pos] at hl
    simp only [List.map_cons, List.map_nil, List.foldlM_cons, List.foldlM_nil, bind_ok_iff, pure_eq_ok, Except.ok.injEq,
      exists_eq_right, exec1, Inj.exec, PCL.exec, require_ok, exists_const]
    exact ⟨hsig, rfl, _, ⟨hs, _, hl, rfl⟩, by rw [hset]⟩
  · simp only [holds, h1, if_neg (h1 ▸ h0), if_pos] at hl
    simp only [List.map_cons, List.map_nil, List.foldlM_cons, List.foldlM_nil, bind_ok_iff, pure_eq_ok, Except.ok.injEq,
      exists_eq_right, exec1, Inj.exec, PCL.exec, require_ok, exists_const]
    exact ⟨hsig, rfl, _, ⟨hs, _, hl, rfl⟩, by rw [hset]⟩
  · rfl

theorem attach_meaning {c : Cfg A} {x : A} {n : Nat} {fo : A} (hs : x ≠ c.me) : ∀ {funds : List Coin} {w w' : Chain A},
    attach c w x c.me funds = .ok w' →
    ((funds.flatMap (transferOps c x c.me)).map fun o => (⟨n, fo, o⟩ : Event A)).foldlM (exec1 c) w.st = .ok w'.st
  | [], w, w', h => by
    simp only [attach, Except.ok.injEq] at h
    subst h
    rfl
  | a :: as, w, w', h => by
    simp only [attach, bind_ok_iff] at h
    obtain ⟨w1, h1, h2⟩ := h
    rw [List.flatMap_cons, List.map_append]
    exact Ledgers.foldlM_append_ok (transfer_meaning hs h1) (attach_meaning hs h2)

theorem one_op {c : Cfg A} {s s' : State A} {n : Nat} {fo : A} {o : Op A} (h : Inj.exec c.su c.me n fo s o = .ok s') :
    ([o].map fun o => (⟨n, fo, o⟩ : Event A)).foldlM (exec1 c) s = .ok s' := by
  simp only [List.map_cons, List.map_nil, List.foldlM_cons, List.foldlM_nil, bind_ok_iff, pure_eq_ok, Except.ok.injEq,
    exists_eq_right, exec1]
  exact h

theorem lp_op {c : Cfg A} {s : State A} {n k : Nat} {fo src dst : A} {l : A → Nat} (hs : src ≠ c.me)
    (h : Verif.move s.pcl.lp src dst k = .ok l) :
    Inj.exec c.su c.me n fo s (.admin (.sendLp src dst k)) = .ok { s with pcl := { s.pcl with lp := l } } := by
  have hsig : (some src : Option A) ≠ some c.me := by simpa using hs
  simp only [bind_ok_iff, Except.ok.injEq, Inj.exec, PCL.exec, require_ok, exists_const]
  exact ⟨hsig, rfl, _, ⟨hs, _, h, rfl⟩, rfl⟩

/-- A receipt that is accepted is a withdrawal announced by the LP token. -/
theorem receive_ok {c : Cfg A} {e : Around A} {w w' : Chain A} {x u : A} {n : Nat} {h : Hook}
    (hx : execute c e w x [] (.receive u n h) = .ok w') :
    x = c.lpt ∧ h = .withdraw [] ∧ ∃ s, Inj.exec c.su c.me e.now e.fo w.st (.withdraw u n) = .ok s ∧ w' = { w with st := s } := by
  simp only [execute, bind_ok_iff, require_ok, exists_const, Except.ok.injEq, Msg.blind, if_true, attach] at hx
  obtain ⟨_, o, ho, w1, rfl, s, hs, rfl⟩ := hx
  cases h with
  | other => simp [toOp] at ho
  | withdraw assets =>
    simp only [toOp, bind_ok_iff, require_ok, exists_const, Except.ok.injEq] at ho
    obtain ⟨hl, ha, rfl⟩ := ho
    subst ha
    exact ⟨hl, rfl, s, hs, rfl⟩

/-- **C184.**  A message that is accepted is, for the pair, exactly the transaction its sender and what they paid describe: a
deposit of the declared amounts, a trade of the offered amount, a withdrawal of the LP tokens that were sent; coins attached
to any other message go to the pool first. -/
theorem C184_messages_are_pair_transactions (c : Cfg A) (hc : c.Ok) (w w' : Chain A) (t : Tx A)
    (h : exec c w t = .ok w') : (meaning c t).foldlM (exec1 c) w.st = .ok w'.st := by
  cases t with
  | send e src dst x =>
    simp only [exec, bind_ok_iff, require_ok, exists_const] at h
    exact transfer_meaning h.1 h.2
  | moveLp e src dst n =>
    simp only [exec, bind_ok_iff, require_ok, exists_const, Except.ok.injEq] at h
    obtain ⟨hs, l, hl, rfl⟩ := h
    exact one_op (lp_op hs hl)
  | approve e o s n =>
    simp only [exec, bind_ok_iff, require_ok, exists_const, Except.ok.injEq] at h
    obtain ⟨hs, rfl⟩ := h
    rfl
  | block e =>
    simp only [exec, bind_ok_iff, Except.ok.injEq] at h
    obtain ⟨s, h, rfl⟩ := h
    refine one_op ?_
    simp only [Inj.exec, bind_ok_iff, require_ok, exists_const]
    exact ⟨by simp [Op.signer], h⟩
  | deactivate e =>
    simp only [exec, Except.ok.injEq] at h
    subst h
    refine one_op ?_
    simp only [Inj.exec, bind_ok_iff, require_ok, exists_const]
    exact ⟨by simp [Op.signer], trivial⟩
  | fill e n p =>
    simp only [exec, bind_ok_iff, Except.ok.injEq] at h
    obtain ⟨s, h, rfl⟩ := h
    refine one_op ?_
    simp only [Inj.exec, bind_ok_iff, require_ok, exists_const]
    exact ⟨by simp [Op.signer], h⟩
  | sendLp e x n k =>
    simp only [exec, bind_ok_iff, require_ok, exists_const] at h
    obtain ⟨_, _, s, hs, rfl⟩ := receive_ok h.2
    exact one_op hs
  | sendLpFrom e o x n k =>
    simp only [exec, bind_ok_iff, require_ok, exists_const] at h
    obtain ⟨⟨ho, hx⟩, left, _, l, hl, h⟩ := h
    obtain ⟨_, _, s, hs, rfl⟩ := receive_ok h
    exact Ledgers.foldlM_append_ok (xs := [⟨e.now, e.fo, .admin (.sendLp o x n)⟩]) (one_op (lp_op ho hl)) (one_op hs)
  | call e x funds m =>
    simp only [exec, execute, bind_ok_iff, require_ok, exists_const, Except.ok.injEq] at h
    obtain ⟨⟨hx, hxl⟩, hv, o, ho, w1, h1, s, hs, rfl⟩ := h
    cases m with
    | receive u n k =>
      cases k with
      | other => simp [toOp] at ho
      | withdraw assets =>
        simp only [toOp, bind_ok_iff, require_ok, exists_const] at ho
        exact absurd ho.1 hxl
    | provide assets tol r =>
      simp only [toOp, bind_ok_iff, Except.ok.injEq] at ho
      obtain ⟨d, hd, rfl⟩ := ho
      simp only [Msg.blind, Bool.false_eq_true, if_false, Except.ok.injEq] at h1
      subst h1
      rw [(deposits_ok hc hv hd).1] at hs
      exact one_op hs
    | swap offer b m r =>
      simp only [toOp, bind_ok_iff, orErr_ok, Except.ok.injEq] at ho
      obtain ⟨⟨⟩, _, i, hi, ⟨⟩, _, rfl⟩ := ho
      simp only [Msg.blind, Bool.false_eq_true, if_false, Except.ok.injEq] at h1
      subst h1
      rw [← label_eq hc hi] at hs
      exact one_op hs
    | updateConfig u =>
      simp only [toOp, Except.ok.injEq] at ho
      subst ho
      simp only [Msg.blind, if_true] at h1
      show (List.map _ (_ ++ _)).foldlM _ _ = _
      rw [List.map_append]
      exact Ledgers.foldlM_append_ok (attach_meaning hx h1) (one_op hs)
    | emergency =>
      simp only [toOp, Except.ok.injEq] at ho
      subst ho
      simp only [Msg.blind, if_true] at h1
      show (List.map _ (_ ++ _)).foldlM _ _ = _
      rw [List.map_append]
      exact Ledgers.foldlM_append_ok (attach_meaning hx h1) (one_op hs)
    | ticks =>
      simp only [toOp, Except.ok.injEq] at ho
      subst ho
      simp only [Msg.blind, if_true] at h1
      show (List.map _ (_ ++ _)).foldlM _ _ = _
      rw [List.map_append]
      exact Ledgers.foldlM_append_ok (attach_meaning hx h1) (one_op hs)

theorem run_foldlM {c : Cfg A} : ∀ {es : List (Event A)} {s s' : State A}, es.foldlM (exec1 c) s = .ok s' →
    Inj.run c.su c.me s es = s'
  | [], s, s', h => by
    simp only [List.foldlM_nil, pure_eq_ok, Except.ok.injEq] at h
    exact h
  | o :: os, s, s', h => by
    simp only [List.foldlM_cons, bind_ok_iff] at h
    obtain ⟨s1, h1, h2⟩ := h
    show Inj.run c.su c.me (Inj.step c.su c.me s o) os = s'
    have : Inj.step c.su c.me s o = s1 := by
      unfold Inj.step
      unfold exec1 at h1
      rw [h1]
      rfl
    rw [this]
    exact run_foldlM h2

/-- **C184.**  Every history of messages is, for the pair, a history of its own transactions (those of the messages that were
accepted): what C111 to C116 say of such histories holds on the chain. -/
theorem C184_histories_are_pair_histories (c : Cfg A) (hc : c.Ok) (w : Chain A) (ts : List (Tx A)) :
    ∃ es : List (Event A), (run c w ts).st = Inj.run c.su c.me w.st es ∧
      ∀ ev ∈ es, ∃ t ∈ ts, ev ∈ meaning c t := by
  induction ts generalizing w with
  | nil => exact ⟨[], rfl, by simp⟩
  | cons t ts ih =>
    show ∃ es, (run c (commit' w (exec c w t)) ts).st = _ ∧ _
    obtain ⟨es, ho, hes⟩ := ih (commit' w (exec c w t))
    cases hx : exec c w t with
    | error e =>
      rw [hx] at ho
      refine ⟨es, ho, fun ev hev => ?_⟩
      obtain ⟨t', ht', hm⟩ := hes ev hev
      exact ⟨t', by simp [ht'], hm⟩
    | ok w' =>
      rw [hx] at ho
      refine ⟨meaning c t ++ es, ?_, fun ev hev => ?_⟩
      · show (run c w' ts).st = _
        have ho' : (run c w' ts).st = Inj.run c.su c.me w'.st es := ho
        rw [ho', ← run_foldlM (C184_messages_are_pair_transactions c hc w w' t hx)]
        exact List.foldl_append.symm
      · rcases List.mem_append.1 hev with hev | hev
        · exact ⟨t, by simp, hev⟩
        · obtain ⟨t', ht', hm⟩ := hes ev hev
          exact ⟨t', by simp [ht'], hm⟩

/-! ## Who pays -/

/-- What a transaction of the pair takes from its signer, of the two coins and of the LP token. -/
def takes : Op A → (Bool → Nat) × Nat
  | .provide _ d _ _ _ => (d, 0)
  | .withdraw _ n => (fun _ => 0, n)
  | .swap _ i n _ _ _ _ => (fun j => if j = i then n else 0, 0)
  | .admin (.send i _ _ n) => (fun j => if j = i then n else 0, 0)
  | .admin (.sendLp _ _ n) => (fun _ => 0, n)
  | _ => (fun _ => 0, 0)

theorem move_src {l l' : A → Nat} {a b : A} {n : Nat} (h : Verif.move l a b n = .ok l') : l a ≤ l' a + n := by
  have := move_apply h a
  rw [this]; have := move_le h
  simp only [if_true]
  split <;> omega

/-- The signer loses at most what the transaction takes. -/
theorem signer_loses {c : Cfg A} {s s' : State A} {n : Nat} {fo u : A} {o : Op A} (hu : o.signer = some u)
    (h : Inj.exec c.su c.me n fo s o = .ok s') :
    (∀ i, s.pcl.bal i u ≤ s'.pcl.bal i u + (takes o).1 i) ∧ s.pcl.lp u ≤ s'.pcl.lp u + (takes o).2 := by
  obtain ⟨hsig, hx⟩ := exec_cases h
  have hm : u ≠ c.me := fun e => hsig (by rw [hu, e])
  rcases hx with ⟨v, d, t, r, e', sh, rfl, hx⟩ | ⟨v, k, x, rfl, hx⟩ | ⟨v, i, k, b, m, r, e', x, rfl, hx⟩ |
    ⟨v, ac, e', rfl, hx⟩ | ⟨v, p, q, rfl, ob, _, rfl⟩ | ⟨v, k, rfl, _, _, _, rfl⟩ | ⟨x, y, rfl, hax, hx, rfl⟩ |
    ⟨e', rfl, hx⟩ | ⟨rfl, rfl⟩ | ⟨x, y, rfl, _, rfl⟩
  · simp only [Op.signer, Option.some.injEq] at hu
    subst hu
    obtain ⟨b0, total, ps, dd, xs, pool, fee, shareD, sp⟩ := provide_spec hx
    constructor
    · intro i
      have := move_src (sp.hb0 i)
      have := payFee_other hm sp.hpay i
      simp only [takes]; omega
    · rw [sp.hlp, credit_apply, credit_apply]
      split <;> omega
  · simp only [Op.signer, Option.some.injEq] at hu
    subst hu
    obtain ⟨xs, r, own, z, sp⟩ := withdraw_spec hx
    constructor
    · intro i
      have hz : z.pcl.bal i v = s.pcl.bal i v := by
        rw [sp.hz]; split
        · exact leave_other hm i
        · rfl
      rw [← hz]
      have : z.pcl.bal i v ≤ s'.pcl.bal i v := by
        cases i
        · exact PCL.move_other hm sp.hb0.1
        · exact PCL.move_other hm sp.hb1.1
      simp only [takes]; omega
    · have h1 := debit_apply sp.hlp v
      have h2 := (debit_ok.1 sp.hlp).1
      simp only [takes, if_true] at h1 ⊢
      omega
  · simp only [Op.signer, Option.some.injEq] at hu
    subst hu
    obtain ⟨bo, bal, ps, xs, pool, fee, off, rr, out, l1, sp⟩ := swap_spec hx
    constructor
    · intro j
      have h3 := payFee_other hm sp.hpay j
      rw [set2_apply] at h3
      simp only [takes]
      by_cases hj : j = i
      · subst hj
        rw [if_pos rfl] at h3
        rw [sp.hci, if_pos rfl]
        have := move_src sp.hbo
        omega
      · have hj' : j = !i := by cases i <;> cases j <;> simp_all
        rw [if_neg hj] at h3
        rw [if_neg hj]
        subst hj'
        have h4 := PCL.move_other hm sp.hl1
        have h5 := PCL.sendOpt_other hm sp.hl2
        omega
    · rw [sp.hrest.2.2.1]; exact Nat.le_add_right _ _
  · obtain ⟨_, xs, xs', fee, _, _, hp, hs⟩ := emergency_spec hx
    constructor
    · intro i
      have := payFee_other hm hp i
      rw [leave_other hm i] at this
      exact le_trans this (Nat.le_add_right _ _)
    · rw [hs]; exact Nat.le_add_right _ _
  · exact ⟨fun _ => Nat.le_add_right _ _, Nat.le_add_right _ _⟩
  · exact ⟨fun _ => Nat.le_add_right _ _, Nat.le_add_right _ _⟩
  · simp only [Op.signer, Option.some.injEq] at hu
    cases x with
    | send i a b k =>
      simp only [PCL.Op.signer] at hu
      subst hu
      simp only [PCL.exec, bind_ok_iff, require_ok, exists_const, Except.ok.injEq] at hx
      obtain ⟨_, l, hl, rfl⟩ := hx
      refine ⟨fun j => ?_, Nat.le_add_right _ _⟩
      simp only [takes]
      by_cases hj : j = i
      · subst hj
        simp only [if_true]
        exact move_src hl
      · simp [hj]
    | sendLp a b k =>
      simp only [PCL.Op.signer] at hu
      subst hu
      simp only [PCL.exec, bind_ok_iff, require_ok, exists_const, Except.ok.injEq] at hx
      obtain ⟨_, l, hl, rfl⟩ := hx
      exact ⟨fun j => Nat.le_add_right _ _, move_src hl⟩
    | update a v =>
      simp only [PCL.exec, bind_ok_iff, require_ok, exists_const, Except.ok.injEq] at hx
      obtain ⟨_, _, _, _, _, rfl⟩ := hx
      exact ⟨fun _ => Nat.le_add_right _ _, Nat.le_add_right _ _⟩
    | promote a v g t =>
      simp only [PCL.exec, bind_ok_iff, require_ok, exists_const, Except.ok.injEq] at hx
      obtain ⟨_, _, _, _, _, rfl⟩ := hx
      exact ⟨fun _ => Nat.le_add_right _ _, Nat.le_add_right _ _⟩
    | stop a =>
      simp only [PCL.exec, bind_ok_iff, require_ok, exists_const, Except.ok.injEq] at hx
      obtain ⟨_, _, _, _, _, rfl⟩ := hx
      exact ⟨fun _ => Nat.le_add_right _ _, Nat.le_add_right _ _⟩
    | _ => simp [isAdmin] at hax
  · simp [Op.signer] at hu
  · simp [Op.signer] at hu
  · simp [Op.signer] at hu

theorem blind_takes {c : Cfg A} {e : Around A} {x : A} {funds : List Coin} {m : Msg A} {o : Op A} (hxl : x ≠ c.lpt)
    (h : toOp c e x funds m = .ok o) (hb : m.blind = true) : (∀ i, (takes o).1 i = 0) ∧ (takes o).2 = 0 := by
  cases m with
  | receive u n k =>
    cases k with
    | other => simp [toOp] at h
    | withdraw assets =>
      simp only [toOp, bind_ok_iff, require_ok, exists_const] at h
      exact absurd h.1 hxl
  | updateConfig u =>
    simp only [toOp, Except.ok.injEq] at h
    subst h
    cases u <;> exact ⟨fun _ => rfl, rfl⟩
  | emergency => simp only [toOp, Except.ok.injEq] at h; subst h; exact ⟨fun _ => rfl, rfl⟩
  | ticks => simp only [toOp, Except.ok.injEq] at h; subst h; exact ⟨fun _ => rfl, rfl⟩
  | _ => simp [Msg.blind] at hb

theorem toOp_signer {c : Cfg A} {e : Around A} {x : A} {funds : List Coin} {m : Msg A} {o : Op A} (hxl : x ≠ c.lpt)
    (h : toOp c e x funds m = .ok o) : o.signer = some x := by
  cases m with
  | receive u n k =>
    cases k with
    | other => simp [toOp] at h
    | withdraw assets =>
      simp only [toOp, bind_ok_iff, require_ok, exists_const] at h
      exact absurd h.1 hxl
  | updateConfig u =>
    simp only [toOp, Except.ok.injEq] at h
    subst h
    cases u <;> rfl
  | emergency => simp only [toOp, Except.ok.injEq] at h; subst h; rfl
  | ticks => simp only [toOp, Except.ok.injEq] at h; subst h; rfl
  | provide a t r =>
    simp only [toOp, bind_ok_iff, Except.ok.injEq] at h
    obtain ⟨_, _, rfl⟩ := h
    rfl
  | swap a b m r =>
    simp only [toOp, bind_ok_iff, orErr_ok, Except.ok.injEq] at h
    obtain ⟨_, _, _, _, _, _, rfl⟩ := h
    rfl

/-- What the checks let through is exactly what is taken: a message whose coins are looked at takes, of every denom, what
is attached. -/
theorem takes_sent {c : Cfg A} (hc : c.Ok) {e : Around A} {x : A} {funds : List Coin} {m : Msg A} {o : Op A}
    (hv : ValidFunds funds) (h : toOp c e x funds m = .ok o) (hb : m.blind = false) :
    (∀ i, (takes o).1 i = sent funds (c.den i)) ∧ (takes o).2 = 0 ∧ ∀ d, (∀ i, d ≠ c.den i) → sent funds d = 0 := by
  cases m with
  | provide assets tol r =>
    simp only [toOp, bind_ok_iff, Except.ok.injEq] at h
    obtain ⟨d, hd, rfl⟩ := h
    obtain ⟨rfl, hs, _⟩ := deposits_ok hc hv hd
    refine ⟨fun i => (hs _).symm, rfl, fun k hk => ?_⟩
    simp only [deposits, bind_ok_iff, Prod.exists, Except.ok.injEq] at hd
    obtain ⟨as', dd, hg, _, _, _⟩ := hd
    obtain ⟨_, hd, _, hin⟩ := PCL.Entry.getAssets_ok (gen_ok hc) hg
    rw [hs, ← hd]
    refine Asset.declared_of_not_mem fun a ha he => ?_
    obtain ⟨i, hi⟩ := hin a ha
    rw [he] at hi
    simp only [Cfg.gen, Info.native.injEq] at hi
    exact hk i hi
  | swap offer b m r =>
    simp only [toOp, bind_ok_iff, orErr_ok, Except.ok.injEq] at h
    obtain ⟨⟨⟩, _, i, hi, ⟨⟩, ha, rfl⟩ := h
    obtain ⟨info, n⟩ := offer
    have := label_ok hi
    simp only at this
    subst this
    obtain ⟨hf, _⟩ := (Asset.C67_single_coin _ _ _).1 ha
    subst hf
    have hinj : ∀ j, (c.den i = c.den j) ↔ j = i := by
      intro j
      have := hc.ne
      cases i <;> cases j <;> simp [this, this.symm]
    refine ⟨fun j => ?_, rfl, fun d hd => ?_⟩
    · rw [sent_one]
      simp only [takes, hinj]
    · rw [sent_one, if_neg (hd i).symm]
  | _ => simp [Msg.blind] at hb

theorem holds_op {c : Cfg A} {w : Chain A} {s : State A} {n : Nat} {fo u : A} {o : Op A} (hu : o.signer = some u)
    (h : Inj.exec c.su c.me n fo w.st o = .ok s) (d : Str) : holds c w d u ≤ holds c { w with st := s } d u +
      (if d = c.den false then (takes o).1 false else if d = c.den true then (takes o).1 true else 0) := by
  obtain ⟨h1, _⟩ := signer_loses hu h
  unfold holds
  split_ifs
  · exact h1 false
  · exact h1 true
  · exact le_refl _

/-- What one of the pair's transactions leaves to those who do not sign it. -/
theorem holds_others {c : Cfg A} {w : Chain A} {s : State A} {n : Nat} {fo a : A} {o : Op A} (hm : a ≠ c.me)
    (h : Inj.exec c.su c.me n fo w.st o = .ok s) (ha : o.signer ≠ some a) :
    (∀ d, holds c w d a ≤ holds c { w with st := s } d a) ∧ w.st.pcl.lp a ≤ s.pcl.lp a := by
  obtain ⟨h1, h2⟩ := C112_others_never_lose c.su c.me n fo w.st s o a h ha
  refine ⟨fun d => ?_, h1⟩
  unfold holds
  split_ifs
  · exact h2 hm _
  · exact h2 hm _
  · exact le_refl _

/-- **C184.**  Whoever pays for a transaction loses, of every coin and of the LP token, at most what they attached or sent (or
what was sent out of the allowance they gave). -/
theorem C184_payer_pays_what_is_attached (c : Cfg A) (hc : c.Ok) (w w' : Chain A) (t : Tx A) (u : A)
    (hu : t.payer = some u) (h : exec c w t = .ok w') :
    (∀ d, holds c w d u ≤ holds c w' d u + t.given d) ∧ w.st.pcl.lp u ≤ w'.st.pcl.lp u + t.givenLp := by
  cases t with
  | send e src dst x =>
    simp only [Tx.payer, Option.some.injEq] at hu
    subst hu
    simp only [exec, bind_ok_iff, require_ok, exists_const] at h
    obtain ⟨k, n⟩ := x
    refine ⟨fun d => ?_, ?_⟩
    · have := move_src (transfer_holds hc h.2 d).1
      simp only [Tx.given, sent_one, eq_comm (a := k)]
      exact this
    · rw [(transfer_holds hc h.2 []).2.1]; exact Nat.le_add_right _ _
  | moveLp e src dst n =>
    simp only [Tx.payer, Option.some.injEq] at hu
    subst hu
    simp only [exec, bind_ok_iff, require_ok, exists_const, Except.ok.injEq] at h
    obtain ⟨hs, l, hl, rfl⟩ := h
    exact ⟨fun d => Nat.le_add_right _ _, move_src hl⟩
  | sendLp e x n k =>
    simp only [Tx.payer, Option.some.injEq] at hu
    subst hu
    simp only [exec, bind_ok_iff, require_ok, exists_const] at h
    obtain ⟨_, _, s, hs, rfl⟩ := receive_ok h.2
    refine ⟨fun d => ?_, (signer_loses rfl hs).2⟩
    have := holds_op rfl hs d
    simp only [takes, ite_self] at this
    exact this
  | sendLpFrom e o x n k =>
    simp only [Tx.payer, Option.some.injEq] at hu
    subst hu
    simp only [exec, bind_ok_iff, require_ok, exists_const] at h
    obtain ⟨⟨ho, hx⟩, left, _, l, hl, h⟩ := h
    obtain ⟨_, _, s, hs, rfl⟩ := receive_ok h
    have hl' := move_apply hl o
    have hle := move_le hl
    by_cases hxo : o = x
    · subst hxo
      refine ⟨fun d => ?_, ?_⟩
      · have := holds_op rfl hs d
        simp only [takes, ite_self] at this
        exact this
      · have := (signer_loses rfl hs).2
        simp only [takes, if_true] at this hl'
        show w.st.pcl.lp o ≤ s.pcl.lp o + n
        omega
    · have hoth := holds_others ho hs (by simp only [Op.signer, ne_eq, Option.some.injEq]; exact Ne.symm hxo)
      refine ⟨fun d => le_trans (hoth.1 d) (Nat.le_add_right _ _), ?_⟩
      have h2 := hoth.2
      rw [if_pos rfl, if_neg hxo] at hl'
      show w.st.pcl.lp o ≤ s.pcl.lp o + n
      have h3 : l o ≤ s.pcl.lp o := h2
      omega
  | call e x funds m =>
    simp only [Tx.payer, Option.some.injEq] at hu
    subst hu
    simp only [exec, execute, bind_ok_iff, require_ok, exists_const, Except.ok.injEq] at h
    obtain ⟨⟨hx, hxl⟩, hv, o, ho, w1, h1, s, hs, rfl⟩ := h
    have key := fun d => holds_op (w := w1) (toOp_signer hxl ho) hs d
    have hlp := (signer_loses (toOp_signer hxl ho) hs).2
    cases hb : m.blind
    · rw [hb] at h1
      simp only [Bool.false_eq_true, if_false, Except.ok.injEq] at h1
      subst h1
      obtain ⟨t1, t2, t3⟩ := takes_sent hc hv ho hb
      refine ⟨fun d => le_trans (key d) (Nat.add_le_add_left ?_ _), by rw [t2] at hlp; exact hlp⟩
      simp only [Tx.given]
      split_ifs with q0 q1
      · rw [t1, q0]
      · rw [t1, q1]
      · exact Nat.zero_le _
    · rw [hb] at h1
      simp only [if_true] at h1
      obtain ⟨t1, t2⟩ := blind_takes hxl ho hb
      obtain ⟨e1, e2, _⟩ := attach_holds hc hx hx h1
      refine ⟨fun d => ?_, ?_⟩
      · have e1 := e1 d
        have key := key d
        rw [if_pos rfl] at e1
        rw [t1, t1] at key
        simp only [ite_self, Nat.add_zero] at key
        simp only [Tx.given]
        omega
      · rw [t2, e2] at hlp
        exact hlp
  | _ => simp [Tx.payer] at hu

/-- **C184.**  Nobody but the payer (and the pair) loses a coin of any denom or an LP token. -/
theorem C184_others_never_lose (c : Cfg A) (hc : c.Ok) (w w' : Chain A) (t : Tx A) (a : A) (ha : t.payer ≠ some a)
    (hm : a ≠ c.me) (h : exec c w t = .ok w') :
    (∀ d, holds c w d a ≤ holds c w' d a) ∧ w.st.pcl.lp a ≤ w'.st.pcl.lp a := by
  cases t with
  | send e src dst x =>
    simp only [Tx.payer, ne_eq, Option.some.injEq] at ha
    simp only [exec, bind_ok_iff, require_ok, exists_const] at h
    refine ⟨fun d => PCL.move_other (Ne.symm ha) (transfer_holds hc h.2 d).1, ?_⟩
    rw [(transfer_holds hc h.2 []).2.1]
  | moveLp e src dst n =>
    simp only [Tx.payer, ne_eq, Option.some.injEq] at ha
    simp only [exec, bind_ok_iff, require_ok, exists_const, Except.ok.injEq] at h
    obtain ⟨hs, l, hl, rfl⟩ := h
    exact ⟨fun d => le_refl _, PCL.move_other (Ne.symm ha) hl⟩
  | approve e o s n =>
    simp only [exec, bind_ok_iff, require_ok, exists_const, Except.ok.injEq] at h
    obtain ⟨hs, rfl⟩ := h
    exact ⟨fun _ => le_refl _, le_refl _⟩
  | block e =>
    simp only [exec, bind_ok_iff, Except.ok.injEq] at h
    obtain ⟨s, h, rfl⟩ := h
    refine holds_others (n := e.now) (fo := e.fo) (o := .block e.env) hm ?_ (by simp [Op.signer])
    simp only [Inj.exec, bind_ok_iff, require_ok, exists_const]
    exact ⟨by simp [Op.signer], h⟩
  | deactivate e =>
    simp only [exec, Except.ok.injEq] at h
    subst h
    refine holds_others (n := e.now) (fo := e.fo) (o := .deactivate) hm ?_ (by simp [Op.signer])
    simp only [Inj.exec, bind_ok_iff, require_ok, exists_const]
    exact ⟨by simp [Op.signer], trivial⟩
  | fill e n p =>
    simp only [exec, bind_ok_iff, Except.ok.injEq] at h
    obtain ⟨s, h, rfl⟩ := h
    refine holds_others (n := e.now) (fo := e.fo) (o := .fill n p) hm ?_ (by simp [Op.signer])
    simp only [Inj.exec, bind_ok_iff, require_ok, exists_const]
    exact ⟨by simp [Op.signer], h⟩
  | sendLp e x n k =>
    simp only [Tx.payer, ne_eq, Option.some.injEq] at ha
    simp only [exec, bind_ok_iff, require_ok, exists_const] at h
    obtain ⟨_, _, s, hs, rfl⟩ := receive_ok h.2
    exact holds_others hm hs (by simpa [Op.signer] using ha)
  | sendLpFrom e o x n k =>
    simp only [Tx.payer, ne_eq, Option.some.injEq] at ha
    simp only [exec, bind_ok_iff, require_ok, exists_const] at h
    obtain ⟨⟨ho, hx⟩, left, _, l, hl, h⟩ := h
    obtain ⟨_, _, s, hs, rfl⟩ := receive_ok h
    have hl' := move_apply hl a
    rw [if_neg (Ne.symm ha)] at hl'
    by_cases hax : a = x
    · subst hax
      refine ⟨fun d => ?_, ?_⟩
      · have := holds_op rfl hs d
        simp only [takes, ite_self] at this
        exact this
      · have h2 := (signer_loses rfl hs).2
        simp only [takes] at h2
        rw [if_pos rfl] at hl'
        show w.st.pcl.lp a ≤ s.pcl.lp a
        have h3 : l a ≤ s.pcl.lp a + n := h2
        omega
    · have hoth := holds_others hm hs (by simp only [Op.signer, ne_eq, Option.some.injEq]; exact Ne.symm hax)
      refine ⟨hoth.1, ?_⟩
      rw [if_neg hax] at hl'
      have h3 : l a ≤ s.pcl.lp a := hoth.2
      show w.st.pcl.lp a ≤ s.pcl.lp a
      omega
  | call e x funds m =>
    simp only [Tx.payer, ne_eq, Option.some.injEq] at ha
    simp only [exec, execute, bind_ok_iff, require_ok, exists_const, Except.ok.injEq] at h
    obtain ⟨⟨hx, hxl⟩, hv, o, ho, w1, h1, s, hs, rfl⟩ := h
    have key := holds_others (w := w1) hm hs (by rw [toOp_signer hxl ho]; simpa using ha)
    cases hb : m.blind
    · rw [hb] at h1
      simp only [Bool.false_eq_true, if_false, Except.ok.injEq] at h1
      rw [h1]
      exact key
    · rw [hb] at h1
      simp only [if_true] at h1
      obtain ⟨e1, e2, _⟩ := attach_holds hc hx hm h1
      refine ⟨fun d => ?_, by rw [← e2]; exact key.2⟩
      have e1 := e1 d
      rw [if_neg (Ne.symm ha)] at e1
      have := key.1 d
      omega

/-- **C184.**  LP tokens are taken out of an allowance only within it, and use it up. -/
theorem C184_within_allowance (c : Cfg A) (w w' : Chain A) (e : Around A) (o x : A) (n : Nat) (k : Hook)
    (h : exec c w (.sendLpFrom e o x n k) = .ok w') :
    n ≤ w.allow o x ∧ ∀ o' x', w'.allow o' x' = if o' = o ∧ x' = x then w.allow o x - n else w.allow o' x' := by
  simp only [exec, bind_ok_iff, require_ok, exists_const, csub_ok] at h
  obtain ⟨⟨ho, hx⟩, left, ⟨hle, rfl⟩, l, hl, h⟩ := h
  obtain ⟨_, _, s, hs, rfl⟩ := receive_ok h
  exact ⟨hle, fun _ _ => rfl⟩

/-! ## What is accepted -/

/-- **C184.**  Nobody can announce LP tokens that were not sent: a receipt from any account but the LP token is refused. -/
theorem C184_spoofed_receipts_refused (c : Cfg A) (e : Around A) (w w' : Chain A) (x u : A) (funds : List Coin) (n : Nat)
    (k : Hook) (hx : x ≠ c.lpt) : execute c e w x funds (.receive u n k) ≠ .ok w' := by
  intro h
  simp only [execute, bind_ok_iff, require_ok, exists_const] at h
  obtain ⟨_, o, ho, _⟩ := h
  cases k with
  | other => simp [toOp] at ho
  | withdraw assets =>
    simp only [toOp, bind_ok_iff, require_ok, exists_const] at ho
    exact hx ho.1

/-- **C184.**  Sending LP tokens to the pair with a withdrawal is accepted iff no particular amounts are asked for and the pair's
own transaction with exactly the tokens sent succeeds (which pays the owner). -/
theorem C184_withdrawals_accepted_iff (c : Cfg A) (w w' : Chain A) (e : Around A) (x : A) (n : Nat) (k : Hook) :
    exec c w (.sendLp e x n k) = .ok w' ↔
      k = .withdraw [] ∧ ∃ s, Inj.exec c.su c.me e.now e.fo w.st (.withdraw x n) = .ok s ∧ w' = { w with st := s } := by
  constructor
  · intro h
    simp only [exec, bind_ok_iff, require_ok, exists_const] at h
    obtain ⟨_, hk, hs⟩ := receive_ok h.2
    exact ⟨hk, hs⟩
  · rintro ⟨rfl, s, hs, rfl⟩
    have hx : x ≠ c.me := by
      have := (exec_cases hs).1
      simpa [Op.signer] using this
    simp only [exec, execute, toOp, bind_ok_iff, require_ok, exists_const, Except.ok.injEq, Msg.blind, if_true, attach]
    exact ⟨hx, ⟨by simp, by simp⟩, _, ⟨trivial, trivial, rfl⟩, w, rfl, s, hs, rfl⟩

/-- **C184.**  A trade is accepted iff exactly the offered coin, in exactly the offered amount and nothing else, is attached,
the coin is one of the pair's two, and the pair's own transaction succeeds. -/
theorem C184_trades_accepted_iff (c : Cfg A) (hc : c.Ok) (w w' : Chain A) (e : Around A) (x : A) (funds : List Coin)
    (offer : Asset.Asset) (b m : Option Nat) (r : Option A) (hxl : x ≠ c.lpt)
    (hden : ∀ j, Asset.validateNativeDenom (c.den j) = .ok ()) :
    exec c w (.call e x funds (.swap offer b m r)) = .ok w' ↔
      ∃ i s, offer.info = .native (c.den i) ∧ funds = [⟨c.den i, offer.amount⟩] ∧ offer.amount ≠ 0 ∧
        Inj.exec c.su c.me e.now e.fo w.st (.swap x i offer.amount b m (r.getD x) e.env) = .ok s ∧
        w' = { w with st := s } := by
  have hlab : ∀ i, label c.gen (.native (c.den i)) = some i := by
    intro i
    have := hc.ne
    cases i <;> simp [label, Cfg.gen, this.symm]
  obtain ⟨info, n⟩ := offer
  simp only [exec, execute, toOp, bind_ok_iff, require_ok, exists_const, Except.ok.injEq, orErr_ok, Msg.blind,
    Bool.false_eq_true, if_false]
  constructor
  · rintro ⟨hx, hv, o, ⟨⟨⟩, _, i, hi, ⟨⟩, ha, rfl⟩, w1, rfl, s, hs, rfl⟩
    have := label_ok hi
    subst this
    obtain ⟨hf, hn⟩ := (Asset.C67_single_coin _ _ _).1 ha
    exact ⟨i, s, rfl, hf, hn, hs, rfl⟩
  · rintro ⟨i, s, rfl, rfl, hn, hs, rfl⟩
    have hx : x ≠ c.me := by
      have := (exec_cases hs).1
      simpa [Op.signer] using this
    exact ⟨⟨hx, hxl⟩, ⟨by simp, by simpa using hn⟩, _,
      ⟨(), hden i, i, hlab i, (), (Asset.C67_single_coin _ _ _).2 ⟨rfl, hn⟩, rfl⟩, w, rfl, s, hs, rfl⟩

/-- **C184.**  An accepted deposit was paid exactly: of every denom whatsoever the attached amount is the declared one, and
what the pair books is that. -/
theorem C184_deposits_are_exact (c : Cfg A) (hc : c.Ok) (w w' : Chain A) (e : Around A) (x : A) (funds : List Coin)
    (assets : List Asset.Asset) (tol : Option Nat) (r : Option A)
    (h : exec c w (.call e x funds (.provide assets tol r)) = .ok w') :
    (∀ d, sent funds d = declared assets (.native d)) ∧ (∀ d, (∀ i, d ≠ c.den i) → sent funds d = 0) ∧
      e.registered = true ∧
      ∃ s, Inj.exec c.su c.me e.now e.fo w.st
        (.provide x (fun i => sent funds (c.den i)) tol (r.getD x) e.env) = .ok s ∧ w' = { w with st := s } := by
  simp only [exec, execute, toOp, bind_ok_iff, require_ok, exists_const, Except.ok.injEq, Msg.blind,
    Bool.false_eq_true, if_false] at h
  obtain ⟨hx, hv, o, ⟨d, hd, rfl⟩, w1, rfl, s, hs, rfl⟩ := h
  obtain ⟨hd1, hd2, hreg⟩ := deposits_ok hc hv hd
  have ho : toOp c e x funds (.provide assets tol r) = .ok (.provide x d tol (r.getD x) e.env) := by
    simp only [toOp, bind_ok_iff, Except.ok.injEq]
    exact ⟨d, hd, rfl⟩
  obtain ⟨_, _, t3⟩ := takes_sent hc hv ho rfl
  refine ⟨hd2, t3, hreg, s, ?_, rfl⟩
  · have : (fun i => sent funds (c.den i)) = d := by
      rw [hd1]; funext i; exact hd2 _
    rw [this]
    exact hs

/-- **C184.**  Deposits that are paid exactly are accepted (when the pair's own transaction succeeds): the two coins in either
order, or one of them only. -/
theorem C184_deposits_accepted (c : Cfg A) (hc : c.Ok) (w : Chain A) (s : State A) (e : Around A) (x : A) (funds : List Coin)
    (i : Bool) (n k : Nat) (assets : List Asset.Asset) (tol : Option Nat) (r : Option A)
    (hreg : e.registered = true) (hden : ∀ j, Asset.validateNativeDenom (c.den j) = .ok ())
    (ha : assets = [⟨.native (c.den i), n⟩, ⟨.native (c.den !i), k⟩] ∨ (assets = [⟨.native (c.den i), n⟩] ∧ k = 0))
    (hv : ValidFunds funds) (hf : ∀ d, sent funds d = if d = c.den i then n else if d = c.den !i then k else 0)
    (hin : ∀ y ∈ funds, ∃ j, y.denom = c.den j)
    (hxl : x ≠ c.lpt)
    (hs : Inj.exec c.su c.me e.now e.fo w.st
      (.provide x (fun j => if j = i then n else k) tol (r.getD x) e.env) = .ok s) :
    exec c w (.call e x funds (.provide assets tol r)) = .ok { w with st := s } := by
  have hx : x ≠ c.me := by
    have := (exec_cases hs).1
    simpa [Op.signer] using this
  have hne := hc.ne
  have hlab : ∀ i, label c.gen (.native (c.den i)) = some i := by
    intro i
    cases i <;> simp [label, Cfg.gen, hne.symm]
  have hii : c.den i ≠ c.den !i := by cases i <;> simp [hne, hne.symm]
  have hcomp : PCL.Entry.complete c.gen assets = .ok (⟨.native (c.den i), n⟩, ⟨.native (c.den !i), k⟩) := by
    rcases ha with rfl | ⟨rfl, rfl⟩
    · rfl
    · simp only [PCL.Entry.complete]
      rw [hlab]
      rfl
  obtain ⟨hdec0, hdec1⟩ : (∃ y, Stable.withPrec (if false = i then n else k) (c.prec false) = .ok y) ∧
      ∃ y, Stable.withPrec (if true = i then n else k) (c.prec true) = .ok y := by
    have h2 := (exec_cases hs).2
    rcases h2 with ⟨v, d, t, r, e', sh, ho, h2⟩ | ⟨v, q, z, ho, h2⟩ | ⟨v, j, q, b, m, r, e', z, ho, h2⟩ |
      ⟨v, ac, e', ho, h2⟩ | ⟨v, p, q, ho, ob, h2, h3⟩ | ⟨v, q, ho, h2⟩ | ⟨z, y, ho, h2, h3, h4⟩ | ⟨e', ho, h2⟩ | ⟨ho, h2⟩ |
      ⟨z, y, ho, h2, h3⟩
    · simp only [Op.provide.injEq] at ho
      obtain ⟨rfl, rfl, rfl, rfl, rfl⟩ := ho
      obtain ⟨b0, total, ps, dd, xs, pool, fee, shareD, sp⟩ := provide_spec h2
      have h3 := sp.hdd
      simp only [PCL.decPools, bind_ok_iff] at h3
      obtain ⟨y0, hy0, y1, hy1, _⟩ := h3
      exact ⟨⟨y0, hy0⟩, ⟨y1, hy1⟩⟩
    all_goals simp at ho
  have hdep : deposits c e funds assets = .ok fun j => if j = i then n else k := by
    have hg : ∃ as' dd, PCL.Entry.getAssets c.gen ⟨e.now, e.fo, 0, none, e.registered⟩ assets = .ok (as', dd) ∧
        as' = [⟨.native (c.den false), if false = i then n else k⟩, ⟨.native (c.den true), if true = i then n else k⟩] := by
      obtain ⟨y0, hy0⟩ := hdec0
      obtain ⟨y1, hy1⟩ := hdec1
      refine ⟨_, fun q => if q then y1 else y0, ?_, rfl⟩
      unfold PCL.Entry.getAssets
      simp only [bind_ok_iff, require_ok, exists_const, orErr_ok]
      refine ⟨hreg, _, hcomp, by simpa using hii, (), ?_, ?_⟩
      · rw [Asset.forAll_ok]
        intro a ha
        simp only [List.mem_cons, List.not_mem_nil, or_false] at ha
        rcases ha with rfl | rfl <;> exact hden _
      · cases i
        · have hq : ¬ (c.gen.infos false = Info.native (c.den !false)) := by
            simp only [Cfg.gen, Info.native.injEq]; exact hne
          simp only [if_neg hq]
          exact ⟨_, hlab false, y0, hy0, _, hlab true, y1, hy1, rfl⟩
        · have hq : c.gen.infos false = Info.native (c.den !true) := rfl
          simp only [if_pos hq]
          exact ⟨_, hlab false, y0, hy0, _, hlab true, y1, hy1, rfl⟩
    obtain ⟨as', dd, hg, has⟩ := hg
    have hnd : (as'.map Asset.Asset.info).Nodup := by rw [has]; simpa using hne
    have hdecl : ∀ d, declared as' (.native d) = if d = c.den i then n else if d = c.den !i then k else 0 := by
      intro d
      rw [has]
      unfold declared
      cases i
      · by_cases h0 : c.den false = d
        · subst h0; simp [hne.symm]
        · by_cases h1 : c.den true = d
          · subst h1; simp [hne, hne.symm]
          · simp [h0, h1, Ne.symm h0, Ne.symm h1]
      · by_cases h0 : c.den false = d
        · subst h0; simp [hne, hne.symm]
        · by_cases h1 : c.den true = d
          · subst h1; simp [hne]
          · simp [h0, h1, Ne.symm h0, Ne.symm h1]
    simp only [deposits, bind_ok_iff, Prod.exists, Except.ok.injEq]
    refine ⟨as', dd, hg, (), ?_, ?_⟩
    · refine Asset.C67_honest_accepted funds as' _ hv.1 (by rw [has]; simp) hnd ?_ ?_ (fun d => by rw [hf, hdecl])
      · rw [has]; simp
      · intro y hy
        obtain ⟨j, hj⟩ := hin y hy
        rw [hj]
        cases j <;> simp
    · funext j
      rw [hdecl]
      cases i <;> cases j <;> simp [hne, hne.symm]
  simp only [exec, execute, toOp, bind_ok_iff, require_ok, exists_const, Except.ok.injEq, Msg.blind,
    Bool.false_eq_true, if_false]
  exact ⟨⟨hx, hxl⟩, hv, _, ⟨_, hdep, rfl⟩, w, rfl, s, hs, rfl⟩

/-! ## The theorems apply -/

def demoCfg : Cfg Nat :=
  { me := 0, den := fun i => if i then "uusd".toList else "uluna".toList, lpt := 9, prec := fun _ => 6
    okAddr := fun _ => true, addr := fun _ => "x".toList }

theorem demo_ok : demoCfg.Ok := ⟨by decide⟩

def around (now : Nat) : Around Nat := ⟨now, 1, true, true, 10 ^ 15, 1000 * 10 ^ 18, quiet⟩

/-- A pool that is filled, a trade, a trade with too few coins, with a second coin, a deposit of one coin of which too much is
attached, one that is exact, the beginning of a block (orders are placed), a withdrawal, a withdrawal out of an allowance
that is missing, granted and used, an announced withdrawal of tokens that were not sent, a change of the number of orders
(with a coin left behind) by the owner and by somebody else, a fill. -/
def demoTxs : List (Tx Nat) :=
  [.call (around 2000) 2 [⟨"uluna".toList, 10 ^ 9⟩, ⟨"uusd".toList, 10 ^ 9⟩]
     (.provide [⟨.native "uusd".toList, 10 ^ 9⟩, ⟨.native "uluna".toList, 10 ^ 9⟩] none none),
   .call (around 2000) 3 [⟨"uluna".toList, 10 ^ 5⟩] (.swap ⟨.native "uluna".toList, 10 ^ 5⟩ none none none),
   .call (around 2000) 3 [⟨"uluna".toList, 10 ^ 4⟩] (.swap ⟨.native "uluna".toList, 10 ^ 5⟩ none none none),
   .call (around 2000) 3 [⟨"uluna".toList, 10 ^ 5⟩, ⟨"uusd".toList, 1⟩] (.swap ⟨.native "uluna".toList, 10 ^ 5⟩ none none none),
   .call (around 2000) 3 [⟨"uluna".toList, 10 ^ 6⟩, ⟨"uusd".toList, 1⟩] (.provide [⟨.native "uluna".toList, 10 ^ 6⟩] none none),
   .call (around 2000) 3 [⟨"uluna".toList, 10 ^ 6⟩] (.provide [⟨.native "uluna".toList, 10 ^ 6⟩] none (some 5)),
   .block (around 2001),
   .sendLp (around 2002) 2 (10 ^ 6) (.withdraw []),
   .sendLpFrom (around 2002) 2 6 (10 ^ 6) (.withdraw []),
   .approve (around 2002) 2 6 (10 ^ 6 + 5),
   .sendLpFrom (around 2002) 2 6 (10 ^ 6) (.withdraw []),
   .call (around 2002) 6 [] (.receive 6 (10 ^ 6) (.withdraw [])),
   .call (around 2003) 1 [⟨"uatom".toList, 5⟩, ⟨"uusd".toList, 7⟩] (.updateConfig (.orders 3)),
   .call (around 2003) 2 [⟨"uatom".toList, 5⟩, ⟨"uusd".toList, 7⟩] (.updateConfig (.orders 3)),
   .fill (around 2004) (fun _ => 10) (fun _ => 10)]

def demoChain (s : State Nat) : Chain Nat := ⟨s, fun _ _ => 0, fun _ _ => 100⟩

example : okAnd demo (fun s =>
    decide ((List.range 15).map (fun n => (exec demoCfg (run demoCfg (demoChain s) (demoTxs.take n)) (demoTxs.getD n
      (.call (around 1) 0 [] .ticks))).isOk) =
      [true, true, false, false, false, true, true, true, false, true, true, false, true, false, true])) = true := by
  decide +kernel

/-- The owner's coins are where they were left, traders paid what they offered, the receiver has the LP tokens, the spender the
coins, and the allowance is used up. -/
example : okAnd demo (fun s =>
    let w := run demoCfg (demoChain s) demoTxs
    decide (holds demoCfg w "uatom".toList 1 = 95 ∧ holds demoCfg w "uatom".toList 0 = 105 ∧
      holds demoCfg w "uusd".toList 1 = 10 ^ 15 - 7 ∧ holds demoCfg w "uluna".toList 3 = 10 ^ 15 - 1100000 ∧
      0 < w.st.pcl.lp 5 ∧ 10 ^ 15 < holds demoCfg w "uusd".toList 6 ∧ w.allow 2 6 = 5 ∧ w.st.ob.number = 3 ∧
      0 < w.st.sub false)) = true := by
  decide +kernel

end Verif.Inj.Entry
