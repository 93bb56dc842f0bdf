import Verif.Duality.Ledgers
import Verif.Duality.Accounts
import Verif.PCL.Entry

/-!
# Messages to the pair with orderbook integration: C183

Any account sends any message with any coins attached.  `Duality/Model.lean` starts where the pair knows what was paid;
here the pair has to find it out.

Simplified: the transactions of `Duality/Model.lean` take the coins from the sender themselves, so that here coins attached to
deposits, trades and withdrawals are not moved a second time (the checks make them exactly the coins those transactions
take, which is what the theorems say); `auto_stake` (see `Joint/AutoStake.lean`); ownership handover (see `Ownership`); an upgraded pool with a
cw20 token (see `C157_unsent_tokens_accepted_violated`).

Specification: `holds` (what an account has of a denom) and `Asset.sent` (what is attached of a denom).
-/

namespace Verif.Duality.Entry

open Verif Verif.Duality
open Verif.PCL (Setup)
open Verif.Asset (Str Info Coin assertSent assertCoins mustPay sent declared)
open Verif.Ledgers (ValidFunds label)

set_option linter.unusedSectionVars false

variable {A : Type} [DecidableEq A]

/-- What never changes about a pair: it trades two coins (contracts/pair_concentrated_duality/src/instantiate.rs:32-144). -/
structure Cfg (A : Type) where
  me : A
  den : Bool → Str
  /-- denom of the LP token -/
  lp : Str
  prec : Bool → Nat
  /-- valid addresses -/
  okAddr : Str → Bool
  addr : A → Str

/-- The two coins differ, and neither is the LP token. -/
structure Cfg.Ok (c : Cfg A) : Prop where
  ne : c.den false ≠ c.den true
  lp : ∀ i, c.den i ≠ c.lp

/-- The same as the configuration of a pair whose assets may be tokens. -/
def Cfg.gen (c : Cfg A) : Ledgers.Cfg A :=
  { me := c.me, infos := fun i => .native (c.den i), lp := c.lp, addr := c.addr, okAddr := c.okAddr, prec := c.prec }

/-- Precisions and kinds of the two assets. -/
def Cfg.su (c : Cfg A) : Setup := PCL.Entry.setup c.gen

/-- The pair with the ledgers of its coins and of its LP token, and the ledgers of all other coins. -/
structure Chain (A : Type) where
  st : State A
  others : Str → A → Nat

/-- The ledger of a denom. -/
def holds (c : Cfg A) (w : Chain A) (d : Str) : A → Nat :=
  if d = c.den false then w.st.pcl.bal false
  else if d = c.den true then w.st.pcl.bal true
  else if d = c.lp then w.st.pcl.lp
  else w.others d

/-- The bank: a transfer of a coin. -/
def transfer (c : Cfg A) (w : Chain A) (src dst : A) (x : Coin) : Res (Chain A) := do
  let l ← Verif.move (holds c w x.denom) src dst x.amount
  if x.denom = c.den false then
    .ok { w with st := { w.st with pcl := { w.st.pcl with bal := set2 w.st.pcl.bal false l } } }
  else if x.denom = c.den true then
    .ok { w with st := { w.st with pcl := { w.st.pcl with bal := set2 w.st.pcl.bal true l } } }
  else if x.denom = c.lp then .ok { w with st := { w.st with pcl := { w.st.pcl with lp := l } } }
  else .ok { w with others := Function.update w.others x.denom l }

/-- The bank: coins attached to a message. -/
def attach (c : Cfg A) (w : Chain A) (src dst : A) : List Coin → Res (Chain A)
  | [] => .ok w
  | x :: xs => do
    let w ← transfer c w src dst x
    attach c w src dst xs

/-- Block time, the factory's owner, whether the factory knows the pair, and what the orderbook decides. -/
structure Around (A : Type) where
  now : Nat
  fo : A
  registered : Bool
  env : Env A

/-- `ExecuteMsgExt<DualityPairMsg>` (packages/astroport/src/pair.rs, packages/astroport/src/pair_concentrated_duality.rs); `execute` drops the
asset a trade asks for, and panics on everything that is not listed (`unsupported`). -/
inductive Msg (A : Type) where
  | provide (assets : List Asset.Asset) (tol minLp : Option Nat) (receiver : Option A)
  | swap (offer : Asset.Asset) (belief maxSpread : Option Nat) (dest : Option A)
  | withdraw (assets : List Asset.Asset) (mins : Option (List Asset.Asset))
  | updateConfig (u : PCL.Entry.Update A)
  | sync
  | configOrderbook (u : UpdateOB A)
  | unsupported

/-- Which assets the least amounts to receive are of: contracts/pair_concentrated_duality/src/utils.rs:196-201. -/
def minsOf (c : Cfg A) : List Asset.Asset → Res (List (Bool × Nat))
  | [] => .ok []
  | a :: as => do
    let i ← orErr (label c.gen a.info) (.invalid "InvalidAsset")
    let l ← minsOf c as
    .ok ((i, a.amount) :: l)

/-- The same, when no least amounts need be given. -/
def minsOpt (c : Cfg A) : Option (List Asset.Asset) → Res (Option (List (Bool × Nat)))
  | none => .ok none
  | some l => do
    let l ← minsOf c l
    .ok (some l)

/-- What `provide_liquidity` checks before it computes: contracts/pair_concentrated_duality/src/execute.rs:176-180, with
`get_assets_with_precision`, contracts/pair_concentrated_duality/src/utils.rs:34-85 (word for word the one of the plain pair). -/
def deposits (c : Cfg A) (e : Around A) (funds : List Coin) (assets : List Asset.Asset) : Res (Bool → Nat) := do
  let (as', _) ← PCL.Entry.getAssets c.gen ⟨e.now, e.fo, 0, none, e.registered⟩ assets
  assertCoins funds as' [.native (c.den false), .native (c.den true)]
  .ok fun i => declared as' (.native (c.den i))

/-- The pair's own transaction for a message, contracts/pair_concentrated_duality/src/execute.rs:36-132: deposits (176-180), trades (59-85),
withdrawals (310 and 350-355), settings (616-682), the orderbook (684-718). -/
def toOp (c : Cfg A) (e : Around A) (sender : A) (funds : List Coin) : Msg A → Res (Op A)
  | .provide assets tol minLp receiver => do
    let d ← deposits c e funds assets
    .ok (.provide sender d tol minLp (receiver.getD sender) e.env)
  | .swap offer belief maxSpread dest => do
    assertSent offer funds
    let i ← orErr (label c.gen offer.info) (.invalid "InvalidAsset")
    .ok (.swap sender i offer.amount belief maxSpread (dest.getD sender) e.env)
  | .withdraw assets mins => do
    let n ← mustPay funds c.lp
    require (assets = []) (.invalid "Imbalanced withdraw is currently disabled")
    let m ← minsOpt c mins
    .ok (.withdraw sender n m e.env)
  | .updateConfig u => .ok (.admin (u.op sender))
  | .sync => .ok (.sync sender e.env)
  | .configOrderbook u => .ok (.config sender u)
  | .unsupported => .error (.invalid "Unsupported message")

/-- Messages whose coins are not looked at. -/
def Msg.blind : Msg A → Bool
  | .updateConfig _ | .sync | .configOrderbook _ => true
  | _ => false

/-- `execute`, contracts/pair_concentrated_duality/src/execute.rs:36-132: `sender` calls with `funds` attached. -/
def execute (c : Cfg A) (e : Around A) (w : Chain A) (sender : A) (funds : List Coin) (m : Msg A) : Res (Chain A) := do
  require (ValidFunds funds) (.invalid "invalid coins")
  let o ← toOp c e sender funds m
  let w ← (if m.blind then attach c w sender c.me funds else .ok w)
  let s ← Duality.exec c.su c.me e.now e.fo w.st o
  .ok { w with st := s }

/-- What can happen on the chain: messages to the pair, transfers of coins, fills of orders on the orderbook. -/
inductive Tx (A : Type) where
  | call (e : Around A) (sender : A) (funds : List Coin) (m : Msg A)
  | send (e : Around A) (src dst : A) (x : Coin)
  | fill (e : Around A) (k sold paid : Nat)

/-- One transaction; the pair itself signs none. -/
def exec (c : Cfg A) (w : Chain A) : Tx A → Res (Chain A)
  | .call e sender funds m => do
    require (sender ≠ c.me) .unauthorized
    execute c e w sender funds m
  | .send _ src dst x => do
    require (src ≠ c.me) .unauthorized
    transfer c w src dst x
  | .fill _ k sold paid => do
    let s ← Duality.fill w.st k sold paid
    .ok { w with st := s }

/-- History; failed transactions change nothing. -/
def run (c : Cfg A) (w : Chain A) (ts : List (Tx A)) : Chain A := ts.foldl (fun w t => commit' w (exec c w t)) w

/-! ## Lemmas -/

theorem gen_ok {c : Cfg A} (hc : c.Ok) : c.gen.Ok := by
  refine ⟨?_, ?_⟩
  · intro h
    simp only [Cfg.gen, Info.native.injEq] at h
    exact hc.ne h
  · intro i h
    simp only [Cfg.gen, Info.native.injEq] at h
    exact hc.lp i h

theorem label_ok {c : Cfg A} {k : Info} {i : Bool} (h : label c.gen k = some i) : k = .native (c.den i) := by
  unfold label at h
  split_ifs at h with h1 h2
  · simp only [Option.some.injEq] at h; subst h; exact h1
  · simp only [Option.some.injEq] at h; subst h; exact h2

theorem holds_den {c : Cfg A} (hc : c.Ok) (w : Chain A) (i : Bool) : holds c w (c.den i) = w.st.pcl.bal i := by
  cases i
  · simp [holds]
  · simp [holds, hc.ne.symm]

theorem holds_lp {c : Cfg A} (hc : c.Ok) (w : Chain A) : holds c w c.lp = w.st.pcl.lp := by
  simp [holds, (hc.lp false).symm, (hc.lp true).symm]

theorem holds_other {c : Cfg A} {w : Chain A} {d : Str} (h : ∀ i, d ≠ c.den i) (hl : d ≠ c.lp) : holds c w d = w.others d := by
  simp [holds, h false, h true, hl]

/-- Every denom is one of the pair's or another one. -/
theorem denom_cases (c : Cfg A) (d : Str) : (∃ i, d = c.den i) ∨ d = c.lp ∨ ((∀ i, d ≠ c.den i) ∧ d ≠ c.lp) := by
  by_cases h0 : d = c.den false
  · exact .inl ⟨_, h0⟩
  · by_cases h1 : d = c.den true
    · exact .inl ⟨_, h1⟩
    · by_cases h2 : d = c.lp
      · exact .inr (.inl h2)
      · exact .inr (.inr ⟨fun i => by cases i <;> assumption, h2⟩)

/-- What a transfer does to the ledgers. -/
theorem transfer_holds {c : Cfg A} (hc : c.Ok) {w w' : Chain A} {src dst : A} {x : Coin}
    (h : transfer c w src dst x = .ok w') (d : Str) :
    Verif.move (holds c w d) src dst (if d = x.denom then x.amount else 0) = .ok (holds c w' d) := by
  simp only [transfer, bind_ok_iff] at h
  obtain ⟨l, hl, h⟩ := h
  have hne := hc.ne
  have hl0 := hc.lp false
  have hl1 := hc.lp true
  by_cases hd : d = x.denom
  · subst hd
    rw [if_pos rfl, hl]
    split_ifs at h with h0 h1 h2 <;> simp only [Except.ok.injEq] at h <;> subst h
    · rw [h0]; simp [holds]
    · rw [h1]; simp [holds, hne.symm]
    · rw [h2]; simp [holds, hl0.symm, hl1.symm]
    · simp [holds, h0, h1, h2]
  · rw [if_neg hd, Ledgers.move_zero]
    congr 1
    split_ifs at h with h0 h1 h2 <;> simp only [Except.ok.injEq] at h <;> subst h
    · rw [h0] at hd; simp [holds, hd, set2_apply]
    · rw [h1] at hd; simp [holds, hd, set2_apply]
    · rw [h2] at hd; simp [holds, hd]
    · simp [holds, hd]

theorem attach_holds {c : Cfg A} (hc : c.Ok) {src dst a : A} (hsd : src ≠ dst) (ha : a ≠ dst) : ∀ {funds : List Coin} {w w' : Chain A},
    attach c w src dst funds = .ok w' → ∀ d, holds c w d a = holds c w' d a + (if a = src then sent funds d else 0) := by
  intro funds
  induction funds with
  | nil =>
    intro w w' h d
    simp only [attach, Except.ok.injEq] at h
    subst h
    simp [sent]
  | cons x xs ih =>
    intro w w' h d
    simp only [attach, bind_ok_iff] at h
    obtain ⟨w1, h1, h⟩ := h
    have e1 := ih h d
    have e2 := transfer_holds hc h1 d
    have e3 := move_apply e2 a
    have e4 := move_le e2
    rw [if_neg ha] at e3
    have hs : sent (x :: xs) d = (if d = x.denom then x.amount else 0) + sent xs d := by
      unfold sent
      by_cases hd : d = x.denom
      · simp [hd]
      · simp [hd, Ne.symm hd]
    rw [hs]
    by_cases hx : a = src
    · subst hx
      simp only at e1 e3 ⊢
      split_ifs at * <;> omega
    · simp only [if_neg hx] at e1 e3 ⊢
      omega

/-! ## Specification -/

/-- A plain transfer, as the pair's ledgers see it. -/
def transferOps (c : Cfg A) (src dst : A) (x : Coin) : List (Op A) :=
  if x.denom = c.den false then [.admin (.send false src dst x.amount)]
  else if x.denom = c.den true then [.admin (.send true src dst x.amount)]
  else if x.denom = c.lp then [.admin (.sendLp src dst x.amount)]
  else []

/-- **Specification.**  What a transaction on the chain means for the pair: a deposit of exactly the declared amounts, a
trade of exactly the offered amount, a withdrawal of the LP coins that were attached, or (settings and the orderbook) the
transfer of the attached coins and the change. -/
def ops (c : Cfg A) : Tx A → List (Op A)
  | .call e x _ (.provide assets tol minLp r) =>
    [.provide x (fun i => declared assets (.native (c.den i))) tol minLp (r.getD x) e.env]
  | .call e x _ (.swap offer b m r) =>
    [.swap x (decide (offer.info = .native (c.den true))) offer.amount b m (r.getD x) e.env]
  | .call e x funds (.withdraw _ mins) =>
    [.withdraw x (sent funds c.lp)
      (mins.map fun l => l.map fun a => (decide (a.info = .native (c.den true)), a.amount)) e.env]
  | .call _ x funds (.updateConfig u) => funds.flatMap (transferOps c x c.me) ++ [.admin (u.op x)]
  | .call e x funds .sync => funds.flatMap (transferOps c x c.me) ++ [.sync x e.env]
  | .call _ x funds (.configOrderbook u) => funds.flatMap (transferOps c x c.me) ++ [.config x u]
  | .call _ _ _ .unsupported => []
  | .send _ src dst x => transferOps c src dst x
  | .fill _ k n p => [.fill k n p]

/-- The surroundings of a transaction. -/
def Tx.around : Tx A → Around A
  | .call e .. | .send e .. | .fill e .. => e

/-- The same with the block time and the factory's owner. -/
def meaning (c : Cfg A) (t : Tx A) : List (Event A) := (ops c t).map fun o => ⟨t.around.now, t.around.fo, o⟩

/-- One transaction of the pair. -/
def exec1 (c : Cfg A) (s : State A) (ev : Event A) : Res (State A) := Duality.exec c.su c.me ev.now ev.fo s ev.op

/-- Who signs. -/
def Tx.signer : Tx A → Option A
  | .call _ x _ _ => some x
  | .send _ x _ _ => some x
  | .fill .. => none

/-- What the signer gives away of a denom. -/
def Tx.given : Tx A → Str → Nat
  | .call _ _ funds _, d => sent funds d
  | .send _ _ _ x, d => sent [x] d
  | .fill .., _ => 0

/-! ## Messages are transactions of the pair -/

theorem deposits_ok {c : Cfg A} (hc : c.Ok) {e : Around A} {funds : List Coin} {assets : List Asset.Asset} {d : Bool → Nat}
    (hv : ValidFunds funds) (h : deposits c e funds assets = .ok d) :
    (d = fun i => declared assets (.native (c.den i))) ∧ (∀ k, sent funds k = declared assets (.native k)) ∧
      e.registered = true := by
  simp only [deposits, bind_ok_iff, Prod.exists, Except.ok.injEq] at h
  obtain ⟨as', dd, hg, ⟨⟩, ha, rfl⟩ := h
  obtain ⟨_, hd, hall, hin⟩ := PCL.Entry.getAssets_ok (gen_ok hc) hg
  refine ⟨by funext i; exact hd _, fun k => ?_, ?_⟩
  · rw [← hd]
    refine Asset.C67_sent_equals_declared_partial funds as' _ hv.1 (fun k hk => ?_) ha k
    simp only [List.mem_cons, Info.native.injEq, List.not_mem_nil, or_false] at hk
    rcases hk with rfl | rfl
    · exact hall false
    · exact hall true
  · unfold PCL.Entry.getAssets at hg
    simp only [bind_ok_iff, require_ok, exists_const] at hg
    exact hg.1

theorem label_eq {c : Cfg A} (hc : c.Ok) {k : Info} {i : Bool} (h : label c.gen k = some i) :
    decide (k = .native (c.den true)) = i := by
  rw [label_ok h]
  cases i
  · simp [hc.ne]
  · simp

theorem minsOf_ok {c : Cfg A} (hc : c.Ok) : ∀ {l : List Asset.Asset} {r : List (Bool × Nat)}, minsOf c l = .ok r →
    r = l.map fun a => (decide (a.info = .native (c.den true)), a.amount)
  | [], r, h => by
    simp only [minsOf, Except.ok.injEq] at h
    simp [← h]
  | a :: as, r, h => by
    simp only [minsOf, bind_ok_iff, orErr_ok, Except.ok.injEq] at h
    obtain ⟨i, hi, l, hl, rfl⟩ := h
    rw [minsOf_ok hc hl, List.map_cons, label_eq hc hi]

theorem mustPay_ok {funds : List Coin} {d : Str} {n : Nat} : mustPay funds d = .ok n ↔ funds = [⟨d, n⟩] ∧ n ≠ 0 := by
  have h := Asset.C67_single_coin d n funds
  unfold assertSent at h
  simp only [bind_ok_iff, require_ok] at h
  rw [← h]
  constructor
  · intro h; exact ⟨n, h, rfl⟩
  · rintro ⟨m, h, rfl⟩; exact h

theorem sent_one (d k : Str) (n : Nat) : sent [⟨d, n⟩] k = if d = k then n else 0 := by
  unfold sent
  by_cases h : d = k <;> simp [h]

theorem transfer_meaning {c : Cfg A} {w w' : Chain A} {src dst : A} {x : Coin} {n : Nat} {fo : A} (hs : src ≠ c.me)
    (h : transfer c w src dst x = .ok w') :
    ((transferOps c src dst x).map fun o => (⟨n, fo, o⟩ : Event A)).foldlM (exec1 c) w.st = .ok w'.st := by
  simp only [transfer, bind_ok_iff] at h
  obtain ⟨l, hl, h⟩ := h
  unfold transferOps
  have hset : ∀ (b : Bool → A → Nat) i, (fun j => if j = i then l else b j) = set2 b i l := by
    intro b i; funext j; rw [set2_apply]
  have hsig : (some src : Option A) ≠ some c.me := by simpa using hs
  split_ifs at h ⊢ with h0 h1 h2 <;> simp only [Except.ok.injEq] at h <;> subst h
  · simp only [holds, h0, if_pos] at hl
    simp only [List.map_cons, List.map_nil, List.foldlM_cons, List.foldlM_nil, bind_ok_iff, pure_eq_ok, Except.ok.injEq,
      exists_eq_right, exec1, Duality.exec, PCL.exec, require_ok, exists_const]
    exact ⟨hsig, rfl, _, ⟨hs, _, hl, rfl⟩, by rw [hset]⟩
  · simp only [holds, h1, if_neg (h1 ▸ h0), if_pos] at hl
    simp only [List.map_cons, List.map_nil, List.foldlM_cons, List.foldlM_nil, bind_ok_iff, pure_eq_ok, Except.ok.injEq,
      exists_eq_right, exec1, Duality.exec, PCL.exec, require_ok, exists_const]
    exact ⟨hsig, rfl, _, ⟨hs, _, hl, rfl⟩, by rw [hset]⟩
  · simp only [holds, h2, if_neg (h2 ▸ h0), if_neg (h2 ▸ h1), if_pos] at hl
    simp only [List.map_cons, List.map_nil, List.foldlM_cons, List.foldlM_nil, bind_ok_iff, pure_eq_ok, Except.ok.injEq,
      exists_eq_right, exec1, Duality.exec, PCL.exec, require_ok, exists_const]
    exact ⟨hsig, rfl, _, ⟨hs, _, hl, rfl⟩, rfl⟩
  · rfl

theorem attach_meaning {c : Cfg A} {x : A} {n : Nat} {fo : A} (hs : x ≠ c.me) : ∀ {funds : List Coin} {w w' : Chain A},
    attach c w x c.me funds = .ok w' →
    ((funds.flatMap (transferOps c x c.me)).map fun o => (⟨n, fo, o⟩ : Event A)).foldlM (exec1 c) w.st = .ok w'.st
  | [], w, w', h => by
    simp only [attach, Except.ok.injEq] at h
    subst h
    rfl
  | a :: as, w, w', h => by
    simp only [attach, bind_ok_iff] at h
    obtain ⟨w1, h1, h2⟩ := h
    rw [List.flatMap_cons, List.map_append]
    exact Ledgers.foldlM_append_ok (transfer_meaning hs h1) (attach_meaning hs h2)

theorem one_op {c : Cfg A} {s s' : State A} {n : Nat} {fo : A} {o : Op A} (h : Duality.exec c.su c.me n fo s o = .ok s') :
    ([o].map fun o => (⟨n, fo, o⟩ : Event A)).foldlM (exec1 c) s = .ok s' := by
  simp only [List.map_cons, List.map_nil, List.foldlM_cons, List.foldlM_nil, bind_ok_iff, pure_eq_ok, Except.ok.injEq,
    exists_eq_right, exec1]
  exact h

/-- **C183.**  A message that is accepted is, for the pair, exactly the transaction its sender and their coins describe: a
deposit of the declared amounts, a trade of the offered amount, a withdrawal of the attached LP coins; coins attached to any
other message go to the pool first. -/
theorem C183_messages_are_pair_transactions (c : Cfg A) (hc : c.Ok) (w w' : Chain A) (t : Tx A)
    (h : exec c w t = .ok w') : (meaning c t).foldlM (exec1 c) w.st = .ok w'.st := by
  cases t with
  | send e src dst x =>
    simp only [exec, bind_ok_iff, require_ok, exists_const] at h
    exact transfer_meaning h.1 h.2
  | fill e k n p =>
    simp only [exec, bind_ok_iff, Except.ok.injEq] at h
    obtain ⟨s, h, rfl⟩ := h
    refine one_op ?_
    simp only [Duality.exec, bind_ok_iff, require_ok, exists_const]
    exact ⟨by simp [Op.signer], h⟩
  | call e x funds m =>
    simp only [exec, execute, bind_ok_iff, require_ok, exists_const, Except.ok.injEq] at h
    obtain ⟨hx, hv, o, ho, w1, h1, s, hs, rfl⟩ := h
    cases m with
    | provide assets tol minLp r =>
      simp only [toOp, bind_ok_iff, Except.ok.injEq] at ho
      obtain ⟨d, hd, rfl⟩ := ho
      simp only [Msg.blind, Bool.false_eq_true, if_false, Except.ok.injEq] at h1
      subst h1
      rw [(deposits_ok hc hv hd).1] at hs
      exact one_op hs
    | swap offer b m r =>
      simp only [toOp, bind_ok_iff, orErr_ok, Except.ok.injEq] at ho
      obtain ⟨⟨⟩, _, i, hi, rfl⟩ := ho
      simp only [Msg.blind, Bool.false_eq_true, if_false, Except.ok.injEq] at h1
      subst h1
      rw [← label_eq hc hi] at hs
      exact one_op hs
    | withdraw assets mins =>
      simp only [toOp, bind_ok_iff, require_ok, Except.ok.injEq, exists_const] at ho
      obtain ⟨n, hn, _, m, hm, rfl⟩ := ho
      simp only [Msg.blind, Bool.false_eq_true, if_false, Except.ok.injEq] at h1
      subst h1
      obtain ⟨hf, _⟩ := mustPay_ok.1 hn
      have hm' : m = mins.map fun l => l.map fun a => (decide (a.info = .native (c.den true)), a.amount) := by
        cases mins with
        | none => simp only [minsOpt, Except.ok.injEq] at hm; simp [← hm]
        | some l =>
          simp only [minsOpt, bind_ok_iff, Except.ok.injEq] at hm
          obtain ⟨r, hr, rfl⟩ := hm
          rw [minsOf_ok hc hr]; rfl
      have : ops c (.call e x funds (.withdraw assets mins)) = [.withdraw x n m e.env] := by
        rw [hm']
        simp only [ops]
        rw [hf, sent_one, if_pos rfl]
      unfold meaning
      rw [this]
      exact one_op hs
    | updateConfig u =>
      simp only [toOp, Except.ok.injEq] at ho
      subst ho
      simp only [Msg.blind, if_true] at h1
      show (List.map _ (_ ++ _)).foldlM _ _ = _
      rw [List.map_append]
      exact Ledgers.foldlM_append_ok (attach_meaning hx h1) (one_op hs)
    | sync =>
      simp only [toOp, Except.ok.injEq] at ho
      subst ho
      simp only [Msg.blind, if_true] at h1
      show (List.map _ (_ ++ _)).foldlM _ _ = _
      rw [List.map_append]
      exact Ledgers.foldlM_append_ok (attach_meaning hx h1) (one_op hs)
    | configOrderbook u =>
      simp only [toOp, Except.ok.injEq] at ho
      subst ho
      simp only [Msg.blind, if_true] at h1
      show (List.map _ (_ ++ _)).foldlM _ _ = _
      rw [List.map_append]
      exact Ledgers.foldlM_append_ok (attach_meaning hx h1) (one_op hs)
    | unsupported => simp [toOp] at ho

theorem run_foldlM {c : Cfg A} : ∀ {es : List (Event A)} {s s' : State A}, es.foldlM (exec1 c) s = .ok s' →
    Duality.run c.su c.me s es = s'
  | [], s, s', h => by
    simp only [List.foldlM_nil, pure_eq_ok, Except.ok.injEq] at h
    exact h
  | o :: os, s, s', h => by
    simp only [List.foldlM_cons, bind_ok_iff] at h
    obtain ⟨s1, h1, h2⟩ := h
    show Duality.run c.su c.me (Duality.step c.su c.me s o) os = s'
    have : Duality.step c.su c.me s o = s1 := by
      unfold Duality.step
      unfold exec1 at h1
      rw [h1]
      rfl
    rw [this]
    exact run_foldlM h2

/-- **C183.**  Every history of messages is, for the pair, a history of its own transactions (those of the messages that were
accepted): what C99 to C110 say of such histories holds on the chain. -/
theorem C183_histories_are_pair_histories (c : Cfg A) (hc : c.Ok) (w : Chain A) (ts : List (Tx A)) :
    ∃ es : List (Event A), (run c w ts).st = Duality.run c.su c.me w.st es ∧
      ∀ ev ∈ es, ∃ t ∈ ts, ev ∈ meaning c t := by
  induction ts generalizing w with
  | nil => exact ⟨[], rfl, by simp⟩
  | cons t ts ih =>
    show ∃ es, (run c (commit' w (exec c w t)) ts).st = _ ∧ _
    obtain ⟨es, ho, hes⟩ := ih (commit' w (exec c w t))
    cases hx : exec c w t with
    | error e =>
      rw [hx] at ho
      refine ⟨es, ho, fun ev hev => ?_⟩
      obtain ⟨t', ht', hm⟩ := hes ev hev
      exact ⟨t', by simp [ht'], hm⟩
    | ok w' =>
      rw [hx] at ho
      refine ⟨meaning c t ++ es, ?_, fun ev hev => ?_⟩
      · show (run c w' ts).st = _
        have ho' : (run c w' ts).st = Duality.run c.su c.me w'.st es := ho
        rw [ho', ← run_foldlM (C183_messages_are_pair_transactions c hc w w' t hx)]
        exact List.foldl_append.symm
      · rcases List.mem_append.1 hev with hev | hev
        · exact ⟨t, by simp, hev⟩
        · obtain ⟨t', ht', hm⟩ := hes ev hev
          exact ⟨t', by simp [ht'], hm⟩

/-! ## Who pays -/

/-- What a transaction of the pair takes from its signer, of the two coins and of the LP token. -/
def takes : Op A → (Bool → Nat) × Nat
  | .provide _ d _ _ _ _ => (d, 0)
  | .withdraw _ n _ _ => (fun _ => 0, n)
  | .swap _ i n _ _ _ _ => (fun j => if j = i then n else 0, 0)
  | .admin (.send i _ _ n) => (fun j => if j = i then n else 0, 0)
  | .admin (.sendLp _ _ n) => (fun _ => 0, n)
  | _ => (fun _ => 0, 0)

theorem move_src {l l' : A → Nat} {a b : A} {n : Nat} (h : Verif.move l a b n = .ok l') : l a ≤ l' a + n := by
  have := move_apply h a
  rw [this]; have := move_le h
  simp only [if_true]
  split <;> omega

/-- The signer loses at most what the transaction takes. -/
theorem signer_loses {c : Cfg A} {s s' : State A} {n : Nat} {fo u : A} {o : Op A} (hu : o.signer = some u)
    (h : Duality.exec c.su c.me n fo s o = .ok s') :
    (∀ i, s.pcl.bal i u ≤ s'.pcl.bal i u + (takes o).1 i) ∧ s.pcl.lp u ≤ s'.pcl.lp u + (takes o).2 := by
  obtain ⟨hsig, hx⟩ := exec_cases h
  have hm : u ≠ c.me := fun e => hsig (by rw [hu, e])
  rcases hx with ⟨v, d, t, m, r, e', sh, rfl, hx⟩ | ⟨v, k, m, e', x, rfl, hx⟩ | ⟨v, i, k, b, m, r, e', x, rfl, hx⟩ |
    ⟨v, e', rfl, hx⟩ | ⟨v, y, rfl, hx⟩ | ⟨x, y, rfl, hax, hx, rfl⟩ | ⟨k, y, p, rfl, hx⟩
  · simp only [Op.signer, Option.some.injEq] at hu
    subst hu
    obtain ⟨b0, bal, bal', total, os, ts, t', pools, dd, x, xs, pool, pool', shareD, book', c1, sp⟩ := provide_spec hx
    constructor
    · intro i
      obtain ⟨h1, h2⟩ := sp.hrenew.other hm
      rw [h2 i, sp.hc.1, h1 i]
      have := move_src (sp.hb0 i)
      have := settle_other hm sp.hsettle i
      simp only [takes]; omega
    · rw [sp.hlp, credit_apply, credit_apply]
      split <;> omega
  · simp only [Op.signer, Option.some.injEq] at hu
    subst hu
    obtain ⟨bal, bal', os, ts, t', pools, xs, pool, rr, book', c1, fin, sp⟩ := withdraw_spec hx
    constructor
    · intro i
      obtain ⟨h1, h2⟩ := sp.hrenew.other hm
      rw [h2 i]
      have h3 := settle_other hm sp.hsettle i
      rw [← h1 i] at h3
      have : bal' i v ≤ c1.bal i v := by
        cases i
        · exact PCL.move_other hm sp.hb0.1
        · exact PCL.move_other hm sp.hb1.1
      simp only [takes]; omega
    · have h1 := debit_apply sp.hlp v
      have h2 := (debit_ok.1 sp.hlp).1
      simp only [takes, if_true] at h1 ⊢
      omega
  · simp only [Op.signer, Option.some.injEq] at hu
    subst hu
    obtain ⟨bo, bal, bal', os, ts, t', pools, xs, pool, off, fs, old, rr, out, book', c1, l1, l2, sp⟩ := swap_spec hx
    constructor
    · intro j
      obtain ⟨h1, h2⟩ := sp.hrenew.other hm
      rw [h2 j]
      have h3 := settle_other hm sp.hsettle j
      rw [← h1 j, set2_apply] at h3
      simp only [takes]
      by_cases hj : j = i
      · subst hj
        rw [if_pos rfl] at h3
        rw [sp.hci, if_pos rfl]
        have := move_src sp.hbo
        omega
      · have hj' : j = !i := by cases i <;> cases j <;> simp_all
        rw [if_neg hj] at h3
        rw [if_neg hj]
        subst hj'
        have h4 := PCL.move_other hm sp.hl1
        have h5 := PCL.sendOpt_other hm sp.hl2
        have h6 := PCL.sendOpt_other hm sp.hl3
        omega
    · rw [sp.hrest.2.2.2.1]; exact Nat.le_add_right _ _
  · obtain ⟨bal, bal', os, ts, t', pools, xs, old, book', c1, sp⟩ := sync_spec hx
    constructor
    · intro i
      obtain ⟨h1, h2⟩ := sp.hrenew.other hm
      rw [h2 i, sp.hc.1, h1 i]
      have hset := sp.hsettle
      rw [← process_settle sp.hne] at hset
      have := settle_other hm hset i
      omega
    · rw [sp.hrest.2.2.2.1]; exact Nat.le_add_right _ _
  · rcases (config_spec hx).2 with ⟨_, bal, book, _, hcan, hs⟩ | ⟨_, _, hs⟩
    · rw [hs]
      refine ⟨fun i => ?_, Nat.le_add_right _ _⟩
      show s.pcl.bal i u ≤ bal i u + _
      rw [cancelAll_other hm hcan i]; exact Nat.le_add_right _ _
    · rw [hs]; exact ⟨fun _ => Nat.le_add_right _ _, Nat.le_add_right _ _⟩
  · simp only [Op.signer, Option.some.injEq] at hu
    cases x with
    | send i a b k =>
      simp only [PCL.Op.signer] at hu
      subst hu
      simp only [PCL.exec, bind_ok_iff, require_ok, exists_const, Except.ok.injEq] at hx
      obtain ⟨_, l, hl, rfl⟩ := hx
      refine ⟨fun j => ?_, Nat.le_add_right _ _⟩
      simp only [takes]
      by_cases hj : j = i
      · subst hj
        simp only [if_true]
        exact move_src hl
      · simp [hj]
    | sendLp a b k =>
      simp only [PCL.Op.signer] at hu
      subst hu
      simp only [PCL.exec, bind_ok_iff, require_ok, exists_const, Except.ok.injEq] at hx
      obtain ⟨_, l, hl, rfl⟩ := hx
      exact ⟨fun j => Nat.le_add_right _ _, move_src hl⟩
    | update a v =>
      simp only [PCL.exec, bind_ok_iff, require_ok, exists_const, Except.ok.injEq] at hx
      obtain ⟨_, _, _, _, _, rfl⟩ := hx
      exact ⟨fun _ => Nat.le_add_right _ _, Nat.le_add_right _ _⟩
    | promote a v g t =>
      simp only [PCL.exec, bind_ok_iff, require_ok, exists_const, Except.ok.injEq] at hx
      obtain ⟨_, _, _, _, _, rfl⟩ := hx
      exact ⟨fun _ => Nat.le_add_right _ _, Nat.le_add_right _ _⟩
    | stop a =>
      simp only [PCL.exec, bind_ok_iff, require_ok, exists_const, Except.ok.injEq] at hx
      obtain ⟨_, _, _, _, _, rfl⟩ := hx
      exact ⟨fun _ => Nat.le_add_right _ _, Nat.le_add_right _ _⟩
    | enableShare a v g =>
      simp only [PCL.exec, bind_ok_iff, require_ok, exists_const, Except.ok.injEq] at hx
      obtain ⟨_, _, _, _, rfl⟩ := hx
      exact ⟨fun _ => Nat.le_add_right _ _, Nat.le_add_right _ _⟩
    | disableShare a =>
      simp only [PCL.exec, bind_ok_iff, require_ok, exists_const, Except.ok.injEq] at hx
      obtain ⟨_, _, _, rfl⟩ := hx
      exact ⟨fun _ => Nat.le_add_right _ _, Nat.le_add_right _ _⟩
    | _ => simp [isAdmin] at hax
  · simp [Op.signer] at hu

/-- What the checks let through is exactly what is taken: a message whose coins are looked at takes, of every denom, what
is attached. -/
theorem takes_sent {c : Cfg A} (hc : c.Ok) {e : Around A} {x : A} {funds : List Coin} {m : Msg A} {o : Op A}
    (hv : ValidFunds funds) (h : toOp c e x funds m = .ok o) (hb : m.blind = false) :
    (∀ i, (takes o).1 i = sent funds (c.den i)) ∧ (takes o).2 = sent funds c.lp ∧
      ∀ d, (∀ i, d ≠ c.den i) → d ≠ c.lp → sent funds d = 0 := by
  cases m with
  | provide assets tol minLp r =>
    simp only [toOp, bind_ok_iff, Except.ok.injEq] at h
    obtain ⟨d, hd, rfl⟩ := h
    obtain ⟨rfl, hs, _⟩ := deposits_ok hc hv hd
    have hin : ∀ k, (∀ i, k ≠ c.den i) → sent funds k = 0 := by
      intro k hk
      simp only [deposits, bind_ok_iff, Prod.exists, Except.ok.injEq] at hd
      obtain ⟨as', dd, hg, _, _, _⟩ := hd
      obtain ⟨_, hd, _, hin⟩ := PCL.Entry.getAssets_ok (gen_ok hc) hg
      rw [hs, ← hd]
      refine Asset.declared_of_not_mem fun a ha he => ?_
      obtain ⟨i, hi⟩ := hin a ha
      rw [he] at hi
      simp only [Cfg.gen, Info.native.injEq] at hi
      exact hk i hi
    exact ⟨fun i => (hs _).symm, (hin _ fun i => (hc.lp i).symm).symm, fun d hd _ => hin d hd⟩
  | swap offer b m r =>
    simp only [toOp, bind_ok_iff, orErr_ok, Except.ok.injEq] at h
    obtain ⟨⟨⟩, ha, i, hi, rfl⟩ := h
    obtain ⟨info, n⟩ := offer
    have := label_ok hi
    simp only at this
    subst this
    obtain ⟨hf, _⟩ := (Asset.C67_single_coin _ _ _).1 ha
    subst hf
    have hinj : ∀ j, (c.den i = c.den j) ↔ j = i := by
      intro j
      have := hc.ne
      cases i <;> cases j <;> simp [this, this.symm]
    refine ⟨fun j => ?_, ?_, fun d hd _ => ?_⟩
    · rw [sent_one]
      simp only [takes, hinj]
    · rw [sent_one, if_neg (hc.lp i)]; rfl
    · rw [sent_one, if_neg (hd i).symm]
  | withdraw assets mins =>
    simp only [toOp, bind_ok_iff, require_ok, Except.ok.injEq, exists_const] at h
    obtain ⟨n, hn, _, m, hm, rfl⟩ := h
    obtain ⟨rfl, _⟩ := mustPay_ok.1 hn
    refine ⟨fun j => ?_, ?_, fun d _ hd => ?_⟩
    · rw [sent_one, if_neg (hc.lp j).symm]; rfl
    · rw [sent_one, if_pos rfl]; rfl
    · rw [sent_one, if_neg hd.symm]
  | unsupported => simp [toOp] at h
  | _ => simp [Msg.blind] at hb

theorem toOp_signer {c : Cfg A} {e : Around A} {x : A} {funds : List Coin} {m : Msg A} {o : Op A}
    (h : toOp c e x funds m = .ok o) : o.signer = some x := by
  cases m with
  | updateConfig u =>
    simp only [toOp, Except.ok.injEq] at h
    subst h
    cases u <;> rfl
  | unsupported => simp [toOp] at h
  | _ =>
    simp only [toOp, bind_ok_iff, orErr_ok, Except.ok.injEq, require_ok] at h
    first
      | (subst h; rfl)
      | (obtain ⟨_, _, rfl⟩ := h; rfl)
      | (obtain ⟨_, _, _, _, rfl⟩ := h; rfl)
      | (obtain ⟨_, _, _, _, _, _, rfl⟩ := h; rfl)

theorem blind_takes {c : Cfg A} {e : Around A} {x : A} {funds : List Coin} {m : Msg A} {o : Op A}
    (h : toOp c e x funds m = .ok o) (hb : m.blind = true) : (∀ i, (takes o).1 i = 0) ∧ (takes o).2 = 0 := by
  cases m with
  | updateConfig u =>
    simp only [toOp, Except.ok.injEq] at h
    subst h
    cases u <;> exact ⟨fun _ => rfl, rfl⟩
  | sync => simp only [toOp, Except.ok.injEq] at h; subst h; exact ⟨fun _ => rfl, rfl⟩
  | configOrderbook u => simp only [toOp, Except.ok.injEq] at h; subst h; exact ⟨fun _ => rfl, rfl⟩
  | _ => simp [Msg.blind] at hb

/-- **C183.**  The signer of a transaction loses, of every coin whatsoever, at most what they attached (or sent): a deposit, a
trade or a withdrawal is paid with the attached coins only. -/
theorem C183_signer_pays_what_is_attached (c : Cfg A) (hc : c.Ok) (w w' : Chain A) (t : Tx A) (u : A)
    (hu : t.signer = some u) (h : exec c w t = .ok w') (d : Str) : holds c w d u ≤ holds c w' d u + t.given d := by
  cases t with
  | send e src dst x =>
    simp only [Tx.signer, Option.some.injEq] at hu
    subst hu
    simp only [exec, bind_ok_iff, require_ok, exists_const] at h
    have := move_src (transfer_holds hc h.2 d)
    obtain ⟨k, n⟩ := x
    simp only [Tx.given, sent_one, eq_comm (a := k)]
    exact this
  | fill e k n p => simp [Tx.signer] at hu
  | call e x funds m =>
    simp only [Tx.signer, Option.some.injEq] at hu
    subst hu
    simp only [exec, execute, bind_ok_iff, require_ok, exists_const, Except.ok.injEq] at h
    obtain ⟨hx, hv, o, ho, w1, h1, s, hs, rfl⟩ := h
    obtain ⟨hl1, hl2⟩ := signer_loses (toOp_signer ho) hs
    have key : holds c w1 d x ≤ holds c { w1 with st := s } d x +
        (if d = c.den false then (takes o).1 false else if d = c.den true then (takes o).1 true else
          if d = c.lp then (takes o).2 else 0) := by
      unfold holds
      split_ifs
      · exact hl1 false
      · exact hl1 true
      · exact hl2
      · exact le_refl _
    simp only [Tx.given]
    cases hb : m.blind
    · rw [hb] at h1
      simp only [Bool.false_eq_true, if_false, Except.ok.injEq] at h1
      subst h1
      obtain ⟨t1, t2, t3⟩ := takes_sent hc hv ho hb
      refine le_trans key (Nat.add_le_add_left ?_ _)
      split_ifs with q0 q1 q2
      · rw [t1, q0]
      · rw [t1, q1]
      · rw [t2, q2]
      · exact Nat.zero_le _
    · rw [hb] at h1
      simp only [if_true] at h1
      obtain ⟨t1, t2⟩ := blind_takes ho hb
      have e1 := attach_holds hc hx hx h1 d
      rw [if_pos rfl] at e1
      rw [t1, t1, t2] at key
      simp only [ite_self, Nat.add_zero] at key
      omega

/-- **C183.**  Nobody but the signer (and the pair) loses a coin of any denom. -/
theorem C183_others_never_lose (c : Cfg A) (hc : c.Ok) (w w' : Chain A) (t : Tx A) (a : A) (ha : t.signer ≠ some a)
    (hm : a ≠ c.me) (h : exec c w t = .ok w') (d : Str) : holds c w d a ≤ holds c w' d a := by
  have key : ∀ (w : Chain A) (s : State A) (n : Nat) (fo : A) (o : Op A), Duality.exec c.su c.me n fo w.st o = .ok s →
      o.signer ≠ some a → holds c w d a ≤ holds c { w with st := s } d a := by
    intro w s n fo o ho hsig
    obtain ⟨h1, h2⟩ := C108_others_never_lose c.su c.me n fo w.st s o a ho hsig
    unfold holds
    split_ifs
    · exact h2 hm _
    · exact h2 hm _
    · exact h1
    · exact le_refl _
  cases t with
  | send e src dst x =>
    simp only [Tx.signer, ne_eq, Option.some.injEq] at ha
    simp only [exec, bind_ok_iff, require_ok, exists_const] at h
    exact PCL.move_other (Ne.symm ha) (transfer_holds hc h.2 d)
  | fill e k n p =>
    simp only [exec, bind_ok_iff, Except.ok.injEq] at h
    obtain ⟨s, h, rfl⟩ := h
    refine key w s e.now e.fo (.fill k n p) ?_ (by simp [Op.signer])
    simp only [Duality.exec, bind_ok_iff, require_ok, exists_const]
    exact ⟨by simp [Op.signer], h⟩
  | call e x funds m =>
    simp only [Tx.signer, ne_eq, Option.some.injEq] at ha
    simp only [exec, execute, bind_ok_iff, require_ok, exists_const, Except.ok.injEq] at h
    obtain ⟨hx, hv, o, ho, w1, h1, s, hs, rfl⟩ := h
    refine le_trans ?_ (key w1 s e.now e.fo o hs (by rw [toOp_signer ho]; simpa using ha))
    cases hb : m.blind
    · rw [hb] at h1
      simp only [Bool.false_eq_true, if_false, Except.ok.injEq] at h1
      rw [h1]
    · rw [hb] at h1
      simp only [if_true] at h1
      have e1 := attach_holds hc hx hm h1 d
      rw [if_neg (Ne.symm ha)] at e1
      omega

/-! ## What is accepted -/

/-- **C183.**  A trade is accepted iff exactly the offered coin, in exactly the offered amount and nothing else, is attached,
the coin is one of the pair's two, and the pair's own transaction succeeds. -/
theorem C183_trades_accepted_iff (c : Cfg A) (hc : c.Ok) (w w' : Chain A) (e : Around A) (x : A) (funds : List Coin)
    (offer : Asset.Asset) (b m : Option Nat) (r : Option A) :
    exec c w (.call e x funds (.swap offer b m r)) = .ok w' ↔
      ∃ i s, offer.info = .native (c.den i) ∧ funds = [⟨c.den i, offer.amount⟩] ∧ offer.amount ≠ 0 ∧
        Duality.exec c.su c.me e.now e.fo w.st (.swap x i offer.amount b m (r.getD x) e.env) = .ok s ∧
        w' = { w with st := s } := by
  have hlab : ∀ i, label c.gen (.native (c.den i)) = some i := by
    intro i
    have := hc.ne
    cases i <;> simp [label, Cfg.gen, this.symm]
  obtain ⟨info, n⟩ := offer
  simp only [exec, execute, toOp, bind_ok_iff, require_ok, exists_const, Except.ok.injEq, orErr_ok, Msg.blind,
    Bool.false_eq_true, if_false]
  constructor
  · rintro ⟨hx, hv, o, ⟨⟨⟩, ha, i, hi, rfl⟩, w1, rfl, s, hs, rfl⟩
    have := label_ok hi
    subst this
    obtain ⟨hf, hn⟩ := (Asset.C67_single_coin _ _ _).1 ha
    exact ⟨i, s, rfl, hf, hn, hs, rfl⟩
  · rintro ⟨i, s, rfl, rfl, hn, hs, rfl⟩
    have hx : x ≠ c.me := by
      have := (exec_cases hs).1
      simpa [Op.signer] using this
    refine ⟨hx, ⟨by simp, by simpa using hn⟩, _, ⟨(), (Asset.C67_single_coin _ _ _).2 ⟨rfl, hn⟩, i, hlab i, rfl⟩, w, rfl, s, hs, rfl⟩

/-- **C183.**  A withdrawal is accepted iff LP coins and nothing else are attached, no particular amounts are asked for, the
least amounts to receive are of the pair's coins, and the pair's own transaction with exactly the attached LP coins
succeeds. -/
theorem C183_withdrawals_accepted_iff (c : Cfg A) (hc : c.Ok) (w w' : Chain A) (e : Around A) (x : A) (funds : List Coin)
    (assets : List Asset.Asset) (mins : Option (List Asset.Asset)) :
    exec c w (.call e x funds (.withdraw assets mins)) = .ok w' ↔
      ∃ n s, funds = [⟨c.lp, n⟩] ∧ n ≠ 0 ∧ assets = [] ∧
        (∀ l, mins = some l → ∀ a ∈ l, ∃ i, a.info = .native (c.den i)) ∧
        Duality.exec c.su c.me e.now e.fo w.st (.withdraw x n
          (mins.map fun l => l.map fun a => (decide (a.info = .native (c.den true)), a.amount)) e.env) = .ok s ∧
        w' = { w with st := s } := by
  have hlab : ∀ i, label c.gen (.native (c.den i)) = some i := by
    intro i
    have := hc.ne
    cases i <;> simp [label, Cfg.gen, this.symm]
  have hml : ∀ (l : List Asset.Asset) r, minsOf c l = .ok r ↔ (∀ a ∈ l, ∃ i, a.info = .native (c.den i)) ∧
      r = l.map fun a => (decide (a.info = .native (c.den true)), a.amount) := by
    intro l
    induction l with
    | nil => intro r; simp [minsOf, eq_comm]
    | cons a as ih =>
      intro r
      simp only [minsOf, bind_ok_iff, orErr_ok, Except.ok.injEq, ih]
      constructor
      · rintro ⟨i, hi, l, ⟨h1, rfl⟩, rfl⟩
        refine ⟨?_, by rw [List.map_cons, label_eq hc hi]⟩
        intro b hb
        rcases List.mem_cons.1 hb with rfl | hb
        · exact ⟨i, label_ok hi⟩
        · exact h1 b hb
      · rintro ⟨h1, rfl⟩
        obtain ⟨i, hi⟩ := h1 a (by simp)
        have hl : label c.gen a.info = some i := by rw [hi]; exact hlab i
        exact ⟨i, hl, _, ⟨fun b hb => h1 b (by simp [hb]), rfl⟩, by rw [List.map_cons, label_eq hc hl]⟩
  have hmo : ∀ r, minsOpt c mins = .ok r ↔ (∀ l, mins = some l → ∀ a ∈ l, ∃ i, a.info = .native (c.den i)) ∧
      r = mins.map fun l => l.map fun a => (decide (a.info = .native (c.den true)), a.amount) := by
    intro r
    cases mins with
    | none => simp [minsOpt, eq_comm]
    | some l =>
      simp only [minsOpt, bind_ok_iff, Except.ok.injEq, hml]
      constructor
      · rintro ⟨r', ⟨h1, rfl⟩, rfl⟩
        exact ⟨fun l' hl' => by simp only [Option.some.injEq] at hl'; subst hl'; exact h1, rfl⟩
      · rintro ⟨h1, rfl⟩
        exact ⟨_, ⟨h1 l rfl, rfl⟩, rfl⟩
  simp only [exec, execute, toOp, bind_ok_iff, require_ok, exists_const, Except.ok.injEq, Msg.blind,
    Bool.false_eq_true, if_false, hmo, mustPay_ok]
  constructor
  · rintro ⟨hx, hv, o, ⟨n, ⟨hf, hn⟩, ha, m, ⟨h1, rfl⟩, rfl⟩, w1, rfl, s, hs, rfl⟩
    exact ⟨n, s, hf, hn, ha, h1, hs, rfl⟩
  · rintro ⟨n, s, rfl, hn, ha, h1, hs, rfl⟩
    have hx : x ≠ c.me := by
      have := (exec_cases hs).1
      simpa [Op.signer] using this
    exact ⟨hx, ⟨by simp, by simpa using hn⟩, _, ⟨n, ⟨rfl, hn⟩, ha, _, ⟨h1, rfl⟩, rfl⟩, w, rfl, s, hs, rfl⟩

/-- **C183.**  An accepted deposit was paid exactly: of every denom whatsoever the attached amount is the declared one, and
what the pair books is that. -/
theorem C183_deposits_are_exact (c : Cfg A) (hc : c.Ok) (w w' : Chain A) (e : Around A) (x : A) (funds : List Coin)
    (assets : List Asset.Asset) (tol minLp : Option Nat) (r : Option A)
    (h : exec c w (.call e x funds (.provide assets tol minLp r)) = .ok w') :
    (∀ d, sent funds d = declared assets (.native d)) ∧ (∀ d, (∀ i, d ≠ c.den i) → sent funds d = 0) ∧
      e.registered = true ∧
      ∃ s, Duality.exec c.su c.me e.now e.fo w.st
        (.provide x (fun i => sent funds (c.den i)) tol minLp (r.getD x) e.env) = .ok s ∧ w' = { w with st := s } := by
  simp only [exec, execute, toOp, bind_ok_iff, require_ok, exists_const, Except.ok.injEq, Msg.blind,
    Bool.false_eq_true, if_false] at h
  obtain ⟨hx, hv, o, ⟨d, hd, rfl⟩, w1, rfl, s, hs, rfl⟩ := h
  obtain ⟨hd1, hd2, hreg⟩ := deposits_ok hc hv hd
  have ho : toOp c e x funds (.provide assets tol minLp r) = .ok (.provide x d tol minLp (r.getD x) e.env) := by
    simp only [toOp, bind_ok_iff, Except.ok.injEq]
    exact ⟨d, hd, rfl⟩
  obtain ⟨_, t2, t3⟩ := takes_sent hc hv ho rfl
  refine ⟨hd2, fun k hk => ?_, hreg, s, ?_, rfl⟩
  · by_cases hl : k = c.lp
    · rw [hl, ← t2]; rfl
    · exact t3 k hk hl
  · have : (fun i => sent funds (c.den i)) = d := by
      rw [hd1]; funext i; exact hd2 _
    rw [this]
    exact hs

/-- **C183.**  Deposits that are paid exactly are accepted (when the pair's own transaction succeeds): the two coins in either
order, or one of them only. -/
theorem C183_deposits_accepted (c : Cfg A) (hc : c.Ok) (w : Chain A) (s : State A) (e : Around A) (x : A) (funds : List Coin)
    (i : Bool) (n k : Nat) (assets : List Asset.Asset) (tol minLp : Option Nat) (r : Option A)
    (hreg : e.registered = true) (hden : ∀ j, Asset.validateNativeDenom (c.den j) = .ok ())
    (ha : assets = [⟨.native (c.den i), n⟩, ⟨.native (c.den !i), k⟩] ∨ (assets = [⟨.native (c.den i), n⟩] ∧ k = 0))
    (hv : ValidFunds funds) (hf : ∀ d, sent funds d = if d = c.den i then n else if d = c.den !i then k else 0)
    (hin : ∀ y ∈ funds, ∃ j, y.denom = c.den j)
    (hs : Duality.exec c.su c.me e.now e.fo w.st
      (.provide x (fun j => if j = i then n else k) tol minLp (r.getD x) e.env) = .ok s) :
    exec c w (.call e x funds (.provide assets tol minLp r)) = .ok { w with st := s } := by
  have hx : x ≠ c.me := by
    have := (exec_cases hs).1
    simpa [Op.signer] using this
  have hne := hc.ne
  have hlab : ∀ i, label c.gen (.native (c.den i)) = some i := by
    intro i
    cases i <;> simp [label, Cfg.gen, hne.symm]
  have hii : c.den i ≠ c.den !i := by cases i <;> simp [hne, hne.symm]
  have hcomp : PCL.Entry.complete c.gen assets = .ok (⟨.native (c.den i), n⟩, ⟨.native (c.den !i), k⟩) := by
    rcases ha with rfl | ⟨rfl, rfl⟩
    · rfl
    · simp only [PCL.Entry.complete]
      rw [hlab]
      rfl
  obtain ⟨hdec0, hdec1⟩ : (∃ y, Stable.withPrec (if false = i then n else k) (c.prec false) = .ok y) ∧
      ∃ y, Stable.withPrec (if true = i then n else k) (c.prec true) = .ok y := by
    have h2 := (exec_cases hs).2
    rcases h2 with ⟨v, d, t, m, r, e', sh, ho, h2⟩ | ⟨v, q, m, e', z, ho, h2⟩ | ⟨v, j, q, b, m, r, e', z, ho, h2⟩ |
      ⟨v, e', ho, h2⟩ | ⟨v, y, ho, h2⟩ | ⟨z, y, ho, h2, h3, h4⟩ | ⟨q, y, p, ho, h2⟩
    · simp only [Op.provide.injEq] at ho
      obtain ⟨rfl, rfl, rfl, rfl, rfl, rfl⟩ := ho
      obtain ⟨b0, bal, bal', total, os, ts, t', pools, dd, x, xs, pool, pool', shareD, book', c1, sp⟩ := provide_spec h2
      have h3 := sp.hdd
      simp only [PCL.decPools, bind_ok_iff] at h3
      obtain ⟨y0, hy0, y1, hy1, _⟩ := h3
      exact ⟨⟨y0, hy0⟩, ⟨y1, hy1⟩⟩
    all_goals simp at ho
  have hdep : deposits c e funds assets = .ok fun j => if j = i then n else k := by
    have hg : ∃ as' dd, PCL.Entry.getAssets c.gen ⟨e.now, e.fo, 0, none, e.registered⟩ assets = .ok (as', dd) ∧
        as' = [⟨.native (c.den false), if false = i then n else k⟩, ⟨.native (c.den true), if true = i then n else k⟩] := by
      obtain ⟨y0, hy0⟩ := hdec0
      obtain ⟨y1, hy1⟩ := hdec1
      refine ⟨_, fun q => if q then y1 else y0, ?_, rfl⟩
      unfold PCL.Entry.getAssets
      simp only [bind_ok_iff, require_ok, exists_const, orErr_ok]
      refine ⟨hreg, _, hcomp, by simpa using hii, (), ?_, ?_⟩
      · rw [Asset.forAll_ok]
        intro a ha
        simp only [List.mem_cons, List.not_mem_nil, or_false] at ha
        rcases ha with rfl | rfl <;> exact hden _
      · cases i
        · have hq : ¬ (c.gen.infos false = Info.native (c.den !false)) := by
            simp only [Cfg.gen, Info.native.injEq]; exact hne
          simp only [if_neg hq]
          exact ⟨_, hlab false, y0, hy0, _, hlab true, y1, hy1, rfl⟩
        · have hq : c.gen.infos false = Info.native (c.den !true) := rfl
          simp only [if_pos hq]
          exact ⟨_, hlab false, y0, hy0, _, hlab true, y1, hy1, rfl⟩
    obtain ⟨as', dd, hg, has⟩ := hg
    have hnd : (as'.map Asset.Asset.info).Nodup := by rw [has]; simpa using hne
    have hdecl : ∀ d, declared as' (.native d) = if d = c.den i then n else if d = c.den !i then k else 0 := by
      intro d
      rw [has]
      unfold declared
      cases i
      · by_cases h0 : c.den false = d
        · subst h0; simp [hne.symm]
        · by_cases h1 : c.den true = d
          · subst h1; simp [hne, hne.symm]
          · simp [h0, h1, Ne.symm h0, Ne.symm h1]
      · by_cases h0 : c.den false = d
        · subst h0; simp [hne, hne.symm]
        · by_cases h1 : c.den true = d
          · subst h1; simp [hne]
          · simp [h0, h1, Ne.symm h0, Ne.symm h1]
    simp only [deposits, bind_ok_iff, Prod.exists, Except.ok.injEq]
    refine ⟨as', dd, hg, (), ?_, ?_⟩
    · refine Asset.C67_honest_accepted funds as' _ hv.1 (by rw [has]; simp) hnd ?_ ?_ (fun d => by rw [hf, hdecl])
      · rw [has]; simp
      · intro y hy
        obtain ⟨j, hj⟩ := hin y hy
        rw [hj]
        cases j <;> simp
    · funext j
      rw [hdecl]
      cases i <;> cases j <;> simp [hne, hne.symm]
  simp only [exec, execute, toOp, bind_ok_iff, require_ok, exists_const, Except.ok.injEq, Msg.blind,
    Bool.false_eq_true, if_false]
  exact ⟨hx, hv, _, ⟨_, hdep, rfl⟩, w, rfl, s, hs, rfl⟩

/-- **C183.**  Messages the pair does not know (such as the receipt of cw20 tokens) are refused, whatever is attached. -/
theorem C183_unknown_messages_refused (c : Cfg A) (w w' : Chain A) (e : Around A) (x : A) (funds : List Coin) :
    exec c w (.call e x funds .unsupported) ≠ .ok w' := by
  intro h
  simp only [exec, execute, toOp, bind_ok_iff, require_ok, exists_const] at h
  obtain ⟨_, _, o, ho, _⟩ := h
  simp at ho

/-! ## The theorems apply -/

def demoCfg : Cfg Acct :=
  { me := 0, den := fun i => if i then "uusd".toList else "uluna".toList, lp := "share".toList, prec := fun _ => 6
    okAddr := fun _ => true, addr := fun _ => "x".toList }

theorem demo_ok : demoCfg.Ok := ⟨by decide, fun i => by cases i <;> decide⟩

def around (now : Nat) : Around Acct := ⟨now, 1, true, quiet⟩

/-- A pool that is filled, its orderbook enabled by the factory's owner (who leaves a coin behind), a trade, a trade with too
few coins, with a second coin, a deposit of one coin of which too much is attached, a withdrawal, one with a foreign coin,
an unknown message, a fill. -/
def demoTxs : List (Tx Acct) :=
  [.call (around 1000) 2 [⟨"uluna".toList, 10 ^ 9⟩, ⟨"uusd".toList, 10 ^ 9⟩]
     (.provide [⟨.native "uusd".toList, 10 ^ 9⟩, ⟨.native "uluna".toList, 10 ^ 9⟩] none none none),
   .call (around 1001) 1 [⟨"uatom".toList, 5⟩, ⟨"uusd".toList, 7⟩] (.configOrderbook { enable := some true }),
   .call (around 1002) 3 [⟨"uluna".toList, 10 ^ 6⟩] (.swap ⟨.native "uluna".toList, 10 ^ 6⟩ none none none),
   .call (around 1002) 3 [⟨"uluna".toList, 10 ^ 5⟩] (.swap ⟨.native "uluna".toList, 10 ^ 6⟩ none none none),
   .call (around 1002) 3 [⟨"uluna".toList, 10 ^ 6⟩, ⟨"uusd".toList, 1⟩] (.swap ⟨.native "uluna".toList, 10 ^ 6⟩ none none none),
   .call (around 1003) 3 [⟨"uluna".toList, 10 ^ 6⟩, ⟨"uusd".toList, 1⟩]
     (.provide [⟨.native "uluna".toList, 10 ^ 6⟩] none none none),
   .call (around 1003) 3 [⟨"uluna".toList, 10 ^ 6⟩] (.provide [⟨.native "uluna".toList, 10 ^ 6⟩] none none (some 1)),
   .call (around 1004) 2 [⟨"share".toList, 10 ^ 6⟩]
     (.withdraw [] (some [⟨.native "uusd".toList, 5⟩, ⟨.native "uluna".toList, 5⟩])),
   .call (around 1004) 2 [⟨"share".toList, 10 ^ 6⟩]
     (.withdraw [] (some [⟨.native "uatom".toList, 5⟩, ⟨.native "uluna".toList, 5⟩])),
   .call (around 1004) 2 [⟨"uusd".toList, 10 ^ 6⟩] (.withdraw [] none),
   .call (around 1005) 2 [⟨"uusd".toList, 10 ^ 6⟩] .unsupported,
   .fill (around 1006) 8 10 10]

def demoChain (s : State Acct) : Chain Acct := ⟨s, fun _ _ => 100⟩

example : okAnd demo (fun s =>
    decide ((List.range 12).map (fun n => (exec demoCfg (run demoCfg (demoChain s) (demoTxs.take n)) (demoTxs.getD n
      (.fill (around 1) 99 0 0))).isOk) =
      [true, true, true, false, false, false, true, true, false, false, false, true])) = true := by decide +kernel

/-- The owner's coins are where they were left, the trader paid what they offered, the receiver has the LP coins. -/
example : okAnd demo (fun s =>
    let w := run demoCfg (demoChain s) demoTxs
    decide (holds demoCfg w "uatom".toList 1 = 95 ∧ holds demoCfg w "uatom".toList 0 = 105 ∧
      holds demoCfg w "uusd".toList 1 = 10 ^ 15 - 7 ∧ holds demoCfg w "uluna".toList 3 = 10 ^ 15 - 2 * 10 ^ 6 ∧
      0 < holds demoCfg w "share".toList 1 ∧ 10 ^ 15 < holds demoCfg w "uusd".toList 3 ∧ w.st.book.length = 4)) = true := by
  decide +kernel

end Verif.Duality.Entry
