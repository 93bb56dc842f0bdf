import Verif.Incentives.Vault
import Verif.Incentives.Many

/-!
# Messages to the incentives contract (C179)

The incentives contract as it stands on a chain.  Any account may send any message with any coins attached; token contracts call the
contract when somebody sends them tokens; coins and tokens move between accounts, are minted and burnt; rewards and stakes are paid
from the contract's balances.  A pool is named by its LP token, so pools and tokens are of the same type `I`.

What the factory and the configuration say may change from call to call and is arbitrary (`Facts`).  Assumed: the tokens of `I` are
coins or follow `cw20-base`.  ASTRO of the protocol is paid by the vesting contract and is left out (`Paid.int`).
-/

namespace Verif.Incentives.Entry

open Verif Verif.Incentives

set_option linter.unusedSectionVars false

variable {I U : Type} [Fintype I] [DecidableEq I] [DecidableEq U]

/-- The contract's address, the ASTRO token, which tokens are coins, and the tokens of token contracts. -/
structure Cfg (I U : Type) where
  me : U
  astro : I
  native : I → Bool
  tokenOf : U → Option I

/-- What holds during one call: the owner, the incentivization fee, the blocked tokens, and whether the factory knows a pair with this
LP token (`is_pool_registered`, contracts/tokenomics/incentives/src/utils.rs:406-435). -/
structure Facts (I U : Type) where
  owner : U
  fee : Option (FeeInfo I U)
  blocked : I → Bool
  registered : I → Bool

/-- The pools by LP token, all balances, the orphaned rewards already claimed (`ORPHANED_REWARDS` holds the rest), and the time. -/
structure Chain (I U : Type) where
  pools : I → Pool I U
  bal : I → U → Nat
  orphClaimed : I → Nat
  now : Nat

/-- One pool of the chain as `Incentives/Model.lean` sees it. -/
def Chain.st (w : Chain I U) (p : I) : State I U := ⟨w.pools p, w.bal p, w.now⟩

/-- Sending rewards `out` to `dst`: transfers may fail, one by one, and the contract ignores that
(contracts/tokenomics/incentives/src/utils.rs:74-87, contracts/tokenomics/incentives/src/reply.rs:11-25); `sent` bounds what is
really transferred. -/
def payOut (me dst : U) (bal : I → U → Nat) (out sent : I → Nat) : I → U → Nat := fun X a =>
  let n := min (sent X) (min (out X) (bal X me))
  bal X a - (if a = me then n else 0) + (if a = dst then n else 0)

/-- The pool part of `deposit`, contracts/tokenomics/incentives/src/execute.rs:195-210. -/
def depositPool (now : Nat) (q : Pool I U) (staker : U) (n : Nat) : Res (Pool I U × Paid I) :=
  let (p, rem) := update now q
  match q.users staker with
  | none => do
    let total ← u128 (p.totalLp + n)
    let p := { p with totalLp := total }
    let p := setUser p staker (some (sync p ⟨n, fun _ => none, none, now⟩))
    .ok (save p rem, ⟨fun _ => 0, 0⟩)
  | some u => do
    let x ← payAll p rem u
    let amount ← u128 (u.amount + n)
    let total ← u128 (p.totalLp + n)
    let p := { p with totalLp := total }
    let p := setUser p staker (some (sync p { u with amount := amount }))
    .ok (save p rem, x)

/-- The pool part of `withdraw`, contracts/tokenomics/incentives/src/execute.rs:228-255. -/
def withdrawPool (now : Nat) (q : Pool I U) (user : U) (n : Nat) : Res (Pool I U × Paid I) := do
  let u ← orErr (q.users user) (.invalid "PositionDoesntExist")
  require (¬ u.amount < n) (.invalid "AmountExceedsBalance")
  let (p, rem) := update now q
  let x ← payAll p rem u
  let total ← csub p.totalLp n
  let p := { p with totalLp := total }
  let u := sync p { u with amount := u.amount - n }
  let p := setUser p user (if u.amount = 0 then none else some u)
  .ok (save p rem, x)

/-- `deposit`, contracts/tokenomics/incentives/src/execute.rs:177-217; `n` tokens `X` have arrived. -/
def depositMsg (c : Cfg I U) (f : Facts I U) (w : Chain I U) (X : I) (staker : U) (n : Nat) (sent : I → Nat) : Res (Chain I U) := do
  require (f.registered X = true) (.invalid "not registered")
  let (q, x) ← depositPool w.now (w.pools X) staker n
  .ok { w with pools := Function.update w.pools X q, bal := payOut c.me staker w.bal x.ext sent }

/-- `withdraw`, contracts/tokenomics/incentives/src/execute.rs:219-265, messages carried out: rewards first, then the LP tokens.  The
bank refuses to send nothing. -/
def withdrawMsg (c : Cfg I U) (w : Chain I U) (user : U) (X : I) (n : Nat) (sent : I → Nat) : Res (Chain I U) := do
  let (q, x) ← withdrawPool w.now (w.pools X) user n
  require (c.native X = true → n ≠ 0) (.invalid "zero coin")
  let bal ← pay (payOut c.me user w.bal x.ext sent) X c.me user n
  .ok { w with pools := Function.update w.pools X q, bal := bal }

/-- The loop of `ClaimRewards`, contracts/tokenomics/incentives/src/execute.rs:41-76 and contracts/tokenomics/incentives/src/utils.rs:34-70.
(All pools are loaded first and saved last; as they differ, one after the other is the same.)  Returns what is to be paid. -/
def claimLoop (now : Nat) (user : U) : (I → Pool I U) → List I → Res ((I → Pool I U) × (I → Nat))
  | pools, [] => .ok (pools, fun _ => 0)
  | pools, p :: ps => do
    let (s, x) ← claim ⟨pools p, fun _ => 0, now⟩ user
    let (pools, out) ← claimLoop now user (Function.update pools p s.pool) ps
    .ok (pools, fun X => x.ext X + out X)

/-- Rates of ASTRO set or stopped in some pools: what `SetupPools`, `SetTokensPerSecond`, `DeactivatePool` and
`DeactivateBlockedPools` do to the pools.  (Who may do so, and which rates result, is in `Incentives/Alloc.lean`.) -/
def setRates (now : Nat) : (I → Pool I U) → List (I × Option Nat) → I → Pool I U
  | pools, [] => pools
  | pools, (p, some r) :: l => setRates now (Function.update pools p (setAstro ⟨pools p, fun _ => 0, now⟩ r).pool) l
  | pools, (p, none) :: l => setRates now (Function.update pools p (disableAstro ⟨pools p, fun _ => 0, now⟩).pool) l

/-- `ORPHANED_REWARDS`. -/
def orphanedOf (w : Chain I U) (X : I) : Nat := ∑ p, (w.pools p).orph X - w.orphClaimed X

/-- `ExecuteMsg`, packages/astroport/src/incentives.rs (configuration and ownership messages change no pool and no balance; they are
in `Facts`).  `pick` says which orphaned rewards are within the limit of `ClaimOrphanedRewards`. -/
inductive Msg (I U : Type)
  | deposit (recipient : Option U)
  | receive (sender : U) (n : Nat) (recipient : Option U)
  | withdraw (lp : I) (n : Nat)
  | claim (lps : List I)
  | incentivize (items : List (Item I I))
  | remove (lp reward : I) (bypass : Bool) (receiver : U)
  | claimOrphaned (pick : I → Bool) (receiver : U)
  | rates (l : List (I × Option Nat))

/-- What `Incentives/Many.lean` reads. -/
def env (c : Cfg I U) (f : Facts I U) : Env I I U := ⟨c.me, c.astro, f.fee, c.native, f.blocked, f.registered⟩

/-- `execute`, contracts/tokenomics/incentives/src/execute.rs:33-175.  The attached coins have arrived. -/
def execute (c : Cfg I U) (f : Facts I U) (w : Chain I U) (sender : U) (funds : List (I × Nat)) (sent : I → Nat) :
    Msg I U → Res (Chain I U)
  | .deposit r =>
    match funds with
    | [(X, n)] => depositMsg c f w X (r.getD sender) n sent
    | _ => .error (.invalid "one coin")
  | .receive user n r =>
    match c.tokenOf sender with
    | some X => depositMsg c f w X (r.getD user) n sent
    | none => .error (.invalid "not an LP token")
  | .withdraw X n => withdrawMsg c w sender X n sent
  | .claim ps => do
    require ps.Nodup (.invalid "DuplicatedPoolFound")
    let (pools, out) ← claimLoop w.now sender w.pools ps
    .ok { w with pools := pools, bal := payOut c.me sender w.bal out sent }
  | .incentivize items => do
    let (m, rest) ← incentivizeLoop (env c f) sender ⟨w.pools, w.bal, w.now⟩ funds items
    require (∀ x ∈ rest, x.2 = 0) (.invalid "unexpected coins")
    .ok { w with pools := m.pools, bal := m.bal }
  | .remove p X bypass receiver => do
    require (sender = f.owner) .unauthorized
    let (s, n) ← removeReward (w.st p) X bypass
    .ok { w with
      pools := Function.update w.pools p s.pool
      bal := payOut c.me receiver w.bal (fun Y => if Y = X then n else 0) sent }
  | .claimOrphaned pick receiver => do
    require (sender = f.owner) .unauthorized
    .ok { w with
      bal := payOut c.me receiver w.bal (fun X => if pick X = true then orphanedOf w X else 0) sent
      orphClaimed := fun X => if pick X = true then w.orphClaimed X + orphanedOf w X else w.orphClaimed X }
  | .rates l => .ok { w with pools := setRates w.now w.pools l }

/-- What can happen on the chain. -/
inductive Tx (I U : Type)
  /-- a message with coins attached -/
  | call (sender : U) (f : Facts I U) (funds : List (I × Nat)) (sent : I → Nat) (m : Msg I U)
  /-- `Send` (`owner = spender`) or `SendFrom` of the tokens of contract `token` to the contract, with a deposit inside -/
  | send (token owner spender : U) (n : Nat) (recipient : Option U) (f : Facts I U) (sent : I → Nat)
  | transfer (X : I) (src dst : U) (n : Nat)
  | mint (X : I) (dst : U) (n : Nat)
  | burn (X : I) (src : U) (n : Nat)
  | wait (d : Nat)

/-- One transaction.  Any account but the contract itself and the token contracts of `I` may call anything; these token contracts call
the contract with what was really sent. -/
def exec (c : Cfg I U) (w : Chain I U) : Tx I U → Res (Chain I U)
  | .call x f funds sent m => do
    require (x ≠ c.me ∧ c.tokenOf x = none) .unauthorized
    require ((funds.map Prod.fst).Nodup ∧ ∀ y ∈ funds, y.2 ≠ 0 ∧ c.native y.1 = true) (.invalid "invalid coins")
    let bal ← attach x c.me w.bal funds
    execute c f { w with bal := bal } x funds sent m
  | .send token owner spender n r f sent => do
    require (owner ≠ c.me ∧ spender ≠ c.me) .unauthorized
    let X ← orErr (c.tokenOf token) (.invalid "not a token")
    let bal ← pay w.bal X owner c.me n
    execute c f { w with bal := bal } token [] sent (.receive spender n r)
  | .transfer X src dst n => do
    require (src ≠ c.me) .unauthorized
    let bal ← pay w.bal X src dst n
    .ok { w with bal := bal }
  | .mint X dst n => .ok { w with bal := Function.update w.bal X (credit (w.bal X) dst n) }
  | .burn X src n => do
    require (src ≠ c.me) .unauthorized
    require (n ≤ w.bal X src) (.invalid "insufficient")
    .ok { w with bal := Function.update w.bal X (Function.update (w.bal X) src (w.bal X src - n)) }
  | .wait d => .ok { w with now := w.now + d }

/-- Reverting step. -/
def step (c : Cfg I U) (w : Chain I U) (t : Tx I U) : Chain I U := commit' w (exec c w t)

/-- A history. -/
def run (c : Cfg I U) (w : Chain I U) (ts : List (Tx I U)) : Chain I U := ts.foldl (step c) w

/-- The start: no pools, any balances. -/
def start (bal : I → U → Nat) (now : Nat) : Chain I U := ⟨fun _ => Pool.empty, bal, fun _ => 0, now⟩

/-! ## Specification -/

/-- `u`'s position in the pool of LP token `X`. -/
def position (w : Chain I U) (X : I) (u : U) : Nat :=
  match (w.pools X).users u with
  | none => 0
  | some x => x.amount

/-- The removals of reward `X` in a history also remove the upcoming schedules, and find no orphaned rewards. -/
def TidyTx (X : I) (w : Chain I U) (t : Tx I U) : Prop :=
  match t with
  | .call _ _ _ _ (.remove p Y bypass _) => Y = X → bypass = false ∧
      ∀ e, (update w.now (w.pools p)).1.ext X = some e → e.orphaned = 0
  | _ => True

/-- A history of such transactions. -/
def Tidy (X : I) (c : Cfg I U) : Chain I U → List (Tx I U) → Prop
  | _, [] => True
  | w, t :: ts => TidyTx X w t ∧ Tidy X c (step c w t) ts

/-! ## Lemmas -/

theorem payOut_me_ge (me dst : U) (bal : I → U → Nat) (out sent : I → Nat) (X : I) :
    bal X me - min (sent X) (min (out X) (bal X me)) ≤ payOut me dst bal out sent X me := by
  unfold payOut
  simp only [if_true]
  omega

theorem deposit_eq (me : U) (s : State I U) (x staker : U) (n : Nat) :
    deposit me s x staker n = (do
      let lp ← move s.lp x me n
      let (q, y) ← depositPool s.now s.pool staker n
      .ok ({ s with pool := q, lp := lp }, y)) := by
  unfold deposit depositPool
  cases move s.lp x me n with
  | error e => rfl
  | ok lp =>
    simp only [ok_bind]
    cases s.pool.users staker with
    | none =>
      simp only
      cases u128 ((update s.now s.pool).1.totalLp + n) <;> rfl
    | some u =>
      simp only
      cases payAll (update s.now s.pool).1 (update s.now s.pool).2 u with
      | error e => rfl
      | ok y =>
        simp only [ok_bind]
        cases u128 (u.amount + n) with
        | error e => rfl
        | ok a =>
          simp only [ok_bind]
          cases u128 ((update s.now s.pool).1.totalLp + n) <;> rfl

theorem withdraw_eq (me : U) (s : State I U) (user : U) (n : Nat) :
    withdraw me s user n = (do
      let (q, y) ← withdrawPool s.now s.pool user n
      let lp ← move s.lp me user n
      .ok ({ s with pool := q, lp := lp }, y)) := by
  unfold withdraw withdrawPool
  cases orErr (s.pool.users user) (.invalid "PositionDoesntExist") with
  | error e => rfl
  | ok u =>
    simp only [ok_bind]
    cases require (¬ u.amount < n) (.invalid "AmountExceedsBalance") with
    | error e => rfl
    | ok _ =>
      simp only [ok_bind]
      cases payAll (update s.now s.pool).1 (update s.now s.pool).2 u with
      | error e => rfl
      | ok y =>
        simp only [ok_bind]
        cases csub (update s.now s.pool).1.totalLp n with
        | error e => rfl
        | ok t =>
          simp only [ok_bind]

/-! ## The chain and the world of `Incentives/Vault.lean` -/

variable [Fintype U]

/-- The contract's state on the chain is that of the world. -/
structure Fits (w : Chain I U) (W : World I I U) : Prop where
  pool : ∀ p, (W.pool p).st.pool = w.pools p
  now : ∀ p, (W.pool p).st.now = w.now
  orph : ∀ X, W.orphClaimed X = w.orphClaimed X

/-- And so are the balances. -/
structure Rel (me : U) (w : Chain I U) (W : World I I U) : Prop extends Fits w W where
  lp : ∀ p u, u ≠ me → (W.pool p).st.lp u = w.bal p u
  held : ∀ X, W.held X = w.bal X me
  inv : ∀ p, LpInv me (W.pool p)

theorem vacts_append (me : U) (as bs : List (VAct I I U)) (W : World I I U) :
    vacts me some W (as ++ bs) = vacts me some (vacts me some W as) bs := by
  induction as generalizing W with
  | nil => rfl
  | cons a as ih => exact ih _

theorem vtidy_append {X : I} {me : U} {as bs : List (VAct I I U)} {W : World I I U} (h1 : VTidy X me some W as)
    (h2 : VTidy X me some (vacts me some W as) bs) : VTidy X me some W (as ++ bs) := by
  induction as generalizing W with
  | nil => exact h2
  | cons a as ih => exact ⟨h1.1, ih h1.2 h2⟩

theorem elsewhere_lpInv {me : U} {r : Run I U} (h : LpInv me r) (lp : U → Nat) : LpInv me (elsewhere me r lp) := by
  obtain ⟨h1, h2, h3, h4⟩ := h
  refine ⟨h1, ?_, h3, h4⟩
  simp only [elsewhere, if_true]
  exact h2

/-- LP tokens moved elsewhere, in some pools. -/
theorem outsides (me : U) (f : I → U → Nat) : ∀ (l : List I) (W : World I I U),
    (∀ p, (vacts me some W (l.map fun p => .outside p (f p))).pool p = if p ∈ l then elsewhere me (W.pool p) (f p) else W.pool p) ∧
    (vacts me some W (l.map fun p => .outside p (f p))).held = W.held ∧
    (vacts me some W (l.map fun p => .outside p (f p))).orphClaimed = W.orphClaimed ∧
    ∀ X, VTidy X me some W (l.map fun p => .outside p (f p))
  | [], W => ⟨fun p => by simp [vacts], rfl, rfl, fun X => trivial⟩
  | q :: l, W => by
    obtain ⟨h1, h2, h3, h4⟩ := outsides me f l (vact me some W (.outside q (f q)))
    refine ⟨fun p => ?_, h2, h3, fun X => ⟨trivial, h4 X⟩⟩
    have := h1 p
    simp only [List.map_cons, vacts]
    rw [this]
    by_cases hpq : p = q
    · subst hpq
      simp only [List.mem_cons, true_or, if_true, vact, Function.update_self]
      split_ifs
      · have : ∀ (a b : U → Nat), (fun u => if u = me then (if u = me then a u else b u) else b u) = fun u => if u = me then a u else b u := by
          intro a b
          funext u
          split_ifs <;> rfl
        simp only [elsewhere, this]
      · rfl
    · simp only [List.mem_cons, hpq, false_or, vact, Function.update_of_ne hpq]

/-- Tokens arriving at the contract. -/
theorem donates (me : U) (f : I → Nat) : ∀ (l : List I) (W : World I I U), l.Nodup →
    (∀ X, (vacts me some W (l.map fun X => .event (.donate X (f X)))).held X = W.held X + if X ∈ l then f X else 0) ∧
    (vacts me some W (l.map fun X => .event (.donate X (f X)))).pool = W.pool ∧
    (vacts me some W (l.map fun X => .event (.donate X (f X)))).orphClaimed = W.orphClaimed ∧
    ∀ X, VTidy X me some W (l.map fun X => .event (.donate X (f X)))
  | [], W, _ => ⟨fun p => by simp [vacts], rfl, rfl, fun X => trivial⟩
  | Y :: l, W, hn => by
    obtain ⟨h1, h2, h3, h4⟩ := donates me f l (vact me some W (.event (.donate Y (f Y)))) (List.nodup_cons.1 hn).2
    refine ⟨fun X => ?_, h2, h3, fun X => ⟨trivial, h4 X⟩⟩
    have := h1 X
    simp only [List.map_cons, vacts]
    rw [this]
    by_cases hXY : X = Y
    · subst hXY
      have hX := (List.nodup_cons.1 hn).1
      simp [vact, act, hX]
    · simp [vact, act, hXY]

/-- Whatever happens outside of the contract can be caught up with. -/
theorem adjust {me : U} {w : Chain I U} {W : World I I U} (h : Fits w W) (hi : ∀ p, LpInv me (W.pool p))
    (hh : ∀ X, W.held X ≤ w.bal X me) :
    ∃ as, (∀ X, VTidy X me some W as) ∧ Rel me w (vacts me some W as) := by
  obtain ⟨a1, a2, a3, a4⟩ := outsides me w.bal Finset.univ.toList W
  obtain ⟨b1, b2, b3, b4⟩ := donates me (fun X => w.bal X me - W.held X) Finset.univ.toList
    (vacts me some W (Finset.univ.toList.map fun p => .outside p (w.bal p))) (Finset.nodup_toList _)
  refine ⟨_, fun X => vtidy_append (a4 X) (b4 X), ?_⟩
  rw [vacts_append]
  have hp : ∀ p, (vacts me some (vacts me some W (Finset.univ.toList.map fun p => .outside p (w.bal p)))
      (Finset.univ.toList.map fun X => .event (.donate X (w.bal X me - W.held X)))).pool p = elsewhere me (W.pool p) (w.bal p) := by
    intro p
    rw [b2, a1 p]
    simp
  refine ⟨⟨fun p => ?_, fun p => ?_, fun X => ?_⟩, fun p u hu => ?_, fun X => ?_, fun p => ?_⟩
  · rw [hp]
    exact h.pool p
  · rw [hp]
    exact h.now p
  · rw [b3, a3]
    exact h.orph X
  · rw [hp]
    simp [elsewhere, hu]
  · rw [b1 X, a2]
    have := hh X
    simp
    omega
  · rw [hp]
    exact elsewhere_lpInv (hi p) _

/-- A call of one pool in the world. -/
theorem vact_call {me : U} {W : World I I U} {p : I} {op : Op I U} {sent : I → Nat} (hw : op.isWait = false)
    (ho : ∀ X, lpOut me some p (W.pool p) (Incentives.step me (W.pool p) op) X ≤
      settle W.held (fun X => inOf (W.pool p) (Incentives.step me (W.pool p) op) X +
        lpIn me some p (W.pool p) (Incentives.step me (W.pool p) op) X) (outOf (W.pool p) (Incentives.step me (W.pool p) op)) sent X) :
    vact me some W (.event (.call p op sent)) =
      { W with
        pool := Function.update W.pool p (Incentives.step me (W.pool p) op)
        held := fun X => settle W.held (fun X => inOf (W.pool p) (Incentives.step me (W.pool p) op) X +
          lpIn me some p (W.pool p) (Incentives.step me (W.pool p) op) X) (outOf (W.pool p) (Incentives.step me (W.pool p) op)) sent X -
          lpOut me some p (W.pool p) (Incentives.step me (W.pool p) op) X } := by
  unfold vact
  simp only [hw, Bool.false_eq_true, if_false]
  rw [if_pos ho]

/-- One call, then what happens outside. -/
theorem call_rel {c : Cfg I U} {w w' : Chain I U} {W : World I I U} (R : Rel c.me w W) {p : I} {op : Op I U} {sent : I → Nat}
    (hw : op.isWait = false) (hpools : w'.pools = Function.update w.pools p (Incentives.step c.me (W.pool p) op).st.pool)
    (hnow : w'.now = w.now) (hstn : (Incentives.step c.me (W.pool p) op).st.now = w.now)
    (horph : w'.orphClaimed = w.orphClaimed)
    (ho : ∀ X, lpOut c.me some p (W.pool p) (Incentives.step c.me (W.pool p) op) X ≤
      settle W.held (fun X => inOf (W.pool p) (Incentives.step c.me (W.pool p) op) X +
        lpIn c.me some p (W.pool p) (Incentives.step c.me (W.pool p) op) X) (outOf (W.pool p) (Incentives.step c.me (W.pool p) op))
        sent X)
    (hb : ∀ X, settle W.held (fun X => inOf (W.pool p) (Incentives.step c.me (W.pool p) op) X +
        lpIn c.me some p (W.pool p) (Incentives.step c.me (W.pool p) op) X) (outOf (W.pool p) (Incentives.step c.me (W.pool p) op))
        sent X - lpOut c.me some p (W.pool p) (Incentives.step c.me (W.pool p) op) X ≤ w'.bal X c.me) :
    ∃ as, (∀ X, VTidyAct X W (.event (.call p op sent)) → VTidy X c.me some W as) ∧ Rel c.me w' (vacts c.me some W as) := by
  have e := vact_call hw ho
  have hF : Fits w' (vact c.me some W (.event (.call p op sent))) := by
    rw [e]
    refine ⟨fun q => ?_, fun q => ?_, fun X => ?_⟩
    · rw [hpools]
      by_cases hq : q = p
      · subst hq
        simp only [Function.update_self]
      · simp only [Function.update_of_ne hq]
        exact R.pool q
    · rw [hnow]
      by_cases hq : q = p
      · subst hq
        simp only [Function.update_self]
        exact hstn
      · simp only [Function.update_of_ne hq]
        exact R.now q
    · rw [horph]
      exact R.orph X
  obtain ⟨as, h1, h2⟩ := adjust hF (me := c.me) (by
    rw [e]
    intro q
    by_cases hq : q = p
    · subst hq
      simp only [Function.update_self]
      exact step_lpInv (R.inv q) op
    · simp only [Function.update_of_ne hq]
      exact R.inv q) (by rw [e]; exact hb)
  refine ⟨.event (.call p op sent) :: as, fun X hX => ⟨?_, h1 X⟩, h2⟩
  cases op <;> exact hX

/-! ### Deposits -/

/-- A deposit of `n` tokens `X` of `x`. -/
theorem deposit_rel {c : Cfg I U} {f : Facts I U} {w w' : Chain I U} {W : World I I U} (R : Rel c.me w W) {x staker : U} (hx : x ≠ c.me)
    {X : I} {n : Nat} {sent : I → Nat} {bal : I → U → Nat} (hn : n ≤ w.bal X x)
    (hb : ∀ Y, bal Y c.me = w.bal Y c.me + if Y = X then n else 0)
    (h : depositMsg c f { w with bal := bal } X staker n sent = .ok w') :
    ∃ as, (∀ Y, VTidy Y c.me some W as) ∧ Rel c.me w' (vacts c.me some W as) := by
  unfold depositMsg at h
  simp only [bind_ok_iff, require_ok, exists_const, Prod.exists, Except.ok.injEq] at h
  obtain ⟨_, q, y, hq, rfl⟩ := h
  have hmv : ∃ lp, move (W.pool X).st.lp x c.me n = .ok lp := move_succeeds (by rw [R.lp X x hx]; exact hn)
  obtain ⟨lp, hlp⟩ := hmv
  have hme := move_apply hlp c.me
  rw [if_neg (Ne.symm hx), if_pos rfl] at hme
  have hstep : Incentives.step c.me (W.pool X) (.deposit x staker n) =
      ⟨{ (W.pool X).st with pool := q, lp := lp },
        { (W.pool X).books.pay staker y with deposited := credit (W.pool X).books.deposited staker n }⟩ := by
    unfold Incentives.step
    simp only [if_neg hx]
    rw [deposit_eq, hlp]
    simp only [ok_bind]
    rw [R.now X, R.pool X, hq]
    rfl
  have hin : ∀ Y, lpIn c.me some X (W.pool X) (Incentives.step c.me (W.pool X) (.deposit x staker n)) Y = if Y = X then n else 0 := by
    intro Y
    unfold lpIn
    rw [hstep]
    by_cases hY : Y = X
    · subst hY
      simp only [if_true]
      omega
    · rw [if_neg hY, if_neg]
      simp only [Option.some.injEq]
      exact fun h => hY h.symm
  have hout : ∀ Y, lpOut c.me some X (W.pool X) (Incentives.step c.me (W.pool X) (.deposit x staker n)) Y = 0 := by
    intro Y
    unfold lpOut
    rw [hstep]
    split_ifs
    · simp only
      omega
    · rfl
  have hinO : ∀ Y, inOf (W.pool X) (Incentives.step c.me (W.pool X) (.deposit x staker n)) Y = 0 := by
    intro Y
    unfold inOf
    rw [hstep]
    simp [Books.pay]
  have houtO : ∀ Y, outOf (W.pool X) (Incentives.step c.me (W.pool X) (.deposit x staker n)) Y = y.ext Y := by
    intro Y
    unfold outOf
    rw [hstep]
    simp [Books.pay]
  obtain ⟨as, h1, h2⟩ := call_rel R (w' := { w with pools := Function.update w.pools X q, bal := payOut c.me staker bal y.ext sent })
    (p := X) (op := .deposit x staker n) (sent := sent) rfl (by rw [hstep]) rfl (by rw [hstep]; exact R.now X) rfl
    (fun Y => by rw [hout Y]; exact Nat.zero_le _) (fun Y => by
      have := payOut_me_ge c.me staker bal y.ext sent Y
      unfold settle
      simp only [hinO, hin, hout, houtO, R.held]
      rw [hb Y] at this
      omega)
  exact ⟨as, fun Y => h1 Y trivial, h2⟩

/-! ### Withdrawals -/

theorem withdrawPool_le {now : Nat} {q q' : Pool I U} {user : U} {n : Nat} {y : Paid I}
    (h : withdrawPool now q user n = .ok (q', y)) : n ≤ q.totalLp := by
  unfold withdrawPool at h
  simp only [bind_ok_iff, orErr_ok, require_ok, exists_const, csub_ok] at h
  obtain ⟨u, _, _, _, _, t, ⟨ht, _⟩, _⟩ := h
  rw [(update_fields now q).2.1] at ht
  exact ht

/-- A withdrawal in the world. -/
theorem withdraw_step {c : Cfg I U} {w : Chain I U} {W : World I I U} (R : Rel c.me w W) {user : U} (hu : user ≠ c.me) {X : I} {n : Nat}
    {q : Pool I U} {y : Paid I} (hq : withdrawPool w.now (w.pools X) user n = .ok (q, y)) :
    ∃ lp, move (W.pool X).st.lp c.me user n = .ok lp ∧ Incentives.step c.me (W.pool X) (.withdraw user n) =
      ⟨{ (W.pool X).st with pool := q, lp := lp },
        { (W.pool X).books.pay user y with withdrawn := credit (W.pool X).books.withdrawn user n }⟩ := by
  have hmv : ∃ lp, move (W.pool X).st.lp c.me user n = .ok lp := move_succeeds (by
    have h1 := withdrawPool_le hq
    have h2 := (R.inv X).held
    rw [R.pool X] at h2
    omega)
  obtain ⟨lp, hlp⟩ := hmv
  refine ⟨lp, hlp, ?_⟩
  unfold Incentives.step
  simp only [if_neg hu]
  rw [withdraw_eq, R.now X, R.pool X, hq]
  simp only [ok_bind]
  rw [hlp]
  rfl

theorem withdraw_books {c : Cfg I U} {W : World I I U} {user : U} (hu : user ≠ c.me) {X : I} {n : Nat}
    {q : Pool I U} {y : Paid I} {lp : U → Nat} (hlp : move (W.pool X).st.lp c.me user n = .ok lp)
    (hstep : Incentives.step c.me (W.pool X) (.withdraw user n) =
      ⟨{ (W.pool X).st with pool := q, lp := lp },
        { (W.pool X).books.pay user y with withdrawn := credit (W.pool X).books.withdrawn user n }⟩) (Y : I) :
    lpIn c.me some X (W.pool X) (Incentives.step c.me (W.pool X) (.withdraw user n)) Y = 0 ∧
    lpOut c.me some X (W.pool X) (Incentives.step c.me (W.pool X) (.withdraw user n)) Y = (if Y = X then n else 0) ∧
    inOf (W.pool X) (Incentives.step c.me (W.pool X) (.withdraw user n)) Y = 0 ∧
    outOf (W.pool X) (Incentives.step c.me (W.pool X) (.withdraw user n)) Y = y.ext Y := by
  have hme := move_apply hlp c.me
  rw [if_pos rfl, if_neg (Ne.symm hu)] at hme
  have hle := move_le hlp
  rw [hstep]
  refine ⟨?_, ?_, ?_, ?_⟩
  · unfold lpIn
    split_ifs
    · simp only
      omega
    · rfl
  · unfold lpOut
    by_cases hY : Y = X
    · subst hY
      simp only [if_true]
      omega
    · rw [if_neg hY, if_neg]
      simp only [Option.some.injEq]
      exact fun h => hY h.symm
  · simp [inOf, Books.pay]
  · simp [outOf, Books.pay]

theorem withdraw_rel {c : Cfg I U} {w w' : Chain I U} {W : World I I U} (R : Rel c.me w W) {user : U} (hu : user ≠ c.me)
    {X : I} {n : Nat} {sent : I → Nat} (h : withdrawMsg c w user X n sent = .ok w') :
    ∃ as, (∀ Y, VTidy Y c.me some W as) ∧ Rel c.me w' (vacts c.me some W as) := by
  unfold withdrawMsg at h
  simp only [bind_ok_iff, require_ok, exists_const, Prod.exists, Except.ok.injEq] at h
  obtain ⟨q, y, hq, _, bal, hbal, rfl⟩ := h
  obtain ⟨lp, hlp, hstep⟩ := withdraw_step R hu hq
  have hB := fun Y => withdraw_books hu hlp hstep Y
  have hpay := fun Y => pay_apply hbal Y c.me
  have hle : n ≤ payOut c.me user w.bal y.ext sent X c.me := by
    unfold pay at hbal
    simp only [bind_ok_iff, Except.ok.injEq] at hbal
    obtain ⟨l, hl, _⟩ := hbal
    exact move_le hl
  have hpo : ∀ Y, payOut c.me user w.bal y.ext sent Y c.me = w.bal Y c.me - min (sent Y) (min (y.ext Y) (w.bal Y c.me)) := by
    intro Y
    unfold payOut
    simp only [if_true, if_neg (Ne.symm hu)]
    omega
  obtain ⟨as, h1, h2⟩ := call_rel R (w' := { w with pools := Function.update w.pools X q, bal := bal })
    (p := X) (op := .withdraw user n) (sent := sent) rfl (by rw [hstep]) rfl (by rw [hstep]; exact R.now X) rfl
    (fun Y => by
      obtain ⟨b1, b2, b3, b4⟩ := hB Y
      unfold settle
      simp only [b1, b2, b3, b4, R.held]
      split_ifs with hY
      · subst hY
        rw [hpo Y] at hle
        omega
      · exact Nat.zero_le _) (fun Y => by
      obtain ⟨b1, b2, b3, b4⟩ := hB Y
      have hp := hpay Y
      rw [hpo Y] at hp
      unfold settle
      simp only [b1, b2, b3, b4, R.held]
      simp only [and_true] at hp
      split_ifs at hp ⊢ <;> omega)
  exact ⟨as, fun Y => h1 Y trivial, h2⟩

/-! ### Claims -/

theorem claim_pool (s : State I U) (user : U) (lp : U → Nat) :
    claim s user = (claim ⟨s.pool, lp, s.now⟩ user).map fun r => ({ s with pool := r.1.pool }, r.2) := by
  unfold claim
  simp only
  cases orErr (s.pool.users user) (.invalid "PositionDoesntExist") with
  | error e => rfl
  | ok u =>
    simp only [ok_bind]
    cases payAll (update s.now s.pool).1 (update s.now s.pool).2 u <;> rfl

theorem claimLoop_all {me user : U} {now : Nat} : ∀ {ps : List I} {pools pools' : I → Pool I U} {out : I → Nat} {V : I → Run I U},
    claimLoop now user pools ps = .ok (pools', out) → (∀ p, (V p).st.pool = pools p) → (∀ p, (V p).st.now = now) →
    (∀ p, LpInv me (V p)) →
    ∃ V', claimAll me user V ps = some V' ∧ (∀ p, (V' p).st.pool = pools' p) ∧ (∀ p, (V' p).st.now = now) ∧
      (∀ p, LpInv me (V' p)) ∧ (∀ p X, (V p).books.paid X ≤ (V' p).books.paid X ∧ (V' p).books.refunded X = (V p).books.refunded X) ∧
      ∀ X, ∑ p, (V' p).books.paid X = ∑ p, (V p).books.paid X + out X
  | [], pools, pools', out, V, h, h1, h2, h3 => by
    simp only [claimLoop, Except.ok.injEq, Prod.mk.injEq] at h
    obtain ⟨rfl, rfl⟩ := h
    exact ⟨V, rfl, h1, h2, h3, fun p X => ⟨Nat.le_refl _, rfl⟩, fun X => rfl⟩
  | p :: ps, pools, pools', out, V, h, h1, h2, h3 => by
    simp only [claimLoop, bind_ok_iff, Prod.exists, Except.ok.injEq, Prod.mk.injEq] at h
    obtain ⟨s, x, hs, pools1, out1, hl, rfl, rfl⟩ := h
    have hc : claim (V p).st user = .ok ({ (V p).st with pool := s.pool }, x) := by
      have hs' : claim ⟨(V p).st.pool, fun _ => 0, (V p).st.now⟩ user = .ok (s, x) := by
        rw [h1, h2]
        exact hs
      rw [claim_pool _ _ (fun _ => 0), hs']
      rfl
    have hstep : Incentives.step me (V p) (.claim user) = ⟨{ (V p).st with pool := s.pool }, (V p).books.pay user x⟩ := by
      unfold Incentives.step
      simp only [hc]
    obtain ⟨V', g1, g2, g3, g4, g5, g6⟩ := claimLoop_all (me := me) (V := Function.update V p (Incentives.step me (V p) (.claim user))) hl
      (fun q => by
        by_cases hq : q = p
        · subst hq
          simp only [Function.update_self, hstep]
        · simp only [Function.update_of_ne hq]
          exact h1 q)
      (fun q => by
        by_cases hq : q = p
        · subst hq
          simp only [Function.update_self, hstep]
          exact h2 q
        · simp only [Function.update_of_ne hq]
          exact h2 q)
      (fun q => by
        by_cases hq : q = p
        · subst hq
          simp only [Function.update_self]
          exact step_lpInv (h3 q) _
        · simp only [Function.update_of_ne hq]
          exact h3 q)
    refine ⟨V', ?_, g2, g3, g4, fun q X => ?_, fun X => ?_⟩
    · unfold claimAll
      rw [hc]
      exact g1
    · have := g5 q X
      by_cases hq : q = p
      · subst hq
        simp only [Function.update_self, hstep, Books.pay] at this
        omega
      · simp only [Function.update_of_ne hq] at this
        exact this
    · rw [g6 X]
      have := sum_update V p (Incentives.step me (V p) (.claim user)) (fun r => r.books.paid X)
      rw [hstep] at this ⊢
      simp only [Books.pay] at this ⊢
      omega

theorem claim_rel {c : Cfg I U} {w : Chain I U} {W : World I I U} (R : Rel c.me w W) {user : U}
    {ps : List I} (hn : ps.Nodup) {sent : I → Nat} {pools : I → Pool I U} {out : I → Nat}
    (h : claimLoop w.now user w.pools ps = .ok (pools, out)) :
    ∃ as, (∀ Y, VTidy Y c.me some W as) ∧
      Rel c.me { w with pools := pools, bal := payOut c.me user w.bal out sent } (vacts c.me some W as) := by
  obtain ⟨V', g1, g2, g3, g4, g5, g6⟩ := claimLoop_all (me := c.me) h R.pool R.now R.inv
  have e : vact c.me some W (.event (.claimMany user ps sent)) = { W with
      pool := V'
      held := settle W.held (fun _ => 0) (fun X => ∑ p, outOf (W.pool p) (V' p) X) sent } := by
    simp only [vact, act]
    rw [if_pos hn, g1]
  have hsum : ∀ X, ∑ p, outOf (W.pool p) (V' p) X = out X := by
    intro X
    have h1 : ∑ p, (W.pool p).books.paid X + ∑ p, outOf (W.pool p) (V' p) X = ∑ p, (V' p).books.paid X := by
      rw [← Finset.sum_add_distrib]
      refine Finset.sum_congr rfl fun p _ => ?_
      have := g5 p X
      unfold outOf
      omega
    have := g6 X
    omega
  obtain ⟨as, h1, h2⟩ := adjust (me := c.me) (w := { w with pools := pools, bal := payOut c.me user w.bal out sent })
    (W := vact c.me some W (.event (.claimMany user ps sent)))
    (by rw [e]; exact ⟨g2, g3, R.orph⟩) (by rw [e]; exact g4) (fun X => by
      rw [e]
      have := payOut_me_ge c.me user w.bal out sent X
      unfold settle
      simp only [hsum, R.held]
      omega)
  exact ⟨.event (.claimMany user ps sent) :: as, fun Y => ⟨trivial, h1 Y⟩, h2⟩

/-! ### Incentives -/

/-- One call of the world that takes in `n` of `X` and pays nothing. -/
theorem quiet_call {me : U} {W : World I I U} {p : I} {op : Op I U} {gain : I → Nat} (hw : op.isWait = false)
    (hlp : (Incentives.step me (W.pool p) op).st.lp = (W.pool p).st.lp)
    (hin : ∀ X, inOf (W.pool p) (Incentives.step me (W.pool p) op) X = gain X) :
    vact me some W (.event (.call p op fun _ => 0)) =
      { W with pool := Function.update W.pool p (Incentives.step me (W.pool p) op), held := fun X => W.held X + gain X } := by
  have hI : ∀ X, lpIn me some p (W.pool p) (Incentives.step me (W.pool p) op) X = 0 := by
    intro X
    unfold lpIn
    rw [hlp]
    split_ifs <;> omega
  have hO : ∀ X, lpOut me some p (W.pool p) (Incentives.step me (W.pool p) op) X = 0 := by
    intro X
    unfold lpOut
    rw [hlp]
    split_ifs <;> omega
  rw [vact_call hw (fun X => by rw [hO]; exact Nat.zero_le _)]
  congr 1
  funext X
  unfold settle
  rw [hO]
  simp only [hI, hin]
  omega

theorem incentivize_pool (s : State I U) (X : I) (amount periods : Nat) (b : Bool) {sch : Schedule} {q : Pool I U}
    (h1 : fromInput s.now amount periods = .ok sch) (h2 : incentivizePool (update s.now s.pool).1 X sch b = .ok q) :
    incentivize s X amount periods b = .ok { s with pool := save q (update s.now s.pool).2 } := by
  unfold incentivize
  rw [h1]
  simp only [ok_bind]
  rw [h2]
  rfl

theorem incentivizeLoop_rel {me : U} {e : Env I I U} {sender : U} : ∀ {items : List (Item I I)} {m m' : Multi I I U}
    {funds rest : List (I × Nat)} {W : World I I U}, incentivizeLoop e sender m funds items = .ok (m', rest) →
    (∀ p, (W.pool p).st.pool = m.pools p) → (∀ p, (W.pool p).st.now = m.now) → (∀ p, LpInv me (W.pool p)) →
    ∃ as, (∀ Y, VTidy Y me some W as) ∧ (∀ p, ((vacts me some W as).pool p).st.pool = m'.pools p) ∧
      (∀ p, ((vacts me some W as).pool p).st.now = m.now) ∧ (∀ p, LpInv me ((vacts me some W as).pool p)) ∧
      (∀ X, (vacts me some W as).held X = W.held X + rewardsIn items X) ∧ (vacts me some W as).orphClaimed = W.orphClaimed
  | [], m, m', funds, rest, W, h, h1, h2, h3 => by
    simp only [incentivizeLoop, Except.ok.injEq, Prod.mk.injEq] at h
    obtain ⟨rfl, rfl⟩ := h
    exact ⟨[], fun Y => trivial, h1, h2, h3, fun X => by simp [vacts, rewardsIn], rfl⟩
  | i :: items, m, m', funds, rest, W, h, h1, h2, h3 => by
    simp only [incentivizeLoop, bind_ok_iff, Prod.exists] at h
    obtain ⟨m1, f1, hone, hl⟩ := h
    have hnow := (incentivizeOne_spec hone).1
    have hpool : ∃ sch q, fromInput m.now i.amount i.periods = .ok sch ∧
        incentivizePool (update m.now (m.pools i.pool)).1 i.reward sch (decide (i.reward = e.astro)) = .ok q ∧
        m1.pools = Function.update m.pools i.pool (save q (update m.now (m.pools i.pool)).2) := by
      unfold incentivizeOne at hone
      simp only [bind_ok_iff, require_ok, exists_const, Prod.exists] at hone
      obtain ⟨sch, hsch, _, _, q, hq, _, _, _, hone⟩ := hone
      refine ⟨sch, q, hsch, hq, ?_⟩
      split_ifs at hone
      · simp only [bind_ok_iff, Except.ok.injEq, Prod.mk.injEq] at hone
        obtain ⟨_, _, rfl, _⟩ := hone
        rfl
      · simp only [bind_ok_iff, Except.ok.injEq, Prod.mk.injEq] at hone
        obtain ⟨_, _, rfl, _⟩ := hone
        rfl
    obtain ⟨sch, q, hsch, hq, hpools⟩ := hpool
    have hstep : Incentives.step me (W.pool i.pool) (.incentivize i.reward i.amount i.periods (decide (i.reward = e.astro))) =
        ⟨{ (W.pool i.pool).st with pool := save q (update m.now (m.pools i.pool)).2 },
          { (W.pool i.pool).books with funded := credit (W.pool i.pool).books.funded i.reward i.amount }⟩ := by
      unfold Incentives.step
      simp only
      rw [incentivize_pool (W.pool i.pool).st i.reward i.amount i.periods _ (sch := sch) (q := q) (by rw [h2]; exact hsch)
        (by rw [h1, h2]; exact hq)]
      simp only [h1, h2]
    have ev := quiet_call (me := me) (W := W) (p := i.pool)
      (op := .incentivize i.reward i.amount i.periods (decide (i.reward = e.astro)))
      (gain := fun X => if X = i.reward then i.amount else 0) rfl (by rw [hstep])
      (fun X => by
        rw [hstep]
        simp only [inOf, credit_apply]
        split_ifs <;> omega)
    obtain ⟨as, g1, g2, g3, g4, g5, g6⟩ := incentivizeLoop_rel (me := me)
      (W := vact me some W (.event (.call i.pool (.incentivize i.reward i.amount i.periods (decide (i.reward = e.astro))) fun _ => 0))) hl
      (fun p => by
        rw [ev, hpools]
        by_cases hp : p = i.pool
        · subst hp
          simp only [Function.update_self, hstep]
        · simp only [Function.update_of_ne hp]
          exact h1 p)
      (fun p => by
        rw [ev, hnow]
        by_cases hp : p = i.pool
        · subst hp
          simp only [Function.update_self, hstep]
          exact h2 _
        · simp only [Function.update_of_ne hp]
          exact h2 p)
      (fun p => by
        rw [ev]
        by_cases hp : p = i.pool
        · subst hp
          simp only [Function.update_self]
          exact step_lpInv (h3 _) _
        · simp only [Function.update_of_ne hp]
          exact h3 p)
    refine ⟨.event (.call i.pool (.incentivize i.reward i.amount i.periods (decide (i.reward = e.astro))) fun _ => 0) :: as,
      fun Y => ⟨trivial, g1 Y⟩, g2, fun p => by rw [← hnow]; exact g3 p, g4, fun X => ?_, ?_⟩
    · have := g5 X
      simp only [vacts]
      rw [this, ev]
      simp only [rewardsIn]
      by_cases hX : i.reward = X
      · subst hX
        simp
        omega
      · have : ¬ X = i.reward := fun h => hX h.symm
        simp [hX, this]
    · simp only [vacts]
      rw [g6, ev]

theorem incentivize_rel {c : Cfg I U} {f : Facts I U} {w : Chain I U} {W : World I I U} (R : Rel c.me w W) {sender : U}
    (hs : sender ≠ c.me) {funds : List (I × Nat)} {items : List (Item I I)} {m : Multi I I U}
    (h : incentivizeMany (env c f) sender ⟨w.pools, w.bal, w.now⟩ funds items = .ok m) :
    ∃ as, (∀ Y, VTidy Y c.me some W as) ∧ Rel c.me { w with pools := m.pools, bal := m.bal } (vacts c.me some W as) := by
  have hcost := fun X => C124_costs_exactly h X c.me
  unfold incentivizeMany at h
  simp only [bind_ok_iff, require_ok, exists_const, Prod.exists, Except.ok.injEq] at h
  obtain ⟨bal, hbal, m1, fs, hl, hz, rfl⟩ := h
  obtain ⟨as, g1, g2, g3, g4, g5, g6⟩ := incentivizeLoop_rel (me := c.me) (W := W) hl R.pool R.now R.inv
  obtain ⟨bs, k1, k2⟩ := adjust (me := c.me) (w := { w with pools := m1.pools, bal := m1.bal }) (W := vacts c.me some W as)
    ⟨g2, g3, fun X => by rw [g6]; exact R.orph X⟩ g4 (fun X => by
      have := hcost X
      rw [if_neg (Ne.symm hs), if_pos (show c.me = (env c f).me from rfl)] at this
      rw [g5 X, R.held X]
      simp only at this ⊢
      omega)
  exact ⟨as ++ bs, fun Y => vtidy_append (g1 Y) (k1 Y), by rw [vacts_append]; exact k2⟩

/-! ### The owner's messages -/

theorem removeReward_pool (s : State I U) (X : I) (b : Bool) (lp : U → Nat) :
    removeReward s X b = (removeReward ⟨s.pool, lp, s.now⟩ X b).map fun r => ({ s with pool := r.1.pool }, r.2) := by
  unfold removeReward
  simp only
  cases deregister (update s.now s.pool).1 (update s.now s.pool).2 X b <;> rfl

theorem remove_rel {c : Cfg I U} {w : Chain I U} {W : World I I U} (R : Rel c.me w W) {p X : I} {b : Bool} {receiver : U} {sent : I → Nat}
    {s : State I U} {n : Nat} (h : removeReward (w.st p) X b = .ok (s, n)) :
    ∃ as, (∀ Y, (Y = X → b = false ∧ ∀ e, (update w.now (w.pools p)).1.ext Y = some e → e.orphaned = 0) → VTidy Y c.me some W as) ∧
      Rel c.me { w with
        pools := Function.update w.pools p s.pool
        bal := payOut c.me receiver w.bal (fun Y => if Y = X then n else 0) sent } (vacts c.me some W as) := by
  have hr : removeReward (W.pool p).st X b = .ok ({ (W.pool p).st with pool := s.pool }, n) := by
    have : removeReward ⟨(W.pool p).st.pool, w.bal p, (W.pool p).st.now⟩ X b = .ok (s, n) := by
      rw [R.pool, R.now]
      exact h
    rw [removeReward_pool _ _ _ (w.bal p), this]
    rfl
  have hstep : Incentives.step c.me (W.pool p) (.removeReward X b) =
      ⟨{ (W.pool p).st with pool := s.pool }, { (W.pool p).books with refunded := credit (W.pool p).books.refunded X n }⟩ := by
    unfold Incentives.step
    simp only [hr]
  have hI : ∀ Y, lpIn c.me some p (W.pool p) (Incentives.step c.me (W.pool p) (.removeReward X b)) Y = 0 := by
    intro Y
    unfold lpIn
    rw [hstep]
    split_ifs <;> simp
  have hO : ∀ Y, lpOut c.me some p (W.pool p) (Incentives.step c.me (W.pool p) (.removeReward X b)) Y = 0 := by
    intro Y
    unfold lpOut
    rw [hstep]
    split_ifs <;> simp
  have hin : ∀ Y, inOf (W.pool p) (Incentives.step c.me (W.pool p) (.removeReward X b)) Y = 0 := by
    intro Y
    rw [hstep]
    simp [inOf]
  have hout : ∀ Y, outOf (W.pool p) (Incentives.step c.me (W.pool p) (.removeReward X b)) Y = if Y = X then n else 0 := by
    intro Y
    rw [hstep]
    simp only [outOf, credit_apply]
    split_ifs <;> omega
  obtain ⟨as, h1, h2⟩ := call_rel R (w' := { w with
      pools := Function.update w.pools p s.pool
      bal := payOut c.me receiver w.bal (fun Y => if Y = X then n else 0) sent })
    (p := p) (op := .removeReward X b) (sent := sent) rfl (by rw [hstep]) rfl (by rw [hstep]; exact R.now p) rfl
    (fun Y => by rw [hO Y]; exact Nat.zero_le _) (fun Y => by
      have := payOut_me_ge c.me receiver w.bal (fun Y => if Y = X then n else 0) sent Y
      unfold settle
      simp only [hin, hI, hO, hout, R.held]
      omega)
  refine ⟨as, fun Y hY => h1 Y ?_, h2⟩
  unfold VTidyAct
  simp only
  rw [R.pool, R.now]
  exact fun h => hY h.symm

theorem orphaned_rel {c : Cfg I U} {w : Chain I U} {W : World I I U} (R : Rel c.me w W) {pick : I → Bool} {receiver : U} {sent : I → Nat} :
    ∃ as, (∀ Y, VTidy Y c.me some W as) ∧
      Rel c.me { w with
        bal := payOut c.me receiver w.bal (fun X => if pick X = true then orphanedOf w X else 0) sent
        orphClaimed := fun X => if pick X = true then w.orphClaimed X + orphanedOf w X else w.orphClaimed X } (vacts c.me some W as) := by
  have ho : ∀ X, orphaned W X = orphanedOf w X := by
    intro X
    unfold orphaned orphanedOf
    rw [R.orph]
    simp only [R.pool]
  obtain ⟨as, h1, h2⟩ := adjust (me := c.me) (w := { w with
        bal := payOut c.me receiver w.bal (fun X => if pick X = true then orphanedOf w X else 0) sent
        orphClaimed := fun X => if pick X = true then w.orphClaimed X + orphanedOf w X else w.orphClaimed X })
    (W := vact c.me some W (.event (.claimOrphaned pick sent)))
    ⟨R.pool, R.now, fun X => by simp only [vact, act, ho, R.orph]⟩ R.inv (fun X => by
      have := payOut_me_ge c.me receiver w.bal (fun X => if pick X = true then orphanedOf w X else 0) sent X
      simp only [vact, act]
      unfold settle
      simp only [ho, R.held]
      omega)
  exact ⟨.event (.claimOrphaned pick sent) :: as, fun Y => ⟨trivial, h1 Y⟩, h2⟩

theorem setRates_rel {me : U} {now : Nat} : ∀ {l : List (I × Option Nat)} {pools : I → Pool I U} {W : World I I U},
    (∀ p, (W.pool p).st.pool = pools p) → (∀ p, (W.pool p).st.now = now) → (∀ p, LpInv me (W.pool p)) →
    ∃ as, (∀ Y, VTidy Y me some W as) ∧ (∀ p, ((vacts me some W as).pool p).st.pool = setRates now pools l p) ∧
      (∀ p, ((vacts me some W as).pool p).st.now = now) ∧ (∀ p, LpInv me ((vacts me some W as).pool p)) ∧
      (∀ X, (vacts me some W as).held X = W.held X) ∧ (vacts me some W as).orphClaimed = W.orphClaimed
  | [], pools, W, h1, h2, h3 => ⟨[], fun Y => trivial, h1, h2, h3, fun X => rfl, rfl⟩
  | (q, r) :: l, pools, W, h1, h2, h3 => by
    have key : ∀ (op : Op I U) (z : Pool I U), op.isWait = false → (∀ X s, op ≠ .removeReward X s) →
        Incentives.step me (W.pool q) op = ⟨{ (W.pool q).st with pool := z }, (W.pool q).books⟩ →
        setRates now pools ((q, r) :: l) = setRates now (Function.update pools q z) l →
        ∃ as, (∀ Y, VTidy Y me some W as) ∧ (∀ p, ((vacts me some W as).pool p).st.pool = setRates now pools ((q, r) :: l) p) ∧
          (∀ p, ((vacts me some W as).pool p).st.now = now) ∧ (∀ p, LpInv me ((vacts me some W as).pool p)) ∧
          (∀ X, (vacts me some W as).held X = W.held X) ∧ (vacts me some W as).orphClaimed = W.orphClaimed := by
      intro op z hw hnr hstep hset
      have ev := quiet_call (me := me) (W := W) (p := q) (op := op) (gain := fun _ => 0) hw (by rw [hstep])
        (fun X => by rw [hstep]; simp [inOf])
      obtain ⟨as, g1, g2, g3, g4, g5, g6⟩ := setRates_rel (l := l) (me := me) (now := now) (pools := Function.update pools q z)
        (W := vact me some W (.event (.call q op fun _ => 0)))
        (fun p => by
          rw [ev]
          by_cases hp : p = q
          · subst hp
            simp only [Function.update_self, hstep]
          · simp only [Function.update_of_ne hp]
            exact h1 p)
        (fun p => by
          rw [ev]
          by_cases hp : p = q
          · subst hp
            simp only [Function.update_self, hstep]
            exact h2 _
          · simp only [Function.update_of_ne hp]
            exact h2 p)
        (fun p => by
          rw [ev]
          by_cases hp : p = q
          · subst hp
            simp only [Function.update_self]
            exact step_lpInv (h3 _) _
          · simp only [Function.update_of_ne hp]
            exact h3 p)
      refine ⟨.event (.call q op fun _ => 0) :: as, fun Y => ⟨?_, g1 Y⟩, fun p => ?_, g3, g4, fun X => ?_, ?_⟩
      · cases op <;> first | trivial | exact absurd rfl (hnr _ _)
      · rw [hset]
        exact g2 p
      · have := g5 X
        simp only [vacts]
        rw [this, ev]
        rfl
      · simp only [vacts]
        rw [g6, ev]
    cases r with
    | some r =>
      refine key (.setAstro r) (setAstro ⟨pools q, fun _ => 0, now⟩ r).pool rfl (fun X s => by simp) ?_ rfl
      unfold Incentives.step setAstro
      simp only [h1, h2]
    | none =>
      refine key .disableAstro (disableAstro ⟨pools q, fun _ => 0, now⟩).pool rfl (fun X s => by simp) ?_ rfl
      unfold Incentives.step disableAstro
      simp only [h1, h2]

/-! ### All transactions -/

/-- Every transaction of the chain is something that happens in the world. -/
theorem exec_rel {c : Cfg I U} {w w' : Chain I U} {W : World I I U} (R : Rel c.me w W) {t : Tx I U} (h : exec c w t = .ok w') :
    ∃ as, (∀ X, TidyTx X w t → VTidy X c.me some W as) ∧ Rel c.me w' (vacts c.me some W as) := by
  have weaken : (∃ as, (∀ X, VTidy X c.me some W as) ∧ Rel c.me w' (vacts c.me some W as)) →
      ∃ as, (∀ X, TidyTx X w t → VTidy X c.me some W as) ∧ Rel c.me w' (vacts c.me some W as) :=
    fun ⟨as, h1, h2⟩ => ⟨as, fun X _ => h1 X, h2⟩
  have outside : ∀ {bal : I → U → Nat}, (∀ X, w.bal X c.me ≤ bal X c.me) →
      ∃ as, (∀ X, VTidy X c.me some W as) ∧ Rel c.me { w with bal := bal } (vacts c.me some W as) :=
    fun hb => adjust (me := c.me) ⟨R.pool, R.now, R.orph⟩ R.inv (fun X => by rw [R.held]; exact hb X)
  cases t with
  | call x f funds sent m =>
    unfold exec at h
    simp only [bind_ok_iff, require_ok, exists_const] at h
    obtain ⟨⟨hx, htok⟩, ⟨hnd, hfunds⟩, bal, hbal, h⟩ := h
    have hA := fun Y a => attach_apply hbal Y a
    -- the chain after the coins have arrived
    have hme : ∀ X, w.bal X c.me ≤ bal X c.me := by
      intro X
      have := hA X c.me
      rw [if_neg (Ne.symm hx), if_pos rfl] at this
      omega
    obtain ⟨as, T1, R1⟩ := outside hme
    have chain : (∃ bs, (∀ X, TidyTx X w (.call x f funds sent m) → VTidy X c.me some (vacts c.me some W as) bs) ∧
        Rel c.me w' (vacts c.me some (vacts c.me some W as) bs)) →
        ∃ as, (∀ X, TidyTx X w (.call x f funds sent m) → VTidy X c.me some W as) ∧ Rel c.me w' (vacts c.me some W as) :=
      fun ⟨bs, k1, k2⟩ => ⟨as ++ bs, fun X hX => vtidy_append (T1 X) (k1 X hX), by rw [vacts_append]; exact k2⟩
    cases m with
    | deposit r =>
      simp only [execute] at h
      split at h
      · rename_i X n
        have h1 : n ≤ w.bal X x := by
          simp only [attach, bind_ok_iff, Except.ok.injEq] at hbal
          obtain ⟨b, hb, rfl⟩ := hbal
          unfold pay at hb
          simp only [bind_ok_iff, Except.ok.injEq] at hb
          obtain ⟨l, hl, _⟩ := hb
          exact move_le hl
        refine weaken (deposit_rel R hx h1 (fun Y => ?_) h)
        have := hA Y c.me
        rw [if_neg (Ne.symm hx), if_pos rfl] at this
        rw [show bal Y c.me = w.bal Y c.me + attached [(X, n)] Y by omega]
        unfold attached
        by_cases hY : X = Y
        · subst hY
          simp
        · have hY' : ¬ Y = X := fun h => hY h.symm
          simp [hY, hY']
      · cases h
    | receive user n r =>
      simp [execute, htok] at h
    | withdraw X n =>
      obtain ⟨bs, k1, k2⟩ := withdraw_rel R1 hx h
      exact chain ⟨bs, fun X _ => k1 X, k2⟩
    | claim ps =>
      simp only [execute, bind_ok_iff, require_ok, exists_const, Prod.exists, Except.ok.injEq] at h
      obtain ⟨hn, pools, out, hl, rfl⟩ := h
      obtain ⟨bs, k1, k2⟩ := claim_rel R1 hn (sent := sent) hl
      exact chain ⟨bs, fun X _ => k1 X, k2⟩
    | incentivize items =>
      simp only [execute, bind_ok_iff, require_ok, exists_const, Prod.exists, Except.ok.injEq] at h
      obtain ⟨m, rest, hl, hz, rfl⟩ := h
      refine weaken (incentivize_rel R (f := f) hx (funds := funds) (items := items) (m := m) ?_)
      unfold incentivizeMany
      simp only [bind_ok_iff, require_ok, exists_const, Prod.exists, Except.ok.injEq]
      exact ⟨bal, hbal, m, rest, hl, hz, rfl⟩
    | remove p X b receiver =>
      simp only [execute, bind_ok_iff, require_ok, exists_const, Prod.exists, Except.ok.injEq] at h
      obtain ⟨_, s, n, hr, rfl⟩ := h
      obtain ⟨bs, k1, k2⟩ := remove_rel R1 (receiver := receiver) (sent := sent) hr
      refine chain ⟨bs, fun Y hY => k1 Y fun e => ?_, k2⟩
      exact hY e.symm
    | claimOrphaned pick receiver =>
      simp only [execute, bind_ok_iff, require_ok, exists_const, Except.ok.injEq] at h
      obtain ⟨_, rfl⟩ := h
      obtain ⟨bs, k1, k2⟩ := orphaned_rel R1 (pick := pick) (receiver := receiver) (sent := sent)
      exact chain ⟨bs, fun X _ => k1 X, k2⟩
    | rates l =>
      simp only [execute, Except.ok.injEq] at h
      subst h
      obtain ⟨bs, g1, g2, g3, g4, g5, g6⟩ := setRates_rel (me := c.me) (l := l) R1.pool R1.now R1.inv
      obtain ⟨ds, k1, k2⟩ := adjust (me := c.me) (w := { w with pools := setRates w.now w.pools l, bal := bal })
        (W := vacts c.me some (vacts c.me some W as) bs) ⟨g2, g3, fun X => by rw [g6]; exact R1.orph X⟩ g4
        (fun X => by rw [g5 X, R1.held X])
      exact chain ⟨bs ++ ds, fun X _ => vtidy_append (g1 X) (k1 X), by rw [vacts_append]; exact k2⟩
  | send token owner spender n r f sent =>
    unfold exec at h
    simp only [bind_ok_iff, require_ok, exists_const, orErr_ok] at h
    obtain ⟨⟨ho, hs⟩, X, hX, bal, hbal, h⟩ := h
    simp only [execute, hX] at h
    have hle : n ≤ w.bal X owner := by
      have hb := hbal
      unfold pay at hb
      simp only [bind_ok_iff, Except.ok.injEq] at hb
      obtain ⟨l, hl, _⟩ := hb
      exact move_le hl
    refine weaken (deposit_rel R ho hle (fun Y => ?_) h)
    have := pay_apply hbal Y c.me
    simp only [and_true] at this
    rw [if_neg (fun h => ho h.2.symm)] at this
    omega
  | transfer X src dst n =>
    unfold exec at h
    simp only [bind_ok_iff, require_ok, exists_const, Except.ok.injEq] at h
    obtain ⟨hs, bal, hbal, rfl⟩ := h
    refine weaken (outside fun Y => ?_)
    have := pay_apply hbal Y c.me
    rw [if_neg (fun h => hs h.2.symm)] at this
    omega
  | mint X dst n =>
    unfold exec at h
    simp only [Except.ok.injEq] at h
    subst h
    refine weaken (outside fun Y => ?_)
    by_cases hY : Y = X
    · subst hY
      rw [Function.update_self, credit_apply]
      split <;> omega
    · rw [Function.update_of_ne hY]
  | burn X src n =>
    unfold exec at h
    simp only [bind_ok_iff, require_ok, exists_const, Except.ok.injEq] at h
    obtain ⟨hs, _, rfl⟩ := h
    refine weaken (outside fun Y => ?_)
    by_cases hY : Y = X
    · subst hY
      rw [Function.update_self, Function.update_of_ne (Ne.symm hs)]
    · rw [Function.update_of_ne hY]
  | wait d =>
    unfold exec at h
    simp only [Except.ok.injEq] at h
    subst h
    obtain ⟨as, k1, k2⟩ := adjust (me := c.me) (w := { w with now := w.now + d }) (W := vact c.me some W (.event (.wait d)))
      ⟨R.pool, fun p => by
        show (W.pool p).st.now + d = _
        rw [R.now], R.orph⟩ (fun p => step_lpInv (R.inv p) (.wait d)) (fun X => le_of_eq (R.held X))
    exact ⟨.event (.wait d) :: as, fun X _ => ⟨trivial, k1 X⟩, k2⟩

theorem run_rel {c : Cfg I U} : ∀ {ts : List (Tx I U)} {w : Chain I U} {W : World I I U}, Rel c.me w W →
    ∃ as, (∀ X, Tidy X c w ts → VTidy X c.me some W as) ∧ Rel c.me (run c w ts) (vacts c.me some W as)
  | [], w, W, R => ⟨[], fun _ _ => trivial, R⟩
  | t :: ts, w, W, R => by
    cases h : exec c w t with
    | error e =>
      have e1 : step c w t = w := by
        unfold step
        rw [h]
        rfl
      obtain ⟨as, h1, h2⟩ := run_rel (c := c) (ts := ts) R
      refine ⟨as, fun X hX => h1 X ?_, ?_⟩
      · have := hX.2
        rw [e1] at this
        exact this
      · show Rel c.me (run c (step c w t) ts) _
        rw [e1]
        exact h2
    | ok w' =>
      have e1 : step c w t = w' := by
        unfold step
        rw [h]
        rfl
      obtain ⟨as, h1, h2⟩ := exec_rel R h
      obtain ⟨bs, k1, k2⟩ := run_rel (c := c) (ts := ts) h2
      refine ⟨as ++ bs, fun X hX => vtidy_append (h1 X hX.1) (k1 X ?_), ?_⟩
      · have := hX.2
        rw [e1] at this
        exact this
      · rw [vacts_append]
        show Rel c.me (run c (step c w t) ts) _
        rw [e1]
        exact k2

theorem start_rel (c : Cfg I U) (bal : I → U → Nat) (now : Nat) :
    ∃ as, (∀ X, VTidy X c.me some (World.start (fun p u => if u = c.me then 0 else bal p u) now) as) ∧
      Rel c.me (start bal now) (vacts c.me some (World.start (fun p u => if u = c.me then 0 else bal p u) now) as) :=
  adjust (me := c.me) ⟨fun _ => rfl, fun _ => rfl, fun _ => rfl⟩ (fun _ => start_lpInv c.me _ now (if_pos rfl)) (fun _ => Nat.zero_le _)

theorem reach (c : Cfg I U) (bal : I → U → Nat) (now : Nat) (ts : List (Tx I U)) :
    ∃ lp as, (∀ p, lp p c.me = 0) ∧ (∀ X, Tidy X c (start bal now) ts → VTidy X c.me some (World.start lp now) as) ∧
      Rel c.me (run c (start bal now) ts) (vacts c.me some (World.start lp now) as) := by
  obtain ⟨as, h1, h2⟩ := start_rel c bal now
  obtain ⟨bs, k1, k2⟩ := run_rel (c := c) (ts := ts) h2
  refine ⟨_, as ++ bs, fun p => if_pos rfl, fun X hX => vtidy_append (h1 X) (k1 X hX), ?_⟩
  rw [vacts_append]
  exact k2

/-! ### Positions -/

theorem depositPool_amt {now : Nat} {q q' : Pool I U} {staker : U} {n : Nat} {y : Paid I}
    (h : depositPool now q staker n = .ok (q', y)) (v : U) : amt q' v = amt q v + if v = staker then n else 0 := by
  unfold depositPool at h
  simp only at h
  have hus : ∀ (p : Pool I U) (rem : Removed I) (z : User I), p.users = q.users →
      amt (save (setUser p staker (some z)) rem) v = if v = staker then z.amount else amt q v := by
    intro p rem z hp
    unfold amt
    show (match Function.update p.users staker (some z) v with | none => 0 | some x => x.amount) = _
    by_cases hv : v = staker
    · subst hv
      rw [Function.update_self, if_pos rfl]
    · rw [Function.update_of_ne hv, if_neg hv, hp]
      rfl
  split at h
  · rename_i hnone
    simp only [bind_ok_iff, u128_ok, Except.ok.injEq, Prod.mk.injEq] at h
    obtain ⟨T, _, rfl, _⟩ := h
    refine (hus { (update now q).1 with totalLp := T } (update now q).2 _ (update_fields now q).1).trans ?_
    by_cases hv : v = staker
    · subst hv
      rw [if_pos rfl, if_pos rfl]
      simp [amt, hnone, sync]
    · rw [if_neg hv, if_neg hv]
      rfl
  · rename_i u hsome
    simp only [bind_ok_iff, u128_ok, Except.ok.injEq, Prod.mk.injEq] at h
    obtain ⟨x, _, a, ⟨_, rfl⟩, T, _, rfl, _⟩ := h
    refine (hus { (update now q).1 with totalLp := T } (update now q).2 _ (update_fields now q).1).trans ?_
    by_cases hv : v = staker
    · subst hv
      rw [if_pos rfl, if_pos rfl]
      simp [amt, hsome, sync]
    · rw [if_neg hv, if_neg hv]
      rfl

theorem withdrawPool_amt {now : Nat} {q q' : Pool I U} {user : U} {n : Nat} {y : Paid I}
    (h : withdrawPool now q user n = .ok (q', y)) (v : U) : amt q' v + (if v = user then n else 0) = amt q v := by
  unfold withdrawPool at h
  simp only [bind_ok_iff, orErr_ok, require_ok, exists_const, csub_ok, Except.ok.injEq, Prod.mk.injEq] at h
  obtain ⟨u, hu, hn, x, _, T, _, rfl, _⟩ := h
  unfold amt
  show (match Function.update (update now q).1.users user _ v with | none => 0 | some x => x.amount) + _ = _
  by_cases hv : v = user
  · subst hv
    rw [Function.update_self, if_pos rfl, hu]
    split_ifs with h0
    · have h0' : u.amount - n = 0 := h0
      show 0 + n = u.amount
      omega
    · show u.amount - n + n = u.amount
      omega
  · rw [Function.update_of_ne hv, if_neg hv, (update_fields now q).1]
    rfl

theorem claim_amt {s s' : State I U} {user : U} {y : Paid I} (h : claim s user = .ok (s', y)) (v : U) :
    amt s'.pool v = amt s.pool v := by
  unfold claim at h
  simp only [bind_ok_iff, orErr_ok, Except.ok.injEq, Prod.mk.injEq] at h
  obtain ⟨u, hu, x, _, rfl, _⟩ := h
  unfold amt
  show (match Function.update (update s.now s.pool).1.users user _ v with | none => 0 | some x => x.amount) = _
  by_cases hv : v = user
  · subst hv
    rw [Function.update_self, hu]
    rfl
  · rw [Function.update_of_ne hv, (update_fields s.now s.pool).1]
    rfl

theorem claimLoop_amt {now : Nat} {user : U} : ∀ {ps : List I} {pools pools' : I → Pool I U} {out : I → Nat},
    claimLoop now user pools ps = .ok (pools', out) → ∀ p v, amt (pools' p) v = amt (pools p) v
  | [], pools, pools', out, h, p, v => by
    simp only [claimLoop, Except.ok.injEq, Prod.mk.injEq] at h
    rw [h.1]
  | q :: ps, pools, pools', out, h, p, v => by
    simp only [claimLoop, bind_ok_iff, Prod.exists, Except.ok.injEq, Prod.mk.injEq] at h
    obtain ⟨s, x, hs, pools1, out1, hl, rfl, _⟩ := h
    rw [claimLoop_amt hl p v]
    by_cases hp : p = q
    · subst hp
      rw [Function.update_self]
      exact claim_amt hs v
    · rw [Function.update_of_ne hp]

theorem incentivizeLoop_users {e : Env I I U} {sender : U} : ∀ {items : List (Item I I)} {m m' : Multi I I U}
    {funds rest : List (I × Nat)}, incentivizeLoop e sender m funds items = .ok (m', rest) → ∀ p, (m'.pools p).users = (m.pools p).users
  | [], m, m', funds, rest, h, p => by
    simp only [incentivizeLoop, Except.ok.injEq, Prod.mk.injEq] at h
    rw [h.1]
  | i :: items, m, m', funds, rest, h, p => by
    simp only [incentivizeLoop, bind_ok_iff, Prod.exists] at h
    obtain ⟨m1, f1, hone, hl⟩ := h
    rw [incentivizeLoop_users hl p]
    unfold incentivizeOne at hone
    simp only [bind_ok_iff, require_ok, exists_const, Prod.exists] at hone
    obtain ⟨sch, hsch, _, _, q, hq, _, _, _, hone⟩ := hone
    have hu : q.users = (m.pools i.pool).users := by
      rw [← (update_fields m.now (m.pools i.pool)).1]
      unfold incentivizePool at hq
      simp only [bind_ok_iff, require_ok, exists_const] at hq
      obtain ⟨_, hq⟩ := hq
      split at hq <;> simp only [Except.ok.injEq] at hq <;> subst hq <;> rfl
    have : m1.pools = Function.update m.pools i.pool (save q (update m.now (m.pools i.pool)).2) := by
      split_ifs at hone
      · simp only [bind_ok_iff, Except.ok.injEq, Prod.mk.injEq] at hone
        obtain ⟨_, _, rfl, _⟩ := hone
        rfl
      · simp only [bind_ok_iff, Except.ok.injEq, Prod.mk.injEq] at hone
        obtain ⟨_, _, rfl, _⟩ := hone
        rfl
    rw [this]
    by_cases hp : p = i.pool
    · subst hp
      rw [Function.update_self]
      exact hu
    · rw [Function.update_of_ne hp]

theorem removeReward_users {s s' : State I U} {X : I} {b : Bool} {n : Nat} (h : removeReward s X b = .ok (s', n)) :
    s'.pool.users = s.pool.users := by
  unfold removeReward deregister at h
  simp only [bind_ok_iff, orErr_ok, Except.ok.injEq, Prod.exists, Prod.mk.injEq] at h
  obtain ⟨p, rem, k, ⟨e, _, r, _, ⟨rfl, rfl⟩, rfl⟩, rfl, _⟩ := h
  exact (update_fields s.now s.pool).1

theorem setRates_users {now : Nat} : ∀ (l : List (I × Option Nat)) (pools : I → Pool I U) (p : I),
    (setRates now pools l p).users = (pools p).users
  | [], _, _ => rfl
  | (q, some r) :: l, pools, p => by
    rw [setRates, setRates_users l]
    by_cases hp : p = q
    · subst hp
      rw [Function.update_self]
      exact (update_fields now (pools p)).1
    · rw [Function.update_of_ne hp]
  | (q, none) :: l, pools, p => by
    rw [setRates, setRates_users l]
    by_cases hp : p = q
    · subst hp
      rw [Function.update_self]
      exact (update_fields now (pools p)).1
    · rw [Function.update_of_ne hp]

theorem position_eq (w : Chain I U) (X : I) (u : U) : position w X u = amt (w.pools X) u := rfl

/-! ## C179 -/

/-- **C179.**  Messages on the chain do to the contract exactly what the calls of `Incentives/Vault.lean` do to it: after every history of
transactions - whatever the factory and the configuration said meanwhile - pools, stored orphaned rewards and the contract's balances
are those of a history of calls there, one in which removals are tidy if they were on the chain.  So C178 and all that is proved of
single pools (C26-C32, C127) hold on the chain. -/
theorem C179_histories (c : Cfg I U) (bal : I → U → Nat) (now : Nat) (ts : List (Tx I U)) :
    let w := run c (start bal now) ts
    ∃ lp as, (∀ p, lp p c.me = 0) ∧
      (∀ X, Tidy X c (start bal now) ts → VTidy X c.me some (World.start lp now) as) ∧
      (∀ p, ((vacts c.me some (World.start lp now) as).pool p).st.pool = w.pools p ∧
        ((vacts c.me some (World.start lp now) as).pool p).st.now = w.now) ∧
      (∀ X, (vacts c.me some (World.start lp now) as).held X = w.bal X c.me) ∧
      ∀ X, orphaned (vacts c.me some (World.start lp now) as) X = orphanedOf w X := by
  intro w
  obtain ⟨lp, as, h0, h1, R⟩ := reach c bal now ts
  refine ⟨lp, as, h0, h1, fun p => ⟨R.pool p, R.now p⟩, R.held, fun X => ?_⟩
  unfold orphaned orphanedOf
  rw [R.orph]
  simp only [R.pool]
  rfl

/-- **C179, partial.**  In every history of the chain in which the owner's removals of `X` are tidy, the contract's balance of `X` covers
all positions in the pool of `X`, all that stakers of all pools can claim in `X`, the stored orphaned rewards, and everything
announced until any time `T`.  (Amounts times `DEC`, the unit of the rates.)
Missing: removals that leave upcoming schedules behind or find orphaned rewards (`C178_stake_lost_violated`). -/
theorem C179_stakes_and_rewards_covered_partial (c : Cfg I U) (bal : I → U → Nat) (now : Nat) (hnow : EPOCHS_START ≤ now)
    (ts : List (Tx I U)) (X : I) (ht : Tidy X c (start bal now) ts) (T : Nat) :
    let w := run c (start bal now) ts
    DEC * (∑ u, position w X u + ∑ p, ∑ u, claimable (w.st p) u X + orphanedOf w X) +
      ∑ p, ∑ s ∈ Finset.Ioc w.now T, rateOf (w.pools p) X s ≤ DEC * w.bal X c.me := by
  intro w
  obtain ⟨lp, as, h0, h1, h2, h3, h4⟩ := C179_histories c bal now ts
  have h := C178_stakes_and_rewards_covered_partial c.me some lp now hnow h0 as X (h1 X ht) T
  simp only at h
  rw [h3 X, h4 X] at h
  have e1 : stakedIn some (vacts c.me some (World.start lp now) as) X = ∑ u, position w X u := by
    unfold stakedIn
    have : ∀ p : I, (if some p = some X then ∑ u, amt ((vacts c.me some (World.start lp now) as).pool p).st.pool u else 0) =
        if p = X then ∑ u, position w X u else 0 := by
      intro p
      by_cases hp : p = X
      · subst hp
        rw [if_pos rfl, if_pos rfl, (h2 p).1]
        rfl
      · rw [if_neg hp, if_neg]
        simpa using hp
    simp only [this]
    simp
  have e2 : ∀ p u, claimable ((vacts c.me some (World.start lp now) as).pool p).st u X = claimable (w.st p) u X := by
    intro p u
    unfold claimable pending
    rw [(h2 p).1, (h2 p).2]
    rfl
  have e3 : ∀ p, future ((vacts c.me some (World.start lp now) as).pool p) X T = ∑ s ∈ Finset.Ioc w.now T, rateOf (w.pools p) X s := by
    intro p
    unfold future
    rw [(h2 p).1, (h2 p).2]
  rw [e1] at h
  simp only [e2, e3] at h
  exact h

/-- **C179, partial, continued.**  In such histories a withdrawal is paid: a staker who could claim in the pool of `X` can withdraw any
part of their position, whatever other reward transfers fail, and has the LP tokens.
Missing: as above. -/
theorem C179_withdrawals_go_through_partial (c : Cfg I U) (bal : I → U → Nat) (now : Nat) (hnow : EPOCHS_START ≤ now)
    (ts : List (Tx I U)) (X : I) (ht : Tidy X c (start bal now) ts) (user : U) (hu : user ≠ c.me) (hut : c.tokenOf user = none) (n : Nat)
    (hn : n ≠ 0) (hp : n ≤ position (run c (start bal now) ts) X user) (r : State I U × Paid I)
    (hc : claim ((run c (start bal now) ts).st X) user = .ok r) (f : Facts I U) (sent : I → Nat) :
    let w := run c (start bal now) ts
    ∃ w', exec c w (.call user f [] sent (.withdraw X n)) = .ok w' ∧ position w' X user + n = position w X user ∧
      w.bal X user + n ≤ w'.bal X user := by
  intro w
  obtain ⟨lp, as, h0, h1, R⟩ := reach c bal now ts
  have hV : VInv X c.me some (vacts c.me some (World.start lp now) as) :=
    vacts_vinv as _ (start_vinv X c.me some lp now hnow h0) (h1 X ht)
  have hinv := (R.inv X)
  have hT : n ≤ (w.pools X).totalLp := by
    obtain ⟨E, hA, _⟩ := hinv.astro
    have h2 := hA.total
    rw [R.pool X] at h2
    have h3 : amt (w.pools X) user ≤ ∑ u, amt (w.pools X) u :=
      Finset.single_le_sum (f := fun u => amt (w.pools X) u) (fun u _ => Nat.zero_le _) (Finset.mem_univ user)
    have h4 : n ≤ amt (w.pools X) user := hp
    have h5 : (w.pools X).totalLp = ∑ u, amt (w.pools X) u := h2.symm
    omega
  -- the pool's part
  have hw : ∃ q y, withdrawPool w.now (w.pools X) user n = .ok (q, y) := by
    have hc' := hc
    unfold claim at hc'
    simp only [bind_ok_iff, orErr_ok, Except.ok.injEq] at hc'
    obtain ⟨u, hu1, x, hx, _⟩ := hc'
    have hu2 : (w.pools X).users user = some u := hu1
    have ha : n ≤ u.amount := by
      have := hp
      unfold position at this
      rw [show ((run c (start bal now) ts).pools X).users user = some u from hu1] at this
      exact this
    unfold withdrawPool
    rw [hu2]
    simp only [orErr, ok_bind]
    rw [show require (¬ u.amount < n) (.invalid "AmountExceedsBalance") = (.ok () : Res Unit) by simp [require]; omega]
    simp only [ok_bind]
    rw [show payAll (update w.now (w.pools X)).1 (update w.now (w.pools X)).2 u = .ok x from hx]
    simp only [ok_bind]
    rw [show csub (update w.now (w.pools X)).1.totalLp n = .ok ((w.pools X).totalLp - n) by
      rw [(update_fields w.now (w.pools X)).2.1]
      simp [csub, hT]]
    exact ⟨_, _, rfl⟩
  obtain ⟨q, y, hq⟩ := hw
  obtain ⟨lp', hlp, hstep⟩ := withdraw_step R hu hq
  obtain ⟨b1, b2, b3, b4⟩ := withdraw_books hu hlp hstep X
  have hcov := after_covers hV (p := X) (op := .withdraw user n) (sent := sent) trivial
  have hstake : n ≤ stake c.me some (vacts c.me some (World.start lp now) as).pool X := by
    have := Finset.single_le_sum (f := fun q => if some q = some X then ((vacts c.me some (World.start lp now) as).pool q).st.lp c.me else 0)
      (fun q _ => Nat.zero_le _) (Finset.mem_univ X)
    simp only [if_true] at this
    have h3 := move_le hlp
    unfold stake
    omega
  have hpo : payOut c.me user w.bal y.ext sent X c.me = w.bal X c.me - min (sent X) (min (y.ext X) (w.bal X c.me)) := by
    unfold payOut
    simp only [if_true, if_neg (Ne.symm hu)]
    omega
  have hle : n ≤ payOut c.me user w.bal y.ext sent X c.me := by
    rw [hpo]
    unfold settle at hcov
    simp only [b1, b3, b4, R.held] at hcov
    have e : (run c (start bal now) ts).bal X c.me = w.bal X c.me := rfl
    rw [e] at hcov
    omega
  obtain ⟨l, hl⟩ := move_succeeds (l := payOut c.me user w.bal y.ext sent X) (a := c.me) (b := user) hle
  refine ⟨{ w with pools := Function.update w.pools X q, bal := Function.update (payOut c.me user w.bal y.ext sent) X l }, ?_, ?_, ?_⟩
  · unfold exec
    simp only [attach, execute, bind_ok_iff, require_ok, exists_const, Except.ok.injEq, exists_eq_left']
    refine ⟨⟨hu, hut⟩, ⟨by simp, by simp⟩, ?_⟩
    unfold withdrawMsg
    simp only [bind_ok_iff, require_ok, exists_const, Prod.exists, Except.ok.injEq]
    refine ⟨q, y, hq, fun _ => hn, _, ?_, rfl⟩
    unfold pay
    rw [hl]
    rfl
  · have := withdrawPool_amt hq user
    rw [if_pos rfl] at this
    rw [position_eq, position_eq]
    simp only [Function.update_self]
    exact this
  · simp only [Function.update_self]
    have h2 := move_apply hl user
    rw [if_neg hu, if_pos rfl] at h2
    rw [h2]
    unfold payOut
    simp only [if_neg hu, if_true]
    omega

/-- **C179, continued.**  A position changes only by a withdrawal of its owner, a message with LP coins attached, or LP tokens sent by
their contract; it falls by the amount withdrawn and grows by the amount attached or sent.  Deposits are taken only for LP tokens
that the factory knows. -/
theorem C179_positions_change_only_by {c : Cfg I U} {w w' : Chain I U} {t : Tx I U} (h : exec c w t = .ok w') (X : I) (u : U)
    (hne : position w' X u ≠ position w X u) :
    (∃ f funds sent n, t = .call u f funds sent (.withdraw X n) ∧ position w' X u + n = position w X u) ∨
    (∃ x f sent n r, t = .call x f [(X, n)] sent (.deposit r) ∧ r.getD x = u ∧ f.registered X = true ∧
      position w' X u = position w X u + n ∧ n ≤ w.bal X x) ∨
    (∃ token owner spender n r f sent, t = .send token owner spender n r f sent ∧ c.tokenOf token = some X ∧ r.getD spender = u ∧
      f.registered X = true ∧ position w' X u = position w X u + n ∧ n ≤ w.bal X owner) := by
  simp only [position_eq] at hne ⊢
  have hdep : ∀ {f : Facts I U} {b : I → U → Nat} {Y : I} {s : U} {n : Nat} {sent : I → Nat},
      depositMsg c f { w with bal := b } Y s n sent = .ok w' → f.registered Y = true ∧ Y = X ∧ s = u ∧ amt (w'.pools X) u = amt (w.pools X) u + n := by
    intro f b Y s n sent hd
    unfold depositMsg at hd
    simp only [bind_ok_iff, require_ok, exists_const, Prod.exists, Except.ok.injEq] at hd
    obtain ⟨hr, q, y, hq, rfl⟩ := hd
    have ha := depositPool_amt hq u
    by_cases hY : X = Y
    · subst hY
      simp only [Function.update_self] at hne ⊢
      by_cases hs : u = s
      · rw [if_pos hs] at ha
        exact ⟨hr, trivial, hs.symm, ha⟩
      · rw [if_neg hs] at ha
        exact absurd ha hne
    · simp only [Function.update_of_ne hY] at hne
      exact absurd rfl hne
  cases t with
  | call x f funds sent m =>
    unfold exec at h
    simp only [bind_ok_iff, require_ok, exists_const] at h
    obtain ⟨⟨hx, htok⟩, _, bal, hbal, h⟩ := h
    cases m with
    | deposit r =>
      simp only [execute] at h
      split at h
      · rename_i Y n _
        obtain ⟨hr, rfl, hs, ha⟩ := hdep h
        refine .inr (.inl ⟨x, f, sent, n, r, rfl, hs, hr, ha, ?_⟩)
        simp only [attach, bind_ok_iff, Except.ok.injEq] at hbal
        obtain ⟨b, hb, rfl⟩ := hbal
        unfold pay at hb
        simp only [bind_ok_iff, Except.ok.injEq] at hb
        obtain ⟨l, hl, _⟩ := hb
        exact move_le hl
      · cases h
    | receive user n r => simp [execute, htok] at h
    | withdraw Y n =>
      simp only [execute, withdrawMsg, bind_ok_iff, require_ok, exists_const, Prod.exists, Except.ok.injEq] at h
      obtain ⟨q, y, hq, _, b, _, rfl⟩ := h
      have ha := withdrawPool_amt hq u
      by_cases hY : X = Y
      · subst hY
        simp only [Function.update_self] at hne ⊢
        by_cases hs : u = x
        · subst hs
          rw [if_pos rfl] at ha
          exact .inl ⟨f, funds, sent, n, rfl, ha⟩
        · rw [if_neg hs] at ha
          exact absurd ha hne
      · simp only [Function.update_of_ne hY] at hne
        exact absurd rfl hne
    | claim ps =>
      simp only [execute, bind_ok_iff, require_ok, exists_const, Prod.exists, Except.ok.injEq] at h
      obtain ⟨_, pools, out, hl, rfl⟩ := h
      exact absurd (claimLoop_amt hl X u) hne
    | incentivize items =>
      simp only [execute, bind_ok_iff, require_ok, exists_const, Prod.exists, Except.ok.injEq] at h
      obtain ⟨m, rest, hl, _, rfl⟩ := h
      refine absurd ?_ hne
      unfold amt
      rw [incentivizeLoop_users hl X]
    | remove p Y b receiver =>
      simp only [execute, bind_ok_iff, require_ok, exists_const, Prod.exists, Except.ok.injEq] at h
      obtain ⟨_, s, n, hr, rfl⟩ := h
      refine absurd ?_ hne
      unfold amt
      by_cases hp : X = p
      · subst hp
        simp only [Function.update_self]
        rw [removeReward_users hr]
        rfl
      · simp only [Function.update_of_ne hp]
    | claimOrphaned pick receiver =>
      simp only [execute, bind_ok_iff, require_ok, exists_const, Except.ok.injEq] at h
      obtain ⟨_, rfl⟩ := h
      exact absurd rfl hne
    | rates l =>
      simp only [execute, Except.ok.injEq] at h
      subst h
      refine absurd ?_ hne
      unfold amt
      simp only [setRates_users]
  | send token owner spender n r f sent =>
    unfold exec at h
    simp only [bind_ok_iff, require_ok, exists_const, orErr_ok] at h
    obtain ⟨⟨ho, hs⟩, Y, hY, bal, hbal, h⟩ := h
    simp only [execute, hY] at h
    obtain ⟨hr, rfl, hst, ha⟩ := hdep h
    refine .inr (.inr ⟨token, owner, spender, n, r, f, sent, rfl, hY, hst, hr, ha, ?_⟩)
    unfold pay at hbal
    simp only [bind_ok_iff, Except.ok.injEq] at hbal
    obtain ⟨l, hl, _⟩ := hbal
    exact move_le hl
  | transfer Y src dst n =>
    simp only [exec, bind_ok_iff, require_ok, exists_const, Except.ok.injEq] at h
    obtain ⟨_, bal, _, rfl⟩ := h
    exact absurd rfl hne
  | mint Y dst n =>
    simp only [exec, Except.ok.injEq] at h
    subst h
    exact absurd rfl hne
  | burn Y src n =>
    simp only [exec, bind_ok_iff, require_ok, exists_const, Except.ok.injEq] at h
    obtain ⟨_, _, rfl⟩ := h
    exact absurd rfl hne
  | wait d =>
    simp only [exec, Except.ok.injEq] at h
    subst h
    exact absurd rfl hne

/-- **C179, continued.**  Nobody can pretend to be the contract of an LP token: a `Receive` message of anybody else is refused. -/
theorem C179_spoofed_deposits_refused (c : Cfg I U) (w : Chain I U) (x : U) (f : Facts I U) (funds : List (I × Nat)) (sent : I → Nat)
    (user : U) (n : Nat) (r : Option U) : step c w (.call x f funds sent (.receive user n r)) = w := by
  unfold step
  cases h : exec c w (.call x f funds sent (.receive user n r)) with
  | error e => rfl
  | ok w' =>
    unfold exec at h
    simp only [bind_ok_iff, require_ok, exists_const] at h
    obtain ⟨⟨_, htok⟩, _, _, _, h⟩ := h
    simp [execute, htok] at h

/-- **C179, continued.**  An account other than the contract loses tokens only by its own doing: coins it attaches, rewards it announces,
tokens sent in its name by their contract, transfers and burns. -/
theorem C179_balances_fall_only_by {c : Cfg I U} {w w' : Chain I U} {t : Tx I U} (h : exec c w t = .ok w') (X : I) (a : U) (ha : a ≠ c.me)
    (hlt : w'.bal X a < w.bal X a) :
    (∃ f funds sent m, t = .call a f funds sent m ∧ (0 < attached funds X ∨ ∃ items, m = .incentivize items ∧ 0 < rewardsIn items X)) ∨
    (∃ token spender n r f sent, t = .send token a spender n r f sent ∧ c.tokenOf token = some X) ∨
    (∃ dst n, t = .transfer X a dst n) ∨ ∃ n, t = .burn X a n := by
  have hout : ∀ (dst : U) (b : I → U → Nat) (out sent : I → Nat), b X a ≤ payOut c.me dst b out sent X a := by
    intro dst b out sent
    unfold payOut
    simp only [if_neg ha]
    omega
  have hdep : ∀ {f : Facts I U} {b : I → U → Nat} {Y : I} {s : U} {n : Nat} {sent : I → Nat},
      depositMsg c f { w with bal := b } Y s n sent = .ok w' → b X a ≤ w'.bal X a := by
    intro f b Y s n sent hd
    unfold depositMsg at hd
    simp only [bind_ok_iff, require_ok, exists_const, Prod.exists, Except.ok.injEq] at hd
    obtain ⟨_, q, y, _, rfl⟩ := hd
    exact hout _ _ _ _
  cases t with
  | call x f funds sent m =>
    left
    unfold exec at h
    simp only [bind_ok_iff, require_ok, exists_const] at h
    obtain ⟨⟨hx, htok⟩, _, bal, hbal, h⟩ := h
    have hA := attach_apply hbal X a
    rw [if_neg ha] at hA
    -- enough: the call itself takes nothing from `a`
    have enough : bal X a ≤ w'.bal X a → ∃ f' funds' sent' m', Tx.call x f funds sent m = .call a f' funds' sent' m' ∧
        (0 < attached funds' X ∨ ∃ items, m' = .incentivize items ∧ 0 < rewardsIn items X) := by
      intro hb
      by_cases hax : a = x
      · subst hax
        rw [if_pos rfl] at hA
        exact ⟨f, funds, sent, m, rfl, .inl (by omega)⟩
      · rw [if_neg hax] at hA
        omega
    cases m with
    | deposit r =>
      simp only [execute] at h
      split at h
      · exact enough (hdep h)
      · cases h
    | receive user n r => simp [execute, htok] at h
    | withdraw Y n =>
      simp only [execute, withdrawMsg, bind_ok_iff, require_ok, exists_const, Prod.exists, Except.ok.injEq] at h
      obtain ⟨q, y, hq, _, b, hb, rfl⟩ := h
      refine enough ?_
      have h1 := pay_apply hb X a
      rw [if_neg (fun h => ha h.2)] at h1
      have h2 := hout x bal y.ext sent
      simp only at h1 ⊢
      omega
    | claim ps =>
      simp only [execute, bind_ok_iff, require_ok, exists_const, Prod.exists, Except.ok.injEq] at h
      obtain ⟨_, pools, out, hl, rfl⟩ := h
      exact enough (hout _ _ _ _)
    | incentivize items =>
      simp only [execute, bind_ok_iff, require_ok, exists_const, Prod.exists, Except.ok.injEq] at h
      obtain ⟨m, rest, hl, hz, rfl⟩ := h
      have hm : incentivizeMany (env c f) x ⟨w.pools, w.bal, w.now⟩ funds items = .ok m := by
        unfold incentivizeMany
        simp only [bind_ok_iff, require_ok, exists_const, Prod.exists, Except.ok.injEq]
        exact ⟨bal, hbal, m, rest, hl, hz, rfl⟩
      have h1 := C124_costs_exactly hm X a
      have h2 := C124_attached_exactly hm X
      simp only at h1 hlt
      by_cases hax : a = x
      · subst hax
        refine ⟨f, funds, sent, _, rfl, ?_⟩
        rw [if_pos rfl] at h1
        by_cases h3 : 0 < rewardsIn items X
        · exact .inr ⟨items, rfl, h3⟩
        · left
          split_ifs at h2 <;> omega
      · rw [if_neg hax] at h1
        omega
    | remove p Y b receiver =>
      simp only [execute, bind_ok_iff, require_ok, exists_const, Prod.exists, Except.ok.injEq] at h
      obtain ⟨_, s, n, hr, rfl⟩ := h
      refine enough ?_
      dsimp only
      apply hout
    | claimOrphaned pick receiver =>
      simp only [execute, bind_ok_iff, require_ok, exists_const, Except.ok.injEq] at h
      obtain ⟨_, rfl⟩ := h
      refine enough ?_
      dsimp only
      apply hout
    | rates l =>
      simp only [execute, Except.ok.injEq] at h
      subst h
      exact enough (Nat.le_refl _)
  | send token owner spender n r f sent =>
    right; left
    unfold exec at h
    simp only [bind_ok_iff, require_ok, exists_const, orErr_ok] at h
    obtain ⟨_, Y, hY, bal, hbal, h⟩ := h
    simp only [execute, hY] at h
    have h1 := pay_apply hbal X a
    have h2 := hdep h
    by_cases hc : X = Y ∧ a = owner
    · obtain ⟨rfl, rfl⟩ := hc
      exact ⟨token, spender, n, r, f, sent, rfl, hY⟩
    · rw [if_neg hc] at h1
      omega
  | transfer Y src dst n =>
    right; right; left
    simp only [exec, bind_ok_iff, require_ok, exists_const, Except.ok.injEq] at h
    obtain ⟨_, bal, hbal, rfl⟩ := h
    have h1 := pay_apply hbal X a
    by_cases hc : X = Y ∧ a = src
    · obtain ⟨rfl, rfl⟩ := hc
      exact ⟨dst, n, rfl⟩
    · rw [if_neg hc] at h1
      simp only at hlt
      omega
  | mint Y dst n =>
    simp only [exec, Except.ok.injEq] at h
    subst h
    exfalso
    simp only at hlt
    by_cases hY : X = Y
    · subst hY
      rw [Function.update_self, credit_apply] at hlt
      split at hlt <;> omega
    · rw [Function.update_of_ne hY] at hlt
      omega
  | burn Y src n =>
    right; right; right
    simp only [exec, bind_ok_iff, require_ok, exists_const, Except.ok.injEq] at h
    obtain ⟨_, _, rfl⟩ := h
    simp only at hlt
    by_cases hY : X = Y
    · subst hY
      rw [Function.update_self] at hlt
      by_cases hs : a = src
      · subst hs
        exact ⟨n, rfl⟩
      · rw [Function.update_of_ne hs] at hlt
        omega
    · rw [Function.update_of_ne hY] at hlt
      omega
  | wait d =>
    simp only [exec, Except.ok.injEq] at h
    subst h
    simp only at hlt
    omega

/-- What the loop of a claim pays is what the pools say is claimable. -/
theorem claimLoop_pays {now : Nat} {user : U} (X : I) : ∀ {ps : List I} {pools pools' : I → Pool I U} {out : I → Nat}, ps.Nodup →
    claimLoop now user pools ps = .ok (pools', out) → out X = (ps.map fun p => claimable ⟨pools p, fun _ => 0, now⟩ user X).sum
  | [], pools, pools', out, _, h => by
    simp only [claimLoop, Except.ok.injEq, Prod.mk.injEq] at h
    rw [← h.2]
    rfl
  | q :: ps, pools, pools', out, hnd, h => by
    simp only [claimLoop, bind_ok_iff, Prod.exists, Except.ok.injEq, Prod.mk.injEq] at h
    obtain ⟨s, x, hs, pools1, out1, hl, _, rfl⟩ := h
    have h1 := (C34_claim_pays_pending hs X).1
    have h2 := claimLoop_pays X (List.nodup_cons.1 hnd).2 hl
    have e : ∀ p ∈ ps, claimable ⟨Function.update pools q s.pool p, fun _ => 0, now⟩ user X = claimable ⟨pools p, fun _ => 0, now⟩ user X := by
      intro p hp
      have : p ≠ q := fun h => (List.nodup_cons.1 hnd).1 (h ▸ hp)
      rw [Function.update_of_ne this]
    rw [List.map_cons, List.sum_cons, ← List.map_congr_left e, ← h2]
    unfold claimable
    rw [h1]
    rfl

/-- **C179, partial, continued.**  In such histories a claim pays everything it should: if the transfers of `X` go through, the staker has
exactly what the named pools say they could claim.
Missing: as above. -/
theorem C179_claims_are_paid_partial (c : Cfg I U) (bal : I → U → Nat) (now : Nat) (hnow : EPOCHS_START ≤ now)
    (ts : List (Tx I U)) (X : I) (ht : Tidy X c (start bal now) ts) (user : U) (f : Facts I U) (sent : I → Nat) (ps : List I)
    (w' : Chain I U) (h : exec c (run c (start bal now) ts) (.call user f [] sent (.claim ps)) = .ok w') :
    let w := run c (start bal now) ts
    (ps.map fun p => claimable (w.st p) user X).sum ≤ sent X →
      w'.bal X user = w.bal X user + (ps.map fun p => claimable (w.st p) user X).sum := by
  intro w hsent
  have hcov := C179_stakes_and_rewards_covered_partial c bal now hnow ts X ht w.now
  unfold exec at h
  simp only [attach, execute, bind_ok_iff, require_ok, exists_const, Prod.exists, Except.ok.injEq, exists_eq_left'] at h
  obtain ⟨⟨hx, _⟩, _, hnd, pools, out, hl, rfl⟩ := h
  have hp := claimLoop_pays X hnd hl
  have hle : (ps.map fun p => claimable (w.st p) user X).sum ≤ w.bal X c.me := by
    have h1 : (ps.map fun p => claimable (w.st p) user X).sum = ∑ p ∈ ps.toFinset, claimable (w.st p) user X := by
      rw [List.sum_toFinset _ hnd]
    have h2 : ∑ p ∈ ps.toFinset, claimable (w.st p) user X ≤ ∑ p, ∑ u, claimable (w.st p) u X :=
      Nat.le_trans (Finset.sum_le_univ_sum_of_nonneg fun _ => Nat.zero_le _) (Finset.sum_le_sum fun p _ =>
        Finset.single_le_sum (f := fun u => claimable (w.st p) u X) (fun _ _ => Nat.zero_le _) (Finset.mem_univ user))
    have h3 : DEC * ∑ p, ∑ u, claimable (w.st p) u X ≤ DEC * w.bal X c.me := by
      refine Nat.le_trans ?_ (Nat.le_trans (Nat.le_add_right _ _) hcov)
      refine Nat.mul_le_mul_left _ ?_
      have e : ∑ p, ∑ u, claimable (w.st p) u X = ∑ p, ∑ u, claimable ((run c (start bal now) ts).st p) u X := rfl
      omega
    have h4 := Nat.le_of_mul_le_mul_left h3 (by decide)
    omega
  have e : ∀ p, claimable ⟨w.pools p, fun _ => 0, w.now⟩ user X = claimable (w.st p) user X := fun _ => rfl
  have hp' : out X = (ps.map fun p => claimable (w.st p) user X).sum := hp
  show payOut c.me user w.bal out sent X user = _
  unfold payOut
  simp only [if_neg hx, if_true]
  omega

/-- **C179, continued.**  Rewards are removed and orphaned rewards taken only by the owner. -/
theorem C179_only_the_owner_removes {c : Cfg I U} {w w' : Chain I U} {x : U} {f : Facts I U} {funds : List (I × Nat)} {sent : I → Nat}
    {m : Msg I U} (h : exec c w (.call x f funds sent m) = .ok w')
    (hm : (∃ p X b r, m = .remove p X b r) ∨ ∃ pick r, m = .claimOrphaned pick r) : x = f.owner := by
  unfold exec at h
  simp only [bind_ok_iff, require_ok, exists_const] at h
  obtain ⟨_, _, bal, _, h⟩ := h
  rcases hm with ⟨p, X, b, r, rfl⟩ | ⟨pick, r, rfl⟩
  · simp only [execute, bind_ok_iff, require_ok, exists_const] at h
    exact h.1
  · simp only [execute, bind_ok_iff, require_ok, exists_const] at h
    exact h.1

/-! ## A story -/

/-- Token 0 is a coin and the LP token of pool 0, token 1 is a token of contract 4 and the LP token of pool 1, token 2 is a coin. -/
def wCfg : Cfg (Fin 3) (Fin 5) := ⟨0, 2, fun X => decide (X ≠ 1), fun a => if a = 4 then some 1 else none⟩

/-- Account 3 owns the contract; announcing a reward costs 7 of token 2. -/
def wFacts : Facts (Fin 3) (Fin 5) := ⟨3, some ⟨2, 7, 3⟩, fun _ => false, fun X => decide (X ≠ 2)⟩

/-- All transfers go through. -/
def wSent : Fin 3 → Nat := fun _ => 10 ^ 40

/-- Account 1 stakes coins for account 2 and for itself, account 2 sends tokens; LP token 0 is a reward of pool 1 and token 1 of both
pools; somebody pretends to be contract 4; stakers claim, once while transfers fail, and leave. -/
def wTxs : List (Tx (Fin 3) (Fin 5)) :=
  [.call 1 wFacts [(0, 1000000000)] wSent (.deposit (some 2)), .call 1 wFacts [(0, 40)] wSent (.deposit none),
   .send 4 2 2 100 none wFacts wSent,
   .call 3 wFacts [(0, 100000000), (2, 14)] wSent (.incentivize [⟨1, 0, 100000000, 3⟩, ⟨0, 1, 50000000, 2⟩]),
   .call 1 wFacts [] wSent (.receive 1 1000 none), .transfer 0 1 0 5, .wait 800000,
   .call 2 wFacts [] wSent (.claim [0, 1]), .wait 300000, .call 2 wFacts [] (fun _ => 0) (.claim [1]),
   .call 3 wFacts [] wSent (.remove 1 0 false 3), .call 2 wFacts [] wSent (.withdraw 1 60), .wait 10]

/-- Everybody but the contract has `10 ^ 12` of each token. -/
def wStart : Chain (Fin 3) (Fin 5) := start (fun _ a => if a = 0 then 0 else 10 ^ 12) (EPOCHS_START + 1)

/-- The chain at the end. -/
def wEnd : Chain (Fin 3) (Fin 5) := run wCfg wStart wTxs

/-- Rewards were paid, positions are as expected, and the contract holds the stakes. -/
example : position wEnd 0 2 = 1000000000 ∧ position wEnd 0 1 = 40 ∧ position wEnd 1 2 = 40 ∧ position wEnd 1 1 = 0 ∧
    10 ^ 12 < wEnd.bal 0 2 ∧ 10 ^ 12 - 40 < wEnd.bal 1 2 ∧ 1000000040 ≤ wEnd.bal 0 0 ∧ wEnd.bal 2 3 = 10 ^ 12 ∧ wEnd.bal 1 3 = 10 ^ 12 - 50000000 := by
  decide +kernel

/-- The story is tidy for token 0, and account 2 can claim in pool 0, as the theorems assume. -/
example : Tidy 0 wCfg wStart wTxs ∧
    okAnd (claim (wEnd.st 0) 2) (fun _ => true) = true ∧
    okAnd (exec wCfg wEnd (.call 2 wFacts [] (fun _ => 0) (.withdraw 0 1000000000)))
      (fun w => position w 0 2 == 0 && wEnd.bal 0 2 + 1000000000 == w.bal 0 2) = true := by
  refine ⟨⟨trivial, trivial, trivial, trivial, trivial, trivial, trivial, trivial, trivial, trivial, fun _ => ⟨rfl, fun e he => ?_⟩,
    trivial, trivial, trivial⟩, by decide +kernel, by decide +kernel⟩
  have h : (match (update (run wCfg wStart (wTxs.take 10)).now
      ((run wCfg wStart (wTxs.take 10)).pools 1)).1.ext 0 with
      | some e => e.orphaned
      | none => 0) = 0 := by decide +kernel
  have he' : (update (run wCfg wStart (wTxs.take 10)).now
      ((run wCfg wStart (wTxs.take 10)).pools 1)).1.ext 0 = some e := he
  rw [he'] at h
  exact h

/-- A claim in both pools before the story's first claim. -/
example :
    let w := run wCfg wStart (wTxs.take 7)
    okAnd (exec wCfg w (.call 2 wFacts [] wSent (.claim [0, 1])))
      (fun w' => decide (w.bal 0 2 < w'.bal 0 2) && w'.bal 0 2 == w.bal 0 2 + (claimable (w.st 0) 2 0 + claimable (w.st 1) 2 0)) = true := by
  decide +kernel

/-- The owner removes LP token 0 as a reward of pool 1 but leaves its upcoming schedules. -/
def wTxsBypass : List (Tx (Fin 3) (Fin 5)) :=
  [.call 1 wFacts [(0, 1000000000)] wSent (.deposit none), .send 4 2 2 100 none wFacts wSent,
   .call 3 wFacts [(0, 100000000), (2, 7)] wSent (.incentivize [⟨1, 0, 100000000, 9⟩]),
   .call 3 wFacts [(0, 1000000000)] wSent (.incentivize [⟨1, 0, 1000000000, 4⟩]),
   .call 3 wFacts [] wSent (.remove 1 0 true 3),
   .call 3 wFacts [(0, 2000000), (2, 7)] wSent (.incentivize [⟨1, 0, 2000000, 1⟩]), .wait 6652800,
   .call 2 wFacts [] wSent (.claim [1])]

/-- **C179 is violated.**  After such a removal account 2 is paid with the LP coins that account 1 has staked, and account 1's withdrawal
is refused for lack of them. -/
theorem C179_stake_lost_violated :
    let w := run wCfg wStart wTxsBypass
    position w 0 1 = 1000000000 ∧ okAnd (claim (w.st 0) 1) (fun _ => true) = true ∧ w.bal 0 0 < 1000000000 ∧
    fails (exec wCfg w (.call 1 wFacts [] wSent (.withdraw 0 1000000000))) = true := by
  decide +kernel

end Verif.Incentives.Entry
