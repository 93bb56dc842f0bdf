import Verif.Staking.Props

/-!
# Messages to the ASTRO staking contract on a chain

`Verif.Staking.Model` takes amounts of ASTRO and xASTRO as arguments.  Here the contract is called with the
coins a message carries, of any denominations, on a bank that refuses empty coins; and `EnterWithHook` hands
control to another contract in the middle of the message.  What that contract does is arbitrary: it may send
coins on, call the staking contract again, nest further hooks, catch failures, or fail and undo everything.

Simplifications: `D` stands for denominations; ASTRO is neither minted nor burnt; the tracker's hook on
transfers of xASTRO never refuses (C58) and only writes the tracker's storage, so it is left out.
-/

namespace Verif.Staking.Entry

variable {A D : Type} [DecidableEq A] [DecidableEq D]

/-- Balances and total supplies of the bank module. -/
structure World (A D : Type) where
  bank : D → A → Nat
  supply : D → Nat

/-- The two denominations of the contract's `Config`; packages/astroport/src/staking.rs:64-69. -/
structure Cfg (D : Type) where
  astro : D
  xastro : D

/-- A bank transfer of one coin.  The bank refuses empty coins. -/
def pay (w : World A D) (src dst : A) (c : D × Nat) : Res (World A D) := do
  require (c.2 ≠ 0) (.invalid "InvalidCoins")
  let l ← move (w.bank c.1) src dst c.2
  .ok { w with bank := Function.update w.bank c.1 l }

/-- A bank transfer of a list of coins, such as those attached to a message, which precedes the call. -/
def attach (w : World A D) (src dst : A) : List (D × Nat) → Res (World A D)
  | [] => .ok w
  | c :: cs => do
    let w ← pay w src dst c
    attach w src dst cs

/-- `cw_utils::must_pay`: exactly one coin, of the expected denomination and not empty. -/
def mustPay (d : D) : List (D × Nat) → Res Nat
  | [(e, n)] => do
    require (n ≠ 0) (.invalid "NoFunds")
    require (e = d) (.invalid "MissingDenom")
    .ok n
  | [] => .error (.invalid "NoFunds")
  | _ => .error (.invalid "MultipleDenoms")

/-- `MsgMint` of the token factory, to the contract itself; contracts/tokenomics/staking/src/contract.rs:266-273, 287-295. -/
def mint (w : World A D) (me : A) (d : D) (n : Nat) : World A D :=
  { bank := Function.update w.bank d (credit (w.bank d) me n)
    supply := Function.update w.supply d (w.supply d + n) }

/-- `MsgBurn` of the token factory, from the contract itself; contracts/tokenomics/staking/src/contract.rs:344-350. -/
def burn (w : World A D) (me : A) (d : D) (n : Nat) : Res (World A D) := do
  let l ← debit (w.bank d) me n
  let t ← csub (w.supply d) n
  .ok { bank := Function.update w.bank d l, supply := Function.update w.supply d t }

/-- `execute_enter` up to and including the two mints; contracts/tokenomics/staking/src/contract.rs:238-314.  The result is the
amount of xASTRO now held by the contract for the recipient or the hook. -/
def enterCall (me : A) (c : Cfg D) (w : World A D) (sender : A) (funds : List (D × Nat)) :
    Res (World A D × Nat) := do
  let w ← attach w sender me funds
  let amount ← mustPay c.astro funds
  let totalDeposit ← csub (w.bank c.astro me) amount
  let (locked, minted) ← mintAmount totalDeposit (w.supply c.xastro) amount
  .ok (mint (mint w me c.xastro locked) me c.xastro minted, minted)

/-- `execute_leave`; contracts/tokenomics/staking/src/contract.rs:318-378. -/
def leaveCall (me : A) (c : Cfg D) (w : World A D) (sender : A) (funds : List (D × Nat)) (recipient : A) :
    Res (World A D × Nat) := do
  let w ← attach w sender me funds
  let amount ← mustPay c.xastro funds
  let ret ← mulRatio amount (w.bank c.astro me) (w.supply c.xastro)
  let w ← burn w me c.xastro amount
  let w ← pay w me recipient (c.astro, ret)
  let w ← pay w me me (c.xastro, 1)
  .ok (w, ret)

/-- Messages the staking contract can be made to send to itself. -/
inductive SelfMsg (A : Type)
  | enter (receiver : Option A)
  | enterWithHook (target : A)
  | leave (receiver : Option A)

/-- What happens within one transaction. -/
inductive Tx (A D : Type)
  /-- nothing -/
  | skip
  /-- one thing after the other, both or neither -/
  | seq (t u : Tx A D)
  /-- something whose failure is caught and undone -/
  | attempt (t : Tx A D)
  /-- a bank transfer of any coins -/
  | send (sender : A) (funds : List (D × Nat)) (receiver : A)
  /-- `Enter` -/
  | enter (sender : A) (funds : List (D × Nat)) (receiver : Option A)
  /-- `EnterWithHook` at a contract other than the staking contract, and what that contract does -/
  | enterWithHook (sender : A) (funds : List (D × Nat)) (target : A) (hook : Tx A D)
  /-- `EnterWithHook` at the staking contract itself, with the message it receives -/
  | enterWithSelfHook (sender : A) (funds : List (D × Nat)) (msg : SelfMsg A)
  /-- `Leave` -/
  | leave (sender : A) (funds : List (D × Nat)) (receiver : Option A)

/-- `execute`; contracts/tokenomics/staking/src/contract.rs:109-151, and the transfers around it.  Only the staking
contract itself acts as `me`, and it only does so through its own messages.  A self-hook that enters fails in `must_pay`
(the coin attached is xASTRO), so what would come after is not modelled. -/
def exec (me : A) (c : Cfg D) : Tx A D → World A D → Res (World A D)
  | .skip, w => .ok w
  | .seq t u, w => do
    let w ← exec me c t w
    exec me c u w
  | .attempt t, w => .ok (commit' w (exec me c t w))
  | .send u funds r, w => do
    require (u ≠ me) .unauthorized
    attach w u r funds
  | .enter u funds r, w => do
    require (u ≠ me) .unauthorized
    let (w, m) ← enterCall me c w u funds
    pay w me (r.getD u) (c.xastro, m)
  | .enterWithHook u funds target hook, w => do
    require (u ≠ me) .unauthorized
    require (target ≠ me) .unauthorized
    let (w, m) ← enterCall me c w u funds
    let w ← pay w me target (c.xastro, m)
    exec me c hook w
  | .enterWithSelfHook u funds msg, w => do
    require (u ≠ me) .unauthorized
    let (w, m) ← enterCall me c w u funds
    match msg with
    | .enter r => do
      let (w, m) ← enterCall me c w me [(c.xastro, m)]
      pay w me (r.getD me) (c.xastro, m)
    | .enterWithHook target => do
      let (w, m) ← enterCall me c w me [(c.xastro, m)]
      pay w me target (c.xastro, m)
    | .leave r => do
      let (w, _) ← leaveCall me c w me [(c.xastro, m)] (r.getD me)
      .ok w
  | .leave u funds r, w => do
    require (u ≠ me) .unauthorized
    let (w, _) ← leaveCall me c w u funds (r.getD u)
    .ok w

/-- A transaction that fails changes nothing. -/
def step (me : A) (c : Cfg D) (w : World A D) (t : Tx A D) : World A D := commit' w (exec me c t w)

/-- History. -/
def run (me : A) (c : Cfg D) (w : World A D) (ts : List (Tx A D)) : World A D := ts.foldl (step me c) w

/-- `instantiate` and the first reply, contracts/tokenomics/staking/src/contract.rs:53-101, 155-189: the deposit token must
exist; the token factory creates xASTRO (a denomination `x` determined by the contract's address), refusing one that
exists already. -/
def instantiate (w : World A D) (deposit x : D) : Res (Cfg D) := do
  require (w.supply deposit ≠ 0) (.invalid "deposit_token_denom has 0 supply")
  require (w.supply x = 0) (.invalid "denom already exists")
  .ok ⟨deposit, x⟩

/-- `TotalDeposit`; contracts/tokenomics/staking/src/contract.rs:402-410. -/
def queryTotalDeposit (me : A) (c : Cfg D) (w : World A D) : Nat := w.bank c.astro me

/-- `TotalShares`; contracts/tokenomics/staking/src/contract.rs:396-401. -/
def queryTotalShares (c : Cfg D) (w : World A D) : Nat := w.supply c.xastro

/-- The accounts that act in a transaction, other than through the staking contract. -/
def Tx.senders : Tx A D → List A
  | .skip => []
  | .seq t u => t.senders ++ u.senders
  | .attempt t => t.senders
  | .send u _ _ | .enter u _ _ | .leave u _ _ | .enterWithSelfHook u _ _ => [u]
  | .enterWithHook u _ _ hook => u :: hook.senders

/-! ## Inversion -/

theorem mustPay_ok {d : D} {funds : List (D × Nat)} {n : Nat} :
    mustPay d funds = .ok n ↔ funds = [(d, n)] ∧ n ≠ 0 := by
  constructor
  · intro h
    unfold mustPay at h
    split at h
    · simp only [bind_ok_iff, require_ok, exists_const, Except.ok.injEq] at h
      obtain ⟨h1, rfl, rfl⟩ := h
      exact ⟨rfl, h1⟩
    · simp at h
    · simp at h
  · rintro ⟨rfl, h⟩
    simp [mustPay, require, h]

omit [DecidableEq A] in
theorem pay_ok [DecidableEq A] {w w' : World A D} {a b : A} {x : D × Nat} :
    pay w a b x = .ok w' ↔
      x.2 ≠ 0 ∧ ∃ l, move (w.bank x.1) a b x.2 = .ok l ∧ w' = ⟨Function.update w.bank x.1 l, w.supply⟩ := by
  unfold pay
  simp only [bind_ok_iff, require_ok, exists_const, Except.ok.injEq]
  constructor
  · rintro ⟨h, l, h1, rfl⟩; exact ⟨h, l, h1, rfl⟩
  · rintro ⟨h, l, h1, rfl⟩; exact ⟨h, l, h1, rfl⟩

theorem attach_one {w : World A D} {a b : A} {x : D × Nat} : attach w a b [x] = pay w a b x := by
  unfold attach attach
  cases pay w a b x <;> rfl

/-- A transfer, pointwise. -/
theorem pay_apply {w w' : World A D} {a b : A} {x : D × Nat} (h : pay w a b x = .ok w') :
    w'.supply = w.supply ∧ x.2 ≤ w.bank x.1 a ∧ ∀ d v, w'.bank d v =
      if d = x.1 then (if v = a then w.bank d v - x.2 else w.bank d v) + (if v = b then x.2 else 0)
      else w.bank d v := by
  obtain ⟨_, l, hl, rfl⟩ := pay_ok.1 h
  refine ⟨rfl, move_le hl, fun d v => ?_⟩
  by_cases hd : d = x.1
  · subst hd; simp [move_apply hl]
  · simp [hd]

/-- The two ledgers the contract works with. -/
def proj (c : Cfg D) (w : World A D) : State A := ⟨w.bank c.astro, w.bank c.xastro, w.supply c.xastro⟩

theorem enterCall_ok {me : A} {c : Cfg D} (hc : c.astro ≠ c.xastro) {w w' : World A D} {u : A}
    {funds : List (D × Nat)} {m : Nat} (h : enterCall me c w u funds = .ok (w', m)) :
    ∃ n l locked, funds = [(c.astro, n)] ∧ n ≠ 0 ∧ move (w.bank c.astro) u me n = .ok l ∧
      n ≤ l me ∧ mintAmount (l me - n) (w.supply c.xastro) n = .ok (locked, m) ∧
      w'.bank = Function.update (Function.update w.bank c.astro l) c.xastro
        (credit (credit (w.bank c.xastro) me locked) me m) ∧
      w'.supply = Function.update w.supply c.xastro (w.supply c.xastro + locked + m) := by
  unfold enterCall at h
  simp only [bind_ok_iff, Except.ok.injEq, Prod.exists, csub_ok, Prod.mk.injEq] at h
  obtain ⟨w1, h1, n, h2, d, ⟨h3, h3'⟩, locked, m', h4, h5, h6⟩ := h
  subst h6
  obtain ⟨rfl, hn⟩ := mustPay_ok.1 h2
  rw [attach_one] at h1
  obtain ⟨_, l, hl, rfl⟩ := pay_ok.1 h1
  simp only [Function.update_self] at h3 h3'
  subst h3'
  refine ⟨n, l, locked, rfl, hn, hl, h3, h4, ?_, ?_⟩
  · rw [← h5]
    simp [mint, Function.update_of_ne (Ne.symm hc)]
  · rw [← h5]
    simp [mint]

theorem leaveCall_ok {me : A} {c : Cfg D} (hc : c.astro ≠ c.xastro) {w w' : World A D} {u r : A}
    {funds : List (D × Nat)} {ret : Nat} (h : leaveCall me c w u funds r = .ok (w', ret)) :
    ∃ n s', funds = [(c.xastro, n)] ∧ n ≠ 0 ∧ ret ≠ 0 ∧ Staking.leave me (proj c w) u n r = .ok (s', ret) ∧
      w'.bank = Function.update (Function.update w.bank c.astro s'.astro) c.xastro s'.xastro ∧
      w'.supply = Function.update w.supply c.xastro s'.xSupply := by
  unfold leaveCall burn at h
  simp only [bind_ok_iff, Except.ok.injEq, Prod.mk.injEq] at h
  obtain ⟨w1, h1, n, h2, ret', h3, w2, ⟨x2, h4, t, h5, rfl⟩, w3, h6, w4, h7, rfl, rfl⟩ := h
  obtain ⟨rfl, hn⟩ := mustPay_ok.1 h2
  rw [attach_one] at h1
  obtain ⟨_, x, hx, rfl⟩ := pay_ok.1 h1
  obtain ⟨hr, l, hl, rfl⟩ := pay_ok.1 h6
  obtain ⟨_, x3, hx3, rfl⟩ := pay_ok.1 h7
  simp only [Function.update_self, Function.update_of_ne hc, Function.update_of_ne (Ne.symm hc)] at h3 h4 h5 hl hx3
  refine ⟨n, ⟨l, x3, t⟩, rfl, hn, hr, ?_, ?_, rfl⟩
  · simp [Staking.leave, proj, require, hn, hx, h3, h4, h5, hl, hx3]
  · funext d
    simp only [Function.update_apply]
    split
    · rfl
    · split <;> rfl

/-- Entering and sending the minted xASTRO on is the staking model's `enter`. -/
theorem enter_sim {me : A} {c : Cfg D} (hc : c.astro ≠ c.xastro) {w w1 w2 : World A D} {u r : A}
    {funds : List (D × Nat)} {m : Nat} (h : enterCall me c w u funds = .ok (w1, m))
    (h2 : pay w1 me r (c.xastro, m) = .ok w2) :
    ∃ n s', funds = [(c.astro, n)] ∧ n ≠ 0 ∧ m ≠ 0 ∧ Staking.enter me (proj c w) u n r = .ok (s', m) ∧
      w2.bank = Function.update (Function.update w.bank c.astro s'.astro) c.xastro s'.xastro ∧
      w2.supply = Function.update w.supply c.xastro s'.xSupply := by
  obtain ⟨n, l, locked, rfl, hn, hl, hle, hm, hb, hs⟩ := enterCall_ok hc h
  obtain ⟨hm0, x, hx, rfl⟩ := pay_ok.1 h2
  simp only [hb, Function.update_self] at hx
  refine ⟨n, ⟨l, x, w.supply c.xastro + locked + m⟩, rfl, hn, hm0, ?_, ?_, hs⟩
  · simp [Staking.enter, proj, require, hn, hl, csub, hle, hm, hx]
  · simp [hb]

omit [DecidableEq A] in
theorem proj_of [DecidableEq A] {c : Cfg D} (hc : c.astro ≠ c.xastro) {w w' : World A D} {s : State A}
    (h : w'.bank = Function.update (Function.update w.bank c.astro s.astro) c.xastro s.xastro)
    (h2 : w'.supply = Function.update w.supply c.xastro s.xSupply) : proj c w' = s := by
  simp [proj, h, h2, Function.update_of_ne hc]

/-- Coins attached to a message or transferred are the staking model's plain transfers. -/
theorem attach_sim {me : A} {c : Cfg D} (hc : c.astro ≠ c.xastro) {u r : A} (hu : u ≠ me)
    (funds : List (D × Nat)) {w w' : World A D} (h : attach w u r funds = .ok w') :
    ∃ os : List (Op A), proj c w' = Staking.run me (proj c w) os ∧ ∀ o ∈ os, o.signer = u := by
  induction funds generalizing w with
  | nil =>
    simp only [attach, Except.ok.injEq] at h
    exact ⟨[], by rw [h]; rfl, by simp⟩
  | cons x xs ih =>
    simp only [attach, bind_ok_iff] at h
    obtain ⟨w1, h1, h2⟩ := h
    obtain ⟨os, hos, hsig⟩ := ih h2
    obtain ⟨_, l, hl, rfl⟩ := pay_ok.1 h1
    by_cases ha : x.1 = c.astro
    · refine ⟨.sendAstro u x.2 r :: os, ?_, ?_⟩
      · rw [hos]
        simp only [Staking.run, List.foldl_cons]
        congr 1
        rw [ha] at hl
        simp [Staking.step, Staking.exec, require, hu, proj, hl, ha, Function.update_of_ne (Ne.symm hc)]
      · intro o ho
        rcases List.mem_cons.1 ho with rfl | ho
        · rfl
        · exact hsig o ho
    · by_cases hx : x.1 = c.xastro
      · refine ⟨.sendX u x.2 r :: os, ?_, ?_⟩
        · rw [hos]
          simp only [Staking.run, List.foldl_cons]
          congr 1
          rw [hx] at hl
          simp [Staking.step, Staking.exec, require, hu, proj, hl, hx, Function.update_of_ne hc]
        · intro o ho
          rcases List.mem_cons.1 ho with rfl | ho
          · rfl
          · exact hsig o ho
      · refine ⟨os, ?_, hsig⟩
        rw [hos]
        congr 1
        simp [proj, Function.update_of_ne (Ne.symm ha), Function.update_of_ne (Ne.symm hx)]

/-- Entering with coins other than ASTRO fails; in particular a self-hook cannot enter again. -/
theorem self_enter_refused {me : A} {c : Cfg D} (hc : c.astro ≠ c.xastro) {w w' : World A D} {u : A} {n m : Nat}
    (h : enterCall me c w u [(c.xastro, n)] = .ok (w', m)) : False := by
  obtain ⟨n', _, _, h1, _⟩ := enterCall_ok hc h
  simp only [List.cons.injEq, Prod.mk.injEq, and_true] at h1
  exact hc h1.1.symm

theorem run_append (me : A) (s : State A) (os ps : List (Op A)) :
    Staking.run me s (os ++ ps) = Staking.run me (Staking.run me s os) ps := by
  simp [Staking.run]

/-- Every transaction is a sequence of operations of the staking model, signed by those who act in it. -/
theorem exec_sim {me : A} {c : Cfg D} (hc : c.astro ≠ c.xastro) (t : Tx A D) {w w' : World A D}
    (h : exec me c t w = .ok w') :
    ∃ os : List (Op A), proj c w' = Staking.run me (proj c w) os ∧ ∀ o ∈ os, o.signer ∈ t.senders := by
  induction t generalizing w w' with
  | skip =>
    simp only [exec, Except.ok.injEq] at h
    exact ⟨[], by rw [h]; rfl, by simp⟩
  | seq t u iht ihu =>
    simp only [exec, bind_ok_iff] at h
    obtain ⟨w1, h1, h2⟩ := h
    obtain ⟨os, e1, s1⟩ := iht h1
    obtain ⟨ps, e2, s2⟩ := ihu h2
    refine ⟨os ++ ps, by rw [e2, e1, run_append], fun o ho => ?_⟩
    rcases List.mem_append.1 ho with ho | ho
    · simp [Tx.senders, s1 o ho]
    · simp [Tx.senders, s2 o ho]
  | attempt t ih =>
    simp only [exec, Except.ok.injEq] at h
    cases hx : exec me c t w with
    | error e =>
      rw [hx] at h
      exact ⟨[], by rw [← h]; rfl, by simp⟩
    | ok w1 =>
      rw [hx, commit'_ok] at h
      subst h
      obtain ⟨os, e, s⟩ := ih hx
      exact ⟨os, e, fun o ho => by simpa [Tx.senders] using s o ho⟩
  | send u funds r =>
    simp only [exec, bind_ok_iff, require_ok, exists_const] at h
    obtain ⟨hu, h⟩ := h
    obtain ⟨os, e, s⟩ := attach_sim hc hu funds h
    exact ⟨os, e, fun o ho => by simp [Tx.senders, s o ho]⟩
  | enter u funds r =>
    simp only [exec, bind_ok_iff, require_ok, exists_const, Prod.exists] at h
    obtain ⟨hu, w1, m, h1, h2⟩ := h
    obtain ⟨n, s', rfl, hn, _, he, hb, hs⟩ := enter_sim hc h1 h2
    refine ⟨[.enter u n (r.getD u)], ?_, by simp [Op.signer, Tx.senders]⟩
    rw [proj_of hc hb hs]
    simp [Staking.run, Staking.step, Staking.exec, require, hu, he]
  | enterWithHook u funds target hook ih =>
    simp only [exec, bind_ok_iff, require_ok, exists_const, Prod.exists] at h
    obtain ⟨hu, ht, w1, m, h1, w2, h2, h3⟩ := h
    obtain ⟨n, s', rfl, hn, _, he, hb, hs⟩ := enter_sim hc h1 h2
    obtain ⟨os, e, sg⟩ := ih h3
    refine ⟨.enter u n target :: os, ?_, ?_⟩
    · rw [e, proj_of hc hb hs]
      simp only [Staking.run, List.foldl_cons]
      congr 1
      simp [Staking.step, Staking.exec, require, hu, he]
    · intro o ho
      rcases List.mem_cons.1 ho with rfl | ho
      · simp [Op.signer, Tx.senders]
      · simp [Tx.senders, sg o ho]
  | enterWithSelfHook u funds msg =>
    simp only [exec, bind_ok_iff, require_ok, exists_const, Prod.exists] at h
    obtain ⟨hu, w1, m, h1, h2⟩ := h
    cases msg with
    | enter r =>
      simp only [bind_ok_iff, Prod.exists] at h2
      obtain ⟨_, _, h2, _⟩ := h2
      exact (self_enter_refused hc h2).elim
    | enterWithHook r =>
      simp only [bind_ok_iff, Prod.exists] at h2
      obtain ⟨_, _, h2, _⟩ := h2
      exact (self_enter_refused hc h2).elim
    | leave r =>
      simp only [bind_ok_iff, Prod.exists, Except.ok.injEq] at h2
      obtain ⟨w2, ret, h2, rfl⟩ := h2
      obtain ⟨n', s', hf, hm, _, he2, hb2, hs2⟩ := leaveCall_ok hc h2
      simp only [List.cons.injEq, Prod.mk.injEq, and_true, true_and] at hf
      subst hf
      obtain ⟨n, l, locked, rfl, hn, hl, hle, hmint, hb, hs⟩ := enterCall_ok hc h1
      refine ⟨[.enterHookLeave u n (r.getD me)], ?_, by simp [Op.signer, Tx.senders]⟩
      have hmv : move (credit (credit (w.bank c.xastro) me locked) me m) me me m =
          .ok (credit (credit (w.bank c.xastro) me locked) me m) := by
        simp only [move, debit, credit_self, Nat.le_add_left, if_true, ok_bind]
        congr 1
        funext v
        by_cases hv : v = me
        · subst hv; simp
        · simp [credit, hv]
      have e1 : Staking.enter me (proj c w) u n me = .ok (proj c w1, m) := by
        simp [Staking.enter, proj, require, hn, hl, csub, hle, hmint, hmv, hb, hs, Function.update_of_ne hc]
      rw [proj_of hc hb2 hs2]
      simp [Staking.run, Staking.step, Staking.exec, require, hu, e1, he2]
  | leave u funds r =>
    simp only [exec, bind_ok_iff, require_ok, exists_const, Prod.exists, Except.ok.injEq] at h
    obtain ⟨hu, w1, ret, h1, rfl⟩ := h
    obtain ⟨n, s', rfl, hn, _, he, hb, hs⟩ := leaveCall_ok hc h1
    refine ⟨[.leave u n (r.getD u)], ?_, by simp [Op.signer, Tx.senders]⟩
    rw [proj_of hc hb hs]
    simp [Staking.run, Staking.step, Staking.exec, require, hu, he]

/-! ## From transactions to histories -/

theorem run_sim {me : A} {c : Cfg D} (hc : c.astro ≠ c.xastro) (ts : List (Tx A D)) (w : World A D) :
    ∃ os : List (Op A), proj c (run me c w ts) = Staking.run me (proj c w) os := by
  induction ts generalizing w with
  | nil => exact ⟨[], rfl⟩
  | cons t ts ih =>
    obtain ⟨os, e⟩ := ih (step me c w t)
    have : ∃ ps : List (Op A), proj c (step me c w t) = Staking.run me (proj c w) ps := by
      unfold step
      cases h : exec me c t w with
      | error _ => exact ⟨[], rfl⟩
      | ok w' =>
        obtain ⟨ps, e, _⟩ := exec_sim hc t h
        exact ⟨ps, e⟩
    obtain ⟨ps, e2⟩ := this
    exact ⟨ps ++ os, by rw [run_append, ← e2, ← e]; rfl⟩

/-- Nobody's balance falls, in any denomination, unless they act. -/
theorem attach_other {w w' : World A D} {u r : A} (funds : List (D × Nat)) (h : attach w u r funds = .ok w')
    {v : A} (hv : v ≠ u) (d : D) : w.bank d v ≤ w'.bank d v ∧ w'.supply = w.supply := by
  induction funds generalizing w with
  | nil =>
    simp only [attach, Except.ok.injEq] at h
    subst h; exact ⟨le_refl _, rfl⟩
  | cons x xs ih =>
    simp only [attach, bind_ok_iff] at h
    obtain ⟨w1, h1, h2⟩ := h
    obtain ⟨a1, _, a2⟩ := pay_apply h1
    obtain ⟨b1, b2⟩ := ih h2
    refine ⟨le_trans ?_ b1, b2.trans a1⟩
    rw [a2 d v]
    simp only [hv, if_false]
    split <;> omega

/-- What one call of the contract does to any account in any denomination. -/
theorem exec_other {me : A} {c : Cfg D} (hc : c.astro ≠ c.xastro) (t : Tx A D) {w w' : World A D}
    (h : exec me c t w = .ok w') (v : A) (hv : v ∈ t.senders → v = me) (d : D)
    (hd : v ≠ me ∨ (d ≠ c.astro ∧ d ≠ c.xastro)) :
    w.bank d v ≤ w'.bank d v ∧ (d ≠ c.xastro → w'.supply d = w.supply d) := by
  have henter : ∀ {w w' : World A D} {s' : State A} {u n r m}, u ≠ me → v ≠ u →
      Staking.enter me (proj c w) u n r = .ok (s', m) →
      w'.bank = Function.update (Function.update w.bank c.astro s'.astro) c.xastro s'.xastro →
      w'.supply = Function.update w.supply c.xastro s'.xSupply →
      w.bank d v ≤ w'.bank d v ∧ (d ≠ c.xastro → w'.supply d = w.supply d) := by
    intro w w' s' u n r m hu hvu he hb hs
    obtain ⟨sp⟩ := enter_spec hu he
    refine ⟨?_, fun h => by rw [hs, Function.update_of_ne h]⟩
    rw [hb]
    by_cases h1 : d = c.xastro
    · subst h1
      have := sp.hx v
      simp only [proj] at this
      rw [Function.update_self]; omega
    · rw [Function.update_of_ne h1]
      by_cases h2 : d = c.astro
      · subst h2
        have := sp.ha v
        simp only [proj, hvu, if_false] at this
        rw [Function.update_self]; omega
      · rw [Function.update_of_ne h2]
  have hleave : ∀ {w w' : World A D} {s' : State A} {u n r m}, v ≠ u →
      Staking.leave me (proj c w) u n r = .ok (s', m) →
      w'.bank = Function.update (Function.update w.bank c.astro s'.astro) c.xastro s'.xastro →
      w'.supply = Function.update w.supply c.xastro s'.xSupply →
      w.bank d v ≤ w'.bank d v ∧ (d ≠ c.xastro → w'.supply d = w.supply d) := by
    intro w w' s' u n r m hvu he hb hs
    have sp := leave_spec he
    refine ⟨?_, fun h => by rw [hs, Function.update_of_ne h]⟩
    rw [hb]
    by_cases h1 : d = c.xastro
    · subst h1
      have := sp.hx v
      simp only [proj, hvu, if_false] at this
      rw [Function.update_self]; omega
    · rw [Function.update_of_ne h1]
      by_cases h2 : d = c.astro
      · subst h2
        have hvm : v ≠ me := by
          rcases hd with h | h
          · exact h
          · exact absurd rfl h.1
        have := sp.ha v
        simp only [proj, hvm, if_false] at this
        rw [Function.update_self]; omega
      · rw [Function.update_of_ne h2]
  induction t generalizing w w' with
  | skip =>
    simp only [exec, Except.ok.injEq] at h
    subst h; exact ⟨le_refl _, fun _ => rfl⟩
  | seq t u iht ihu =>
    simp only [exec, bind_ok_iff] at h
    obtain ⟨w1, h1, h2⟩ := h
    obtain ⟨a1, a2⟩ := iht h1 (fun g => hv (by simp [Tx.senders, g]))
    obtain ⟨b1, b2⟩ := ihu h2 (fun g => hv (by simp [Tx.senders, g]))
    exact ⟨le_trans a1 b1, fun h => (b2 h).trans (a2 h)⟩
  | attempt t ih =>
    simp only [exec, Except.ok.injEq] at h
    cases hx : exec me c t w with
    | error e =>
      rw [hx] at h
      subst h; exact ⟨le_refl _, fun _ => rfl⟩
    | ok w1 =>
      rw [hx, commit'_ok] at h
      subst h
      exact ih hx (by simpa [Tx.senders] using hv)
  | send u funds r =>
    simp only [exec, bind_ok_iff, require_ok, exists_const] at h
    have hvu : v ≠ u := fun e => h.1 (e ▸ hv (by simp [Tx.senders, e]))
    obtain ⟨a, b⟩ := attach_other funds h.2 hvu d
    exact ⟨a, fun _ => by rw [b]⟩
  | enter u funds r =>
    simp only [exec, bind_ok_iff, require_ok, exists_const, Prod.exists] at h
    obtain ⟨hu, w1, m, h1, h2⟩ := h
    obtain ⟨n, s', rfl, hn, _, he, hb, hs⟩ := enter_sim hc h1 h2
    have hvu : v ≠ u := fun e => hu (e ▸ hv (by simp [Tx.senders, e]))
    exact henter hu hvu he hb hs
  | enterWithHook u funds target hook ih =>
    simp only [exec, bind_ok_iff, require_ok, exists_const, Prod.exists] at h
    obtain ⟨hu, ht, w1, m, h1, w2, h2, h3⟩ := h
    obtain ⟨n, s', rfl, hn, _, he, hb, hs⟩ := enter_sim hc h1 h2
    have hvu : v ≠ u := fun e => hu (e ▸ hv (by simp [Tx.senders, e]))
    obtain ⟨a1, a2⟩ := henter hu hvu he hb hs
    obtain ⟨b1, b2⟩ := ih h3 (fun g => hv (by simp [Tx.senders, g]))
    exact ⟨le_trans a1 b1, fun h => (b2 h).trans (a2 h)⟩
  | enterWithSelfHook u funds msg =>
    simp only [exec, bind_ok_iff, require_ok, exists_const, Prod.exists] at h
    obtain ⟨hu, w1, m, h1, h2⟩ := h
    cases msg with
    | enter r =>
      simp only [bind_ok_iff, Prod.exists] at h2
      obtain ⟨_, _, h2, _⟩ := h2
      exact (self_enter_refused hc h2).elim
    | enterWithHook r =>
      simp only [bind_ok_iff, Prod.exists] at h2
      obtain ⟨_, _, h2, _⟩ := h2
      exact (self_enter_refused hc h2).elim
    | leave r =>
      simp only [bind_ok_iff, Prod.exists, Except.ok.injEq] at h2
      obtain ⟨w2, ret, h2, rfl⟩ := h2
      have hvu : v ≠ u := fun e => hu (e ▸ hv (by simp [Tx.senders, e]))
      obtain ⟨n, l, locked, rfl, hn, hl, hle, hmint, hb, hs⟩ := enterCall_ok hc h1
      have a : w.bank d v ≤ w1.bank d v ∧ (d ≠ c.xastro → w1.supply d = w.supply d) := by
        refine ⟨?_, fun h => by rw [hs, Function.update_of_ne h]⟩
        rw [hb]
        by_cases h1 : d = c.xastro
        · subst h1
          rw [Function.update_self, credit_apply, credit_apply]
          split <;> omega
        · rw [Function.update_of_ne h1]
          by_cases h2 : d = c.astro
          · subst h2
            rw [Function.update_self, move_apply hl]
            simp [hvu]
          · rw [Function.update_of_ne h2]
      obtain ⟨n', s', hf, _, _, he2, hb2, hs2⟩ := leaveCall_ok hc h2
      have b : w1.bank d v ≤ w2.bank d v ∧ (d ≠ c.xastro → w2.supply d = w1.supply d) := by
        by_cases hvm : v = me
        · obtain ⟨g1, g2⟩ := hd.resolve_left (fun h => h hvm)
          refine ⟨?_, fun h => by rw [hs2, Function.update_of_ne h]⟩
          rw [hb2, Function.update_of_ne g2, Function.update_of_ne g1]
        · exact hleave hvm he2 hb2 hs2
      exact ⟨le_trans a.1 b.1, fun h => (b.2 h).trans (a.2 h)⟩
  | leave u funds r =>
    simp only [exec, bind_ok_iff, require_ok, exists_const, Prod.exists, Except.ok.injEq] at h
    obtain ⟨hu, w1, ret, h1, rfl⟩ := h
    obtain ⟨n, s', rfl, hn, _, he, hb, hs⟩ := leaveCall_ok hc h1
    have hvu : v ≠ u := fun e => hu (e ▸ hv (by simp [Tx.senders, e]))
    exact hleave hvu he hb hs

theorem run_senders_xastro [Fintype A] {me : A} (os : List (Op A)) {s : State A} (hi : Inv me s) {v : A} (hvm : v ≠ me)
    (hv : ∀ o ∈ os, o.signer ≠ v) : s.xastro v ≤ (Staking.run me s os).xastro v := by
  induction os generalizing s with
  | nil => exact le_refl _
  | cons o os ih =>
    simp only [Staking.run, List.foldl_cons, Staking.step]
    have hv' : ∀ o ∈ os, o.signer ≠ v := fun o ho => hv o (by simp [ho])
    cases hx : Staking.exec me s o with
    | error e => simpa [Staking.run] using ih hi hv'
    | ok s1 =>
      have := exec_xastro_other hx (Ne.symm (hv o (by simp))) hvm
      have h2 := ih (exec_inv hi hx).1 hv'
      simp only [commit'_ok]
      exact le_trans this (by simpa [Staking.run] using h2)

end Verif.Staking.Entry
