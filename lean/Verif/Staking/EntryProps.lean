import Verif.Staking.Entry
import Mathlib.Tactic.FinCases

/-!
# C180: messages to the ASTRO staking contract

`w₀` is any chain whose supplies are the sums of the balances, on which the contract was instantiated with
configuration `c`.  `run me c w₀ ts` is the chain after any transactions `ts`.
-/

namespace Verif.Staking.Entry

variable {A D : Type} [DecidableEq A] [DecidableEq D] [Fintype A]

/-- Supplies are the sums of the balances. -/
def Sound (w : World A D) : Prop := ∀ d, w.supply d = ∑ a, w.bank d a

omit [DecidableEq A] [DecidableEq D] in
/-- Right after the instantiation no xASTRO exists, and it is not the deposited token. -/
theorem instantiated {w : World A D} (hs : Sound w) {deposit x : D} {c : Cfg D}
    (h : instantiate w deposit x = .ok c) :
    c = ⟨deposit, x⟩ ∧ c.astro ≠ c.xastro ∧ proj c w = Staking.init (w.bank c.astro) := by
  unfold instantiate at h
  simp only [bind_ok_iff, require_ok, exists_const, Except.ok.injEq] at h
  obtain ⟨h1, h2, rfl⟩ := h
  refine ⟨rfl, ?_, ?_⟩
  · intro e
    have e : deposit = x := e
    rw [e] at h1; exact h1 h2
  · have h3 := hs x
    rw [h2] at h3
    have : w.bank x = fun _ => 0 := by
      funext a
      have := (Finset.sum_eq_zero_iff.1 h3.symm) a (Finset.mem_univ a)
      exact this
    simp [proj, Staking.init, this, h2]

/-- The invariant of the staking model, on the chain. -/
theorem chain_inv {me : A} {w₀ : World A D} (hs : Sound w₀) {deposit x : D} {c : Cfg D}
    (h : instantiate w₀ deposit x = .ok c) (ts : List (Tx A D)) :
    c.astro ≠ c.xastro ∧ Inv me (proj c (run me c w₀ ts)) ∧
      ∑ a, (run me c w₀ ts).bank c.astro a = ∑ a, w₀.bank c.astro a := by
  obtain ⟨_, hc, hp⟩ := instantiated hs h
  obtain ⟨os, e⟩ := run_sim (me := me) hc ts w₀
  refine ⟨hc, ?_, ?_⟩
  · rw [e, hp]; exact (run_inv os (init_inv me _)).1
  · have h1 := run_sum me (proj c w₀) os
    rw [← e] at h1
    exact h1

omit [Fintype A] in
theorem run_chain (me : A) (c : Cfg D) (w : World A D) (ts us : List (Tx A D)) :
    run me c w (ts ++ us) = run me c (run me c w ts) us := by simp [run]

/-- xASTRO is worth at least one ASTRO in every operation's result. -/
theorem par_exec {me : A} {s s' : State A} {o : Op A} (hi : Inv me s) (hp : s.xSupply ≤ s.astro me)
    (h : Staking.exec me s o = .ok s') : s'.xSupply ≤ s'.astro me := by
  obtain ⟨_, hr⟩ := exec_inv hi h
  by_cases h0 : 0 < s.xSupply
  · obtain ⟨_, h2⟩ := hr h0
    have h3 : s.xSupply * s'.xSupply ≤ s.xSupply * s'.astro me := by
      calc s.xSupply * s'.xSupply ≤ s.astro me * s'.xSupply := Nat.mul_le_mul_right _ hp
        _ ≤ s'.astro me * s.xSupply := h2
        _ = _ := Nat.mul_comm _ _
    exact Nat.le_of_mul_le_mul_left h3 h0
  · have h0 : s.xSupply = 0 := by omega
    have first : ∀ {u n r s1 m}, u ≠ me → Staking.enter me s u n r = .ok (s1, m) →
        s1.xSupply ≤ s1.astro me := by
      intro u n r s1 m hu h1
      obtain ⟨sp⟩ := enter_spec hu h1
      have hs := sp.hsup
      have ha := sp.ha me
      simp [Ne.symm hu] at ha
      rcases mintAmount_ok sp.hmint with ⟨_, g1, g2, g3⟩ | ⟨g1, _⟩
      · omega
      · omega
    cases o with
    | enter u n r =>
      simp only [Staking.exec, bind_ok_iff, require_ok, Except.ok.injEq, Prod.exists] at h
      obtain ⟨_, hu, s1, m, h1, rfl⟩ := h
      exact first hu h1
    | leave u n r =>
      simp only [Staking.exec, bind_ok_iff, require_ok, Except.ok.injEq, Prod.exists] at h
      obtain ⟨_, hu, s1, m, h1, rfl⟩ := h
      exact absurd h0 (leave_spec h1).hS
    | enterHookLeave u n r =>
      simp only [Staking.exec, bind_ok_iff, require_ok, Except.ok.injEq, Prod.exists] at h
      obtain ⟨_, hu, s1, m, h1, s2, ret, h2, rfl⟩ := h
      have p1 := first hu h1
      have sp := leave_spec h2
      have g1 := leave_self_ge sp
      have g2 := sp.hret
      have g3 := sp.hsup
      have g4 := sp.hretle
      have g5 := sp.hS
      have g6 : ret * s1.xSupply ≤ m * s1.astro me := by rw [g2]; exact Nat.div_mul_le_self _ _
      have g7 : s1.xSupply * s2.xSupply ≤ s1.xSupply * (s1.astro me - ret) := by
        have e : s2.xSupply = s1.xSupply - m := by omega
        have l : s1.xSupply * (s1.xSupply - m) ≤ s1.astro me * (s1.xSupply - m) := Nat.mul_le_mul_right _ p1
        rw [e]
        refine le_trans l ?_
        rw [Nat.mul_sub, Nat.mul_sub, Nat.mul_comm s1.xSupply ret, Nat.mul_comm (s1.astro me) m,
          Nat.mul_comm s1.xSupply (s1.astro me)]
        omega
      have g8 := Nat.le_of_mul_le_mul_left g7 (Nat.pos_of_ne_zero g5)
      omega
    | sendAstro u n r =>
      simp only [Staking.exec, bind_ok_iff, require_ok, Except.ok.injEq] at h
      obtain ⟨_, hu, l, hl, rfl⟩ := h
      simp [h0]
    | sendX u n r =>
      simp only [Staking.exec, bind_ok_iff, require_ok, Except.ok.injEq] at h
      obtain ⟨_, hu, l, hl, rfl⟩ := h
      simp [h0]

theorem par_run {me : A} (os : List (Op A)) {s : State A} (hi : Inv me s) (hp : s.xSupply ≤ s.astro me) :
    (Staking.run me s os).xSupply ≤ (Staking.run me s os).astro me := by
  induction os generalizing s with
  | nil => exact hp
  | cons o os ih =>
    simp only [Staking.run, List.foldl_cons, Staking.step]
    cases hx : Staking.exec me s o with
    | error e => simpa [Staking.run] using ih hi hp
    | ok s1 => simpa [Staking.run] using ih (exec_inv hi hx).1 (par_exec hi hp hx)

/-! ## The properties -/

/-- **C180 (histories).**  Whatever coins messages carry and whatever hooked contracts do, the balances of ASTRO and xASTRO
and the supply of xASTRO are those of a history of the staking model; so C03 to C06 apply. -/
theorem C180_histories (me : A) (w₀ : World A D) (hs : Sound w₀) (deposit x : D) (c : Cfg D)
    (h : instantiate w₀ deposit x = .ok c) (ts : List (Tx A D)) :
    ∃ os : List (Op A), let s := Staking.run me (Staking.init (w₀.bank deposit)) os
      (run me c w₀ ts).bank deposit = s.astro ∧ (run me c w₀ ts).bank x = s.xastro ∧
      (run me c w₀ ts).supply x = s.xSupply := by
  obtain ⟨rfl, hc, hp⟩ := instantiated hs h
  obtain ⟨os, e⟩ := run_sim (me := me) hc ts w₀
  rw [hp] at e
  exact ⟨os, congrArg State.astro e, congrArg State.xastro e, congrArg State.xSupply e⟩

/-- **C180 (rate).**  From any moment at which xASTRO is outstanding, the ASTRO behind each xASTRO never falls. -/
theorem C180_rate_never_falls (me : A) (w₀ : World A D) (hs : Sound w₀) (deposit x : D) (c : Cfg D)
    (h : instantiate w₀ deposit x = .ok c) (ts us : List (Tx A D)) :
    let w := run me c w₀ ts
    let w' := run me c w₀ (ts ++ us)
    0 < queryTotalShares c w →
      0 < queryTotalShares c w' ∧
      queryTotalDeposit me c w * queryTotalShares c w' ≤ queryTotalDeposit me c w' * queryTotalShares c w := by
  intro w w' h0
  obtain ⟨hc, hi, _⟩ := chain_inv (me := me) hs h ts
  obtain ⟨os, e⟩ := run_sim (me := me) hc us w
  have hr := (run_inv os hi).2 h0
  rw [← e, ← run_chain] at hr
  exact hr

/-- **C180 (par).**  There is never more xASTRO than ASTRO behind it. -/
theorem C180_never_below_par (me : A) (w₀ : World A D) (hs : Sound w₀) (deposit x : D) (c : Cfg D)
    (h : instantiate w₀ deposit x = .ok c) (ts : List (Tx A D)) :
    queryTotalShares c (run me c w₀ ts) ≤ queryTotalDeposit me c (run me c w₀ ts) := by
  obtain ⟨_, hc, hp⟩ := instantiated hs h
  obtain ⟨os, e⟩ := run_sim (me := me) hc ts w₀
  have := par_run (me := me) os (init_inv me (w₀.bank c.astro)) (by simp [Staking.init])
  rw [← hp, ← e] at this
  exact this

/-- **C180 (leaving).**  Whoever holds xASTRO can turn in any positive part of it: the message goes through, the recipient
is paid the share of the ASTRO in the contract, which is at least one for one, and exactly the xASTRO turned in is gone. -/
theorem C180_leave_available (me : A) (w₀ : World A D) (hs : Sound w₀) (deposit x : D) (c : Cfg D)
    (h : instantiate w₀ deposit x = .ok c) (hcap : ∑ a, w₀.bank deposit a < U128) (ts : List (Tx A D))
    (v : A) (hv : v ≠ me) (n : Nat) (r : Option A) :
    let w := run me c w₀ ts
    0 < n → n ≤ w.bank x v →
    ∃ w' paid, exec me c (.leave v [(x, n)] r) w = .ok w' ∧
      paid = n * w.bank deposit me / w.supply x ∧ n ≤ paid ∧
      (∀ a, w'.bank deposit a =
        (if a = me then w.bank deposit a - paid else w.bank deposit a) + (if a = r.getD v then paid else 0)) ∧
      (∀ a, w'.bank x a = if a = v then w.bank x a - n else w.bank x a) ∧ w'.supply x + n = w.supply x := by
  intro w hn hle
  obtain ⟨hc, hi, hsum⟩ := chain_inv (me := me) hs h ts
  have hpar := C180_never_below_par me w₀ hs deposit x c h ts
  obtain ⟨rfl, _, _⟩ := instantiated hs h
  have hi : Inv me (proj ⟨deposit, x⟩ w) := hi
  have hpar : w.supply x ≤ w.bank deposit me := hpar
  have hsum : ∑ a, w.bank deposit a = ∑ a, w₀.bank deposit a := hsum
  clear_value w
  have hcap1 : w.bank deposit me < U128 := by
    have := le_sum (w.bank deposit) me
    omega
  obtain ⟨s', ret, hl⟩ := leave_succeeds hi hcap1 hv hn hle (r.getD v)
  have sp := leave_spec hl
  have hS : w.supply x ≠ 0 := sp.hS
  have hret : ret = n * w.bank deposit me / w.supply x := sp.hret
  have hge : n ≤ ret := by
    rw [hret, Nat.le_div_iff_mul_le (Nat.pos_of_ne_zero hS)]
    exact Nat.mul_le_mul_left _ hpar
  have hr0 : ret ≠ 0 := by omega
  have hn0 : n ≠ 0 := by omega
  have hc : deposit ≠ x := hc
  have h2 := hl
  unfold Staking.leave at h2
  simp only [bind_ok_iff, require_ok, exists_const, Except.ok.injEq, Prod.mk.injEq] at h2
  obtain ⟨_, y, hy, ret', h3, y2, h4, t, h5, l, h6, y3, h7, rfl, rfl⟩ := h2
  simp only [proj] at hy h3 h4 h5 h6 h7
  let w' : World A D :=
    ⟨Function.update (Function.update w.bank deposit l) x y3, Function.update w.supply x t⟩
  have e : exec me ⟨deposit, x⟩ (.leave v [(x, n)] r) w = .ok w' := by
    simp [exec, require, hv, leaveCall, attach_one, pay, hn0, hy, mustPay, h3, burn, h4, h5,
      Function.update_of_ne hc, hr0, h6, Function.update_of_ne (Ne.symm hc), h7, w']
    funext d
    simp only [Function.update_apply]
    split
    · rfl
    · split <;> rfl
  refine ⟨w', ret', e, hret, hge, fun a => ?_, fun a => ?_, ?_⟩
  · have := sp.ha a
    simpa [w', Function.update_of_ne hc, proj] using this
  · have := sp.hx a
    simpa [w', proj] using this
  · have := sp.hsup
    simpa [w', proj] using this

/-- **C180 (entering).**  A message carrying ASTRO the sender has goes through: if nothing is staked yet when it carries
more than 1000, and later when it buys at least one unit of xASTRO.  The recipient gets the ASTRO's share of the supply
rounded down, or at the first stake all but the 1000 the contract keeps. -/
theorem C180_enter_available (me : A) (w₀ : World A D) (hs : Sound w₀) (deposit x : D) (c : Cfg D)
    (h : instantiate w₀ deposit x = .ok c) (hcap : ∑ a, w₀.bank deposit a < U128) (ts : List (Tx A D))
    (u : A) (hu : u ≠ me) (n : Nat) (r : Option A) :
    let w := run me c w₀ ts
    n ≤ w.bank deposit u →
    (if w.supply x = 0 then 1000 < n else w.bank deposit me ≤ n * w.supply x) →
    ∃ w' locked minted, exec me c (.enter u [(deposit, n)] r) w = .ok w' ∧
      (locked, minted) = (if w.supply x = 0 then (1000, n - 1000) else (0, n * w.supply x / w.bank deposit me)) ∧
      0 < minted ∧ minted ≤ n ∧
      (∀ a, w'.bank deposit a =
        (if a = u then w.bank deposit a - n else w.bank deposit a) + (if a = me then n else 0)) ∧
      (∀ a, w'.bank x a =
        w.bank x a + (if a = me then locked else 0) + (if a = r.getD u then minted else 0)) ∧
      w'.supply x = w.supply x + locked + minted := by
  intro w hle hcond
  obtain ⟨hc, hi, hsum⟩ := chain_inv (me := me) hs h ts
  have hpar := C180_never_below_par me w₀ hs deposit x c h ts
  obtain ⟨rfl, _, _⟩ := instantiated hs h
  have hi : Inv me (proj ⟨deposit, x⟩ w) := hi
  have hpar : w.supply x ≤ w.bank deposit me := hpar
  have hsum : ∑ a, w.bank deposit a = ∑ a, w₀.bank deposit a := hsum
  have hc : deposit ≠ x := hc
  clear_value w
  have hcapu : w.bank deposit u < U128 := by
    have := le_sum (w.bank deposit) u
    omega
  have hmint : ∃ locked m, mintAmount (w.bank deposit me) (w.supply x) n = .ok (locked, m) ∧
      (locked, m) = (if w.supply x = 0 then (1000, n - 1000) else (0, n * w.supply x / w.bank deposit me)) ∧
      0 < m ∧ m ≤ n := by
    by_cases h0 : w.supply x = 0
    · rw [if_pos h0] at hcond
      refine ⟨1000, n - 1000, ?_, by simp [h0], by omega, by omega⟩
      have : ¬ n - minimumStake = 0 := by
        have : minimumStake = 1000 := rfl
        omega
      simp only [mintAmount, h0, true_or, if_true, this, if_false]
      rfl
    · rw [if_neg h0] at hcond
      have hD : 0 < w.bank deposit me := by omega
      have hm : 0 < n * w.supply x / w.bank deposit me := Nat.div_pos hcond hD
      have hmn : n * w.supply x / w.bank deposit me ≤ n := by
        apply Nat.div_le_of_le_mul
        rw [Nat.mul_comm]
        exact Nat.mul_le_mul_right _ hpar
      refine ⟨0, n * w.supply x / w.bank deposit me, ?_, by simp [h0], hm, hmn⟩
      have e : mulRatio n (w.supply x) (w.bank deposit me) = .ok (n * w.supply x / w.bank deposit me) := by
        rw [mulRatio_ok]; exact ⟨by omega, by omega, rfl⟩
      have hor : ¬ (w.supply x = 0 ∨ w.bank deposit me = 0) := by omega
      simp only [mintAmount, hor, if_false, e, ok_bind]
      rw [if_neg (by omega)]
  obtain ⟨locked, m, hm, hval, hpos, hmn⟩ := hmint
  have hn0 : n ≠ 0 := by omega
  obtain ⟨l, hl⟩ := move_succeeds (b := me) hle
  have hlm : l me = w.bank deposit me + n := by rw [move_apply hl]; simp [Ne.symm hu]
  obtain ⟨y, hy⟩ := move_succeeds (l := credit (credit (w.bank x) me locked) me m) (a := me) (b := r.getD u)
    (n := m) (by rw [credit_self]; omega)
  let w' : World A D :=
    ⟨Function.update (Function.update w.bank deposit l) x y,
      Function.update w.supply x (w.supply x + locked + m)⟩
  have hm0 : m ≠ 0 := by omega
  have e : exec me ⟨deposit, x⟩ (.enter u [(deposit, n)] r) w = .ok w' := by
    simp [exec, require, hu, enterCall, attach_one, pay, hn0, hl, mustPay, csub, hlm, hm, mint,
      Function.update_of_ne (Ne.symm hc), hm0, hy, w']
  refine ⟨w', locked, m, e, hval, hpos, hmn, fun a => ?_, fun a => ?_, ?_⟩
  · simp [w', Function.update_of_ne hc, move_apply hl]
  · simp only [w', Function.update_self, move_apply hy, credit_apply]
    split <;> split <;> omega
  · simp [w']

omit [Fintype A] in
/-- **C180 (payment).**  `Enter` and `EnterWithHook` that go through carried exactly one coin, of ASTRO and not empty;
`Leave` that goes through carried exactly one coin, of xASTRO and not empty.  Anything else is refused. -/
theorem C180_wrong_funds_refused (me : A) (c : Cfg D) (hc : c.astro ≠ c.xastro) (w w' : World A D) (u : A)
    (funds : List (D × Nat)) (r : Option A) (target : A) (hook : Tx A D) (msg : SelfMsg A) :
    (exec me c (.enter u funds r) w = .ok w' → ∃ n, 0 < n ∧ funds = [(c.astro, n)]) ∧
    (exec me c (.enterWithHook u funds target hook) w = .ok w' → ∃ n, 0 < n ∧ funds = [(c.astro, n)]) ∧
    (exec me c (.enterWithSelfHook u funds msg) w = .ok w' → ∃ n, 0 < n ∧ funds = [(c.astro, n)]) ∧
    (exec me c (.leave u funds r) w = .ok w' → ∃ n, 0 < n ∧ funds = [(c.xastro, n)]) := by
  refine ⟨?_, ?_, ?_, ?_⟩ <;> intro h
  · simp only [exec, bind_ok_iff, Prod.exists] at h
    obtain ⟨_, _, w1, m, h1, _⟩ := h
    obtain ⟨n, _, _, e, hn, _⟩ := enterCall_ok hc h1
    exact ⟨n, by omega, e⟩
  · simp only [exec, bind_ok_iff, Prod.exists] at h
    obtain ⟨_, _, _, _, w1, m, h1, _⟩ := h
    obtain ⟨n, _, _, e, hn, _⟩ := enterCall_ok hc h1
    exact ⟨n, by omega, e⟩
  · simp only [exec, bind_ok_iff, Prod.exists] at h
    obtain ⟨_, _, w1, m, h1, _⟩ := h
    obtain ⟨n, _, _, e, hn, _⟩ := enterCall_ok hc h1
    exact ⟨n, by omega, e⟩
  · simp only [exec, bind_ok_iff, Prod.exists] at h
    obtain ⟨_, _, w1, m, h1, _⟩ := h
    obtain ⟨n, _, e, hn, _⟩ := leaveCall_ok hc h1
    exact ⟨n, by omega, e⟩

omit [Fintype A] in
/-- **C180 (hooks).**  `EnterWithHook` is `Enter` for the hooked contract followed by what that contract does, or nothing
happens at all. -/
theorem C180_hook_all_or_nothing (me : A) (c : Cfg D) (w w' : World A D) (u target : A) (ht : target ≠ me)
    (funds : List (D × Nat)) (hook : Tx A D) :
    exec me c (.enterWithHook u funds target hook) w = .ok w' ↔
      ∃ w₁, exec me c (.enter u funds (some target)) w = .ok w₁ ∧ exec me c hook w₁ = .ok w' := by
  simp only [exec, bind_ok_iff, require_ok, exists_const, Prod.exists, Option.getD_some]
  constructor
  · rintro ⟨hu, _, w1, m, h1, w2, h2, h3⟩
    exact ⟨w2, ⟨hu, w1, m, h1, h2⟩, h3⟩
  · rintro ⟨w2, ⟨hu, w1, m, h1, h2⟩, h3⟩
    exact ⟨hu, ht, w1, m, h1, w2, h2, h3⟩

/-- **C180 (others).**  In any transaction, the balance of an account that does not act in it never falls, in any
denomination; and neither does what the account could redeem its xASTRO for. -/
theorem C180_others_never_lose (me : A) (w₀ : World A D) (hs : Sound w₀) (deposit x : D) (c : Cfg D)
    (h : instantiate w₀ deposit x = .ok c) (ts : List (Tx A D)) (t : Tx A D) (v : A) (hv : v ≠ me)
    (hvt : v ∉ t.senders) :
    let w := run me c w₀ ts
    let w' := run me c w₀ (ts ++ [t])
    (∀ d, w.bank d v ≤ w'.bank d v) ∧
    (0 < w.supply x →
      w.bank x v * w.bank deposit me / w.supply x ≤ w'.bank x v * w'.bank deposit me / w'.supply x) := by
  intro w w'
  obtain ⟨hc, hi, _⟩ := chain_inv (me := me) hs h ts
  obtain ⟨rfl, _, _⟩ := instantiated hs h
  have hw : w' = commit' w (exec me ⟨deposit, x⟩ t w) := by simp [w', w, run, step]
  have hi : Inv me (proj ⟨deposit, x⟩ w) := hi
  clear_value w
  rw [hw]
  cases hx : exec me ⟨deposit, x⟩ t w with
  | error e => exact ⟨fun d => le_refl _, fun _ => le_refl _⟩
  | ok w1 =>
    simp only [commit'_ok]
    refine ⟨fun d => (exec_other hc t hx v (fun g => (hvt g).elim) d (Or.inl hv)).1, fun h0 => ?_⟩
    obtain ⟨os, e, sg⟩ := exec_sim hc t hx
    obtain ⟨_, hr⟩ := run_inv os hi
    rw [← e] at hr
    obtain ⟨hp, hcr⟩ := hr h0
    exact div_le_div_of_cross h0 hp (exec_other hc t hx v (fun g => (hvt g).elim) x (Or.inl hv)).1 hcr

/-- **C180 (kept).**  The contract's balances of all other denominations never fall: such coins sent to it stay there for
good.  And once anything is staked the contract keeps 1000 xASTRO forever. -/
theorem C180_what_the_contract_keeps (me : A) (w₀ : World A D) (hs : Sound w₀) (deposit x : D) (c : Cfg D)
    (h : instantiate w₀ deposit x = .ok c) (ts us : List (Tx A D)) :
    let w := run me c w₀ ts
    let w' := run me c w₀ (ts ++ us)
    (∀ d, d ≠ deposit → d ≠ x → w.bank d me ≤ w'.bank d me ∧ w'.supply d = w.supply d) ∧
    (0 < w.supply x → 1000 ≤ w'.bank x me) := by
  intro w w'
  have hw : w' = run me c w us := run_chain me c w₀ ts us
  have hrate := C180_rate_never_falls me w₀ hs deposit x c h ts us
  obtain ⟨hc, hi', hsum⟩ := chain_inv (me := me) hs h (ts ++ us)
  obtain ⟨rfl, _, _⟩ := instantiated hs h
  constructor
  · rw [hw]
    clear_value w
    clear hrate hi' hw w' hsum
    intro d h1 h2
    induction us generalizing w with
    | nil => exact ⟨le_refl _, rfl⟩
    | cons t us ih =>
      have := ih (step me ⟨deposit, x⟩ w t)
      have hstep : w.bank d me ≤ (step me ⟨deposit, x⟩ w t).bank d me ∧
          (step me ⟨deposit, x⟩ w t).supply d = w.supply d := by
        unfold step
        cases hx : exec me ⟨deposit, x⟩ t w with
        | error e => exact ⟨le_refl _, rfl⟩
        | ok w1 =>
          obtain ⟨a, b⟩ := exec_other hc t hx me (fun _ => rfl) d (Or.inr ⟨h1, h2⟩)
          exact ⟨a, b h2⟩
      exact ⟨le_trans hstep.1 this.1, this.2.trans hstep.2⟩
  · intro h0
    obtain ⟨h3, _⟩ := hrate h0
    have hi' : Inv me (proj ⟨deposit, x⟩ w') := hi'
    have h3 : 0 < w'.supply x := h3
    rcases hi'.hlock with g | g
    · have g : w'.supply x = 0 := g
      omega
    · exact g.1

/-- A chain with an account 1 holding 50000 ASTRO (denomination 0) and a contract 2, 0 being the staking contract.  The first
stake is made through a hook: the hooked contract redeems 3000 of the xASTRO (denomination 1) it got, tries to redeem more
than it has and carries on, and sends 500 back.  A self-hook then stakes and redeems at once; a donation raises the rate. -/
def demo : World (Fin 3) (Fin 3) where
  bank := fun d a => if d = 0 ∧ a = 1 then 50000 else if d = 2 ∧ a = 2 then 7 else 0
  supply := fun d => if d = 0 then 50000 else if d = 2 then 7 else 0

def demoTxs : List (Tx (Fin 3) (Fin 3)) :=
  [ .enterWithHook 1 [(0, 10000)] 2
      (.seq (.leave 2 [(1, 3000)] none) (.seq (.attempt (.leave 2 [(1, 9000)] none)) (.send 2 [(1, 500), (2, 7)] 1))),
    .enterWithSelfHook 1 [(0, 2000)] (.leave (some 1)),
    .send 1 [(0, 7000), (2, 3)] 0,
    .enter 1 [(0, 100), (2, 1)] none,
    .enter 1 [(0, 3000)] none,
    .enterWithSelfHook 1 [(0, 2000)] (.enter none) ]

example : Sound demo := by
  intro d
  fin_cases d <;> decide

example : okAnd (instantiate demo 0 1) (fun c => c.astro == 0 && c.xastro == 1) = true := by decide

/-- After it, the last and the message with a second coin having failed. -/
example :
    (fun w : World (Fin 3) (Fin 3) =>
      [w.bank 0 0, w.bank 0 1, w.bank 0 2, w.bank 1 0, w.bank 1 1, w.bank 1 2, w.bank 2 0, w.supply 1])
        (run 0 ⟨0, 1⟩ demo demoTxs) =
      [17000, 30000, 3000, 1000, 2000, 5500, 3, 8500] := by
  decide +kernel

example : (2 : Fin 3) ∉ (Tx.enter 1 [(0, 3000)] none : Tx (Fin 3) (Fin 3)).senders := by decide

end Verif.Staking.Entry
