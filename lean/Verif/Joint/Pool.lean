import Verif.Joint.AutoStake
import Verif.XYK.History
import Verif.Incentives.Lp
import Verif.Incentives.Owed

/-!
# A pair and the incentives contract sharing the LP token (C130)

Histories in which every user may trade, provide (with and without automatic staking), withdraw, stake, unstake, claim
and send LP tokens around, in any order.
-/

namespace Verif.Joint

open Verif

variable {A I : Type} [DecidableEq A] [Fintype I] [DecidableEq I]

/-- A constant product pair and the pool of its LP token in the incentives contract, with the running totals of
`Incentives/Spec.lean`.  Both contracts use the one ledger of LP tokens of the bank module (`pair.lp`, `inc.st.lp`). -/
structure World (I A : Type) where
  pair : XYK.State A
  inc : Incentives.Run I A

/-- What can happen: a transaction with the pair (or a transfer), a provision with automatic staking, something in the
incentives contract. -/
inductive Ev (I A : Type)
  | pair (o : XYK.Op A)
  | auto (now : Nat) (sender : A) (d0 d1 : Nat) (tol minLp : Option Nat) (receiver : A)
  | inc (o : Incentives.Op I A)

/-- Whose tokens an event of the incentives contract may take: the signer's. -/
def incSigner : Incentives.Op I A → Option A
  | .deposit sender _ _ => some sender
  | .withdraw user _ => some user
  | .claim user => some user
  | .sendLp src _ _ => some src
  | _ => none

/-- The signer of an event, if it concerns LP tokens. -/
def Ev.signer : Ev I A → Option A
  | .pair o => some o.signer
  | .auto _ u _ _ _ _ _ => some u
  | .inc o => incSigner o

/-- The pair wrote the ledger `lp`; what the incentives contract `a` received that way is noted as donated. -/
def World.afterPair (w : World I A) (a : A) (s : XYK.State A) : World I A :=
  ⟨s, ⟨{ w.inc.st with lp := s.lp },
    { w.inc.books with donated := w.inc.books.donated + (s.lp a - w.inc.st.lp a) }⟩⟩

/-- One event; failed calls change nothing; neither contract signs anything. -/
def step (k : Link A) (me a : A) (w : World I A) : Ev I A → World I A
  | .pair o =>
    match (if o.signer = a then .error .unauthorized else XYK.exec me w.pair o) with
    | .ok s => w.afterPair a s
    | .error _ => w
  | .auto now sender d0 d1 tol minLp receiver =>
    match (if sender = a ∨ sender = me then .error .unauthorized else
      provideXyk k me w.pair w.inc.st now sender d0 d1 tol minLp receiver) with
    | .ok (s, i, share, paid) => ⟨s, ⟨i, { w.inc.books.pay receiver paid with
        deposited := credit w.inc.books.deposited receiver share }⟩⟩
    | .error _ => w
  | .inc o =>
    if incSigner o = some me then w else
      let r := Incentives.step a w.inc o
      ⟨{ w.pair with lp := r.st.lp }, r⟩

/-- A history. -/
def run (k : Link A) (me a : A) (w : World I A) (es : List (Ev I A)) : World I A := es.foldl (step k me a) w

/-- A pair and a pool that were just created. -/
def World.start (bal : Bool → A → Nat) (now : Nat) : World I A :=
  ⟨XYK.init bal, Incentives.start (fun _ => 0) now⟩

/-! ## Invariant -/

/-- Both contracts' invariants, on one ledger. -/
structure WInv [Fintype A] (me a : A) (w : World I A) : Prop where
  same : w.pair.lp = w.inc.st.lp
  pair : XYK.LpInv me w.pair
  inc : Incentives.LpInv a w.inc

omit [DecidableEq I] in
/-- No transaction with the pair lowers an LP balance other than the signer's. -/
theorem exec_lp_mono {me : A} {s s' : XYK.State A} {o : XYK.Op A} (h : XYK.exec me s o = .ok s') {u : A}
    (hu : u ≠ o.signer) : s.lp u ≤ s'.lp u := by
  have k := XYK.exec_cases h
  cases o with
  | provide now v d0 d1 tol minLp r =>
    obtain ⟨hv, x, k⟩ := k
    rw [(XYK.provide_spec hv k).hlp, credit_apply, credit_apply]
    split <;> split <;> omega
  | withdraw now v n mins =>
    obtain ⟨hv, ⟨x, y⟩, k⟩ := k
    rw [(XYK.withdraw_spec hv k).hlp, if_neg (show ¬ u = v from hu)]
  | swap now v i n b m r f =>
    obtain ⟨hv, x, k⟩ := k
    rw [(XYK.swap_spec hv k).hlp]
  | send i v v' n =>
    obtain ⟨hv, l, k, rfl⟩ := k
    exact le_refl _
  | sendLp v v' n =>
    obtain ⟨hv, l, k, rfl⟩ := k
    exact PCL.move_other hu k

omit [DecidableEq I] in
/-- No transaction with the pair lowers a balance of a pool asset other than the signer's and the pair's. -/
theorem exec_bal_mono {me : A} {s s' : XYK.State A} {o : XYK.Op A} (h : XYK.exec me s o = .ok s') {u : A}
    (hu : u ≠ o.signer) (hm : u ≠ me) (i : Bool) : s.bal i u ≤ s'.bal i u := by
  have k := XYK.exec_cases h
  cases o with
  | provide now v d0 d1 tol minLp r =>
    obtain ⟨hv, x, k⟩ := k
    have sp := XYK.provide_spec hv k
    cases i
    · exact PCL.move_other hu sp.hb0
    · exact PCL.move_other hu sp.hb1
  | withdraw now v n mins =>
    obtain ⟨hv, ⟨x, y⟩, k⟩ := k
    have sp := XYK.withdraw_spec hv k
    cases i
    · exact PCL.move_other hm sp.hb0
    · exact PCL.move_other hm sp.hb1
  | swap now v j n b m r f =>
    obtain ⟨hv, x, k⟩ := k
    have sp := XYK.swap_spec hv k
    obtain ⟨l1, l2, h1, h2, h3⟩ := sp.hba
    have e1 := PCL.move_other hu sp.hbo
    have e2 := Nat.le_trans (PCL.move_other hm h1) (Nat.le_trans (PCL.sendOpt_other hm h2) (PCL.sendOpt_other hm h3))
    cases i <;> cases j <;> simp_all
  | send j v v' n =>
    obtain ⟨hv, l, k, rfl⟩ := k
    simp only
    split
    · subst_vars; exact PCL.move_other hu k
    · exact le_refl _
  | sendLp v v' n =>
    obtain ⟨hv, l, k, rfl⟩ := k
    exact le_refl _

/-- How an event of the incentives contract changes the ledger of LP tokens. -/
theorem inc_lp (a : A) (r : Incentives.Run I A) (o : Incentives.Op I A) :
    (Incentives.step a r o).st.lp = r.st.lp ∨ ∃ x y n, move r.st.lp x y n = .ok (Incentives.step a r o).st.lp ∧
      (x = a ∨ incSigner o = some x) := by
  cases o with
  | deposit sender staker n =>
    unfold Incentives.step
    simp only
    split
    · rename_i s x heq
      split at heq
      · simp at heq
      unfold Incentives.deposit at heq
      simp only [bind_ok_iff] at heq
      obtain ⟨lp, hlp, hd⟩ := heq
      right
      refine ⟨sender, a, n, ?_, Or.inr rfl⟩
      split at hd <;> simp only [bind_ok_iff, Except.ok.injEq, Prod.mk.injEq] at hd
      · obtain ⟨_, _, rfl, _⟩ := hd; exact hlp
      · obtain ⟨_, _, _, _, _, _, rfl, _⟩ := hd; exact hlp
    · exact Or.inl rfl
  | withdraw user n =>
    unfold Incentives.step
    simp only
    split
    · rename_i s x heq
      split at heq
      · simp at heq
      unfold Incentives.withdraw at heq
      simp only [bind_ok_iff, Except.ok.injEq, Prod.mk.injEq] at heq
      obtain ⟨_, _, _, _, _, _, _, _, lp, hlp, rfl, _⟩ := heq
      exact Or.inr ⟨a, user, n, hlp, Or.inl rfl⟩
    · exact Or.inl rfl
  | claim user =>
    unfold Incentives.step
    simp only
    split
    · rename_i s x heq
      unfold Incentives.claim at heq
      simp only [bind_ok_iff, Except.ok.injEq, Prod.mk.injEq] at heq
      obtain ⟨_, _, _, _, rfl, _⟩ := heq
      exact Or.inl rfl
    · exact Or.inl rfl
  | incentivize X amount periods isAstro =>
    unfold Incentives.step
    simp only
    split
    · rename_i s heq
      left
      unfold Incentives.incentivize at heq
      simp only [bind_ok_iff, Except.ok.injEq] at heq
      obtain ⟨_, _, _, _, rfl⟩ := heq
      rfl
    · exact Or.inl rfl
  | removeReward X bypass =>
    unfold Incentives.step
    simp only
    split
    · rename_i s x heq
      left
      unfold Incentives.removeReward at heq
      simp only [bind_ok_iff, Except.ok.injEq, Prod.mk.injEq, Prod.exists] at heq
      obtain ⟨_, _, _, _, rfl, _⟩ := heq
      rfl
    · exact Or.inl rfl
  | setAstro rps => exact Or.inl rfl
  | disableAstro => exact Or.inl rfl
  | touch => exact Or.inl rfl
  | wait d => exact Or.inl rfl
  | sendLp src dst n =>
    unfold Incentives.step
    simp only
    split
    · rename_i l heq
      split at heq
      · simp at heq
      exact Or.inr ⟨src, dst, n, heq, Or.inr rfl⟩
    · exact Or.inl rfl

/-- Nobody but the staker lowers their position. -/
theorem inc_amt [Fintype A] {a : A} {r : Incentives.Run I A} (hi : Incentives.LpInv a r) (o : Incentives.Op I A) {u : A}
    (hu : incSigner o ≠ some u) : Incentives.amt r.st.pool u ≤ Incentives.amt (Incentives.step a r o).st.pool u := by
  have h1 := hi.own u
  have h2 := (Incentives.step_lpInv hi o).own u
  cases o with
  | deposit sender staker n =>
    unfold Incentives.step at h2 ⊢
    simp only at h2 ⊢
    split at h2
    · rename_i s x heq
      simp only [Incentives.Books.pay, credit_apply] at h2
      simp only
      split at h2 <;> omega
    · exact le_refl _
  | withdraw user n =>
    have : Incentives.Untouched u (.withdraw user n : Incentives.Op I A) := fun h => hu (by rw [h]; rfl)
    unfold Incentives.amt
    rw [Incentives.users_untouched this]
  | claim user =>
    have : Incentives.Untouched u (.claim user : Incentives.Op I A) := fun h => hu (by rw [h]; rfl)
    unfold Incentives.amt
    rw [Incentives.users_untouched this]
  | _ =>
    unfold Incentives.amt
    rw [Incentives.users_untouched (by trivial)]

theorem winv_inc [Fintype A] {me a : A} (hne : me ≠ a) {w : World I A} (hw : WInv me a w)
    {o : Incentives.Op I A} (hs : incSigner o ≠ some me) :
    WInv me a ⟨{ w.pair with lp := (Incentives.step a w.inc o).st.lp }, Incentives.step a w.inc o⟩ := by
  refine ⟨rfl, ?_, Incentives.step_lpInv hw.inc o⟩
  obtain ⟨h1, h2⟩ := hw.pair
  rcases inc_lp a w.inc o with h | ⟨x, y, n, h, hx⟩
  · unfold XYK.LpInv
    simp only [h, ← hw.same]
    exact ⟨h1, h2⟩
  · unfold XYK.LpInv
    have hsum := sum_move h
    rw [← hw.same] at hsum h
    simp only [hsum]
    refine ⟨h1, h2.imp id fun h3 => ?_⟩
    have : me ≠ x := by
      rcases hx with hx | hx
      · rw [hx]; exact hne
      · intro h; rw [h] at hs; exact hs hx
    exact Nat.le_trans h3 (PCL.move_other this h)

omit [DecidableEq A] [Fintype I] [DecidableEq I] in
theorem winv_afterPair [Fintype A] {me a : A} {w : World I A} (hw : WInv me a w) {s : XYK.State A} (hs : XYK.LpInv me s)
    (ha : w.pair.lp a ≤ s.lp a) : WInv me a (w.afterPair a s) := by
  refine ⟨rfl, hs, ⟨hw.inc.last, ?_, hw.inc.own, hw.inc.astro⟩⟩
  have h1 := hw.inc.held
  rw [hw.same] at ha
  show s.lp a = w.inc.st.pool.totalLp + (w.inc.books.donated + (s.lp a - w.inc.st.lp a))
  omega

/-- Automatic staking is the provision followed by a deposit by the pair. -/
theorem auto_eq {k : Link A} {me a : A} (hk : k.incentives = some a) (hne : me ≠ a) {w : World I A} {now : Nat} {sender : A}
    {d0 d1 : Nat} {tol minLp : Option Nat} {receiver : A} {s : XYK.State A} {i : Incentives.State I A} {share : Nat}
    {paid : Incentives.Paid I}
    (h : provideXyk k me w.pair w.inc.st now sender d0 d1 tol minLp receiver = .ok (s, i, share, paid)) :
    ∃ s1, XYK.provide me w.pair now sender d0 d1 tol minLp me = .ok (s1, share) ∧
      s = { s1 with lp := i.lp } ∧ share ≠ 0 ∧ move s1.lp me a share = .ok i.lp ∧
      Incentives.step a ⟨{ w.inc.st with lp := s1.lp }, w.inc.books⟩ (.deposit me receiver share) =
        ⟨i, { w.inc.books.pay receiver paid with deposited := credit w.inc.books.deposited receiver share }⟩ := by
  unfold provideXyk at h
  simp only [bind_ok_iff, Except.ok.injEq, Prod.mk.injEq, Prod.exists] at h
  obtain ⟨s1, sh, hp, i1, p1, hs, rfl, rfl, rfl, rfl⟩ := h
  unfold stake at hs
  simp only [bind_ok_iff, orErr_ok, require_ok, exists_const] at hs
  obtain ⟨a', ha', hs0, hr, hd⟩ := hs
  rw [hk] at ha'
  obtain rfl := Option.some.inj ha'
  refine ⟨s1, hp, rfl, hs0, ?_, ?_⟩
  · unfold Incentives.deposit at hd
    simp only [bind_ok_iff] at hd
    obtain ⟨lp, hlp, hd⟩ := hd
    split at hd <;> simp only [bind_ok_iff, Except.ok.injEq, Prod.mk.injEq] at hd
    · obtain ⟨_, _, rfl, _⟩ := hd; exact hlp
    · obtain ⟨_, _, _, _, _, _, rfl, _⟩ := hd; exact hlp
  · unfold Incentives.step
    simp only [if_neg hne, hd]

theorem winv_step [Fintype A] {k : Link A} {me a : A} (hk : k.incentives = some a) (hne : me ≠ a) {w : World I A}
    (hw : WInv me a w) (e : Ev I A) : WInv me a (step k me a w e) := by
  cases e with
  | pair o =>
    unfold step
    simp only
    split
    · rename_i s heq
      split at heq
      · simp at heq
      rename_i hsig
      exact winv_afterPair hw (XYK.lpInv_exec hw.pair heq).1 (exec_lp_mono heq (Ne.symm hsig))
    · exact hw
  | inc o =>
    unfold step
    simp only
    split
    · exact hw
    · rename_i h
      exact winv_inc hne hw h
  | auto now sender d0 d1 tol minLp receiver =>
    unfold step
    simp only
    split
    · rename_i s i share paid heq
      split at heq
      · simp at heq
      rename_i hsig
      obtain ⟨s1, hp, rfl, hs0, hmv, hst⟩ := auto_eq hk hne heq
      have hex : XYK.exec me w.pair (.provide now sender d0 d1 tol minLp me) = .ok s1 := by
        unfold XYK.exec
        rw [show require ((XYK.Op.provide now sender d0 d1 tol minLp me).signer ≠ me) .unauthorized = .ok () from
          if_pos (fun h => hsig (Or.inr h))]
        simp only [ok_bind, hp]
      have hsp := XYK.provide_spec (fun h => hsig (Or.inr h)) hp
      have hla : s1.lp a = w.inc.st.lp a := by
        rw [hsp.hlp, credit_apply, credit_apply, if_neg (Ne.symm hne), if_neg (Ne.symm hne), hw.same]
      have hi1 := XYK.lpInv_exec hw.pair hex
      have hw1 : WInv me a (⟨s1, ⟨{ w.inc.st with lp := s1.lp }, w.inc.books⟩⟩ : World I A) := by
        refine ⟨rfl, hi1.1, ⟨hw.inc.last, ?_, hw.inc.own, hw.inc.astro⟩⟩
        show s1.lp a = _
        rw [hla]; exact hw.inc.held
      have hinc := Incentives.step_lpInv hw1.inc (.deposit me receiver share)
      rw [hst] at hinc
      refine ⟨rfl, ?_, hinc⟩
      obtain ⟨h1, _⟩ := hw1.pair
      obtain ⟨_, h3⟩ := hw.pair
      refine ⟨?_, Or.inr ?_⟩
      · show s1.supply = ∑ u, i.lp u
        rw [sum_move hmv]; exact h1
      · show 1000 ≤ i.lp me
        have e := move_apply hmv me
        rw [if_pos rfl, if_neg hne] at e
        rw [e, hsp.hlp, credit_self, credit_self]
        rcases h3 with h3 | h3
        · rw [if_pos h3]; omega
        · omega
    · exact hw

theorem winv_run [Fintype A] {k : Link A} {me a : A} (hk : k.incentives = some a) (hne : me ≠ a) :
    ∀ (es : List (Ev I A)) (w : World I A), WInv me a w → WInv me a (run k me a w es)
  | [], _, h => h
  | e :: es, _, h => winv_run hk hne es _ (winv_step hk hne h e)

omit [Fintype I] [DecidableEq I] in
theorem winv_start [Fintype A] (me a : A) (bal : Bool → A → Nat) (now : Nat) : WInv me a (World.start bal now : World I A) :=
  ⟨rfl, XYK.lpInv_init me bal, Incentives.start_lpInv a _ now rfl⟩

/-! ## The property -/

/-- **C130, accounts.**  After every history: the LP supply is the sum of all LP balances, the incentives contract holds
at least the sum of all positions (exactly, but for LP tokens somebody sent to it), every position is what was
deposited for the staker less what they withdrew, and so wallets and positions of the users together never exceed the
supply. -/
theorem C130_accounts [Fintype A] (k : Link A) (me a : A) (hk : k.incentives = some a) (hne : me ≠ a)
    (bal : Bool → A → Nat) (now : Nat) (es : List (Ev I A)) :
    let w := run k me a (World.start bal now) es
    w.pair.lp = w.inc.st.lp ∧ w.pair.supply = ∑ u, w.pair.lp u ∧
    w.pair.lp a = (∑ u, Incentives.amt w.inc.st.pool u) + w.inc.books.donated ∧
    (∀ u, w.inc.books.withdrawn u + Incentives.amt w.inc.st.pool u = w.inc.books.deposited u) ∧
    (∑ u ∈ Finset.univ.erase a, w.pair.lp u) + (∑ u, Incentives.amt w.inc.st.pool u) + w.inc.books.donated =
      w.pair.supply := by
  intro w
  have hw : WInv me a w := winv_run hk hne es _ (winv_start me a bal now)
  obtain ⟨E, hA, _⟩ := hw.inc.astro
  have hheld := hw.inc.held
  rw [← hA.total] at hheld
  have hla : w.pair.lp a = (∑ u, Incentives.amt w.inc.st.pool u) + w.inc.books.donated := by rw [hw.same]; exact hheld
  refine ⟨hw.same, hw.pair.1, hla, hw.inc.own, ?_⟩
  have hs := Finset.add_sum_erase Finset.univ w.pair.lp (Finset.mem_univ a)
  rw [hw.pair.1]
  omega

/-- **C130, nobody else's.**  An event lowers nobody's LP balance, nobody's position and nobody's balance of a pool
asset, except those of its signer (and the two contracts' own balances). -/
theorem C130_others_never_lose [Fintype A] (k : Link A) (me a : A) (hk : k.incentives = some a) (hne : me ≠ a)
    (bal : Bool → A → Nat) (now : Nat) (es : List (Ev I A)) (e : Ev I A) (u : A) (hu : e.signer ≠ some u) (hm : u ≠ me)
    (ha : u ≠ a) :
    let w := run k me a (World.start bal now) es
    let w' := step k me a w e
    w.pair.lp u ≤ w'.pair.lp u ∧ Incentives.amt w.inc.st.pool u ≤ Incentives.amt w'.inc.st.pool u ∧
      ∀ i, w.pair.bal i u ≤ w'.pair.bal i u := by
  intro w w'
  have hw : WInv me a w := winv_run hk hne es _ (winv_start me a bal now)
  simp only [w']
  clear w'
  clear_value w
  cases e with
  | pair o =>
    unfold step
    simp only
    have hu' : u ≠ o.signer := fun h => hu (by rw [h]; rfl)
    split
    · rename_i s heq
      split at heq
      · simp at heq
      exact ⟨exec_lp_mono heq hu', le_refl _, exec_bal_mono heq hu' hm⟩
    · exact ⟨le_refl _, le_refl _, fun _ => le_refl _⟩
  | inc o =>
    unfold step
    simp only
    split
    · exact ⟨le_refl _, le_refl _, fun _ => le_refl _⟩
    · refine ⟨?_, inc_amt hw.inc o hu, fun _ => le_refl _⟩
      rw [hw.same]
      rcases inc_lp a w.inc o with h | ⟨x, y, n, h, hx⟩
      · exact (congrFun h u).symm.le
      · refine PCL.move_other ?_ h
        rcases hx with rfl | hx
        · exact ha
        · intro hh; rw [hh] at hu; exact hu hx
  | auto now sender d0 d1 tol minLp receiver =>
    unfold step
    simp only
    have hu' : u ≠ sender := fun h => hu (by rw [h]; rfl)
    split
    · rename_i s i share paid heq
      split at heq
      · simp at heq
      rename_i hsig
      obtain ⟨s1, hp, rfl, hs0, hmv, hst⟩ := auto_eq hk hne heq
      have hsp := XYK.provide_spec (fun h => hsig (Or.inr h)) hp
      refine ⟨?_, ?_, ?_⟩
      · refine Nat.le_trans ?_ (PCL.move_other hm hmv)
        rw [hsp.hlp, credit_apply, credit_apply, if_neg hm, if_neg hm]
      · by_cases hr : u = receiver
        · subst hr
          obtain ⟨pl, _, _, _, _, sp⟩ := C129_xyk_auto_stake heq
          rw [sp.position]; omega
        · obtain ⟨pl, _, _, _, _, sp⟩ := C129_xyk_auto_stake heq
          unfold Incentives.amt
          rw [sp.others u hr]
      · intro j
        cases j
        · exact PCL.move_other hu' hsp.hb0
        · exact PCL.move_other hu' hsp.hb1
    · exact ⟨le_refl _, le_refl _, fun _ => le_refl _⟩

/-- **C130, claims are covered.**  What the users' LP tokens, in wallets and staked, can be redeemed for is covered by
the reserves of the pair, all together. -/
theorem C130_claims_covered [Fintype A] (k : Link A) (me a : A) (hk : k.incentives = some a) (hne : me ≠ a)
    (bal : Bool → A → Nat) (now : Nat) (es : List (Ev I A)) (c0 c1 : A → Nat) :
    let w := run k me a (World.start bal now) es
    (∀ u, u ≠ a → XYK.queryShare me w.pair (w.pair.lp u + Incentives.amt w.inc.st.pool u) = .ok (c0 u, c1 u)) →
    (∑ u ∈ Finset.univ.erase a, c0 u) ≤ w.pair.bal false me ∧ (∑ u ∈ Finset.univ.erase a, c1 u) ≤ w.pair.bal true me := by
  intro w hq
  have hacc := C130_accounts k me a hk hne bal now es (I := I)
  obtain ⟨_, _, _, _, hsum⟩ := hacc
  change (∑ u ∈ Finset.univ.erase a, w.pair.lp u) + (∑ u, Incentives.amt w.inc.st.pool u) + w.inc.books.donated =
      w.pair.supply at hsum
  clear_value w
  have hq' : ∀ u, u ≠ a → XYK.shareInAsset (w.pair.bal false me) (w.pair.lp u + Incentives.amt w.inc.st.pool u)
        w.pair.supply = .ok (c0 u) ∧
      XYK.shareInAsset (w.pair.bal true me) (w.pair.lp u + Incentives.amt w.inc.st.pool u) w.pair.supply =
        .ok (c1 u) := by
    intro u hu
    have := hq u hu
    unfold XYK.queryShare at this
    simp only [bind_ok_iff, Except.ok.injEq, Prod.mk.injEq] at this
    obtain ⟨x, hx, y, hy, rfl, rfl⟩ := this
    exact ⟨hx, hy⟩
  rcases Nat.eq_zero_or_pos w.pair.supply with hz | hpos
  · have h0 : ∀ p n r, XYK.shareInAsset p n 0 = .ok r → r = 0 := by
      intro p n r h
      unfold XYK.shareInAsset at h
      simp only [if_true, bind_ok_iff, Except.ok.injEq, u128_ok, mulDec] at h
      obtain ⟨x, rfl, _, rfl⟩ := h
      simp
    rw [hz] at hq'
    rw [Finset.sum_eq_zero (fun u hu => h0 _ _ _ (hq' u (Finset.ne_of_mem_erase hu)).1),
      Finset.sum_eq_zero (fun u hu => h0 _ _ _ (hq' u (Finset.ne_of_mem_erase hu)).2)]
    exact ⟨Nat.zero_le _, Nat.zero_le _⟩
  · have key : ∀ (p : Nat) (c : A → Nat),
        (∀ u, u ≠ a → c u * w.pair.supply ≤ p * (w.pair.lp u + Incentives.amt w.inc.st.pool u)) →
        ∑ u ∈ Finset.univ.erase a, c u ≤ p := by
      intro p c hc
      have h1 : (∑ u ∈ Finset.univ.erase a, c u) * w.pair.supply ≤ p * w.pair.supply := by
        rw [Finset.sum_mul]
        calc ∑ u ∈ Finset.univ.erase a, c u * w.pair.supply
            ≤ ∑ u ∈ Finset.univ.erase a, p * (w.pair.lp u + Incentives.amt w.inc.st.pool u) :=
              Finset.sum_le_sum (fun u hu => hc u (Finset.ne_of_mem_erase hu))
          _ = p * ∑ u ∈ Finset.univ.erase a, (w.pair.lp u + Incentives.amt w.inc.st.pool u) := by rw [Finset.mul_sum]
          _ ≤ p * w.pair.supply := by
            apply Nat.mul_le_mul_left
            rw [Finset.sum_add_distrib]
            have : ∑ u ∈ Finset.univ.erase a, Incentives.amt w.inc.st.pool u ≤ ∑ u, Incentives.amt w.inc.st.pool u :=
              Finset.sum_le_sum_of_subset (Finset.erase_subset _ _)
            omega
      exact Nat.le_of_mul_le_mul_right h1 hpos
    exact ⟨key _ _ fun u hu => (XYK.shareInAsset_ok (by omega) (hq' u hu).1).2,
      key _ _ fun u hu => (XYK.shareInAsset_ok (by omega) (hq' u hu).2).2⟩

omit [DecidableEq A] [DecidableEq I] in
/-- If `PendingRewards` answers, the rewards can be paid. -/
theorem payAll_of_pending {s : Incentives.State I A} {u : A} {x : Incentives.User I} (hx : s.pool.users u = some x)
    (h1 : ∀ X, ∃ n, Incentives.pending s u X = .ok n) (h2 : ∃ n, Incentives.pendingAstro s u = .ok n) :
    ∃ pay, Incentives.payAll (Incentives.update s.now s.pool).1 (Incentives.update s.now s.pool).2 x = .ok pay := by
  obtain ⟨n, h2⟩ := h2
  unfold Incentives.pending at h1
  unfold Incentives.pendingAstro at h2
  rw [hx] at h1 h2
  simp only at h1 h2
  unfold Incentives.payAll
  have h3 : ∀ X, Incentives.isOk (Incentives.payExt (Incentives.update s.now s.pool).1
      (Incentives.update s.now s.pool).2 x X) = true := by
    intro X; obtain ⟨m, hm⟩ := h1 X; rw [hm]; rfl
  rw [show require (∀ X, Incentives.isOk (Incentives.payExt (Incentives.update s.now s.pool).1
      (Incentives.update s.now s.pool).2 x X) = true) .overflow = .ok () from if_pos h3, h2]
  exact ⟨_, rfl⟩

/-- **C130, redeeming.**  After every history a staker whose rewards can be computed can withdraw any part of their
position and redeem it with the pair for what the `Share` query answered before, whoever else holds or stakes LP
tokens (the pair's price accumulators must not overflow). -/
theorem C130_redeem [Fintype A] (k : Link A) (me a : A) (hk : k.incentives = some a) (hne : me ≠ a)
    (bal : Bool → A → Nat) (now : Nat) (es : List (Ev I A)) (u : A) (n t r0 r1 : Nat) (hm : u ≠ me) (ha : u ≠ a)
    (hn : n ≠ 0) :
    let w := run k me a (World.start bal now) es
    n ≤ Incentives.amt w.inc.st.pool u →
    (∀ X, ∃ m, Incentives.pending w.inc.st u X = .ok m) → (∃ m, Incentives.pendingAstro w.inc.st u = .ok m) →
    XYK.queryShare me w.pair n = .ok (r0, r1) →
    (∃ tw, XYK.accumulate w.pair.twap t (w.pair.bal false me) (w.pair.bal true me) = .ok tw) →
    let w' := run k me a w [.inc (.withdraw u n), .pair (.withdraw t u n none)]
    Incentives.amt w'.inc.st.pool u + n = Incentives.amt w.inc.st.pool u ∧ w'.pair.lp u = w.pair.lp u ∧
      w'.pair.bal false u = w.pair.bal false u + r0 ∧ w'.pair.bal true u = w.pair.bal true u + r1 := by
  intro w hamt hp1 hp2 hq ⟨tw, htw⟩
  have hw : WInv me a w := winv_run hk hne es _ (winv_start me a bal now)
  simp only [run, List.foldl_cons, List.foldl_nil]
  clear_value w
  clear hk
  obtain ⟨E, hA, _⟩ := hw.inc.astro
  -- unstaking
  cases hx : w.inc.st.pool.users u with
  | none => unfold Incentives.amt at hamt; rw [hx] at hamt; simp only at hamt; omega
  | some x =>
  have hxa : Incentives.amt w.inc.st.pool u = x.amount := Incentives.amt_some hx
  obtain ⟨pay, hpay⟩ := payAll_of_pending hx hp1 hp2
  have htot : (Incentives.update w.inc.st.now w.inc.st.pool).1.totalLp = w.inc.st.pool.totalLp :=
    (Incentives.update_fields w.inc.st.now w.inc.st.pool).2.1
  have hle : Incentives.amt w.inc.st.pool u ≤ w.inc.st.pool.totalLp := by
    rw [← hA.total]; exact Finset.single_le_sum (fun _ _ => Nat.zero_le _) (Finset.mem_univ u)
  have hheld := hw.inc.held
  obtain ⟨l1, hl1⟩ := move_succeeds (l := w.inc.st.lp) (a := a) (b := u) (n := n) (by omega)
  have hwd : ∃ i pd, Incentives.withdraw a w.inc.st u n = .ok (i, pd) ∧ i.lp = l1 := by
    unfold Incentives.withdraw
    rw [hx]
    simp only [orErr, ok_bind]
    rw [show require (¬ x.amount < n) (.invalid "AmountExceedsBalance") = .ok () from if_pos (by omega)]
    simp only [ok_bind, hpay, htot]
    rw [show csub w.inc.st.pool.totalLp n = .ok (w.inc.st.pool.totalLp - n) from if_pos (by omega)]
    simp only [ok_bind, hl1]
    exact ⟨_, _, rfl, rfl⟩
  obtain ⟨i, pd, hwd, hil⟩ := hwd
  have hstep : Incentives.step a w.inc (.withdraw u n) =
      ⟨i, { w.inc.books.pay u pd with withdrawn := credit w.inc.books.withdrawn u n }⟩ := by
    unfold Incentives.step
    simp only [if_neg ha, hwd]
  have hown := (Incentives.step_lpInv hw.inc (.withdraw u n)).own u
  rw [hstep] at hown
  simp only [Incentives.Books.pay, credit_self] at hown
  have hown0 := hw.inc.own u
  have h1 : step k me a w (.inc (.withdraw u n)) = ⟨{ w.pair with lp := l1 },
      ⟨i, { w.inc.books.pay u pd with withdrawn := credit w.inc.books.withdrawn u n }⟩⟩ := by
    show (if incSigner (.withdraw u n : Incentives.Op I A) = some me then w else _) = _
    rw [if_neg (by simp only [incSigner, Option.some.injEq]; exact hm), hstep, hil]
  rw [h1]
  -- redeeming
  unfold XYK.queryShare at hq
  simp only [bind_ok_iff, Except.ok.injEq, Prod.mk.injEq] at hq
  obtain ⟨y0, hy0, y1, hy1, rfl, rfl⟩ := hq
  have hlu : l1 u = w.pair.lp u + n := by
    rw [move_apply hl1, if_neg ha, if_pos rfl, hw.same]
  have hsup : w.pair.supply ≠ 0 := by
    intro h0
    have : w.pair.lp a ≤ ∑ v, w.pair.lp v := Finset.single_le_sum (fun _ _ => Nat.zero_le _) (Finset.mem_univ a)
    rw [← hw.pair.1, h0, hw.same] at this
    omega
  have hns : n ≤ w.pair.supply := by
    have : w.pair.lp a ≤ ∑ v, w.pair.lp v := Finset.single_le_sum (fun _ _ => Nat.zero_le _) (Finset.mem_univ a)
    rw [← hw.pair.1, hw.same] at this
    omega
  have hc : ∀ p y, XYK.shareInAsset p n w.pair.supply = .ok y → y ≤ p := by
    intro p y h
    have h1 := (XYK.shareInAsset_ok (by omega) h).2
    have h2 : y * w.pair.supply ≤ p * w.pair.supply := Nat.le_trans h1 (Nat.mul_le_mul_left _ hns)
    exact Nat.le_of_mul_le_mul_right h2 (by omega)
  obtain ⟨m1, hm1⟩ := move_succeeds (l := l1) (a := u) (b := me) (n := n) (by omega)
  obtain ⟨b0, hb0⟩ := move_succeeds (l := w.pair.bal false) (a := me) (b := u) (n := y0) (hc _ _ hy0)
  obtain ⟨b1, hb1⟩ := move_succeeds (l := w.pair.bal true) (a := me) (b := u) (n := y1) (hc _ _ hy1)
  have hd : ∃ m2, debit m1 me n = .ok m2 := by
    have e := move_apply hm1 me
    rw [if_neg (Ne.symm hm), if_pos rfl] at e
    unfold debit
    rw [if_pos (by omega)]
    exact ⟨_, rfl⟩
  obtain ⟨m2, hm2⟩ := hd
  have hwp : ∃ s, XYK.withdraw me { w.pair with lp := l1 } t u n none = .ok (s, (y0, y1)) := by
    unfold XYK.withdraw
    rw [show require (n ≠ 0) (.invalid "NoFunds") = .ok () from if_pos hn]
    simp only [ok_bind, hm1, hy0, hy1, XYK.ensureMinAssets, htw, hb0, hb1, hm2]
    rw [show csub (w.pair.bal false me) y0 = .ok _ from if_pos (hc _ _ hy0),
      show csub (w.pair.bal true me) y1 = .ok _ from if_pos (hc _ _ hy1),
      show csub w.pair.supply n = .ok _ from if_pos hns]
    exact ⟨_, rfl⟩
  obtain ⟨s, hs⟩ := hwp
  have hsp := XYK.withdraw_spec hm hs
  have h2 : XYK.exec me { w.pair with lp := l1 } (.withdraw t u n none) = .ok s := by
    unfold XYK.exec
    rw [show require ((XYK.Op.withdraw t u n none).signer ≠ me) .unauthorized = .ok () from if_pos hm]
    simp only [ok_bind, hs]
  have h3 : step k me a (⟨{ w.pair with lp := l1 },
      ⟨i, { w.inc.books.pay u pd with withdrawn := credit w.inc.books.withdrawn u n }⟩⟩ : World I A)
      (.pair (.withdraw t u n none)) = World.afterPair (⟨{ w.pair with lp := l1 },
      ⟨i, { w.inc.books.pay u pd with withdrawn := credit w.inc.books.withdrawn u n }⟩⟩ : World I A) a s := by
    unfold step
    simp only [h2]
    rw [if_neg (show ¬ (XYK.Op.withdraw t u n none).signer = a from ha)]
  rw [h3]
  refine ⟨?_, ?_, ?_, ?_⟩
  · show Incentives.amt i.pool u + n = _
    omega
  · show s.lp u = _
    rw [hsp.hlp, if_pos rfl]
    show l1 u - n = _
    omega
  · show s.bal false u = _
    rw [move_apply hsp.hb0, if_neg hm, if_pos rfl]
  · show s.bal true u = _
    rw [move_apply hsp.hb1, if_neg hm, if_pos rfl]

/-! ## A concrete history -/

/-- Accounts: 0 the pair, 4 the incentives contract, 1 to 3 users. -/
def wHistory : List (Ev (Fin 1) (Fin 5)) :=
  [.auto 10 1 1000000 4000000 none none 2, .inc (.incentivize 0 (10 ^ 9) 1 false), .inc (.wait 1000000),
   .pair (.provide 20 3 500000 2000000 none none 3), .inc (.deposit 3 3 400000),
   .pair (.swap 30 1 true 40000 none (some (10 ^ 17)) 1 ⟨3 * 10 ^ 15, 0, none, none⟩), .pair (.sendLp 3 4 7), .inc (.wait 1000000),
   .auto 40 3 50000 200000 (some (10 ^ 17)) none 3]

def wWorld : World (Fin 1) (Fin 5) :=
  run ⟨some 4, true⟩ 0 4 (World.start (fun _ u => if u = 0 then 0 else 10 ^ 9) 1800000000) wHistory

example : wWorld.pair.lp 0 = 1000 ∧ Incentives.amt wWorld.inc.st.pool 2 = 1999000 ∧ 400000 < Incentives.amt wWorld.inc.st.pool 3 ∧
    wWorld.inc.books.donated = 7 ∧ wWorld.pair.lp 3 = 599993 ∧
    okAnd (XYK.queryShare 0 wWorld.pair 1999000) (fun x => decide (x.1 < 10 ^ 6 ∧ 4 * 10 ^ 6 < x.2)) = true ∧
    okAnd (Incentives.pending wWorld.inc.st 2 0) (fun m => decide (0 < m)) = true := by
  decide +kernel

/-- Account 2, who never sent anything, redeems the whole position. -/
example :
    let w := run ⟨some 4, true⟩ 0 4 wWorld [.inc (.withdraw 2 1999000), .pair (.withdraw 50 2 1999000 none)]
    w.pair.lp 2 = 0 ∧ Incentives.amt w.inc.st.pool 2 = 0 ∧ 10 ^ 9 + 4 * 10 ^ 6 < w.pair.bal true 2 := by
  decide +kernel

end Verif.Joint
