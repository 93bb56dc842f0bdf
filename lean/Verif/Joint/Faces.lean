import Verif.Joint.Pool
import Verif.Stable.Ledgers

/-!
# Stableswap and concentrated pairs together with the incentives contract (C142)

`Joint/Pool.lean` does this for the constant product pair.  Here the joint histories are defined once for any kind of
pair, given by a `Face`, and instantiated with the models of `Stable/` and `PCL/`.
-/

namespace Verif.Joint

open Verif

variable {A I S O P : Type} [DecidableEq A] [Fintype I] [DecidableEq I]

/-- What the joint histories need of a kind of pair: its ledgers, its transactions and its provision of liquidity with
the LP tokens minted to the pair itself (the first half of automatic staking). -/
structure Face (A S O P : Type) where
  lp : S → A → Nat
  supply : S → Nat
  bal : S → Bool → A → Nat
  setLp : S → (A → Nat) → S
  signer : O → A
  exec : S → O → Res S
  provider : P → A
  receiver : P → A
  provide : S → P → Res (S × Nat)

/-- A pair and the pool of its LP token in the incentives contract. -/
structure FWorld (S I A : Type) where
  pair : S
  inc : Incentives.Run I A

/-- What can happen: a transaction with the pair (or a transfer), a provision with automatic staking, something in the
incentives contract. -/
inductive FEv (O P I A : Type)
  | pair (o : O)
  | auto (p : P)
  | inc (o : Incentives.Op I A)

/-- The signer of an event, if it concerns LP tokens. -/
def FEv.signer (f : Face A S O P) : FEv O P I A → Option A
  | .pair o => some (f.signer o)
  | .auto p => some (f.provider p)
  | .inc o => incSigner o

/-- A provision with automatic staking: `provideStable`, `providePcl` of `Joint/AutoStake.lean`
(`stable_auto`, `pcl_auto` below). -/
def Face.auto (f : Face A S O P) (k : Link A) (me : A) (s : S) (inc : Incentives.State I A) (p : P) :
    Res (S × Incentives.State I A × Nat × Incentives.Paid I) := do
  let (s, share) ← f.provide s p
  let (inc, paid) ← stake k inc (f.lp s) me (f.receiver p) share
  .ok (f.setLp s inc.lp, inc, share, paid)

/-- One event; failed calls change nothing; neither contract signs anything.  LP tokens that the incentives contract
`a` receives from a transaction with the pair are noted as donated. -/
def fstep (f : Face A S O P) (k : Link A) (me a : A) (w : FWorld S I A) : FEv O P I A → FWorld S I A
  | .pair o =>
    match (if f.signer o = a then .error .unauthorized else f.exec w.pair o) with
    | .ok s => ⟨s, ⟨{ w.inc.st with lp := f.lp s },
        { w.inc.books with donated := w.inc.books.donated + (f.lp s a - w.inc.st.lp a) }⟩⟩
    | .error _ => w
  | .auto p =>
    match (if f.provider p = a ∨ f.provider p = me then .error .unauthorized else f.auto k me w.pair w.inc.st p) with
    | .ok (s, i, share, paid) => ⟨s, ⟨i, { w.inc.books.pay (f.receiver p) paid with
        deposited := credit w.inc.books.deposited (f.receiver p) share }⟩⟩
    | .error _ => w
  | .inc o =>
    if incSigner o = some me then w else
      let r := Incentives.step a w.inc o
      ⟨f.setLp w.pair r.st.lp, r⟩

/-- A history. -/
def frun (f : Face A S O P) (k : Link A) (me a : A) (w : FWorld S I A) (es : List (FEv O P I A)) : FWorld S I A :=
  es.foldl (fstep f k me a) w

/-! ## The two kinds of pairs -/

/-- Arguments of a provision. -/
structure Provision (A : Type) where
  now : Nat
  sender : A
  d : Bool → Nat
  tol : Option Nat
  minLp : Option Nat
  receiver : A

/-- The stableswap pair (its provisions ignore the slippage tolerance). -/
def stableFace (su : Stable.Setup) (me : A) : Face A (Stable.State A) (Stable.Event A) (Provision A) where
  lp s := s.lp
  supply s := s.supply
  bal s := s.bal
  setLp s l := { s with lp := l }
  signer e := e.op.signer
  exec s e := Stable.exec su me e.now e.fo s e.op
  provider p := p.sender
  receiver p := p.receiver
  provide s p := Stable.provide su me s p.now p.sender p.d p.minLp me

/-- The concentrated pair. -/
def pclFace (su : PCL.Setup) (me : A) : Face A (PCL.State A) (PCL.Event A) (Provision A) where
  lp s := s.lp
  supply s := s.supply
  bal s := s.bal
  setLp s l := { s with lp := l }
  signer e := e.op.signer
  exec s e := PCL.exec su me e.now e.fo s e.op
  provider p := p.sender
  receiver p := p.receiver
  provide s p := PCL.provide su me s p.now p.sender p.d p.tol p.minLp me

omit [DecidableEq I] in
theorem stable_auto (su : Stable.Setup) (me : A) (k : Link A) (s : Stable.State A) (inc : Incentives.State I A)
    (p : Provision A) : (stableFace su me).auto k me s inc p =
      provideStable k su me s inc p.now p.sender p.d p.minLp p.receiver := rfl

omit [DecidableEq I] in
theorem pcl_auto (su : PCL.Setup) (me : A) (k : Link A) (s : PCL.State A) (inc : Incentives.State I A)
    (p : Provision A) : (pclFace su me).auto k me s inc p =
      providePcl k su me s inc p.now p.sender p.d p.tol p.minLp p.receiver := rfl

/-! ## What is needed of a pair -/

/-- The ledgers of the pair `me`. -/
structure Face.Lawful (f : Face A S O P) (me : A) : Prop where
  get : ∀ s l, f.lp (f.setLp s l) = l
  sup : ∀ s l, f.supply (f.setLp s l) = f.supply s
  keep : ∀ s l, f.bal (f.setLp s l) = f.bal s
  exec : ∀ s o s', f.exec s o = .ok s' → f.signer o ≠ me ∧
    ((f.lp s' = f.lp s ∧ f.supply s' = f.supply s) ∨
     (∃ rc locked share, f.lp s' = credit (credit (f.lp s) me locked) rc share ∧
       f.supply s' = f.supply s + locked + share ∧ (f.supply s = 0 → locked = 1000)) ∨
     (∃ n, debit (f.lp s) (f.signer o) n = .ok (f.lp s') ∧ n ≤ f.supply s ∧ f.supply s' = f.supply s - n) ∨
     (∃ v n, move (f.lp s) (f.signer o) v n = .ok (f.lp s') ∧ f.supply s' = f.supply s))
  others : ∀ s o s', f.exec s o = .ok s' → ∀ i u, u ≠ f.signer o → u ≠ me → f.bal s i u ≤ f.bal s' i u
  provide : ∀ s p s' share, f.provide s p = .ok (s', share) →
    ∃ locked, f.lp s' = credit (credit (f.lp s) me locked) me share ∧ f.supply s' = f.supply s + locked + share ∧
      (f.supply s = 0 → locked = 1000)
  pothers : ∀ s p s' share, f.provide s p = .ok (s', share) → ∀ i u, u ≠ f.provider p → f.bal s i u ≤ f.bal s' i u

theorem stable_lawful (su : Stable.Setup) (me : A) : (stableFace su me).Lawful me where
  get _ _ := rfl
  sup _ _ := rfl
  keep _ _ := rfl
  exec _ _ _ h := Stable.exec_lp h
  others s o s' h i u hu hm := by
    have h' : Stable.exec su me o.now o.fo s o.op = .ok s' := h
    have hu' : u ≠ o.op.signer := hu
    show s.bal i u ≤ s'.bal i u
    clear h hu
    generalize o.op = op at h' hu'
    have h := h'
    unfold Stable.exec at h
    simp only [bind_ok_iff, require_ok, exists_const] at h
    obtain ⟨hsig, h⟩ := h
    cases op with
    | provide v d m r =>
      simp only [bind_ok_iff, Prod.exists, Except.ok.injEq] at h
      obtain ⟨_, _, h, rfl⟩ := h
      exact PCL.move_other hu' ((Stable.provide_spec h).hbal i)
    | withdraw v n m =>
      simp only [bind_ok_iff, Prod.exists, Except.ok.injEq] at h
      obtain ⟨_, _, _, h, rfl⟩ := h
      simp only [Stable.withdraw, bind_ok_iff, require_ok, exists_const, csub_ok, Except.ok.injEq, Prod.mk.injEq] at h
      obtain ⟨_, lp, hlp, a, ha, b, hb, _, _, pools, _, amp, _, tw, _, _, b0, hb0, b1, hb1, lp2, hlp2, sup, ⟨hs1, hs2⟩,
        rfl, _⟩ := h
      cases i
      · exact PCL.move_other hm hb0
      · exact PCL.move_other hm hb1
    | swap v j n b m r g =>
      simp only [bind_ok_iff, Prod.exists, Except.ok.injEq] at h
      obtain ⟨_, _, h, rfl⟩ := h
      have sp := Stable.swap_spec (by simpa [Stable.Op.signer] using hsig) h
      obtain ⟨l1, l2, h1, h2, h3⟩ := sp.hba
      by_cases hij : i = j
      · subst hij
        exact PCL.move_other hu' sp.hbo
      · have : i = !j := by cases i <;> cases j <;> simp_all
        subst this
        exact (PCL.move_other hm h1).trans ((PCL.sendOpt_other hm h2).trans (PCL.sendOpt_other hm h3))
    | startAmp v next t =>
      simp only [bind_ok_iff, Stable.authorised, require_ok, exists_const, Except.ok.injEq] at h
      obtain ⟨_, _, _, rfl⟩ := h
      exact le_refl _
    | stopAmp v =>
      simp only [bind_ok_iff, Stable.authorised, require_ok, exists_const, Except.ok.injEq] at h
      obtain ⟨_, _, _, rfl⟩ := h
      exact le_refl _
    | enableShare v bps r =>
      simp only [bind_ok_iff, Stable.authorised, require_ok, exists_const, Except.ok.injEq] at h
      obtain ⟨_, _, rfl⟩ := h
      exact le_refl _
    | disableShare v =>
      simp only [bind_ok_iff, Stable.authorised, require_ok, exists_const, Except.ok.injEq] at h
      obtain ⟨_, rfl⟩ := h
      exact le_refl _
    | send j v v' n =>
      simp only [bind_ok_iff, Except.ok.injEq] at h
      obtain ⟨l, hl, rfl⟩ := h
      simp only
      split
      · subst_vars
        exact PCL.move_other hu' hl
      · exact le_refl _
    | sendLp v v' n =>
      simp only [bind_ok_iff, Except.ok.injEq] at h
      obtain ⟨l, hl, rfl⟩ := h
      exact le_refl _
  provide s p s' share h := by
    have sp := Stable.provide_spec h
    exact ⟨_, sp.hlp, sp.hsup, fun h0 => if_pos h0⟩
  pothers s p s' share h i u hu := PCL.move_other hu ((Stable.provide_spec h).hbal i)

theorem pcl_lawful (su : PCL.Setup) (me : A) : (pclFace su me).Lawful me where
  get _ _ := rfl
  sup _ _ := rfl
  keep _ _ := rfl
  exec _ _ _ h := PCL.exec_lp h
  others s o s' h i u hu hm := (PCL.C90_others_never_lose su me o.now o.fo s s' o.op u h hu).2 hm i
  provide s p s' share h := by
    obtain ⟨_, _, _, _, sp⟩ := PCL.provide_spec h
    exact ⟨_, sp.hlp, sp.hsup.1, fun h0 => if_pos h0⟩
  pothers s p s' share h i u hu := by
    obtain ⟨_, _, _, _, sp⟩ := PCL.provide_spec h
    exact PCL.move_other hu (sp.hbal i)

/-! ## Invariant -/

/-- Both contracts' invariants, on one ledger. -/
structure FInv [Fintype A] (f : Face A S O P) (me a : A) (w : FWorld S I A) : Prop where
  same : f.lp w.pair = w.inc.st.lp
  sum : f.supply w.pair = ∑ u, f.lp w.pair u
  lock : f.supply w.pair = 0 ∨ 1000 ≤ f.lp w.pair me
  inc : Incentives.LpInv a w.inc

theorem Face.Lawful.lp_mono {f : Face A S O P} {me : A} (L : f.Lawful me) {s s' : S} {o : O} (h : f.exec s o = .ok s')
    {u : A} (hu : u ≠ f.signer o) : f.lp s u ≤ f.lp s' u := by
  obtain ⟨hsig, h⟩ := L.exec s o s' h
  rcases h with ⟨e1, e2⟩ | ⟨rc, locked, share, e1, e2, e3⟩ | ⟨n, e1, e2, e3⟩ | ⟨v, n, e1, e2⟩
  · rw [e1]
  · rw [e1, credit_apply, credit_apply]; split <;> split <;> omega
  · have := debit_apply e1 u
    rw [if_neg hu] at this
    omega
  · exact PCL.move_other hu e1

theorem Face.Lawful.inv [Fintype A] {f : Face A S O P} {me : A} (L : f.Lawful me) {s s' : S} {o : O}
    (h : f.exec s o = .ok s') (h1 : f.supply s = ∑ u, f.lp s u) (h2 : f.supply s = 0 ∨ 1000 ≤ f.lp s me) :
    f.supply s' = ∑ u, f.lp s' u ∧ (f.supply s' = 0 ∨ 1000 ≤ f.lp s' me) := by
  obtain ⟨hsig, h⟩ := L.exec s o s' h
  rcases h with ⟨e1, e2⟩ | ⟨rc, locked, share, e1, e2, e3⟩ | ⟨n, e1, e2, e3⟩ | ⟨v, n, e1, e2⟩
  · rw [e1, e2]; exact ⟨h1, h2⟩
  · have hge : f.lp s me + locked ≤ f.lp s' me := by
      rw [e1, credit_apply, credit_apply, if_pos rfl]; split <;> omega
    refine ⟨?_, ?_⟩
    · rw [e1, sum_credit, sum_credit, e2, h1]
    · rcases h2 with h2 | h2
      · have := e3 h2; omega
      · omega
  · have hs := sum_debit e1
    have hm := debit_apply e1 me
    rw [if_neg (Ne.symm hsig)] at hm
    refine ⟨by omega, ?_⟩
    rcases h2 with h2 | h2
    · left; omega
    · right; omega
  · have hs := sum_move e1
    have hm := move_apply e1 me
    rw [if_neg (Ne.symm hsig)] at hm
    refine ⟨by omega, ?_⟩
    rcases h2 with h2 | h2
    · left; omega
    · right; omega

/-- Automatic staking is the provision followed by a deposit by the pair. -/
theorem fauto_eq {f : Face A S O P} {k : Link A} {me a : A} (L : f.Lawful me) (hk : k.incentives = some a) (hne : me ≠ a)
    {w : FWorld S I A} {p : P} {s : S} {i : Incentives.State I A} {share : Nat} {paid : Incentives.Paid I}
    (h : f.auto k me w.pair w.inc.st p = .ok (s, i, share, paid)) :
    ∃ s1, f.provide w.pair p = .ok (s1, share) ∧ s = f.setLp s1 i.lp ∧ share ≠ 0 ∧ move (f.lp s1) me a share = .ok i.lp ∧
      Incentives.step a ⟨{ w.inc.st with lp := f.lp s1 }, w.inc.books⟩ (.deposit me (f.receiver p) share) =
        ⟨i, { w.inc.books.pay (f.receiver p) paid with deposited := credit w.inc.books.deposited (f.receiver p) share }⟩ ∧
      (∀ v, v ≠ f.receiver p → i.pool.users v = w.inc.st.pool.users v) ∧
      Incentives.amt i.pool (f.receiver p) = Incentives.amt w.inc.st.pool (f.receiver p) + share := by
  unfold Face.auto at h
  simp only [bind_ok_iff, Except.ok.injEq, Prod.mk.injEq, Prod.exists] at h
  obtain ⟨s1, sh, hp, i1, p1, hs, rfl, rfl, rfl, rfl⟩ := h
  obtain ⟨locked, hlp, _, _⟩ := L.provide _ _ _ _ hp
  obtain ⟨hst, _⟩ := stake_spec hs hlp
  unfold stake at hs
  simp only [bind_ok_iff, orErr_ok, require_ok, exists_const] at hs
  obtain ⟨a', ha', hs0, hr, hd⟩ := hs
  rw [hk] at ha'
  obtain rfl := Option.some.inj ha'
  refine ⟨s1, hp, rfl, hs0, ?_, ?_, hst.others, hst.position⟩
  · unfold Incentives.deposit at hd
    simp only [bind_ok_iff] at hd
    obtain ⟨lp, hlp, hd⟩ := hd
    split at hd <;> simp only [bind_ok_iff, Except.ok.injEq, Prod.mk.injEq] at hd
    · obtain ⟨_, _, rfl, _⟩ := hd; exact hlp
    · obtain ⟨_, _, _, _, _, _, rfl, _⟩ := hd; exact hlp
  · unfold Incentives.step
    simp only [if_neg hne, hd]

theorem finv_step [Fintype A] {f : Face A S O P} {k : Link A} {me a : A} (L : f.Lawful me) (hk : k.incentives = some a)
    (hne : me ≠ a) {w : FWorld S I A} (hw : FInv f me a w) (e : FEv O P I A) : FInv f me a (fstep f k me a w e) := by
  cases e with
  | pair o =>
    unfold fstep
    simp only
    split
    · rename_i s heq
      split at heq
      · simp at heq
      rename_i hsig
      obtain ⟨i1, i2⟩ := L.inv heq hw.sum hw.lock
      refine ⟨rfl, i1, i2, ⟨hw.inc.last, ?_, hw.inc.own, hw.inc.astro⟩⟩
      have h1 := hw.inc.held
      have h2 := L.lp_mono heq (Ne.symm hsig)
      rw [hw.same] at h2
      show f.lp s a = w.inc.st.pool.totalLp + (w.inc.books.donated + (f.lp s a - w.inc.st.lp a))
      omega
    · exact hw
  | inc o =>
    unfold fstep
    simp only
    split
    · exact hw
    · rename_i hs
      have hsum := hw.sum
      have hlock := hw.lock
      refine ⟨L.get _ _, ?_, ?_, Incentives.step_lpInv hw.inc o⟩
      · simp only [L.get, L.sup]
        rcases inc_lp a w.inc o with h | ⟨x, y, n, h, hx⟩
        · rw [h, ← hw.same]; exact hsum
        · rw [sum_move h, ← hw.same]; exact hsum
      · simp only [L.get, L.sup]
        rcases inc_lp a w.inc o with h | ⟨x, y, n, h, hx⟩
        · rw [h, ← hw.same]; exact hlock
        · refine hlock.imp id fun h3 => ?_
          have : me ≠ x := by
            rcases hx with hx | hx
            · rw [hx]; exact hne
            · intro h; rw [h] at hs; exact hs hx
          rw [hw.same] at h3
          exact Nat.le_trans h3 (PCL.move_other this h)
  | auto p =>
    unfold fstep
    simp only
    split
    · rename_i s i share paid heq
      split at heq
      · simp at heq
      rename_i hsig
      obtain ⟨s1, hp, rfl, hs0, hmv, hst, _, _⟩ := fauto_eq L hk hne heq
      obtain ⟨locked, hlp, hsup, h0⟩ := L.provide _ _ _ _ hp
      have hla : f.lp s1 a = w.inc.st.lp a := by
        rw [hlp, credit_apply, credit_apply, if_neg (Ne.symm hne), if_neg (Ne.symm hne), hw.same]
      have hi1 : Incentives.LpInv a ⟨{ w.inc.st with lp := f.lp s1 }, w.inc.books⟩ := by
        refine ⟨hw.inc.last, ?_, hw.inc.own, hw.inc.astro⟩
        show f.lp s1 a = _
        rw [hla]; exact hw.inc.held
      have hinc := Incentives.step_lpInv hi1 (.deposit me (f.receiver p) share)
      rw [hst] at hinc
      have hlock := hw.lock
      refine ⟨L.get _ _, ?_, ?_, hinc⟩
      · simp only [L.get, L.sup]
        rw [sum_move hmv, hsup, hlp, sum_credit, sum_credit, ← hw.sum]
      · simp only [L.get, L.sup]
        right
        have e := move_apply hmv me
        rw [if_pos rfl, if_neg hne] at e
        rw [e, hlp, credit_self, credit_self]
        rcases hlock with h3 | h3
        · rw [h0 h3]; omega
        · omega
    · exact hw

theorem finv_run [Fintype A] {f : Face A S O P} {k : Link A} {me a : A} (L : f.Lawful me) (hk : k.incentives = some a)
    (hne : me ≠ a) : ∀ (es : List (FEv O P I A)) (w : FWorld S I A), FInv f me a w → FInv f me a (frun f k me a w es)
  | [], _, h => h
  | e :: es, _, h => finv_run L hk hne es _ (finv_step L hk hne h e)

/-- A pool of the incentives contract for a pair `s` without LP tokens. -/
def FWorld.start (s : S) (now : Nat) : FWorld S I A := ⟨s, Incentives.start (fun _ => 0) now⟩

omit [DecidableEq A] [Fintype I] [DecidableEq I] in
theorem finv_start [Fintype A] (f : Face A S O P) (me a : A) (s : S) (now : Nat) (h0 : f.supply s = 0)
    (h1 : f.lp s = fun _ => 0) : FInv f me a (FWorld.start s now : FWorld S I A) :=
  ⟨h1, by show f.supply s = ∑ u, f.lp s u; rw [h0, h1]; simp, Or.inl h0, Incentives.start_lpInv a _ now rfl⟩

/-! ## Specification -/

/-- The accounts of a pair (with LP ledger `lp` and LP supply `supply`) and the pool of its LP token in the incentives
contract `a` agree: the supply is the sum of all balances; the incentives contract holds the positions, and what
somebody sent to it; each position is what was deposited for the staker less what they withdrew; wallets and
positions of users together are the supply. -/
structure Accounts [Fintype A] (a : A) (lp : A → Nat) (supply : Nat) (r : Incentives.Run I A) : Prop where
  ledger : lp = r.st.lp
  total : supply = ∑ u, lp u
  held : lp a = (∑ u, Incentives.amt r.st.pool u) + r.books.donated
  positions : ∀ u, r.books.withdrawn u + Incentives.amt r.st.pool u = r.books.deposited u
  users : (∑ u ∈ Finset.univ.erase a, lp u) + (∑ u, Incentives.amt r.st.pool u) + r.books.donated = supply

omit [Fintype I] [DecidableEq I] in
theorem FInv.accounts [Fintype A] {f : Face A S O P} {me a : A} {w : FWorld S I A} (hw : FInv f me a w) :
    Accounts a (f.lp w.pair) (f.supply w.pair) w.inc := by
  obtain ⟨E, hA, _⟩ := hw.inc.astro
  have hheld := hw.inc.held
  rw [← hA.total] at hheld
  have hla : f.lp w.pair a = (∑ u, Incentives.amt w.inc.st.pool u) + w.inc.books.donated := by rw [hw.same]; exact hheld
  refine ⟨hw.same, hw.sum, hla, hw.inc.own, ?_⟩
  have hs := Finset.add_sum_erase Finset.univ (f.lp w.pair) (Finset.mem_univ a)
  rw [hw.sum]
  omega

theorem fothers [Fintype A] {f : Face A S O P} {k : Link A} {me a : A} (L : f.Lawful me) (hk : k.incentives = some a)
    (hne : me ≠ a) {w : FWorld S I A} (hw : FInv f me a w) (e : FEv O P I A) {u : A} (hu : e.signer f ≠ some u)
    (hm : u ≠ me) (ha : u ≠ a) :
    f.lp w.pair u ≤ f.lp (fstep f k me a w e).pair u ∧
    Incentives.amt w.inc.st.pool u ≤ Incentives.amt (fstep f k me a w e).inc.st.pool u ∧
    ∀ i, f.bal w.pair i u ≤ f.bal (fstep f k me a w e).pair i u := by
  cases e with
  | pair o =>
    unfold fstep
    simp only
    have hu' : u ≠ f.signer o := fun h => hu (by rw [h]; rfl)
    split
    · rename_i s heq
      split at heq
      · simp at heq
      exact ⟨L.lp_mono heq hu', le_refl _, fun i => L.others _ _ _ heq i u hu' hm⟩
    · exact ⟨le_refl _, le_refl _, fun _ => le_refl _⟩
  | inc o =>
    unfold fstep
    simp only
    split
    · exact ⟨le_refl _, le_refl _, fun _ => le_refl _⟩
    · refine ⟨?_, inc_amt hw.inc o hu, fun _ => by rw [L.keep]⟩
      rw [hw.same, L.get]
      rcases inc_lp a w.inc o with h | ⟨x, y, n, h, hx⟩
      · exact (congrFun h u).symm.le
      · refine PCL.move_other ?_ h
        rcases hx with rfl | hx
        · exact ha
        · intro hh; rw [hh] at hu; exact hu hx
  | auto p =>
    unfold fstep
    simp only
    have hu' : u ≠ f.provider p := fun h => hu (by rw [h]; rfl)
    split
    · rename_i s i share paid heq
      split at heq
      · simp at heq
      rename_i hsig
      obtain ⟨s1, hp, rfl, hs0, hmv, hst, ho, hpos⟩ := fauto_eq L hk hne heq
      obtain ⟨locked, hlp, hsup, h0⟩ := L.provide _ _ _ _ hp
      refine ⟨?_, ?_, ?_⟩
      · rw [L.get]
        refine Nat.le_trans ?_ (PCL.move_other hm hmv)
        rw [hlp, credit_apply, credit_apply, if_neg hm, if_neg hm]
      · by_cases hr : u = f.receiver p
        · rw [hr, hpos]; omega
        · unfold Incentives.amt
          rw [ho u hr]
      · intro j
        rw [L.keep]
        exact L.pothers _ _ _ _ hp j u hu'
    · exact ⟨le_refl _, le_refl _, fun _ => le_refl _⟩

/-- Unstaking in the generic world. -/
theorem funstake [Fintype A] {f : Face A S O P} {k : Link A} {me a : A} (L : f.Lawful me) {w : FWorld S I A}
    (hw : FInv f me a w) {u : A} {n : Nat} (hm : u ≠ me) (ha : u ≠ a) (hamt : n ≤ Incentives.amt w.inc.st.pool u)
    (hn : n ≠ 0) (hp1 : ∀ X, ∃ m, Incentives.pending w.inc.st u X = .ok m)
    (hp2 : ∃ m, Incentives.pendingAstro w.inc.st u = .ok m) :
    f.lp (fstep f k me a w (.inc (.withdraw u n))).pair u = f.lp w.pair u + n ∧
    Incentives.amt (fstep f k me a w (.inc (.withdraw u n))).inc.st.pool u + n = Incentives.amt w.inc.st.pool u := by
  obtain ⟨E, hA, _⟩ := hw.inc.astro
  cases hx : w.inc.st.pool.users u with
  | none => unfold Incentives.amt at hamt; rw [hx] at hamt; simp only at hamt; omega
  | some x =>
  have hxa : Incentives.amt w.inc.st.pool u = x.amount := Incentives.amt_some hx
  obtain ⟨pay, hpay⟩ := payAll_of_pending hx hp1 hp2
  have htot : (Incentives.update w.inc.st.now w.inc.st.pool).1.totalLp = w.inc.st.pool.totalLp :=
    (Incentives.update_fields w.inc.st.now w.inc.st.pool).2.1
  have hle : Incentives.amt w.inc.st.pool u ≤ w.inc.st.pool.totalLp := by
    rw [← hA.total]; exact Finset.single_le_sum (fun _ _ => Nat.zero_le _) (Finset.mem_univ u)
  have hheld := hw.inc.held
  obtain ⟨l1, hl1⟩ := move_succeeds (l := w.inc.st.lp) (a := a) (b := u) (n := n) (by omega)
  have hwd : ∃ i pd, Incentives.withdraw a w.inc.st u n = .ok (i, pd) ∧ i.lp = l1 := by
    unfold Incentives.withdraw
    rw [hx]
    simp only [orErr, ok_bind]
    rw [show require (¬ x.amount < n) (.invalid "AmountExceedsBalance") = .ok () from if_pos (by omega)]
    simp only [ok_bind, hpay, htot]
    rw [show csub w.inc.st.pool.totalLp n = .ok (w.inc.st.pool.totalLp - n) from if_pos (by omega)]
    simp only [ok_bind, hl1]
    exact ⟨_, _, rfl, rfl⟩
  obtain ⟨i, pd, hwd, hil⟩ := hwd
  have hstep : Incentives.step a w.inc (.withdraw u n) =
      ⟨i, { w.inc.books.pay u pd with withdrawn := credit w.inc.books.withdrawn u n }⟩ := by
    unfold Incentives.step
    simp only [if_neg ha, hwd]
  have hown := (Incentives.step_lpInv hw.inc (.withdraw u n)).own u
  rw [hstep] at hown
  simp only [Incentives.Books.pay, credit_self] at hown
  have hown0 := hw.inc.own u
  have h1 : fstep f k me a w (.inc (.withdraw u n)) = ⟨f.setLp w.pair l1,
      ⟨i, { w.inc.books.pay u pd with withdrawn := credit w.inc.books.withdrawn u n }⟩⟩ := by
    show (if incSigner (.withdraw u n : Incentives.Op I A) = some me then w else _) = _
    rw [if_neg (by simp only [incSigner, Option.some.injEq]; exact hm), hstep, hil]
  rw [h1]
  refine ⟨?_, ?_⟩
  · simp only [L.get]
    rw [move_apply hl1, if_neg ha, if_pos rfl, hw.same]
  · show Incentives.amt i.pool u + n = _
    omega

/-! ## The property -/

section

variable [Fintype A] (k : Link A) (me a : A) (hk : k.incentives = some a) (hne : me ≠ a)

include hk hne

/-- **C142, stableswap: accounts.**  After every joint history of a stableswap pair and the incentives contract. -/
theorem C142_stable_accounts (su : Stable.Setup) (bal : Bool → A → Nat) (owner : Option A) (amp t now : Nat)
    (s : Stable.State A) (hc : Stable.create bal owner amp t = .ok s)
    (es : List (FEv (Stable.Event A) (Provision A) I A)) :
    let w := frun (stableFace su me) k me a (FWorld.start s now) es
    Accounts a w.pair.lp w.pair.supply w.inc ∧ (w.pair.supply = 0 ∨ 1000 ≤ w.pair.lp me) := by
  have h0 : FInv (stableFace su me) me a (FWorld.start s now : FWorld (Stable.State A) I A) := by
    simp only [Stable.create, bind_ok_iff, Except.ok.injEq] at hc
    obtain ⟨_, _, rfl⟩ := hc
    exact finv_start _ _ _ _ _ rfl rfl
  have hw := finv_run (stable_lawful su me) hk hne es _ h0
  exact ⟨hw.accounts, hw.lock⟩

/-- **C142, stableswap: nobody else's.**  An event lowers nobody's LP balance, position or balance of a pool asset,
except its signer's (and the two contracts' own balances). -/
theorem C142_stable_others_never_lose (su : Stable.Setup) (bal : Bool → A → Nat) (owner : Option A) (amp t now : Nat)
    (s : Stable.State A) (hc : Stable.create bal owner amp t = .ok s)
    (es : List (FEv (Stable.Event A) (Provision A) I A)) (e : FEv (Stable.Event A) (Provision A) I A) (u : A)
    (hu : e.signer (stableFace su me) ≠ some u) (hm : u ≠ me) (ha : u ≠ a) :
    let w := frun (stableFace su me) k me a (FWorld.start s now) es
    let w' := fstep (stableFace su me) k me a w e
    w.pair.lp u ≤ w'.pair.lp u ∧ Incentives.amt w.inc.st.pool u ≤ Incentives.amt w'.inc.st.pool u ∧
      ∀ i, w.pair.bal i u ≤ w'.pair.bal i u := by
  have h0 : FInv (stableFace su me) me a (FWorld.start s now : FWorld (Stable.State A) I A) := by
    simp only [Stable.create, bind_ok_iff, Except.ok.injEq] at hc
    obtain ⟨_, _, rfl⟩ := hc
    exact finv_start _ _ _ _ _ rfl rfl
  exact fothers (stable_lawful su me) hk hne (finv_run (stable_lawful su me) hk hne es _ h0) e hu hm ha

/-- **C142, stableswap: unstaking.**  After every history a staker whose rewards can be computed can take any part of
their position back into their wallet. -/
theorem C142_stable_unstake (su : Stable.Setup) (bal : Bool → A → Nat) (owner : Option A) (amp t now : Nat)
    (s : Stable.State A) (hc : Stable.create bal owner amp t = .ok s)
    (es : List (FEv (Stable.Event A) (Provision A) I A)) (u : A) (n : Nat) (hm : u ≠ me) (ha : u ≠ a) (hn : n ≠ 0) :
    let w := frun (stableFace su me) k me a (FWorld.start s now) es
    n ≤ Incentives.amt w.inc.st.pool u →
    (∀ X, ∃ m, Incentives.pending w.inc.st u X = .ok m) → (∃ m, Incentives.pendingAstro w.inc.st u = .ok m) →
    let w' := fstep (stableFace su me) k me a w (.inc (.withdraw u n))
    w'.pair.lp u = w.pair.lp u + n ∧ Incentives.amt w'.inc.st.pool u + n = Incentives.amt w.inc.st.pool u := by
  have h0 : FInv (stableFace su me) me a (FWorld.start s now : FWorld (Stable.State A) I A) := by
    simp only [Stable.create, bind_ok_iff, Except.ok.injEq] at hc
    obtain ⟨_, _, rfl⟩ := hc
    exact finv_start _ _ _ _ _ rfl rfl
  intro w hamt hp1 hp2
  exact funstake (stable_lawful su me) (finv_run (stable_lawful su me) hk hne es _ h0) hm ha hamt hn hp1 hp2

/-- **C142, concentrated: accounts.**  After every joint history of a concentrated pair and the incentives contract. -/
theorem C142_pcl_accounts (su : PCL.Setup) (bal : Bool → A → Nat) (p : PCL.PParams) (amp gamma scale t now : Nat)
    (s : PCL.State A) (hc : PCL.create bal p amp gamma scale t = .ok s)
    (es : List (FEv (PCL.Event A) (Provision A) I A)) :
    let w := frun (pclFace su me) k me a (FWorld.start s now) es
    Accounts a w.pair.lp w.pair.supply w.inc ∧ (w.pair.supply = 0 ∨ 1000 ≤ w.pair.lp me) := by
  have h0 : FInv (pclFace su me) me a (FWorld.start s now : FWorld (PCL.State A) I A) := by
    simp only [PCL.create, bind_ok_iff, require_ok, exists_const, Except.ok.injEq] at hc
    obtain ⟨_, _, _, _, _, rfl⟩ := hc
    exact finv_start _ _ _ _ _ rfl rfl
  have hw := finv_run (pcl_lawful su me) hk hne es _ h0
  exact ⟨hw.accounts, hw.lock⟩

/-- **C142, concentrated: nobody else's.** -/
theorem C142_pcl_others_never_lose (su : PCL.Setup) (bal : Bool → A → Nat) (p : PCL.PParams)
    (amp gamma scale t now : Nat) (s : PCL.State A) (hc : PCL.create bal p amp gamma scale t = .ok s)
    (es : List (FEv (PCL.Event A) (Provision A) I A)) (e : FEv (PCL.Event A) (Provision A) I A) (u : A)
    (hu : e.signer (pclFace su me) ≠ some u) (hm : u ≠ me) (ha : u ≠ a) :
    let w := frun (pclFace su me) k me a (FWorld.start s now) es
    let w' := fstep (pclFace su me) k me a w e
    w.pair.lp u ≤ w'.pair.lp u ∧ Incentives.amt w.inc.st.pool u ≤ Incentives.amt w'.inc.st.pool u ∧
      ∀ i, w.pair.bal i u ≤ w'.pair.bal i u := by
  have h0 : FInv (pclFace su me) me a (FWorld.start s now : FWorld (PCL.State A) I A) := by
    simp only [PCL.create, bind_ok_iff, require_ok, exists_const, Except.ok.injEq] at hc
    obtain ⟨_, _, _, _, _, rfl⟩ := hc
    exact finv_start _ _ _ _ _ rfl rfl
  exact fothers (pcl_lawful su me) hk hne (finv_run (pcl_lawful su me) hk hne es _ h0) e hu hm ha

/-- **C142, concentrated: unstaking.** -/
theorem C142_pcl_unstake (su : PCL.Setup) (bal : Bool → A → Nat) (p : PCL.PParams) (amp gamma scale t now : Nat)
    (s : PCL.State A) (hc : PCL.create bal p amp gamma scale t = .ok s)
    (es : List (FEv (PCL.Event A) (Provision A) I A)) (u : A) (n : Nat) (hm : u ≠ me) (ha : u ≠ a) (hn : n ≠ 0) :
    let w := frun (pclFace su me) k me a (FWorld.start s now) es
    n ≤ Incentives.amt w.inc.st.pool u →
    (∀ X, ∃ m, Incentives.pending w.inc.st u X = .ok m) → (∃ m, Incentives.pendingAstro w.inc.st u = .ok m) →
    let w' := fstep (pclFace su me) k me a w (.inc (.withdraw u n))
    w'.pair.lp u = w.pair.lp u + n ∧ Incentives.amt w'.inc.st.pool u + n = Incentives.amt w.inc.st.pool u := by
  have h0 : FInv (pclFace su me) me a (FWorld.start s now : FWorld (PCL.State A) I A) := by
    simp only [PCL.create, bind_ok_iff, require_ok, exists_const, Except.ok.injEq] at hc
    obtain ⟨_, _, _, _, _, rfl⟩ := hc
    exact finv_start _ _ _ _ _ rfl rfl
  intro w hamt hp1 hp2
  exact funstake (pcl_lawful su me) (finv_run (pcl_lawful su me) hk hne es _ h0) hm ha hamt hn hp1 hp2

end

/-! ## What the LP tokens are worth -/

omit [Fintype I] [DecidableEq I] in
/-- From accounts that agree: if every user `u` would be paid `c u` out of `p` for LP tokens in the wallet and staked,
at most their share of the supply, then all of them together at most `p`. -/
theorem covered [Fintype A] {a : A} {lp : A → Nat} {supply : Nat} {r : Incentives.Run I A} (h : Accounts a lp supply r)
    {p : Nat} {c : A → Nat} (hpos : 0 < supply)
    (hc : ∀ u, u ≠ a → c u * supply ≤ p * (lp u + Incentives.amt r.st.pool u)) :
    ∑ u ∈ Finset.univ.erase a, c u ≤ p := by
  have hsum := h.users
  have h1 : (∑ u ∈ Finset.univ.erase a, c u) * supply ≤ p * supply := by
    rw [Finset.sum_mul]
    calc ∑ u ∈ Finset.univ.erase a, c u * supply
        ≤ ∑ u ∈ Finset.univ.erase a, p * (lp u + Incentives.amt r.st.pool u) :=
          Finset.sum_le_sum (fun u hu => hc u (Finset.ne_of_mem_erase hu))
      _ = p * ∑ u ∈ Finset.univ.erase a, (lp u + Incentives.amt r.st.pool u) := by rw [Finset.mul_sum]
      _ ≤ p * supply := by
        apply Nat.mul_le_mul_left
        rw [Finset.sum_add_distrib]
        have : ∑ u ∈ Finset.univ.erase a, Incentives.amt r.st.pool u ≤ ∑ u, Incentives.amt r.st.pool u :=
          Finset.sum_le_sum_of_subset (Finset.erase_subset _ _)
        omega
  exact Nat.le_of_mul_le_mul_right h1 hpos

/-- **C142, stableswap: claims are covered.**  What the users' LP tokens, in wallets and staked, can be redeemed for is
covered by the reserves of the pair, all together. -/
theorem C142_stable_claims_covered [Fintype A] (k : Link A) (me a : A) (hk : k.incentives = some a) (hne : me ≠ a)
    (su : Stable.Setup) (bal : Bool → A → Nat) (owner : Option A) (amp t now : Nat)
    (s : Stable.State A) (hc : Stable.create bal owner amp t = .ok s)
    (es : List (FEv (Stable.Event A) (Provision A) I A)) (c : Bool → A → Nat) (i : Bool) :
    let w := frun (stableFace su me) k me a (FWorld.start s now) es
    (∀ u, u ≠ a → Stable.queryShare me w.pair (w.pair.lp u + Incentives.amt w.inc.st.pool u) =
      .ok (c false u, c true u)) →
    ∑ u ∈ Finset.univ.erase a, c i u ≤ w.pair.bal i me := by
  intro w hq
  have hacc : Accounts a w.pair.lp w.pair.supply w.inc :=
    (C142_stable_accounts k me a hk hne su bal owner amp t now s hc es).1
  clear_value w
  have hq' : ∀ u, u ≠ a → XYK.shareInAsset (w.pair.bal i me) (w.pair.lp u + Incentives.amt w.inc.st.pool u)
      w.pair.supply = .ok (c i u) := by
    intro u hu
    have := hq u hu
    unfold Stable.queryShare at this
    simp only [bind_ok_iff, Except.ok.injEq, Prod.mk.injEq] at this
    obtain ⟨x, hx, y, hy, rfl, rfl⟩ := this
    cases i
    · exact hx
    · exact hy
  rcases Nat.eq_zero_or_pos w.pair.supply with hz | hpos
  · have h0 : ∀ u, u ≠ a → c i u = 0 := by
      intro u hu
      have h := hq' u hu
      rw [hz] at h
      unfold XYK.shareInAsset at h
      simp only [if_true, bind_ok_iff, Except.ok.injEq, u128_ok, mulDec] at h
      obtain ⟨x, rfl, _, h⟩ := h
      rw [← h]; simp
    rw [Finset.sum_eq_zero fun u hu => h0 u (Finset.ne_of_mem_erase hu)]
    exact Nat.zero_le _
  · exact covered hacc hpos fun u hu => (XYK.shareInAsset_ok (by omega) (hq' u hu)).2

/-- **C142, concentrated: claims are covered.** -/
theorem C142_pcl_claims_covered [Fintype A] (k : Link A) (me a : A) (hk : k.incentives = some a) (hne : me ≠ a)
    (su : PCL.Setup) (bal : Bool → A → Nat) (p : PCL.PParams) (amp gamma scale t now : Nat)
    (s : PCL.State A) (hc : PCL.create bal p amp gamma scale t = .ok s)
    (es : List (FEv (PCL.Event A) (Provision A) I A)) (c : Bool → A → Nat) (i : Bool) :
    let w := frun (pclFace su me) k me a (FWorld.start s now) es
    (∀ u, u ≠ a → PCL.queryShare su me w.pair (w.pair.lp u + Incentives.amt w.inc.st.pool u) =
      .ok (c false u, c true u)) →
    ∑ u ∈ Finset.univ.erase a, c i u ≤ w.pair.bal i me := by
  intro w hq
  have hacc : Accounts a w.pair.lp w.pair.supply w.inc :=
    (C142_pcl_accounts k me a hk hne su bal p amp gamma scale t now s hc es).1
  clear_value w
  have hq' : ∀ u, u ≠ a → ∃ r, PCL.shareInAsset (w.pair.bal i me * 10 ^ (18 - su.prec i))
      (w.pair.lp u + Incentives.amt w.inc.st.pool u - 1) w.pair.supply = .ok r ∧ Stable.toU128 r (su.prec i) = .ok (c i u) := by
    intro u hu
    have := hq u hu
    unfold PCL.queryShare at this
    simp only [bind_ok_iff, Except.ok.injEq, Prod.mk.injEq] at this
    obtain ⟨xs, hxs, r0, hr0, r1, hr1, a0, ha0, a1, ha1, rfl, rfl⟩ := this
    have hx := PCL.decPools_ok hxs
    rw [(hx false).2.1] at hr0
    rw [(hx true).2.1] at hr1
    cases i
    · exact ⟨r0, hr0, ha0⟩
    · exact ⟨r1, hr1, ha1⟩
  rcases Nat.eq_zero_or_pos w.pair.supply with hz | hpos
  · have h0 : ∀ u, u ≠ a → c i u = 0 := by
      intro u hu
      obtain ⟨r, h, h'⟩ := hq' u hu
      rw [hz] at h
      unfold PCL.shareInAsset at h
      simp only [ne_eq, not_true_eq_false, if_false, ok_bind] at h
      have : r = 0 := by 
        rw [Stable.dmul] at h
        simp only [Nat.mul_zero, Nat.zero_div] at h
        rw [show u256 0 = .ok 0 from rfl] at h
        exact (Except.ok.inj h).symm
      subst this
      rw [Stable.toU128_ok] at h'
      simpa using h'.2.2.symm
    rw [Finset.sum_eq_zero fun u hu => h0 u (Finset.ne_of_mem_erase hu)]
    exact Nat.zero_le _
  · refine covered hacc hpos fun u hu => ?_
    obtain ⟨r, h, h'⟩ := hq' u hu
    exact Nat.le_trans (PCL.refund_bounds (by omega) h h').1 (Nat.mul_le_mul_left _ (Nat.sub_le _ _))

/-! ## Concrete histories

Accounts: 0 the pair, 3 the incentives contract, 1 and 2 users. -/

/-- Account 1 provides and stakes for account 2, swaps, account 2 provides without staking, stakes half and sends 7 LP
tokens to the incentives contract. -/
def fStable : List (FEv (Stable.Event (Fin 4)) (Provision (Fin 4)) (Fin 1) (Fin 4)) :=
  [.auto ⟨100, 1, fun _ => 10 ^ 9, none, none, 2⟩, .inc (.incentivize 0 (10 ^ 9) 1 false), .inc (.wait 100000),
   .pair ⟨160, 1, .swap 1 false (10 ^ 6) none none 1 Stable.noFees⟩,
   .pair ⟨200, 1, .provide 2 (fun i => if i then 10 ^ 8 else 0) none 2⟩, .inc (.deposit 2 2 50000000),
   .pair ⟨210, 1, .sendLp 2 3 7⟩, .inc (.wait 1000000)]

def wStable : Res (FWorld (Stable.State (Fin 4)) (Fin 1) (Fin 4)) := do
  let s ← Stable.create (fun _ u => if u = 0 then 0 else 10 ^ 12) none 100 50
  .ok (frun (stableFace Stable.demoSetup 0) ⟨some 3, true⟩ 0 3 (FWorld.start s 1800000000) fStable)

example : okAnd wStable (fun w => decide (w.pair.lp 0 = 1000 ∧ Incentives.amt w.inc.st.pool 2 = 2049999000 ∧
    w.inc.books.donated = 7 ∧ w.pair.lp 3 = 2049999007 ∧ 0 < w.pair.lp 2) &&
    okAnd (Stable.queryShare 0 w.pair 2049999000) (fun x => decide (0 < x.1 ∧ 0 < x.2)) &&
    okAnd (Incentives.pending w.inc.st 2 0) (fun m => decide (0 < m))) = true := by
  decide +kernel

/-- The same with a concentrated pair. -/
def fPcl : List (FEv (PCL.Event (Fin 4)) (Provision (Fin 4)) (Fin 1) (Fin 4)) :=
  [.auto ⟨2000, 1, fun _ => 10 ^ 12, none, none, 2⟩, .inc (.incentivize 0 (10 ^ 9) 1 false), .inc (.wait 100000),
   .pair ⟨2100, 1, .swap 1 false (10 ^ 9) none none 1 ⟨0, none⟩⟩,
   .pair ⟨2200, 1, .provide 2 (fun _ => 10 ^ 10) none none 2⟩, .inc (.deposit 2 2 50000000),
   .pair ⟨2300, 1, .sendLp 2 3 7⟩, .inc (.wait 1000000)]

def wPcl : Res (FWorld (PCL.State (Fin 4)) (Fin 1) (Fin 4)) := do
  let s ← PCL.create (fun _ u => if u = 0 then 0 else 10 ^ 15) PCL.demoParams (40 * 10 ^ 18) (145 * 10 ^ 12) (10 ^ 18) 1000
  .ok (frun (pclFace PCL.demoSetup 0) ⟨some 3, true⟩ 0 3 (FWorld.start s 1800000000) fPcl)

example : okAnd wPcl (fun w => decide (w.pair.lp 0 = 1000 ∧ Incentives.amt w.inc.st.pool 2 = 10 ^ 12 - 1000 + 50000000 ∧
    w.inc.books.donated = 7 ∧ 0 < w.pair.lp 2) &&
    okAnd (PCL.queryShare PCL.demoSetup 0 w.pair (10 ^ 12)) (fun x => decide (0 < x.1 ∧ 0 < x.2)) &&
    okAnd (Incentives.pending w.inc.st 2 0) (fun m => decide (0 < m))) = true := by
  decide +kernel

end Verif.Joint
