import Verif.XYK.Props
import Verif.Stable.Props
import Verif.PCL.Props
import Verif.Incentives.Account

/-!
# Providing liquidity with automatic staking (C129)

With `auto_stake` a pair mints the new LP tokens to itself and deposits them in the incentives contract for the
receiver (`contracts/pair/src/contract.rs:466-504`, `contracts/pair_stable/src/utils.rs:172-210`,
`packages/astroport_pcl_common/src/utils.rs:64-102`).  Here the models of the pairs and of the incentives contract run
together on one ledger of LP tokens.
-/

namespace Verif.Joint

open Verif

variable {A I : Type} [DecidableEq A] [Fintype I] [DecidableEq I]

/-- What the pair learns about the incentives contract: its address according to the factory
(`query_factory_config(..).generator_address`), and whether the factory knows the pair
(`is_pool_registered`, `contracts/tokenomics/incentives/src/utils.rs:406-435`, checked by `deposit`, `contracts/tokenomics/incentives/src/execute.rs:187-193`). -/
structure Link (A : Type) where
  incentives : Option A
  registered : Bool

/-- The second half of `mint_liquidity_token_message` with `auto_stake` (`contracts/pair/src/contract.rs:485-503`): `lp` is the
ledger after minting `share` to the pair `me`.  The coin `share` is attached to `Deposit`; a zero coin is refused by
the bank module. -/
def stake (k : Link A) (inc : Incentives.State I A) (lp : A → Nat) (me receiver : A) (share : Nat) :
    Res (Incentives.State I A × Incentives.Paid I) := do
  let a ← orErr k.incentives (.invalid "AutoStakeError")
  require (share ≠ 0) (.invalid "invalid coins")
  require (k.registered = true) (.invalid "PairNotRegistered")
  Incentives.deposit a { inc with lp := lp } me receiver share

/-- `provide_liquidity` of the XYK pair with `auto_stake` (`contracts/pair/src/contract.rs:351-456`). -/
def provideXyk (k : Link A) (me : A) (s : XYK.State A) (inc : Incentives.State I A) (now : Nat) (sender : A) (d0 d1 : Nat)
    (tol minLp : Option Nat) (receiver : A) : Res (XYK.State A × Incentives.State I A × Nat × Incentives.Paid I) := do
  let (s, share) ← XYK.provide me s now sender d0 d1 tol minLp me
  let (inc, paid) ← stake k inc s.lp me receiver share
  .ok ({ s with lp := inc.lp }, inc, share, paid)

/-- `provide_liquidity` of the stable pair with `auto_stake` (`contracts/pair_stable/src/contract.rs:338-450`). -/
def provideStable (k : Link A) (su : Stable.Setup) (me : A) (s : Stable.State A) (inc : Incentives.State I A) (now : Nat)
    (sender : A) (d : Bool → Nat) (minLp : Option Nat) (receiver : A) :
    Res (Stable.State A × Incentives.State I A × Nat × Incentives.Paid I) := do
  let (s, share) ← Stable.provide su me s now sender d minLp me
  let (inc, paid) ← stake k inc s.lp me receiver share
  .ok ({ s with lp := inc.lp }, inc, share, paid)

/-- `provide_liquidity` of the concentrated pair with `auto_stake` (`contracts/pair_concentrated/src/contract.rs:424-548`). -/
def providePcl (k : Link A) (su : PCL.Setup) (me : A) (s : PCL.State A) (inc : Incentives.State I A) (now : Nat)
    (sender : A) (d : Bool → Nat) (tol minLp : Option Nat) (receiver : A) :
    Res (PCL.State A × Incentives.State I A × Nat × Incentives.Paid I) := do
  let (s, share) ← PCL.provide su me s now sender d tol minLp me
  let (inc, paid) ← stake k inc s.lp me receiver share
  .ok ({ s with lp := inc.lp }, inc, share, paid)

/-! ## What it should do -/

/-- The effect of staking `share` LP tokens for `receiver`, compared with a ledger `plain` in which `receiver` got the
LP tokens: they are in the incentives contract instead, the receiver's position (and nobody else's) is larger by
`share`, and the receiver is paid what `PendingRewards` answered before. -/
structure StakedInstead (k : Link A) (inc inc' : Incentives.State I A) (lp' plain : A → Nat) (receiver : A) (share : Nat)
    (paid : Incentives.Paid I) : Prop where
  ledger : ∃ a, k.incentives = some a ∧
    ∀ b, lp' b + (if b = receiver then share else 0) = plain b + (if b = a then share else 0)
  position : Incentives.amt inc'.pool receiver = Incentives.amt inc.pool receiver + share
  others : ∀ v, v ≠ receiver → inc'.pool.users v = inc.pool.users v
  total : inc'.pool.totalLp = inc.pool.totalLp + share
  rewards : (inc.pool.users receiver = none ∧ (∀ X, paid.ext X = 0) ∧ paid.int = 0) ∨
    ((∀ X, Incentives.pending inc receiver X = .ok (paid.ext X)) ∧ Incentives.pendingAstro inc receiver = .ok paid.int)

/-! ## Proofs -/

omit [DecidableEq I] in
theorem stake_spec {k : Link A} {inc inc' : Incentives.State I A} {lp : A → Nat} {me receiver : A} {share : Nat}
    {paid : Incentives.Paid I} (h : stake k inc lp me receiver share = .ok (inc', paid)) {base : A → Nat}
    (hlp : lp = credit base me share) :
    StakedInstead k inc inc' inc'.lp (credit base receiver share) receiver share paid ∧ share ≠ 0 := by
  unfold stake at h
  simp only [bind_ok_iff, orErr_ok, require_ok, exists_const] at h
  obtain ⟨a, ha, hs, hr, h⟩ := h
  unfold Incentives.deposit at h
  simp only [bind_ok_iff] at h
  obtain ⟨lp1, hm, h⟩ := h
  have hled : ∀ b, lp1 b + (if b = receiver then share else 0) =
      credit base receiver share b + (if b = a then share else 0) := by
    intro b
    rw [move_apply hm, hlp, credit_apply, credit_apply]
    rcases Classical.propComplete (b = receiver) with h1 | h1 <;> rcases Classical.propComplete (b = a) with h2 | h2 <;>
      rcases Classical.propComplete (b = me) with h3 | h3 <;> simp only [h1, h2, h3, if_true, if_false] <;> omega
  have huf := Incentives.update_fields inc.now inc.pool
  refine ⟨?_, hs⟩
  cases hu : inc.pool.users receiver with
  | none =>
    simp only [hu, bind_ok_iff, u128_ok, Except.ok.injEq, Prod.mk.injEq] at h
    obtain ⟨T, ⟨_, rfl⟩, rfl, rfl⟩ := h
    refine ⟨⟨a, ha, hled⟩, ?_, ?_, ?_, Or.inl ⟨hu, fun _ => rfl, rfl⟩⟩
    · simp only [Incentives.amt, Incentives.save, Incentives.setUser, Function.update_self, Incentives.sync, hu, Nat.zero_add]
    · intro v hv
      simp only [Incentives.save, Incentives.setUser, Function.update_of_ne hv]
      exact huf.1 ▸ rfl
    · simp only [Incentives.save, Incentives.setUser]
      rw [huf.2.1]
  | some u =>
    simp only [hu, bind_ok_iff, u128_ok, Except.ok.injEq, Prod.mk.injEq] at h
    obtain ⟨pay, hpay, am, ⟨_, rfl⟩, T, ⟨_, rfl⟩, rfl, rfl⟩ := h
    refine ⟨⟨a, ha, hled⟩, ?_, ?_, ?_, Or.inr ?_⟩
    · simp only [Incentives.amt, Incentives.save, Incentives.setUser, Function.update_self, Incentives.sync, hu]
    · intro v hv
      simp only [Incentives.save, Incentives.setUser, Function.update_of_ne hv]
      exact huf.1 ▸ rfl
    · simp only [Incentives.save, Incentives.setUser]
      rw [huf.2.1]
    · unfold Incentives.pending Incentives.pendingAstro
      rw [hu]
      have hp := hpay
      unfold Incentives.payAll at hp
      simp only [bind_ok_iff, require_ok, exists_const, Except.ok.injEq] at hp
      obtain ⟨h1, b, hb, rfl⟩ := hp
      refine ⟨fun X => ?_, hb⟩
      have := h1 X
      simp only
      cases hx : Incentives.payExt (Incentives.update inc.now inc.pool).1 (Incentives.update inc.now inc.pool).2 u X with
      | error e => rw [hx] at this; simp [Incentives.isOk] at this
      | ok n => rfl

omit [DecidableEq I] in
/-- C129: automatic staking with the XYK pair.  Where it is accepted, providing without staking would also have been
accepted and minted the same number of LP tokens; the pair ends in the same state, and the LP tokens are staked
for the receiver instead of being sent to them. -/
theorem C129_xyk_auto_stake {k : Link A} {me : A} {s s' : XYK.State A} {inc inc' : Incentives.State I A} {now : Nat}
    {sender : A} {d0 d1 : Nat} {tol minLp : Option Nat} {receiver : A} {share : Nat} {paid : Incentives.Paid I}
    (h : provideXyk k me s inc now sender d0 d1 tol minLp receiver = .ok (s', inc', share, paid)) :
    ∃ plain, XYK.provide me s now sender d0 d1 tol minLp receiver = .ok (plain, share) ∧
      s' = { plain with lp := s'.lp } ∧ inc'.lp = s'.lp ∧ minLp.getD 0 ≤ share ∧
      StakedInstead k inc inc' s'.lp plain.lp receiver share paid := by
  unfold provideXyk at h
  simp only [bind_ok_iff, Except.ok.injEq, Prod.mk.injEq, Prod.exists] at h
  obtain ⟨s1, sh, hp, i1, p1, hs, rfl, rfl, rfl, rfl⟩ := h
  unfold XYK.provide at hp ⊢
  simp only [bind_ok_iff, require_ok, exists_const, Except.ok.injEq, Prod.mk.injEq] at hp ⊢
  obtain ⟨hz, b0, hb0, b1, hb1, p0, hp0, p1', hp1, sh', hsh, hmin, t0, ht0, t1, ht1, tw, htw, rfl, rfl⟩ := hp
  obtain ⟨hst, _⟩ := stake_spec hs (base := credit s.lp me (if s.supply = 0 then XYK.minimumLiquidity else 0)) rfl
  refine ⟨_, ⟨hz, b0, hb0, b1, hb1, p0, hp0, p1', hp1, sh', hsh, hmin, t0, ht0, t1, ht1, tw, htw, rfl, rfl⟩, rfl, trivial,
    by omega, hst⟩

omit [DecidableEq I] in
/-- C129: automatic staking with the stable pair. -/
theorem C129_stable_auto_stake {k : Link A} {su : Stable.Setup} {me : A} {s s' : Stable.State A}
    {inc inc' : Incentives.State I A} {now : Nat} {sender : A} {d : Bool → Nat} {minLp : Option Nat} {receiver : A}
    {share : Nat} {paid : Incentives.Paid I}
    (h : provideStable k su me s inc now sender d minLp receiver = .ok (s', inc', share, paid)) :
    ∃ plain, Stable.provide su me s now sender d minLp receiver = .ok (plain, share) ∧
      s' = { plain with lp := s'.lp } ∧ inc'.lp = s'.lp ∧ minLp.getD 0 ≤ share ∧
      StakedInstead k inc inc' s'.lp plain.lp receiver share paid := by
  unfold provideStable at h
  simp only [bind_ok_iff, Except.ok.injEq, Prod.mk.injEq, Prod.exists] at h
  obtain ⟨s1, sh, hp, i1, p1, hs, rfl, rfl, rfl, rfl⟩ := h
  unfold Stable.provide at hp ⊢
  simp only [bind_ok_iff, require_ok, exists_const, Except.ok.injEq, Prod.mk.injEq] at hp ⊢
  obtain ⟨hz, hz2, b0, hb0, b1, hb1, amp, hamp, sh', hsh, hmin, pools, hpools, tw, htw, rfl, rfl⟩ := hp
  obtain ⟨hst, _⟩ := stake_spec hs (base := credit s.lp me (if s.supply = 0 then XYK.minimumLiquidity else 0)) rfl
  refine ⟨_, ⟨hz, hz2, b0, hb0, b1, hb1, amp, hamp, sh', hsh, hmin, pools, hpools, tw, htw, rfl, rfl⟩, rfl, trivial,
    by omega, hst⟩

omit [DecidableEq I] in
/-- C129: automatic staking with the concentrated pair. -/
theorem C129_pcl_auto_stake {k : Link A} {su : PCL.Setup} {me : A} {s s' : PCL.State A}
    {inc inc' : Incentives.State I A} {now : Nat} {sender : A} {d : Bool → Nat} {tol minLp : Option Nat} {receiver : A}
    {share : Nat} {paid : Incentives.Paid I}
    (h : providePcl k su me s inc now sender d tol minLp receiver = .ok (s', inc', share, paid)) :
    ∃ plain, PCL.provide su me s now sender d tol minLp receiver = .ok (plain, share) ∧
      s' = { plain with lp := s'.lp } ∧ inc'.lp = s'.lp ∧ minLp.getD 0 ≤ share ∧
      StakedInstead k inc inc' s'.lp plain.lp receiver share paid := by
  unfold providePcl at h
  simp only [bind_ok_iff, Except.ok.injEq, Prod.mk.injEq, Prod.exists] at h
  obtain ⟨s1, sh, hp, i1, p1, hs, rfl, rfl, rfl, rfl⟩ := h
  unfold PCL.provide at hp ⊢
  simp only [bind_ok_iff, require_ok, exists_const, Except.ok.injEq, Prod.mk.injEq, Prod.exists] at hp ⊢
  obtain ⟨total, htot, dd, hdd, xs, hxs, sD, pool, hcs, sh', hsh, hmin, hne, b0, hb0, b1, hb1, sup, hsup, tw, htw, rfl, rfl⟩ := hp
  obtain ⟨hst, _⟩ := stake_spec hs (base := credit s.lp me (if total = 0 then PCL.MINIMUM_LIQUIDITY else 0)) rfl
  refine ⟨_, ⟨total, htot, dd, hdd, xs, hxs, sD, pool, hcs, sh', hsh, hmin, hne, b0, hb0, b1, hb1, sup, hsup, tw, htw,
    rfl, rfl⟩, rfl, trivial, hmin, hst⟩

omit [DecidableEq I] in
/-- C129: nothing else makes it fail: if providing without staking is accepted with a positive number of LP tokens, the
factory names an incentives contract and knows the pair, the receiver's rewards can be computed and totals stay below
`2^128`, then providing with automatic staking is accepted. -/
theorem C129_accepted {k : Link A} {me : A} {s plain : XYK.State A} {inc : Incentives.State I A} {now : Nat}
    {sender : A} {d0 d1 : Nat} {tol minLp : Option Nat} {receiver a : A} {share : Nat}
    (h : XYK.provide me s now sender d0 d1 tol minLp receiver = .ok (plain, share)) (hs : share ≠ 0)
    (hk : k.incentives = some a) (hr : k.registered = true)
    (hrew : inc.pool.users receiver = none ∨ ((∀ X, ∃ n, Incentives.pending inc receiver X = .ok n) ∧
      ∃ n, Incentives.pendingAstro inc receiver = .ok n))
    (ha : Incentives.amt inc.pool receiver + share < U128) (ht : inc.pool.totalLp + share < U128) :
    ∃ x, provideXyk k me s inc now sender d0 d1 tol minLp receiver = .ok x := by
  have hst : ∀ base : A → Nat, ∃ y, stake k inc (credit base me share) me receiver share = .ok y := by
    intro base
    unfold stake
    rw [hk]
    simp only [orErr, ok_bind]
    rw [show require (share ≠ 0) (.invalid "invalid coins") = .ok () from if_pos hs,
      show require (k.registered = true) (.invalid "PairNotRegistered") = .ok () from if_pos hr]
    simp only [ok_bind]
    unfold Incentives.deposit
    obtain ⟨l', hl'⟩ := move_succeeds (l := credit base me share) (a := me) (b := a) (n := share) (by rw [credit_self]; omega)
    simp only [hl', ok_bind]
    have htot : (Incentives.update inc.now inc.pool).1.totalLp = inc.pool.totalLp :=
      (Incentives.update_fields inc.now inc.pool).2.1
    cases hu : inc.pool.users receiver with
    | none =>
      simp only [htot]
      rw [show u128 (inc.pool.totalLp + share) = .ok (inc.pool.totalLp + share) from if_pos ht]
      exact ⟨_, rfl⟩
    | some u =>
      rcases hrew with hn | ⟨h1, n, h2⟩
      · rw [hu] at hn; simp at hn
      · unfold Incentives.pending at h1
        unfold Incentives.pendingAstro at h2
        rw [hu] at h1 h2
        simp only at h1 h2
        have hp : ∃ pay, Incentives.payAll (Incentives.update inc.now inc.pool).1 (Incentives.update inc.now inc.pool).2 u =
            .ok pay := by
          unfold Incentives.payAll
          have h3 : ∀ X, Incentives.isOk (Incentives.payExt (Incentives.update inc.now inc.pool).1
              (Incentives.update inc.now inc.pool).2 u X) = true := by
            intro X; obtain ⟨m, hm⟩ := h1 X; rw [hm]; rfl
          rw [show require (∀ X, Incentives.isOk (Incentives.payExt (Incentives.update inc.now inc.pool).1
              (Incentives.update inc.now inc.pool).2 u X) = true) .overflow = .ok () from if_pos h3, h2]
          exact ⟨_, rfl⟩
        obtain ⟨pay, hpay⟩ := hp
        simp only [hpay, ok_bind, htot]
        have hamt : u.amount + share < U128 := by
          unfold Incentives.amt at ha; rw [hu] at ha; exact ha
        rw [show u128 (u.amount + share) = .ok (u.amount + share) from if_pos hamt]
        simp only [ok_bind]
        rw [show u128 (inc.pool.totalLp + share) = .ok (inc.pool.totalLp + share) from if_pos ht]
        exact ⟨_, rfl⟩
  have hp : ∃ q, XYK.provide me s now sender d0 d1 tol minLp me = .ok (q, share) ∧
      q.lp = credit (credit s.lp me (if s.supply = 0 then XYK.minimumLiquidity else 0)) me share := by
    unfold XYK.provide at h ⊢
    simp only [bind_ok_iff, require_ok, exists_const, Except.ok.injEq, Prod.mk.injEq] at h ⊢
    obtain ⟨hz, b0, hb0, b1, hb1, p0, hp0, p1, hp1, sh, hsh, hmin, t0, ht0, t1, ht1, tw, htw, rfl, rfl⟩ := h
    exact ⟨_, ⟨hz, b0, hb0, b1, hb1, p0, hp0, p1, hp1, sh, hsh, hmin, t0, ht0, t1, ht1, tw, htw, rfl, rfl⟩, rfl⟩
  obtain ⟨q, hq, hlp⟩ := hp
  unfold provideXyk
  rw [hq]
  simp only [ok_bind]
  rw [hlp]
  obtain ⟨y, hy⟩ := hst (credit s.lp me (if s.supply = 0 then XYK.minimumLiquidity else 0))
  rw [hy]
  exact ⟨_, rfl⟩

omit [DecidableEq I] in
/-- C129: without an incentives contract, or with a pair the factory does not know, the call fails as a whole. -/
theorem C129_refused (k : Link A) (h : k.incentives = none ∨ k.registered = false) (me : A) (inc : Incentives.State I A)
    (now : Nat) (sender receiver : A) (minLp : Option Nat) :
    (∀ s d0 d1 tol, ∃ e, provideXyk k me s inc now sender d0 d1 tol minLp receiver = .error e) ∧
    (∀ su s d, ∃ e, provideStable k su me s inc now sender d minLp receiver = .error e) ∧
    ∀ su s d tol, ∃ e, providePcl k su me s inc now sender d tol minLp receiver = .error e := by
  have hst : ∀ lp share, ∃ e, stake k inc lp me receiver share = .error e := by
    intro lp share
    unfold stake
    rcases h with h | h
    · rw [h]; exact ⟨_, rfl⟩
    · cases k.incentives with
      | none => exact ⟨_, rfl⟩
      | some a =>
        simp only [orErr, ok_bind]
        by_cases hs : share = 0
        · rw [show require (share ≠ 0) (.invalid "invalid coins") = .error _ from if_neg (by simpa using hs)]
          exact ⟨_, rfl⟩
        · rw [show require (share ≠ 0) (.invalid "invalid coins") = .ok () from if_pos hs]
          simp only [ok_bind]
          rw [show require (k.registered = true) (.invalid "PairNotRegistered") = .error _ from if_neg (by simp [h])]
          exact ⟨_, rfl⟩
  refine ⟨?_, ?_, ?_⟩
  · intro s d0 d1 tol
    unfold provideXyk
    cases XYK.provide me s now sender d0 d1 tol minLp me with
    | error e => exact ⟨e, rfl⟩
    | ok x =>
      obtain ⟨e, he⟩ := hst x.1.lp x.2
      exact ⟨e, by simp only [ok_bind, he]; rfl⟩
  · intro su s d
    unfold provideStable
    cases Stable.provide su me s now sender d minLp me with
    | error e => exact ⟨e, rfl⟩
    | ok x =>
      obtain ⟨e, he⟩ := hst x.1.lp x.2
      exact ⟨e, by simp only [ok_bind, he]; rfl⟩
  · intro su s d tol
    unfold providePcl
    cases PCL.provide su me s now sender d tol minLp me with
    | error e => exact ⟨e, rfl⟩
    | ok x =>
      obtain ⟨e, he⟩ := hst x.1.lp x.2
      exact ⟨e, by simp only [ok_bind, he]; rfl⟩

/-! ## Concrete cases -/

/-- Account 9 is the incentives contract; account 3 has staked 500 and has 1000 units of reward token 0 pending. -/
def wInc : Incentives.State (Fin 1) Nat :=
  { pool :=
      { totalLp := 500, last := 8, ext := fun _ => some ⟨500 * 10 ^ 18, 1000, 0, 0⟩, int := none,
        users := fun u => if u = 3 then some ⟨500, fun _ => some 0, none, 8⟩ else none,
        sched := fun _ => [], fin := [], orph := fun _ => 0 },
    lp := fun _ => 0, now := 10 }

def wLink : Link Nat := ⟨some 9, true⟩

example : okAnd (provideXyk wLink 0 XYK.demo wInc 9 2 4010 9000 none (some 6000) 3) (fun x =>
    decide (x.2.2.1 = 6000 ∧ Incentives.amt x.2.1.pool 3 = 6500 ∧ x.1.lp 9 = 6000 ∧ x.1.lp 3 = 0 ∧
      x.2.2.2.ext 0 = 1000)) = true := by
  decide +kernel

/-- Nobody has staked yet; four accounts, of which 3 is the incentives contract. -/
def wInc4 : Incentives.State (Fin 1) (Fin 4) := { pool := Incentives.Pool.empty, lp := fun _ => 0, now := 10 }

example : okAnd (provideStable ⟨some 3, true⟩ Stable.demoSetup 0 Stable.demo1 wInc4 200 1 (fun i => if i then 10 ^ 8 else 0)
    none 2) (fun x => decide (0 < x.2.2.1 ∧ Incentives.amt x.2.1.pool 2 = x.2.2.1 ∧ x.1.lp 3 = x.2.2.1 ∧ x.1.lp 2 = 0)) =
    true := by
  decide +kernel

example : okAnd (providePcl ⟨some 3, true⟩ PCL.demoSetup 0 PCL.demo0 wInc4 2000 2 (fun _ => 10 ^ 12) none none 2) (fun x =>
    decide (0 < x.2.2.1 ∧ Incentives.amt x.2.1.pool 2 = x.2.2.1 ∧ x.1.lp 3 = x.2.2.1 ∧ x.1.lp 2 = 0 ∧
      x.1.lp 0 = 1000)) = true := by
  decide +kernel

end Verif.Joint
