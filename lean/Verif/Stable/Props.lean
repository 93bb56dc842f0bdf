import Verif.Stable.Amp
import Verif.Stable.Solver
import Verif.XYK.Props

/-!
# C47, C48, C77–C79: swaps, deposits and withdrawals of the stableswap pair
-/

namespace Verif.Stable

open Verif.XYK (Fees SwapOut splitFees sendOpt shareInAsset checkSwapParameters assertMaxSpread
  ensureMinAssets minimumLiquidity)

variable {A : Type} [DecidableEq A]

/-! ## Lemmas -/

@[simp] theorem toU128_ok (d p m : Nat) :
    toU128 d p = .ok m ↔ p ≤ 18 ∧ d / 10 ^ (18 - p) < U128 ∧ d / 10 ^ (18 - p) = m := by
  simp [toU128]

@[simp] theorem withPrec_ok (v p m : Nat) :
    withPrec v p = .ok m ↔ p ≤ 18 ∧ v * 10 ^ (18 - p) < U256 ∧ v * 10 ^ (18 - p) = m := by
  simp [withPrec]

theorem scale_cancel (v p : Nat) : v * 10 ^ (18 - p) / 10 ^ (18 - p) = v :=
  Nat.mul_div_cancel _ (Nat.pow_pos (by decide))

theorem payout_spec {l l' : A → Nat} {src dst : A} {n : Nat} (h : payout l src dst n = .ok l') :
    move l src dst n = .ok l' := by
  unfold payout at h
  split at h
  next h0 =>
    subst h0
    rw [Except.ok.injEq] at h
    subst h
    rw [move_ok]
    refine ⟨l, by simp [debit], ?_⟩
    simp [credit]
  next => exact h

/-- What a successful quote means. -/
structure QuoteSpec (su : Setup) (amp : Nat) (i : Bool) (offer : Nat) (pool : Bool → Nat) (rate : Nat)
    (r : XYK.SwapResult) (d raw : Nat) : Prop where
  pi : su.prec i ≤ 18
  pa : su.prec (!i) ≤ 18
  nz : pool i ≠ 0 ∧ pool (!i) ≠ 0 ∧ offer ≠ 0
  hd : computeD amp (pool i * 10 ^ (18 - su.prec i)) (pool (!i) * 10 ^ (18 - su.prec (!i))) = .ok d
  root : AlmostRoot (bOf amp ((pool i + offer) * 10 ^ (18 - su.prec i)) d)
    (cOf amp ((pool i + offer) * 10 ^ (18 - su.prec i)) d) d raw
  le : raw / 10 ^ (18 - su.prec (!i)) ≤ pool (!i)
  com : r.commission = (pool (!i) - raw / 10 ^ (18 - su.prec (!i))) * rate / DEC
  ret : r.ret = (pool (!i) - raw / 10 ^ (18 - su.prec (!i))) - r.commission

theorem quote_spec {su : Setup} {amp : Nat} {i : Bool} {offer : Nat} {pool : Bool → Nat} {rate : Nat}
    {r : XYK.SwapResult} (h : quote su amp i offer pool rate = .ok r) :
    ∃ d raw, QuoteSpec su amp i offer pool rate r d raw := by
  simp only [quote, computeSwap, checkSwapParameters, bind_ok_iff, require_ok, exists_const, toU128_ok,
    withPrec_ok, dadd_ok, csub_ok, u128_ok, Except.ok.injEq] at h
  obtain ⟨_, ⟨h1, _, rfl⟩, _, ⟨h2, _, rfl⟩, _, ⟨_, _, rfl⟩, _, ⟨_, _, rfl⟩, ⟨hz, hoff⟩, _, ⟨_, _, rfl⟩, g,
    ⟨_, ⟨_, rfl⟩, y, hy, _, ⟨_, _, rfl⟩, _, ⟨hle, rfl⟩, _, ⟨_, _, rfl⟩, rfl⟩, _, ⟨_, rfl⟩, rfl⟩ := h
  rw [scale_cancel] at *
  obtain ⟨d, raw, hd, hroot, rfl⟩ := C69_y_converged _ _ _ _ _ _ hy
  rw [scale_cancel] at hz
  rw [← Nat.add_mul] at hroot
  refine ⟨d, raw, h1, h2, ?_, hd, hroot, hle, rfl, rfl⟩
  simp at hz
  exact ⟨hz.1, hz.2, hoff⟩

/-- What a successful swap means. -/
structure SwapSpec (su : Setup) (me : A) (s : State A) (now : Nat) (u : A) (i : Bool) (n : Nat)
    (b m : Option Nat) (r : A) (f : Fees A) (s' : State A) (out : SwapOut) : Prop where
  hq : ∃ amp, currentAmp s.amp now = .ok amp ∧
    quote su amp i n (fun j => s.bal j me) f.total = .ok ⟨out.ret, out.spread, out.commission⟩ ∧
    ∃ pools, decPools su (fun j => s.bal j me) = .ok pools ∧
      accumulate su amp now s.twap pools = .ok s'.twap
  hspread : assertMaxSpread b m n (out.ret + out.commission) out.spread = .ok ()
  hsplit : splitFees { f with share := s.share } out.commission = .ok (out.feeShare, out.makerFee)
  hbo : move (s.bal i) u me n = .ok (s'.bal i)
  hba : ∃ l1 l2, move (s.bal (!i)) me r out.ret = .ok l1 ∧
    sendOpt l1 me (s.share.map (·.2)) out.feeShare = .ok l2 ∧
    sendOpt l2 me f.feeAddr out.makerFee = .ok (s'.bal (!i))
  hlp : s'.lp = s.lp
  hsup : s'.supply = s.supply

theorem swap_spec {su : Setup} {me : A} {s : State A} {now : Nat} {u : A} {i : Bool} {n : Nat}
    {b m : Option Nat} {r : A} {f : Fees A} {s' : State A} {out : SwapOut} (hu : u ≠ me)
    (h : swap su me s now u i n b m r f = .ok (s', out)) : SwapSpec su me s now u i n b m r f s' out := by
  simp only [swap, bind_ok_iff, csub_ok, u128_ok, Except.ok.injEq, Prod.mk.injEq, Prod.exists] at h
  obtain ⟨bo, hbo, op, ⟨_, hop⟩, amp, hamp, q, hq, g, ⟨_, rfl⟩, ⟨⟩, hms, sa, mk, hsplit, l1, hl1, l2, hl2,
    l3, hl3, pools, hpools, tw, htw, rfl, rfl⟩ := h
  have e := move_apply hbo me
  simp [Ne.symm hu] at e
  have hop' : op = s.bal i me := by omega
  subst hop'
  have hp : (fun j => if j = i then s.bal i me else s.bal (!i) me) = fun j => s.bal j me := by
    funext j
    by_cases hj : j = i
    · simp [hj]
    · have : j = !i := by cases i <;> cases j <;> simp_all
      simp [this]
  rw [hp] at hq hpools
  refine ⟨⟨amp, hamp, hq, pools, hpools, htw⟩, hms, hsplit, by simpa using hbo,
    ⟨l1, l2, payout_spec hl1, hl2, by simpa using hl3⟩, rfl, rfl⟩

/-! ## C47 -/

/-- **C47 (partial).**  Any successful stableswap swap: the solver converged (`D` exists and `raw` solves the
curve's quadratic up to the tolerance); the gross output is the ask reserve minus `raw` rounded down to
whole units, hence at most the reserve; the commission is the fee rate on it, rounded down, and the trader gets
the rest; shared and maker fee come out of the commission; reserves change by exactly the offer in and the
payments out.  The gross output is strictly below the reserve as soon as the solution is at least one unit.
Missing: strictness without that side condition, which is false (`C47_reserve_drained_violated`). -/
theorem C47_swap_accounting_partial (su : Setup) (me : A) (s s' : State A) (now : Nat) (u : A)
    (hu : u ≠ me) (i : Bool) (n : Nat) (b m : Option Nat) (r : A) (f : Fees A)
    (hf : f.total ≤ 10 ^ 18 ∧ f.maker ≤ 10 ^ 18) (hs : ∀ p, s.share = some p → p.1 ≤ 10000)
    (out : SwapOut) (h : swap su me s now u i n b m r f = .ok (s', out)) :
    (∃ amp d raw,
      currentAmp s.amp now = .ok amp ∧
      computeD amp (s.bal i me * 10 ^ (18 - su.prec i)) (s.bal (!i) me * 10 ^ (18 - su.prec (!i))) = .ok d ∧
      AlmostRoot (bOf amp ((s.bal i me + n) * 10 ^ (18 - su.prec i)) d)
        (cOf amp ((s.bal i me + n) * 10 ^ (18 - su.prec i)) d) d raw ∧
      out.ret + out.commission + raw / 10 ^ (18 - su.prec (!i)) = s.bal (!i) me ∧
      (10 ^ (18 - su.prec (!i)) ≤ raw → out.ret + out.commission < s.bal (!i) me)) ∧
    out.ret + out.commission ≤ s.bal (!i) me ∧
    out.commission = (out.ret + out.commission) * f.total / 10 ^ 18 ∧
    out.makerFee + out.feeShare ≤ out.commission ∧
    s'.bal i me = s.bal i me + n ∧
    s.bal (!i) me ≤ s'.bal (!i) me + (out.ret + out.commission) ∧
    (r ≠ me → f.feeAddr ≠ some me → (∀ p, s.share = some p → p.2 ≠ me) →
      s'.bal (!i) me + (out.ret + (if f.feeAddr = none then 0 else out.makerFee) +
        (if s.share = none then 0 else out.feeShare)) = s.bal (!i) me) := by
  have sp := swap_spec hu h
  have hD : DEC = 10 ^ 18 := rfl
  obtain ⟨amp, hamp, hq, _⟩ := sp.hq
  obtain ⟨d, raw, q⟩ := quote_spec hq
  have hcle : out.commission ≤ s.bal (!i) me - raw / 10 ^ (18 - su.prec (!i)) := by
    have := q.com
    dsimp only at this
    rw [this]
    exact mul_div_le_of_le (by rw [hD]; exact hf.1)
  have hq0 := Nat.zero_le (raw / 10 ^ (18 - su.prec (!i)))
  have hret := q.ret
  have hcom := q.com
  have hle := q.le
  dsimp only at hret hcom hle
  have hg : out.ret + out.commission = s.bal (!i) me - raw / 10 ^ (18 - su.prec (!i)) := by omega
  have hsplit : out.feeShare + out.makerFee ≤ out.commission :=
    XYK.splitFees_le (f := { f with share := s.share }) (by rw [hD]; exact hf.2) hs sp.hsplit
  have hoff := move_apply sp.hbo me
  simp [Ne.symm hu] at hoff
  obtain ⟨l1, l2, h1, h2, h3⟩ := sp.hba
  refine ⟨⟨amp, d, raw, hamp, q.hd, q.root, by omega, ?_⟩, by omega, ?_, by omega, hoff, ?_, ?_⟩
  · intro hbig
    have : 1 ≤ raw / 10 ^ (18 - su.prec (!i)) := by
      rw [Nat.le_div_iff_mul_le (Nat.pow_pos (by decide))]; simpa using hbig
    omega
  · rw [← hg] at hcom; rw [← hD]; exact hcom
  · have e1 := move_apply h1 me
    simp at e1
    have e2 := (XYK.sendOpt_self h2).1
    have e3 := (XYK.sendOpt_self h3).1
    omega
  · intro hr hfa hsh
    have e1 := move_apply h1 me
    have e1' := move_le h1
    simp [Ne.symm hr] at e1
    have e2 : l2 me + (if s.share = none then 0 else out.feeShare) = l1 me := by
      cases hs : s.share with
      | none => simp [hs, sendOpt] at h2; simp [h2]
      | some p =>
        simp only [hs, Option.map_some, sendOpt] at h2
        have := move_apply h2 me
        have hle := move_le h2
        simp [Ne.symm (hsh p hs)] at this
        simp; omega
    have e3 : s'.bal (!i) me + (if f.feeAddr = none then 0 else out.makerFee) = l2 me := by
      cases hs : f.feeAddr with
      | none => simp [hs, sendOpt] at h3; simp [h3]
      | some p =>
        simp only [hs, sendOpt] at h3
        have hp : me ≠ p := fun hp => hfa (by rw [hs, hp])
        have := move_apply h3 me
        have hle := move_le h3
        simp [hp] at this
        simp; omega
    omega

/-- **C47.** When the invariant solver does not converge (or fails otherwise) on the current reserves, no swap
succeeds. -/
theorem C47_no_solution_no_swap (su : Setup) (me : A) (s : State A) (now : Nat) (u : A) (hu : u ≠ me)
    (i : Bool) (n : Nat) (b m : Option Nat) (r : A) (f : Fees A)
    (hbad : ∀ amp, currentAmp s.amp now = .ok amp →
      (∀ d, computeD amp (s.bal i me * 10 ^ (18 - su.prec i))
        (s.bal (!i) me * 10 ^ (18 - su.prec (!i))) ≠ .ok d) ∨
      (∀ y, calcYRaw amp ((s.bal i me + n) * 10 ^ (18 - su.prec i)) (s.bal i me * 10 ^ (18 - su.prec i))
        (s.bal (!i) me * 10 ^ (18 - su.prec (!i))) ≠ .ok y)) :
    ¬ Succeeds (swap su me s now u i n b m r f) := by
  rintro ⟨⟨s', out⟩, h⟩
  obtain ⟨amp, hamp, hq, _⟩ := (swap_spec hu h).hq
  rcases hbad amp hamp with hb | hb
  · obtain ⟨d, raw, q⟩ := quote_spec hq
    exact hb d q.hd
  · simp only [quote, computeSwap, bind_ok_iff, toU128_ok, withPrec_ok, dadd_ok, calcY] at hq
    obtain ⟨_, ⟨h1, _, rfl⟩, _, ⟨h2, _, rfl⟩, _, _, _, _, _, _, _, ⟨_, _, rfl⟩, g,
      ⟨_, ⟨_, rfl⟩, y, ⟨raw, hraw, _⟩, _⟩, _⟩ := hq
    rw [← Nat.add_mul] at hraw
    exact hb raw hraw

/-- No fees. -/
def noFees : Fees Acct := ⟨0, 0, none, none⟩

/-- A pool with 1000 tokens (6 decimals) of each asset. -/
def demo1 : State Acct :=
  { demo0 with bal := fun _ a => if a = 0 then 10 ^ 9 else 10 ^ 30, lp := fun a => if a = 1 then 2 * 10 ^ 9 else 0,
               supply := 2 * 10 ^ 9, twap := ⟨fun _ => 0, 100⟩ }

/-- Non-vacuity of the swap theorems: 10 tokens in, with a 0.05 % fee, half of it to the maker. -/
example : okAnd (swap demoSetup 0 demo1 200 1 false (10 ^ 7) none none 2 ⟨5 * 10 ^ 14, 5 * 10 ^ 17, some 3, none⟩)
    (fun x => x.2.ret = 9994011 ∧ x.2.commission = 4999 ∧ x.2.makerFee = 2499) = true := by
  decide +kernel

/-- The code violates the strict part of C47: in a pool of 1000/1000 tokens an offer of 10^10 tokens is
paid the *whole* other reserve, because the remaining reserve (below one unit) is rounded down to zero.
Afterwards nobody can trade or deposit a single asset. -/
theorem C47_reserve_drained_violated :
    okAnd (swap demoSetup 0 demo1 200 2 false (10 ^ 16) (some (10 ^ 30)) none 2 noFees) (fun x =>
      x.2.ret = 10 ^ 9 ∧ x.1.bal true 0 = 0 ∧
      fails (swap demoSetup 0 x.1 300 3 true 1000000 none (some (5 * 10 ^ 17)) 3 noFees)) = true := by
  decide +kernel

/-- The fee share stored in the pool is always between 1 and 1000 basis points, in every history. -/
theorem C47_fee_share_bounded (su : Setup) (me : A) (bal : Bool → A → Nat) (owner : Option A)
    (amp t0 : Nat) (s : State A) (hc : create bal owner amp t0 = .ok s) (es : List (Event A)) :
    ∀ p, (run su me s es).share = some p → 1 ≤ p.1 ∧ p.1 ≤ 1000 := by
  have h0 : ∀ p, s.share = some p → 1 ≤ p.1 ∧ p.1 ≤ 1000 := by
    simp only [create, bind_ok_iff, Except.ok.injEq] at hc
    obtain ⟨_, _, rfl⟩ := hc
    intro p hp
    cases hp
  clear hc
  unfold run
  induction es generalizing s with
  | nil => exact h0
  | cons e es ih =>
    rw [List.foldl_cons]
    apply ih
    unfold step
    apply commit'_inv (fun s : State A => ∀ p, s.share = some p → 1 ≤ p.1 ∧ p.1 ≤ 1000) h0
    intro s' h
    simp only [exec, bind_ok_iff, require_ok, exists_const] at h
    obtain ⟨_, h⟩ := h
    cases ho : e.op with
    | provide u d m r =>
      simp only [ho, bind_ok_iff, Except.ok.injEq] at h
      obtain ⟨⟨s1, x⟩, h, rfl⟩ := h
      simp only [provide, bind_ok_iff, Except.ok.injEq, Prod.mk.injEq] at h
      obtain ⟨_, _, _, _, _, _, _, _, _, _, _, _, _, _, _, _, _, _, rfl, _⟩ := h
      exact h0
    | withdraw u n m =>
      simp only [ho, bind_ok_iff, Except.ok.injEq] at h
      obtain ⟨⟨s1, x⟩, h, rfl⟩ := h
      simp only [withdraw, bind_ok_iff, Except.ok.injEq, Prod.mk.injEq] at h
      obtain ⟨_, _, _, _, _, _, _, _, _, _, _, _, _, _, _, _, _, _, _, _, _, _, _, _, _, _, rfl, _⟩ := h
      exact h0
    | swap u i n b m r f =>
      simp only [ho, bind_ok_iff, Except.ok.injEq] at h
      obtain ⟨⟨s1, x⟩, h, rfl⟩ := h
      simp only [swap, bind_ok_iff, Except.ok.injEq, Prod.mk.injEq] at h
      obtain ⟨_, _, _, _, _, _, _, _, _, _, _, _, _, _, _, _, _, _, _, _, _, _, _, _, rfl, _⟩ := h
      exact h0
    | enableShare u bps r =>
      have hm : MAX_FEE_SHARE_BPS = 1000 := rfl
      simp only [ho, bind_ok_iff, authorised, require_ok, exists_const, Except.ok.injEq] at h
      obtain ⟨_, hb, rfl⟩ := h
      intro p hp
      simp only [Option.some.injEq] at hp
      subst hp
      dsimp only
      omega
    | disableShare u =>
      simp only [ho, bind_ok_iff, authorised, require_ok, exists_const, Except.ok.injEq] at h
      obtain ⟨_, rfl⟩ := h
      intro p hp
      cases hp
    | startAmp u next t =>
      simp only [ho, bind_ok_iff, authorised, require_ok, exists_const, Except.ok.injEq] at h
      obtain ⟨_, _, _, rfl⟩ := h
      exact h0
    | stopAmp u =>
      simp only [ho, bind_ok_iff, authorised, require_ok, exists_const, Except.ok.injEq] at h
      obtain ⟨_, _, _, rfl⟩ := h
      exact h0
    | send i u v n =>
      simp only [ho, bind_ok_iff, Except.ok.injEq] at h
      obtain ⟨_, _, rfl⟩ := h
      exact h0
    | sendLp u v n =>
      simp only [ho, bind_ok_iff, Except.ok.injEq] at h
      obtain ⟨_, _, rfl⟩ := h
      exact h0

/-! ## C48 -/

/-- What a successful deposit means. -/
structure ProvideSpec (su : Setup) (me : A) (s : State A) (now : Nat) (u : A) (d : Bool → Nat)
    (minLp : Option Nat) (r : A) (s' : State A) (share : Nat) : Prop where
  nz : ¬ (d false = 0 ∧ d true = 0)
  hshare : ∃ amp, currentAmp s.amp now = .ok amp ∧
    calculateShares su amp s.supply (fun i => s.bal i me) d = .ok share ∧
    ∃ pools, decPools su (fun i => s.bal i me + if su.native i then d i else 0) = .ok pools ∧
      accumulate su amp now s.twap pools = .ok s'.twap
  hmin : minLp.getD 0 ≤ share
  hbal : ∀ i, move (s.bal i) u me (d i) = .ok (s'.bal i)
  hsup : s'.supply = s.supply + (if s.supply = 0 then 1000 else 0) + share
  hlp : s'.lp = credit (credit s.lp me (if s.supply = 0 then 1000 else 0)) r share

theorem provide_spec {su : Setup} {me : A} {s : State A} {now : Nat} {u : A} {d : Bool → Nat}
    {minLp : Option Nat} {r : A} {s' : State A} {share : Nat}
    (h : provide su me s now u d minLp r = .ok (s', share)) :
    ProvideSpec su me s now u d minLp r s' share := by
  simp only [provide, bind_ok_iff, require_ok, exists_const, Except.ok.injEq, Prod.mk.injEq] at h
  obtain ⟨hnz, _, b0, hb0, b1, hb1, amp, hamp, sh, hsh, hmin, pools, hpools, tw, htw, rfl, rfl⟩ := h
  refine ⟨hnz, ⟨amp, hamp, hsh, pools, hpools, htw⟩, by omega, ?_, rfl, rfl⟩
  intro i
  cases i
  · simpa using payout_spec hb0
  · simpa using payout_spec hb1

/-- **C48.** LP tokens minted for a deposit into a live pool are positive, at least the requested minimum, and
at most `supply · (D₁ - D₀) / D₀`, where `D₀`, `D₁` are the invariants of the reserves before and after
(the deposit being exactly what the depositor paid). -/
theorem C48_mint_bounded_by_invariant (su : Setup) (me : A) (s s' : State A) (now : Nat) (u : A)
    (hu : u ≠ me) (d : Bool → Nat) (minLp : Option Nat) (r : A) (share : Nat) (hsup : s.supply ≠ 0)
    (h : provide su me s now u d minLp r = .ok (s', share)) :
    0 < share ∧ minLp.getD 0 ≤ share ∧ s'.supply = s.supply + share ∧
    (∀ a, s'.lp a = s.lp a + if a = r then share else 0) ∧
    (∀ i, s'.bal i me = s.bal i me + d i ∧ s'.bal i u + d i = s.bal i u) ∧
    ∃ amp D0 D1, currentAmp s.amp now = .ok amp ∧
      computeD amp (s.bal false me * 10 ^ (18 - su.prec false))
        (s.bal true me * 10 ^ (18 - su.prec true)) = .ok D0 ∧
      computeD amp (s'.bal false me * 10 ^ (18 - su.prec false))
        (s'.bal true me * 10 ^ (18 - su.prec true)) = .ok D1 ∧
      D0 < D1 ∧ share * D0 ≤ s.supply * (D1 - D0) := by
  have sp := provide_spec h
  obtain ⟨amp, hamp, hsh, _⟩ := sp.hshare
  have hb : ∀ i, s'.bal i me = s.bal i me + d i ∧ s'.bal i u + d i = s.bal i u := by
    intro i
    have e1 := move_apply (sp.hbal i) me
    have e2 := move_apply (sp.hbal i) u
    have e3 := move_le (sp.hbal i)
    simp [hu, Ne.symm hu] at e1 e2
    omega
  have hm : minimumLiquidity = 1000 := rfl
  simp only [calculateShares, hsup, if_false, bind_ok_iff, withPrec_ok, toU128_ok, dadd_ok, cdiv_ok,
    u256_ok, require_ok, exists_const, Except.ok.injEq] at hsh
  obtain ⟨_, ⟨_, _, rfl⟩, _, ⟨_, _, rfl⟩, _, ⟨_, _, rfl⟩, _, ⟨_, _, rfl⟩, _, ⟨_, rfl⟩, _, ⟨_, rfl⟩, D1, hD1, D0,
    hD0, _, ⟨_, _, rfl⟩, _, ⟨h0, rfl⟩, _, ⟨_, rfl⟩, _, ⟨hg, _, rfl⟩, hne, rfl⟩ := hsh
  rw [← Nat.add_mul, ← Nat.add_mul] at hD1
  have hsup' := sp.hsup
  rw [if_neg hsup] at hsup'
  generalize hS : s.supply * 10 ^ (18 - su.greatest) * (D1 - D0) / D0 / 10 ^ (18 - su.greatest) = S at *
  have hk : 0 < 10 ^ (18 - su.greatest) := Nat.pow_pos (by decide)
  have hbound : S * D0 ≤ s.supply * (D1 - D0) := by
    have h1 : S * 10 ^ (18 - su.greatest) ≤ s.supply * 10 ^ (18 - su.greatest) * (D1 - D0) / D0 := by
      rw [← hS]; exact Nat.div_mul_le_self _ _
    have h2 := Nat.div_mul_le_self (s.supply * 10 ^ (18 - su.greatest) * (D1 - D0)) D0
    generalize 10 ^ (18 - su.greatest) = k at *
    have h3 : S * k * D0 ≤ s.supply * k * (D1 - D0) := le_trans (Nat.mul_le_mul_right _ h1) h2
    have h4 : S * D0 * k ≤ s.supply * (D1 - D0) * k := by nlinarith
    exact Nat.le_of_mul_le_mul_right h4 hk
  refine ⟨Nat.pos_of_ne_zero hne, sp.hmin, by omega, ?_, hb, amp, D0, D1, hamp, hD0, ?_, ?_, hbound⟩
  · intro a
    rw [sp.hlp, if_neg hsup, credit_apply, credit_apply]
    split <;> simp
  · rw [(hb false).1, (hb true).1]; exact hD1
  · by_contra hlt
    have : D1 - D0 = 0 := by omega
    rw [this, Nat.mul_zero, Nat.zero_div, Nat.zero_div] at hS
    exact hne hS.symm

/-- **C48.** The first deposit mints at most the invariant (in units of the LP token), of which 1000 stay locked
in the pool itself, and a positive amount to the receiver. -/
theorem C48_first_deposit (su : Setup) (me : A) (s s' : State A) (now : Nat) (u : A) (hu : u ≠ me)
    (d : Bool → Nat) (minLp : Option Nat) (r : A) (share : Nat) (hsup : s.supply = 0)
    (h : provide su me s now u d minLp r = .ok (s', share)) :
    0 < share ∧ minLp.getD 0 ≤ share ∧ s'.supply = share + 1000 ∧ s.lp me + 1000 ≤ s'.lp me ∧
    ∃ amp D1, currentAmp s.amp now = .ok amp ∧
      computeD amp (s'.bal false me * 10 ^ (18 - su.prec false))
        (s'.bal true me * 10 ^ (18 - su.prec true)) = .ok D1 ∧
      s'.supply = D1 / 10 ^ (18 - max (su.prec false) (su.prec true)) := by
  have sp := provide_spec h
  obtain ⟨amp, hamp, hsh, _⟩ := sp.hshare
  have hb : ∀ i, s'.bal i me = s.bal i me + d i := by
    intro i
    have e1 := move_apply (sp.hbal i) me
    simp [Ne.symm hu] at e1
    omega
  have hm : minimumLiquidity = 1000 := rfl
  simp only [calculateShares, hsup, if_true, bind_ok_iff, withPrec_ok, toU128_ok, dadd_ok, csub_ok,
    require_ok, exists_const, Except.ok.injEq] at hsh
  obtain ⟨_, ⟨_, _, rfl⟩, _, ⟨_, _, rfl⟩, _, ⟨_, _, rfl⟩, _, ⟨_, _, rfl⟩, _, ⟨_, rfl⟩, _, ⟨_, rfl⟩, D1, hD1, _,
    ⟨_, _, rfl⟩, _, ⟨hle, rfl⟩, hne, rfl⟩ := hsh
  rw [← Nat.add_mul, ← Nat.add_mul] at hD1
  have hsup' := sp.hsup
  rw [if_pos hsup] at hsup'
  rw [hm] at *
  refine ⟨Nat.pos_of_ne_zero hne, sp.hmin, by omega, ?_, amp, D1, hamp, ?_, ?_⟩
  · rw [sp.hlp, if_pos hsup, credit_apply, credit_apply]
    split <;> simp
  · rw [hb false, hb true]; exact hD1
  · have : su.greatest = max (su.prec false) (su.prec true) := rfl
    rw [this] at hle hsup'
    omega

/-- **C48.** A withdrawal pays at most the pro-rata share of each reserve and burns exactly the LP tokens
sent. -/
theorem C48_withdraw_pro_rata (su : Setup) (me : A) (s s' : State A) (now : Nat) (u : A) (hu : u ≠ me)
    (n : Nat) (mins : Option (List (Bool × Nat))) (r0 r1 : Nat) (hsup : s.supply ≠ 0)
    (h : withdraw su me s now u n mins = .ok (s', (r0, r1))) :
    r0 * s.supply ≤ s.bal false me * n ∧ r1 * s.supply ≤ s.bal true me * n ∧
    s'.supply + n = s.supply ∧ s'.lp u + n = s.lp u ∧
    s'.bal false u = s.bal false u + r0 ∧ s'.bal true u = s.bal true u + r1 ∧
    s'.bal false me + r0 = s.bal false me ∧ s'.bal true me + r1 = s.bal true me := by
  simp only [withdraw, bind_ok_iff, require_ok, exists_const, csub_ok, Except.ok.injEq, Prod.mk.injEq] at h
  obtain ⟨_, lp, hlp, a, ha, b, hb, _, _, pools, _, amp, _, tw, _, _, b0, hb0, b1, hb1, lp2, hlp2, sup, ⟨hs1, hs2⟩,
    rfl, rfl, rfl⟩ := h
  have e1 := (XYK.shareInAsset_ok hsup ha).2
  have e2 := (XYK.shareInAsset_ok hsup hb).2
  have m0 := move_apply hb0 u
  have m0' := move_apply hb0 me
  have l0 := move_le hb0
  have m1 := move_apply hb1 u
  have m1' := move_apply hb1 me
  have l1 := move_le hb1
  have p1 := move_apply hlp u
  have p2 := move_le hlp
  have p3 := debit_apply hlp2 u
  simp [hu, Ne.symm hu] at m0 m0' m1 m1' p1 p3
  dsimp only
  refine ⟨e1, e2, by omega, by omega, ?_, ?_, ?_, ?_⟩ <;> simp <;> omega

/-- Non-vacuity of the deposit and withdrawal theorems. -/
example :
    okAnd (provide demoSetup 0 demo1 200 1 (fun i => if i then 10 ^ 8 else 0) none 2) (fun x =>
      x.2 = 99976373 ∧ okAnd (withdraw demoSetup 0 x.1 300 2 x.2 none) (fun y =>
        y.2 = (47608332, 52369165))) = true ∧
    okAnd (provide demoSetup 0 { demo0 with bal := fun _ a => if a = 0 then 0 else 10 ^ 12 } 200 1 (fun _ => 10 ^ 6) none 2) (fun x =>
      x.2 = 1999000) = true := by
  decide +kernel

/-! ## C77: price accumulators -/

/-- **C77 (partial).** A swap, a withdrawal, and a deposit of cw20 tokens, adds to each price accumulator (modulo `2^128`)
the elapsed time times the price (6 digits) of one whole token *at the reserves that were in the pool before
the transaction*, and nothing if no time has passed since the last update.
Missing: a deposit of native coins uses the reserves after the deposit (`C77_deposit_skews_violated`). -/
theorem C77_accumulator_uses_old_reserves_partial (su : Setup) (me : A) (s s' : State A) (now : Nat)
    (hyp :
      (∃ u i n b m r f out, u ≠ me ∧ swap su me s now u i n b m r f = .ok (s', out)) ∨
      (∃ u n m out, withdraw su me s now u n m = .ok (s', out)) ∨
      (∃ u d m r share, (∀ i, su.native i = true → d i = 0) ∧ provide su me s now u d m r = .ok (s', share)))
    (hnz : s.bal false me ≠ 0 ∧ s.bal true me ≠ 0) :
    (now ≤ s.twap.last → s'.twap = s.twap) ∧
    (s.twap.last < now → s'.twap.last = now ∧ ∀ i, ∃ amp g price,
      currentAmp s.amp now = .ok amp ∧
      computeSwap (su.prec (!i)) amp DEC (s.bal i me * 10 ^ (18 - su.prec i))
        (s.bal (!i) me * 10 ^ (18 - su.prec (!i))) = .ok g ∧
      adjustPrecision g.ret (su.prec (!i)) 6 = .ok price ∧
      s'.twap.cum i = (s.twap.cum i + (now - s.twap.last) * price) % 2 ^ 128) := by
  have key : ∃ amp pools, currentAmp s.amp now = .ok amp ∧
      decPools su (fun j => s.bal j me) = .ok pools ∧ accumulate su amp now s.twap pools = .ok s'.twap := by
    rcases hyp with ⟨u, i, n, b, m, r, f, out, hu, h⟩ | ⟨u, n, m, out, h⟩ | ⟨u, d, m, r, share, hn, h⟩
    · obtain ⟨amp, h1, _, pools, h2, h3⟩ := (swap_spec hu h).hq
      exact ⟨amp, pools, h1, h2, h3⟩
    · simp only [withdraw, bind_ok_iff, Except.ok.injEq, Prod.mk.injEq] at h
      obtain ⟨_, _, _, _, _, _, _, _, _, _, pools, h2, amp, h1, tw, h3, _, _, _, _, _, _, _, _, _, _, rfl, _⟩ := h
      exact ⟨amp, pools, h1, h2, h3⟩
    · obtain ⟨amp, h1, _, pools, h2, h3⟩ := (provide_spec h).hshare
      have : (fun i => s.bal i me + if su.native i then d i else 0) = fun i => s.bal i me := by
        funext i
        by_cases hi : su.native i = true
        · simp [hi, hn i hi]
        · simp [hi]
      rw [this] at h2
      exact ⟨amp, pools, h1, h2, h3⟩
  obtain ⟨amp, pools, hamp, hpools, hacc⟩ := key
  simp only [decPools, bind_ok_iff, withPrec_ok, Except.ok.injEq] at hpools
  obtain ⟨_, ⟨_, _, rfl⟩, _, ⟨_, _, rfl⟩, rfl⟩ := hpools
  have hk : ∀ p, 0 < 10 ^ (18 - p) := fun p => Nat.pow_pos (by decide)
  have hp0 : s.bal false me * 10 ^ (18 - su.prec false) ≠ 0 := Nat.mul_ne_zero hnz.1 (hk _).ne'
  have hp1 : s.bal true me * 10 ^ (18 - su.prec true) ≠ 0 := Nat.mul_ne_zero hnz.2 (hk _).ne'
  unfold accumulate at hacc
  constructor
  · intro hle
    rw [if_pos hle, Except.ok.injEq] at hacc
    exact hacc.symm
  · intro hlt
    rw [if_neg (by omega), if_pos ⟨by simpa using hp0, by simpa using hp1⟩] at hacc
    simp only [bind_ok_iff, accOne, u128_ok, Except.ok.injEq] at hacc
    obtain ⟨_, ⟨g0, hg0, q0, hq0, _, ⟨_, rfl⟩, rfl⟩, _, ⟨g1, hg1, q1, hq1, _, ⟨_, rfl⟩, rfl⟩, htw⟩ := hacc
    rw [← htw]
    refine ⟨rfl, ?_⟩
    intro i
    cases i
    · exact ⟨amp, g0, q0, hamp, by simpa using hg0, by simpa using hq0, by simp [U128]⟩
    · exact ⟨amp, g1, q1, hamp, by simpa using hg1, by simpa using hq1, by simp [U128]⟩

/-- The code violates C77: the pool stood at 1000/1000 tokens (price 0.999991) for 100 seconds; a one-sided
deposit of a native coin at the end of that interval is reflected in the whole interval: the accumulator
moves as if the price had been 1.169642, while any other transaction at that time adds 0.999991 per
second. -/
theorem C77_deposit_skews_violated :
    okAnd (swap demoSetup 0 demo1 200 1 false (10 ^ 6) none none 2 noFees) (fun x =>
      okAnd (provide demoSetup 0 demo1 200 1 (fun i => if i then 10 ^ 10 else 0) none 2) (fun y =>
        x.1.twap.cum false = 100 * 999991 ∧ y.1.twap.cum false = 100 * 1169642)) = true := by
  decide +kernel

/-! ## C78: rounding -/

/-- **C78 (partial).** A swap pays (including commission) less than one unit of the ask asset more than the
difference between the ask reserve and the solver's solution `raw` of the curve.
Missing: the solution is rounded *down*, in favour of the trader, so the payment may exceed the curve
(`C78_round_trip_violated`). -/
theorem C78_payment_close_to_curve_partial (su : Setup) (me : A) (s s' : State A) (now : Nat) (u : A)
    (hu : u ≠ me) (i : Bool) (n : Nat) (b m : Option Nat) (r : A) (f : Fees A)
    (hf : f.total ≤ 10 ^ 18 ∧ f.maker ≤ 10 ^ 18) (hs : ∀ p, s.share = some p → p.1 ≤ 10000)
    (out : SwapOut) (h : swap su me s now u i n b m r f = .ok (s', out)) :
    ∃ amp d raw,
      currentAmp s.amp now = .ok amp ∧
      computeD amp (s.bal i me * 10 ^ (18 - su.prec i)) (s.bal (!i) me * 10 ^ (18 - su.prec (!i))) = .ok d ∧
      AlmostRoot (bOf amp ((s.bal i me + n) * 10 ^ (18 - su.prec i)) d)
        (cOf amp ((s.bal i me + n) * 10 ^ (18 - su.prec i)) d) d raw ∧
      (out.ret + out.commission) * 10 ^ (18 - su.prec (!i)) + raw <
        s.bal (!i) me * 10 ^ (18 - su.prec (!i)) + 10 ^ (18 - su.prec (!i)) ∧
      s.bal (!i) me * 10 ^ (18 - su.prec (!i)) ≤
        (out.ret + out.commission) * 10 ^ (18 - su.prec (!i)) + raw := by
  obtain ⟨⟨amp, d, raw, h1, h2, h3, h4, _⟩, _⟩ :=
    C47_swap_accounting_partial su me s s' now u hu i n b m r f hf hs out h
  refine ⟨amp, d, raw, h1, h2, h3, ?_⟩
  have hk : 0 < 10 ^ (18 - su.prec (!i)) := Nat.pow_pos (by decide)
  rw [← h4]
  clear h3 h4 h2
  generalize 10 ^ (18 - su.prec (!i)) = k at *
  have e1 := Nat.div_mul_le_self raw k
  have e2 := Nat.lt_div_mul_add hk (a := raw)
  constructor <;> nlinarith

/-- The code violates C78: in an imbalanced pool (1000/2000 tokens, amplification 10, fee 0.05 %) a trader
swaps one unit into two and two into two, ending with one unit more than they had. -/
theorem C78_round_trip_violated :
    let s : State Acct := { demo1 with
      bal := fun i a => if a = 0 then (if i then 2 * 10 ^ 9 else 10 ^ 9) else 10 ^ 12, amp := ⟨1000, 0, 1000, 0⟩ }
    let f : Fees Acct := ⟨5 * 10 ^ 14, 0, none, none⟩
    okAnd (swap demoSetup 0 s 200 1 false 1 none none 1 f) (fun x =>
      okAnd (swap demoSetup 0 x.1 200 1 true 2 none none 1 f) (fun y =>
        x.2.ret = 2 ∧ y.2.ret = 2 ∧ s.bal false 1 < y.1.bal false 1 ∧ y.1.bal true 1 = s.bal true 1)) = true := by
  decide +kernel

/-! ## C79: withdrawals and refilling -/

/-- A withdrawal only needs the accumulators to be updatable. -/
theorem withdraw_succeeds {su : Setup} {me : A} {s : State A} {now : Nat} {u : A} (hu : u ≠ me)
    {n : Nat} (hn : n ≠ 0) (hbal : n ≤ s.lp u) (hsup : n ≤ s.supply) (h18 : ∀ i, su.prec i ≤ 18)
    (hpool : ∀ i, s.bal i me < 2 ^ 128)
    (hr : ∀ i, DEC ≤ s.bal i me * (n * DEC / s.supply)) (ha : Succeeds (currentAmp s.amp now))
    (hacc : ∀ amp pools, currentAmp s.amp now = .ok amp → decPools su (fun i => s.bal i me) = .ok pools →
      Succeeds (accumulate su amp now s.twap pools)) :
    Succeeds (withdraw su me s now u n none) := by
  obtain ⟨amp, hamp⟩ := ha
  have hS : s.supply ≠ 0 := by omega
  have hD := DEC_pos
  have h128 : U128 = 2 ^ 128 := rfl
  have h256 : U256 = 2 ^ 256 := rfl
  have hratio : n * DEC / s.supply ≤ DEC :=
    Nat.div_le_of_le_mul (Nat.mul_le_mul_right _ hsup)
  have hshare : ∀ i, ∃ r, shareInAsset (s.bal i me) n s.supply = .ok r ∧ r ≤ s.bal i me ∧ r ≠ 0 := by
    intro i
    refine ⟨mulDec (s.bal i me) (n * DEC / s.supply), ?_, mulDec_le hratio, ?_⟩
    · simp only [shareInAsset, hS, if_false, bind_ok_iff, decFromRatio_ok, u128_ok]
      have : DEC < 2 ^ 128 := by decide
      exact ⟨_, ⟨hS, by omega, rfl⟩, lt_of_le_of_lt (mulDec_le hratio) (by rw [h128]; exact hpool i), rfl⟩
    · unfold mulDec
      have := (Nat.le_div_iff_mul_le hD).2 (by simpa using hr i : 1 * DEC ≤ _)
      omega
  obtain ⟨r0, hr0, hl0, hz0⟩ := hshare false
  obtain ⟨r1, hr1, hl1, hz1⟩ := hshare true
  have hdec : ∀ i, s.bal i me * 10 ^ (18 - su.prec i) < U256 := by
    intro i
    have h10 : 10 ^ (18 - su.prec i) ≤ 10 ^ 18 := Nat.pow_le_pow_right (by decide) (by omega)
    calc s.bal i me * 10 ^ (18 - su.prec i) ≤ 2 ^ 128 * 10 ^ 18 := Nat.mul_le_mul (hpool i).le h10
      _ < U256 := by rw [h256]; norm_num
  obtain ⟨lp, hlp⟩ := move_succeeds (l := s.lp) (a := u) (b := me) hbal
  obtain ⟨b0, hb0⟩ := move_succeeds (l := s.bal false) (a := me) (b := u) hl0
  obtain ⟨b1, hb1⟩ := move_succeeds (l := s.bal true) (a := me) (b := u) hl1
  have hme : n ≤ lp me := by
    have := move_apply hlp me
    simp [Ne.symm hu] at this
    omega
  obtain ⟨lp2, hlp2⟩ : ∃ l, debit lp me n = .ok l := by
    simp [debit, hme]
  obtain ⟨pools, hpools⟩ : ∃ p, decPools su (fun i => s.bal i me) = .ok p := by
    have e : ∀ i, withPrec (s.bal i me) (su.prec i) = .ok (s.bal i me * 10 ^ (18 - su.prec i)) := fun i =>
      (withPrec_ok _ _ _).2 ⟨h18 i, hdec i, rfl⟩
    simp only [decPools, e, ok_bind]
    exact ⟨_, rfl⟩
  obtain ⟨tw, hacc⟩ := hacc amp pools hamp hpools
  unfold Succeeds
  have e1 := (require_ok (n ≠ 0) (.invalid "NoFunds") ()).2 hn
  have e2 := (require_ok (¬ (su.native false = true ∧ r0 = 0) ∧ ¬ (su.native true = true ∧ r1 = 0))
    (.invalid "invalid coins") ()).2 ⟨fun h => hz0 h.2, fun h => hz1 h.2⟩
  have e3 := (csub_ok s.supply n _).2 ⟨hsup, rfl⟩
  simp only [withdraw, e1, ok_bind, hlp, hr0, hr1, ensureMinAssets, hpools, hamp, hacc, e2, hb0, hb1, hlp2, e3]
  exact ⟨_, rfl⟩

/-- **C79 (partial).** A holder can withdraw any amount of LP tokens, provided both refunds are non-zero and the
price accumulators are already up to date in this block.
Missing: otherwise the withdrawal also runs the invariant solver to update the accumulators, and fails with
it (`C79_withdraw_blocked_violated`). -/
theorem C79_withdraw_succeeds_partial (su : Setup) (me : A) (s : State A) (now : Nat) (u : A) (hu : u ≠ me)
    (n : Nat) (hn : n ≠ 0) (hbal : n ≤ s.lp u) (hsup : n ≤ s.supply) (h18 : ∀ i, su.prec i ≤ 18)
    (hpool : ∀ i, s.bal i me < 2 ^ 128)
    (hr : ∀ i, DEC ≤ s.bal i me * (n * DEC / s.supply))
    (ht : now ≤ s.twap.last) (ha : Succeeds (currentAmp s.amp now)) :
    Succeeds (withdraw su me s now u n none) := by
  refine withdraw_succeeds hu hn hbal hsup h18 hpool hr ha fun amp pools _ _ => ⟨s.twap, ?_⟩
  unfold accumulate; rw [if_pos ht]

/-- Two accounts provide 1 token and `10^-10` tokens (18 decimals); the first leaves. -/
def afterExit : Res (State Acct × Nat) := do
  let su : Setup := ⟨fun _ => 18, fun _ => true⟩
  let s : State Acct := { demo0 with bal := fun _ a => if a = 0 then 0 else 10 ^ 24 }
  let (s, x) ← provide su 0 s 5 1 (fun _ => 10 ^ 18) none 1
  let (s, z) ← provide su 0 s 6 2 (fun _ => 10 ^ 8) none 2
  let (s, _) ← withdraw su 0 s 6 1 x none
  .ok (s, z)

/-- The code violates C79: with two 18-decimal assets, once the large provider has left, the other holder's
withdrawal fails in every later block with a division by zero in the price accumulation (in the same block
it would have worked). -/
theorem C79_withdraw_blocked_violated :
    let su : Setup := ⟨fun _ => 18, fun _ => true⟩
    okAnd afterExit (fun x =>
      x.1.lp 2 = x.2 ∧ fails (withdraw su 0 x.1 7 2 x.2 none) ∧
      okAnd (withdraw su 0 x.1 6 2 x.2 none) (fun y => y.2 = (100000000, 100000000))) = true := by
  decide +kernel

/-- The code violates the second half of C79 as well: the same pool can never be refilled by a deposit, however large and balanced,
because computing the invariant of the remaining dust divides by zero. -/
theorem C79_pool_bricked_violated :
    let su : Setup := ⟨fun _ => 18, fun _ => true⟩
    okAnd afterExit (fun x =>
      ∀ now : Fin 3, fails (provide su 0 x.1 (now + 6) 2 (fun _ => 10 ^ 20) none 2)) = true := by
  decide +kernel

/-- In general: whenever the product of the reserves (as decimals, each doubled) truncates to zero, every
deposit fails, whoever makes it and whatever its size. -/
theorem C79_dust_pool_refuses_deposits (su : Setup) (me : A) (s : State A) (now : Nat) (u : A)
    (d : Bool → Nat) (minLp : Option Nat) (r : A) (hsup : s.supply ≠ 0)
    (hne : s.bal false me ≠ 0)
    (hdust : 2 * (s.bal false me * 10 ^ (18 - su.prec false)) *
      (2 * (s.bal true me * 10 ^ (18 - su.prec true))) < 10 ^ 18) :
    ¬ Succeeds (provide su me s now u d minLp r) := by
  rintro ⟨⟨s', share⟩, h⟩
  obtain ⟨amp, hamp, hsh, _⟩ := (provide_spec h).hshare
  simp only [calculateShares, hsup, if_false, bind_ok_iff, withPrec_ok] at hsh
  obtain ⟨_, ⟨_, _, rfl⟩, _, ⟨_, _, rfl⟩, _, ⟨_, _, rfl⟩, _, ⟨_, _, rfl⟩, _, _, _, _, _, _, D0, hD0, _⟩ := hsh
  have hx : s.bal false me * 10 ^ (18 - su.prec false) ≠ 0 :=
    Nat.mul_ne_zero hne (Nat.pow_pos (by decide)).ne'
  generalize s.bal false me * 10 ^ (18 - su.prec false) = x at *
  generalize s.bal true me * 10 ^ (18 - su.prec true) = y at *
  simp only [computeD, bind_ok_iff, dmul_ok, dadd_ok] at hD0
  obtain ⟨_, _, _, _, _, ⟨_, rfl⟩, _, ⟨_, rfl⟩, _, ⟨_, rfl⟩, hn⟩ := hD0
  rw [if_neg (by omega), mul_kDEC, mul_kDEC, show ITERATIONS = 63 + 1 from rfl] at hn
  simp only [newton, dStep, bind_ok_iff, dmul_ok, ddiv_ok] at hn
  obtain ⟨_, ⟨_, _, _, _, _, ⟨_, rfl⟩, _, ⟨h0, _⟩, _⟩, _⟩ := hn
  exact h0 (Nat.div_eq_of_lt hdust)

/-! ## C80: quotes -/

/-- **C80.** A successful swap pays exactly what the simulation query reported just before. -/
theorem C80_simulation_exact (su : Setup) (me : A) (s s' : State A) (now : Nat) (u : A) (hu : u ≠ me)
    (i : Bool) (n : Nat) (b m : Option Nat) (r : A) (f : Fees A) (out : SwapOut)
    (h : swap su me s now u i n b m r f = .ok (s', out)) :
    simulation su me s now i n f =
      .ok { ret := out.ret, spread := out.spread, commission := out.commission } := by
  obtain ⟨amp, hamp, hq, _⟩ := (swap_spec hu h).hq
  have hq0 := hq
  obtain ⟨d, raw, q⟩ := quote_spec hq
  have hnz := q.nz
  simp only [quote, bind_ok_iff, toU128_ok, withPrec_ok] at hq
  obtain ⟨_, ⟨h1, h1', rfl⟩, _, ⟨h2, h2', rfl⟩, _, ⟨_, h3, rfl⟩, _, ⟨_, h4, rfl⟩, _⟩ := hq
  have e1 := (withPrec_ok (s.bal i me) (su.prec i) _).2 ⟨h1, h1', rfl⟩
  have e2 := (withPrec_ok (s.bal (!i) me) (su.prec (!i)) _).2 ⟨h2, h2', rfl⟩
  have e3 := (toU128_ok _ (su.prec i) _).2 ⟨h1, h3, rfl⟩
  have e4 := (toU128_ok _ (su.prec (!i)) _).2 ⟨h2, h4, rfl⟩
  simp only [simulation, e1, e2, e3, e4, ok_bind]
  rw [scale_cancel, scale_cancel, if_neg ?_, hamp, ok_bind]
  · exact hq0
  · rintro ((h0 | h0) | h0)
    · exact hnz.1 h0
    · exact hnz.2.1 h0
    · exact hnz.2.2 h0

/-- **C80.** A successful deposit mints exactly what the simulation query reported just before. -/
theorem C80_simulate_provide_exact (su : Setup) (me : A) (s s' : State A) (now : Nat) (u : A)
    (d : Bool → Nat) (minLp : Option Nat) (r : A) (share : Nat)
    (h : provide su me s now u d minLp r = .ok (s', share)) :
    simulateProvide su me s now d = .ok share := by
  have sp := provide_spec h
  obtain ⟨amp, hamp, hsh, _⟩ := sp.hshare
  unfold simulateProvide
  simp only [bind_ok_iff, require_ok, exists_const]
  exact ⟨sp.nz, amp, hamp, hsh⟩

/-- **C80.** A successful withdrawal pays exactly what the share query reported just before. -/
theorem C80_share_query_exact (su : Setup) (me : A) (s s' : State A) (now : Nat) (u : A) (n : Nat)
    (mins : Option (List (Bool × Nat))) (r : Nat × Nat)
    (h : withdraw su me s now u n mins = .ok (s', r)) : queryShare me s n = .ok r := by
  simp only [withdraw, bind_ok_iff, Except.ok.injEq, Prod.mk.injEq] at h
  obtain ⟨_, _, _, _, a, ha, b, hb, _, _, _, _, _, _, _, _, _, _, _, _, _, _, _, _, _, _, _, rfl⟩ := h
  simp only [queryShare, ha, hb, ok_bind]

/-- **C80 (partial).** The three forward quotes agree with execution.
Missing: the offer quoted by the reverse simulation need not suffice (`C80_reverse_quote_violated`). -/
theorem C80_forward_quotes_partial (su : Setup) (me : A) (s : State A) (now : Nat) (u : A) (hu : u ≠ me) :
    (∀ i n b m r f s' out, swap su me s now u i n b m r f = .ok (s', out) →
      simulation su me s now i n f = .ok ⟨out.ret, out.spread, out.commission⟩) ∧
    (∀ d m r s' share, provide su me s now u d m r = .ok (s', share) →
      simulateProvide su me s now d = .ok share) ∧
    (∀ n m s' r, withdraw su me s now u n m = .ok (s', r) → queryShare me s n = .ok r) :=
  ⟨fun i n b m r f s' out h => C80_simulation_exact su me s s' now u hu i n b m r f out h,
   fun d m r s' share h => C80_simulate_provide_exact su me s s' now u d m r share h,
   fun n m s' r h => C80_share_query_exact su me s s' now u n m r h⟩

/-- The code violates C80 for reverse quotes: with a 6-decimal and an 18-decimal asset the quoted offer is
rounded down to the coarser precision.  For `10^12` units the quote is 1 unit, which buys fewer; for `10^11`
units the quote is zero. -/
theorem C80_reverse_quote_violated :
    let su : Setup := ⟨fun i => if i then 18 else 6, fun _ => true⟩
    let s : State Acct := { demo1 with bal := fun i _ => if i then 10 ^ 21 else 10 ^ 9 }
    let f : Fees Acct := ⟨5 * 10 ^ 14, 0, none, none⟩
    okAnd (reverseSimulation su 0 s 200 false (10 ^ 12) f) (fun o =>
      o = 1 ∧ okAnd (simulation su 0 s 200 false o f) (fun r => r.ret < 10 ^ 12)) = true ∧
    okAnd (reverseSimulation su 0 s 200 false (10 ^ 11) f) (· = 0) = true := by
  decide +kernel

end Verif.Stable
