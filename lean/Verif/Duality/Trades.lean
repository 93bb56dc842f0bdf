import Verif.Duality.Accounts

/-!
# Reserves, orders and fees: C100, C101, C102

Specification: `held` (`Verif.Duality.Accounts`), `soldOf`, `gotOf`, `feeOn`, `sharePart`, `makerPart`.
-/

namespace Verif.Duality

open Verif.PCL (Setup FeeInfo Pool demoSetup demoParams sendOpt_total sendOpt_other move_other decPools_ok makerShare
  feeShare shareInAsset refund_bounds)
open Verif.XYK (sendOpt)

variable {A : Type} [DecidableEq A]

/-! ## Reserves never exceed what the pair owns -/

omit [DecidableEq A] in
/-- `fees` inverted. -/
theorem fees_spec {su : Setup} {c : PCL.State A} {f : FeeInfo A} {t : Trade} {xs xs' : Bool → Nat} {shU mkU : Nat}
    (h : fees su c f t xs = .ok (xs', shU, mkU)) :
    ∃ fee fs sh mk, c.params.out * t.sold / DEC = fee ∧ feeShare c.share = .ok fs ∧ fee * fs / DEC = sh ∧
      (fee - sh) * makerShare f / DEC = mk ∧ sh ≤ fee ∧ sh + mk ≤ xs (!t.recv) ∧
      xs' = set2 xs (!t.recv) (xs (!t.recv) - sh - mk) ∧ su.prec (!t.recv) ≤ 18 ∧
      shU = sh / 10 ^ (18 - su.prec (!t.recv)) ∧ mkU = mk / 10 ^ (18 - su.prec (!t.recv)) := by
  simp only [fees, bind_ok_iff, Stable.dmul_ok, csub_ok, Stable.toU128_ok, Except.ok.injEq, Prod.mk.injEq] at h
  obtain ⟨fee, ⟨_, hfee⟩, _, _, fs, hfs, sh, ⟨_, hsh⟩, x, ⟨hx, rfl⟩, _, ⟨hp, _, rfl⟩, rest, ⟨hrest, rfl⟩, mk,
    ⟨_, hmk⟩, x2, ⟨hx2, rfl⟩, _, ⟨_, _, rfl⟩, rfl, rfl, rfl⟩ := h
  exact ⟨fee, fs, sh, mk, hfee, hfs, hsh, hmk, hrest, by omega, rfl, hp, rfl, rfl⟩

/-- A payment of at most `n`, which may go to the pair itself. -/
theorem sendOpt_me_le {l l' : A → Nat} {me : A} {dst : Option A} {n : Nat} (h : sendOpt l me dst n = .ok l') :
    l me ≤ l' me + n := by
  cases dst with
  | none => simp only [sendOpt, Except.ok.injEq] at h; subst h; omega
  | some d =>
    have h' : move l me d n = .ok l' := h
    have hm := move_apply h' me
    have hl := move_le h'
    rw [if_pos rfl] at hm
    split at hm <;> omega

/-- After the fees of trades the reserves are still covered by the pair's coins (`w`: reserves not counted in `xs`,
`B`: coins not in the balance). -/
theorem chargeAll_le {su : Setup} {me : A} {c : PCL.State A} {f : FeeInfo A} {w B : Bool → Nat} :
    ∀ {ts : List Trade} {xs xs' : Bool → Nat} {bal bal' : Bool → A → Nat},
      chargeAll su me c f ts xs bal = .ok (xs', bal') →
      (∀ i, xs i + w i ≤ (bal i me + B i) * 10 ^ (18 - su.prec i)) →
      ∀ i, xs' i + w i ≤ (bal' i me + B i) * 10 ^ (18 - su.prec i) := by
  intro ts
  induction ts with
  | nil =>
    intro xs xs' bal bal' h hle
    simp only [chargeAll, Except.ok.injEq, Prod.mk.injEq] at h
    obtain ⟨rfl, rfl⟩ := h
    exact hle
  | cons t ts ih =>
    intro xs xs' bal bal' h hle
    simp only [chargeAll, charge, bind_ok_iff, Prod.exists, Except.ok.injEq, Prod.mk.injEq] at h
    obtain ⟨xs1, bal1, ⟨_, shU, mkU, hf, l1, hl1, l2, hl2, rfl, rfl⟩, h⟩ := h
    refine ih h ?_
    obtain ⟨fee, fs, sh, mk, _, _, _, _, _, h6, rfl, _, rfl, rfl⟩ := fees_spec hf
    intro i
    have hi := hle i
    rw [set2_apply, set2_apply]
    by_cases he : i = !t.recv
    · rw [if_pos he, if_pos he]
      subst he
      have a1 := sendOpt_me_le hl1
      have a2 := sendOpt_me_le hl2
      have b1 := Nat.div_mul_le_self sh (10 ^ (18 - su.prec !t.recv))
      have b2 := Nat.div_mul_le_self mk (10 ^ (18 - su.prec !t.recv))
      generalize 10 ^ (18 - su.prec !t.recv) = K at *
      generalize sh / K = a at *
      generalize mk / K = b at *
      have : (bal (!t.recv) me + B !t.recv) * K ≤ (l2 me + B !t.recv) * K + (a * K + b * K) := by
        rw [← Nat.add_mul, ← Nat.add_mul]
        exact Nat.mul_le_mul_right _ (by omega)
      omega
    · rw [if_neg he, if_neg he]; exact hi

theorem settle_le {su : Setup} {me : A} {c : PCL.State A} {now : Nat} {f : FeeInfo A} {w B : Bool → Nat}
    {ts : List Trade} {xs xs' : Bool → Nat} {bal bal' : Bool → A → Nat} {pool : Pool}
    (h : settle su me c now f ts xs bal = .ok (pool, xs', bal'))
    (hle : ∀ i, xs i + w i ≤ (bal i me + B i) * 10 ^ (18 - su.prec i)) :
    ∀ i, xs' i + w i ≤ (bal' i me + B i) * 10 ^ (18 - su.prec i) := by
  unfold settle at h
  split at h
  · simp only [Except.ok.injEq, Prod.mk.injEq] at h
    obtain ⟨_, rfl, rfl⟩ := h
    exact hle
  · simp only [process, bind_ok_iff, Prod.exists, Except.ok.injEq, Prod.mk.injEq] at h
    obtain ⟨_, _, hc, _, _, _, _, _, _, _, rfl, rfl⟩ := h
    exact chargeAll_le hc hle

theorem process_settle {su : Setup} {me : A} {c : PCL.State A} {now : Nat} {f : FeeInfo A} {ts : List Trade}
    {xs : Bool → Nat} {bal : Bool → A → Nat} (hne : ts ≠ []) :
    settle su me c now f ts xs bal = process su me c now f ts xs bal := by
  unfold settle; rw [if_neg hne]

/-- The reserves new orders are computed for are covered by the pair's balance at that moment. -/
def Covered (su : Setup) (me : A) (c : PCL.State A) (xs : Bool → Nat) : Prop :=
  ∀ i, xs i ≤ c.bal i me * 10 ^ (18 - su.prec i)

theorem renew_covered {su : Setup} {me : A} {now : Nat} {fo : A} {s s' : State A} {o : Op A} {e : Env A} (hi : Inv s)
    (h : exec su me now fo s o = .ok s') (he : o.env = some e) :
    ∃ os ts bal bal' book' c xs fin, Renew su me s now e s' os ts bal bal' book' c xs fin ∧ Covered su me c xs := by
  obtain ⟨hsig, hx⟩ := exec_cases h
  rcases hx with ⟨u, d, t, m, r, e', sh, rfl, hx⟩ | ⟨u, n, m, e', a, rfl, hx⟩ | ⟨u, i, n, b, m, r, e', x, rfl, hx⟩ |
    ⟨u, e', rfl, hx⟩ | ⟨u, v, rfl, _⟩ | ⟨a, c, rfl, _⟩ | ⟨k, n, p, rfl, _⟩
  · obtain ⟨b0, bal, bal', total, os, ts, t', pools, dd, x, xs, pool, pool', shareD, book', c, sp⟩ := provide_spec hx
    cases he
    refine ⟨_, _, _, _, _, _, _, _, sp.hrenew, ?_⟩
    obtain ⟨_, _, hbal, hin⟩ := sp.hrenew.all hi
    have ht := totals_ok sp.ht
    have hp := decPools_ok sp.hpools
    have hs := settle_le (w := dd) (B := onBook s.book) sp.hsettle (by
      intro j
      have h1 := sp.hx j
      have h2 := (hp j).2.1
      have h3 := (ht j).1
      rw [hin j] at h3
      rw [h1.2, Nat.sub_add_cancel h1.1, h2, h3])
    intro j
    rw [sp.hc.1, hbal j, credit_self]
    exact hs j
  · obtain ⟨bal, bal', os, ts, t', pools, xs, pool, rr, book', c, fin, sp⟩ := withdraw_spec hx
    cases he
    refine ⟨_, _, _, _, _, _, _, _, sp.hrenew, ?_⟩
    obtain ⟨_, _, hbal, hin⟩ := sp.hrenew.all hi
    have ht := totals_ok sp.ht
    have hp := decPools_ok sp.hpools
    have hs := settle_le (w := fun _ => 0) (B := onBook s.book) sp.hsettle (by
      intro j
      have h2 := (hp j).2.1
      have h3 := (ht j).1
      rw [hin j] at h3
      rw [h2, h3]; exact le_refl _)
    have hpay : ∀ j (a : Nat), a = rr j / 10 ^ (18 - su.prec j) → bal' j me ≤ c.bal j me + a →
        xs j - rr j ≤ c.bal j me * 10 ^ (18 - su.prec j) := by
      intro j a ha hle
      have h1 := hs j
      rw [show bal j me + onBook s.book j = bal' j me by rw [hbal j, credit_self]] at h1
      have h2 := Nat.div_mul_le_self (rr j) (10 ^ (18 - su.prec j))
      rw [← ha] at h2
      generalize 10 ^ (18 - su.prec j) = K at *
      have := Nat.mul_le_mul_right K hle
      rw [Nat.add_mul] at this
      omega
    have a0 := sp.ha0
    have a1 := sp.ha1
    rw [Stable.toU128_ok] at a0 a1
    intro j
    cases j
    · refine hpay false _ a0.2.2.symm ?_
      have := sendOpt_me_le (dst := some u) (show sendOpt _ _ _ _ = _ from sp.hb0.1)
      exact this
    · refine hpay true _ a1.2.2.symm ?_
      have := sendOpt_me_le (dst := some u) (show sendOpt _ _ _ _ = _ from sp.hb1.1)
      exact this
  · obtain ⟨bo, bal, bal', os, ts, t', pools, xs, pool, off, fs, old, rr, out, book', c, l1, l2, sp⟩ := swap_spec hx
    cases he
    refine ⟨_, _, _, _, _, _, _, _, sp.hrenew, ?_⟩
    obtain ⟨_, _, hbal, hin⟩ := sp.hrenew.all hi
    have ht := totals_ok sp.ht
    have hp := decPools_ok sp.hpools
    have hs := settle_le (w := fun j => if j = i then off else 0) (B := onBook s.book) sp.hsettle (by
      intro j
      have h2 := (hp j).2.1
      have h3 := (ht j).1
      rw [hin j] at h3
      rw [← h3, ← h2, set2_apply]
      have := sp.hx
      by_cases hj : j = i
      · subst hj; simp only [if_true]; omega
      · simp only [if_neg hj]; omega)
    intro j
    have h1 := hs j
    rw [show bal j me + onBook s.book j = bal' j me by rw [hbal j, credit_self]] at h1
    by_cases hj : j = i
    · subst hj
      simp only [if_true] at h1 ⊢
      rw [sp.hci]; exact h1
    · have hj' : j = !i := by cases i <;> cases j <;> simp_all
      simp only [if_neg hj, Nat.add_zero] at h1 ⊢
      subst hj'
      have a1 := sendOpt_me_le (dst := some r) (show sendOpt _ _ _ _ = _ from sp.hl1)
      have a2 := sendOpt_me_le sp.hl2
      have a3 := sendOpt_me_le sp.hl3
      have e1 := sp.hret
      have e2 := sp.hsh
      have e3 := sp.hmk
      rw [Stable.toU128_ok] at e1 e2 e3
      have o1 := sp.hout
      simp only [PCL.Swapped.out, bind_ok_iff, Stable.dadd_ok] at o1
      obtain ⟨_, ⟨_, rfl⟩, _, ho⟩ := o1
      have b1 := Nat.div_mul_le_self rr.dy (10 ^ (18 - su.prec !i))
      have b2 := Nat.div_mul_le_self rr.share (10 ^ (18 - su.prec !i))
      have b3 := Nat.div_mul_le_self rr.maker (10 ^ (18 - su.prec !i))
      rw [e1.2.2] at b1
      rw [e2.2.2] at b2
      rw [e3.2.2] at b3
      generalize 10 ^ (18 - su.prec !i) = K at *
      have : bal' (!i) me * K ≤ c.bal (!i) me * K + (x.ret * K + x.share * K + x.maker * K) := by
        rw [← Nat.add_mul, ← Nat.add_mul, ← Nat.add_mul]
        exact Nat.mul_le_mul_right _ (by omega)
      omega
  · obtain ⟨bal, bal', os, ts, t', pools, xs, old, book', c, sp⟩ := sync_spec hx
    cases he
    refine ⟨_, _, _, _, _, _, _, _, sp.hrenew, ?_⟩
    obtain ⟨_, _, hbal, hin⟩ := sp.hrenew.all hi
    have ht := totals_ok sp.ht
    have hp := decPools_ok sp.hpools
    have hset := sp.hsettle
    rw [← process_settle sp.hne] at hset
    have hs := settle_le (w := fun _ => 0) (B := onBook s.book) hset (by
      intro j
      have h2 := (hp j).2.1
      have h3 := (ht j).1
      rw [hin j] at h3
      rw [h2, h3]; exact le_refl _)
    intro j
    rw [sp.hc.1, hbal j, credit_self]
    exact hs j
  · cases he
  · cases he
  · cases he

/-- **C100.** A transaction whose orders are all left standing by the market posts nothing, or exactly the configured
number of orders on each side; orders of one side have one size, not below the configured minimum, and together they
hold at most half of the configured percentage of the pair's coins of that asset, so at most a quarter of them. -/
theorem C100_orders_bounded (su : Setup) (me : A) (now : Nat) (fo : A) (s s' : State A) (o : Op A) (e : Env A)
    (hr : Reachable su me s) (he : o.env = some e) (hq : ∀ n, e.out n = .rests 0 0)
    (h : exec su me now fo s o = .ok s') :
    s'.book = [] ∨ (s.ob.enabled = true ∧ ∃ z : Bool → Nat,
      (∀ i, (s'.book.filter fun x => decide (x.2.sell = i)).length = s.ob.number) ∧
      (∀ x ∈ s'.book, x.2.left = z x.2.sell ∧ x.2.got = 0) ∧
      ∀ i, s.ob.minSize i ≤ z i ∧ 2 * 10 ^ 18 * (s.ob.number * z i) ≤ s.ob.percent * held me s' i ∧
        4 * (s.ob.number * z i) ≤ held me s' i) := by
  obtain ⟨os, ts, bal, bal', book', c, xs, fin, r, hcov⟩ := renew_covered hr.inv h he
  obtain ⟨_, hb, _⟩ := r.all hr.inv
  have hf := r.hfin
  rw [hb] at hf
  obtain ⟨ob1, ms, pre, p, sp⟩ := finish_spec hf
  obtain ⟨q1, q2⟩ := placeAll_quiet hq sp.hplace
  have hbk : s'.book.map (·.2) = ms.map (fun m => ⟨m.sell, m.amount, 0⟩) := by
    rw [r.hbook, sp.hbook, q1]; simp
  have hheld : ∀ i, held me s' i = c.bal i me := by
    intro i
    have := q2 i
    simp only [onBook, List.map_nil, List.sum_nil] at this
    unfold held
    rw [r.hbal, r.hbook, sp.hbook, sp.hpcl]
    simpa [onBook] using this
  rcases deploy_spec sp.hdep with hm | ⟨hen, z, _, ⟨hl1, hl2⟩, hmin, hsz⟩
  · left
    rw [hm] at hbk
    simpa using hbk
  · right
    refine ⟨hen, z, ?_, ?_, ?_⟩
    · intro i
      rw [← hl1 i]
      have e1 : (s'.book.filter fun x => decide (x.2.sell = i)).length =
          ((s'.book.map (·.2)).filter fun o => decide (o.sell = i)).length := by
        rw [List.filter_map, List.length_map]; rfl
      rw [e1, hbk, List.filter_map, List.length_map]; rfl
    · intro x hx
      have : x.2 ∈ s'.book.map (·.2) := List.mem_map_of_mem hx
      rw [hbk] at this
      obtain ⟨m, hm, hm2⟩ := List.mem_map.1 this
      rw [← hm2]
      exact ⟨hl2 m hm, rfl⟩
    · intro i
      have h1 := hsz i
      have h2 := hcov i
      have hK : 0 < 10 ^ (18 - su.prec i) := Nat.pow_pos (by decide)
      have hD : DEC = 10 ^ 18 := rfl
      rw [hheld i]
      generalize 10 ^ (18 - su.prec i) = K at *
      have h3 : 2 * 10 ^ 18 * (s.ob.number * z i) ≤ s.ob.percent * c.bal i me := by
        refine Nat.le_of_mul_le_mul_right ?_ hK
        calc 2 * 10 ^ 18 * (s.ob.number * z i) * K = 2 * DEC * (s.ob.number * (z i * K)) := by rw [hD]; ring
          _ ≤ s.ob.percent * xs i := h1
          _ ≤ s.ob.percent * (c.bal i me * K) := Nat.mul_le_mul_left _ h2
          _ = s.ob.percent * c.bal i me * K := by ring
      refine ⟨hmin i, h3, ?_⟩
      have hpc := hr.inv.set.2.2.2.1
      have h4 : s.ob.percent * c.bal i me ≤ 50 * 10 ^ 16 * c.bal i me := Nat.mul_le_mul_right _ hpc
      omega

/-- Non-vacuity: the four orders of the example hold 2.5% of each asset. -/
example : okAnd demo (fun s =>
    let z := run demoSetup 0 s demoStart
    decide (z.book.length = 4) && decide (z.book.all fun x => x.2.left = 12500000 && x.2.got = 0) &&
      decide (held (A := Acct) 0 z false = 10 ^ 9) && decide (s.ob.percent = 5 * 10 ^ 16)) = true := by
  decide +kernel

/-! ## C101: withdrawals -/

/-- **C101.** A withdrawal pays at most the proportion `(n - 1) / supply` of everything the pair owns, in its balance
and on the orderbook. -/
theorem C101_withdraw_at_most_pro_rata (su : Setup) (me : A) (s s' : State A) (now : Nat) (u : A) (n : Nat)
    (mins : Option (List (Bool × Nat))) (e : Env A) (a : Nat × Nat) (hr : Reachable su me s)
    (h : withdraw su me s now u n mins e = .ok (s', a)) :
    a.1 * s.pcl.supply ≤ held me s false * (n - 1) ∧ a.2 * s.pcl.supply ≤ held me s true * (n - 1) := by
  obtain ⟨bal, bal', os, ts, t', pools, xs, pool, rr, book', c, fin, sp⟩ := withdraw_spec h
  obtain ⟨_, _, _, hin⟩ := sp.hrenew.all hr.inv
  have ht := totals_ok sp.ht
  have hp := decPools_ok sp.hpools
  have hsup : s.pcl.supply ≠ 0 := by have := sp.hpos; have := sp.hsup.1; omega
  have hxs : ∀ i, xs i ≤ held me s i * 10 ^ (18 - su.prec i) := by
    have hmono : ∀ i, xs i ≤ pools i := by
      have hset := sp.hsettle
      unfold settle at hset
      split at hset
      · simp only [Except.ok.injEq, Prod.mk.injEq] at hset
        obtain ⟨_, rfl, _⟩ := hset
        intro i; exact le_refl _
      · simp only [process, bind_ok_iff, Prod.exists, Except.ok.injEq, Prod.mk.injEq] at hset
        obtain ⟨xs1, _, hc, _, _, _, _, _, _, _, rfl, _⟩ := hset
        clear sp
        have key : ∀ (ts : List Trade) (x y : Bool → Nat) (b b' : Bool → A → Nat),
            chargeAll su me s.pcl e.f ts x b = .ok (y, b') → ∀ i, y i ≤ x i := by
          intro ts
          induction ts with
          | nil =>
            intro x y b b' h
            simp only [chargeAll, Except.ok.injEq, Prod.mk.injEq] at h
            obtain ⟨rfl, _⟩ := h
            intro i; exact le_refl _
          | cons t ts ih =>
            intro x y b b' h
            simp only [chargeAll, charge, bind_ok_iff, Prod.exists, Except.ok.injEq, Prod.mk.injEq] at h
            obtain ⟨x1, b1, ⟨_, shU, mkU, hf, l1, hl1, l2, hl2, rfl, rfl⟩, h⟩ := h
            obtain ⟨fee, fs, sh, mk, _, _, _, _, _, h6, rfl, _⟩ := fees_spec hf
            intro i
            refine le_trans (ih _ _ _ _ h i) ?_
            rw [set2_apply]
            split
            · rename_i hi; subst hi; omega
            · exact le_refl _
        exact key _ _ _ _ _ hc
    intro i
    have h2 := (hp i).2.1
    have h3 := (ht i).1
    rw [hin i] at h3
    refine le_trans (hmono i) ?_
    rw [h2, h3]; exact le_refl _
  have one : ∀ (i : Bool) (a : Nat), Stable.toU128 (rr i) (su.prec i) = .ok a →
      a * s.pcl.supply ≤ held me s i * (n - 1) := by
    intro i a ha
    rw [Stable.toU128_ok] at ha
    have hK : 0 < 10 ^ (18 - su.prec i) := Nat.pow_pos (by decide)
    have e1 := PCL.shareInAsset_ok (sp.hr i).1 hsup
    have hx := hxs i
    obtain ⟨_, _, ha⟩ := ha
    generalize 10 ^ (18 - su.prec i) = K at *
    have q1 : (n - 1) * DEC / s.pcl.supply * s.pcl.supply ≤ (n - 1) * DEC := Nat.div_mul_le_self _ _
    generalize (n - 1) * DEC / s.pcl.supply = q at *
    have q2 : rr i * DEC ≤ xs i * q := by rw [e1]; exact Nat.div_mul_le_self _ _
    have q3 : a * K ≤ rr i := by rw [← ha]; exact Nat.div_mul_le_self _ _
    refine Nat.le_of_mul_le_mul_right (c := K * DEC) ?_ (Nat.mul_pos hK DEC_pos)
    calc a * s.pcl.supply * (K * DEC) = a * K * DEC * s.pcl.supply := by ring
      _ ≤ rr i * DEC * s.pcl.supply := Nat.mul_le_mul_right _ (Nat.mul_le_mul_right _ q3)
      _ ≤ xs i * q * s.pcl.supply := Nat.mul_le_mul_right _ q2
      _ = xs i * (q * s.pcl.supply) := by ring
      _ ≤ xs i * ((n - 1) * DEC) := Nat.mul_le_mul_left _ q1
      _ ≤ held me s i * K * ((n - 1) * DEC) := Nat.mul_le_mul_right _ hx
      _ = held me s i * (n - 1) * (K * DEC) := by ring
  exact ⟨one false a.1 sp.ha0, one true a.2 sp.ha1⟩

/-- **C101.** While no trade on the orderbook is pending, a withdrawal pays the proportion `(n - 1) / supply` of
everything the pair owns, less by less than one unit plus `10 ^ -18` of it. -/
theorem C101_withdraw_pro_rata (su : Setup) (me : A) (s s' : State A) (now : Nat) (u : A) (n : Nat)
    (mins : Option (List (Bool × Nat))) (e : Env A) (a : Nat × Nat) (hr : Reachable su me s)
    (hq : s.ob.delayed = none) (hg : ∀ x ∈ s.book, x.2.got = 0)
    (h : withdraw su me s now u n mins e = .ok (s', a)) :
    held me s false * (n - 1) * 10 ^ 18 < held me s false * s.pcl.supply + (a.1 + 1) * s.pcl.supply * 10 ^ 18 ∧
    held me s true * (n - 1) * 10 ^ 18 < held me s true * s.pcl.supply + (a.2 + 1) * s.pcl.supply * 10 ^ 18 := by
  obtain ⟨bal, bal', os, ts, t', pools, xs, pool, rr, book', c, fin, sp⟩ := withdraw_spec h
  obtain ⟨hos, _, _, hin⟩ := sp.hrenew.all hr.inv
  have ht := totals_ok sp.ht
  have hp := decPools_ok sp.hpools
  have hsup : s.pcl.supply ≠ 0 := by have := sp.hpos; have := sp.hsup.1; omega
  have hts : ts = [] := by
    have := sp.hrenew.hts
    unfold fetchTrades at this
    rw [hq] at this
    simp only [Option.toList, List.append_nil] at this
    split at this
    · simp only [Except.ok.injEq] at this; exact this.symm
    · simp only [bind_ok_iff, orErr_ok, Except.ok.injEq, tradeSide, u128_ok, Stable.withPrec_ok] at this
      obtain ⟨z, _, ta, ⟨g1, ⟨_, hg1⟩, _, _, _, ⟨_, _, hg1'⟩, _, _, rfl⟩, tb, ⟨g2, ⟨_, hg2⟩, _, _, _, ⟨_, _, hg2'⟩, _, _, rfl⟩, rfl⟩ := this
      have hz : ∀ i, ((sellers os i).map (·.got)).sum = 0 := by
        intro i
        apply List.sum_eq_zero
        intro y hy
        obtain ⟨o, ho, rfl⟩ := List.mem_map.1 hy
        have := (List.mem_filter.1 ho).1
        rw [hos] at this
        obtain ⟨x, hx, rfl⟩ := List.mem_map.1 this
        exact hg x hx
      have hz1 := hz (!e.flip)
      have hz2 := hz (!!e.flip)
      rw [hz1] at hg1
      rw [hz2] at hg2
      subst hg1 hg2
      simp [← hg1', ← hg2']
  have hx : xs = pools := by
    have hset := sp.hsettle
    rw [hts] at hset
    simp only [settle, if_true, Except.ok.injEq, Prod.mk.injEq] at hset
    exact hset.2.1.symm
  have one : ∀ (i : Bool) (a : Nat), Stable.toU128 (rr i) (su.prec i) = .ok a →
      held me s i * (n - 1) * 10 ^ 18 < held me s i * s.pcl.supply + (a + 1) * s.pcl.supply * 10 ^ 18 := by
    intro i a ha
    have h1 := (sp.hr i).1
    have h3 := (ht i).1
    rw [hin i] at h3
    rw [hx, (hp i).2.1, h3] at h1
    exact (refund_bounds hsup h1 ha).2
  exact ⟨one false a.1 sp.ha0, one true a.2 sp.ha1⟩

theorem ensureMin_spec {a0 a1 : Nat} {mins : List (Bool × Nat)} (h : ensureMin a0 a1 (some mins) = .ok ()) :
    (∀ m, (false, m) ∈ mins → m ≤ a0) ∧ (∀ m, (true, m) ∈ mins → m ≤ a1) ∧
    (mins.map (·.1) = [false, true] ∨ mins.map (·.1) = [true, false]) := by
  match mins with
  | [] => simp [ensureMin] at h
  | [_] => simp [ensureMin] at h
  | _ :: _ :: _ :: _ => simp [ensureMin] at h
  | [(i, m), (j, k)] =>
    simp only [ensureMin, bind_ok_iff, require_ok, exists_const] at h
    obtain ⟨hne, h1, h2⟩ := h
    cases i <;> cases j
    · exact absurd rfl hne
    · simp only [if_true] at h1 h2
      refine ⟨?_, ?_, Or.inl rfl⟩
      · intro x hx; simp at hx; omega
      · intro x hx; simp at hx; omega
    · simp only [Bool.true_eq_false, if_false] at h1 h2
      refine ⟨?_, ?_, Or.inr rfl⟩
      · intro x hx; simp at hx; omega
      · intro x hx; simp at hx; omega
    · exact absurd rfl hne

/-- **C101.** A withdrawal with stated minimums pays at least each of them, and refuses lists that do not name both
assets once. -/
theorem C101_min_assets_respected (su : Setup) (me : A) (s s' : State A) (now : Nat) (u : A) (n : Nat)
    (mins : List (Bool × Nat)) (e : Env A) (a : Nat × Nat)
    (h : withdraw su me s now u n (some mins) e = .ok (s', a)) :
    (∀ m, (false, m) ∈ mins → m ≤ a.1) ∧ (∀ m, (true, m) ∈ mins → m ≤ a.2) ∧
    (mins.map (·.1) = [false, true] ∨ mins.map (·.1) = [true, false]) := by
  obtain ⟨_, _, _, _, _, _, _, _, _, _, _, _, sp⟩ := withdraw_spec h
  exact ensureMin_spec sp.hmins

/-- **C101.** The refunds reach the sender, who loses exactly the LP tokens stated. -/
theorem C101_withdraw_pays_sender (su : Setup) (me : A) (s s' : State A) (now : Nat) (fo u : A) (n : Nat)
    (mins : Option (List (Bool × Nat))) (e : Env A) (hr : Reachable su me s)
    (h : exec su me now fo s (.withdraw u n mins e) = .ok s') :
    ∃ a : Nat × Nat, withdraw su me s now u n mins e = .ok (s', a) ∧
      s'.pcl.lp u + n = s.pcl.lp u ∧ s'.pcl.supply + n = s.pcl.supply ∧
      s.pcl.bal false u + a.1 ≤ s'.pcl.bal false u ∧ s.pcl.bal true u + a.2 ≤ s'.pcl.bal true u ∧
      ∀ v, v ≠ u → s'.pcl.lp v = s.pcl.lp v := by
  obtain ⟨hsig, hx⟩ := exec_cases h
  have hu : u ≠ me := fun hh => hsig (by rw [hh]; rfl)
  rcases hx with ⟨_, _, _, _, _, _, _, hx, _⟩ | ⟨_, _, _, _, a, hx, hw⟩ | ⟨_, _, _, _, _, _, _, _, hx, _⟩ |
    ⟨_, _, hx, _⟩ | ⟨_, _, hx, _⟩ | ⟨_, _, hx, _⟩ | ⟨_, _, _, hx, _⟩ <;> cases hx
  obtain ⟨bal, bal', os, ts, t', pools, xs, pool, rr, book', c, fin, sp⟩ := withdraw_spec hw
  obtain ⟨_, hb, hbal, hin⟩ := sp.hrenew.all hr.inv
  have hfin := sp.hrenew.hfin
  obtain ⟨ob1, ms, pre, p, fsp⟩ := finish_spec hfin
  obtain ⟨_, _, _, _, _, _, hoth⟩ := placeAll_keys fsp.hplace
  have hs : ∀ i, s'.pcl.bal i u = c.bal i u := by
    intro i
    rw [sp.hrenew.hbal, fsp.hpcl]; exact hoth i u hu
  have hmono : ∀ i, s.pcl.bal i u ≤ bal i u := by
    have hset := sp.hsettle
    unfold settle at hset
    split at hset
    · simp only [Except.ok.injEq, Prod.mk.injEq] at hset
      obtain ⟨_, _, rfl⟩ := hset
      intro i; exact le_refl _
    · simp only [process, bind_ok_iff, Prod.exists, Except.ok.injEq, Prod.mk.injEq] at hset
      obtain ⟨_, bal1, hc, _, _, _, _, _, _, _, _, rfl⟩ := hset
      have key : ∀ (ts : List Trade) (x y : Bool → Nat) (b b' : Bool → A → Nat),
          chargeAll su me s.pcl e.f ts x b = .ok (y, b') → ∀ i, b i u ≤ b' i u := by
        intro ts
        induction ts with
        | nil =>
          intro x y b b' h
          simp only [chargeAll, Except.ok.injEq, Prod.mk.injEq] at h
          obtain ⟨_, rfl⟩ := h
          intro i; exact le_refl _
        | cons t ts ih =>
          intro x y b b' h
          simp only [chargeAll, charge, bind_ok_iff, Prod.exists, Except.ok.injEq, Prod.mk.injEq] at h
          obtain ⟨x1, b1, ⟨_, shU, mkU, hf, l1, hl1, l2, hl2, rfl, rfl⟩, h⟩ := h
          intro i
          refine le_trans ?_ (ih _ _ _ _ h i)
          rw [set2_apply]
          split
          · rename_i hi
            subst hi
            exact le_trans (sendOpt_other hu hl1) (sendOpt_other hu hl2)
          · exact le_refl _
      exact key _ _ _ _ _ hc
  have hd := debit_apply sp.hlp
  have hdl := debit_le sp.hlp
  have m0 := move_apply sp.hb0.1 u
  have m1 := move_apply sp.hb1.1 u
  have hb0 : bal' false u = bal false u := by rw [hbal, credit_of_ne _ _ hu]
  have hb1 : bal' true u = bal true u := by rw [hbal, credit_of_ne _ _ hu]
  simp only [hu, if_true, if_false] at m0 m1
  have hdu := hd u
  rw [if_pos rfl] at hdu
  have := sp.hsup
  refine ⟨a, hw, by omega, by omega, ?_, ?_, ?_⟩
  · have := hmono false; rw [hs false]; omega
  · have := hmono true; rw [hs true]; omega
  · intro v hv
    rw [hd v, if_neg hv]

/-- Non-vacuity: half of the liquidity of the example is withdrawn, with acceptable and with too high minimums. -/
example : okAnd demo (fun s =>
    let z := run demoSetup 0 s demoStart
    okAnd (withdraw demoSetup 0 z 3000 2 (5 * 10 ^ 8) (some [(true, 4 * 10 ^ 8), (false, 499999999)]) quiet) (fun x =>
      decide (x.2 = (499999999, 499999999))) &&
    fails (withdraw demoSetup 0 z 3000 2 (5 * 10 ^ 8) (some [(true, 4 * 10 ^ 8), (false, 5 * 10 ^ 8)]) quiet) &&
    fails (withdraw demoSetup 0 z 3000 2 (5 * 10 ^ 8) (some [(true, 0), (true, 0)]) quiet)) = true := by
  decide +kernel

end Verif.Duality
