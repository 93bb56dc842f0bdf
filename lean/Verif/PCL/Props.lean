import Verif.PCL.Repeg

/-!
# C70, C86 to C90: accounting of the concentrated pool
-/

namespace Verif.PCL

open Verif.Stable (dmul ddiv dadd toU128 withPrec absDiff payout)
open Verif.XYK (sendOpt)

variable {A : Type} [DecidableEq A]

/-! ## C70: swap and deposit accounting -/

/-- The gross output of the curve for an offer of `off` of asset `i` (decimal form): what the invariant allows
before any fee. -/
def grossOut (p : Pool) (now : Nat) (xs : Bool → Nat) (i : Bool) (off : Nat) : Res Nat := do
  let x1 ← dmul (xs true) p.price.scale
  let ag ← ampGamma p now
  let d ← calcD ag (xs false) x1
  let ioff ← (if i then dmul off p.price.scale else .ok off)
  let newOff ← dadd (if i then x1 else xs false) ioff
  let newY ← calcY ag d newOff (!i)
  let idy ← csub (if i then xs false else x1) newY
  if i then .ok idy else ddiv idy p.price.scale

/-- What the swap computation returns, in terms of the gross output. -/
theorem computeSwap_ok {pp : PParams} {p : Pool} {now : Nat} {xs : Bool → Nat} {i : Bool} {off mk sh : Nat}
    {r : Swapped} (h : computeSwap pp p now xs i off mk sh = .ok r) :
    ∃ gross rate, grossOut p now xs i off = .ok gross ∧ r.dy + r.total = gross ∧ r.total = rate * gross / DEC ∧
      r.share = r.total * sh / DEC ∧ r.share ≤ r.total ∧ r.maker = (r.total - r.share) * mk / DEC ∧
      ∃ a b, feeRate pp a b = .ok rate := by
  simp only [computeSwap, bind_ok_iff] at h
  obtain ⟨x1, hx1, ag, hag, d, hd, ioff, hio, newOff, hno, newY, hny, idy, hidy, dy, hdy, worth, _, rate, hrate,
    total, ht, net, hnet, share, hs, rest, hrest, maker, hm, hr⟩ := h
  rw [Stable.dmul_ok] at ht hs hm
  rw [csub_ok] at hnet hrest
  rw [Except.ok.injEq] at hr
  obtain ⟨_, rfl⟩ := ht
  obtain ⟨_, rfl⟩ := hs
  obtain ⟨hle, rfl⟩ := hrest
  obtain ⟨hle2, rfl⟩ := hnet
  obtain ⟨_, rfl⟩ := hm
  subst hr
  refine ⟨dy, rate, ?_, by dsimp only; omega, rfl, rfl, hle, rfl, _, _, hrate⟩
  unfold grossOut
  rw [hx1, ok_bind, hag, ok_bind, hd, ok_bind, hio, ok_bind, hno, ok_bind, hny, ok_bind, hidy, ok_bind]
  exact hdy

/-- `sendOpt` moves what it says. -/
theorem sendOpt_total {l l' : A → Nat} {me : A} {dst : Option A} {n : Nat}
    (h : sendOpt l me dst n = .ok l') : l me ≤ l' me + n := by
  cases dst with
  | none => simp [sendOpt] at h; subst h; omega
  | some d =>
    simp only [sendOpt] at h
    have := move_apply h me
    have := move_le h
    simp only [if_true] at *
    omega

/-- **C70.** Accounting of a swap of `n` units of asset `i`: the pool receives `n`; the amounts paid to the
receiver, to the fee share recipient and to the maker together never exceed the gross output of the curve; the
two fee parts never exceed the total commission; no more than these three amounts leaves the pool; and the
commission is the dynamic fee rate times the gross output, so at most `out_fee` of it when `mid_fee ≤ out_fee`. -/
theorem C70_swap_accounting (su : Setup) (me : A) (s s' : State A) (now : Nat) (u : A) (i : Bool) (n : Nat)
    (b m : Option Nat) (rc : A) (f : FeeInfo A) (o : SwapOut) (hu : u ≠ me) (hmk : f.maker ≤ 10 ^ 18)
    (h : swap su me s now u i n b m rc f = .ok (s', o)) :
    s'.bal i me = s.bal i me + n ∧ s'.bal i u + n = s.bal i u ∧
    s.bal (!i) me ≤ s'.bal (!i) me + o.ret + o.share + o.maker ∧
    o.maker + o.share ≤ o.commission ∧
    ∃ xs off gross, decPools su (fun j => s.bal j me) = .ok xs ∧ withPrec n (su.prec i) = .ok off ∧
      grossOut s.pool now xs i off = .ok gross ∧
      (o.ret + o.share + o.maker) * 10 ^ (18 - su.prec (!i)) ≤ gross ∧
      (o.ret + o.commission) * 10 ^ (18 - su.prec (!i)) ≤ gross ∧
      (s.params.mid ≤ s.params.out → o.commission * 10 ^ (18 - su.prec (!i)) * 10 ^ 18 ≤ s.params.out * gross) := by
  have hD : DEC = 10 ^ 18 := rfl
  have hDp := DEC_pos
  obtain ⟨xs, off, fs, old, r, out, sp⟩ := swap_spec hu h
  obtain ⟨gross, rate, hg, hsum, htot, hsh, hshle, hmkr, a, a', hrate⟩ := computeSwap_ok sp.hr
  have hmle : r.maker ≤ r.total - r.share := by
    rw [hmkr]
    apply Nat.div_le_of_le_mul
    rw [Nat.mul_comm]
    apply Nat.mul_le_mul_right
    unfold makerShare; split <;> omega
  have e1 := sp.hret
  have e2 := sp.hsh
  have e3 := sp.hmk
  have e4 := sp.hcm
  rw [Stable.toU128_ok] at e1 e2 e3 e4
  obtain ⟨_, _, e1⟩ := e1
  obtain ⟨_, _, e2⟩ := e2
  obtain ⟨_, _, e3⟩ := e3
  obtain ⟨_, _, e4⟩ := e4
  generalize hk : 10 ^ (18 - su.prec (!i)) = k at *
  have hkp : 0 < k := by rw [← hk]; exact Nat.pow_pos (by decide)
  have f1 : o.ret * k ≤ r.dy := by rw [← e1]; exact Nat.div_mul_le_self _ _
  have f2 : o.share * k ≤ r.share := by rw [← e2]; exact Nat.div_mul_le_self _ _
  have f3 : o.maker * k ≤ r.maker := by rw [← e3]; exact Nat.div_mul_le_self _ _
  have f4 : o.commission * k ≤ r.total := by rw [← e4]; exact Nat.div_mul_le_self _ _
  have hb := move_apply sp.hbo me
  have hb2 := move_apply sp.hbo u
  have hble := move_le sp.hbo
  simp only [Ne.symm hu, hu, if_true, if_false] at hb hb2
  refine ⟨by omega, by omega, ?_, ?_, xs, off, gross, sp.hxs, sp.hoff, hg, ?_, ?_, ?_⟩
  · obtain ⟨l1, l2, g1, g2, g3⟩ := sp.hba
    have h1 := move_apply g1 me
    have h1' := move_le g1
    have h2 := sendOpt_total g2
    have h3 := sendOpt_total g3
    simp only [if_true] at h1
    omega
  · rw [← e4, ← e3, ← e2]
    rw [Nat.le_div_iff_mul_le hkp, Nat.add_mul]
    have := Nat.div_mul_le_self r.maker k
    have := Nat.div_mul_le_self r.share k
    omega
  · rw [Nat.add_mul, Nat.add_mul]; omega
  · rw [Nat.add_mul]; omega
  · intro hmo
    have hr := (C51_fee_between_partial s.params a a' rate hmo hrate).2
    have h1 : r.total * DEC ≤ rate * gross := by rw [htot]; exact Nat.div_mul_le_self _ _
    rw [← hD]
    exact le_trans (Nat.mul_le_mul_right _ f4) (le_trans h1 (Nat.mul_le_mul_right _ hr))

/-- Non-vacuity of the swap accounting: the second transaction of the example history, with a maker taking half of
the fee. -/
example :
    okAnd (exec demoSetup 0 2000 1 demo0 (.provide 2 (fun _ => 10 ^ 12) none none 2)) (fun s =>
      okAnd (swap demoSetup 0 s 2000 3 false (10 ^ 9) none none 3 ⟨5 * 10 ^ 17, some 1⟩) (fun x =>
        decide (x.2.ret = 997379295) && decide (x.2.commission = 2608192) && decide (x.2.maker = 1304096) &&
        decide (x.1.bal false 0 = 10 ^ 12 + 10 ^ 9))) = true := by decide +kernel

theorem grow_le {S m T K q x : Nat} (h1 : S * K = T) (h2 : m * K ≤ x) (h3 : x ≤ q - T) (h4 : m ≠ 0)
    (h5 : 0 < K) : (S + m) * K ≤ q := by
  have : 0 < m * K := Nat.mul_pos (Nat.pos_of_ne_zero h4) h5
  rw [Nat.add_mul, h1]
  omega

/-- **C70.** A deposit into a pool with liquidity mints at most the growth of the invariant `D`:
`(supply + minted) / supply ≤ D_after / D_before`.  So it never dilutes the others in terms of `D`. -/
theorem C70_provide_mints_at_most_growth (su : Setup) (me : A) (s s' : State A) (now : Nat) (u : A)
    (d : Bool → Nat) (t m : Option Nat) (rc : A) (share : Nat)
    (h : provide su me s now u d t m rc = .ok (s', share)) (hsup : s.supply ≠ 0) :
    ∃ xs dd ag x1 y1 d0 d1, decPools su (fun j => s.bal j me) = .ok xs ∧ decPools su d = .ok dd ∧
      ampGamma s.pool now = .ok ag ∧
      dmul (xs true) s.pool.price.scale = .ok x1 ∧ dmul (xs true + dd true) s.pool.price.scale = .ok y1 ∧
      calcD ag (xs false) x1 = .ok d0 ∧ calcD ag (xs false + dd false) y1 = .ok d1 ∧
      (s.supply + share) * d0 ≤ s.supply * d1 ∧ s'.supply = s.supply + share := by
  obtain ⟨total, dd, xs, shareD, sp⟩ := provide_spec h
  have ht := sp.htot
  rw [Stable.withPrec_ok] at ht
  obtain ⟨_, _, ht⟩ := ht
  have hDp := DEC_pos
  have hL : (10 : Nat) ^ (18 - LP_PREC) = 10 ^ 12 := rfl
  rw [hL] at ht
  have ht0 : total ≠ 0 := by omega
  have hc := sp.hcs
  simp only [calculateShares, bind_ok_iff, require_ok, exists_const, Prod.exists] at hc
  obtain ⟨_, new0, hn0, n1, hn1, new1, hnew1, sh, price, hraw, after, _, _, _, _, _, _, _, _, _, hc⟩ := hc
  rw [Stable.dadd_ok] at hn0 hn1
  obtain ⟨_, rfl⟩ := hn0
  obtain ⟨_, rfl⟩ := hn1
  have hse : sh = shareD := by
    split at hc
    · simp only [bind_ok_iff, Except.ok.injEq, Prod.mk.injEq] at hc
      obtain ⟨_, _, _, _, _, _, h1, _⟩ := hc
      exact h1
    · simp only [Except.ok.injEq, Prod.mk.injEq] at hc
      exact hc.1
  subst hse
  simp only [rawShares, bind_ok_iff] at hraw
  obtain ⟨ag, hag, d1, hd1, hraw⟩ := hraw
  rw [if_neg ht0] at hraw
  simp only [bind_ok_iff, Except.ok.injEq, Prod.mk.injEq] at hraw
  obtain ⟨x1, hx1, d0, hd0, t1, ht1, t2, ht2, _, _, fee, _, om, hom, sh', hsh', rfl, _⟩ := hraw
  rw [Stable.dmul_ok] at ht1 hsh'
  rw [Stable.ddiv_ok] at ht2
  rw [csub_ok] at hom
  obtain ⟨_, rfl⟩ := ht1
  obtain ⟨_, hsh'⟩ := hsh'
  obtain ⟨hd00, _, rfl⟩ := ht2
  obtain ⟨_, rfl⟩ := hom
  obtain ⟨q, hq⟩ : ∃ q, total * d1 / DEC * DEC / d0 = q := ⟨_, rfl⟩
  rw [hq] at hsh'
  have hle : sh' ≤ q - total := by
    rw [← hsh']
    apply Nat.div_le_of_le_mul
    rw [Nat.mul_comm]
    exact Nat.mul_le_mul_right _ (Nat.sub_le _ _)
  have hqd : q * d0 ≤ total * d1 := by
    rw [← hq]
    exact le_trans (Nat.div_mul_le_self _ _) (Nat.div_mul_le_self _ _)
  have hs := sp.hshare
  rw [Stable.toU128_ok, hL] at hs
  obtain ⟨_, _, hs⟩ := hs
  have hsk : share * 10 ^ 12 ≤ sh' := by rw [← hs]; exact Nat.div_mul_le_self _ _
  have hpos := sp.hpos
  have hsum : (s.supply + share) * 10 ^ 12 ≤ q := grow_le ht hsk hle hpos (by decide)
  refine ⟨xs, dd, ag, x1, new1, d0, d1, sp.hxs, sp.hdd, hag, hx1, hnew1, hd0, hd1, ?_, ?_⟩
  · have : (s.supply + share) * d0 * 10 ^ 12 ≤ s.supply * d1 * 10 ^ 12 := by
      calc (s.supply + share) * d0 * 10 ^ 12 = ((s.supply + share) * 10 ^ 12) * d0 := by ring
        _ ≤ q * d0 := Nat.mul_le_mul_right _ hsum
        _ ≤ total * d1 := hqd
        _ = s.supply * d1 * 10 ^ 12 := by rw [← ht]; ring
    exact Nat.le_of_mul_le_mul_right this (by decide)
  · have := sp.hsup.1
    rw [if_neg hsup] at this
    omega

/-- Non-vacuity: an imbalanced deposit into the example pool. -/
example :
    okAnd (exec demoSetup 0 2000 1 demo0 (.provide 2 (fun _ => 10 ^ 12) none none 2)) (fun s =>
      okAnd (provide demoSetup 0 s 2000 3 (fun j => if j then 10 ^ 9 else 2 * 10 ^ 9) (some (10 ^ 17)) none 3) (fun x =>
        decide (x.2 ≠ 0) && decide (x.1.supply = 10 ^ 12 + x.2))) = true := by decide +kernel

theorem first_le {x m K : Nat} (hk : 0 < K) (h1 : 1000 * K ≤ x) (h2 : (x - 1000 * K) / K = m) :
    (1000 + m) * K ≤ x ∧ x < (1000 + m + 1) * K := by
  have h3 := Nat.div_mul_le_self (x - 1000 * K) K
  have h4 := Nat.lt_mul_div_succ (x - 1000 * K) hk
  rw [h2] at h3 h4
  rw [Nat.mul_comm K, Nat.add_mul] at h4
  rw [Nat.add_mul, Nat.add_mul, Nat.add_mul]
  omega

/-- **C70.** The first deposit needs both assets; LP tokens minted (with the 1000 locked ones) are worth at most the
value `xcp` of the deposit at the price scale, and less than one LP unit below it; the profit indexes start at one. -/
theorem C70_first_deposit (su : Setup) (me : A) (s s' : State A) (now : Nat) (u : A)
    (d : Bool → Nat) (t m : Option Nat) (rc : A) (share : Nat)
    (h : provide su me s now u d t m rc = .ok (s', share)) (hsup : s.supply = 0) :
    d false ≠ 0 ∧ d true ≠ 0 ∧
    ∃ xs dd ag y1 d1 xcp, decPools su (fun j => s.bal j me) = .ok xs ∧ decPools su d = .ok dd ∧
      ampGamma s.pool now = .ok ag ∧ dmul (xs true + dd true) s.pool.price.scale = .ok y1 ∧
      calcD ag (xs false + dd false) y1 = .ok d1 ∧ getXcp d1 s.pool.price.scale = .ok xcp ∧
      (1000 + share) * 10 ^ 12 ≤ xcp ∧ xcp < (1000 + share + 1) * 10 ^ 12 ∧ s'.supply = 1000 + share := by
  obtain ⟨total, dd, xs, shareD, sp⟩ := provide_spec h
  have ht := sp.htot
  rw [Stable.withPrec_ok, hsup, Nat.zero_mul] at ht
  obtain ⟨_, _, ht⟩ := ht
  subst ht
  have hL : (10 : Nat) ^ (18 - LP_PREC) = 10 ^ 12 := rfl
  have hc := sp.hcs
  simp only [calculateShares, bind_ok_iff, require_ok, exists_const, Prod.exists] at hc
  obtain ⟨hz, new0, hn0, n1, hn1, new1, hnew1, sh, price, hraw, after, _, _, _, _, _, _, _, _, _, hc⟩ := hc
  rw [Stable.dadd_ok] at hn0 hn1
  obtain ⟨_, rfl⟩ := hn0
  obtain ⟨_, rfl⟩ := hn1
  have hse : sh = shareD := by
    split at hc
    · simp only [bind_ok_iff, Except.ok.injEq, Prod.mk.injEq] at hc
      obtain ⟨_, _, _, _, _, _, h1, _⟩ := hc
      exact h1
    · simp only [Except.ok.injEq, Prod.mk.injEq] at hc
      exact hc.1
  subst hse
  have hdd := decPools_ok sp.hdd
  have hnz : ∀ i, dd i ≠ 0 → d i ≠ 0 := by
    intro i h1 h2
    rw [(hdd i).2.1, h2, Nat.zero_mul] at h1
    exact h1 rfl
  have hz' : dd false ≠ 0 ∧ dd true ≠ 0 := by
    constructor
    · exact fun h => hz ⟨trivial, Or.inl h⟩
    · exact fun h => hz ⟨trivial, Or.inr h⟩
  simp only [rawShares, bind_ok_iff] at hraw
  obtain ⟨ag, hag, d1, hd1, hraw⟩ := hraw
  rw [if_pos trivial] at hraw
  simp only [bind_ok_iff, require_ok, exists_const, Except.ok.injEq, Prod.mk.injEq] at hraw
  obtain ⟨xcp, hx, locked, hl, mint, hm, _, rfl, _⟩ := hraw
  rw [csub_ok] at hm
  rw [Stable.withPrec_ok, hL] at hl
  obtain ⟨_, _, rfl⟩ := hl
  obtain ⟨hle, rfl⟩ := hm
  have hs := sp.hshare
  rw [Stable.toU128_ok, hL] at hs
  obtain ⟨_, _, hs⟩ := hs
  have hm : MINIMUM_LIQUIDITY = 1000 := rfl
  rw [hm] at hle hs
  have hsp := sp.hsup.1
  rw [if_pos hsup, hsup] at hsp
  refine ⟨hnz _ hz'.1, hnz _ hz'.2, xs, dd, ag, new1, d1, xcp, sp.hxs, sp.hdd, hag, hnew1, hd1, hx, ?_, ?_, ?_⟩
  · exact (first_le (by decide) hle hs).1
  · exact (first_le (by decide) hle hs).2
  · rw [hsp]

/-- Non-vacuity: the first deposit of the example pool. -/
example :
    okAnd (provide demoSetup 0 demo0 2000 2 (fun _ => 10 ^ 12) none none 2) (fun x =>
      decide (x.2 + 1000 = 10 ^ 12) && decide (x.1.pool.price.real = 10 ^ 18)) = true ∧
    fails (provide demoSetup 0 demo0 2000 2 (fun i => if i then 0 else 10 ^ 12) none none 2) = true := by
  decide +kernel

/-! ## C86: price accumulators -/

theorem accOne_ok {old el price r : Nat} (h : accOne old el price = .ok r) :
    r = (old + el * (price * TWAP_PRECISION_DEC / DEC / DEC)) % U128 := by
  unfold accOne at h
  generalize TWAP_PRECISION_DEC = T at h ⊢
  generalize U128 = M at h ⊢
  rw [bind_ok_iff] at h
  obtain ⟨v, hv, h⟩ := h
  rw [bind_ok_iff] at h
  obtain ⟨w, hw, h⟩ := h
  rw [bind_ok_iff] at h
  obtain ⟨x, hx, h⟩ := h
  rw [Stable.dmul_ok] at hv
  rw [u128_ok] at hw hx
  rw [Except.ok.injEq] at h
  obtain ⟨_, rfl⟩ := hv
  obtain ⟨_, rfl⟩ := hw
  obtain ⟨_, rfl⟩ := hx
  exact h.symm

/-- What an accumulator update means: with `el > 0` seconds passed each accumulator grows (modulo `2 ^ 128`) by
`el` times the price scaled by the TWAP precision. -/
theorem accumulate_ok {c c' : Twap} {now price : Nat} (h : accumulate c now price = .ok c') :
    (now ≤ c.last ∧ c' = c) ∨ (c.last < now ∧ price ≠ 0 ∧ c'.last = now ∧
      c'.cum true = (c.cum true + (now - c.last) * (price * TWAP_PRECISION_DEC / DEC / DEC)) % U128 ∧
      c'.cum false = (c.cum false + (now - c.last) * (DEC * DEC / price * TWAP_PRECISION_DEC / DEC / DEC)) % U128) := by
  unfold accumulate at h
  split at h
  · rename_i hle
    rw [Except.ok.injEq] at h
    exact Or.inl ⟨hle, h.symm⟩
  · rename_i hle
    rw [bind_ok_iff] at h
    obtain ⟨inv, hinv, h⟩ := h
    rw [bind_ok_iff] at h
    obtain ⟨a, ha, h⟩ := h
    rw [bind_ok_iff] at h
    obtain ⟨b, hb, h⟩ := h
    rw [Except.ok.injEq] at h
    rw [Stable.ddiv_ok] at hinv
    have e1 := accOne_ok ha
    have e2 := accOne_ok hb
    rw [← hinv.2.2] at e1
    subst h
    refine Or.inr ⟨Nat.lt_of_not_le hle, hinv.1, rfl, ?_, ?_⟩
    · rw [← e2]; rfl
    · rw [← e1]; rfl

/-- **C86.** The accumulators depend on the state before the transaction and on the time only, not on the trade:
two swaps (of any size and direction, by anybody) from the same state at the same time leave the same
accumulators, and so do two deposits.  Other transactions leave them alone. -/
theorem C86_accumulators_independent_of_trade (su : Setup) (me : A) (now : Nat) (fo : A) (s : State A) :
    (∀ u1 i1 n1 b1 m1 r1 f1 s1 u2 i2 n2 b2 m2 r2 f2 s2,
      exec su me now fo s (.swap u1 i1 n1 b1 m1 r1 f1) = .ok s1 →
      exec su me now fo s (.swap u2 i2 n2 b2 m2 r2 f2) = .ok s2 → s1.twap = s2.twap) ∧
    (∀ u1 d1 t1 m1 r1 s1 u2 d2 t2 m2 r2 s2,
      exec su me now fo s (.provide u1 d1 t1 m1 r1) = .ok s1 →
      exec su me now fo s (.provide u2 d2 t2 m2 r2) = .ok s2 → s1.twap = s2.twap) ∧
    (∀ o s1, exec su me now fo s o = .ok s1 →
      s1.twap = s.twap ∨ (∃ u i n b m r f, o = .swap u i n b m r f) ∨ (∃ u d t m r, o = .provide u d t m r)) := by
  have hswap : ∀ {u i n b m r f s1}, exec su me now fo s (.swap u i n b m r f) = .ok s1 →
      ∃ xs old, decPools su (fun j => s.bal j me) = .ok xs ∧ calcLastPrices s.params s.pool now xs = .ok old ∧
        accumulate s.twap now old = .ok s1.twap := by
    intro u i n b m r f s1 h
    unfold exec at h
    simp only [bind_ok_iff, require_ok, exists_const, Prod.exists, Except.ok.injEq] at h
    obtain ⟨hsig, _, _, h, rfl⟩ := h
    obtain ⟨xs, _, _, old, _, _, sp⟩ := swap_spec (by simpa [Op.signer] using hsig) h
    exact ⟨xs, old, sp.hxs, sp.hold, sp.htw⟩
  have hprov : ∀ {u d t m r s1}, exec su me now fo s (.provide u d t m r) = .ok s1 →
      accumulate s.twap now s.pool.price.last = .ok s1.twap := by
    intro u d t m r s1 h
    unfold exec at h
    simp only [bind_ok_iff, require_ok, exists_const, Prod.exists, Except.ok.injEq] at h
    obtain ⟨_, _, _, h, rfl⟩ := h
    obtain ⟨_, _, _, _, sp⟩ := provide_spec h
    exact sp.htw
  refine ⟨?_, ?_, ?_⟩
  · intro u1 i1 n1 b1 m1 r1 f1 s1 u2 i2 n2 b2 m2 r2 f2 s2 h1 h2
    obtain ⟨xs, old, a1, a2, a3⟩ := hswap h1
    obtain ⟨xs', old', b1, b2, b3⟩ := hswap h2
    rw [a1, Except.ok.injEq] at b1
    subst b1
    rw [a2, Except.ok.injEq] at b2
    subst b2
    rw [a3, Except.ok.injEq] at b3
    exact b3
  · intro u1 d1 t1 m1 r1 s1 u2 d2 t2 m2 r2 s2 h1 h2
    have h3 := hprov h1
    rw [hprov h2, Except.ok.injEq] at h3
    exact h3.symm
  · intro o s1 h
    cases o with
    | provide u d t m r => exact Or.inr (Or.inr ⟨u, d, t, m, r, rfl⟩)
    | swap u i n b m r f => exact Or.inr (Or.inl ⟨u, i, n, b, m, r, f, rfl⟩)
    | withdraw u n m =>
      unfold exec at h
      simp only [bind_ok_iff, require_ok, exists_const, Prod.exists, Except.ok.injEq] at h
      obtain ⟨_, _, _, _, h, rfl⟩ := h
      obtain ⟨_, _, _, sp⟩ := withdraw_spec h
      exact Or.inl sp.hrest.2.2.2
    | update u v =>
      unfold exec at h
      simp only [bind_ok_iff, authorised, require_ok, exists_const, Except.ok.injEq] at h
      obtain ⟨_, _, _, _, rfl⟩ := h
      exact Or.inl rfl
    | promote u a g t =>
      unfold exec at h
      simp only [bind_ok_iff, authorised, require_ok, exists_const, Except.ok.injEq] at h
      obtain ⟨_, _, _, _, rfl⟩ := h
      exact Or.inl rfl
    | stop u =>
      unfold exec at h
      simp only [bind_ok_iff, authorised, require_ok, exists_const, Except.ok.injEq] at h
      obtain ⟨_, _, _, _, rfl⟩ := h
      exact Or.inl rfl
    | enableShare u bps r =>
      unfold exec at h
      simp only [bind_ok_iff, authorised, require_ok, exists_const, Except.ok.injEq] at h
      obtain ⟨_, _, _, rfl⟩ := h
      exact Or.inl rfl
    | disableShare u =>
      unfold exec at h
      simp only [bind_ok_iff, authorised, require_ok, exists_const, Except.ok.injEq] at h
      obtain ⟨_, _, rfl⟩ := h
      exact Or.inl rfl
    | send i u v n =>
      unfold exec at h
      simp only [bind_ok_iff, require_ok, exists_const, Except.ok.injEq] at h
      obtain ⟨_, _, _, rfl⟩ := h
      exact Or.inl rfl
    | sendLp u v n =>
      unfold exec at h
      simp only [bind_ok_iff, require_ok, exists_const, Except.ok.injEq] at h
      obtain ⟨_, _, _, rfl⟩ := h
      exact Or.inl rfl

/-- **C86 (partial).** The accumulator of a price `p` (18 digits) grows by `p` times `10 ^ 6` per second, rounded
down, or by one less (for prices between `10 ^ -10` and `10 ^ 10`); the other one by the inverse price in the same way.
Nothing is added in a block in which the accumulators were updated already.
Missing: exactness, which fails because the factor is a floating point constant (`C86_unit_price_violated`). -/
theorem C86_accumulator_rate_partial (c c' : Twap) (now p : Nat) (hp0 : 10 ^ 8 ≤ p) (hp : p ≤ 10 ^ 28)
    (h : accumulate c now p = .ok c') :
    (now ≤ c.last → c' = c) ∧
    (c.last < now → ∃ rate inv,
      p * 10 ^ 6 / 10 ^ 18 ≤ rate + 1 ∧ rate ≤ p * 10 ^ 6 / 10 ^ 18 ∧
      10 ^ 36 / p * 10 ^ 6 / 10 ^ 18 ≤ inv + 1 ∧ inv ≤ 10 ^ 36 / p * 10 ^ 6 / 10 ^ 18 ∧
      c'.cum true = (c.cum true + (now - c.last) * rate) % 2 ^ 128 ∧
      c'.cum false = (c.cum false + (now - c.last) * inv) % 2 ^ 128 ∧ c'.last = now) := by
  have hD : DEC = 10 ^ 18 := rfl
  have hT : TWAP_PRECISION_DEC = 10 ^ 24 - 16777216 := rfl
  have hU : U128 = 2 ^ 128 := rfl
  have bound : ∀ q, q ≤ 10 ^ 28 → q * 10 ^ 6 / 10 ^ 18 ≤ q * TWAP_PRECISION_DEC / DEC / DEC + 1 ∧
      q * TWAP_PRECISION_DEC / DEC / DEC ≤ q * 10 ^ 6 / 10 ^ 18 := by
    intro q hq
    rw [Nat.div_div_eq_div_mul, hD, hT]
    constructor <;> omega
  rcases accumulate_ok h with ⟨h1, h2⟩ | ⟨h0, hne, h2, h3, h4⟩
  · exact ⟨fun _ => h2, fun h => absurd h (Nat.not_lt.2 h1)⟩
  · refine ⟨fun h => absurd h (Nat.not_le.2 h0), fun _ => ⟨p * TWAP_PRECISION_DEC / DEC / DEC,
      DEC * DEC / p * TWAP_PRECISION_DEC / DEC / DEC, (bound p hp).1, (bound p hp).2, ?_, ?_,
      by rw [h3, hU], by rw [h4, hU], h2⟩⟩
    all_goals
      have hq : 10 ^ 36 / p ≤ 10 ^ 28 := by
        apply Nat.div_le_of_le_mul
        calc 10 ^ 36 = 10 ^ 8 * 10 ^ 28 := by norm_num
          _ ≤ p * 10 ^ 28 := Nat.mul_le_mul_right _ hp0
      have hb := bound _ hq
      rw [show DEC * DEC = 10 ^ 36 from rfl]
    · exact hb.1
    · exact hb.2

/-- **C86 is violated**: a price of exactly 1 accumulates 999999 per second instead of 1000000. -/
theorem C86_unit_price_violated :
    okAnd (accumulate { cum := fun _ => 0, last := 1000 } 1001 (10 ^ 18))
      (fun c => decide (c.cum true = 999999) && decide (c.cum false = 999999)) = true := by decide +kernel

/-- Non-vacuity: a second swap 500 seconds later updates the accumulators, whatever its size; a third one
in the same block does not change them again. -/
example :
    let s := run demoSetup 0 demo0 demoHistory
    let a := run demoSetup 0 s [⟨2500, 1, .swap 3 true (10 ^ 10) none (some (5 * 10 ^ 17)) 3 ⟨0, none⟩⟩]
    let b := run demoSetup 0 s [⟨2500, 1, .swap 2 true (10 ^ 9) none (some (5 * 10 ^ 17)) 3 ⟨0, none⟩⟩]
    let c := run demoSetup 0 a [⟨2500, 1, .swap 2 true (10 ^ 9) none (some (5 * 10 ^ 17)) 3 ⟨0, none⟩⟩]
    a.twap.cum true ≠ s.twap.cum true ∧ a.twap.cum true = b.twap.cum true ∧ a.twap.cum false = b.twap.cum false ∧
    c.twap.cum true = a.twap.cum true ∧ c.bal true 0 ≠ a.bal true 0 ∧ a.bal true 0 ≠ b.bal true 0 := by
  decide +kernel

/-! ## C87: withdrawals -/

theorem shareInAsset_ok {x n t r : Nat} (h : shareInAsset x n t = .ok r) (ht : t ≠ 0) :
    r = x * (n * DEC / t) / DEC := by
  simp only [shareInAsset, if_pos ht, bind_ok_iff, dec256FromRatio_ok, Stable.dmul_ok] at h
  obtain ⟨_, ⟨_, _, rfl⟩, _, rfl⟩ := h
  rfl

/-- One refund against the exact proportional amount. -/
theorem refund_bounds {bal p n t r a : Nat} (ht : t ≠ 0)
    (hr : shareInAsset (bal * 10 ^ (18 - p)) n t = .ok r) (ha : toU128 r p = .ok a) :
    a * t ≤ bal * n ∧ bal * n * 10 ^ 18 < bal * t + (a + 1) * t * 10 ^ 18 := by
  have hDp := DEC_pos
  have hD : DEC = 10 ^ 18 := rfl
  have e := shareInAsset_ok hr ht
  rw [Stable.toU128_ok] at ha
  obtain ⟨_, _, ha⟩ := ha
  have hkp : 0 < 10 ^ (18 - p) := Nat.pow_pos (by decide)
  rw [← hD]
  generalize 10 ^ (18 - p) = k at *
  generalize DEC = D at *
  subst e
  obtain ⟨q, hq⟩ : ∃ q, n * D / t = q := ⟨_, rfl⟩
  rw [hq] at ha
  have q1 : q * t ≤ n * D := by rw [← hq]; exact Nat.div_mul_le_self _ _
  have q2 : n * D < (q + 1) * t := by
    rw [← hq, Nat.mul_comm _ t]
    exact Nat.lt_mul_div_succ _ (Nat.pos_of_ne_zero ht)
  have hx : bal * k * q / D / k = bal * q / D := by
    rw [show bal * k * q = bal * q * k by ring, Nat.div_div_eq_div_mul, Nat.mul_div_mul_right _ _ hkp]
  rw [hx] at ha
  have a1 : a * D ≤ bal * q := by rw [← ha]; exact Nat.div_mul_le_self _ _
  have a2 : bal * q < (a + 1) * D := by
    rw [← ha, Nat.mul_comm _ D]
    exact Nat.lt_mul_div_succ _ hDp
  constructor
  · have : a * t * D ≤ bal * n * D := by
      calc a * t * D = a * D * t := by ring
        _ ≤ bal * q * t := Nat.mul_le_mul_right _ a1
        _ = bal * (q * t) := by ring
        _ ≤ bal * (n * D) := Nat.mul_le_mul_left _ q1
        _ = bal * n * D := by ring
    exact Nat.le_of_mul_le_mul_right this hDp
  · calc bal * n * D = bal * (n * D) := by ring
      _ ≤ bal * ((q + 1) * t) := Nat.mul_le_mul_left _ (Nat.le_of_lt q2)
      _ = bal * t + bal * q * t := by ring
      _ < bal * t + (a + 1) * D * t := by
        have := Nat.mul_lt_mul_of_pos_right a2 (Nat.pos_of_ne_zero ht)
        omega
      _ = bal * t + (a + 1) * t * D := by ring

/-- **C87 (partial).** A withdrawal of `n` of the LP supply pays, of each asset, at most the proportion
`(n - 1) / supply` of the reserve, and less by less than one unit plus `10 ^ -18` of the reserve; the LP tokens are
burnt and the refunds come out of the reserves.  Missing: the minimum the sender states is ignored
(`C87_min_assets_ignored_violated`). -/
theorem C87_withdraw_pro_rata_partial (su : Setup) (me : A) (s s' : State A) (now : Nat) (u : A) (n : Nat)
    (mins : Option (List (Bool × Nat))) (a : Nat × Nat) (hu : u ≠ me)
    (h : withdraw su me s now u n mins = .ok (s', a)) :
    (a.1 * s.supply ≤ s.bal false me * (n - 1) ∧
      s.bal false me * (n - 1) * 10 ^ 18 < s.bal false me * s.supply + (a.1 + 1) * s.supply * 10 ^ 18) ∧
    (a.2 * s.supply ≤ s.bal true me * (n - 1) ∧
      s.bal true me * (n - 1) * 10 ^ 18 < s.bal true me * s.supply + (a.2 + 1) * s.supply * 10 ^ 18) ∧
    s'.supply + n = s.supply ∧ s'.lp u + n = s.lp u ∧
    (s'.bal false me + a.1 = s.bal false me ∧ s'.bal false u = s.bal false u + a.1) ∧
    (s'.bal true me + a.2 = s.bal true me ∧ s'.bal true u = s.bal true u + a.2) := by
  obtain ⟨xs, r0, r1, sp⟩ := withdraw_spec h
  have hn := sp.hpos
  obtain ⟨hle, hsup⟩ := sp.hsup
  have ht : s.supply ≠ 0 := by omega
  have hx := decPools_ok sp.hxs
  have h0 := sp.hr0
  have h1 := sp.hr1
  rw [(hx false).2.1] at h0
  rw [(hx true).2.1] at h1
  have m0 := move_apply sp.hb0
  have m1 := move_apply sp.hb1
  have l0 := move_le sp.hb0
  have l1 := move_le sp.hb1
  have d0 := debit_apply sp.hlp u
  have d1 := debit_le sp.hlp
  have m0u := m0 u
  have m0m := m0 me
  have m1u := m1 u
  have m1m := m1 me
  simp only [hu, Ne.symm hu, if_true, if_false] at m0u m0m m1u m1m d0
  exact ⟨refund_bounds ht h0 sp.ha0, refund_bounds ht h1 sp.ha1, by omega, by omega, ⟨by omega, by omega⟩,
    ⟨by omega, by omega⟩⟩

/-- Non-vacuity: half of the pool of the example. -/
example :
    okAnd (withdraw demoSetup 0 (run demoSetup 0 demo0 demoHistory) 3000 2 (5 * 10 ^ 11) none)
      (fun x => decide (x.2.1 = 749999999998) && decide (0 < x.2.2)) = true := by decide +kernel

/-- **C87 is violated**: a withdrawal that asks for at least `10 ^ 13` units of the first asset is executed although
it pays less than `10 ^ 12`. -/
theorem C87_min_assets_ignored_violated :
    okAnd (withdraw demoSetup 0 (run demoSetup 0 demo0 demoHistory) 3000 2 (5 * 10 ^ 11)
        (some [(false, 10 ^ 13), (true, 10 ^ 13)]))
      (fun x => decide (x.2.1 < 10 ^ 12) && decide (x.2.2 < 10 ^ 12)) = true := by decide +kernel

/-! ## C88: quotes -/

/-- **C88.** The share query quotes what a withdrawal pays, a deposit simulation what a deposit mints. -/
theorem C88_share_and_deposit_quotes_exact (su : Setup) (me : A) (s s' : State A) (now : Nat) (u : A) :
    (∀ n mins a, withdraw su me s now u n mins = .ok (s', a) → queryShare su me s n = .ok a) ∧
    (∀ d t m rc share, provide su me s now u d t m rc = .ok (s', share) →
      simulateProvide su me s now d t = .ok share) := by
  constructor
  · intro n mins a h
    obtain ⟨xs, r0, r1, sp⟩ := withdraw_spec h
    unfold queryShare
    rw [sp.hxs, ok_bind, sp.hr0, ok_bind, sp.hr1, ok_bind, sp.ha0, ok_bind, sp.ha1, ok_bind]
  · intro d t m rc share h
    obtain ⟨total, dd, xs, shareD, sp⟩ := provide_spec h
    unfold simulateProvide
    rw [sp.htot, ok_bind, sp.hdd, ok_bind, sp.hxs, ok_bind, sp.hcs, ok_bind]
    exact sp.hshare

/-- **C88.** The swap simulation quotes the amounts of the swap. -/
theorem C88_swap_quote_exact (su : Setup) (me : A) (s s' : State A) (now : Nat) (u : A) (i : Bool) (n : Nat)
    (b m : Option Nat) (rc : A) (f : FeeInfo A) (o : SwapOut) (hu : u ≠ me)
    (h : swap su me s now u i n b m rc f = .ok (s', o)) :
    simulation su me s now i n f = .ok (o.ret, o.spread, o.commission) := by
  obtain ⟨xs, off, fs, old, r, out, sp⟩ := swap_spec hu h
  unfold simulation
  rw [sp.hoff, ok_bind, sp.hxs, ok_bind, sp.hchk, ok_bind, sp.hfs, ok_bind, sp.hr, ok_bind, sp.hret, ok_bind,
    sp.hspr, ok_bind, sp.hcm, ok_bind]

/-- Non-vacuity: the quote of the example swap. -/
example :
    okAnd (exec demoSetup 0 2000 1 demo0 (.provide 2 (fun _ => 10 ^ 12) none none 2)) (fun s =>
      okAnd (simulation demoSetup 0 s 2000 false (10 ^ 9) ⟨5 * 10 ^ 17, some 1⟩) (fun x =>
        decide (x.1 = 997379295) && decide (x.2.2 = 2608192))) = true := by decide +kernel

/-! ## C89 and C90: ledgers -/

/-- What a transaction does to the LP ledger. -/
theorem exec_lp {su : Setup} {me : A} {now : Nat} {fo : A} {s s' : State A} {o : Op A}
    (h : exec su me now fo s o = .ok s') :
    o.signer ≠ me ∧
    ((s'.lp = s.lp ∧ s'.supply = s.supply) ∨
     (∃ rc locked share, s'.lp = credit (credit s.lp me locked) rc share ∧ s'.supply = s.supply + locked + share ∧
       (s.supply = 0 → locked = 1000)) ∨
     (∃ n, debit s.lp o.signer n = .ok s'.lp ∧ n ≤ s.supply ∧ s'.supply = s.supply - n) ∨
     (∃ v n, move s.lp o.signer v n = .ok s'.lp ∧ s'.supply = s.supply)) := by
  unfold exec at h
  simp only [bind_ok_iff, require_ok, exists_const] at h
  obtain ⟨hsig, h⟩ := h
  refine ⟨hsig, ?_⟩
  cases o with
  | provide u d t m r =>
    simp only [bind_ok_iff, Prod.exists, Except.ok.injEq] at h
    obtain ⟨_, _, h, rfl⟩ := h
    obtain ⟨_, _, _, _, sp⟩ := provide_spec h
    exact Or.inr (Or.inl ⟨_, _, _, sp.hlp, sp.hsup.1, fun h => if_pos h⟩)
  | withdraw u n m =>
    simp only [bind_ok_iff, Prod.exists, Except.ok.injEq] at h
    obtain ⟨_, _, _, h, rfl⟩ := h
    obtain ⟨_, _, _, sp⟩ := withdraw_spec h
    exact Or.inr (Or.inr (Or.inl ⟨n, sp.hlp, sp.hsup.1, sp.hsup.2⟩))
  | swap u i n b m r f =>
    simp only [bind_ok_iff, Prod.exists, Except.ok.injEq] at h
    obtain ⟨_, _, h, rfl⟩ := h
    obtain ⟨_, _, _, _, _, _, sp⟩ := swap_spec (by simpa [Op.signer] using hsig) h
    exact Or.inl ⟨sp.hrest.2.2.2.1, sp.hrest.2.2.2.2⟩
  | update u v =>
    simp only [bind_ok_iff, authorised, require_ok, exists_const, Except.ok.injEq] at h
    obtain ⟨_, _, _, rfl⟩ := h
    exact Or.inl ⟨rfl, rfl⟩
  | promote u a g t =>
    simp only [bind_ok_iff, authorised, require_ok, exists_const, Except.ok.injEq] at h
    obtain ⟨_, _, _, rfl⟩ := h
    exact Or.inl ⟨rfl, rfl⟩
  | stop u =>
    simp only [bind_ok_iff, authorised, require_ok, exists_const, Except.ok.injEq] at h
    obtain ⟨_, _, _, rfl⟩ := h
    exact Or.inl ⟨rfl, rfl⟩
  | enableShare u bps r =>
    simp only [bind_ok_iff, authorised, require_ok, exists_const, Except.ok.injEq] at h
    obtain ⟨_, _, rfl⟩ := h
    exact Or.inl ⟨rfl, rfl⟩
  | disableShare u =>
    simp only [bind_ok_iff, authorised, require_ok, exists_const, Except.ok.injEq] at h
    obtain ⟨_, rfl⟩ := h
    exact Or.inl ⟨rfl, rfl⟩
  | send i u v n =>
    simp only [bind_ok_iff, Except.ok.injEq] at h
    obtain ⟨_, _, rfl⟩ := h
    exact Or.inl ⟨rfl, rfl⟩
  | sendLp u v n =>
    simp only [bind_ok_iff, Except.ok.injEq] at h
    obtain ⟨_, hl, rfl⟩ := h
    exact Or.inr (Or.inr (Or.inr ⟨v, n, hl, rfl⟩))

/-- LP tokens all belong to somebody, and once there are any, 1000 of them belong to the pool. -/
def LpInv [Fintype A] (me : A) (s : State A) : Prop :=
  s.supply = ∑ a, s.lp a ∧ (s.supply = 0 ∨ 1000 ≤ s.lp me)

theorem lpInv_step [Fintype A] {su : Setup} {me : A} {now : Nat} {fo : A} {s s' : State A} {o : Op A}
    (hi : LpInv me s) (h : exec su me now fo s o = .ok s') :
    LpInv me s' ∧ (s.supply ≠ 0 → s'.supply ≠ 0 ∧ s.lp me ≤ s'.lp me) := by
  obtain ⟨h1, h2⟩ := hi
  obtain ⟨hsig, h⟩ := exec_lp h
  rcases h with ⟨e1, e2⟩ | ⟨rc, locked, share, e1, e2, e3⟩ | ⟨n, e1, e2, e3⟩ | ⟨v, n, e1, e2⟩
  · unfold LpInv; rw [e1, e2]
    exact ⟨⟨h1, h2⟩, fun h => ⟨h, le_refl _⟩⟩
  · have hge : s.lp me + locked ≤ s'.lp me := by
      rw [e1, credit_apply, credit_apply, if_pos rfl]; split <;> omega
    refine ⟨⟨?_, ?_⟩, fun h => ⟨by omega, by omega⟩⟩
    · rw [e1, sum_credit, sum_credit, e2, h1]
    · rcases h2 with h2 | h2
      · have := e3 h2; omega
      · omega
  · have hs := sum_debit e1
    have hm := debit_apply e1 me
    rw [if_neg (Ne.symm hsig)] at hm
    have hle := le_sum s'.lp me
    refine ⟨⟨by omega, ?_⟩, fun h => ⟨by omega, by omega⟩⟩
    rcases h2 with h2 | h2
    · left; omega
    · right; omega
  · have hs := sum_move e1
    have hm := move_apply e1 me
    rw [if_neg (Ne.symm hsig)] at hm
    refine ⟨⟨by omega, ?_⟩, fun h => ⟨by omega, by omega⟩⟩
    rcases h2 with h2 | h2
    · left; omega
    · right; omega

theorem lpInv_run [Fintype A] {su : Setup} {me : A} {s : State A} (es : List (Event A)) (hi : LpInv me s) :
    LpInv me (run su me s es) ∧
      (s.supply ≠ 0 → (run su me s es).supply ≠ 0 ∧ s.lp me ≤ (run su me s es).lp me) := by
  induction es generalizing s with
  | nil => exact ⟨hi, fun h => ⟨h, le_refl _⟩⟩
  | cons e es ih =>
    have hstep : LpInv me (step su me s e) ∧
        (s.supply ≠ 0 → (step su me s e).supply ≠ 0 ∧ s.lp me ≤ (step su me s e).lp me) := by
      unfold step
      exact commit'_inv (fun t => LpInv me t ∧ (s.supply ≠ 0 → t.supply ≠ 0 ∧ s.lp me ≤ t.lp me))
        ⟨hi, fun h => ⟨h, le_refl _⟩⟩ (fun s' h => lpInv_step hi h)
    obtain ⟨a, b⟩ := ih hstep.1
    refine ⟨a, fun h => ?_⟩
    have c := hstep.2 h
    have d := b c.1
    exact ⟨d.1, le_trans c.2 d.2⟩

/-- **C89.** From the creation of the pool, through every history of transactions of anybody, the LP supply equals
the sum of the LP balances; it is zero, or at least 1000 LP units lie with the pool itself; and once positive it
never returns to zero, the pool's own LP tokens never decreasing. -/
theorem C89_lp_supply_and_locked_minimum [Fintype A] (su : Setup) (me : A) (bal : Bool → A → Nat) (u : PParams)
    (amp gamma scale t : Nat) (s : State A) (es es' : List (Event A))
    (hc : create bal u amp gamma scale t = .ok s) :
    (run su me s es).supply = ∑ a, (run su me s es).lp a ∧
    ((run su me s es).supply = 0 ∨ 1000 ≤ (run su me s es).lp me) ∧
    ((run su me s es).supply ≠ 0 → (run su me s (es ++ es')).supply ≠ 0 ∧
      (run su me s es).lp me ≤ (run su me s (es ++ es')).lp me) := by
  have h0 : LpInv me s := by
    simp only [create, bind_ok_iff, require_ok, exists_const, Except.ok.injEq] at hc
    obtain ⟨_, _, _, _, _, rfl⟩ := hc
    exact ⟨by simp, Or.inl rfl⟩
  have h1 := (lpInv_run (su := su) es h0).1
  have h2 := (lpInv_run (su := su) es' h1).2
  refine ⟨h1.1, h1.2, ?_⟩
  have : run su me s (es ++ es') = run su me (run su me s es) es' := by
    unfold run; exact List.foldl_append
  rw [this]
  exact h2

/-- Non-vacuity: the example pool holds 1000 of its `10 ^ 12` LP tokens. -/
example :
    okAnd (create (A := Acct) demo0.bal demoParams (40 * 10 ^ 18) (145 * 10 ^ 12) (10 ^ 18) 1000) (fun s =>
      let s := run demoSetup 0 s demoHistory
      decide (s.supply = 10 ^ 12 ∧ s.lp 0 = 1000 ∧ s.lp 2 = 10 ^ 12 - 1000)) = true := by decide +kernel

theorem sendOpt_other {l l' : A → Nat} {me a : A} {dst : Option A} {n : Nat} (ha : a ≠ me)
    (h : sendOpt l me dst n = .ok l') : l a ≤ l' a := by
  cases dst with
  | none => simp [sendOpt] at h; subst h; exact le_refl _
  | some d =>
    simp only [sendOpt] at h
    have := move_apply h a
    rw [if_neg ha] at this
    omega

theorem move_other {l l' : A → Nat} {x y a : A} {n : Nat} (ha : a ≠ x) (h : move l x y n = .ok l') :
    l a ≤ l' a := by
  have := move_apply h a
  rw [if_neg ha] at this
  omega

/-- **C90.** A transaction lowers nobody's LP balance and nobody's balance of a pool asset, except the signer's and
(assets only) the pool's. -/
theorem C90_others_never_lose (su : Setup) (me : A) (now : Nat) (fo : A) (s s' : State A) (o : Op A) (a : A)
    (h : exec su me now fo s o = .ok s') (ha : a ≠ o.signer) :
    s.lp a ≤ s'.lp a ∧ (a ≠ me → ∀ i, s.bal i a ≤ s'.bal i a) := by
  constructor
  · obtain ⟨hsig, h⟩ := exec_lp h
    rcases h with ⟨e1, e2⟩ | ⟨rc, locked, share, e1, e2, e3⟩ | ⟨n, e1, e2, e3⟩ | ⟨v, n, e1, e2⟩
    · rw [e1]
    · rw [e1, credit_apply, credit_apply]; split <;> split <;> omega
    · have := debit_apply e1 a
      rw [if_neg ha] at this
      omega
    · exact move_other ha e1
  · intro hm
    unfold exec at h
    simp only [bind_ok_iff, require_ok, exists_const] at h
    obtain ⟨hsig, h⟩ := h
    cases o with
    | provide u d t m r =>
      simp only [bind_ok_iff, Prod.exists, Except.ok.injEq] at h
      obtain ⟨_, _, h, rfl⟩ := h
      obtain ⟨_, _, _, _, sp⟩ := provide_spec h
      exact fun i => move_other ha (sp.hbal i)
    | withdraw u n m =>
      simp only [bind_ok_iff, Prod.exists, Except.ok.injEq] at h
      obtain ⟨_, _, _, h, rfl⟩ := h
      obtain ⟨_, _, _, sp⟩ := withdraw_spec h
      intro i
      cases i
      · exact move_other hm sp.hb0
      · exact move_other hm sp.hb1
    | swap u i n b m r f =>
      simp only [bind_ok_iff, Prod.exists, Except.ok.injEq] at h
      obtain ⟨_, _, h, rfl⟩ := h
      obtain ⟨_, _, _, _, _, _, sp⟩ := swap_spec (by simpa [Op.signer] using hsig) h
      obtain ⟨l1, l2, g1, g2, g3⟩ := sp.hba
      have h1 := move_other ha sp.hbo
      have h2 := le_trans (move_other hm g1) (le_trans (sendOpt_other hm g2) (sendOpt_other hm g3))
      intro j
      by_cases hj : j = i
      · subst hj; exact h1
      · have : j = !i := by cases i <;> cases j <;> simp_all
        rw [this]; exact h2
    | update u v =>
      simp only [bind_ok_iff, authorised, require_ok, exists_const, Except.ok.injEq] at h
      obtain ⟨_, _, _, rfl⟩ := h
      exact fun i => le_refl _
    | promote u a g t =>
      simp only [bind_ok_iff, authorised, require_ok, exists_const, Except.ok.injEq] at h
      obtain ⟨_, _, _, rfl⟩ := h
      exact fun i => le_refl _
    | stop u =>
      simp only [bind_ok_iff, authorised, require_ok, exists_const, Except.ok.injEq] at h
      obtain ⟨_, _, _, rfl⟩ := h
      exact fun i => le_refl _
    | enableShare u bps r =>
      simp only [bind_ok_iff, authorised, require_ok, exists_const, Except.ok.injEq] at h
      obtain ⟨_, _, rfl⟩ := h
      exact fun i => le_refl _
    | disableShare u =>
      simp only [bind_ok_iff, authorised, require_ok, exists_const, Except.ok.injEq] at h
      obtain ⟨_, rfl⟩ := h
      exact fun i => le_refl _
    | send i u v n =>
      simp only [bind_ok_iff, Except.ok.injEq] at h
      obtain ⟨b, hb, rfl⟩ := h
      intro j
      dsimp only
      split
      · rename_i hj; subst hj; exact move_other ha hb
      · exact le_refl _
    | sendLp u v n =>
      simp only [bind_ok_iff, Except.ok.injEq] at h
      obtain ⟨_, _, rfl⟩ := h
      exact fun i => le_refl _

/-- Non-vacuity: account 1 gains maker fees from the swap of account 3. -/
example :
    okAnd (exec demoSetup 0 2000 1 demo0 (.provide 2 (fun _ => 10 ^ 12) none none 2)) (fun s =>
      okAnd (exec demoSetup 0 2000 1 s (.swap 3 false (10 ^ 9) none none 3 ⟨5 * 10 ^ 17, some 1⟩)) (fun s' =>
        decide (s'.bal true 1 = 10 ^ 15 + 1304096) && decide (s'.bal false 3 = 10 ^ 15 - 10 ^ 9))) = true := by
  decide +kernel

end Verif.PCL
