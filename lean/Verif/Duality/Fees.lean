import Verif.Duality.Trades

/-!
# Trades on the orderbook: C102, C104, C105

Specification: `soldOf`, `gotOf` (what the orderbook traded since the orders were posted), `tradeFee`, `sharePart`,
`makerPart`.
-/

namespace Verif.Duality

open Verif.PCL (Setup FeeInfo Pool demoSetup demoParams sendOpt_total sendOpt_other move_other decPools_ok makerShare
  feeShare)
open Verif.XYK (sendOpt)

variable {A : Type} [DecidableEq A]

/-! ## Specification -/

/-- The orders whose trades are not processed yet: the standing ones and the one executed while it was posted. -/
def traded (s : State A) : List Order := s.book.map (·.2) ++ s.ob.delayed.toList

/-- Units of asset `i` sold on the orderbook since the orders were posted. -/
def soldOf (s : State A) (i : Bool) : Nat :=
  (((traded s).filter fun o => decide (o.sell = i)).map fun o => (s.ob.sizes.getD fun _ => 0) i - o.left).sum

/-- Units of the other asset received for asset `i`. -/
def gotFor (s : State A) (i : Bool) : Nat :=
  (((traded s).filter fun o => decide (o.sell = i)).map (·.got)).sum

/-- The commission (18 digits) on `n` units of an asset with `p` digits. -/
def tradeFee (rate n p : Nat) : Nat := rate * (n * 10 ^ (18 - p)) / 10 ^ 18

/-- The part of a commission that is shared, `bps / 10000` of it. -/
def shareCut (share : Option (Nat × A)) (fee : Nat) : Nat :=
  match share with
  | none => 0
  | some (bps, _) => fee * (bps * 10 ^ 18 / 10000) / 10 ^ 18

/-- Units paid to the recipient of the fee share. -/
def sharePart (share : Option (Nat × A)) (fee p : Nat) : Nat := shareCut share fee / 10 ^ (18 - p)

/-- Units paid to the maker: its rate of what the share leaves of the commission. -/
def makerPart (share : Option (Nat × A)) (f : FeeInfo A) (fee p : Nat) : Nat :=
  (fee - shareCut share fee) * f.maker / 10 ^ 18 / 10 ^ (18 - p)

/-! ## Reading the trades -/

omit [DecidableEq A] in
theorem trades_spec {su : Setup} {s : State A} {os : List Order} {flip : Bool} {ts : List Trade}
    (hos : os = s.book.map (·.2)) (h : fetchTrades su s.ob os flip = .ok ts) :
    ts = ([(⟨flip, gotFor s (!flip) * 10 ^ (18 - su.prec flip), soldOf s (!flip) * 10 ^ (18 - su.prec !flip)⟩ : Trade),
      ⟨!flip, gotFor s flip * 10 ^ (18 - su.prec !flip), soldOf s flip * 10 ^ (18 - su.prec flip)⟩].filter
        fun t => decide (t.got ≠ 0)) := by
  unfold fetchTrades at h
  dsimp only at h
  split at h
  · rename_i he
    have : traded s = [] := by unfold traded; rw [← hos]; exact he
    simp only [Except.ok.injEq] at h
    subst h
    simp [gotFor, soldOf, this]
  · simp only [bind_ok_iff, orErr_ok, Except.ok.injEq, tradeSide, u128_ok, Stable.withPrec_ok] at h
    obtain ⟨z, hz, ta, ⟨_, ⟨_, rfl⟩, _, ⟨_, rfl⟩, _, ⟨_, _, rfl⟩, _, ⟨_, _, rfl⟩, rfl⟩, tb,
      ⟨_, ⟨_, rfl⟩, _, ⟨_, rfl⟩, _, ⟨_, _, rfl⟩, _, ⟨_, _, rfl⟩, rfl⟩, rfl⟩ := h
    have hall : os ++ s.ob.delayed.toList = traded s := by rw [hos]; rfl
    have hg : ∀ i, ((sellers (os ++ s.ob.delayed.toList) i).map (·.got)).sum = gotFor s i := by
      intro i; rw [hall]; rfl
    have hsold : ∀ i, ((sellers (os ++ s.ob.delayed.toList) i).map fun o => z o.sell - o.left).sum = soldOf s i := by
      intro i
      rw [hall]
      unfold soldOf sellers
      rw [hz]
      congr 1
      apply List.map_congr_left
      intro o ho
      have := (List.mem_filter.1 ho).2
      simp only [decide_eq_true_eq] at this
      rw [this]; rfl
    simp only [Bool.not_not]
    rw [hg, hg, hsold, hsold]

/-! ## C102: fees -/

theorem sendOpt_exact {l l' : A → Nat} {me a : A} {dst : Option A} {n : Nat} (ha : a ≠ me)
    (h : sendOpt l me dst n = .ok l') : l' a = l a + if dst = some a then n else 0 := by
  cases dst with
  | none => simp only [sendOpt, Except.ok.injEq] at h; subst h; simp
  | some d =>
    have h' : move l me d n = .ok l' := h
    have hm := move_apply h' a
    rw [if_neg ha] at hm
    simp only [Option.some.injEq]
    by_cases hd : d = a
    · subst hd; simp_all
    · rw [if_neg hd]; rw [hm, if_neg (fun hh => hd hh.symm)]

/-- One trade of asset `j = !t.recv`, sold `n` units: exact payments. -/
theorem charge_exact {su : Setup} {me a : A} {c : PCL.State A} {f : FeeInfo A} {t : Trade} {n : Nat}
    {xs xs' : Bool → Nat} {bal bal' : Bool → A → Nat} (ha : a ≠ me)
    (hn : t.sold = n * 10 ^ (18 - su.prec !t.recv)) (h : charge su me c f t xs bal = .ok (xs', bal')) :
    ∀ j, bal' j a = bal j a + if j = !t.recv then
      (if c.share.map (·.2) = some a then sharePart c.share (tradeFee c.params.out n (su.prec j)) (su.prec j) else 0) +
      (if f.addr = some a then makerPart c.share f (tradeFee c.params.out n (su.prec j)) (su.prec j) else 0)
      else 0 := by
  simp only [charge, bind_ok_iff, Prod.exists, Except.ok.injEq, Prod.mk.injEq] at h
  obtain ⟨_, shU, mkU, hf, l1, hl1, l2, hl2, rfl, rfl⟩ := h
  obtain ⟨fee, fs, sh, mk, hfee, hfs, hsh, hmk, _, _, _, _, rfl, rfl⟩ := fees_spec hf
  intro j
  rw [set2_apply]
  by_cases hj : j = !t.recv
  · rw [if_pos hj, if_pos hj]
    subst hj
    rw [sendOpt_exact ha hl2, sendOpt_exact ha hl1, Nat.add_assoc]
    have hD : DEC = 10 ^ 18 := rfl
    have e1 : fee = tradeFee c.params.out n (su.prec !t.recv) := by
      rw [← hfee, hn, hD]; rfl
    rw [← e1]
    have e2 : sh = shareCut c.share fee := by
      cases hs : c.share with
      | none =>
        rw [hs] at hfs
        simp only [feeShare, Except.ok.injEq] at hfs
        rw [← hsh, ← hfs]; simp [shareCut]
      | some p =>
        obtain ⟨bps, r⟩ := p
        rw [hs] at hfs
        simp only [feeShare, dec256FromRatio_ok] at hfs
        rw [← hsh, ← hfs.2.2]; rfl
    congr 2
    · unfold sharePart; rw [← e2]
    · split
      · rename_i hadr
        unfold makerPart
        rw [← e2, ← hmk]
        simp [makerShare, hadr, hD]
      · rfl
  · rw [if_neg hj, if_neg hj]; rfl

/-- What account `a` receives in asset `j` for the unprocessed trades. -/
def tradeFees (su : Setup) (s : State A) (f : FeeInfo A) (a : A) (j : Bool) : Nat :=
  if gotFor s j = 0 then 0
  else
    (if s.pcl.share.map (·.2) = some a then
      sharePart s.pcl.share (tradeFee s.pcl.params.out (soldOf s j) (su.prec j)) (su.prec j) else 0) +
    (if f.addr = some a then
      makerPart s.pcl.share f (tradeFee s.pcl.params.out (soldOf s j) (su.prec j)) (su.prec j) else 0)

theorem chargeAll_exact {su : Setup} {me a : A} {s : State A} {f : FeeInfo A} {flip : Bool} {os : List Order}
    {ts : List Trade} {xs xs' : Bool → Nat} {bal bal' : Bool → A → Nat} (ha : a ≠ me) (hos : os = s.book.map (·.2))
    (hts : fetchTrades su s.ob os flip = .ok ts) (h : chargeAll su me s.pcl f ts xs bal = .ok (xs', bal')) :
    ∀ j, bal' j a = bal j a + tradeFees su s f a j := by
  have hK : ∀ i, 0 < 10 ^ (18 - su.prec i) := fun i => Nat.pow_pos (by decide)
  have ht := trades_spec hos hts
  have h0 : ∀ i j, decide (gotFor s i * 10 ^ (18 - su.prec j) ≠ 0) = decide (gotFor s i ≠ 0) := by
    intro i j
    have := hK j
    simp
  simp only [List.filter_cons, List.filter_nil, h0] at ht
  intro j
  unfold tradeFees
  by_cases g1 : gotFor s (!flip) = 0 <;> by_cases g2 : gotFor s flip = 0 <;>
    simp only [g1, g2, ne_eq, not_true, not_false_iff, decide_true, decide_false, if_true, if_false,
      Bool.false_eq_true] at ht <;> subst ht
  · simp only [chargeAll, Except.ok.injEq, Prod.mk.injEq] at h
    obtain ⟨_, rfl⟩ := h
    have : gotFor s j = 0 := by cases j <;> cases flip <;> assumption
    rw [if_pos this]; rfl
  · simp only [chargeAll, bind_ok_iff, Prod.exists, Except.ok.injEq, Prod.mk.injEq] at h
    obtain ⟨_, _, h1, _, rfl⟩ := h
    have := charge_exact (n := soldOf s flip) ha (by simp) h1 j
    rw [this]
    by_cases hj : j = flip
    · subst hj; simp [g2]
    · have hj' : j = !flip := by cases flip <;> cases j <;> simp_all
      subst hj'; simp [g1]
  · simp only [chargeAll, bind_ok_iff, Prod.exists, Except.ok.injEq, Prod.mk.injEq] at h
    obtain ⟨_, _, h1, _, rfl⟩ := h
    have := charge_exact (n := soldOf s (!flip)) ha (by simp) h1 j
    rw [this]
    by_cases hj : j = flip
    · subst hj; simp [g2]
    · have hj' : j = !flip := by cases flip <;> cases j <;> simp_all
      subst hj'; simp [g1]
  · simp only [chargeAll, bind_ok_iff, Prod.exists, Except.ok.injEq, Prod.mk.injEq] at h
    obtain ⟨_, _, h1, _, _, h2, _, rfl⟩ := h
    have e1 := charge_exact (n := soldOf s (!flip)) ha (by simp) h1 j
    have e2 := charge_exact (n := soldOf s flip) ha (by simp) h2 j
    rw [e2, e1]
    by_cases hj : j = flip
    · subst hj; simp [g2]
    · have hj' : j = !flip := by cases flip <;> cases j <;> simp_all
      subst hj'; simp [g1]

/-- **C102.** Synchronising the pool with the orderbook pays, for each asset that was sold on the orderbook, the
highest fee of the pool on the units sold: the agreed share of it to the share recipient, the maker's rate of the rest
to the maker, and nothing to anybody else. -/
theorem C102_sync_pays_exact_fees (su : Setup) (me : A) (now : Nat) (fo : A) (s s' : State A) (u : A) (e : Env A)
    (a : A) (j : Bool) (hr : Reachable su me s) (ha : a ≠ me) (h : exec su me now fo s (.sync u e) = .ok s') :
    s'.pcl.bal j a = s.pcl.bal j a + tradeFees su s e.f a j := by
  obtain ⟨hsig, hx⟩ := exec_cases h
  rcases hx with ⟨_, _, _, _, _, _, _, hx, _⟩ | ⟨_, _, _, _, a, hx, hw⟩ | ⟨_, _, _, _, _, _, _, _, hx, _⟩ |
    ⟨_, _, hx, hy⟩ | ⟨_, _, hx, _⟩ | ⟨_, _, hx, _⟩ | ⟨_, _, _, hx, _⟩ <;> cases hx
  obtain ⟨bal, bal', os, ts, t', pools, xs, old, book', c, sp⟩ := sync_spec hy
  obtain ⟨hos, _, hbal, _⟩ := sp.hrenew.all hr.inv
  obtain ⟨ob1, ms, pre, p, fsp⟩ := finish_spec sp.hrenew.hfin
  obtain ⟨_, _, _, _, _, _, hoth⟩ := placeAll_keys fsp.hplace
  have hset := sp.hsettle
  simp only [process, bind_ok_iff, Prod.exists, Except.ok.injEq, Prod.mk.injEq] at hset
  obtain ⟨_, _, hc, _, _, _, _, _, _, _, _, rfl⟩ := hset
  have := chargeAll_exact ha hos sp.hrenew.hts hc j
  rw [fsp.hpcl]
  dsimp only
  rw [hoth j a ha, sp.hc.1]
  show bal' j a = _
  rw [hbal j, credit_of_ne _ _ ha, this]

/-- Sold 2000000 units of asset 0 for 2100000 units of asset 1. -/
def demoFill : List (Event Acct) := demoStart ++ [⟨2000, 1, .fill 0 2000000 2100000⟩]

/-- Non-vacuity: the maker (account 3, half of the fee) receives its part of the fee on the sold asset. -/
example : okAnd demo (fun s =>
    let z := run demoSetup 0 s demoFill
    okAnd (exec demoSetup 0 2000 1 z (.sync 1 { quiet with f := ⟨5 * 10 ^ 17, some 3⟩ })) (fun z' =>
      decide (z.pcl.params.out = 45 * 10 ^ 14) && decide (z'.pcl.bal false 3 = z.pcl.bal false 3 + 4500) &&
      decide (z'.pcl.bal true 3 = z.pcl.bal true 3))) = true := by
  decide +kernel

/-! ## C104: trades in both directions can block the pool -/

/-- The trades of both sides are pending and the orderbook bought back exactly what it sold of asset `i`. -/
def Balanced (s : State A) (i : Bool) : Prop :=
  gotFor s false ≠ 0 ∧ gotFor s true ≠ 0 ∧ gotFor s (!i) = soldOf s i

omit [DecidableEq A] in
theorem balanced_price {su : Setup} {s : State A} {os : List Order} {flip : Bool} {ts : List Trade}
    (hb : Balanced s flip) (hos : os = s.book.map (·.2)) (h : fetchTrades su s.ob os flip = .ok ts)
    (x : Bool × Nat × Nat) : ts ≠ [] ∧ tradePrice ts ≠ .ok x := by
  have hK : ∀ i, 10 ^ (18 - su.prec i) ≠ 0 := fun i => (Nat.pow_pos (by decide)).ne'
  have ht := trades_spec hos h
  obtain ⟨b0, b1, b2⟩ := hb
  have g1 : gotFor s (!flip) ≠ 0 := by cases flip <;> assumption
  have g2 : gotFor s flip ≠ 0 := by cases flip <;> assumption
  simp only [List.filter_cons, List.filter_nil, ne_eq, Nat.mul_eq_zero, g1, g2, hK, or_self, not_false_iff,
    decide_true, if_true] at ht
  subst ht
  refine ⟨by simp, ?_⟩
  simp only [tradePrice, b2, lt_irrefl, if_false]
  exact fun h => by cases h

theorem balanced_blocks {su : Setup} {me : A} {now : Nat} {fo : A} {s : State A} {o : Op A} {e : Env A} (hi : Inv s)
    (hb : Balanced s e.flip) (he : o.env = some e) (s' : State A) : exec su me now fo s o ≠ .ok s' := by
  intro h
  have key : ∀ {ts : List Trade} {os : List Order} {xs : Bool → Nat} {bal : Bool → A → Nat}
      {y : Pool × (Bool → Nat) × (Bool → A → Nat)}, os = s.book.map (·.2) →
      fetchTrades su s.ob os e.flip = .ok ts → settle su me s.pcl now e.f ts xs bal = .ok y → False := by
    intro ts os xs bal y hos hts hset
    have hne := (balanced_price hb hos hts (false, 0, 0)).1
    rw [process_settle hne] at hset
    simp only [process, bind_ok_iff, Prod.exists] at hset
    obtain ⟨_, _, _, _, _, _, hp, _⟩ := hset
    exact (balanced_price hb hos hts _).2 hp
  obtain ⟨hsig, hx⟩ := exec_cases h
  rcases hx with ⟨u, d, t, m, r, e', sh, rfl, hx⟩ | ⟨u, n, m, e', a, rfl, hx⟩ | ⟨u, i, n, b, m, r, e', x, rfl, hx⟩ |
    ⟨u, e', rfl, hx⟩ | ⟨u, v, rfl, _⟩ | ⟨a, c, rfl, _⟩ | ⟨k, n, p, rfl, _⟩
  · obtain ⟨b0, bal, bal', total, os, ts, t', pools, dd, x, xs, pool, pool', shareD, book', c, sp⟩ := provide_spec hx
    cases he
    exact key (sp.hrenew.all hi).1 sp.hrenew.hts sp.hsettle
  · obtain ⟨bal, bal', os, ts, t', pools, xs, pool, rr, book', c, fin, sp⟩ := withdraw_spec hx
    cases he
    exact key (sp.hrenew.all hi).1 sp.hrenew.hts sp.hsettle
  · obtain ⟨bo, bal, bal', os, ts, t', pools, xs, pool, off, fs, old, rr, out, book', c, l1, l2, sp⟩ := swap_spec hx
    cases he
    exact key (sp.hrenew.all hi).1 sp.hrenew.hts sp.hsettle
  · obtain ⟨bal, bal', os, ts, t', pools, xs, old, book', c, sp⟩ := sync_spec hx
    cases he
    have hset := sp.hsettle
    rw [← process_settle sp.hne] at hset
    exact key (sp.hrenew.all hi).1 sp.hrenew.hts hset
  · cases he
  · cases he
  · cases he

/-- Trades on the orderbook after which asset `i` was sold and bought back in equal amounts. -/
def demoBalanced (i : Bool) : List (Event Acct) := demoStart ++
  (if i then [⟨2000, 1, .fill 1 1000000 1005000⟩, ⟨2000, 1, .fill 0 990000 1000000⟩]
   else [⟨2000, 1, .fill 0 1000000 1005000⟩, ⟨2000, 1, .fill 1 990000 1000000⟩])

/-- **C104 (violated).** The English claim: traders on the orderbook cannot stop deposits, withdrawals and swaps.
Whichever order the trades of the two sides are listed in (`i`), two trades on the orderbook lead from a pool in normal
use to a state in which every deposit, withdrawal, swap and synchronisation fails, for all accounts, amounts and times,
until somebody trades again or the owner disables the orders. -/
theorem C104_orderbook_trades_block_pool_violated (i : Bool) :
    ∃ (s : State Acct), Reachable demoSetup 0 s ∧ Known s ∧
      ∀ (now : Nat) (fo : Acct) (o : Op Acct) (e : Env Acct), o.env = some e → e.flip = i →
        ∀ s', exec demoSetup 0 now fo s o ≠ .ok s' := by
  have hd : ∃ s0, demo = .ok s0 := by
    have h : okAnd demo (fun _ => true) = true := by decide +kernel
    rw [okAnd_iff] at h
    obtain ⟨s0, h0, _⟩ := h
    exact ⟨s0, h0⟩
  obtain ⟨s0, h0⟩ := hd
  have hr : Reachable demoSetup 0 (run demoSetup 0 s0 (demoBalanced i)) :=
    ⟨_, _, _, _, _, _, _, _, _, _, _, s0, _, h0, rfl⟩
  have hb : Balanced (run demoSetup 0 s0 (demoBalanced i)) i ∧
      Known (run demoSetup 0 s0 (demoBalanced i)) := by
    have h : okAnd demo (fun s =>
        let z := run demoSetup 0 s (demoBalanced i)
        decide (gotFor z false ≠ 0) && decide (gotFor z true ≠ 0) && decide (gotFor z (!i) = soldOf z i) &&
        decide (z.ob.orders = z.book.map (·.1))) = true := by cases i <;> decide +kernel
    rw [okAnd_iff] at h
    obtain ⟨z, hz, h⟩ := h
    rw [h0] at hz
    cases hz
    simp only [Bool.and_eq_true, decide_eq_true_eq] at h
    exact ⟨⟨h.1.1.1, h.1.1.2, h.1.2⟩, h.2⟩
  refine ⟨_, hr, hb.2, ?_⟩
  intro now fo o e he hf s'
  subst hf
  exact balanced_blocks hr.inv hb.1 he s'

omit [DecidableEq A] in
/-- **C104 (partial).** The step that turns pending trades into one price fails only for trades in both directions
that sold and bought back exactly the same amount of an asset; one further trade in either direction ends that.
Missing: the balanced case, in which it always fails. -/
theorem C104_unbalanced_trades_priced_partial (su : Setup) (s : State A) (flip : Bool) (ts : List Trade)
    (hg : gotFor s false ≠ 0 ∨ gotFor s true ≠ 0) (hb : ¬ Balanced s flip)
    (h : fetchTrades su s.ob (s.book.map (·.2)) flip = .ok ts) : ∃ x, tradePrice ts = .ok x := by
  have hK : ∀ i, 10 ^ (18 - su.prec i) ≠ 0 := fun i => (Nat.pow_pos (by decide)).ne'
  have ht := trades_spec rfl h
  have hg' : gotFor s (!flip) ≠ 0 ∨ gotFor s flip ≠ 0 := by cases flip <;> tauto
  have hb' : gotFor s (!flip) = 0 ∨ gotFor s flip = 0 ∨ gotFor s (!flip) ≠ soldOf s flip := by
    unfold Balanced at hb
    cases flip <;> tauto
  simp only [List.filter_cons, List.filter_nil, ne_eq, Nat.mul_eq_zero, hK, or_false] at ht
  by_cases g1 : gotFor s (!flip) = 0 <;> by_cases g2 : gotFor s flip = 0 <;>
    simp only [g1, g2, not_true, not_false_iff, decide_true, decide_false, if_true, if_false,
      Bool.false_eq_true] at ht <;> subst ht
  · exact absurd hg' (by simp [g1, g2])
  · exact ⟨_, rfl⟩
  · exact ⟨_, rfl⟩
  · have hne : gotFor s (!flip) ≠ soldOf s flip := by tauto
    simp only [tradePrice]
    rcases Nat.lt_or_gt_of_ne hne with hl | hl
    · rw [if_pos (Nat.mul_lt_mul_of_pos_right hl (Nat.pos_of_ne_zero (hK _)))]
      exact ⟨_, rfl⟩
    · rw [if_neg (Nat.not_lt.2 (Nat.mul_le_mul_right _ hl.le)),
        if_pos (Nat.mul_lt_mul_of_pos_right hl (Nat.pos_of_ne_zero (hK _)))]
      exact ⟨_, rfl⟩

/-- Non-vacuity: with one more trade the blocked pool of the example works again. -/
example : okAnd demo (fun s =>
    let z := run demoSetup 0 s (demoBalanced false)
    let z' := run demoSetup 0 z [⟨2000, 1, .fill 0 1 2⟩]
    fails (exec demoSetup 0 2000 1 z (.sync 1 quiet)) &&
    okAnd (exec demoSetup 0 2000 1 z' (.sync 1 quiet)) fun _ => true) = true := by
  decide +kernel

/-! ## C105: the price recorded for trades on the orderbook -/

/-- The price `received / sold` (or inverted) of asset 1 in asset 0 with 18 digits, rounded down: `x0` of asset 0
against `x1` of asset 1, both with 18 digits. -/
def pairPrice (x0 x1 : Nat) : Nat := x0 * 10 ^ 18 / x1

/-- **C105 (partial).** When only asset `j` was sold on the orderbook, synchronising records exactly the average price
of these trades, provided both amounts reach the minimum trade size of 0.00001 tokens.  Missing: trades in both
directions (`C105_two_sided_price_violated`). -/
theorem C105_one_sided_price_partial (su : Setup) (me : A) (now : Nat) (fo : A) (s s' : State A) (u : A) (e : Env A)
    (j : Bool) (hr : Reachable su me s) (hj : gotFor s (!j) = 0)
    (hbig : 10 ^ 13 ≤ gotFor s j * 10 ^ (18 - su.prec !j) ∧ 10 ^ 13 ≤ soldOf s j * 10 ^ (18 - su.prec j))
    (h : exec su me now fo s (.sync u e) = .ok s') :
    s'.pcl.pool.price.last =
      (if j then pairPrice (gotFor s true * 10 ^ (18 - su.prec false)) (soldOf s true * 10 ^ (18 - su.prec true))
       else pairPrice (soldOf s false * 10 ^ (18 - su.prec false)) (gotFor s false * 10 ^ (18 - su.prec true))) := by
  obtain ⟨hsig, hx⟩ := exec_cases h
  rcases hx with ⟨_, _, _, _, _, _, _, hx, _⟩ | ⟨_, _, _, _, a, hx, hw⟩ | ⟨_, _, _, _, _, _, _, _, hx, _⟩ |
    ⟨_, _, hx, hy⟩ | ⟨_, _, hx, _⟩ | ⟨_, _, hx, _⟩ | ⟨_, _, _, hx, _⟩ <;> cases hx
  obtain ⟨bal, bal', os, ts, t', pools, xs, old, book', c, sp⟩ := sync_spec hy
  obtain ⟨hos, _⟩ := sp.hrenew.all hr.inv
  have ht := trades_spec hos sp.hrenew.hts
  have hgj : gotFor s j ≠ 0 := by
    intro h0; rw [h0] at hbig; simp at hbig
  have hts : ts = [⟨!j, gotFor s j * 10 ^ (18 - su.prec !j), soldOf s j * 10 ^ (18 - su.prec j)⟩] := by
    have hK : ∀ i, 10 ^ (18 - su.prec i) ≠ 0 := fun i => (Nat.pow_pos (by decide)).ne'
    simp only [List.filter_cons, List.filter_nil, ne_eq, Nat.mul_eq_zero, hK, or_false] at ht
    by_cases hf : e.flip = j
    · rw [hf] at ht
      simpa [hj, hgj] using ht
    · have hf' : e.flip = !j := by cases j <;> cases he : e.flip <;> simp_all
      rw [hf'] at ht
      simpa [hj, hgj] using ht
  have hset := sp.hsettle
  rw [hts] at hset
  simp only [process, tradePrice, bind_ok_iff, Prod.exists, Except.ok.injEq, Prod.mk.injEq] at hset
  obtain ⟨ys, _, _, _, _, _, ⟨rfl, rfl, rfl⟩, pool, hp, rfl, _, _⟩ := hset
  unfold tradeRepeg at hp
  rw [if_pos ⟨hbig.1, hbig.2⟩] at hp
  simp only [bind_ok_iff] at hp
  obtain ⟨last, hl, _, _, _, _, hu⟩ := hp
  rw [(PCL.updatePrice_oracle hu).1]
  cases j <;> simp only [Bool.not_true, Bool.not_false, if_true, Bool.false_eq_true, if_false, Stable.ddiv_ok] at hl ⊢
  · rw [← hl.2.2]; rfl
  · rw [← hl.2.2]; rfl

/-- Non-vacuity: the sale of 2000000 units for 2100000 records the price 2000000 / 2100000. -/
example : okAnd demo (fun s =>
    let z := run demoSetup 0 s demoFill
    okAnd (exec demoSetup 0 2000 1 z (.sync 1 quiet)) (fun z' =>
      decide (gotFor z true = 0 ∧ gotFor z false = 2100000 ∧ soldOf z false = 2000000) &&
      decide (z'.pcl.pool.price.last = pairPrice 2000000 2100000))) = true := by
  decide +kernel

/-- Ten tokens of asset 0 are sold for 10.05 of asset 1, and 0.1 token of asset 1 for 0.1004 of asset 0. -/
def demoTwoSided : List (Event Acct) := demoStart ++
  [⟨2000, 1, .fill 0 10000000 10050000⟩, ⟨2000, 1, .fill 1 100000 100400⟩]

/-- **C105 (violated).** The English claim: the price recorded for trades on the orderbook lies between the prices of
these trades.  Here asset 1 is traded at the prices 0.995 and 1.004, but 0.00999 is recorded: the amounts received in
the two directions are divided by each other. -/
theorem C105_two_sided_price_violated :
    ∃ (s s' : State Acct), Reachable demoSetup 0 s ∧
      pairPrice (soldOf s false) (gotFor s false) = 995024875621890547 ∧
      pairPrice (gotFor s true) (soldOf s true) = 1004000000000000000 ∧
      exec demoSetup 0 2000 1 s (.sync 1 quiet) = .ok s' ∧ s'.pcl.pool.price.last = 9990049751243781 := by
  have h : okAnd demo (fun s =>
      let z := run demoSetup 0 s demoTwoSided
      decide (pairPrice (soldOf z false) (gotFor z false) = 995024875621890547) &&
      decide (pairPrice (gotFor z true) (soldOf z true) = 1004000000000000000) &&
      okAnd (exec demoSetup 0 2000 1 z (.sync 1 quiet))
        (fun z' => decide (z'.pcl.pool.price.last = 9990049751243781))) = true := by
    decide +kernel
  rw [okAnd_iff] at h
  obtain ⟨s0, h0, h⟩ := h
  simp only [Bool.and_eq_true, decide_eq_true_eq] at h
  obtain ⟨⟨h1, h2⟩, h3⟩ := h
  rw [okAnd_iff] at h3
  obtain ⟨s', h3, h4⟩ := h3
  exact ⟨_, s', ⟨_, _, _, _, _, _, _, _, _, _, _, s0, _, h0, rfl⟩, h1, h2, h3, by simpa using h4⟩

end Verif.Duality
