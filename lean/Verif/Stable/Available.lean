import Verif.Stable.Quote

/-!
# C151: a stable pool of ordinary size always quotes, trades, pays out and takes deposits

The solvers of `Verif/Stable/Quote.lean` always return for reserves between `0.00001` and `10^16` tokens.  Here this is carried
over to the queries and transactions of the pair.
-/

namespace Verif.Stable

open XYK

variable {A : Type} [DecidableEq A]

/-! ## Specification -/

/-- `n` of the smallest units of asset `i`, in units of `10^-18` tokens. -/
def inAtto (su : Setup) (i : Bool) (n : ℕ) : ℕ := n * 10 ^ (18 - su.prec i)

/-- The reserves `p` are between `0.00001` and `10^16` tokens, of assets with at most 18 decimals. -/
structure Ordinary (su : Setup) (p : Bool → ℕ) : Prop where
  prec : ∀ i, su.prec i ≤ 18
  lo : ∀ i, 10 ^ 13 ≤ inAtto su i (p i)
  hi : ∀ i, inAtto su i (p i) ≤ 10 ^ 34

/-- Neither reserve is more than `q` times the other. -/
def Within (su : Setup) (q : ℕ) (p : Bool → ℕ) : Prop := ∀ i, inAtto su i (p i) ≤ q * inAtto su (!i) (p (!i))

/-! ## Lemmas -/

theorem inAtto_ge (su : Setup) (i : Bool) (n : ℕ) : n ≤ inAtto su i n :=
  Nat.le_mul_of_pos_right _ (Nat.pow_pos (by decide))

theorem Ordinary.withPrec {su : Setup} {p : Bool → ℕ} (h : Ordinary su p) (i : Bool) :
    withPrec (p i) (su.prec i) = .ok (inAtto su i (p i)) := by
  have h1 := h.hi i
  have h77 := U256_big
  exact (withPrec_ok _ _ _).2 ⟨h.prec i, lt_of_le_of_lt h1 (by omega), rfl⟩

theorem Ordinary.decPools {su : Setup} {p : Bool → ℕ} (h : Ordinary su p) :
    decPools su p = .ok (fun i => if i then inAtto su true (p true) else inAtto su false (p false)) := by
  simp only [Stable.decPools, h.withPrec, ok_bind]

theorem Ordinary.lt {su : Setup} {p : Bool → ℕ} (h : Ordinary su p) (i : Bool) : p i < 2 ^ 128 := by
  have h1 := (inAtto_ge su i (p i)).trans (h.hi i)
  have : (10 : ℕ) ^ 34 < 2 ^ 128 := by norm_num
  omega

theorem Ordinary.pos {su : Setup} {p : Bool → ℕ} (h : Ordinary su p) (i : Bool) : p i ≠ 0 := by
  intro h0
  have := h.lo i
  rw [h0] at this
  simp [inAtto] at this

theorem adjust_found {v p : ℕ} (hp : p ≤ 18) (hv : v ≤ 10 ^ 34 / 10 ^ (18 - p)) :
    ∃ r, adjustPrecision v p 6 = .ok r ∧ r ≤ 10 ^ 22 := by
  have h128 : (10 : ℕ) ^ 22 < U128 := by unfold U128; norm_num
  unfold adjustPrecision
  rcases lt_trichotomy p 6 with h | h | h
  · rw [if_neg (by omega), if_pos h]
    have h1 : v * 10 ^ (6 - p) ≤ 10 ^ 22 := by
      have e : (10 : ℕ) ^ 34 / 10 ^ (18 - p) = 10 ^ (34 - (18 - p)) := Nat.pow_div (by omega) (by decide)
      rw [e] at hv
      calc v * 10 ^ (6 - p) ≤ 10 ^ (34 - (18 - p)) * 10 ^ (6 - p) := Nat.mul_le_mul_right _ hv
        _ = 10 ^ 22 := by rw [← pow_add]; congr 1; omega
    exact ⟨_, (u128_ok _ _).2 ⟨by omega, rfl⟩, h1⟩
  · subst h
    exact ⟨v, by simp, hv.trans (by norm_num)⟩
  · rw [if_neg (by omega), if_neg (by omega)]
    refine ⟨_, rfl, ?_⟩
    have e : (10 : ℕ) ^ 34 / 10 ^ (18 - p) = 10 ^ (34 - (18 - p)) := Nat.pow_div (by omega) (by decide)
    rw [e] at hv
    apply Nat.div_le_of_le_mul
    calc v ≤ 10 ^ (34 - (18 - p)) := hv
      _ = 10 ^ (p - 6) * 10 ^ 22 := by rw [← pow_add]; congr 1; omega

theorem accOne_found {su : Setup} {p : Bool → ℕ} (h : Ordinary su p) (hq : Within su (125 * 10 ^ 12) p) {amp el : ℕ}
    (ha1 : 100 ≤ amp) (ha2 : amp ≤ 10 ^ 8) (hel : el ≤ 10 ^ 16) (old : ℕ) (i : Bool) (pool : Bool → ℕ)
    (hpool : ∀ i, pool i = inAtto su i (p i)) : ∃ v, accOne su amp el pool old i = .ok v := by
  have hk : (5 * 10 ^ 4 : ℕ) ^ 3 = 125 * 10 ^ 12 := by norm_num
  have hD : DEC = 10 ^ 18 := rfl
  have q2 := hq (!i)
  rw [Bool.not_not] at q2
  obtain ⟨g, hg, hr, _⟩ := computeSwap_found (k := 5 * 10 ^ 4) (T := DEC) (p := su.prec (!i)) ha1 ha2 (h.lo i) (h.hi i)
    (h.lo (!i)) (h.hi (!i)) (by norm_num) (by rw [hk]; exact hq i) (by rw [hk]; exact q2) (by rw [hD]; norm_num)
    (by rw [hD]; norm_num) (h.prec _)
  obtain ⟨r, hr1, hr2⟩ := adjust_found (v := g.ret) (h.prec (!i)) (hr.trans (Nat.div_le_div_right (h.hi _)))
  have hm : el * r < U128 := by
    calc el * r ≤ 10 ^ 16 * 10 ^ 22 := Nat.mul_le_mul hel hr2
      _ < U128 := by unfold U128; norm_num
  refine ⟨(old + el * r) % U128, ?_⟩
  simp only [accOne, hpool, hg, ok_bind, hr1, bind_ok_iff, u128_ok, Except.ok.injEq]
  exact ⟨_, ⟨hm, rfl⟩, rfl⟩

theorem accumulate_found {su : Setup} {p : Bool → ℕ} (h : Ordinary su p) (hq : Within su (125 * 10 ^ 12) p) {amp now : ℕ}
    (ha1 : 100 ≤ amp) (ha2 : amp ≤ 10 ^ 8) {c : Twap} (hel : now ≤ c.last + 10 ^ 16) {pools : Bool → ℕ}
    (hp : decPools su p = .ok pools) : Succeeds (accumulate su amp now c pools) := by
  rw [h.decPools, Except.ok.injEq] at hp
  have hpool : ∀ i, pools i = inAtto su i (p i) := by
    intro i; rw [← hp]; cases i <;> rfl
  unfold accumulate
  by_cases hn : now ≤ c.last
  · rw [if_pos hn]; exact ⟨_, rfl⟩
  · rw [if_neg hn]
    obtain ⟨a, ha⟩ := accOne_found h hq ha1 ha2 (by omega : now - c.last ≤ 10 ^ 16) (c.cum false) false pools hpool
    obtain ⟨b, hb⟩ := accOne_found h hq ha1 ha2 (by omega : now - c.last ≤ 10 ^ 16) (c.cum true) true pools hpool
    split
    · simp only [ha, ok_bind, hb]; exact ⟨_, rfl⟩
    · exact ⟨_, rfl⟩

theorem quote_found {su : Setup} {p : Bool → ℕ} (h : Ordinary su p) {k : ℕ} (hk : 1 ≤ k) (hq : Within su (k ^ 3) p) {amp : ℕ}
    (ha1 : 100 ≤ amp) (ha2 : amp ≤ 10 ^ 8) (i : Bool) {n : ℕ} (hn1 : 2 * 10 ^ 13 * k ≤ inAtto su i n)
    (hn2 : inAtto su i n ≤ 10 ^ 35) {rate : ℕ} (hrate : rate ≤ 10 ^ 18) :
    ∃ r, quote su amp i n p rate = .ok r ∧ r.ret + r.commission ≤ p (!i) ∧ r.commission ≤ p (!i) := by
  have q2 := hq (!i)
  rw [Bool.not_not] at q2
  obtain ⟨g, hg, hr, _⟩ := computeSwap_found (k := k) (T := inAtto su i n) (p := su.prec (!i)) ha1 ha2 (h.lo i) (h.hi i)
    (h.lo (!i)) (h.hi (!i)) hk (hq i) q2 hn1 hn2 (h.prec _)
  have h77 := U256_big
  have hoff : withPrec n (su.prec i) = .ok (inAtto su i n) :=
    (withPrec_ok _ _ _).2 ⟨h.prec i, lt_of_le_of_lt hn2 (by omega), rfl⟩
  have hto : ∀ j, toU128 (inAtto su j (p j)) (su.prec j) = .ok (p j) := fun j =>
    (toU128_ok _ _ _).2 ⟨h.prec j, by unfold inAtto; rw [scale_cancel]; exact h.lt j, scale_cancel _ _⟩
  have hn0 : n ≠ 0 := by
    rintro rfl
    simp [inAtto] at hn1
    omega
  have hcsp : checkSwapParameters [p i, p (!i)] n = .ok () := by
    simp [checkSwapParameters, hn0, h.pos i, h.pos (!i), require]
  have hr' : g.ret ≤ p (!i) := by rw [inAtto, scale_cancel] at hr; exact hr
  have hcom : mulDec g.ret rate ≤ g.ret := mulDec_le hrate
  have hlt := h.lt (!i)
  have hu : u128 (mulDec g.ret rate) = .ok (mulDec g.ret rate) := (u128_ok _ _).2 ⟨by unfold U128; omega, rfl⟩
  refine ⟨⟨g.ret - mulDec g.ret rate, g.spread, mulDec g.ret rate⟩, ?_, ?_, ?_⟩
  · simp only [quote, h.withPrec, ok_bind, hto, hcsp, hoff, hg, hu]
  · dsimp only; omega
  · dsimp only; omega

theorem splitFees_found {f : Fees A} {c : ℕ} (hc : c < 2 ^ 128) (hb : ∀ p, f.share = some p → p.1 ≤ 10000) :
    Succeeds (splitFees f c) := by
  have : Succeeds (feeShareAmount f c) := by
    unfold feeShareAmount
    cases hs : f.share with
    | none => exact ⟨_, rfl⟩
    | some p =>
      have h1 := hb p hs
      have hD : DEC = 10 ^ 18 := rfl
      have h2 : p.1 * DEC / 10000 ≤ DEC := Nat.div_le_of_le_mul (Nat.mul_le_mul_right _ h1)
      have h3 : mulDec c (p.1 * DEC / 10000) ≤ c := mulDec_le h2
      have h4 : DEC < U128 := by decide
      refine ⟨mulDec c (p.1 * DEC / 10000), ?_⟩
      simp only [bind_ok_iff, decFromRatio_ok, u128_ok]
      exact ⟨_, ⟨by decide, by omega, rfl⟩, by unfold U128; omega, rfl⟩
  obtain ⟨x, hx⟩ := this
  unfold splitFees
  rw [hx, ok_bind]
  exact ⟨_, rfl⟩

theorem sendOpt_found {l : A → ℕ} {me : A} {dst : Option A} {n : ℕ} (h : n ≤ l me) :
    ∃ l', sendOpt l me dst n = .ok l' ∧ l me - n ≤ l' me := by
  have : ∃ l', sendOpt l me dst n = .ok l' := by
    cases dst with
    | none => exact ⟨_, rfl⟩
    | some d => exact move_succeeds h
  obtain ⟨l', hl⟩ := this
  exact ⟨l', hl, (sendOpt_self hl).1⟩

theorem payout_found {l : A → ℕ} {me dst : A} {n : ℕ} (h : n ≤ l me) :
    ∃ l', payout l me dst n = .ok l' ∧ l me - n ≤ l' me := by
  unfold payout
  by_cases h0 : n = 0
  · rw [if_pos h0]; exact ⟨l, rfl, Nat.sub_le _ _⟩
  · rw [if_neg h0]
    obtain ⟨l', hl⟩ := move_succeeds (b := dst) h
    refine ⟨l', hl, ?_⟩
    have := (sendOpt_self (dst := some dst) (l := l) (l' := l') (me := me) (n := n) hl).1
    exact this

/-! ## Theorems -/

/-- **C151.** The simulation query of a pool of ordinary size always answers, for every offer of at least `0.00002 · k` tokens, where
neither reserve is more than `k³` times the other. -/
theorem C151_quote_available (su : Setup) (me : A) (s : State A) (now amp : ℕ) (hamp : currentAmp s.amp now = .ok amp)
    (ha1 : 100 ≤ amp) (ha2 : amp ≤ 10 ^ 8) (hp : Ordinary su (fun j => s.bal j me)) (k : ℕ) (hk : 1 ≤ k)
    (hq : Within su (k ^ 3) (fun j => s.bal j me)) (i : Bool) (n : ℕ) (hn1 : 2 * 10 ^ 13 * k ≤ inAtto su i n)
    (hn2 : inAtto su i n ≤ 10 ^ 35) (f : Fees A) (hf : f.total ≤ 10 ^ 18) :
    ∃ r, simulation su me s now i n f = .ok r ∧ r.ret + r.commission ≤ s.bal (!i) me := by
  obtain ⟨r, hr, h1, _⟩ := quote_found hp hk hq ha1 ha2 i hn1 hn2 hf
  refine ⟨r, ?_, h1⟩
  have hto : ∀ j, toU128 (inAtto su j (s.bal j me)) (su.prec j) = .ok (s.bal j me) := fun j =>
    (toU128_ok _ _ _).2 ⟨hp.prec j, by unfold inAtto; rw [scale_cancel]; exact hp.lt j, scale_cancel _ _⟩
  have hw : ∀ j, withPrec (s.bal j me) (su.prec j) = .ok (inAtto su j (s.bal j me)) := fun j => hp.withPrec j
  have hn0 : n ≠ 0 := by
    rintro rfl
    simp [inAtto] at hn1
    omega
  have hne : ¬ ((s.bal i me = 0 ∨ s.bal (!i) me = 0) ∨ n = 0) := by
    rintro ((h | h) | h)
    · exact hp.pos i h
    · exact hp.pos (!i) h
    · exact hn0 h
  simp only [simulation, hw, ok_bind, hto, hne, if_false, hamp, hr]

/-- **C151.** In a pool of ordinary size a swap of such an offer always succeeds, unless the trader's own spread limit refuses the
simulated result. -/
theorem C151_swap_available (su : Setup) (me : A) (s : State A) (now amp : ℕ) (hamp : currentAmp s.amp now = .ok amp)
    (ha1 : 100 ≤ amp) (ha2 : amp ≤ 10 ^ 8) (hp : Ordinary su (fun j => s.bal j me)) (k : ℕ) (hk : 1 ≤ k) (hk2 : k ≤ 5 * 10 ^ 4)
    (hq : Within su (k ^ 3) (fun j => s.bal j me)) (ht : now ≤ s.twap.last + 10 ^ 16)
    (u : A) (hu : u ≠ me) (i : Bool) (n : ℕ) (hbal : n ≤ s.bal i u)
    (hn1 : 2 * 10 ^ 13 * k ≤ inAtto su i n) (hn2 : inAtto su i n ≤ 10 ^ 35) (f : Fees A)
    (hf : f.total ≤ 10 ^ 18 ∧ f.maker ≤ 10 ^ 18) (hs : ∀ p, s.share = some p → p.1 ≤ 10000)
    (belief maxSpread : Option ℕ) (receiver : A)
    (hlim : ∀ r, simulation su me s now i n f = .ok r →
      assertMaxSpread belief maxSpread n (r.ret + r.commission) r.spread = .ok ()) :
    Succeeds (swap su me s now u i n belief maxSpread receiver f) := by
  obtain ⟨r, hr, h1, h2⟩ := quote_found hp hk hq ha1 ha2 i hn1 hn2 hf.1
  obtain ⟨r', hsim, _⟩ := C151_quote_available su me s now amp hamp ha1 ha2 hp k hk hq i n hn1 hn2 f hf.1
  have hrr : r' = r := by
    have hto : ∀ j, toU128 (inAtto su j (s.bal j me)) (su.prec j) = .ok (s.bal j me) := fun j =>
      (toU128_ok _ _ _).2 ⟨hp.prec j, by unfold inAtto; rw [scale_cancel]; exact hp.lt j, scale_cancel _ _⟩
    have hw : ∀ j, withPrec (s.bal j me) (su.prec j) = .ok (inAtto su j (s.bal j me)) := fun j => hp.withPrec j
    have hn0 : n ≠ 0 := by
      rintro rfl
      simp [inAtto] at hn1
      omega
    have hne : ¬ ((s.bal i me = 0 ∨ s.bal (!i) me = 0) ∨ n = 0) := by
      rintro ((h | h) | h)
      · exact hp.pos i h
      · exact hp.pos (!i) h
      · exact hn0 h
    simp only [simulation, hw, ok_bind, hto, hne, if_false, hamp, hr, Except.ok.injEq] at hsim
    exact hsim.symm
  subst hrr
  have hms := hlim r' hsim
  obtain ⟨bo, hbo⟩ := move_succeeds (b := me) hbal
  have hbme : bo me = s.bal i me + n := by
    have := move_apply hbo me
    simp [Ne.symm hu] at this
    omega
  have hsub : csub (bo me) n = .ok (s.bal i me) := (csub_ok _ _ _).2 ⟨by omega, by omega⟩
  have hlt := hp.lt (!i)
  have hpe : (fun j => if j = i then s.bal i me else s.bal (!i) me) = fun j => s.bal j me := by
    funext j
    by_cases hj : j = i
    · subst hj; simp
    · have : j = !i := by cases i <;> cases j <;> simp_all
      subst this; simp
  have hgross : u128 (r'.ret + r'.commission) = .ok (r'.ret + r'.commission) :=
    (u128_ok _ _).2 ⟨by unfold U128; omega, rfl⟩
  obtain ⟨⟨sh, mk⟩, hsp⟩ := splitFees_found (f := { f with share := s.share }) (c := r'.commission)
    (lt_of_le_of_lt h2 hlt) hs
  have hle := splitFees_le (f := { f with share := s.share }) hf.2 hs hsp
  obtain ⟨b1, hb1, l1⟩ := payout_found (l := s.bal (!i)) (me := me) (dst := receiver) (n := r'.ret) (by omega)
  obtain ⟨b2, hb2, l2⟩ := sendOpt_found (l := b1) (me := me) (dst := s.share.map (·.2)) (n := sh) (by omega)
  obtain ⟨b3, hb3, _⟩ := sendOpt_found (l := b2) (me := me) (dst := f.feeAddr) (n := mk) (by omega)
  have hk3 : k ^ 3 ≤ 125 * 10 ^ 12 := by
    calc k ^ 3 ≤ (5 * 10 ^ 4) ^ 3 := Nat.pow_le_pow_left hk2 3
      _ = _ := by norm_num
  have hq' : Within su (125 * 10 ^ 12) (fun j => s.bal j me) := fun j => (hq j).trans (Nat.mul_le_mul_right _ hk3)
  obtain ⟨tw, htw⟩ := accumulate_found hp hq' ha1 ha2 ht hp.decPools
  unfold Succeeds
  simp only [swap, hbo, ok_bind, hsub, hamp, hpe, hr, hgross, hms, hsp, hb1, hb2, hb3, hp.decPools, htw]
  exact ⟨_, rfl⟩

/-- **C151.** In every history, LP holders of a pool of ordinary size can withdraw at any later time: whenever both reserves are
between `0.00001` and `10^16` tokens and within a factor `1.25 · 10^14` of each other, every withdrawal that refunds something
succeeds. -/
theorem C151_withdraw_available (su : Setup) (me : A) (bal : Bool → A → ℕ) (owner : Option A) (amp0 t0 : ℕ) (s0 : State A)
    (hc : create bal owner amp0 t0 = .ok s0) (es : List (Event A)) (hes : Timed t0 es) (now : ℕ) (hnow : lastTime t0 es ≤ now)
    (s : State A) (hrun : s = run su me s0 es) (h64 : s.amp.nextTime < 2 ^ 64)
    (hp : Ordinary su (fun j => s.bal j me)) (hq : Within su (125 * 10 ^ 12) (fun j => s.bal j me))
    (ht : now ≤ s.twap.last + 10 ^ 16)
    (u : A) (hu : u ≠ me) (n : ℕ) (hn : n ≠ 0) (hbal : n ≤ s.lp u) (hsup : n ≤ s.supply)
    (hr : ∀ i, DEC ≤ s.bal i me * (n * DEC / s.supply)) :
    Succeeds (withdraw su me s now u n none) := by
  subst hrun
  obtain ⟨_, _, _, hamp⟩ := C46_bounds_kept su me bal owner amp0 t0 s0 hc es hes
  obtain ⟨a, ha, a1, a2⟩ := hamp now hnow h64
  refine withdraw_succeeds hu hn hbal hsup hp.prec hp.lt hr ⟨a, ha⟩ ?_
  intro amp pools h1 h2
  rw [ha, Except.ok.injEq] at h1
  subst h1
  exact accumulate_found hp hq a1 (by omega) ht h2

theorem share_ratio {D D' d d' X Y t : ℝ} (hS : X + Y ≤ 10 ^ 7 * D) (hD : 2 * 10 ^ 13 ≤ D) (hd : D - 10 ^ 11 ≤ d)
    (ht : t ≤ 100 * (X + Y)) (hd' : d' ≤ D' + 3 * 10 ^ 12) (hD' : D' ≤ 2 * 10 ^ 28) :
    t ≤ 2 * 10 ^ 9 * d ∧ d' ≤ 3 * 10 ^ 28 := by
  constructor <;> linarith

theorem shares_found {su : Setup} {amp total : ℕ} {p d : Bool → ℕ} (ha1 : 100 ≤ amp) (ha2 : amp ≤ 10 ^ 8)
    (hp : Ordinary su p) (hp' : Ordinary su (fun i => p i + d i)) (hi : ∀ i, inAtto su i (p i + d i) ≤ 10 ^ 28)
    (h0 : total ≠ 0) (ht : total * 10 ^ (18 - su.greatest) ≤ 100 * (inAtto su false (p false) + inAtto su true (p true))) :
    Succeeds (calculateShares su amp total p d) ∨
      calculateShares su amp total p d = .error (.invalid "LiquidityAmountTooSmall") := by
  have h77 := U256_big
  have hadd : ∀ i, inAtto su i (p i) + inAtto su i (d i) = inAtto su i (p i + d i) := fun i => by
    unfold inAtto; ring
  have hd : ∀ i, withPrec (d i) (su.prec i) = .ok (inAtto su i (d i)) := fun i =>
    (withPrec_ok _ _ _).2 ⟨hp.prec i, by
      have := hi i; have := hadd i; have e : d i * 10 ^ (18 - su.prec i) = inAtto su i (d i) := rfl
      omega, rfl⟩
  have hda : ∀ i, dadd (inAtto su i (p i)) (inAtto su i (d i)) = .ok (inAtto su i (p i + d i)) := fun i =>
    (dadd_ok _ _ _).2 ⟨by have := hi i; have := hadd i; omega, hadd i⟩
  obtain ⟨d1, D1, hd1, hD1, l1, u1⟩ := C151_invariant_always_found amp _ _ ha1 ha2 (hp'.lo false) (hp'.hi false)
    (hp'.lo true) (hp'.hi true)
  obtain ⟨d0, D0, hd0, hD0, l0, u0⟩ := C151_invariant_always_found amp _ _ ha1 ha2 (hp.lo false) (hp.hi false)
    (hp.lo true) (hp.hi true)
  obtain ⟨E1, hE1, _, e12, _⟩ := invariant_exists (amp := amp) ha1 (hp'.lo false) (hp'.hi false) (hp'.lo true) (hp'.hi true)
  obtain ⟨E0, hE0, e01, _, e03⟩ := invariant_exists (amp := amp) ha1 (hp.lo false) (hp.hi false) (hp.lo true) (hp.hi true)
  have pos : ∀ {a : ℕ}, 10 ^ 13 ≤ a → (0 : ℝ) < a := fun h => by
    have : 0 < 10 ^ 13 := by norm_num
    exact_mod_cast lt_of_lt_of_le this h
  have rl : (1 : ℝ) < amp / 50 := by
    have : (100 : ℝ) ≤ amp := by exact_mod_cast ha1
    linarith
  obtain rfl : E1 = D1 := isInvariant_unique rl (pos (hp'.lo false)) (pos (hp'.lo true)) hE1 hD1
  obtain rfl : E0 = D0 := isInvariant_unique rl (pos (hp.lo false)) (pos (hp.lo true)) hE0 hD0
  obtain ⟨t, et⟩ : ∃ t, t = total * 10 ^ (18 - su.greatest) := ⟨_, rfl⟩
  rw [← et] at ht
  have hg : su.greatest ≤ 18 := max_le (hp.prec _) (hp.prec _)
  have r1 : (t : ℝ) ≤ 100 * (inAtto su false (p false) + inAtto su true (p true)) := by exact_mod_cast ht
  have s1 : (inAtto su false (p false + d false) : ℝ) ≤ 10 ^ 28 := by exact_mod_cast hi false
  have s2 : (inAtto su true (p true + d true) : ℝ) ≤ 10 ^ 28 := by exact_mod_cast hi true
  obtain ⟨k1, k2⟩ := share_ratio e03 e01 l0 r1 u1 (by linarith)
  have n1 : t ≤ 2 * 10 ^ 9 * d0 := by exact_mod_cast k1
  have n2 : d1 ≤ 3 * 10 ^ 28 := by exact_mod_cast k2
  have n0 : d0 ≠ 0 := by
    rintro rfl
    simp at l0
    linarith
  have ht' : withPrec total su.greatest = .ok t := by
    refine (withPrec_ok _ _ _).2 ⟨hg, ?_, et.symm⟩
    rw [← et]
    have := hp.hi false
    have := hp.hi true
    omega
  obtain ⟨q, eq⟩ : ∃ q, q = t * (d1 - d0) / d0 := ⟨_, rfl⟩
  have hq : q ≤ 6 * 10 ^ 37 := by
    rw [eq]
    apply Nat.div_le_of_le_mul
    calc t * (d1 - d0) ≤ (2 * 10 ^ 9 * d0) * (3 * 10 ^ 28) := Nat.mul_le_mul n1 ((Nat.sub_le _ _).trans n2)
      _ = d0 * (6 * 10 ^ 37) := by ring
  have hcd : cdiv (t * (d1 - d0)) d0 = .ok q := (cdiv_ok _ _ _).2 ⟨n0, eq.symm⟩
  have hu : u256 q = .ok q := by simp; omega
  have hto : toU128 q su.greatest = .ok (q / 10 ^ (18 - su.greatest)) := by
    refine (toU128_ok _ _ _).2 ⟨hg, ?_, rfl⟩
    have h1 : q / 10 ^ (18 - su.greatest) ≤ q := Nat.div_le_self _ _
    have h2 : 6 * (10 : ℕ) ^ 37 < U128 := by unfold U128; norm_num
    omega
  rw [calculateShares, hd false, ok_bind, hp.withPrec false, ok_bind, hd true, ok_bind, hp.withPrec true, ok_bind, hda false,
    ok_bind, hda true, ok_bind, hd1, ok_bind, if_neg h0, hd0, ok_bind, ht', ok_bind, hcd, ok_bind, hu, ok_bind, hto, ok_bind]
  by_cases hz : q / 10 ^ (18 - su.greatest) = 0
  · right; simp [require, hz]
  · left; exact ⟨q / 10 ^ (18 - su.greatest), by simp [require, hz]⟩

/-- **C151.** A pool with LP tokens and reserves between `0.0001` and `10^10` tokens takes every deposit that keeps it in this range
and is worth at least one unit of LP tokens (`hvalue`: at most 100 LP tokens per token in the pool were minted). -/
theorem C151_deposit_available (su : Setup) (me : A) (s : State A) (now amp : ℕ) (hamp : currentAmp s.amp now = .ok amp)
    (ha1 : 100 ≤ amp) (ha2 : amp ≤ 10 ^ 8) (h18 : ∀ i, su.prec i ≤ 18) (ht : now ≤ s.twap.last + 10 ^ 16) (u : A)
    (d : Bool → ℕ) (hd : ¬ (d false = 0 ∧ d true = 0)) (hbal : ∀ i, d i ≤ s.bal i u)
    (hlo : ∀ i, 10 ^ 14 ≤ inAtto su i (s.bal i me)) (hhi : ∀ i, inAtto su i (s.bal i me + d i) ≤ 10 ^ 28)
    (hs : s.supply ≠ 0)
    (hvalue : s.supply * 10 ^ (18 - su.greatest) ≤ 100 * (inAtto su false (s.bal false me) + inAtto su true (s.bal true me)))
    (receiver : A) :
    Succeeds (provide su me s now u d none receiver) ∨
      simulateProvide su me s now d = .error (.invalid "LiquidityAmountTooSmall") := by
  have mono : ∀ {i a b}, a ≤ b → inAtto su i a ≤ inAtto su i b := fun h => Nat.mul_le_mul_right _ h
  have hp : Ordinary su (fun i => s.bal i me) := ⟨h18, fun i => by have := hlo i; omega, fun i => by
    have := hhi i; have := mono (i := i) (Nat.le_add_right (s.bal i me) (d i)); omega⟩
  have hp' : Ordinary su (fun i => s.bal i me + d i) := ⟨h18, fun i => by
    have := hlo i; have := mono (i := i) (Nat.le_add_right (s.bal i me) (d i)); omega, fun i => by have := hhi i; omega⟩
  have e0 := (require_ok (¬ (d false = 0 ∧ d true = 0)) (.invalid "InvalidZeroAmount") ()).2 hd
  rcases shares_found ha1 ha2 hp hp' hhi hs hvalue with ⟨sh, h⟩ | h
  · left
    have hm : ∀ i, s.bal i me ≤ s.bal i me + (if su.native i then d i else 0) ∧
        s.bal i me + (if su.native i then d i else 0) ≤ s.bal i me + d i := fun i => by
      split <;> omega
    have lo' : ∀ i, 10 ^ 14 ≤ inAtto su i (s.bal i me + if su.native i then d i else 0) := fun i =>
      (hlo i).trans (mono (hm i).1)
    have hi' : ∀ i, inAtto su i (s.bal i me + if su.native i then d i else 0) ≤ 10 ^ 28 := fun i =>
      (mono (hm i).2).trans (hhi i)
    have hpm : Ordinary su (fun i => s.bal i me + if su.native i then d i else 0) :=
      ⟨h18, fun i => by have := lo' i; omega, fun i => by have := hi' i; omega⟩
    have hw : Within su (125 * 10 ^ 12) (fun i => s.bal i me + if su.native i then d i else 0) := fun i => by
      have a1 := hi' i
      have a2 := lo' (!i)
      calc inAtto su i _ ≤ 10 ^ 28 := a1
        _ ≤ 125 * 10 ^ 12 * 10 ^ 14 := by norm_num
        _ ≤ _ := Nat.mul_le_mul_left _ a2
    obtain ⟨tw, htw⟩ := accumulate_found hpm hw ha1 ha2 ht hpm.decPools
    have hpo : ∀ i, ∃ b, payout (s.bal i) u me (d i) = .ok b := fun i => by
      obtain ⟨b, hb, _⟩ := payout_found (dst := me) (hbal i)
      exact ⟨b, hb⟩
    obtain ⟨b0, hb0⟩ := hpo false
    obtain ⟨b1, hb1⟩ := hpo true
    have e1 := (require_ok (¬ (d false = 0 ∧ s.bal false me = 0) ∧ ¬ (d true = 0 ∧ s.bal true me = 0))
      (.invalid "InvalidProvideLPsWithSingleToken") ()).2 ⟨fun h => hp.pos false h.2, fun h => hp.pos true h.2⟩
    have e2 := (require_ok (¬ sh < (none : Option ℕ).getD 0) (.invalid "ProvideSlippageViolation") ()).2 (by simp)
    unfold Succeeds
    rw [provide, e0, ok_bind]
    dsimp only
    rw [e1, ok_bind, hb0, ok_bind, hb1, ok_bind, hamp, ok_bind, h, ok_bind, e2, ok_bind, hpm.decPools, ok_bind, htw, ok_bind]
    exact ⟨_, rfl⟩
  · right
    rw [simulateProvide, e0, ok_bind, hamp, ok_bind]
    exact h

/-! ## Non-vacuity and the limits of the range -/

/-- The pool of 1000/1000 tokens with 6 decimals is of ordinary size, and one token is a large enough offer. -/
example : Ordinary demoSetup (fun j => demo1.bal j 0) ∧ Within demoSetup (1 ^ 3) (fun j => demo1.bal j 0) ∧
    2 * 10 ^ 13 * 1 ≤ inAtto demoSetup false (10 ^ 6) ∧ inAtto demoSetup false (10 ^ 6) ≤ 10 ^ 35 ∧
    okAnd (currentAmp demo1.amp 200) (fun a => decide (100 ≤ a ∧ a ≤ 10 ^ 8)) = true ∧
    assertMaxSpread none none (10 ^ 6) 999991 9 = .ok () := by
  refine ⟨⟨?_, ?_, ?_⟩, ?_, by decide, by decide, by decide, by decide⟩ <;> intro i <;> cases i <;> decide

/-- A very unbalanced pool: 0.001 and `10^10` tokens; withdrawals in a later block still work. -/
example : Ordinary demoSetup (fun j => if j then 10 ^ 16 else 10 ^ 3) ∧
    Within demoSetup (125 * 10 ^ 12) (fun j => if j then 10 ^ 16 else 10 ^ 3) := by
  refine ⟨⟨?_, ?_, ?_⟩, ?_⟩ <;> intro i <;> cases i <;> decide

/-- Non-vacuity of the history in `C151_withdraw_available`: a pool is created, funded and drained to a quarter in a later block. -/
example : okAnd (create (fun _ (a : Acct) => if a = 0 then 0 else 10 ^ 12) none 100 5) (fun s0 =>
    let s := run demoSetup 0 s0 [⟨6, 9, .provide 1 (fun _ => 10 ^ 9) none 1⟩]
    s.amp.nextTime < 2 ^ 64 ∧ s.lp 1 = 1999999000 ∧ s.supply = 2 * 10 ^ 9 ∧ s.bal false 0 = 10 ^ 9 ∧
      okAnd (withdraw demoSetup 0 s 50 1 1500000000 none) (fun x => x.2 = (750000000, 750000000))) = true := by
  decide +kernel

/-- Outside the range the claim is false: in this pool of `0.00014` and `0.00001` tokens (18 decimals) an offer of about
`10^-8` tokens cannot be traded or quoted, because the solver's tolerance makes the remaining reserve larger than the old one. -/
theorem C151_tiny_offer_fails :
    let su : Setup := ⟨fun _ => 18, fun _ => true⟩
    let s : State Acct := { demo1 with
      bal := fun i a => if a = 0 then (if i then 10699450623500 else 142647702052810) else 10 ^ 30,
      amp := ⟨32366, 0, 32366, 0⟩ }
    fails (simulation su 0 s 200 false 9851609862 noFees) ∧
    fails (swap su 0 s 200 1 false 9851609862 none (some (5 * 10 ^ 17)) 1 noFees) = true := by
  decide +kernel

end Verif.Stable
