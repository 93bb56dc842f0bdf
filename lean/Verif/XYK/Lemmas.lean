import Verif.XYK.Model

namespace Verif.XYK

/-! ## compute_swap -/

/-- Facts about a successful `computeSwap`. -/
structure SwapSpec (o a k : Nat) (offer rate : Nat) (r : SwapResult) where
  gross : Nat
  ho : 0 < o
  ha : 0 < a
  hoff : 0 < offer
  hgross : gross = (a * DEC - o * a * DEC / (o + offer)) / DEC
  hq : o * a * DEC / (o + offer) ≤ a * DEC
  hcom : r.commission = mulDec gross rate
  hle : r.commission ≤ gross
  hret : r.ret = gross - r.commission
  hspread : r.spread = mulDec offer (a * DEC / o) - gross

theorem computeSwap_spec {o a offer rate : Nat} {r : SwapResult}
    (h : computeSwap o a offer rate = .ok r) : Nonempty (SwapSpec o a 0 offer rate r) := by
  unfold computeSwap checkSwapParameters at h
  simp only [bind_ok_iff, require_ok, dec256FromRatio_ok, csub_ok, u128_ok, Except.ok.injEq,
    List.any_cons, List.any_nil, Bool.or_false, Bool.or_eq_true, decide_eq_true_eq, not_or] at h
  obtain ⟨_, ⟨_, ⟨h1, h2⟩, h3⟩, q, ⟨_, _, rfl⟩, d, ⟨h5, rfl⟩, p, ⟨_, _, rfl⟩, c, ⟨h7, rfl⟩,
    x, ⟨_, rfl⟩, y, ⟨_, rfl⟩, z, ⟨_, rfl⟩, rfl⟩ := h
  refine ⟨⟨mulDec 1 (a * DEC - o * a * DEC / (o + offer)), by omega, by omega, by omega, ?_, h5,
    rfl, h7, rfl, rfl⟩⟩
  simp [mulDec]

/-- Pure arithmetic of the gross output. -/
theorem gross_arith {o a offer g : Nat} (ho : 0 < o) (hq : o * a * DEC / (o + offer) ≤ a * DEC)
    (hg : g = (a * DEC - o * a * DEC / (o + offer)) / DEC) :
    g ≤ a ∧ o * a * DEC < (o + offer) * ((a - g) * DEC + 1) ∧ a * offer / (o + offer) ≤ g ∧
      g ≤ a * offer / (o + offer) + 1 := by
  have hD := DEC_pos
  have hpos : 0 < o + offer := by omega
  have h1 : g * DEC ≤ a * DEC - o * a * DEC / (o + offer) := by
    rw [hg]; exact Nat.div_mul_le_self _ _
  have h1' : a * DEC - o * a * DEC / (o + offer) < (g + 1) * DEC := by
    rw [hg]; exact lt_succ_div_mul _ hD
  have h2 : o * a * DEC < (o * a * DEC / (o + offer) + 1) * (o + offer) := lt_succ_div_mul _ hpos
  have h3 : o * a * DEC / (o + offer) * (o + offer) ≤ o * a * DEC := Nat.div_mul_le_self _ _
  generalize o * a * DEC / (o + offer) = q at *
  have hga : g ≤ a := Nat.le_of_mul_le_mul_right (le_trans h1 (Nat.sub_le _ _)) hD
  have hqle : q ≤ (a - g) * DEC := by
    rw [Nat.sub_mul]; omega
  refine ⟨hga, ?_, ?_, ?_⟩
  · calc o * a * DEC < (q + 1) * (o + offer) := h2
      _ ≤ ((a - g) * DEC + 1) * (o + offer) := Nat.mul_le_mul_right _ (by omega)
      _ = _ := by ring
  · -- trader gets at least the exact floor
    have h4 : a * offer / (o + offer) * (o + offer) ≤ a * offer := Nat.div_mul_le_self _ _
    generalize a * offer / (o + offer) = x at *
    by_contra hcon
    have hcon : g + 1 ≤ x := by omega
    have h5 : (g + 1) * DEC ≤ x * DEC := Nat.mul_le_mul_right _ hcon
    have h6 : a * DEC < x * DEC + q := by omega
    have h7 : a * DEC * (o + offer) < (x * DEC + q) * (o + offer) :=
      Nat.mul_lt_mul_of_pos_right h6 hpos
    have h8 : (x * DEC + q) * (o + offer) ≤ a * offer * DEC + o * a * DEC := by
      calc (x * DEC + q) * (o + offer) = (x * (o + offer)) * DEC + q * (o + offer) := by ring
        _ ≤ a * offer * DEC + o * a * DEC := Nat.add_le_add (Nat.mul_le_mul_right _ h4) h3
    have h9 : a * DEC * (o + offer) = a * offer * DEC + o * a * DEC := by ring
    omega
  · have h4 : a * offer < (a * offer / (o + offer) + 1) * (o + offer) := lt_succ_div_mul _ hpos
    generalize a * offer / (o + offer) = x at *
    by_contra hcon
    have hcon : x + 2 ≤ g := by omega
    have h5 : (x + 2) * DEC ≤ g * DEC := Nat.mul_le_mul_right _ hcon
    have h6 : (x + 2) * DEC + q ≤ a * DEC := by omega
    have h7 : ((x + 2) * DEC + q) * (o + offer) ≤ a * DEC * (o + offer) := Nat.mul_le_mul_right _ h6
    have h9 : a * DEC * (o + offer) = a * offer * DEC + o * a * DEC := by ring
    have h10 : ((x + 2) * DEC + q) * (o + offer)
        = (x + 1) * (o + offer) * DEC + (q * (o + offer) + DEC * (o + offer)) := by ring
    have h11 : a * offer * DEC < (x + 1) * (o + offer) * DEC := Nat.mul_lt_mul_of_pos_right h4 hD
    have h12 : (q + 1) * (o + offer) = q * (o + offer) + (o + offer) := by ring
    have h13 : o + offer ≤ DEC * (o + offer) := Nat.le_mul_of_pos_left _ hD
    omega

/-- With reserves up to `10^18` raw units the product cannot shrink. -/
theorem k_of_small {o a offer g : Nat} (hsmall : o + offer ≤ DEC)
    (h : o * a * DEC < (o + offer) * ((a - g) * DEC + 1)) : o * a ≤ (o + offer) * (a - g) := by
  have h2 : o * a * DEC < ((o + offer) * (a - g) + 1) * DEC := by
    calc o * a * DEC < (o + offer) * ((a - g) * DEC + 1) := h
      _ = (o + offer) * (a - g) * DEC + (o + offer) := by ring
      _ ≤ (o + offer) * (a - g) * DEC + DEC := by omega
      _ = _ := by ring
  have := Nat.lt_of_mul_lt_mul_right h2
  omega

/-! ## provide / withdraw arithmetic -/

theorem calculateShares_pos_total {d0 d1 p0 p1 total share : Nat} {tol : Option Nat}
    (ht : total ≠ 0) (h : calculateShares d0 d1 p0 p1 total tol = .ok share) :
    p0 ≠ 0 ∧ p1 ≠ 0 ∧ share = min (d0 * total / p0) (d1 * total / p1) ∧
      share * p0 ≤ d0 * total ∧ share * p1 ≤ d1 * total ∧
      assertSlippageTolerance tol d0 d1 p0 p1 = .ok () := by
  unfold calculateShares at h
  simp only [ht, if_false, bind_ok_iff, mulRatio_ok, Except.ok.injEq] at h
  obtain ⟨_, hs, x, ⟨h1, _, rfl⟩, y, ⟨h2, _, rfl⟩, rfl⟩ := h
  refine ⟨h1, h2, rfl, ?_, ?_, hs⟩
  · exact le_trans (Nat.mul_le_mul_right _ (Nat.min_le_left _ _)) (Nat.div_mul_le_self _ _)
  · exact le_trans (Nat.mul_le_mul_right _ (Nat.min_le_right _ _)) (Nat.div_mul_le_self _ _)

theorem calculateShares_zero_total {d0 d1 p0 p1 share : Nat} {tol : Option Nat}
    (h : calculateShares d0 d1 p0 p1 0 tol = .ok share) :
    0 < share ∧ share + 1000 = Nat.sqrt (d0 * d1) := by
  unfold calculateShares at h
  have : minimumLiquidity = 1000 := rfl
  simp only [if_true, ite_error_ok, Except.ok.injEq] at h
  omega

theorem shareInAsset_ok {pool amount total r : Nat} (ht : total ≠ 0)
    (h : shareInAsset pool amount total = .ok r) :
    r = pool * (amount * DEC / total) / DEC ∧ r * total ≤ pool * amount := by
  unfold shareInAsset at h
  simp only [ht, if_false, bind_ok_iff, decFromRatio_ok, u128_ok, mulDec] at h
  obtain ⟨x, ⟨_, _, rfl⟩, _, rfl⟩ := h
  refine ⟨rfl, ?_⟩
  have h1 : amount * DEC / total * total ≤ amount * DEC := Nat.div_mul_le_self _ _
  have h2 : pool * (amount * DEC / total) / DEC * DEC ≤ pool * (amount * DEC / total) :=
    Nat.div_mul_le_self _ _
  generalize amount * DEC / total = x at *
  generalize pool * x / DEC = r at *
  have : r * total * DEC ≤ pool * amount * DEC := by
    calc r * total * DEC = (r * DEC) * total := by ring
      _ ≤ pool * x * total := Nat.mul_le_mul_right _ h2
      _ = pool * (x * total) := by ring
      _ ≤ pool * (amount * DEC) := Nat.mul_le_mul_left _ h1
      _ = _ := by ring
  exact Nat.le_of_mul_le_mul_right this DEC_pos

/-! ## Contract steps -/

variable {A : Type} [DecidableEq A]

/-- Effects of a successful `provide`. -/
structure ProvideSpec (me : A) (s : State A) (now : Nat) (u : A) (d0 d1 : Nat) (tol minLp : Option Nat)
    (r : A) (s' : State A) (share : Nat) : Prop where
  hd0 : 0 < d0
  hd1 : 0 < d1
  hshare : calculateShares d0 d1 (s.bal false me) (s.bal true me) s.supply tol = .ok share
  hmin : minLp.getD 0 ≤ share
  hb0 : move (s.bal false) u me d0 = .ok (s'.bal false)
  hb1 : move (s.bal true) u me d1 = .ok (s'.bal true)
  hlp : s'.lp = credit (credit s.lp me (if s.supply = 0 then 1000 else 0)) r share
  hsup : s'.supply = s.supply + (if s.supply = 0 then 1000 else 0) + share
  htw : accumulate s.twap now (s.bal false me) (s.bal true me) = .ok s'.twap
  htr0 : s'.tracked false = s.bal false me + d0
  htr1 : s'.tracked true = s.bal true me + d1

theorem provide_spec {me : A} {s : State A} {now : Nat} {u : A} {d0 d1 : Nat} {tol minLp : Option Nat}
    {r : A} {s' : State A} {share : Nat} (hu : u ≠ me)
    (h : provide me s now u d0 d1 tol minLp r = .ok (s', share)) :
    ProvideSpec me s now u d0 d1 tol minLp r s' share := by
  unfold provide at h
  simp only [bind_ok_iff, require_ok, csub_ok, u128_ok, Except.ok.injEq, Prod.mk.injEq, not_or] at h
  obtain ⟨_, ⟨h0, h1⟩, b0, hb0, b1, hb1, p0, ⟨_, hp0⟩, p1, ⟨_, hp1⟩, sh, hsh, _, hmin, t0, ⟨_, rfl⟩,
    t1, ⟨_, rfl⟩, tw, htw, rfl, rfl⟩ := h
  have e0 := move_apply hb0 me
  have e1 := move_apply hb1 me
  simp [Ne.symm hu] at e0 e1
  have hp0' : p0 = s.bal false me := by omega
  have hp1' : p1 = s.bal true me := by omega
  subst hp0' hp1'
  refine ⟨by omega, by omega, hsh, by omega, by simpa using hb0, by simpa using hb1, rfl, rfl, htw,
    rfl, rfl⟩

/-- Effects of a successful `withdraw`. -/
structure WithdrawSpec (me : A) (s : State A) (now : Nat) (u : A) (n : Nat)
    (mins : Option (List (Bool × Nat))) (s' : State A) (r0 r1 : Nat) : Prop where
  hn : n ≠ 0
  hfund : n ≤ s.lp u
  hr0 : shareInAsset (s.bal false me) n s.supply = .ok r0
  hr1 : shareInAsset (s.bal true me) n s.supply = .ok r1
  hmin : ensureMinAssets false true r0 r1 mins = .ok ()
  hb0 : move (s.bal false) me u r0 = .ok (s'.bal false)
  hb1 : move (s.bal true) me u r1 = .ok (s'.bal true)
  hlp : ∀ c, s'.lp c = if c = u then s.lp c - n else s.lp c
  hsup : s'.supply + n = s.supply
  htw : accumulate s.twap now (s.bal false me) (s.bal true me) = .ok s'.twap
  htr0 : s'.tracked false = s.bal false me - r0
  htr1 : s'.tracked true = s.bal true me - r1

theorem withdraw_spec {me : A} {s : State A} {now : Nat} {u : A} {n : Nat}
    {mins : Option (List (Bool × Nat))} {s' : State A} {r0 r1 : Nat} (hu : u ≠ me)
    (h : withdraw me s now u n mins = .ok (s', (r0, r1))) :
    WithdrawSpec me s now u n mins s' r0 r1 := by
  unfold withdraw at h
  simp only [bind_ok_iff, require_ok, csub_ok, Except.ok.injEq, Prod.mk.injEq] at h
  obtain ⟨_, hn, l1, hl1, x0, hx0, x1, hx1, ⟨⟩, hmin, t0, ⟨_, rfl⟩, t1, ⟨_, rfl⟩, tw, htw, b0, hb0,
    b1, hb1, l2, hl2, sup, ⟨hs1, rfl⟩, rfl, rfl, rfl⟩ := h
  refine ⟨hn, move_le hl1, hx0, hx1, hmin, by simpa using hb0, by simpa using hb1, ?_, ?_, htw,
    rfl, rfl⟩
  · intro c
    show l2 c = _
    rw [debit_apply hl2, move_apply hl1]
    by_cases hc : c = me
    · subst hc; simp [Ne.symm hu]
    · simp [hc]
  · show s.supply - n + n = s.supply
    omega

/-- Effects of a successful `swap`. -/
structure SwapStepSpec (me : A) (s : State A) (now : Nat) (u : A) (i : Bool) (n : Nat)
    (b m : Option Nat) (r : A) (f : Fees A) (s' : State A) (out : SwapOut) : Prop where
  hsw : computeSwap (s.bal i me) (s.bal (!i) me) n f.total = .ok ⟨out.ret, out.spread, out.commission⟩
  hspread : assertMaxSpread b m n (out.ret + out.commission) out.spread = .ok ()
  hsplit : splitFees f out.commission = .ok (out.feeShare, out.makerFee)
  hbo : move (s.bal i) u me n = .ok (s'.bal i)
  hba : ∃ l1 l2, move (s.bal (!i)) me r out.ret = .ok l1 ∧
    sendOpt l1 me (f.share.map (·.2)) out.feeShare = .ok l2 ∧
    sendOpt l2 me f.feeAddr out.makerFee = .ok (s'.bal (!i))
  hsup : s'.supply = s.supply
  hlp : s'.lp = s.lp
  htr0 : s'.tracked i = s.bal i me + n
  htr1 : s'.tracked (!i) = s.bal (!i) me - (out.ret + out.makerFee + out.feeShare)
  hle : out.ret + out.makerFee + out.feeShare ≤ s.bal (!i) me
  htw : accumulate s.twap now (s.bal false me) (s.bal true me) = .ok s'.twap

theorem swap_spec {me : A} {s : State A} {now : Nat} {u : A} {i : Bool} {n : Nat}
    {b m : Option Nat} {r : A} {f : Fees A} {s' : State A} {out : SwapOut} (hu : u ≠ me)
    (h : swap me s now u i n b m r f = .ok (s', out)) : SwapStepSpec me s now u i n b m r f s' out := by
  unfold swap at h
  simp only [bind_ok_iff, csub_ok, u128_ok, Except.ok.injEq, Prod.mk.injEq, Prod.exists] at h
  obtain ⟨bo, hbo, op, ⟨_, hop⟩, sr, hsr, g, ⟨_, rfl⟩, ⟨⟩, hms, sa, mk, hsplit, l1, hl1, l2, hl2, l3, hl3,
    t1, ⟨_, rfl⟩, t2, ⟨hle, rfl⟩, tw, htw, rfl, rfl⟩ := h
  have e := move_apply hbo me
  simp [Ne.symm hu] at e
  have hop' : op = s.bal i me := by omega
  subst hop'
  refine ⟨hsr, hms, hsplit, by simpa using hbo, ⟨l1, l2, hl1, hl2, by simpa using hl3⟩, rfl, rfl,
    by simp, by simp, hle, ?_⟩
  cases i <;> simpa using htw

theorem sendOpt_self {l l' : A → Nat} {me : A} {dst : Option A} {n : Nat}
    (h : sendOpt l me dst n = .ok l') : l me - n ≤ l' me ∧ (dst = none ∨ n ≤ l me) := by
  cases dst with
  | none => simp [sendOpt] at h; subst h; exact ⟨Nat.sub_le _ _, Or.inl rfl⟩
  | some d =>
    simp only [sendOpt] at h
    have := move_apply h me
    simp at this
    exact ⟨by omega, Or.inr (move_le h)⟩

theorem splitFees_le {f : Fees A} {c x y : Nat} (hm : f.maker ≤ DEC)
    (hb : ∀ p, f.share = some p → p.1 ≤ 10000) (h : splitFees f c = .ok (x, y)) : x + y ≤ c := by
  have hx : x ≤ c := by
    unfold splitFees at h
    simp only [bind_ok_iff, Except.ok.injEq, Prod.mk.injEq] at h
    obtain ⟨z, hz, rfl, _⟩ := h
    unfold feeShareAmount at hz
    cases hs : f.share with
    | none => simp [hs] at hz; omega
    | some p =>
      rw [hs] at hz
      simp only [bind_ok_iff, decFromRatio_ok, u128_ok] at hz
      obtain ⟨rate, ⟨_, _, rfl⟩, _, rfl⟩ := hz
      apply mulDec_le
      apply Nat.div_le_of_le_mul
      exact Nat.mul_le_mul_right _ (hb p hs)
  unfold splitFees at h
  simp only [bind_ok_iff, Except.ok.injEq, Prod.mk.injEq] at h
  obtain ⟨z, hz, rfl, rfl⟩ := h
  cases f.feeAddr with
  | none => simpa using hx
  | some _ =>
    have : mulDec (c - z) f.maker ≤ c - z := mulDec_le hm
    simp only
    omega

theorem swap_ask_ge {me : A} {s : State A} {now : Nat} {u : A} {i : Bool} {n : Nat}
    {b m : Option Nat} {r : A} {f : Fees A} {s' : State A} {out : SwapOut}
    (sp : SwapStepSpec me s now u i n b m r f s' out) :
    s.bal (!i) me - (out.ret + out.makerFee + out.feeShare) ≤ s'.bal (!i) me := by
  obtain ⟨l1, l2, h1, h2, h3⟩ := sp.hba
  have e1 := move_apply h1 me
  simp at e1
  have e2 := (sendOpt_self h2).1
  have e3 := (sendOpt_self h3).1
  omega

end Verif.XYK
