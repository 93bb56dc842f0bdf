import Verif.Maker.Props

/-!
# Further properties of the maker: C54 over histories, C55 – C57, C93 – C95
-/

namespace Verif.Maker
variable {P A I : Type} [DecidableEq A] [DecidableEq I]

/-! ## The remainder stays backed (C54) -/

/-- Settings under which the remainder stays backed. -/
structure Calm (me : A) (astro : I) (s : State P A I) : Prop where
  sane : Sane me s.cfg
  same : s.cfg.astro = astro
  db : s.cfg.defaultBridge ≠ some astro
  kind : s.cfg.staking ≠ none ∨ s.cfg.dev = none
  seize : astro ∉ s.seizable

theorem exec_backed {mk : Market P I} {me : A} {astro : I} {s s' : State P A I} {o : Op P A I}
    (h : exec mk me s o = .ok s') (hg : Good s.cfg) (hc : Calm me astro s) (hc' : Calm me astro s')
    (hb : s.cfg.remainder ≤ s.bal astro me) : s'.cfg.remainder ≤ s'.bal astro me := by
  cases o with
  | collect now hh as =>
    simp only [exec] at h
    rw [bind_ok_iff] at h
    obtain ⟨⟨s1, k⟩, h1, h⟩ := h
    simp only [Except.ok.injEq] at h
    subst h
    obtain ⟨_, _, s2, e2, _, m2, hd⟩ := collect_ok h1
    have c2 : s2.cfg = s.cfg := e2.cfg
    have hb2 : s2.cfg.remainder ≤ s2.bal astro me := by
      rw [c2]
      have := m2 (by rw [hc.same]; exact hc.db)
      rw [hc.same] at this
      omega
    have a2 : s2.cfg.astro = astro := by rw [c2]; exact hc.same
    by_cases hz : s2.bal astro me = 0
    · obtain ⟨c', am, ha, e, hnone, _⟩ := distribute_ok hd
      rw [a2] at ha
      rcases available_ok ha with ⟨rfl, _, rfl⟩ | ⟨_, h0, _⟩ | ⟨_, h0, _⟩ | ⟨_, h0, _⟩ | ⟨h0, _⟩
      · rw [hnone rfl]; exact hb2
      all_goals exact absurd hz h0
    · by_cases he : s2.cfg.enabled = true
      · have := C54_sends_exactly_what_is_available_partial mk me s2 s1 hh hd he (by rw [c2]; exact hg)
          (by rw [c2]; exact hc.sane) (by rw [c2]; exact hc.kind) (by rw [a2]; exact hz)
        rw [a2] at this
        rcases this with ⟨_, _, rfl⟩ | ⟨x, _, _, h3, _⟩
        · exact hb2
        · exact h3.ge
      · have he : s2.cfg.enabled = false := by simpa using he
        obtain ⟨g1, g2⟩ := C54_nothing_before_enabling mk me s2 s1 hh hd he
        rw [a2] at g2
        rw [(g2 hz).1, g1]
  | update sender u =>
    simp only [exec, bind_ok_iff, require_ok, exists_const, Except.ok.injEq] at h
    obtain ⟨_, c, hu, h⟩ := h
    subst h
    simp only
    rw [(updateConfig_keeps hu).2.2.2.2]
    exact hb
  | bridges sender add rem =>
    simp only [exec, updateBridges, bind_ok_iff, require_ok, exists_const, Except.ok.injEq] at h
    obtain ⟨_, c, _, h⟩ := h
    subst h
    exact hb
  | enable sender height blocks =>
    simp only [exec, bind_ok_iff, require_ok, exists_const, Except.ok.injEq] at h
    obtain ⟨_, _, _, h⟩ := h
    subst h
    exact hb
  | seize as =>
    simp only [exec, seize, bind_ok_iff, require_ok, exists_const] at h
    obtain ⟨_, _, hs, h⟩ := h
    obtain ⟨e, _, _, k⟩ := doSeize_ok h
    rw [e.cfg, k astro ?_]
    · exact hb
    · intro m hm he
      unfold seizeAmounts at hm
      simp only [List.mem_filter, List.mem_map] at hm
      obtain ⟨⟨a, ha, rfl⟩, _⟩ := hm
      exact hc.seize (he ▸ hs a ha)
  | updateSeize sender dst as =>
    simp only [exec, bind_ok_iff, require_ok, exists_const, Except.ok.injEq] at h
    obtain ⟨_, h⟩ := h
    subst h
    exact hb
  | send i a b n =>
    simp only [exec, bind_ok_iff, require_ok, exists_const, Except.ok.injEq] at h
    obtain ⟨hne, l, hl, h⟩ := h
    subst h
    simp only
    by_cases hi : astro = i
    · subst hi
      rw [Function.update_self, move_apply hl me, if_neg (fun e => hne e.symm)]
      omega
    · rw [Function.update_of_ne hi]; exact hb
  | world w =>
    simp only [exec, Except.ok.injEq] at h
    subst h
    exact hb

/-- **C54, over histories.**  Start from a new maker and let any transactions follow.  As long as the settings stay
calm (ASTRO is not changed, not seizable and not the default bridge; no receiver is the maker itself; a dev fund is
not paid in ASTRO and comes with a staking contract), the maker always holds at least the pre-upgrade remainder it
has promised. -/
theorem C54_remainder_backed_partial (mk : Market P I) (me : A) (astro : I) (s : State P A I) (os : List (Op P A I))
    (hg : Good s.cfg) (hb : s.cfg.remainder ≤ s.bal astro me)
    (hc : ∀ pre suf, os = pre ++ suf → Calm me astro (run mk me s pre)) :
    (run mk me s os).cfg.remainder ≤ (run mk me s os).bal astro me := by
  induction os generalizing s with
  | nil => exact hb
  | cons o rest ih =>
    have h0 : Calm me astro s := hc [] (o :: rest) rfl
    have h1 : Calm me astro (commit' s (exec mk me s o)) := hc [o] rest rfl
    refine ih (commit' s (exec mk me s o)) ?_ ?_ ?_
    · exact commit'_inv (fun s => Good s.cfg) hg fun s' h => exec_good h hg
    · cases hx : exec mk me s o with
      | error e => exact hb
      | ok s1 =>
        rw [hx] at h1
        exact exec_backed hx hg h0 h1 hb
    · intro pre suf he
      exact hc (o :: pre) suf (by rw [he]; rfl)

example : okAnd demoStart (fun s => decide (s.cfg.remainder ≤ s.bal 0 0 ∧ s.cfg.defaultBridge ≠ some 0 ∧
    0 ∉ s.seizable ∧ s.cfg.gov = some 3 ∧ s.cfg.staking = some 2 ∧ s.cfg.second = some (4, 10) ∧
    s.cfg.dev.isNone)) = true := by decide +kernel

/-! ## Configurations that make distribution fail (C55) -/

omit [DecidableEq A] [DecidableEq I] in
theorem parts_le {n cut g sh a b e : Nat} (hc : cut ≤ 100) (hg : g ≤ 100)
    (hsum : (100 * cut + (100 - cut) * g) * DEC + sh * 10000 ≤ 10000 * DEC)
    (ha : 100 * a ≤ n * cut) (hb : 100 * b ≤ (n - a) * g) (he : DEC * e ≤ n * sh) : a + b + e ≤ n := by
  have hD := DEC_pos
  generalize DEC = D at *
  obtain ⟨k, hk⟩ : ∃ k, 100 = cut + k := ⟨100 - cut, by omega⟩
  obtain ⟨j, hj⟩ : ∃ j, 100 = g + j := ⟨100 - g, by omega⟩
  have han : a ≤ n := by nlinarith
  obtain ⟨m, rfl⟩ : ∃ m, n = a + m := ⟨n - a, by omega⟩
  rw [show 100 - cut = k by omega] at hsum
  rw [Nat.add_sub_cancel_left] at hb
  -- 10000 (a + b) ≤ n (100 cut + k g)
  have h1 : 10000 * (a + b) ≤ (a + m) * (100 * cut + k * g) := by
    have : (a + m) * (100 * cut + k * g) = j * ((a + m) * cut) + 100 * g * (a + m) := by
      have h2 : 100 * cut = g * cut + j * cut := by rw [← Nat.add_mul, ← hj]
      have h3 : k * g + g * cut = 100 * g := by rw [hk]; ring
      calc (a + m) * (100 * cut + k * g) = (a + m) * (j * cut + (k * g + g * cut)) := by rw [h2]; ring
        _ = j * ((a + m) * cut) + 100 * g * (a + m) := by rw [h3]; ring
    rw [this]
    have h4 : j * (100 * a) ≤ j * ((a + m) * cut) := Nat.mul_le_mul_left _ ha
    have h5 : 10000 * a = j * (100 * a) + 100 * g * a := by
      calc 10000 * a = 100 * (100 * a) := by ring
        _ = (g + j) * (100 * a) := by rw [← hj]
        _ = _ := by ring
    have h6 : 100 * (100 * b) ≤ 100 * (m * g) := Nat.mul_le_mul_left _ hb
    nlinarith
  have h7 : 10000 * D * (a + b + e) ≤ 10000 * D * (a + m) := by
    have h8 : D * (10000 * (a + b)) ≤ D * ((a + m) * (100 * cut + k * g)) := Nat.mul_le_mul_left _ h1
    have h9 : 10000 * (D * e) ≤ 10000 * ((a + m) * sh) := Nat.mul_le_mul_left _ he
    have h10 : (a + m) * ((100 * cut + k * g) * D + sh * 10000) ≤ (a + m) * (10000 * D) :=
      Nat.mul_le_mul_left _ hsum
    nlinarith
  exact Nat.le_of_mul_le_mul_left h7 (by omega)

/-- The parts of the whole in the configuration: cut of the second receiver (percent), governance percentage and dev
fund share (18 digits), zero when not configured. -/
def cutOf (c : Cfg A I) : Nat := c.second.elim 0 (·.2)
/-- See `cutOf`. -/
def pctOf (c : Cfg A I) : Nat := c.gov.elim 0 fun _ => c.govPct
/-- See `cutOf`. -/
def shareOf (c : Cfg A I) : Nat := c.dev.elim 0 (·.share)

/-- The configured parts add up to at most the whole: `cut + (1 - cut) * governance + dev ≤ 1`. -/
def FitsWhole (c : Cfg A I) : Prop :=
  (100 * cutOf c + (100 - cutOf c) * pctOf c) * DEC + shareOf c * 10000 ≤ 10000 * DEC

omit [DecidableEq A] [DecidableEq I] in
theorem split_succeeds {c : Cfg A I} (hg : Good c) (hf : FitsWhole c) {n : Nat} (hn : n < U128) :
    ∃ p, split c n = .ok p ∧ p.second + p.gov + p.dev + p.staking ≤ n := by
  unfold FitsWhole at hf
  have hcut : cutOf c ≤ 50 := by
    unfold cutOf
    rcases hs : c.second with _ | ⟨a, m⟩
    · simp
    · exact (hg.cut a m hs).2
  have hpct : pctOf c ≤ 100 := by
    unfold pctOf
    rcases c.gov with _ | a
    · simp
    · exact hg.pct
  have e1 : secondPart c n = .ok (n * cutOf c / 100) := by
    unfold secondPart
    unfold cutOf at hcut ⊢
    rcases hs : c.second with _ | ⟨a, m⟩
    · simp
    · rw [hs] at hcut
      simp only [Option.elim] at hcut ⊢
      rw [mulRatio_ok]
      refine ⟨by omega, ?_, rfl⟩
      have : n * m / 100 ≤ n * 100 / 100 := Nat.div_le_div_right (Nat.mul_le_mul_left _ (by omega))
      omega
  have ha : 100 * (n * cutOf c / 100) ≤ n * cutOf c := Nat.mul_div_le _ _
  generalize n * cutOf c / 100 = a at e1 ha
  have han : a ≤ n := by
    have : n * cutOf c ≤ n * 100 := Nat.mul_le_mul_left _ (by omega)
    omega
  have e2 : govPart c n a = .ok ((n - a) * pctOf c / 100) := by
    unfold govPart
    unfold pctOf at hpct ⊢
    rcases hs : c.gov with _ | x
    · simp
    · rw [hs] at hpct
      simp only [Option.elim] at hpct ⊢
      rw [(csub_ok n a (n - a)).2 ⟨han, rfl⟩, ok_bind, mulRatio_ok]
      refine ⟨by omega, ?_, rfl⟩
      have : (n - a) * c.govPct / 100 ≤ (n - a) * 100 / 100 :=
        Nat.div_le_div_right (Nat.mul_le_mul_left _ (by omega))
      omega
  have hb : 100 * ((n - a) * pctOf c / 100) ≤ (n - a) * pctOf c := Nat.mul_div_le _ _
  generalize (n - a) * pctOf c / 100 = b at e2 hb
  have he : DEC * (mulDec n (shareOf c)) ≤ n * shareOf c := by
    unfold mulDec; exact Nat.mul_div_le _ _
  have hle : a + b + mulDec n (shareOf c) ≤ n := parts_le (by omega) hpct hf ha hb he
  have e3 : devPart c n = .ok (mulDec n (shareOf c)) := by
    unfold devPart
    unfold shareOf at hle ⊢
    rcases hs : c.dev with _ | d
    · simp [mulDec]
    · rw [hs] at hle
      simp only [Option.elim] at hle ⊢
      rw [u128_ok]
      exact ⟨by omega, rfl⟩
  generalize mulDec n (shareOf c) = e at e3 hle
  have e4 : ∃ t, stakingPart c n a b e = .ok t ∧ a + b + e + t ≤ n := by
    unfold stakingPart
    rcases c.staking with _ | x
    · exact ⟨0, rfl, by omega⟩
    · refine ⟨n - (b + a + e), ?_, by omega⟩
      simp only
      rw [(u128_ok (b + a) (b + a)).2 ⟨by omega, rfl⟩, ok_bind, (u128_ok (b + a + e) (b + a + e)).2 ⟨by omega, rfl⟩, ok_bind,
        csub_ok]
      exact ⟨by omega, rfl⟩
  obtain ⟨t, e4, ht⟩ := e4
  refine ⟨⟨a, b, e, t⟩, ?_, ht⟩
  unfold split
  rw [e1, ok_bind, e2, ok_bind, e3, ok_bind, e4, ok_bind]

theorem payTo_succeeds {s : State P A I} {me : A} {dst : Option A} {n : Nat} (h : n ≤ s.bal s.cfg.astro me)
    (hd : dst ≠ some me) :
    ∃ s', payTo s me dst n = .ok s' ∧ s.bal s.cfg.astro me - n ≤ s'.bal s.cfg.astro me := by
  have : ∃ s', payTo s me dst n = .ok s' := by
    unfold payTo
    rcases dst with _ | a
    · exact ⟨_, rfl⟩
    · simp only
      split
      · exact ⟨_, rfl⟩
      · obtain ⟨l, hl⟩ := move_succeeds (b := a) h
        rw [hl]
        exact ⟨_, rfl⟩
  obtain ⟨s', hs⟩ := this
  refine ⟨s', hs, ?_⟩
  obtain ⟨_, _, _, _, b⟩ := payTo_ok hs
  rw [b me]
  split
  · omega
  · rw [if_pos rfl]; omega

theorem payTo_other {s s' : State P A I} {me : A} {dst : Option A} {n : Nat} (h : payTo s me dst n = .ok s')
    (hd : dst ≠ some me) : s.bal s.cfg.astro me - n ≤ s'.bal s.cfg.astro me := by
  obtain ⟨_, _, _, _, b⟩ := payTo_ok h
  rw [b me]
  split
  · omega
  · rw [if_pos rfl]; omega

/-- **C55, the part that holds.**  For every accepted configuration whose parts fit into the whole, every balance below
2^128 that covers the remainder, and any height not before the last distribution, a distribution succeeds, provided
that the released amount does not overflow and that, if there is a dev fund, its pool exists and swaps. -/
theorem C55_distribution_succeeds_partial (mk : Market P I) (me : A) (s : State P A I) (h : Nat)
    (hg : Good s.cfg) (hf : FitsWhole s.cfg) (hs : Sane me s.cfg)
    (hb : s.bal s.cfg.astro me < U128) (hrem : s.cfg.remainder ≤ s.bal s.cfg.astro me)
    (hh : s.cfg.lastBlock ≤ h) (hov : (h - s.cfg.lastBlock) * (s.cfg.preAmount / s.cfg.preBlocks) < U128)
    (hdev : ∀ d n, s.cfg.dev = some d → 0 < n → mk.has s.world s.cfg.astro d.asset = true ∧
      ∃ w out, 0 < out ∧ mk.swap s.world s.cfg.astro d.asset n = .ok (w, out)) :
    ∃ s', distribute mk me s h = .ok s' := by
  have hav : ∃ c' am, available s.cfg h (s.bal s.cfg.astro me) = .ok (c', am) ∧
      ∀ n, am = some n → n ≤ s.bal s.cfg.astro me := by
    unfold available
    split
    · exact ⟨_, _, rfl, fun n hn => by simp at hn⟩
    · split
      · exact ⟨_, _, rfl, fun n hn => by simp at hn⟩
      · rename_i he
        have he : s.cfg.enabled = true := by simpa using he
        split
        · rw [(csub_ok h s.cfg.lastBlock _).2 ⟨hh, rfl⟩, ok_bind]
          split
          · exact ⟨_, _, rfl, fun n hn => by simp at hn⟩
          · rw [(cdiv_ok _ _ _).2 ⟨hg.blocks he, rfl⟩, ok_bind, (u128_ok _ _).2 ⟨hov, rfl⟩, ok_bind]
            simp only
            generalize (h - s.cfg.lastBlock) * (s.cfg.preAmount / s.cfg.preBlocks) = q at *
            rw [(csub_ok _ _ _).2 ⟨hrem, rfl⟩, ok_bind, (u128_ok _ _).2 ⟨by omega, rfl⟩, ok_bind,
              (csub_ok _ _ _).2 ⟨Nat.min_le_right _ _, rfl⟩, ok_bind]
            refine ⟨_, _, rfl, ?_⟩
            intro n hn
            simp only [Option.some.injEq] at hn
            omega
        · exact ⟨_, _, rfl, fun n hn => by simp only [Option.some.injEq] at hn; omega⟩
  obtain ⟨c', am, ha, hle⟩ := hav
  have sm := available_same ha
  unfold distribute
  rw [ha, ok_bind]
  simp only
  rcases am with _ | n
  · exact ⟨_, rfl⟩
  simp only
  have hn := hle n rfl
  have hf' : FitsWhole c' := by
    unfold FitsWhole cutOf pctOf shareOf at hf ⊢
    rw [sm.second, sm.gov, sm.govPct, sm.dev]; exact hf
  obtain ⟨p, hp, hsum⟩ := split_succeeds (available_good ha hg) hf' (n := n) (by omega)
  rw [hp, ok_bind]
  obtain ⟨s1, h1, b1⟩ := payTo_succeeds (s := { s with cfg := c' }) (me := me) (dst := c'.second.map (·.1))
    (n := p.second) (by simp only [sm.astro]; omega) (by rw [sm.second]; exact hs.second)
  rw [h1, ok_bind]
  obtain ⟨e1, w1, _, k1, _⟩ := payTo_ok h1
  have c1 : s1.cfg = c' := e1.cfg
  simp only [sm.astro] at b1
  obtain ⟨s2, h2, b2⟩ := payTo_succeeds (s := s1) (me := me) (dst := c'.gov) (n := p.gov)
    (by rw [c1, sm.astro]; omega) (by rw [sm.gov]; exact hs.gov)
  rw [h2, ok_bind]
  obtain ⟨e2, w2, _, k2, _⟩ := payTo_ok h2
  have c2 : s2.cfg = c' := by rw [e2.cfg, c1]
  rw [c1, sm.astro] at b2
  have h3 : ∃ s3, payDev mk me s2 p.dev = .ok s3 := by
    unfold payDev
    rw [c2, sm.dev]
    rcases hd : s.cfg.dev with _ | d
    · exact ⟨_, rfl⟩
    · simp only
      split
      · exact ⟨_, rfl⟩
      · rename_i hz
        obtain ⟨g1, w, out, g2, g3⟩ := hdev d p.dev hd (by omega)
        have hw : s2.world = s.world := by rw [w2, w1]
        rw [hw, sm.astro, (require_ok _ _ ()).2 g1, ok_bind]
        have h4 : ∃ s4, doSwap mk me s2 (s.cfg.astro, d.asset, p.dev) = .ok s4 := by
          unfold doSwap
          simp only
          rw [hw, g3]
          unfold debit
          rw [if_pos (by omega)]
          exact ⟨_, rfl⟩
        obtain ⟨s4, h4⟩ := h4
        rw [h4, ok_bind]
        obtain ⟨_, _, out', ho, _, m4⟩ := doSwap_ok h4
        simp only at ho m4
        rw [hw, g3] at ho
        simp only [Except.ok.injEq, Prod.mk.injEq] at ho
        have hne : d.asset ≠ s.cfg.astro := hs.dev d hd
        have m5 := m4 d.asset
        rw [if_neg hne, if_pos rfl] at m5
        have hz' : s4.bal d.asset me ≠ 0 := by omega
        rw [(require_ok _ _ ()).2 hz', ok_bind]
        obtain ⟨l, hl⟩ := move_succeeds (l := s4.bal d.asset) (a := me) (b := d.addr) (le_refl (s4.bal d.asset me))
        rw [hl]
        exact ⟨_, rfl⟩
  obtain ⟨s3, h3⟩ := h3
  rw [h3, ok_bind]
  obtain ⟨e3, h3'⟩ := payDev_ok h3
  have c3 : s3.cfg = c' := by rw [e3.cfg, c2]
  have b3 : s2.bal s.cfg.astro me - p.dev ≤ s3.bal s.cfg.astro me := by
    rcases h3' with h3' | ⟨d, out, w', hdv, _, _, _, _, _, _, hb', _⟩
    · rw [h3']; exact Nat.sub_le _ _
    · rw [c2, sm.dev] at hdv
      rw [c2, sm.astro] at hb'
      rw [(hb' (hs.dev d hdv).symm).1 me, if_pos rfl]
  obtain ⟨s4, h4, _⟩ := payTo_succeeds (s := s3) (me := me) (dst := c'.staking) (n := p.staking)
    (by rw [c3, sm.astro]; omega) (by rw [sm.staking]; exact hs.staking)
  exact ⟨s4, h4⟩

example : demo.cfg.lastBlock ≤ 53 ∧ demo.cfg.remainder ≤ demo.bal 0 0 ∧
    (53 - demo.cfg.lastBlock) * (demo.cfg.preAmount / demo.cfg.preBlocks) < U128 ∧
    (100 * cutOf demo.cfg + (100 - cutOf demo.cfg) * pctOf demo.cfg) * DEC + shareOf demo.cfg * 10000 ≤ 10000 * DEC := by
  decide +kernel

/-- **C55 fails.**  The owner of an enabled maker with a staking contract sets governance to 100% and a dev fund of
10%; both are accepted, but from then on no positive balance can be distributed. -/
theorem C55_governance_and_dev_fund_violated :
    okAnd (exec demoMarket 0 demo (.update 1 { govPct := some 100, dev := some (some ⟨5, 10 ^ 17, 1⟩) })) (fun s =>
      fails (distribute demoMarket 0 s 53) && fails (distribute demoMarket 0 s 1000) &&
      fails (collect demoMarket 0 s 5000 53 [(2, none)])) = true := by
  decide +kernel

/-- **C55 fails also by changing the ASTRO token** while part of the pre-upgrade remainder is left: the remainder is
then subtracted from a balance in another token. -/
theorem C55_change_of_astro_violated :
    okAnd (exec demoMarket 0 demo (.update 1 { astro := some 2 })) (fun s =>
      decide (s.bal 2 0 = 700) && fails (distribute demoMarket 0 s 53)) = true := by
  decide +kernel

/-! ## Cooldown (C56) -/

/-- The block time of an operation that is a collect is at least `t`. -/
def NotBefore (t : Nat) : Op P A I → Prop
  | .collect now _ _ => t ≤ now
  | _ => True

theorem exec_lastCollect {mk : Market P I} {me : A} {s s' : State P A I} {o : Op P A I} {t : Nat}
    (h : exec mk me s o = .ok s') (ho : NotBefore t o) (hl : t ≤ s.lastCollect) : t ≤ s'.lastCollect := by
  cases o with
  | collect now hh as =>
    simp only [exec] at h
    rw [bind_ok_iff] at h
    obtain ⟨⟨s1, k⟩, h1, h⟩ := h
    simp only [Except.ok.injEq] at h
    subst h
    obtain ⟨_, _, s2, e2, _, _, hd⟩ := collect_ok h1
    obtain ⟨c', am, ha, e, _⟩ := distribute_ok hd
    have h3 : s1.lastCollect = now := by rw [e.lastCollect]; exact e2.lastCollect
    simp only [NotBefore] at ho
    rw [h3]; exact ho
  | update sender u =>
    simp only [exec, bind_ok_iff, require_ok, exists_const, Except.ok.injEq] at h
    obtain ⟨_, c, _, h⟩ := h
    subst h
    exact hl
  | bridges sender add rem =>
    simp only [exec, updateBridges, bind_ok_iff, require_ok, exists_const, Except.ok.injEq] at h
    obtain ⟨_, c, _, h⟩ := h
    subst h
    exact hl
  | enable sender height blocks =>
    simp only [exec, bind_ok_iff, require_ok, exists_const, Except.ok.injEq] at h
    obtain ⟨_, _, _, h⟩ := h
    subst h
    exact hl
  | seize as =>
    simp only [exec, seize, bind_ok_iff, require_ok, exists_const] at h
    obtain ⟨_, _, _, h⟩ := h
    rw [(doSeize_ok h).1.lastCollect]
    exact hl
  | updateSeize sender dst as =>
    simp only [exec, bind_ok_iff, require_ok, exists_const, Except.ok.injEq] at h
    obtain ⟨_, h⟩ := h
    subst h
    exact hl
  | send i a b n =>
    simp only [exec, bind_ok_iff, require_ok, exists_const, Except.ok.injEq] at h
    obtain ⟨_, l, _, h⟩ := h
    subst h
    exact hl
  | world w =>
    simp only [exec, Except.ok.injEq] at h
    subst h
    exact hl

theorem run_lastCollect {mk : Market P I} {me : A} {t : Nat} (os : List (Op P A I)) {s : State P A I}
    (ho : ∀ o ∈ os, NotBefore t o) (hl : t ≤ s.lastCollect) : t ≤ (run mk me s os).lastCollect := by
  induction os generalizing s with
  | nil => exact hl
  | cons o rest ih =>
    refine ih (s := commit' s (exec mk me s o)) (fun o h => ho o (List.mem_cons_of_mem _ h)) ?_
    exact commit'_inv (fun s => t ≤ s.lastCollect) hl fun s' h => exec_lastCollect h (ho o List.mem_cons_self) hl

/-- **C56.**  Let a collect succeed at time `t1`, then any transactions with no collect earlier than `t1`, then another
collect succeed at time `t2`.  If a cooldown is configured then, the two are at least that far apart; and whatever is
configured is between 30 and 600 seconds. -/
theorem C56_collects_respect_the_cooldown (mk : Market P I) (me : A) (s s1 s3 : State P A I) (t1 t2 h1 h2 : Nat)
    (as1 as2 : List (I × Option Nat)) (k1 k2 cd : Nat) (os : List (Op P A I)) (hg : Good s.cfg)
    (hc1 : collect mk me s t1 h1 as1 = .ok (s1, k1)) (hmono : ∀ o ∈ os, NotBefore t1 o)
    (hcd : (run mk me s1 os).cfg.cooldown = some cd)
    (hc2 : collect mk me (run mk me s1 os) t2 h2 as2 = .ok (s3, k2)) :
    t1 + cd ≤ t2 ∧ 30 ≤ cd ∧ cd ≤ 600 := by
  obtain ⟨_, _, s2, e2, _, _, hd⟩ := collect_ok hc1
  obtain ⟨c', am, ha, e, _⟩ := distribute_ok hd
  have hs1 : t1 ≤ s1.lastCollect := by rw [e.lastCollect]; exact e2.lastCollect.ge
  have hg1 : Good s1.cfg := by
    rw [e.cfg]
    refine available_good ha ?_
    rw [e2.cfg]; exact hg
  have hl := run_lastCollect (mk := mk) (me := me) os hmono hs1
  obtain ⟨_, hcool, _⟩ := collect_ok hc2
  have h5 := hcool cd hcd
  obtain ⟨h6, h7⟩ := (config_good os hg1).cool cd hcd
  exact ⟨by omega, h6, h7⟩

/-- The first collect waits for the cooldown after creation. -/
theorem C56_first_collect (mk : Market P I) (me : A) (s s' : State P A I) (t h : Nat) (as : List (I × Option Nat))
    (k cd : Nat) (hc : collect mk me s t h as = .ok (s', k)) (hcd : s.cfg.cooldown = some cd) :
    s.lastCollect + cd ≤ t ∧ s'.lastCollect = t := by
  obtain ⟨_, hcool, s2, e2, _, _, hd⟩ := collect_ok hc
  obtain ⟨c', am, ha, e, _⟩ := distribute_ok hd
  exact ⟨hcool cd hcd, by rw [e.lastCollect]; exact e2.lastCollect⟩

example : demo.cfg.cooldown = some 60 ∧ demo.lastCollect = 200 ∧
    okAnd (collect demoMarket 0 demo 260 53 []) (fun _ => true) = true ∧
    fails (collect demoMarket 0 demo 259 53 []) = true := by decide +kernel

/-! ## Routes (C57) -/

/-- Specification: consecutive tokens of the list share a pool. -/
def Linked (has : I → I → Bool) : List I → Prop
  | a :: b :: rest => has a b = true ∧ Linked has (b :: rest)
  | _ => True

/-- Specification: a chain of pools `src – bridge – … – ASTRO` of at most `n` pools. -/
def HasRoute (has : I → I → Bool) (astro src bridge : I) (n : Nat) : Prop :=
  ∃ path : List I, Linked has (src :: bridge :: path) ∧ (bridge :: path).getLast? = some astro ∧ path.length + 1 ≤ n

theorem validateBridge_route {mk : Market P I} {w : P} {br : I → Option I} {astro : I} {left : Nat} {src b : I}
    (h : validateBridge mk w br astro left src b = .ok ()) :
    HasRoute (mk.has w) astro src b (left + 2) := by
  induction left generalizing src b with
  | zero =>
    unfold validateBridge at h
    rw [bind_ok_iff] at h
    obtain ⟨_, h1, h⟩ := h
    rw [require_ok] at h1
    split at h
    · rename_i hor
      by_cases hba : b = astro
      · exact ⟨[], ⟨h1, trivial⟩, by simp [hba], by simp⟩
      · exact ⟨[astro], ⟨h1, (hor.resolve_left hba), trivial⟩, by simp, by simp⟩
    · simp at h
  | succ left ih =>
    unfold validateBridge at h
    rw [bind_ok_iff] at h
    obtain ⟨_, h1, h⟩ := h
    rw [require_ok] at h1
    split at h
    · rename_i hor
      by_cases hba : b = astro
      · exact ⟨[], ⟨h1, trivial⟩, by simp [hba], by simp⟩
      · exact ⟨[astro], ⟨h1, (hor.resolve_left hba), trivial⟩, by simp, by simp⟩
    · simp only at h
      split at h
      · simp at h
      · rename_i b' _
        obtain ⟨path, g1, g2, g3⟩ := ih h
        refine ⟨b' :: path, ⟨h1, g1⟩, ?_, ?_⟩
        · rw [List.getLast?_cons_cons]; exact g2
        · simp only [List.length_cons]; omega

theorem addBridges_route {mk : Market P I} {w : P} {astro : I} {add : List (I × I)} {m m' : I → Option I}
    (h : addBridges mk w astro m add = .ok m') :
    ∀ x ∈ add, x.1 ≠ x.2 ∧ HasRoute (mk.has w) astro x.1 x.2 4 := by
  induction add generalizing m with
  | nil => simp
  | cons y rest ih =>
    obtain ⟨a, b⟩ := y
    unfold addBridges at h
    rw [bind_ok_iff] at h
    obtain ⟨_, h1, h⟩ := h
    rw [bind_ok_iff] at h
    obtain ⟨_, h2, h⟩ := h
    rw [require_ok] at h1
    intro x hx
    rcases List.mem_cons.1 hx with rfl | hx
    · exact ⟨h1, validateBridge_route h2⟩
    · exact ih h x hx

/-- **C57, configuration.**  Only the owner sets bridges; every bridge accepted by a successful call differs from its
token and has, at that moment, a chain of at most four existing pools from the token over the bridge to ASTRO. -/
theorem C57_accepted_bridges_have_a_route (mk : Market P I) (me sender : A) (s s' : State P A I) (add : List (I × I))
    (rem : List I) (h : exec mk me s (.bridges sender add rem) = .ok s') :
    sender = s.cfg.owner ∧
      ∀ x ∈ add, x.1 ≠ x.2 ∧ HasRoute (mk.has s.world) s.cfg.astro x.1 x.2 4 := by
  simp only [exec, updateBridges, bind_ok_iff, require_ok, exists_const, Except.ok.injEq] at h
  obtain ⟨h1, m, h2, _⟩ := h
  exact ⟨h1, addBridges_route h2⟩

example : okAnd (exec demoMarket 0 demo (.bridges 1 [(4, 3)] [])) (fun s => decide (s.bridges 4 = some 3)) = true ∧
    fails (exec demoMarket 0 demo (.bridges 1 [(4, 3)] [2])) = true := by decide +kernel

omit [DecidableEq A] in
/-- **C57, collecting.**  Every swap a collect asks for goes through an existing pool, and a stored bridge is used only
if it has such a route at that moment. -/
theorem C57_swaps_use_existing_pools (mk : Market P I) (s : State P A I) (src t : I) (br : Bool)
    (h : target mk s src = .ok (t, br)) :
    mk.has s.world src t = true ∧ (∀ b, s.bridges src = some b → t = b ∧ HasRoute (mk.has s.world) s.cfg.astro src b 4) ∧
      (br = false → t = s.cfg.astro) := by
  unfold target at h
  split at h
  · rename_i b hb
    rw [bind_ok_iff] at h
    obtain ⟨_, h1, h⟩ := h
    simp only [Except.ok.injEq, Prod.mk.injEq] at h
    obtain ⟨rfl, rfl⟩ := h
    have hr := validateBridge_route h1
    obtain ⟨path, g1, _⟩ := id hr
    refine ⟨g1.1, ?_, ?_⟩
    · intro b' hb'
      rw [hb] at hb'
      simp only [Option.some.injEq] at hb'
      subst hb'
      exact ⟨rfl, hr⟩
    · intro hf
      have := of_decide_eq_false hf
      simpa using this
  · rename_i hb
    have hno : ∀ b, s.bridges src = some b → t = b ∧ HasRoute (mk.has s.world) s.cfg.astro src b 4 := by
      intro b hb'; rw [hb] at hb'; simp at hb'
    split at h
    · split at h
      · rename_i hx
        simp only [Except.ok.injEq, Prod.mk.injEq] at h
        obtain ⟨rfl, rfl⟩ := h
        exact ⟨hx.2, hno, by simp⟩
      · split at h
        · rename_i hx
          simp only [Except.ok.injEq, Prod.mk.injEq] at h
          obtain ⟨rfl, rfl⟩ := h
          exact ⟨hx, hno, fun _ => rfl⟩
        · exact absurd h (by simp)
    · split at h
      · rename_i hx
        simp only [Except.ok.injEq, Prod.mk.injEq] at h
        obtain ⟨rfl, rfl⟩ := h
        exact ⟨hx, hno, fun _ => rfl⟩
      · exact absurd h (by simp)

example : target demoMarket demo 3 = .ok (2, true) := by decide +kernel

/-- **C57, execution.**  However bridges are configured (also in cycles), a successful collect runs the recursive
bridge swap at most five times. -/
theorem C57_recursion_bounded (mk : Market P I) (me : A) (s s' : State P A I) (now h : Nat)
    (as : List (I × Option Nat)) (k : Nat) (hc : collect mk me s now h as = .ok (s', k)) : k ≤ 5 :=
  (collect_ok hc).1

example : okAnd (exec demoMarket 0 demo (.send 3 1 0 0)) (fun _ =>
    okAnd (collect demoMarket 0 { demo with bal := fun i a => if i = 3 ∧ a = 0 then 90 else demo.bal i a } 300 53
      [(3, none)]) fun x => decide (x.2 = 2)) = true := by decide +kernel

/-- Token 2 has a pool with token 1, which has a pool with ASTRO and one with token 3, which leads nowhere. -/
def divertMarket : Market Unit Nat where
  has _ i j := (i, j) ∈ [(0, 1), (1, 0), (2, 1), (1, 2), (1, 3), (3, 1)]
  swap w _ _ n := .ok (w, n)

/-- **An accepted bridge does not make collecting possible.**  The bridge from token 2 over token 1 is accepted (its
route to ASTRO exists), but with default bridge 3 the collect is diverted from token 1 to token 3 and fails, although
the direct pool of token 1 and ASTRO is there; and with ASTRO itself as default bridge even token 1 cannot be
collected. -/
theorem C57_default_bridge_diverts_violated :
    okAnd demoStart (fun s =>
      okAnd (exec divertMarket 0 s (.bridges 1 [(2, 1)] [])) fun s =>
        okAnd (collect divertMarket 0 s 300 53 [(2, none)]) (fun x => decide (x.1.bal 0 0 = 1700)) &&
        okAnd (exec divertMarket 0 s (.update 1 { defaultBridge := some 3 })) fun s =>
          fails (collect divertMarket 0 s 300 53 [(2, none)]) &&
          okAnd (exec divertMarket 0 s (.update 1 { defaultBridge := some 0 })) fun s =>
            fails (collect divertMarket 0 s 300 53 [(2, none)])) = true := by
  decide +kernel

/-! ## Who is paid (C93) -/

/-- `a` is a configured receiver of distributions. -/
def Receiver (c : Cfg A I) (a : A) : Prop :=
  c.second.map (·.1) = some a ∨ c.gov = some a ∨ c.staking = some a ∨ c.dev.map (·.addr) = some a

/-- **C93, collect.**  Whoever calls collect, with whatever assets: no account but the maker loses anything; only the
configured receivers gain; and they gain only ASTRO, the dev fund also its asset. -/
theorem C93_collect_pays_only_receivers (mk : Market P I) (me : A) (s s' : State P A I) (now h : Nat)
    (as : List (I × Option Nat)) (k : Nat) (hc : collect mk me s now h as = .ok (s', k)) :
    (∀ i a, a ≠ me → s.bal i a ≤ s'.bal i a) ∧
    (∀ i a, a ≠ me → ¬ Receiver s.cfg a → s'.bal i a = s.bal i a) ∧
    (∀ i a, a ≠ me → i ≠ s.cfg.astro → s'.bal i a ≠ s.bal i a →
      ∃ d, s.cfg.dev = some d ∧ d.addr = a ∧ d.asset = i) := by
  obtain ⟨_, _, s1, e1, o1, _, hd⟩ := collect_ok hc
  have c1 : s1.cfg = s.cfg := e1.cfg
  obtain ⟨c', am, ha, e, hnone, hsome⟩ := distribute_ok hd
  have sm := available_same ha
  rw [c1] at sm
  rcases am with _ | n
  · rw [hnone rfl]
    refine ⟨fun i a hne => (o1 i a hne).ge, fun i a hne _ => o1 i a hne, fun i a hne _ hx => absurd (o1 i a hne) hx⟩
  · obtain ⟨p, t1, t2, t3, hp, h1, h2, h3, h4⟩ := hsome n rfl
    obtain ⟨f1, _, _, k1, b1⟩ := payTo_ok h1
    obtain ⟨f2, _, _, k2, b2⟩ := payTo_ok h2
    obtain ⟨f3, d3⟩ := payDev_ok h3
    obtain ⟨f4, _, _, k4, b4⟩ := payTo_ok h4
    have g1 : t1.cfg = c' := f1.cfg
    have g2 : t2.cfg = c' := by rw [f2.cfg, g1]
    have g3 : t3.cfg = c' := by rw [f3.cfg, g2]
    simp only [sm.astro] at k1 b1
    rw [g1, sm.astro] at k2 b2
    rw [g3, sm.astro] at k4 b4
    rw [g2, sm.dev, sm.astro] at d3
    have x1 : ∀ i a, a ≠ me → s.bal i a ≤ t1.bal i a ∧
        (s.cfg.second.map (·.1) ≠ some a → t1.bal i a = s.bal i a) ∧ (i ≠ s.cfg.astro → t1.bal i a = s.bal i a) := by
      intro i a hne
      by_cases hi : i = s.cfg.astro
      · subst hi
        have := b1 a
        rw [if_neg hne, sm.second] at this
        rw [o1 _ a hne] at this
        refine ⟨?_, ?_, fun h => absurd rfl h⟩
        · split at this <;> omega
        · intro hx; rw [if_neg hx] at this; split at this <;> omega
      · rw [k1 i hi, o1 i a hne]
        exact ⟨le_refl _, fun _ => rfl, fun _ => rfl⟩
    have x2 : ∀ i a, a ≠ me → t1.bal i a ≤ t2.bal i a ∧
        (s.cfg.gov ≠ some a → t2.bal i a = t1.bal i a) ∧ (i ≠ s.cfg.astro → t2.bal i a = t1.bal i a) := by
      intro i a hne
      by_cases hi : i = s.cfg.astro
      · subst hi
        have := b2 a
        rw [if_neg hne, sm.gov] at this
        refine ⟨?_, ?_, fun h => absurd rfl h⟩
        · split at this <;> omega
        · intro hx; rw [if_neg hx] at this; split at this <;> omega
      · rw [k2 i hi]; exact ⟨le_refl _, fun _ => rfl, fun _ => rfl⟩
    have x4 : ∀ i a, a ≠ me → t3.bal i a ≤ s'.bal i a ∧
        (s.cfg.staking ≠ some a → s'.bal i a = t3.bal i a) ∧ (i ≠ s.cfg.astro → s'.bal i a = t3.bal i a) := by
      intro i a hne
      by_cases hi : i = s.cfg.astro
      · subst hi
        have := b4 a
        rw [if_neg hne, sm.staking] at this
        refine ⟨?_, ?_, fun h => absurd rfl h⟩
        · split at this <;> omega
        · intro hx; rw [if_neg hx] at this; split at this <;> omega
      · rw [k4 i hi]; exact ⟨le_refl _, fun _ => rfl, fun _ => rfl⟩
    have x3 : ∀ i a, a ≠ me → t2.bal i a ≤ t3.bal i a ∧
        (s.cfg.dev.map (·.addr) ≠ some a → t3.bal i a = t2.bal i a) ∧
        (i ≠ s.cfg.astro → t3.bal i a = t2.bal i a ∨ ∃ d, s.cfg.dev = some d ∧ d.addr = a ∧ d.asset = i) := by
      intro i a hne
      rcases d3 with rfl | ⟨d, out, w', hdv, _, _, _, _, _, kk, _, oth, mono⟩
      · exact ⟨le_refl _, fun _ => rfl, fun _ => Or.inl rfl⟩
      · refine ⟨mono i a hne, ?_, ?_⟩
        · intro hx
          rw [hdv] at hx
          simp only [Option.map_some, ne_eq, Option.some.injEq] at hx
          exact oth i a hne (fun e => hx e.symm)
        · intro hi
          by_cases hda : a = d.addr
          · by_cases hdi : i = d.asset
            · exact Or.inr ⟨d, hdv, hda.symm, hdi.symm⟩
            · exact Or.inl (by rw [kk i hi hdi])
          · exact Or.inl (oth i a hne hda)
    refine ⟨?_, ?_, ?_⟩
    · intro i a hne
      have := (x1 i a hne).1; have := (x2 i a hne).1; have := (x3 i a hne).1; have := (x4 i a hne).1
      omega
    · intro i a hne hr
      unfold Receiver at hr
      rw [(x4 i a hne).2.1 (fun e => hr (Or.inr (Or.inr (Or.inl e)))),
        (x3 i a hne).2.1 (fun e => hr (Or.inr (Or.inr (Or.inr e)))),
        (x2 i a hne).2.1 (fun e => hr (Or.inr (Or.inl e))), (x1 i a hne).2.1 (fun e => hr (Or.inl e))]
    · intro i a hne hi hx
      rcases (x3 i a hne).2.2 hi with h | h
      · rw [(x4 i a hne).2.2 hi, h, (x2 i a hne).2.2 hi, (x1 i a hne).2.2 hi] at hx
        exact absurd rfl hx
      · exact h

/-- **C93, seize.**  Whoever calls it, seizing sends only seizable assets, and only to the configured receiver. -/
theorem C93_seize_pays_only_its_receiver (mk : Market P I) (me : A) (s s' : State P A I) (as : List (I × Option Nat))
    (h : exec mk me s (.seize as) = .ok s') :
    (∀ i a, a ≠ me → s.bal i a ≤ s'.bal i a) ∧
    (∀ i a, a ≠ me → a ≠ s.seizeTo → s'.bal i a = s.bal i a) ∧ (∀ i, i ∉ s.seizable → s'.bal i = s.bal i) ∧
    s'.cfg = s.cfg := by
  simp only [exec, seize, bind_ok_iff, require_ok, exists_const] at h
  obtain ⟨_, _, hs, h⟩ := h
  obtain ⟨e, o, g, k⟩ := doSeize_ok h
  refine ⟨g, o, ?_, e.cfg⟩
  intro i hi
  refine k i ?_
  intro m hm he
  unfold seizeAmounts at hm
  simp only [List.mem_filter, List.mem_map] at hm
  obtain ⟨⟨a, ha, rfl⟩, _⟩ := hm
  exact hi (he ▸ hs a ha)

/-- **C93, settings.**  Only the owner changes the configuration, bridges, the seize settings, or enables rewards. -/
theorem C93_settings_only_by_owner (mk : Market P I) (me sender : A) (s : State P A I) (hne : sender ≠ s.cfg.owner)
    (u : Update A I) (add : List (I × I)) (rem as : List I) (hh n : Nat) (dst : Option A) :
    exec mk me s (.update sender u) = .error .unauthorized ∧
    exec mk me s (.bridges sender add rem) = .error .unauthorized ∧
    exec mk me s (.enable sender hh n) = .error .unauthorized ∧
    exec mk me s (.updateSeize sender dst as) = .error .unauthorized := by
  simp only [exec, require, if_neg hne]
  exact ⟨rfl, rfl, rfl, rfl⟩

example : okAnd (exec demoMarket 0 demo (.updateSeize 1 (some 6) [2])) (fun s =>
    okAnd (exec demoMarket 0 s (.seize [(2, some 300)])) fun s => decide (s.bal 2 6 = 300 ∧ s.bal 2 0 = 400)) = true := by
  decide +kernel

/-! ## The dev fund (C94) -/

theorem payDev_exact (mk : Market P I) (me : A) (s s' : State P A I) (n : Nat) (d : DevFund A I)
    (hd : s.cfg.dev = some d) (hn : n ≠ 0) (h : payDev mk me s n = .ok s') (hne : d.asset ≠ s.cfg.astro)
    (hme : d.addr ≠ me) (h0 : s.bal d.asset me = 0) :
    ∃ w out, mk.swap s.world s.cfg.astro d.asset n = .ok (w, out) ∧
      s'.bal d.asset d.addr = s.bal d.asset d.addr + out ∧ s'.bal d.asset me = 0 ∧
      s'.bal s.cfg.astro me + n = s.bal s.cfg.astro me := by
  unfold payDev at h
  rw [hd] at h
  simp only [if_neg hn] at h
  rw [bind_ok_iff] at h
  obtain ⟨_, _, h⟩ := h
  rw [bind_ok_iff] at h
  obtain ⟨s1, h1, h⟩ := h
  rw [bind_ok_iff] at h
  obtain ⟨_, _, h⟩ := h
  rw [bind_ok_iff] at h
  obtain ⟨l, hl, h⟩ := h
  rw [Except.ok.injEq] at h
  subst h
  obtain ⟨_, le1, out, ho, o1, m1⟩ := doSwap_ok h1
  simp only at ho m1 le1
  have md := m1 d.asset
  rw [if_neg hne, if_pos rfl, h0] at md
  refine ⟨_, out, ho, ?_, ?_, ?_⟩
  · simp only [Function.update_self]
    rw [move_apply hl, if_neg hme, if_pos rfl, o1 _ _ hme, md]
    omega
  · simp only [Function.update_self]
    rw [move_apply hl, if_pos rfl, if_neg (fun e => hme e.symm)]
    omega
  · simp only [Function.update_of_ne hne.symm]
    have := m1 s.cfg.astro
    rw [if_pos rfl, if_neg hne.symm] at this
    omega

/-- **C94, the part that holds.**  If the maker holds none of the dev fund's asset when it distributes, the dev fund
receives of it exactly the proceeds of swapping its share of the distributed ASTRO (`x`, as in C54), and nothing if
that share is zero. -/
theorem C94_dev_fund_gets_its_share_partial (mk : Market P I) (me : A) (s s' : State P A I) (h : Nat) (d : DevFund A I)
    (hd : s.cfg.dev = some d) (hr : distribute mk me s h = .ok s') (he : s.cfg.enabled = true)
    (hne : d.asset ≠ s.cfg.astro) (hme : d.addr ≠ me) (h0 : s.bal d.asset me = 0) (hb : s.bal s.cfg.astro me ≠ 0) :
    (s.cfg.remainder ≠ 0 ∧ h = s.cfg.lastBlock ∧ s' = s) ∨
    ∃ x, x + s.cfg.remainder = s.bal s.cfg.astro me + released s.cfg h ∧
      ((devShare s.cfg x = 0 ∧ s'.bal d.asset = s.bal d.asset) ∨
       ∃ w out, mk.swap s.world s.cfg.astro d.asset (devShare s.cfg x) = .ok (w, out) ∧
        s'.bal d.asset d.addr = s.bal d.asset d.addr + out ∧ s'.bal d.asset me = 0) := by
  obtain ⟨c', am, ha, e, hnone, hsome⟩ := distribute_ok hr
  have sm := available_same ha
  have key : ∀ n, am = some n → (devShare s.cfg n = 0 ∧ s'.bal d.asset = s.bal d.asset) ∨
       ∃ w out, mk.swap s.world s.cfg.astro d.asset (devShare s.cfg n) = .ok (w, out) ∧
        s'.bal d.asset d.addr = s.bal d.asset d.addr + out ∧ s'.bal d.asset me = 0 := by
    intro n hn
    obtain ⟨p, t1, t2, t3, hp, h1, h2, h3, h4⟩ := hsome n hn
    obtain ⟨f1, w1, _, k1, _⟩ := payTo_ok h1
    obtain ⟨f2, w2, _, k2, _⟩ := payTo_ok h2
    obtain ⟨f3, _⟩ := payDev_ok h3
    obtain ⟨f4, _, _, k4, _⟩ := payTo_ok h4
    have g1 : t1.cfg = c' := f1.cfg
    have g2 : t2.cfg = c' := by rw [f2.cfg, g1]
    have g3 : t3.cfg = c' := by rw [f3.cfg, g2]
    have hx1 : t1.bal d.asset = s.bal d.asset := k1 _ (by simp only [sm.astro]; exact hne)
    have hx2 : t2.bal d.asset = s.bal d.asset := by rw [k2 _ (by rw [g1, sm.astro]; exact hne), hx1]
    have hx4 : s'.bal d.asset = t3.bal d.asset := k4 _ (by rw [g3, sm.astro]; exact hne)
    have hw : t2.world = s.world := by rw [w2, w1]
    have hdv : p.dev = devShare s.cfg n := by
      rw [(split_ok hp).2.2.1, sm.dev, hd]; unfold devShare; rw [hd]; rfl
    by_cases hz : p.dev = 0
    · left
      refine ⟨by rw [← hdv]; exact hz, ?_⟩
      have : t3 = t2 := by
        unfold payDev at h3
        rw [g2, sm.dev, hd] at h3
        simp only [if_pos hz, Except.ok.injEq] at h3
        exact h3.symm
      rw [hx4, this, hx2]
    · right
      obtain ⟨w, out, g4, g5, g6, _⟩ := payDev_exact mk me t2 t3 p.dev d (by rw [g2, sm.dev]; exact hd) hz h3
        (by rw [g2, sm.astro]; exact hne) hme (by rw [hx2]; exact h0)
      rw [hw, g2, sm.astro, hdv] at g4
      refine ⟨w, out, g4, ?_, ?_⟩
      · rw [hx4, g5, hx2]
      · rw [hx4, g6]
  rcases available_ok ha with ⟨_, hz, _⟩ | ⟨_, _, hf, _⟩ | ⟨rfl, _, _, hr, hh, rfl⟩ | ⟨rfl, _, _, hr, rfl⟩ |
    ⟨_, _, hr, hlt, hle, rfl, rfl⟩
  · exact absurd hz hb
  · rw [he] at hf; exact absurd hf (by simp)
  · exact Or.inl ⟨hr, hh, hnone rfl⟩
  · refine Or.inr ⟨_, ?_, key _ rfl⟩
    unfold released; omega
  · refine Or.inr ⟨_, ?_, key _ rfl⟩
    unfold released; omega

example : okAnd (exec demoMarket 0 demo (.update 1 { dev := some (some ⟨5, 10 ^ 17, 1⟩) })) (fun s =>
      okAnd (distribute demoMarket 0 s 53) fun s' =>
        decide (s.bal 1 0 = 0 ∧ devShare s.cfg 300 = 30 ∧ s'.bal 1 5 = 30 ∧ s'.bal 0 2 = 186)) = true := by
  decide +kernel

/-- **C94 fails.**  Fees that are waiting in the dev fund's asset are sent to the dev fund with its share: here the
maker has collected 5000 USDC of fees, 300 ASTRO are distributed, the dev fund's share is 10% (30 ASTRO), and it gets
5030 USDC; nobody else gets anything of the 5000. -/
theorem C94_dev_fund_takes_waiting_fees_violated :
    okAnd (exec demoMarket 0 { demo with bal := fun i a => if i = 1 ∧ a = 0 then 5000 else demo.bal i a }
      (.update 1 { dev := some (some ⟨5, 10 ^ 17, 1⟩) })) (fun s =>
      okAnd (collect demoMarket 0 s 300 53 []) fun x =>
        decide (s.bal 1 0 = 5000 ∧ released s.cfg 53 = 300 ∧ x.1.bal 1 5 = 5030 ∧ x.1.bal 1 0 = 0)) = true := by
  decide +kernel

/-! ## Release of the pre-upgrade amount (C95) -/

/-- **C95, the part that holds.**  If the pre-upgrade amount is at least the number of blocks, the remainder is used up
by the first distribution that comes twice that number of blocks after enabling (or later). -/
theorem C95_fully_released_partial (mk : Market P I) (me : A) (s : State P A I) (os : List (Op P A I))
    (he : s.cfg.enabled = true) (hg : Good s.cfg) (hp : s.cfg.preBlocks ≤ s.cfg.preAmount)
    (hl : s.cfg.lastBlock + 2 * s.cfg.preBlocks ≤ (run mk me s os).cfg.lastBlock) :
    (run mk me s os).cfg.remainder = 0 := by
  obtain ⟨_, _, _, h1, h2⟩ := run_remainder (mk := mk) (me := me) os he
  rw [h2]
  have hb := hg.blocks he
  have hr := hg.rem
  have hq : 1 ≤ s.cfg.preAmount / s.cfg.preBlocks := Nat.div_pos hp (by omega)
  have hlt : s.cfg.preAmount < (s.cfg.preAmount / s.cfg.preBlocks + 1) * s.cfg.preBlocks := by
    have := Nat.lt_mul_div_succ s.cfg.preAmount (by omega : 0 < s.cfg.preBlocks)
    rw [Nat.mul_comm]; exact this
  generalize s.cfg.preAmount / s.cfg.preBlocks = q at *
  have : 2 * s.cfg.preBlocks * q ≤ ((run mk me s os).cfg.lastBlock - s.cfg.lastBlock) * q :=
    Nat.mul_le_mul_right _ (by omega)
  have h3 : (q + 1) * s.cfg.preBlocks ≤ 2 * s.cfg.preBlocks * q := by nlinarith
  omega

example : demo.cfg.preBlocks ≤ demo.cfg.preAmount ∧
    (run demoMarket 0 demo [.collect 300 70 []]).cfg.lastBlock = demo.cfg.lastBlock + 2 * demo.cfg.preBlocks := by
  decide +kernel

/-- **C95 fails when the pre-upgrade amount is smaller than the number of blocks**: the portion per block rounds to
zero, and whatever happens afterwards no part of the remainder is ever released. -/
theorem C95_never_released_violated (mk : Market P I) (me : A) (s : State P A I) (os : List (Op P A I))
    (he : s.cfg.enabled = true) (hp : s.cfg.preAmount < s.cfg.preBlocks) :
    (run mk me s os).cfg.remainder = s.cfg.remainder := by
  obtain ⟨_, _, _, _, h2⟩ := run_remainder (mk := mk) (me := me) os he
  rw [h2, Nat.div_eq_of_lt hp]; simp

example : okAnd demoStart (fun s =>
    let s := run demoMarket 0 s [.collect 200 40 [], .enable 1 50 1001]
    decide (s.cfg.enabled = true ∧ s.cfg.preAmount < s.cfg.preBlocks ∧ s.cfg.remainder = 1000 ∧
      (run demoMarket 0 s [.collect 300 53 [], .collect 400 900000 []]).cfg.remainder = 1000)) = true := by
  decide +kernel

end Verif.Maker
