import Verif.Maker.Model

namespace Verif.Maker
variable {P A I : Type} [DecidableEq A] [DecidableEq I]

/-- `s'` differs from `s` only in balances and pools. -/
def Static (s s' : State P A I) : Prop := s' = { s with bal := s'.bal, world := s'.world }

omit [DecidableEq A] [DecidableEq I] in
theorem Static.refl (s : State P A I) : Static s s := rfl

omit [DecidableEq A] [DecidableEq I] in
theorem Static.cfg {s s' : State P A I} (h : Static s s') : s'.cfg = s.cfg := by
  rw [show s' = { s with bal := s'.bal, world := s'.world } from h]

omit [DecidableEq A] [DecidableEq I] in
theorem Static.lastCollect {s s' : State P A I} (h : Static s s') : s'.lastCollect = s.lastCollect := by
  rw [show s' = { s with bal := s'.bal, world := s'.world } from h]

omit [DecidableEq A] [DecidableEq I] in
theorem Static.bridges {s s' : State P A I} (h : Static s s') : s'.bridges = s.bridges := by
  rw [show s' = { s with bal := s'.bal, world := s'.world } from h]

omit [DecidableEq A] [DecidableEq I] in
theorem Static.seizeTo {s s' : State P A I} (h : Static s s') : s'.seizeTo = s.seizeTo := by
  rw [show s' = { s with bal := s'.bal, world := s'.world } from h]

omit [DecidableEq A] [DecidableEq I] in
theorem Static.seizable {s s' : State P A I} (h : Static s s') : s'.seizable = s.seizable := by
  rw [show s' = { s with bal := s'.bal, world := s'.world } from h]

omit [DecidableEq A] [DecidableEq I] in
theorem static_of {s s' : State P A I} (h1 : s'.cfg = s.cfg) (h2 : s'.lastCollect = s.lastCollect)
    (h3 : s'.bridges = s.bridges) (h4 : s'.seizeTo = s.seizeTo) (h5 : s'.seizable = s.seizable) : Static s s' := by
  cases s; cases s'
  simp only at h1 h2 h3 h4 h5
  subst h1 h2 h3 h4 h5
  rfl

omit [DecidableEq A] [DecidableEq I] in
theorem Static.trans {s s' s'' : State P A I} (h : Static s s') (h' : Static s' s'') : Static s s'' :=
  static_of (h'.cfg.trans h.cfg) (h'.lastCollect.trans h.lastCollect) (h'.bridges.trans h.bridges)
    (h'.seizeTo.trans h.seizeTo) (h'.seizable.trans h.seizable)

/-! ## Swaps -/

theorem doSwap_ok {mk : Market P I} {me : A} {s s' : State P A I} {m : I × I × Nat}
    (h : doSwap mk me s m = .ok s') :
    Static s s' ∧ m.2.2 ≤ s.bal m.1 me ∧ ∃ out, mk.swap s.world m.1 m.2.1 m.2.2 = .ok (s'.world, out) ∧
      (∀ i a, a ≠ me → s'.bal i a = s.bal i a) ∧
      ∀ i, s'.bal i me = (if i = m.1 then s.bal i me - m.2.2 else s.bal i me) + (if i = m.2.1 then out else 0) := by
  unfold doSwap at h
  rw [bind_ok_iff] at h
  obtain ⟨l, hl, h⟩ := h
  rw [bind_ok_iff] at h
  obtain ⟨⟨w, out⟩, hw, h⟩ := h
  rw [Except.ok.injEq] at h
  subst h
  refine ⟨rfl, debit_le hl, out, hw, ?_, ?_⟩
  · intro i a ha
    have hd := debit_apply hl a
    rw [if_neg ha] at hd
    by_cases h2 : i = m.2.1
    · subst h2
      simp only [Function.update_self]
      rw [credit_of_ne _ _ ha]
      by_cases h1 : m.2.1 = m.1
      · rw [h1, Function.update_self, hd]
      · rw [Function.update_of_ne h1]
    · simp only [Function.update_of_ne h2]
      by_cases h1 : i = m.1
      · subst h1; rw [Function.update_self, hd]
      · rw [Function.update_of_ne h1]
  · intro i
    have hd := debit_apply hl me
    rw [if_pos rfl] at hd
    by_cases h2 : i = m.2.1
    · subst h2
      simp only [Function.update_self, credit_self, if_true]
      by_cases h1 : m.2.1 = m.1
      · rw [if_pos h1, h1, Function.update_self, hd]
      · rw [if_neg h1, Function.update_of_ne h1]
    · simp only [Function.update_of_ne h2, if_neg h2, Nat.add_zero]
      by_cases h1 : i = m.1
      · subst h1; rw [Function.update_self, hd, if_pos rfl]
      · rw [Function.update_of_ne h1, if_neg h1]

theorem doSwaps_ok {mk : Market P I} {me : A} {ms : List (I × I × Nat)} {s s' : State P A I}
    (h : doSwaps mk me s ms = .ok s') :
    Static s s' ∧ (∀ i a, a ≠ me → s'.bal i a = s.bal i a) ∧
      ∀ i, (∀ m ∈ ms, m.1 ≠ i) → s.bal i me ≤ s'.bal i me := by
  induction ms generalizing s with
  | nil =>
    simp only [doSwaps, Except.ok.injEq] at h
    subst h
    exact ⟨Static.refl _, fun _ _ _ => rfl, fun _ _ => le_refl _⟩
  | cons m rest ih =>
    unfold doSwaps at h
    rw [bind_ok_iff] at h
    obtain ⟨s1, h1, h⟩ := h
    obtain ⟨e1, _, out, _, o1, m1⟩ := doSwap_ok h1
    obtain ⟨e2, o2, m2⟩ := ih h
    refine ⟨e1.trans e2, fun i a ha => (o2 i a ha).trans (o1 i a ha), ?_⟩
    intro i hi
    have h2 := m2 i (fun m hm => hi m (List.mem_cons_of_mem _ hm))
    have h3 := m1 i
    rw [if_neg (fun e => hi m List.mem_cons_self e.symm)] at h3
    omega

omit [DecidableEq A] in
/-- The tokens offered by the messages of `swap_assets` are among the given assets, and no bridge token is ASTRO
unless it is the default bridge. -/
theorem swapAssets_ok {mk : Market P I} {me : A} {s : State P A I} {as : List (I × Option Nat)}
    {ms : List (I × I × Nat)} {bs : List I} (h : swapAssets mk me s as = .ok (ms, bs)) :
    (∀ m ∈ ms, m.1 ∈ as.map (·.1)) ∧ (∀ b ∈ bs, b ≠ s.cfg.astro ∨ s.cfg.defaultBridge = some b) := by
  induction as generalizing ms bs with
  | nil =>
    simp only [swapAssets, Except.ok.injEq, Prod.mk.injEq] at h
    obtain ⟨rfl, rfl⟩ := h
    simp
  | cons x rest ih =>
    obtain ⟨i, l⟩ := x
    unfold swapAssets at h
    simp only at h
    split at h
    · obtain ⟨g1, g2⟩ := ih h
      exact ⟨fun m hm => List.mem_cons_of_mem _ (g1 m hm), g2⟩
    · rw [bind_ok_iff] at h
      obtain ⟨⟨t, br⟩, ht, h⟩ := h
      rw [bind_ok_iff] at h
      obtain ⟨⟨ms', bs'⟩, hr, h⟩ := h
      simp only [Except.ok.injEq, Prod.mk.injEq] at h
      obtain ⟨rfl, rfl⟩ := h
      obtain ⟨g1, g2⟩ := ih hr
      refine ⟨?_, ?_⟩
      · intro m hm
        rcases List.mem_cons.1 hm with rfl | hm
        · exact List.mem_cons_self
        · exact List.mem_cons_of_mem _ (g1 m hm)
      · intro b hb
        by_cases hbr : br = true
        · rw [if_pos hbr] at hb
          have hb' : b = t ∨ b ∈ bs' := by
            split at hb
            · exact Or.inr hb
            · exact List.mem_cons.1 hb
          rcases hb' with rfl | hb
          · unfold target at ht
            split at ht
            · rw [bind_ok_iff] at ht
              obtain ⟨_, _, ht⟩ := ht
              simp only [Except.ok.injEq, Prod.mk.injEq] at ht
              obtain ⟨rfl, rfl⟩ := ht
              exact Or.inl (of_decide_eq_true hbr)
            · split at ht
              · rename_i d hd
                split at ht
                · simp only [Except.ok.injEq, Prod.mk.injEq] at ht
                  exact Or.inr (by rw [hd, ht.1])
                · split at ht
                  · simp only [Except.ok.injEq, Prod.mk.injEq] at ht
                    exact absurd hbr (by rw [← ht.2]; simp)
                  · exact absurd ht (by simp)
              · split at ht
                · simp only [Except.ok.injEq, Prod.mk.injEq] at ht
                  exact absurd hbr (by rw [← ht.2]; simp)
                · exact absurd ht (by simp)
          · exact g2 b hb
        · rw [if_neg hbr] at hb
          exact g2 b hb

/-! ## Payments -/

theorem payTo_ok {s s' : State P A I} {me : A} {dst : Option A} {n : Nat} (h : payTo s me dst n = .ok s') :
    Static s s' ∧ s'.world = s.world ∧ (dst ≠ none → n ≤ s.bal s.cfg.astro me) ∧
      (∀ i, i ≠ s.cfg.astro → s'.bal i = s.bal i) ∧
      ∀ a, s'.bal s.cfg.astro a =
        if dst = none then s.bal s.cfg.astro a
        else (if a = me then s.bal s.cfg.astro a - n else s.bal s.cfg.astro a) + (if dst = some a then n else 0) := by
  unfold payTo at h
  cases dst with
  | none =>
    simp only [Except.ok.injEq] at h
    subst h
    exact ⟨Static.refl _, rfl, fun h => absurd rfl h, fun _ _ => rfl, fun _ => rfl⟩
  | some r =>
    simp only at h
    split at h
    · rename_i h0
      subst h0
      simp only [Except.ok.injEq] at h
      subst h
      exact ⟨Static.refl _, rfl, fun _ => Nat.zero_le _, fun _ _ => rfl, fun a => by simp⟩
    · rw [bind_ok_iff] at h
      obtain ⟨l, hl, h⟩ := h
      rw [Except.ok.injEq] at h
      subst h
      refine ⟨rfl, rfl, fun _ => move_le hl, fun i hi => by simp only [Function.update_of_ne hi], ?_⟩
      intro a
      have := move_apply hl a
      simp only [Function.update_self, reduceCtorEq, if_false, Option.some.injEq]
      rw [this]
      by_cases har : a = r
      · subst har; simp
      · have h2 : ¬ r = a := fun e => har e.symm
        simp only [har, h2, if_false]

theorem payDev_ok {mk : Market P I} {me : A} {s s' : State P A I} {n : Nat} (h : payDev mk me s n = .ok s') :
    Static s s' ∧ (s' = s ∨ ∃ d out w', s.cfg.dev = some d ∧ n ≠ 0 ∧ n ≤ s.bal s.cfg.astro me ∧
      mk.has s.world s.cfg.astro d.asset = true ∧ mk.swap s.world s.cfg.astro d.asset n = .ok (w', out) ∧
      s'.world = w' ∧
      (∀ i, i ≠ s.cfg.astro → i ≠ d.asset → s'.bal i = s.bal i) ∧
      (s.cfg.astro ≠ d.asset →
        (∀ a, s'.bal s.cfg.astro a = if a = me then s.bal s.cfg.astro a - n else s.bal s.cfg.astro a) ∧
        (∀ a, s'.bal d.asset a = (if a = me then 0 else s.bal d.asset a) +
            (if a = d.addr then s.bal d.asset me + out else 0))) ∧
      (∀ i a, a ≠ me → a ≠ d.addr → s'.bal i a = s.bal i a) ∧
      (∀ i a, a ≠ me → s.bal i a ≤ s'.bal i a)) := by
  unfold payDev at h
  split at h
  · simp only [Except.ok.injEq] at h
    subst h
    exact ⟨Static.refl _, Or.inl rfl⟩
  · rename_i d hd
    split at h
    · simp only [Except.ok.injEq] at h
      subst h
      exact ⟨Static.refl _, Or.inl rfl⟩
    · rename_i hn
      rw [bind_ok_iff] at h
      obtain ⟨_, hp, h⟩ := h
      rw [require_ok] at hp
      rw [bind_ok_iff] at h
      obtain ⟨s1, h1, h⟩ := h
      rw [bind_ok_iff] at h
      obtain ⟨_, hz, h⟩ := h
      rw [bind_ok_iff] at h
      obtain ⟨l, hl, h⟩ := h
      rw [Except.ok.injEq] at h
      subst h
      obtain ⟨e1, le1, out, ho, o1, m1⟩ := doSwap_ok h1
      simp only at le1 ho m1
      refine ⟨e1.trans rfl, Or.inr ⟨d, out, s1.world, hd, hn, le1, hp, ho, rfl, ?_, ?_, ?_, ?_⟩⟩
      · intro i g1 g2
        funext a
        simp only [Function.update_of_ne g2]
        by_cases ha : a = me
        · rw [ha, m1 i, if_neg g1, if_neg g2]; rfl
        · exact o1 i a ha
      · intro hne
        refine ⟨?_, ?_⟩
        · intro a
          simp only [Function.update_of_ne hne]
          by_cases ha : a = me
          · subst ha
            rw [m1, if_pos rfl, if_neg hne, if_pos rfl]; rfl
          · rw [if_neg ha]; exact o1 _ a ha
        · intro a
          simp only [Function.update_self]
          rw [move_apply hl a]
          have hm := m1 d.asset
          rw [if_neg hne.symm, if_pos rfl] at hm
          by_cases ha : a = me
          · subst ha
            simp only [if_true]
            rw [hm]; omega
          · rw [if_neg ha, if_neg ha, o1 _ a ha, hm]
      · intro i a ha hd'
        by_cases hi : i = d.asset
        · subst hi
          simp only [Function.update_self]
          rw [move_apply hl a, if_neg ha, if_neg hd']
          exact o1 _ a ha
        · simp only [Function.update_of_ne hi]
          exact o1 _ a ha
      · intro i a ha
        by_cases hi : i = d.asset
        · subst hi
          simp only [Function.update_self]
          rw [move_apply hl a, if_neg ha, o1 _ a ha]
          exact Nat.le_add_right _ _
        · simp only [Function.update_of_ne hi]
          exact (o1 _ a ha).ge

/-! ## The amounts -/

omit [DecidableEq A] [DecidableEq I] in
theorem available_ok {c c' : Cfg A I} {h b : Nat} {am : Option Nat} (hh : available c h b = .ok (c', am)) :
    (am = none ∧ b = 0 ∧ c' = c) ∨
    (am = none ∧ b ≠ 0 ∧ c.enabled = false ∧ c' = { c with preAmount := b, remainder := b }) ∨
    (am = none ∧ b ≠ 0 ∧ c.enabled = true ∧ c.remainder ≠ 0 ∧ h = c.lastBlock ∧ c' = c) ∨
    (am = some b ∧ b ≠ 0 ∧ c.enabled = true ∧ c.remainder = 0 ∧ c' = c) ∨
    (b ≠ 0 ∧ c.enabled = true ∧ c.remainder ≠ 0 ∧ c.lastBlock < h ∧ c.remainder ≤ b ∧
      am = some (b - c.remainder + min ((h - c.lastBlock) * (c.preAmount / c.preBlocks)) c.remainder) ∧
      c' = { c with remainder := c.remainder - min ((h - c.lastBlock) * (c.preAmount / c.preBlocks)) c.remainder,
                    lastBlock := h }) := by
  unfold available at hh
  split at hh
  · simp only [Except.ok.injEq, Prod.mk.injEq] at hh
    exact Or.inl ⟨hh.2.symm, by assumption, hh.1.symm⟩
  · rename_i hb
    split at hh
    · rename_i he
      simp only [Except.ok.injEq, Prod.mk.injEq] at hh
      exact Or.inr (Or.inl ⟨hh.2.symm, hb, he, hh.1.symm⟩)
    · rename_i he
      have he : c.enabled = true := by simpa using he
      split at hh
      · rename_i hr
        rw [bind_ok_iff] at hh
        obtain ⟨p, hp, hh⟩ := hh
        rw [csub_ok] at hp
        obtain ⟨hp1, rfl⟩ := hp
        split at hh
        · simp only [Except.ok.injEq, Prod.mk.injEq] at hh
          exact Or.inr (Or.inr (Or.inl ⟨hh.2.symm, hb, he, hr, by omega, hh.1.symm⟩))
        · rw [bind_ok_iff] at hh
          obtain ⟨po, hpo, hh⟩ := hh
          rw [cdiv_ok] at hpo
          obtain ⟨_, rfl⟩ := hpo
          rw [bind_ok_iff] at hh
          obtain ⟨cu, hcu, hh⟩ := hh
          rw [u128_ok] at hcu
          obtain ⟨_, rfl⟩ := hcu
          rw [bind_ok_iff] at hh
          obtain ⟨pu, hpu, hh⟩ := hh
          rw [csub_ok] at hpu
          obtain ⟨hpu1, rfl⟩ := hpu
          rw [bind_ok_iff] at hh
          obtain ⟨am', ham, hh⟩ := hh
          rw [u128_ok] at ham
          obtain ⟨_, rfl⟩ := ham
          rw [bind_ok_iff] at hh
          obtain ⟨re, hre, hh⟩ := hh
          rw [csub_ok] at hre
          obtain ⟨_, rfl⟩ := hre
          simp only [Except.ok.injEq, Prod.mk.injEq] at hh
          exact Or.inr (Or.inr (Or.inr (Or.inr ⟨hb, he, hr, by omega, hpu1, hh.2.symm, hh.1.symm⟩)))
      · rename_i hr
        simp only [Except.ok.injEq, Prod.mk.injEq] at hh
        exact Or.inr (Or.inr (Or.inr (Or.inl ⟨hh.2.symm, hb, he, by simpa using hr, hh.1.symm⟩)))

omit [DecidableEq A] [DecidableEq I] in
theorem split_ok {c : Cfg A I} {n : Nat} {p : Parts} (h : split c n = .ok p) :
    p.second = (match c.second with | some (_, cut) => n * cut / 100 | none => 0) ∧
    p.gov = (match c.gov with | some _ => (n - p.second) * c.govPct / 100 | none => 0) ∧
    p.dev = (match c.dev with | some d => mulDec n d.share | none => 0) ∧
    (c.gov ≠ none → p.second ≤ n) ∧
    (match c.staking with | some _ => p.second + p.gov + p.dev + p.staking = n | none => p.staking = 0) := by
  unfold split at h
  rw [bind_ok_iff] at h
  obtain ⟨se, hs, h⟩ := h
  rw [bind_ok_iff] at h
  obtain ⟨go, hg, h⟩ := h
  rw [bind_ok_iff] at h
  obtain ⟨de, hd, h⟩ := h
  rw [bind_ok_iff] at h
  obtain ⟨st, ht, h⟩ := h
  rw [Except.ok.injEq] at h
  subst h
  refine ⟨?_, ?_, ?_, ?_, ?_⟩
  · unfold secondPart at hs
    rcases hc : c.second with _ | ⟨a, cut⟩ <;> rw [hc] at hs <;> simp only at hs ⊢
    · rw [Except.ok.injEq] at hs; exact hs.symm
    · rw [mulRatio_ok] at hs; exact hs.2.2.symm
  · unfold govPart at hg
    rcases hc : c.gov with _ | a <;> rw [hc] at hg <;> simp only at hg ⊢
    · rw [Except.ok.injEq] at hg; exact hg.symm
    · rw [bind_ok_iff] at hg
      obtain ⟨r, hr, hg⟩ := hg
      rw [csub_ok] at hr
      obtain ⟨_, rfl⟩ := hr
      rw [mulRatio_ok] at hg; exact hg.2.2.symm
  · unfold devPart at hd
    rcases hc : c.dev with _ | d <;> rw [hc] at hd <;> simp only at hd ⊢
    · rw [Except.ok.injEq] at hd; exact hd.symm
    · rw [u128_ok] at hd; exact hd.2.symm
  · intro hne
    unfold govPart at hg
    rcases hc : c.gov with _ | a
    · exact absurd hc hne
    · rw [hc] at hg
      simp only at hg
      rw [bind_ok_iff] at hg
      obtain ⟨r, hr, hg⟩ := hg
      rw [csub_ok] at hr
      exact hr.1
  · unfold stakingPart at ht
    rcases hc : c.staking with _ | a <;> rw [hc] at ht <;> simp only at ht ⊢
    · rw [Except.ok.injEq] at ht; exact ht.symm
    · rw [bind_ok_iff] at ht
      obtain ⟨t1, h1, ht⟩ := ht
      rw [u128_ok] at h1
      obtain ⟨_, rfl⟩ := h1
      rw [bind_ok_iff] at ht
      obtain ⟨t2, h2, ht⟩ := ht
      rw [u128_ok] at h2
      obtain ⟨_, rfl⟩ := h2
      rw [csub_ok] at ht
      omega

end Verif.Maker
