import Verif.Maker.Lemmas
import Mathlib.Tactic.NormNum
import Mathlib.Tactic.Ring
import Mathlib.Tactic.Linarith

/-!
# Properties of the maker (C54 – C57, C93 – C95)
-/

namespace Verif.Maker
variable {P A I : Type} [DecidableEq A] [DecidableEq I]

/-! ## Inversion of whole transactions -/

theorem distribute_ok {mk : Market P I} {me : A} {s s' : State P A I} {h : Nat}
    (hd : distribute mk me s h = .ok s') :
    ∃ c' am, available s.cfg h (s.bal s.cfg.astro me) = .ok (c', am) ∧ Static { s with cfg := c' } s' ∧
      (am = none → s' = { s with cfg := c' }) ∧
      (∀ n, am = some n → ∃ p s1 s2 s3, split c' n = .ok p ∧
        payTo { s with cfg := c' } me (c'.second.map (·.1)) p.second = .ok s1 ∧
        payTo s1 me c'.gov p.gov = .ok s2 ∧ payDev mk me s2 p.dev = .ok s3 ∧
        payTo s3 me c'.staking p.staking = .ok s') := by
  unfold distribute at hd
  rw [bind_ok_iff] at hd
  obtain ⟨⟨c', am⟩, ha, hd⟩ := hd
  refine ⟨c', am, ha, ?_, ?_, ?_⟩
  · cases am with
    | none =>
      simp only [Except.ok.injEq] at hd
      subst hd
      rfl
    | some n =>
      simp only at hd
      rw [bind_ok_iff] at hd
      obtain ⟨p, _, hd⟩ := hd
      rw [bind_ok_iff] at hd
      obtain ⟨s1, h1, hd⟩ := hd
      rw [bind_ok_iff] at hd
      obtain ⟨s2, h2, hd⟩ := hd
      rw [bind_ok_iff] at hd
      obtain ⟨s3, h3, hd⟩ := hd
      exact (payTo_ok h1).1.trans ((payTo_ok h2).1.trans ((payDev_ok h3).1.trans (payTo_ok hd).1))
  · rintro rfl
    simp only [Except.ok.injEq] at hd
    exact hd.symm
  · rintro n rfl
    simp only at hd
    rw [bind_ok_iff] at hd
    obtain ⟨p, hp, hd⟩ := hd
    rw [bind_ok_iff] at hd
    obtain ⟨s1, h1, hd⟩ := hd
    rw [bind_ok_iff] at hd
    obtain ⟨s2, h2, hd⟩ := hd
    rw [bind_ok_iff] at hd
    obtain ⟨s3, h3, hd⟩ := hd
    exact ⟨p, s1, s2, s3, hp, h1, h2, h3, hd⟩

/-- What `available` keeps of the configuration. -/
structure SameSettings (c c' : Cfg A I) : Prop where
  owner : c'.owner = c.owner
  staking : c'.staking = c.staking
  dev : c'.dev = c.dev
  defaultBridge : c'.defaultBridge = c.defaultBridge
  gov : c'.gov = c.gov
  govPct : c'.govPct = c.govPct
  astro : c'.astro = c.astro
  maxSpread : c'.maxSpread = c.maxSpread
  enabled : c'.enabled = c.enabled
  preBlocks : c'.preBlocks = c.preBlocks
  second : c'.second = c.second
  cooldown : c'.cooldown = c.cooldown

omit [DecidableEq A] [DecidableEq I] in
theorem available_same {c c' : Cfg A I} {h b : Nat} {am : Option Nat} (hh : available c h b = .ok (c', am)) :
    SameSettings c c' := by
  rcases available_ok hh with ⟨_, _, rfl⟩ | ⟨_, _, _, rfl⟩ | ⟨_, _, _, _, _, rfl⟩ | ⟨_, _, _, _, rfl⟩ |
    ⟨_, _, _, _, _, _, rfl⟩ <;> exact ⟨rfl, rfl, rfl, rfl, rfl, rfl, rfl, rfl, rfl, rfl, rfl, rfl⟩

theorem bridgeRun_ok {mk : Market P I} {me : A} {h : Nat} {left : Nat} {as : List I} {s s' : State P A I} {k : Nat}
    (hb : bridgeRun mk me h left as s = .ok (s', k)) :
    k ≤ left ∧ ∃ s1, Static s s1 ∧ (∀ i a, a ≠ me → s1.bal i a = s.bal i a) ∧
      (s.cfg.defaultBridge ≠ some s.cfg.astro → s.cfg.astro ∉ as → s.bal s.cfg.astro me ≤ s1.bal s.cfg.astro me) ∧
      distribute mk me s1 h = .ok s' := by
  induction left generalizing as s k with
  | zero => exact absurd hb (by simp [bridgeRun])
  | succ left ih =>
    unfold bridgeRun at hb
    rw [bind_ok_iff] at hb
    obtain ⟨⟨ms, bs⟩, hm, hb⟩ := hb
    rw [bind_ok_iff] at hb
    obtain ⟨_, _, hb⟩ := hb
    rw [bind_ok_iff] at hb
    obtain ⟨s1, h1, hb⟩ := hb
    obtain ⟨e1, o1, m1⟩ := doSwaps_ok h1
    obtain ⟨g1, g2⟩ := swapAssets_ok hm
    simp only [List.map_map] at g1
    have hkeep : s.cfg.astro ∉ as → s.bal s.cfg.astro me ≤ s1.bal s.cfg.astro me := by
      intro hna
      refine m1 _ ?_
      intro m hm' he
      have := g1 m hm'
      simp only [List.mem_map, Function.comp_apply, exists_eq_right] at this
      exact hna (he ▸ this)
    split at hb
    · rw [bind_ok_iff] at hb
      obtain ⟨s2, h2, hb⟩ := hb
      simp only [Except.ok.injEq, Prod.mk.injEq] at hb
      obtain ⟨rfl, rfl⟩ := hb
      exact ⟨by omega, s1, e1, o1, fun _ => hkeep, h2⟩
    · rw [bind_ok_iff] at hb
      obtain ⟨⟨s2, k'⟩, h2, hb⟩ := hb
      simp only [Except.ok.injEq, Prod.mk.injEq] at hb
      obtain ⟨rfl, rfl⟩ := hb
      obtain ⟨hk, s3, e3, o3, m3, h3⟩ := ih h2
      refine ⟨by omega, s3, e1.trans e3, fun i a ha => (o3 i a ha).trans (o1 i a ha), ?_, h3⟩
      intro hdb hna
      rw [e1.cfg] at m3
      refine le_trans (hkeep hna) (m3 hdb ?_)
      intro hin
      rcases g2 _ hin with h | h
      · exact h rfl
      · exact hdb h

theorem collect_ok {mk : Market P I} {me : A} {s s' : State P A I} {now h : Nat} {as : List (I × Option Nat)} {k : Nat}
    (hc : collect mk me s now h as = .ok (s', k)) :
    k ≤ BRIDGES_EXECUTION_MAX_DEPTH ∧ (∀ c, s.cfg.cooldown = some c → s.lastCollect + c ≤ now) ∧
    ∃ s1, Static { s with lastCollect := now } s1 ∧ (∀ i a, a ≠ me → s1.bal i a = s.bal i a) ∧
      (s.cfg.defaultBridge ≠ some s.cfg.astro → s.bal s.cfg.astro me ≤ s1.bal s.cfg.astro me) ∧
      distribute mk me s1 h = .ok s' := by
  unfold collect at hc
  rw [bind_ok_iff] at hc
  obtain ⟨_, hcd, hc⟩ := hc
  have hcool : ∀ c, s.cfg.cooldown = some c → s.lastCollect + c ≤ now := by
    intro c hcc
    rw [hcc] at hcd
    simp only [checkCooldown, require_ok] at hcd
    omega
  rw [bind_ok_iff] at hc
  obtain ⟨_, _, hc⟩ := hc
  rw [bind_ok_iff] at hc
  obtain ⟨⟨ms, bs⟩, hm, hc⟩ := hc
  obtain ⟨g1, g2⟩ := swapAssets_ok hm
  simp only at g1 g2 hc
  split at hc
  · rw [bind_ok_iff] at hc
    obtain ⟨s2, h2, hc⟩ := hc
    simp only [Except.ok.injEq, Prod.mk.injEq] at hc
    obtain ⟨rfl, rfl⟩ := hc
    exact ⟨Nat.zero_le _, hcool, _, Static.refl _, fun _ _ _ => rfl, fun _ => le_refl _, h2⟩
  · rw [bind_ok_iff] at hc
    obtain ⟨s1, h1, hc⟩ := hc
    obtain ⟨e1, o1, m1⟩ := doSwaps_ok h1
    have hkeep : s.bal s.cfg.astro me ≤ s1.bal s.cfg.astro me := by
      refine m1 _ ?_
      intro m hm' he
      have := g1 m hm'
      simp only [List.mem_map, List.mem_filter, decide_eq_true_eq] at this
      obtain ⟨x, ⟨_, hx⟩, hx'⟩ := this
      exact hx (hx'.trans he)
    split at hc
    · rw [bind_ok_iff] at hc
      obtain ⟨s2, h2, hc⟩ := hc
      simp only [Except.ok.injEq, Prod.mk.injEq] at hc
      obtain ⟨rfl, rfl⟩ := hc
      exact ⟨Nat.zero_le _, hcool, s1, e1, o1, fun _ => hkeep, h2⟩
    · obtain ⟨hk, s3, e3, o3, m3, h3⟩ := bridgeRun_ok hc
      refine ⟨hk, hcool, s3, e1.trans e3, fun i a ha => (o3 i a ha).trans (o1 i a ha), ?_, h3⟩
      intro hdb
      rw [e1.cfg] at m3
      refine le_trans hkeep (m3 hdb ?_)
      intro hin
      rcases g2 _ hin with h | h
      · exact h rfl
      · exact hdb h

/-! ## Accepted configurations -/

/-- Every configuration that can be reached satisfies this (`config_good`). -/
structure Good (c : Cfg A I) : Prop where
  pct : c.govPct ≤ 100
  all : c.staking = none → c.gov ≠ none ∧ c.govPct = 100
  cut : ∀ a n, c.second = some (a, n) → 0 < n ∧ n ≤ 50
  cool : ∀ n, c.cooldown = some n → 30 ≤ n ∧ n ≤ 600
  share : ∀ d, c.dev = some d → 0 < d.share ∧ d.share ≤ DEC
  blocks : c.enabled = true → c.preBlocks ≠ 0
  before : c.enabled = false → c.remainder = c.preAmount
  rem : c.remainder ≤ c.preAmount

omit [DecidableEq A] [DecidableEq I] in
theorem available_good {c c' : Cfg A I} {h b : Nat} {am : Option Nat} (hh : available c h b = .ok (c', am))
    (hg : Good c) : Good c' := by
  rcases available_ok hh with ⟨_, _, rfl⟩ | ⟨_, _, _, rfl⟩ | ⟨_, _, _, _, _, rfl⟩ | ⟨_, _, _, _, rfl⟩ |
    ⟨_, he, _, _, _, _, rfl⟩
  · exact hg
  · exact ⟨hg.pct, hg.all, hg.cut, hg.cool, hg.share, hg.blocks, fun _ => rfl, le_refl _⟩
  · exact hg
  · exact hg
  · refine ⟨hg.pct, hg.all, hg.cut, hg.cool, hg.share, hg.blocks, fun h => absurd he (by simpa using h), ?_⟩
    have := hg.rem
    simp only
    omega

omit [DecidableEq A] [DecidableEq I] in
theorem updateSecond_ok {c c' : Cfg A I} {o : Option (A × Nat)} (h : updateSecond c o = .ok c') :
    (o = none ∧ c' = c) ∨ ∃ a n, o = some (a, n) ∧ 0 < n ∧ n ≤ 50 ∧ c' = { c with second := some (a, n) } := by
  unfold updateSecond at h
  split at h
  · simp only [Except.ok.injEq] at h
    exact Or.inl ⟨rfl, h.symm⟩
  · simp only [bind_ok_iff, require_ok, exists_const, Except.ok.injEq] at h
    obtain ⟨h1, h2⟩ := h
    have : MAX_SECOND_RECEIVER_CUT = 50 := rfl
    rw [this] at h1
    exact Or.inr ⟨_, _, rfl, by omega, by omega, h2.symm⟩

omit [DecidableEq A] [DecidableEq I] in
theorem updateSecond_good {c c' : Cfg A I} {o : Option (A × Nat)} (h : updateSecond c o = .ok c') (hg : Good c) :
    Good c' := by
  rcases updateSecond_ok h with ⟨_, rfl⟩ | ⟨a, n, _, h1, h2, rfl⟩
  · exact hg
  · refine ⟨hg.pct, hg.all, ?_, hg.cool, hg.share, hg.blocks, hg.before, hg.rem⟩
    intro a' n' he
    simp only [Option.some.injEq, Prod.mk.injEq] at he
    omega

omit [DecidableEq A] [DecidableEq I] in
theorem updateConfig_good {mk : Market P I} {w : P} {c c' : Cfg A I} {u : Update A I}
    (h : updateConfig mk w c u = .ok c') (hg : Good c) : Good c' := by
  unfold updateConfig at h
  rw [bind_ok_iff] at h
  obtain ⟨c2, h2, h⟩ := h
  rw [bind_ok_iff] at h
  obtain ⟨c3, h3, h⟩ := h
  rw [bind_ok_iff] at h
  obtain ⟨c4, h4, h⟩ := h
  rw [bind_ok_iff] at h
  obtain ⟨c5, h5, h⟩ := h
  rw [bind_ok_iff] at h
  obtain ⟨c6, h6, h⟩ := h
  have g1 : Good (setStaking c u.staking) := by
    unfold setStaking
    split
    · exact hg
    · exact ⟨hg.pct, fun h => by simp at h, hg.cut, hg.cool, hg.share, hg.blocks, hg.before, hg.rem⟩
  have g2 : Good c2 := by
    unfold updateGov at h2
    split at h2
    · simp only [Except.ok.injEq] at h2; subst h2; exact g1
    · simp only [Except.ok.injEq] at h2; subst h2
      exact ⟨g1.pct, fun h => ⟨by simp, (g1.all h).2⟩, g1.cut, g1.cool, g1.share, g1.blocks, g1.before, g1.rem⟩
    · simp only [bind_ok_iff, require_ok, exists_const, Except.ok.injEq] at h2
      obtain ⟨h21, h22⟩ := h2
      subst h22
      exact ⟨g1.pct, fun h => absurd h h21, g1.cut, g1.cool, g1.share, g1.blocks, g1.before, g1.rem⟩
  have g3 : Good c3 := by
    unfold updatePct at h3
    split at h3
    · simp only [Except.ok.injEq] at h3; subst h3; exact g2
    · simp only [bind_ok_iff, require_ok, exists_const, Except.ok.injEq] at h3
      obtain ⟨h31, h32, h33⟩ := h3
      subst h33
      refine ⟨?_, ?_, g2.cut, g2.cool, g2.share, g2.blocks, g2.before, g2.rem⟩
      · simp only; omega
      · intro h
        refine ⟨(g2.all h).1, ?_⟩
        by_contra hne
        exact h32 ⟨h, hne⟩
  have g4 : Good c4 := by
    unfold updateSpread at h4
    have g3' : Good (setBridge c3 u.defaultBridge) := by
      unfold setBridge
      split
      · exact g3
      · exact ⟨g3.pct, g3.all, g3.cut, g3.cool, g3.share, g3.blocks, g3.before, g3.rem⟩
    split at h4
    · simp only [Except.ok.injEq] at h4; subst h4; exact g3'
    · rw [bind_ok_iff] at h4
      obtain ⟨_, _, h4⟩ := h4
      simp only [Except.ok.injEq] at h4; subst h4
      exact ⟨g3'.pct, g3'.all, g3'.cut, g3'.cool, g3'.share, g3'.blocks, g3'.before, g3'.rem⟩
  have g5 := updateSecond_good h5 g4
  have g6 : Good c6 := by
    unfold updateCooldown at h6
    split at h6
    · simp only [Except.ok.injEq] at h6; subst h6; exact g5
    · simp only [bind_ok_iff, validateCooldown, require_ok, exists_const, Except.ok.injEq] at h6
      obtain ⟨h61, h62⟩ := h6
      subst h62
      refine ⟨g5.pct, g5.all, g5.cut, ?_, g5.share, g5.blocks, g5.before, g5.rem⟩
      intro n hn
      simp only [Option.some.injEq] at hn
      subst hn
      exact h61
  have g7 : Good (setAstro c6 u.astro) := by
    unfold setAstro
    split
    · exact g6
    · exact ⟨g6.pct, g6.all, g6.cut, g6.cool, g6.share, g6.blocks, g6.before, g6.rem⟩
  unfold updateDev at h
  split at h
  · simp only [Except.ok.injEq] at h; subst h; exact g7
  · simp only [Except.ok.injEq] at h; subst h
    exact ⟨g7.pct, g7.all, g7.cut, g7.cool, fun d hd => by simp at hd, g7.blocks, g7.before, g7.rem⟩
  · simp only [bind_ok_iff, require_ok, exists_const, Except.ok.injEq] at h
    obtain ⟨hs, _, h⟩ := h
    subst h
    refine ⟨g7.pct, g7.all, g7.cut, g7.cool, ?_, g7.blocks, g7.before, g7.rem⟩
    intro d hd
    simp only [Option.some.injEq] at hd
    subst hd
    exact hs

omit [DecidableEq A] [DecidableEq I] in
theorem create_good {owner : A} {st gov : Option A} {pct sp : Option Nat} {astro : I} {db : Option I}
    {sec : Option (A × Nat)} {cd : Option Nat} {now : Nat} {nobody : A} {bal : I → A → Nat} {w : P}
    {s : State P A I} (h : create owner st gov pct sp astro db sec cd now nobody bal w = .ok s) :
    Good s.cfg ∧ s.lastCollect = now := by
  unfold create at h
  rw [bind_ok_iff] at h
  obtain ⟨_, h1, h⟩ := h
  rw [bind_ok_iff] at h
  obtain ⟨_, h2, h⟩ := h
  rw [bind_ok_iff] at h
  obtain ⟨_, h3, h⟩ := h
  rw [bind_ok_iff] at h
  obtain ⟨_, h4, h⟩ := h
  rw [bind_ok_iff] at h
  obtain ⟨c, h5, h⟩ := h
  rw [bind_ok_iff] at h
  obtain ⟨_, h6, h⟩ := h
  rw [Except.ok.injEq] at h
  subst h
  rw [require_ok] at h1 h2 h6
  have hcool : ∀ n, cd = some n → 30 ≤ n ∧ n ≤ 600 := by
    rintro n rfl
    simp only [validateCooldown, require_ok] at h4
    exact h4
  refine ⟨?_, rfl⟩
  rcases updateSecond_ok h5 with ⟨_, rfl⟩ | ⟨a, n, _, g1, g2, rfl⟩
  · exact ⟨by simp only; omega,
      fun hs => ⟨fun hg => h6 ⟨hs, hg⟩, by by_contra hne; exact h2 ⟨hs, hne⟩⟩, fun _ _ h => by simp at h, hcool,
      fun _ h => by simp at h, fun h => by simp at h, fun _ => rfl, le_refl _⟩
  · refine ⟨by simp only; omega,
      fun hs => ⟨fun hg => h6 ⟨hs, hg⟩, by by_contra hne; exact h2 ⟨hs, hne⟩⟩, ?_, hcool,
      fun _ h => by simp at h, fun h => by simp at h, fun _ => rfl, le_refl _⟩
    intro a' n' he
    simp only [Option.some.injEq, Prod.mk.injEq] at he
    omega

theorem doSeize_ok {me : A} {ms : List (I × Nat)} {s s' : State P A I} (h : doSeize me s ms = .ok s') :
    Static s s' ∧ (∀ i a, a ≠ me → a ≠ s.seizeTo → s'.bal i a = s.bal i a) ∧
      (∀ i a, a ≠ me → s.bal i a ≤ s'.bal i a) ∧
      (∀ i, (∀ m ∈ ms, m.1 ≠ i) → s'.bal i = s.bal i) := by
  induction ms generalizing s with
  | nil =>
    simp only [doSeize, Except.ok.injEq] at h
    subst h
    exact ⟨Static.refl _, fun _ _ _ _ => rfl, fun _ _ _ => le_refl _, fun _ _ => rfl⟩
  | cons m rest ih =>
    obtain ⟨i, n⟩ := m
    unfold doSeize at h
    rw [bind_ok_iff] at h
    obtain ⟨l, hl, h⟩ := h
    obtain ⟨e, o, g, k⟩ := ih h
    refine ⟨e, ?_, ?_, ?_⟩
    · intro j a h1 h2
      rw [o j a h1 h2]
      simp only
      by_cases hj : j = i
      · subst hj
        rw [Function.update_self, move_apply hl a, if_neg h1, if_neg h2]; rfl
      · rw [Function.update_of_ne hj]
    · intro j a h1
      refine le_trans ?_ (g j a h1)
      simp only
      by_cases hj : j = i
      · subst hj
        rw [Function.update_self, move_apply hl a, if_neg h1]
        exact Nat.le_add_right _ _
      · rw [Function.update_of_ne hj]
    · intro j hj
      rw [k j (fun m hm => hj m (List.mem_cons_of_mem _ hm))]
      simp only
      rw [Function.update_of_ne (fun e => hj (i, n) List.mem_cons_self e.symm)]

theorem exec_good {mk : Market P I} {me : A} {s s' : State P A I} {o : Op P A I} (h : exec mk me s o = .ok s')
    (hg : Good s.cfg) : Good s'.cfg := by
  cases o with
  | collect now hh as =>
    simp only [exec] at h
    rw [bind_ok_iff] at h
    obtain ⟨⟨s1, k⟩, h1, h⟩ := h
    simp only [Except.ok.injEq] at h
    subst h
    obtain ⟨_, _, s2, e2, _, _, hd⟩ := collect_ok h1
    obtain ⟨c', am, ha, e, _⟩ := distribute_ok hd
    rw [e.cfg]
    refine available_good ha ?_
    rw [e2.cfg]
    exact hg
  | update sender u =>
    simp only [exec, bind_ok_iff, require_ok, exists_const, Except.ok.injEq] at h
    obtain ⟨_, c, hc, h⟩ := h
    subst h
    exact updateConfig_good hc hg
  | bridges sender add rem =>
    simp only [exec, updateBridges, bind_ok_iff, require_ok, exists_const, Except.ok.injEq] at h
    obtain ⟨_, c, hc, h⟩ := h
    subst h
    exact hg
  | enable sender height blocks =>
    simp only [exec, bind_ok_iff, require_ok, exists_const, Except.ok.injEq] at h
    obtain ⟨_, he, hb, h⟩ := h
    subst h
    exact ⟨hg.pct, hg.all, hg.cut, hg.cool, hg.share, fun _ => hb, fun h => by simp at h, hg.rem⟩
  | seize as =>
    simp only [exec, seize, bind_ok_iff, require_ok, exists_const] at h
    obtain ⟨_, _, _, h⟩ := h
    rw [(doSeize_ok h).1.cfg]
    exact hg
  | updateSeize sender dst as =>
    simp only [exec, bind_ok_iff, require_ok, exists_const, Except.ok.injEq] at h
    obtain ⟨_, h⟩ := h
    subst h
    exact hg
  | send i a b n =>
    simp only [exec, bind_ok_iff, require_ok, exists_const, Except.ok.injEq] at h
    obtain ⟨_, l, _, h⟩ := h
    subst h
    exact hg
  | world w =>
    simp only [exec, Except.ok.injEq] at h
    subst h
    exact hg

theorem config_good {mk : Market P I} {me : A} (os : List (Op P A I)) {s : State P A I} (hg : Good s.cfg) :
    Good (run mk me s os).cfg := by
  induction os generalizing s with
  | nil => exact hg
  | cons o rest ih =>
    exact ih (commit'_inv (fun s => Good s.cfg) hg fun s' h => exec_good h hg)

/-! ## A concrete maker for the examples -/

/-- Addresses: 0 the maker, 1 owner, 2 staking, 3 governance, 4 second receiver, 5 dev fund, 6 seize receiver.
Assets: 0 ASTRO, 1 USDC, 2 and 3 fee tokens, 4 a token without a route.  Pools swap one to one. -/
def demoMarket : Market Unit Nat where
  has _ i j := (i, j) ∈ [(0, 1), (1, 0), (2, 1), (1, 2), (3, 2), (2, 3), (3, 4), (4, 3)]
  swap w _ _ n := .ok (w, n)

/-- The maker just created: 10% second receiver, 20% governance, 60 seconds cooldown. -/
def demoStart : Res (State Unit Nat Nat) :=
  create 1 (some 2) (some 3) (some 20) none 0 none (some (4, 10)) (some 60) 100 0
    (fun i a => if i = 0 ∧ a = 0 then 1000 else if i = 2 ∧ a = 0 then 700 else 0) ()

/-- After some time: bridges set, rewards enabled at height 50 over 10 blocks with 1000 ASTRO collected before. -/
def demoOps : List (Op Unit Nat Nat) :=
  [.bridges 1 [(2, 1), (3, 2)] [], .collect 200 40 [], .enable 1 50 10]

/-- The state after that. -/
def demo : State Unit Nat Nat :=
  match demoStart with
  | .ok s => run demoMarket 0 s demoOps
  | .error _ => { cfg := { owner := 0, staking := none, dev := none, defaultBridge := none, gov := none, govPct := 0, astro := 0, maxSpread := 0, enabled := false, preBlocks := 0, lastBlock := 0, remainder := 0, preAmount := 0, second := none, cooldown := none }, lastCollect := 0, bridges := fun _ => none, seizeTo := 0, seizable := [], bal := fun _ _ => 0, world := () }

example : demo.cfg.enabled = true ∧ demo.cfg.remainder = 1000 ∧ demo.bal 2 0 = 700 ∧ demo.bridges 2 = some 1 := by
  decide +kernel

/-- Collecting token 2 three blocks later swaps it to USDC and then ASTRO, and distributes these 700 and 300 of the
1000. -/
example : okAnd (collect demoMarket 0 demo 300 53 [(2, none)]) (fun x => decide (x.2 = 1 ∧ x.1.cfg.remainder = 700 ∧
    x.1.bal 0 0 = 700 ∧ x.1.bal 0 4 = 100 ∧ x.1.bal 0 3 = 180 ∧ x.1.bal 0 2 = 720)) = true := by
  decide +kernel

/-! ## Distribution (C54) -/

/-- None of the configured receivers is the maker itself, and the dev fund is not paid in ASTRO. -/
structure Sane (me : A) (c : Cfg A I) : Prop where
  second : c.second.map (·.1) ≠ some me
  gov : c.gov ≠ some me
  staking : c.staking ≠ some me
  dev : ∀ d, c.dev = some d → d.asset ≠ c.astro

theorem distribute_paid {mk : Market P I} {me : A} {s s' : State P A I} {h n : Nat} {c' : Cfg A I}
    (hd : distribute mk me s h = .ok s') (ha : available s.cfg h (s.bal s.cfg.astro me) = .ok (c', some n))
    (hs : Sane me s.cfg) :
    ∃ p, split c' n = .ok p ∧ s'.cfg = c' ∧
      s'.bal s.cfg.astro me + (p.second + p.gov + p.dev + p.staking) = s.bal s.cfg.astro me ∧
      ∀ a, a ≠ me → s'.bal s.cfg.astro a = s.bal s.cfg.astro a
        + (if s.cfg.second.map (·.1) = some a then p.second else 0) + (if s.cfg.gov = some a then p.gov else 0)
        + (if s.cfg.staking = some a then p.staking else 0) := by
  obtain ⟨c'', am, ha', e, _, hsome⟩ := distribute_ok hd
  rw [ha] at ha'
  simp only [Except.ok.injEq, Prod.mk.injEq] at ha'
  obtain ⟨rfl, rfl⟩ := ha'
  obtain ⟨p, s1, s2, s3, hp, h1, h2, h3, h4⟩ := hsome n rfl
  have sm := available_same ha
  obtain ⟨q1, q2, q3, _, q5⟩ := split_ok hp
  obtain ⟨e1, _, l1, _, b1⟩ := payTo_ok h1
  obtain ⟨e2, _, l2, _, b2⟩ := payTo_ok h2
  obtain ⟨e3, h3'⟩ := payDev_ok h3
  obtain ⟨e4, _, l4, _, b4⟩ := payTo_ok h4
  have a1 : s1.cfg.astro = s.cfg.astro := by rw [e1.cfg]; exact sm.astro
  have a2 : s2.cfg.astro = s.cfg.astro := by rw [e2.cfg]; exact a1
  have a3 : s3.cfg.astro = s.cfg.astro := by rw [e3.cfg]; exact a2
  have c2 : s2.cfg = c' := by rw [e2.cfg, e1.cfg]
  simp only [sm.astro] at b1 l1
  rw [a1] at b2 l2
  rw [a3] at b4 l4
  rw [sm.second] at b1 l1
  rw [sm.gov] at b2 l2
  rw [sm.staking] at b4 l4
  rw [sm.second] at q1
  rw [sm.gov] at q2
  rw [sm.dev] at q3
  rw [sm.staking] at q5
  have hb3 : (∀ a, s3.bal s.cfg.astro a = if a = me then s2.bal s.cfg.astro a - p.dev else s2.bal s.cfg.astro a) ∧
      p.dev ≤ s2.bal s.cfg.astro me := by
    rcases h3' with rfl | ⟨d, out, w', hdv, hn, hle, _, _, _, _, hh, _, _⟩
    · rcases Nat.eq_zero_or_pos p.dev with hz | hz
      · rw [hz]; simp
      · exfalso
        rcases hdv : s.cfg.dev with _ | d
        · rw [hdv] at q3; simp only at q3; omega
        · unfold payDev at h3
          rw [c2, sm.dev, hdv] at h3
          simp only [if_neg (by omega : ¬ p.dev = 0)] at h3
          rw [bind_ok_iff] at h3
          obtain ⟨_, _, h3⟩ := h3
          rw [bind_ok_iff] at h3
          obtain ⟨s4, h4', h3⟩ := h3
          rw [bind_ok_iff] at h3
          obtain ⟨_, _, h3⟩ := h3
          rw [bind_ok_iff] at h3
          obtain ⟨l, hl, h3⟩ := h3
          rw [Except.ok.injEq] at h3
          obtain ⟨_, lx, out, _, _, mx⟩ := doSwap_ok h4'
          simp only at mx lx
          have hne : d.asset ≠ s.cfg.astro := hs.dev d hdv
          have := mx s.cfg.astro
          rw [sm.astro, if_pos rfl, if_neg hne.symm] at this
          have h5 : s3.bal s.cfg.astro me = s4.bal s.cfg.astro me := by
            conv_lhs => rw [← h3]
            simp only [Function.update_of_ne hne.symm]
          rw [sm.astro] at lx
          omega
    · rw [a2] at hh hle
      rw [c2, sm.dev] at hdv
      exact ⟨(hh (hs.dev d hdv).symm).1, hle⟩
  have z1 : s.cfg.second.map (·.1) = none → p.second = 0 := by
    intro hz
    rw [Option.map_eq_none_iff] at hz
    rw [hz] at q1; exact q1
  have z2 : s.cfg.gov = none → p.gov = 0 := by intro hz; rw [hz] at q2; exact q2
  have z4 : s.cfg.staking = none → p.staking = 0 := by intro hz; rw [hz] at q5; exact q5
  refine ⟨p, hp, e.cfg, ?_, ?_⟩
  · have m1 : s1.bal s.cfg.astro me + p.second = s.bal s.cfg.astro me := by
      have := b1 me
      by_cases hz : s.cfg.second.map (·.1) = none
      · rw [if_pos hz] at this; have := z1 hz; omega
      · rw [if_neg hz, if_pos rfl, if_neg hs.second] at this
        have := l1 hz; omega
    have m2 : s2.bal s.cfg.astro me + p.gov = s1.bal s.cfg.astro me := by
      have := b2 me
      by_cases hz : s.cfg.gov = none
      · rw [if_pos hz] at this; have := z2 hz; omega
      · rw [if_neg hz, if_pos rfl, if_neg hs.gov] at this
        have := l2 hz; omega
    have m3 := hb3.1 me
    rw [if_pos rfl] at m3
    have m4 : s'.bal s.cfg.astro me + p.staking = s3.bal s.cfg.astro me := by
      have := b4 me
      by_cases hz : s.cfg.staking = none
      · rw [if_pos hz] at this; have := z4 hz; omega
      · rw [if_neg hz, if_pos rfl, if_neg hs.staking] at this
        have := l4 hz; omega
    have := hb3.2
    omega
  · intro a hne
    have m1 : s1.bal s.cfg.astro a = s.bal s.cfg.astro a +
        (if s.cfg.second.map (·.1) = some a then p.second else 0) := by
      rw [b1 a]
      by_cases hz : s.cfg.second.map (·.1) = none
      · rw [if_pos hz, hz]; simp
      · rw [if_neg hz, if_neg hne]
    have m2 : s2.bal s.cfg.astro a = s1.bal s.cfg.astro a + (if s.cfg.gov = some a then p.gov else 0) := by
      rw [b2 a]
      by_cases hz : s.cfg.gov = none
      · rw [if_pos hz, hz]; simp
      · rw [if_neg hz, if_neg hne]
    have m3 := hb3.1 a
    rw [if_neg hne] at m3
    have m4 : s'.bal s.cfg.astro a = s3.bal s.cfg.astro a + (if s.cfg.staking = some a then p.staking else 0) := by
      rw [b4 a]
      by_cases hz : s.cfg.staking = none
      · rw [if_pos hz, hz]; simp
      · rw [if_neg hz, if_neg hne]
    omega

/-- Specification: the pre-upgrade ASTRO that becomes available at height `h`, at most what is left of it. -/
def released (c : Cfg A I) (h : Nat) : Nat := min ((h - c.lastBlock) * (c.preAmount / c.preBlocks)) c.remainder

/-- Specification: the shares of a distributed amount `x` as a user reads them from the configuration: the cut of the
second receiver, the governance percentage of the rest, the dev fund's share of the whole, and the rest. -/
def secondShare (c : Cfg A I) (x : Nat) : Nat := c.second.elim 0 fun r => x * r.2 / 100
/-- See `secondShare`. -/
def govShare (c : Cfg A I) (x : Nat) : Nat := c.gov.elim 0 fun _ => (x - secondShare c x) * c.govPct / 100
/-- See `secondShare`. -/
def devShare (c : Cfg A I) (x : Nat) : Nat := c.dev.elim 0 fun d => x * d.share / 10 ^ 18

/-- **C54, one distribution.**  With rewards enabled, let `x` be what is available: the whole ASTRO balance of the
maker without the pre-upgrade remainder, plus the released part of the remainder.  If a staking contract is configured
(or no dev fund), a distribution

* does nothing when there is a remainder and no block has passed since the last distribution (or there is no ASTRO);
* otherwise leaves the maker with exactly the rest of the pre-upgrade remainder: all of `x` is sent, nothing else, and
  every account other than the maker receives exactly its share. -/
theorem C54_sends_exactly_what_is_available_partial (mk : Market P I) (me : A) (s s' : State P A I) (h : Nat)
    (hd : distribute mk me s h = .ok s') (he : s.cfg.enabled = true) (hg : Good s.cfg) (hs : Sane me s.cfg)
    (hk : s.cfg.staking ≠ none ∨ s.cfg.dev = none) (hb : s.bal s.cfg.astro me ≠ 0) :
    (s.cfg.remainder ≠ 0 ∧ h = s.cfg.lastBlock ∧ s' = s) ∨
    ∃ x, x + s.cfg.remainder = s.bal s.cfg.astro me + released s.cfg h ∧
      s'.cfg.remainder + released s.cfg h = s.cfg.remainder ∧
      s'.bal s.cfg.astro me = s'.cfg.remainder ∧
      secondShare s.cfg x + govShare s.cfg x + devShare s.cfg x ≤ x ∧
      ∀ a, a ≠ me → s'.bal s.cfg.astro a = s.bal s.cfg.astro a
        + (if s.cfg.second.map (·.1) = some a then secondShare s.cfg x else 0)
        + (if s.cfg.gov = some a then govShare s.cfg x else 0)
        + (if s.cfg.staking = some a then x - (secondShare s.cfg x + govShare s.cfg x + devShare s.cfg x) else 0) := by
  obtain ⟨c', am, ha, e, hnone, _⟩ := distribute_ok hd
  have key : ∀ n, am = some n → n + c'.remainder = s.bal s.cfg.astro me →
      n + s.cfg.remainder = s.bal s.cfg.astro me + released s.cfg h →
      c'.remainder + released s.cfg h = s.cfg.remainder →
      ∃ x, x + s.cfg.remainder = s.bal s.cfg.astro me + released s.cfg h ∧
      s'.cfg.remainder + released s.cfg h = s.cfg.remainder ∧
      s'.bal s.cfg.astro me = s'.cfg.remainder ∧
      secondShare s.cfg x + govShare s.cfg x + devShare s.cfg x ≤ x ∧
      ∀ a, a ≠ me → s'.bal s.cfg.astro a = s.bal s.cfg.astro a
        + (if s.cfg.second.map (·.1) = some a then secondShare s.cfg x else 0)
        + (if s.cfg.gov = some a then govShare s.cfg x else 0)
        + (if s.cfg.staking = some a then x - (secondShare s.cfg x + govShare s.cfg x + devShare s.cfg x) else 0) := by
    rintro n rfl h1 h2 h3
    obtain ⟨p, hp, hc, hme, hoth⟩ := distribute_paid hd ha hs
    have sm := available_same ha
    obtain ⟨q1, q2, q3, q4, q5⟩ := split_ok hp
    have p1 : p.second = secondShare s.cfg n := by
      rw [q1, sm.second]; unfold secondShare
      rcases s.cfg.second with _ | ⟨a, cut⟩ <;> rfl
    have p2 : p.gov = govShare s.cfg n := by
      rw [q2, sm.gov, sm.govPct, p1]; unfold govShare
      rcases s.cfg.gov with _ | a <;> rfl
    have p3 : p.dev = devShare s.cfg n := by
      rw [q3, sm.dev]; unfold devShare
      rcases s.cfg.dev with _ | d <;> rfl
    rw [sm.staking] at q5
    have htot : p.second + p.gov + p.dev + p.staking = n := by
      rcases hst : s.cfg.staking with _ | a
      · rw [hst] at q5
        simp only at q5
        have hdv : s.cfg.dev = none := by
          rcases hk with hk | hk
          · exact absurd hst hk
          · exact hk
        obtain ⟨g1, g2⟩ := hg.all hst
        have q4' := q4 (by rw [sm.gov]; exact g1)
        rcases hgv : s.cfg.gov with _ | a
        · exact absurd hgv g1
        · rw [sm.gov, hgv, sm.govPct, g2] at q2
          simp only at q2
          rw [sm.dev, hdv] at q3
          simp only at q3
          omega
      · rw [hst] at q5
        exact q5
    refine ⟨n, h2, ?_, ?_, by omega, ?_⟩
    · rw [hc]; exact h3
    · rw [hc]; omega
    · intro a hne
      rw [hoth a hne, p1, p2]
      have : s.cfg.staking = some a →
          p.staking = n - (secondShare s.cfg n + govShare s.cfg n + devShare s.cfg n) := by intro _; omega
      by_cases h5 : s.cfg.staking = some a
      · rw [if_pos h5, if_pos h5, this h5]
      · rw [if_neg h5, if_neg h5]
  rcases available_ok ha with ⟨_, h0, _⟩ | ⟨_, _, hf, _⟩ | ⟨rfl, _, _, hr, hh, rfl⟩ | ⟨rfl, _, _, hr, rfl⟩ |
    ⟨_, _, hr, hlt, hle, rfl, rfl⟩
  · exact absurd h0 hb
  · rw [he] at hf; exact absurd hf (by simp)
  · exact Or.inl ⟨hr, hh, hnone rfl⟩
  · have hz : released s.cfg h = 0 := by unfold released; omega
    refine Or.inr (key _ rfl ?_ ?_ ?_) <;> omega
  · have hz : released s.cfg h ≤ s.cfg.remainder := by unfold released; omega
    refine Or.inr (key _ rfl ?_ ?_ ?_)
    · simp only; unfold released at hz; omega
    · unfold released at hz ⊢; omega
    · simp only; unfold released at hz ⊢; omega

example : okAnd (distribute demoMarket 0 demo 53) (fun s' => decide (s'.cfg.remainder = 700 ∧ s'.bal 0 0 = 700 ∧
    s'.bal 0 4 = 30 ∧ s'.bal 0 3 = 54 ∧ s'.bal 0 2 = 216)) = true ∧ demo.cfg.staking ≠ none := by
  decide +kernel

/-- **C54 fails with a dev fund and no staking contract.**  The configuration (created with governance 100% and no
staking contract, then a dev fund of 50% added by the owner) is accepted; a distribution of 300 released ASTRO sends
out 450 of them: 300 to governance and 150 to the dev fund, the latter taken from the pre-upgrade remainder.  The
maker is left with less ASTRO than the remainder it has promised, and the next distribution fails. -/
def overpayStart : Res (State Unit Nat Nat) :=
  create 1 none (some 3) (some 100) none 0 none none none 100 0 (fun i a => if i = 0 ∧ a = 0 then 1000 else 0) ()

/-- See `C54_overpays_violated`. -/
def overpayOps : List (Op Unit Nat Nat) :=
  [.collect 200 40 [], .enable 1 50 10, .update 1 { dev := some (some ⟨5, 5 * 10 ^ 17, 1⟩) }]

theorem C54_overpays_violated :
    okAnd overpayStart (fun s =>
      let s := run demoMarket 0 s overpayOps
      okAnd (distribute demoMarket 0 s 53) fun s' =>
        decide (s.bal 0 0 = 1000 ∧ released s.cfg 53 = 300 ∧ s'.cfg.remainder = 700 ∧ s'.bal 0 0 = 550 ∧
          s'.bal 0 3 = 300 ∧ s'.bal 1 5 = 150) && fails (distribute demoMarket 0 s' 54)) = true := by
  decide +kernel

/-- **C54, before rewards are enabled.**  Nothing is sent, and the remainder is set to the whole balance. -/
theorem C54_nothing_before_enabling (mk : Market P I) (me : A) (s s' : State P A I) (h : Nat)
    (hd : distribute mk me s h = .ok s') (he : s.cfg.enabled = false) :
    s'.bal = s.bal ∧ (s.bal s.cfg.astro me ≠ 0 → s'.cfg.remainder = s.bal s.cfg.astro me ∧
      s'.cfg.preAmount = s.bal s.cfg.astro me) := by
  obtain ⟨c', am, ha, e, hnone, _⟩ := distribute_ok hd
  rcases available_ok ha with ⟨rfl, h0, rfl⟩ | ⟨rfl, _, hf, rfl⟩ | ⟨_, _, hf, _⟩ | ⟨_, _, hf, _⟩ | ⟨_, hf, _⟩
  · rw [hnone rfl]; exact ⟨rfl, fun h => absurd h0 h⟩
  · rw [hnone rfl]; exact ⟨rfl, fun _ => ⟨rfl, rfl⟩⟩
  all_goals (rw [he] at hf; exact absurd hf (by simp))

example : okAnd demoStart (fun s => okAnd (distribute demoMarket 0 s 10) fun s' =>
    decide (s'.cfg.remainder = 1000 ∧ s'.bal 0 0 = 1000)) = true := by decide +kernel

omit [DecidableEq A] [DecidableEq I] in
theorem updateConfig_keeps {mk : Market P I} {w : P} {c0 c : Cfg A I} {u : Update A I}
    (hc : updateConfig mk w c0 u = .ok c) :
    c.enabled = c0.enabled ∧ c.preAmount = c0.preAmount ∧ c.preBlocks = c0.preBlocks ∧ c.lastBlock = c0.lastBlock ∧
      c.remainder = c0.remainder := by
  unfold updateConfig at hc
  rw [bind_ok_iff] at hc
  obtain ⟨c2, h2, hc⟩ := hc
  rw [bind_ok_iff] at hc
  obtain ⟨c3, h3, hc⟩ := hc
  rw [bind_ok_iff] at hc
  obtain ⟨c4, h4, hc⟩ := hc
  rw [bind_ok_iff] at hc
  obtain ⟨c5, h5, hc⟩ := hc
  rw [bind_ok_iff] at hc
  obtain ⟨c6, h6, hc⟩ := hc
  have e1 : ∀ c o, let c' : Cfg A I := setStaking c o; c'.enabled = c.enabled ∧ c'.preAmount = c.preAmount ∧
      c'.preBlocks = c.preBlocks ∧ c'.lastBlock = c.lastBlock ∧ c'.remainder = c.remainder := by
    intro c o; cases o <;> exact ⟨rfl, rfl, rfl, rfl, rfl⟩
  have eb : ∀ c o, let c' : Cfg A I := setBridge c o; c'.enabled = c.enabled ∧ c'.preAmount = c.preAmount ∧
      c'.preBlocks = c.preBlocks ∧ c'.lastBlock = c.lastBlock ∧ c'.remainder = c.remainder := by
    intro c o; cases o <;> exact ⟨rfl, rfl, rfl, rfl, rfl⟩
  have ea : ∀ c o, let c' : Cfg A I := setAstro c o; c'.enabled = c.enabled ∧ c'.preAmount = c.preAmount ∧
      c'.preBlocks = c.preBlocks ∧ c'.lastBlock = c.lastBlock ∧ c'.remainder = c.remainder := by
    intro c o; cases o <;> exact ⟨rfl, rfl, rfl, rfl, rfl⟩
  have e2 : c2.enabled = (setStaking c0 u.staking).enabled ∧ c2.preAmount = (setStaking c0 u.staking).preAmount ∧
      c2.preBlocks = (setStaking c0 u.staking).preBlocks ∧ c2.lastBlock = (setStaking c0 u.staking).lastBlock ∧
      c2.remainder = (setStaking c0 u.staking).remainder := by
    unfold updateGov at h2
    split at h2
    · simp only [Except.ok.injEq] at h2; subst h2; exact ⟨rfl, rfl, rfl, rfl, rfl⟩
    · simp only [Except.ok.injEq] at h2; subst h2; exact ⟨rfl, rfl, rfl, rfl, rfl⟩
    · simp only [bind_ok_iff, require_ok, exists_const, Except.ok.injEq] at h2
      obtain ⟨_, rfl⟩ := h2; exact ⟨rfl, rfl, rfl, rfl, rfl⟩
  have e3 : c3.enabled = c2.enabled ∧ c3.preAmount = c2.preAmount ∧ c3.preBlocks = c2.preBlocks ∧
      c3.lastBlock = c2.lastBlock ∧ c3.remainder = c2.remainder := by
    unfold updatePct at h3
    split at h3
    · simp only [Except.ok.injEq] at h3; subst h3; exact ⟨rfl, rfl, rfl, rfl, rfl⟩
    · simp only [bind_ok_iff, require_ok, exists_const, Except.ok.injEq] at h3
      obtain ⟨_, _, rfl⟩ := h3; exact ⟨rfl, rfl, rfl, rfl, rfl⟩
  have e4 : c4.enabled = (setBridge c3 u.defaultBridge).enabled ∧
      c4.preAmount = (setBridge c3 u.defaultBridge).preAmount ∧
      c4.preBlocks = (setBridge c3 u.defaultBridge).preBlocks ∧
      c4.lastBlock = (setBridge c3 u.defaultBridge).lastBlock ∧
      c4.remainder = (setBridge c3 u.defaultBridge).remainder := by
    unfold updateSpread at h4
    split at h4
    · simp only [Except.ok.injEq] at h4; subst h4; exact ⟨rfl, rfl, rfl, rfl, rfl⟩
    · rw [bind_ok_iff] at h4
      obtain ⟨_, _, h4⟩ := h4
      rw [Except.ok.injEq] at h4
      subst h4; exact ⟨rfl, rfl, rfl, rfl, rfl⟩
  have e5 : c5.enabled = c4.enabled ∧ c5.preAmount = c4.preAmount ∧ c5.preBlocks = c4.preBlocks ∧
      c5.lastBlock = c4.lastBlock ∧ c5.remainder = c4.remainder := by
    rcases updateSecond_ok h5 with ⟨_, rfl⟩ | ⟨_, _, _, _, _, rfl⟩ <;> exact ⟨rfl, rfl, rfl, rfl, rfl⟩
  have e6 : c6.enabled = c5.enabled ∧ c6.preAmount = c5.preAmount ∧ c6.preBlocks = c5.preBlocks ∧
      c6.lastBlock = c5.lastBlock ∧ c6.remainder = c5.remainder := by
    unfold updateCooldown at h6
    split at h6
    · simp only [Except.ok.injEq] at h6; subst h6; exact ⟨rfl, rfl, rfl, rfl, rfl⟩
    · rw [bind_ok_iff] at h6
      obtain ⟨_, _, h6⟩ := h6
      rw [Except.ok.injEq] at h6
      subst h6; exact ⟨rfl, rfl, rfl, rfl, rfl⟩
  have e7 : c.enabled = (setAstro c6 u.astro).enabled ∧ c.preAmount = (setAstro c6 u.astro).preAmount ∧
      c.preBlocks = (setAstro c6 u.astro).preBlocks ∧ c.lastBlock = (setAstro c6 u.astro).lastBlock ∧
      c.remainder = (setAstro c6 u.astro).remainder := by
    unfold updateDev at hc
    split at hc
    · simp only [Except.ok.injEq] at hc; subst hc; exact ⟨rfl, rfl, rfl, rfl, rfl⟩
    · simp only [Except.ok.injEq] at hc; subst hc; exact ⟨rfl, rfl, rfl, rfl, rfl⟩
    · simp only [bind_ok_iff, require_ok, exists_const, Except.ok.injEq] at hc
      obtain ⟨_, _, rfl⟩ := hc; exact ⟨rfl, rfl, rfl, rfl, rfl⟩
  have f1 := e1 c0 u.staking
  have f2 := eb c3 u.defaultBridge
  have f3 := ea c6 u.astro
  simp only at f1 f2 f3
  refine ⟨?_, ?_, ?_, ?_, ?_⟩
  · rw [e7.1, f3.1, e6.1, e5.1, e4.1, f2.1, e3.1, e2.1, f1.1]
  · rw [e7.2.1, f3.2.1, e6.2.1, e5.2.1, e4.2.1, f2.2.1, e3.2.1, e2.2.1, f1.2.1]
  · rw [e7.2.2.1, f3.2.2.1, e6.2.2.1, e5.2.2.1, e4.2.2.1, f2.2.2.1, e3.2.2.1, e2.2.2.1, f1.2.2.1]
  · rw [e7.2.2.2.1, f3.2.2.2.1, e6.2.2.2.1, e5.2.2.2.1, e4.2.2.2.1, f2.2.2.2.1, e3.2.2.2.1, e2.2.2.2.1, f1.2.2.2.1]
  · rw [e7.2.2.2.2, f3.2.2.2.2, e6.2.2.2.2, e5.2.2.2.2, e4.2.2.2.2, f2.2.2.2.2, e3.2.2.2.2, e2.2.2.2.2, f1.2.2.2.2]

theorem exec_remainder {mk : Market P I} {me : A} {s s' : State P A I} {o : Op P A I}
    (h : exec mk me s o = .ok s') (he : s.cfg.enabled = true) :
    s'.cfg.enabled = true ∧ s'.cfg.preAmount = s.cfg.preAmount ∧ s'.cfg.preBlocks = s.cfg.preBlocks ∧
      s.cfg.lastBlock ≤ s'.cfg.lastBlock ∧
      s'.cfg.remainder = s.cfg.remainder - (s'.cfg.lastBlock - s.cfg.lastBlock) *
        (s.cfg.preAmount / s.cfg.preBlocks) := by
  have triv : ∀ c : Cfg A I, c.enabled = s.cfg.enabled → c.preAmount = s.cfg.preAmount →
      c.preBlocks = s.cfg.preBlocks → c.lastBlock = s.cfg.lastBlock → c.remainder = s.cfg.remainder →
      c.enabled = true ∧ c.preAmount = s.cfg.preAmount ∧ c.preBlocks = s.cfg.preBlocks ∧
      s.cfg.lastBlock ≤ c.lastBlock ∧
      c.remainder = s.cfg.remainder - (c.lastBlock - s.cfg.lastBlock) * (s.cfg.preAmount / s.cfg.preBlocks) := by
    intro c h1 h2 h3 h4 h5
    refine ⟨h1.trans he, h2, h3, h4.ge, ?_⟩
    rw [h4, h5]; simp
  cases o with
  | collect now hh as =>
    simp only [exec] at h
    rw [bind_ok_iff] at h
    obtain ⟨⟨s1, k⟩, h1, h⟩ := h
    simp only [Except.ok.injEq] at h
    subst h
    obtain ⟨_, _, s2, e2, _, _, hd⟩ := collect_ok h1
    obtain ⟨c', am, ha, e, _⟩ := distribute_ok hd
    rw [e.cfg]
    have c2 : s2.cfg = s.cfg := e2.cfg
    rw [c2] at ha
    simp only
    rcases available_ok ha with ⟨_, _, rfl⟩ | ⟨_, _, hf, _⟩ | ⟨_, _, _, _, _, rfl⟩ | ⟨_, _, _, _, rfl⟩ |
      ⟨_, _, _, hlt, _, _, rfl⟩
    · exact triv _ rfl rfl rfl rfl rfl
    · rw [he] at hf; exact absurd hf (by simp)
    · exact triv _ rfl rfl rfl rfl rfl
    · exact triv _ rfl rfl rfl rfl rfl
    · refine ⟨he, rfl, rfl, hlt.le, ?_⟩
      simp only
      omega
  | update sender u =>
    simp only [exec, bind_ok_iff, require_ok, exists_const, Except.ok.injEq] at h
    obtain ⟨_, c, hc, h⟩ := h
    subst h
    obtain ⟨k1, k2, k3, k4, k5⟩ := updateConfig_keeps hc
    exact triv c k1 k2 k3 k4 k5
  | bridges sender add rem =>
    simp only [exec, updateBridges, bind_ok_iff, require_ok, exists_const, Except.ok.injEq] at h
    obtain ⟨_, c, hc, h⟩ := h
    subst h
    exact triv _ rfl rfl rfl rfl rfl
  | enable sender height blocks =>
    simp only [exec, bind_ok_iff, require_ok, exists_const, Except.ok.injEq] at h
    obtain ⟨_, hf, _, h⟩ := h
    rw [he] at hf; exact absurd hf (by simp)
  | seize as =>
    simp only [exec, seize, bind_ok_iff, require_ok, exists_const] at h
    obtain ⟨_, _, _, h⟩ := h
    rw [(doSeize_ok h).1.cfg]
    exact triv _ rfl rfl rfl rfl rfl
  | updateSeize sender dst as =>
    simp only [exec, bind_ok_iff, require_ok, exists_const, Except.ok.injEq] at h
    obtain ⟨_, h⟩ := h
    subst h
    exact triv _ rfl rfl rfl rfl rfl
  | send i a b n =>
    simp only [exec, bind_ok_iff, require_ok, exists_const, Except.ok.injEq] at h
    obtain ⟨_, l, _, h⟩ := h
    subst h
    exact triv _ rfl rfl rfl rfl rfl
  | world w =>
    simp only [exec, Except.ok.injEq] at h
    subst h
    exact triv _ rfl rfl rfl rfl rfl

theorem run_remainder {mk : Market P I} {me : A} (os : List (Op P A I)) {s : State P A I}
    (he : s.cfg.enabled = true) :
    let c := (run mk me s os).cfg
    c.enabled = true ∧ c.preAmount = s.cfg.preAmount ∧ c.preBlocks = s.cfg.preBlocks ∧
      s.cfg.lastBlock ≤ c.lastBlock ∧
      c.remainder = s.cfg.remainder - (c.lastBlock - s.cfg.lastBlock) * (s.cfg.preAmount / s.cfg.preBlocks) := by
  induction os generalizing s with
  | nil => simp [run, he]
  | cons o rest ih =>
    have hrun : run mk me s (o :: rest) = run mk me (commit' s (exec mk me s o)) rest := rfl
    rw [hrun]
    cases hx : exec mk me s o with
    | error e => exact ih he
    | ok s1 =>
      obtain ⟨h1, h2, h3, h4, h5⟩ := exec_remainder hx he
      obtain ⟨g1, g2, g3, g4, g5⟩ := ih h1
      refine ⟨g1, g2.trans h2, g3.trans h3, le_trans h4 g4, ?_⟩
      show (run mk me s1 rest).cfg.remainder = s.cfg.remainder - ((run mk me s1 rest).cfg.lastBlock - s.cfg.lastBlock) * _
      rw [g5, h5, h2, h3]
      generalize s.cfg.preAmount / s.cfg.preBlocks = q
      generalize (run mk me s1 rest).cfg.lastBlock = z at g4 ⊢
      rw [Nat.sub_sub, ← Nat.add_mul]
      congr 2
      omega

/-- **C54 / C95, the remainder.**  After rewards are enabled (state `s`, at height `h0 = s.cfg.lastBlock`), whatever
transactions follow, the pre-upgrade remainder is what it was minus one portion (the pre-upgrade amount divided by the
number of blocks) for every block up to the last distribution; so it only decreases, and what has been released of it
in total is never more than it was. -/
theorem C54_remainder_only_decreases (mk : Market P I) (me : A) (s : State P A I) (os : List (Op P A I))
    (he : s.cfg.enabled = true) :
    let s' := run mk me s os
    s'.cfg.remainder = s.cfg.remainder - (s'.cfg.lastBlock - s.cfg.lastBlock) * (s.cfg.preAmount / s.cfg.preBlocks) ∧
      s.cfg.lastBlock ≤ s'.cfg.lastBlock ∧ s'.cfg.remainder ≤ s.cfg.remainder := by
  obtain ⟨_, _, _, h1, h2⟩ := run_remainder (mk := mk) (me := me) os he
  refine ⟨h2, h1, ?_⟩
  rw [h2]
  exact Nat.sub_le _ _

example : (run demoMarket 0 demo [.collect 300 53 [(2, none)], .collect 400 58 [], .collect 500 70 []]).cfg.remainder
    = 0 ∧ (run demoMarket 0 demo [.collect 300 53 [(2, none)], .collect 400 58 []]).cfg.remainder = 200 := by
  decide +kernel

end Verif.Maker
