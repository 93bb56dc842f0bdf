import Verif.Maker.More

/-!
# The maker's settings and what seizing takes (C93)
-/

namespace Verif.Maker

variable {P A I : Type} [DecidableEq A] [DecidableEq I]

/-- The spread is usable. -/
def SpreadOk (c : Cfg A I) : Prop := 0 < c.maxSpread ∧ c.maxSpread ≤ 5 * 10 ^ 17

theorem checkSpread_ok {m : Nat} {u : Unit} (h : checkSpread m = .ok u) : 0 < m ∧ m ≤ 5 * 10 ^ 17 := by
  have h := (require_ok _ _ _).1 h
  unfold MAX_SPREAD at h
  omega

omit [DecidableEq A] [DecidableEq I] in
theorem updateConfig_spread {mk : Market P I} {w : P} {c c' : Cfg A I} {u : Update A I}
    (h : updateConfig mk w c u = .ok c') (hs : SpreadOk c) : SpreadOk c' := by
  unfold updateConfig at h
  rw [bind_ok_iff] at h
  obtain ⟨c2, h2, h⟩ := h
  rw [bind_ok_iff] at h
  obtain ⟨c3, h3, h⟩ := h
  rw [bind_ok_iff] at h
  obtain ⟨c4, h4, h⟩ := h
  rw [bind_ok_iff] at h
  obtain ⟨c5, h5, h⟩ := h
  rw [bind_ok_iff] at h
  obtain ⟨c6, h6, h⟩ := h
  have e1 : (setStaking c u.staking).maxSpread = c.maxSpread := by cases u.staking <;> rfl
  have e2 : c2.maxSpread = (setStaking c u.staking).maxSpread := by
    unfold updateGov at h2
    split at h2
    · simp only [Except.ok.injEq] at h2; subst h2; rfl
    · simp only [Except.ok.injEq] at h2; subst h2; rfl
    · simp only [bind_ok_iff, require_ok, exists_const, Except.ok.injEq] at h2
      obtain ⟨_, rfl⟩ := h2; rfl
  have e3 : c3.maxSpread = c2.maxSpread := by
    unfold updatePct at h3
    split at h3
    · simp only [Except.ok.injEq] at h3; subst h3; rfl
    · simp only [bind_ok_iff, require_ok, exists_const, Except.ok.injEq] at h3
      obtain ⟨_, _, rfl⟩ := h3; rfl
  have eb : (setBridge c3 u.defaultBridge).maxSpread = c3.maxSpread := by cases u.defaultBridge <;> rfl
  have h4' : SpreadOk c4 := by
    unfold updateSpread at h4
    split at h4
    · simp only [Except.ok.injEq] at h4; subst h4
      unfold SpreadOk
      rw [eb, e3, e2, e1]
      exact hs
    · rw [bind_ok_iff] at h4
      obtain ⟨_, hm, h4⟩ := h4
      rw [Except.ok.injEq] at h4
      subst h4
      exact checkSpread_ok hm
  have e5 : c5.maxSpread = c4.maxSpread := by
    rcases updateSecond_ok h5 with ⟨_, rfl⟩ | ⟨_, _, _, _, _, rfl⟩ <;> rfl
  have e6 : c6.maxSpread = c5.maxSpread := by
    unfold updateCooldown at h6
    split at h6
    · simp only [Except.ok.injEq] at h6; subst h6; rfl
    · rw [bind_ok_iff] at h6
      obtain ⟨_, _, h6⟩ := h6
      rw [Except.ok.injEq] at h6
      subst h6; rfl
  have ea : (setAstro c6 u.astro).maxSpread = c6.maxSpread := by cases u.astro <;> rfl
  have e7 : c'.maxSpread = (setAstro c6 u.astro).maxSpread := by
    unfold updateDev at h
    split at h
    · simp only [Except.ok.injEq] at h; subst h; rfl
    · simp only [Except.ok.injEq] at h; subst h; rfl
    · simp only [bind_ok_iff, require_ok, exists_const, Except.ok.injEq] at h
      obtain ⟨_, _, rfl⟩ := h; rfl
  unfold SpreadOk
  rw [e7, ea, e6, e5]
  exact h4'

theorem exec_spread {mk : Market P I} {me : A} {s s' : State P A I} {o : Op P A I} (h : exec mk me s o = .ok s')
    (hg : SpreadOk s.cfg) : SpreadOk s'.cfg := by
  cases o with
  | collect now hh as =>
    simp only [exec] at h
    rw [bind_ok_iff] at h
    obtain ⟨⟨s1, k⟩, h1, h⟩ := h
    simp only [Except.ok.injEq] at h
    subst h
    obtain ⟨_, _, s2, e2, _, _, hd⟩ := collect_ok h1
    obtain ⟨c', am, ha, e, _⟩ := distribute_ok hd
    unfold SpreadOk
    rw [e.cfg, (available_same ha).maxSpread, e2.cfg]
    exact hg
  | update sender u =>
    simp only [exec, bind_ok_iff, require_ok, exists_const, Except.ok.injEq] at h
    obtain ⟨_, c, hc, h⟩ := h
    subst h
    exact updateConfig_spread hc hg
  | bridges sender add rem =>
    simp only [exec, updateBridges, bind_ok_iff, require_ok, exists_const, Except.ok.injEq] at h
    obtain ⟨_, c, hc, h⟩ := h
    subst h
    exact hg
  | enable sender height blocks =>
    simp only [exec, bind_ok_iff, require_ok, exists_const, Except.ok.injEq] at h
    obtain ⟨_, he, hb, h⟩ := h
    subst h
    exact hg
  | seize as =>
    simp only [exec, seize, bind_ok_iff, require_ok, exists_const] at h
    obtain ⟨_, _, _, h⟩ := h
    rw [(doSeize_ok h).1.cfg]
    exact hg
  | updateSeize sender dst as =>
    simp only [exec, bind_ok_iff, require_ok, exists_const, Except.ok.injEq] at h
    obtain ⟨_, h⟩ := h
    subst h
    exact hg
  | send i a b n =>
    simp only [exec, bind_ok_iff, require_ok, exists_const, Except.ok.injEq] at h
    obtain ⟨_, l, _, h⟩ := h
    subst h
    exact hg
  | world w =>
    simp only [exec, Except.ok.injEq] at h
    subst h
    exact hg

/-- **C93, settings.**  From the creation of a maker on, whatever happens: at most 100% go to governance, all of it if
there is no staking contract, in which case there is a governance contract; the second receiver's cut is 1 to 50%; the
cooldown is 30 to 600 seconds; the dev fund's share is above 0 and at most 1; the allowed spread is above 0 and at most
50%. -/
theorem C93_settings_in_range (mk : Market P I) (me owner : A) (staking gov : Option A) (govPct maxSpread : Option Nat)
    (astro : I) (db : Option I) (second : Option (A × Nat)) (cd : Option Nat) (now : Nat) (nobody : A)
    (bal : I → A → Nat) (w : P) (s : State P A I)
    (hc : create owner staking gov govPct maxSpread astro db second cd now nobody bal w = .ok s)
    (os : List (Op P A I)) :
    let c := (run mk me s os).cfg
    c.govPct ≤ 100 ∧ (c.staking = none → c.gov ≠ none ∧ c.govPct = 100) ∧
      (∀ a n, c.second = some (a, n) → 0 < n ∧ n ≤ 50) ∧ (∀ n, c.cooldown = some n → 30 ≤ n ∧ n ≤ 600) ∧
      (∀ d, c.dev = some d → 0 < d.share ∧ d.share ≤ 10 ^ 18) ∧
      0 < c.maxSpread ∧ c.maxSpread ≤ 10 ^ 18 / 2 := by
  intro c
  have hg : Good c := config_good os (create_good hc).1
  have hs : SpreadOk c := by
    have h0 : SpreadOk s.cfg := by
      unfold create at hc
      rw [bind_ok_iff] at hc
      obtain ⟨_, _, hc⟩ := hc
      rw [bind_ok_iff] at hc
      obtain ⟨_, _, hc⟩ := hc
      rw [bind_ok_iff] at hc
      obtain ⟨_, h3, hc⟩ := hc
      rw [bind_ok_iff] at hc
      obtain ⟨_, _, hc⟩ := hc
      rw [bind_ok_iff] at hc
      obtain ⟨c, h5, hc⟩ := hc
      rw [bind_ok_iff] at hc
      obtain ⟨_, _, hc⟩ := hc
      rw [Except.ok.injEq] at hc
      subst hc
      have := checkSpread_ok h3
      rcases updateSecond_ok h5 with ⟨_, rfl⟩ | ⟨_, _, _, _, _, rfl⟩ <;> exact this
    clear hg hc
    revert h0
    change SpreadOk s.cfg → SpreadOk (run mk me s os).cfg
    generalize s = s
    induction os generalizing s with
    | nil => exact id
    | cons o os ih => exact fun h => ih _ (commit'_inv (fun s => SpreadOk s.cfg) h fun s' hx => exec_spread hx h)
  exact ⟨hg.pct, hg.all, hg.cut, hg.cool, hg.share, hs.1, hs.2⟩

/-! ## Seizing -/

/-- What a request to seize asks for of the asset `i`, given the maker's balance `b` of it: for each mention the limit,
but at most the balance. -/
def asked (i : I) (b : Nat) (as : List (I × Option Nat)) : Nat :=
  ((as.filter fun a => a.1 = i).map fun a => min (a.2.getD b) b).sum

theorem doSeize_exact {me : A} {ms : List (I × Nat)} {s s' : State P A I} (hne : s.seizeTo ≠ me)
    (h : doSeize me s ms = .ok s') (i : I) :
    s.bal i me = s'.bal i me + ((ms.filter fun m => m.1 = i).map (·.2)).sum ∧
      s'.bal i s.seizeTo = s.bal i s.seizeTo + ((ms.filter fun m => m.1 = i).map (·.2)).sum := by
  induction ms generalizing s with
  | nil =>
    simp only [doSeize, Except.ok.injEq] at h
    subst h
    simp
  | cons m rest ih =>
    obtain ⟨j, n⟩ := m
    unfold doSeize at h
    rw [bind_ok_iff] at h
    obtain ⟨l, hl, h⟩ := h
    obtain ⟨h1, h2⟩ := ih (by exact hne) h
    simp only at h1 h2
    by_cases hj : j = i
    · subst hj
      have a1 := move_apply hl me
      have a2 := move_apply hl s.seizeTo
      have a3 := move_le hl
      rw [Function.update_self] at h1 h2
      simp only [decide_true, List.filter_cons_of_pos, List.map_cons, List.sum_cons]
      simp only [if_neg hne, if_neg hne.symm, if_true] at a1 a2
      omega
    · rw [Function.update_of_ne (fun e => hj e.symm)] at h1 h2
      rw [List.filter_cons_of_neg (by simpa using hj)]
      exact ⟨h1, h2⟩

omit [DecidableEq A] in
theorem seizeAmounts_sum (me : A) (s : State P A I) (i : I) (as : List (I × Option Nat)) :
    (((seizeAmounts me s as).filter fun m => m.1 = i).map (·.2)).sum = asked i (s.bal i me) as := by
  unfold seizeAmounts asked
  induction as with
  | nil => rfl
  | cons a as ih =>
    obtain ⟨j, o⟩ := a
    by_cases hj : j = i
    · subst hj
      rw [List.filter_cons_of_pos (p := fun a : I × Option Nat => decide (a.1 = j)) (by simp)]
      rw [List.map_cons, List.map_cons, List.sum_cons, ← ih]
      cases o with
      | none =>
        simp only [Option.getD_none, min_self]
        by_cases h0 : s.bal j me = 0
        · rw [List.filter_cons_of_neg (by simp [h0])]
          omega
        · rw [List.filter_cons_of_pos (by simp [h0]), List.filter_cons_of_pos (by simp), List.map_cons, List.sum_cons]
      | some l =>
        simp only [Option.getD_some]
        by_cases h0 : min l (s.bal j me) = 0
        · rw [List.filter_cons_of_neg (by simp only [ne_eq, h0, not_true_eq_false, decide_false, Bool.false_eq_true, not_false_iff]), h0, Nat.zero_add]
        · rw [List.filter_cons_of_pos (by simpa using h0), List.filter_cons_of_pos (by simp), List.map_cons,
            List.sum_cons]
    · rw [List.filter_cons_of_neg (p := fun a : I × Option Nat => decide (a.1 = i)) (by simpa using hj), ← ih,
        List.map_cons]
      rw [List.filter_cons]
      cases o <;> simp only <;> split <;> first | rfl | rw [List.filter_cons_of_neg (by simpa using hj)]

/-- **C93, seize.**  Seizing moves exactly what is asked for of each asset, never above the stated limit: it leaves the
maker and arrives at the receiver. -/
theorem C93_seize_takes_what_is_asked (mk : Market P I) (me : A) (s s' : State P A I) (as : List (I × Option Nat))
    (hne : s.seizeTo ≠ me) (h : exec mk me s (.seize as) = .ok s') (i : I) :
    s.bal i me = s'.bal i me + asked i (s.bal i me) as ∧
      s'.bal i s.seizeTo = s.bal i s.seizeTo + asked i (s.bal i me) as := by
  simp only [exec, seize, bind_ok_iff, require_ok, exists_const] at h
  obtain ⟨_, _, _, h⟩ := h
  rw [← seizeAmounts_sum]
  exact doSeize_exact hne h i

example : okAnd (exec demoMarket 0 demo (.updateSeize 1 (some 6) [2])) (fun s =>
    decide (asked 2 (s.bal 2 0) [(2, some 300), (2, some 100)] = 400) &&
    okAnd (exec demoMarket 0 s (.seize [(2, some 300), (2, some 100)])) fun s =>
      decide (s.bal 2 6 = 400 ∧ s.bal 2 0 = 300)) = true := by
  decide +kernel

example : okAnd (create (P := Unit) (A := Fin 7) (I := Fin 5) 1 (some 2) (some 3) (some 40) none 0 none (some (4, 20))
    (some 60) 100 6 (fun _ _ => 0) ()) (fun s => decide (s.cfg.govPct = 40 ∧ s.cfg.maxSpread = 5 * 10 ^ 16)) = true := by
  decide +kernel

end Verif.Maker
