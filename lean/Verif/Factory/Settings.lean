import Verif.Factory.Props

/-!
# What changes of the factory's settings do (C38)
-/

namespace Verif.Factory

open Verif
open Verif.Asset

variable {A : Type} [DecidableEq A]

/-- Specification: the settings after a change: a given value replaces the old one, the others and the tracker's
configuration stay. -/
def merged (c : Config A) (u : Update A) : Config A where
  tokenCodeId := u.tokenCodeId.getD c.tokenCodeId
  feeAddress := u.feeAddress.or c.feeAddress
  generator := u.generator.or c.generator
  whitelistCodeId := u.whitelistCodeId.getD c.whitelistCodeId
  registry := u.registry.getD c.registry
  tracker := c.tracker

/-- **C38.**  A change of the general settings is the owner's, always succeeds then, and changes exactly the named
settings. -/
theorem C38_settings_exact (s s' : State A) (x : A) (u : Update A) :
    updateConfig s x u = .ok s' ↔ x = s.own.owner ∧ s' = ⟨s.own, merged s.config u, s.pairConfigs, s.pairs⟩ := by
  simp only [updateConfig, bind_ok_iff, require_ok, exists_const, Except.ok.injEq]
  refine and_congr_right fun _ => ?_
  have e : (⟨s.own, merged s.config u, s.pairConfigs, s.pairs⟩ : State A) = { s with config := merged s.config u } := rfl
  rw [e, eq_comm]
  obtain ⟨a, b, c, d, f⟩ := u
  cases a <;> cases b <;> cases c <;> cases d <;> cases f <;> rfl

/-- **C38.**  Setting the tracker: the owner's; the address is needed (and taken) the first time only, later the code alone
is replaced; nothing else changes. -/
theorem C38_tracker_exact (s s' : State A) (x : A) (code : Nat) (tf : Option A) :
    updateTracker s x code tf = .ok s' ↔ x = s.own.owner ∧
      ∃ a, s' = { s with config := { s.config with tracker := some (code, a) } } ∧
        ((∃ old, queryTracker s = .ok (old, a)) ∨ (fails (queryTracker s) = true ∧ tf = some a)) := by
  simp only [updateTracker, bind_ok_iff, require_ok, exists_const]
  refine and_congr_right fun _ => ?_
  cases h : s.config.tracker with
  | some t =>
    obtain ⟨o, a⟩ := t
    simp only [Except.ok.injEq, queryTracker, h, orErr]
    constructor
    · rintro rfl; exact ⟨a, rfl, Or.inl ⟨o, rfl⟩⟩
    · rintro ⟨b, rfl, ⟨old, hb⟩ | ⟨hb, _⟩⟩
      · simp only [Prod.mk.injEq] at hb; rw [hb.2]
      · simp [fails] at hb
  | none =>
    simp only [bind_ok_iff, orErr_ok, Except.ok.injEq, queryTracker, h]
    constructor
    · rintro ⟨a, rfl, rfl⟩; exact ⟨a, rfl, Or.inr ⟨rfl, rfl⟩⟩
    · rintro ⟨b, rfl, ⟨old, hb⟩ | ⟨_, hb⟩⟩
      · simp at hb
      · exact ⟨b, hb, rfl⟩

/-- **C38.**  Setting a pair type: the owner's, with fees of at most 100 %; afterwards exactly this type has this
configuration, the other types and everything else are unchanged. -/
theorem C38_pair_config_exact (s : State A) (x : A) (c : PairConfig) :
    ((∃ s', updatePairConfig s x c = .ok s') ↔
      x = s.own.owner ∧ c.totalFeeBps ≤ 10000 ∧ c.makerFeeBps ≤ 10000) ∧
    ∀ s', updatePairConfig s x c = .ok s' →
      (∀ t : PairType, kvGet t.name s'.pairConfigs = if t = c.pairType then some c else kvGet t.name s.pairConfigs) ∧
      s'.own = s.own ∧ s'.config = s.config ∧ s'.pairs = s.pairs := by
  have key : ∀ s', updatePairConfig s x c = .ok s' ↔ x = s.own.owner ∧ c.valid = true ∧
      s' = { s with pairConfigs := kvInsert c.pairType.name c s.pairConfigs } := by
    intro s'
    simp only [updatePairConfig, bind_ok_iff, require_ok, exists_const, Except.ok.injEq, eq_comm (a := s')]
  refine ⟨?_, ?_⟩
  · rw [← valid_iff]
    constructor
    · rintro ⟨s', h⟩
      obtain ⟨h1, h2, _⟩ := (key s').1 h
      exact ⟨h1, h2⟩
    · rintro ⟨h1, h2⟩
      exact ⟨_, (key _).2 ⟨h1, h2, rfl⟩⟩
  · intro s' h
    obtain ⟨_, _, rfl⟩ := (key s').1 h
    refine ⟨fun t => ?_, rfl, rfl, rfl⟩
    dsimp only
    rw [kvGet_insert]
    by_cases ht : t = c.pairType
    · subst ht; rw [if_pos rfl, if_pos rfl]
    · rw [if_neg ht, if_neg (fun e => ht (name_inj e))]

/-- The type whose configuration an operation sets. -/
def sets : Op A → Option PairType
  | .updatePairConfig _ c => some c.pairType
  | _ => none

theorem exec_keeps_config {okAddr : Str → Bool} {s s' : State A} {o : Op A} {t : PairType} (ho : sets o ≠ some t)
    (h : exec okAddr s o = .ok s') : kvGet t.name s'.pairConfigs = kvGet t.name s.pairConfigs := by
  cases o with
  | own t =>
    simp only [exec, bind_ok_iff, Except.ok.injEq] at h
    obtain ⟨_, _, rfl⟩ := h; rfl
  | updateConfig x u =>
    obtain ⟨_, rfl⟩ := (C38_settings_exact s s' x u).1 h; rfl
  | updateTracker x code tf =>
    obtain ⟨_, a, rfl, _⟩ := (C38_tracker_exact s s' x code tf).1 h; rfl
  | updatePairConfig x c =>
    rw [((C38_pair_config_exact s x c).2 s' h).1 t, if_neg]
    rintro rfl; exact ho rfl
  | create x ty infos inst =>
    obtain ⟨_, _, _, _, _, rfl⟩ := create_ok.1 h; rfl
  | deregister x infos =>
    simp only [exec, bind_ok_iff, Except.ok.injEq] at h
    obtain ⟨y, hy, rfl⟩ := h
    obtain ⟨_, _, _, h4⟩ := deregister_ok.1 hy
    rw [h4]

/-- **C38.**  Pairs of a type pay the fees set for it last: after the owner set a type, and whatever happened since except
another setting of this type, the factory reports these fees (with the fee address of the moment) and still has this
configuration for the type (which decides who may create pairs of it and whether it gets rewards). -/
theorem C38_last_setting_counts (okAddr : Str → Bool) (s s' : State A) (x : A) (c : PairConfig)
    (h : exec okAddr s (.updatePairConfig x c) = .ok s') (os : List (Op A))
    (hos : ∀ o ∈ os, sets o ≠ some c.pairType) :
    queryFeeInfo (run okAddr s' os) c.pairType =
      some ((run okAddr s' os).config.feeAddress, c.totalFeeBps, c.makerFeeBps) ∧
    kvGet c.pairType.name (run okAddr s' os).pairConfigs = some c := by
  have h0 : kvGet c.pairType.name s'.pairConfigs = some c := by
    rw [((C38_pair_config_exact s x c).2 s' h).1, if_pos rfl]
  have hk : ∀ (os : List (Op A)) (s : State A), (∀ o ∈ os, sets o ≠ some c.pairType) →
      kvGet c.pairType.name s.pairConfigs = some c →
      kvGet c.pairType.name (run okAddr s os).pairConfigs = some c := by
    intro os
    induction os with
    | nil => intro s _ h; exact h
    | cons o os ih =>
      intro s ho hs
      refine ih _ (fun o h => ho o (List.mem_cons_of_mem _ h)) ?_
      exact commit'_inv (fun s : State A => kvGet c.pairType.name s.pairConfigs = some c) hs fun s' hx => by
        rw [exec_keeps_config (ho o (List.mem_cons_self ..)) hx]; exact hs
  have h1 := hk os s' hos h0
  refine ⟨?_, h1⟩
  unfold queryFeeInfo
  rw [h1]
  rfl

/-- **C38.**  In every history, the list of pair types excluded from rewards names exactly the types configured as disabled
or without rewards, each once; and the configurations listed are those of the configured types, each once. -/
theorem C38_excluded_types (okAddr : Str → Bool) (owner : A) (config : Config A) (pcs : List PairConfig) (s : State A)
    (h : instantiate owner config pcs = .ok s) (os : List (Op A)) :
    (∀ t, t ∈ queryBlacklisted (run okAddr s os) ↔
      ∃ c, kvGet t.name (run okAddr s os).pairConfigs = some c ∧ (c.isDisabled = true ∨ c.isGeneratorDisabled = true)) ∧
    (queryBlacklisted (run okAddr s os)).Nodup ∧
    (∀ c, c ∈ queryPairConfigs (run okAddr s os) ↔ kvGet c.pairType.name (run okAddr s os).pairConfigs = some c) ∧
    ((queryPairConfigs (run okAddr s os)).map PairConfig.pairType).Nodup := by
  have h0 : CfgInv s := by
    simp only [instantiate, bind_ok_iff, require_ok, exists_const, Except.ok.injEq] at h
    obtain ⟨_, m, hm, rfl⟩ := h
    exact storeConfigs_inv hm ⟨List.Pairwise.nil, by simp⟩
  have hr : ∀ (os : List (Op A)) (s : State A), CfgInv s → CfgInv (run okAddr s os) := by
    intro os
    induction os with
    | nil => intro s h; exact h
    | cons o os ih =>
      intro s h
      exact ih _ (commit'_inv CfgInv h fun s' hs => exec_cfgInv h o hs)
  obtain ⟨hs, hm⟩ := hr os s h0
  generalize run okAddr s os = z at hs hm
  have hnames : (z.pairConfigs.map fun v => v.2.pairType).Nodup := by
    rw [List.Nodup, List.pairwise_map]
    refine List.Pairwise.imp_of_mem ?_ hs
    intro a b ha hb hab e
    rw [← (hm a ha).1, ← (hm b hb).1, e] at hab
    exact lt_irrefl _ hab
  refine ⟨fun t => ?_, ?_, fun c => ?_, ?_⟩
  · unfold queryBlacklisted
    rw [List.mem_filterMap]
    constructor
    · rintro ⟨⟨k, c⟩, hv, he⟩
      split_ifs at he with hc
      simp only [Option.some.injEq] at he
      subst he
      refine ⟨c, ?_, by simpa using hc⟩
      rw [(hm _ hv).1]
      exact kvGet_of_mem hs hv
    · rintro ⟨c, hc, hd⟩
      refine ⟨(t.name, c), kvGet_mem hc, ?_⟩
      rw [if_pos (by simpa using hd), name_inj (hm _ (kvGet_mem hc)).1]
  · refine List.Nodup.sublist ?_ hnames
    unfold queryBlacklisted
    generalize z.pairConfigs = l
    induction l with
    | nil => simp
    | cons v l ih =>
      rw [List.filterMap_cons, List.map_cons]
      by_cases hc : (v.2.isDisabled || v.2.isGeneratorDisabled) = true
      · simp only [hc, if_true]; exact List.Sublist.cons_cons _ ih
      · simp only [hc]; exact List.Sublist.cons _ ih
  · unfold queryPairConfigs
    rw [List.mem_map]
    constructor
    · rintro ⟨⟨k, c'⟩, hv, rfl⟩
      dsimp only
      rw [(hm _ hv).1]
      exact kvGet_of_mem hs hv
    · intro hc
      exact ⟨_, kvGet_mem hc, rfl⟩
  · unfold queryPairConfigs
    rw [List.map_map]
    exact hnames

/-- Non-vacuity: the owner disables a type, adds one without rewards and sets the tracker twice; others fail to. -/
example :
    let s := run (fun _ => true) wState [.updatePairConfig 0 ⟨7, .xyk, 40, 5000, true, false, false⟩,
      .updatePairConfig 0 ⟨8, .custom "concentrated".toList, 20, 100, false, true, false⟩,
      .updatePairConfig 0 ⟨9, .stable, 5, 5000, false, false, false⟩,
      .updatePairConfig 4 ⟨9, .stable, 7, 5000, false, false, false⟩,
      .updatePairConfig 0 ⟨9, .stable, 10001, 5000, false, false, false⟩,
      .updateConfig 0 { feeAddress := some 6 }, .updateConfig 4 { registry := some 4 },
      .updateTracker 0 3 none, .updateTracker 0 3 (some 11), .updateTracker 0 4 (some 12)]
    queryBlacklisted s = [.custom "concentrated".toList, .xyk] ∧
    queryFeeInfo s .stable = some (some 6, 5, 5000) ∧ queryFeeInfo s .xyk = some (some 6, 40, 5000) ∧
    s.config.registry = 5 ∧ okAnd (queryTracker s) (fun t => decide (t = (4, 11))) = true := by decide +kernel

end Verif.Factory
