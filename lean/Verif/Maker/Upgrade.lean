import Verif.Maker.More
import Verif.Upgrade.Versions

/-!
# Upgrading a maker (C156)
-/

namespace Verif.Maker

variable {P A I : Type} [DecidableEq A] [DecidableEq I]

/-- `MigrateMsg`, packages/astroport/src/maker.rs. -/
structure MigrateMsg (A : Type) where
  second : Option (A × Nat)
  cooldown : Option Nat

/-- contracts/tokenomics/maker/src/migration.rs:13-55, `migrate_from_v120_plus`: the configuration without the dev fund and the
cooldown, which version 1.2.0 did not have. -/
def migrateV120 (c : Cfg A I) (m : MigrateMsg A) : Res (Cfg A I) := do
  validateCooldown m.cooldown
  updateSecond { c with dev := none, cooldown := m.cooldown } m.second

/-- contracts/tokenomics/maker/src/contract.rs:1030-1091, `migrate`.  `nobody` is the invalid address `""`. -/
def migrate (nobody : A) (stored : Upgrade.Stamp) (s : State P A I) (m : MigrateMsg A) (now : Nat) :
    Res (Upgrade.Stamp × State P A I) := do
  let st ← Upgrade.migrate stored ⟨.maker, false⟩
  if stored.version = ⟨1, 2, 0⟩ then do
    let c ← migrateV120 s.cfg m
    .ok (st, { s with cfg := c, lastCollect := now, seizeTo := nobody, seizable := [] })
  else .ok (st, { s with seizeTo := nobody, seizable := [] })

/-! ## Specification -/

/-- Does the owner set what may be seized in this transaction? -/
def Op.setsSeize : Op P A I → Bool
  | .updateSeize .. => true
  | _ => false

/-! ## Lemmas -/

/-- Nothing but `updateSeize` changes what may be seized. -/
theorem exec_seizable {mk : Market P I} {me : A} {s s' : State P A I} {o : Op P A I} (h : exec mk me s o = .ok s')
    (ho : o.setsSeize = false) : s'.seizable = s.seizable := by
  cases o with
  | collect now hh as =>
    simp only [exec] at h
    rw [bind_ok_iff] at h
    obtain ⟨⟨s1, k⟩, h1, h⟩ := h
    simp only [Except.ok.injEq] at h
    subst h
    obtain ⟨_, _, s2, e2, _, _, hd⟩ := collect_ok h1
    obtain ⟨c', am, ha, e, _⟩ := distribute_ok hd
    rw [e.seizable, e2.seizable]
  | update sender u =>
    simp only [exec, bind_ok_iff, require_ok, exists_const, Except.ok.injEq] at h
    obtain ⟨_, c, hc, h⟩ := h
    subst h
    rfl
  | bridges sender add rem =>
    simp only [exec, updateBridges, bind_ok_iff, require_ok, exists_const, Except.ok.injEq] at h
    obtain ⟨_, c, hc, h⟩ := h
    subst h
    rfl
  | enable sender height blocks =>
    simp only [exec, bind_ok_iff, require_ok, exists_const, Except.ok.injEq] at h
    obtain ⟨_, he, hb, h⟩ := h
    subst h
    rfl
  | seize as =>
    simp only [exec, seize, bind_ok_iff, require_ok, exists_const] at h
    obtain ⟨_, _, _, h⟩ := h
    exact (doSeize_ok h).1.seizable
  | updateSeize sender dst as => simp [Op.setsSeize] at ho
  | send i a b n =>
    simp only [exec, bind_ok_iff, require_ok, exists_const, Except.ok.injEq] at h
    obtain ⟨_, l, _, h⟩ := h
    subst h
    rfl
  | world w =>
    simp only [exec, Except.ok.injEq] at h
    subst h
    rfl

theorem run_seizable {mk : Market P I} {me : A} : ∀ (os : List (Op P A I)) (s : State P A I),
    (∀ o ∈ os, o.setsSeize = false) → (run mk me s os).seizable = s.seizable
  | [], _, _ => rfl
  | o :: os, s, h => by
    show (run mk me (commit' s (exec mk me s o)) os).seizable = s.seizable
    rw [run_seizable os _ (fun x hx => h x (List.mem_cons_of_mem _ hx))]
    cases hx : exec mk me s o with
    | error e => rfl
    | ok s' => exact exec_seizable hx (h o List.mem_cons_self)

/-! ## C156 -/

omit [DecidableEq A] [DecidableEq I] in
/-- C156: an upgrade touches no balance, no bridge, neither the owner nor the receivers nor the progress of the release of the
pre-upgrade amount; from version 1.2.0 it sets the cooldown, within its limits, and may set the second receiver, with a cut of
at most 50%, and the cooldown counts from the upgrade. -/
theorem C156_upgrade_keeps {nobody : A} {stored st : Upgrade.Stamp} {s s' : State P A I} {m : MigrateMsg A} {now : Nat}
    (h : migrate nobody stored s m now = .ok (st, s')) :
    s'.bal = s.bal ∧ s'.bridges = s.bridges ∧ s'.world = s.world ∧
    s'.cfg.owner = s.cfg.owner ∧ s'.cfg.staking = s.cfg.staking ∧ s'.cfg.gov = s.cfg.gov ∧ s'.cfg.govPct = s.cfg.govPct ∧
    s'.cfg.astro = s.cfg.astro ∧ s'.cfg.maxSpread = s.cfg.maxSpread ∧ s'.cfg.defaultBridge = s.cfg.defaultBridge ∧
    s'.cfg.enabled = s.cfg.enabled ∧ s'.cfg.remainder = s.cfg.remainder ∧ s'.cfg.preAmount = s.cfg.preAmount ∧
    s'.cfg.preBlocks = s.cfg.preBlocks ∧ s'.cfg.lastBlock = s.cfg.lastBlock ∧
    (stored.version ≠ ⟨1, 2, 0⟩ → s'.cfg = s.cfg ∧ s'.lastCollect = s.lastCollect) ∧
    (stored.version = ⟨1, 2, 0⟩ → s'.cfg.dev = none ∧ s'.cfg.cooldown = m.cooldown ∧ s'.lastCollect = now ∧
      s'.cfg.second = (if m.second.isSome then m.second else s.cfg.second) ∧
      (∀ a n, m.second = some (a, n) → 0 < n ∧ n ≤ 50) ∧ ∀ n, m.cooldown = some n → 30 ≤ n ∧ n ≤ 600) := by
  simp only [migrate, bind_ok_iff] at h
  obtain ⟨st', _, h⟩ := h
  by_cases hv : stored.version = ⟨1, 2, 0⟩
  · rw [if_pos hv] at h
    simp only [migrateV120, bind_ok_iff, Except.ok.injEq, Prod.mk.injEq] at h
    obtain ⟨c, ⟨_, hcool, hc⟩, rfl, rfl⟩ := h
    have hcl : ∀ n, m.cooldown = some n → 30 ≤ n ∧ n ≤ 600 := by
      intro n hn
      rw [hn] at hcool
      exact (require_ok _ _ _).1 hcool
    cases hm : m.second with
    | none =>
      rw [hm] at hc
      simp only [updateSecond, Except.ok.injEq] at hc
      subst hc
      exact ⟨rfl, rfl, rfl, rfl, rfl, rfl, rfl, rfl, rfl, rfl, rfl, rfl, rfl, rfl, rfl, fun h => absurd hv h,
        fun _ => ⟨rfl, rfl, rfl, rfl, by simp, hcl⟩⟩
    | some x =>
      obtain ⟨a, n⟩ := x
      rw [hm] at hc
      simp only [updateSecond, bind_ok_iff, require_ok, exists_const, Except.ok.injEq] at hc
      obtain ⟨h1, rfl⟩ := hc
      refine ⟨rfl, rfl, rfl, rfl, rfl, rfl, rfl, rfl, rfl, rfl, rfl, rfl, rfl, rfl, rfl, fun h => absurd hv h,
        fun _ => ⟨rfl, rfl, rfl, rfl, ?_, hcl⟩⟩
      intro a' n' he
      simp only [Option.some.injEq, Prod.mk.injEq] at he
      simp only [MAX_SECOND_RECEIVER_CUT] at h1
      omega
  · rw [if_neg hv] at h
    simp only [Except.ok.injEq, Prod.mk.injEq] at h
    obtain ⟨rfl, rfl⟩ := h
    exact ⟨rfl, rfl, rfl, rfl, rfl, rfl, rfl, rfl, rfl, rfl, rfl, rfl, rfl, rfl, rfl, fun _ => ⟨rfl, rfl⟩,
      fun h => absurd h hv⟩

/-- C156: a maker with accepted settings has accepted settings after the upgrade and ever after, so what is proved of makers
from their creation on holds of upgraded ones. -/
theorem C156_settings_stay_accepted {nobody : A} {stored st : Upgrade.Stamp} {s s' : State P A I} {m : MigrateMsg A}
    {now : Nat} (h : migrate nobody stored s m now = .ok (st, s')) (hg : Good s.cfg) (mk : Market P I) (me : A)
    (os : List (Op P A I)) : Good (run mk me s' os).cfg := by
  apply config_good
  obtain ⟨_, _, _, _, k1, k2, k3, _, _, _, k4, k5, k6, k7, _, k8, k9⟩ := C156_upgrade_keeps h
  by_cases hv : stored.version = ⟨1, 2, 0⟩
  · obtain ⟨j1, j2, _, j3, j4, j5⟩ := k9 hv
    refine ⟨by rw [k3]; exact hg.pct, ?_, ?_, ?_, ?_, ?_, ?_, ?_⟩
    · rw [k1, k2, k3]; exact hg.all
    · intro a n hs
      rw [j3] at hs
      cases hm : m.second with
      | none =>
        rw [hm] at hs
        exact hg.cut a n hs
      | some x =>
        rw [hm] at hs
        exact j4 a n (hm.trans hs)
    · intro n hn
      rw [j2] at hn
      exact j5 n hn
    · intro d hd
      rw [j1] at hd
      cases hd
    · rw [k4, k7]; exact hg.blocks
    · rw [k4, k5, k6]; exact hg.before
    · rw [k5, k6]; exact hg.rem
  · rw [(k8 hv).1]
    exact hg

/-- C156: after an upgrade nothing can be seized, whatever anybody does, until the owner has named what may be: every call to
seize is refused. -/
theorem C156_nothing_seized_until_allowed {nobody : A} {stored st : Upgrade.Stamp} {s s' : State P A I} {m : MigrateMsg A}
    {now : Nat} (h : migrate nobody stored s m now = .ok (st, s')) (mk : Market P I) (me : A) (os : List (Op P A I))
    (hos : ∀ o ∈ os, o.setsSeize = false) (as : List (I × Option Nat)) :
    ∃ e, exec mk me (run mk me s' os) (.seize as) = .error e := by
  have h0 : s'.seizable = [] := by
    simp only [migrate, bind_ok_iff] at h
    obtain ⟨st', _, h⟩ := h
    split at h
    · simp only [bind_ok_iff, Except.ok.injEq, Prod.mk.injEq] at h
      obtain ⟨_, _, _, rfl⟩ := h
      rfl
    · simp only [Except.ok.injEq, Prod.mk.injEq] at h
      obtain ⟨_, rfl⟩ := h
      rfl
  have h1 : (run mk me s' os).seizable = [] := (run_seizable os s' hos).trans h0
  cases hx : exec mk me (run mk me s' os) (.seize as) with
  | error e => exact ⟨e, rfl⟩
  | ok r =>
    exfalso
    simp only [exec, seize, bind_ok_iff, require_ok, exists_const] at hx
    exact hx.2.1 h1

/-- The demonstration maker, in which token 2 may be seized to address 6, upgraded from 1.5.0: seizing stops until the owner
allows it again. -/
example :
    let s : State Unit Nat Nat := { demo with seizeTo := 6, seizable := [2] }
    okAnd (exec demoMarket 0 s (.seize [(2, none)])) (fun r => decide (r.bal 2 6 = 700)) = true ∧
    okAnd (migrate 99 ⟨"astroport-maker", 1, 5, 0⟩ s ⟨none, none⟩ 300) (fun r =>
      fails (exec demoMarket 0 r.2 (.seize [(2, none)])) &&
      okAnd (exec demoMarket 0 (run demoMarket 0 r.2 [.updateSeize 1 (some 6) [2]]) (.seize [(2, none)]))
        (fun r => decide (r.bal 2 6 = 700))) = true ∧
    okAnd (migrate 99 ⟨"astroport-maker", 1, 2, 0⟩ s ⟨some (4, 50), some 600⟩ 300)
      (fun r => decide (r.2.lastCollect = 300 ∧ r.2.cfg.second = some (4, 50))) = true ∧
    fails (migrate 99 ⟨"astroport-maker", 1, 2, 0⟩ s ⟨some (4, 51), some 600⟩ 300) = true := by
  refine ⟨by decide +kernel, by decide +kernel, by decide +kernel, by decide +kernel⟩

end Verif.Maker
