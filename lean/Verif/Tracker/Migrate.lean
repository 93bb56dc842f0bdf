import Verif.Tracker.Props

/-!
# Migration of the tracker from version 1.0.0

Version 1.0.0 tracked over heights; the migration chooses whether to go on over heights or over seconds.  The records
themselves are not touched.
-/

namespace Verif.Tracker

variable {A D : Type} [DecidableEq A] [DecidableEq D]

/-- contracts/periphery/tokenfactory_tracker/src/contract.rs:133-166, `migrate`: the new config.  The stored name and version
are `v`; the version written is not modelled.  The config of 1.0.0 has no field `t` and is read as `false`
(contracts/periphery/tokenfactory_tracker/src/state.rs:13-16). -/
def migrate (v : String × String) (c : Cfg A D) (overSeconds : Bool) : Res (Cfg A D) := do
  require (v = ("astroport-tokenfactory-tracker", "1.0.0")) (.invalid "Unsupported contract version")
  .ok { c with seconds := overSeconds }

/-- Specification: a history over heights, a migration at `m`, and a history after it. -/
structure Migrated (c : Cfg A D) (overSeconds : Bool) (os₁ : List (Env × Op A D)) (m : Env) (os₂ : List (Env × Op A D))
    (now : Env) (c' : Cfg A D) : Prop where
  /-- Version 1.0.0 tracks over heights. -/
  old : c.seconds = false
  new : migrate ("astroport-tokenfactory-tracker", "1.0.0") c overSeconds = .ok c'
  /-- Heights do not decrease before the migration. -/
  before : Timely c os₁ m
  /-- Nor do the units after it. -/
  after : Mono (fun o => unit c' o.1) (unit c' m) os₂
  upTo : ∀ o ∈ os₂, unit c' o.1 ≤ unit c' now
  started : unit c' m ≤ unit c' now
  /-- The block height at the migration is below the Unix time. -/
  late : m.height ≤ m.seconds

theorem Migrated.cfg {c : Cfg A D} {b : Bool} {os₁ os₂ : List (Env × Op A D)} {m now : Env} {c' : Cfg A D}
    (h : Migrated c b os₁ m os₂ now c') : c' = { c with seconds := b } := by
  have := h.new
  simp only [migrate, bind_ok_iff, require_ok, exists_const, Except.ok.injEq] at this
  exact this.2.symm

theorem Migrated.le {c : Cfg A D} {b : Bool} {os₁ os₂ : List (Env × Op A D)} {m now : Env} {c' : Cfg A D}
    (h : Migrated c b os₁ m os₂ now c') : unit c m ≤ unit c' m := by
  have h1 := h.cfg
  subst h1
  unfold unit
  rw [h.old]
  have := h.late
  simp only [Bool.false_eq_true, if_false]
  split
  · exact this
  · exact le_refl _

/-- The records of an account after the first history. -/
theorem synced_run (c : Cfg A D) {a : A} (ha : a ≠ c.mod) (os : List (Env × Op A D)) {s : State A} {H B : Nat}
    (hi : Synced a s H) (hm : Mono (fun o => unit c o.1) H os) (hb : ∀ o ∈ os, unit c o.1 ≤ B) (hB : H ≤ B) :
    Synced a (run c s os) B := by
  induction os generalizing s H with
  | nil => exact ⟨Snap.upTo_mono hi.1 hB, hi.2⟩
  | cons o rest ih =>
    have hrun : run c s (o :: rest) = run c (step c s o) rest := rfl
    rw [hrun]
    exact ih (step_synced c ha s H o hi hm.1).1 hm.2 (fun x hx => hb x (List.mem_cons_of_mem _ hx))
      (hb o List.mem_cons_self)

/-- What is answered after a migration, for every unit after the last height before it. -/
theorem migrated_at {c : Cfg A D} {b : Bool} {os₁ os₂ : List (Env × Op A D)} {m now : Env} {c' : Cfg A D}
    (h : Migrated c b os₁ m os₂ now c') {a : A} (ha : a ≠ c.mod) (u : Nat) :
    (((run c' (run c init os₁) os₂).bals a).at_ u).getD 0 =
      if u ≤ unit c' m then (((run c init os₁).bals a).at_ u).getD 0
      else (run c' (run c init os₁) (os₂.takeWhile fun o => decide (unit c' o.1 < u))).bank a := by
  have hi : Synced a (init : State A) 0 := ⟨by intro e he; simp [init, Snap.empty] at he, rfl⟩
  have hs := synced_run c ha os₁ hi h.before.1 h.before.2 (Nat.zero_le _)
  have ha' : a ≠ c'.mod := by rw [h.cfg]; exact ha
  have hs' : Synced a (run c init os₁) (unit c' m) := ⟨Snap.upTo_mono hs.1 h.le, hs.2⟩
  exact history (step c') (fun o => unit c' o.1) (fun s h => ((s.bals a).at_ h).getD 0) (fun s => s.bank a)
        (Synced a) (step_synced c' ha') (run c init os₁) (unit c' m) os₂ hs' h.after u
        (fun hh => by rw [Snap.at_future hs'.1 hh]; exact hs'.2)

theorem migrated_now {c : Cfg A D} {b : Bool} {os₁ os₂ : List (Env × Op A D)} {m now : Env} {c' : Cfg A D}
    (h : Migrated c b os₁ m os₂ now c') {a : A} (ha : a ≠ c.mod) :
    ((run c' (run c init os₁) os₂).bals a).cur.getD 0 = (run c' (run c init os₁) os₂).bank a := by
  have hi : Synced a (init : State A) 0 := ⟨by intro e he; simp [init, Snap.empty] at he, rfl⟩
  have hs := synced_run c ha os₁ hi h.before.1 h.before.2 (Nat.zero_le _)
  have ha' : a ≠ c'.mod := by rw [h.cfg]; exact ha
  exact run_synced c' ha' os₂ (H := unit c' m) ⟨Snap.upTo_mono hs.1 h.le, hs.2⟩ h.after

/-- **C133 (partial).**  After the migration, whichever unit is chosen: the balance now, and at every unit later than the
migration, is the bank balance (at the beginning of that unit).  Missing: units up to the migration, which are answered
correctly if heights are kept (`C133_heights_kept`), and wrongly if not (`C133_earlier_times_violated`). -/
theorem C133_later_units_partial {c : Cfg A D} {b : Bool} {os₁ os₂ : List (Env × Op A D)} {m now : Env} {c' : Cfg A D}
    (h : Migrated c b os₁ m os₂ now c') {a : A} (ha : a ≠ c.mod) :
    (∀ u, u = none ∨ u = some (unit c' now) →
      balanceAt c' (run c' (run c init os₁) os₂) now a u = (run c' (run c init os₁) os₂).bank a) ∧
    (∀ u, unit c' m < u → u ≠ unit c' now → balanceAt c' (run c' (run c init os₁) os₂) now a (some u) =
      (run c' (run c init os₁) (os₂.takeWhile fun o => decide (unit c' o.1 < u))).bank a) := by
  constructor
  · rintro u (rfl | rfl) <;>
    · unfold balanceAt
      simp only [Option.getD_none, Option.getD_some, if_true]
      exact migrated_now h ha
  · intro u hu hn
    unfold balanceAt
    simp only [Option.getD_some, if_neg hn]
    rw [migrated_at h ha, if_neg (by omega)]

/-- **C133.**  If heights are kept, every answer is right, also for heights before the migration. -/
theorem C133_heights_kept {c : Cfg A D} {os₁ os₂ : List (Env × Op A D)} {m now : Env} {c' : Cfg A D}
    (h : Migrated c false os₁ m os₂ now c') {a : A} (ha : a ≠ c.mod) (u : Option Nat) :
    balanceAt c' (run c' (run c init os₁) os₂) now a u =
      if u = none ∨ u = some (unit c now) then (run c init (os₁ ++ os₂)).bank a
      else (atStart c (os₁ ++ os₂) (u.getD 0)).bank a := by
  have hc : c' = c := by
    rw [h.cfg]
    have := h.old
    cases c
    simp only at this
    subst this
    rfl
  subst hc
  have hrun : run c' (run c' (init : State A) os₁) os₂ = run c' init (os₁ ++ os₂) := by
    unfold run; rw [List.foldl_append]
  rw [hrun]
  refine C58_balance_history c' (os₁ ++ os₂) now ⟨?_, ?_⟩ a ha u
  · have hap : ∀ (l : List (Env × Op A D)) H, Mono (fun o => unit c' o.1) H l → (∀ o ∈ l, unit c' o.1 ≤ unit c' m) →
        H ≤ unit c' m → Mono (fun o => unit c' o.1) H (l ++ os₂) := by
      intro l
      induction l with
      | nil =>
        intro H _ _ hH
        have h2 := h.after
        cases os₂ with
        | nil => trivial
        | cons x r => exact ⟨le_trans hH h2.1, h2.2⟩
      | cons x r ih =>
        intro H hm hb _
        exact ⟨hm.1, ih _ hm.2 (fun o ho => hb o (List.mem_cons_of_mem _ ho)) (hb x List.mem_cons_self)⟩
    exact hap os₁ 0 h.before.1 h.before.2 (Nat.zero_le _)
  · intro o ho
    rcases List.mem_append.1 ho with ho | ho
    · exact le_trans (h.before.2 o ho) h.started
    · exact h.upTo o ho

/-- **C133.**  A migration changes only the unit of time; other versions are refused. -/
theorem C133_only_from_first_version (v : String × String) (c c' : Cfg A D) (b : Bool) (h : migrate v c b = .ok c') :
    v = ("astroport-tokenfactory-tracker", "1.0.0") ∧ c'.denom = c.denom ∧ c'.mod = c.mod ∧ c'.seconds = b := by
  simp only [migrate, bind_ok_iff, require_ok, exists_const, Except.ok.injEq] at h
  obtain ⟨h1, rfl⟩ := h
  exact ⟨h1, rfl, rfl, rfl⟩

/-- After the migration at height 9: account 1 sends 5 at second 200. -/
def demoAfter : List (Env × Op Nat Nat) := [(⟨20, 200⟩, .send 1 2 5)]

theorem demo_migrated (b : Bool) : Migrated demoCfg b demo ⟨9, 90⟩ demoAfter ⟨30, 300⟩ { demoCfg with seconds := b } := by
  cases b <;>
  exact ⟨rfl, rfl, by decide +kernel, by decide +kernel, by decide +kernel, by decide +kernel, by decide +kernel⟩

example : balanceAt { demoCfg with seconds := true } (run { demoCfg with seconds := true } (run demoCfg init demo) demoAfter)
    ⟨30, 300⟩ 1 (some 100) = 45 ∧
    balanceAt { demoCfg with seconds := true } (run { demoCfg with seconds := true } (run demoCfg init demo) demoAfter)
    ⟨30, 300⟩ 1 (some 201) = 40 ∧
    balanceAt demoCfg (run demoCfg (run demoCfg init demo) demoAfter) ⟨30, 300⟩ 1 (some 8) = 70 := by decide +kernel

/-- **C133 violated.**  If the tracker goes on over seconds, times before the migration are answered with the balance at the
migration.  Witness: account 1 received its tokens at second 50 and held 70 at second 80 before it sent any; for second 40,
when nothing had been minted, the tracker answers 45, and so it does for second 80. -/
theorem C133_earlier_times_violated :
    ∃ (c' : Cfg Nat Nat), Migrated demoCfg true demo ⟨9, 90⟩ demoAfter ⟨30, 300⟩ c' ∧
      (∀ o ∈ demo, 40 < o.1.seconds) ∧
      balanceAt c' (run c' (run demoCfg init demo) demoAfter) ⟨30, 300⟩ 1 (some 40) = 45 ∧
      (run demoCfg init (demo.takeWhile fun o => decide (o.1.seconds < 80))).bank 1 = 70 ∧
      balanceAt c' (run c' (run demoCfg init demo) demoAfter) ⟨30, 300⟩ 1 (some 80) = 45 :=
  ⟨_, demo_migrated true, by decide +kernel, by decide +kernel, by decide +kernel, by decide +kernel⟩

end Verif.Tracker
