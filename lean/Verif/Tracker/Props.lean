import Verif.Tracker.Model

/-!
# Properties of the tracker
-/

namespace Verif.Tracker

variable {A D : Type} [DecidableEq A] [DecidableEq D]

/-- Specification: the state of the bank at the beginning of tracking unit `u`: after all transactions in earlier
units. -/
def atStart (c : Cfg A D) (os : List (Env × Op A D)) (u : Nat) : State A :=
  run c init (os.takeWhile fun o => decide (unit c o.1 < u))

/-- Units never decrease along the history and have not passed `now`. -/
def Timely (c : Cfg A D) (os : List (Env × Op A D)) (now : Env) : Prop :=
  Mono (fun o => unit c o.1) 0 os ∧ ∀ o ∈ os, unit c o.1 ≤ unit c now

instance (c : Cfg A D) (os : List (Env × Op A D)) (now : Env) : Decidable (Timely c os now) :=
  inferInstanceAs (Decidable (_ ∧ _))

/-! ## What one transaction does -/

omit [DecidableEq D] in
theorem trackBoth_ok {c : Cfg A D} {s s' : State A} {u n : Nat} {src dst : A}
    (h : trackBoth c s u src dst n = .ok s') :
    s'.bank = s.bank ∧ s'.supply = s.supply ∧ s'.total = s.total ∧
      ∀ a, s'.bals a = if src ≠ dst ∧ a ≠ c.mod ∧ a = src then (s.bals a).save (s.bank a - n) u
        else if src ≠ dst ∧ a ≠ c.mod ∧ a = dst then (s.bals a).save (s.bank a + n) u else s.bals a := by
  unfold trackBoth at h
  split at h
  · rename_i he
    simp only [Except.ok.injEq] at h
    subst h
    simp [he]
  · rename_i hne
    rw [bind_ok_iff] at h
    obtain ⟨s1, h1, h⟩ := h
    have e1 : s1.bank = s.bank ∧ s1.supply = s.supply ∧ s1.total = s.total ∧
        ∀ a, s1.bals a = if a ≠ c.mod ∧ a = src then (s.bals a).save (s.bank a - n) u else s.bals a := by
      unfold trackFrom at h1
      split at h1
      · rename_i hm
        simp only [Except.ok.injEq] at h1
        subst h1
        refine ⟨rfl, rfl, rfl, fun a => ?_⟩
        rw [if_neg]
        rintro ⟨h2, h3⟩
        exact h2 (h3.trans hm)
      · rename_i hm
        simp only [bind_ok_iff, csub_ok, Except.ok.injEq] at h1
        obtain ⟨b, ⟨_, rfl⟩, rfl⟩ := h1
        refine ⟨rfl, rfl, rfl, fun a => ?_⟩
        simp only [Function.update_apply]
        by_cases ha : a = src
        · subst ha; simp [hm]
        · simp [ha]
    have e2 : s'.bank = s1.bank ∧ s'.supply = s1.supply ∧ s'.total = s1.total ∧
        ∀ a, s'.bals a = if a ≠ c.mod ∧ a = dst then (s1.bals a).save (s1.bank a + n) u else s1.bals a := by
      unfold trackTo at h
      split at h
      · rename_i hm
        simp only [Except.ok.injEq] at h
        subst h
        refine ⟨rfl, rfl, rfl, fun a => ?_⟩
        rw [if_neg]
        rintro ⟨h2, h3⟩
        exact h2 (h3.trans hm)
      · rename_i hm
        simp only [bind_ok_iff, u128_ok, Except.ok.injEq] at h
        obtain ⟨b, ⟨_, rfl⟩, rfl⟩ := h
        refine ⟨rfl, rfl, rfl, fun a => ?_⟩
        simp only [Function.update_apply]
        by_cases ha : a = dst
        · subst ha; simp [hm]
        · simp [ha]
    obtain ⟨a1, a2, a3, a4⟩ := e1
    obtain ⟨b1, b2, b3, b4⟩ := e2
    refine ⟨b1.trans a1, b2.trans a2, b3.trans a3, fun a => ?_⟩
    rw [b4, a4, a1]
    by_cases ha : a = src
    · subst ha
      have : ¬ a = dst := hne
      simp [hne]
    · by_cases hb : a = dst
      · subst hb; simp [ha, hne]
      · simp [ha, hb]

theorem hook_ok {c : Cfg A D} {s s' : State A} {e : Env} {d : D} {n : Nat} {src dst : A}
    (h : hook c s e d src dst n = .ok s') :
    d = c.denom ∧ s'.bank = s.bank ∧ s'.supply = s.supply ∧ s'.total = s.total.save s.supply (unit c e) ∧
      ∀ a, s'.bals a = if src ≠ dst ∧ a ≠ c.mod ∧ a = src then (s.bals a).save (s.bank a - n) (unit c e)
        else if src ≠ dst ∧ a ≠ c.mod ∧ a = dst then (s.bals a).save (s.bank a + n) (unit c e) else s.bals a := by
  unfold hook trackBalances at h
  simp only [bind_ok_iff, require_ok, exists_const, Except.ok.injEq] at h
  obtain ⟨hd, s1, h1, rfl⟩ := h
  obtain ⟨a1, a2, a3, a4⟩ := trackBoth_ok h1
  exact ⟨hd, a1, a2, by simp only [a2, a3], a4⟩

/-- What a successful transaction does to the record of an ordinary account: it is unchanged together with the
balance, or the new balance is recorded. -/
theorem exec_bal {c : Cfg A D} {s s' : State A} {e : Env} {o : Op A D} (h : exec c s e o = .ok s') {a : A}
    (ha : a ≠ c.mod) :
    (s'.bals a = s.bals a ∧ s'.bank a = s.bank a) ∨ s'.bals a = (s.bals a).save (s'.bank a) (unit c e) := by
  cases o with
  | mint dst n =>
    simp only [exec, bind_ok_iff, u128_ok, Except.ok.injEq] at h
    obtain ⟨_, ⟨_, rfl⟩, s1, h1, b, hb, rfl⟩ := h
    obtain ⟨_, e1, _, _, e4⟩ := hook_ok h1
    simp only
    rw [e4 a, move_apply hb a, e1]
    simp only [credit_of_ne _ _ ha]
    by_cases hd : a = dst
    · subst hd
      have : c.mod ≠ a := fun h => ha h.symm
      right; simp [this, ha]
    · left; simp [ha, hd]
  | burn src n =>
    simp only [exec, bind_ok_iff, csub_ok, Except.ok.injEq] at h
    obtain ⟨s1, h1, b, hb, b2, hb2, _, ⟨_, rfl⟩, rfl⟩ := h
    obtain ⟨_, e1, _, _, e4⟩ := hook_ok h1
    simp only
    rw [e4 a, debit_apply hb2 a, move_apply hb a, e1]
    by_cases hd : a = src
    · subst hd
      right; simp [ha]
    · left; simp [ha, hd]
  | send src dst n =>
    simp only [exec, bind_ok_iff, require_ok, exists_const, Except.ok.injEq] at h
    obtain ⟨_, s1, h1, b, hb, rfl⟩ := h
    obtain ⟨_, e1, _, _, e4⟩ := hook_ok h1
    have hle := move_le hb
    simp only
    rw [e4 a, move_apply hb a, e1]
    rw [e1] at hle
    by_cases hsd : src = dst
    · subst hsd
      left
      by_cases hs : a = src
      · subst hs; simp; omega
      · simp [hs]
    · by_cases hs : a = src
      · subst hs; right; simp [hsd, ha]
      · by_cases hd : a = dst
        · subst hd; right; simp [hsd, ha, hs]
        · left; simp [hs, hd]
  | foreign d src dst n =>
    simp only [exec, bind_ok_iff, require_ok, exists_const] at h
    obtain ⟨hd, h⟩ := h
    exact absurd (hook_ok h).1 hd

/-- The supply when the hook of a transaction runs, given the supply after the transaction. -/
def atHook : Op A D → Nat → Nat
  | .burn _ n, sup => sup + n
  | _, sup => sup

/-- What a successful transaction does to the supply record: the supply before burning is recorded. -/
theorem exec_total {c : Cfg A D} {s s' : State A} {e : Env} {o : Op A D} (h : exec c s e o = .ok s') :
    s'.total = s.total.save (atHook o s'.supply) (unit c e) := by
  cases o with
  | mint dst n =>
    simp only [exec, bind_ok_iff, u128_ok, Except.ok.injEq] at h
    obtain ⟨_, ⟨_, rfl⟩, s1, h1, b, hb, rfl⟩ := h
    obtain ⟨_, _, e2, e3, _⟩ := hook_ok h1
    simp only [e3, e2, atHook]
  | burn src n =>
    simp only [exec, bind_ok_iff, csub_ok, Except.ok.injEq] at h
    obtain ⟨s1, h1, b, hb, b2, hb2, _, ⟨hs, rfl⟩, rfl⟩ := h
    obtain ⟨_, _, e2, e3, _⟩ := hook_ok h1
    simp only [e3, atHook]
    rw [Nat.sub_add_cancel hs, e2]
  | send src dst n =>
    simp only [exec, bind_ok_iff, require_ok, exists_const, Except.ok.injEq] at h
    obtain ⟨_, s1, h1, b, hb, rfl⟩ := h
    obtain ⟨_, _, e2, e3, _⟩ := hook_ok h1
    simp only [e3, e2, atHook]
  | foreign d src dst n =>
    simp only [exec, bind_ok_iff, require_ok, exists_const] at h
    obtain ⟨hd, h⟩ := h
    exact absurd (hook_ok h).1 hd

/-! ## Balances -/

/-- The record of an account is up to date. -/
def Synced (a : A) (s : State A) (H : Nat) : Prop := (s.bals a).UpTo H ∧ ((s.bals a).cur).getD 0 = s.bank a

theorem step_synced (c : Cfg A D) {a : A} (ha : a ≠ c.mod) (s : State A) (H : Nat) (o : Env × Op A D)
    (hi : Synced a s H) (hle : H ≤ unit c o.1) :
    Synced a (step c s o) (unit c o.1) ∧
      (∀ h, h ≤ unit c o.1 → (((step c s o).bals a).at_ h).getD 0 = ((s.bals a).at_ h).getD 0) ∧
      (∀ h, unit c o.1 < h → (((step c s o).bals a).at_ h).getD 0 = (step c s o).bank a) := by
  have key : Synced a (step c s o) (unit c o.1) ∧
      (∀ h, h ≤ unit c o.1 → (((step c s o).bals a).at_ h).getD 0 = ((s.bals a).at_ h).getD 0) := by
    unfold step
    cases hx : exec c s o.1 o.2 with
    | error e => exact ⟨⟨Snap.upTo_mono hi.1 hle, hi.2⟩, fun _ _ => rfl⟩
    | ok s' =>
      simp only [commit'_ok]
      rcases exec_bal hx ha with ⟨h1, h2⟩ | h1
      · refine ⟨⟨?_, ?_⟩, fun h _ => by rw [h1]⟩
        · rw [h1]; exact Snap.upTo_mono hi.1 hle
        · rw [h1, h2]; exact hi.2
      · refine ⟨⟨?_, ?_⟩, fun h hh => ?_⟩
        · rw [h1]; exact Snap.save_upTo _ hi.1 hle
        · rw [h1]; rfl
        · rw [h1, Snap.save_at _ hi.1 hle, if_pos hh]
  refine ⟨key.1, key.2, fun h hh => ?_⟩
  rw [Snap.at_future key.1.1 hh]
  exact key.1.2

theorem run_synced (c : Cfg A D) {a : A} (ha : a ≠ c.mod) (os : List (Env × Op A D)) {s : State A} {H : Nat}
    (hi : Synced a s H) (hm : Mono (fun o => unit c o.1) H os) : ((run c s os).bals a).cur.getD 0 = (run c s os).bank a
    := by
  induction os generalizing s H with
  | nil => exact hi.2
  | cons o rest ih =>
    have hrun : run c s (o :: rest) = run c (step c s o) rest := rfl
    rw [hrun]
    exact ih (step_synced c ha s H o hi hm.1).1 hm.2

/-- **C58.**  For every history of mints, burns and sends of a denom tracked since its first mint (with failing
transactions and foreign hooks in between), and for every account other than the module's own: `BalanceAt` a past or
future unit is the bank balance of the account at the beginning of that unit, and without a unit or for the current
one it is the balance now. -/
theorem C58_balance_history (c : Cfg A D) (os : List (Env × Op A D)) (now : Env) (hm : Timely c os now)
    (a : A) (ha : a ≠ c.mod) (u : Option Nat) :
    balanceAt c (run c init os) now a u =
      if u = none ∨ u = some (unit c now) then (run c init os).bank a
      else (atStart c os (u.getD 0)).bank a := by
  have hi : Synced a (init : State A) 0 := ⟨by intro e he; simp [init, Snap.empty] at he, rfl⟩
  unfold balanceAt
  cases u with
  | none =>
    simp only [Option.getD_none, if_true, true_or]
    exact run_synced c ha os hi hm.1
  | some u =>
    simp only [Option.getD_some, reduceCtorEq, false_or, Option.some.injEq]
    split
    · exact run_synced c ha os hi hm.1
    · have h := history (step c) (fun o => unit c o.1) (fun s h => ((s.bals a).at_ h).getD 0) (fun s => s.bank a)
        (Synced a) (step_synced c ha) init 0 os hi hm.1 u (fun _ => by rfl)
      unfold run
      rw [h]
      split
      · rename_i h0
        have : u = 0 := by omega
        subst this
        unfold atStart
        have : (os.takeWhile fun o => decide (unit c o.1 < 0)) = [] := by
          cases os with
          | nil => rfl
          | cons x r => simp
        rw [this]; rfl
      · rfl

def demoCfg : Cfg Nat Nat := ⟨7, 0, false⟩

/-- Two mints and a send at height 5, a send and a burn at height 8. -/
def demo : List (Env × Op Nat Nat) :=
  [(⟨5, 50⟩, .mint 1 100), (⟨5, 50⟩, .mint 2 10), (⟨5, 50⟩, .send 1 2 30), (⟨8, 80⟩, .send 2 1 25),
    (⟨8, 80⟩, .foreign 3 1 2 1), (⟨8, 80⟩, .burn 1 50)]

example : Timely demoCfg demo ⟨9, 90⟩ ∧
    balanceAt demoCfg (run demoCfg init demo) ⟨9, 90⟩ 1 (some 5) = 0 ∧
    balanceAt demoCfg (run demoCfg init demo) ⟨9, 90⟩ 1 (some 8) = 70 ∧
    balanceAt demoCfg (run demoCfg init demo) ⟨9, 90⟩ 1 none = 45 ∧
    (run demoCfg init demo).bank 1 = 45 := by decide +kernel

/-- **C58**, why "since its first mint": a tracker attached to a denom already in circulation reports nothing for a
holder until their next movement.  Witness: an account holding 5 before the tracker saw anything. -/
theorem C58_late_attachment_violated :
    ∃ (s : State Nat) (now : Env), s.bank 1 = 5 ∧ s.supply = 5 ∧ balanceAt demoCfg s now 1 none = 0 :=
  ⟨{ init with bank := Function.update (fun _ => 0) 1 5, supply := 5 }, ⟨1, 1⟩, by decide +kernel⟩

/-- **C58.**  The hook of another denom never changes anything. -/
theorem C58_foreign_denom_ignored (c : Cfg A D) (s : State A) (e : Env) (d : D) (src dst : A) (n : Nat)
    (hd : d ≠ c.denom) : hook c s e d src dst n = .error (.invalid "InvalidDenom") := by
  unfold hook require
  rw [if_neg hd]
  rfl

example : (3 : Nat) ≠ demoCfg.denom := by decide

/-- **C58.**  The tracker never blocks a movement that the bank can make: for a supply that fits into 128 bits the
hook succeeds for every send the sender can afford. -/
theorem C58_never_blocks [Fintype A] (c : Cfg A D) (s : State A) (e : Env) (src dst : A) (n : Nat)
    (hsum : ∑ a, s.bank a = s.supply) (hs : s.supply < U128) (hn : n ≤ s.bank src) :
    ∃ s', hook c s e c.denom src dst n = .ok s' := by
  unfold hook trackBalances trackBoth trackFrom trackTo
  have hr : require (c.denom = c.denom) (.invalid "InvalidDenom") = .ok () := (require_ok _ _ ()).2 rfl
  rw [hr, ok_bind]
  split
  · exact ⟨_, rfl⟩
  · rename_i hne
    have hb : s.bank dst + n < U128 := by
      have := add_le_sum s.bank hne
      omega
    have h2 : csub (s.bank src) n = .ok (s.bank src - n) := (csub_ok _ _ _).2 ⟨hn, rfl⟩
    have h1 : u128 (s.bank dst + n) = .ok (s.bank dst + n) := (u128_ok _ _).2 ⟨hb, rfl⟩
    split
    · rw [ok_bind]
      split
      · exact ⟨_, rfl⟩
      · rw [h1]; exact ⟨_, rfl⟩
    · rw [h2, ok_bind, ok_bind]
      split
      · exact ⟨_, rfl⟩
      · rw [h1]; exact ⟨_, rfl⟩

/-! ## Supply -/

/-- What the contract has recorded as the supply. -/
def recorded (s : State A) : Nat := s.total.cur.getD 0

theorem step_total (c : Cfg A D) (s : State A) (H : Nat) (o : Env × Op A D)
    (hi : s.total.UpTo H) (hle : H ≤ unit c o.1) :
    (step c s o).total.UpTo (unit c o.1) ∧
      (∀ h, h ≤ unit c o.1 → ((step c s o).total.at_ h).getD 0 = (s.total.at_ h).getD 0) ∧
      (∀ h, unit c o.1 < h → ((step c s o).total.at_ h).getD 0 = recorded (step c s o)) := by
  have key : (step c s o).total.UpTo (unit c o.1) ∧
      (∀ h, h ≤ unit c o.1 → ((step c s o).total.at_ h).getD 0 = (s.total.at_ h).getD 0) := by
    unfold step
    cases hx : exec c s o.1 o.2 with
    | error e => exact ⟨Snap.upTo_mono hi hle, fun _ _ => rfl⟩
    | ok s' =>
      simp only [commit'_ok]
      rw [exec_total hx]
      exact ⟨Snap.save_upTo _ hi hle, fun h hh => by rw [Snap.save_at _ hi hle, if_pos hh]⟩
  refine ⟨key.1, key.2, fun h hh => ?_⟩
  rw [Snap.at_future key.1 hh]
  rfl

/-- The supply reported for a past unit is what was recorded at its beginning. -/
theorem totalSupplyAt_recorded (c : Cfg A D) (os : List (Env × Op A D)) (now : Env) (hm : Timely c os now)
    (u : Option Nat) :
    totalSupplyAt c (run c init os) now u =
      if u = none ∨ u = some (unit c now) then recorded (run c init os) else recorded (atStart c os (u.getD 0)) := by
  have hi : (init : State A).total.UpTo 0 := by intro e he; simp [init, Snap.empty] at he
  unfold totalSupplyAt
  cases u with
  | none => simp only [Option.getD_none, if_true, true_or]; rfl
  | some u =>
    simp only [Option.getD_some, reduceCtorEq, false_or, Option.some.injEq]
    split
    · rfl
    · have h := history (step c) (fun o => unit c o.1) (fun s h => (s.total.at_ h).getD 0) recorded
        (fun s H => s.total.UpTo H) (step_total c) init 0 os hi hm.1 u (fun _ => by rfl)
      unfold run
      rw [h]
      split
      · rename_i h0
        have : u = 0 := by omega
        subst this
        unfold atStart
        have : (os.takeWhile fun o => decide (unit c o.1 < 0)) = [] := by
          cases os with
          | nil => rfl
          | cons x r => simp
        rw [this]; rfl
      · rfl

/-- The transaction is not a burn. -/
def NotBurn : Op A D → Bool
  | .burn _ _ => false
  | _ => true

omit [DecidableEq A] [DecidableEq D] in
theorem atHook_eq {o : Op A D} (h : NotBurn o = true) (n : Nat) : atHook o n = n := by
  cases o <;> simp_all [NotBurn, atHook]

/-- The recorded supply is never below the true one, and equal to it while nothing was burned. -/
theorem recorded_ge (c : Cfg A D) (os : List (Env × Op A D)) :
    ∀ s : State A, s.supply ≤ recorded s → (run c s os).supply ≤ recorded (run c s os) := by
  induction os with
  | nil => exact fun _ h => h
  | cons o rest ih =>
    intro s h
    have hrun : run c s (o :: rest) = run c (step c s o) rest := rfl
    rw [hrun]
    apply ih
    unfold step
    cases hx : exec c s o.1 o.2 with
    | error e => exact h
    | ok s' =>
      simp only [commit'_ok, recorded, exec_total hx, Snap.save, Option.getD_some]
      unfold atHook
      split <;> omega

theorem recorded_eq (c : Cfg A D) (os : List (Env × Op A D)) (hn : ∀ o ∈ os, NotBurn o.2 = true) :
    ∀ s : State A, recorded s = s.supply → recorded (run c s os) = (run c s os).supply := by
  induction os with
  | nil => exact fun _ h => h
  | cons o rest ih =>
    intro s h
    have hrun : run c s (o :: rest) = run c (step c s o) rest := rfl
    rw [hrun]
    apply ih (fun o ho => hn o (List.mem_cons_of_mem _ ho))
    unfold step
    cases hx : exec c s o.1 o.2 with
    | error e => exact h
    | ok s' =>
      have hb := hn o List.mem_cons_self
      simp only [commit'_ok, recorded, exec_total hx, Snap.save, Option.getD_some]
      exact atHook_eq hb _

/-- **C96.**  `TotalSupplyAt` is never less than the true supply: at the beginning of a past unit, or now. -/
theorem C96_never_understated (c : Cfg A D) (os : List (Env × Op A D)) (now : Env) (hm : Timely c os now)
    (u : Option Nat) :
    (if u = none ∨ u = some (unit c now) then (run c init os).supply else (atStart c os (u.getD 0)).supply) ≤
      totalSupplyAt c (run c init os) now u := by
  rw [totalSupplyAt_recorded c os now hm]
  split
  · exact recorded_ge c os init (le_refl _)
  · exact recorded_ge c _ init (le_refl _)

/-- **C96 (partial).**  Without burns `TotalSupplyAt` is the true supply.  Missing: after a burn, see
`C96_burn_unrecorded_violated`. -/
theorem C96_exact_without_burns_partial (c : Cfg A D) (os : List (Env × Op A D)) (now : Env) (hm : Timely c os now)
    (hn : ∀ o ∈ os, NotBurn o.2 = true) (u : Option Nat) :
    totalSupplyAt c (run c init os) now u =
      if u = none ∨ u = some (unit c now) then (run c init os).supply else (atStart c os (u.getD 0)).supply := by
  rw [totalSupplyAt_recorded c os now hm]
  split
  · exact recorded_eq c os hn init rfl
  · exact recorded_eq c _ (fun o ho => hn o (List.takeWhile_subset _ ho)) init rfl

example : Timely demoCfg (demo.take 5) ⟨9, 90⟩ ∧ (∀ o ∈ demo.take 5, NotBurn o.2 = true) ∧
    totalSupplyAt demoCfg (run demoCfg init (demo.take 5)) ⟨9, 90⟩ (some 6) = 110 := by decide +kernel

/-- **C96 (partial).**  Burns or not: once a mint or a send has succeeded, and until the next burn, `TotalSupplyAt` of
the following units is the true supply at their beginning. -/
theorem C96_exact_after_movement_partial (c : Cfg A D) (os : List (Env × Op A D)) (now : Env)
    (hm : Timely c os now) (u : Nat) (hu : u ≠ unit c now) (pre : List (Env × Op A D)) (o : Env × Op A D)
    (hpre : (os.takeWhile fun o => decide (unit c o.1 < u)) = pre ++ [o])
    (hok : ∃ s', exec c (run c init pre) o.1 o.2 = .ok s') (hn : NotBurn o.2 = true) :
    totalSupplyAt c (run c init os) now (some u) = (atStart c os u).supply := by
  rw [totalSupplyAt_recorded c os now hm, if_neg (by simpa using hu)]
  simp only [Option.getD_some]
  unfold atStart
  rw [hpre]
  obtain ⟨s', hs⟩ := hok
  have hrun : run c init (pre ++ [o]) = s' := by
    unfold run
    rw [List.foldl_append]
    simp only [List.foldl_cons, List.foldl_nil]
    rw [show List.foldl (step c) init pre = run c init pre from rfl]
    unfold step
    rw [hs]
    rfl
  rw [hrun]
  simp only [recorded, exec_total hs, Snap.save, Option.getD_some]
  exact atHook_eq hn _

/-- A burn at height 8 followed by a send to oneself at height 9. -/
def demo2 : List (Env × Op Nat Nat) := demo ++ [(⟨9, 90⟩, .send 2 2 1)]

example : Timely demoCfg demo2 ⟨12, 120⟩ ∧ (demo2.takeWhile fun o => decide (unit demoCfg o.1 < 10)) =
      demo ++ [(⟨9, 90⟩, .send 2 2 1)] ∧
    okAnd (exec demoCfg (run demoCfg init demo) ⟨9, 90⟩ (.send 2 2 1)) (fun _ => true) = true ∧
    totalSupplyAt demoCfg (run demoCfg init demo2) ⟨12, 120⟩ (some 10) = 60 := by
  refine ⟨by decide +kernel, by rfl, by decide +kernel, by decide +kernel⟩

/-- **C96 violated.**  After a burn `TotalSupplyAt` keeps reporting the supply before it, for all later units and now,
until the next mint or send.  Witness: 110 minted, 50 burned at height 8, and at height 100 the reported supply is
still 110 while the balances reported for the same height sum to 60. -/
theorem C96_burn_unrecorded_violated :
    ∃ (os : List (Env × Op Nat Nat)) (now : Env), Timely demoCfg os now ∧
      (run demoCfg init os).supply = 60 ∧ totalSupplyAt demoCfg (run demoCfg init os) now none = 110 ∧
      totalSupplyAt demoCfg (run demoCfg init os) now (some 50) = 110 ∧
      balanceAt demoCfg (run demoCfg init os) now 1 (some 50) +
        balanceAt demoCfg (run demoCfg init os) now 2 (some 50) = 60 :=
  ⟨demo, ⟨100, 1000⟩, by decide +kernel⟩

/-- The bank's balances sum to its supply along every history. -/
theorem run_sum [Fintype A] (c : Cfg A D) (os : List (Env × Op A D)) :
    ∀ s : State A, ∑ a, s.bank a = s.supply → ∑ a, (run c s os).bank a = (run c s os).supply := by
  induction os with
  | nil => exact fun _ h => h
  | cons o rest ih =>
    intro s h
    have hrun : run c s (o :: rest) = run c (step c s o) rest := rfl
    rw [hrun]
    apply ih
    unfold step
    refine commit'_inv (fun s : State A => ∑ a, s.bank a = s.supply) h fun s' hx => ?_
    cases ho : o.2 with
    | mint dst n =>
      rw [ho] at hx
      simp only [exec, bind_ok_iff, u128_ok, Except.ok.injEq] at hx
      obtain ⟨_, ⟨_, rfl⟩, s1, h1, b, hb, rfl⟩ := hx
      obtain ⟨_, e1, e2, _, _⟩ := hook_ok h1
      simp only
      rw [sum_move hb, e1, e2]
      simp only
      rw [sum_credit, h]
    | burn src n =>
      rw [ho] at hx
      simp only [exec, bind_ok_iff, csub_ok, Except.ok.injEq] at hx
      obtain ⟨s1, h1, b, hb, b2, hb2, _, ⟨hs, rfl⟩, rfl⟩ := hx
      obtain ⟨_, e1, e2, _, _⟩ := hook_ok h1
      have h3 := sum_debit hb2
      have h4 := sum_move hb
      simp only
      rw [e1, h] at h4
      omega
    | send src dst n =>
      rw [ho] at hx
      simp only [exec, bind_ok_iff, require_ok, exists_const, Except.ok.injEq] at hx
      obtain ⟨_, s1, h1, b, hb, rfl⟩ := hx
      obtain ⟨_, e1, e2, _, _⟩ := hook_ok h1
      simp only
      rw [sum_move hb, e1, e2, h]
    | foreign d src dst n =>
      rw [ho] at hx
      simp only [exec, bind_ok_iff, require_ok, exists_const] at hx
      obtain ⟨hd, hx⟩ := hx
      exact absurd (hook_ok hx).1 hd

/-- **C58.**  The tracker never blocks a send: in every reachable state every holder can send any part of their
balance to every ordinary account. -/
theorem C58_holders_can_always_send [Fintype A] (c : Cfg A D) (os : List (Env × Op A D)) (e : Env) (src dst : A)
    (n : Nat) (hs : (run c (init : State A) os).supply < U128) (hm : src ≠ c.mod ∧ dst ≠ c.mod)
    (hn : n ≤ (run c (init : State A) os).bank src) :
    ∃ s', exec c (run c init os) e (.send src dst n) = .ok s' := by
  obtain ⟨s1, h1⟩ := C58_never_blocks c (run c init os) e src dst n
    (run_sum c os init (by simp [init])) hs hn
  have hb := (hook_ok h1).2.1
  obtain ⟨b, h2⟩ := move_succeeds (b := dst) (show n ≤ s1.bank src by rw [hb]; exact hn)
  unfold exec
  simp only
  rw [(require_ok _ _ ()).2 hm, ok_bind, h1, ok_bind, h2]
  exact ⟨_, rfl⟩

example : (run demoCfg init demo).supply < U128 ∧ 20 ≤ (run demoCfg init demo).bank 1 := by decide +kernel

end Verif.Tracker
