import Verif.Staking.Lemmas
import Verif.Tracker.Props

/-!
# The staking contract together with the tracker of xASTRO

The staking contract answers `BalanceAt` and `TotalSupplyAt` for a past time by asking the tracker that the chain calls
before every movement of xASTRO.  Here both run on one ledger of xASTRO: every mint, burn and send the staking contract
causes is a transaction of `Verif.Tracker` with its hook, in the order of the contract's messages, and an error in any
of them cancels the whole call.

Simplification: the staking contract talks to the tracker through the message types of an earlier release of
`astroport` (`astroport_v4`), whose parameter is called `timestamp`; the tracker here is the one in the repository, which
tracks over seconds or heights by its configuration.
-/

namespace Verif.Joint.StakingHistory
open Verif.Tracker (Cfg Env unit)

variable {A D : Type} [DecidableEq A] [DecidableEq D]

/-- The ledger of ASTRO, and the ledger and supply of xASTRO together with what the tracker has stored. -/
structure World (A : Type) where
  astro : A → Nat
  x : Tracker.State A

/-- What the staking contract alone works on. -/
def World.plain (w : World A) : Staking.State A := ⟨w.astro, w.x.bank, w.x.supply⟩

/-- Before the first stake. -/
def start (astro : A → Nat) : World A := ⟨astro, Tracker.init⟩

/-- Movements of xASTRO in the order of the messages that cause them. -/
def execAll (c : Cfg A D) (s : Tracker.State A) (e : Env) : List (Tracker.Op A D) → Res (Tracker.State A)
  | [] => .ok s
  | o :: os => do
    let s ← Tracker.exec c s e o
    execAll c s e os

/-- contracts/tokenomics/staking/src/contract.rs:238-300: the mint messages of `execute_enter`, the first one only for
the first stake. -/
def mints (me : A) (locked minted : Nat) : List (Tracker.Op A D) :=
  if locked = 0 then [.mint me minted] else [.mint me locked, .mint me minted]

/-- contracts/tokenomics/staking/src/contract.rs:238-314, `execute_enter` up to the message that passes the minted
xASTRO on. -/
def enterMint (c : Cfg A D) (me : A) (w : World A) (e : Env) (u : A) (n : Nat) : Res (World A × Nat) := do
  require (n ≠ 0) (.invalid "NoFunds")
  let astro ← move w.astro u me n
  let deposit ← csub (astro me) n
  let (locked, minted) ← Staking.mintAmount deposit w.x.supply n
  let x ← execAll c w.x e (mints me locked minted)
  .ok (⟨astro, x⟩, minted)

/-- contracts/tokenomics/staking/src/contract.rs:118-142: `Enter`, or `EnterWithHook` of another contract. -/
def enter (c : Cfg A D) (me : A) (w : World A) (e : Env) (u : A) (n : Nat) (r : A) : Res (World A) := do
  let (w, minted) ← enterMint c me w e u n
  let x ← execAll c w.x e [.send me r minted]
  .ok { w with x := x }

/-- contracts/tokenomics/staking/src/contract.rs:318-378, `execute_leave`: the attached xASTRO arrives, is burned, ASTRO
is paid out and one unit of xASTRO is sent from the contract to itself. -/
def leave (c : Cfg A D) (me : A) (w : World A) (e : Env) (u : A) (n : Nat) (r : A) : Res (World A) := do
  require (n ≠ 0) (.invalid "NoFunds")
  let x ← execAll c w.x e [.send u me n]
  let ret ← mulRatio n (w.astro me) x.supply
  let x ← execAll c x e [.burn me n]
  let astro ← move w.astro me r ret
  let x ← execAll c x e [.send me me 1]
  .ok ⟨astro, x⟩

/-- One transaction; the staking contract itself signs none. -/
def exec (c : Cfg A D) (me : A) (w : World A) (e : Env) : Staking.Op A → Res (World A)
  | .enter u n r => do
    require (u ≠ me) .unauthorized
    enter c me w e u n r
  | .leave u n r => do
    require (u ≠ me) .unauthorized
    leave c me w e u n r
  | .enterHookLeave u n r => do
    require (u ≠ me) .unauthorized
    let (w, minted) ← enterMint c me w e u n
    leave c me w e me minted r
  | .sendAstro u n r => do
    require (u ≠ me) .unauthorized
    let l ← move w.astro u r n
    .ok { w with astro := l }
  | .sendX u n r => do
    require (u ≠ me) .unauthorized
    let x ← execAll c w.x e [.send u r n]
    .ok { w with x := x }

/-- Reverting step. -/
def step (c : Cfg A D) (me : A) (w : World A) (o : Env × Staking.Op A) : World A := commit' w (exec c me w o.1 o.2)

/-- A history. -/
def run (c : Cfg A D) (me : A) (w : World A) (os : List (Env × Staking.Op A)) : World A := os.foldl (step c me) w

/-- contracts/tokenomics/staking/src/contract.rs:395-421, query `BalanceAt`: without a time the bank is asked. -/
def balanceAt (c : Cfg A D) (w : World A) (now : Env) (a : A) : Option Nat → Nat
  | none => w.x.bank a
  | some u => Tracker.balanceAt c w.x now a (some u)

/-- contracts/tokenomics/staking/src/contract.rs:422-445, query `TotalSupplyAt`. -/
def totalSupplyAt (c : Cfg A D) (w : World A) (now : Env) : Option Nat → Nat
  | none => w.x.supply
  | some u => Tracker.totalSupplyAt c w.x now (some u)

/-! ## Specification -/

/-- No transaction names the account of the token factory module, which the chain blocks. -/
def Avoids (mod : A) : Staking.Op A → Prop
  | .enter u _ r | .leave u _ r | .enterHookLeave u _ r | .sendAstro u _ r | .sendX u _ r => u ≠ mod ∧ r ≠ mod

instance (mod : A) : ∀ o, Decidable (Avoids mod o)
  | .enter _ _ _ | .leave _ _ _ | .enterHookLeave _ _ _ | .sendAstro _ _ _ | .sendX _ _ _ =>
    inferInstanceAs (Decidable (_ ∧ _))

/-- Times never decrease along the history and have not passed `now`. -/
def Timely (c : Cfg A D) (os : List (Env × Staking.Op A)) (now : Env) : Prop :=
  Mono (fun o => unit c o.1) 0 os ∧ ∀ o ∈ os, unit c o.1 ≤ unit c now

instance (c : Cfg A D) (os : List (Env × Staking.Op A)) (now : Env) : Decidable (Timely c os now) :=
  inferInstanceAs (Decidable (_ ∧ _))

/-- The staking contract by itself, without any tracker, after a history. -/
def alone (me : A) (astro : A → Nat) (os : List (Env × Staking.Op A)) : Staking.State A :=
  Staking.run me (Staking.init astro) (os.map (·.2))

/-- The state a question about time `u` is about: now, or after all transactions of earlier times. -/
def asked (c : Cfg A D) (me : A) (astro : A → Nat) (os : List (Env × Staking.Op A)) (now : Env) (u : Option Nat) :
    Staking.State A :=
  if u = none ∨ u = some (unit c now) then alone me astro os
  else alone me astro (os.takeWhile fun o => decide (unit c o.1 < u.getD 0))

/-! ## Movements -/

theorem send_plain {c : Cfg A D} {s s' : Tracker.State A} {e : Env} {src dst : A} {n : Nat}
    (h : Tracker.exec c s e (.send src dst n) = .ok s') :
    move s.bank src dst n = .ok s'.bank ∧ s'.supply = s.supply := by
  simp only [Tracker.exec, bind_ok_iff, require_ok, exists_const, Except.ok.injEq] at h
  obtain ⟨_, s1, h1, b, hb, rfl⟩ := h
  obtain ⟨_, e1, e2, _, _⟩ := Tracker.hook_ok h1
  rw [e1] at hb
  exact ⟨hb, e2⟩

theorem mint_plain {c : Cfg A D} {s s' : Tracker.State A} {e : Env} {dst : A} {n : Nat} (hd : dst ≠ c.mod)
    (h : Tracker.exec c s e (.mint dst n) = .ok s') :
    s'.bank = credit s.bank dst n ∧ s'.supply = s.supply + n := by
  simp only [Tracker.exec, bind_ok_iff, u128_ok, Except.ok.injEq] at h
  obtain ⟨_, ⟨_, rfl⟩, s1, h1, b, hb, rfl⟩ := h
  obtain ⟨_, e1, e2, _, _⟩ := Tracker.hook_ok h1
  rw [e1] at hb
  refine ⟨?_, e2⟩
  funext a
  simp only [move_apply hb a, credit_apply]
  by_cases h1 : a = c.mod
  · subst h1
    simp [Ne.symm hd]
  · by_cases h2 : a = dst
    · subst h2; rw [if_neg hd, if_neg hd, if_pos rfl, if_pos rfl]
    · simp [h1, h2]

theorem burn_plain {c : Cfg A D} {s s' : Tracker.State A} {e : Env} {src : A} {n : Nat} (hd : src ≠ c.mod)
    (h : Tracker.exec c s e (.burn src n) = .ok s') :
    debit s.bank src n = .ok s'.bank ∧ csub s.supply n = .ok s'.supply := by
  simp only [Tracker.exec, bind_ok_iff, Except.ok.injEq] at h
  obtain ⟨s1, h1, b, hb, b2, hb2, sup, hs, rfl⟩ := h
  obtain ⟨_, e1, e2, _, _⟩ := Tracker.hook_ok h1
  rw [e1] at hb
  rw [e2] at hs
  refine ⟨?_, hs⟩
  rw [debit_ok]
  refine ⟨move_le hb, ?_⟩
  funext a
  have := move_apply hb a
  have h2 := debit_apply hb2 a
  simp only
  by_cases ha : a = src
  · subst ha; simp [hd] at this h2 ⊢; omega
  · simp only [ha, if_false] at this ⊢
    rw [h2, this]
    by_cases hm : a = c.mod
    · subst hm; simp [ha]
    · simp [hm, ha]

variable [Fintype A]

theorem send_total {c : Cfg A D} {s : Tracker.State A} {e : Env} {src dst : A} {n : Nat} {b : A → Nat}
    (hsum : ∑ a, s.bank a = s.supply) (hs : s.supply < U128) (h1 : src ≠ c.mod) (h2 : dst ≠ c.mod)
    (h : move s.bank src dst n = .ok b) : ∃ s', Tracker.exec c s e (.send src dst n) = .ok s' := by
  obtain ⟨s1, hh⟩ := Tracker.C58_never_blocks c s e src dst n hsum hs (move_le h)
  obtain ⟨_, e1, _⟩ := Tracker.hook_ok hh
  have hr : require (src ≠ c.mod ∧ dst ≠ c.mod) .unauthorized = .ok () := (require_ok _ _ ()).2 ⟨h1, h2⟩
  exact ⟨{ s1 with bank := b }, by simp only [Tracker.exec]; rw [hr, ok_bind, hh, ok_bind, e1, h, ok_bind]⟩

theorem mint_total {c : Cfg A D} {s : Tracker.State A} {e : Env} {dst : A} {n : Nat}
    (hsum : ∑ a, s.bank a = s.supply) (hs : s.supply + n < U128) :
    ∃ s', Tracker.exec c s e (.mint dst n) = .ok s' := by
  have h0 : u128 (s.supply + n) = .ok (s.supply + n) := (u128_ok _ _).2 ⟨hs, rfl⟩
  obtain ⟨s1, hh⟩ := Tracker.C58_never_blocks c { s with supply := s.supply + n, bank := credit s.bank c.mod n } e c.mod
    dst n (by simp only; rw [sum_credit, hsum]) hs (by simp)
  obtain ⟨_, e1, _⟩ := Tracker.hook_ok hh
  obtain ⟨b, hb⟩ := move_succeeds (b := dst) (l := credit s.bank c.mod n) (a := c.mod) (n := n) (by simp)
  exact ⟨{ s1 with bank := b }, by simp only [Tracker.exec]; rw [h0, ok_bind, hh, ok_bind, e1, hb, ok_bind]⟩

theorem burn_total {c : Cfg A D} {s : Tracker.State A} {e : Env} {src : A} {n : Nat} {b : A → Nat} {sup : Nat}
    (hsum : ∑ a, s.bank a = s.supply) (hs : s.supply < U128)
    (h : debit s.bank src n = .ok b) (h2 : csub s.supply n = .ok sup) :
    ∃ s', Tracker.exec c s e (.burn src n) = .ok s' := by
  have hle : n ≤ s.bank src := (debit_ok.1 h).1
  obtain ⟨s1, hh⟩ := Tracker.C58_never_blocks c s e src c.mod n hsum hs hle
  obtain ⟨_, e1, e2, _⟩ := Tracker.hook_ok hh
  obtain ⟨b, hb⟩ := move_succeeds (b := c.mod) (l := s.bank) (a := src) (n := n) hle
  have hle2 : n ≤ b c.mod := by rw [move_apply hb c.mod]; simp
  have hb2 := debit_ok.2 ⟨hle2, rfl⟩
  exact ⟨{ s1 with bank := _, supply := sup }, by
    simp only [Tracker.exec]; rw [hh, ok_bind, e1, hb, ok_bind, hb2, ok_bind, e2, h2, ok_bind]⟩

/-! ## The calls -/

omit [Fintype A] in
theorem execAll_one {c : Cfg A D} {s : Tracker.State A} {e : Env} {o : Tracker.Op A D} :
    execAll c s e [o] = Tracker.exec c s e o := by
  simp only [execAll]
  cases Tracker.exec c s e o <;> rfl

omit [Fintype A] in
theorem execAll_append {c : Cfg A D} {s : Tracker.State A} {e : Env} {l l' : List (Tracker.Op A D)} :
    execAll c s e (l ++ l') = execAll c s e l >>= fun s => execAll c s e l' := by
  induction l generalizing s with
  | nil => rfl
  | cons o rest ih =>
    simp only [List.cons_append, execAll]
    cases Tracker.exec c s e o with
    | error x => rfl
    | ok s1 => simp only [ok_bind]; exact ih

omit [Fintype A] in
theorem mints_plain {c : Cfg A D} {s s' : Tracker.State A} {e : Env} {me : A} {locked m : Nat} (hme : me ≠ c.mod)
    (h : execAll c s e (mints me locked m) = .ok s') :
    s'.bank = credit (credit s.bank me locked) me m ∧ s'.supply = s.supply + locked + m := by
  unfold mints at h
  split at h
  · rename_i h0
    subst h0
    rw [execAll_one] at h
    obtain ⟨h1, h2⟩ := mint_plain hme h
    refine ⟨?_, by omega⟩
    rw [h1]
    funext a
    by_cases ha : a = me <;> simp [credit_apply, ha]
  · simp only [execAll, bind_ok_iff, Except.ok.injEq] at h
    obtain ⟨s1, h1, s2, h2, rfl⟩ := h
    obtain ⟨a1, a2⟩ := mint_plain hme h1
    obtain ⟨b1, b2⟩ := mint_plain hme h2
    exact ⟨by rw [b1, a1], by omega⟩

theorem mints_total {c : Cfg A D} {s : Tracker.State A} {e : Env} {me : A} {locked m : Nat} (hme : me ≠ c.mod)
    (hsum : ∑ a, s.bank a = s.supply) (hs : s.supply + locked + m < U128) :
    ∃ s', execAll c s e (mints me locked m) = .ok s' := by
  unfold mints
  split
  · rw [execAll_one]
    exact mint_total hsum (by omega)
  · obtain ⟨s1, h1⟩ := mint_total (c := c) (e := e) (dst := me) (n := locked) hsum (by omega)
    obtain ⟨a1, a2⟩ := mint_plain hme h1
    obtain ⟨s2, h2⟩ := mint_total (c := c) (s := s1) (e := e) (dst := me) (n := m)
      (by rw [a1, a2, sum_credit, hsum]) (by omega)
    exact ⟨s2, by simp only [execAll]; rw [h1, ok_bind, h2, ok_bind]⟩

omit [Fintype A] in
/-- With the tracker a call does what it does without. -/
theorem enterMint_plain {c : Cfg A D} {me : A} {w w' : World A} {e : Env} {u : A} {n m : Nat} (hme : me ≠ c.mod)
    (h : enterMint c me w e u n = .ok (w', m)) :
    n ≠ 0 ∧ ∃ locked d, move w.astro u me n = .ok w'.astro ∧ csub (w'.astro me) n = .ok d ∧
      Staking.mintAmount d w.x.supply n = .ok (locked, m) ∧
      w'.x.bank = credit (credit w.x.bank me locked) me m ∧ w'.x.supply = w.x.supply + locked + m := by
  unfold enterMint at h
  simp only [bind_ok_iff, require_ok, exists_const, Except.ok.injEq, Prod.mk.injEq, Prod.exists] at h
  obtain ⟨hn, l, hl, d, hd, locked, m', hm, x, hx, rfl, rfl⟩ := h
  obtain ⟨h1, h2⟩ := mints_plain hme hx
  exact ⟨hn, locked, d, hl, hd, hm, h1, h2⟩

omit [Fintype A] in
theorem enter_plain {c : Cfg A D} {me : A} {w w' : World A} {e : Env} {u r : A} {n : Nat} (hme : me ≠ c.mod)
    (h : enter c me w e u n r = .ok w') : ∃ m, Staking.enter me w.plain u n r = .ok (w'.plain, m) := by
  simp only [enter, bind_ok_iff, execAll_one, Except.ok.injEq, Prod.exists] at h
  obtain ⟨w1, m, h1, x, hx, rfl⟩ := h
  obtain ⟨hn, locked, d, hl, hd, hm, a1, a2⟩ := enterMint_plain hme h1
  obtain ⟨b1, b2⟩ := send_plain hx
  rw [a1] at b1
  refine ⟨m, ?_⟩
  have hr : require (n ≠ 0) (.invalid "NoFunds") = .ok () := (require_ok _ _ ()).2 hn
  simp only [Staking.enter, World.plain]
  rw [hr, ok_bind, hl, ok_bind, hd, ok_bind, hm, ok_bind]
  simp only
  rw [b1, ok_bind]
  simp only [Except.ok.injEq, Prod.mk.injEq, and_true]
  rw [b2, a2]

omit [Fintype A] in
theorem leave_plain {c : Cfg A D} {me : A} {w w' : World A} {e : Env} {u r : A} {n : Nat} (hme : me ≠ c.mod)
    (h : leave c me w e u n r = .ok w') : ∃ ret, Staking.leave me w.plain u n r = .ok (w'.plain, ret) := by
  simp only [leave, bind_ok_iff, require_ok, exists_const, execAll_one, Except.ok.injEq] at h
  obtain ⟨hn, x1, h1, ret, hret, x2, h2, l, hl, x3, h3, rfl⟩ := h
  obtain ⟨a1, a2⟩ := send_plain h1
  obtain ⟨b1, b2⟩ := burn_plain hme h2
  obtain ⟨c1, c2⟩ := send_plain h3
  rw [a2] at hret b2
  refine ⟨ret, ?_⟩
  have hr : require (n ≠ 0) (.invalid "NoFunds") = .ok () := (require_ok _ _ ()).2 hn
  simp only [Staking.leave, World.plain]
  rw [hr, ok_bind, a1, ok_bind, hret, ok_bind, b1, ok_bind, b2, ok_bind, hl, ok_bind, c1, ok_bind, c2]

omit [Fintype A] in
/-- Sending to oneself what one has changes nothing. -/
theorem move_self {l : A → Nat} {a : A} {n : Nat} (h : n ≤ l a) : move l a a n = .ok l := by
  obtain ⟨l', hl⟩ := move_succeeds (b := a) h
  rw [hl]
  congr 1
  funext b
  rw [move_apply hl b]
  by_cases hb : b = a
  · subst hb; simp; omega
  · simp [hb]

omit [Fintype A] in
theorem exec_plain {c : Cfg A D} {me : A} {w w' : World A} {e : Env} {o : Staking.Op A} (hme : me ≠ c.mod)
    (h : exec c me w e o = .ok w') : Staking.exec me w.plain o = .ok w'.plain := by
  cases o with
  | enter u n r =>
    simp only [exec, bind_ok_iff, require_ok, exists_const] at h
    obtain ⟨hu, h⟩ := h
    obtain ⟨m, hm⟩ := enter_plain hme h
    have hr : require (u ≠ me) .unauthorized = .ok () := (require_ok _ _ ()).2 hu
    simp only [Staking.exec]
    rw [hr, ok_bind, hm, ok_bind]
  | leave u n r =>
    simp only [exec, bind_ok_iff, require_ok, exists_const] at h
    obtain ⟨hu, h⟩ := h
    obtain ⟨m, hm⟩ := leave_plain hme h
    have hr : require (u ≠ me) .unauthorized = .ok () := (require_ok _ _ ()).2 hu
    simp only [Staking.exec]
    rw [hr, ok_bind, hm, ok_bind]
  | enterHookLeave u n r =>
    simp only [exec, bind_ok_iff, require_ok, exists_const, Prod.exists] at h
    obtain ⟨hu, w1, m, h1, h⟩ := h
    obtain ⟨hn, locked, d, hl, hd, hm, a1, a2⟩ := enterMint_plain hme h1
    obtain ⟨ret, h2⟩ := leave_plain hme h
    have hr : require (u ≠ me) .unauthorized = .ok () := (require_ok _ _ ()).2 hu
    have hr' : require (n ≠ 0) (.invalid "NoFunds") = .ok () := (require_ok _ _ ()).2 hn
    have he : Staking.enter me w.plain u n me = .ok (w1.plain, m) := by
      simp only [Staking.enter, World.plain]
      rw [hr', ok_bind, hl, ok_bind, hd, ok_bind, hm, ok_bind]
      simp only
      rw [move_self (by simp), ok_bind]
      simp only [Except.ok.injEq, Prod.mk.injEq, and_true]
      rw [a1, a2]
    simp only [Staking.exec]
    rw [hr, ok_bind, he, ok_bind]
    simp only
    rw [h2, ok_bind]
  | sendAstro u n r =>
    simp only [exec, bind_ok_iff, require_ok, exists_const, Except.ok.injEq] at h
    obtain ⟨hu, l, hl, rfl⟩ := h
    have hr : require (u ≠ me) .unauthorized = .ok () := (require_ok _ _ ()).2 hu
    simp only [Staking.exec, World.plain]
    rw [hr, ok_bind, hl, ok_bind]
  | sendX u n r =>
    simp only [exec, bind_ok_iff, require_ok, exists_const, execAll_one, Except.ok.injEq] at h
    obtain ⟨hu, x, hx, rfl⟩ := h
    have hr : require (u ≠ me) .unauthorized = .ok () := (require_ok _ _ ()).2 hu
    obtain ⟨b1, b2⟩ := send_plain hx
    simp only [Staking.exec, World.plain]
    rw [hr, ok_bind, b1, ok_bind, b2]

/-! ## The tracker never stands in the way -/

/-- Every xASTRO is backed by at least one ASTRO, and all ASTRO fit into 128 bits. -/
structure Sound (me : A) (s : Staking.State A) : Prop where
  inv : Staking.Inv me s
  backed : s.xSupply ≤ s.astro me
  fits : ∑ a, s.astro a < U128

omit [DecidableEq A] in
theorem Sound.small {me : A} {s : Staking.State A} (h : Sound me s) : s.xSupply < U128 :=
  lt_of_le_of_lt (le_trans h.backed (le_sum _ _)) h.fits

theorem enter_sound {me : A} {s : Staking.State A} {u : A} {n : Nat} {r : A} {s' : Staking.State A} {m : Nat}
    (hi : Sound me s) (hu : u ≠ me) (h : Staking.enter me s u n r = .ok (s', m)) : Sound me s' := by
  obtain ⟨sp⟩ := Staking.enter_spec hu h
  refine ⟨Staking.enter_inv hi.inv hu sp, ?_, ?_⟩
  · have h1 := sp.ha me
    simp [Ne.symm hu] at h1
    rw [sp.hsup, h1]
    have hb := hi.backed
    rcases Staking.mintAmount_ok sp.hmint with ⟨h2 | h2, _, _, _⟩ | ⟨_, hD, h3, h4, _⟩
    · omega
    · omega
    · have h5 : n * s.xSupply / s.astro me ≤ n := by
        apply Nat.div_le_of_le_mul
        rw [Nat.mul_comm]
        exact Nat.mul_le_mul_right _ hb
      omega
  · unfold Staking.enter at h
    simp only [bind_ok_iff, require_ok, Except.ok.injEq, Prod.mk.injEq, Prod.exists] at h
    obtain ⟨_, _, l, hl, _, _, _, _, _, _, _, rfl, _⟩ := h
    simp only [sum_move hl]
    exact hi.fits

theorem leave_sound {me : A} {s : Staking.State A} {u : A} {n : Nat} {r : A} {s' : Staking.State A} {m : Nat}
    (hi : Sound me s) (hl : 1000 ≤ s'.xastro me) (h : Staking.leave me s u n r = .ok (s', m)) : Sound me s' := by
  have sp := Staking.leave_spec h
  have hi' := Staking.leave_inv hi.inv hl sp
  have hpos : 0 < s'.xSupply := by
    rw [hi'.hsum]
    exact lt_of_lt_of_le (by omega) (le_sum s'.xastro me)
  have hS := sp.hS
  refine ⟨hi', ?_, ?_⟩
  · obtain ⟨_, h1⟩ := Staking.leave_rate sp hpos (by omega)
    have h2 : s.xSupply * s'.xSupply ≤ s.xSupply * s'.astro me := by
      calc s.xSupply * s'.xSupply ≤ s.astro me * s'.xSupply := Nat.mul_le_mul_right _ hi.backed
        _ ≤ s'.astro me * s.xSupply := h1
        _ = s.xSupply * s'.astro me := by ring
    exact Nat.le_of_mul_le_mul_left h2 (by omega)
  · unfold Staking.leave at h
    simp only [bind_ok_iff, require_ok, Except.ok.injEq, Prod.mk.injEq] at h
    obtain ⟨_, _, _, _, _, _, _, _, _, _, l, hm, _, _, rfl, _⟩ := h
    simp only [sum_move hm]
    exact hi.fits

/-- What remains locked after leaving. -/
theorem leave_locked {me : A} {s : Staking.State A} {u : A} {n : Nat} {r : A} {s' : Staking.State A} {m : Nat}
    (hi : Sound me s) (hu : u ≠ me) (h : Staking.leave me s u n r = .ok (s', m)) : 1000 ≤ s'.xastro me := by
  have sp := Staking.leave_spec h
  rw [sp.hx]; simp [Ne.symm hu]
  have := sp.hS
  rcases hi.inv.hlock with h | h <;> omega

theorem hook_locked {me : A} {s s1 s' : Staking.State A} {u : A} {n : Nat} {r : A} {m k : Nat}
    (hi : Sound me s) (hu : u ≠ me) (h1 : Staking.enter me s u n me = .ok (s1, m))
    (h : Staking.leave me s1 me m r = .ok (s', k)) : 1000 ≤ s'.xastro me := by
  obtain ⟨sp⟩ := Staking.enter_spec hu h1
  have sp2 := Staking.leave_spec h
  rw [sp2.hx]; simp
  have e := sp.hx me
  simp at e
  rcases Staking.mintAmount_ok sp.hmint with ⟨_, _, h4, _⟩ | ⟨h3, _, _, _⟩
  · omega
  · rcases hi.inv.hlock with h0 | h0 <;> omega

theorem exec_sound {me : A} {s s' : Staking.State A} (hi : Sound me s) {o : Staking.Op A}
    (h : Staking.exec me s o = .ok s') : Sound me s' := by
  cases o with
  | enter u n r =>
    simp only [Staking.exec, bind_ok_iff, require_ok, Except.ok.injEq, Prod.exists] at h
    obtain ⟨_, hu, s1, m, h1, rfl⟩ := h
    exact enter_sound hi hu h1
  | leave u n r =>
    simp only [Staking.exec, bind_ok_iff, require_ok, Except.ok.injEq, Prod.exists] at h
    obtain ⟨_, hu, s1, m, h1, rfl⟩ := h
    exact leave_sound hi (leave_locked hi hu h1) h1
  | enterHookLeave u n r =>
    simp only [Staking.exec, bind_ok_iff, require_ok, Except.ok.injEq, Prod.exists] at h
    obtain ⟨_, hu, s1, m, h1, s2, ret, h2, rfl⟩ := h
    exact leave_sound (enter_sound hi hu h1) (hook_locked hi hu h1 h2) h2
  | sendAstro u n r =>
    have hx := h
    simp only [Staking.exec, bind_ok_iff, require_ok, Except.ok.injEq] at h
    obtain ⟨_, hu, l, hl, rfl⟩ := h
    refine ⟨(Staking.exec_inv hi.inv hx).1, ?_, by simp only [sum_move hl]; exact hi.fits⟩
    have e := move_apply hl me
    simp [Ne.symm hu] at e
    have := hi.backed
    simp only [e]; omega
  | sendX u n r =>
    have hx := h
    simp only [Staking.exec, bind_ok_iff, require_ok, Except.ok.injEq] at h
    obtain ⟨_, hu, l, hl, rfl⟩ := h
    exact ⟨(Staking.exec_inv hi.inv hx).1, hi.backed, hi.fits⟩

theorem enterMint_total {c : Cfg A D} {me : A} {w : World A} {e : Env} {u r : A} {n m : Nat} {s' : Staking.State A}
    (hme : me ≠ c.mod) (hi : Sound me w.plain) (hi' : Sound me s')
    (h : Staking.enter me w.plain u n r = .ok (s', m)) :
    ∃ w1, enterMint c me w e u n = .ok (w1, m) ∧ ∑ a, w1.x.bank a = w1.x.supply ∧ w1.x.supply < U128 ∧
      m ≤ w1.x.bank me := by
  simp only [Staking.enter, bind_ok_iff, require_ok, exists_const, Except.ok.injEq, Prod.mk.injEq, Prod.exists,
    World.plain] at h
  obtain ⟨hn, l, hl, d, hd, locked, m', hm, x, hx, rfl, rfl⟩ := h
  have hr : require (n ≠ 0) (.invalid "NoFunds") = .ok () := (require_ok _ _ ()).2 hn
  have hlt := hi'.small
  simp only at hlt
  obtain ⟨x1, hx1⟩ := mints_total (c := c) (s := w.x) (e := e) hme hi.inv.hsum.symm hlt
  obtain ⟨a1, a2⟩ := mints_plain hme hx1
  refine ⟨⟨l, x1⟩, ?_, ?_, by rw [a2]; exact hlt, ?_⟩
  · simp only [enterMint]
    rw [hr, ok_bind, hl, ok_bind, hd, ok_bind, hm, ok_bind]
    simp only
    rw [hx1, ok_bind]
  · have := hi.inv.hsum
    simp only [World.plain] at this
    rw [a1, a2, sum_credit, sum_credit, ← this]
  · simp only [a1, credit_self]; omega

theorem leave_total {c : Cfg A D} {me : A} {w : World A} {e : Env} {u r : A} {n m : Nat} {s' : Staking.State A}
    (hme : me ≠ c.mod) (hu : u ≠ c.mod) (hi : Sound me w.plain)
    (h : Staking.leave me w.plain u n r = .ok (s', m)) : ∃ w', leave c me w e u n r = .ok w' := by
  simp only [Staking.leave, bind_ok_iff, require_ok, exists_const, Except.ok.injEq, Prod.mk.injEq, World.plain] at h
  obtain ⟨hn, x, hx, ret, hret, x2, hx2, sup, hsup, l, hl, x3, hx3, _, _⟩ := h
  have hr : require (n ≠ 0) (.invalid "NoFunds") = .ok () := (require_ok _ _ ()).2 hn
  have hlt := hi.small
  have hs := hi.inv.hsum
  simp only [World.plain] at hlt hs
  obtain ⟨y1, h1⟩ := send_total (c := c) (e := e) hs.symm hlt hu hme hx
  obtain ⟨a1, a2⟩ := send_plain h1
  rw [hx, Except.ok.injEq] at a1
  subst a1
  obtain ⟨y2, h2⟩ := burn_total (c := c) (e := e) (s := y1) (by rw [sum_move hx, a2, hs]) (by omega) hx2
    (by rw [a2]; exact hsup)
  obtain ⟨b1, b2⟩ := burn_plain hme h2
  rw [hx2, Except.ok.injEq] at b1
  rw [a2, hsup, Except.ok.injEq] at b2
  obtain ⟨hle, hsv⟩ := (csub_ok _ _ _).1 hsup
  obtain ⟨y3, h3⟩ := send_total (c := c) (e := e) (s := y2) (src := me) (dst := me) (n := 1) (b := x3)
    (by have e1 := sum_debit hx2; have e2 := sum_move hx; rw [← b1, ← b2]; omega) (by omega) hme hme
    (by rw [← b1]; exact hx3)
  refine ⟨⟨l, y3⟩, ?_⟩
  simp only [leave, execAll_one]
  rw [hr, ok_bind, h1, ok_bind, a2, hret, ok_bind, h2, ok_bind, hl, ok_bind, h3, ok_bind]

theorem exec_total {c : Cfg A D} {me : A} {w : World A} {e : Env} {o : Staking.Op A} {s' : Staking.State A}
    (hme : me ≠ c.mod) (ho : Avoids c.mod o) (hi : Sound me w.plain) (h : Staking.exec me w.plain o = .ok s') :
    ∃ w', exec c me w e o = .ok w' := by
  cases o with
  | enter u n r =>
    simp only [Staking.exec, bind_ok_iff, require_ok, exists_const, Except.ok.injEq, Prod.exists] at h
    obtain ⟨hu, s1, m, h1, rfl⟩ := h
    obtain ⟨w1, a1, a2, a3, a4⟩ := enterMint_total (c := c) (e := e) hme hi (enter_sound hi hu h1) h1
    obtain ⟨b, hb⟩ := move_succeeds (b := r) a4
    obtain ⟨x, hx⟩ := send_total (c := c) (e := e) a2 a3 hme ho.2 hb
    have hr : require (u ≠ me) .unauthorized = .ok () := (require_ok _ _ ()).2 hu
    refine ⟨{ w1 with x := x }, ?_⟩
    simp only [exec, enter, execAll_one]
    rw [hr, ok_bind, a1, ok_bind]
    simp only
    rw [hx, ok_bind]
  | leave u n r =>
    simp only [Staking.exec, bind_ok_iff, require_ok, exists_const, Except.ok.injEq, Prod.exists] at h
    obtain ⟨hu, s1, m, h1, rfl⟩ := h
    obtain ⟨w', hw⟩ := leave_total (c := c) (e := e) hme ho.1 hi h1
    have hr : require (u ≠ me) .unauthorized = .ok () := (require_ok _ _ ()).2 hu
    exact ⟨w', by simp only [exec]; rw [hr, ok_bind, hw]⟩
  | enterHookLeave u n r =>
    simp only [Staking.exec, bind_ok_iff, require_ok, exists_const, Except.ok.injEq, Prod.exists] at h
    obtain ⟨hu, s1, m, h1, s2, k, h2, rfl⟩ := h
    have hs1 := enter_sound hi hu h1
    obtain ⟨w1, a1, a2, a3, a4⟩ := enterMint_total (c := c) (e := e) hme hi hs1 h1
    have he : w1.plain = s1 := by
      obtain ⟨hn, locked, d, hl, hd, hm, b1, b2⟩ := enterMint_plain hme a1
      simp only [Staking.enter, bind_ok_iff, require_ok, exists_const, Except.ok.injEq, Prod.mk.injEq, Prod.exists,
        World.plain] at h1
      obtain ⟨_, l, hl', d', hd', locked', m', hm', x, hx, rfl, rfl⟩ := h1
      rw [hl, Except.ok.injEq] at hl'
      subst hl'
      rw [hd, Except.ok.injEq] at hd'
      subst hd'
      rw [hm, Except.ok.injEq, Prod.mk.injEq] at hm'
      obtain ⟨rfl, _⟩ := hm'
      rw [move_self (by simp), Except.ok.injEq] at hx
      simp only [World.plain, b1, b2, hx]
    subst he
    obtain ⟨w', hw⟩ := leave_total (c := c) (e := e) hme hme hs1 h2
    have hr : require (u ≠ me) .unauthorized = .ok () := (require_ok _ _ ()).2 hu
    refine ⟨w', ?_⟩
    simp only [exec]
    rw [hr, ok_bind, a1, ok_bind]
    simp only
    rw [hw]
  | sendAstro u n r =>
    simp only [Staking.exec, bind_ok_iff, require_ok, exists_const, Except.ok.injEq, World.plain] at h
    obtain ⟨hu, l, hl, rfl⟩ := h
    have hr : require (u ≠ me) .unauthorized = .ok () := (require_ok _ _ ()).2 hu
    exact ⟨{ w with astro := l }, by simp only [exec]; rw [hr, ok_bind, hl, ok_bind]⟩
  | sendX u n r =>
    simp only [Staking.exec, bind_ok_iff, require_ok, exists_const, Except.ok.injEq, World.plain] at h
    obtain ⟨hu, l, hl, rfl⟩ := h
    have hr : require (u ≠ me) .unauthorized = .ok () := (require_ok _ _ ()).2 hu
    have hs := hi.inv.hsum
    simp only [World.plain] at hs
    obtain ⟨x, hx⟩ := send_total (c := c) (e := e) hs.symm hi.small ho.1 ho.2 hl
    exact ⟨{ w with x := x }, by simp only [exec, execAll_one]; rw [hr, ok_bind, hx, ok_bind]⟩

theorem step_same {c : Cfg A D} {me : A} {w : World A} {o : Env × Staking.Op A} (hme : me ≠ c.mod)
    (ho : Avoids c.mod o.2) (hi : Sound me w.plain) :
    (step c me w o).plain = Staking.step me w.plain o.2 ∧ Sound me (step c me w o).plain := by
  unfold step Staking.step
  cases hx : exec c me w o.1 o.2 with
  | ok w' =>
    have h1 := exec_plain hme hx
    rw [h1]
    exact ⟨rfl, exec_sound hi h1⟩
  | error x =>
    cases hy : Staking.exec me w.plain o.2 with
    | error y => exact ⟨rfl, hi⟩
    | ok s' =>
      obtain ⟨w', hw⟩ := exec_total (e := o.1) hme ho hi hy
      rw [hx] at hw
      cases hw

theorem run_same {c : Cfg A D} {me : A} (hme : me ≠ c.mod) (os : List (Env × Staking.Op A))
    (ho : ∀ o ∈ os, Avoids c.mod o.2) {w : World A} (hi : Sound me w.plain) :
    (run c me w os).plain = Staking.run me w.plain (os.map (·.2)) ∧ Sound me (run c me w os).plain := by
  induction os generalizing w with
  | nil => exact ⟨rfl, hi⟩
  | cons o rest ih =>
    obtain ⟨h1, h2⟩ := step_same hme (ho o List.mem_cons_self) hi
    obtain ⟨h3, h4⟩ := ih (fun o h => ho o (List.mem_cons_of_mem _ h)) h2
    refine ⟨?_, h4⟩
    show (run c me (step c me w o) rest).plain = _
    rw [h3, h1]
    rfl

omit [DecidableEq A] in
theorem start_sound (me : A) {astro : A → Nat} (h : ∑ a, astro a < U128) : Sound me (start astro).plain :=
  ⟨Staking.init_inv me astro, Nat.zero_le _, h⟩

/-! ## What the tracker has recorded -/

omit [Fintype A] in
/-- The movements of a successful transaction; the last one is no burn. -/
theorem exec_moves {c : Cfg A D} {me : A} {w w' : World A} {e : Env} {o : Staking.Op A}
    (h : exec c me w e o = .ok w') :
    w'.x = w.x ∨ ∃ l t, Tracker.NotBurn t = true ∧ execAll c w.x e (l ++ [t]) = .ok w'.x := by
  have hlv : ∀ {w w' : World A} {u r : A} {n : Nat}, leave c me w e u n r = .ok w' →
      execAll c w.x e ([.send u me n, .burn me n] ++ [.send me me 1]) = .ok w'.x := by
    intro w w' u r n h
    simp only [leave, bind_ok_iff, require_ok, exists_const, execAll_one, Except.ok.injEq] at h
    obtain ⟨hn, x1, h1, ret, hret, x2, h2, l, hl, x3, h3, rfl⟩ := h
    simp only [List.cons_append, List.nil_append, execAll]
    rw [h1, ok_bind, h2, ok_bind, h3, ok_bind]
  cases o with
  | enter u n r =>
    simp only [exec, enter, bind_ok_iff, require_ok, exists_const, Except.ok.injEq, Prod.exists] at h
    obtain ⟨_, w1, m, h1, x, hx, rfl⟩ := h
    simp only [enterMint, bind_ok_iff, require_ok, exists_const, Except.ok.injEq, Prod.mk.injEq, Prod.exists] at h1
    obtain ⟨_, l, _, d, _, locked, m', _, x1, hx1, rfl, rfl⟩ := h1
    refine Or.inr ⟨mints me locked m', .send me r m', rfl, ?_⟩
    rw [execAll_append, hx1, ok_bind, hx]
  | leave u n r =>
    simp only [exec, bind_ok_iff, require_ok, exists_const] at h
    exact Or.inr ⟨[.send u me n, .burn me n], .send me me 1, rfl, hlv h.2⟩
  | enterHookLeave u n r =>
    simp only [exec, bind_ok_iff, require_ok, exists_const, Prod.exists] at h
    obtain ⟨_, w1, m, h1, h⟩ := h
    simp only [enterMint, bind_ok_iff, require_ok, exists_const, Except.ok.injEq, Prod.mk.injEq, Prod.exists] at h1
    obtain ⟨_, l, _, d, _, locked, m', _, x1, hx1, rfl, rfl⟩ := h1
    refine Or.inr ⟨mints me locked m' ++ [.send me me m', .burn me m'], .send me me 1, rfl, ?_⟩
    rw [List.append_assoc, execAll_append, hx1, ok_bind]
    exact hlv (w := ⟨l, x1⟩) h
  | sendAstro u n r =>
    simp only [exec, bind_ok_iff, require_ok, exists_const, Except.ok.injEq] at h
    obtain ⟨_, l, _, rfl⟩ := h
    exact Or.inl rfl
  | sendX u n r =>
    simp only [exec, bind_ok_iff, require_ok, exists_const, Except.ok.injEq] at h
    obtain ⟨_, x, hx, rfl⟩ := h
    exact Or.inr ⟨[], .send u r n, rfl, hx⟩

omit [Fintype A] in
theorem execAll_run {c : Cfg A D} {s s' : Tracker.State A} {e : Env} {l : List (Tracker.Op A D)}
    (h : execAll c s e l = .ok s') : s' = Tracker.run c s (l.map fun o => (e, o)) := by
  induction l generalizing s with
  | nil => simp only [execAll, Except.ok.injEq] at h; exact h.symm
  | cons o rest ih =>
    simp only [execAll, bind_ok_iff] at h
    obtain ⟨s1, h1, h2⟩ := h
    have := ih h2
    simp only [List.map_cons]
    show s' = Tracker.run c (Tracker.step c s (e, o)) _
    unfold Tracker.step
    simp only [h1, commit'_ok]
    exact this

omit [Fintype A] in
/-- Several movements in one unit keep the records. -/
theorem run_synced {c : Cfg A D} {a : A} (ha : a ≠ c.mod) {e : Env} (l : List (Tracker.Op A D)) {s : Tracker.State A}
    {H : Nat} (hi : Tracker.Synced a s H) (hle : H ≤ unit c e) :
    Tracker.Synced a (Tracker.run c s (l.map fun o => (e, o))) (unit c e) ∧
      ∀ h, h ≤ unit c e → (((Tracker.run c s (l.map fun o => (e, o))).bals a).at_ h).getD 0 =
        ((s.bals a).at_ h).getD 0 := by
  induction l generalizing s H with
  | nil => exact ⟨⟨Snap.upTo_mono hi.1 hle, hi.2⟩, fun _ _ => rfl⟩
  | cons o rest ih =>
    obtain ⟨h1, h2, _⟩ := Tracker.step_synced c ha s H (e, o) hi hle
    obtain ⟨h3, h4⟩ := ih h1 (le_refl _)
    exact ⟨h3, fun h hh => (h4 h hh).trans (h2 h hh)⟩

omit [Fintype A] in
theorem run_total {c : Cfg A D} {e : Env} (l : List (Tracker.Op A D)) {s : Tracker.State A}
    {H : Nat} (hi : s.total.UpTo H) (hle : H ≤ unit c e) :
    (Tracker.run c s (l.map fun o => (e, o))).total.UpTo (unit c e) ∧
      ∀ h, h ≤ unit c e → ((Tracker.run c s (l.map fun o => (e, o))).total.at_ h).getD 0 =
        (s.total.at_ h).getD 0 := by
  induction l generalizing s H with
  | nil => exact ⟨Snap.upTo_mono hi hle, fun _ _ => rfl⟩
  | cons o rest ih =>
    obtain ⟨h1, h2, _⟩ := Tracker.step_total c s H (e, o) hi hle
    obtain ⟨h3, h4⟩ := ih h1 (le_refl _)
    exact ⟨h3, fun h hh => (h4 h hh).trans (h2 h hh)⟩

omit [Fintype A] in
theorem step_bal (c : Cfg A D) (me : A) {a : A} (ha : a ≠ c.mod) (w : World A) (H : Nat) (o : Env × Staking.Op A)
    (hi : Tracker.Synced a w.x H) (hle : H ≤ unit c o.1) :
    Tracker.Synced a (step c me w o).x (unit c o.1) ∧
      (∀ h, h ≤ unit c o.1 → (((step c me w o).x.bals a).at_ h).getD 0 = ((w.x.bals a).at_ h).getD 0) ∧
      (∀ h, unit c o.1 < h → (((step c me w o).x.bals a).at_ h).getD 0 = (step c me w o).x.bank a) := by
  have key : Tracker.Synced a (step c me w o).x (unit c o.1) ∧
      (∀ h, h ≤ unit c o.1 → (((step c me w o).x.bals a).at_ h).getD 0 = ((w.x.bals a).at_ h).getD 0) := by
    unfold step
    cases hx : exec c me w o.1 o.2 with
    | error e => exact ⟨⟨Snap.upTo_mono hi.1 hle, hi.2⟩, fun _ _ => rfl⟩
    | ok w' =>
      simp only [commit'_ok]
      rcases exec_moves hx with h1 | ⟨l, t, _, h1⟩
      · rw [h1]; exact ⟨⟨Snap.upTo_mono hi.1 hle, hi.2⟩, fun _ _ => rfl⟩
      · rw [execAll_run h1]
        exact run_synced ha _ hi hle
  refine ⟨key.1, key.2, fun h hh => ?_⟩
  rw [Snap.at_future key.1.1 hh]
  exact key.1.2

/-- The recorded supply is the true one. -/
def Exact (w : World A) (H : Nat) : Prop := w.x.total.UpTo H ∧ Tracker.recorded w.x = w.x.supply

omit [Fintype A] in
theorem step_supply (c : Cfg A D) (me : A) (w : World A) (H : Nat) (o : Env × Staking.Op A)
    (hi : Exact w H) (hle : H ≤ unit c o.1) :
    Exact (step c me w o) (unit c o.1) ∧
      (∀ h, h ≤ unit c o.1 → ((step c me w o).x.total.at_ h).getD 0 = (w.x.total.at_ h).getD 0) ∧
      (∀ h, unit c o.1 < h → ((step c me w o).x.total.at_ h).getD 0 = (step c me w o).x.supply) := by
  have key : Exact (step c me w o) (unit c o.1) ∧
      (∀ h, h ≤ unit c o.1 → ((step c me w o).x.total.at_ h).getD 0 = (w.x.total.at_ h).getD 0) := by
    unfold step
    cases hx : exec c me w o.1 o.2 with
    | error e => exact ⟨⟨Snap.upTo_mono hi.1 hle, hi.2⟩, fun _ _ => rfl⟩
    | ok w' =>
      simp only [commit'_ok]
      unfold Exact
      rcases exec_moves hx with h1 | ⟨l, t, ht, h1⟩
      · rw [h1]; exact ⟨⟨Snap.upTo_mono hi.1 hle, hi.2⟩, fun _ _ => rfl⟩
      · have h2 : Tracker.recorded w'.x = w'.x.supply := by
          rw [execAll_append] at h1
          simp only [bind_ok_iff, execAll_one] at h1
          obtain ⟨s1, _, h1⟩ := h1
          simp only [Tracker.recorded, Tracker.exec_total h1, Snap.save, Option.getD_some]
          exact Tracker.atHook_eq ht _
        refine ⟨⟨?_, h2⟩, ?_⟩
        · rw [execAll_run h1]; exact (run_total _ hi.1 hle).1
        · rw [execAll_run h1]; exact (run_total _ hi.1 hle).2
  refine ⟨key.1, key.2, fun h hh => ?_⟩
  rw [Snap.at_future key.1.1 hh]
  exact key.1.2

omit [Fintype A] in
theorem run_bal (c : Cfg A D) (me : A) {a : A} (ha : a ≠ c.mod) (os : List (Env × Staking.Op A)) {w : World A} {H : Nat}
    (hi : Tracker.Synced a w.x H) (hm : Mono (fun o => unit c o.1) H os) :
    ((run c me w os).x.bals a).cur.getD 0 = (run c me w os).x.bank a := by
  induction os generalizing w H with
  | nil => exact hi.2
  | cons o rest ih => exact ih (step_bal c me ha w H o hi hm.1).1 hm.2

omit [Fintype A] in
theorem run_supply (c : Cfg A D) (me : A) (os : List (Env × Staking.Op A)) {w : World A} {H : Nat}
    (hi : Exact w H) (hm : Mono (fun o => unit c o.1) H os) :
    Tracker.recorded (run c me w os).x = (run c me w os).x.supply := by
  induction os generalizing w H with
  | nil => exact hi.2
  | cons o rest ih => exact ih (step_supply c me w H o hi hm.1).1 hm.2

/-! ## C143 -/

/-- **C143.**  The tracker never changes what the staking contract does: for every history that names no module account,
the ledgers of ASTRO and xASTRO and the supply are those of the staking contract without a tracker.  In particular no
call fails because of the tracker. -/
theorem C143_tracker_transparent (c : Cfg A D) (me : A) (hme : me ≠ c.mod) (astro : A → Nat)
    (hf : ∑ a, astro a < U128) (os : List (Env × Staking.Op A)) (ho : ∀ o ∈ os, Avoids c.mod o.2) :
    (run c me (start astro) os).astro = (alone me astro os).astro ∧
    (run c me (start astro) os).x.bank = (alone me astro os).xastro ∧
    (run c me (start astro) os).x.supply = (alone me astro os).xSupply := by
  have h := (run_same hme os ho (start_sound me hf)).1
  have h' : (run c me (start astro) os).plain = alone me astro os := h
  rw [← h']
  exact ⟨rfl, rfl, rfl⟩

theorem takeWhile_zero {O : Type} (f : O → Nat) (os : List O) : (os.takeWhile fun o => decide (f o < 0)) = [] := by
  cases os with
  | nil => rfl
  | cons x r => simp

/-- **C143.**  `BalanceAt` of the staking contract is the xASTRO balance of the account at the beginning of the given
time, after any history of stakes, unstakes, hooks and transfers; without a time it is the balance now. -/
theorem C143_balance_at (c : Cfg A D) (me : A) (hme : me ≠ c.mod) (astro : A → Nat) (hf : ∑ a, astro a < U128)
    (os : List (Env × Staking.Op A)) (ho : ∀ o ∈ os, Avoids c.mod o.2) (now : Env) (hm : Timely c os now)
    (a : A) (ha : a ≠ c.mod) (u : Option Nat) :
    balanceAt c (run c me (start astro) os) now a u = (asked c me astro os now u).xastro a := by
  have hi : Tracker.Synced a (start astro).x 0 :=
    ⟨by intro e he; simp [start, Tracker.init, Snap.empty] at he, rfl⟩
  have hall := C143_tracker_transparent c me hme astro hf os ho
  cases u with
  | none => simp only [balanceAt, asked, true_or, if_true]; rw [hall.2.1]
  | some u =>
    simp only [balanceAt, Tracker.balanceAt, asked, Option.getD_some, reduceCtorEq, false_or, Option.some.injEq]
    split
    · rw [run_bal c me ha os hi hm.1, hall.2.1]
    · have h := history (step c me) (fun o => unit c o.1) (fun w h => ((w.x.bals a).at_ h).getD 0)
        (fun w => w.x.bank a) (fun w H => Tracker.Synced a w.x H) (step_bal c me ha) (start astro) 0 os hi hm.1 u
        (fun _ => by rfl)
      have hp := C143_tracker_transparent c me hme astro hf (os.takeWhile fun o => decide (unit c o.1 < u))
        (fun o h => ho o (List.takeWhile_subset _ h))
      rw [← hp.2.1]
      unfold run
      rw [h]
      split
      · rename_i h0
        have : u = 0 := by omega
        subst this
        rw [takeWhile_zero (fun o : Env × Staking.Op A => unit c o.1)]; rfl
      · rfl

/-- **C143.**  `TotalSupplyAt` of the staking contract is the true supply of xASTRO at the beginning of the given time,
burns included: after each of its burns the contract moves one unit, which makes the tracker record the supply (a
tracker alone overstates it, `C96_burn_unrecorded_violated`). -/
theorem C143_total_supply_at (c : Cfg A D) (me : A) (hme : me ≠ c.mod) (astro : A → Nat) (hf : ∑ a, astro a < U128)
    (os : List (Env × Staking.Op A)) (ho : ∀ o ∈ os, Avoids c.mod o.2) (now : Env) (hm : Timely c os now)
    (u : Option Nat) :
    totalSupplyAt c (run c me (start astro) os) now u = (asked c me astro os now u).xSupply := by
  have hi : Exact (start astro) 0 := ⟨by intro e he; simp [start, Tracker.init, Snap.empty] at he, rfl⟩
  have hall := C143_tracker_transparent c me hme astro hf os ho
  cases u with
  | none => simp only [totalSupplyAt, asked, true_or, if_true]; rw [hall.2.2]
  | some u =>
    simp only [totalSupplyAt, Tracker.totalSupplyAt, asked, Option.getD_some, reduceCtorEq, false_or,
      Option.some.injEq]
    split
    · have := run_supply c me os hi hm.1
      unfold Tracker.recorded at this
      rw [this, hall.2.2]
    · have h := history (step c me) (fun o => unit c o.1) (fun w h => (w.x.total.at_ h).getD 0)
        (fun w => w.x.supply) Exact (step_supply c me) (start astro) 0 os hi hm.1 u
        (fun _ => by rfl)
      have hp := C143_tracker_transparent c me hme astro hf (os.takeWhile fun o => decide (unit c o.1 < u))
        (fun o h => ho o (List.takeWhile_subset _ h))
      rw [← hp.2.2]
      unfold run
      rw [h]
      split
      · rename_i h0
        have : u = 0 := by omega
        subst this
        rw [takeWhile_zero (fun o : Env × Staking.Op A => unit c o.1)]; rfl
      · rfl

omit [Fintype A] in
/-- The module account holds nothing between transactions. -/
theorem exec_module {me mod : A} (hme : me ≠ mod) {s s' : Staking.State A} {o : Staking.Op A} (ho : Avoids mod o)
    (h : Staking.exec me s o = .ok s') : s'.xastro mod = s.xastro mod := by
  have hm := Ne.symm hme
  cases o with
  | enter u n r =>
    simp only [Staking.exec, bind_ok_iff, require_ok, Except.ok.injEq, Prod.exists] at h
    obtain ⟨_, hu, s1, m, h1, rfl⟩ := h
    obtain ⟨sp⟩ := Staking.enter_spec hu h1
    rw [sp.hx, if_neg hm, if_neg (Ne.symm ho.2)]
    rfl
  | leave u n r =>
    simp only [Staking.exec, bind_ok_iff, require_ok, Except.ok.injEq, Prod.exists] at h
    obtain ⟨_, hu, s1, m, h1, rfl⟩ := h
    rw [(Staking.leave_spec h1).hx, if_neg (Ne.symm ho.1)]
  | enterHookLeave u n r =>
    simp only [Staking.exec, bind_ok_iff, require_ok, Except.ok.injEq, Prod.exists] at h
    obtain ⟨_, hu, s1, m, h1, s2, ret, h2, rfl⟩ := h
    obtain ⟨sp⟩ := Staking.enter_spec hu h1
    rw [(Staking.leave_spec h2).hx, if_neg hm, sp.hx, if_neg hm, if_neg hm]
    rfl
  | sendAstro u n r =>
    simp only [Staking.exec, bind_ok_iff, require_ok, Except.ok.injEq] at h
    obtain ⟨_, hu, l, hl, rfl⟩ := h
    rfl
  | sendX u n r =>
    simp only [Staking.exec, bind_ok_iff, require_ok, Except.ok.injEq] at h
    obtain ⟨_, hu, l, hl, rfl⟩ := h
    simp only [move_apply hl mod]
    rw [if_neg (Ne.symm ho.1), if_neg (Ne.symm ho.2)]
    rfl

omit [Fintype A] in
theorem run_module {me mod : A} (hme : me ≠ mod) (os : List (Staking.Op A)) (ho : ∀ o ∈ os, Avoids mod o)
    (s : Staking.State A) : (Staking.run me s os).xastro mod = s.xastro mod := by
  induction os generalizing s with
  | nil => rfl
  | cons o rest ih =>
    show (Staking.run me (Staking.step me s o) rest).xastro mod = _
    rw [ih fun o h => ho o (List.mem_cons_of_mem _ h)]
    unfold Staking.step
    cases hx : Staking.exec me s o with
    | error e => rfl
    | ok s' => exact exec_module hme (ho o List.mem_cons_self) hx

/-- **C143.**  Votes add up: at every time the balances of all accounts (the module's own, which the chain keeps empty,
aside) sum exactly to the total supply the staking contract reports. -/
theorem C143_votes_add_up (c : Cfg A D) (me : A) (hme : me ≠ c.mod) (astro : A → Nat) (hf : ∑ a, astro a < U128)
    (os : List (Env × Staking.Op A)) (ho : ∀ o ∈ os, Avoids c.mod o.2) (now : Env) (hm : Timely c os now)
    (u : Option Nat) :
    ∑ a ∈ Finset.univ.erase c.mod, balanceAt c (run c me (start astro) os) now a u =
      totalSupplyAt c (run c me (start astro) os) now u := by
  rw [C143_total_supply_at c me hme astro hf os ho now hm,
    Finset.sum_congr rfl fun a h => C143_balance_at c me hme astro hf os ho now hm a (Finset.ne_of_mem_erase h) u]
  have hi : Staking.Inv me (asked c me astro os now u) ∧ (asked c me astro os now u).xastro c.mod = 0 := by
    unfold asked
    split
    · exact ⟨(Staking.run_inv _ (Staking.init_inv me astro)).1, run_module hme _ (by
        simp only [List.mem_map]; rintro _ ⟨o, h, rfl⟩; exact ho o h) _⟩
    · exact ⟨(Staking.run_inv _ (Staking.init_inv me astro)).1, run_module hme _ (by
        simp only [List.mem_map]; rintro _ ⟨o, h, rfl⟩; exact ho o (List.takeWhile_subset _ h)) _⟩
  rw [hi.1.hsum, ← Finset.add_sum_erase _ _ (Finset.mem_univ c.mod), hi.2, Nat.zero_add]

/-! ## A concrete history -/

/-- Account 4 is the module, account 0 the staking contract. -/
def demoCfg : Cfg (Fin 5) Nat := ⟨7, 4, true⟩

/-- Two stakes in second 50, a transfer and an unstake in second 80, a donation and a hook in second 90. -/
def demo : List (Env × Staking.Op (Fin 5)) :=
  [(⟨5, 50⟩, .enter 1 5000 1), (⟨5, 50⟩, .enter 2 3000 3), (⟨8, 80⟩, .sendX 1 500 2), (⟨8, 80⟩, .leave 1 1500 1),
    (⟨9, 90⟩, .sendAstro 2 100 0), (⟨9, 90⟩, .enterHookLeave 2 700 3)]

example : (0 : Fin 5) ≠ demoCfg.mod ∧ (∀ o ∈ demo, Avoids demoCfg.mod o.2) ∧ Timely demoCfg demo ⟨10, 100⟩ ∧
    (let w := run demoCfg 0 (start fun a => if a = 0 then 0 else 10000) demo
     balanceAt demoCfg w ⟨10, 100⟩ 1 (some 80) = 4000 ∧ balanceAt demoCfg w ⟨10, 100⟩ 1 (some 90) = 2000 ∧
     totalSupplyAt demoCfg w ⟨10, 100⟩ (some 80) = 8000 ∧ totalSupplyAt demoCfg w ⟨10, 100⟩ (some 90) = 6500 ∧
     totalSupplyAt demoCfg w ⟨10, 100⟩ (some 100) = 6500 ∧ totalSupplyAt demoCfg w ⟨10, 100⟩ none = 6500 ∧
     w.astro 3 = 10699) := by decide +kernel

end Verif.Joint.StakingHistory
