import Verif.Vesting.Props
import Verif.Converter.Model

/-!
# Moving the vesting contract to the new ASTRO token (C132)
-/

namespace Verif.Joint

open Verif Verif.Vesting

variable {A D : Type} [DecidableEq A] [DecidableEq D]

/-- The message sent to the converter (`contracts/tokenomics/vesting/src/contract.rs:549-569`). -/
def convertAll (c : Converter.Cfg A D) (conv me : A) (s : Converter.State A D) (n : Nat) :
    Converter.Info A D → Res (Converter.State A D)
  | .token a => do
    let s ← Converter.send s (.token a) me conv n
    Converter.cw20Receive c conv s a me n none
  | .native d => do
    let s ← Converter.sendAll s me conv [(d, n)]
    Converter.convert c conv s me [(d, n)] none

/-- `migrate` of the vesting contract (`contracts/tokenomics/vesting/src/contract.rs:522-586`; the check of the stored version is left out): `c` is the
configuration of the converter at `conv`, `token` the vesting token.  The whole balance is converted; schedules stay.
The vesting contract's view of the ledger (`v.bal`) is that of the vesting token. -/
def migrateVesting (c : Converter.Cfg A D) (conv me : A) (token : Converter.Info A D) (v : Vesting.State A)
    (s : Converter.State A D) : Res (Vesting.State A × Converter.State A D × Converter.Info A D) := do
  require (c.old = token) (.invalid "Old astro asset info mismatch")
  let s ← convertAll c conv me s (s.bal token me) token
  .ok ({ v with bal := s.bal (.native c.new) }, s, .native c.new)

/-! ## Proofs -/

/-- What a successful migration does to the ledgers. -/
theorem migrate_ledgers {c : Converter.Cfg A D} {conv me : A} {token : Converter.Info A D} {v v' : Vesting.State A}
    {s s' : Converter.State A D} {t' : Converter.Info A D}
    (h : migrateVesting c conv me token v s = .ok (v', s', t')) :
    c.old = token ∧ t' = .native c.new ∧ v' = { v with bal := s'.bal (.native c.new) } ∧ s.bal token me ≠ 0 ∧
    ∃ l1 l2, move (s.bal token) me conv (s.bal token me) = .ok l1 ∧
      move (Function.update s.bal token l1 (.native c.new)) conv me (s.bal token me) = .ok l2 ∧
      s'.bal = Function.update (Function.update s.bal token l1) (.native c.new) l2 := by
  unfold migrateVesting at h
  simp only [bind_ok_iff, require_ok, exists_const, Except.ok.injEq, Prod.mk.injEq] at h
  obtain ⟨ho, s2, hs, rfl, rfl, rfl⟩ := h
  refine ⟨ho, rfl, rfl, ?_⟩
  cases token with
  | token a =>
    simp only [convertAll, bind_ok_iff, Converter.send, Converter.cw20Receive, ho, require_ok, exists_const, Except.ok.injEq] at hs
    obtain ⟨s1, ⟨h0, l1, hl1, rfl⟩, _, _, l2, hl2, rfl⟩ := hs
    exact ⟨h0, l1, l2, hl1, hl2, rfl⟩
  | native d =>
    simp only [convertAll, bind_ok_iff, Converter.sendAll, Converter.send, Converter.convert, ho, require_ok, exists_const,
      Except.ok.injEq, Converter.mustPay] at hs
    obtain ⟨s1, ⟨s3, ⟨h0, l1, hl1, rfl⟩, rfl⟩, k, hk, _, l2, hl2, rfl⟩ := hs
    rw [if_pos ⟨by trivial, h0⟩] at hk
    obtain rfl : s.bal (.native d) me = k := by simpa using hk
    exact ⟨h0, l1, l2, hl1, hl2, rfl⟩

variable [Fintype A]

/-- **C132.**  After any history of the vesting contract: a successful migration to the new token changes no schedule and
nothing anybody can claim, turns the whole holding into the new token one to one (nobody else's holdings change, the
converter's apart), and the contract stays fully funded, now and after any further history, so that every account can
claim everything it has unlocked, in the new token. -/
theorem C132_vesting_kept (c : Converter.Cfg A D) (conv me owner : A) (hne : conv ≠ me) (token : Converter.Info A D)
    (hnew : token ≠ .native c.new) (bal : A → Nat) (now : Nat) (ops : List (Vesting.Op A)) (s s' : Converter.State A D)
    (v' : Vesting.State A) (t' : Converter.Info A D)
    (hs : s.bal token = (Vesting.run me (initial owner bal now) ops).bal)
    (h : migrateVesting c conv me token (Vesting.run me (initial owner bal now) ops) s = .ok (v', s', t')) :
    let v := Vesting.run me (initial owner bal now) ops
    t' = .native c.new ∧ v'.bal = s'.bal t' ∧
    (∀ a, queryAvailable v' a = queryAvailable v a ∧ schedulesOf v' a = schedulesOf v a ∧ releasedOf v' a = releasedOf v a) ∧
    v'.owner = v.owner ∧ v'.now = v.now ∧
    s'.bal t' me = s.bal t' me + s.bal token me ∧ s'.bal token me = 0 ∧
    (∀ i b, b ≠ me → b ≠ conv → s'.bal i b = s.bal i b) ∧
    ∀ ops', let w := Vesting.run me v' ops'
      ∑ a, (totalAll (schedulesOf w a) - releasedOf w a) ≤ w.bal me ∧
      ∀ a i r, w.info a = some i → totalAll i.schedules < U128 →
        ∃ w', claim me w a r none = .ok (w', dueAll i.schedules w.now - i.released) := by
  intro v
  obtain ⟨ho, rfl, hv', h0, l1, l2, hl1, hl2, hb⟩ := migrate_ledgers h
  have hi : Inv v := inv_run (inv_initial owner bal now) ops
  have hf : Funded me v := (C25_fully_funded me owner bal now ops).1
  change s.bal token = v.bal at hs
  change v' = { v with bal := s'.bal (.native c.new) } at hv'
  clear_value v
  clear h
  have hnt : Converter.Info.native c.new ≠ token := Ne.symm hnew
  rw [Function.update_of_ne hnt] at hl2
  have hme : s'.bal (.native c.new) me = s.bal (.native c.new) me + s.bal token me := by
    rw [hb, Function.update_self, move_apply hl2, if_neg (Ne.symm hne), if_pos rfl]
  have hi' : Inv v' := by rw [hv']; exact ⟨hi.valid, hi.released⟩
  have hf' : Funded me v' := by
    unfold Funded at hf ⊢
    have : ∀ a, owed v' a = owed v a := by intro a; rw [hv']; rfl
    simp only [this]
    rw [hv']
    show _ ≤ s'.bal (.native c.new) me
    rw [hme, hs]
    omega
  refine ⟨rfl, by rw [hv'], ?_, by rw [hv'], by rw [hv'], hme, ?_, ?_, ?_⟩
  · intro a
    rw [hv']
    exact ⟨rfl, rfl, rfl⟩
  · rw [hb, Function.update_of_ne hnew, Function.update_self, move_apply hl1, if_pos rfl, if_neg (Ne.symm hne)]
    omega
  · intro i b h1 h2
    rw [hb]
    by_cases hn : i = .native c.new
    · rw [hn, Function.update_self, move_apply hl2, if_neg h2, if_neg h1]; omega
    · rw [Function.update_of_ne hn]
      by_cases ht : i = token
      · rw [ht, Function.update_self, move_apply hl1, if_neg h1, if_neg h2]; omega
      · rw [Function.update_of_ne ht]
  · intro ops' w
    have hwi : Inv w := inv_run hi' ops'
    have hwf : Funded me w := funded_run hi' hf' ops'
    exact ⟨hwf, fun a i r hia hU => claim_of_funded hwi hwf hia hU r⟩

omit [Fintype A] in
/-- **C132.**  The migration succeeds exactly if the converter is for the vesting token, the contract holds some of it, and
the converter can pay that much of the new token. -/
theorem C132_migrates_iff (c : Converter.Cfg A D) (conv me : A) (token : Converter.Info A D)
    (hnew : token ≠ .native c.new) (v : Vesting.State A) (s : Converter.State A D) :
    (∃ x, migrateVesting c conv me token v s = .ok x) ↔
      c.old = token ∧ s.bal token me ≠ 0 ∧ s.bal token me ≤ s.bal (.native c.new) conv := by
  have hnt : Converter.Info.native c.new ≠ token := Ne.symm hnew
  constructor
  · rintro ⟨⟨v', s', t'⟩, h⟩
    obtain ⟨ho, _, _, h0, l1, l2, hl1, hl2, _⟩ := migrate_ledgers h
    rw [Function.update_of_ne hnt] at hl2
    exact ⟨ho, h0, move_le hl2⟩
  · rintro ⟨ho, h0, hle⟩
    obtain ⟨l1, hl1⟩ := move_succeeds (l := s.bal token) (a := me) (b := conv) (n := s.bal token me) (le_refl _)
    obtain ⟨l2, hl2⟩ := move_succeeds (l := s.bal (.native c.new)) (a := conv) (b := me) (n := s.bal token me) hle
    have hr0 : require (s.bal token me ≠ 0) (.invalid "invalid coins") = .ok () := if_pos h0
    have h2 : Function.update s.bal token l1 (.native c.new) = s.bal (.native c.new) := Function.update_of_ne hnt _ _
    unfold migrateVesting
    rw [show require (c.old = token) (.invalid "Old astro asset info mismatch") = .ok () from if_pos ho]
    cases token with
    | token a =>
      simp only [ok_bind, convertAll, Converter.send, Converter.cw20Receive, ho, hr0, hl1, Option.getD_none, h2, hl2]
      rw [show require True (.invalid "UnsupportedCw20Token") = .ok () from if_pos trivial]
      exact ⟨_, rfl⟩
    | native d =>
      simp only [ok_bind, convertAll, Converter.sendAll, Converter.send, Converter.convert, ho, hr0, hl1, Option.getD_none, h2,
        Converter.mustPay]
      rw [if_pos ⟨trivial, h0⟩]
      simp only [ok_bind, hr0, hl2]
      exact ⟨_, rfl⟩

/-! ## Concrete cases -/

/-- Account 0 is the vesting contract, 1 its owner, 2 an account with a schedule, 3 the converter; the old ASTRO is a cw20
token at address 9. -/
def wVest : Vesting.State (Fin 10) :=
  Vesting.run 0 (initial 1 (fun _ => 5000) 5)
    [.register 1 [(2, [⟨⟨100, 10⟩, some ⟨200, 1010⟩⟩])] 1010, .wait 128, .claim 2 none (some 100)]

def wConv : Converter.State (Fin 10) (Fin 2) :=
  ⟨fun i a => match i with | .token 9 => wVest.bal a | .native 1 => if a = 3 then 10 ^ 6 else 7 | _ => 0, 0, 0⟩

def wCfg : Converter.Cfg (Fin 10) (Fin 2) := ⟨.token 9, 1, false⟩

example : okAnd (migrateVesting wCfg 3 0 (.token 9) wVest wConv) (fun x =>
    decide (x.2.1.bal (.native 1) 0 = 5917 ∧ x.2.1.bal (.token 9) 0 = 0 ∧ x.2.2 = .native 1) &&
    okAnd (claim 0 x.1 2 none none) (fun y => decide (y.2 = 240 ∧ y.1.bal 2 = 247))) = true := by
  decide +kernel

/-- A contract that has nothing left cannot be migrated. -/
example : ∀ v, fails (migrateVesting wCfg 3 5 (.token 9) v ⟨fun _ _ => 0, 0, 0⟩) = true := by
  intro v
  have := (C132_migrates_iff wCfg 3 5 (.token 9) (by decide) v ⟨fun _ _ => 0, 0, 0⟩)
  cases h : migrateVesting wCfg 3 5 (.token 9) v ⟨fun _ _ => 0, 0, 0⟩ with
  | error e => rfl
  | ok x => exact absurd rfl (this.1 ⟨x, h⟩).2.1

end Verif.Joint
