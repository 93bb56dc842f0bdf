import Verif.Stable.Props
import Verif.PCL.Props
import Mathlib.Algebra.BigOperators.Ring.Finset

/-!
# The ledgers of a stableswap pool over all histories (C141)
-/

namespace Verif.Stable

open Verif
open Verif.XYK (sendOpt shareInAsset)

variable {A : Type} [DecidableEq A]

/-- What a transaction does to the LP ledger. -/
theorem exec_lp {su : Setup} {me : A} {now : Nat} {fo : A} {s s' : State A} {o : Op A}
    (h : exec su me now fo s o = .ok s') :
    o.signer ≠ me ∧
    ((s'.lp = s.lp ∧ s'.supply = s.supply) ∨
     (∃ rc locked share, s'.lp = credit (credit s.lp me locked) rc share ∧ s'.supply = s.supply + locked + share ∧
       (s.supply = 0 → locked = 1000)) ∨
     (∃ n, debit s.lp o.signer n = .ok s'.lp ∧ n ≤ s.supply ∧ s'.supply = s.supply - n) ∨
     (∃ v n, move s.lp o.signer v n = .ok s'.lp ∧ s'.supply = s.supply)) := by
  unfold exec at h
  simp only [bind_ok_iff, require_ok, exists_const] at h
  obtain ⟨hsig, h⟩ := h
  refine ⟨hsig, ?_⟩
  cases o with
  | provide u d m r =>
    simp only [bind_ok_iff, Prod.exists, Except.ok.injEq] at h
    obtain ⟨_, _, h, rfl⟩ := h
    have sp := provide_spec h
    exact Or.inr (Or.inl ⟨_, _, _, sp.hlp, sp.hsup, fun h => if_pos h⟩)
  | withdraw u n m =>
    simp only [bind_ok_iff, Prod.exists, Except.ok.injEq] at h
    obtain ⟨_, _, _, h, rfl⟩ := h
    simp only [withdraw, bind_ok_iff, require_ok, exists_const, csub_ok, Except.ok.injEq, Prod.mk.injEq] at h
    obtain ⟨_, lp, hlp, a, ha, b, hb, _, _, pools, _, amp, _, tw, _, _, b0, hb0, b1, hb1, lp2, hlp2, sup, ⟨hs1, hs2⟩,
      rfl, _⟩ := h
    refine Or.inr (Or.inr (Or.inl ⟨n, ?_, hs1, hs2.symm⟩))
    have hsig' : u ≠ me := hsig
    refine debit_ok.2 ⟨move_le hlp, ?_⟩
    funext x
    have e1 := debit_apply hlp2 x
    have e2 := move_apply hlp x
    simp only [Op.signer]
    rw [e1, e2]
    by_cases hx : x = u
    · subst hx
      simp [hsig']
    · rw [Function.update_of_ne hx, if_neg hx]
      by_cases hm : x = me
      · subst hm
        simp
      · simp [hm]
  | swap u i n b m r f =>
    simp only [bind_ok_iff, Prod.exists, Except.ok.injEq] at h
    obtain ⟨_, _, h, rfl⟩ := h
    have sp := swap_spec (by simpa [Op.signer] using hsig) h
    exact Or.inl ⟨sp.hlp, sp.hsup⟩
  | startAmp u next t =>
    simp only [bind_ok_iff, authorised, require_ok, exists_const, Except.ok.injEq] at h
    obtain ⟨_, _, _, rfl⟩ := h
    exact Or.inl ⟨rfl, rfl⟩
  | stopAmp u =>
    simp only [bind_ok_iff, authorised, require_ok, exists_const, Except.ok.injEq] at h
    obtain ⟨_, _, _, rfl⟩ := h
    exact Or.inl ⟨rfl, rfl⟩
  | enableShare u bps r =>
    simp only [bind_ok_iff, authorised, require_ok, exists_const, Except.ok.injEq] at h
    obtain ⟨_, _, rfl⟩ := h
    exact Or.inl ⟨rfl, rfl⟩
  | disableShare u =>
    simp only [bind_ok_iff, authorised, require_ok, exists_const, Except.ok.injEq] at h
    obtain ⟨_, rfl⟩ := h
    exact Or.inl ⟨rfl, rfl⟩
  | send i u v n =>
    simp only [bind_ok_iff, Except.ok.injEq] at h
    obtain ⟨_, _, rfl⟩ := h
    exact Or.inl ⟨rfl, rfl⟩
  | sendLp u v n =>
    simp only [bind_ok_iff, Except.ok.injEq] at h
    obtain ⟨l, hl, rfl⟩ := h
    exact Or.inr (Or.inr (Or.inr ⟨v, n, hl, rfl⟩))

/-- LP supply is the sum of balances; zero, or 1000 units lie with the pool. -/
def LpInv [Fintype A] (me : A) (s : State A) : Prop :=
  s.supply = ∑ a, s.lp a ∧ (s.supply = 0 ∨ 1000 ≤ s.lp me)

theorem lpInv_step [Fintype A] {su : Setup} {me : A} {now : Nat} {fo : A} {s s' : State A} {o : Op A}
    (hi : LpInv me s) (h : exec su me now fo s o = .ok s') :
    LpInv me s' ∧ (s.supply ≠ 0 → s'.supply ≠ 0 ∧ s.lp me ≤ s'.lp me) := by
  obtain ⟨h1, h2⟩ := hi
  obtain ⟨hsig, h⟩ := exec_lp h
  rcases h with ⟨e1, e2⟩ | ⟨rc, locked, share, e1, e2, e3⟩ | ⟨n, e1, e2, e3⟩ | ⟨v, n, e1, e2⟩
  · unfold LpInv; rw [e1, e2]
    exact ⟨⟨h1, h2⟩, fun h => ⟨h, le_refl _⟩⟩
  · have hge : s.lp me + locked ≤ s'.lp me := by
      rw [e1, credit_apply, credit_apply, if_pos rfl]; split <;> omega
    refine ⟨⟨?_, ?_⟩, fun h => ⟨by omega, by omega⟩⟩
    · rw [e1, sum_credit, sum_credit, e2, h1]
    · rcases h2 with h2 | h2
      · have := e3 h2; omega
      · omega
  · have hs := sum_debit e1
    have hm := debit_apply e1 me
    rw [if_neg (Ne.symm hsig)] at hm
    have hle := le_sum s'.lp me
    refine ⟨⟨by omega, ?_⟩, fun h => ⟨by omega, by omega⟩⟩
    rcases h2 with h2 | h2
    · left; omega
    · right; omega
  · have hs := sum_move e1
    have hm := move_apply e1 me
    rw [if_neg (Ne.symm hsig)] at hm
    refine ⟨⟨by omega, ?_⟩, fun h => ⟨by omega, by omega⟩⟩
    rcases h2 with h2 | h2
    · left; omega
    · right; omega

theorem lpInv_run [Fintype A] {su : Setup} {me : A} {s : State A} (es : List (Event A)) (hi : LpInv me s) :
    LpInv me (run su me s es) ∧
      (s.supply ≠ 0 → (run su me s es).supply ≠ 0 ∧ s.lp me ≤ (run su me s es).lp me) := by
  induction es generalizing s with
  | nil => exact ⟨hi, fun h => ⟨h, le_refl _⟩⟩
  | cons e es ih =>
    have hstep : LpInv me (step su me s e) ∧
        (s.supply ≠ 0 → (step su me s e).supply ≠ 0 ∧ s.lp me ≤ (step su me s e).lp me) := by
      unfold step
      exact commit'_inv (fun t => LpInv me t ∧ (s.supply ≠ 0 → t.supply ≠ 0 ∧ s.lp me ≤ t.lp me))
        ⟨hi, fun h => ⟨h, le_refl _⟩⟩ (fun s' h => lpInv_step hi h)
    obtain ⟨a, b⟩ := ih hstep.1
    refine ⟨a, fun h => ?_⟩
    have c := hstep.2 h
    have d := b c.1
    exact ⟨d.1, le_trans c.2 d.2⟩

/-- From `l` to `l'` by transfers out of two accounts only. -/
structure Moved [Fintype A] (x y : A) (l l' : A → Nat) : Prop where
  others : ∀ a, a ≠ x → a ≠ y → l a ≤ l' a
  total : ∑ a, l' a = ∑ a, l a

omit [DecidableEq A] in
theorem Moved.refl [Fintype A] (x y : A) (l : A → Nat) : Moved x y l l := ⟨fun _ _ _ => le_refl _, rfl⟩

omit [DecidableEq A] in
theorem Moved.trans [Fintype A] {x y : A} {l l' l'' : A → Nat} (h : Moved x y l l') (h' : Moved x y l' l'') :
    Moved x y l l'' :=
  ⟨fun a ha hb => (h.others a ha hb).trans (h'.others a ha hb), h'.total.trans h.total⟩

theorem moved_left [Fintype A] {x y z : A} {l l' : A → Nat} {n : Nat} (h : move l x z n = .ok l') : Moved x y l l' :=
  ⟨fun _ ha _ => PCL.move_other ha h, sum_move h⟩

theorem moved_right [Fintype A] {x y z : A} {l l' : A → Nat} {n : Nat} (h : move l y z n = .ok l') : Moved x y l l' :=
  ⟨fun _ _ hb => PCL.move_other hb h, sum_move h⟩

theorem moved_opt [Fintype A] {x y : A} {l l' : A → Nat} {dst : Option A} {n : Nat} (h : sendOpt l y dst n = .ok l') :
    Moved x y l l' := by
  refine ⟨fun _ _ hb => PCL.sendOpt_other hb h, ?_⟩
  cases dst with
  | none => simp [sendOpt] at h; subst h; rfl
  | some d =>
    simp only [sendOpt] at h
    exact sum_move h

/-- Every transaction only moves pool assets out of the signer's account and the pool's. -/
theorem exec_moved [Fintype A] {su : Setup} {me : A} {now : Nat} {fo : A} {s s' : State A} {o : Op A}
    (h : exec su me now fo s o = .ok s') (i : Bool) : Moved o.signer me (s.bal i) (s'.bal i) := by
  unfold exec at h
  simp only [bind_ok_iff, require_ok, exists_const] at h
  obtain ⟨hsig, h⟩ := h
  cases o with
  | provide u d m r =>
    simp only [bind_ok_iff, Prod.exists, Except.ok.injEq] at h
    obtain ⟨_, _, h, rfl⟩ := h
    exact moved_left ((provide_spec h).hbal i)
  | withdraw u n m =>
    simp only [bind_ok_iff, Prod.exists, Except.ok.injEq] at h
    obtain ⟨_, _, _, h, rfl⟩ := h
    simp only [withdraw, bind_ok_iff, require_ok, exists_const, csub_ok, Except.ok.injEq, Prod.mk.injEq] at h
    obtain ⟨_, lp, hlp, a, ha, b, hb, _, _, pools, _, amp, _, tw, _, _, b0, hb0, b1, hb1, lp2, hlp2, sup, ⟨hs1, hs2⟩,
      rfl, _⟩ := h
    cases i
    · exact moved_right hb0
    · exact moved_right hb1
  | swap u j n b m r f =>
    simp only [bind_ok_iff, Prod.exists, Except.ok.injEq] at h
    obtain ⟨_, _, h, rfl⟩ := h
    have sp := swap_spec (by simpa [Op.signer] using hsig) h
    obtain ⟨l1, l2, h1, h2, h3⟩ := sp.hba
    by_cases hij : i = j
    · subst hij
      exact moved_left sp.hbo
    · have : i = !j := by cases i <;> cases j <;> simp_all
      subst this
      exact (moved_right h1).trans ((moved_opt h2).trans (moved_opt h3))
  | startAmp u next t =>
    simp only [bind_ok_iff, authorised, require_ok, exists_const, Except.ok.injEq] at h
    obtain ⟨_, _, _, rfl⟩ := h
    exact Moved.refl _ _ _
  | stopAmp u =>
    simp only [bind_ok_iff, authorised, require_ok, exists_const, Except.ok.injEq] at h
    obtain ⟨_, _, _, rfl⟩ := h
    exact Moved.refl _ _ _
  | enableShare u bps r =>
    simp only [bind_ok_iff, authorised, require_ok, exists_const, Except.ok.injEq] at h
    obtain ⟨_, _, rfl⟩ := h
    exact Moved.refl _ _ _
  | disableShare u =>
    simp only [bind_ok_iff, authorised, require_ok, exists_const, Except.ok.injEq] at h
    obtain ⟨_, rfl⟩ := h
    exact Moved.refl _ _ _
  | send j u v n =>
    simp only [bind_ok_iff, Except.ok.injEq] at h
    obtain ⟨l, hl, rfl⟩ := h
    simp only
    split
    · subst_vars
      exact moved_left hl
    · exact Moved.refl _ _ _
  | sendLp u v n =>
    simp only [bind_ok_iff, Except.ok.injEq] at h
    obtain ⟨l, hl, rfl⟩ := h
    exact Moved.refl _ _ _

/-! ## Theorems -/

/-- **C141.** From the creation of the pool, through every history of transactions of anybody, the LP supply equals
the sum of the LP balances; it is zero, or at least 1000 LP units lie with the pool itself; and once positive it
never returns to zero, the pool's own LP tokens never decreasing. -/
theorem C141_lp_supply_and_locked_minimum [Fintype A] (su : Setup) (me : A) (bal : Bool → A → Nat) (owner : Option A)
    (amp t : Nat) (s : State A) (es es' : List (Event A)) (hc : create bal owner amp t = .ok s) :
    (run su me s es).supply = ∑ a, (run su me s es).lp a ∧
    ((run su me s es).supply = 0 ∨ 1000 ≤ (run su me s es).lp me) ∧
    ((run su me s es).supply ≠ 0 → (run su me s (es ++ es')).supply ≠ 0 ∧
      (run su me s es).lp me ≤ (run su me s (es ++ es')).lp me) := by
  have h0 : LpInv me s := by
    simp only [create, bind_ok_iff, Except.ok.injEq] at hc
    obtain ⟨_, _, rfl⟩ := hc
    exact ⟨by simp, Or.inl rfl⟩
  have h1 := (lpInv_run (su := su) es h0).1
  have h2 := (lpInv_run (su := su) es' h1).2
  refine ⟨h1.1, h1.2, ?_⟩
  have : run su me s (es ++ es') = run su me (run su me s es) es' := by
    unfold run; exact List.foldl_append
  rw [this]
  exact h2

/-- **C141.** A transaction lowers nobody's LP balance and nobody's balance of a pool asset, except the signer's and
(assets only) the pool's; and no pool assets appear or vanish. -/
theorem C141_others_never_lose [Fintype A] (su : Setup) (me : A) (now : Nat) (fo : A) (s s' : State A) (o : Op A)
    (h : exec su me now fo s o = .ok s') :
    (∀ a, a ≠ o.signer → s.lp a ≤ s'.lp a ∧ (a ≠ me → ∀ i, s.bal i a ≤ s'.bal i a)) ∧
      ∀ i, ∑ a, s'.bal i a = ∑ a, s.bal i a := by
  refine ⟨fun a ha => ⟨?_, fun hm i => (exec_moved h i).others a ha hm⟩, fun i => (exec_moved h i).total⟩
  obtain ⟨hsig, h⟩ := exec_lp h
  rcases h with ⟨e1, e2⟩ | ⟨rc, locked, share, e1, e2, e3⟩ | ⟨n, e1, e2, e3⟩ | ⟨v, n, e1, e2⟩
  · rw [e1]
  · rw [e1, credit_apply, credit_apply]; split <;> split <;> omega
  · have := debit_apply e1 a
    rw [if_neg ha] at this
    omega
  · exact PCL.move_other ha e1

/-- **C141.**  In every reachable state, what all LP holders are told they can redeem together never exceeds the
reserves. -/
theorem C141_claims_covered [Fintype A] (su : Setup) (me : A) (bal : Bool → A → Nat) (owner : Option A)
    (amp t : Nat) (s0 : State A) (es : List (Event A)) (hc : create bal owner amp t = .ok s0) (c : Bool → A → Nat)
    (hq : ∀ a, queryShare me (run su me s0 es) ((run su me s0 es).lp a) = .ok (c false a, c true a)) (i : Bool) :
    ∑ a, c i a ≤ (run su me s0 es).bal i me := by
  obtain ⟨hi, _⟩ := C141_lp_supply_and_locked_minimum su me bal owner amp t s0 es [] hc
  generalize run su me s0 es = s at *
  have hq' : ∀ a, shareInAsset (s.bal i me) (s.lp a) s.supply = .ok (c i a) := by
    intro a
    have := hq a
    unfold queryShare at this
    simp only [bind_ok_iff, Except.ok.injEq, Prod.mk.injEq] at this
    obtain ⟨x, hx, y, hy, rfl, rfl⟩ := this
    cases i
    · exact hx
    · exact hy
  rcases Nat.eq_zero_or_pos s.supply with hz | hpos
  · have h0 : ∀ a, c i a = 0 := by
      intro a
      have h := hq' a
      rw [hz] at h
      unfold shareInAsset at h
      simp only [if_true, bind_ok_iff, Except.ok.injEq, u128_ok, mulDec] at h
      obtain ⟨x, rfl, _, h⟩ := h
      rw [← h]
      simp
    simp [h0]
  · have hle : ∀ a, c i a * s.supply ≤ s.bal i me * s.lp a := fun a => (XYK.shareInAsset_ok (by omega) (hq' a)).2
    have hsum : (∑ a, c i a) * s.supply ≤ s.bal i me * s.supply := by
      rw [Finset.sum_mul]
      calc ∑ a, c i a * s.supply ≤ ∑ a, s.bal i me * s.lp a := Finset.sum_le_sum fun a _ => hle a
        _ = s.bal i me * s.supply := by rw [← Finset.mul_sum, ← hi]
    exact Nat.le_of_mul_le_mul_right hsum hpos

/-! A history with a first deposit, a swap, a one-sided deposit and a withdrawal. -/

/-- Five transactions. -/
def demoEvents : List (Event Acct) :=
  [⟨100, 3, .provide 1 (fun _ => 10 ^ 9) none 1⟩, ⟨160, 3, .swap 2 false (10 ^ 6) none none 2 noFees⟩,
   ⟨200, 3, .provide 2 (fun i => if i then 10 ^ 8 else 0) none 2⟩, ⟨220, 3, .withdraw 1 (10 ^ 8) none⟩,
   ⟨90000, 3, .startAmp 3 300 180000⟩]

example : okAnd (create (A := Acct) (fun _ a => if a = 1 ∨ a = 2 then 10 ^ 12 else 0) none 100 50) (fun s =>
    let s := run demoSetup 0 s demoEvents
    decide (s.lp 0 = 1000 ∧ s.supply = 1999977320 ∧ s.amp.next = 30000 ∧ s.bal false 1 + s.bal false 2 + s.bal false 0 = 2 * 10 ^ 12)) =
      true := by decide +kernel

end Verif.Stable
