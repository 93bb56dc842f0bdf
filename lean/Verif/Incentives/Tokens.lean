import Verif.Incentives.Many

/-!
# How many reward tokens a pool takes (C125) and the `PoolStakers` query (C126)
-/

namespace Verif.Incentives

open Verif

variable {I U : Type} [Fintype I] [DecidableEq I] [DecidableEq U] [Fintype U]

/-! ## C125 -/

/-- The external reward tokens running in the pool (as the `RewardInfo` query lists them). -/
def running (s : State I U) : Finset I := Finset.univ.filter fun X => ((update s.now s.pool).1.ext X).isSome = true

/-- Tokens stored as running (some may have ended since the last call). -/
def storedTokens (p : Pool I U) : Finset I := Finset.univ.filter fun X => (p.ext X).isSome = true

omit [DecidableEq U] [Fintype U] [DecidableEq I] [Fintype I] in
theorem update_ext_some {p : Pool I U} {now : Nat} {X : I} (h : ((update now p).1.ext X).isSome = true) :
    (p.ext X).isSome = true := by
  unfold update at h
  split at h
  · exact h
  · cases hx : p.ext X with
    | none => simp [hx] at h
    | some e => rfl

omit [DecidableEq U] [Fintype U] [DecidableEq I] in
theorem running_le (s : State I U) : (running s).card ≤ (storedTokens s.pool).card := by
  apply Finset.card_le_card
  intro X hX
  simp only [running, storedTokens, Finset.mem_filter, Finset.mem_univ, true_and] at *
  exact update_ext_some hX

omit [Fintype U] in
/-- No call but `Incentivize` adds a reward token. -/
theorem step_ext {me : U} {r : Run I U} {o : Op I U} (ho : ∀ Y a n b, o ≠ .incentivize Y a n b) {X : I}
    (h : ((step me r o).st.pool.ext X).isSome = true) : (r.st.pool.ext X).isSome = true := by
  have hup : ∀ {s : State I U}, s.pool.ext = (update r.st.now r.st.pool).1.ext → (s.pool.ext X).isSome = true →
      (r.st.pool.ext X).isSome = true := by
    intro s hs h
    rw [hs] at h
    exact update_ext_some h
  cases o with
  | deposit sender staker n =>
    unfold step at h
    simp only at h
    split at h
    · rename_i s x heq
      split at heq
      · simp at heq
      unfold deposit at heq
      simp only [bind_ok_iff] at heq
      obtain ⟨lp, _, hd⟩ := heq
      split at hd
      · simp only [bind_ok_iff, u128_ok, Except.ok.injEq, Prod.mk.injEq] at hd
        obtain ⟨T, _, rfl, rfl⟩ := hd
        exact update_ext_some h
      · simp only [bind_ok_iff, u128_ok, Except.ok.injEq, Prod.mk.injEq] at hd
        obtain ⟨pay, _, a, _, T, _, rfl, rfl⟩ := hd
        exact update_ext_some h
    · exact h
  | withdraw user n =>
    unfold step at h
    simp only at h
    split at h
    · rename_i s x heq
      split at heq
      · simp at heq
      unfold withdraw at heq
      simp only [bind_ok_iff, orErr_ok, require_ok, exists_const, csub_ok, Except.ok.injEq,
        Prod.mk.injEq] at heq
      obtain ⟨u, _, hn, pay, hpay, T, _, lp, _, rfl, rfl⟩ := heq
      exact update_ext_some h
    · exact h
  | claim user =>
    unfold step at h
    simp only at h
    split at h
    · rename_i s x heq
      unfold claim at heq
      simp only [bind_ok_iff, orErr_ok, Except.ok.injEq, Prod.mk.injEq] at heq
      obtain ⟨u, _, pay, hpay, rfl, rfl⟩ := heq
      exact update_ext_some h
    · exact h
  | incentivize Y amount periods isAstro => exact absurd rfl (ho _ _ _ _)
  | removeReward Y bypass =>
    unfold step at h
    simp only at h
    split at h
    · rename_i s n heq
      unfold removeReward at heq
      simp only [bind_ok_iff, Except.ok.injEq, Prod.mk.injEq, Prod.exists] at heq
      obtain ⟨p, rem, m, hd, rfl, rfl⟩ := heq
      unfold deregister at hd
      simp only [bind_ok_iff, orErr_ok, u128_ok, Except.ok.injEq, Prod.mk.injEq] at hd
      obtain ⟨e, he, m, _, ⟨rfl, rfl⟩, rfl⟩ := hd
      simp only [save] at h
      by_cases hX : X = Y
      · subst hX; simp at h
      · rw [Function.update_of_ne hX] at h
        exact update_ext_some h
    · exact h
  | setAstro rps => exact update_ext_some h
  | disableAstro => exact update_ext_some h
  | touch => exact update_ext_some h
  | wait d => exact h
  | sendLp src dst n =>
    unfold step at h
    simp only at h
    split at h <;> exact h

/-- An accepted `Incentivize` of a token other than ASTRO finds room. -/
theorem step_incentivize {me : U} {r : Run I U} {Y : I} {a n : Nat} (h : (storedTokens r.st.pool).card ≤ MAX_REWARD_TOKENS) :
    (storedTokens (step me r (.incentivize Y a n false)).st.pool).card ≤ MAX_REWARD_TOKENS := by
  unfold step
  simp only
  split
  · rename_i s heq
    unfold incentivize at heq
    simp only [bind_ok_iff, Except.ok.injEq] at heq
    obtain ⟨c, hc, p, hp, rfl⟩ := heq
    obtain ⟨e, hext, _⟩ := incentivizePool_ext hp
    unfold incentivizePool at hp
    simp only [bind_ok_iff, require_ok, exists_const] at hp
    have hreq := hp.1
    have hle : (storedTokens (update r.st.now r.st.pool).1).card ≤ (storedTokens r.st.pool).card := by
      apply Finset.card_le_card
      intro X hX
      simp only [storedTokens, Finset.mem_filter, Finset.mem_univ, true_and] at *
      exact update_ext_some hX
    have hsub : Fintype.card {Z : I // ((update r.st.now r.st.pool).1.ext Z).isSome = true} =
        (storedTokens (update r.st.now r.st.pool).1).card := Fintype.card_subtype _
    rw [hsub] at hreq
    have hnew : storedTokens (save p (update r.st.now r.st.pool).2) = insert Y (storedTokens (update r.st.now r.st.pool).1) := by
      ext Z
      simp only [storedTokens, Finset.mem_filter, Finset.mem_univ, true_and, Finset.mem_insert]
      show (p.ext Z).isSome = true ↔ _
      rw [hext]
      by_cases hZ : Z = Y
      · subst hZ; simp
      · simp [hZ]
    show (storedTokens (save p (update r.st.now r.st.pool).2)).card ≤ _
    rw [hnew]
    by_cases hY : (update r.st.now r.st.pool).1.ext Y = none
    · have h5 : (storedTokens (update r.st.now r.st.pool).1).card ≠ MAX_REWARD_TOKENS := fun h5 => hreq ⟨h5, hY, trivial⟩
      have := Finset.card_insert_le Y (storedTokens (update r.st.now r.st.pool).1)
      omega
    · rw [Finset.insert_eq_of_mem]
      · omega
      · simp only [storedTokens, Finset.mem_filter, Finset.mem_univ, true_and]
        exact Option.isSome_iff_ne_none.2 hY
  · exact h

/-- ASTRO is never added as an external reward. -/
def NoExternalAstro (ops : List (Op I U)) : Prop := ∀ o ∈ ops, ∀ Y a n, o ≠ .incentivize Y a n true

/-- C125, partial: as long as nobody adds ASTRO as an external reward, at most five reward tokens run in a
pool, whatever happens.
Missing: histories where ASTRO is added too; then the limit does not hold
(`C125_limit_lost_violated`). -/
theorem C125_at_most_five_partial (me : U) (lp : U → Nat) (now : Nat) (ops : List (Op I U)) (h : NoExternalAstro ops) :
    (running (run me (start lp now) ops).st).card ≤ 5 := by
  refine Nat.le_trans (running_le _) ?_
  have h0 : (storedTokens (start lp now : Run I U).st.pool).card ≤ MAX_REWARD_TOKENS := by
    simp [storedTokens, start, Pool.empty]
  show _ ≤ MAX_REWARD_TOKENS
  generalize (start lp now : Run I U) = r at h0
  induction ops generalizing r with
  | nil => exact h0
  | cons o os ih =>
    refine ih (fun o' ho' => h o' (List.mem_cons_of_mem _ ho')) _ ?_
    by_cases hi : ∃ Y a n b, o = .incentivize Y a n b
    · obtain ⟨Y, a, n, b, rfl⟩ := hi
      cases b with
      | true => exact absurd rfl (h _ (by simp) Y a n)
      | false => exact step_incentivize h0
    · refine Nat.le_trans (Finset.card_le_card ?_) h0
      intro X hX
      simp only [storedTokens, Finset.mem_filter, Finset.mem_univ, true_and] at *
      exact step_ext (fun Y a n b he => hi ⟨Y, a, n, b, he⟩) hX

section Witness

/-- Five tokens (1–5), and a sixth which is refused. -/
def wSix : List (Op (Fin 9) (Fin 2)) :=
  [.incentivize 1 100000000 1 false, .incentivize 2 100000000 1 false, .incentivize 3 100000000 1 false,
   .incentivize 4 100000000 1 false, .incentivize 5 100000000 1 false, .incentivize 6 100000000 1 false]
/-- The same with ASTRO (0) before the sixth: from then on every token is accepted. -/
def wNine : List (Op (Fin 9) (Fin 2)) :=
  [.incentivize 1 100000000 1 false, .incentivize 2 100000000 1 false, .incentivize 3 100000000 1 false,
   .incentivize 4 100000000 1 false, .incentivize 5 100000000 1 false, .incentivize 0 100000000 1 true,
   .incentivize 6 100000000 1 false, .incentivize 7 100000000 1 false, .incentivize 8 100000000 1 false]

def wNineStart : Run (Fin 9) (Fin 2) := start (fun _ => 0) (EPOCHS_START + 1)

/-- Non-vacuity: the limit is reached, and the sixth token refused. -/
example : NoExternalAstro wSix ∧ (running (run 0 wNineStart wSix).st).card = 5 := by
  refine ⟨?_, by decide +kernel⟩
  intro o ho Y a n
  simp only [wSix, List.mem_cons, List.not_mem_nil, or_false] at ho
  rcases ho with rfl | rfl | rfl | rfl | rfl | rfl <;> simp

/-- C125 is violated: after five tokens, adding ASTRO as an external reward makes six, and since the code tests
for exactly five, every further token is accepted: here eight besides ASTRO. -/
theorem C125_limit_lost_violated :
    ∃ ops : List (Op (Fin 9) (Fin 2)), 5 < ((running (run 0 wNineStart ops).st).erase 0).card ∧
      (running (run 0 wNineStart ops).st).card = 9 :=
  ⟨wNine, by decide +kernel, by decide +kernel⟩

/-- Two pools, assets: 0 = ASTRO (native), 1 = a native coin, 2 = a cw20 token; the fee is 250 of coin 1;
accounts: 0 = the contract, 1 = the sender, 2 = the fee receiver. -/
def wEnv : Env (Fin 2) (Fin 3) (Fin 4) :=
  { me := 0, astro := 0, fee := some ⟨1, 250, 2⟩, native := fun X => decide (X ≠ 2), blocked := fun _ => false,
    registered := fun _ => true }

def wMulti : Multi (Fin 2) (Fin 3) (Fin 4) :=
  { pools := fun _ => Pool.empty, bal := fun _ _ => 1000000000, now := EPOCHS_START + 1 }

/-- ASTRO to pool 0, the coin twice to pool 0 and once to pool 1, the cw20 token to pool 1. -/
def wItems : List (Item (Fin 2) (Fin 3)) :=
  [⟨0, 0, 10000000, 1⟩, ⟨0, 1, 20000000, 2⟩, ⟨0, 1, 30000000, 3⟩, ⟨1, 1, 5000000, 1⟩, ⟨1, 2, 7000000, 1⟩]

/-- Non-vacuity of C124: three pairs are new, so three fees are due; the message is accepted with exactly the
coins due and refused with one coin more or one fee less. -/
example : newPairs wEnv wMulti wItems = 3 ∧
    okAnd (incentivizeMany wEnv 1 wMulti [(0, 10000000), (1, 55000750)] wItems) (fun m =>
      decide (m.bal 1 2 = 1000000750 ∧ m.bal 2 0 = 1007000000 ∧ m.bal 1 0 = 1055000000)) = true ∧
    okAnd (incentivizeMany wEnv 1 wMulti [(0, 10000000), (1, 55000751)] wItems) (fun _ => true) = false ∧
    okAnd (incentivizeMany wEnv 1 wMulti [(0, 10000000), (1, 55000500)] wItems) (fun _ => true) = false := by
  decide +kernel

end Witness

end Verif.Incentives
