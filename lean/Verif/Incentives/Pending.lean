import Verif.Incentives.Claims

/-!
# The `PendingRewards` query as a list (C152)

The query answers with a list of assets.  It is put together from the finished rewards, in the order of a hash map, and
the running ones, in the order of the pool's list; then neighbouring entries of one asset are added up.  We show that for
every asset the entries add up to what a claim pays in it, whatever the two orders are.  An asset can be listed twice.
-/

namespace Verif.Incentives

open Verif

variable {I U : Type}

/-- The amounts of one asset's finished incarnations after the first (`contracts/tokenomics/incentives/src/state.rs:662-669`). -/
def restAmounts (amount : Nat) : List Nat → Res (List Nat)
  | [] => .ok []
  | f :: rest => do
    let a ← u128 (mulDec amount f)
    let l ← restAmounts amount rest
    .ok (a :: l)

/-- The amounts of one asset's finished incarnations: one value of the group map of `claim_finished_rewards`
(`contracts/tokenomics/incentives/src/state.rs:642-671`). -/
def finishedAmounts (amount uidx : Nat) : List Nat → Res (List Nat)
  | [] => .ok []
  | f :: rest => do
    let d ← csub f uidx
    let a ← u128 (mulDec amount d)
    let l ← restAmounts amount rest
    .ok (a :: l)

/-- `claim_finished_rewards` (`contracts/tokenomics/incentives/src/state.rs:612-673`), with the groups in the order `ord` in which the
hash map yields them. -/
def finishedEntries (p : Pool I U) (rem : Removed I) (u : User I) : List I → Res (List (I × Nat))
  | [] => .ok []
  | X :: rest => do
    let a ← finishedAmounts u.amount ((u.ext X).getD 0) (finishedOf p rem u.lastClaim X)
    let l ← finishedEntries p rem u rest
    .ok (a.map (fun n => (X, n)) ++ l)

/-- `calculate_reward` for one running reward, after `reset_user_index` (`contracts/tokenomics/incentives/src/state.rs:54-75,569-604`);
`none` is the protocol's own ASTRO reward, whose asset is `astro`. -/
def runningEntry (astro : I) (p : Pool I U) (rem : Removed I) (u : User I) : Option I → Res (I × Nat)
  | none => do
    let a ← payAstro p u
    .ok (astro, a)
  | some X => do
    let a ← payCurrent u.amount (if finishedOf p rem u.lastClaim X = [] then (u.ext X).getD 0 else 0) (p.ext X)
    .ok (X, a)

/-- `calculate_rewards` (`contracts/tokenomics/incentives/src/state.rs:197-208`), in the order of the pool's list of rewards. -/
def runningEntries (astro : I) (p : Pool I U) (rem : Removed I) (u : User I) : List (Option I) → Res (List (I × Nat))
  | [] => .ok []
  | k :: rest => do
    let e ← runningEntry astro p rem u k
    let l ← runningEntries astro p rem u rest
    .ok (e :: l)

/-- `group_by(asset.info)` with the sum of each group (`contracts/tokenomics/incentives/src/query.rs:189-197`): only neighbouring entries of one asset
are put together; the sum of a group must fit `Uint128`. -/
def groupEntries [DecidableEq I] : List (I × Nat) → Res (List (I × Nat))
  | [] => .ok []
  | (X, a) :: rest => do
    let l ← groupEntries rest
    match l with
    | [] => .ok [(X, a)]
    | (Y, b) :: t =>
      if X = Y then do
        let n ← u128 (a + b)
        .ok ((X, n) :: t)
      else .ok ((X, a) :: (Y, b) :: t)

/-- `query_pending_rewards` (`contracts/tokenomics/incentives/src/query.rs:162-200`).  `fin` is the order in which the hash map yields the finished
assets, `running` the order of the pool's list of rewards. -/
def pendingList [DecidableEq I] (astro : I) (s : State I U) (user : U) (fin : List I) (running : List (Option I)) :
    Res (List (I × Nat)) := do
  let p := (update s.now s.pool).1
  let rem := (update s.now s.pool).2
  let u ← orErr (s.pool.users user) (.invalid "PositionDoesntExist")
  let a ← finishedEntries p rem u fin
  let b ← runningEntries astro p rem u running
  groupEntries (a ++ b)

/-! ## Specification -/

/-- The amounts listed for one asset, added up. -/
def listed [DecidableEq I] (l : List (I × Nat)) (X : I) : Nat := ((l.filter fun e => decide (e.1 = X)).map Prod.snd).sum

/-- `fin` and `running` are orders in which the query may meet the rewards: the finished assets the user has not settled,
each once; and the pool's running rewards, each once. -/
structure Orders (s : State I U) (user : U) (fin : List I) (running : List (Option I)) : Prop where
  finOnce : fin.Nodup
  finAll : ∀ u, s.pool.users user = some u → ∀ X,
    X ∈ fin ↔ finishedOf (update s.now s.pool).1 (update s.now s.pool).2 u.lastClaim X ≠ []
  runOnce : running.Nodup
  runExt : ∀ X, some X ∈ running ↔ ((update s.now s.pool).1.ext X).isSome = true
  runInt : none ∈ running ↔ ((update s.now s.pool).1.int).isSome = true

/-! ## Lemmas -/

section
variable [DecidableEq I]

theorem listed_append (l m : List (I × Nat)) (X : I) : listed (l ++ m) X = listed l X + listed m X := by
  simp [listed]

theorem listed_cons (Y : I) (n : Nat) (l : List (I × Nat)) (X : I) :
    listed ((Y, n) :: l) X = (if Y = X then n else 0) + listed l X := by
  unfold listed
  by_cases h : Y = X <;> simp [h]

theorem groupEntries_listed : ∀ {l m : List (I × Nat)}, groupEntries l = .ok m → ∀ X, listed m X = listed l X
  | [], m, h, X => by
    simp only [groupEntries, Except.ok.injEq] at h
    rw [← h]
  | (Y, a) :: rest, m, h, X => by
    simp only [groupEntries, bind_ok_iff] at h
    obtain ⟨l, hl, h⟩ := h
    have ih := groupEntries_listed hl X
    rw [listed_cons, ← ih]
    cases l with
    | nil =>
      simp only [Except.ok.injEq] at h
      rw [← h, listed_cons]
    | cons e t =>
      obtain ⟨Z, b⟩ := e
      simp only at h
      by_cases hz : Y = Z
      · rw [if_pos hz, bind_ok_iff] at h
        obtain ⟨n, hn, h⟩ := h
        simp only [Except.ok.injEq] at h
        obtain ⟨_, rfl⟩ := (u128_ok _ _).1 hn
        rw [← h, listed_cons, listed_cons, ← hz]
        split <;> omega
      · rw [if_neg hz] at h
        simp only [Except.ok.injEq] at h
        rw [← h, listed_cons]

end

theorem restAmounts_sum {amount : Nat} : ∀ {fs l : List Nat}, restAmounts amount fs = .ok l → payRest amount fs = .ok l.sum
  | [], l, h => by
    simp only [restAmounts, Except.ok.injEq] at h
    rw [← h]; rfl
  | f :: rest, l, h => by
    simp only [restAmounts, bind_ok_iff, Except.ok.injEq] at h
    obtain ⟨a, ha, t, ht, rfl⟩ := h
    unfold payRest
    rw [ha, ok_bind, restAmounts_sum ht, ok_bind, List.sum_cons]

theorem finishedAmounts_sum {amount uidx : Nat} {fs l : List Nat} (h : finishedAmounts amount uidx fs = .ok l) :
    payFinished amount uidx fs = .ok l.sum := by
  cases fs with
  | nil =>
    simp only [finishedAmounts, Except.ok.injEq] at h
    rw [← h]; rfl
  | cons f rest =>
    simp only [finishedAmounts, bind_ok_iff, Except.ok.injEq] at h
    obtain ⟨d, hd, a, ha, t, ht, rfl⟩ := h
    simp only [payFinished]
    rw [hd, ok_bind, ha, ok_bind, restAmounts_sum ht, ok_bind, List.sum_cons]

section
variable [DecidableEq I]

theorem listed_map (X Y : I) (l : List Nat) : listed (l.map fun n => (Y, n)) X = if Y = X then l.sum else 0 := by
  induction l with
  | nil => simp [listed]
  | cons n l ih =>
    rw [List.map_cons, listed_cons, ih]
    split <;> simp

theorem finishedEntries_listed {p : Pool I U} {rem : Removed I} {u : User I} : ∀ {ord : List I} {l : List (I × Nat)},
    finishedEntries p rem u ord = .ok l → ord.Nodup →
    (∀ X ∈ ord, payFinished u.amount ((u.ext X).getD 0) (finishedOf p rem u.lastClaim X) = .ok (listed l X)) ∧
    ∀ X, X ∉ ord → listed l X = 0
  | [], l, h, _ => by
    simp only [finishedEntries, Except.ok.injEq] at h
    subst h
    exact ⟨by simp, fun _ _ => rfl⟩
  | Y :: rest, l, h, hn => by
    simp only [finishedEntries, bind_ok_iff, Except.ok.injEq] at h
    obtain ⟨a, ha, t, ht, rfl⟩ := h
    obtain ⟨hy, hr⟩ := List.nodup_cons.1 hn
    obtain ⟨h1, h2⟩ := finishedEntries_listed ht hr
    constructor
    · intro X hX
      rw [listed_append, listed_map]
      rcases List.mem_cons.1 hX with rfl | hX
      · rw [if_pos rfl, h2 _ hy, Nat.add_zero]
        exact finishedAmounts_sum ha
      · rw [if_neg (fun e : Y = X => hy (e ▸ hX)), Nat.zero_add]
        exact h1 X hX
    · intro X hX
      rw [List.mem_cons, not_or] at hX
      rw [listed_append, listed_map, if_neg (fun e => hX.1 e.symm), h2 X hX.2]

/-- What the running rewards add to an asset. -/
theorem runningEntries_listed {astro : I} {p : Pool I U} {rem : Removed I} {u : User I} :
    ∀ {ord : List (Option I)} {l : List (I × Nat)}, runningEntries astro p rem u ord = .ok l → ord.Nodup →
    (∀ X, some X ∈ ord → isOk (payCurrent u.amount (if finishedOf p rem u.lastClaim X = [] then (u.ext X).getD 0 else 0)
        (p.ext X)) = true) ∧
    (none ∈ ord → isOk (payAstro p u) = true) ∧
    ∀ X, listed l X =
      (if some X ∈ ord then val (payCurrent u.amount (if finishedOf p rem u.lastClaim X = [] then (u.ext X).getD 0 else 0)
        (p.ext X)) else 0) + (if none ∈ ord ∧ X = astro then val (payAstro p u) else 0)
  | [], l, h, _ => by
    simp only [runningEntries, Except.ok.injEq] at h
    subst h
    exact ⟨by simp, by simp, fun X => by simp [listed]⟩
  | k :: rest, l, h, hn => by
    simp only [runningEntries, bind_ok_iff, Except.ok.injEq] at h
    obtain ⟨e, he, t, ht, rfl⟩ := h
    obtain ⟨hk, hr⟩ := List.nodup_cons.1 hn
    obtain ⟨h1, h2, h3⟩ := runningEntries_listed ht hr
    cases k with
    | none =>
      simp only [runningEntry, bind_ok_iff, Except.ok.injEq] at he
      obtain ⟨a, ha, rfl⟩ := he
      refine ⟨fun X hX => h1 X (by simpa using hX), fun _ => by rw [ha]; rfl, fun X => ?_⟩
      rw [listed_cons, h3 X, ha]
      have hv : val (.ok a : Res Nat) = a := rfl
      simp only [List.mem_cons, reduceCtorEq, false_or, true_or, true_and, hk, false_and, if_false, hv]
      by_cases hX : X = astro
      · simp [hX]; omega
      · simp [hX, Ne.symm hX]
    | some Y =>
      simp only [runningEntry, bind_ok_iff, Except.ok.injEq] at he
      obtain ⟨a, ha, rfl⟩ := he
      refine ⟨fun X hX => ?_, fun hm => h2 (by simpa using hm), fun X => ?_⟩
      · rcases List.mem_cons.1 hX with hX | hX
        · simp only [Option.some.injEq] at hX
          subst hX
          rw [ha]; rfl
        · exact h1 X hX
      · rw [listed_cons, h3 X]
        by_cases hX : Y = X
        · subst hX
          have hv : val (.ok a : Res Nat) = a := rfl
          simp only [if_true, hk, if_false, List.mem_cons_self, ha, hv, List.mem_cons, reduceCtorEq, false_or]
          omega
        · have : some X ≠ some Y := fun e => hX (Option.some.inj e).symm
          simp only [hX, if_false, List.mem_cons, this, false_or, reduceCtorEq]
          omega

/-! ### The query answers -/

theorem groupEntries_ok : ∀ {l : List (I × Nat)}, (∀ X, listed l X < U128) →
    ∃ m, groupEntries l = .ok m ∧ (∀ e ∈ m, e.2 ≤ listed l e.1) ∧ m.IsChain (fun e f => e.1 ≠ f.1)
  | [], _ => ⟨[], rfl, by simp, by simp⟩
  | (X, a) :: rest, h => by
    have hr : ∀ Y, listed rest Y < U128 := fun Y => by
      have := h Y
      rw [listed_cons] at this
      omega
    obtain ⟨m, hm, hle, hc⟩ := groupEntries_ok hr
    unfold groupEntries
    rw [hm, ok_bind]
    cases m with
    | nil =>
      refine ⟨_, rfl, ?_, by simp⟩
      intro e he
      rw [List.mem_singleton] at he
      subst he
      rw [listed_cons, if_pos rfl]
      omega
    | cons e t =>
      obtain ⟨Y, b⟩ := e
      simp only
      by_cases hY : X = Y
      · subst hY
        have hb : b ≤ listed rest X := hle (X, b) (by simp)
        have hX := h X
        rw [listed_cons, if_pos rfl] at hX
        rw [if_pos rfl, show u128 (a + b) = .ok (a + b) from if_pos (by omega), ok_bind]
        refine ⟨_, rfl, ?_, ?_⟩
        · intro e he
          rcases List.mem_cons.1 he with rfl | he
          · rw [listed_cons, if_pos rfl]; simp only; omega
          · have := hle e (List.mem_cons_of_mem _ he)
            rw [listed_cons]; omega
        · cases t with
          | nil => simp
          | cons f t =>
            rw [List.isChain_cons_cons] at hc ⊢
            exact hc
      · rw [if_neg hY]
        refine ⟨_, rfl, ?_, List.IsChain.cons_cons hY hc⟩
        intro e he
        rcases List.mem_cons.1 he with rfl | he
        · rw [listed_cons, if_pos rfl]; simp only; omega
        · have := hle e he
          rw [listed_cons]; omega

omit [DecidableEq I] in
theorem restAmounts_ok {amount : Nat} : ∀ {fs : List Nat} {n : Nat}, payRest amount fs = .ok n → ∃ l, restAmounts amount fs = .ok l
  | [], _, _ => ⟨[], rfl⟩
  | f :: rest, n, h => by
    simp only [payRest, bind_ok_iff] at h
    obtain ⟨a, ha, b, hb, _⟩ := h
    obtain ⟨l, hl⟩ := restAmounts_ok hb
    exact ⟨a :: l, by rw [restAmounts, ha, ok_bind, hl, ok_bind]⟩

omit [DecidableEq I] in
theorem finishedAmounts_ok {amount uidx : Nat} {fs : List Nat} {n : Nat} (h : payFinished amount uidx fs = .ok n) :
    ∃ l, finishedAmounts amount uidx fs = .ok l := by
  cases fs with
  | nil => exact ⟨[], rfl⟩
  | cons f rest =>
    simp only [payFinished, bind_ok_iff] at h
    obtain ⟨d, hd, a, ha, b, hb, _⟩ := h
    obtain ⟨l, hl⟩ := restAmounts_ok hb
    exact ⟨a :: l, by simp only [finishedAmounts]; rw [hd, ok_bind, ha, ok_bind, hl, ok_bind]⟩

omit [DecidableEq I] in
theorem entries_ok {astro : I} {p : Pool I U} {rem : Removed I} {u : User I} {n : I → Nat} {a : Nat}
    (hn : ∀ X, payExt p rem u X = .ok (n X)) (ha : payAstro p u = .ok a) (fin : List I) (running : List (Option I)) :
    (∃ l, finishedEntries p rem u fin = .ok l) ∧ ∃ l, runningEntries astro p rem u running = .ok l := by
  constructor
  · induction fin with
    | nil => exact ⟨[], rfl⟩
    | cons X rest ih =>
      obtain ⟨l, hl⟩ := ih
      have hX := hn X
      simp only [payExt, bind_ok_iff] at hX
      obtain ⟨b, hb, _⟩ := hX
      obtain ⟨m, hm⟩ := finishedAmounts_ok hb
      exact ⟨_, by rw [finishedEntries, hm, ok_bind, hl, ok_bind]⟩
  · induction running with
    | nil => exact ⟨[], rfl⟩
    | cons k rest ih =>
      obtain ⟨l, hl⟩ := ih
      cases k with
      | none => exact ⟨_, by rw [runningEntries, runningEntry, ha, ok_bind, ok_bind, hl, ok_bind]⟩
      | some X =>
        have hX := hn X
        simp only [payExt, bind_ok_iff] at hX
        obtain ⟨_, _, c, hc, _⟩ := hX
        exact ⟨_, by rw [runningEntries, runningEntry, hc, ok_bind, ok_bind, hl, ok_bind]⟩

/-! ## C152 -/

/-- C152: whenever the query answers, the amounts it lists for an asset add up to what is pending in it (the ASTRO reward
of the protocol counting towards the ASTRO token), whatever the order in which the rewards are met. -/
theorem C152_listed_is_pending {astro : I} {s : State I U} {user : U} {fin : List I} {running : List (Option I)}
    {l : List (I × Nat)} (h : pendingList astro s user fin running = .ok l) (ho : Orders s user fin running) :
    ∃ (n : I → Nat) (a : Nat), (∀ X, pending s user X = .ok (n X)) ∧ pendingAstro s user = .ok a ∧
      ∀ X, listed l X = n X + (if X = astro then a else 0) := by
  unfold pendingList at h
  simp only [bind_ok_iff, orErr_ok] at h
  obtain ⟨u, hu, fs, hfs, rs, hrs, hg⟩ := h
  obtain ⟨hf1, hf2⟩ := finishedEntries_listed hfs ho.finOnce
  obtain ⟨hr1, hr2, hr3⟩ := runningEntries_listed hrs ho.runOnce
  have hX : ∀ X, pending s user X = .ok (listed fs X +
      (if some X ∈ running then val (payCurrent u.amount
        (if finishedOf (update s.now s.pool).1 (update s.now s.pool).2 u.lastClaim X = [] then (u.ext X).getD 0 else 0)
        ((update s.now s.pool).1.ext X)) else 0)) := by
    intro X
    unfold pending
    rw [hu]
    simp only
    unfold payExt
    simp only
    have e1 : payFinished u.amount ((u.ext X).getD 0)
        (finishedOf (update s.now s.pool).1 (update s.now s.pool).2 u.lastClaim X) = .ok (listed fs X) := by
      by_cases hm : X ∈ fin
      · exact hf1 X hm
      · have : finishedOf (update s.now s.pool).1 (update s.now s.pool).2 u.lastClaim X = [] := by
          by_contra hne
          exact hm ((ho.finAll u hu X).2 hne)
        rw [this, hf2 X hm]
        rfl
    rw [e1, ok_bind]
    by_cases hm : some X ∈ running
    · rw [if_pos hm]
      have := hr1 X hm
      generalize payCurrent u.amount _ _ = r at this ⊢
      cases r with
      | ok v => rfl
      | error e => simp [isOk] at this
    · have hno : (update s.now s.pool).1.ext X = none := by
        have := mt (ho.runExt X).2 hm
        simpa using this
      rw [if_neg hm, hno]
      rfl
  refine ⟨_, if none ∈ running then val (payAstro (update s.now s.pool).1 u) else 0, hX, ?_, ?_⟩
  · unfold pendingAstro
    rw [hu]
    simp only
    by_cases hm : none ∈ running
    · have := hr2 hm
      rw [if_pos hm]
      cases hp : payAstro (update s.now s.pool).1 u with
      | ok v => rfl
      | error e => rw [hp] at this; simp [isOk] at this
    · have hno : (update s.now s.pool).1.int = none := by
        have := mt ho.runInt.2 hm
        simpa using this
      rw [if_neg hm]
      unfold payAstro
      rw [hno]
  · intro X
    rw [groupEntries_listed hg X, listed_append, hr3 X]
    by_cases h1 : none ∈ running <;> by_cases h2 : X = astro <;> (simp [h1, h2]; try omega)

/-- C152: if the user claims when the query has answered, the claim is executed and pays, in every asset, exactly the
amounts listed for it. -/
theorem C152_claim_pays_listed [Fintype I] [DecidableEq U] {astro : I} {s : State I U} {user : U} {fin : List I}
    {running : List (Option I)} {l : List (I × Nat)} (h : pendingList astro s user fin running = .ok l)
    (ho : Orders s user fin running) :
    ∃ s' x, claim s user = .ok (s', x) ∧ ∀ X, x.ext X + (if X = astro then x.int else 0) = listed l X := by
  obtain ⟨n, a, h1, h2, h3⟩ := C152_listed_is_pending h ho
  obtain ⟨s', hs⟩ := claim_of_pending h1 h2
  exact ⟨s', _, hs, fun X => (h3 X).symm⟩

/-- C152: conversely, if a claim would be executed and in no asset would pay more than `Uint128` holds, the query answers;
no two neighbours in its answer are the same asset. -/
theorem C152_query_answers [Fintype I] [DecidableEq U] [Fintype U] {astro : I} {s s' : State I U} {user : U} {x : Paid I}
    {fin : List I} {running : List (Option I)} (ho : Orders s user fin running) (h : claim s user = .ok (s', x))
    (hsmall : ∀ X, x.ext X + (if X = astro then x.int else 0) < U128) :
    ∃ l, pendingList astro s user fin running = .ok l ∧ (∀ X, listed l X = x.ext X + (if X = astro then x.int else 0)) ∧
      l.IsChain (fun e f => e.1 ≠ f.1) := by
  have hp := fun X => C34_claim_pays_pending h X
  cases hu : s.pool.users user with
  | none =>
    unfold claim at h
    rw [hu] at h
    simp [orErr, error_bind] at h
  | some u =>
    have h1 : ∀ X, payExt (update s.now s.pool).1 (update s.now s.pool).2 u X = .ok (x.ext X) := by
      intro X
      have := (hp X).1
      unfold pending at this
      rw [hu] at this
      exact this
    have h2 : payAstro (update s.now s.pool).1 u = .ok x.int := by
      have := (hp astro).2
      unfold pendingAstro at this
      rw [hu] at this
      exact this
    obtain ⟨⟨a, ha⟩, b, hb⟩ := entries_ok (astro := astro) h1 h2 fin running
    have hq : pendingList astro s user fin running = groupEntries (a ++ b) := by
      unfold pendingList
      rw [hu]
      simp only [orErr, ok_bind, ha, hb]
    -- with sums as large as needed the answer would be the ungrouped list
    have key : ∀ X, listed (a ++ b) X = x.ext X + (if X = astro then x.int else 0) := by
      obtain ⟨hf1, hf2⟩ := finishedEntries_listed ha ho.finOnce
      obtain ⟨_, _, hr3⟩ := runningEntries_listed hb ho.runOnce
      intro X
      rw [listed_append, hr3 X, h2]
      have hX := h1 X
      simp only [payExt, bind_ok_iff, Except.ok.injEq] at hX
      obtain ⟨v, hv, w, hw, hvw⟩ := hX
      have hfin : listed a X = v := by
        by_cases hm : X ∈ fin
        · have := (hf1 X hm).symm.trans hv
          simpa using this
        · have hno : finishedOf (update s.now s.pool).1 (update s.now s.pool).2 u.lastClaim X = [] := by
            by_contra hne
            exact hm ((ho.finAll u hu X).2 hne)
          rw [hno] at hv
          simp only [payFinished, Except.ok.injEq] at hv
          rw [hf2 X hm, hv]
      have hrun : (if some X ∈ running then val (payCurrent u.amount
          (if finishedOf (update s.now s.pool).1 (update s.now s.pool).2 u.lastClaim X = [] then (u.ext X).getD 0 else 0)
          ((update s.now s.pool).1.ext X)) else 0) = w := by
        by_cases hm : some X ∈ running
        · rw [if_pos hm, hw]; rfl
        · have hno : (update s.now s.pool).1.ext X = none := by
            have := mt (ho.runExt X).2 hm
            simpa using this
          rw [hno] at hw
          simp only [payCurrent, Except.ok.injEq] at hw
          rw [if_neg hm, hw]
      have hint : (if none ∈ running ∧ X = astro then val (.ok x.int : Res Nat) else 0) = if X = astro then x.int else 0 := by
        by_cases hm : none ∈ running
        · simp [hm, val]
        · have hno : (update s.now s.pool).1.int = none := by
            have := mt ho.runInt.2 hm
            simpa using this
          unfold payAstro at h2
          rw [hno] at h2
          simp only [Except.ok.injEq] at h2
          simp [hm, ← h2]
      rw [hfin, hrun, hint, ← hvw]
      omega
    obtain ⟨m, hm, _, hc⟩ := groupEntries_ok (l := a ++ b) (fun X => by rw [key X]; exact hsmall X)
    exact ⟨m, hq.trans hm, fun X => by rw [groupEntries_listed hm X, key X], hc⟩

end

/-! ## A concrete case -/

/-- Reward 0 ends, the pool then gets ASTRO, and reward 0 is added again. -/
def wTwice : List (Op (Fin 2) (Fin 4)) :=
  [.deposit 1 1 100, .incentivize 0 100000000 1 false, .wait 2000000, .touch, .setAstro 5000000000000000000,
   .incentivize 0 90000000 2 false, .wait 100000]

/-- The state after it. -/
def wTwiceEnd : State (Fin 2) (Fin 4) := (run 0 wStart wTwice).st

/-- The orders met by the query: reward 0 has ended once; the list of the pool is ASTRO, then reward 0. -/
theorem wTwice_orders : Orders wTwiceEnd 1 [0] [none, some 0] := by
  have h : ∀ X, (decide (X ∈ [(0 : Fin 2)]) = (match wTwiceEnd.pool.users 1 with
      | none => true
      | some u => decide (finishedOf (update wTwiceEnd.now wTwiceEnd.pool).1 (update wTwiceEnd.now wTwiceEnd.pool).2
          u.lastClaim X ≠ []))) := by
    decide +kernel
  refine ⟨by decide, fun u hu X => ?_, by decide, by decide +kernel, by decide +kernel⟩
  have := h X
  rw [hu] at this
  exact decide_eq_decide.1 this

/-- C152 is violated in its stronger reading, one entry per asset: reward 0 is listed twice, and each of its two entries is
less than what a claim pays. -/
theorem C152_listed_twice_violated :
    Orders wTwiceEnd 1 [0] [none, some 0] ∧
    okAnd (pendingList 1 wTwiceEnd 1 [0] [none, some 0]) (fun l => decide (l.map Prod.fst = [0, 1, 0] ∧ l.all (fun e => decide (0 < e.2)))) = true ∧
    okAnd (claim wTwiceEnd 1) (fun r => okAnd (pendingList 1 wTwiceEnd 1 [0] [none, some 0])
      (fun l => l.all (fun e => decide (e.1 = 0 → e.2 < r.2.ext 0)))) = true :=
  ⟨wTwice_orders, by decide +kernel, by decide +kernel⟩

/-- Were reward 0 before ASTRO in the pool's list, its two entries would be neighbours and put together. -/
example : okAnd (pendingList 1 wTwiceEnd 1 [0] [some 0, none]) (fun l => decide (l.map Prod.fst = [0, 1])) = true := by
  decide +kernel

end Verif.Incentives
