import Verif.Staking.PairXastro
import Verif.Asset.Props

/-!
# Trading ASTRO and xASTRO through the virtual pair (C161)

The pair of `contracts/pair_xastro` keeps nothing: it hands the coins on to the staking contract.  Here its message is
executed on the ledgers of the staking model.
-/

namespace Verif.Joint.XastroPair

open Verif Verif.Staking
open Verif.Asset (Str Info Coin assertSent sent)

variable {A : Type} [DecidableEq A]

/-- `Config` of the pair, contracts/pair_xastro/src/state.rs: its account, the staking contract and the two denoms. -/
structure Cfg (A : Type) where
  pair : A
  staking : A
  astro : Str
  xastro : Str

/-- `instantiate`, contracts/pair_xastro/src/contract.rs:24-72: the two denoms are those of the staking contract and the pair
trades exactly them. -/
def instantiate (infos : List Info) (stakingAstro stakingXastro : Str) : Res (Str × Str) := do
  require (infos.length = 2) (.invalid "asset_infos must contain exactly two elements")
  require (Info.native stakingAstro ∈ infos) (.invalid "Missing astro denom in asset_infos")
  require (Info.native stakingXastro ∈ infos) (.invalid "Missing xAstro denom in asset_infos")
  .ok (stakingAstro, stakingXastro)

/-- The ledger of a denom; other denoms are not traded here and have no ledger in the staking model. -/
def attach (c : Cfg A) (s : State A) (src dst : A) : List Coin → Res (State A)
  | [] => .ok s
  | a :: as => do
    let s ← (if a.denom = c.astro then do
        let l ← move s.astro src dst a.amount
        .ok { s with astro := l }
      else if a.denom = c.xastro then do
        let l ← move s.xastro src dst a.amount
        .ok { s with xastro := l }
      else .ok s : Res (State A))
    attach c s src dst as

/-- `execute`, contracts/pair_xastro/src/contract.rs:87-102, and `swap`, 111-172: the answer is the reported return amount.  The
message to the staking contract carries the offered coin; its execution is `Staking.enter` or `Staking.leave`, called by the
pair.  The reported amount is computed from the balances before that message runs. -/
def swap (c : Cfg A) (s : State A) (sender : A) (funds : List Coin) (offer : Asset.Asset) (to? : Option A) :
    Res (State A × Nat) := do
  let s ← attach c s sender c.pair funds
  assertSent offer funds
  let receiver := to?.getD sender
  match offer.info with
  | .native d =>
    if d = c.astro then do
      let out ← predictStake c.staking s offer.amount
      let (s, _) ← enter c.staking s c.pair offer.amount receiver
      .ok (s, out)
    else if d = c.xastro then do
      let out ← predictUnstake c.staking s offer.amount
      let (s, _) ← leave c.staking s c.pair offer.amount receiver
      .ok (s, out)
    else .error (.invalid "InvalidAsset")
  | .token _ => .error (.invalid "InvalidAsset")

/-- The chain: everything that can happen to the staking contract, and trades through the pair. -/
inductive Op (A : Type) where
  | staking (o : Staking.Op A)
  | swap (sender : A) (funds : List Coin) (offer : Asset.Asset) (to? : Option A)

/-- One transaction; contracts sign nothing. -/
def exec (c : Cfg A) (s : State A) : Op A → Res (State A)
  | .staking o => Staking.exec c.staking s o
  | .swap u funds offer t => do
    require (u ≠ c.pair ∧ u ≠ c.staking) .unauthorized
    let (s, _) ← swap c s u funds offer t
    .ok s

/-- Reverting step. -/
def step (c : Cfg A) (s : State A) (o : Op A) : State A := commit' s (exec c s o)

/-- History. -/
def run (c : Cfg A) (s : State A) (os : List (Op A)) : State A := os.foldl (step c) s

/-- Two contracts, two denoms. -/
structure Cfg.Ok (c : Cfg A) : Prop where
  ne : c.pair ≠ c.staking
  denoms : c.astro ≠ c.xastro

/-- **Specification.**  What a trade through the pair stands for. -/
def meaning (c : Cfg A) : Op A → Option (Staking.Op A)
  | .staking o => some o
  | .swap u _ offer t =>
    if offer.info = .native c.astro then some (.enter u offer.amount (t.getD u))
    else if offer.info = .native c.xastro then some (.leave u offer.amount (t.getD u))
    else none

/-! ## Lemmas -/

theorem move_via {l l₁ l₂ : A → Nat} {a p b : A} (hap : a ≠ p) (hpb : p ≠ b) {n : Nat} (h1 : move l a p n = .ok l₁)
    (h2 : move l₁ p b n = .ok l₂) : move l a b n = .ok l₂ := by
  obtain ⟨l', h⟩ := move_succeeds (l := l) (a := a) (b := b) (n := n) (move_le h1)
  rw [h]
  congr 1
  funext x
  rw [move_apply h, move_apply h2, move_apply h1]
  by_cases hx : x = p
  · subst hx
    simp [hap.symm, hpb]
  · simp [hx]

theorem move_via' {l l₂ : A → Nat} {a p b : A} (hap : a ≠ p) (hpb : p ≠ b) {n : Nat} (h : move l a b n = .ok l₂) :
    ∃ l₁, move l a p n = .ok l₁ ∧ move l₁ p b n = .ok l₂ := by
  obtain ⟨l₁, h1⟩ := move_succeeds (l := l) (a := a) (b := p) (n := n) (move_le h)
  obtain ⟨l', h2⟩ := move_succeeds (l := l₁) (a := p) (b := b) (n := n) (by
    rw [move_apply h1, if_pos rfl]
    exact Nat.le_add_left _ _)
  refine ⟨l₁, h1, ?_⟩
  have := move_via hap hpb h1 h2
  rw [h] at this
  simp only [Except.ok.injEq] at this
  rw [this]
  exact h2

/-- Staking for somebody by way of the pair. -/
theorem enter_via {c : Cfg A} (hc : c.Ok) {s s1 : State A} {u r : A} {n : Nat} (hu : u ≠ c.pair) {l : A → Nat}
    (hl : move s.astro u c.pair n = .ok l) {out : Nat} :
    enter c.staking { s with astro := l } c.pair n r = .ok (s1, out) ↔ enter c.staking s u n r = .ok (s1, out) := by
  unfold enter
  simp only [bind_ok_iff]
  constructor
  · rintro ⟨⟨⟩, hn, l2, h2, rest⟩
    exact ⟨(), hn, l2, move_via hu hc.ne hl h2, rest⟩
  · rintro ⟨⟨⟩, hn, l2, h2, rest⟩
    obtain ⟨l', hl', h2'⟩ := move_via' (p := c.pair) hu hc.ne h2
    rw [hl] at hl'
    simp only [Except.ok.injEq] at hl'
    subst hl'
    exact ⟨(), hn, l2, h2', rest⟩

theorem leave_via {c : Cfg A} (hc : c.Ok) {s s1 : State A} {u r : A} {n : Nat} (hu : u ≠ c.pair) {l : A → Nat}
    (hl : move s.xastro u c.pair n = .ok l) {out : Nat} :
    leave c.staking { s with xastro := l } c.pair n r = .ok (s1, out) ↔ leave c.staking s u n r = .ok (s1, out) := by
  unfold leave
  simp only [bind_ok_iff]
  constructor
  · rintro ⟨⟨⟩, hn, l2, h2, rest⟩
    exact ⟨(), hn, l2, move_via hu hc.ne hl h2, rest⟩
  · rintro ⟨⟨⟩, hn, l2, h2, rest⟩
    obtain ⟨l', hl', h2'⟩ := move_via' (p := c.pair) hu hc.ne h2
    rw [hl] at hl'
    simp only [Except.ok.injEq] at hl'
    subst hl'
    exact ⟨(), hn, l2, h2', rest⟩

theorem predictStake_via {c : Cfg A} (hc : c.Ok) {s : State A} {u : A} {n : Nat} (hs : u ≠ c.staking)
    {l : A → Nat} (hl : move s.astro u c.pair n = .ok l) (m : Nat) :
    predictStake c.staking { s with astro := l } m = predictStake c.staking s m := by
  unfold predictStake
  have : l c.staking = s.astro c.staking := by
    rw [move_apply hl, if_neg hs.symm, if_neg hc.ne.symm, Nat.add_zero]
  simp only [this]

/-! ## C161 -/

/-- **C161.**  A trade of ASTRO through the pair that succeeds does exactly what the trader staking the same amount for the
same receiver does, and it was paid with exactly that coin. -/
theorem C161_swap_is_staking (c : Cfg A) (hc : c.Ok) (s s' : State A) (u : A) (hu : u ≠ c.pair) (hs : u ≠ c.staking)
    (funds : List Coin) (offer : Asset.Asset) (t : Option A) (out : Nat)
    (h : swap c s u funds offer t = .ok (s', out)) :
    (offer.info = .native c.astro ∧ funds = [⟨c.astro, offer.amount⟩] ∧
      (∃ got, enter c.staking s u offer.amount (t.getD u) = .ok (s', got)) ∧
        predictStake c.staking s offer.amount = .ok out) ∨
    (offer.info = .native c.xastro ∧ funds = [⟨c.xastro, offer.amount⟩] ∧
      (∃ got, leave c.staking s u offer.amount (t.getD u) = .ok (s', got)) ∧
        predictUnstake c.staking s offer.amount = .ok out) := by
  unfold swap at h
  simp only [bind_ok_iff] at h
  obtain ⟨s1, ha, ⟨⟩, hsent, h⟩ := h
  obtain ⟨k, n⟩ := offer
  cases k with
  | token a => simp at h
  | native d =>
    simp only at h
    obtain ⟨rfl, _⟩ := (Asset.C67_single_coin d n funds).1 hsent
    simp only [attach, bind_ok_iff, Except.ok.injEq, exists_eq_right] at ha
    split_ifs at h with h1 h2
    · subst h1
      rw [if_pos rfl] at ha
      simp only [bind_ok_iff, Except.ok.injEq] at ha
      obtain ⟨l, hl, rfl⟩ := ha
      simp only [bind_ok_iff, Except.ok.injEq, Prod.mk.injEq] at h
      obtain ⟨o, ho, ⟨s2, got⟩, hg, rfl, rfl⟩ := h
      rw [predictStake_via hc hs hl] at ho
      exact Or.inl ⟨rfl, rfl, ⟨got, (enter_via hc hu hl).1 hg⟩, ho⟩
    · subst h2
      rw [if_neg hc.denoms.symm, if_pos rfl] at ha
      simp only [bind_ok_iff, Except.ok.injEq] at ha
      obtain ⟨l, hl, rfl⟩ := ha
      simp only [bind_ok_iff, Except.ok.injEq, Prod.mk.injEq] at h
      obtain ⟨o, ho, ⟨s2, got⟩, hg, rfl, rfl⟩ := h
      exact Or.inr ⟨rfl, rfl, ⟨got, (leave_via hc hu hl).1 hg⟩, ho⟩

/-- **C161.**  And whoever can stake or unstake can do it through the pair, with the same outcome, in every state in which the
pair can quote (which is every state with xASTRO outstanding, see `C161_available`). -/
theorem C161_staking_by_swap (c : Cfg A) (hc : c.Ok) (s s' : State A) (u : A) (hu : u ≠ c.pair) (hs : u ≠ c.staking)
    (n got out : Nat) (t : Option A) :
    (enter c.staking s u n (t.getD u) = .ok (s', got) → predictStake c.staking s n = .ok out →
      swap c s u [⟨c.astro, n⟩] ⟨.native c.astro, n⟩ t = .ok (s', out)) ∧
    (leave c.staking s u n (t.getD u) = .ok (s', got) → predictUnstake c.staking s n = .ok out →
      swap c s u [⟨c.xastro, n⟩] ⟨.native c.xastro, n⟩ t = .ok (s', out)) := by
  constructor
  · intro h hp
    have hn : n ≠ 0 := by
      unfold enter at h
      simp only [bind_ok_iff, require_ok, exists_const] at h
      exact h.1
    have hm : ∃ l, move s.astro u c.pair n = .ok l := move_succeeds (by
      unfold enter at h
      simp only [bind_ok_iff] at h
      obtain ⟨_, _, _, hm, _⟩ := h
      exact move_le hm)
    obtain ⟨l, hl⟩ := hm
    unfold swap
    simp only [bind_ok_iff]
    refine ⟨{ s with astro := l }, ?_, (), (Asset.C67_single_coin _ _ _).2 ⟨rfl, hn⟩, ?_⟩
    · simp [attach, hl]
    · simp only [if_true, bind_ok_iff, Except.ok.injEq, Prod.mk.injEq]
      rw [predictStake_via hc hs hl]
      exact ⟨out, hp, (s', got), (enter_via hc hu hl).2 h, rfl, rfl⟩
  · intro h hp
    have hn : n ≠ 0 := by
      unfold leave at h
      simp only [bind_ok_iff, require_ok, exists_const] at h
      exact h.1
    have hm : ∃ l, move s.xastro u c.pair n = .ok l := move_succeeds (by
      unfold leave at h
      simp only [bind_ok_iff] at h
      obtain ⟨_, _, _, hm, _⟩ := h
      exact move_le hm)
    obtain ⟨l, hl⟩ := hm
    unfold swap
    simp only [bind_ok_iff]
    refine ⟨{ s with xastro := l }, ?_, (), (Asset.C67_single_coin _ _ _).2 ⟨rfl, hn⟩, ?_⟩
    · simp [attach, hl, hc.denoms.symm]
    · simp only [if_neg hc.denoms.symm, if_true, bind_ok_iff, Except.ok.injEq, Prod.mk.injEq]
      exact ⟨out, hp, (s', got), (leave_via hc hu hl).2 h, rfl, rfl⟩

/-- **C161.**  Every history with trades through the pair is a history of the staking contract alone: what C01 to C06 say of
staking holds with the pair in place. -/
theorem C161_history_is_staking_history (c : Cfg A) (hc : c.Ok) (s : State A) (os : List (Op A)) :
    ∃ os', run c s os = Staking.run c.staking s os' ∧ ∀ o ∈ os', ∃ p ∈ os, meaning c p = some o := by
  induction os generalizing s with
  | nil => exact ⟨[], rfl, by simp⟩
  | cons o os ih =>
    show ∃ os', run c (step c s o) os = _ ∧ _
    obtain ⟨os', h1, h2⟩ := ih (step c s o)
    have h2' : ∀ p ∈ os', ∃ q ∈ o :: os, meaning c q = some p := fun p hp => by
      obtain ⟨q, hq, he⟩ := h2 p hp
      exact ⟨q, List.mem_cons_of_mem _ hq, he⟩
    have skip : step c s o = s → ∃ os', run c (step c s o) os = Staking.run c.staking s os' ∧
        ∀ p ∈ os', ∃ q ∈ o :: os, meaning c q = some p := by
      intro he
      refine ⟨os', ?_, h2'⟩
      rw [h1, he]
    have take : ∀ p, meaning c o = some p → step c s o = Staking.step c.staking s p →
        ∃ os', run c (step c s o) os = Staking.run c.staking s os' ∧ ∀ p ∈ os', ∃ q ∈ o :: os, meaning c q = some p := by
      intro p hp he
      refine ⟨p :: os', ?_, ?_⟩
      · rw [h1, he]; rfl
      · intro p' hp'
        rcases List.mem_cons.1 hp' with rfl | hp'
        · exact ⟨o, List.mem_cons_self, hp⟩
        · exact h2' p' hp'
    cases o with
    | staking p => exact take p rfl rfl
    | swap u funds offer t =>
      cases hx : exec c s (.swap u funds offer t) with
      | error e => exact skip (by unfold step; rw [hx]; rfl)
      | ok s' =>
        have hst : step c s (.swap u funds offer t) = s' := by unfold step; rw [hx]; rfl
        simp only [exec, bind_ok_iff, require_ok, exists_const, Except.ok.injEq] at hx
        obtain ⟨⟨hu, hs⟩, ⟨s2, out⟩, h, rfl⟩ := hx
        rcases C161_swap_is_staking c hc s s2 u hu hs funds offer t out h with ⟨hi, _, ⟨got, hg⟩, _⟩ | ⟨hi, _, ⟨got, hg⟩, _⟩
        · refine take (.enter u offer.amount (t.getD u)) (by simp [meaning, hi]) ?_
          rw [hst]
          have he : Staking.exec c.staking s (.enter u offer.amount (t.getD u)) = .ok s2 := by
            simp only [Staking.exec, bind_ok_iff, Except.ok.injEq]
            exact ⟨(), (require_ok _ _ _).2 hs, (s2, got), hg, rfl⟩
          unfold Staking.step
          rw [he]
          rfl
        · refine take (.leave u offer.amount (t.getD u)) (by simp [meaning, hi, hc.denoms.symm]) ?_
          rw [hst]
          have he : Staking.exec c.staking s (.leave u offer.amount (t.getD u)) = .ok s2 := by
            simp only [Staking.exec, bind_ok_iff, Except.ok.injEq]
            exact ⟨(), (require_ok _ _ _).2 hs, (s2, got), hg, rfl⟩
          unfold Staking.step
          rw [he]
          rfl

/-- **C161.**  The pair keeps nothing: no trade through it changes its own balances, unless the trader names it as the
receiver. -/
theorem C161_pair_keeps_nothing (c : Cfg A) (hc : c.Ok) (s s' : State A) (u : A) (hu : u ≠ c.pair) (hs : u ≠ c.staking)
    (funds : List Coin) (offer : Asset.Asset) (t : Option A) (ht : t.getD u ≠ c.pair) (out : Nat)
    (h : swap c s u funds offer t = .ok (s', out)) :
    s'.astro c.pair = s.astro c.pair ∧ s'.xastro c.pair = s.xastro c.pair := by
  rcases C161_swap_is_staking c hc s s' u hu hs funds offer t out h with ⟨_, _, ⟨got, hg⟩, _⟩ | ⟨_, _, ⟨got, hg⟩, _⟩
  · unfold enter at hg
    simp only [bind_ok_iff, Except.ok.injEq, Prod.mk.injEq] at hg
    obtain ⟨_, _, l, hl, _, _, ⟨lo, mi⟩, _, x, hx, rfl, rfl⟩ := hg
    constructor
    · show l c.pair = _
      rw [move_apply hl, if_neg hu.symm, if_neg hc.ne, Nat.add_zero]
    · show x c.pair = _
      rw [move_apply hx, if_neg hc.ne, if_neg ht.symm, credit_apply, credit_apply, if_neg hc.ne, if_neg hc.ne, Nat.add_zero]
  · unfold leave at hg
    simp only [bind_ok_iff, Except.ok.injEq, Prod.mk.injEq] at hg
    obtain ⟨_, _, x, hx, ret, _, x2, hx2, _, _, l, hl, x3, hx3, rfl, rfl⟩ := hg
    constructor
    · show l c.pair = _
      rw [move_apply hl, if_neg hc.ne, if_neg ht.symm, Nat.add_zero]
    · show x3 c.pair = _
      rw [move_apply hx3, if_neg hc.ne, if_neg hc.ne, debit_apply hx2, if_neg hc.ne, move_apply hx, if_neg hu.symm,
        if_neg hc.ne]
      rfl

variable [Fintype A]

/-- **C161 (with C07).**  After any history, with xASTRO outstanding, anybody who can stake or unstake can do so through the
pair, and the amount the pair reports is the amount received. -/
theorem C161_available (c : Cfg A) (hc : c.Ok) (astro : A → Nat) (os : List (Op A)) (u : A) (hu : u ≠ c.pair)
    (hs : u ≠ c.staking) (n got : Nat) (t : Option A) (s' : State A) :
    let s := run c (Staking.init astro) os
    (0 < s.xSupply ∨ s.astro c.staking = 0) →
    (enter c.staking s u n (t.getD u) = .ok (s', got) →
      swap c s u [⟨c.astro, n⟩] ⟨.native c.astro, n⟩ t = .ok (s', got)) ∧
    (leave c.staking s u n (t.getD u) = .ok (s', got) →
      swap c s u [⟨c.xastro, n⟩] ⟨.native c.xastro, n⟩ t = .ok (s', got)) := by
  intro s hrun
  obtain ⟨os', he, _⟩ := C161_history_is_staking_history c hc (Staking.init astro) os
  change s = _ at he
  have key := C07_quote_equals_staking_partial c.staking astro os' u (t.getD u) hs n got s'
  simp only [← he] at key
  obtain ⟨k1, k2⟩ := key hrun
  obtain ⟨g1, g2⟩ := C161_staking_by_swap c hc s s' u hu hs n got got t
  exact ⟨fun h => g1 h (k1 h), fun h => g2 h (k2 h)⟩

/-! ## The theorems apply -/

def demoCfg : Cfg (Fin 5) := ⟨4, 0, "astro".toList, "xastro".toList⟩

theorem demo_ok : demoCfg.Ok := ⟨by decide, by decide⟩

/-- Stake through the pair for somebody else, unstake through the pair; offers with other coins, without coins or in
tokens fail. -/
example :
    let s := run demoCfg (Staking.init fun i => [0, 5000, 7000, 400, 0].getD i 0)
      [.swap 1 [⟨"astro".toList, 5000⟩] ⟨.native "astro".toList, 5000⟩ (some 2), .staking (.sendAstro 3 333 0),
       .swap 2 [⟨"xastro".toList, 100⟩] ⟨.native "xastro".toList, 100⟩ none]
    s.xastro 2 = 3900 ∧ s.astro 2 = 7106 ∧ s.astro 4 = 0 ∧ s.xastro 4 = 0 ∧ s.astro 1 = 0 ∧
    fails (swap demoCfg s 2 [⟨"astro".toList, 5⟩] ⟨.native "xastro".toList, 5⟩ none) = true ∧
    fails (swap demoCfg s 2 [⟨"astro".toList, 5⟩] ⟨.native "astro".toList, 6⟩ none) = true ∧
    fails (swap demoCfg s 2 [] ⟨.token "astro".toList, 5⟩ none) = true ∧
    okAnd (swap demoCfg s 2 [⟨"astro".toList, 700⟩] ⟨.native "astro".toList, 700⟩ none)
      (fun x => decide (x.2 = 656 ∧ x.1.xastro 2 = 4556)) = true := by decide +kernel

example : instantiate [.native "xastro".toList, .native "astro".toList] "astro".toList "xastro".toList =
      .ok ("astro".toList, "xastro".toList) ∧
    fails (instantiate [.native "other".toList, .native "astro".toList] "astro".toList "xastro".toList) = true := by decide

end Verif.Joint.XastroPair
