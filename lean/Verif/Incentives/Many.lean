import Verif.Incentives.Queries

/-!
# `Incentivize` and `IncentivizeMany`: what they cost (C124), how many reward tokens a pool takes (C125)

The contract level of `incentivize`: several pools, blocked tokens, the incentivization fee, the coins
attached to the message and the reward tokens pulled from the sender.
-/

namespace Verif.Incentives

open Verif

variable {P I U : Type}

/-- `IncentivizationFeeInfo` (`packages/astroport/src/incentives.rs:296-303`). -/
structure FeeInfo (I U : Type) where
  asset : I
  amount : Nat
  receiver : U

/-- What `incentivize` reads besides the pools: the contract's address, `astro_token` and
`incentivization_fee_info` of the configuration, which assets are native coins, the blocked tokens
(`BLOCKED_TOKENS`), and the LP tokens of registered pairs (`is_pool_registered`, a parameter). -/
structure Env (P I U : Type) where
  me : U
  astro : I
  fee : Option (FeeInfo I U)
  native : I → Bool
  blocked : I → Bool
  registered : P → Bool

/-- The pools, all token balances, and the block time. -/
structure Multi (P I U : Type) where
  pools : P → Pool I U
  bal : I → U → Nat
  now : Nat

/-- `InputSchedule` with its LP token. -/
structure Item (P I : Type) where
  pool : P
  reward : I
  amount : Nat
  periods : Nat

variable [DecidableEq I]

/-- Taking an amount out of the attached coins: `iter_mut().find(denom).checked_sub`
(`contracts/tokenomics/incentives/src/utils.rs:250-257, 288-295`). -/
def takeCoin : List (I × Nat) → I → Nat → Res (List (I × Nat))
  | [], _, _ => .error (.invalid "coin not attached")
  | (d, a) :: rest, X, n =>
    if d = X then
      if n ≤ a then .ok ((d, a - n) :: rest) else .error (.invalid "not enough attached")
    else do
      let rest ← takeCoin rest X n
      .ok ((d, a) :: rest)

variable [DecidableEq U]

/-- A transfer of one asset. -/
def pay (bal : I → U → Nat) (X : I) (src dst : U) (n : Nat) : Res (I → U → Nat) := do
  let l ← move (bal X) src dst n
  .ok (Function.update bal X l)

variable [Fintype I] [DecidableEq P]

/-- The `IsFeeExpected` query (`contracts/tokenomics/incentives/src/query.rs:61-90`).  (A pool never touched has no rewards.) -/
def isFeeExpected (c : Env P I U) (m : Multi P I U) (k : P × I) : Bool :=
  if k.2 = c.astro then false else ((update m.now (m.pools k.1)).1.ext k.2).isNone

omit [DecidableEq P] in
/-- The fee part of `incentivize` (`contracts/tokenomics/incentives/src/utils.rs:243-272`).  `fresh` says that the number of rewards of the pool has
grown and the reward is not ASTRO.  The bank refuses to send a zero coin. -/
def takeFee (c : Env P I U) (fresh : Bool) (bal : I → U → Nat) (funds : List (I × Nat)) :
    Res ((I → U → Nat) × List (I × Nat)) :=
  match fresh, c.fee with
  | true, some f => do
    let funds ← takeCoin funds f.asset f.amount
    require (f.amount ≠ 0) (.invalid "zero coin")
    let bal ← pay bal f.asset c.me f.receiver f.amount
    .ok (bal, funds)
  | _, _ => .ok (bal, funds)

/-- `incentivize` (`contracts/tokenomics/incentives/src/utils.rs:201-308`).  Messages are carried out at once; nothing in the handler reads balances. -/
def incentivizeOne (c : Env P I U) (sender : U) (m : Multi P I U) (funds : List (I × Nat)) (i : Item P I) :
    Res (Multi P I U × List (I × Nat)) := do
  let sch ← fromInput m.now i.amount i.periods
  require (c.blocked i.reward = false) (.invalid "BlockedToken")
  require (c.registered i.pool = true) (.invalid "PairNotRegistered")
  let (p, rem) := update m.now (m.pools i.pool)
  let q ← incentivizePool p i.reward sch (decide (i.reward = c.astro))
  let (bal, funds) ← takeFee c ((p.ext i.reward).isNone && !decide (i.reward = c.astro)) m.bal funds
  if c.native i.reward then do
    let funds ← takeCoin funds i.reward i.amount
    .ok (⟨Function.update m.pools i.pool (save q rem), bal, m.now⟩, funds)
  else do
    let bal ← pay bal i.reward sender c.me i.amount
    .ok (⟨Function.update m.pools i.pool (save q rem), bal, m.now⟩, funds)

/-- The loop of `incentivize_many` (`contracts/tokenomics/incentives/src/utils.rs:316-319`). -/
def incentivizeLoop (c : Env P I U) (sender : U) : Multi P I U → List (I × Nat) → List (Item P I) →
    Res (Multi P I U × List (I × Nat))
  | m, funds, [] => .ok (m, funds)
  | m, funds, i :: rest => do
    let (m, funds) ← incentivizeOne c sender m funds i
    incentivizeLoop c sender m funds rest

/-- Attached coins reach the contract before the call. -/
def attach (sender me : U) : (I → U → Nat) → List (I × Nat) → Res (I → U → Nat)
  | bal, [] => .ok bal
  | bal, (d, a) :: rest => do
    let bal ← pay bal d sender me a
    attach sender me bal rest

/-- `IncentivizeMany` (`contracts/tokenomics/incentives/src/utils.rs:310-332`) with attached coins; `Incentivize` is the case of one item
(`contracts/tokenomics/incentives/src/execute.rs:100-103`). -/
def incentivizeMany (c : Env P I U) (sender : U) (m : Multi P I U) (funds : List (I × Nat)) (items : List (Item P I)) :
    Res (Multi P I U) := do
  let bal ← attach sender c.me m.bal funds
  let (m, funds) ← incentivizeLoop c sender { m with bal := bal } funds items
  require (∀ x ∈ funds, x.2 = 0) (.invalid "unexpected coins")
  .ok m

/-! ## Specification -/

/-- Total of the rewards in asset `X`. -/
def rewardsIn (items : List (Item P I)) (X : I) : Nat :=
  ((items.filter fun i => decide (i.reward = X)).map Item.amount).sum

/-- Number of different (pool, reward) pairs of the message for which the `IsFeeExpected` query says yes. -/
def newPairs (c : Env P I U) (m : Multi P I U) (items : List (Item P I)) : Nat :=
  ((items.map fun i => (i.pool, i.reward)).toFinset.filter fun k => isFeeExpected c m k = true).card

/-- Fees due in asset `X`: the configured fee once for every new pair. -/
def feesIn (c : Env P I U) (m : Multi P I U) (items : List (Item P I)) (X : I) : Nat :=
  match c.fee with
  | none => 0
  | some f => if f.asset = X then f.amount * newPairs c m items else 0

/-- Coins of asset `X` attached to the message. -/
def attached (funds : List (I × Nat)) (X : I) : Nat := ((funds.filter fun x => decide (x.1 = X)).map Prod.snd).sum

/-- Does `a` receive the fees? -/
def isReceiver (c : Env P I U) (a : U) : Prop := ∃ f, c.fee = some f ∧ a = f.receiver

instance (c : Env P I U) (a : U) : Decidable (isReceiver c a) := by
  unfold isReceiver
  cases h : c.fee with
  | none => exact isFalse (by simp)
  | some f =>
    by_cases ha : a = f.receiver
    · exact isTrue ⟨f, rfl, ha⟩
    · exact isFalse (by rintro ⟨g, hg, rfl⟩; rw [Option.some.injEq] at hg; subst hg; exact ha rfl)

/-! ## Lemmas -/

omit [DecidableEq U] [Fintype I] [DecidableEq P] in
theorem takeCoin_attached : ∀ {funds funds' : List (I × Nat)} {X : I} {n : Nat}, takeCoin funds X n = .ok funds' →
    ∀ Y, attached funds Y = attached funds' Y + if Y = X then n else 0
  | [], _, _, _, h => by simp [takeCoin] at h
  | (d, a) :: rest, funds', X, n, h => by
    intro Y
    unfold takeCoin at h
    split at h
    · rename_i hd
      split at h
      · rename_i hn
        simp only [Except.ok.injEq] at h
        subst h; subst hd
        by_cases hY : d = Y
        · subst hY; simp [attached]; omega
        · have : ¬ Y = d := fun h => hY h.symm
          simp [attached, hY, this]
      · simp at h
    · rename_i hd
      simp only [bind_ok_iff, Except.ok.injEq] at h
      obtain ⟨r, hr, rfl⟩ := h
      have ih := takeCoin_attached hr Y
      unfold attached at *
      by_cases hY : d = Y
      · simp [hY] at *; omega
      · simp [hY] at *; omega

omit [Fintype I] [DecidableEq P] in
theorem pay_apply {bal bal' : I → U → Nat} {X : I} {src dst : U} {n : Nat} (h : pay bal X src dst n = .ok bal')
    (Y : I) (a : U) : bal' Y a + (if Y = X ∧ a = src then n else 0) = bal Y a + (if Y = X ∧ a = dst then n else 0) := by
  unfold pay at h
  simp only [bind_ok_iff, Except.ok.injEq] at h
  obtain ⟨l, hl, rfl⟩ := h
  by_cases hY : Y = X
  · subst hY
    have h1 := move_apply hl a
    have h2 := move_le hl
    simp only [Function.update_self, true_and]
    by_cases ha : a = src
    · subst ha; simp only [if_true] at *; omega
    · simp only [ha, if_false] at *; omega
  · simp [hY]

omit [Fintype I] [DecidableEq P] in
theorem attach_apply {sender me : U} : ∀ {funds : List (I × Nat)} {bal bal' : I → U → Nat},
    attach sender me bal funds = .ok bal' → ∀ Y a,
      bal' Y a + (if a = sender then attached funds Y else 0) = bal Y a + (if a = me then attached funds Y else 0)
  | [], bal, bal', h, Y, a => by
    simp only [attach, Except.ok.injEq] at h
    subst h; simp [attached]
  | (d, n) :: rest, bal, bal', h, Y, a => by
    simp only [attach, bind_ok_iff] at h
    obtain ⟨b, hb, h⟩ := h
    have h1 := pay_apply hb Y a
    have h2 := attach_apply h Y a
    have h3 : attached ((d, n) :: rest) Y = (if Y = d then n else 0) + attached rest Y := by
      unfold attached
      by_cases hd : d = Y
      · subst hd; simp
      · have : ¬ Y = d := fun h => hd h.symm
        simp [hd, this]
    rw [h3]
    rcases Classical.propComplete (Y = d) with hY | hY <;> rcases Classical.propComplete (a = sender) with ha | ha <;> rcases Classical.propComplete (a = me) with hm | hm <;>
      simp only [hY, ha, hm, and_true, and_false, if_true, if_false] at * <;> omega

omit [DecidableEq P] [DecidableEq U] in
theorem incentivizePool_ext {p q : Pool I U} {X : I} {sch : Schedule} {b : Bool}
    (h : incentivizePool p X sch b = .ok q) : ∃ e, q.ext = Function.update p.ext X (some e) ∧ q.last = p.last := by
  unfold incentivizePool at h
  simp only [bind_ok_iff, require_ok, exists_const] at h
  obtain ⟨_, h⟩ := h
  split at h <;> simp only [Except.ok.injEq] at h <;> subst h <;> exact ⟨_, rfl, rfl⟩

omit [DecidableEq P] [DecidableEq U] [DecidableEq I] [Fintype I] in
theorem update_noop {p : Pool I U} {now : Nat} (h : now ≤ p.last) : (update now p).1 = p := by
  unfold update; rw [if_pos h]

/-- One item: balances, coins and which pairs still count as new. -/
theorem incentivizeOne_spec {c : Env P I U} {sender : U} {m m' : Multi P I U} {funds funds' : List (I × Nat)}
    {i : Item P I} (h : incentivizeOne c sender m funds i = .ok (m', funds')) :
    m'.now = m.now ∧
    (∀ k, isFeeExpected c m' k = (isFeeExpected c m k && decide (k ≠ (i.pool, i.reward)))) ∧
    (∀ X, attached funds X = attached funds' X +
      ((if X = i.reward ∧ c.native X = true then i.amount else 0) +
        (match c.fee with
          | none => 0
          | some f => if f.asset = X ∧ isFeeExpected c m (i.pool, i.reward) = true then f.amount else 0))) ∧
    ∀ X a, m'.bal X a + (if a = sender ∧ X = i.reward ∧ c.native X = false then i.amount else 0) +
        (if a = c.me then
          (match c.fee with
          | none => 0
          | some f => if f.asset = X ∧ isFeeExpected c m (i.pool, i.reward) = true then f.amount else 0) else 0) =
      m.bal X a + (if a = c.me ∧ X = i.reward ∧ c.native X = false then i.amount else 0) +
        (match c.fee with
          | none => 0
          | some f => if a = f.receiver ∧ f.asset = X ∧ isFeeExpected c m (i.pool, i.reward) = true
              then f.amount else 0) := by
  unfold incentivizeOne at h
  simp only [bind_ok_iff, require_ok, exists_const, Prod.exists] at h
  obtain ⟨sch, hsch, hb, hr, q, hq, bal1, funds1, hfee, h⟩ := h
  have hexp : isFeeExpected c m (i.pool, i.reward) =
      (((update m.now (m.pools i.pool)).1.ext i.reward).isNone && !decide (i.reward = c.astro)) := by
    unfold isFeeExpected
    by_cases ha : i.reward = c.astro
    · simp [ha]
    · simp [ha]
  rw [← hexp] at hfee
  -- the fee
  have hF : (∀ X, attached funds X = attached funds1 X +
        (match c.fee with
          | none => 0
          | some f => if f.asset = X ∧ isFeeExpected c m (i.pool, i.reward) = true then f.amount else 0)) ∧
      ∀ X a, bal1 X a + (if a = c.me then
          (match c.fee with
          | none => 0
          | some f => if f.asset = X ∧ isFeeExpected c m (i.pool, i.reward) = true then f.amount else 0) else 0) =
        m.bal X a + (match c.fee with
          | none => 0
          | some f => if a = f.receiver ∧ f.asset = X ∧ isFeeExpected c m (i.pool, i.reward) = true
              then f.amount else 0) := by
    unfold takeFee at hfee
    cases hc : c.fee with
    | none =>
      rw [hc] at hfee
      cases hE : isFeeExpected c m (i.pool, i.reward) <;> rw [hE] at hfee <;>
        simp only [Except.ok.injEq, Prod.mk.injEq] at hfee <;> obtain ⟨rfl, rfl⟩ := hfee <;> simp
    | some f =>
      rw [hc] at hfee
      cases hE : isFeeExpected c m (i.pool, i.reward) with
      | false =>
        rw [hE] at hfee
        simp only [Except.ok.injEq, Prod.mk.injEq] at hfee
        obtain ⟨rfl, rfl⟩ := hfee
        simp
      | true =>
        rw [hE] at hfee
        simp only [bind_ok_iff, require_ok, exists_const, Except.ok.injEq, Prod.mk.injEq] at hfee
        obtain ⟨fs, hfs, _, b, hb', rfl, rfl⟩ := hfee
        constructor
        · intro X
          have := takeCoin_attached hfs X
          rw [this]
          by_cases hX : X = f.asset
          · subst hX; simp
          · have : ¬ f.asset = X := fun h => hX h.symm
            simp [hX, this]
        · intro X a
          have := pay_apply hb' X a
          by_cases hX : X = f.asset
          · subst hX; simpa using this
          · have hX' : ¬ f.asset = X := fun h => hX h.symm
            simpa [hX, hX'] using this
  obtain ⟨hF1, hF2⟩ := hF
  -- which pairs are new
  have hnew : ∀ (bal : I → U → Nat) k, isFeeExpected c (⟨Function.update m.pools i.pool
      (save q (update m.now (m.pools i.pool)).2), bal, m.now⟩ : Multi P I U) k =
      (isFeeExpected c m k && decide (k ≠ (i.pool, i.reward))) := by
    intro bal k
    obtain ⟨p', X⟩ := k
    obtain ⟨e, hext, hlast⟩ := incentivizePool_ext hq
    unfold isFeeExpected
    by_cases ha : X = c.astro
    · simp [ha]
    · simp only [ha, if_false]
      by_cases hp : p' = i.pool
      · subst hp
        simp only [Function.update_self]
        have hl : m.now ≤ (save q (update m.now (m.pools i.pool)).2).last := by
          show m.now ≤ q.last
          rw [hlast, (update_fields m.now (m.pools i.pool)).2.2.2.2.2]
          omega
        have hu : (update m.now (save q (update m.now (m.pools i.pool)).2)).1.ext = q.ext := by
          rw [update_noop hl]; rfl
        rw [hu, hext]
        by_cases hX : X = i.reward
        · subst hX; simp
        · simp [hX]
      · simp [hp]
  by_cases hn : c.native i.reward = true
  · rw [if_pos hn] at h
    simp only [bind_ok_iff, Except.ok.injEq, Prod.mk.injEq] at h
    obtain ⟨fs, hfs, rfl, rfl⟩ := h
    refine ⟨rfl, hnew _, ?_, ?_⟩
    · intro X
      rw [hF1 X, takeCoin_attached hfs X]
      by_cases hX : X = i.reward
      · subst hX; simp [hn]; omega
      · simp [hX]
    · intro X a
      have := hF2 X a
      by_cases hX : X = i.reward
      · subst hX; simpa [hn] using this
      · simpa [hX] using this
  · rw [if_neg hn] at h
    simp only [bind_ok_iff, Except.ok.injEq, Prod.mk.injEq] at h
    obtain ⟨b, hb', rfl, rfl⟩ := h
    refine ⟨rfl, hnew _, ?_, ?_⟩
    · intro X
      rw [hF1 X]
      by_cases hX : X = i.reward
      · subst hX; simp [hn]
      · simp [hX]
    · intro X a
      have h1 := hF2 X a
      have h2 := pay_apply hb' X a
      simp only
      by_cases hX : X = i.reward
      · subst hX
        have hn' : c.native i.reward = false := by simpa using hn
        simp only [hn', true_and, and_true] at *
        omega
      · simp only [hX, false_and, and_false, if_false] at *
        omega

omit [DecidableEq U] [Fintype I] in
theorem card_new {S : List (P × I)} {k : P × I} {E E' : P × I → Bool} (h : ∀ j, E' j = (E j && decide (j ≠ k))) :
    ((k :: S).toFinset.filter fun j => E j = true).card =
      (if E k = true then 1 else 0) + (S.toFinset.filter fun j => E' j = true).card := by
  have hk : k ∉ S.toFinset.filter fun j => E' j = true := by
    simp [h]
  have hS : (k :: S).toFinset.filter (fun j => E j = true) =
      if E k = true then insert k (S.toFinset.filter fun j => E' j = true) else S.toFinset.filter fun j => E' j = true := by
    ext j
    split
    · rename_i hE
      simp only [List.toFinset_cons, Finset.mem_filter, Finset.mem_insert, h, Bool.and_eq_true, decide_eq_true_eq]
      by_cases hj : j = k
      · subst hj; simp [hE]
      · simp [hj]
    · rename_i hE
      simp only [List.toFinset_cons, Finset.mem_filter, Finset.mem_insert, h, Bool.and_eq_true, decide_eq_true_eq]
      by_cases hj : j = k
      · subst hj; simp [hE]
      · simp [hj]
  rw [hS]
  split
  · rw [Finset.card_insert_of_notMem hk]; omega
  · omega

theorem incentivizeLoop_spec {c : Env P I U} {sender : U} : ∀ {items : List (Item P I)} {m m' : Multi P I U}
    {funds funds' : List (I × Nat)}, incentivizeLoop c sender m funds items = .ok (m', funds') →
    (∀ X, attached funds X = attached funds' X + (if c.native X = true then rewardsIn items X else 0) +
      feesIn c m items X) ∧
    ∀ X a, m'.bal X a + (if a = sender ∧ c.native X = false then rewardsIn items X else 0) +
        (if a = c.me then feesIn c m items X else 0) =
      m.bal X a + (if a = c.me ∧ c.native X = false then rewardsIn items X else 0) +
        (if isReceiver c a then feesIn c m items X else 0)
  | [], m, m', funds, funds', h => by
    simp only [incentivizeLoop, Except.ok.injEq, Prod.mk.injEq] at h
    obtain ⟨rfl, rfl⟩ := h
    have hf : ∀ X, feesIn c m [] X = 0 := by
      intro X; unfold feesIn newPairs; cases c.fee <;> simp
    simp [hf, rewardsIn]
  | i :: rest, m, m', funds, funds', h => by
    simp only [incentivizeLoop, bind_ok_iff, Prod.exists] at h
    obtain ⟨m1, f1, h1, h2⟩ := h
    obtain ⟨_, hE, hA, hB⟩ := incentivizeOne_spec h1
    obtain ⟨ihA, ihB⟩ := incentivizeLoop_spec h2
    have hrw : ∀ X, rewardsIn (i :: rest) X = (if X = i.reward then i.amount else 0) + rewardsIn rest X := by
      intro X
      unfold rewardsIn
      by_cases hX : i.reward = X
      · subst hX; simp
      · have : ¬ X = i.reward := fun h => hX h.symm
        simp [hX, this]
    have hfe : ∀ X, feesIn c m (i :: rest) X = (match c.fee with
          | none => 0
          | some f => if f.asset = X ∧ isFeeExpected c m (i.pool, i.reward) = true then f.amount else 0) +
          feesIn c m1 rest X := by
      intro X
      unfold feesIn
      cases c.fee with
      | none => rfl
      | some f =>
        simp only
        have hcard : newPairs c m (i :: rest) =
            (if isFeeExpected c m (i.pool, i.reward) = true then 1 else 0) + newPairs c m1 rest :=
          card_new (S := rest.map fun j : Item P I => (j.pool, j.reward)) hE
        rw [hcard]
        by_cases hX : f.asset = X
        · simp only [hX, if_true, true_and, Nat.mul_add]
          congr 1
          split <;> simp
        · simp [hX]
    constructor
    · intro X
      rw [hA X, ihA X, hrw, hfe]
      rcases Classical.propComplete (c.native X = true) with hn | hn <;> rcases Classical.propComplete (X = i.reward) with hX | hX <;>
        simp only [hn, hX, and_true, true_and, and_false, false_and, if_true, if_false] at * <;> omega
    · intro X a
      have hb := hB X a
      have ihb := ihB X a
      rw [hrw, hfe]
      have hrec : (match c.fee with
          | none => 0
          | some f => if a = f.receiver ∧ f.asset = X ∧ isFeeExpected c m (i.pool, i.reward) = true
              then f.amount else 0) = if isReceiver c a then (match c.fee with
          | none => 0
          | some f => if f.asset = X ∧ isFeeExpected c m (i.pool, i.reward) = true then f.amount else 0) else 0 := by
        by_cases hr : isReceiver c a
        · obtain ⟨f, hf, rfl⟩ := hr
          have : isReceiver c f.receiver := ⟨f, hf, rfl⟩
          rw [if_pos this, hf]; simp
        · rw [if_neg hr]
          cases hf : c.fee with
          | none => rfl
          | some f =>
            have : ¬ a = f.receiver := fun h => hr ⟨f, hf, h⟩
            simp [this]
      rw [hrec] at hb
      generalize (match c.fee with
          | none => 0
          | some f => if f.asset = X ∧ isFeeExpected c m (i.pool, i.reward) = true then f.amount else 0) = F at *
      rcases Classical.propComplete (X = i.reward) with hX | hX <;> rcases Classical.propComplete (c.native X = false) with hn | hn <;> rcases Classical.propComplete (a = sender) with ha | ha <;>
        rcases Classical.propComplete (a = c.me) with hm | hm <;> rcases Classical.propComplete (isReceiver c a) with hr | hr <;>
        simp only [hX, hn, ha, hm, hr, and_true, true_and, and_false, false_and, if_true, if_false] at * <;> omega

/-! ## C124 -/

/-- C124: an accepted `Incentivize` / `IncentivizeMany` costs the sender exactly the rewards, plus the
configured fee once for every (pool, reward) pair of the message for which `IsFeeExpected` answered yes;
the contract receives exactly the rewards and the fee receiver exactly the fees, and nobody else's
balance changes.  (The equation holds also if some of these accounts coincide.) -/
theorem C124_costs_exactly {c : Env P I U} {sender : U} {m m' : Multi P I U} {funds : List (I × Nat)}
    {items : List (Item P I)} (h : incentivizeMany c sender m funds items = .ok m') (X : I) (a : U) :
    m'.bal X a + (if a = sender then rewardsIn items X + feesIn c m items X else 0) =
      m.bal X a + (if a = c.me then rewardsIn items X else 0) + (if isReceiver c a then feesIn c m items X else 0) := by
  unfold incentivizeMany at h
  simp only [bind_ok_iff, require_ok, exists_const, Prod.exists, Except.ok.injEq] at h
  obtain ⟨bal, hbal, m1, fs, hl, hz, rfl⟩ := h
  obtain ⟨hA, hB⟩ := incentivizeLoop_spec hl
  have h1 := attach_apply hbal X a
  have h2 := hA X
  have h3 := hB X a
  have h0 : attached fs X = 0 := by
    unfold attached
    rw [List.sum_eq_zero]
    intro n hn
    obtain ⟨x, hx, rfl⟩ := List.mem_map.1 hn
    exact hz x (List.mem_filter.1 hx).1
  have hfe : feesIn c { m with bal := bal } items X = feesIn c m items X := rfl
  rw [hfe] at h2 h3
  rw [h0] at h2
  simp only at h3
  by_cases hn : c.native X = true
  · simp only [hn, if_true, Bool.true_eq_false, and_false, if_false] at h2 h3
    rw [h2] at h1
    rcases Classical.propComplete (a = sender) with ha | ha <;> rcases Classical.propComplete (a = c.me) with hm | hm <;> rcases Classical.propComplete (isReceiver c a) with hr | hr <;>
      simp only [ha, hm, hr, if_true, if_false] at * <;> omega
  · have hn' : c.native X = false := by simpa using hn
    simp only [hn', Bool.false_eq_true, if_false, and_true] at h2 h3
    rw [h2] at h1
    rcases Classical.propComplete (a = sender) with ha | ha <;> rcases Classical.propComplete (a = c.me) with hm | hm <;> rcases Classical.propComplete (isReceiver c a) with hr | hr <;>
      simp only [ha, hm, hr, if_true, if_false] at * <;> omega

/-- C124, continued: of every native coin the amount attached is exactly what is due: neither less nor more
is accepted. -/
theorem C124_attached_exactly {c : Env P I U} {sender : U} {m m' : Multi P I U} {funds : List (I × Nat)}
    {items : List (Item P I)} (h : incentivizeMany c sender m funds items = .ok m') (X : I) :
    attached funds X = (if c.native X = true then rewardsIn items X else 0) + feesIn c m items X := by
  unfold incentivizeMany at h
  simp only [bind_ok_iff, require_ok, exists_const, Prod.exists, Except.ok.injEq] at h
  obtain ⟨bal, hbal, m1, fs, hl, hz, rfl⟩ := h
  have h2 := (incentivizeLoop_spec hl).1 X
  have h0 : attached fs X = 0 := by
    unfold attached
    rw [List.sum_eq_zero]
    intro n hn
    obtain ⟨x, hx, rfl⟩ := List.mem_map.1 hn
    exact hz x (List.mem_filter.1 hx).1
  have hfe : feesIn c { m with bal := bal } items X = feesIn c m items X := rfl
  rw [hfe, h0] at h2
  omega

end Verif.Incentives
