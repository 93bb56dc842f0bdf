import Verif.Inj.Quotes
import Verif.Observation.Lemmas

/-!
# Trade sizes on the Injective pair: when the pair may place orders, and of which size

`accumulate_swap_sizes` of `contracts/pair_concentrated_inj/src/utils.rs` together with the pair of `Verif.Inj.Model`: here
the moving averages and the moment when enough trades have been seen are no longer inputs, they come from the circular
buffer (`Verif.Observation.Buffer`).

The two functions that update an average (`safe_sma_calculation`, `safe_sma_buffer_not_full`) are imported by that file
from a version of `astroport_pcl_common` that is not part of this commit; they are a parameter (`Sma`), and the theorems
hold for every choice of them.

Specification: `Reachable` (the pair and its buffer, created and after any history); `log` is a ghost, the list of all
observations ever stored.
-/

namespace Verif.Inj.Sizes

open Verif.Buffer
open Verif.Observation (Pre u32 u32_ok)
open Verif.PCL (Setup PParams FeeInfo demoSetup demoParams)

variable {A : Type} [DecidableEq A]

/-! ## Model -/

/-- The observation of this pair, contracts/pair_concentrated_inj/src/utils.rs:114-120. -/
structure Obs where
  ts : Nat
  base : Nat
  quote : Nat
  baseSma : Nat
  quoteSma : Nat
  deriving DecidableEq, Repr

/-- The functions imported at contracts/pair_concentrated_inj/src/utils.rs:11: `full last oldest count new` and
`part last count new`. -/
structure Sma where
  full : Nat → Nat → Nat → Nat → Res Nat
  part : Nat → Nat → Nat → Res Nat

/-- The buffer and the trades of the current block, contracts/pair_concentrated_inj/src/state.rs:16-18. -/
structure Book where
  store : Store Obs
  pre : Option Pre
  log : List Obs

/-- The next observation while there is a last one, contracts/pair_concentrated_inj/src/utils.rs:99-134. -/
def next (f : Sma) (m : Mgr Obs) (last : Obs) (p : Pre) : Option Obs → Res Obs
  | some oldest => do
    let b ← f.full last.baseSma oldest.base m.cap p.base
    let q ← f.full last.quoteSma oldest.quote m.cap p.quote
    .ok { ts := p.ts, base := p.base, quote := p.quote, baseSma := b, quoteSma := q }
  | none => do
    let b ← f.part last.baseSma m.head p.base
    let q ← f.part last.quoteSma m.head p.quote
    .ok { ts := p.ts, base := p.base, quote := p.quote, baseSma := b, quoteSma := q }

/-- `instant_push`; the ghost list grows. -/
def pushObs (z : Book) (m : Mgr Obs) (o : Obs) : Res Book := do
  let (_, st) ← instantPush m z.store o
  .ok { z with store := st, log := z.log ++ [o] }

/-- `accumulate_swap_sizes`, contracts/pair_concentrated_inj/src/utils.rs:82-160. -/
def accumulate (f : Sma) (z : Book) (ob : OB) (now : Nat) : Res (Book × OB) :=
  match z.pre with
  | none => .ok (z, ob)
  | some p => do
    let m ← new z.store
    let last ← readLast m z.store
    match last with
    | some last =>
      if last.ts < p.ts then do
        let k ← u32 (m.head + 1)
        let oldest ← readSingle m z.store k
        let o ← next f m last p oldest
        let ob := if ob.ready = false ∧ m.head + 1 ≥ ob.minTrades then { ob with ready := true } else ob
        let z ← pushObs z m o
        .ok (z, ob)
      else .ok (z, ob)
    | none =>
      if now > p.ts then do
        let z ← pushObs z m { ts := p.ts, base := p.base, quote := p.quote, baseSma := p.base, quoteSma := p.quote }
        .ok (z, ob)
      else .ok (z, ob)

/-- `PrecommitObservation::save`, packages/astroport/src/observation.rs:167-188. -/
def savePre (z : Book) (now base quote : Nat) : Res Book :=
  match z.pre with
  | some p =>
    if now = p.ts then do
      let b ← u128 (p.base + base)
      let q ← u128 (p.quote + quote)
      .ok { z with pre := some { base := b, quote := q, ts := p.ts } }
    else .ok { z with pre := some { base := base, quote := quote, ts := now } }
  | none => .ok { z with pre := some { base := base, quote := quote, ts := now } }

/-- This trade is remembered unless it is tiny, contracts/pair_concentrated_inj/src/contract.rs:847-854. -/
def remember (big : Bool) (z : Book) (now base quote : Nat) : Res Book :=
  if big then savePre z now base quote else .ok z

/-- The pair and its buffer. -/
structure JState (A : Type) where
  pair : State A
  sizes : Book

/-- The averages of the last observation, contracts/pair_concentrated_inj/src/orderbook/sudo.rs:85-99. -/
def lastAvg (z : Book) : Res (Option (Nat × Nat)) := do
  let m ← new z.store
  let o ← readLast m z.store
  .ok (o.map fun o => (o.baseSma, o.quoteSma))

/-- One transaction.  In a swap (contracts/pair_concentrated_inj/src/contract.rs:841-860) the previous trades are stored, then this one
is remembered unless it is tiny (`big` is the outcome of the two comparisons with `MIN_TRADE_SIZE`); at the beginning of a
block the averages are read.  All else is that of `Verif.Inj.Model`; the averages and the completion of the observations
that the message carries there are ignored. -/
def jexec (f : Sma) (su : Setup) (me : A) (now : Nat) (fo : A) (s : JState A) (o : Op A) (big : Bool) :
    Res (JState A) :=
  match o with
  | .swap u i n b m r e => do
    let (z, ob) ← accumulate f s.sizes s.pair.ob now
    require (u ≠ me) .unauthorized
    let (p, out) ← swap su me s.pair now u i n b m r { e with full := ob.ready }
    let z ← remember big z now (if i then out.ret else n) (if i then n else out.ret)
    .ok { pair := p, sizes := z }
  | .block e => do
    let avg ← lastAvg s.sizes
    let p ← exec su me now fo s.pair (.block { e with avg := avg })
    .ok { s with pair := p }
  | o => do
    let p ← exec su me now fo s.pair o
    .ok { s with pair := p }

/-- A transaction in a block. -/
structure JEvent (A : Type) where
  now : Nat
  fo : A
  op : Op A
  big : Bool

/-- Reverting step. -/
def jstep (f : Sma) (su : Setup) (me : A) (s : JState A) (e : JEvent A) : JState A :=
  commit' s (jexec f su me e.now e.fo s e.op e.big)

/-- History. -/
def jrun (f : Sma) (su : Setup) (me : A) (s : JState A) (es : List (JEvent A)) : JState A := es.foldl (jstep f su me) s

/-- A new pair has an empty buffer for 3000 observations, contracts/pair_concentrated_inj/src/contract.rs:148
(`BufferManager::init`), packages/astroport/src/observation.rs:13 (`OBSERVATIONS_SIZE`). -/
def fresh (p : State A) : JState A :=
  { pair := p, sizes := { store := { state := some (3000, 0), arr := fun _ => none }, pre := none, log := [] } }

/-! ## Specification -/

/-- A pair created with any settings and balances, with its buffer, after any history. -/
def JReachable (f : Sma) (su : Setup) (me : A) (s : JState A) : Prop :=
  ∃ bal u amp gamma scale now number minTrades price qty p es,
    create su bal u amp gamma scale now number minTrades price qty = .ok p ∧ s = jrun f su me (fresh p) es

/-- `o` is a correct observation after `xs`: the average of each asset is updated with that asset's sizes alone. -/
def Follows (f : Sma) (xs : List Obs) (o : Obs) : Prop :=
  match xs.getLast? with
  | none => o.baseSma = o.base ∧ o.quoteSma = o.quote
  | some l =>
    if xs.length + 1 < 3000 then
      f.part l.baseSma xs.length o.base = .ok o.baseSma ∧ f.part l.quoteSma xs.length o.quote = .ok o.quoteSma
    else ∃ old, xs[xs.length + 1 - 3000]? = some old ∧
      f.full l.baseSma old.base 3000 o.base = .ok o.baseSma ∧ f.full l.quoteSma old.quote 3000 o.quote = .ok o.quoteSma

/-- What was traded before in the same block. -/
def earlier (z : Book) (now : Nat) : Nat × Nat :=
  match z.pre with
  | some p => if p.ts = now then (p.base, p.quote) else (0, 0)
  | none => (0, 0)

/-! ## Lemmas -/

theorem pushObs_spec {z : Book} {m : Mgr Obs} (hm : RepM 3000 z.log m z.store) (o : Obs) :
    ∃ z', pushObs z m o = .ok z' ∧ z'.log = z.log ++ [o] ∧ z'.pre = z.pre ∧ RepS 3000 z'.log z'.store := by
  obtain ⟨m1, h1, r1⟩ := repM_push hm o
  obtain ⟨m2, st2, h2, r2, _⟩ := repM_commit r1
  refine ⟨{ z with store := st2, log := z.log ++ [o] }, ?_, rfl, rfl, r2⟩
  unfold pushObs instantPush
  rw [h1]
  simp only [bind_ok_iff]
  exact ⟨(m2, st2), ⟨m1, rfl, h2⟩, rfl⟩

theorem next_spec {f : Sma} {m : Mgr Obs} {last : Obs} {p : Pre} {old : Option Obs} {o : Obs}
    (h : next f m last p old = .ok o) : o.ts = p.ts ∧ o.base = p.base ∧ o.quote = p.quote := by
  cases old <;> simp only [next, bind_ok_iff, Except.ok.injEq] at h <;> obtain ⟨_, _, _, _, rfl⟩ := h <;>
    exact ⟨rfl, rfl, rfl⟩

/-- What storing the previous trades does. -/
theorem accumulate_cases {f : Sma} {z z' : Book} {ob ob' : OB} {now : Nat} (hi : RepS 3000 z.log z.store)
    (h : accumulate f z ob now = .ok (z', ob')) :
    (z' = z ∧ ob' = ob) ∨ ∃ p o, z.pre = some p ∧ o.ts = p.ts ∧ o.base = p.base ∧ o.quote = p.quote ∧
      (∀ l, z.log.getLast? = some l → l.ts < o.ts) ∧
      z'.log = z.log ++ [o] ∧ z'.pre = z.pre ∧ RepS 3000 z'.log z'.store ∧ Follows f z.log o ∧
      ob' = { ob with ready := ob.ready || (decide (z.log ≠ []) &&
        decide (ob.minTrades ≤ z.log.length % 3000 + 1)) } := by
  unfold accumulate at h
  cases hp : z.pre with
  | none => rw [hp] at h; simp at h; exact Or.inl ⟨h.1.symm, h.2.symm⟩
  | some p =>
    rw [hp] at h
    obtain ⟨m, hnew, rm, hpre⟩ := repS_new hi
    have hlast := repM_readLast rm hpre (by decide)
    have hr : Rep 3000 z.log m.head z.store.arr := by simpa [hpre] using rm.2.2
    simp only [hnew, ok_bind, hlast] at h
    cases hl : z.log.getLast? with
    | none =>
      rw [hl] at h
      have hnil : z.log = [] := List.getLast?_eq_none_iff.1 hl
      simp only at h
      split at h
      · obtain ⟨s1, e1, l1, p1, r1⟩ := pushObs_spec rm
          { ts := p.ts, base := p.base, quote := p.quote, baseSma := p.base, quoteSma := p.quote }
        rw [e1] at h
        simp only [ok_bind, Except.ok.injEq, Prod.mk.injEq] at h
        obtain ⟨rfl, rfl⟩ := h
        refine Or.inr ⟨p, _, rfl, rfl, rfl, rfl, by simp, l1, hp ▸ p1, r1, ?_, ?_⟩
        · simp [Follows, hnil]
        · simp [hnil]
      · simp at h; exact Or.inl ⟨h.1.symm, h.2.symm⟩
    | some last =>
      rw [hl] at h
      have hne : z.log ≠ [] := by intro hn; rw [hn] at hl; simp at hl
      simp only at h
      split at h
      · rename_i hts
        simp only [bind_ok_iff, u32_ok, Except.ok.injEq, Prod.mk.injEq] at h
        obtain ⟨k, ⟨_, rfl⟩, old, hold, o, ho, z1, hz1, rfl, hob⟩ := h
        obtain ⟨s1, e1, l1, p1, r1⟩ := pushObs_spec rm o
        rw [e1] at hz1
        simp only [Except.ok.injEq] at hz1
        subst hz1
        obtain ⟨h1, h2, h3⟩ := next_spec ho
        refine Or.inr ⟨p, o, rfl, h1, h2, h3, ?_, l1, hp ▸ p1, r1, ?_, ?_⟩
        · rintro l ⟨⟩; rw [h1]; exact hts
        · simp only [Follows, hl]
          unfold readSingle at hold
          rw [rm.1, if_neg (by decide), rep_slot hr (by decide)] at hold
          simp only [Except.ok.injEq] at hold
          have hlen' : 0 < z.log.length := List.length_pos_iff.2 hne
          split
          next hlt =>
            rw [if_neg (by omega)] at hold
            subst hold
            have hh : m.head = z.log.length := by rw [hr.head_eq]; exact Nat.mod_eq_of_lt (by omega)
            simp only [next, hh, bind_ok_iff, Except.ok.injEq] at ho
            obtain ⟨_, hb, _, hq, rfl⟩ := ho
            exact ⟨hb, hq⟩
          next hge =>
            rw [if_pos (by omega)] at hold
            subst hold
            have hlt : z.log.length + 1 - 3000 < z.log.length := by omega
            rw [List.getElem?_eq_getElem hlt] at ho ⊢
            simp only [next, rm.1, bind_ok_iff, Except.ok.injEq] at ho
            obtain ⟨_, hb, _, hq, rfl⟩ := ho
            exact ⟨_, rfl, hb, hq⟩
        · rw [← hob, hr.head_eq]
          cases hrd : ob.ready
          · by_cases hk : ob.minTrades ≤ z.log.length % 3000 + 1
            · simp [hk, hne]
            · simp only [hk]
              rw [if_neg (by simp)]
              cases ob; simp_all
          · cases ob; simp_all
      · simp at h; exact Or.inl ⟨h.1.symm, h.2.symm⟩

theorem savePre_spec {z z' : Book} {now b q : Nat} (h : savePre z now b q = .ok z') :
    z'.log = z.log ∧ z'.store = z.store := by
  unfold savePre at h
  split at h
  · split at h
    · simp only [bind_ok_iff, u128_ok, Except.ok.injEq] at h
      obtain ⟨_, _, _, _, rfl⟩ := h
      exact ⟨rfl, rfl⟩
    · simp at h; subst h; exact ⟨rfl, rfl⟩
  · simp at h; subst h; exact ⟨rfl, rfl⟩

/-- Transactions other than swaps do not touch readiness; orders appear only at the beginning of blocks of a ready pair. -/
theorem exec_ready {su : Setup} {me : A} {now : Nat} {fo : A} {s s' : State A} {o : Op A}
    (h : exec su me now fo s o = .ok s') (hns : ∀ u i n b m r e, o ≠ .swap u i n b m r e) :
    s'.ob.ready = s.ob.ready ∧ (s'.posted ≠ [] → s.posted ≠ [] ∨ s.ob.ready = true) := by
  obtain ⟨hsig, hx⟩ := exec_cases h
  rcases hx with ⟨u, d, t, r, e', sh, rfl, hx⟩ | ⟨u, n, x, rfl, hx⟩ | ⟨u, i, n, b, m, r, e', x, rfl, hx⟩ |
    ⟨u, ac, e', rfl, hx⟩ | ⟨u, p, q, rfl, ob, hob, rfl⟩ | ⟨u, n, rfl, hu, h1, h2, rfl⟩ | ⟨x, c, rfl, hax, hx, rfl⟩ |
    ⟨e', rfl, hx⟩ | ⟨rfl, rfl⟩ | ⟨x, y, rfl, _, rfl⟩
  · obtain ⟨b0, total, ps, dd, xs, pool, fee, shareD, sp⟩ := provide_spec hx
    rw [sp.hob, sp.hrest.2.2.2]; simp; tauto
  · obtain ⟨xs, r, own, z, sp⟩ := withdraw_spec hx
    rw [sp.hob, sp.hrest.2.2.2, sp.hz]
    refine ⟨rfl, ?_⟩
    split
    · simp [leave]
    · tauto
  · exact absurd rfl (hns _ _ _ _ _ _ _)
  · obtain ⟨_, xs, xs', fee, _, _, hp, hs⟩ := emergency_spec hx
    rw [hs]; simp
  · simp only [setTicks, bind_ok_iff, require_ok, exists_const, Except.ok.injEq, dec256FromRatio_ok] at hob
    obtain ⟨_, ⟨_, _, rfl⟩, _, rfl⟩ := hob
    exact ⟨rfl, fun h => Or.inl h⟩
  · exact ⟨rfl, fun h => Or.inl h⟩
  · exact ⟨rfl, fun h => Or.inl h⟩
  · rcases beginBlock_spec hx with rfl | ⟨hr, _, _, xs, pool, xs', fee, _, _, rfl | ⟨bal, b0, b1, l, need, base, quote,
      ag, dd, hp, hb0, hb1, _, _, _, _, _, _, hs⟩⟩
    · exact ⟨rfl, fun h => Or.inl h⟩
    · simp [leave]
    · rw [hs]; exact ⟨rfl, fun _ => Or.inr hr⟩
  · simp [deactivate, leave]
  · exact ⟨rfl, fun h => Or.inl h⟩

/-- What all histories keep. -/
structure Good (s : JState A) : Prop where
  rep : RepS 3000 s.sizes.log s.sizes.store
  sorted : s.sizes.log.Pairwise (fun a b => a.ts < b.ts)
  range : 1 ≤ s.pair.ob.minTrades ∧ s.pair.ob.minTrades ≤ 3000
  ready : s.pair.ob.ready = true ↔ (2 ≤ s.sizes.log.length ∧ s.pair.ob.minTrades ≤ s.sizes.log.length)
  posted : s.pair.posted ≠ [] → s.pair.ob.ready = true

theorem sorted_snoc {xs : List Obs} {o : Obs} (hs : xs.Pairwise (fun a b => a.ts < b.ts))
    (h : ∀ l, xs.getLast? = some l → l.ts < o.ts) : (xs ++ [o]).Pairwise (fun a b => a.ts < b.ts) := by
  rw [List.pairwise_append]
  refine ⟨hs, by simp, ?_⟩
  intro a ha b hb
  simp only [List.mem_singleton] at hb
  subst hb
  rcases List.eq_nil_or_concat xs with rfl | ⟨ys, l, rfl⟩
  · simp at ha
  · rw [List.concat_eq_append] at *
    have hl := h l (by simp)
    rw [List.pairwise_append] at hs
    rcases List.mem_append.1 ha with ha | ha
    · exact lt_trans (hs.2.2 a ha l (by simp)) hl
    · simp only [List.mem_singleton] at ha; subst ha; exact hl

theorem good_jexec {f : Sma} {su : Setup} {me : A} {now : Nat} {fo : A} {s s' : JState A} {o : Op A} {big : Bool}
    (hg : Good s) (h : jexec f su me now fo s o big = .ok s') : Good s' := by
  have other : ∀ o p, exec su me now fo s.pair o = .ok p → (∀ u i n b m r e, o ≠ .swap u i n b m r e) →
      Good ⟨p, s.sizes⟩ := by
    intro o p hp hns
    obtain ⟨h1, h2⟩ := exec_ready hp hns
    have h3 := (C117_settings su me now fo _ _ _ hp).2.2
    refine ⟨hg.rep, hg.sorted, by simpa [h3] using hg.range, by simpa [h1, h3] using hg.ready, ?_⟩
    intro hne
    show p.ob.ready = true
    rw [h1]
    rcases h2 hne with h | h
    · exact hg.posted h
    · exact h
  unfold jexec at h
  split at h
  · rename_i u i n b m r e
    simp only [bind_ok_iff, Prod.exists, require_ok, exists_const, Except.ok.injEq] at h
    obtain ⟨z, ob, hz, hu, p, out, hsw, z2, hz2, rfl⟩ := h
    obtain ⟨bo, bal, ps, xs, pool, fee, off, rr, out', l1, sp⟩ := swap_spec hsw
    have hz2' : z2.log = z.log ∧ z2.store = z.store := by
      unfold remember at hz2
      split at hz2
      · exact savePre_spec hz2
      · simp at hz2; subst hz2; exact ⟨rfl, rfl⟩
    have hm : p.ob.minTrades = s.pair.ob.minTrades := by rw [sp.hob]
    have hready : p.ob.ready = (s.pair.ob.ready || ob.ready) := by rw [sp.hob]
    have hpost : p.posted = s.pair.posted := sp.hrest.2.2.2.2.2
    have hpr : s.pair.posted ≠ [] → p.ob.ready = true := by
      intro hne; rw [hready, hg.posted hne]; rfl
    rcases accumulate_cases hg.rep hz with ⟨rfl, rfl⟩ | ⟨q, o, _, _, _, _, hlast, hlog, _, hrep, _, hob⟩
    · refine ⟨by simpa [hz2'] using hg.rep, by simpa [hz2'] using hg.sorted, by simpa [hm] using hg.range, ?_, ?_⟩
      · show p.ob.ready = true ↔ _
        rw [hready, Bool.or_self, hz2'.1]
        simpa [hm] using hg.ready
      · intro hne; exact hpr (by rw [← hpost]; exact hne)
    · refine ⟨by simpa [hz2'] using hrep, by simpa [hz2', hlog] using sorted_snoc hg.sorted hlast,
        by simpa [hm] using hg.range, ?_, ?_⟩
      · show p.ob.ready = true ↔ (2 ≤ z2.log.length ∧ p.ob.minTrades ≤ z2.log.length)
        rw [hready, hz2'.1, hlog, hm, hob]
        simp only [List.length_append, List.length_singleton, Bool.or_eq_true, Bool.and_eq_true, decide_eq_true_eq]
        rw [hg.ready]
        have hr := hg.range
        have hne : s.sizes.log ≠ [] ↔ 1 ≤ s.sizes.log.length := by
          rw [← List.length_pos_iff]; exact Iff.rfl
        rw [hne]
        generalize s.sizes.log.length = L at *
        generalize s.pair.ob.minTrades = n at *
        constructor
        · rintro (⟨h1, h2⟩ | ⟨h1, h2⟩ | ⟨h1, h2⟩) <;> omega
        · rintro ⟨h1, h2⟩
          by_cases hL : L < 3000
          · rw [Nat.mod_eq_of_lt hL]; omega
          · omega
      · intro hne; exact hpr (by rw [← hpost]; exact hne)
  · rename_i e
    simp only [bind_ok_iff, Except.ok.injEq] at h
    obtain ⟨avg, _, p, hp, rfl⟩ := h
    exact other _ p hp (by intros; simp)
  · rename_i hns1 hns2
    simp only [bind_ok_iff, Except.ok.injEq] at h
    obtain ⟨p, hp, rfl⟩ := h
    exact other _ p hp (fun u i n b m r e => hns1 u i n b m r e)

omit [DecidableEq A] in
theorem good_fresh {su : Setup} {bal : Bool → A → Nat} {u : PParams} {amp gamma scale now number minTrades price qty : Nat}
    {p : State A} (h : create su bal u amp gamma scale now number minTrades price qty = .ok p) : Good (fresh p) := by
  have hr := (create_spec h).2.2.2.2.2.2
  have hp : p.ob.ready = false ∧ p.posted = [] := by
    simp only [create, newOB, setTicks, bind_ok_iff, require_ok, exists_const, Except.ok.injEq] at h
    obtain ⟨ob, ⟨_, _, q, _, _, rfl⟩, c, _, rfl⟩ := h
    exact ⟨rfl, rfl⟩
  refine ⟨⟨0, rfl, by decide, by simp [fresh], ?_, ?_, ?_⟩, by simp [fresh], ⟨hr.2.2.1, hr.2.2.2⟩, ?_, ?_⟩
  · intro k hk; simp [fresh] at hk
  · intros; rfl
  · intros; rfl
  · simp [fresh, hp.1]
  · simp [fresh, hp.2]

theorem good_reachable {f : Sma} {su : Setup} {me : A} {s : JState A} (h : JReachable f su me s) : Good s := by
  obtain ⟨_, _, _, _, _, _, _, _, _, _, p, es, h0, rfl⟩ := h
  have h0 := good_fresh h0
  generalize fresh p = s0 at h0
  induction es generalizing s0 with
  | nil => exact h0
  | cons e es ih =>
    exact ih _ (commit'_inv (fun s : JState A => Good s) h0 (fun s' h => good_jexec h0 h))

/-- What a swap does to the remembered trades. -/
theorem jexec_swap {f : Sma} {su : Setup} {me : A} {now : Nat} {fo : A} {s s' : JState A} {u : A} {i : Bool} {n : Nat}
    {b m : Option Nat} {r : A} {e : Env A} {big : Bool} (h : jexec f su me now fo s (.swap u i n b m r e) big = .ok s') :
    ∃ z ob out, accumulate f s.sizes s.pair.ob now = .ok (z, ob) ∧
      swap su me s.pair now u i n b m r { e with full := ob.ready } = .ok (s'.pair, out) ∧
      remember big z now (if i then out.ret else n) (if i then n else out.ret) = .ok s'.sizes := by
  unfold jexec at h
  simp only [bind_ok_iff, Prod.exists, require_ok, exists_const, Except.ok.injEq] at h
  obtain ⟨z, ob, hz, hu, p, out, hsw, z2, hz2, rfl⟩ := h
  exact ⟨z, ob, out, hz, hsw, hz2⟩

theorem follows_snoc {f : Sma} {xs : List Obs} {o : Obs} (hx : ∀ ys a zs, xs = ys ++ a :: zs → Follows f ys a)
    (ho : Follows f xs o) : ∀ ys a zs, xs ++ [o] = ys ++ a :: zs → Follows f ys a := by
  intro ys a zs h
  rcases List.eq_nil_or_concat zs with rfl | ⟨ws, w, rfl⟩
  · obtain ⟨rfl, h2⟩ := List.append_inj' h rfl
    simp only [List.cons.injEq, and_true] at h2
    subst h2
    exact ho
  · rw [List.concat_eq_append, ← List.cons_append, ← List.append_assoc] at h
    obtain ⟨h1, _⟩ := List.append_inj' h rfl
    exact hx ys a ws h1

theorem follows_jexec {f : Sma} {su : Setup} {me : A} {now : Nat} {fo : A} {s s' : JState A} {o : Op A} {big : Bool}
    (hg : Good s) (hx : ∀ ys a zs, s.sizes.log = ys ++ a :: zs → Follows f ys a)
    (h : jexec f su me now fo s o big = .ok s') : ∀ ys a zs, s'.sizes.log = ys ++ a :: zs → Follows f ys a := by
  have key : s'.sizes.log = s.sizes.log ∨ ∃ o, s'.sizes.log = s.sizes.log ++ [o] ∧ Follows f s.sizes.log o := by
    cases o with
    | swap u i n b m r e =>
      obtain ⟨z, ob, out, hz, _, hr⟩ := jexec_swap h
      have hz2' : s'.sizes.log = z.log := by
        unfold remember at hr
        split at hr
        · exact (savePre_spec hr).1
        · simp at hr; rw [← hr]
      rw [hz2']
      rcases accumulate_cases hg.rep hz with ⟨rfl, rfl⟩ | ⟨q, o, _, _, _, _, _, hlog, _, _, hf, _⟩
      · exact Or.inl rfl
      · exact Or.inr ⟨o, hlog, hf⟩
    | block e =>
      unfold jexec at h
      simp only [bind_ok_iff, Except.ok.injEq] at h
      obtain ⟨_, _, _, _, rfl⟩ := h
      exact Or.inl rfl
    | _ =>
      unfold jexec at h
      simp only [bind_ok_iff, Except.ok.injEq] at h
      obtain ⟨_, _, rfl⟩ := h
      exact Or.inl rfl
  rcases key with hk | ⟨o, hk, ho⟩
  · rw [hk]; exact hx
  · rw [hk]; exact follows_snoc hx ho

/-! ## The theorems -/

/-- **C149.** In every history, each stored observation carries for each asset the average updated with the sizes of that asset:
the first one is its own average, the next ones extend the average of the one before, and once the buffer is full the
size that leaves it is taken out. -/
theorem C149_averages_per_asset (f : Sma) (su : Setup) (me : A) (s : JState A) (h : JReachable f su me s)
    (before after : List Obs) (o : Obs) (ho : s.sizes.log = before ++ o :: after) : Follows f before o := by
  obtain ⟨_, _, _, _, _, _, _, _, _, _, p, es, h0, rfl⟩ := h
  have h0 := good_fresh h0
  have h1 : ∀ ys a zs, (fresh p).sizes.log = ys ++ a :: zs → Follows f ys a := by
    intro ys a zs h; simp [fresh] at h
  have key : Good (jrun f su me (fresh p) es) ∧
      ∀ ys a zs, (jrun f su me (fresh p) es).sizes.log = ys ++ a :: zs → Follows f ys a := by
    generalize fresh p = s0 at h0 h1 ho
    induction es generalizing s0 with
    | nil => exact ⟨h0, h1⟩
    | cons e es ih =>
      have hk := commit'_inv (fun s : JState A => Good s ∧ ∀ ys a zs, s.sizes.log = ys ++ a :: zs → Follows f ys a)
        (r := jexec f su me e.now e.fo s0 e.op e.big) ⟨h0, h1⟩
        (fun s' h => ⟨good_jexec h0 h, follows_jexec h0 h1 h⟩)
      exact ih (jstep f su me s0 e) hk.1 hk.2 ho
  exact key.2 before o after ho

/-- **C149.** After a swap that is not tiny, the pair remembers for this block the amounts of base and quote traded: what it
remembered before in the same block, plus what the trader offered of the one asset and received of the other. -/
theorem C149_swap_remembered (f : Sma) (su : Setup) (me : A) (now : Nat) (fo : A) (s s' : JState A) (hr : JReachable f su me s)
    (u : A) (i : Bool) (n : Nat) (b m : Option Nat) (r : A) (e : Env A)
    (h : jexec f su me now fo s (.swap u i n b m r e) true = .ok s') :
    ∃ out full q, swap su me s.pair now u i n b m r { e with full := full } = .ok (s'.pair, out) ∧
      s'.sizes.pre = some q ∧ q.ts = now ∧
      q.base = (earlier s.sizes now).1 + (if i = false then n else out.ret) ∧
      q.quote = (earlier s.sizes now).2 + (if i = true then n else out.ret) := by
  obtain ⟨z, ob, out, hz, hsw, hrem⟩ := jexec_swap h
  have hpre : z.pre = s.sizes.pre := by
    rcases accumulate_cases (good_reachable hr).rep hz with ⟨rfl, rfl⟩ | ⟨_, _, _, _, _, _, _, _, hp, _⟩
    · rfl
    · exact hp
  have hsv : savePre z now (if i then out.ret else n) (if i then n else out.ret) = .ok s'.sizes := by
    simpa [remember] using hrem
  unfold savePre at hsv
  rw [hpre] at hsv
  refine ⟨out, ob.ready, ?_⟩
  simp only [hsw, true_and, earlier]
  cases hp : s.sizes.pre with
  | none =>
    rw [hp] at hsv
    simp only [Except.ok.injEq] at hsv
    rw [← hsv]
    exact ⟨_, rfl, rfl, by cases i <;> simp, by cases i <;> simp⟩
  | some p =>
    rw [hp] at hsv
    simp only at hsv
    split at hsv
    · rename_i hts
      simp only [bind_ok_iff, u128_ok, Except.ok.injEq] at hsv
      obtain ⟨_, ⟨_, rfl⟩, _, ⟨_, rfl⟩, hsv⟩ := hsv
      rw [← hsv]
      dsimp only
      rw [if_pos hts.symm]
      exact ⟨_, rfl, hts.symm, by cases i <;> simp, by cases i <;> simp⟩
    · rename_i hts
      simp only [Except.ok.injEq] at hsv
      rw [← hsv]
      dsimp only
      rw [if_neg (Ne.symm hts)]
      exact ⟨_, rfl, rfl, by cases i <;> simp, by cases i <;> simp⟩

/-- **C149.** The pair with its buffer is the pair of `Verif.Inj.Model` with particular inputs, so that everything proved of
the latter holds of it. -/
theorem C149_refines (f : Sma) (su : Setup) (me : A) (s : JState A) (h : JReachable f su me s) :
    Inj.Reachable su me s.pair := by
  obtain ⟨bal, u, amp, gamma, scale, now, number, minTrades, price, qty, p, es, h0, rfl⟩ := h
  refine ⟨bal, u, amp, gamma, scale, now, number, minTrades, price, qty, p, ?_⟩
  simp only [h0, true_and]
  have key : ∀ (es : List (JEvent A)) (s : JState A), ∃ fs, (jrun f su me s es).pair = run su me s.pair fs := by
    intro es
    induction es with
    | nil => exact fun s => ⟨[], rfl⟩
    | cons e es ih =>
      intro s
      obtain ⟨fs, hfs⟩ := ih (jstep f su me s e)
      have hone : ∃ gs, (jstep f su me s e).pair = run su me s.pair gs := by
        cases hx : jexec f su me e.now e.fo s e.op e.big with
        | error x => exact ⟨[], by simp [jstep, hx, commit', run]⟩
        | ok s' =>
          have hs : (jstep f su me s e).pair = s'.pair := by simp [jstep, hx, commit']
          rw [hs]
          have one : ∀ o p, exec su me e.now e.fo s.pair o = .ok p → ∃ gs, p = run su me s.pair gs := by
            intro o p hp
            exact ⟨[⟨e.now, e.fo, o⟩], by simp [run, step, hp, commit']⟩
          unfold jexec at hx
          split at hx
          · rename_i u i n b m r ev _
            simp only [bind_ok_iff, Prod.exists, require_ok, exists_const, Except.ok.injEq] at hx
            obtain ⟨z, ob, hz, hu, p, out, hsw, z2, hz2, rfl⟩ := hx
            refine one (.swap u i n b m r { ev with full := ob.ready }) p ?_
            simp only [exec, bind_ok_iff, require_ok, exists_const, Prod.exists, Except.ok.injEq]
            exact ⟨by simpa [Op.signer] using hu, p, out, hsw, rfl⟩
          · simp only [bind_ok_iff, Except.ok.injEq] at hx
            obtain ⟨avg, _, p, hp, rfl⟩ := hx
            exact one _ p hp
          · simp only [bind_ok_iff, Except.ok.injEq] at hx
            obtain ⟨p, hp, rfl⟩ := hx
            exact one _ p hp
      obtain ⟨gs, hgs⟩ := hone
      refine ⟨gs ++ fs, ?_⟩
      show (jrun f su me (jstep f su me s e) es).pair = _
      rw [hfs, hgs]
      simp [run, List.foldl_append]
  exact key es (fresh p)

/-- **C149.** While the pair has orders on the exchange, at least the configured number of trading blocks has been stored,
at different times. -/
theorem C149_orders_need_observations (f : Sma) (su : Setup) (me : A) (s : JState A) (h : JReachable f su me s)
    (ho : s.pair.posted ≠ []) :
    s.pair.ob.minTrades ≤ s.sizes.log.length ∧ s.sizes.log.Pairwise (fun a b => a.ts < b.ts) := by
  have g := good_reachable h
  exact ⟨(g.ready.1 (g.posted ho)).2, g.sorted⟩

/-- **C149 (partial).** The English claim: the pair becomes ready exactly when the configured number of observations is
stored.  Proved for two observations or more. -/
theorem C149_ready_exactly_partial (f : Sma) (su : Setup) (me : A) (s : JState A) (h : JReachable f su me s)
    (hn : 2 ≤ s.pair.ob.minTrades) :
    s.pair.ob.ready = true ↔ s.pair.ob.minTrades ≤ s.sizes.log.length := by
  have g := good_reachable h
  rw [g.ready]
  omega

/-- **C149.** A ready pair always has an average: the beginning of a block uses the averages of the observation stored last
and never fails for want of one. -/
theorem C149_block_uses_last_average (f : Sma) (su : Setup) (me : A) (s : JState A) (h : JReachable f su me s)
    (now : Nat) (fo : A) (e : Env A) (big : Bool) (hr : s.pair.ob.ready = true) :
    ∃ o, s.sizes.log.getLast? = some o ∧
      jexec f su me now fo s (.block e) big =
        (beginBlock su me s.pair now { e with avg := some (o.baseSma, o.quoteSma) }).map
          (fun p => { s with pair := p }) := by
  have g := good_reachable h
  have hl := (g.ready.1 hr).1
  obtain ⟨m, hnew, rm, hpre⟩ := repS_new g.rep
  have hlast := repM_readLast rm hpre (by decide)
  cases ho : s.sizes.log.getLast? with
  | none =>
    rw [List.getLast?_eq_none_iff] at ho
    rw [ho] at hl; simp at hl
  | some o =>
    refine ⟨o, rfl, ?_⟩
    have ha : lastAvg s.sizes = .ok (some (o.baseSma, o.quoteSma)) := by
      unfold lastAvg
      rw [hnew, ok_bind, hlast, ok_bind, ho]
      rfl
    unfold jexec
    simp only [ha, ok_bind]
    unfold exec
    rw [show require (Op.signer (.block { e with avg := some (o.baseSma, o.quoteSma) } : Op A) ≠ some me) .unauthorized
      = .ok () from (require_ok _ _ _).2 (by simp [Op.signer]), ok_bind]
    simp only
    cases beginBlock su me s.pair now { e with avg := some (o.baseSma, o.quoteSma) } <;> rfl

/-- The averages of the examples: those of packages/astroport/src/observation.rs:205-235 for integers. -/
def plainSma : Sma where
  full l o c n := do
    let x ← csub (l * c + n) o
    cdiv x c
  part l c n := cdiv (l * c + n) (c + 1)

/-- A deposit and three swaps in three blocks, each followed by the beginning of the next block. -/
def demoSizes : List (JEvent Nat) :=
  [⟨2000, 1, .provide 2 (fun _ => 10 ^ 9) none 2 quiet, true⟩, ⟨2000, 1, .swap 3 false 10000000 none none 3 quiet, true⟩,
   ⟨2010, 1, .block quiet, true⟩, ⟨2010, 1, .swap 3 true 10000000 none none 3 quiet, true⟩]

/-- Non-vacuity of `C149_averages_per_asset` and `C149_swap_remembered`: one stored trade, one remembered. -/
example : okAnd demo (fun p =>
    let s := jrun plainSma demoSetup 0 (fresh p) demoSizes
    decide (s.sizes.log.map (fun o => (o.ts, o.base)) = [(2000, 10000000)]) &&
    decide (s.sizes.pre.map (fun q => (q.ts, q.quote)) = some (2010, 10000000))) = true := by
  decide +kernel

/-- **C149 (violated).** The English claim: the pair is ready once the configured number of observations is stored.  A pair
that asks for one observation has stored one and is not ready; it is ready after the second. -/
theorem C149_one_observation_not_enough_violated : okAnd demo (fun p =>
    let s := jrun plainSma demoSetup 0 (fresh p) demoSizes
    let t := jrun plainSma demoSetup 0 (fresh p) (demoSizes ++
      [⟨2020, 1, .swap 3 false 10000000 none none 3 quiet, true⟩, ⟨2030, 1, .block quiet, true⟩])
    decide (s.pair.ob.minTrades = 1 ∧ s.sizes.log.length = 1 ∧ s.pair.ob.ready = false) &&
    decide (t.sizes.log.length = 2 ∧ t.pair.ob.ready = true ∧ t.pair.posted.length = 4)) = true := by
  decide +kernel

end Verif.Inj.Sizes
