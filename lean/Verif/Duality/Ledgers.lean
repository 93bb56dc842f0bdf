import Verif.Duality.Quotes
import Verif.PCL.Props

/-!
# Balances of the pair with orderbook integration: C108, C110

Specification: `worth` (all coins of an asset, in accounts and in the pair's orders).
-/

namespace Verif.Duality

open Verif.PCL (Setup FeeInfo Pool demoSetup demoParams sendOpt_total sendOpt_other move_other)
open Verif.XYK (sendOpt)

variable {A : Type} [DecidableEq A]

/-! ## C108: nobody else loses -/

theorem settle_other {su : Setup} {me a : A} {c : PCL.State A} {now : Nat} {f : FeeInfo A} {ts : List Trade}
    {xs xs' : Bool → Nat} {bal bal' : Bool → A → Nat} {pool : Pool} (ha : a ≠ me)
    (h : settle su me c now f ts xs bal = .ok (pool, xs', bal')) : ∀ i, bal i a ≤ bal' i a := by
  have key : ∀ (ts : List Trade) (x y : Bool → Nat) (b b' : Bool → A → Nat),
      chargeAll su me c f ts x b = .ok (y, b') → ∀ i, b i a ≤ b' i a := by
    intro ts
    induction ts with
    | nil =>
      intro x y b b' h
      simp only [chargeAll, Except.ok.injEq, Prod.mk.injEq] at h
      obtain ⟨_, rfl⟩ := h
      intro i; exact le_refl _
    | cons t ts ih =>
      intro x y b b' h
      simp only [chargeAll, charge, bind_ok_iff, Prod.exists, Except.ok.injEq, Prod.mk.injEq] at h
      obtain ⟨x1, b1, ⟨_, shU, mkU, hf, l1, hl1, l2, hl2, rfl, rfl⟩, h⟩ := h
      intro i
      refine le_trans ?_ (ih _ _ _ _ h i)
      rw [set2_apply]
      split
      · rename_i hi
        subst hi
        exact le_trans (sendOpt_other ha hl1) (sendOpt_other ha hl2)
      · exact le_refl _
  unfold settle at h
  split at h
  · simp only [Except.ok.injEq, Prod.mk.injEq] at h
    obtain ⟨_, _, rfl⟩ := h
    intro i; exact le_refl _
  · simp only [process, bind_ok_iff, Prod.exists, Except.ok.injEq, Prod.mk.injEq] at h
    obtain ⟨_, bal1, hc, _, _, _, _, _, _, _, _, rfl⟩ := h
    exact key _ _ _ _ _ hc

theorem cancelAll_other {me a : A} (ha : a ≠ me) : ∀ {ks : List Nat} {bal bal' : Bool → A → Nat}
    {book book' : List (Nat × Order)}, cancelAll me ks bal book = .ok (bal', book') → ∀ i, bal' i a = bal i a := by
  intro ks
  induction ks with
  | nil =>
    intro bal bal' book book' h
    simp only [cancelAll, Except.ok.injEq, Prod.mk.injEq] at h
    intro i; rw [h.1]
  | cons k ks ih =>
    intro bal bal' book book' h
    simp only [cancelAll, bind_ok_iff] at h
    obtain ⟨o, _, h⟩ := h
    intro i
    rw [ih h i, credit_of_ne _ _ ha]

/-- What the end of a transaction leaves to others. -/
theorem Renew.other {su : Setup} {me a : A} {s : State A} {now : Nat} {e : Env A} {s' : State A} {os : List Order}
    {ts : List Trade} {bal bal' : Bool → A → Nat} {book' : List (Nat × Order)} {c : PCL.State A}
    {xs : Bool → Nat} {fin : State A} (r : Renew su me s now e s' os ts bal bal' book' c xs fin) (ha : a ≠ me) :
    (∀ i, bal' i a = bal i a) ∧ ∀ i, s'.pcl.bal i a = c.bal i a := by
  refine ⟨cancelAll_other ha r.hcancel, ?_⟩
  obtain ⟨ob1, ms, pre, p, fsp⟩ := finish_spec r.hfin
  obtain ⟨_, _, _, _, _, _, hoth⟩ := placeAll_keys fsp.hplace
  intro i
  rw [r.hbal, fsp.hpcl]; exact hoth i a ha

/-- **C108.** A transaction (or a fill of an order) lowers nobody's LP balance and nobody's balance of a pool asset,
except the signer's and (assets only) the pair's. -/
theorem C108_others_never_lose (su : Setup) (me : A) (now : Nat) (fo : A) (s s' : State A) (o : Op A) (a : A)
    (h : exec su me now fo s o = .ok s') (ha : o.signer ≠ some a) :
    s.pcl.lp a ≤ s'.pcl.lp a ∧ (a ≠ me → ∀ i, s.pcl.bal i a ≤ s'.pcl.bal i a) := by
  obtain ⟨hsig, hx⟩ := exec_cases h
  rcases hx with ⟨u, d, t, m, r, e', sh, rfl, hx⟩ | ⟨u, n, m, e', x, rfl, hx⟩ | ⟨u, i, n, b, m, r, e', x, rfl, hx⟩ |
    ⟨u, e', rfl, hx⟩ | ⟨u, v, rfl, hx⟩ | ⟨x, c, rfl, hax, hx, rfl⟩ | ⟨k, n, p, rfl, hx⟩
  · have hau : a ≠ u := fun hh => ha (by rw [hh]; rfl)
    obtain ⟨b0, bal, bal', total, os, ts, t', pools, dd, x, xs, pool, pool', shareD, book', c, sp⟩ := provide_spec hx
    constructor
    · rw [sp.hlp, credit_apply, credit_apply]; split <;> split <;> omega
    · intro hm i
      obtain ⟨h1, h2⟩ := sp.hrenew.other hm
      rw [h2 i, sp.hc.1, h1 i]
      exact le_trans (move_other hau (sp.hb0 i)) (settle_other hm sp.hsettle i)
  · have hau : a ≠ u := fun hh => ha (by rw [hh]; rfl)
    obtain ⟨bal, bal', os, ts, t', pools, xs, pool, rr, book', c, fin, sp⟩ := withdraw_spec hx
    constructor
    · rw [debit_apply sp.hlp a, if_neg hau]
    · intro hm i
      obtain ⟨h1, h2⟩ := sp.hrenew.other hm
      rw [h2 i]
      refine le_trans (settle_other hm sp.hsettle i) ?_
      rw [← h1 i]
      cases i
      · exact move_other hm sp.hb0.1
      · exact move_other hm sp.hb1.1
  · have hau : a ≠ u := fun hh => ha (by rw [hh]; rfl)
    obtain ⟨bo, bal, bal', os, ts, t', pools, xs, pool, off, fs, old, rr, out, book', c, l1, l2, sp⟩ := swap_spec hx
    constructor
    · rw [sp.hrest.2.2.2.1]
    · intro hm j
      obtain ⟨h1, h2⟩ := sp.hrenew.other hm
      rw [h2 j]
      have h3 := settle_other hm sp.hsettle j
      rw [← h1 j, set2_apply] at h3
      by_cases hj : j = i
      · subst hj
        rw [if_pos rfl] at h3
        rw [sp.hci]
        exact le_trans (move_other hau sp.hbo) h3
      · have hj' : j = !i := by cases i <;> cases j <;> simp_all
        rw [if_neg hj] at h3
        subst hj'
        exact le_trans h3 (le_trans (move_other hm sp.hl1) (le_trans (sendOpt_other hm sp.hl2) (sendOpt_other hm sp.hl3)))
  · obtain ⟨bal, bal', os, ts, t', pools, xs, old, book', c, sp⟩ := sync_spec hx
    constructor
    · rw [sp.hrest.2.2.2.1]
    · intro hm i
      obtain ⟨h1, h2⟩ := sp.hrenew.other hm
      rw [h2 i, sp.hc.1, h1 i]
      have hset := sp.hsettle
      rw [← process_settle sp.hne] at hset
      exact settle_other hm hset i
  · rcases (config_spec hx).2 with ⟨_, bal, book, _, hcan, hs⟩ | ⟨_, _, hs⟩
    · rw [hs]
      exact ⟨le_refl _, fun hm i => (show s.pcl.bal i a ≤ bal i a from (cancelAll_other hm hcan i).ge)⟩
    · rw [hs]; exact ⟨le_refl _, fun _ _ => le_refl _⟩
  · exact PCL.C90_others_never_lose su me now fo s.pcl c x a hx (fun hh => ha (by rw [hh]; rfl))
  · simp only [fill, bind_ok_iff, Except.ok.injEq] at hx
    obtain ⟨_, _, _, _, rfl⟩ := hx
    exact ⟨le_refl _, fun _ _ => le_refl _⟩

/-! ## C108: coins are neither created nor lost -/

/-- All coins of asset `i`: in all accounts and in the pair's orders. -/
def worth [Fintype A] (s : State A) (i : Bool) : Nat := ∑ a, s.pcl.bal i a + onBook s.book i

theorem sum_sendOpt [Fintype A] {l l' : A → Nat} {me : A} {dst : Option A} {n : Nat}
    (h : sendOpt l me dst n = .ok l') : ∑ x, l' x = ∑ x, l x := by
  cases dst with
  | none => simp only [sendOpt, Except.ok.injEq] at h; rw [h]
  | some d => exact sum_move (show move l me d n = .ok l' from h)

theorem settle_sum [Fintype A] {su : Setup} {me : A} {c : PCL.State A} {now : Nat} {f : FeeInfo A} {ts : List Trade}
    {xs xs' : Bool → Nat} {bal bal' : Bool → A → Nat} {pool : Pool}
    (h : settle su me c now f ts xs bal = .ok (pool, xs', bal')) : ∀ i, ∑ a, bal' i a = ∑ a, bal i a := by
  have key : ∀ (ts : List Trade) (x y : Bool → Nat) (b b' : Bool → A → Nat),
      chargeAll su me c f ts x b = .ok (y, b') → ∀ i, ∑ a, b' i a = ∑ a, b i a := by
    intro ts
    induction ts with
    | nil =>
      intro x y b b' h
      simp only [chargeAll, Except.ok.injEq, Prod.mk.injEq] at h
      intro i; rw [h.2]
    | cons t ts ih =>
      intro x y b b' h
      simp only [chargeAll, charge, bind_ok_iff, Prod.exists, Except.ok.injEq, Prod.mk.injEq] at h
      obtain ⟨x1, b1, ⟨_, shU, mkU, hf, l1, hl1, l2, hl2, rfl, rfl⟩, h⟩ := h
      intro i
      rw [ih _ _ _ _ h i]
      by_cases hi : i = !t.recv
      · subst hi
        simp only [set2_apply, if_true]
        rw [sum_sendOpt hl2, sum_sendOpt hl1]
      · simp only [set2_apply, if_neg hi]
  unfold settle at h
  split at h
  · simp only [Except.ok.injEq, Prod.mk.injEq] at h
    intro i; rw [h.2.2]
  · simp only [process, bind_ok_iff, Prod.exists, Except.ok.injEq, Prod.mk.injEq] at h
    obtain ⟨_, bal1, hc, _, _, _, _, _, _, _, _, rfl⟩ := h
    exact key _ _ _ _ _ hc

theorem placeAll_sum [Fintype A] {me : A} {out : Nat → Outcome} (hq : ∀ n, out n = .rests 0 0) :
    ∀ {ms : List Msg} {n : Nat} {s p : Placing A}, placeAll me out n ms s = .ok p →
      ∀ i, ∑ a, p.bal i a + onBook p.book i = ∑ a, s.bal i a + onBook s.book i := by
  intro ms
  induction ms with
  | nil =>
    intro n s p h
    simp only [placeAll, Except.ok.injEq] at h
    subst h
    exact fun i => rfl
  | cons m ms ih =>
    intro n s p h
    simp only [placeAll, bind_ok_iff] at h
    obtain ⟨s1, h1, h⟩ := h
    have e2 := ih h
    simp only [place, bind_ok_iff] at h1
    obtain ⟨l, hl, h1⟩ := h1
    rw [hq n] at h1
    simp only [bind_ok_iff, csub_ok, Except.ok.injEq] at h1
    obtain ⟨left, ⟨_, rfl⟩, rfl⟩ := h1
    intro i
    rw [e2 i]
    have hd := sum_debit hl
    show ∑ a, set2 s.bal m.sell l i a + onBook (s.book ++ [(s.next, ⟨m.sell, m.amount - 0, 0⟩)]) i = _
    have hb : onBook (s.book ++ [(s.next, ⟨m.sell, m.amount - 0, 0⟩)]) i =
        onBook s.book i + (if i = m.sell then m.amount else 0) := by
      simp [onBook, Order.coin]
    rw [hb]
    by_cases hi : i = m.sell
    · subst hi; simp only [set2_apply, if_true]; omega
    · simp only [set2_apply, if_neg hi]; omega

theorem Renew.sum [Fintype A] {su : Setup} {me : A} {s : State A} {now : Nat} {e : Env A} {s' : State A}
    {os : List Order} {ts : List Trade} {bal bal' : Bool → A → Nat} {book' : List (Nat × Order)} {c : PCL.State A}
    {xs : Bool → Nat} {fin : State A} (r : Renew su me s now e s' os ts bal bal' book' c xs fin) (hi : Inv s)
    (hq : ∀ n, e.out n = .rests 0 0) :
    (∀ i, ∑ a, bal' i a = ∑ a, bal i a + onBook s.book i) ∧ ∀ i, worth s' i = ∑ a, c.bal i a := by
  obtain ⟨_, hb, hbal, _⟩ := r.all hi
  refine ⟨fun i => by rw [hbal i, sum_credit], ?_⟩
  obtain ⟨ob1, ms, pre, p, fsp⟩ := finish_spec r.hfin
  intro i
  have := placeAll_sum hq fsp.hplace i
  unfold worth
  rw [r.hbal, r.hbook, fsp.hpcl, fsp.hbook, this, hb]
  simp [onBook]

/-- **C108.** A transaction whose orders are left standing neither creates nor destroys coins: the coins in all
accounts and in the pair's orders stay the same, for both assets. -/
theorem C108_coins_conserved [Fintype A] (su : Setup) (me : A) (now : Nat) (fo : A) (s s' : State A) (o : Op A)
    (hr : Reachable su me s) (hq : ∀ e, o.env = some e → ∀ n, e.out n = .rests 0 0)
    (hf : ∀ k n p, o ≠ .fill k n p) (h : exec su me now fo s o = .ok s') : ∀ i, worth s' i = worth s i := by
  obtain ⟨hsig, hx⟩ := exec_cases h
  rcases hx with ⟨u, d, t, m, r, e', sh, rfl, hx⟩ | ⟨u, n, m, e', x, rfl, hx⟩ | ⟨u, i, n, b, m, r, e', x, rfl, hx⟩ |
    ⟨u, e', rfl, hx⟩ | ⟨u, v, rfl, hx⟩ | ⟨x, c, rfl, hax, hx, rfl⟩ | ⟨k, n, p, rfl, hx⟩
  · obtain ⟨b0, bal, bal', total, os, ts, t', pools, dd, x, xs, pool, pool', shareD, book', c, sp⟩ := provide_spec hx
    obtain ⟨h1, h2⟩ := sp.hrenew.sum hr.inv (hq _ rfl)
    intro i
    rw [h2 i, sp.hc.1, h1 i, settle_sum sp.hsettle i, sum_move (sp.hb0 i)]
    rfl
  · obtain ⟨bal, bal', os, ts, t', pools, xs, pool, rr, book', c, fin, sp⟩ := withdraw_spec hx
    obtain ⟨h1, h2⟩ := sp.hrenew.sum hr.inv (hq _ rfl)
    have h3 : ∀ i, ∑ a, c.bal i a = ∑ a, bal' i a := by
      intro i; cases i
      · exact sum_move sp.hb0.1
      · exact sum_move sp.hb1.1
    intro i
    rw [h2 i, h3 i, h1 i, settle_sum sp.hsettle i]
    rfl
  · obtain ⟨bo, bal, bal', os, ts, t', pools, xs, pool, off, fs, old, rr, out, book', c, l1, l2, sp⟩ := swap_spec hx
    obtain ⟨h1, h2⟩ := sp.hrenew.sum hr.inv (hq _ rfl)
    have h3 : ∀ j, ∑ a, c.bal j a = ∑ a, bal' j a := by
      intro j
      by_cases hj : j = i
      · subst hj; rw [sp.hci]
      · have hj' : j = !i := by cases i <;> cases j <;> simp_all
        subst hj'
        rw [sum_sendOpt sp.hl3, sum_sendOpt sp.hl2, sum_move sp.hl1]
    have h4 : ∀ j, ∑ a, set2 s.pcl.bal i bo j a = ∑ a, s.pcl.bal j a := by
      intro j
      by_cases hj : j = i
      · subst hj; simp only [set2_apply, if_true]; exact sum_move sp.hbo
      · simp only [set2_apply, if_neg hj]
    intro j
    rw [h2 j, h3 j, h1 j, settle_sum sp.hsettle j, h4 j]
    rfl
  · obtain ⟨bal, bal', os, ts, t', pools, xs, old, book', c, sp⟩ := sync_spec hx
    obtain ⟨h1, h2⟩ := sp.hrenew.sum hr.inv (hq _ rfl)
    have hset := sp.hsettle
    rw [← process_settle sp.hne] at hset
    intro i
    rw [h2 i, sp.hc.1, h1 i, settle_sum hset i]
    rfl
  · rcases (config_spec hx).2 with ⟨_, bal, book, _, hcan, hs⟩ | ⟨_, _, hs⟩
    · have hkn : Known s := by
        rcases hr.inv.know with h | ⟨k, hk, hn⟩
        · exact h
        · exact absurd hn (cancelAll_found hcan k hk)
      rw [hkn] at hcan
      obtain ⟨hb, hbal⟩ := cancelAll_all hr.inv.nodup hcan
      intro i
      rw [hs]
      unfold worth
      dsimp only
      rw [hbal i, sum_credit, hb]
      simp [onBook]
    · intro i; rw [hs]; rfl
  · intro i
    unfold worth
    dsimp only
    congr 1
    cases x with
    | send j u v n =>
      unfold PCL.exec at hx
      simp only [bind_ok_iff, require_ok, exists_const, Except.ok.injEq] at hx
      obtain ⟨_, b, hb, rfl⟩ := hx
      dsimp only
      by_cases hj : i = j
      · subst hj; simp only [if_true]; exact sum_move hb
      · simp only [if_neg hj]
    | sendLp u v n =>
      unfold PCL.exec at hx
      simp only [bind_ok_iff, require_ok, exists_const, Except.ok.injEq] at hx
      obtain ⟨_, b, hb, rfl⟩ := hx
      rfl
    | update u v =>
      unfold PCL.exec at hx
      simp only [bind_ok_iff, PCL.authorised, require_ok, exists_const, Except.ok.injEq] at hx
      obtain ⟨_, _, _, _, rfl⟩ := hx
      rfl
    | promote u a g t =>
      unfold PCL.exec at hx
      simp only [bind_ok_iff, PCL.authorised, require_ok, exists_const, Except.ok.injEq] at hx
      obtain ⟨_, _, _, _, rfl⟩ := hx
      rfl
    | stop u =>
      unfold PCL.exec at hx
      simp only [bind_ok_iff, PCL.authorised, require_ok, exists_const, Except.ok.injEq] at hx
      obtain ⟨_, _, _, _, rfl⟩ := hx
      rfl
    | enableShare u bps r =>
      unfold PCL.exec at hx
      simp only [bind_ok_iff, PCL.authorised, require_ok, exists_const, Except.ok.injEq] at hx
      obtain ⟨_, _, _, rfl⟩ := hx
      rfl
    | disableShare u =>
      unfold PCL.exec at hx
      simp only [bind_ok_iff, PCL.authorised, require_ok, exists_const, Except.ok.injEq] at hx
      obtain ⟨_, _, rfl⟩ := hx
      rfl
    | provide _ _ _ _ _ => cases hax
    | withdraw _ _ _ => cases hax
    | swap _ _ _ _ _ _ _ => cases hax
  · exact absurd rfl (hf k n p)

/-! ## C110: LP tokens -/

/-- What a transaction does to the LP ledger. -/
theorem exec_lp {su : Setup} {me : A} {now : Nat} {fo : A} {s s' : State A} {o : Op A}
    (h : exec su me now fo s o = .ok s') :
    (s'.pcl.lp = s.pcl.lp ∧ s'.pcl.supply = s.pcl.supply) ∨
    (∃ rc locked share, s'.pcl.lp = credit (credit s.pcl.lp me locked) rc share ∧
      s'.pcl.supply = s.pcl.supply + locked + share ∧ (s.pcl.supply = 0 → locked = 1000)) ∨
    (∃ u n, u ≠ me ∧ debit s.pcl.lp u n = .ok s'.pcl.lp ∧ n ≤ s.pcl.supply ∧ s'.pcl.supply = s.pcl.supply - n) ∨
    (∃ u v n, u ≠ me ∧ move s.pcl.lp u v n = .ok s'.pcl.lp ∧ s'.pcl.supply = s.pcl.supply) := by
  obtain ⟨hsig, hx⟩ := exec_cases h
  rcases hx with ⟨u, d, t, m, r, e', sh, rfl, hx⟩ | ⟨u, n, m, e', x, rfl, hx⟩ | ⟨u, i, n, b, m, r, e', x, rfl, hx⟩ |
    ⟨u, e', rfl, hx⟩ | ⟨u, v, rfl, hx⟩ | ⟨x, c, rfl, hax, hx, rfl⟩ | ⟨k, n, p, rfl, hx⟩
  · obtain ⟨b0, bal, bal', total, os, ts, t', pools, dd, x, xs, pool, pool', shareD, book', c, sp⟩ := provide_spec hx
    exact Or.inr (Or.inl ⟨r, _, sh, sp.hlp, sp.hsup.1, fun h0 => if_pos h0⟩)
  · obtain ⟨bal, bal', os, ts, t', pools, xs, pool, rr, book', c, fin, sp⟩ := withdraw_spec hx
    exact Or.inr (Or.inr (Or.inl ⟨u, n, fun hh => hsig (by rw [hh]; rfl), sp.hlp, sp.hsup.1, sp.hsup.2⟩))
  · obtain ⟨bo, bal, bal', os, ts, t', pools, xs, pool, off, fs, old, rr, out, book', c, l1, l2, sp⟩ := swap_spec hx
    exact Or.inl ⟨sp.hrest.2.2.2.1, sp.hrest.2.2.2.2⟩
  · obtain ⟨bal, bal', os, ts, t', pools, xs, old, book', c, sp⟩ := sync_spec hx
    exact Or.inl ⟨sp.hrest.2.2.2.1, sp.hrest.2.2.2.2⟩
  · rcases (config_spec hx).2 with ⟨_, bal, book, _, hcan, hs⟩ | ⟨_, _, hs⟩ <;> rw [hs] <;> exact Or.inl ⟨rfl, rfl⟩
  · obtain ⟨hs, hy⟩ := PCL.exec_lp hx
    rcases hy with hy | ⟨rc, l, sh, h1, h2, h3⟩ | ⟨n, h1, h2, h3⟩ | ⟨v, n, h1, h2⟩
    · exact Or.inl hy
    · exact Or.inr (Or.inl ⟨rc, l, sh, h1, h2, h3⟩)
    · exact Or.inr (Or.inr (Or.inl ⟨_, n, hs, h1, h2, h3⟩))
    · exact Or.inr (Or.inr (Or.inr ⟨_, v, n, hs, h1, h2⟩))
  · simp only [fill, bind_ok_iff, Except.ok.injEq] at hx
    obtain ⟨_, _, _, _, rfl⟩ := hx
    exact Or.inl ⟨rfl, rfl⟩

/-- The invariant of C110. -/
def LpInv [Fintype A] (me : A) (s : State A) : Prop :=
  s.pcl.supply = ∑ a, s.pcl.lp a ∧ (s.pcl.supply = 0 ∨ 1000 ≤ s.pcl.lp me)

theorem lpInv_step [Fintype A] {su : Setup} {me : A} {now : Nat} {fo : A} {s s' : State A} {o : Op A}
    (hi : LpInv me s) (h : exec su me now fo s o = .ok s') :
    LpInv me s' ∧ (s.pcl.supply ≠ 0 → s'.pcl.supply ≠ 0) ∧ s.pcl.lp me ≤ s'.pcl.lp me := by
  obtain ⟨h1, h2⟩ := hi
  have hle := le_sum s'.pcl.lp me
  rcases exec_lp h with ⟨e1, e2⟩ | ⟨rc, locked, share, e1, e2, e3⟩ | ⟨u, n, hu, e1, e2, e3⟩ | ⟨u, v, n, hu, e1, e2⟩
  · refine ⟨⟨by rw [e1, e2]; exact h1, by rw [e1, e2]; exact h2⟩, by rw [e2]; exact id, by rw [e1]⟩
  · have hm : s.pcl.lp me ≤ s'.pcl.lp me ∧ s.pcl.lp me + locked ≤ s'.pcl.lp me := by
      rw [e1, credit_apply, credit_apply]
      simp only [if_true]
      split <;> omega
    refine ⟨⟨?_, ?_⟩, by omega, hm.1⟩
    · rw [e1, sum_credit, sum_credit, e2]; omega
    · right
      rcases h2 with h2 | h2
      · have := e3 h2; omega
      · omega
  · have hs := sum_debit e1
    have hm : s'.pcl.lp me = s.pcl.lp me := by rw [debit_apply e1 me, if_neg (fun hh => hu hh.symm)]
    refine ⟨⟨by omega, ?_⟩, ?_, by rw [hm]⟩
    · rcases h2 with h2 | h2
      · left; omega
      · right; omega
    · intro h0
      have : 1000 ≤ s.pcl.lp me := h2.resolve_left h0
      omega
  · have hs := sum_move e1
    have hm : s.pcl.lp me ≤ s'.pcl.lp me := move_other (fun hh => hu hh.symm) e1
    refine ⟨⟨by omega, ?_⟩, by omega, hm⟩
    rcases h2 with h2 | h2
    · left; omega
    · right; omega

theorem lpInv_run [Fintype A] {su : Setup} {me : A} (es : List (Event A)) {s : State A} (hi : LpInv me s) :
    LpInv me (run su me s es) ∧ (s.pcl.supply ≠ 0 → (run su me s es).pcl.supply ≠ 0) ∧
      s.pcl.lp me ≤ (run su me s es).pcl.lp me := by
  induction es generalizing s with
  | nil => exact ⟨hi, id, le_refl _⟩
  | cons e rest ih =>
    have hrun : run su me s (e :: rest) = run su me (step su me s e) rest := rfl
    rw [hrun]
    have hs : LpInv me (step su me s e) ∧ (s.pcl.supply ≠ 0 → (step su me s e).pcl.supply ≠ 0) ∧
        s.pcl.lp me ≤ (step su me s e).pcl.lp me := by
      unfold step
      cases hx : exec su me e.now e.fo s e.op with
      | ok s' => exact lpInv_step hi hx
      | error _ => exact ⟨hi, id, le_refl _⟩
    obtain ⟨i1, i2, i3⟩ := ih hs.1
    exact ⟨i1, fun h => i2 (hs.2.1 h), le_trans hs.2.2 i3⟩

/-- **C110.** In every history the LP supply is the sum of the LP balances; once liquidity was provided, the 1000 LP
tokens locked in the pair stay there and the supply never returns to zero. -/
theorem C110_lp_supply_and_locked_minimum [Fintype A] (su : Setup) (me : A) (s : State A) (es : List (Event A))
    (hr : Reachable su me s) :
    s.pcl.supply = ∑ a, s.pcl.lp a ∧ (s.pcl.supply = 0 ∨ 1000 ≤ s.pcl.lp me) ∧
    (s.pcl.supply ≠ 0 → (run su me s es).pcl.supply ≠ 0 ∧ s.pcl.lp me ≤ (run su me s es).pcl.lp me) := by
  have hi : LpInv me s := by
    obtain ⟨_, _, _, _, _, _, _, _, _, _, _, s0, es0, h0, rfl⟩ := hr
    refine (lpInv_run es0 ?_).1
    simp only [create, PCL.create, bind_ok_iff, require_ok, exists_const, Except.ok.injEq] at h0
    obtain ⟨_, _, _, ⟨_, _, _, _, _, rfl⟩, rfl⟩ := h0
    exact ⟨by simp, Or.inl rfl⟩
  have h2 := (lpInv_run (su := su) es hi).2
  exact ⟨hi.1, hi.2, fun h => ⟨h2.1 h, h2.2⟩⟩

/-- Non-vacuity: the state after the deposit of the example. -/
example : okAnd demo (fun s =>
    let z := run demoSetup 0 s demoStart
    decide (z.pcl.supply = 1000000000 ∧ z.pcl.lp 0 = 1000 ∧ z.pcl.lp 2 = 999999000) &&
    decide (worth z false = 3 * 10 ^ 15 ∧ onBook z.book false = 25000000)) = true := by
  decide +kernel

end Verif.Duality
