import Verif.Duality.Book

/-!
# The pair's coins on the orderbook: C100, C103 (partial), C108

Specification: `held` (all coins of the pair, wherever they are), `Known` and `Missing` (`Verif.Duality.Book`).
-/

namespace Verif.Duality

open Verif.PCL (Setup FeeInfo Pool demoSetup demoParams sendOpt_total sendOpt_other move_other)
open Verif.XYK (sendOpt)

variable {A : Type} [DecidableEq A]

/-- The pair's coins of asset `i` in these orders. -/
def onBook (book : List (Nat × Order)) (i : Bool) : Nat := (book.map fun x => x.2.coin i).sum

/-- All coins of asset `i` the pair owns: its balance, the unsold coins of its orders and the coins received for
the sold ones. -/
def held (me : A) (s : State A) (i : Bool) : Nat := s.pcl.bal i me + onBook s.book i

/-! ## Reading and cancelling all orders -/

theorem kvGet_none_of_not_mem {k : Nat} {l : List (Nat × Order)} (h : k ∉ l.map (·.1)) : kvGet k l = none := by
  induction l with
  | nil => rfl
  | cons y l ih =>
    simp only [List.map_cons, List.mem_cons, not_or] at h
    unfold kvGet
    rw [if_neg h.1]; exact ih h.2

theorem kvRemove_of_not_mem {k : Nat} {l : List (Nat × Order)} (h : k ∉ l.map (·.1)) : kvRemove k l = l := by
  unfold kvRemove
  rw [List.filter_eq_self]
  intro x hx
  have : x.1 ≠ k := fun e => h (e ▸ List.mem_map_of_mem hx)
  simpa using this

/-- Reading all orders of the book. -/
theorem simAll_all {pre : Option (Bool → Nat)} {book : List (Nat × Order)} {os : List Order}
    (hn : (book.map (·.1)).Nodup) (h : simAll pre book (book.map (·.1)) = .ok os) : os = book.map (·.2) := by
  have key : ∀ (l pref : List (Nat × Order)) (os : List Order), ((pref ++ l).map (·.1)).Nodup →
      simAll pre (pref ++ l) (l.map (·.1)) = .ok os → os = l.map (·.2) := by
    intro l
    induction l with
    | nil =>
      intro pref os _ h
      simp only [List.map_nil, simAll, Except.ok.injEq] at h
      simp [← h]
    | cons y l ih =>
      intro pref os hn h
      simp only [List.map_cons, simAll, simCancel, bind_ok_iff, orErr_ok, require_ok, exists_const,
        Except.ok.injEq] at h
      obtain ⟨o, ⟨_, hk, _, _, rfl⟩, os', hos, rfl⟩ := h
      have e : pref ++ y :: l = (pref ++ [y]) ++ l := by simp
      have hy : kvGet y.1 (pref ++ y :: l) = some y.2 := by
        have hp : y.1 ∉ pref.map (·.1) := by
          rw [List.map_append, List.nodup_append] at hn
          intro hm
          exact hn.2.2 _ hm y.1 (by simp) rfl
        clear hk hn e hos ih
        induction pref with
        | nil => simp [kvGet]
        | cons z pref ih2 =>
          simp only [List.map_cons, List.mem_cons, not_or] at hp
          rw [List.cons_append]
          unfold kvGet
          rw [if_neg hp.1]
          exact ih2 hp.2
      rw [hk] at hy
      cases hy
      rw [List.map_cons]
      congr 1
      rw [e] at hos hn
      exact ih _ _ hn hos
  exact key book [] os (by simpa using hn) (by simpa using h)

/-- Cancelling all orders of the book. -/
theorem cancelAll_all {me : A} {bal bal' : Bool → A → Nat} {book book' : List (Nat × Order)}
    (hn : (book.map (·.1)).Nodup) (h : cancelAll me (book.map (·.1)) bal book = .ok (bal', book')) :
    book' = [] ∧ ∀ i, bal' i = credit (bal i) me (onBook book i) := by
  induction book generalizing bal with
  | nil =>
    simp only [List.map_nil, cancelAll, Except.ok.injEq, Prod.mk.injEq] at h
    obtain ⟨rfl, rfl⟩ := h
    refine ⟨rfl, fun i => ?_⟩
    funext a
    rw [credit_apply]; simp [onBook]
  | cons y l ih =>
    simp only [List.map_cons, cancelAll, bind_ok_iff, orErr_ok] at h
    obtain ⟨o, ho, h⟩ := h
    have ho' : o = y.2 := by
      simp only [kvGet, if_true, Option.some.injEq] at ho
      exact ho.symm
    rw [List.map_cons, List.nodup_cons] at hn
    have hr : kvRemove y.1 (y :: l) = l := by
      unfold kvRemove
      rw [List.filter_cons]
      simp only [ne_eq, not_true_eq_false, decide_false, Bool.false_eq_true, if_false]
      exact kvRemove_of_not_mem hn.1
    rw [hr] at h
    obtain ⟨h1, h2⟩ := ih hn.2 h
    refine ⟨h1, fun i => ?_⟩
    rw [h2 i, ho']
    funext a
    simp only [credit_apply, onBook, List.map_cons, List.sum_cons]
    split <;> omega

/-! ## Placing orders -/

/-- What placing does: keys grow, balances of others stay. -/
theorem placeAll_keys {me : A} {out : Nat → Outcome} : ∀ {ms : List Msg} {n : Nat} {s p : Placing A},
    placeAll me out n ms s = .ok p →
      ∃ new, p.book = s.book ++ new ∧ new.length ≤ ms.length ∧ (new.map (·.1)).Nodup ∧ s.next ≤ p.next ∧
        (∀ x ∈ new, s.next ≤ x.1 ∧ x.1 < p.next) ∧ ∀ i a, a ≠ me → p.bal i a = s.bal i a := by
  intro ms
  induction ms with
  | nil =>
    intro n s p h
    simp only [placeAll, Except.ok.injEq] at h
    subst h
    exact ⟨[], by simp, by simp, by simp, le_refl _, by simp, fun _ _ _ => rfl⟩
  | cons m ms ih =>
    intro n s p h
    simp only [placeAll, bind_ok_iff] at h
    obtain ⟨s1, h1, h⟩ := h
    obtain ⟨new, e1, e2, e3, e4, e5, e6⟩ := ih h
    simp only [place, bind_ok_iff] at h1
    obtain ⟨l, hl, h1⟩ := h1
    have hoth : ∀ i a, a ≠ me → set2 s.bal m.sell l i a = s.bal i a := by
      intro i a ha
      rw [set2_apply]
      split
      · rename_i hi
        rw [debit_apply hl, if_neg ha, hi]
      · rfl
    cases ho : out n with
    | refused => rw [ho] at h1; cases h1
    | executed got =>
      rw [ho] at h1
      simp only [Except.ok.injEq] at h1
      subst h1
      refine ⟨new, e1, by simp; omega, e3, e4, e5, ?_⟩
      intro i a ha
      rw [e6 i a ha]
      show set2 (set2 s.bal m.sell l) (!m.sell) _ i a = _
      rw [set2_apply]
      split
      · rename_i hi
        rw [credit_apply, if_neg ha, hi]
      · exact hoth i a ha
    | rests sold got =>
      rw [ho] at h1
      simp only [bind_ok_iff, csub_ok, Except.ok.injEq] at h1
      obtain ⟨left, _, rfl⟩ := h1
      simp only at e1 e4 e5 e6
      refine ⟨(s.next, ⟨m.sell, left, got⟩) :: new, by rw [e1]; simp, by simp; omega, ?_, by omega, ?_, ?_⟩
      · rw [List.map_cons, List.nodup_cons]
        refine ⟨?_, e3⟩
        intro hm
        obtain ⟨x, hx, hx2⟩ := List.mem_map.1 hm
        have := (e5 x hx).1
        simp only at hx2
        omega
      · intro x hx
        rcases List.mem_cons.1 hx with rfl | hx
        · exact ⟨le_refl _, by simp only; omega⟩
        · have := e5 x hx
          exact ⟨by omega, this.2⟩
      · intro i a ha
        rw [e6 i a ha]
        exact hoth i a ha

/-- When no order is executed at once, all of them stand, untouched. -/
theorem placeAll_quiet {me : A} {out : Nat → Outcome} (hq : ∀ n, out n = .rests 0 0) :
    ∀ {ms : List Msg} {n : Nat} {s p : Placing A}, placeAll me out n ms s = .ok p →
      p.book.map (·.2) = s.book.map (·.2) ++ ms.map (fun m => ⟨m.sell, m.amount, 0⟩) ∧
      ∀ i, p.bal i me + onBook p.book i = s.bal i me + onBook s.book i := by
  intro ms
  induction ms with
  | nil =>
    intro n s p h
    simp only [placeAll, Except.ok.injEq] at h
    subst h
    exact ⟨by simp, fun i => rfl⟩
  | cons m ms ih =>
    intro n s p h
    simp only [placeAll, bind_ok_iff] at h
    obtain ⟨s1, h1, h⟩ := h
    obtain ⟨e1, e2⟩ := ih h
    simp only [place, bind_ok_iff] at h1
    obtain ⟨l, hl, h1⟩ := h1
    rw [hq n] at h1
    simp only [bind_ok_iff, csub_ok, Except.ok.injEq] at h1
    obtain ⟨left, ⟨_, rfl⟩, rfl⟩ := h1
    refine ⟨by rw [e1]; simp, ?_⟩
    intro i
    rw [e2 i]
    have hle := debit_le hl
    have hd := debit_apply hl me
    rw [if_pos rfl] at hd
    show set2 s.bal m.sell l i me + onBook (s.book ++ [(s.next, ⟨m.sell, m.amount - 0, 0⟩)]) i = _
    have hb : onBook (s.book ++ [(s.next, ⟨m.sell, m.amount - 0, 0⟩)]) i =
        onBook s.book i + (if i = m.sell then m.amount else 0) := by
      simp [onBook, Order.coin]
    rw [hb, set2_apply]
    by_cases hi : i = m.sell
    · rw [if_pos hi, if_pos hi, hd, hi]; omega
    · rw [if_neg hi, if_neg hi]; omega

/-! ## The invariant of all histories -/

/-- Order keys are unique and below the next one; the pair's list is the book, or contains an order that is gone;
it is empty while the orderbook is disabled. -/
structure Inv (s : State A) : Prop where
  nodup : (s.book.map (·.1)).Nodup
  bound : ∀ x ∈ s.book, x.1 < s.next
  set : SettingsOk s.ob
  dis : s.ob.enabled = false → s.ob.orders = []
  know : Known s ∨ Missing s

/-- A renewal only happens when the pair knows its orders. -/
theorem Renew.known {su : Setup} {me : A} {s : State A} {now : Nat} {e : Env A} {s' : State A} {os : List Order}
    {ts : List Trade} {bal bal' : Bool → A → Nat} {book' : List (Nat × Order)} {c : PCL.State A}
    {xs : Bool → Nat} {fin : State A} (r : Renew su me s now e s' os ts bal bal' book' c xs fin) (hi : Inv s) :
    Known s := by
  rcases hi.know with h | ⟨k, hk, hn⟩
  · exact h
  · exact absurd hn (simAll_found r.hos k hk)

/-- In a renewal all orders are read and cancelled; `os` are their states. -/
theorem Renew.all {su : Setup} {me : A} {s : State A} {now : Nat} {e : Env A} {s' : State A} {os : List Order}
    {ts : List Trade} {bal bal' : Bool → A → Nat} {book' : List (Nat × Order)} {c : PCL.State A}
    {xs : Bool → Nat} {fin : State A} (r : Renew su me s now e s' os ts bal bal' book' c xs fin) (hi : Inv s) :
    os = s.book.map (·.2) ∧ book' = [] ∧ (∀ i, bal' i = credit (bal i) me (onBook s.book i)) ∧
    ∀ i, inOrders os i = onBook s.book i := by
  have hk := r.known hi
  unfold Known at hk
  have h1 := r.hos
  have h2 := r.hcancel
  rw [hk] at h1 h2
  have e1 := simAll_all hi.nodup h1
  obtain ⟨e2, e3⟩ := cancelAll_all hi.nodup h2
  refine ⟨e1, e2, e3, fun i => ?_⟩
  rw [e1]
  simp only [inOrders, onBook, List.map_map]
  rfl

theorem ladder_length {n : Nat} {z : Bool → Nat} {ms : List Msg} (h : Ladder n z ms) : ms.length = 2 * n := by
  have h0 := h.1 false
  have h1 := h.1 true
  have : ms.length = (ms.filter fun m => decide (m.sell = false)).length +
      (ms.filter fun m => decide (m.sell = true)).length := by
    clear h h0 h1
    induction ms with
    | nil => rfl
    | cons m ms ih =>
      rw [List.filter_cons, List.filter_cons, List.length_cons, ih]
      cases m.sell <;> simp <;> omega
  omega

/-- The end of a transaction that cancelled everything: the new book is known, or nothing was posted. -/
theorem finish_known {su : Setup} {me : A} {ob : OB A} {next now : Nat} {c : PCL.State A}
    {xs : Bool → Nat} {out : Nat → Outcome} {s' : State A} (hnum : ob.number ≤ 15)
    (h : finish su me ob next now c [] xs out = .ok s') :
    ((s'.book.map (·.1)).Nodup ∧ ∀ x ∈ s'.book, x.1 < s'.next) ∧
    ((Known s' ∧ ob.enabled = true) ∨ (s'.book = [] ∧ s'.ob.orders = ob.orders)) := by
  obtain ⟨ob1, ms, pre, p, sp⟩ := finish_spec h
  obtain ⟨new, e1, e2, e3, e4, e5, _⟩ := placeAll_keys sp.hplace
  rw [List.nil_append] at e1
  rw [sp.hbook, sp.hnext, e1]
  refine ⟨⟨e3, fun x hx => (e5 x hx).2⟩, ?_⟩
  have hsame := deploy_same sp.hdep
  rcases sp.hob with ⟨hm, hob⟩ | ⟨hm, hob⟩
  · right
    have : new = [] := by
      rw [hm] at e2; exact List.length_eq_zero_iff.1 (Nat.le_zero.1 e2)
    refine ⟨this, ?_⟩
    rw [hob, hsame]
  · left
    rcases deploy_spec sp.hdep with h0 | ⟨hen, z, _, hl, _, _⟩
    · exact absurd h0 hm
    · refine ⟨?_, hen⟩
      unfold Known
      rw [callback_same hob, sp.hbook, e1]
      apply List.take_of_length_le
      have := ladder_length hl
      rw [List.length_map]; omega

theorem inv_step {su : Setup} {me : A} {now : Nat} {fo : A} {s s' : State A} {o : Op A} (hi : Inv s)
    (h : exec su me now fo s o = .ok s') : Inv s' := by
  have hnum : SettingsOk s'.ob := by
    by_cases hne : settings s'.ob = settings s.ob
    · exact settingsOk_of_eq hne hi.set
    · rcases renew_of h with ⟨e, os, ts, bal, bal', book', c, xs, fin, _, r⟩ | ⟨u, v, _, hc⟩ | ⟨a, c, ha, _, _, rfl⟩ |
        ⟨k, n, p, _, hf⟩
      · exact absurd (by rw [r.hob]; exact finish_settings r.hfin) hne
      · rcases (config_spec hc).2 with ⟨_, _, _, hx, _⟩ | ⟨_, hx, _⟩
        · exact validate_spec (updateOB_spec hx).1
        · exact validate_spec (updateOB_spec hx).1
      · exact hi.set
      · simp only [fill, bind_ok_iff, Except.ok.injEq] at hf
        obtain ⟨_, _, _, _, rfl⟩ := hf
        exact hi.set
  rcases renew_of h with ⟨e, os, ts, bal, bal', book', c, xs, fin, _, r⟩ | ⟨u, v, _, hc⟩ | ⟨a, c, _, _, _, rfl⟩ |
    ⟨k, n, p, _, hf⟩
  · obtain ⟨_, hb, _⟩ := r.all hi
    have hf := r.hfin
    rw [hb] at hf
    obtain ⟨⟨h1, h2⟩, h3⟩ := finish_known hi.set.2.1 hf
    have hkn := r.known hi
    rw [← r.hbook] at h1 h2 h3
    rw [← r.hnext] at h2
    have hen : s'.ob.enabled = s.ob.enabled := by
      have := finish_settings r.hfin
      rw [← r.hob] at this
      simp only [settings, Prod.mk.injEq] at this
      exact this.2.2.2.2.2
    refine ⟨h1, h2, hnum, ?_, ?_⟩
    · intro hd
      rcases h3 with ⟨_, h3⟩ | ⟨_, h4⟩
      · rw [hen, h3] at hd; cases hd
      · rw [r.hob, h4]; exact hi.dis (by rw [← hen]; exact hd)
    rcases h3 with ⟨h3, _⟩ | ⟨h3, h4⟩
    · left; unfold Known at h3 ⊢; rw [r.hob, h3, r.hbook]
    · rw [← r.hob] at h4
      cases hs : s.ob.orders with
      | nil => left; unfold Known; rw [h4, hs, h3]; rfl
      | cons k ks => right; exact ⟨k, by rw [h4, hs]; simp, by rw [h3]; rfl⟩
  · rcases (config_spec hc).2 with ⟨_, bal, book, hx, hcan, hs⟩ | ⟨hv, hx, hs⟩
    · have hkn : Known s := by
        rcases hi.know with h | ⟨k, hk, hn⟩
        · exact h
        · exact absurd hn (cancelAll_found hcan k hk)
      rw [hkn] at hcan
      obtain ⟨hb, _⟩ := cancelAll_all hi.nodup hcan
      have hbk : s'.book = [] := by rw [hs]; exact hb
      refine ⟨by rw [hbk]; simp, by rw [hbk]; simp, hnum, fun _ => (updateOB_spec hx).2.1, Or.inl ?_⟩
      unfold Known
      rw [hbk, (updateOB_spec hx).2.1]; rfl
    · have hbk : s'.book = s.book := by rw [hs]
      have hnx : s'.next = s.next := by rw [hs]
      have hor : s'.ob.orders = s.ob.orders := (updateOB_spec hx).2.1
      refine ⟨by rw [hbk]; exact hi.nodup, by rw [hbk, hnx]; exact hi.bound, hnum, ?_, ?_⟩
      · intro hd
        rw [(updateOB_spec hx).2.2.2.2.2] at hd
        rw [hor]
        apply hi.dis
        cases he : v.enable with
        | none => rw [he] at hd; exact hd
        | some b =>
          rw [he] at hd
          cases b
          · exact absurd he hv
          · cases hd
      rcases hi.know with h | ⟨k, hk, hn⟩
      · left; unfold Known; rw [hbk, hor]; exact h
      · right; exact ⟨k, by rw [hor]; exact hk, by rw [hbk]; exact hn⟩
  · exact ⟨hi.nodup, hi.bound, hi.set, hi.dis, hi.know⟩
  · have hkeys : s'.book.map (·.1) = s.book.map (·.1) ∧ s'.next = s.next ∧ s'.ob = s.ob := by
      have hf' := hf
      simp only [fill, bind_ok_iff, Except.ok.injEq] at hf'
      obtain ⟨o, _, left, _, rfl⟩ := hf'
      refine ⟨?_, rfl, rfl⟩
      simp only [List.map_map]
      apply List.map_congr_left
      intro x _
      by_cases hx : x.1 = k <;> simp [Function.comp, hx]
    refine ⟨by rw [hkeys.1]; exact hi.nodup, ?_, hnum, by rw [hkeys.2.2]; exact hi.dis, ?_⟩
    · intro x hx
      have : x.1 ∈ s.book.map (·.1) := by rw [← hkeys.1]; exact List.mem_map_of_mem hx
      obtain ⟨y, hy, hy2⟩ := List.mem_map.1 this
      rw [hkeys.2.1, ← hy2]; exact hi.bound y hy
    · rcases hi.know with h | ⟨k', hk, hn⟩
      · left; unfold Known; rw [hkeys.1, hkeys.2.2]; exact h
      · right; exact ⟨k', by rw [hkeys.2.2]; exact hk, fill_none hf hn⟩

omit [DecidableEq A] in
theorem inv_create {bal : Bool → A → Nat} {u : PCL.PParams} {amp gamma scale now : Nat} {executor : Option A}
    {number : Nat} {minSize : Bool → Nat} {percent adj : Nat} {s : State A}
    (h : create bal u amp gamma scale now executor number minSize percent adj = .ok s) : Inv s := by
  simp only [create, newOB, bind_ok_iff, Except.ok.injEq] at h
  obtain ⟨_, ⟨_, hv, rfl⟩, _, _, rfl⟩ := h
  exact ⟨by simp, by simp, validate_spec hv, fun _ => rfl, Or.inl rfl⟩

theorem inv_run {su : Setup} {me : A} {s : State A} (es : List (Event A)) (hi : Inv s) : Inv (run su me s es) := by
  induction es generalizing s with
  | nil => exact hi
  | cons e rest ih =>
    have hrun : run su me s (e :: rest) = run su me (step su me s e) rest := rfl
    rw [hrun]
    exact ih (commit'_inv (fun s : State A => Inv s) hi (fun s' h => inv_step hi h))

/-- A pair that can occur: created and then used in any way. -/
def Reachable (su : Setup) (me : A) (s : State A) : Prop :=
  ∃ bal u amp gamma scale now executor number minSize percent adj s0 es,
    create bal u amp gamma scale now executor number minSize percent adj = .ok s0 ∧ s = run su me s0 es

theorem Reachable.inv {su : Setup} {me : A} {s : State A} (h : Reachable su me s) : Inv s := by
  obtain ⟨_, _, _, _, _, _, _, _, _, _, _, s0, es, h0, rfl⟩ := h
  exact inv_run es (inv_create h0)

/-- **C103 (partial).** As long as the pair knows its orders, every transaction leaves it knowing exactly the orders
that stand on the orderbook, except one that posts no new orders although the integration is enabled and old ones
were cancelled.  Missing: that exception, after which the pool is frozen (`C103_pool_frozen_forever_violated`). -/
theorem C103_orders_known_partial (su : Setup) (me : A) (now : Nat) (fo : A) (s s' : State A) (o : Op A)
    (hr : Reachable su me s) (hm : ¬ Missing s) (h : exec su me now fo s o = .ok s') :
    Known s' ∨ (s.ob.enabled = true ∧ s.ob.orders ≠ [] ∧ s'.book = [] ∧ o.env.isSome = true) := by
  have hi := hr.inv
  have hi' := inv_step hi h
  have hk : Known s := hi.know.resolve_right hm
  rcases renew_of h with ⟨e, os, ts, bal, bal', book', c, xs, fin, he, r⟩ | ⟨u, v, _, hc⟩ | ⟨a, c, _, _, _, rfl⟩ |
    ⟨k, n, p, _, hf⟩
  · obtain ⟨_, hb, _⟩ := r.all hi
    have hf := r.hfin
    rw [hb] at hf
    obtain ⟨_, h3⟩ := finish_known hi.set.2.1 hf
    rcases h3 with ⟨h3, _⟩ | ⟨h3, h4⟩
    · left; unfold Known at h3 ⊢; rw [r.hob, h3, r.hbook]
    · by_cases ho : s.ob.orders = []
      · left; unfold Known; rw [r.hob, h4, r.hbook, h3, ho]; rfl
      · right
        refine ⟨?_, ho, by rw [r.hbook, h3], by rw [he]; rfl⟩
        cases hen : s.ob.enabled with
        | true => rfl
        | false => exact absurd (hi.dis hen) ho
  · left
    rcases hi'.know with hk' | ⟨k, hk1, hn⟩
    · exact hk'
    · rcases (config_spec hc).2 with ⟨_, bal, book, hx, _, _⟩ | ⟨_, hx, hs⟩
      · rw [(updateOB_spec hx).2.1] at hk1; cases hk1
      · exact absurd ⟨k, by rw [← (updateOB_spec hx).2.1]; exact hk1, by rw [hs] at hn; exact hn⟩ hm
  · exact Or.inl hk
  · left
    simp only [fill, bind_ok_iff, Except.ok.injEq] at hf
    obtain ⟨o, _, left, _, rfl⟩ := hf
    unfold Known at hk ⊢
    simp only [List.map_map]
    rw [hk]
    apply List.map_congr_left
    intro x _
    by_cases hx : x.1 = k <;> simp [Function.comp, hx]

/-- **C103 (partial).** A pair whose orderbook integration is disabled cannot freeze. -/
theorem C103_disabled_never_frozen_partial (su : Setup) (me : A) (s : State A) (hr : Reachable su me s)
    (hd : s.ob.enabled = false) : ¬ Missing s := by
  rintro ⟨k, hk, _⟩
  rw [hr.inv.dis hd] at hk; cases hk

/-- Non-vacuity: the pair of the example knows its four orders after a swap and a fill. -/
example : okAnd demo (fun s =>
    let z := run demoSetup 0 s (demoStart ++ [⟨2000, 1, .swap 3 false (10 ^ 6) none none 3 quiet⟩,
      ⟨2000, 1, .fill 4 (5 * 10 ^ 6) (6 * 10 ^ 6)⟩])
    decide (z.ob.orders = [4, 5, 6, 7]) && decide (z.book.map (·.1) = [4, 5, 6, 7]) &&
      decide (held (A := Acct) 0 z true = 1005002621)) = true := by
  decide +kernel

end Verif.Duality
