import Verif.Registry.Model
import Verif.Base.Listing

/-!
# Properties of the native coin registry
-/

namespace Verif.Registry

variable {A D : Type} [DecidableEq A] [LinearOrder D]

/-! ## Lemmas -/

omit [DecidableEq A] in
theorem kvGet_addLoop {coins coins' : List (D × Nat)} {b : Bool} {l : List (D × Nat)}
    (h : addLoop coins b l = .ok coins') (hn : (l.map (·.1)).Nodup) :
    (∀ d k, (d, k) ∈ l → kvGet d coins' = some k ∧ k ≤ 18) ∧
      (∀ d, d ∉ l.map (·.1) → kvGet d coins' = kvGet d coins) ∧
      (b = true → ∀ d ∈ l.map (·.1), kvGet d coins = none) := by
  induction l generalizing coins with
  | nil =>
    simp only [addLoop, Except.ok.injEq] at h
    subst h
    simp
  | cons x rest ih =>
    obtain ⟨d, k⟩ := x
    simp only [addLoop, bind_ok_iff, require_ok, exists_const] at h
    obtain ⟨h1, h2, h3⟩ := h
    simp only [List.map_cons, List.nodup_cons] at hn
    obtain ⟨a1, a2, a3⟩ := ih h3 hn.2
    refine ⟨?_, ?_, ?_⟩
    · intro d' k' hm
      rcases List.mem_cons.1 hm with he | hm
      · obtain ⟨rfl, rfl⟩ := Prod.mk.inj he
        rw [a2 _ hn.1, kvGet_insert, if_pos rfl]
        exact ⟨rfl, h1⟩
      · exact a1 d' k' hm
    · intro d' hd
      simp only [List.map_cons, List.mem_cons, not_or] at hd
      rw [a2 d' hd.2, kvGet_insert, if_neg hd.1]
    · intro hb d' hd
      simp only [List.map_cons, List.mem_cons] at hd
      rcases hd with rfl | hd
      · rcases h2 with h2 | h2
        · rw [h2] at hb; simp at hb
        · simpa using h2
      · have := a3 hb d' hd
        rw [kvGet_insert] at this
        split at this
        · simp at this
        · exact this

omit [DecidableEq A] in
theorem innerAdd_ok {coins coins' : List (D × Nat)} {b : Bool} {l : List (D × Nat)}
    (h : innerAdd coins b l = .ok coins') :
    (l.map (·.1)).Nodup ∧ (∀ d k, (d, k) ∈ l → kvGet d coins' = some k ∧ k ≤ 18) ∧
      (∀ d, d ∉ l.map (·.1) → kvGet d coins' = kvGet d coins) ∧
      (b = true → ∀ d ∈ l.map (·.1), kvGet d coins = none) := by
  unfold innerAdd at h
  simp only [bind_ok_iff, require_ok, exists_const] at h
  exact ⟨h.1, kvGet_addLoop h.2 h.1⟩

omit [DecidableEq A] in
theorem removeLoop_ok {coins coins' : List (D × Nat)} {l : List D} (h : removeLoop coins l = .ok coins') :
    (∀ d ∈ l, kvGet d coins' = none ∧ (l.Nodup → (kvGet d coins).isSome)) ∧
      (∀ d, d ∉ l → kvGet d coins' = kvGet d coins) := by
  induction l generalizing coins with
  | nil =>
    simp only [removeLoop, Except.ok.injEq] at h
    subst h
    simp
  | cons x rest ih =>
    simp only [removeLoop, bind_ok_iff, require_ok, exists_const] at h
    obtain ⟨h1, h2⟩ := h
    obtain ⟨a1, a2⟩ := ih h2
    refine ⟨?_, ?_⟩
    · intro d hd
      by_cases hr : d ∈ rest
      · refine ⟨(a1 d hr).1, fun hn => ?_⟩
        have h3 := (a1 d hr).2 (List.nodup_cons.1 hn).2
        rw [kvGet_remove] at h3
        split at h3
        · simp at h3
        · exact h3
      · rcases List.mem_cons.1 hd with rfl | hd
        · rw [a2 d hr, kvGet_remove, if_pos rfl]
          exact ⟨rfl, fun _ => h1⟩
        · exact absurd hd hr
    · intro d hd
      simp only [List.mem_cons, not_or] at hd
      rw [a2 d hd.2, kvGet_remove, if_neg hd.1]

theorem run_inv {P : State A D → Prop} (me : A)
    (hstep : ∀ (s : State A D) (a : A) (o : Op A D) (s' : State A D), P s → exec me s a o = .ok s' → P s')
    (ops : List (A × Op A D)) : ∀ s, P s → P (run me s ops) := by
  induction ops with
  | nil => exact fun _ h => h
  | cons x rest ih =>
    obtain ⟨a, o⟩ := x
    intro s h
    exact ih _ (commit'_inv P h fun s' hx => hstep s a o s' h hx)

/-! ## C63 -/

/-- **C63.**  In every reachable state every registered number of decimals is at most 18. -/
theorem C63_decimals_in_range (me owner : A) (bank : D → A → Nat) (ops : List (A × Op A D)) (d : D) (k : Nat)
    (h : decimals (run me (instantiate owner bank) ops) d = some k) : k ≤ 18 := by
  revert d k
  refine run_inv (P := fun s : State A D => ∀ d k, decimals s d = some k → k ≤ 18) me ?_ ops _ ?_
  · intro s a o s' hi hx d k hd
    have added : ∀ {b : Bool} {l : List (D × Nat)}, innerAdd s.coins b l = .ok s'.coins → k ≤ 18 := by
      intro b l hl
      obtain ⟨_, h1, h2, _⟩ := innerAdd_ok hl
      by_cases hm : d ∈ l.map (·.1)
      · obtain ⟨⟨d', k'⟩, hm', rfl⟩ := List.mem_map.1 hm
        obtain ⟨h3, h4⟩ := h1 d' k' hm'
        unfold decimals at hd
        rw [h3] at hd
        simp only [Option.some.injEq] at hd
        omega
      · exact hi d k ((h2 d hm).symm.trans hd)
    cases o with
    | add l =>
      simp only [exec, update, bind_ok_iff, require_ok, exists_const, Except.ok.injEq] at hx
      obtain ⟨_, coins, h1, rfl⟩ := hx
      exact added h1
    | register funds l =>
      simp only [exec, register, bind_ok_iff, require_ok, exists_const, Except.ok.injEq] at hx
      obtain ⟨_, _, _, coins, h1, _, _, _, rfl⟩ := hx
      exact added h1
    | remove l =>
      simp only [exec, remove, bind_ok_iff, require_ok, exists_const, Except.ok.injEq] at hx
      obtain ⟨_, _, coins, h1, rfl⟩ := hx
      obtain ⟨h2, h3⟩ := removeLoop_ok h1
      by_cases hm : d ∈ l
      · unfold decimals at hd
        simp only [(h2 d hm).1] at hd
        simp at hd
      · exact hi d k ((h3 d hm).symm.trans hd)
    | own now m =>
      simp only [exec, bind_ok_iff, Except.ok.injEq] at hx
      obtain ⟨o, _, rfl⟩ := hx
      exact hi d k hd
  · intro d k h
    simp [decimals, instantiate, kvGet] at h

/-- **C63.**  A permissionless registration never changes an existing entry, adds exactly the entries named, and needs
a coin of each denom to be attached. -/
theorem C63_register_only_adds (me : A) (s s' : State A D) (sender : A) (funds l : List (D × Nat))
    (h : exec me s sender (.register funds l) = .ok s') :
    (∀ d k, decimals s d = some k → decimals s' d = some k) ∧
      (∀ d k, decimals s d = none → (decimals s' d = some k ↔ (d, k) ∈ l)) ∧
      (∀ d k, (d, k) ∈ l → ∃ n, (d, n) ∈ funds) := by
  simp only [exec, register, bind_ok_iff, require_ok, exists_const, Except.ok.injEq] at h
  obtain ⟨_, _, hf, coins, h1, _, _, _, rfl⟩ := h
  obtain ⟨hn, a1, a2, a3⟩ := innerAdd_ok h1
  refine ⟨?_, ?_, ?_⟩
  · intro d k hd
    have hm : d ∉ l.map (·.1) := by
      intro hm
      have := a3 rfl d hm
      unfold decimals at hd
      rw [this] at hd
      simp at hd
    exact (a2 d hm).trans hd
  · intro d k hd
    constructor
    · intro hd'
      by_cases hm : d ∈ l.map (·.1)
      · obtain ⟨⟨d', k'⟩, hm', rfl⟩ := List.mem_map.1 hm
        have h3 := (a1 d' k' hm').1
        unfold decimals at hd'
        rw [h3] at hd'
        simp only [Option.some.injEq] at hd'
        rw [← hd']; exact hm'
      · have h3 := a2 d hm
        unfold decimals at hd hd'
        rw [h3, hd] at hd'
        simp at hd'
    · exact fun hm => (a1 d k hm).1
  · intro d k hm
    obtain ⟨⟨d', n⟩, h3, h4⟩ := List.mem_map.1 (hf (d, k) hm)
    simp only at h4
    subst h4
    exact ⟨n, h3⟩

theorem sendAll_apply {bank bank' : D → A → Nat} {src dst : A} {l : List (D × Nat)} (hne : src ≠ dst)
    (h : sendAll bank src dst l = .ok bank') (d : D) (a : A) :
    ((l.filter (fun x => decide (x.1 = d))).map (·.2)).sum ≤ bank d src ∧
    bank' d a = (if a = src then bank d a - ((l.filter (fun x => decide (x.1 = d))).map (·.2)).sum else bank d a) +
      (if a = dst then ((l.filter (fun x => decide (x.1 = d))).map (·.2)).sum else 0) := by
  induction l generalizing bank with
  | nil =>
    simp only [sendAll, Except.ok.injEq] at h
    subst h
    simp
  | cons x rest ih =>
    obtain ⟨d0, n⟩ := x
    simp only [sendAll, bind_ok_iff, require_ok, exists_const] at h
    obtain ⟨_, l1, h1, h2⟩ := h
    obtain ⟨b1, b2⟩ := ih h2
    have hle := move_le h1
    by_cases hd : d0 = d
    · subst hd
      simp only [Function.update_self] at b1 b2
      have e1 := move_apply h1 src
      have e2 := move_apply h1 a
      simp only [if_true] at e1
      rw [if_neg hne] at e1
      simp only [decide_true, List.filter_cons_of_pos, List.map_cons, List.sum_cons]
      refine ⟨by omega, ?_⟩
      rw [b2, e2]
      by_cases ha : a = src
      · subst ha
        simp only [if_true, if_neg hne]
        omega
      · simp only [if_neg ha]
        split <;> omega
    · rw [Function.update_of_ne (Ne.symm hd)] at b1 b2
      simp only [hd, decide_false, Bool.false_eq_true, not_false_eq_true, List.filter_cons_of_neg]
      exact ⟨b1, b2⟩

/-- **C63.**  The coins attached to a registration are all returned: nobody's balance of any denom changes. -/
theorem C63_register_returns_coins (me : A) (s s' : State A D) (sender : A) (funds l : List (D × Nat))
    (hne : sender ≠ me) (h : exec me s sender (.register funds l) = .ok s') (d : D) (a : A) :
    s'.bank d a = s.bank d a := by
  simp only [exec, register, bind_ok_iff, require_ok, exists_const, Except.ok.injEq] at h
  obtain ⟨b1, h1, _, coins, _, _, b2, h2, rfl⟩ := h
  obtain ⟨e0, e1⟩ := sendAll_apply hne h1 d a
  obtain ⟨f0, f1⟩ := sendAll_apply (Ne.symm hne) h2 d a
  simp only
  rw [f1, e1]
  by_cases ha : a = sender
  · subst ha
    simp only [if_true, if_neg hne]
    omega
  · by_cases hm : a = me
    · subst hm
      simp only [if_true, if_neg ha]
      omega
    · simp [ha, hm]

/-- **C63.**  An existing entry changes or disappears only in a transaction of the owner. -/
theorem C63_only_owner_changes_entries (me : A) (s s' : State A D) (sender : A) (o : Op A D)
    (h : exec me s sender o = .ok s') (d : D) (k : Nat) (hd : decimals s d = some k)
    (hc : decimals s' d ≠ some k) : sender = s.own.owner := by
  cases o with
  | add l =>
    simp only [exec, update, bind_ok_iff, require_ok, exists_const] at h
    exact h.1
  | register funds l => exact absurd ((C63_register_only_adds me s s' sender funds l h).1 d k hd) hc
  | remove l =>
    simp only [exec, remove, bind_ok_iff, require_ok, exists_const] at h
    exact h.1
  | own now m =>
    simp only [exec, bind_ok_iff, Except.ok.injEq] at h
    obtain ⟨o, _, rfl⟩ := h
    exact absurd hd hc

/-- **C63.**  The owner's additions set exactly the values named and leave all other entries alone; removals remove
exactly the entries named, all of which must exist. -/
theorem C63_owner_changes_exact (me : A) (s s' : State A D) (sender : A) :
    (∀ l, exec me s sender (.add l) = .ok s' →
      (∀ d k, (d, k) ∈ l → decimals s' d = some k) ∧
        ∀ d, d ∉ l.map (·.1) → decimals s' d = decimals s d) ∧
    (∀ l, exec me s sender (.remove l) = .ok s' →
      ∀ d, (d ∈ l → decimals s' d = none ∧ (decimals s d).isSome) ∧ (d ∉ l → decimals s' d = decimals s d)) := by
  refine ⟨fun l h => ?_, fun l h => ?_⟩
  · simp only [exec, update, bind_ok_iff, require_ok, exists_const, Except.ok.injEq] at h
    obtain ⟨_, coins, h1, rfl⟩ := h
    obtain ⟨_, a1, a2, _⟩ := innerAdd_ok h1
    exact ⟨fun d k hm => (a1 d k hm).1, a2⟩
  · simp only [exec, remove, bind_ok_iff, require_ok, exists_const, Except.ok.injEq] at h
    obtain ⟨_, hn, coins, h1, rfl⟩ := h
    obtain ⟨a1, a2⟩ := removeLoop_ok h1
    exact fun d => ⟨fun hm => ⟨(a1 d hm).1, (a1 d hm).2 hn⟩, a2 d⟩

/-- **C63.**  Requests naming a denom twice are refused. -/
theorem C63_duplicates_refused (me : A) (s : State A D) (sender : A) (funds l : List (D × Nat)) (r : List D) :
    (¬ (l.map (·.1)).Nodup → (∃ e, exec me s sender (.add l) = .error e) ∧
      ∃ e, exec me s sender (.register funds l) = .error e) ∧
    (¬ r.Nodup → ∃ e, exec me s sender (.remove r) = .error e) := by
  refine ⟨fun hn => ⟨?_, ?_⟩, fun hn => ?_⟩
  · cases hx : exec me s sender (.add l) with
    | error e => exact ⟨e, rfl⟩
    | ok s' =>
      simp only [exec, update, bind_ok_iff, require_ok, exists_const] at hx
      obtain ⟨_, coins, h1, _⟩ := hx
      exact absurd (innerAdd_ok h1).1 hn
  · cases hx : exec me s sender (.register funds l) with
    | error e => exact ⟨e, rfl⟩
    | ok s' =>
      simp only [exec, register, bind_ok_iff, require_ok, exists_const] at hx
      obtain ⟨_, _, _, coins, h1, _⟩ := hx
      exact absurd (innerAdd_ok h1).1 hn
  · cases hx : exec me s sender (.remove r) with
    | error e => exact ⟨e, rfl⟩
    | ok s' =>
      simp only [exec, remove, bind_ok_iff, require_ok, exists_const] at hx
      exact absurd hx.2.1 hn

omit [DecidableEq A] in
theorem addLoop_sorted {coins coins' : List (D × Nat)} {b : Bool} {l : List (D × Nat)} (hs : KvSorted coins)
    (h : addLoop coins b l = .ok coins') : KvSorted coins' := by
  induction l generalizing coins with
  | nil =>
    simp only [addLoop, Except.ok.injEq] at h
    subst h
    exact hs
  | cons x rest ih =>
    obtain ⟨d, k⟩ := x
    simp only [addLoop, bind_ok_iff, require_ok, exists_const] at h
    exact ih (kvSorted_insert hs) h.2.2

omit [DecidableEq A] in
theorem removeLoop_sorted {coins coins' : List (D × Nat)} {l : List D} (hs : KvSorted coins)
    (h : removeLoop coins l = .ok coins') : KvSorted coins' := by
  induction l generalizing coins with
  | nil =>
    simp only [removeLoop, Except.ok.injEq] at h
    subst h
    exact hs
  | cons x rest ih =>
    simp only [removeLoop, bind_ok_iff, require_ok, exists_const] at h
    exact ih (kvSorted_remove hs) h.2

/-- The stored entries are ordered in every reachable state. -/
theorem run_sorted (me owner : A) (bank : D → A → Nat) (ops : List (A × Op A D)) :
    KvSorted (run me (instantiate owner bank) ops).coins := by
  refine run_inv (P := fun s : State A D => KvSorted s.coins) me ?_ ops _ ?_
  · intro s a o s' hi hx
    cases o with
    | add l =>
      simp only [exec, update, innerAdd, bind_ok_iff, require_ok, exists_const, Except.ok.injEq] at hx
      obtain ⟨_, coins, h1, rfl⟩ := hx
      exact addLoop_sorted hi h1.2
    | register funds l =>
      simp only [exec, register, innerAdd, bind_ok_iff, require_ok, exists_const, Except.ok.injEq] at hx
      obtain ⟨_, _, _, coins, h1, _, _, _, rfl⟩ := hx
      exact addLoop_sorted hi h1.2
    | remove l =>
      simp only [exec, remove, bind_ok_iff, require_ok, exists_const, Except.ok.injEq] at hx
      obtain ⟨_, _, coins, h1, rfl⟩ := hx
      exact removeLoop_sorted hi h1
    | own now m =>
      simp only [exec, bind_ok_iff, Except.ok.injEq] at hx
      obtain ⟨o, _, rfl⟩ := hx
      exact hi
  · simp [instantiate, KvSorted]

/-- **C63.**  A reader of `NativeTokens`, page by page and with any limit but zero, gets every entry exactly once, in
order of the denoms, with what `NativeToken` answers for it.  A page has at most `limit` entries, 50 by default. -/
theorem C63_listing_complete (me owner : A) (bank : D → A → Nat) (ops : List (A × Op A D)) (limit : Option Nat)
    (hl : limit ≠ some 0) (n : Nat) (hn : (run me (instantiate owner bank) ops).coins.length ≤ n) :
    let s := run me (instantiate owner bank) ops
    let l := readPages (fun a => list s a limit) n none
    (l.map (·.1)).Pairwise (· < ·) ∧ (∀ d k, (d, k) ∈ l ↔ decimals s d = some k) ∧
      ∀ a, (list s a limit).length ≤ limit.getD 50 := by
  intro s l
  have hs := run_sorted me owner bank ops
  have e : l = s.coins := by
    show readPages (fun a => kvPage s.coins a (limit.getD 50)) n none = _
    rw [readPages_walk]
    refine kvWalk_complete _ hs _ n ?_ hn
    cases limit with
    | none => decide
    | some k => simp only [ne_eq, Option.some.injEq] at hl; simp only [Option.getD_some]; omega
  rw [e]
  refine ⟨List.pairwise_map.2 hs, fun d k => ⟨fun h => kvGet_of_mem hs h, fun h => kvGet_mem h⟩, fun a => ?_⟩
  unfold list kvPage
  exact List.length_take_le _ _

/-- Owner 1; account 2 registers denoms 5 and 6, fails to change 5; the owner changes 5, adds 7 and removes 6. -/
def demoOps : List (Nat × Op Nat Nat) :=
  [(2, .register [(5, 10), (6, 1)] [(6, 18), (5, 6)]), (2, .register [(5, 1)] [(5, 9)]), (3, .register [] [(8, 1)]),
    (1, .add [(5, 8), (7, 0)]), (1, .remove [6]), (2, .remove [5]), (1, .add [(9, 19)])]

def demoS : State Nat Nat := instantiate 1 (fun _ a => if a = 2 then 100 else 0)

example : decimals (run 0 demoS demoOps) 5 = some 8 ∧ decimals (run 0 demoS demoOps) 7 = some 0 ∧
    decimals (run 0 demoS demoOps) 6 = none ∧ decimals (run 0 demoS demoOps) 9 = none ∧
    decimals (run 0 demoS (demoOps.take 3)) 5 = some 6 ∧ (run 0 demoS demoOps).bank 5 2 = 100 ∧
    readPages (fun a => list (run 0 demoS demoOps) a (some 1)) 5 none = [(5, 8), (7, 0)] := by decide +kernel

example : okAnd (exec 0 demoS 2 (.register [(5, 10), (6, 1)] [(6, 18), (5, 6)])) (fun s =>
    decide (decimals s 6 = some 18)) = true := by decide +kernel

end Verif.Registry
