import Verif.Incentives.Spec

/-!
# Incentives: lemmas on stored schedule pieces

`update_rewards` collects exactly the rates announced by the stored pieces, second by second, and
`incentivize` adds the new schedule's rate to every second it covers.
-/

namespace Verif.Incentives

/-! ## Ordered maps -/

section maps
variable {β : Type}

theorem Ascending.tail {x : Nat × β} {l : List (Nat × β)} (h : Ascending (x :: l)) : Ascending l :=
  (List.pairwise_cons.1 h).2

theorem Ascending.head_lt {x : Nat × β} {l : List (Nat × β)} (h : Ascending (x :: l)) :
    ∀ y ∈ l, x.1 < y.1 := (List.pairwise_cons.1 h).1

theorem Ascending.filter {l : List (Nat × β)} (h : Ascending l) (f : Nat × β → Bool) :
    Ascending (l.filter f) := List.Pairwise.filter f h

theorem Ascending.after {l : List (Nat × β)} (h : Ascending l) (t : Nat) : Ascending (after t l) :=
  h.filter _

theorem mem_after {t : Nat} {l : List (Nat × β)} {x : Nat × β} :
    x ∈ after t l ↔ x ∈ l ∧ t < x.1 := by
  simp [after]

theorem mem_upsert {k : Nat} {v : β} {l : List (Nat × β)} (h : Ascending l) {x : Nat × β} :
    x ∈ upsert k v l ↔ x = (k, v) ∨ (x ∈ l ∧ x.1 ≠ k) := by
  induction l with
  | nil => simp [upsert]
  | cons y r ih =>
    obtain ⟨k', v'⟩ := y
    have ih := ih h.tail
    have hlt := h.head_lt
    unfold upsert
    split
    · rename_i hk
      constructor
      · intro hx
        rcases List.mem_cons.1 hx with rfl | hx
        · left; rfl
        · right
          refine ⟨hx, ?_⟩
          rcases List.mem_cons.1 hx with rfl | hx
          · simp; omega
          · have := hlt x hx; simp at this; omega
      · rintro (rfl | ⟨hx, _⟩)
        · simp
        · exact List.mem_cons_of_mem _ hx
    · split
      · rename_i hk1 hk
        subst hk
        constructor
        · intro hx
          rcases List.mem_cons.1 hx with rfl | hx
          · left; rfl
          · right; have := hlt x hx; simp at this
            exact ⟨List.mem_cons_of_mem _ hx, by omega⟩
        · rintro (rfl | ⟨hx, hne⟩)
          · simp
          · rcases List.mem_cons.1 hx with rfl | hx
            · simp at hne
            · exact List.mem_cons_of_mem _ hx
      · rename_i hk1 hk2
        rw [List.mem_cons, ih]
        constructor
        · rintro (rfl | rfl | ⟨hx, hne⟩)
          · right; exact ⟨by simp, by simp; omega⟩
          · left; rfl
          · right; exact ⟨List.mem_cons_of_mem _ hx, hne⟩
        · rintro (rfl | ⟨hx, hne⟩)
          · right; left; rfl
          · rcases List.mem_cons.1 hx with rfl | hx
            · left; rfl
            · right; right; exact ⟨hx, hne⟩

theorem Ascending.upsert {k : Nat} {v : β} {l : List (Nat × β)} (h : Ascending l) :
    Ascending (upsert k v l) := by
  induction l with
  | nil => simp [Incentives.upsert, Ascending]
  | cons y r ih =>
    obtain ⟨k', v'⟩ := y
    have ih := ih h.tail
    have hlt := h.head_lt
    unfold Incentives.upsert
    split
    · rename_i hk
      refine List.pairwise_cons.2 ⟨?_, h⟩
      intro x hx
      rcases List.mem_cons.1 hx with rfl | hx
      · exact hk
      · have := hlt x hx; simp at this ⊢; omega
    · split
      · rename_i hk1 hk
        subst hk
        exact List.pairwise_cons.2 ⟨hlt, h.tail⟩
      · refine List.pairwise_cons.2 ⟨?_, ih⟩
        intro x hx
        rcases (mem_upsert h.tail).1 hx with rfl | ⟨hx, _⟩
        · simp; omega
        · exact hlt x hx

end maps

/-! ## Rates -/

/-- The rate at `t` is that of the first piece ending at or after `t`. -/
theorem pieceRate_eq {l : List (Nat × Nat)} (h : Ascending l) {t k r : Nat} (hm : (k, r) ∈ l) (ht : t ≤ k)
    (hno : ∀ x ∈ l, t ≤ x.1 → k ≤ x.1) : pieceRate l t = r := by
  induction l with
  | nil => simp at hm
  | cons y rest ih =>
    obtain ⟨k', r'⟩ := y
    have hlt := h.head_lt
    unfold pieceRate
    rcases List.mem_cons.1 hm with he | hm
    · rw [Prod.mk.injEq] at he
      obtain ⟨rfl, rfl⟩ := he
      simp [ht]
    · have hk := hlt _ hm
      simp at hk
      split
      · rename_i h1
        have := hno (k', r') (by simp) h1
        simp at this; omega
      · exact ih h.tail hm (fun x hx => hno x (List.mem_cons_of_mem _ hx))

theorem pieceRate_zero {l : List (Nat × Nat)} {t : Nat} (h : ∀ x ∈ l, x.1 < t) : pieceRate l t = 0 := by
  induction l with
  | nil => rfl
  | cons y rest ih =>
    unfold pieceRate
    have := h y (by simp)
    split
    · omega
    · exact ih (fun x hx => h x (List.mem_cons_of_mem _ hx))

/-- Either no piece ends at or after `t`, or there is a first one. -/
theorem first_piece {l : List (Nat × Nat)} (h : Ascending l) (t : Nat) :
    (∀ x ∈ l, x.1 < t) ∨ ∃ k r, (k, r) ∈ l ∧ t ≤ k ∧ ∀ x ∈ l, t ≤ x.1 → k ≤ x.1 := by
  induction l with
  | nil => left; simp
  | cons y rest ih =>
    obtain ⟨k', r'⟩ := y
    have hlt := h.head_lt
    by_cases h1 : t ≤ k'
    · right
      refine ⟨k', r', by simp, h1, ?_⟩
      intro x hx _
      rcases List.mem_cons.1 hx with rfl | hx
      · exact Nat.le_refl _
      · exact Nat.le_of_lt (hlt x hx)
    · rcases ih h.tail with h2 | ⟨k, r, hm, hk, hno⟩
      · left
        intro x hx
        rcases List.mem_cons.1 hx with rfl | hx
        · simp; omega
        · exact h2 x hx
      · right
        refine ⟨k, r, List.mem_cons_of_mem _ hm, hk, ?_⟩
        intro x hx hx'
        rcases List.mem_cons.1 hx with rfl | hx
        · simp at hx'; omega
        · exact hno x hx hx'

theorem pieceRate_congr {l l' : List (Nat × Nat)} (h : Ascending l) (h' : Ascending l') {t : Nat}
    (hm : ∀ x, t ≤ x.1 → (x ∈ l ↔ x ∈ l')) : pieceRate l t = pieceRate l' t := by
  rcases first_piece h t with h1 | ⟨k, r, hk, htk, hno⟩
  · rw [pieceRate_zero h1, pieceRate_zero]
    intro x hx
    by_contra hc
    have := h1 x ((hm x (by omega)).2 hx)
    omega
  · rw [pieceRate_eq h hk htk hno, pieceRate_eq h' ((hm _ htk).1 hk) htk]
    intro x hx hx'
    exact hno x ((hm x hx').2 hx) hx'

theorem pieceRate_after {l : List (Nat × Nat)} (h : Ascending l) {s t : Nat} (hst : s < t) :
    pieceRate (after s l) t = pieceRate l t := by
  apply pieceRate_congr (h.after s) h
  intro x hx
  rw [mem_after]
  constructor
  · exact fun h => h.1
  · exact fun h => ⟨h, by omega⟩

/-- Sum of a constant over seconds. -/
theorem sum_Ioc_const {f : Nat → Nat} {a b c : Nat} (h : ∀ t ∈ Finset.Ioc a b, f t = c) :
    ∑ t ∈ Finset.Ioc a b, f t = c * (b - a) := by
  rw [Finset.sum_congr rfl h, Finset.sum_const, Nat.card_Ioc, Nat.mul_comm]; rfl

theorem sum_Ioc_split (f : Nat → Nat) {a b c : Nat} (h1 : a ≤ b) (h2 : b ≤ c) :
    ∑ t ∈ Finset.Ioc a c, f t = ∑ t ∈ Finset.Ioc a b, f t + ∑ t ∈ Finset.Ioc b c, f t :=
  (Finset.sum_Ioc_consecutive f h1 h2).symm

theorem sum_Ioc_congr {f g : Nat → Nat} {a b : Nat} (h : ∀ t, a < t → t ≤ b → f t = g t) :
    ∑ t ∈ Finset.Ioc a b, f t = ∑ t ∈ Finset.Ioc a b, g t :=
  Finset.sum_congr rfl (fun t ht => h t (Finset.mem_Ioc.1 ht).1 (Finset.mem_Ioc.1 ht).2)

/-- What the walk over stored schedules collects, and where it stops. -/
theorem walk_spec (now : Nat) : ∀ (l : List (Nat × Nat)) (prev acc : Nat), Ascending l →
    (∀ x ∈ l, prev < x.1) → prev ≤ now →
    (∃ k r q, walk now prev l acc = (acc + ∑ t ∈ Finset.Ioc prev q, pieceRate l t, q, some (k, r)) ∧
        prev ≤ q ∧ q ≤ now ∧ now < k ∧ (k, r) ∈ l ∧ (∀ x ∈ l, q < x.1 → k ≤ x.1)) ∨
    (∃ q, walk now prev l acc = (acc + ∑ t ∈ Finset.Ioc prev now, pieceRate l t, q, none) ∧
        ∀ x ∈ l, x.1 ≤ now) := by
  intro l
  induction l with
  | nil =>
    intro prev acc _ _ _
    right
    refine ⟨prev, ?_, by simp⟩
    simp [walk, pieceRate]
  | cons y rest ih =>
    obtain ⟨k, r⟩ := y
    intro prev acc hasc hgt hle
    have hlt := hasc.head_lt
    have hk := hgt (k, r) (by simp)
    simp only at hk
    unfold walk
    split
    · rename_i hnow
      left
      refine ⟨k, r, prev, by simp, Nat.le_refl _, hle, hnow, by simp, ?_⟩
      intro x hx _
      rcases List.mem_cons.1 hx with rfl | hx
      · exact Nat.le_refl _
      · exact Nat.le_of_lt (hlt x hx)
    · rename_i hnow
      have hsum : ∀ q, k ≤ q → ∑ t ∈ Finset.Ioc prev q, pieceRate ((k, r) :: rest) t =
          r * (k - prev) + ∑ t ∈ Finset.Ioc k q, pieceRate rest t := by
        intro q hq
        rw [sum_Ioc_split _ (Nat.le_of_lt hk) hq]
        congr 1
        · apply sum_Ioc_const
          intro t ht
          rw [Finset.mem_Ioc] at ht
          simp [pieceRate, ht.2]
        · apply sum_Ioc_congr
          intro t h1 _
          simp [pieceRate, Nat.not_le.2 h1]
      rcases ih k (acc + r * (k - prev)) hasc.tail (fun x hx => hlt x hx) (by omega) with
        ⟨k', r', q, hw, hq1, hq2, hk', hm, hno⟩ | ⟨q, hw, hall⟩
      · left
        refine ⟨k', r', q, ?_, by omega, hq2, hk', List.mem_cons_of_mem _ hm, ?_⟩
        · rw [hw, hsum q hq1]; simp [Nat.add_assoc]
        · intro x hx hx'
          rcases List.mem_cons.1 hx with rfl | hx
          · simp at hx'; omega
          · exact hno x hx hx'
      · right
        refine ⟨q, ?_, ?_⟩
        · rw [hw, hsum now (by omega)]; simp [Nat.add_assoc]
        · intro x hx
          rcases List.mem_cons.1 hx with rfl | hx
          · simp; omega
          · exact hall x hx

/-- `update_rewards` on one external reward: it collects exactly what the announced rates give between
the last update and now, and either keeps announcing the same future rates or, when nothing is
announced any more, ends the reward. -/
theorem updExt_spec {now last total : Nat} {l : List (Nat × Nat)} {e : Ext} (hasc : Ascending l)
    (hlast : last ≤ now) (hnext : last ≤ e.next) :
    let c := ∑ t ∈ Finset.Ioc last now, rateAt e l t
    let g := spread total e.index e.orphaned c
    (∃ r n, updExt now last total l e = (some ⟨r, n, g.1, g.2⟩, none) ∧ now < n ∧
        (n = e.next ∨ ∃ r, (n, r) ∈ l) ∧
        ((∀ x ∈ l, x.1 ≤ last ∨ e.next ≤ x.1) → ∀ x ∈ l, x.1 ≤ now ∨ n ≤ x.1) ∧
        ∀ t, now < t → (if t ≤ n then r else pieceRate l t) = rateAt e l t) ∨
    (updExt now last total l e = (none, some g) ∧ (∀ t, now < t → rateAt e l t = 0) ∧
        e.next ≤ now ∧ ∀ x ∈ l, e.next < x.1 → x.1 ≤ now) := by
  intro c g
  unfold updExt
  by_cases hn : e.next ≤ now
  · rw [if_pos hn]
    have hc : c = e.rps * (e.next - last) + ∑ t ∈ Finset.Ioc e.next now, pieceRate l t := by
      show ∑ t ∈ Finset.Ioc last now, rateAt e l t = _
      rw [sum_Ioc_split _ hnext hn]
      congr 1
      · apply sum_Ioc_const
        intro t ht
        rw [Finset.mem_Ioc] at ht
        simp [rateAt, ht.2]
      · apply sum_Ioc_congr
        intro t h1 _
        simp [rateAt, Nat.not_le.2 h1]
    have hpr : ∀ q, ∑ t ∈ Finset.Ioc e.next q, pieceRate (after e.next l) t =
        ∑ t ∈ Finset.Ioc e.next q, pieceRate l t := by
      intro q
      apply sum_Ioc_congr
      intro t h1 _
      exact pieceRate_after hasc h1
    rcases walk_spec now (after e.next l) e.next (e.rps * (e.next - last)) (hasc.after _)
      (fun x hx => (mem_after.1 hx).2) hn with ⟨k, r, q, hw, hq1, hq2, hk, hm, hno⟩ | ⟨q, hw, hall⟩
    · left
      refine ⟨r, k, ?_, hk, Or.inr ⟨r, (mem_after.1 hm).1⟩, ?_, ?_⟩
      · simp only [hw]
        have hcc : e.rps * (e.next - last) + ∑ t ∈ Finset.Ioc e.next q, pieceRate (after e.next l) t +
            r * (now - q) = c := by
          rw [hpr, hc, sum_Ioc_split (a := e.next) (b := q) (c := now) _ hq1 hq2, Nat.add_assoc]
          congr 2
          symm
          apply sum_Ioc_const
          intro t ht
          rw [Finset.mem_Ioc] at ht
          apply pieceRate_eq hasc (mem_after.1 hm).1 (by omega)
          intro x hx hx'
          exact hno x (mem_after.2 ⟨hx, by omega⟩) (by omega)
        rw [hcc]
      · intro _ x hx
        by_cases h1 : e.next < x.1
        · by_cases h2 : q < x.1
          · right; exact hno x (mem_after.2 ⟨hx, h1⟩) h2
          · left; omega
        · left; omega
      · intro t ht
        have hr : rateAt e l t = pieceRate l t := by
          simp [rateAt, show ¬ t ≤ e.next by omega]
        rw [hr]
        split
        · rename_i htk
          symm
          apply pieceRate_eq hasc (mem_after.1 hm).1 htk
          intro x hx hx'
          exact hno x (mem_after.2 ⟨hx, by omega⟩) (by omega)
        · rfl
    · right
      refine ⟨?_, ?_, hn, ?_⟩
      · simp only [hw]
        have hcc : e.rps * (e.next - last) + ∑ t ∈ Finset.Ioc e.next now, pieceRate (after e.next l) t =
            c := by
          rw [hpr, hc]
        rw [hcc]
      · intro t ht
        have hr : rateAt e l t = pieceRate l t := by
          simp [rateAt, show ¬ t ≤ e.next by omega]
        rw [hr]
        apply pieceRate_zero
        intro x hx
        by_cases h1 : e.next < x.1
        · have := hall x (mem_after.2 ⟨hx, h1⟩); omega
        · omega
      · intro x hx hx'
        exact hall x (mem_after.2 ⟨hx, hx'⟩)
  · rw [if_neg hn]
    left
    refine ⟨e.rps, e.next, ?_, by omega, Or.inl rfl, ?_, ?_⟩
    · have hcc : e.rps * (now - last) = c := by
        symm
        apply sum_Ioc_const
        intro t ht
        rw [Finset.mem_Ioc] at ht
        simp [rateAt, show t ≤ e.next by omega]
      simp only [hcc]
      rfl
    · intro h x hx
      rcases h x hx with h1 | h1
      · left; omega
      · right; exact h1
    · intro t ht
      rfl

/-! ## Adding a schedule -/

theorem pieceRate_upsert_same {l : List (Nat × Nat)} (h : Ascending l) {k v t : Nat} (ht : t ≤ k)
    (hno : ∀ x ∈ l, t ≤ x.1 → k ≤ x.1) : pieceRate (upsert k v l) t = v := by
  apply pieceRate_eq h.upsert ((mem_upsert h).2 (Or.inl rfl)) ht
  intro x hx hx'
  rcases (mem_upsert h).1 hx with rfl | ⟨hx, _⟩
  · exact Nat.le_refl _
  · exact hno x hx hx'

theorem pieceRate_upsert_gt {l : List (Nat × Nat)} (h : Ascending l) {k v t : Nat} (ht : k < t) :
    pieceRate (upsert k v l) t = pieceRate l t := by
  apply pieceRate_congr h.upsert h
  intro x hx
  rw [mem_upsert h]
  constructor
  · rintro (rfl | ⟨hx, _⟩)
    · simp at hx; omega
    · exact hx
  · intro hx; exact Or.inr ⟨hx, by omega⟩

theorem saveAll_spec : ∀ (pieces l : List (Nat × Nat)), Ascending l → Ascending pieces →
    Ascending (saveAll pieces l) ∧
    ∀ x, x ∈ saveAll pieces l ↔ (x ∈ pieces ∨ (x ∈ l ∧ ∀ y ∈ pieces, y.1 ≠ x.1)) := by
  intro pieces
  induction pieces with
  | nil => intro l h _; simp [saveAll, h]
  | cons p rest ih =>
    intro l h hp
    have hlt := hp.head_lt
    obtain ⟨h1, h2⟩ := ih (upsert p.1 p.2 l) h.upsert hp.tail
    have hs : saveAll (p :: rest) l = saveAll rest (upsert p.1 p.2 l) := rfl
    rw [hs]
    refine ⟨h1, ?_⟩
    intro x
    rw [h2, mem_upsert h]
    constructor
    · rintro (hx | ⟨rfl | ⟨hx, hne⟩, hno⟩)
      · left; exact List.mem_cons_of_mem _ hx
      · left; simp
      · right
        refine ⟨hx, ?_⟩
        intro y hy
        rcases List.mem_cons.1 hy with rfl | hy
        · exact fun h => hne h.symm
        · exact hno y hy
    · rintro (hx | ⟨hx, hno⟩)
      · rcases List.mem_cons.1 hx with rfl | hx
        · right
          refine ⟨Or.inl rfl, ?_⟩
          intro y hy
          have := hlt y hy; omega
        · left; exact hx
      · right
        refine ⟨Or.inr ⟨hx, ?_⟩, ?_⟩
        · exact fun h => hno p (by simp) h.symm
        · intro y hy; exact hno y (List.mem_cons_of_mem _ hy)

theorem overlap_spec (stop rps : Nat) : ∀ (l : List (Nat × Nat)), Ascending l →
    Ascending (overlap stop rps l) ∧
    ∀ x, x ∈ overlap stop rps l ↔
      ((x.1 < stop ∧ ∃ r, (x.1, r) ∈ l ∧ x.2 = r + rps) ∨ (x.1 = stop ∧ x.2 = pieceRate l stop + rps)) := by
  intro l
  induction l with
  | nil =>
    intro _
    refine ⟨by simp [overlap, Ascending], ?_⟩
    rintro ⟨a, b⟩
    simp [overlap, pieceRate]
  | cons y rest ih =>
    obtain ⟨k, r⟩ := y
    intro h
    have hlt := h.head_lt
    unfold overlap
    split
    · rename_i hk
      refine ⟨by simp [Ascending], ?_⟩
      rintro ⟨a, b⟩
      simp only [List.mem_singleton, Prod.mk.injEq, pieceRate, hk, if_true]
      constructor
      · rintro ⟨rfl, rfl⟩
        right; exact ⟨rfl, rfl⟩
      · rintro (⟨h1, r', hm, _⟩ | h2)
        · rcases List.mem_cons.1 hm with he | hm
          · simp at he; omega
          · have := hlt _ hm; simp at this; omega
        · exact h2
    · rename_i hk
      obtain ⟨h1, h2⟩ := ih h.tail
      refine ⟨List.pairwise_cons.2 ⟨?_, h1⟩, ?_⟩
      · intro x hx
        rcases (h2 x).1 hx with ⟨_, r', hm, _⟩ | ⟨he, _⟩
        · exact hlt (x.1, r') hm
        · simp; omega
      · rintro ⟨a, b⟩
        rw [List.mem_cons, h2]
        simp only [Prod.mk.injEq, pieceRate, hk, if_false]
        constructor
        · rintro (⟨rfl, rfl⟩ | ⟨h3, r', hm, rfl⟩ | h4)
          · left; exact ⟨by omega, r, by simp, rfl⟩
          · left; exact ⟨h3, r', List.mem_cons_of_mem _ hm, rfl⟩
          · right; exact h4
        · rintro (⟨h3, r', hm, rfl⟩ | h4)
          · rcases List.mem_cons.1 hm with he | hm
            · left; simp at he; simp [he]
            · right; left; exact ⟨h3, r', hm, rfl⟩
          · right; right; exact h4

/-- Adding a schedule adds its rate to every second it covers and changes no other second. -/
theorem extend_spec {e : Ext} {l : List (Nat × Nat)} {c : Schedule} {now : Nat} (hasc : Ascending l)
    (hkeys : ∀ x ∈ l, x.1 ≤ now ∨ e.next ≤ x.1) (hnow : now < e.next)
    (hep : c.nextEpochStart ≤ e.next) :
    Ascending (extend e l c).2 ∧
    (∀ t, now < t → rateAt (extend e l c).1 (extend e l c).2 t =
      rateAt e l t + if t ≤ c.stop then c.rps else 0) ∧
    (∀ x ∈ (extend e l c).2, x.1 ≤ now ∨ (extend e l c).1.next ≤ x.1) ∧
    (∀ x ∈ (extend e l c).2, (∃ y ∈ l, y.1 = x.1) ∨ x.1 = c.stop ∨ x.1 = e.next) := by
  unfold extend
  by_cases h1 : c.stop ≤ e.next
  · rw [if_pos h1]
    by_cases h2 : c.stop < e.next
    · simp only [h2, if_true]
      refine ⟨hasc.upsert, ?_, ?_, ?_⟩
      · intro t ht
        simp only [rateAt]
        by_cases h3 : t ≤ c.stop
        · simp [h3, show t ≤ e.next by omega]
        · simp only [h3, if_false, Nat.add_zero]
          by_cases h4 : t ≤ e.next
          · rw [if_pos h4]
            apply pieceRate_upsert_same hasc h4
            intro x hx hx'
            rcases hkeys x hx with h | h
            · omega
            · exact h
          · rw [if_neg h4]
            exact pieceRate_upsert_gt hasc (by omega)
      · intro x hx
        rcases (mem_upsert hasc).1 hx with rfl | ⟨hx, _⟩
        · right; simp; omega
        · rcases hkeys x hx with h | h
          · left; exact h
          · right; show c.stop ≤ x.1; omega
      · intro x hx
        rcases (mem_upsert hasc).1 hx with rfl | ⟨hx, _⟩
        · right; right; rfl
        · left; exact ⟨x, hx, rfl⟩
    · have he : c.stop = e.next := by omega
      simp only [h2, if_false]
      refine ⟨hasc, ?_, ?_, ?_⟩
      · intro t ht
        simp only [rateAt, he]
        split <;> simp
      · intro x hx
        rcases hkeys x hx with h | h
        · left; exact h
        · right; show c.stop ≤ x.1; omega
      · intro x hx; left; exact ⟨x, hx, rfl⟩
  · rw [if_neg h1]
    have hA := hasc.after c.nextEpochStart
    obtain ⟨ho1, ho2⟩ := overlap_spec c.stop c.rps _ hA
    obtain ⟨hs1, hs2⟩ := saveAll_spec _ l hasc ho1
    refine ⟨hs1, ?_, ?_, ?_⟩
    · intro t ht
      simp only [rateAt]
      by_cases h3 : t ≤ e.next
      · simp [h3, show t ≤ c.stop by omega]
      · rw [if_neg h3, if_neg h3]
        by_cases h4 : t ≤ c.stop
        · rw [if_pos h4]
          have hstopin : (c.stop, pieceRate (after c.nextEpochStart l) c.stop + c.rps) ∈
              overlap c.stop c.rps (after c.nextEpochStart l) := (ho2 _).2 (Or.inr ⟨rfl, rfl⟩)
          -- keys of the new map at or after t
          by_cases h5 : ∃ k r, (k, r) ∈ l ∧ t ≤ k ∧ k < c.stop ∧ ∀ x ∈ l, t ≤ x.1 → k ≤ x.1
          · obtain ⟨k, r, hm, htk, hkc, hno⟩ := h5
            rw [pieceRate_eq hasc hm htk hno]
            have hin : (k, r + c.rps) ∈ overlap c.stop c.rps (after c.nextEpochStart l) :=
              (ho2 _).2 (Or.inl ⟨hkc, r, mem_after.2 ⟨hm, by show c.nextEpochStart < k; omega⟩, rfl⟩)
            apply pieceRate_eq hs1 ((hs2 _).2 (Or.inl hin)) htk
            intro x hx hx'
            rcases (hs2 x).1 hx with hx | ⟨hx, _⟩
            · rcases (ho2 x).1 hx with ⟨_, r', hm', _⟩ | ⟨he, _⟩
              · exact hno (x.1, r') (mem_after.1 hm').1 hx'
              · omega
            · exact hno x hx hx'
          · have hno : ∀ x ∈ l, t ≤ x.1 → c.stop ≤ x.1 := by
              intro x hx hx'
              rcases first_piece hasc t with hz | ⟨k, r, hm, htk, hmin⟩
              · have := hz x hx; omega
              · by_contra hc
                exact h5 ⟨k, r, hm, htk, by have := hmin x hx hx'; omega, hmin⟩
            have hrate : pieceRate l t = pieceRate (after c.nextEpochStart l) c.stop := by
              rw [pieceRate_after hasc (by omega)]
              rcases first_piece hasc t with hz | ⟨k, r, hm, htk, hmin⟩
              · rw [pieceRate_zero hz, pieceRate_zero]
                intro x hx; have := hz x hx; omega
              · rw [pieceRate_eq hasc hm htk hmin]
                symm
                apply pieceRate_eq hasc hm (hno _ hm htk)
                intro x hx hx'
                exact hmin x hx (by omega)
            rw [hrate]
            apply pieceRate_eq hs1 ((hs2 _).2 (Or.inl hstopin)) h4
            intro x hx hx'
            rcases (hs2 x).1 hx with hx | ⟨hx, _⟩
            · rcases (ho2 x).1 hx with ⟨_, r', hm', _⟩ | ⟨he, _⟩
              · exact hno (x.1, r') (mem_after.1 hm').1 hx'
              · omega
            · exact hno x hx hx'
        · rw [if_neg h4, Nat.add_zero]
          apply pieceRate_congr hs1 hasc
          intro x hx
          rw [hs2]
          constructor
          · rintro (hx' | ⟨hx', _⟩)
            · rcases (ho2 x).1 hx' with ⟨h6, _⟩ | ⟨h6, _⟩ <;> omega
            · exact hx'
          · intro hx'
            right
            refine ⟨hx', ?_⟩
            intro y hy
            rcases (ho2 y).1 hy with ⟨h6, _⟩ | ⟨h6, _⟩ <;> omega
    · intro x hx
      rcases (hs2 x).1 hx with hx | ⟨hx, _⟩
      · rcases (ho2 x).1 hx with ⟨_, r', hm', _⟩ | ⟨he, _⟩
        · exact hkeys (x.1, r') (mem_after.1 hm').1
        · right; simp; omega
      · exact hkeys x hx
    · intro x hx
      rcases (hs2 x).1 hx with hx | ⟨hx, _⟩
      · rcases (ho2 x).1 hx with ⟨_, r', hm', _⟩ | ⟨he, _⟩
        · left; exact ⟨_, (mem_after.1 hm').1, rfl⟩
        · right; left; exact he
      · left; exact ⟨x, hx, rfl⟩

/-- The unspent tokens computed on removal are the announced rates of all later seconds. -/
theorem upcoming_spec : ∀ (l : List (Nat × Nat)) (prev T : Nat), Ascending l → (∀ x ∈ l, prev < x.1) →
    (∀ x ∈ l, x.1 ≤ T) → upcoming prev l = ∑ t ∈ Finset.Ioc prev T, pieceRate l t := by
  intro l
  induction l with
  | nil => intro prev T _ _ _; simp [upcoming, pieceRate]
  | cons y rest ih =>
    obtain ⟨k, r⟩ := y
    intro prev T h hgt hT
    have hlt := h.head_lt
    have hk := hgt (k, r) (by simp)
    have hkT := hT (k, r) (by simp)
    simp only at hk hkT
    unfold upcoming
    rw [ih k T h.tail (fun x hx => hlt x hx) (fun x hx => hT x (List.mem_cons_of_mem _ hx)),
      sum_Ioc_split _ (Nat.le_of_lt hk) hkT]
    congr 1
    · symm
      apply sum_Ioc_const
      intro t ht
      rw [Finset.mem_Ioc] at ht
      simp [pieceRate, ht.2]
    · apply sum_Ioc_congr
      intro t h1 _
      simp [pieceRate, Nat.not_le.2 h1]

end Verif.Incentives
