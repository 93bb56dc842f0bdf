import Verif.Maker.Settings

/-!
# What collecting sells (C93)
-/

namespace Verif.Maker

variable {P A I : Type} [DecidableEq A] [DecidableEq I]

/-- What a request to collect sells of asset `i`, given the maker's balance `b` of it: nothing if it is not mentioned; the
limit if there is one, positive and below the balance; otherwise the balance. -/
def sold (i : I) (b : Nat) (as : List (I × Option Nat)) : Nat :=
  match as.find? (fun a => a.1 = i) with
  | none => 0
  | some (_, none) => b
  | some (_, some l) => if 0 < l ∧ l < b then l else b

/-- Nothing is ever swapped into asset `i`: it is neither ASTRO nor the default bridge, no bridge leads to it and the
dev fund does not want it. -/
structure NoTarget (s : State P A I) (i : I) : Prop where
  astro : i ≠ s.cfg.astro
  default : s.cfg.defaultBridge ≠ some i
  bridges : ∀ j, s.bridges j ≠ some i
  dev : ∀ d, s.cfg.dev = some d → i ≠ d.asset

omit [DecidableEq A] in
theorem target_ne {mk : Market P I} {s : State P A I} {i src t : I} {br : Bool} (hn : NoTarget s i)
    (h : target mk s src = .ok (t, br)) : t ≠ i := by
  unfold target at h
  split at h
  · rename_i b hb
    rw [bind_ok_iff] at h
    obtain ⟨_, _, h⟩ := h
    simp only [Except.ok.injEq, Prod.mk.injEq] at h
    rw [← h.1]
    exact fun e => hn.bridges src (by rw [hb, e])
  · split at h
    · rename_i d hd
      split at h
      · simp only [Except.ok.injEq, Prod.mk.injEq] at h
        rw [← h.1]
        exact fun e => hn.default (by rw [hd, e])
      · split at h
        · simp only [Except.ok.injEq, Prod.mk.injEq] at h
          rw [← h.1]
          exact hn.astro.symm
        · exact absurd h (by simp)
    · split at h
      · simp only [Except.ok.injEq, Prod.mk.injEq] at h
        rw [← h.1]
        exact hn.astro.symm
      · exact absurd h (by simp)

omit [DecidableEq A] in
theorem swapAssets_sold {mk : Market P I} {me : A} {s : State P A I} {i : I} (hn : NoTarget s i)
    {as : List (I × Option Nat)} (hd : (as.map (·.1)).Nodup) {ms : List (I × I × Nat)} {bs : List I}
    (h : swapAssets mk me s as = .ok (ms, bs)) :
    (∀ m ∈ ms, m.2.1 ≠ i) ∧ i ∉ bs ∧ ((ms.filter fun m => m.1 = i).map (·.2.2)).sum = sold i (s.bal i me) as := by
  induction as generalizing ms bs with
  | nil =>
    simp only [swapAssets, Except.ok.injEq, Prod.mk.injEq] at h
    obtain ⟨rfl, rfl⟩ := h
    exact ⟨by simp, by simp, rfl⟩
  | cons x rest ih =>
    obtain ⟨j, l⟩ := x
    rw [List.map_cons, List.nodup_cons] at hd
    have hrest : j = i → sold i (s.bal i me) rest = 0 := by
      intro e
      subst e
      have : rest.find? (fun a => a.1 = j) = none := by
        rw [List.find?_eq_none]
        intro a ha
        have : a.1 ≠ j := fun e => hd.1 (List.mem_map.2 ⟨a, ha, e⟩)
        simpa using this
      unfold sold
      rw [this]
    have hsold : sold i (s.bal i me) ((j, l) :: rest) =
        if j = i then offered (s.bal i me) l else sold i (s.bal i me) rest := by
      unfold sold
      by_cases hj : j = i
      · rw [List.find?_cons_of_pos (by simpa using hj), if_pos hj]
        cases l with
        | none => rfl
        | some l =>
          simp only [offered]
          by_cases hl : l < s.bal i me ∧ 0 < l
          · rw [if_pos hl, if_pos hl.symm]
          · rw [if_neg hl, if_neg fun h => hl h.symm]
      · rw [List.find?_cons_of_neg (by simpa using hj), if_neg hj]
    unfold swapAssets at h
    simp only at h
    split at h
    · rename_i h0
      obtain ⟨g1, g2, g3⟩ := ih hd.2 h
      refine ⟨g1, g2, ?_⟩
      rw [g3, hsold]
      by_cases hj : j = i
      · rw [if_pos hj, hrest hj, ← hj, h0]
      · rw [if_neg hj]
    · rw [bind_ok_iff] at h
      obtain ⟨⟨t, br⟩, ht, h⟩ := h
      rw [bind_ok_iff] at h
      obtain ⟨⟨ms', bs'⟩, hr, h⟩ := h
      simp only [Except.ok.injEq, Prod.mk.injEq] at h
      obtain ⟨rfl, rfl⟩ := h
      obtain ⟨g1, g2, g3⟩ := ih hd.2 hr
      have hti := target_ne hn ht
      refine ⟨?_, ?_, ?_⟩
      · intro m hm
        rcases List.mem_cons.1 hm with rfl | hm
        · exact hti
        · exact g1 m hm
      · split
        · split
          · exact g2
          · intro hm
            rcases List.mem_cons.1 hm with e | hm
            · exact hti e.symm
            · exact g2 hm
        · exact g2
      · rw [hsold]
        by_cases hj : j = i
        · rw [List.filter_cons_of_pos (by simpa using hj), List.map_cons, List.sum_cons, g3, hrest hj, if_pos hj, ← hj]
          rfl
        · rw [List.filter_cons_of_neg (by simpa using hj), g3, if_neg hj]

theorem doSwaps_exact {mk : Market P I} {me : A} {i : I} {ms : List (I × I × Nat)} {s s' : State P A I}
    (hm : ∀ m ∈ ms, m.2.1 ≠ i) (h : doSwaps mk me s ms = .ok s') :
    s'.bal i me + ((ms.filter fun m => m.1 = i).map (·.2.2)).sum = s.bal i me := by
  induction ms generalizing s with
  | nil =>
    simp only [doSwaps, Except.ok.injEq] at h
    subst h
    rfl
  | cons m rest ih =>
    unfold doSwaps at h
    rw [bind_ok_iff] at h
    obtain ⟨s1, h1, h⟩ := h
    have g := ih (fun m hm' => hm m (List.mem_cons_of_mem _ hm')) h
    obtain ⟨_, le, out, _, _, b⟩ := doSwap_ok h1
    have b := b i
    rw [if_neg (c := i = m.2.1) (fun e => hm m List.mem_cons_self e.symm)] at b
    by_cases hj : m.1 = i
    · rw [List.filter_cons_of_pos (by simpa using hj), List.map_cons, List.sum_cons]
      rw [if_pos hj.symm] at b
      rw [hj] at le
      omega
    · rw [List.filter_cons_of_neg (by simpa using hj)]
      rw [if_neg fun e => hj e.symm] at b
      omega

theorem distribute_keeps {mk : Market P I} {me : A} {s s' : State P A I} {h : Nat} {i : I} (hn : NoTarget s i)
    (hd : distribute mk me s h = .ok s') : s'.bal i me = s.bal i me := by
  obtain ⟨c', am, ha, _, hnone, hsome⟩ := distribute_ok hd
  have sm := available_same ha
  cases am with
  | none => rw [hnone rfl]
  | some n =>
    obtain ⟨p, t1, t2, t3, _, h1, h2, h3, h4⟩ := hsome n rfl
    obtain ⟨f1, _, _, k1, _⟩ := payTo_ok h1
    obtain ⟨f2, _, _, k2, _⟩ := payTo_ok h2
    obtain ⟨f3, d3⟩ := payDev_ok h3
    obtain ⟨f4, _, _, k4, _⟩ := payTo_ok h4
    have g1 : t1.cfg = c' := f1.cfg
    have g2 : t2.cfg = c' := by rw [f2.cfg, g1]
    have g3 : t3.cfg = c' := by rw [f3.cfg, g2]
    have ea : i ≠ c'.astro := by rw [sm.astro]; exact hn.astro
    rw [k4 i (by rw [g3]; exact ea)]
    have e3 : t3.bal i = t2.bal i := by
      rcases d3 with e | ⟨d, _, _, hdv, _, _, _, _, _, hb, _⟩
      · rw [e]
      · refine hb i (by rw [g2]; exact ea) (hn.dev d ?_)
        rw [← sm.dev, ← g2]; exact hdv
    rw [e3, k2 i (by rw [g1]; exact ea), k1 i ea]

omit [DecidableEq A] [DecidableEq I] in
theorem NoTarget.of_static {s s' : State P A I} {i : I} (hn : NoTarget s i) (h : Static s s') : NoTarget s' i :=
  ⟨by rw [h.cfg]; exact hn.astro, by rw [h.cfg]; exact hn.default, by rw [h.bridges]; exact hn.bridges,
    by rw [h.cfg]; exact hn.dev⟩

theorem bridgeRun_keeps {mk : Market P I} {me : A} {h : Nat} {i : I} :
    ∀ {left : Nat} {as : List I} {s s' : State P A I} {k : Nat}, NoTarget s i → i ∉ as →
      bridgeRun mk me h left as s = .ok (s', k) → s'.bal i me = s.bal i me
  | 0, _, _, _, _, _, _, hb => by cases hb
  | left + 1, as, s, s', k, hn, hi, hb => by
    unfold bridgeRun at hb
    rw [bind_ok_iff] at hb
    obtain ⟨⟨ms, bs⟩, h1, hb⟩ := hb
    rw [bind_ok_iff] at hb
    obtain ⟨_, hreq, hb⟩ := hb
    rw [bind_ok_iff] at hb
    obtain ⟨s1, h2, hb⟩ := hb
    have hsrc := (swapAssets_ok h1).1
    have key : (∀ m ∈ ms, m.2.1 ≠ i) ∧ i ∉ bs := by
      clear h2 hb hsrc hi hreq
      revert ms bs
      induction as with
      | nil =>
        intro ms bs h1
        simp only [List.map_nil, swapAssets, Except.ok.injEq, Prod.mk.injEq] at h1
        obtain ⟨rfl, rfl⟩ := h1
        simp
      | cons x rest ih =>
        intro ms bs h1
        rw [List.map_cons] at h1
        unfold swapAssets at h1
        simp only at h1
        split at h1
        · exact ih ms bs h1
        · rw [bind_ok_iff] at h1
          obtain ⟨⟨t, br⟩, ht, h1⟩ := h1
          rw [bind_ok_iff] at h1
          obtain ⟨⟨ms', bs'⟩, hr, h1⟩ := h1
          simp only [Except.ok.injEq, Prod.mk.injEq] at h1
          obtain ⟨rfl, rfl⟩ := h1
          obtain ⟨g1, g2⟩ := ih ms' bs' hr
          have hti := target_ne hn ht
          refine ⟨?_, ?_⟩
          · intro m hm
            rcases List.mem_cons.1 hm with rfl | hm
            · exact hti
            · exact g1 m hm
          · split
            · split
              · exact g2
              · intro hm
                rcases List.mem_cons.1 hm with e | hm
                · exact hti e.symm
                · exact g2 hm
            · exact g2
    have hz : (ms.filter fun m => m.1 = i) = [] := by
      rw [List.filter_eq_nil_iff]
      intro m hm e
      have := hsrc m hm
      rw [List.map_map] at this
      obtain ⟨j, hj, e2⟩ := List.mem_map.1 this
      have e3 : m.1 = i := by simpa using e
      rw [e3] at e2
      exact hi (by rw [← e2]; exact hj)
    have hx := doSwaps_exact key.1 h2
    rw [hz] at hx
    have hs := (doSwaps_ok h2).1
    have hx : s1.bal i me = s.bal i me := by simpa using hx
    split at hb
    · rw [bind_ok_iff] at hb
      obtain ⟨s2, h3, hb⟩ := hb
      simp only [Except.ok.injEq, Prod.mk.injEq] at hb
      rw [← hb.1, distribute_keeps (hn.of_static hs) h3, hx]
    · rw [bind_ok_iff] at hb
      obtain ⟨⟨s2, k2⟩, h3, hb⟩ := hb
      simp only [Except.ok.injEq, Prod.mk.injEq] at hb
      rw [← hb.1, bridgeRun_keeps (hn.of_static hs) key.2 h3, hx]

/-- **C93, collect.**  Of every asset nothing is swapped into, collecting sells exactly what was asked for: all of it, or
the stated positive limit, and nothing if it was not mentioned. -/
theorem C93_collect_sells_what_is_asked (mk : Market P I) (me : A) (s s' : State P A I) (now h : Nat)
    (as : List (I × Option Nat)) (k : Nat) (hc : collect mk me s now h as = .ok (s', k)) (i : I) (hn : NoTarget s i) :
    s'.bal i me + sold i (s.bal i me) as = s.bal i me := by
  unfold collect at hc
  rw [bind_ok_iff] at hc
  obtain ⟨_, _, hc⟩ := hc
  rw [bind_ok_iff] at hc
  obtain ⟨_, hnd, hc⟩ := hc
  rw [require_ok] at hnd
  rw [bind_ok_iff] at hc
  obtain ⟨⟨ms, bs⟩, h1, hc⟩ := hc
  have hn' : NoTarget { s with lastCollect := now } i := ⟨hn.astro, hn.default, hn.bridges, hn.dev⟩
  have hnd' : ((as.filter fun a => a.1 ≠ s.cfg.astro).map (·.1)).Nodup :=
    hnd.sublist (List.Sublist.map _ List.filter_sublist)
  obtain ⟨g1, g2, g3⟩ := swapAssets_sold hn' hnd' h1
  have hs : sold i (s.bal i me) (as.filter fun a => a.1 ≠ s.cfg.astro) = sold i (s.bal i me) as := by
    unfold sold
    rw [List.find?_filter]
    have e : (fun a : I × Option Nat => decide (decide (a.1 ≠ s.cfg.astro) = true ∧ decide (a.1 = i) = true)) =
        fun a => decide (a.1 = i) := by
      funext a
      by_cases ha : a.1 = i
      · simp [ha, hn.astro]
      · simp [ha]
    rw [e]
  rw [hs] at g3
  simp only at hc
  split at hc
  · rename_i hm
    rw [bind_ok_iff] at hc
    obtain ⟨s1, h2, hc⟩ := hc
    simp only [Except.ok.injEq, Prod.mk.injEq] at hc
    rw [← hc.1, distribute_keeps hn' h2, ← g3, hm]
    rfl
  · rw [bind_ok_iff] at hc
    obtain ⟨s1, h2, hc⟩ := hc
    have hx := doSwaps_exact g1 h2
    have hst := (doSwaps_ok h2).1
    rw [g3] at hx
    split at hc
    · rw [bind_ok_iff] at hc
      obtain ⟨s2, h3, hc⟩ := hc
      simp only [Except.ok.injEq, Prod.mk.injEq] at hc
      rw [← hc.1, distribute_keeps (hn'.of_static hst) h3]
      exact hx
    · rw [bridgeRun_keeps (hn'.of_static hst) g2 hc]
      exact hx

example : okAnd (exec demoMarket 0 demo (.bridges 1 [] [3])) (fun s =>
    decide (s.cfg.defaultBridge = none ∧ s.cfg.dev = none ∧ s.cfg.astro = 0 ∧ s.bridges 2 = some 1 ∧ s.bridges 3 = none ∧
      sold 2 (s.bal 2 0) [(1, none), (2, some 300)] = 300) &&
    okAnd (collect demoMarket 0 s 300 53 [(1, none), (2, some 300)]) fun r =>
      decide (s.bal 2 0 = 700 ∧ r.1.bal 2 0 = 400)) = true := by
  decide +kernel

end Verif.Maker
