import Verif.Router.Props

/-!
# C76: with honest pools, a route delivers what the simulation predicts
-/

namespace Verif.Router

open Verif.Asset

variable {A P : Type} [DecidableEq A]

/-- Pools as seen by their users: in state `P`, offering `x` of `o` for `a` pays `quote`, and leads to the
state `next`; the `Simulation` query answers the same `quote`. -/
structure Pool (P : Type) where
  quote : P → Info → Info → Nat → Res Nat
  next : P → Info → Info → Nat → P

/-- An honest hop: (for cw20 tokens) the token moves the offered amount to the pool, the pool pays its quote
to `dst` and updates its state. -/
def honestHop (K : Pool P) (me pair dst : A) (o a : Info) : Prog A (A → P) :=
  .effect (fun amt bal e => do
    let out ← K.quote (e pair) o a amt
    let b1 ← (match o with
      | .token _ => do
        let l ← move (bal o) me pair amt
        .ok (Function.update bal o l)
      | .native _ => .ok bal : Res (Info → A → Nat))
    let l ← move (b1 a) pair dst out
    .ok (Function.update b1 a l, Function.update e pair (K.next (e pair) o a amt))) .done

/-- All hops honest: intermediate results go to the router, the last one to `rcv`. -/
def honestHops (K : Pool P) (c : Chain A) (rcv : A) : List (Info × Info) → Hops A (A → P)
  | [] => .nil
  | [p] => .cons (honestHop K c.me ((c.pairOf p.1 p.2).getD c.me) rcv p.1 p.2) .nil
  | p :: q :: l => .cons (honestHop K c.me ((c.pairOf p.1 p.2).getD c.me) c.me p.1 p.2) (honestHops K c rcv (q :: l))

theorem hop_effect (K : Pool P) (c : Chain A) (o a : Info) (pair dst : A) (w w2 : World A (A → P))
    (x : World A (A → P) × Nat) (hpair : c.pairOf o a = some pair) (hoa : o ≠ a) (hpm : pair ≠ c.me) (hdp : dst ≠ pair)
    (h1 : sendHop c w (.astro o a) = .ok x) (h2 : runProg c x.2 x.1 (honestHop K c.me pair dst o a) = .ok w2) :
    ∃ out, K.quote (w.ext pair) o a (w.bal o c.me) = .ok out ∧
      w2.ext = Function.update w.ext pair (K.next (w.ext pair) o a (w.bal o c.me)) ∧
      w2.bal o c.me = 0 ∧ w2.bal a dst = w.bal a dst + out ∧
      ∀ i z, z ≠ pair → ¬(i = o ∧ z = c.me) → ¬(i = a ∧ z = dst) → w2.bal i z = w.bal i z := by
  have hao : a ≠ o := fun h => hoa h.symm
  have hmp : c.me ≠ pair := fun h => hpm h.symm
  cases o with
  | token t =>
    simp only [sendHop, bind_ok_iff, orErr_ok, hpair, Option.some.injEq, exists_eq_left', Except.ok.injEq] at h1
    obtain ⟨_, _, rfl⟩ := h1
    simp only [honestHop, runProg, bind_ok_iff, Except.ok.injEq] at h2
    obtain ⟨y, ⟨out, hq, b1, ⟨l, hl, rfl⟩, m, hm, rfl⟩, rfl⟩ := h2
    refine ⟨out, hq, rfl, ?_, ?_, ?_⟩
    · show Function.update (Function.update w.bal _ l) a m (.token t) c.me = 0
      rw [Function.update_of_ne hoa, Function.update_self, move_apply hl]
      have := move_le hl
      simp [hmp]
    · show Function.update (Function.update w.bal _ l) a m a dst = _
      rw [Function.update_self, move_apply hm]
      rw [Function.update_of_ne hao]
      simp [hdp]
    · intro i z hz h1 h2
      show Function.update (Function.update w.bal _ l) a m i z = _
      by_cases hi : i = a
      · subst hi
        have hzd : z ≠ dst := fun h => h2 ⟨rfl, h⟩
        rw [Function.update_self, move_apply hm, Function.update_of_ne hao]
        simp [hz, hzd]
      · rw [Function.update_of_ne hi]
        by_cases hi' : i = .token t
        · subst hi'
          have hzm : z ≠ c.me := fun h => h1 ⟨rfl, h⟩
          rw [Function.update_self, move_apply hl]
          simp [hz, hzm]
        · rw [Function.update_of_ne hi']
  | native d =>
    simp only [sendHop, bind_ok_iff, orErr_ok, hpair, Option.some.injEq, exists_eq_left', Except.ok.injEq,
      require_ok, exists_const] at h1
    obtain ⟨_, l, hl, rfl⟩ := h1
    simp only [honestHop, runProg, bind_ok_iff, Except.ok.injEq] at h2
    obtain ⟨y, ⟨out, hq, b1, rfl, m, hm, rfl⟩, rfl⟩ := h2
    refine ⟨out, hq, rfl, ?_, ?_, ?_⟩
    · show Function.update (Function.update w.bal _ l) a m (.native d) c.me = 0
      rw [Function.update_of_ne hoa, Function.update_self, move_apply hl]
      have := move_le hl
      simp [hmp]
    · show Function.update (Function.update w.bal _ l) a m a dst = _
      rw [Function.update_self, move_apply hm]
      rw [Function.update_of_ne hao]
      simp [hdp]
    · intro i z hz h1 h2
      show Function.update (Function.update w.bal _ l) a m i z = _
      by_cases hi : i = a
      · subst hi
        have hzd : z ≠ dst := fun h => h2 ⟨rfl, h⟩
        rw [Function.update_self, move_apply hm, Function.update_of_ne hao]
        simp [hz, hzd]
      · rw [Function.update_of_ne hi]
        by_cases hi' : i = .native d
        · subst hi'
          have hzm : z ≠ c.me := fun h => h1 ⟨rfl, h⟩
          rw [Function.update_self, move_apply hl]
          simp [hz, hzm]
        · rw [Function.update_of_ne hi']

/-- The pool's `Simulation` query in the given states. -/
def quoteIn (K : Pool P) (e : A → P) : A → Info → Info → Nat → Res Nat := fun p o a x => K.quote (e p) o a x

theorem honest_run (K : Pool P) (c : Chain A) (rcv : A) (e0 : A → P) (hrm : rcv ≠ c.me) :
    ∀ (l : List (Info × Info)) (w w' : World A (A → P)) (p : Info × Info) (x : Nat), l.head? = some p →
    (∀ q ∈ l, q.1 ≠ q.2) → l.IsChain (fun x y => x.2 = y.1) →
    (∀ q ∈ l, ∃ pr, c.pairOf q.1 q.2 = some pr ∧ pr ≠ c.me ∧ pr ≠ rcv ∧ w.ext pr = e0 pr) →
    (l.map fun q => c.pairOf q.1 q.2).Nodup →
    w.bal p.1 c.me = x → (∀ q ∈ l, q.1 ≠ p.1 → w.bal q.1 c.me = 0) →
    runHops c w (asOps l) (honestHops K c rcv l) = .ok w' →
    ∃ n, simulateLoop c (quoteIn K e0) (asOps l) x = .ok n ∧
      ∀ t, l.getLast? = some t → w'.bal t.2 rcv = w.bal t.2 rcv + n
  | [], w, w', p, x, hh, _, _, _, _, _, _, _ => by simp at hh
  | [q], w, w', p, x, hh, hne, _, hp, _, hx, _, h => by
    simp only [List.head?_cons, Option.some.injEq] at hh
    subst hh
    obtain ⟨pr, hpr, hpm, hprr, he⟩ := hp q (by simp)
    simp only [asOps, List.map_cons, List.map_nil, honestHops, runHops, bind_ok_iff, hpr, Option.getD_some,
      Except.ok.injEq] at h
    obtain ⟨y, h1, w2, h2, rfl⟩ := h
    obtain ⟨out, hq, _, _, hb, _⟩ := hop_effect K c q.1 q.2 pr rcv w w2 y hpr (hne q (by simp)) hpm
      (fun h => hprr h.symm) h1 h2
    refine ⟨out, ?_, ?_⟩
    · rw [he, hx] at hq
      simp only [asOps, List.map_cons, List.map_nil, simulateLoop, hpr, quoteIn]
      simp only [orErr, ok_bind, hq]
    · intro t ht
      simp only [List.getLast?_singleton, Option.some.injEq] at ht
      subst ht
      exact hb
  | q :: r :: l, w, w', p, x, hh, hne, hc, hp, hnd, hx, h0, h => by
    simp only [List.head?_cons, Option.some.injEq] at hh
    subst hh
    obtain ⟨pr, hpr, hpm, hprr, he⟩ := hp q (by simp)
    simp only [asOps, List.map_cons, honestHops, runHops, bind_ok_iff, hpr, Option.getD_some] at h
    obtain ⟨y, h1, w2, h2, h3⟩ := h
    have hqne := hne q (by simp)
    obtain ⟨out, hq, hext, ho, hb, hrest⟩ := hop_effect K c q.1 q.2 pr c.me w w2 y hpr hqne hpm
      (fun h => hpm h.symm) h1 h2
    have hqr : q.2 = r.1 := hc.rel
    have hnd' : pr ∉ ((r :: l).map fun q => c.pairOf q.1 q.2).filterMap id ∧
        ((r :: l).map fun q => c.pairOf q.1 q.2).Nodup := by
      rw [List.map_cons, List.nodup_cons] at hnd
      refine ⟨?_, hnd.2⟩
      intro hm
      apply hnd.1
      rw [hpr]
      simpa [eq_comm] using hm
    have ih := honest_run K c rcv e0 hrm (r :: l) w2 w' r out rfl (fun s hs => hne s (by simp [hs])) hc.tail ?_ hnd'.2 ?_ ?_ h3
    · obtain ⟨n, hn, hfin⟩ := ih
      refine ⟨n, ?_, ?_⟩
      · have hs : simulateLoop c (quoteIn K e0) (asOps (q :: r :: l)) x =
            simulateLoop c (quoteIn K e0) (asOps (r :: l)) out := by
          rw [he, hx] at hq
          simp only [asOps, List.map_cons, simulateLoop, hpr, quoteIn]
          simp only [orErr, ok_bind, hq]
        rw [hs]; exact hn
      · intro t ht
        rw [hfin t (by simpa using ht)]
        rw [hrest t.2 rcv (fun h => hprr h.symm) (fun h => hrm h.2) (fun h => hrm h.2)]
    · intro s hs
      obtain ⟨pr', g1, g2, g3, g4⟩ := hp s (by simp only [List.mem_cons] at hs ⊢; exact Or.inr hs)
      refine ⟨pr', g1, g2, g3, ?_⟩
      rw [hext, Function.update_of_ne, g4]
      intro heq
      apply hnd'.1
      simp only [List.mem_filterMap, List.mem_map, id_eq]
      exact ⟨some pr', ⟨s, hs, g1⟩, by rw [heq]⟩
    · rw [← hqr, hb]
      have : w.bal q.2 c.me = 0 := by
        rw [hqr]
        exact h0 r (by simp) (fun h => hqne (by rw [hqr, h]))
      omega
    · intro s hs hsr
      by_cases hsq : s.1 = q.1
      · rw [hsq]; exact ho
      · rw [hrest s.1 c.me (fun h => hpm h.symm) (fun h => hsq h.1) (fun h => hsr (by rw [h.1, hqr]))]
        exact h0 s (by simp only [List.mem_cons] at hs ⊢; exact Or.inr hs) hsq

theorem honestHops_quiet (K : Pool P) (c : Chain A) (rcv : A) : ∀ l, (honestHops K c rcv l).quiet
  | [] => by simp [honestHops, Hops.quiet]
  | [p] => by simp [honestHops, Hops.quiet, honestHop, Prog.quiet]
  | p :: q :: l => by
    simp only [honestHops, Hops.quiet, honestHop, Prog.quiet, true_and]
    exact honestHops_quiet K c rcv (q :: l)

/-- C76, partial: with honest pools and a route that uses no pool twice, starting with the router holding the
offered amount `x` and nothing else on the path, a successful route delivers exactly what `SimulateSwapOperations`
answered beforehand for `x`.
Missing: routes that visit a pool twice (`C76_revisit_violated`). -/
theorem C76_simulation_exact_partial (K : Pool P) (c : Chain A) (w w' : World A (A → P)) (sender : A)
    (p : Info × Info) (l : List (Info × Info)) (minimum : Option Nat) (receiver : Option A) (n : Nat)
    (hr : receiver.getD sender ≠ c.me)
    (hp : ∀ q ∈ p :: l, ∃ pr, c.pairOf q.1 q.2 = some pr ∧ pr ≠ c.me ∧ pr ≠ receiver.getD sender)
    (hnd : ((p :: l).map fun q => c.pairOf q.1 q.2).Nodup)
    (h0 : ∀ q ∈ p :: l, q.1 ≠ p.1 → w.bal q.1 c.me = 0)
    (h : route c w sender (asOps (p :: l)) minimum receiver (honestHops K c (receiver.getD sender) (p :: l)) = .ok (w', n)) :
    simulate c (quoteIn K w.ext) (w.bal p.1 c.me) (asOps (p :: l)) = .ok n := by
  obtain ⟨t, ht, hb, _⟩ := C39_minimum_receive_partial c w w' sender (p :: l) minimum receiver _ n
    (honestHops_quiet K c _ _) h
  simp only [route, bind_ok_iff, Except.ok.injEq, Prod.mk.injEq] at h
  obtain ⟨w1, h1, w2, h2, m, h3, rfl, rfl⟩ := h
  have ha : assertOperations c.okAddr (asOps (p :: l)) = .ok () := by
    simp only [start, bind_ok_iff] at h1
    obtain ⟨_, h, _⟩ := h1
    exact h
  obtain ⟨t', ht', rfl⟩ := C40_target c w w1 sender (p :: l) minimum receiver h1
  obtain ⟨k, hk, _, _, hv, hc⟩ := (C40_accepted_routes _ _).1 ha
  have hkl : p :: l = k := by
    unfold asOps at hk
    refine List.map_injective_iff.2 ?_ hk
    intro x y hxy
    simp only [SwapOp.astro.injEq] at hxy
    exact Prod.ext hxy.1 hxy.2
  subst hkl
  obtain ⟨n', hn', hf⟩ := honest_run K c (receiver.getD sender) w.ext hr (p :: l)
    { w with reply := some ⟨t'.2, w.bal t'.2 (receiver.getD sender), minimum, receiver.getD sender⟩ } w2 p
    (w.bal p.1 c.me) rfl
    (fun q hq => (hv q hq).1) hc
    (fun q hq => by obtain ⟨pr, g1, g2, g3⟩ := hp q hq; exact ⟨pr, g1, g2, g3, rfl⟩) hnd rfl h0 h2
  have h5 := hf t ht
  have h6 : n' = m := by
    have : w2.bal t.2 (receiver.getD sender) = w.bal t.2 (receiver.getD sender) + n' := h5
    omega
  simp only [simulate, ha, ok_bind, hn', h6]

section Witness

/-- Constant-product pools over two reserves (first asset `uaaa` or not). -/
def wPool : Pool (Nat × Nat) where
  quote := fun s o _ x =>
    if o = .native "uaaa".toList then .ok (s.2 - s.1 * s.2 / (s.1 + x)) else .ok (s.1 - s.1 * s.2 / (s.2 + x))
  next := fun s o _ x =>
    if o = .native "uaaa".toList then (s.1 + x, s.1 * s.2 / (s.1 + x)) else (s.1 * s.2 / (s.2 + x), s.2 + x)

/-- Pool `10` trades `uaaa`–`ubbb`, pool `11` everything else. -/
def wChain2 : Chain Nat where
  me := 0
  okAddr := fun _ => true
  pairOf := fun a b => if a = .native "uaaa".toList ∧ b = .native "ubbb".toList ∨
    a = .native "ubbb".toList ∧ b = .native "uaaa".toList then some 10 else some 11

/-- The router received 100 `uaaa`; pools hold plenty. -/
def wWorld2 : World Nat (Nat → Nat × Nat) where
  bal := fun i a => if a = 10 ∨ a = 11 then 1000 else if i = .native "uaaa".toList ∧ a = 0 then 100 else 0
  reply := none
  ext := fun _ => (1000, 1000)

/-- `uaaa → ubbb → uccc → uaaa → ubbb`. -/
def wLoop : List (Info × Info) :=
  [(.native "uaaa".toList, .native "ubbb".toList), (.native "ubbb".toList, .native "uccc".toList),
   (.native "uccc".toList, .native "uaaa".toList), (.native "uaaa".toList, .native "ubbb".toList)]

/-- C76 is violated for a route that visits a pool twice: the simulation promises more than the route delivers,
with honest pools. -/
theorem C76_revisit_violated :
    okAnd (simulate wChain2 (quoteIn wPool wWorld2.ext) 100 (asOps wLoop)) (fun promised =>
      okAnd (route wChain2 wWorld2 1 (asOps wLoop) none none (honestHops wPool wChain2 1 wLoop)) (fun x =>
        decide (x.2 < promised))) = true := by decide +kernel

/-- A route through two different pools meets the hypotheses. -/
def wTwo : List (Info × Info) :=
  [(.native "uaaa".toList, .native "ubbb".toList), (.native "ubbb".toList, .native "uccc".toList)]

example : okAnd (route wChain2 wWorld2 1 (asOps wTwo) (some 80) none (honestHops wPool wChain2 1 wTwo)) (fun x =>
      decide (x.2 = 84)) = true ∧
    okAnd (simulate wChain2 (quoteIn wPool wWorld2.ext) 100 (asOps wTwo)) (fun y => decide (y = 84)) = true ∧
    (wTwo.map fun q => wChain2.pairOf q.1 q.2).Nodup := by decide +kernel

end Witness

end Verif.Router
