import Verif.Router.Model
import Verif.XYK.Model
import Mathlib.Data.List.Chain
import Mathlib.Data.List.Nodup

/-!
# C39–C41, C75, C76: the router
-/

namespace Verif.Router

open Verif.Asset

variable {A E : Type} [DecidableEq A]

/-! ## C40 -/

theorem info_equal_false {a b : Info} : a.equal b = false ↔ a ≠ b := by
  cases a <;> cases b <;> simp [Info.equal]

/-- A list of hops as operations. -/
def asOps (l : List (Info × Info)) : List SwapOp := l.map fun p => .astro p.1 p.2

theorem assertPath_ok {okAddr : Str → Bool} : ∀ {ops : List SwapOp} {prev : Option Info} {u : Unit},
    assertPath okAddr prev ops = .ok u ↔
    ∃ l : List (Info × Info), ops = asOps l ∧
      (∀ p ∈ l, p.1 ≠ p.2 ∧ p.1.check okAddr = .ok () ∧ p.2.check okAddr = .ok ()) ∧
      l.IsChain (fun x y => x.2 = y.1) ∧ ∀ p q, prev = some p → l.head? = some q → p = q.1
  | [], prev, u => by
    constructor
    · intro _; exact ⟨[], rfl, by simp, List.IsChain.nil, by simp⟩
    · intro _; rfl
  | .native _ _ :: _, prev, u => by
    constructor
    · intro h; simp [assertPath] at h
    · rintro ⟨l, h, _⟩
      cases l <;> simp [asOps] at h
  | .astro o a :: rest, prev, u => by
    simp only [assertPath, bind_ok_iff, require_ok, exists_const, info_equal_false]
    have ih := assertPath_ok (okAddr := okAddr) (ops := rest) (prev := some a) (u := u)
    rw [ih]
    constructor
    · rintro ⟨_, h1, _, h2, h3, h4, l, rfl, h5, h6, h7⟩
      refine ⟨(o, a) :: l, rfl, ?_, ?_, ?_⟩
      · intro p hp
        rcases List.mem_cons.1 hp with rfl | hp
        · exact ⟨h3, h1, h2⟩
        · exact h5 p hp
      · cases l with
        | nil => exact List.IsChain.singleton _
        | cons q l => exact List.IsChain.cons_cons (h7 a q rfl rfl) h6
      · intro p q hp hq
        simp only [List.head?_cons, Option.some.injEq] at hq
        subst hq
        exact h4 p hp
    · rintro ⟨l, h, h5, h6, h7⟩
      cases l with
      | nil => simp [asOps] at h
      | cons q l =>
        simp only [asOps, List.map_cons, List.cons.injEq, SwapOp.astro.injEq] at h
        obtain ⟨⟨rfl, rfl⟩, rfl⟩ := h
        have hq := h5 q (by simp)
        refine ⟨(), hq.2.1, (), hq.2.2, hq.1, fun p hp => h7 p q hp rfl, l, rfl, fun p hp => h5 p (by simp [hp]), ?_, ?_⟩
        · exact h6.tail
        · intro p r hp hr
          cases l with
          | nil => simp at hr
          | cons r' l =>
            simp only [List.head?_cons, Option.some.injEq] at hr hp
            subst hr; subst hp
            exact h6.rel

/-- C40: a route is accepted iff it is a list of 1 to 50 pool hops, each between two different valid assets, each
offering what the previous one asked for. -/
theorem C40_accepted_routes (okAddr : Str → Bool) (ops : List SwapOp) :
    assertOperations okAddr ops = .ok () ↔
    ∃ l : List (Info × Info), ops = asOps l ∧ 1 ≤ l.length ∧ l.length ≤ 50 ∧
      (∀ p ∈ l, p.1 ≠ p.2 ∧ p.1.check okAddr = .ok () ∧ p.2.check okAddr = .ok ()) ∧
      l.IsChain (fun x y => x.2 = y.1) := by
  have hM : MAX_SWAP_OPERATIONS = 50 := rfl
  simp only [assertOperations, bind_ok_iff, require_ok, exists_const, assertPath_ok]
  constructor
  · rintro ⟨h1, h2, l, rfl, h3, h4, _⟩
    simp only [asOps, List.length_map] at h1 h2
    exact ⟨l, rfl, by omega, by omega, h3, h4⟩
  · rintro ⟨l, rfl, h1, h2, h3, h4⟩
    refine ⟨?_, ?_, l, rfl, h3, h4, by simp⟩ <;> simp only [asOps, List.length_map] <;> omega

/-- C40: the asset whose balance is checked is what the last hop asks for. -/
theorem C40_target (c : Chain A) (w w1 : World A E) (sender : A) (l : List (Info × Info)) (minimum : Option Nat)
    (receiver : Option A) (h : start c w sender (asOps l) minimum receiver = .ok w1) :
    ∃ p, l.getLast? = some p ∧
      w1 = { w with reply := some ⟨p.2, w.bal p.2 (receiver.getD sender), minimum, receiver.getD sender⟩ } := by
  simp only [start, bind_ok_iff, orErr_ok, Except.ok.injEq] at h
  obtain ⟨_, _, last, hl, rfl⟩ := h
  simp only [asOps, List.getLast?_map, Option.map_eq_some_iff] at hl
  obtain ⟨p, hp, rfl⟩ := hl
  exact ⟨p, hp, rfl⟩

/-! ## C39 -/

mutual
/-- No contract calls the router while processing the message. -/
def Prog.quiet : Prog A E → Prop
  | .done => True
  | .effect _ rest => rest.quiet
  | .route .. => False
/-- No hop calls back into the router. -/
def Hops.quiet : Hops A E → Prop
  | .nil => True
  | .cons h hs => h.quiet ∧ hs.quiet
end

theorem runProg_reply (c : Chain A) (amount : Nat) : ∀ (p : Prog A E) (w w' : World A E), p.quiet →
    runProg c amount w p = .ok w' → w'.reply = w.reply
  | .done, w, w', _, h => by
    simp only [runProg, Except.ok.injEq] at h; subst h; rfl
  | .effect f rest, w, w', hq, h => by
    simp only [runProg, bind_ok_iff] at h
    obtain ⟨x, _, h⟩ := h
    simp only [Prog.quiet] at hq
    have := runProg_reply c amount rest { w with bal := x.1, ext := x.2 } w' hq h
    exact this
  | .route .., w, w', hq, h => by simp [Prog.quiet] at hq

theorem sendHop_reply {c : Chain A} {w : World A E} {op : SwapOp} {x : World A E × Nat}
    (h : sendHop c w op = .ok x) : x.1.reply = w.reply := by
  cases op with
  | native _ _ => simp [sendHop] at h
  | astro o a =>
    simp only [sendHop, bind_ok_iff] at h
    obtain ⟨_, _, h⟩ := h
    cases o with
    | token t => simp only [Except.ok.injEq] at h; subst h; rfl
    | native d =>
      simp only [bind_ok_iff, Except.ok.injEq] at h
      obtain ⟨_, _, _, _, rfl⟩ := h
      rfl

theorem runHops_reply (c : Chain A) : ∀ (hs : Hops A E) (ops : List SwapOp) (w w' : World A E), hs.quiet →
    runHops c w ops hs = .ok w' → w'.reply = w.reply
  | .nil, ops, w, w', _, h => by
    cases ops with
    | nil => simp only [runHops, Except.ok.injEq] at h; subst h; rfl
    | cons _ _ => simp [runHops] at h
  | .cons p hs, ops, w, w', hq, h => by
    cases ops with
    | nil => simp [runHops] at h
    | cons op ops =>
      simp only [runHops, bind_ok_iff] at h
      obtain ⟨x, hx, w2, h2, h3⟩ := h
      simp only [Hops.quiet] at hq
      rw [runHops_reply c hs ops w2 w' hq.2 h3, runProg_reply c x.2 p x.1 w2 hq.1 h2, sendHop_reply hx]

/-- C39, partial: a successful route raises the recipient's balance of the asset asked by the last hop by
exactly the reported amount, which is at least the requested minimum; whatever pools and tokens do, provided
none of them calls the router again during the route.
Missing: contracts that call back into the router (`C39_reentrancy_violated`). -/
theorem C39_minimum_receive_partial (c : Chain A) (w w' : World A E) (sender : A) (l : List (Info × Info))
    (minimum : Option Nat) (receiver : Option A) (hops : Hops A E) (n : Nat) (hq : hops.quiet)
    (h : route c w sender (asOps l) minimum receiver hops = .ok (w', n)) :
    ∃ p, l.getLast? = some p ∧
      w'.bal p.2 (receiver.getD sender) = w.bal p.2 (receiver.getD sender) + n ∧ minimum.getD 0 ≤ n := by
  simp only [route, bind_ok_iff, Except.ok.injEq, Prod.mk.injEq] at h
  obtain ⟨w1, h1, w2, h2, m, h3, rfl, rfl⟩ := h
  obtain ⟨p, hp, rfl⟩ := C40_target c w w1 sender l minimum receiver h1
  have hr := runHops_reply c hops _ _ _ hq h2
  simp only [finish, bind_ok_iff, orErr_ok, csub_ok, require_ok, exists_const, Except.ok.injEq, hr,
    Option.some.injEq] at h3
  obtain ⟨d, rfl, a, ⟨h4, rfl⟩, h5, rfl⟩ := h3
  simp only at h4 h5 ⊢
  refine ⟨p, hp, by omega, ?_⟩
  cases minimum with
  | none => simp
  | some m => have := h5 m rfl; simp only [Option.getD_some]; omega

section Witness

/-- Router `0`, user `1`, attacker `2`; pool `10` for `uusd`–evil, pool `11` for evil–`ueur`, pool `12`
for `ueur`–`uusd`. -/
def wChain : Chain Nat where
  me := 0
  okAddr := fun _ => true
  pairOf := fun a b =>
    if a = .native "uusd".toList ∧ b = .token "evil".toList then some 10
    else if a = .token "evil".toList ∧ b = .native "ueur".toList then some 11 else some 12

/-- The user's route `uusd → evil → ueur`. -/
def wRoute : List (Info × Info) :=
  [(.native "uusd".toList, .token "evil".toList), (.token "evil".toList, .native "ueur".toList)]

/-- A step that moves `n` of `i` from `a` to `b`. -/
def pay (i : Info) (a b : Nat) (n : Nat) (rest : Prog Nat Unit) : Prog Nat Unit :=
  .effect (fun _ bal e => do
    let l ← move (bal i) a b n
    .ok (Function.update bal i l, e)) rest

/-- The attacker's own small route, started by the evil token: `uusd → ueur` for the attacker, with no minimum. -/
def wAttack (rest : Prog Nat Unit) : Prog Nat Unit :=
  .route 2 (asOps [(.native "uusd".toList, .native "ueur".toList)]) none none
    (.cons (pay (.native "ueur".toList) 12 2 1 .done) .nil) rest

/-- The pool of the first hop pays evil tokens; the evil token then runs the attacker's route instead of paying. -/
def wHops : Hops Nat Unit :=
  .cons (pay (.token "evil".toList) 10 0 500 .done)
    (.cons (pay (.native "uusd".toList) 2 0 1 (wAttack .done)) .nil)

/-- The router got 1000 `uusd` from the user. -/
def wWorld : World Nat Unit where
  bal := fun i a =>
    if i = .native "uusd".toList ∧ a = 0 then 1000 else
    if i = .token "evil".toList ∧ a = 10 then 5000 else
    if i = .native "ueur".toList ∧ (a = 11 ∨ a = 12) then 5000 else
    if i = .native "uusd".toList ∧ a = 2 then 5 else 0
  reply := none
  ext := ()

/-- C39 is violated: the user asks for at least 900 `ueur`, the route succeeds and the user receives nothing,
because a contract on the route calls the router and thereby replaces the stored minimum and recipient. -/
theorem C39_reentrancy_violated :
    okAnd (route wChain wWorld 1 (asOps wRoute) (some 900) none wHops) (fun x =>
      decide (x.1.bal (.native "ueur".toList) 1 = 0) && decide (wWorld.bal (.native "ueur".toList) 1 = 0) &&
      decide (x.1.bal (.native "uusd".toList) 0 = 0) && decide (wWorld.bal (.native "uusd".toList) 0 = 1000)) = true := by
  decide +kernel

/-- Without the attack the route delivers and the hypotheses of the theorem are met; asking for more fails. -/
def wHonest : Hops Nat Unit :=
  .cons (pay (.token "evil".toList) 10 0 500 .done)
    (.cons (pay (.token "evil".toList) 0 11 500 (pay (.native "ueur".toList) 11 1 950 .done)) .nil)

example : wHonest.quiet ∧
    okAnd (route wChain wWorld 1 (asOps wRoute) (some 950) none wHonest) (fun x => decide (x.2 = 950)) = true ∧
    fails (route wChain wWorld 1 (asOps wRoute) (some 951) none wHonest) = true := by
  refine ⟨by simp [wHonest, pay, Hops.quiet, Prog.quiet], by decide +kernel, by decide +kernel⟩

end Witness

/-! ## C41 -/

omit [DecidableEq A] in
theorem simulateLoop_append (c : Chain A) (q : A → Info → Info → Nat → Res Nat) :
    ∀ (l l' : List SwapOp) (x : Nat), simulateLoop c q (l ++ l') x = (simulateLoop c q l x) >>= simulateLoop c q l'
  | [], l', x => rfl
  | .native _ _ :: l, l', x => rfl
  | .astro o a :: l, l', x => by
    simp only [List.cons_append, simulateLoop]
    cases h : orErr (c.pairOf o a) (.invalid "pair not found") with
    | error e => rfl
    | ok p =>
      simp only [ok_bind]
      cases h2 : q p o a x with
      | error e => rfl
      | ok y => simp only [ok_bind]; exact simulateLoop_append c q l l' y

omit [DecidableEq A] in
theorem reverseLoop_append (c : Chain A) (q : A → Info → Info → Nat → Res Nat) :
    ∀ (l l' : List SwapOp) (x : Nat), reverseLoop c q (l ++ l') x = (reverseLoop c q l x) >>= reverseLoop c q l'
  | [], l', x => rfl
  | .native _ _ :: l, l', x => rfl
  | .astro o a :: l, l', x => by
    simp only [List.cons_append, reverseLoop]
    cases h : orErr (c.pairOf o a) (.invalid "pair not found") with
    | error e => rfl
    | ok p =>
      simp only [ok_bind]
      cases h2 : q p o a x with
      | error e => rfl
      | ok y => simp only [ok_bind]; exact reverseLoop_append c q l l' y

theorem accepted_parts {okAddr : Str → Bool} {l l' : List SwapOp} (hl : l ≠ []) (hl' : l' ≠ [])
    (h : assertOperations okAddr (l ++ l') = .ok ()) :
    assertOperations okAddr l = .ok () ∧ assertOperations okAddr l' = .ok () := by
  obtain ⟨k, hk, h1, h2, h3, h4⟩ := (C40_accepted_routes okAddr _).1 h
  have hk' := hk
  unfold asOps at hk'
  obtain ⟨k1, k2, rfl, rfl, rfl⟩ := List.append_eq_map_iff.1 hk'
  rw [List.isChain_append] at h4
  simp only [ne_eq, List.map_eq_nil_iff] at hl hl'
  have e1 := List.length_pos_of_ne_nil hl
  have e2 := List.length_pos_of_ne_nil hl'
  rw [List.length_append] at h2
  exact ⟨(C40_accepted_routes okAddr _).2 ⟨k1, rfl, by omega, by omega, fun p hp => h3 p (by simp [hp]), h4.1⟩,
    (C40_accepted_routes okAddr _).2 ⟨k2, rfl, by omega, by omega, fun p hp => h3 p (by simp [hp]), h4.2.1⟩⟩

/-- C41: for every accepted route split in two parts, the simulation of the whole is the simulation of the second
part fed with the result of the first (also as to failures), for every pool behaviour. -/
theorem C41_simulation_composes (c : Chain A) (q : A → Info → Info → Nat → Res Nat) (l l' : List SwapOp) (x : Nat)
    (hl : l ≠ []) (hl' : l' ≠ []) (h : assertOperations c.okAddr (l ++ l') = .ok ()) :
    simulate c q x (l ++ l') = (do let y ← simulate c q x l; simulate c q y l') := by
  obtain ⟨h1, h2⟩ := accepted_parts hl hl' h
  simp only [simulate, h, h1, h2, ok_bind, simulateLoop_append]

/-- C41: reverse simulation composes from the back. -/
theorem C41_reverse_composes (c : Chain A) (q : A → Info → Info → Nat → Res Nat) (l l' : List SwapOp) (y : Nat)
    (hl : l ≠ []) (hl' : l' ≠ []) (h : assertOperations c.okAddr (l ++ l') = .ok ()) :
    simulateReverse c q y (l ++ l') = (do let x ← simulateReverse c q y l'; simulateReverse c q x l) := by
  obtain ⟨h1, h2⟩ := accepted_parts hl hl' h
  simp only [simulateReverse, h, h1, h2, ok_bind, List.reverse_append, reverseLoop_append]

/-- C41: one hop is the pool's own answer. -/
theorem C41_single_hop (c : Chain A) (q : A → Info → Info → Nat → Res Nat) (o a : Info) (x : Nat) (p : A)
    (hp : c.pairOf o a = some p) (h : assertOperations c.okAddr (asOps [(o, a)]) = .ok ()) :
    simulate c q x (asOps [(o, a)]) = q p o a x ∧ simulateReverse c q x (asOps [(o, a)]) = q p o a x := by
  have hp' : orErr (c.pairOf o a) (.invalid "pair not found") = .ok p := by rw [hp]; rfl
  constructor
  · simp only [simulate, h, ok_bind]
    simp only [asOps, List.map_cons, List.map_nil, simulateLoop, hp', ok_bind]
    cases q p o a x <;> rfl
  · simp only [simulateReverse, h, ok_bind]
    simp only [asOps, List.map_cons, List.map_nil, List.reverse_cons, List.reverse_nil,
      List.nil_append, reverseLoop, hp', ok_bind]
    cases q p o a x <;> rfl

example : assertOperations (fun _ => true) (asOps wRoute) = .ok () ∧
    okAnd (simulate wChain (fun _ _ _ x => .ok (2 * x + 1)) 10 (asOps wRoute)) (fun y => decide (y = 43)) = true ∧
    okAnd (simulateReverse wChain (fun p _ _ x => .ok (if p = 11 then x + 1 else 3 * x)) 10 (asOps wRoute))
      (fun y => decide (y = 33)) = true := by decide +kernel

/-! ## C75: the spread limit on routes -/

/-- C75: in a route of several hops the pool's spread check (for the XYK pool) accepts every outcome, whatever
limit up to 50 % the user gave: only `minimum_receive` protects the user. -/
theorem C75_multi_hop_unchecked (maxSpread : Option Nat) (hm : maxSpread.getD XYK.defaultSlippage ≤ XYK.maxAllowedSlippage)
    (offer ret spread : Nat) : XYK.assertMaxSpread (hopBelief false) maxSpread offer ret spread = .ok () := by
  have h1 : hopBelief false = some (U128 - 1) := rfl
  have h2 : orErr (decInv (U128 - 1)) (.invalid "Belief price must not be zero!") = .ok 0 := by decide +kernel
  have h3 : u128 (mulDec offer 0) = .ok 0 := by
    rw [show mulDec offer 0 = 0 by simp [mulDec]]; decide +kernel
  have h4 : require (¬maxSpread.getD XYK.defaultSlippage > XYK.maxAllowedSlippage) (.invalid "AllowedSpreadAssertion")
      = .ok () := (require_ok _ _ _).2 (by omega)
  simp only [XYK.assertMaxSpread, h1, h2, h3, h4, ok_bind, Nat.not_lt_zero, if_false]

end Verif.Router
