import Verif.Duality.Fees

/-!
# Prices of the posted orders and orders executed at once: C106, C109

Specification: `asked` (what the pair asks for the given orders), `CurveCharge` (what the curve charges).
-/

namespace Verif.Duality

open Verif.PCL (Setup FeeInfo Pool PParams AG demoSetup demoParams calcY calcD ampGamma)
open Verif.Stable (dmul ddiv dadd)

variable {A : Type} [DecidableEq A]

/-! ## C106: prices -/

/-- What the pair asks (18 digits, rounded down per order) for the orders of a list that sell asset `j`. -/
def asked (l : List Post) (j : Bool) : Nat :=
  ((l.filter fun o => decide (o.sell = j)).map fun o => o.price * o.size / 10 ^ 18).sum

theorem sideValue_ok {j : Bool} : ∀ {l : List Post} {v : Nat}, sideValue l j = .ok v → v = asked l j := by
  have key : ∀ (l : List Post) (a v : Nat),
      l.foldl (fun acc o => if o.sell = j then do
        let a ← acc
        let v ← dmul o.price o.size
        dadd a v
      else acc) (.ok a : Res Nat) = .ok v → v = a + asked l j := by
    intro l
    induction l with
    | nil => intro a v h; simp only [List.foldl_nil, Except.ok.injEq] at h; simp [asked, h]
    | cons o l ih =>
      intro a v h
      rw [List.foldl_cons] at h
      by_cases ho : o.sell = j
      · rw [if_pos ho] at h
        have hne : ∀ (e : Err), l.foldl (fun acc o => if o.sell = j then do
            let a ← acc
            let v ← dmul o.price o.size
            dadd a v
          else acc) (.error e : Res Nat) = .error e := by
          intro e
          clear h ih
          induction l with
          | nil => rfl
          | cons x l ih =>
            rw [List.foldl_cons]
            split
            · exact ih
            · exact ih
        cases hd : dmul o.price o.size with
        | error e =>
          rw [ok_bind, hd, error_bind, hne] at h
          cases h
        | ok x =>
          rw [ok_bind, hd, ok_bind] at h
          cases ha : dadd a x with
          | error e => rw [ha, hne] at h; cases h
          | ok y =>
            rw [ha] at h
            have := ih _ _ h
            rw [Stable.dadd_ok] at ha
            rw [Stable.dmul_ok] at hd
            rw [this, ← ha.2, ← hd.2]
            have hD : DEC = 10 ^ 18 := rfl
            rw [hD]
            simp only [asked, List.filter_cons, ho, decide_true, if_true, List.map_cons, List.sum_cons]
            omega
      · rw [if_neg ho] at h
        rw [ih _ _ h]
        simp [asked, ho]
  intro l v h
  have := key l 0 v h
  omega

/-- What the curve charges, in the other asset, for `n` of asset `j` at the highest fee: reserve `j` shrinks by
`n / (1 - out_fee)` and the charge is the increase of the other reserve to the solution `y` that keeps the invariant `d`.
`ixs` are the reserves in units of asset 0, to which asset 1 is converted by the price scale; all numbers have 18 digits,
and quotients and products are rounded down. -/
def CurveCharge (pp : PParams) (p : Pool) (ag : AG) (d : Nat) (ixs : Bool → Nat) (n : Nat) (j : Bool) (c : Nat) : Prop :=
  ∃ gross y, pp.out < 10 ^ 18 ∧
    gross = (if j then n * p.price.scale / 10 ^ 18 else n) * (10 ^ 36 / (10 ^ 18 - pp.out)) / 10 ^ 18 ∧
    gross ≤ ixs j ∧ calcY ag d (ixs j - gross) (!j) = .ok y ∧ ixs (!j) ≤ y ∧
    c = if j then y - ixs (!j) else (y - ixs (!j)) * 10 ^ 18 / p.price.scale

theorem offerFor_charge {pp : PParams} {p : Pool} {ag : AG} {d : Nat} {ixs : Bool → Nat} {n c : Nat} {j : Bool}
    (h : offerFor pp p ag d ixs n (!j) = .ok c) : CurveCharge pp p ag d ixs n j c := by
  have hD : DEC = 10 ^ 18 := rfl
  unfold offerFor at h
  simp only [bind_ok_iff, csub_ok, orErr_ok, Stable.dmul_ok, Bool.not_not] at h
  obtain ⟨ask, hask, om, ⟨hle, rfl⟩, inv, hinv, _, ⟨_, rfl⟩, x, ⟨hx, rfl⟩, y, hy, dx, ⟨hdx, rfl⟩, h⟩ := h
  unfold decInv at hinv
  split at hinv
  · simp at hinv
  · rename_i hne
    rw [Option.some.injEq] at hinv
    have hask' : ask = if j then n * p.price.scale / 10 ^ 18 else n := by
      cases j
      · simpa using hask.symm
      · simp only [Bool.not_true, Bool.false_eq_true, if_false, Stable.dmul_ok, hD] at hask
        simpa using hask.2.symm
    subst hask' hinv
    have e : DEC * DEC = 10 ^ 36 := rfl
    rw [e, hD] at hx hy
    refine ⟨_, y, by omega, rfl, hx, hy, hdx, ?_⟩
    cases j
    · simp only [Bool.not_false, if_true, Stable.ddiv_ok, hD] at h
      simpa using h.2.2.symm
    · simpa using h.symm

/-- One level: with it, the orders of this side together ask what the curve charges, less by less than one unit of
the 18th digit per token, plus one. -/
theorem level_asked {pp : PParams} {p : Pool} {ag : AG} {d : Nat} {ixs : Bool → Nat} {acc : List Post} {z i : Nat}
    {j : Bool} {price : Nat} (hi : 1 ≤ i) (h1 : i = 1 → asked acc j = 0)
    (h : levelPrice pp p ag d ixs acc z i j = .ok price) :
    ∃ c, CurveCharge pp p ag d ixs (i * z) j c ∧
      asked (acc ++ [⟨j, price, z⟩]) j ≤ c ∧ c ≤ asked (acc ++ [⟨j, price, z⟩]) j + z / 10 ^ 18 + 1 := by
  have hD : DEC = 10 ^ 18 := rfl
  simp only [levelPrice, bind_ok_iff, Stable.dmul_ok, Stable.mul_kDEC] at h
  obtain ⟨_, ⟨_, rfl⟩, c, hc, h⟩ := h
  have e : asked (acc ++ [⟨j, price, z⟩]) j = asked acc j + price * z / 10 ^ 18 := by
    simp [asked, List.filter_append]
  have key : ∀ t, z ≠ 0 → price = t * DEC / z → price * z / DEC ≤ t ∧ t ≤ price * z / DEC + z / DEC + 1 := by
    intro t hz hp
    have hz' : 0 < z := Nat.pos_of_ne_zero hz
    have a1 : price * z ≤ t * DEC := by rw [hp]; exact Nat.div_mul_le_self _ _
    have a2 : t * DEC < price * z + z := by
      have := Nat.lt_div_mul_add hz' (a := t * DEC)
      rw [← hp] at this; exact this
    have hDp := DEC_pos
    constructor
    · exact Nat.div_le_of_le_mul (by rw [Nat.mul_comm DEC]; exact a1)
    · have b1 := Nat.lt_div_mul_add hDp (a := price * z)
      have b2 := Nat.lt_div_mul_add hDp (a := z)
      have : t * DEC < (price * z / DEC + z / DEC + 2) * DEC := by
        rw [Nat.add_mul, Nat.add_mul]
        omega
      have := Nat.lt_of_mul_lt_mul_right this
      omega
  refine ⟨c, offerFor_charge hc, ?_⟩
  rw [e, ← hD]
  by_cases hgt : i > 1
  · rw [if_pos hgt] at h
    simp only [bind_ok_iff, csub_ok, Stable.ddiv_ok] at h
    obtain ⟨v, hv, _, ⟨hle, rfl⟩, hz, _, hp⟩ := h
    rw [sideValue_ok hv] at hle hp
    have := key _ hz hp.symm
    omega
  · rw [if_neg hgt] at h
    have h1' : i = 1 := by omega
    subst h1'
    simp only [Stable.ddiv_ok, Nat.one_mul] at h
    obtain ⟨hz, _, hp⟩ := h
    have := key _ hz hp.symm
    rw [h1 rfl]
    omega

theorem asked_append (l k : List Post) (j : Bool) : asked (l ++ k) j = asked l j + asked k j := by
  simp [asked, List.filter_append]

/-- The first `i` levels of a ladder (two orders per level). -/
theorem build_asked {pp : PParams} {p : Pool} {ag : AG} {d : Nat} {ixs size : Bool → Nat} :
    ∀ (fuel i : Nat) (acc l : List Post), 1 ≤ i → acc.length = 2 * (i - 1) → (i = 1 → acc = []) →
      buildOrders pp p ag d ixs size fuel i acc = .ok (some l) →
      ∀ k j, i ≤ k → k < i + fuel → ∃ c, CurveCharge pp p ag d ixs (k * size j) j c ∧
        asked (l.take (2 * k)) j ≤ c ∧ c ≤ asked (l.take (2 * k)) j + size j / 10 ^ 18 + 1 := by
  intro fuel
  induction fuel with
  | zero => intro i acc l _ _ _ _ k j h1 h2; omega
  | succ fuel ih =>
    intro i acc l hi hlen h0 h k j hk1 hk2
    have hb := h
    simp only [buildOrders, bind_ok_iff] at h
    obtain ⟨sp, hsp, bp, hbp, h⟩ := h
    split at h
    · cases h
    · obtain ⟨new, hl, _⟩ := buildOrders_spec _ _ _ _ h
      by_cases hki : k = i
      · subst hki
        have ht : l.take (2 * k) = acc ++ [⟨false, sp, size false⟩, ⟨true, bp, size true⟩] := by
          rw [hl]
          have : (acc ++ [(⟨false, sp, size false⟩ : Post), ⟨true, bp, size true⟩]).length = 2 * k := by
            simp [hlen]; omega
          rw [← this, List.take_left]
        rw [ht]
        have hz : ∀ j, k = 1 → asked acc j = 0 := by
          intro j h1; rw [h0 h1]; rfl
        cases j
        · obtain ⟨c, hc, c1, c2⟩ := level_asked hi (hz false) hsp
          refine ⟨c, hc, ?_⟩
          have e : asked (acc ++ [(⟨false, sp, size false⟩ : Post), ⟨true, bp, size true⟩]) false =
              asked (acc ++ [⟨false, sp, size false⟩]) false := by
            simp [asked]
          rw [e]; exact ⟨c1, c2⟩
        · obtain ⟨c, hc, c1, c2⟩ := level_asked hi (hz true) hbp
          refine ⟨c, hc, ?_⟩
          have e : asked (acc ++ [(⟨false, sp, size false⟩ : Post), ⟨true, bp, size true⟩]) true =
              asked (acc ++ [⟨true, bp, size true⟩]) true := by
            simp [asked]
          rw [e]; exact ⟨c1, c2⟩
      · refine ih (i + 1) _ _ (by omega) ?_ (by omega) h k j (by omega) (by omega)
        simp [hlen]; omega

/-- A price of one token in the notation of the orderbook: raw units of the other asset (of `q` decimals) per raw unit of
the sold one (of `b` decimals), with 27 digits.  Rounded down to a multiple of `10^9`. -/
theorem dualityPrice_ok {p b q r : Nat} (h : dualityPrice p b q = .ok r) : r = 10 ^ 9 * (p * 10 ^ q / 10 ^ b) := by
  simp only [dualityPrice, bind_ok_iff, u256_ok, DUALITY_PRICE_ADJUSTMENT] at h
  obtain ⟨x, hx, _, rfl⟩ := h
  rw [Nat.mul_comm]
  congr 1
  have hD : 0 < DEC := DEC_pos
  split at hx
  · rename_i hlt
    rw [Stable.ddiv_ok] at hx
    rw [← hx.2.2, Nat.mul_div_mul_right _ _ hD]
    have e : (10 : Nat) ^ b = 10 ^ (b - q) * 10 ^ q := by rw [← pow_add]; congr 1; omega
    rw [e, Nat.mul_div_mul_right _ _ (by positivity)]
  · split at hx
    · rename_i heq
      simp only [Except.ok.injEq] at hx
      rw [heq, Nat.mul_div_cancel _ (by positivity), hx]
    · rename_i h1 h2
      rw [Stable.dmul_ok] at hx
      rw [← hx.2, Stable.mul_kDEC]
      have e : (10 : Nat) ^ q = 10 ^ (q - b) * 10 ^ b := by rw [← pow_add]; congr 1; omega
      rw [e, ← Nat.mul_assoc, Nat.mul_div_cancel _ (by positivity), Nat.mul_comm]

/-- The message of an order: the price asked is the one computed, in the notation of the orderbook, and the price at
which it stands on the book is higher by the configured adjustment. -/
theorem postMsg_limit {su : Setup} {adj : Nat} {o : Post} {m : Msg} (h : postMsg su adj o = .ok m) :
    m.avg = 10 ^ 9 * (o.price * 10 ^ su.prec (!o.sell) / 10 ^ su.prec o.sell) ∧
    m.limit = 10 ^ 9 * ((o.price + adj * o.price / 10 ^ 18) * 10 ^ su.prec (!o.sell) / 10 ^ su.prec o.sell) := by
  simp only [postMsg, bind_ok_iff, Except.ok.injEq] at h
  obtain ⟨_, _, _, _, a, ha, lim, hl, l, hl2, v, hv, rfl⟩ := h
  rw [Stable.dadd_ok] at hl
  rw [Stable.dmul_ok] at ha
  have hD : DEC = 10 ^ 18 := rfl
  rw [hD] at ha
  refine ⟨dualityPrice_ok hv, ?_⟩
  rw [ha.2, hl.2]
  exact dualityPrice_ok hl2

/-- The orders and their messages: `avg` is the price of one token of the sold asset, in raw units of the other asset per
raw unit, with 27 digits; `limit` is the same for the price raised by the fraction `adj / 10^18`. -/
inductive Posted (su : Setup) (adj : Nat) : List Post → List Msg → Prop
  | nil : Posted su adj [] []
  | cons {o : Post} {m : Msg} {l : List Post} {ms : List Msg} :
      m.sell = o.sell → m.amount = o.size / 10 ^ (18 - su.prec o.sell) →
      m.avg = 10 ^ 9 * (o.price * 10 ^ su.prec (!o.sell) / 10 ^ su.prec o.sell) →
      m.limit = 10 ^ 9 * ((o.price + adj * o.price / 10 ^ 18) * 10 ^ su.prec (!o.sell) / 10 ^ su.prec o.sell) →
      Posted su adj l ms → Posted su adj (o :: l) (m :: ms)

theorem postMsgs_posted {su : Setup} {adj : Nat} (hp : ∀ i, su.prec i ≤ 18) :
    ∀ {l : List Post} {ms : List Msg}, postMsgs su adj l = .ok ms → Posted su adj l ms := by
  intro l
  induction l with
  | nil => intro ms h; simp only [postMsgs, Except.ok.injEq] at h; subst h; exact .nil
  | cons o l ih =>
    intro ms h
    simp only [postMsgs, bind_ok_iff, Except.ok.injEq] at h
    obtain ⟨m, hm, ms', hms, rfl⟩ := h
    obtain ⟨e1, e2⟩ := postMsg_amount (hp _) hm
    obtain ⟨e3, e4⟩ := postMsg_limit hm
    exact .cons e1 e2 e3 e4 (ih hms)

omit [DecidableEq A] in
/-- **C106.** Orders are never posted below the curve: the first `k` orders of either side together ask, at the prices
the pair insists on, what the curve charges for their coins at the highest fee, less by at most one unit in the last
digit per token and per side.  The messages carry those prices in the
notation of the orderbook; an order stands on the book at the price insisted on raised by the configured adjustment. -/
theorem C106_orders_follow_curve (su : Setup) (c : PCL.State A) (now : Nat) (ob : OB A) (xs size : Bool → Nat)
    (ms : List Msg) (hp : ∀ i, su.prec i ≤ 18) (hne : ms ≠ [])
    (h : deployAt su c now ob xs size = .ok ms) :
    ∃ ag x1 d l, ampGamma c.pool now = .ok ag ∧ dmul (xs true) c.pool.price.scale = .ok x1 ∧
      calcD ag (xs false) x1 = .ok d ∧ Posted su ob.adj l ms ∧ l.length = 2 * ob.number ∧
      (∀ o ∈ l, o.size = size o.sell) ∧
      ∀ k j, 1 ≤ k → k ≤ ob.number →
        ∃ charge, CurveCharge c.params c.pool ag d (fun i => if i then x1 else xs false) (k * size j) j charge ∧
          asked (l.take (2 * k)) j ≤ charge ∧ charge ≤ asked (l.take (2 * k)) j + size j / 10 ^ 18 + 1 := by
  simp only [deployAt, bind_ok_iff] at h
  obtain ⟨ag, hag, x1, hx1, d, hd, r, hr, h⟩ := h
  cases r with
  | none => simp only [Except.ok.injEq] at h; exact absurd h.symm hne
  | some l =>
    simp only at h
    obtain ⟨new, hl, hc, hs, _⟩ := buildOrders_spec _ _ _ _ hr
    rw [List.nil_append] at hl
    subst hl
    refine ⟨ag, x1, d, l, hag, hx1, hd, postMsgs_posted hp h, ?_, hs, ?_⟩
    · have h0 := hc false
      have h1 := hc true
      have : ∀ l : List Post, l.length =
          (l.filter fun o => decide (o.sell = false)).length + (l.filter fun o => decide (o.sell = true)).length := by
        intro l
        induction l with
        | nil => rfl
        | cons o l ih => cases ho : o.sell <;> simp [ho, ih] <;> omega
      rw [this l, h0, h1]; omega
    · intro k j h1 h2
      exact build_asked ob.number 1 [] l (le_refl _) rfl (fun _ => rfl) hr k j h1 (by omega)

/-- Non-vacuity: the ladder of the example, four orders of 12.5 tokens. -/
example : okAnd demo (fun s =>
    okAnd (deployAt demoSetup s.pcl 2000 s.ob (fun _ => 1000 * 10 ^ 18) (fun _ => 125 * 10 ^ 17)) (fun ms =>
      decide (ms.map (·.sell) = [false, true, false, true]) && decide (ms.map (·.amount) = List.replicate 4 12500000) &&
      decide (ms.all fun m => 10 ^ 27 < m.avg))) = true := by
  decide +kernel

/-! ## C109: orders executed at once -/

/-- Every second order that is posted and sells asset 0 is executed at once (numbers 0 and 2), for `g` units. -/
def eager (g : Nat) : Env Acct := { quiet with out := fun n => if n = 0 ∨ n = 2 then .executed g else .rests 0 0 }

/-- Only the first order is executed at once, for `g` units. -/
def eagerOne (g : Nat) : Env Acct := { quiet with out := fun n => if n = 0 then .executed g else .rests 0 0 }

/-- **C109 (violated).** The English claim: coins sold by orders that are executed while they are posted are recorded,
so that the fee is charged on them and the price follows.  Here both orders that sell asset 0 are executed at once: the
pair loses 25 million units of asset 0, but only one order of 12.5 million is recorded as sold. -/
theorem C109_executed_orders_undercounted_violated :
    ∃ (s s' : State Acct), Reachable demoSetup 0 s ∧
      exec demoSetup 0 2000 1 s (.provide 2 (fun _ => 10 ^ 9) none none 2 (eager 12600000)) = .ok s' ∧
      held 0 s false = 0 ∧ held 0 s' false = 10 ^ 9 - 2 * 12500000 ∧ held 0 s' true = 10 ^ 9 + 2 * 12600000 ∧
      gotFor s' false = 2 * 12600000 ∧ soldOf s' false = 12500000 := by
  have h : okAnd demo (fun s =>
      let z := run demoSetup 0 s [⟨2000, 1, .config 1 { enable := some true }⟩]
      okAnd (exec demoSetup 0 2000 1 z (.provide 2 (fun _ => 10 ^ 9) none none 2 (eager 12600000))) (fun s' =>
        decide (held (A := Acct) 0 z false = 0 ∧ held 0 s' false = 10 ^ 9 - 2 * 12500000 ∧
          held 0 s' true = 10 ^ 9 + 2 * 12600000 ∧ gotFor s' false = 2 * 12600000 ∧
          soldOf s' false = 12500000))) = true := by decide +kernel
  rw [okAnd_iff] at h
  obtain ⟨s0, h0, h⟩ := h
  rw [okAnd_iff] at h
  obtain ⟨s', h1, h2⟩ := h
  exact ⟨_, s', ⟨_, _, _, _, _, _, _, _, _, _, _, s0, _, h0, rfl⟩, h1, by simpa using h2⟩

/-- **C109 (violated).** Here an order selling asset 0 is executed at once for 12600000 units of asset 1, after a swap
whose maker fee was rounded.  One unit of asset 0 was left over by the rounding, and the pair records instead that an
order selling asset 1 was executed, for one unit of asset 0. -/
theorem C109_rounding_flips_executed_order_violated :
    ∃ (s s' : State Acct), Reachable demoSetup 0 s ∧ (∀ i, gotFor s i = 0) ∧
      exec demoSetup 0 2000 1 s (.swap 3 true 1000000 none none 3
        { eagerOne 12600000 with f := ⟨5 * 10 ^ 17, some 3⟩ }) = .ok s' ∧
      s'.book.length = 3 ∧ gotFor s' false = 0 ∧ soldOf s' false = 0 ∧ gotFor s' true = 1 ∧
      soldOf s' true = 12512500 := by
  have h : okAnd demo (fun s =>
      let z := run demoSetup 0 s demoStart
      decide (gotFor z false = 0) && decide (gotFor z true = 0) &&
      okAnd (exec demoSetup 0 2000 1 z (.swap 3 true 1000000 none none 3
        { eagerOne 12600000 with f := ⟨5 * 10 ^ 17, some 3⟩ })) (fun s' =>
        decide (s'.book.length = 3 ∧ gotFor s' false = 0 ∧ soldOf s' false = 0 ∧ gotFor s' true = 1 ∧
          soldOf s' true = 12512500))) = true := by decide +kernel
  rw [okAnd_iff] at h
  obtain ⟨s0, h0, h⟩ := h
  simp only [Bool.and_eq_true, decide_eq_true_eq] at h
  obtain ⟨⟨g0, g1⟩, h⟩ := h
  rw [okAnd_iff] at h
  obtain ⟨s', h1, h2⟩ := h
  exact ⟨_, s', ⟨_, _, _, _, _, _, _, _, _, _, _, s0, _, h0, rfl⟩, fun i => by cases i <;> assumption, h1,
    by simpa using h2⟩

/-- When one order is executed at once and nothing else happens, the others stand untouched. -/
theorem placeAll_one {me : A} {out : Nat → Outcome} {n0 g : Nat} (hq : ∀ n, n ≠ n0 → out n = .rests 0 0)
    (h0 : out n0 = .executed g) :
    ∀ {ms : List Msg} {n : Nat} {s p : Placing A}, placeAll me out n ms s = .ok p →
      ∃ ms' : List Msg, (∀ m ∈ ms', m ∈ ms) ∧ ms'.length + (if n ≤ n0 ∧ n0 < n + ms.length then 1 else 0) = ms.length ∧
        p.book.map (·.2) = s.book.map (·.2) ++ ms'.map (fun m => ⟨m.sell, m.amount, 0⟩) := by
  intro ms
  induction ms with
  | nil =>
    intro n s p h
    simp only [placeAll, Except.ok.injEq] at h
    subst h
    refine ⟨[], by simp, ?_, by simp⟩
    rw [if_neg (by simp only [List.length_nil]; omega)]; rfl
  | cons m ms ih =>
    intro n s p h
    simp only [placeAll, bind_ok_iff] at h
    obtain ⟨s1, h1, h⟩ := h
    obtain ⟨ms', e1, e2, e3⟩ := ih h
    simp only [place, bind_ok_iff] at h1
    obtain ⟨l, hl, h1⟩ := h1
    by_cases hn : n = n0
    · subst hn
      rw [h0] at h1
      simp only [Except.ok.injEq] at h1
      subst h1
      refine ⟨ms', fun x hx => by simp [e1 x hx], ?_, e3⟩
      rw [if_neg (by omega)] at e2
      rw [if_pos (by simp only [List.length_cons]; omega)]
      simp only [List.length_cons]; omega
    · rw [hq n hn] at h1
      simp only [bind_ok_iff, csub_ok, Except.ok.injEq] at h1
      obtain ⟨left, ⟨_, rfl⟩, rfl⟩ := h1
      refine ⟨m :: ms', ?_, ?_, by rw [e3]; simp⟩
      · intro x hx
        rcases List.mem_cons.1 hx with rfl | hx
        · simp
        · simp [e1 x hx]
      · simp only [List.length_cons]
        by_cases hc : n + 1 ≤ n0 ∧ n0 < n + 1 + ms.length
        · rw [if_pos hc] at e2
          rw [if_pos (by omega)]; omega
        · rw [if_neg hc] at e2
          rw [if_neg (by omega)]; omega

/-- **C109 (partial).** When exactly one of the posted orders, selling asset `j`, is executed at once for `g` units,
the others stand untouched, and the pair's balances differ from the expected ones by exactly these `g` units, the pair
records that one order of asset `j` was sold for `g`, and nothing else.  Missing: several orders executed at once
(`C109_executed_orders_undercounted_violated`), and balances that exceed the expected ones because fees were rounded
(`C109_rounding_flips_executed_order_violated`). -/
theorem C109_executed_order_recorded_partial (su : Setup) (me : A) (now : Nat) (fo : A) (s s' : State A) (o : Op A)
    (e : Env A) (n0 g : Nat) (j : Bool) (b : Bool → Nat) (hr : Reachable su me s) (he : o.env = some e)
    (hq : ∀ n, n ≠ n0 → e.out n = .rests 0 0) (h0 : e.out n0 = .executed g) (hg : g ≠ 0) (hn : n0 < 2 * s.ob.number)
    (h : exec su me now fo s o = .ok s') (hb : s'.book ≠ []) (hpre : s'.ob.pre = some b)
    (hbal : ∀ i, s'.pcl.bal i me = b i + if i = !j then g else 0) :
    s'.ob.delayed = some ⟨j, 0, g⟩ ∧ gotFor s' j = g ∧ gotFor s' (!j) = 0 ∧
      ∃ z, s'.ob.sizes = some z ∧ soldOf s' j = z j ∧ soldOf s' (!j) = 0 := by
  obtain ⟨os, ts, bal, bal', book', c, xs, fin, r, hcov⟩ := renew_covered hr.inv h he
  obtain ⟨_, hbk, _⟩ := r.all hr.inv
  have hf := r.hfin
  rw [hbk] at hf
  obtain ⟨ob1, ms, pre, p, sp⟩ := finish_spec hf
  obtain ⟨ms', e1, e2, e3⟩ := placeAll_one hq h0 sp.hplace
  simp only [List.map_nil, List.nil_append] at e3
  have hbook : s'.book = p.book := by rw [r.hbook, sp.hbook]
  have hms : ms ≠ [] := by
    rintro rfl
    have : ms' = [] := by
      cases ms' with
      | nil => rfl
      | cons x _ => exact absurd (e1 x (by simp)) (by simp)
    rw [this] at e3
    apply hb
    rw [hbook]
    simpa using e3
  rcases sp.hob with ⟨hx, _⟩ | ⟨_, hcb⟩
  · exact absurd hx hms
  rcases deploy_spec sp.hdep with hx | ⟨hen, z, hz, hlad, _⟩
  · exact absurd hx hms
  have hlen := ladder_length hlad
  have hnum : ob1.number = s.ob.number := by
    have := deploy_same sp.hdep
    rw [this]
  have hpl : p.book.length + 1 = 2 * s.ob.number := by
    have : p.book.length = ms'.length := by
      have := congrArg List.length e3
      simpa using this
    rw [if_pos (by omega)] at e2
    omega
  have hsame := callback_same hcb
  have hsz : s'.ob.sizes = some z := by rw [r.hob, hsame]; exact hz
  have hpre' : pre = some b := by
    rw [r.hob, hsame] at hpre; exact hpre
  have hpb : ∀ i, p.bal i me = b i + if i = !j then g else 0 := by
    intro i
    rw [← hbal i, r.hbal, sp.hpcl]
  simp only [callback, bind_ok_iff, hnum] at hcb
  obtain ⟨_, _, hcb⟩ := hcb
  have hnumle := hr.inv.set.2.1
  rw [if_pos (by simp; omega)] at hcb
  simp only [bind_ok_iff, orErr_ok, hpre', Option.some.injEq, Except.ok.injEq] at hcb
  obtain ⟨_, rfl, d, hd, hob⟩ := hcb
  have hd' : d = ⟨j, 0, g⟩ := by
    unfold autoTrade at hd
    simp only [hpb] at hd
    cases j
    · simp only [Bool.not_false, Bool.false_eq_true, if_false, Nat.add_zero, lt_irrefl, if_true] at hd
      rw [if_pos (by omega)] at hd
      simp only [Except.ok.injEq] at hd
      rw [← hd]; congr 1; omega
    · simp only [Bool.not_true, if_true] at hd
      rw [if_pos (by omega)] at hd
      simp only [Except.ok.injEq] at hd
      rw [← hd]; congr 1; omega
  have hdel : s'.ob.delayed = some ⟨j, 0, g⟩ := by rw [r.hob, ← hob, hd']
  have hst : ∀ x ∈ s'.book.map (·.2), x.left = z x.sell ∧ x.got = 0 := by
    intro x hx
    rw [hbook, e3] at hx
    obtain ⟨m, hm, rfl⟩ := List.mem_map.1 hx
    exact ⟨hlad.2 m (e1 m hm), rfl⟩
  have hgot : ∀ i, ((((s'.book.map (·.2)).filter fun o => decide (o.sell = i))).map (·.got)).sum = 0 := by
    intro i
    apply List.sum_eq_zero
    intro y hy
    obtain ⟨o, ho, rfl⟩ := List.mem_map.1 hy
    exact (hst o (List.mem_filter.1 ho).1).2
  have hsold : ∀ i, ((((s'.book.map (·.2)).filter fun o => decide (o.sell = i))).map fun o => z i - o.left).sum = 0 := by
    intro i
    apply List.sum_eq_zero
    intro y hy
    obtain ⟨o, ho, rfl⟩ := List.mem_map.1 hy
    have h1 := (hst o (List.mem_filter.1 ho).1).1
    have h2 := (List.mem_filter.1 ho).2
    simp only [decide_eq_true_eq] at h2
    rw [h1, h2]; omega
  refine ⟨hdel, ?_, ?_, z, hsz, ?_, ?_⟩
  · unfold gotFor traded
    rw [hdel, List.filter_append, List.map_append, List.sum_append, hgot]
    simp
  · unfold gotFor traded
    rw [hdel, List.filter_append, List.map_append, List.sum_append, hgot]
    simp
  · unfold soldOf traded
    rw [hdel, hsz, List.filter_append, List.map_append, List.sum_append]
    simp only [Option.getD_some]
    rw [hsold]
    simp
  · unfold soldOf traded
    rw [hdel, hsz, List.filter_append, List.map_append, List.sum_append]
    simp only [Option.getD_some]
    rw [hsold]
    simp

/-- Non-vacuity: the first order posted after the deposit of the example is executed at once. -/
example : okAnd demo (fun s =>
    let z := run demoSetup 0 s [⟨2000, 1, .config 1 { enable := some true }⟩]
    okAnd (exec demoSetup 0 2000 1 z (.provide 2 (fun _ => 10 ^ 9) none none 2 (eagerOne 12600000))) (fun s' =>
      decide (s'.book.length = 3) && decide (s'.ob.delayed = some ⟨false, 0, 12600000⟩) &&
      decide (s'.ob.pre.map (fun b => (b false, b true)) = some (975000000, 975000000)) &&
      decide (s'.pcl.bal false 0 = 975000000 ∧ s'.pcl.bal true 0 = 975000000 + 12600000))) = true := by
  decide +kernel

end Verif.Duality
