import Mathlib.Data.List.Forall2
import Verif.Inj.Trades

/-!
# Prices of the posted orders and the deposit behind them: C119, C121

Specification: `buys`, `sells` (the orders of a side, best first), `total` (what a list of orders pays or asks in the
second asset, 36 digits).
-/

namespace Verif.Inj

open Verif.PCL (Setup FeeInfo Pool PParams AG demoSetup demoParams calcY calcD ampGamma feeRate)
open Verif.Stable (dmul ddiv dadd toU128)

variable {A : Type} [DecidableEq A]

/-- The orders of a list that buy the first asset, in the order they were placed. -/
def buys (l : List Post) : List Post := l.filter fun o => o.buy

/-- The orders of a list that sell the first asset, in the order they were placed. -/
def sells (l : List Post) : List Post := l.filter fun o => !o.buy

/-- What the orders of a list pay or ask for all of their amounts, without rounding (prices and amounts have 18 digits
each). -/
def total (l : List Post) : Nat := (l.map fun o => o.price * o.amount).sum

/-- The same, rounded down to 18 digits for each order. -/
def floored (l : List Post) : Nat := (l.map fun o => o.price * o.amount / DEC).sum

/-! ## Helpers -/

theorem floored_le (l : List Post) : floored l * DEC ≤ total l ∧ total l ≤ floored l * DEC + l.length * DEC := by
  induction l with
  | nil => simp [floored, total]
  | cons o l ih =>
    have h := Nat.div_mul_le_self (o.price * o.amount) DEC
    have h2 := Nat.lt_div_mul_add (a := o.price * o.amount) (b := DEC) (by decide)
    simp only [floored, total, List.map_cons, List.sum_cons, List.length_cons, Nat.add_mul, Nat.one_mul] at *
    omega

theorem total_append (l m : List Post) : total (l ++ m) = total l + total m := by simp [total]
theorem floored_append (l m : List Post) : floored (l ++ m) = floored l + floored m := by simp [floored]

theorem sideValue_ok {b : Bool} : ∀ {l : List Post} {v : Nat}, sideValue l b = .ok v →
    v = floored (l.filter fun o => decide (o.buy = b)) := by
  have hne : ∀ (l : List Post) (e : Err), l.foldl (fun acc o => if o.buy = b then do
      let a ← acc
      let v ← dmul o.price o.amount
      dadd a v
    else acc) (.error e : Res Nat) = .error e := by
    intro l e
    induction l with
    | nil => rfl
    | cons x l ih =>
      rw [List.foldl_cons]
      split <;> exact ih
  have key : ∀ (l : List Post) (a v : Nat),
      l.foldl (fun acc o => if o.buy = b then do
        let a ← acc
        let v ← dmul o.price o.amount
        dadd a v
      else acc) (.ok a : Res Nat) = .ok v → v = a + floored (l.filter fun o => decide (o.buy = b)) := by
    intro l
    induction l with
    | nil => intro a v h; simp only [List.foldl_nil, Except.ok.injEq] at h; simp [floored, h]
    | cons o l ih =>
      intro a v h
      rw [List.foldl_cons] at h
      by_cases ho : o.buy = b
      · rw [if_pos ho] at h
        cases hd : dmul o.price o.amount with
        | error e =>
          rw [ok_bind, hd, error_bind, hne] at h
          cases h
        | ok x =>
          rw [ok_bind, hd, ok_bind] at h
          cases ha : dadd a x with
          | error e => rw [ha, hne] at h; cases h
          | ok y =>
            rw [ha] at h
            have := ih _ _ h
            rw [Stable.dmul_ok] at hd
            rw [Stable.dadd_ok] at ha
            rw [this, ← ha.2, ← hd.2]
            simp only [List.filter_cons, ho, decide_true, if_true, floored, List.map_cons, List.sum_cons]
            omega
      · rw [if_neg ho] at h
        rw [ih _ _ h]
        simp [ho]
  intro l v h
  have := key l 0 v h
  omega

theorem sideValue_buy {l : List Post} {v : Nat} (h : sideValue l true = .ok v) : v = floored (buys l) := by
  rw [sideValue_ok h]; simp [buys]

theorem sideValue_sell {l : List Post} {v : Nat} (h : sideValue l false = .ok v) : v = floored (sells l) := by
  rw [sideValue_ok h]; simp [sells]

theorem sideAmount_ok : ∀ {l : List Post} {v : Nat}, sideAmount l = .ok v →
    v = ((sells l).map fun o => o.amount).sum := by
  have hne : ∀ (l : List Post) (e : Err), l.foldl (fun acc o => if o.buy then acc else do
      let a ← acc
      dadd a o.amount) (.error e : Res Nat) = .error e := by
    intro l e
    induction l with
    | nil => rfl
    | cons x l ih =>
      rw [List.foldl_cons]
      split <;> exact ih
  have key : ∀ (l : List Post) (a v : Nat),
      l.foldl (fun acc o => if o.buy then acc else do
        let a ← acc
        dadd a o.amount) (.ok a : Res Nat) = .ok v → v = a + ((sells l).map fun o => o.amount).sum := by
    intro l
    induction l with
    | nil => intro a v h; simp only [List.foldl_nil, Except.ok.injEq] at h; simp [sells, h]
    | cons o l ih =>
      intro a v h
      rw [List.foldl_cons] at h
      cases hb : o.buy
      · rw [hb, if_neg (by decide), ok_bind] at h
        cases ha : dadd a o.amount with
        | error e => rw [ha, hne] at h; cases h
        | ok y =>
          rw [ha] at h
          have := ih _ _ h
          rw [Stable.dadd_ok] at ha
          rw [this, ← ha.2]
          simp only [sells, List.filter_cons, hb, Bool.not_false, if_true, List.map_cons, List.sum_cons]
          omega
      · rw [hb, if_pos rfl] at h
        rw [ih _ _ h]
        simp [sells, hb]
  intro l v h
  have := key l 0 v h
  omega

theorem floorTick_spec {v t r : Nat} (h : floorTick v t = .ok r) : t ∣ r ∧ r ≤ v := by
  simp only [floorTick, bind_ok_iff, Stable.ddiv_ok, Stable.dmul_ok] at h
  obtain ⟨q, ⟨h0, _, rfl⟩, _, rfl⟩ := h
  have e : v * DEC / t / DEC * DEC * t / DEC = v * DEC / t / DEC * t := by
    rw [Nat.mul_right_comm, Nat.mul_div_cancel _ (by decide)]
  rw [e]
  refine ⟨Dvd.intro_left _ rfl, ?_⟩
  rw [Nat.div_div_eq_div_mul, Nat.mul_comm t DEC, ← Nat.div_div_eq_div_mul, Nat.mul_div_cancel _ (by decide)]
  exact Nat.div_mul_le_self v t

theorem ceilTick_spec {v t r : Nat} (ht : t ≤ DEC) (h : ceilTick v t = .ok r) : t ∣ r ∧ v ≤ r := by
  simp only [ceilTick, bind_ok_iff, Stable.ddiv_ok, Stable.dmul_ok, u256_ok] at h
  obtain ⟨q, ⟨h0, _, rfl⟩, n, ⟨_, rfl⟩, _, rfl⟩ := h
  have hD : 0 < DEC := by decide
  have ht0 : 0 < t := Nat.pos_of_ne_zero h0
  have hq := Nat.lt_div_mul_add (a := v * DEC) (b := t) ht0
  generalize v * DEC / t = q at *
  have hm := Nat.div_add_mod q DEC
  split
  · rename_i hz
    have e : q * t / DEC = q / DEC * t := by
      rw [hz, Nat.add_zero] at hm
      conv_lhs => rw [← hm, Nat.mul_assoc]
      rw [Nat.mul_div_cancel_left _ hD]
    rw [e]
    refine ⟨Dvd.intro_left _ rfl, ?_⟩
    have e2 : q * t = q / DEC * t * DEC := by
      rw [hz, Nat.add_zero] at hm
      conv_lhs => rw [← hm]
      ring
    rw [e2] at hq
    by_contra hlt
    have : (q / DEC * t + 1) * DEC ≤ v * DEC := Nat.mul_le_mul_right _ (by omega)
    rw [Nat.add_mul] at this
    omega
  · have e : (q / DEC * DEC + DEC) * t / DEC = (q / DEC + 1) * t := by
      have : (q / DEC * DEC + DEC) * t = DEC * ((q / DEC + 1) * t) := by ring
      rw [this, Nat.mul_div_cancel_left _ hD]
    rw [e]
    refine ⟨Dvd.intro_left _ rfl, ?_⟩
    have hlt := Nat.mod_lt q hD
    have h1 : q + 1 ≤ (q / DEC + 1) * DEC := by
      rw [Nat.add_mul, Nat.mul_comm (q / DEC)]; omega
    have h2 : (q + 1) * t ≤ (q / DEC + 1) * DEC * t := Nat.mul_le_mul_right _ h1
    have h3 : v * DEC ≤ (q / DEC + 1) * t * DEC := by
      rw [Nat.add_mul] at h2
      have : (q / DEC + 1) * DEC * t = (q / DEC + 1) * t * DEC := by ring
      omega
    exact Nat.le_of_mul_le_mul_right h3 hD

/-- What is known about the first `m` buy and sell orders. -/
structure Built (pp : PParams) (p : Pool) (ag : AG) (d : Nat) (ixs : Bool → Nat) (ob : OB) (base quote m : Nat)
    (l : List Post) : Prop where
  lb : (buys l).length = m
  ls : (sells l).length = m
  amt : ∀ o ∈ buys l, o.amount = base
  tick : ∀ o ∈ sells l, ob.qtyTick ∣ o.amount
  buy : ∀ k, 0 < k → k ≤ m → ∃ q, curve pp p ag d ixs (k * base) true = .ok q ∧ floored ((buys l).take k) ≤ q
  sell : ∀ k, k < m → ∃ o c, (sells l)[k]? = some o ∧ curve pp p ag d ixs ((k + 1) * quote) false = .ok c ∧
    o.amount * (k + 1) ≤ c ∧
    (ob.priceTick ≤ DEC → (k + 1) * quote * DEC ≤ total ((sells l).take (k + 1)) + o.amount)

theorem built_next {pp : PParams} {p : Pool} {ag : AG} {d : Nat} {ixs : Bool → Nat} {ob : OB} {base quote m : Nat}
    {acc : List Post} {a b : Post} {sp bp : Nat} (hb : Built pp p ag d ixs ob base quote m acc)
    (hl : level pp p ag d ixs ob base quote acc (m + 1) = .ok (a, b)) (hsp : ceilTick a.price ob.priceTick = .ok sp)
    (hbp : floorTick b.price ob.priceTick = .ok bp) :
    Built pp p ag d ixs ob base quote (m + 1) (acc ++ [{ a with price := sp }, { b with price := bp }]) := by
  have hD : 0 < DEC := by decide
  simp only [level, bind_ok_iff, Stable.dmul_ok, Stable.ddiv_ok, csub_ok, Except.ok.injEq, Prod.mk.injEq,
    Stable.mul_kDEC] at hl
  obtain ⟨_, ⟨_, rfl⟩, cs, hcs, _, ⟨_, rfl⟩, sa, hsa, v1, hv1, _, ⟨hle1, rfl⟩, sp0, ⟨hsa0, _, rfl⟩, _, ⟨_, rfl⟩, cb, hcb,
    v2, hv2, _, ⟨hle2, rfl⟩, bp0, ⟨hbase0, _, rfl⟩, rfl, rfl⟩ := hl
  dsimp only at hsp hbp
  have hv1' := sideValue_sell hv1
  have hv2' := sideValue_buy hv2
  have z1 : (if m + 1 > 1 then v1 else 0) = floored (sells acc) := by
    split
    · exact hv1'
    · have : sells acc = [] := List.length_eq_zero_iff.1 (by rw [hb.ls]; omega)
      rw [this]; rfl
  have z2 : (if m + 1 > 1 then v2 else 0) = floored (buys acc) := by
    split
    · exact hv2'
    · have : buys acc = [] := List.length_eq_zero_iff.1 (by rw [hb.lb]; omega)
      rw [this]; rfl
  have z3 : (if m + 1 > 1 then base else (m + 1) * base) = base := by
    split
    · rfl
    · have : m = 0 := by omega
      subst this; omega
  rw [z1] at hle1 hsp
  rw [z2, z3] at hbp
  rw [z2] at hle2
  have eb : buys (acc ++ [⟨false, sp, sa⟩, ⟨true, bp, base⟩]) = buys acc ++ [⟨true, bp, base⟩] := by
    simp [buys]
  have es : sells (acc ++ [⟨false, sp, sa⟩, ⟨true, bp, base⟩]) = sells acc ++ [⟨false, sp, sa⟩] := by
    simp [sells]
  refine ⟨?_, ?_, ?_, ?_, ?_, ?_⟩
  · rw [eb, List.length_append, hb.lb]; rfl
  · rw [es, List.length_append, hb.ls]; rfl
  · rw [eb]; intro o ho
    rcases List.mem_append.1 ho with ho | ho
    · exact hb.amt o ho
    · rw [List.mem_singleton.1 ho]
  · rw [es]; intro o ho
    rcases List.mem_append.1 ho with ho | ho
    · exact hb.tick o ho
    · rw [List.mem_singleton.1 ho]
      exact (floorTick_spec hsa).1
  · intro k hk0 hk
    rw [eb]
    rcases Nat.lt_or_ge m k with hlt | hge
    · have : k = m + 1 := by omega
      subst this
      refine ⟨cb, hcb, ?_⟩
      rw [List.take_of_length_le (by rw [List.length_append, hb.lb]; simp), floored_append]
      have h1 := (floorTick_spec hbp).2
      have h2 := Nat.div_mul_le_self ((cb - floored (buys acc)) * DEC) base
      have h3 : bp * base ≤ (cb - floored (buys acc)) * DEC := le_trans (Nat.mul_le_mul_right _ h1) h2
      have h4 : bp * base / DEC ≤ cb - floored (buys acc) := by
        have := Nat.div_le_div_right (c := DEC) h3
        rwa [Nat.mul_div_cancel _ hD] at this
      simp only [floored, List.map_cons, List.map_nil, List.sum_cons, List.sum_nil] at *
      omega
    · obtain ⟨q, hq, hle⟩ := hb.buy k hk0 hge
      refine ⟨q, hq, ?_⟩
      rwa [List.take_append_of_le_length (by rw [hb.lb]; exact hge)]
  · intro k hk
    rw [es]
    rcases Nat.lt_or_ge k m with hlt | hge
    · obtain ⟨o, c, ho, hc, ha, hs⟩ := hb.sell k hlt
      refine ⟨o, c, ?_, hc, ha, ?_⟩
      · rwa [List.getElem?_append_left (by rw [hb.ls]; exact hlt)]
      · rwa [List.take_append_of_le_length (by rw [hb.ls]; exact hlt)]
    · have : k = m := by omega
      subst this
      refine ⟨⟨false, sp, sa⟩, cs, ?_, hcs, ?_, ?_⟩
      · rw [List.getElem?_append_right (by rw [hb.ls])]; simp [hb.ls]
      · have h1 := (floorTick_spec hsa).2
        dsimp only
        have h2 : cs * (DEC / (k + 1)) / DEC * (k + 1) ≤ cs := by
          have h3 : DEC / (k + 1) * (k + 1) ≤ DEC := Nat.div_mul_le_self _ _
          have h4 := Nat.div_mul_le_self (cs * (DEC / (k + 1))) DEC
          have h5 : cs * (DEC / (k + 1)) / DEC * (k + 1) * DEC ≤ cs * DEC := by
            calc cs * (DEC / (k + 1)) / DEC * (k + 1) * DEC
                = cs * (DEC / (k + 1)) / DEC * DEC * (k + 1) := by ring
              _ ≤ cs * (DEC / (k + 1)) * (k + 1) := Nat.mul_le_mul_right _ h4
              _ = cs * (DEC / (k + 1) * (k + 1)) := by ring
              _ ≤ cs * DEC := Nat.mul_le_mul_left _ h3
          exact Nat.le_of_mul_le_mul_right h5 hD
        exact le_trans (Nat.mul_le_mul_right _ h1) h2
      · intro htk
        dsimp only
        rw [List.take_of_length_le (by rw [List.length_append, hb.ls]; simp), total_append]
        have h1 := (ceilTick_spec htk hsp).2
        have h2 := Nat.lt_div_mul_add (a := ((k + 1) * quote - floored (sells acc)) * DEC) (b := sa)
          (Nat.pos_of_ne_zero hsa0)
        have h3 := Nat.mul_le_mul_right sa h1
        have h4 := (floored_le (sells acc)).1
        rw [Nat.sub_mul] at h2 h3
        simp only [total, List.map_cons, List.map_nil, List.sum_cons, List.sum_nil] at *
        omega

theorem buildOrders_built {pp : PParams} {p : Pool} {ag : AG} {d : Nat} {ixs : Bool → Nat} {ob : OB} {base quote : Nat} :
    ∀ {fuel m : Nat} {acc l : List Post}, Built pp p ag d ixs ob base quote m acc →
      buildOrders pp p ag d ixs ob base quote fuel (m + 1) acc = .ok (some l) →
      Built pp p ag d ixs ob base quote (m + fuel) l := by
  intro fuel
  induction fuel with
  | zero =>
    intro m acc l hb h
    simp only [buildOrders, Except.ok.injEq, Option.some.injEq] at h
    rw [← h]; exact hb
  | succ fuel ih =>
    intro m acc l hb h
    simp only [buildOrders, bind_ok_iff, Prod.exists] at h
    obtain ⟨a, b, hl, h⟩ := h
    split at h
    · simp at h
    · simp only [bind_ok_iff] at h
      obtain ⟨sp, hsp, bp, hbp, h⟩ := h
      have := ih (built_next hb hl hsp hbp) h
      rwa [show m + (fuel + 1) = m + 1 + fuel by omega]

theorem built_empty (pp : PParams) (p : Pool) (ag : AG) (d : Nat) (ixs : Bool → Nat) (ob : OB) (base quote : Nat) :
    Built pp p ag d ixs ob base quote 0 [] :=
  ⟨rfl, rfl, by simp [buys], by simp [sells], by intro k h1 h2; omega, by intro k hk; omega⟩

/-- One order in units of the chain: `K` and `L` are the units of the first and of the second asset. -/
def Sent (K L : Nat) (o m : Post) : Prop :=
  m.buy = o.buy ∧ m.amount = K * o.amount ∧ (o.buy = true → m.price * K ≤ o.price * L)

theorem toMarket_spec {su : Setup} {ob : OB} {o m : Post} (h : toMarket su ob o = .ok m) :
    Sent (10 ^ su.prec false) (10 ^ su.prec true) o m := by
  have hD : 0 < DEC := by decide
  simp only [toMarket, bind_ok_iff, Stable.dmul_ok, Stable.ddiv_ok, Except.ok.injEq, Stable.mul_kDEC] at h
  obtain ⟨r, ⟨_, _, rfl⟩, t, ⟨_, rfl⟩, price, hp, _, ⟨_, rfl⟩, rfl⟩ := h
  refine ⟨rfl, rfl, fun hb => ?_⟩
  rw [hb, if_pos rfl] at hp
  have h1 := (floorTick_spec hp).2
  dsimp only
  generalize 10 ^ su.prec false = K at *
  generalize 10 ^ su.prec true = L at *
  have h2 := Nat.div_mul_le_self (L * DEC * DEC) (K * DEC)
  generalize L * DEC * DEC / (K * DEC) = r at *
  have h3 := Nat.div_mul_le_self (o.price * r) DEC
  have h4 : r * K ≤ L * DEC := by
    have : r * K * DEC ≤ L * DEC * DEC := by calc r * K * DEC = r * (K * DEC) := by ring
      _ ≤ _ := h2
    exact Nat.le_of_mul_le_mul_right this hD
  have h5 : price * K * DEC ≤ o.price * L * DEC := by
    calc price * K * DEC ≤ o.price * r / DEC * K * DEC := by gcongr
      _ = o.price * r / DEC * DEC * K := by ring
      _ ≤ o.price * r * K := by gcongr
      _ = o.price * (r * K) := by ring
      _ ≤ o.price * (L * DEC) := by gcongr
      _ = _ := by ring
  exact Nat.le_of_mul_le_mul_right h5 hD

theorem collect_spec {su : Setup} {ob : OB} : ∀ {l ms : List Post}, collect su ob l = .ok ms →
    List.Forall₂ (Sent (10 ^ su.prec false) (10 ^ su.prec true)) l ms := by
  intro l
  induction l with
  | nil => intro ms h; simp only [collect, Except.ok.injEq] at h; rw [← h]; exact .nil
  | cons o l ih =>
    intro ms h
    simp only [collect, bind_ok_iff, Except.ok.injEq] at h
    obtain ⟨m, hm, ms', hms, rfl⟩ := h
    exact .cons (toMarket_spec hm) (ih hms)

theorem sent_filter {K L : Nat} {q : Bool → Bool} {l ms : List Post} (h : List.Forall₂ (Sent K L) l ms) :
    List.Forall₂ (Sent K L) (l.filter fun o => q o.buy) (ms.filter fun o => q o.buy) := by
  induction h with
  | nil => exact .nil
  | cons h _ ih =>
    rw [List.filter_cons, List.filter_cons, h.1]
    split
    · exact .cons h ih
    · exact ih

theorem sent_total {K L : Nat} {l ms : List Post} (h : List.Forall₂ (Sent K L) l ms) (hb : ∀ o ∈ l, o.buy = true) :
    total ms ≤ total l * L := by
  induction h with
  | nil => simp [total]
  | @cons o m l ms h _ ih =>
    have := ih (fun o ho => hb o (List.mem_cons_of_mem _ ho))
    have h1 : m.price * m.amount ≤ o.price * o.amount * L := by
      rw [h.2.1]
      have := h.2.2 (hb o List.mem_cons_self)
      calc m.price * (K * o.amount) = m.price * K * o.amount := by ring
        _ ≤ o.price * L * o.amount := by gcongr
        _ = _ := by ring
    simp only [total, List.map_cons, List.sum_cons, Nat.add_mul] at *
    omega

/-- The reserves after executed orders were accounted for are the reserves that are left once the fee is paid. -/
theorem settle_reserves {su : Setup} {me : A} {s : State A} {now : Nat} {f : FeeInfo A} {xs xs' : Bool → Nat}
    {pool : Pool} {fee : Option (Fee A)} {bal : Bool → A → Nat} (hme : f.addr ≠ some me)
    (hxs : pools su (fun i => s.pcl.bal i me) s.sub = .ok xs)
    (h : settle su s.pcl now f s.ob.last s.sub xs = .ok (pool, xs', fee)) (hp : payFee me s.pcl.bal fee = .ok bal) :
    ∀ i, xs' i = (bal i me + s.sub i) * 10 ^ (18 - su.prec i) := by
  have hx := pools_ok hxs
  have hnone : fee = none → xs' = xs → ∀ i, xs' i = (bal i me + s.sub i) * 10 ^ (18 - su.prec i) := by
    rintro rfl rfl i
    simp only [payFee, Except.ok.injEq] at hp
    rw [(hx i).2.1, ← hp]
  rcases settle_cases h with ⟨_, _, h1, h2⟩ | ⟨_, h⟩
  · exact hnone h2 h1
  · simp only [process, bind_ok_iff, Prod.exists] at h
    obtain ⟨x1, _, xs1, i0, i1, fee', ht, _, _, _, _, _, _, _, _, _, _, h2⟩ := h
    simp only [Except.ok.injEq, Prod.mk.injEq] at h2
    obtain ⟨_, rfl, rfl⟩ := h2
    unfold tradeFee at ht
    cases hd : f.addr with
    | none =>
      rw [hd] at ht
      simp only [Except.ok.injEq, Prod.mk.injEq] at ht
      exact hnone ht.2.2.2.symm ht.1.symm
    | some dst =>
      have hdm : me ≠ dst := fun hh => hme (by rw [hd, hh])
      have fin : ∀ (j : Bool) (n feeD : Nat), fee' = some ⟨j, dst, n⟩ → Stable.withPrec n (su.prec j) = .ok feeD →
          feeD ≤ xs j → xs1 = Duality.set2 xs j (xs j - feeD) →
          ∀ i, xs1 i = (bal i me + s.sub i) * 10 ^ (18 - su.prec i) := by
        intro j n feeD hf hw hle he i
        rw [hf] at hp
        simp only [payFee, Duality.bank, bind_ok_iff, require_ok, exists_const, Except.ok.injEq] at hp
        obtain ⟨l, ⟨_, hl⟩, rfl⟩ := hp
        rw [Stable.withPrec_ok] at hw
        have hlm := move_apply hl me
        rw [if_pos rfl, if_neg hdm] at hlm
        have hle2 := move_le hl
        rw [he, Duality.set2_apply, Duality.set2_apply]
        split
        · rename_i hij
          subst hij
          rw [(hx i).2.1, ← hw.2.2, ← Nat.sub_mul]
          congr 1
          omega
        · exact (hx i).2.1
      rw [hd] at ht
      simp only [bind_ok_iff, u128_ok] at ht
      obtain ⟨rate, _, _, ⟨_, rfl⟩, ht⟩ := ht
      split at ht
      · simp only [bind_ok_iff, u128_ok, Except.ok.injEq, Prod.mk.injEq, csub_ok] at ht
        obtain ⟨_, ⟨_, rfl⟩, feeD, hw, _, ⟨hle, rfl⟩, h1, _, _, h2⟩ := ht
        exact fin false _ feeD h2.symm hw hle h1.symm
      · split at ht
        · simp only [bind_ok_iff, u128_ok, Except.ok.injEq, Prod.mk.injEq, csub_ok] at ht
          obtain ⟨_, ⟨_, rfl⟩, feeD, hw, _, _, _, _, _, ⟨hle, rfl⟩, h1, _, _, h2⟩ := ht
          exact fin true _ feeD h2.symm hw hle h1.symm
        · cases ht

/-- The curve of the orders is the curve of swaps. -/
theorem curve_swap {pp : PParams} {p : Pool} {now : Nat} {xs : Bool → Nat} {ag : AG} {d n q : Nat} {ms fs : Nat} {j : Bool}
    {r : PCL.Swapped} (hag : ampGamma p now = .ok ag) (hd : calcD ag (xs false) (xs true * p.price.scale / DEC) = .ok d)
    (hq : curve pp p ag d (fun i => if i then xs true * p.price.scale / DEC else xs false) n j = .ok q)
    (hr : PCL.computeSwap pp p now xs (!j) n ms fs = .ok r) : r.dy = q := by
  simp only [PCL.computeSwap, bind_ok_iff, Stable.dmul_ok] at hr
  obtain ⟨_, ⟨_, rfl⟩, ag', hag', d', hd', hr⟩ := hr
  rw [hag] at hag'
  cases hag'
  rw [hd] at hd'
  cases hd'
  unfold curve at hq
  cases j
  all_goals
    simp only [Bool.not_false, Bool.not_true, if_true, bind_ok_iff, Bool.false_eq_true, if_false] at hq hr
    obtain ⟨o, ho, x, hx, y, hy, dy, hdy, dy', hdy', rate, hrate, fee, hfee, hq⟩ := hq
    obtain ⟨o2, ho2, x2, hx2, y2, hy2, dy2, hdy2, dy2', hdy2', _, _, rate2, hrate2, fee2, hfee2, net, hnet, _, _, _, _, _,
      _, hr⟩ := hr
    rw [ho] at ho2; cases ho2
    rw [hx] at hx2; cases hx2
    rw [hy] at hy2; cases hy2
    rw [hdy] at hdy2; cases hdy2
    rw [hdy'] at hdy2'; cases hdy2'
    rw [hrate] at hrate2; cases hrate2
    rw [Stable.dmul_ok] at hfee
    have hff : fee2 = fee := hfee2.2.symm.trans hfee.2
    subst hff
    rw [hq] at hnet; cases hnet
    simp only [Except.ok.injEq] at hr
    rw [← hr]

/-! ## C119: prices -/

/-- The reserves of the pair, in its own balance and on the exchange, in 18 digits. -/
def reserves (su : Setup) (me : A) (s : State A) (i : Bool) : Nat := held me s i * 10 ^ (18 - su.prec i)

/-- The pair has placed new orders at the beginning of a block. -/
def Posted (su : Setup) (me : A) (now : Nat) (fo : A) (s s' : State A) (e : Env A) : Prop :=
  exec su me now fo s (.block e) = .ok s' ∧ s' ≠ s ∧ s'.posted ≠ []

theorem posted_spec {su : Setup} {me : A} {now : Nat} {fo : A} {s s' : State A} {e : Env A}
    (hme : e.f.addr ≠ some me) (h : Posted su me now fo s s' e) :
    ∃ l base quote ag d, ampGamma s'.pcl.pool now = .ok ag ∧
      calcD ag (reserves su me s' false) (reserves su me s' true * s'.pcl.pool.price.scale / DEC) = .ok d ∧
      Built s'.pcl.params s'.pcl.pool ag d (fun i => if i then reserves su me s' true * s'.pcl.pool.price.scale / DEC
        else reserves su me s' false) s'.ob base quote s'.ob.number l ∧ base ≠ 0 ∧ totalDeposit su l = .ok s'.sub ∧
      collect su s'.ob l = .ok s'.posted := by
  obtain ⟨h, hne, hpost⟩ := h
  obtain ⟨_, hx⟩ := exec_cases h
  rcases hx with ⟨_, _, _, _, _, _, hx, _⟩ | ⟨_, _, _, hx, _⟩ | ⟨_, _, _, _, _, _, _, _, hx, _⟩ | ⟨_, _, _, hx, _⟩ |
      ⟨_, _, _, hx, _⟩ | ⟨_, _, hx, _⟩ | ⟨_, _, hx, _⟩ | ⟨_, hx, hy⟩ | ⟨hx, _⟩ | ⟨_, _, hx, _⟩ <;> cases hx
  rcases beginBlock_spec hy with hs | ⟨_, _, _, xs, pool, xs', fee, hxs, hset, hs | ⟨bal, b0, b1, l, need, base, quote, ag,
    dd, hp, hb0, hb1, hag, hd, hl, hbase, hdep, hcol, hs⟩⟩
  · exact absurd hs hne
  · rw [hs] at hpost; exact absurd rfl hpost
  · have hr := settle_reserves hme hxs hset hp
    have hres : ∀ i, reserves su me s' i = xs' i := by
      intro i
      rw [hr i, reserves, held, hs]
      congr 1
      cases i
      · exact adjust_self hb0
      · exact adjust_self hb1
    have e1 : s'.pcl.pool = pool := by rw [hs]
    have e2 : s'.pcl.params = s.pcl.params := by rw [hs]
    have e3 : s'.sub = need := by rw [hs]
    have hb := buildOrders_built (built_empty _ _ _ _ _ _ _ _) hl
    have e4 : ∀ {pp : PParams} {p : Pool} {a : AG} {d : Nat} {x : Bool → Nat} {b q m : Nat} {l : List Post},
        Built pp p a d x s.ob b q m l → Built pp p a d x s'.ob b q m l := by
      intro _ _ _ _ _ _ _ _ _ hb
      rw [hs]
      exact ⟨hb.lb, hb.ls, hb.amt, hb.tick, hb.buy, hb.sell⟩
    have e5 : s'.ob.number = s.ob.number := by rw [hs]
    have e6 : ∀ l, collect su s'.ob l = collect su s.ob l := by
      intro l
      rw [hs]
      induction l with
      | nil => rfl
      | cons o l ih =>
        unfold collect
        dsimp only at ih
        rw [ih]
        rfl
    refine ⟨l, base, quote, ag, dd, ?_, ?_, ?_, hbase, ?_, ?_⟩
    · rw [e1]; exact hag
    · rw [hres, hres, e1]; exact hd
    · rw [hres, hres, e1, e2, e5, ← Nat.zero_add s.ob.number]; exact e4 hb
    · rw [e3]; exact hdep
    · rw [e6]; exact hcol

/-- **C119 (partial).** Buy orders are never better than the pool: of the orders the pair has placed, the first `k` buy
orders, taken together, pay no more of the second asset than the pool itself would pay, after its fee, for a swap of the
same amount of the first asset (up to 10^-18 per order).  All of them are for the same amount.  Prices and amounts are
the ones sent to the exchange.  Missing: sell orders, see the violation below. -/
theorem C119_buy_orders_on_curve_partial (su : Setup) (me : A) (now : Nat) (fo : A) (s s' : State A) (e : Env A)
    (hme : e.f.addr ≠ some me) (h : Posted su me now fo s s' e) :
    ∃ base, (buys s'.posted).length = s'.ob.number ∧ (∀ o ∈ buys s'.posted, o.amount = 10 ^ su.prec false * base) ∧
      ∀ k, 0 < k → k ≤ s'.ob.number → ∀ ms fs r,
        PCL.computeSwap s'.pcl.params s'.pcl.pool now (reserves su me s') false (k * base) ms fs = .ok r →
        total ((buys s'.posted).take k) ≤ (r.dy + k) * 10 ^ 18 * 10 ^ su.prec true := by
  obtain ⟨l, base, quote, ag, d, hag, hd, hb, _, _, hc⟩ := posted_spec hme h
  have hf := sent_filter (q := fun b => b) (collect_spec hc)
  have hlen : (buys s'.posted).length = (buys l).length := hf.length_eq.symm
  refine ⟨base, by rw [hlen, hb.lb], ?_, ?_⟩
  · intro o ho
    obtain ⟨i, hi⟩ := List.mem_iff_getElem.1 ho
    obtain ⟨hi, rfl⟩ := hi
    have hs := hf.get (i := i) (hlen ▸ hi : i < (buys l).length) hi
    simp only [List.get_eq_getElem] at hs
    exact hs.2.1.trans (congrArg _ (hb.amt _ (List.getElem_mem _)))
  · intro k hk0 hk ms fs r hr
    obtain ⟨q, hq, hle⟩ := hb.buy k hk0 hk
    have hrq : r.dy = q := curve_swap (j := true) hag hd hq hr
    have ht := sent_total (List.forall₂_take k hf) (fun o ho => by
      have := List.mem_of_mem_take ho
      exact (List.mem_filter.1 this).2)
    have h2 := (floored_le ((buys l).take k)).2
    have h3 : ((buys l).take k).length ≤ k := List.length_take_le k _
    rw [hrq]
    refine le_trans ht (Nat.mul_le_mul_right _ (le_trans h2 ?_))
    rw [← Nat.add_mul]
    exact Nat.mul_le_mul_right _ (by omega)

/-- A sell order in units of the chain. -/
def Asked (K L : Nat) (o m : Post) : Prop := m.amount = K * o.amount ∧ o.price * L ≤ (m.price + 1) * K

theorem toMarket_sell {su : Setup} {ob : OB} {o m : Post} (hp0 : su.prec false ≤ 18) (ht : ob.priceTick ≤ DEC)
    (hs : o.buy = false) (h : toMarket su ob o = .ok m) : Asked (10 ^ su.prec false) (10 ^ su.prec true) o m := by
  have hD : 0 < DEC := by decide
  simp only [toMarket, bind_ok_iff, Stable.dmul_ok, Stable.ddiv_ok, Except.ok.injEq, Stable.mul_kDEC] at h
  obtain ⟨r, ⟨_, _, rfl⟩, t, ⟨_, rfl⟩, price, hp, _, ⟨_, rfl⟩, rfl⟩ := h
  refine ⟨rfl, ?_⟩
  rw [hs, if_neg (by decide)] at hp
  have h1 := (ceilTick_spec ht hp).2
  dsimp only
  have hK : 10 ^ su.prec false * 10 ^ (18 - su.prec false) = DEC := by
    rw [← Nat.pow_add, Nat.add_sub_cancel' hp0]; rfl
  have hK0 : 0 < 10 ^ su.prec false := Nat.pow_pos (by decide)
  generalize 10 ^ su.prec false = K at *
  generalize 10 ^ su.prec true = L at *
  have h2 : L * DEC * DEC / (K * DEC) = L * 10 ^ (18 - su.prec false) := by
    rw [Nat.mul_div_mul_right _ _ hD, ← hK, Nat.mul_comm K, ← Nat.mul_assoc, Nat.mul_div_cancel _ hK0]
  rw [h2] at h1
  have h3 := Nat.lt_div_mul_add (a := o.price * (L * 10 ^ (18 - su.prec false))) (b := DEC) hD
  generalize o.price * (L * 10 ^ (18 - su.prec false)) / DEC = t at *
  generalize 10 ^ (18 - su.prec false) = U at *
  have h4 : o.price * L * DEC ≤ (price + 1) * K * DEC := by
    calc o.price * L * DEC = o.price * (L * U) * K := by rw [← hK]; ring
      _ ≤ (t * DEC + DEC) * K := Nat.mul_le_mul_right _ (by omega)
      _ = (t + 1) * K * DEC := by ring
      _ ≤ (price + 1) * K * DEC := by gcongr
  exact Nat.le_of_mul_le_mul_right h4 hD

theorem collect_sells {su : Setup} {ob : OB} (hp0 : su.prec false ≤ 18) (ht : ob.priceTick ≤ DEC) :
    ∀ {l ms : List Post}, collect su ob l = .ok ms →
    List.Forall₂ (Asked (10 ^ su.prec false) (10 ^ su.prec true)) (sells l) (sells ms) := by
  intro l
  induction l with
  | nil => intro ms h; simp only [collect, Except.ok.injEq] at h; rw [← h]; exact .nil
  | cons o l ih =>
    intro ms h
    simp only [collect, bind_ok_iff, Except.ok.injEq] at h
    obtain ⟨m, hm, ms', hms, rfl⟩ := h
    have hb := (toMarket_spec hm).1
    unfold sells
    rw [List.filter_cons, List.filter_cons, hb]
    cases hs : o.buy
    · exact .cons (toMarket_sell hp0 ht hs hm) (ih hms)
    · exact ih hms

theorem asked_total {K L : Nat} {l ms : List Post} (h : List.Forall₂ (Asked K L) l ms) :
    total l * L ≤ total ms + (ms.map fun o => o.amount).sum := by
  induction h with
  | nil => simp [total]
  | @cons o m l ms h _ ih =>
    have h1 : o.price * o.amount * L ≤ m.price * m.amount + m.amount := by
      rw [h.1]
      calc o.price * o.amount * L = o.price * L * o.amount := by ring
        _ ≤ (m.price + 1) * K * o.amount := Nat.mul_le_mul_right _ h.2
        _ = _ := by ring
    simp only [total, List.map_cons, List.sum_cons, Nat.add_mul] at *
    omega

theorem prec_le {su : Setup} {l : List Post} {n : Bool → Nat} (h : totalDeposit su l = .ok n) : ∀ i, su.prec i ≤ 18 := by
  simp only [totalDeposit, bind_ok_iff, Stable.toU128_ok] at h
  obtain ⟨_, _, _, _, _, ⟨h1, _⟩, _, ⟨h2, _⟩, _⟩ := h
  intro i; cases i <;> assumption

/-- **C119 (partial).** Sell order number `k + 1` is for at most the average amount the pool gives for `k + 1` trades of
the usual size `quote`, and the first `k + 1` sell orders together ask for at least the value of these trades (up to
10^-18 per unit).  So the first sell order is never better than the pool; missing: the others are, see the next
theorem. -/
theorem C119_sell_orders_partial (su : Setup) (me : A) (now : Nat) (fo : A) (s s' : State A) (e : Env A)
    (hme : e.f.addr ≠ some me) (ht : s'.ob.priceTick ≤ 10 ^ 18) (h : Posted su me now fo s s' e) :
    ∃ quote, (sells s'.posted).length = s'.ob.number ∧ ∀ k, k < s'.ob.number →
      ∃ o a, (sells s'.posted)[k]? = some o ∧ o.amount = 10 ^ su.prec false * a ∧
        (∀ ms fs r, PCL.computeSwap s'.pcl.params s'.pcl.pool now (reserves su me s') true ((k + 1) * quote) ms fs = .ok r →
          a * (k + 1) ≤ r.dy) ∧
        (k + 1) * quote * 10 ^ 18 * 10 ^ su.prec true ≤ total ((sells s'.posted).take (k + 1)) +
          (((sells s'.posted).take (k + 1)).map fun o => o.amount).sum + a * 10 ^ su.prec true := by
  obtain ⟨l, base, quote, ag, d, hag, hd, hb, _, hdep, hc⟩ := posted_spec hme h
  have hf := collect_sells (prec_le hdep false) ht hc
  have hlen : (sells s'.posted).length = (sells l).length := hf.length_eq.symm
  refine ⟨quote, by rw [hlen, hb.ls], fun k hk => ?_⟩
  obtain ⟨o, c, ho, hcv, hle, hs⟩ := hb.sell k hk
  have hk1 : k < (sells l).length := by rw [hb.ls]; exact hk
  have hk2 : k < (sells s'.posted).length := by rw [hlen]; exact hk1
  have hg := hf.get hk1 hk2
  simp only [List.get_eq_getElem] at hg
  have ho' : (sells l)[k] = o := by
    rw [List.getElem?_eq_getElem hk1] at ho
    exact Option.some.inj ho
  rw [ho'] at hg
  refine ⟨(sells s'.posted)[k], o.amount, List.getElem?_eq_getElem hk2, hg.1, fun ms fs r hr => ?_, ?_⟩
  · have : r.dy = c := curve_swap (j := false) hag hd hcv hr
    rw [this]; exact hle
  · have h1 := asked_total (List.forall₂_take (k + 1) hf)
    have h2 := Nat.mul_le_mul_right (10 ^ su.prec true) (hs ht)
    rw [Nat.add_mul (total ((sells l).take (k + 1)))] at h2
    have h3 : (k + 1) * quote * DEC * 10 ^ su.prec true = (k + 1) * quote * 10 ^ 18 * 10 ^ su.prec true := rfl
    rw [← h3]
    omega

/-- The pool of the examples with five orders per side. -/
def demoFive : Res (State Nat) :=
  create demoSetup (fun _ a => if a = 0 then 0 else 10 ^ 15) demoParams (40 * 10 ^ 18) (145 * 10 ^ 12) (10 ^ 18) 1000
    5 1 (10 ^ 15) (1000 * 10 ^ 18)

/-- Usual trades are for 100 of either coin. -/
def busy : Env Nat := { quiet with avg := some (10 ^ 8, 10 ^ 8) }

/-- A deposit, a small swap, and the pair places its orders. -/
def startFive : List (Event Nat) :=
  [⟨2000, 1, .provide 2 (fun _ => 10 ^ 9) none 2 quiet⟩, ⟨2000, 1, .swap 3 false 100000 none none 3 quiet⟩,
   ⟨2000, 1, .block busy⟩]

/-- **C119 (violated).** The English claim: the first `k` sell orders together give no more than the pool gives for what
they ask.  In the example the five sell orders give 394.096 of the first asset for 500.032584 of the second, for which
the pool itself gives 336.14: whoever takes them gains 17 percent at the expense of the liquidity providers.  After all
of them were taken, the value of LP tokens has fallen, so that every swap, deposit and call at the beginning of a block
fails, at all later times and for all accounts and amounts, as long as no fee is taken (no receiver is needed). -/
theorem C119_sell_orders_below_curve_violated :
    ∃ s, demoFive = .ok s ∧
    (let z := run demoSetup 0 s startFive
     ((sells z.posted).map fun o => o.amount).sum = 394096000 * 10 ^ 18 ∧
     total (sells z.posted) = 500032584 * 10 ^ 36 ∧
     (∃ r, PCL.computeSwap z.pcl.params z.pcl.pool 2000 (reserves demoSetup 0 z) true (500032584 * 10 ^ 12) 0 0 = .ok r ∧
       r.dy < 336138 * 10 ^ 15) ∧
     (let w := run demoSetup 0 z [⟨2500, 1, .fill (fun i => if i then 0 else 394096000)
        (fun i => if i then 500032584 else 0)⟩]
      w.sub false = 0 ∧ w.sub true = z.sub true + 500032584 ∧
      ∀ now fo o e, 2500 ≤ now → o.env = some e → e.f = quiet.f → fails (exec demoSetup 0 now fo w o) = true)) := by
  have hx : okAnd demoFive (fun s =>
      let z := run demoSetup 0 s startFive
      let w := run demoSetup 0 z [⟨2500, 1, .fill (fun i => if i then 0 else 394096000)
        (fun i => if i then 500032584 else 0)⟩]
      decide (((sells z.posted).map fun o => o.amount).sum = 394096000 * 10 ^ 18 ∧
        total (sells z.posted) = 500032584 * 10 ^ 36) &&
      (okAnd (PCL.computeSwap z.pcl.params z.pcl.pool 2000 (reserves demoSetup 0 z) true (500032584 * 10 ^ 12) 0 0)
        (fun r => decide (r.dy < 336138 * 10 ^ 15)) &&
      (decide (w.sub false = 0 ∧ w.sub true = z.sub true + 500032584) &&
      (lossy demoSetup 0 w quiet.f && decide (changed w.ob.last w.sub ∧ w.pcl.pool.price.real ≠ 0 ∧
        w.ob.ready = true ∧ w.ob.enabled = true ∧ w.pcl.pool.futureTime = 1000))))) = true := by decide +kernel
  obtain ⟨s, hs, h⟩ := okAnd_iff.1 hx
  simp only [Bool.and_eq_true, decide_eq_true_eq] at h
  obtain ⟨⟨h1, h2⟩, h3, ⟨h4, h4'⟩, h5, h6, h7, h8, h9, h10⟩ := h
  obtain ⟨r, hr, h3⟩ := okAnd_iff.1 h3
  refine ⟨s, hs, h1, h2, ⟨r, hr, of_decide_eq_true h3⟩, h4, h4', ?_⟩
  intro now fo o e hn he hf
  exact lossy_fails h5 h6 h7 h8 h9 (by omega) he hf

/-- Non-vacuity of the two partial theorems: the orders of that block. -/
example : okAnd demoFive (fun s =>
    okAnd (exec demoSetup 0 2000 1 (run demoSetup 0 s (startFive.take 2)) (.block busy)) (fun z =>
      decide ((buys z.posted).length = 5 ∧ z.ob.number = 5 ∧ z.ob.priceTick ≤ 10 ^ 18 ∧
        (buys z.posted).map (fun o => o.amount) = List.replicate 5 (10 ^ 8 * 10 ^ 18) ∧
        total ((buys z.posted).take 2) = 168800000 * 10 ^ 36) &&
      okAnd (PCL.computeSwap z.pcl.params z.pcl.pool 2000 (reserves demoSetup 0 z) false (2 * (100 * 10 ^ 18)) 0 0)
        (fun r => decide (168800000 * 10 ^ 12 ≤ r.dy ∧ r.dy ≤ 168900000 * 10 ^ 12)))) = true := by
  decide +kernel

/-! ## C121: the deposit -/

theorem tick_units {su : Setup} {me : A} (hp : su.prec false ≤ 18) {s : State A} (hr : Reachable su me s) :
    10 ^ (18 - su.prec false) ∣ s.ob.qtyTick := by
  have key : ∀ q : Nat, 10 ^ (18 - su.prec false) ∣ q * 10 ^ 18 / 10 ^ su.prec false := by
    intro q
    have : 10 ^ 18 = 10 ^ (18 - su.prec false) * 10 ^ su.prec false := by
      rw [← Nat.pow_add, Nat.sub_add_cancel hp]
    rw [this, ← Nat.mul_assoc, Nat.mul_div_cancel _ (Nat.pow_pos (by decide))]
    exact Dvd.intro_left _ rfl
  obtain ⟨_, _, _, _, _, _, _, _, _, _, s0, es, h0, rfl⟩ := hr
  have hi : 10 ^ (18 - su.prec false) ∣ s0.ob.qtyTick := by
    simp only [create, newOB, setTicks, bind_ok_iff, require_ok, exists_const, Except.ok.injEq,
      dec256FromRatio_ok] at h0
    obtain ⟨_, ⟨_, _, _, ⟨_, _, rfl⟩, _, rfl⟩, _, _, rfl⟩ := h0
    exact key _
  clear h0
  induction es generalizing s0 with
  | nil => exact hi
  | cons e rest ih =>
    have hrun : run su me s0 (e :: rest) = run su me (step su me s0 e) rest := rfl
    rw [hrun]
    refine ih _ ?_
    unfold step
    cases hx : exec su me e.now e.fo s0 e.op with
    | error _ => exact hi
    | ok s' =>
      show 10 ^ (18 - su.prec false) ∣ s'.ob.qtyTick
      by_cases hn : s'.ob.qtyTick = s0.ob.qtyTick
      · rw [hn]; exact hi
      · obtain ⟨_, h2, _⟩ := C117_settings su me e.now e.fo s0 s' e.op hx
        obtain ⟨_, _, q, _, _, hq⟩ := h2 (Or.inr hn)
        rw [hq]; exact key _

/-- **C121 (partial).** When the pair places orders, its account on the exchange holds exactly what the sell orders give
away, and what the buy orders pay up to less than one unit of the second asset (and 10^-18 per order).  Missing: the
last unit, see the next theorem. -/
theorem C121_deposit_covers_orders_partial (su : Setup) (me : A) (now : Nat) (fo : A) (s s' : State A) (e : Env A)
    (hr : Reachable su me s) (hme : e.f.addr ≠ some me) (h : Posted su me now fo s s' e) :
    ((sells s'.posted).map fun o => o.amount).sum = s'.sub false * 10 ^ 18 ∧
    total (buys s'.posted) < (s'.sub true + 1) * 10 ^ 36 + s'.ob.number * 10 ^ 18 * 10 ^ su.prec true ∧
    (∀ i, s'.ob.last i = s'.sub i) := by
  have hlast : ∀ i, s'.ob.last i = s'.sub i := by
    have := (C115_charged_once_partial su me now fo s s' (.block e) e rfl (fun _ => ⟨h.2.2, h.2.1⟩) h.1).1
    simp only [changed, not_not] at this
    intro i; cases i
    · exact this.1
    · exact this.2
  obtain ⟨l, base, quote, ag, d, hag, hd, hb, _, hdep, hc⟩ := posted_spec hme h
  have hp := prec_le hdep
  have htk : 10 ^ (18 - su.prec false) ∣ s'.ob.qtyTick := by
    have h1 := tick_units (hp false) hr
    obtain ⟨_, h2, _⟩ := C117_settings su me now fo s s' (.block e) h.1
    by_cases hn : s'.ob.qtyTick = s.ob.qtyTick
    · rw [hn]; exact h1
    · obtain ⟨_, _, _, hh, _⟩ := h2 (Or.inr hn)
      cases hh
  refine ⟨?_, ?_, hlast⟩
  · have hf := sent_filter (q := fun b => !b) (collect_spec hc)
    have hsum : ∀ {l ms : List Post}, List.Forall₂ (Sent (10 ^ su.prec false) (10 ^ su.prec true)) l ms →
        (ms.map fun o => o.amount).sum = 10 ^ su.prec false * (l.map fun o => o.amount).sum := by
      intro l ms h
      induction h with
      | nil => rfl
      | cons h _ ih => simp only [List.map_cons, List.sum_cons, ih, h.2.1, Nat.mul_add]
    have h1 : ((sells s'.posted).map fun o => o.amount).sum = 10 ^ su.prec false * ((sells l).map fun o => o.amount).sum :=
      hsum hf
    simp only [totalDeposit, bind_ok_iff, Stable.toU128_ok, Except.ok.injEq] at hdep
    obtain ⟨b, hb', q, hq, _, ⟨_, _, rfl⟩, _, ⟨_, _, rfl⟩, hsub⟩ := hdep
    have hbb := sideAmount_ok hb'
    have hdvd : ∀ (l : List Post), (∀ o ∈ l, s'.ob.qtyTick ∣ o.amount) →
        10 ^ (18 - su.prec false) ∣ (l.map fun o => o.amount).sum := by
      intro l hl
      induction l with
      | nil => simp
      | cons o l ih =>
        rw [List.map_cons, List.sum_cons]
        exact Nat.dvd_add (htk.trans (hl o List.mem_cons_self)) (ih (fun o ho => hl o (List.mem_cons_of_mem _ ho)))
    have h2 := hdvd _ hb.tick
    rw [h1, ← hsub]
    simp only [Bool.false_eq_true, if_false]
    rw [← hbb] at h2 ⊢
    have h3 : (10 : Nat) ^ 18 = 10 ^ (18 - su.prec false) * 10 ^ su.prec false := by
      rw [← Nat.pow_add, Nat.sub_add_cancel (hp false)]
    rw [h3, ← Nat.mul_assoc, Nat.div_mul_cancel h2, Nat.mul_comm]
  · have hf := sent_filter (q := fun b => b) (collect_spec hc)
    have ht : total (buys s'.posted) ≤ total (buys l) * 10 ^ su.prec true :=
      sent_total hf (fun o ho => (List.mem_filter.1 ho).2)
    have hfl := (floored_le (buys l)).2
    rw [hb.lb] at hfl
    simp only [totalDeposit, bind_ok_iff, Stable.toU128_ok, Except.ok.injEq] at hdep
    obtain ⟨b, hb', q, hq, _, ⟨_, _, rfl⟩, _, ⟨_, _, rfl⟩, hsub⟩ := hdep
    have hqq := sideValue_buy hq
    rw [← hqq] at hfl
    rw [← hsub]
    simp only [if_true]
    have hU : 0 < 10 ^ (18 - su.prec true) := Nat.pow_pos (by decide)
    have h1 := Nat.lt_div_mul_add (a := q) hU
    have h3 : 10 ^ (18 - su.prec true) * 10 ^ su.prec true = 10 ^ 18 := by
      rw [← Nat.pow_add, Nat.sub_add_cancel (hp true)]
    have hL : 0 < 10 ^ su.prec true := Nat.pow_pos (by decide)
    generalize q / 10 ^ (18 - su.prec true) = n at *
    generalize 10 ^ (18 - su.prec true) = U at *
    generalize 10 ^ su.prec true = L at *
    have hD : DEC = 10 ^ 18 := rfl
    calc total (buys s'.posted) ≤ total (buys l) * L := ht
      _ ≤ (q * DEC + s'.ob.number * DEC) * L := Nat.mul_le_mul_right _ hfl
      _ < ((n * U + U) * DEC + s'.ob.number * DEC) * L := by
        refine Nat.mul_lt_mul_of_pos_right ?_ hL
        exact Nat.add_lt_add_right (Nat.mul_lt_mul_of_pos_right h1 (by decide)) _
      _ = (n + 1) * (U * L) * 10 ^ 18 + s'.ob.number * 10 ^ 18 * L := by rw [hD]; ring
      _ = _ := by rw [h3]; ring

/-- Usual trades are for 10.001 and 10. -/
def odd : Env Nat := { quiet with avg := some (10001000, 10 ^ 7) }

/-- The pool of the examples places its orders after the price tick was lowered to 0.00001. -/
def demoFine : List (Event Nat) :=
  [⟨2000, 1, .provide 2 (fun _ => 10 ^ 9) none 2 quiet⟩, ⟨2000, 1, .swap 3 false 100000 none none 3 quiet⟩,
   ⟨2000, 1, .ticks 7 (10 ^ 13) (1000 * 10 ^ 18)⟩, ⟨2000, 1, .block odd⟩]

/-- **C121 (violated).** The English claim: the deposit covers the orders.  With a price tick of 0.00001 and usual trades
of 10.001 and 10, the two buy orders pay 19.87438724 and the account on the exchange holds 19.874387 of the second asset:
the last order is not covered in full. -/
theorem C121_deposit_rounded_down_violated : okAnd demo (fun s =>
    let z := run demoSetup 0 s demoFine
    decide (z.sub true = 19874387 ∧ total (buys z.posted) = 1987438724 * 10 ^ 34 ∧
      z.sub true * 10 ^ 36 < total (buys z.posted))) = true := by
  decide +kernel

/-- Non-vacuity of the partial theorem. -/
example : okAnd demo (fun s =>
    okAnd (exec demoSetup 0 2000 1 (run demoSetup 0 s (demoStart.take 2)) (.block quiet)) (fun z =>
      decide (z.posted.length = 4 ∧ ((sells z.posted).map fun o => o.amount).sum = 19902000 * 10 ^ 18 ∧
        total (buys z.posted) = 19870000 * 10 ^ 36 ∧ z.sub false = 19902000 ∧ z.sub true = 19870000))) = true := by
  decide +kernel

end Verif.Inj
