import Verif.PCL.Gifts

/-!
# C193: dust does not move the prices of a concentrated pool

A concentrated pool remembers an oracle price, the price of the last trade, the price its liquidity is centred at, the time of
the last update and its profit index.  Trades in which less than 0.00001 of a token goes in or out leave all of them alone,
however many there are; so do withdrawals, transfers to the pool and everything the owner can set.
-/

namespace Verif.PCL

open Verif.Stable (dmul ddiv dadd toU128 withPrec absDiff payout)
open Verif.XYK (sendOpt)

variable {A : Type} [DecidableEq A]

/-! ## Specification -/

/-- What the pool remembers of prices: oracle price, last price, price scale, time of the last update, profit index. -/
def remembered (s : State A) : Nat × Nat × Nat × Nat × Nat :=
  (s.pool.price.oracle, s.pool.price.last, s.pool.price.scale, s.pool.price.lastUpdate, s.pool.price.profit)

/-- `n` units of asset `i` are less than 0.00001 of a token. -/
def IsDust (su : Setup) (i : Bool) (n : Nat) : Prop := n * 10 ^ (18 - su.prec i) * 100000 < 10 ^ 18

instance (su : Setup) (i : Bool) (n : Nat) : Decidable (IsDust su i n) := by unfold IsDust; infer_instance

/-- The transaction is no deposit, and if it is a trade, then one of dust. -/
def Petty (su : Setup) : Op A → Prop
  | .provide .. => False
  | .swap _ i n _ _ _ _ => IsDust su i n
  | _ => True

/-! ## Proofs -/

omit [DecidableEq A] in
theorem priceAfterSwap_dust {s : State A} {now : Nat} {xs : Bool → Nat} {r : Swapped} {i : Bool} {off out : Nat} {p : Pool}
    (h : priceAfterSwap s now xs r i off out = .ok p) (hd : off < 10 ^ 13 ∨ out < 10 ^ 13) : p = s.pool := by
  have hm : ¬ moves out off := by
    unfold moves MIN_TRADE_SIZE
    omega
  simp only [priceAfterSwap, if_neg hm, bind_ok_iff, Except.ok.injEq] at h
  obtain ⟨_, _, _, _, _, _, h⟩ := h
  exact h.symm

/-- **C193, one trade.**  A trade that changes anything the pool remembers of prices takes in at least 0.00001 of a token, and
what leaves the pool (to the receiver, the maker and the fee share, each rounded down) is at least 0.00001 of a token, up to
one unit for each of the three. -/
theorem C193_small_trades_move_nothing (su : Setup) (me : A) (s s' : State A) (now : Nat) (u : A) (hu : u ≠ me) (i : Bool)
    (n : Nat) (belief maxSpread : Option Nat) (receiver : A) (f : FeeInfo A) (o : SwapOut)
    (h : swap su me s now u i n belief maxSpread receiver f = .ok (s', o)) (hne : s'.pool ≠ s.pool) :
    ¬ IsDust su i n ∧ ¬ IsDust su (!i) (o.ret + o.maker + o.share + 3) := by
  obtain ⟨xs, off, fs, old, r, out, q⟩ := swap_spec hu h
  obtain ⟨_, _, e0⟩ := (Stable.withPrec_ok _ _ _).1 q.hoff
  have hout := q.hout
  simp only [Swapped.out, bind_ok_iff, Stable.dadd_ok] at hout
  obtain ⟨a, ⟨_, ha⟩, _, hb⟩ := hout
  obtain ⟨_, _, e1⟩ := (Stable.toU128_ok _ _ _).1 q.hret
  obtain ⟨_, _, e2⟩ := (Stable.toU128_ok _ _ _).1 q.hmk
  obtain ⟨_, _, e3⟩ := (Stable.toU128_ok _ _ _).1 q.hsh
  have hpos : 0 < 10 ^ (18 - su.prec (!i)) := Nat.pos_of_ne_zero (by positivity)
  have l1 := Nat.lt_div_mul_add (a := r.dy) hpos
  have l2 := Nat.lt_div_mul_add (a := r.maker) hpos
  have l3 := Nat.lt_div_mul_add (a := r.share) hpos
  rw [e1] at l1
  rw [e2] at l2
  rw [e3] at l3
  unfold IsDust
  generalize 10 ^ (18 - su.prec (!i)) = k at *
  have hs : (o.ret + o.maker + o.share + 3) * k = (o.ret * k + k) + (o.maker * k + k) + (o.share * k + k) := by ring
  rw [e0]
  constructor
  · intro hd
    exact hne (priceAfterSwap_dust q.hpool (.inl (by omega)))
  · intro hd
    rw [hs] at hd
    exact hne (priceAfterSwap_dust q.hpool (.inr (by omega)))

theorem petty_exec {su : Setup} {me : A} {now : Nat} {fo : A} {s s' : State A} {o : Op A} (hp : Petty su o)
    (h : exec su me now fo s o = .ok s') : remembered s' = remembered s := by
  simp only [exec, bind_ok_iff, require_ok, exists_const] at h
  obtain ⟨hu, h⟩ := h
  cases o with
  | provide => exact hp.elim
  | withdraw u n m =>
    simp only [bind_ok_iff, Prod.exists, Except.ok.injEq] at h
    obtain ⟨w, _, _, h, rfl⟩ := h
    simp only [withdraw, bind_ok_iff, require_ok, exists_const, Except.ok.injEq, Prod.mk.injEq] at h
    obtain ⟨_, _, _, _, _, _, _, _, _, _, _, _, _, _, _, _, _, _, _, _, _, _, _, _, _, _, _, _, _, _, _, _, _, _, _, rfl, _⟩ := h
    rfl
  | swap u i n b m r f =>
    simp only [bind_ok_iff, Prod.exists, Except.ok.injEq] at h
    obtain ⟨w, o, h, rfl⟩ := h
    have : w.pool = s.pool := by
      by_contra hne
      exact (C193_small_trades_move_nothing su me s w now u hu i n b m r f o h hne).1 hp
    simp only [remembered, this]
  | update u v =>
    simp only [bind_ok_iff, Except.ok.injEq] at h
    obtain ⟨_, _, _, _, rfl⟩ := h
    rfl
  | promote u a g t =>
    simp only [bind_ok_iff, Except.ok.injEq, promote, require_ok, exists_const] at h
    obtain ⟨_, _, _, ⟨_, _, _, _, _, _, _, _, _, rfl⟩, rfl⟩ := h
    rfl
  | stop u =>
    simp only [bind_ok_iff, Except.ok.injEq, stopPromotion] at h
    obtain ⟨_, _, _, ⟨_, _, rfl⟩, rfl⟩ := h
    rfl
  | enableShare u bps r =>
    simp only [bind_ok_iff, require_ok, exists_const, Except.ok.injEq] at h
    obtain ⟨_, _, _, rfl⟩ := h
    rfl
  | disableShare u =>
    simp only [bind_ok_iff, Except.ok.injEq] at h
    obtain ⟨_, _, rfl⟩ := h
    rfl
  | send i u v n =>
    simp only [bind_ok_iff, Except.ok.injEq] at h
    obtain ⟨_, _, rfl⟩ := h
    rfl
  | sendLp u v n =>
    simp only [bind_ok_iff, Except.ok.injEq] at h
    obtain ⟨_, _, rfl⟩ := h
    rfl

/-- **C193.**  However many transactions follow each other, as long as none of them is a deposit and every trade among them
takes in less than 0.00001 of a token, the pool remembers the same prices, the same time of their last update and the same
profit index as before. -/
theorem C193_dust_moves_nothing (su : Setup) (me : A) (s : State A) (es : List (Event A)) (h : ∀ e ∈ es, Petty su e.op) :
    remembered (run su me s es) = remembered s := by
  induction es generalizing s with
  | nil => rfl
  | cons e es ih =>
    have hs : remembered (step su me s e) = remembered s := by
      unfold step
      cases hx : exec su me e.now e.fo s e.op with
      | error => rfl
      | ok s' => exact petty_exec (h e (by simp)) hx
    exact (ih (step su me s e) fun e he => h e (by simp [he])).trans hs

/-- Twelve trades of 9 units, one in each of twelve blocks, and half of the LP tokens withdrawn. -/
def demoDust : List (Event Acct) :=
  (List.range 12).map (fun k => ⟨2010 + k, 1, .swap 3 false 9 none (some (5 * 10 ^ 17)) 3 ⟨0, none⟩⟩) ++
    [⟨2030, 1, .withdraw 2 (5 * 10 ^ 11) none⟩]

/-- Non-vacuity: the twelve trades are all dust and all succeed. -/
example : ∀ e ∈ demoDust, Petty demoSetup e.op := by
  intro e he
  simp only [demoDust, List.mem_append, List.mem_map, List.mem_singleton] at he
  rcases he with ⟨k, _, rfl⟩ | rfl
  · show IsDust demoSetup false 9
    decide +kernel
  · trivial

example : (run demoSetup 0 demoRich (demoDust.take 12)).bal false 0 = demoRich.bal false 0 + 108 ∧
    (run demoSetup 0 demoRich demoDust).bal false 0 < demoRich.bal false 0 := by
  decide +kernel

/-- One trade of the same 108 units is remembered (the hypotheses of `C193_small_trades_move_nothing`). -/
example : okAnd (swap demoSetup 0 demoRich 2021 3 false 108 none (some (5 * 10 ^ 17)) 3 ⟨0, none⟩)
    (fun x => decide (x.1.pool ≠ demoRich.pool)) = true ∧ (3 : Acct) ≠ 0 := by
  decide +kernel

end Verif.PCL
