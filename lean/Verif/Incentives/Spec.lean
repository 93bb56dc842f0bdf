import Verif.Incentives.Model
import Mathlib.Algebra.BigOperators.Intervals
import Mathlib.Order.Interval.Finset.Nat

/-!
# Incentives: histories of one pool, and what is observed of them

The contract's calls are those of `Model.lean`.  This file adds the clock, the other movements of the
LP token, and the books an outside observer keeps: tokens received from funders, paid to stakers,
refunded to the owner's receiver, and emitted by the streams.
-/

namespace Verif.Incentives

variable {I U : Type}

/-- Rate of the stored pieces in force during second `t`: each piece `(end, rate)` lasts from the end
of the previous one up to and including `end`. -/
def pieceRate : List (Nat × Nat) → Nat → Nat
  | [], _ => 0
  | (k, r) :: rest, t => if t ≤ k then r else pieceRate rest t

/-- Rate of a reward during second `t`: the running piece until `next`, then the stored pieces. -/
def rateAt (e : Ext) (l : List (Nat × Nat)) (t : Nat) : Nat :=
  if t ≤ e.next then e.rps else pieceRate l t

/-- Rate (atomics per second) at which the pool emits external reward `X` during second `t`, as
announced by the stored schedule. -/
def rateOf (p : Pool I U) (X : I) (t : Nat) : Nat :=
  match p.ext X with
  | none => 0
  | some e => rateAt e (p.sched X) t

/-- Rate (atomics per second) at which the pool emits ASTRO. -/
def astroRate (p : Pool I U) : Nat :=
  match p.int with
  | none => 0
  | some r => r.rps

variable [Fintype I] [DecidableEq I] [DecidableEq U]

/-! ## Histories -/

/-- Everything that can happen to one pool. -/
inductive Op (I U : Type)
  | deposit (sender staker : U) (n : Nat)
  | withdraw (user : U) (n : Nat)
  | claim (user : U)
  | incentivize (X : I) (amount periods : Nat) (isAstro : Bool)
  | removeReward (X : I) (bypass : Bool)
  | setAstro (rps : Nat)
  | disableAstro
  | touch
  | wait (d : Nat)
  | sendLp (src dst : U) (n : Nat)

/-- Running totals of what went in and out, as seen from outside. -/
structure Books (I U : Type) where
  /-- reward tokens received from funders -/
  funded : I → Nat
  /-- reward tokens paid to stakers -/
  paid : I → Nat
  /-- reward tokens paid to each staker -/
  received : U → I → Nat
  /-- reward tokens sent to the owner's receiver on removal -/
  refunded : I → Nat
  /-- reward emitted by the stream so far: rate in force, second by second (atomics) -/
  emitted : I → Nat
  /-- ASTRO paid to stakers -/
  astroPaid : Nat
  /-- ASTRO emitted so far (atomics) -/
  astroEmitted : Nat
  /-- LP tokens deposited in favour of each staker -/
  deposited : U → Nat
  /-- LP tokens withdrawn by each staker -/
  withdrawn : U → Nat
  /-- LP tokens sent to the contract without a deposit message -/
  donated : Nat

/-- A state with the books of the history that led to it. -/
structure Run (I U : Type) where
  st : State I U
  books : Books I U

/-- Empty books. -/
def Books.zero : Books I U :=
  ⟨fun _ => 0, fun _ => 0, fun _ _ => 0, fun _ => 0, fun _ => 0, 0, 0, fun _ => 0, fun _ => 0, 0⟩

/-- Book a payment to a staker. -/
def Books.pay (b : Books I U) (u : U) (x : Paid I) : Books I U :=
  { b with
    paid := fun X => b.paid X + x.ext X
    received := fun v X => b.received v X + if v = u then x.ext X else 0
    astroPaid := b.astroPaid + x.int }

/-- Book what the streams emit while `d` seconds pass. -/
def Books.elapse (b : Books I U) (s : State I U) (d : Nat) : Books I U :=
  { b with
    emitted := fun X => b.emitted X + ∑ t ∈ Finset.Ioc s.now (s.now + d), rateOf s.pool X t
    astroEmitted := b.astroEmitted + astroRate s.pool * d }

/-- One event of a history; a failed call changes nothing.  The contract `me` never deposits, and only
itself can move its own tokens. -/
def step (me : U) (r : Run I U) : Op I U → Run I U
  | .deposit sender staker n =>
    match (if sender = me then .error .unauthorized else deposit me r.st sender staker n) with
    | .ok (s, x) => ⟨s, { r.books.pay staker x with deposited := credit r.books.deposited staker n }⟩
    | .error _ => r
  | .withdraw user n =>
    match (if user = me then .error .unauthorized else withdraw me r.st user n) with
    | .ok (s, x) => ⟨s, { r.books.pay user x with withdrawn := credit r.books.withdrawn user n }⟩
    | .error _ => r
  | .claim user =>
    match claim r.st user with
    | .ok (s, x) => ⟨s, r.books.pay user x⟩
    | .error _ => r
  | .incentivize X amount periods isAstro =>
    match incentivize r.st X amount periods isAstro with
    | .ok s => ⟨s, { r.books with funded := credit r.books.funded X amount }⟩
    | .error _ => r
  | .removeReward X bypass =>
    match removeReward r.st X bypass with
    | .ok (s, n) => ⟨s, { r.books with refunded := credit r.books.refunded X n }⟩
    | .error _ => r
  | .setAstro rps => ⟨setAstro r.st rps, r.books⟩
  | .disableAstro => ⟨disableAstro r.st, r.books⟩
  | .touch => ⟨touch r.st, r.books⟩
  | .wait d => ⟨{ r.st with now := r.st.now + d }, r.books.elapse r.st d⟩
  | .sendLp src dst n =>
    match (if src = me then .error .unauthorized else move r.st.lp src dst n) with
    | .ok lp => ⟨{ r.st with lp := lp },
        { r.books with donated := r.books.donated + if dst = me then n else 0 }⟩
    | .error _ => r

/-- A whole history. -/
def run (me : U) : Run I U → List (Op I U) → Run I U
  | r, [] => r
  | r, o :: os => run me (step me r o) os

/-- The start: an empty pool, any distribution of LP tokens (none with the contract), any time. -/
def start (lp : U → Nat) (now : Nat) : Run I U := ⟨⟨Pool.empty, lp, now⟩, Books.zero⟩

/-- A history in which nobody deposits zero LP tokens, and the owner removes a reward only in a block in
which the pool was not touched before. -/
def Clean (me : U) : Run I U → List (Op I U) → Prop
  | _, [] => True
  | r, o :: os =>
    (match o with
      | .deposit _ _ n => n ≠ 0
      | .removeReward _ _ => r.st.pool.last < r.st.now
      | _ => True) ∧ Clean me (step me r o) os

end Verif.Incentives
