import Verif.Base.Res
import Mathlib.Data.List.Rotate
import Mathlib.Data.List.Basic

/-!
# Model of `packages/circular_buffer/src/lib.rs`

Storage is modelled by the stored `BufferState` (capacity and head) and the key-value map `u32 → V`.
-/

namespace Verif.Buffer
variable {V : Type}

/-- `u32` bound. -/
def U32 : Nat := 2 ^ 32

/-- The two storage items of a `CircularBuffer`, packages/circular_buffer/src/lib.rs:37-64. -/
structure Store (V : Type) where
  state : Option (Nat × Nat)
  arr : Nat → Option V

/-- `BufferManager`, packages/circular_buffer/src/lib.rs:66-70.  `pre` models the `HashMap` `precommit_buffer`: the entry found first
is the one inserted last under that key. -/
structure Mgr (V : Type) where
  cap : Nat
  head : Nat
  pre : List (Nat × V)

/-- Empty storage. -/
def empty : Store V := { state := none, arr := fun _ => none }

/-- `BufferManager::init`, packages/circular_buffer/src/lib.rs:79-93. -/
def init (st : Store V) (capacity : Nat) : Res (Store V) := do
  require (st.state.isNone) (.invalid "BufferAlreadyInitialized")
  .ok { st with state := some (capacity, 0) }

/-- `BufferManager::new`, packages/circular_buffer/src/lib.rs:97-109. -/
def new (st : Store V) : Res (Mgr V) := do
  let (c, h) ← orErr st.state (.invalid "BufferNotInitialized")
  .ok { cap := c, head := h, pre := [] }

/-- `push`, packages/circular_buffer/src/lib.rs:122-125 (`% 0` panics). -/
def push (m : Mgr V) (v : V) : Res (Mgr V) :=
  if m.cap = 0 then .error .divByZero
  else .ok { m with pre := (m.head, v) :: m.pre, head := (m.head + 1) % m.cap }

/-- `push_many`, packages/circular_buffer/src/lib.rs:128-132. -/
def pushMany (m : Mgr V) : List V → Res (Mgr V)
  | [] => .ok m
  | v :: vs => do
    let m ← push m v
    pushMany m vs

/-- `commit`, packages/circular_buffer/src/lib.rs:141-153. -/
def commit (m : Mgr V) (st : Store V) : Res (Mgr V × Store V) := do
  require (¬ m.pre.any (fun p => p.1 ≥ m.cap)) (.invalid "SaveValueError")
  .ok ({ m with pre := [] },
    { state := some (m.cap, m.head), arr := fun j => (m.pre.lookup j).or (st.arr j) })

/-- `instant_push`, packages/circular_buffer/src/lib.rs:135-138. -/
def instantPush (m : Mgr V) (st : Store V) (v : V) : Res (Mgr V × Store V) := do
  let m ← push m v
  commit m st

/-- `read_single`, packages/circular_buffer/src/lib.rs:220-232: looped read. -/
def readSingle (m : Mgr V) (st : Store V) (i : Nat) : Res (Option V) :=
  if m.cap = 0 then .error .divByZero else .ok (st.arr (i % m.cap))

/-- `read_last`, packages/circular_buffer/src/lib.rs:212-217.  `capacity + head - 1` is `u32` arithmetic. -/
def readLast (m : Mgr V) (st : Store V) : Res (Option V) := do
  require (m.cap + m.head < U32) .overflow
  let k ← csub (m.cap + m.head) 1
  if m.cap = 0 then .error .divByZero else readSingle m st (k % m.cap)

/-- `read`, packages/circular_buffer/src/lib.rs:175-204. -/
def read (m : Mgr V) (st : Store V) (stopIfEmpty : Bool) : List Nat → Res (List V)
  | [] => .ok []
  | i :: is => do
    let c ← csub m.cap 1
    require (¬ i > c) (.invalid "ReadAheadError")
    match st.arr i with
    | some v => do
      let vs ← read m st stopIfEmpty is
      .ok (v :: vs)
    | none => if stopIfEmpty then .ok [] else .error (.invalid "IndexNotFound")

/-- `read_all`, packages/circular_buffer/src/lib.rs:207-209. -/
def readAll (m : Mgr V) (st : Store V) : Res (List V) := read m st true (List.range m.cap)

/-- `clear_buffer`, packages/circular_buffer/src/lib.rs:235-238 (the head is left where it is). -/
def clear (m : Mgr V) (st : Store V) : Store V :=
  { st with arr := fun j => if j < m.cap then none else st.arr j }

/-- `exists`, packages/circular_buffer/src/lib.rs:241-245. -/
def «exists» (m : Mgr V) (st : Store V) (i : Nat) : Res Bool :=
  if m.cap = 0 then .error .divByZero else .ok (st.arr (i % m.cap)).isSome

/-! ## Specification -/

/-- The last `n` elements. -/
def lastN (n : Nat) (xs : List V) : List V := xs.drop (xs.length - n)

/-- One usage session: create a manager, push a batch, commit. -/
def session (st : Store V) (batch : List V) : Res (Store V) := do
  let m ← new st
  let m ← pushMany m batch
  let (_, st) ← commit m st
  .ok st

/-- A sequence of sessions. -/
def sessions (st : Store V) : List (List V) → Res (Store V)
  | [] => .ok st
  | b :: bs => do
    let st ← session st b
    sessions st bs

/-- Contents in chronological order: the occupied slots starting at the head. -/
def chron (cap head : Nat) (arr : Nat → Option V) : List V :=
  (List.range cap).filterMap (fun i => arr ((head + i) % cap))

/-! ## Representation -/

/-- The map holds exactly the last `cap` of the values `xs` pushed so far. -/
structure Rep (cap : Nat) (xs : List V) (head : Nat) (arr : Nat → Option V) : Prop where
  pos : 0 < cap
  head_eq : head = xs.length % cap
  val : ∀ k, k < xs.length → xs.length ≤ k + cap → arr (k % cap) = xs[k]?
  unwritten : ∀ j, xs.length ≤ j → j < cap → arr j = none
  beyond : ∀ j, cap ≤ j → arr j = none

theorem rep_push {cap head : Nat} {xs : List V} {arr : Nat → Option V} (h : Rep cap xs head arr) (v : V) :
    Rep cap (xs ++ [v]) ((head + 1) % cap) (fun j => if j = head then some v else arr j) := by
  obtain ⟨hp, hh, hv, hu, hb⟩ := h
  refine ⟨hp, ?_, ?_, ?_, ?_⟩
  · rw [hh]; simp [Nat.add_mod]
  · intro k hk hk2
    simp only [List.length_append, List.length_singleton] at hk hk2
    by_cases hlast : k = xs.length
    · subst hlast
      simp [hh]
    · have hk' : k < xs.length := by omega
      have hne : k % cap ≠ head := by
        rw [hh]
        intro he
        have : k = xs.length := by
          have h1 := Nat.div_add_mod k cap
          have h2 := Nat.div_add_mod xs.length cap
          have hq : k / cap = xs.length / cap := by
            apply Nat.le_antisymm
            · exact Nat.div_le_div_right (by omega)
            · by_contra hc
              have hc : k / cap + 1 ≤ xs.length / cap := by omega
              have := Nat.mul_le_mul_left cap hc
              have e : cap * (k / cap + 1) = cap * (k / cap) + cap := by ring
              omega
          rw [he, hq] at h1
          omega
        exact hlast this
      simp only [hne, if_false]
      rw [hv k hk' (by omega), List.getElem?_append_left hk']
  · intro j hj hj2
    simp only [List.length_append, List.length_singleton] at hj
    have : head = xs.length := by rw [hh]; exact Nat.mod_eq_of_lt (by omega)
    have hne : j ≠ head := by omega
    simp only [hne, if_false]
    exact hu j (by omega) hj2
  · intro j hj
    have : head < cap := by rw [hh]; exact Nat.mod_lt _ hp
    have hne : j ≠ head := by omega
    simp only [hne, if_false]
    exact hb j hj

/-- Representation of a manager together with storage. -/
def RepM (cap : Nat) (xs : List V) (m : Mgr V) (st : Store V) : Prop :=
  m.cap = cap ∧ (∀ p ∈ m.pre, p.1 < cap) ∧
    Rep cap xs m.head (fun j => (m.pre.lookup j).or (st.arr j))

/-- Representation of storage. -/
def RepS (cap : Nat) (xs : List V) (st : Store V) : Prop :=
  ∃ head, st.state = some (cap, head) ∧ Rep cap xs head st.arr

theorem repM_push {cap : Nat} {xs : List V} {m : Mgr V} {st : Store V} (h : RepM cap xs m st) (v : V) :
    ∃ m', push m v = .ok m' ∧ RepM cap (xs ++ [v]) m' st := by
  obtain ⟨hc, hk, hr⟩ := h
  have hp := hr.pos
  refine ⟨{ m with pre := (m.head, v) :: m.pre, head := (m.head + 1) % m.cap }, ?_, ?_⟩
  · unfold push
    rw [if_neg (by omega)]
  · refine ⟨hc, ?_, ?_⟩
    · intro p hp'
      simp only [List.mem_cons] at hp'
      rcases hp' with rfl | hp'
      · show m.head < cap
        rw [hr.head_eq]; exact Nat.mod_lt _ hp
      · exact hk p hp'
    · have := rep_push hr v
      simp only
      rw [hc]
      have e : (fun j => (((m.head, v) :: m.pre).lookup j).or (st.arr j)) =
          (fun j => if j = m.head then some v else (m.pre.lookup j).or (st.arr j)) := by
        funext j
        simp only [List.lookup_cons]
        by_cases hj : j = m.head
        · subst hj; simp
        · have : (j == m.head) = false := by simp [hj]
          simp [this, hj]
      rw [e]
      exact this

theorem repM_pushMany {cap : Nat} (vs : List V) {xs : List V} {m : Mgr V} {st : Store V}
    (h : RepM cap xs m st) : ∃ m', pushMany m vs = .ok m' ∧ RepM cap (xs ++ vs) m' st := by
  induction vs generalizing xs m with
  | nil => exact ⟨m, rfl, by simpa using h⟩
  | cons v vs ih =>
    obtain ⟨m1, h1, r1⟩ := repM_push h v
    obtain ⟨m2, h2, r2⟩ := ih r1
    refine ⟨m2, ?_, by simpa using r2⟩
    unfold pushMany
    rw [h1]
    exact h2

theorem repM_commit {cap : Nat} {xs : List V} {m : Mgr V} {st : Store V} (h : RepM cap xs m st) :
    ∃ m' st', commit m st = .ok (m', st') ∧ RepS cap xs st' ∧ RepM cap xs m' st' := by
  obtain ⟨hc, hk, hr⟩ := h
  refine ⟨{ m with pre := [] },
    { state := some (m.cap, m.head), arr := fun j => (m.pre.lookup j).or (st.arr j) }, ?_, ?_, ?_⟩
  · unfold commit
    simp only [bind_ok_iff, require_ok]
    refine ⟨(), ?_, trivial⟩
    simp only [List.any_eq_true, decide_eq_true_eq, not_exists, not_and]
    intro p hp
    have := hk p hp
    omega
  · exact ⟨m.head, by rw [hc], hr⟩
  · exact ⟨hc, by simp, by simpa using hr⟩

theorem repS_new {cap : Nat} {xs : List V} {st : Store V} (h : RepS cap xs st) :
    ∃ m, new st = .ok m ∧ RepM cap xs m st ∧ m.pre = [] := by
  obtain ⟨head, hs, hr⟩ := h
  refine ⟨{ cap := cap, head := head, pre := [] }, ?_, ?_, rfl⟩
  · unfold new
    rw [hs]
    rfl
  · exact ⟨rfl, by simp, by simpa using hr⟩

theorem repS_session {cap : Nat} {xs : List V} {st : Store V} (h : RepS cap xs st) (b : List V) :
    ∃ st', session st b = .ok st' ∧ RepS cap (xs ++ b) st' := by
  obtain ⟨m, h1, r1, _⟩ := repS_new h
  obtain ⟨m2, h2, r2⟩ := repM_pushMany b r1
  obtain ⟨m3, st3, h3, r3, _⟩ := repM_commit r2
  refine ⟨st3, ?_, r3⟩
  unfold session
  rw [h1]
  simp only [bind_ok_iff]
  exact ⟨m, rfl, m2, h2, (m3, st3), h3, rfl⟩

theorem repS_sessions {cap : Nat} (bs : List (List V)) {xs : List V} {st : Store V}
    (h : RepS cap xs st) : ∃ st', sessions st bs = .ok st' ∧ RepS cap (xs ++ bs.flatten) st' := by
  induction bs generalizing xs st with
  | nil => exact ⟨st, rfl, by simpa using h⟩
  | cons b bs ih =>
    obtain ⟨s1, h1, r1⟩ := repS_session h b
    obtain ⟨s2, h2, r2⟩ := ih r1
    refine ⟨s2, ?_, by simpa using r2⟩
    unfold sessions
    rw [h1]
    exact h2

theorem repS_init {cap : Nat} (hp : 0 < cap) :
    ∃ st', init (empty : Store V) cap = .ok st' ∧ RepS cap [] st' := by
  refine ⟨{ state := some (cap, 0), arr := fun _ => none }, rfl, 0, rfl, hp, by simp, ?_, ?_, ?_⟩
  · intro k hk; simp at hk
  · intros; rfl
  · intros; rfl

/-- In chronological order, position `i` (from the head). -/
theorem rep_slot {cap head : Nat} {xs : List V} {arr : Nat → Option V} (h : Rep cap xs head arr)
    {i : Nat} (hi : i < cap) :
    arr ((head + i) % cap) = if cap ≤ xs.length + i then xs[xs.length + i - cap]? else none := by
  have hp := h.pos
  split
  next hle =>
    have hk := h.val (xs.length + i - cap) (by omega) (by omega)
    rw [← hk]
    congr 1
    rw [h.head_eq, Nat.mod_add_mod]
    have : xs.length + i = (xs.length + i - cap) + cap := by omega
    conv_lhs => rw [this]
    rw [Nat.add_mod_right]
  next hlt =>
    have e : head = xs.length := by rw [h.head_eq]; exact Nat.mod_eq_of_lt (by omega)
    have e2 : (head + i) % cap = xs.length + i := by
      rw [e]; exact Nat.mod_eq_of_lt (by omega)
    rw [e2]
    exact h.unwritten _ (by omega) (by omega)

theorem filterMap_getElem?_range' (xs : List V) (a n : Nat) :
    (List.range n).filterMap (fun i => xs[a + i]?) = (xs.drop a).take n := by
  induction n generalizing a with
  | zero => simp
  | succ n ih =>
    rw [List.range_succ_eq_map, List.filterMap_cons, List.filterMap_map]
    have e : (fun i => xs[a + i]?) ∘ Nat.succ = fun i => xs[(a + 1) + i]? := by
      funext i
      show xs[a + (i + 1)]? = _
      congr 1
      omega
    rw [e, ih (a + 1)]
    simp only [Nat.add_zero]
    rcases Nat.lt_or_ge a xs.length with hlt | hge
    · rw [List.getElem?_eq_getElem hlt]
      simp only
      conv_rhs => rw [List.drop_eq_getElem_cons hlt, List.take_succ_cons]
    · rw [List.getElem?_eq_none hge]
      simp only
      rw [List.drop_eq_nil_of_le hge, List.drop_eq_nil_of_le (by omega)]
      simp

theorem slots_chron {cap head : Nat} {xs : List V} {arr : Nat → Option V}
    (h : ∀ i, i < cap → arr ((head + i) % cap) = if cap ≤ xs.length + i then xs[xs.length + i - cap]? else none) :
    chron cap head arr = lastN cap xs := by
  unfold chron lastN
  have e : (List.range cap).filterMap (fun i => arr ((head + i) % cap)) =
      (List.range cap).filterMap
        (fun i => if cap ≤ xs.length + i then xs[xs.length + i - cap]? else none) := by
    apply List.filterMap_congr
    intro i hi
    exact h i (List.mem_range.1 hi)
  rw [e]
  rcases Nat.lt_or_ge xs.length cap with hlt | hge
  · -- the first cap - len positions are empty
    have hsplit : List.range cap = List.range (cap - xs.length) ++
        (List.range xs.length).map (cap - xs.length + ·) := by
      have := List.range_add (n := cap - xs.length) (m := xs.length)
      rw [← this]
      congr 1; omega
    rw [hsplit, List.filterMap_append, List.filterMap_map]
    have e1 : (List.range (cap - xs.length)).filterMap
        (fun i => if cap ≤ xs.length + i then xs[xs.length + i - cap]? else none) = [] := by
      rw [List.filterMap_eq_nil_iff]
      intro i hi
      have := List.mem_range.1 hi
      rw [if_neg (by omega)]
    have e2 : (List.range xs.length).filterMap
        ((fun i => if cap ≤ xs.length + i then xs[xs.length + i - cap]? else none) ∘
          (cap - xs.length + ·)) = (List.range xs.length).filterMap (fun i => xs[0 + i]?) := by
      apply List.filterMap_congr
      intro i hi
      have := List.mem_range.1 hi
      simp only [Function.comp]
      rw [if_pos (by omega)]
      congr 1; omega
    rw [e1, e2, filterMap_getElem?_range']
    have : xs.length - cap = 0 := by omega
    simp [this]
  · have e2 : (List.range cap).filterMap
        (fun i => if cap ≤ xs.length + i then xs[xs.length + i - cap]? else none) =
        (List.range cap).filterMap (fun i => xs[(xs.length - cap) + i]?) := by
      apply List.filterMap_congr
      intro i hi
      have := List.mem_range.1 hi
      rw [if_pos (by omega)]
      congr 1; omega
    rw [e2, filterMap_getElem?_range']
    apply List.take_of_length_le
    simp; omega

theorem rep_chron {cap head : Nat} {xs : List V} {arr : Nat → Option V} (h : Rep cap xs head arr) :
    chron cap head arr = lastN cap xs := slots_chron fun _ hi => rep_slot h hi

theorem slots_readLast {xs : List V} {m : Mgr V} {st : Store V} (hp : 0 < m.cap) (hh : m.head < m.cap)
    (hc : 2 * m.cap ≤ U32)
    (h : ∀ i, i < m.cap → st.arr ((m.head + i) % m.cap) =
      if m.cap ≤ xs.length + i then xs[xs.length + i - m.cap]? else none) : readLast m st = .ok xs.getLast? := by
  unfold readLast readSingle
  simp only [bind_ok_iff, require_ok, csub_ok]
  refine ⟨(), by omega, m.cap + m.head - 1, ⟨by omega, rfl⟩, ?_⟩
  rw [if_neg (by omega), if_neg (by omega)]
  congr 1
  rw [Nat.mod_mod]
  have := h (m.cap - 1) (by omega)
  have e : m.head + (m.cap - 1) = m.cap + m.head - 1 := by omega
  rw [e] at this
  rw [this, List.getLast?_eq_getElem?]
  split
  · congr 1; omega
  · have : xs.length = 0 := by omega
    simp [List.length_eq_zero_iff.1 this]

theorem repM_readLast {cap : Nat} {xs : List V} {m : Mgr V} {st : Store V} (h : RepM cap xs m st)
    (hpre : m.pre = []) (hc : 2 * cap ≤ U32) : readLast m st = .ok xs.getLast? := by
  obtain ⟨hcap, _, hr⟩ := h
  have hr' : Rep cap xs m.head st.arr := by simpa [hpre] using hr
  have hp := hr'.pos
  have hh : m.head < cap := by rw [hr'.head_eq]; exact Nat.mod_lt _ hp
  subst hcap
  exact slots_readLast hp hh hc fun i hi => rep_slot hr' hi

/-! ## C19 -/

/-- **C19.**  For every capacity `N > 0` (with `2N ≤ 2^32`) and every sequence of sessions pushing
batches of any sizes, all calls succeed and afterwards, with `xs` all values ever pushed: the contents in
chronological order are the last `N` of `xs`; `read_last` is the last of `xs` (none if there is none);
and a looped read of any index `i` gives the unique one of the last `N` values whose position in `xs` is
congruent to `i` modulo `N`, or none if no such value was ever pushed. -/
theorem C19_buffer_is_last_N (cap : Nat) (hp : 0 < cap) (hc : 2 * cap ≤ U32) (bs : List (List V)) :
    let xs := bs.flatten
    ∃ st0 st m, init (empty : Store V) cap = .ok st0 ∧ sessions st0 bs = .ok st ∧ new st = .ok m ∧
      chron m.cap m.head st.arr = lastN cap xs ∧
      readLast m st = .ok xs.getLast? ∧
      (∀ i k, k < xs.length → xs.length ≤ k + cap → i % cap = k % cap → readSingle m st i = .ok xs[k]?) ∧
      (∀ i, xs.length ≤ i % cap → readSingle m st i = .ok none) := by
  intro xs
  obtain ⟨st0, h0, r0⟩ := repS_init (V := V) hp
  obtain ⟨st, h1, r1⟩ := repS_sessions bs r0
  obtain ⟨m, h2, r2, hpre⟩ := repS_new r1
  rw [List.nil_append] at r2 r1
  have hr : Rep cap xs m.head st.arr := by simpa [hpre] using r2.2.2
  have hcap := r2.1
  refine ⟨st0, st, m, h0, h1, h2, ?_, repM_readLast r2 hpre hc, ?_, ?_⟩
  · rw [hcap]; exact rep_chron hr
  · intro i k hk hk2 hik
    unfold readSingle
    rw [hcap, if_neg (by omega), hik, hr.val k hk hk2]
  · intro i hi
    unfold readSingle
    rw [hcap, if_neg (by omega), hr.unwritten _ hi (Nat.mod_lt _ hp)]

theorem read_prefix {m : Mgr V} {st : Store V} (hm : 0 < m.cap) (ys : List V) (a n : Nat)
    (hn : a + n ≤ m.cap) (hl : ys.length ≤ n)
    (hv : ∀ j, j < ys.length → st.arr (a + j) = ys[j]?)
    (hnone : ys.length < n → st.arr (a + ys.length) = none) :
    read m st true ((List.range n).map (a + ·)) = .ok ys := by
  induction n generalizing ys a with
  | zero =>
    have : ys = [] := List.length_eq_zero_iff.1 (by omega)
    subst this
    rfl
  | succ n ih =>
    rw [List.range_succ_eq_map, List.map_cons, List.map_map]
    simp only [read, bind_ok_iff, csub_ok, require_ok, Nat.add_zero]
    refine ⟨m.cap - 1, ⟨hm, rfl⟩, (), by omega, ?_⟩
    cases ys with
    | nil =>
      have := hnone (by simp)
      simp only [List.length_nil, Nat.add_zero] at this
      rw [this]
      rfl
    | cons y ys =>
      have h0 := hv 0 (by simp)
      simp only [Nat.add_zero, List.getElem?_cons_zero] at h0
      rw [h0]
      simp only [bind_ok_iff]
      refine ⟨ys, ?_, rfl⟩
      have e : ((fun x => a + x) ∘ Nat.succ) = ((a + 1) + ·) := by
        funext x; simp only [Function.comp]; omega
      rw [e]
      apply ih ys (a + 1) (by omega) (by simpa using hl)
      · intro j hj
        have := hv (j + 1) (by simpa using hj)
        simp only [List.getElem?_cons_succ] at this
        rw [← this]; congr 1; omega
      · intro hlt
        have := hnone (by simpa using hlt)
        rw [← this]; congr 1; simp; omega

/-- **C19, read_all.**  Until the buffer wraps around, `read_all` returns everything pushed, in order;
afterwards it returns the last `N` values, but in storage order: the newest `len % N` of them first. -/
theorem C19_read_all (cap : Nat) (hp : 0 < cap) (bs : List (List V)) :
    let xs := bs.flatten
    ∃ st0 st m, init (empty : Store V) cap = .ok st0 ∧ sessions st0 bs = .ok st ∧ new st = .ok m ∧
      (xs.length ≤ cap → readAll m st = .ok xs) ∧
      (cap ≤ xs.length → readAll m st =
        .ok (xs.drop (xs.length - xs.length % cap) ++
          (lastN cap xs).take (cap - xs.length % cap))) := by
  intro xs
  obtain ⟨st0, h0, r0⟩ := repS_init (V := V) hp
  obtain ⟨st, h1, r1⟩ := repS_sessions bs r0
  obtain ⟨m, h2, r2, hpre⟩ := repS_new r1
  rw [List.nil_append] at r2 r1
  have hr : Rep cap xs m.head st.arr := by simpa [hpre] using r2.2.2
  have hcap := r2.1
  have e0 : List.range m.cap = (List.range m.cap).map (0 + ·) := by simp
  refine ⟨st0, st, m, h0, h1, h2, ?_, ?_⟩
  · intro hle
    unfold readAll
    rw [e0]
    apply read_prefix (by omega) xs 0 m.cap (by omega) (by omega)
    · intro j hj
      have := hr.val j hj (by omega)
      rw [Nat.mod_eq_of_lt (by omega)] at this
      simpa using this
    · intro hlt
      simpa using hr.unwritten xs.length (le_refl _) (by omega)
  · intro hge
    unfold readAll
    rw [e0]
    have hmod : xs.length % cap < cap := Nat.mod_lt _ hp
    have hdm := Nat.div_add_mod xs.length cap
    set r := xs.length % cap with hrdef
    set q := xs.length / cap with hqdef
    have hq1 : 1 ≤ q := Nat.div_pos hge hp
    have hqc : cap ≤ cap * q := Nat.le_mul_of_pos_right _ hq1
    have hlen : (xs.drop (xs.length - r) ++ (lastN cap xs).take (cap - r)).length = cap := by
      simp [lastN]; omega
    apply read_prefix (by omega) _ 0 m.cap (by omega) (by omega)
    · intro j hj
      rw [hlen] at hj
      rw [Nat.zero_add]
      by_cases hjr : j < r
      · have h3 := hr.val (cap * q + j) (by omega) (by omega)
        rw [Nat.mul_add_mod, Nat.mod_eq_of_lt hj] at h3
        rw [h3, List.getElem?_append_left (by simp; omega), List.getElem?_drop]
        congr 1; omega
      · have h3 := hr.val (cap * (q - 1) + j) (by
          have : cap * (q - 1) + cap = cap * q := by
            rw [← Nat.mul_succ]; congr 1; omega
          omega) (by
          have : cap * (q - 1) + cap = cap * q := by
            rw [← Nat.mul_succ]; congr 1; omega
          omega)
        have hq2 : cap * (q - 1) + cap = cap * q := by
          rw [← Nat.mul_succ]; congr 1; omega
        rw [Nat.mul_add_mod, Nat.mod_eq_of_lt hj] at h3
        rw [h3, List.getElem?_append_right (by simp; omega), List.getElem?_take_of_lt (by simp; omega),
          lastN, List.getElem?_drop]
        congr 1
        simp; omega
    · intro hlt; omega

/-! ### Clearing -/

/-- Storage after `clear_buffer` and pushes of `ys`; `off` is the number of values pushed before. -/
structure Cleared (cap off : Nat) (ys : List V) (head : Nat) (arr : Nat → Option V) : Prop where
  pos : 0 < cap
  head_eq : head = (off + ys.length) % cap
  slot : ∀ i, i < cap → arr ((head + i) % cap) = if cap ≤ ys.length + i then ys[ys.length + i - cap]? else none

theorem mod_ne {cap head i : Nat} (hh : head < cap) (h0 : 0 < i) (hi : i < cap) : (head + i) % cap ≠ head := by
  intro h
  by_cases hc : head + i < cap
  · rw [Nat.mod_eq_of_lt hc] at h; omega
  · rw [Nat.mod_eq_sub_mod (by omega), Nat.mod_eq_of_lt (by omega)] at h; omega

theorem cleared_push {cap off head : Nat} {ys : List V} {arr : Nat → Option V} (h : Cleared cap off ys head arr) (v : V) :
    Cleared cap off (ys ++ [v]) ((head + 1) % cap) (fun j => if j = head then some v else arr j) := by
  obtain ⟨hp, hh, hs⟩ := h
  have hlt : head < cap := by rw [hh]; exact Nat.mod_lt _ hp
  refine ⟨hp, ?_, fun i hi => ?_⟩
  · rw [hh, Nat.mod_add_mod, List.length_append, List.length_singleton, Nat.add_assoc]
  · rw [Nat.mod_add_mod, List.length_append, List.length_singleton]
    have e : head + 1 + i = head + (i + 1) := by omega
    rw [e]
    by_cases hl : i + 1 = cap
    · rw [hl, Nat.add_mod_right, Nat.mod_eq_of_lt hlt]
      rw [if_pos rfl, if_pos (by omega)]
      have : ys.length + 1 + i - cap = ys.length := by omega
      rw [this]
      simp
    · rw [if_neg (mod_ne hlt (by omega) (by omega)), hs (i + 1) (by omega)]
      have e : ys.length + 1 + i = ys.length + (i + 1) := by omega
      rw [e]
      split
      · rw [List.getElem?_append_left (by omega)]
      · rfl

theorem cleared_pushMany {cap off : Nat} (vs : List V) {ys : List V} {m : Mgr V} {st : Store V} (hc : m.cap = cap)
    (hk : ∀ p ∈ m.pre, p.1 < cap) (h : Cleared cap off ys m.head (fun j => (m.pre.lookup j).or (st.arr j))) :
    ∃ m', pushMany m vs = .ok m' ∧ m'.cap = cap ∧ (∀ p ∈ m'.pre, p.1 < cap) ∧
      Cleared cap off (ys ++ vs) m'.head (fun j => (m'.pre.lookup j).or (st.arr j)) := by
  induction vs generalizing ys m with
  | nil => exact ⟨m, rfl, hc, hk, by simpa using h⟩
  | cons v vs ih =>
    have hp := h.pos
    have hlt : m.head < cap := by rw [h.head_eq]; exact Nat.mod_lt _ hp
    have hpush : push m v = .ok { m with pre := (m.head, v) :: m.pre, head := (m.head + 1) % m.cap } := by
      unfold push
      rw [if_neg (by omega)]
    have e : (fun j => (((m.head, v) :: m.pre).lookup j).or (st.arr j)) =
        (fun j => if j = m.head then some v else (m.pre.lookup j).or (st.arr j)) := by
      funext j
      simp only [List.lookup_cons]
      by_cases hj : j = m.head
      · subst hj; simp
      · have : (j == m.head) = false := by simp [hj]
        simp [this, hj]
    obtain ⟨m', h1, h2, h3, h4⟩ := ih (ys := ys ++ [v])
      (m := { m with pre := (m.head, v) :: m.pre, head := (m.head + 1) % m.cap }) hc
      (fun p hp' => by
        rcases List.mem_cons.1 hp' with rfl | hp'
        · exact hlt
        · exact hk p hp')
      (by
        show Cleared cap off (ys ++ [v]) ((m.head + 1) % m.cap) (fun j => (((m.head, v) :: m.pre).lookup j).or (st.arr j))
        rw [e, hc]
        exact cleared_push h v)
    refine ⟨m', ?_, h2, h3, by simpa using h4⟩
    unfold pushMany
    rw [hpush]
    exact h1

theorem cleared_sessions {cap off : Nat} (bs : List (List V)) {ys : List V} {st : Store V} {head : Nat}
    (hs : st.state = some (cap, head)) (h : Cleared cap off ys head st.arr) :
    ∃ st' head', sessions st bs = .ok st' ∧ st'.state = some (cap, head') ∧
      Cleared cap off (ys ++ bs.flatten) head' st'.arr := by
  induction bs generalizing ys st head with
  | nil => exact ⟨st, head, rfl, hs, by simpa using h⟩
  | cons b bs ih =>
    obtain ⟨m', h1, h2, h3, h4⟩ := cleared_pushMany b (m := ⟨cap, head, []⟩) (st := st) rfl (by simp) (by simpa using h)
    have hsess : session st b = .ok
        { state := some (m'.cap, m'.head), arr := fun j => (m'.pre.lookup j).or (st.arr j) } := by
      unfold session new commit
      rw [hs]
      simp only [orErr, ok_bind, h1]
      have hr : require (¬ m'.pre.any (fun p => p.1 ≥ m'.cap)) (.invalid "SaveValueError") = .ok () := by
        rw [require_ok]
        simp only [List.any_eq_true, decide_eq_true_eq, not_exists, not_and]
        intro p hp
        have := h3 p hp
        omega
      rw [hr]
      rfl
    obtain ⟨st', head', g1, g2, g3⟩ := ih (st := { state := some (m'.cap, m'.head), arr := fun j => (m'.pre.lookup j).or (st.arr j) })
      (head := m'.head) (by rw [h2]) h4
    refine ⟨st', head', ?_, g2, by simpa using g3⟩
    unfold sessions
    rw [hsess]
    exact g1

/-- **C19, clear_buffer.**  After any pushes `xs`, clearing the buffer and any further pushes `ys`, the contents in
chronological order are the last `N` of `ys`, `read_last` is the last of `ys`, and indices count on from the pushes
before: a looped read of `len xs + k` is the value number `k` of `ys`. -/
theorem C19_clear (cap : Nat) (hp : 0 < cap) (hc : 2 * cap ≤ U32) (bs bs' : List (List V)) :
    let xs := bs.flatten
    let ys := bs'.flatten
    ∃ st0 st m st' m', init (empty : Store V) cap = .ok st0 ∧ sessions st0 bs = .ok st ∧ new st = .ok m ∧
      sessions (clear m st) bs' = .ok st' ∧ new st' = .ok m' ∧
      chron m'.cap m'.head st'.arr = lastN cap ys ∧ readLast m' st' = .ok ys.getLast? ∧
      (∀ k, k < ys.length → ys.length ≤ k + cap → readSingle m' st' (xs.length + k) = .ok ys[k]?) ∧
      (ys = [] → ∀ i, readSingle m' st' i = .ok none) := by
  intro xs ys
  obtain ⟨st0, h0, r0⟩ := repS_init (V := V) hp
  obtain ⟨st, h1, r1⟩ := repS_sessions bs r0
  obtain ⟨head, hst, hr⟩ := r1
  rw [List.nil_append] at hr
  have hcl : Cleared cap xs.length [] head (clear ⟨cap, head, []⟩ st).arr := by
    refine ⟨hp, by rw [List.length_nil, Nat.add_zero]; exact hr.head_eq, fun i hi => ?_⟩
    rw [if_neg (by simp; omega)]
    unfold clear
    exact if_pos (Nat.mod_lt _ hp)
  obtain ⟨st', head', g1, g2, g3⟩ := cleared_sessions bs' (st := clear ⟨cap, head, []⟩ st) (head := head)
    (by unfold clear; exact hst) hcl
  rw [List.nil_append] at g3
  change Cleared cap xs.length ys head' st'.arr at g3
  have hlt : head' < cap := by rw [g3.head_eq]; exact Nat.mod_lt _ hp
  refine ⟨st0, st, ⟨cap, head, []⟩, st', ⟨cap, head', []⟩, h0, h1, ?_, g1, ?_, slots_chron g3.slot,
    slots_readLast hp hlt hc g3.slot, ?_, ?_⟩
  · unfold new; rw [hst]; rfl
  · unfold new; rw [g2]; rfl
  · intro k hk hk2
    unfold readSingle
    rw [if_neg (by simp only; omega)]
    have h3 := g3.slot (cap + k - ys.length) (by omega)
    rw [if_pos (by omega)] at h3
    have e : ys.length + (cap + k - ys.length) - cap = k := by omega
    have e2 : (head' + (cap + k - ys.length)) % cap = (xs.length + k) % cap := by
      rw [g3.head_eq, Nat.mod_add_mod]
      have : xs.length + ys.length + (cap + k - ys.length) = xs.length + k + cap := by omega
      show (xs.length + ys.length + (cap + k - ys.length)) % cap = _
      rw [this, Nat.add_mod_right]
    change st'.arr ((head' + (cap + k - ys.length)) % cap) = ys[ys.length + (cap + k - ys.length) - cap]? at h3
    rw [e, e2] at h3
    simp only
    rw [h3]
  · intro hy i
    unfold readSingle
    rw [if_neg (by simp only; omega)]
    have hlt2 : i % cap < cap := Nat.mod_lt _ hp
    have h3 := g3.slot ((i % cap + cap - head') % cap) (Nat.mod_lt _ hp)
    rw [hy, if_neg (by simp only [List.length_nil, Nat.zero_add]; have := Nat.mod_lt (i % cap + cap - head') hp; omega)] at h3
    have e2 : (head' + (i % cap + cap - head') % cap) % cap = i % cap := by
      rw [Nat.add_mod_mod]
      have : head' + (i % cap + cap - head') = i % cap + cap := by omega
      rw [this, Nat.add_mod_right, Nat.mod_mod]
    rw [e2] at h3
    simp only
    rw [h3]

/-- **C19, read_all is violated** by a buffer that was cleared: the head stays where it is, and `read_all`, which stops at
the first empty slot, misses values pushed afterwards. -/
theorem C19_read_all_after_clear_violated :
    okAnd (init (empty : Store Nat) 3) (fun st0 => okAnd (sessions st0 [[1]]) (fun st => okAnd (new st) (fun m =>
      okAnd (sessions (clear m st) [[2]]) (fun st' => okAnd (new st') (fun m' =>
        chron m'.cap m'.head st'.arr = [2] ∧ okAnd (readAll m' st') (fun l => l = [])))))) = true := by decide

/-- Non-vacuity / sanity: capacity 3, batches `[1,2]`, `[]`, `[3,4]`. -/
example : okAnd (init (empty : Store Nat) 3) (fun st0 =>
    okAnd (sessions st0 [[1, 2], [], [3, 4]]) (fun st =>
      okAnd (new st) (fun m => chron m.cap m.head st.arr = [2, 3, 4] ∧
        okAnd (readAll m st) (fun l => l = [4, 2, 3]) ∧ okAnd (readLast m st) (fun v => v = some 4)))) =
    true := by decide

end Verif.Buffer
