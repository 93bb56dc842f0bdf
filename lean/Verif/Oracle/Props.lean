import Verif.Oracle.Model
import Verif.XYK.History

/-!
# Properties of the price oracle
-/

namespace Verif.Oracle

variable {I : Type} [DecidableEq I]

/-! ## Lemmas -/

theorem averagesFor_mem {el : Nat} {old : I × I × Nat} {new r : Table I} (h : averagesFor el old new = .ok r)
    (a b : I) (v : Nat) : (a, b, v) ∈ r ↔
      ∃ c, (a, b, c) ∈ new ∧ a = old.1 ∧ b = old.2.1 ∧ averageOf c old.2.2 el = .ok v := by
  induction new generalizing r with
  | nil =>
    simp only [averagesFor, Except.ok.injEq] at h
    subst h
    simp
  | cons x rest ih =>
    obtain ⟨x1, x2, x3⟩ := x
    unfold averagesFor at h
    simp only at h
    by_cases hx : x1 = old.1 ∧ x2 = old.2.1
    · rw [if_pos hx] at h
      simp only [bind_ok_iff, Except.ok.injEq] at h
      obtain ⟨av, h1, r', h2, rfl⟩ := h
      rw [List.mem_cons, ih h2]
      constructor
      · rintro (he | ⟨c, hc, h3, h4, h5⟩)
        · simp only [Prod.mk.injEq] at he
          obtain ⟨rfl, rfl, rfl⟩ := he
          exact ⟨x3, List.mem_cons_self, hx.1, hx.2, h1⟩
        · exact ⟨c, List.mem_cons_of_mem _ hc, h3, h4, h5⟩
      · rintro ⟨c, hc, h3, h4, h5⟩
        rcases List.mem_cons.1 hc with he | hc
        · simp only [Prod.mk.injEq] at he
          obtain ⟨rfl, rfl, rfl⟩ := he
          rw [h1] at h5
          simp only [Except.ok.injEq] at h5
          exact .inl (by rw [h5])
        · exact .inr ⟨c, hc, h3, h4, h5⟩
    · rw [if_neg hx] at h
      rw [ih h]
      constructor
      · rintro ⟨c, hc, h3⟩
        exact ⟨c, List.mem_cons_of_mem _ hc, h3⟩
      · rintro ⟨c, hc, h3, h4, h5⟩
        rcases List.mem_cons.1 hc with he | hc
        · simp only [Prod.mk.injEq] at he
          obtain ⟨rfl, rfl, rfl⟩ := he
          exact absurd ⟨h3, h4⟩ hx
        · exact ⟨c, hc, h3, h4, h5⟩

theorem averages_mem {el : Nat} {new old r : Table I} (h : averages el new old = .ok r) (a b : I) (v : Nat) :
    (a, b, v) ∈ r ↔ ∃ c c', (a, b, c) ∈ new ∧ (a, b, c') ∈ old ∧ averageOf c c' el = .ok v := by
  induction old generalizing r with
  | nil =>
    simp only [averages, Except.ok.injEq] at h
    subst h
    simp
  | cons x rest ih =>
    obtain ⟨x1, x2, x3⟩ := x
    simp only [averages, bind_ok_iff, Except.ok.injEq] at h
    obtain ⟨l, h1, r', h2, rfl⟩ := h
    rw [List.mem_append, averagesFor_mem h1, ih h2]
    constructor
    · rintro (⟨c, hc, rfl, rfl, h3⟩ | ⟨c, c', hc, hc', h3⟩)
      · exact ⟨c, x3, hc, List.mem_cons_self, h3⟩
      · exact ⟨c, c', hc, List.mem_cons_of_mem _ hc', h3⟩
    · rintro ⟨c, c', hc, hc', h3⟩
      rcases List.mem_cons.1 hc' with he | hc'
      · simp only [Prod.mk.injEq] at he
        obtain ⟨rfl, rfl, rfl⟩ := he
        exact .inl ⟨c, hc, rfl, rfl, h3⟩
      · exact .inr ⟨c, c', hc, hc', h3⟩

/-! ## C66: updates -/

/-- **C66.**  Averages are taken over at least a full day: an update succeeds at least 86400 seconds after the one
before (or the start), at whatever time it is tried; nothing else changes the averages. -/
theorem C66_full_day_between_updates (s s' : State I) (now : Nat) (t : Table I) (h : update s now t = .ok s') :
    s.ts + 86400 ≤ now ∧ s'.ts = now ∧ s'.cumulative = t := by
  simp only [update, bind_ok_iff, csub_ok, require_ok, exists_const, Except.ok.injEq] at h
  obtain ⟨el, ⟨h1, rfl⟩, h2, _, _, rfl⟩ := h
  unfold period at h2
  exact ⟨by omega, rfl, rfl⟩

/-- Specification: the times of the updates that took effect. -/
def effective (s : State I) : List (Nat × Table I) → List Nat
  | [] => []
  | (now, t) :: rest =>
    (match update s now t with
      | .ok _ => [now]
      | .error _ => []) ++ effective (commit' s (update s now t)) rest

/-- **C66.**  In every history, whoever calls and whatever the pair answers, any two updates that take effect are at
least a day apart, the start counted as one. -/
theorem C66_at_most_once_a_day (s : State I) (ops : List (Nat × Table I)) :
    (s.ts :: effective s ops).Pairwise (fun a b => a + 86400 ≤ b) := by
  induction ops generalizing s with
  | nil => simp [effective]
  | cons x rest ih =>
    obtain ⟨now, t⟩ := x
    unfold effective
    cases h : update s now t with
    | error e =>
      simp only [commit', List.nil_append]
      exact ih s
    | ok s' =>
      obtain ⟨h1, h2, _⟩ := C66_full_day_between_updates s s' now t h
      have := ih s'
      rw [h2] at this
      simp only [commit', List.cons_append, List.nil_append]
      rw [List.pairwise_cons]
      refine ⟨?_, this⟩
      intro b hb
      rcases List.mem_cons.1 hb with rfl | hb
      · exact h1
      · have := (List.pairwise_cons.1 this).1 b hb
        omega

/-- **C66.**  After an update the averages are, for exactly the pairs of assets known before and now, the growth of
the cumulative price modulo `2^128`, divided by the elapsed seconds, rounded down to 18 decimals. -/
theorem C66_average_is_growth_over_time (s s' : State I) (now : Nat) (t : Table I) (h : update s now t = .ok s')
    (a b : I) (v : Nat) :
    (a, b, v) ∈ s'.average ↔ ∃ c c', (a, b, c) ∈ t ∧ (a, b, c') ∈ s.cumulative ∧
      v = (c + 2 ^ 128 - c') % 2 ^ 128 * 10 ^ 18 / (now - s.ts) := by
  simp only [update, bind_ok_iff, csub_ok, require_ok, exists_const, Except.ok.injEq] at h
  obtain ⟨el, ⟨h1, rfl⟩, h2, avg, h3, rfl⟩ := h
  unfold period at h2
  simp only
  rw [averages_mem h3]
  have key : ∀ c c', averageOf c c' (now - s.ts) = .ok v ↔
      v = (c + 2 ^ 128 - c') % 2 ^ 128 * 10 ^ 18 / (now - s.ts) := by
    intro c c'
    have hlt : (c + 2 ^ 128 - c') % 2 ^ 128 * 10 ^ 18 / (now - s.ts) < U256 := by
      have : (c + 2 ^ 128 - c') % 2 ^ 128 < 2 ^ 128 := Nat.mod_lt _ (by decide)
      refine lt_of_le_of_lt (Nat.div_le_self _ _) ?_
      unfold U256
      omega
    unfold averageOf wrappingSub dec256FromRatio
    simp only [bind_ok_iff, cdiv_ok, u256_ok, DEC, U128]
    constructor
    · rintro ⟨r, ⟨_, rfl⟩, _, h⟩
      exact h.symm
    · intro h
      exact ⟨_, ⟨by omega, rfl⟩, hlt, h.symm⟩
  simp only [key]

/-- **C66.**  A price asked for is the amount times the stored average, in units of the answer, rounded down twice;
only while there is no average yet it is the pair's quote for one whole token, scaled. -/
theorem C66_consult_exact (s : State I) (token : I) (amount : Nat) (sim : Nat → I → Res Nat) (r : List (I × Nat))
    (h : consult s token amount sim = .ok r) :
    ∃ p, s.precision token = some p ∧ r ≠ [] ∧
      r.map (·.1) = (s.average.filter (fun x => decide (x.1 = token))).map (·.2.1) ∧
      ∀ (k : Nat) a q, r[k]? = some (a, q) →
        ∃ v, (s.average.filter (fun x => decide (x.1 = token)))[k]? = some (token, a, v) ∧
          (v ≠ 0 → q = amount * v / 10 ^ 18 / 10 ^ 6) ∧
          (v = 0 → ∃ one, sim (10 ^ p) a = .ok one ∧ q = one * amount / 10 ^ p) := by
  simp only [consult, bind_ok_iff, require_ok, exists_const, orErr_ok, u128_ok] at h
  obtain ⟨hne, p, hp, one, ⟨_, rfl⟩, h⟩ := h
  have hall : ∀ x ∈ s.average.filter (fun x => decide (x.1 = token)), x.1 = token := by
    intro x hx
    simpa using (List.mem_filter.1 hx).2
  generalize s.average.filter (fun x => decide (x.1 = token)) = l at *
  have key : r.map (·.1) = l.map (·.2.1) ∧ ∀ (k : Nat) a q, r[k]? = some (a, q) →
        ∃ v, l[k]? = some (token, a, v) ∧ (v ≠ 0 → q = amount * v / 10 ^ 18 / 10 ^ 6) ∧
          (v = 0 → ∃ one, sim (10 ^ p) a = .ok one ∧ q = one * amount / 10 ^ p) := by
    clear hne
    induction l generalizing r with
    | nil =>
      simp only [List.map_nil, answers, Except.ok.injEq] at h
      subst h
      simp
    | cons x rest ih =>
      obtain ⟨x1, x2, x3⟩ := x
      simp only [List.map_cons, answers, bind_ok_iff, Except.ok.injEq] at h
      obtain ⟨v, hv, r', hr, rfl⟩ := h
      obtain ⟨i1, i2⟩ := ih r' hr (fun x hx => hall x (List.mem_cons_of_mem _ hx))
      refine ⟨by simp [i1], ?_⟩
      intro k a q hk
      cases k with
      | succ k => exact i2 k a q (by simpa using hk)
      | zero =>
        simp only [List.getElem?_cons_zero, Option.some.injEq, Prod.mk.injEq] at hk
        obtain ⟨rfl, rfl⟩ := hk
        have hx1 : x1 = token := hall _ List.mem_cons_self
        subst hx1
        refine ⟨x3, rfl, ?_, ?_⟩
        · intro hz
          unfold answer at hv
          rw [if_neg hz] at hv
          simp only [bind_ok_iff, u256_ok, Except.ok.injEq] at hv
          obtain ⟨w, ⟨_, rfl⟩, rfl⟩ := hv
          rfl
        · intro hz
          unfold answer at hv
          rw [if_pos hz] at hv
          simp only [bind_ok_iff, u256_ok, cdiv_ok] at hv
          obtain ⟨w, hw, x, ⟨_, rfl⟩, _, rfl⟩ := hv
          exact ⟨w, hw, rfl⟩
  refine ⟨p, hp, ?_, key⟩
  intro hr
  have := key.1
  rw [hr] at this
  simp only [List.map_nil] at this
  apply hne
  rw [List.map_eq_nil_iff.1 this.symm]
  rfl

/-! ## C66: averages of a constant product pair -/

section Pair

open XYK (Op priceTime growth exec step Twap acc_lt twap_exec C17_accumulator_growth)

variable {A : Type} [DecidableEq A]

/-- Specification: the price of asset `i` of the pair is between `lo` and `hi`, in millionths, reserves not empty. -/
def PriceIn (me : A) (i : Bool) (lo hi : Nat) (p : XYK.State A) : Prop :=
  p.bal i me ≠ 0 ∧ p.bal (!i) me ≠ 0 ∧ lo * p.bal i me ≤ 10 ^ 6 * p.bal (!i) me ∧
    10 ^ 6 * p.bal (!i) me ≤ hi * p.bal i me

/-- Specification: transactions at non-decreasing times between `t` and `t'`. -/
def Timed (t t' : Nat) : List (Op A) → Prop
  | [] => t ≤ t'
  | o :: os => t ≤ (o.time).getD t ∧ Timed ((o.time).getD t) t' os

/-- Specification: nobody sends the pair its assets outside of deposits and swaps. -/
def NoDonation (me : A) (o : Op A) : Prop := ∀ i u n, o ≠ .send i u me n

omit [DecidableEq A] in
theorem timed_le {t t' : Nat} {os : List (Op A)} (h : Timed t t' os) : t ≤ t' := by
  induction os generalizing t with
  | nil => exact h
  | cons o os ih => exact h.1.trans (ih h.2)

omit [DecidableEq A] in
theorem timed_mono {t u t' : Nat} {os : List (Op A)} (h : Timed t t' os) (hu : u ≤ t) : Timed u t' os := by
  induction os generalizing t u with
  | nil => exact hu.trans h
  | cons o os ih =>
    obtain ⟨h1, h2⟩ := h
    unfold Timed
    cases ho : o.time with
    | none =>
      rw [ho] at h2
      exact ⟨le_refl _, ih h2 hu⟩
    | some w =>
      rw [ho] at h1 h2
      exact ⟨hu.trans h1, h2⟩

/-- Growth of `priceTime` in the end point. -/
theorem priceTime_extend {last t t' x y lo hi : Nat} (h1 : last ≤ t) (h2 : t ≤ t') (hx : x ≠ 0) (hy : y ≠ 0)
    (hlo : lo * x ≤ 10 ^ 6 * y) (hhi : 10 ^ 6 * y ≤ hi * x) :
    priceTime last t x y + lo * (t' - t) ≤ priceTime last t' x y ∧
      priceTime last t' x y ≤ priceTime last t x y + hi * (t' - t) := by
  have hp : ∀ u, last ≤ u → priceTime last u x y = (u - last) * 10 ^ 6 * y / x := by
    intro u hu
    unfold priceTime
    split
    · rfl
    next hn =>
      have : u - last = 0 := by
        by_contra hc
        exact hn ⟨by omega, hx, hy⟩
      rw [this]; simp
  rw [hp t h1, hp t' (h1.trans h2)]
  obtain ⟨d, rfl⟩ := Nat.exists_eq_add_of_le h2
  have e1 : t + d - last = (t - last) + d := by omega
  have e2 : t + d - t = d := by omega
  rw [e1, e2]
  have hx0 : 0 < x := Nat.pos_of_ne_zero hx
  have e3 : ((t - last) + d) * 10 ^ 6 * y = (t - last) * 10 ^ 6 * y + d * (10 ^ 6 * y) := by ring
  rw [e3]
  constructor
  · rw [Nat.le_div_iff_mul_le hx0]
    have h3 := Nat.div_mul_le_self ((t - last) * 10 ^ 6 * y) x
    have h4 : d * (lo * x) ≤ d * (10 ^ 6 * y) := Nat.mul_le_mul_left _ hlo
    nlinarith
  · have h4 : d * (10 ^ 6 * y) ≤ hi * d * x := by
      calc d * (10 ^ 6 * y) ≤ d * (hi * x) := Nat.mul_le_mul_left _ hhi
        _ = hi * d * x := by ring
    calc ((t - last) * 10 ^ 6 * y + d * (10 ^ 6 * y)) / x
        ≤ ((t - last) * 10 ^ 6 * y + hi * d * x) / x := Nat.div_le_div_right (by omega)
      _ = (t - last) * 10 ^ 6 * y / x + hi * d := Nat.add_mul_div_right _ _ hx0

/-- A transfer that is no donation leaves the reserves alone. -/
theorem quiet_reserves {me : A} {p p' : XYK.State A} {o : Op A} (h : exec me p o = .ok p') (ht : o.time = none)
    (hn : NoDonation me o) (i : Bool) : p'.bal i me = p.bal i me := by
  have k := XYK.exec_cases h
  cases o with
  | provide => simp [Op.time] at ht
  | withdraw => simp [Op.time] at ht
  | swap => simp [Op.time] at ht
  | send j u v n =>
    obtain ⟨hs, l, hl, rfl⟩ := k
    simp only
    split
    next hji =>
      subst hji
      have := move_apply hl me
      have hv : me ≠ v := by rintro rfl; exact hn _ _ _ rfl
      rw [if_neg (Ne.symm hs), if_neg hv] at this
      simpa using this
    · rfl
  | sendLp u v n =>
    obtain ⟨hs, l, hl, rfl⟩ := k
    rfl

/-- The accumulated price between two readings. -/
theorem growth_between (me : A) (i : Bool) (lo hi : Nat) (os : List (Op A)) :
    ∀ (p : XYK.State A) (t t' : Nat), p.twap.p0 < U128 → p.twap.p1 < U128 → p.twap.last ≤ t → Timed t t' os →
      (∀ o ∈ os, NoDonation me o) → (∀ k, PriceIn me i lo hi (XYK.run me p (os.take k))) →
      (XYK.run me p os).twap.last ≤ t' ∧
      priceTime p.twap.last t (p.bal i me) (p.bal (!i) me) + lo * (t' - t) ≤
        growth me i p os + priceTime (XYK.run me p os).twap.last t' ((XYK.run me p os).bal i me)
          ((XYK.run me p os).bal (!i) me) ∧
      growth me i p os + priceTime (XYK.run me p os).twap.last t' ((XYK.run me p os).bal i me)
          ((XYK.run me p os).bal (!i) me) ≤
        priceTime p.twap.last t (p.bal i me) (p.bal (!i) me) + hi * (t' - t) := by
  induction os with
  | nil =>
    intro p t t' _ _ h1 h2 _ hp
    obtain ⟨hx, hy, hlo, hhi⟩ := hp 0
    have := priceTime_extend h1 h2 hx hy hlo hhi
    simp only [XYK.run, List.foldl_nil, growth, Nat.zero_add]
    exact ⟨h1.trans h2, this⟩
  | cons o os ih =>
    intro p t t' h0 h0' h1 h2 hd hp
    have hp0 := hp 0
    simp only [List.take_zero, XYK.run, List.foldl_nil] at hp0
    have hp' : ∀ k, PriceIn me i lo hi (XYK.run me (step me p o) (os.take k)) := by
      intro k
      have := hp (k + 1)
      simpa [XYK.run] using this
    have hd' : ∀ o ∈ os, NoDonation me o := fun x hx => hd x (List.mem_cons_of_mem _ hx)
    have hrun : XYK.run me p (o :: os) = XYK.run me (step me p o) os := rfl
    rw [hrun]
    have hg : growth me i p (o :: os) = (match exec me p o, o.time with
      | .ok _, some now => priceTime p.twap.last now (p.bal i me) (p.bal (!i) me)
      | _, _ => 0) + growth me i (step me p o) os := rfl
    rw [hg]
    cases he : exec me p o with
    | error e =>
      have hst : step me p o = p := by simp [step, he, commit']
      rw [hst] at hp' ⊢
      have := ih p t t' h0 h0' h1 (timed_mono h2.2 h2.1) hd' hp'
      simp only [Nat.zero_add]
      exact this
    | ok p1 =>
      have hst : step me p o = p1 := by simp [step, he, commit']
      rw [hst] at hp' ⊢
      have htw := twap_exec h0 h0' he
      cases hot : o.time with
      | none =>
        rw [hot] at htw
        have htw : p1.twap = p.twap := htw
        have hq := quiet_reserves he hot (hd o List.mem_cons_self)
        have ht2 := h2.2
        rw [hot] at ht2
        have := ih p1 t t' (by rw [htw]; exact h0) (by rw [htw]; exact h0') (by rw [htw]; exact h1) ht2 hd' hp'
        rw [htw, hq, hq] at this
        simp only [Nat.zero_add]
        exact this
      | some now =>
        rw [hot] at htw
        obtain ⟨ha, hl⟩ := htw
        have hU : 0 < U128 := by decide
        have f0 : p1.twap.p0 < U128 := by
          have := ha false
          simp only [Twap.acc] at this
          simp at this
          rw [this]; exact Nat.mod_lt _ hU
        have f1 : p1.twap.p1 < U128 := by
          have := ha true
          simp only [Twap.acc] at this
          simp at this
          rw [this]; exact Nat.mod_lt _ hU
        obtain ⟨ht1, ht2⟩ := h2
        rw [hot] at ht1 ht2
        simp only [Option.getD_some] at ht1 ht2
        have hlast : p1.twap.last = now := by omega
        obtain ⟨g1, g2, g3⟩ := ih p1 now t' f0 f1 (by omega) ht2 hd' hp'
        have hz : priceTime p1.twap.last now (p1.bal i me) (p1.bal (!i) me) = 0 := by
          unfold priceTime
          rw [if_neg (by omega)]
        rw [hz] at g2 g3
        obtain ⟨hx, hy, hlo, hhi⟩ := hp0
        obtain ⟨e1, e2⟩ := priceTime_extend h1 ht1 hx hy hlo hhi
        have hle := timed_le ht2
        have m1 : lo * (t' - t) = lo * (now - t) + lo * (t' - now) := by
          rw [← Nat.mul_add]; congr 1; omega
        have m2 : hi * (t' - t) = hi * (now - t) + hi * (t' - now) := by
          rw [← Nat.mul_add]; congr 1; omega
        simp only
        exact ⟨g1, by omega, by omega⟩

/-- What the pair answers at time `now` for the price of asset `i`. -/
theorem reading {me : A} {p : XYK.State A} {now : Nat} {t : Table Bool} (h0 : p.twap.p0 < U128)
    (h1 : p.twap.p1 < U128) (h : pairTable me p now = .ok t) (i : Bool) (c : Nat) :
    (i, !i, c) ∈ t ↔
      c = (p.twap.acc i + priceTime p.twap.last now (p.bal i me) (p.bal (!i) me)) % U128 := by
  simp only [pairTable, XYK.cumulativePrices, bind_ok_iff, Except.ok.injEq] at h
  obtain ⟨_, ⟨tw, htw, rfl⟩, rfl⟩ := h
  obtain ⟨a, b, _⟩ := XYK.accumulate_spec h0 h1 htw
  cases i
  · simp [Twap.acc, a]
  · simp [Twap.acc, b]

/-- **C66** (partial).  Take any history of a constant product pair between two updates of the oracle, in which nobody
sends the pair its assets outside of deposits and swaps.  If the spot price of asset `i` stayed between `lo` and `hi`
all the time, then so is the average the second update stores.  Missing: histories with plain transfers to the pair, for
which this is false, see `C66_transfer_breaks_average_violated`; other kinds of pairs. -/
theorem C66_average_between_spot_prices_partial (me : A) (p : XYK.State A) (os : List (Op A)) (i : Bool)
    (lo hi t t' : Nat) (c c' : Table Bool) (s s' : State Bool)
    (h0 : p.twap.p0 < U128) (h1 : p.twap.p1 < U128) (hlast : p.twap.last ≤ t)
    (hos : Timed t t' os) (hd : ∀ o ∈ os, NoDonation me o)
    (hp : ∀ k, PriceIn me i lo hi (XYK.run me p (os.take k)))
    (hw : hi * (t' - t) < 2 ^ 128)
    (hc : pairTable me p t = .ok c) (hs : s.cumulative = c ∧ s.ts = t)
    (hc' : pairTable me (XYK.run me p os) t' = .ok c') (hu : update s t' c' = .ok s') :
    (∃ v, (i, !i, v) ∈ s'.average) ∧
      ∀ v, (i, !i, v) ∈ s'.average → lo * 10 ^ 18 ≤ v ∧ v ≤ hi * 10 ^ 18 := by
  obtain ⟨hs1, hs2⟩ := hs
  have hday := (C66_full_day_between_updates s s' t' c' hu).1
  obtain ⟨g1, g2, g3⟩ := growth_between me i lo hi os p t t' h0 h1 hlast hos hd hp
  have hacc := (C17_accumulator_growth me p os i h0 h1).1
  have hf : (XYK.run me p os).twap.p0 < U128 ∧ (XYK.run me p os).twap.p1 < U128 := by
    have hU : 0 < U128 := by decide
    have e0 := (C17_accumulator_growth me p os false h0 h1).1
    have e1 := (C17_accumulator_growth me p os true h0 h1).1
    simp only [Twap.acc, if_true, Bool.false_eq_true, if_false] at e0 e1
    rw [e0, e1]
    exact ⟨Nat.mod_lt _ hU, Nat.mod_lt _ hU⟩
  have r1 := reading h0 h1 hc i
  have r2 := reading hf.1 hf.2 hc' i
  rw [hacc] at r2
  generalize priceTime p.twap.last t (p.bal i me) (p.bal (!i) me) = B at *
  generalize hT : priceTime (XYK.run me p os).twap.last t' ((XYK.run me p os).bal i me)
    ((XYK.run me p os).bal (!i) me) = T at *
  generalize growth me i p os = G at *
  have ha := acc_lt h0 h1 i
  generalize p.twap.acc i = a at *
  have key : ((((a + G) % U128 + T) % U128) + 2 ^ 128 - (a + B) % U128) % 2 ^ 128 = G + T - B := by
    have hU : U128 = 2 ^ 128 := rfl
    rw [Nat.mod_add_mod, hU]
    have hG : G + T - B < 2 ^ 128 := by omega
    have hB : B ≤ G + T := by omega
    obtain ⟨D, hD⟩ := Nat.exists_eq_add_of_le hB
    have e1 : a + G + T = a + B + D := by omega
    have e2 : G + T - B = D := by omega
    rw [e1, e2]
    rw [e2] at hG
    generalize a + B = w at *
    omega
  have hmem : ∀ v, (i, !i, v) ∈ s'.average ↔ v = (G + T - B) * 10 ^ 18 / (t' - t) := by
    intro v
    rw [C66_average_is_growth_over_time s s' t' c' hu, hs1, hs2]
    constructor
    · rintro ⟨x, y, hx, hy, rfl⟩
      rw [r2] at hx
      rw [r1] at hy
      rw [hx, hy, key]
    · intro hv
      refine ⟨_, _, (r2 _).2 rfl, (r1 _).2 rfl, ?_⟩
      rw [key, hv]
  have hel : 0 < t' - t := by omega
  refine ⟨⟨_, (hmem _).2 rfl⟩, ?_⟩
  intro v hv
  rw [hmem] at hv
  subst hv
  constructor
  · rw [Nat.le_div_iff_mul_le hel]
    have : lo * (t' - t) ≤ G + T - B := by omega
    calc lo * 10 ^ 18 * (t' - t) = lo * (t' - t) * 10 ^ 18 := by ring
      _ ≤ (G + T - B) * 10 ^ 18 := Nat.mul_le_mul_right _ this
  · apply Nat.div_le_of_le_mul
    have : G + T - B ≤ hi * (t' - t) := by omega
    calc (G + T - B) * 10 ^ 18 ≤ hi * (t' - t) * 10 ^ 18 := Nat.mul_le_mul_right _ this
      _ = (t' - t) * (hi * 10 ^ 18) := by ring

/-- A pair with reserves 1000 and 2000, untouched for a million seconds. -/
def pair0 : XYK.State Nat :=
  { bal := fun i a => if a = 0 then (if i then 2000 else 1000) else 10 ^ 6
    lp := fun a => if a = 1 then 1414 else 0
    supply := 1414
    twap := ⟨0, 0, 0⟩
    tracked := fun i => if i then 2000 else 1000 }

/-- Somebody sends the pair 1000 of the first asset, halving its price. -/
def gift : List (Op Nat) := [.send false 2 0 1000]

/-- **C66** (violated).  A plain transfer to a pair that has not been used for some time before the first of two updates
makes the second one store an average far outside of all prices there ever were: the price here is always between one
and two (a million and two million millionths), the average stored is more than `10^26` times that. -/
theorem C66_transfer_breaks_average_violated :
    (∀ k, PriceIn 0 false (10 ^ 6) (2 * 10 ^ 6) (XYK.run 0 pair0 (gift.take k))) ∧
    Timed 1000000 1086400 gift ∧
    okAnd (do
      let c ← pairTable 0 pair0 1000000
      let c' ← pairTable 0 (XYK.run 0 pair0 gift) 1086400
      update (instantiate 1000000 c (fun _ => some 6)) 1086400 c')
      (fun s => s.average.any fun x => decide (x.1 = false ∧ x.2.1 = true ∧ 10 ^ 26 * (2 * 10 ^ 6 * 10 ^ 18) < x.2.2))
      = true := by
  refine ⟨?_, ⟨le_refl _, by unfold Timed; decide⟩, by decide +kernel⟩
  intro k
  have hk : gift.take k = [] ∨ gift.take k = gift := by
    cases k with
    | zero => exact .inl rfl
    | succ k => exact .inr (by simp [gift])
  rcases hk with hk | hk <;> rw [hk] <;> unfold PriceIn <;> decide +kernel

/-- The hypotheses of `C66_average_between_spot_prices_partial` are met by the same pair with a swap in between. -/
def trade : List (Op Nat) := [.swap 1040000 2 true 200 none (some (10 ^ 18 / 2)) 2 ⟨3 * 10 ^ 15, 0, none, none⟩]

example : (∀ o ∈ trade, NoDonation 0 o) ∧ Timed 1000000 1086400 trade ∧
    (∀ k, PriceIn 0 false (2 * 10 ^ 6) (3 * 10 ^ 6) (XYK.run 0 pair0 (trade.take k))) ∧
    okAnd (do
      let c ← pairTable 0 pair0 1000000
      let c' ← pairTable 0 (XYK.run 0 pair0 trade) 1086400
      update (instantiate 1000000 c (fun _ => some 6)) 1086400 c')
      (fun s => s.average.any fun x => decide (x.1 = false ∧ x.2.1 = true ∧ 2 * 10 ^ 24 < x.2.2 ∧ x.2.2 < 3 * 10 ^ 24))
      = true := by
  refine ⟨?_, ⟨by decide, by unfold Timed; decide⟩, ?_, by decide +kernel⟩
  · intro o ho i u n
    simp only [trade, List.mem_singleton] at ho
    rw [ho]; simp
  · intro k
    have hk : trade.take k = [] ∨ trade.take k = trade := by
      cases k with
      | zero => exact .inl rfl
      | succ k => exact .inr (by simp [trade])
    rcases hk with hk | hk <;> rw [hk] <;> unfold PriceIn <;> decide +kernel

/-- Before the first update the oracle answers the pair's quote, after it the average. -/
example : okAnd (do
      let c ← pairTable 0 pair0 1000000
      consult (instantiate 1000000 c (fun _ => some 2)) false 700 (fun n _ => .ok (n * 2)))
      (fun r => decide (r = [(true, 1400)])) = true ∧
    okAnd (do
      let c ← pairTable 0 pair0 1000000
      let c' ← pairTable 0 (XYK.run 0 pair0 trade) 1086400
      let s ← update (instantiate 1000000 c (fun _ => some 2)) 1086400 c'
      consult s false 700 (fun _ _ => .error .overflow))
      (fun r => decide (r = [(true, 1556)])) = true := by decide +kernel

/-- The other theorems' hypotheses: two attempts, of which the first is too early. -/
example : effective (instantiate 10 [(false, true, 5)] (fun _ => some 2) : State Bool)
    [(86409, []), (86410, [(false, true, 10 ^ 6)]), (100000, [])] = [86410] := by decide +kernel

end Pair

end Verif.Oracle
