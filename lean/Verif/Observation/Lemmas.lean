import Verif.Observation.Model
import Verif.Base.Arith
import Mathlib.Tactic.Ring
import Mathlib.Tactic.Linarith
import Mathlib.Algebra.BigOperators.Group.List.Basic

/-! Helper lemmas for the observation properties. -/

namespace Verif.Observation
open Verif.Buffer

/-- How a new observation's average is obtained from the list of all previous ones. -/
def Next (cap : Nat) (xs : List Obs) (o : Obs) : Prop :=
  match xs.getLast? with
  | none => o.sma = o.price
  | some last => last.ts < o.ts ∧
      if xs.length + 1 < cap then
        o.sma = (last.sma * xs.length + o.price) / (xs.length + 1)
      else ∃ old, xs[xs.length + 1 - cap]? = some old ∧ old.price ≤ last.sma * cap + o.price ∧
        o.sma = (last.sma * cap + o.price - old.price) / cap

/-- Lists of observations the code can produce. -/
inductive Hist (cap : Nat) : List Obs → Prop
  | nil : Hist cap []
  | snoc {xs : List Obs} {o : Obs} : Hist cap xs → Next cap xs o → o.sma < U128 → o.price < U128 →
      Hist cap (xs ++ [o])

/-- Storage invariant. -/
def Inv (cap : Nat) (s : State) : Prop := RepS cap s.log s.store ∧ Hist cap s.log

theorem mul_div_DEC (x c : Nat) : x * DEC / (DEC * c) = x / c := by
  rw [Nat.mul_comm x DEC, Nat.mul_div_mul_left _ _ DEC_pos]

theorem safeSma_ok {sma old c new r : Nat} :
    safeSma sma old c new = .ok r ↔
      old ≤ sma * c + new ∧ c ≠ 0 ∧ r = (sma * c + new - old) / c ∧ r < U128 := by
  unfold safeSma
  simp only [bind_ok_iff, csub_ok, cdiv_ok, u128_ok]
  constructor
  · rintro ⟨x, ⟨h1, rfl⟩, y, ⟨h2, rfl⟩, h3, rfl⟩
    rw [mul_div_DEC] at h3 ⊢
    refine ⟨h1, ?_, rfl, h3⟩
    rintro rfl; simp at h2
  · rintro ⟨h1, h2, rfl, h4⟩
    refine ⟨_, ⟨h1, rfl⟩, _, ⟨?_, rfl⟩, ?_, ?_⟩
    · have := DEC_pos; positivity
    · rw [mul_div_DEC]; exact h4
    · rw [mul_div_DEC]

theorem safeSmaNotFull_ok {sma c new r : Nat} :
    safeSmaNotFull sma c new = .ok r ↔ r = (sma * c + new) / (c + 1) ∧ r < U128 := by
  unfold safeSmaNotFull
  simp only [bind_ok_iff, cdiv_ok, u128_ok]
  constructor
  · rintro ⟨y, ⟨h2, rfl⟩, h3, rfl⟩
    rw [mul_div_DEC] at h3 ⊢
    exact ⟨rfl, h3⟩
  · rintro ⟨rfl, h4⟩
    refine ⟨_, ⟨?_, rfl⟩, ?_, ?_⟩
    · have := DEC_pos; positivity
    · rw [mul_div_DEC]; exact h4
    · rw [mul_div_DEC]

/-- A push keeps the representation. -/
theorem pushObs_spec {cap : Nat} {s : State} {m : Mgr Obs} (hm : RepM cap s.log m s.store) (o : Obs) :
    ∃ s', pushObs s m o = .ok s' ∧ s'.log = s.log ++ [o] ∧ s'.pre = s.pre ∧
      RepS cap s'.log s'.store := by
  obtain ⟨m1, h1, r1⟩ := repM_push hm o
  obtain ⟨m2, st2, h2, r2, _⟩ := repM_commit r1
  refine ⟨{ s with store := st2, log := s.log ++ [o] }, ?_, rfl, rfl, r2⟩
  unfold pushObs instantPush
  rw [h1]
  simp only [bind_ok_iff]
  exact ⟨(m2, st2), ⟨m1, rfl, h2⟩, rfl⟩

/-- Complete description of `accumulate_swap_sizes` on states satisfying the invariant. -/
theorem accumulate_cases {cap : Nat} (hcap : 2 ≤ cap) (hc : 2 * cap ≤ U32) {s s' : State} {now : Nat}
    (hi : RepS cap s.log s.store) (h : accumulateSwapSizes s now = .ok s') :
    s' = s ∨ ∃ p o, s.pre = some p ∧ p.quote ≠ 0 ∧ o.ts = p.ts ∧ o.price = p.base * DEC / p.quote ∧
      (s.log = [] → p.ts < now) ∧
      s'.log = s.log ++ [o] ∧ s'.pre = s.pre ∧ RepS cap s'.log s'.store ∧ Next cap s.log o ∧
      o.sma < U128 ∧ o.price < U128 := by
  unfold accumulateSwapSizes at h
  cases hp : s.pre with
  | none => rw [hp] at h; simp at h; exact Or.inl h.symm
  | some p =>
    rw [hp] at h
    obtain ⟨m, hnew, rm, hpre⟩ := repS_new hi
    have hlast := repM_readLast rm hpre hc
    have hr : Rep cap s.log m.head s.store.arr := by simpa [hpre] using rm.2.2
    simp only [hnew, bind_ok_iff, decFromRatio_ok, hlast, Except.ok.injEq] at h
    obtain ⟨_, rfl, price, ⟨hq, hprU, hprice⟩, lst, hlst, h⟩ := h
    rw [hlast] at hlst
    simp only [Except.ok.injEq] at hlst
    subst hlst
    cases hl : s.log.getLast? with
    | none =>
      rw [hl] at h
      simp only at h
      split at h
      next hnow =>
        obtain ⟨s1, e1, l1, p1, r1⟩ := pushObs_spec rm { ts := p.ts, price := price, sma := price }
        rw [e1] at h
        simp only [Except.ok.injEq] at h
        subst h
        right
        refine ⟨p, _, rfl, hq, rfl, hprice.symm, fun _ => hnow, l1, hp ▸ p1, r1, ?_, by simpa [← hprice] using hprU, by simpa [← hprice] using hprU⟩
        simp [Next, hl]
      next => simp at h; exact Or.inl h.symm
    | some last =>
      rw [hl] at h
      simp only at h
      split at h
      next hts =>
        simp only [bind_ok_iff, u32_ok] at h
        obtain ⟨k, ⟨_, rfl⟩, old, hold, sma, hsma, h⟩ := h
        obtain ⟨s1, e1, l1, p1, r1⟩ := pushObs_spec rm { ts := p.ts, price := price, sma := sma }
        rw [e1] at h
        simp only [Except.ok.injEq] at h
        subst h
        right
        have hsU : sma < U128 := by
          unfold nextSma at hsma
          split at hsma
          · exact (safeSma_ok.1 hsma).2.2.2
          · exact (safeSmaNotFull_ok.1 hsma).2
        refine ⟨p, _, rfl, hq, rfl, hprice.symm, ?_, l1, hp ▸ p1, r1, ?_, hsU,
          by simpa [← hprice] using hprU⟩
        · intro hnil; rw [hnil] at hl; simp at hl
        · simp only [Next, hl]
          refine ⟨hts, ?_⟩
          unfold readSingle at hold
          rw [rm.1, if_neg (by omega), rep_slot hr (by omega)] at hold
          simp only [Except.ok.injEq] at hold
          have hlen : s.log ≠ [] := by intro hnil; rw [hnil] at hl; simp at hl
          have hlen' : 0 < s.log.length := List.length_pos_iff.2 hlen
          split
          next hlt =>
            rw [if_neg (by omega)] at hold
            subst hold
            simp only [nextSma] at hsma
            have hh : m.head = s.log.length := by rw [hr.head_eq]; exact Nat.mod_eq_of_lt (by omega)
            rw [hh] at hsma
            exact (safeSmaNotFull_ok.1 hsma).1
          next hge =>
            rw [if_pos (by omega)] at hold
            subst hold
            have hlt : s.log.length + 1 - cap < s.log.length := by omega
            rw [List.getElem?_eq_getElem hlt] at hsma ⊢
            simp only [nextSma, rm.1] at hsma
            obtain ⟨h1, _, h3, _⟩ := safeSma_ok.1 hsma
            exact ⟨_, rfl, h1, h3⟩
      next => simp at h; exact Or.inl h.symm

theorem savePre_log {s s' : State} {now b q : Nat} (h : savePre s now b q = .ok s') :
    s'.log = s.log ∧ s'.store = s.store := by
  unfold savePre at h
  split at h
  · split at h
    · simp only [bind_ok_iff, u128_ok, Except.ok.injEq] at h
      obtain ⟨_, _, _, _, rfl⟩ := h
      exact ⟨rfl, rfl⟩
    · simp at h; subst h; exact ⟨rfl, rfl⟩
  · simp at h; subst h; exact ⟨rfl, rfl⟩

theorem inv_trade {cap : Nat} (hcap : 2 ≤ cap) (hc : 2 * cap ≤ U32) {s s' : State} {now b q : Nat}
    {big : Bool} (hi : Inv cap s) (h : trade s now b q big = .ok s') : Inv cap s' := by
  unfold trade at h
  simp only [bind_ok_iff] at h
  obtain ⟨s1, h1, h2⟩ := h
  have i1 : Inv cap s1 := by
    rcases accumulate_cases hcap hc hi.1 h1 with rfl | ⟨p, o, _, _, _, _, _, hl, _, hr, hn, hu1, hu2⟩
    · exact hi
    · exact ⟨hr, by rw [hl]; exact Hist.snoc hi.2 hn hu1 hu2⟩
  cases big with
  | false => simp at h2; subst h2; exact i1
  | true =>
    simp only [if_true] at h2
    obtain ⟨e1, e2⟩ := savePre_log h2
    unfold Inv
    rw [e1, e2]; exact i1

theorem inv_run {cap : Nat} (hcap : 2 ≤ cap) (hc : 2 * cap ≤ U32) (ts : List Trade) {s : State}
    (hi : Inv cap s) : Inv cap (run s ts) := by
  induction ts generalizing s with
  | nil => exact hi
  | cons t ts ih =>
    apply ih
    exact commit'_inv (Inv cap) hi (fun s' h => inv_trade hcap hc hi h)

theorem inv_initial {cap : Nat} (hcap : 0 < cap) : Inv cap (initial cap) := by
  refine ⟨⟨0, rfl, hcap, by simp [initial], ?_, ?_, ?_⟩, Hist.nil⟩
  · intro k hk; simp [initial] at hk
  · intros; rfl
  · intros; rfl

/-! ### Sortedness -/

theorem hist_sorted {cap : Nat} {xs : List Obs} (h : Hist cap xs) :
    xs.Pairwise (fun a b => a.ts < b.ts) := by
  induction h with
  | nil => exact List.Pairwise.nil
  | @snoc xs o h hn _ _ ih =>
    rw [List.pairwise_append]
    refine ⟨ih, by simp, ?_⟩
    intro a ha b hb
    simp only [List.mem_singleton] at hb
    subst hb
    have hne : xs ≠ [] := List.ne_nil_of_mem ha
    unfold Next at hn
    rw [List.getLast?_eq_some_getLast hne] at hn
    have hlast := hn.1
    -- a is the last or before it
    obtain ⟨ys, y, rfl⟩ : ∃ ys y, xs = ys ++ [y] := ⟨_, _, (List.dropLast_append_getLast hne).symm⟩
    simp only [List.getLast_append_singleton] at hlast
    rw [List.mem_append] at ha
    rcases ha with ha | ha
    · exact lt_trans ((List.pairwise_append.1 ih).2.2 a ha y (by simp)) hlast
    · simp only [List.mem_singleton] at ha; subst ha; exact hlast

theorem hist_fits {cap : Nat} {xs : List Obs} (h : Hist cap xs) : ∀ o ∈ xs, o.sma < U128 := by
  induction h with
  | nil => simp
  | snoc h hn h1 h2 ih =>
    intro o ho
    rw [List.mem_append, List.mem_singleton] at ho
    rcases ho with ho | rfl
    · exact ih o ho
    · exact h1

/-! ### Binary search -/

/-- The index range `[base, base + w.length)` reads the list `w`. -/
def Window (m : Mgr Obs) (st : Store Obs) (base : Nat) (w : List Obs) : Prop :=
  ∀ i, i < w.length → readSingle m st (base + i) = .ok w[i]?

theorem sorted_lt {w : List Obs} (hs : w.Pairwise (fun a b => a.ts < b.ts)) {i j : Nat} {a b : Obs}
    (hij : i < j) (ha : w[i]? = some a) (hb : w[j]? = some b) : a.ts < b.ts := by
  obtain ⟨hi, rfl⟩ := List.getElem?_eq_some_iff.1 ha
  obtain ⟨hj, rfl⟩ := List.getElem?_eq_some_iff.1 hb
  exact List.pairwise_iff_getElem.1 hs i j hi hj hij

theorem sorted_le {w : List Obs} (hs : w.Pairwise (fun a b => a.ts < b.ts)) {i j : Nat} {a b : Obs}
    (hij : i ≤ j) (ha : w[i]? = some a) (hb : w[j]? = some b) : a.ts ≤ b.ts := by
  rcases Nat.lt_or_eq_of_le hij with h | h
  · exact (sorted_lt hs h ha hb).le
  · subst h; rw [ha] at hb; simp at hb; rw [hb]

theorem binarySearch_spec {m : Mgr Obs} {st : Store Obs} {base : Nat} {w : List Obs} {target : Nat}
    (hw : Window m st base w) (hs : w.Pairwise (fun a b => a.ts < b.ts))
    (hu : 2 * (base + w.length) ≤ U32)
    {k : Nat} {lk rk : Obs} (hk : w[k]? = some lk) (hk1 : w[k + 1]? = some rk) (h1 : lk.ts ≤ target)
    (h2 : target < rk.ts) (fuel a b : Nat) (hab : a ≤ k) (hkb : k ≤ b) (hb : b < w.length)
    (hf : b - a < fuel) :
    ∃ l r, binarySearch m st target fuel (base + a) (base + b) = .ok (l, r) ∧
      l.ts ≤ target ∧ target ≤ r.ts ∧ ∃ j, w[j]? = some l ∧ w[j + 1]? = some r := by
  induction fuel generalizing a b with
  | zero => omega
  | succ fuel ih =>
    have hk1l : k + 1 < w.length := (List.getElem?_eq_some_iff.1 hk1).1
    set mid := (a + b) / 2 with hmid
    have e : (base + a + (base + b)) / 2 = base + mid := by omega
    have hml : mid + 1 < w.length := by omega
    obtain ⟨l, hl⟩ : ∃ l, w[mid]? = some l := ⟨_, List.getElem?_eq_getElem (by omega)⟩
    obtain ⟨r, hr⟩ : ∃ r, w[mid + 1]? = some r := ⟨_, List.getElem?_eq_getElem hml⟩
    have rd1 := hw mid (by omega)
    have rd2 := hw (mid + 1) hml
    rw [hl] at rd1
    rw [hr] at rd2
    have hsum : u32 (base + a + (base + b)) = .ok (base + a + (base + b)) := by
      rw [u32_ok]; exact ⟨by omega, rfl⟩
    have hm1 : u32 (base + mid + 1) = .ok (base + mid + 1) := by
      rw [u32_ok]; exact ⟨by omega, rfl⟩
    have key : binarySearch m st target (fuel + 1) (base + a) (base + b) =
        if l.ts ≤ target ∧ target ≤ r.ts then .ok (l, r)
        else if l.ts > target then do
          let stop ← csub (base + mid) 1
          binarySearch m st target fuel (base + a) stop
        else binarySearch m st target fuel (base + mid + 1) (base + b) := by
      conv_lhs => unfold binarySearch
      simp only [hsum, ok_bind, e, rd1, orErr, hm1]
      rw [Nat.add_assoc base mid 1, rd2]
      rfl
    rw [key]
    split
    next hhit => exact ⟨l, r, rfl, hhit.1, hhit.2, mid, hl, hr⟩
    next hno =>
      split
      next hgt =>
        -- k < mid
        have hkm : k < mid := by
          by_contra hc
          have := sorted_le hs (by omega : mid ≤ k) hl hk
          omega
        have hcs : csub (base + mid) 1 = .ok (base + (mid - 1)) := by
          rw [csub_ok]; exact ⟨by omega, by omega⟩
        rw [hcs, ok_bind]
        exact ih a (mid - 1) hab (by omega) (by omega) (by omega)
      next hle =>
        have hrt : r.ts < target := by
          by_contra hc
          exact hno ⟨by omega, by omega⟩
        have hkm : mid < k := by
          by_contra hc
          have := sorted_le hs (by omega : k + 1 ≤ mid + 1) hk1 hr
          omega
        have := ih (mid + 1) b (by omega) hkb hb (by omega)
        rwa [← Nat.add_assoc] at this

/-- There is a neighbouring pair around any target inside the window. -/
theorem exists_bracket {w : List Obs} {target : Nat} {o n : Obs}
    (ho : w[0]? = some o) (hn : w[w.length - 1]? = some n) (h1 : o.ts ≤ target) (h2 : target < n.ts) :
    ∃ k lk rk, w[k]? = some lk ∧ w[k + 1]? = some rk ∧ lk.ts ≤ target ∧ target < rk.ts := by
  induction w generalizing o with
  | nil => simp at ho
  | cons x xs ih =>
    simp only [List.getElem?_cons_zero, Option.some.injEq] at ho
    subst ho
    cases xs with
    | nil =>
      simp at hn
      subst hn
      omega
    | cons y ys =>
      by_cases hy : y.ts ≤ target
      · have hn' : (y :: ys)[(y :: ys).length - 1]? = some n := by
          simpa using hn
        obtain ⟨k, lk, rk, a, b, c, d⟩ := ih (o := y) rfl hn' hy
        exact ⟨k + 1, lk, rk, by simpa using a, by simpa using b, c, d⟩
      · exact ⟨0, x, y, rfl, rfl, h1, by omega⟩

/-! ### Interpolation -/

/-- Distance from the left average used by the interpolation: `slope·(target - left.ts)` with the
slope rounded down to 18 digits. -/
def drift (l r : Obs) (target : Nat) : Nat :=
  (max l.sma r.sma - min l.sma r.sma) * (DEC / (r.ts - l.ts)) / DEC * (target - l.ts)

theorem drift_le {l r : Obs} {target : Nat} (h1 : l.ts ≤ target) (h2 : target ≤ r.ts) :
    drift l r target ≤ max l.sma r.sma - min l.sma r.sma := by
  unfold drift
  generalize max l.sma r.sma - min l.sma r.sma = d
  have hD := DEC_pos
  have a1 : DEC / (r.ts - l.ts) * (r.ts - l.ts) ≤ DEC := Nat.div_mul_le_self _ _
  have a2 : d * (DEC / (r.ts - l.ts)) / DEC * DEC ≤ d * (DEC / (r.ts - l.ts)) := Nat.div_mul_le_self _ _
  generalize DEC / (r.ts - l.ts) = i at *
  generalize d * i / DEC = x at *
  have a3 : target - l.ts ≤ r.ts - l.ts := by omega
  have : x * (target - l.ts) * DEC ≤ d * DEC := by
    calc x * (target - l.ts) * DEC = x * DEC * (target - l.ts) := by ring
      _ ≤ d * i * (target - l.ts) := Nat.mul_le_mul_right _ a2
      _ ≤ d * i * (r.ts - l.ts) := Nat.mul_le_mul_left _ a3
      _ = d * (i * (r.ts - l.ts)) := by ring
      _ ≤ d * DEC := Nat.mul_le_mul_left _ a1
  exact Nat.le_of_mul_le_mul_right this hD

theorem inv_ratio (d : Nat) (h : d ≠ 0) : decFromRatio 1 d = .ok (DEC / d) := by
  have hsm1 : DEC < U128 := by decide
  rw [decFromRatio_ok, Nat.one_mul]
  exact ⟨h, lt_of_le_of_lt (Nat.div_le_self _ _) hsm1, rfl⟩

theorem slope_fits (diff d : Nat) (h : diff < U128) :
    u128 (decMul diff (DEC / d)) = .ok (diff * (DEC / d) / DEC) := by
  rw [u128_ok]
  refine ⟨lt_of_le_of_lt ?_ h, rfl⟩
  apply Nat.div_le_of_le_mul
  rw [Nat.mul_comm DEC]
  exact Nat.mul_le_mul_left _ (Nat.div_le_self _ _)

theorem interval_fits (x : Nat) (h : x < 2 ^ 64) : decFromRatio x 1 = .ok (x * DEC) := by
  have hsm2 : 2 ^ 64 * DEC < U128 := by decide
  rw [decFromRatio_ok, Nat.div_one]
  exact ⟨by omega, lt_of_le_of_lt (Nat.mul_le_mul_right _ h.le) hsm2, rfl⟩

theorem decMul_whole (a x : Nat) : decMul a (x * DEC) = a * x := by
  unfold decMul
  rw [← Nat.mul_assoc, Nat.mul_div_cancel _ DEC_pos]

theorem interpolate_spec {l r : Obs} {target : Nat} (h1 : l.ts ≤ target) (h2 : target ≤ r.ts)
    (hl : l.sma < U128) (hr : r.sma < U128) (ht : target < 2 ^ 64) :
    ∃ p, interpolate l r target = .ok p ∧
      (l.ts = target → p = l.sma) ∧ (l.ts ≠ target → r.ts = target → p = r.sma) ∧
      (l.ts < target → target < r.ts → l.sma ≤ r.sma → p = l.sma + drift l r target) ∧
      (l.ts < target → target < r.ts → r.sma ≤ l.sma → p = l.sma - drift l r target) := by
  unfold interpolate
  by_cases e1 : l.ts = target
  · rw [if_pos e1]
    exact ⟨_, rfl, fun _ => rfl, fun h => absurd e1 h, by omega, by omega⟩
  rw [if_neg e1]
  by_cases e2 : r.ts = target
  · rw [if_pos e2]
    exact ⟨_, rfl, fun h => absurd h e1, fun _ _ => rfl, by omega, by omega⟩
  rw [if_neg e2]
  by_cases e3 : l.sma = r.sma
  · rw [if_pos e3]
    have hd : drift l r target = 0 := by simp [drift, e3]
    exact ⟨_, rfl, fun h => absurd h e1, fun _ h => absurd h e2, fun _ _ _ => by rw [hd]; rfl,
      fun _ _ _ => by rw [hd]; rfl⟩
  rw [if_neg e3]
  have hlt : l.ts < target := by omega
  have hgt : target < r.ts := by omega
  have hle := drift_le h1 h2
  generalize hdiff : (if l.sma > r.sma then l.sma - r.sma else r.sma - l.sma) = diff
  have hdiff' : max l.sma r.sma - min l.sma r.sma = diff := by
    rw [← hdiff]; split <;> omega
  have hdr : diff * (DEC / (r.ts - l.ts)) / DEC * (target - l.ts) = drift l r target := by
    unfold drift
    rw [hdiff']
  have hdU : diff < U128 := by omega
  have b1 : csub r.ts l.ts = .ok (r.ts - l.ts) := by rw [csub_ok]; exact ⟨by omega, rfl⟩
  have b4 : csub target l.ts = .ok (target - l.ts) := by rw [csub_ok]; exact ⟨by omega, rfl⟩
  have b6 : u128 (drift l r target) = .ok (drift l r target) := by
    rw [u128_ok]
    exact ⟨by omega, rfl⟩
  rw [b1, ok_bind, inv_ratio _ (by omega), ok_bind]
  simp only []
  rw [slope_fits _ _ hdU, ok_bind, b4, ok_bind,
    interval_fits _ (by omega), ok_bind, decMul_whole, hdr, b6, ok_bind]
  by_cases e4 : l.sma > r.sma
  · rw [if_pos e4]
    refine ⟨l.sma - drift l r target, ?_, by omega, by omega, by omega, fun _ _ _ => rfl⟩
    rw [csub_ok]
    exact ⟨by omega, rfl⟩
  · rw [if_neg e4]
    refine ⟨l.sma + drift l r target, ?_, by omega, by omega, fun _ _ _ => rfl, by omega⟩
    rw [u128_ok]
    exact ⟨by omega, rfl⟩

end Verif.Observation
