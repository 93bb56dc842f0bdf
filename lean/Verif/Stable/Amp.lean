import Verif.Stable.Model
import Mathlib.Tactic.Linarith

/-!
# C45, C46: the amplification ramp of the stableswap pair

The amplification is stored multiplied by 100.
-/

namespace Verif.Stable

variable {A : Type} [DecidableEq A]

@[simp] theorem u64_ok (n m : Nat) : u64 n = .ok m ↔ n < U64 ∧ n = m := by
  unfold u64; split <;> simp_all

/-! ## Specification -/

/-- Stored values fit `u64` and the ramp does not end before it starts. -/
structure Amp.Valid (c : Amp) : Prop where
  init : c.init < 2 ^ 64
  next : c.next < 2 ^ 64
  time : c.nextTime < 2 ^ 64
  order : c.initTime ≤ c.nextTime

/-! ## The ramp formula -/

/-- What `currentAmp` computes, without overflow checks. -/
def rampAt (c : Amp) (now : Nat) : Nat :=
  if now < c.nextTime then
    if c.init < c.next then c.init + (c.next - c.init) * (now - c.initTime) / (c.nextTime - c.initTime)
    else c.init - (c.init - c.next) * (now - c.initTime) / (c.nextTime - c.initTime)
  else c.next

theorem ramp_part_le {c : Amp} {now : Nat} (d : Nat) (h : now < c.nextTime) :
    d * (now - c.initTime) / (c.nextTime - c.initTime) ≤ d := by
  rcases Nat.eq_zero_or_pos (c.nextTime - c.initTime) with h0 | h0
  · rw [h0]; simp
  · apply Nat.div_le_of_le_mul
    rw [Nat.mul_comm]
    exact Nat.mul_le_mul_right _ (by omega)

theorem currentAmp_eq {c : Amp} (hc : c.Valid) {now : Nat} (ht : c.initTime ≤ now) :
    currentAmp c now = .ok (rampAt c now) := by
  have h1 := hc.init
  have h2 := hc.next
  have h3 := hc.time
  have h64 : U64 = 2 ^ 64 := rfl
  have h128 : U128 = 2 ^ 128 := rfl
  unfold currentAmp rampAt
  by_cases hn : now < c.nextTime
  · rw [if_pos hn, if_pos hn]
    have hr : c.nextTime - c.initTime ≠ 0 := by omega
    have hle := fun d => ramp_part_le (c := c) d hn
    have hm : ∀ d < 2 ^ 64, d * (now - c.initTime) < 2 ^ 128 := by
      intro d hd
      calc d * (now - c.initTime) ≤ d * 2 ^ 64 := Nat.mul_le_mul_left _ (by omega)
        _ < 2 ^ 64 * 2 ^ 64 := Nat.mul_lt_mul_of_pos_right hd (by norm_num)
        _ = 2 ^ 128 := by norm_num
    by_cases hi : c.init < c.next
    · rw [if_pos hi, if_pos hi]
      have := hle (c.next - c.init)
      have := hm (c.next - c.init) (by omega)
      simp only [bind_ok_iff, u128_ok, cdiv_ok, u64_ok]
      refine ⟨_, ⟨by omega, rfl⟩, _, ⟨hr, rfl⟩, ?_⟩
      clear hle hm
      generalize (c.next - c.init) * (now - c.initTime) / (c.nextTime - c.initTime) = q at *
      exact ⟨_, ⟨by omega, rfl⟩, by omega, rfl⟩
    · rw [if_neg hi, if_neg hi]
      have := hle (c.init - c.next)
      have := hm (c.init - c.next) (by omega)
      simp only [bind_ok_iff, u128_ok, cdiv_ok, csub_ok, u64_ok]
      refine ⟨_, ⟨by omega, rfl⟩, _, ⟨hr, rfl⟩, ?_⟩
      clear hle hm
      generalize (c.init - c.next) * (now - c.initTime) / (c.nextTime - c.initTime) = q at *
      exact ⟨_, ⟨by omega, rfl⟩, by omega, rfl⟩
  · rw [if_neg hn, if_neg hn]

theorem rampAt_bounds (c : Amp) (now : Nat) :
    min c.init c.next ≤ rampAt c now ∧ rampAt c now ≤ max c.init c.next := by
  unfold rampAt
  by_cases hn : now < c.nextTime
  · rw [if_pos hn]
    have hle := fun d => ramp_part_le (c := c) d hn
    by_cases hi : c.init < c.next
    · rw [if_pos hi]
      have := hle (c.next - c.init)
      clear hle
      generalize (c.next - c.init) * (now - c.initTime) / (c.nextTime - c.initTime) = q at *
      omega
    · rw [if_neg hi]
      have := hle (c.init - c.next)
      clear hle
      generalize (c.init - c.next) * (now - c.initTime) / (c.nextTime - c.initTime) = q at *
      omega
  · rw [if_neg hn]; omega

/-- **C45.** The effective amplification is always defined and lies between the initial and the target
value of the ramp. -/
theorem C45_within_bounds (c : Amp) (hc : c.Valid) (now : Nat) (ht : c.initTime ≤ now) :
    ∃ a, currentAmp c now = .ok a ∧ min c.init c.next ≤ a ∧ a ≤ max c.init c.next :=
  ⟨_, currentAmp_eq hc ht, rampAt_bounds c now⟩

/-- **C45.** It moves monotonically: upwards if the target is above the initial value, downwards
otherwise. -/
theorem C45_monotone (c : Amp) (hc : c.Valid) (t t' a a' : Nat) (h0 : c.initTime ≤ t) (h1 : t ≤ t')
    (ha : currentAmp c t = .ok a) (ha' : currentAmp c t' = .ok a') :
    (c.init ≤ c.next → a ≤ a') ∧ (c.next ≤ c.init → a' ≤ a) := by
  rw [currentAmp_eq hc h0, Except.ok.injEq] at ha
  rw [currentAmp_eq hc (by omega), Except.ok.injEq] at ha'
  subst ha ha'
  have b1 := rampAt_bounds c t
  by_cases hn' : t' < c.nextTime
  · have hn : t < c.nextTime := by omega
    have hm : ∀ d, d * (t - c.initTime) / (c.nextTime - c.initTime) ≤
        d * (t' - c.initTime) / (c.nextTime - c.initTime) := fun d =>
      Nat.div_le_div_right (Nat.mul_le_mul_left _ (by omega))
    unfold rampAt
    rw [if_pos hn, if_pos hn']
    by_cases hi : c.init < c.next
    · rw [if_pos hi, if_pos hi]
      have := hm (c.next - c.init)
      omega
    · rw [if_neg hi, if_neg hi]
      have := hm (c.init - c.next)
      have := ramp_part_le (c := c) (c.init - c.next) hn'
      clear hm b1
      generalize (c.init - c.next) * (t - c.initTime) / (c.nextTime - c.initTime) = q at *
      generalize (c.init - c.next) * (t' - c.initTime) / (c.nextTime - c.initTime) = q' at *
      omega
  · have : rampAt c t' = c.next := by unfold rampAt; rw [if_neg hn']
    rw [this]
    omega

/-- **C45.** It equals the initial value when the ramp starts and the target from its end on. -/
theorem C45_end_points (c : Amp) (hc : c.Valid) :
    (c.initTime < c.nextTime → currentAmp c c.initTime = .ok c.init) ∧
    ∀ t, c.nextTime ≤ t → currentAmp c t = .ok c.next := by
  constructor
  · intro h
    rw [currentAmp_eq hc (le_refl _)]
    unfold rampAt
    rw [if_pos h, Nat.sub_self]
    split <;> simp
  · intro t ht
    unfold currentAmp
    rw [if_neg (by omega)]

/-- Non-vacuity: a ramp from 100 to 250 over two days is at 175 after one day. -/
example : (Amp.mk 10000 0 25000 172800).Valid ∧
    currentAmp (Amp.mk 10000 0 25000 172800) 86400 = .ok 17500 := by
  refine ⟨⟨by decide, by decide, by decide, by decide⟩, by rfl⟩

/-! ## Histories -/

/-- The amplification bounds kept by every history: values within `1..1_000_000` (times 100), at most one
ramp of at least a day, started in the past. -/
structure AmpInv (c : Amp) (now : Nat) : Prop where
  init_lo : 100 ≤ c.init
  init_hi : c.init ≤ 1000000 * 100
  next_lo : 100 ≤ c.next
  next_hi : c.next ≤ 1000000 * 100
  past : c.initTime ≤ now
  day : c.nextTime = c.initTime ∨ c.initTime + 86400 ≤ c.nextTime

theorem currentAmp_inv {c : Amp} {t : Nat} (h : AmpInv c t) (a : Nat) (ha : currentAmp c t = .ok a) :
    100 ≤ a ∧ a ≤ 1000000 * 100 ∧ min c.init c.next ≤ a ∧ a ≤ max c.init c.next := by
  have := h.init_lo; have := h.init_hi; have := h.next_lo; have := h.next_hi
  have key : min c.init c.next ≤ a ∧ a ≤ max c.init c.next := by
    unfold currentAmp at ha
    by_cases hn : t < c.nextTime
    · rw [if_pos hn] at ha
      have hle := fun d => ramp_part_le (c := c) d hn
      by_cases hi : c.init < c.next
      · rw [if_pos hi] at ha
        simp only [bind_ok_iff, u128_ok, cdiv_ok, u64_ok] at ha
        obtain ⟨_, ⟨_, rfl⟩, _, ⟨_, rfl⟩, _, ⟨_, rfl⟩, _, rfl⟩ := ha
        have := hle (c.next - c.init)
        clear hle
        generalize (c.next - c.init) * (t - c.initTime) / (c.nextTime - c.initTime) = q at *
        omega
      · rw [if_neg hi] at ha
        simp only [bind_ok_iff, u128_ok, cdiv_ok, csub_ok, u64_ok] at ha
        obtain ⟨_, ⟨_, rfl⟩, _, ⟨_, rfl⟩, _, ⟨_, rfl⟩, _, rfl⟩ := ha
        have := hle (c.init - c.next)
        clear hle
        generalize (c.init - c.next) * (t - c.initTime) / (c.nextTime - c.initTime) = q at *
        omega
    · rw [if_neg hn, Except.ok.injEq] at ha
      omega
  omega

theorem startChangingAmp_spec {c c' : Amp} {now next t : Nat}
    (h : startChangingAmp c now next t = .ok c') :
    1 ≤ next ∧ next ≤ 1000000 ∧ currentAmp c now = .ok c'.init ∧ c'.next = next * 100 ∧
    c'.initTime = now ∧ c'.nextTime = t ∧ c'.init ≤ 10 * c'.next ∧ c'.next ≤ 10 * c'.init ∧
    c.initTime + 86400 ≤ now ∧ now + 86400 ≤ t := by
  have e1 : MAX_AMP = 1000000 := rfl
  have e2 : AMP_PRECISION = 100 := rfl
  have e3 : MAX_AMP_CHANGE = 10 := rfl
  have e4 : MIN_AMP_CHANGING_TIME = 86400 := rfl
  simp only [startChangingAmp, bind_ok_iff, require_ok, exists_const, u64_ok, Except.ok.injEq] at h
  obtain ⟨h1, cur, hcur, _, ⟨_, rfl⟩, _, ⟨_, rfl⟩, _, ⟨_, rfl⟩, h2, _, ⟨_, rfl⟩, _, ⟨_, rfl⟩, h3, rfl⟩ := h
  dsimp only
  rw [e1] at h1
  rw [e2, e3] at h2
  rw [e4] at h3
  rw [e2]
  refine ⟨by omega, by omega, hcur, by omega, rfl, rfl, by omega, by omega, by omega, by omega⟩

theorem stopChangingAmp_spec {c c' : Amp} {now : Nat} (h : stopChangingAmp c now = .ok c') :
    currentAmp c now = .ok c'.init ∧ c'.next = c'.init ∧ c'.initTime = now ∧ c'.nextTime = now := by
  simp only [stopChangingAmp, bind_ok_iff, Except.ok.injEq] at h
  obtain ⟨cur, hcur, rfl⟩ := h
  exact ⟨hcur, rfl, rfl, rfl⟩

/-- A transaction that is not a start/stop of a ramp leaves the amplification alone; those two must come
from the pool owner (the factory owner if the pool has none). -/
theorem exec_amp {su : Setup} {me : A} {now : Nat} {fo : A} {s s' : State A} {o : Op A}
    (h : exec su me now fo s o = .ok s') :
    s'.owner = s.owner ∧
    (s'.amp = s.amp ∨
     (o.signer = s.owner.getD fo ∧ (∃ u next t, o = .startAmp u next t ∧
        startChangingAmp s.amp now next t = .ok s'.amp)) ∨
     (o.signer = s.owner.getD fo ∧ (∃ u, o = .stopAmp u ∧ stopChangingAmp s.amp now = .ok s'.amp))) := by
  simp only [exec, bind_ok_iff, require_ok, exists_const] at h
  obtain ⟨_, h⟩ := h
  cases o with
  | provide u d m r =>
    simp only [bind_ok_iff, Except.ok.injEq] at h
    obtain ⟨⟨s1, x⟩, h, rfl⟩ := h
    simp only [provide, bind_ok_iff, Except.ok.injEq, Prod.mk.injEq] at h
    obtain ⟨_, _, _, _, _, _, _, _, _, _, _, _, _, _, _, _, _, _, rfl, _⟩ := h
    exact ⟨rfl, Or.inl rfl⟩
  | withdraw u n m =>
    simp only [bind_ok_iff, Except.ok.injEq] at h
    obtain ⟨⟨s1, x⟩, h, rfl⟩ := h
    simp only [withdraw, bind_ok_iff, Except.ok.injEq, Prod.mk.injEq] at h
    obtain ⟨_, _, _, _, _, _, _, _, _, _, _, _, _, _, _, _, _, _, _, _, _, _, _, _, _, _, rfl, _⟩ := h
    exact ⟨rfl, Or.inl rfl⟩
  | swap u i n b m r f =>
    simp only [bind_ok_iff, Except.ok.injEq] at h
    obtain ⟨⟨s1, x⟩, h, rfl⟩ := h
    simp only [swap, bind_ok_iff, Except.ok.injEq, Prod.mk.injEq] at h
    obtain ⟨_, _, _, _, _, _, _, _, _, _, _, _, _, _, _, _, _, _, _, _, _, _, _, _, rfl, _⟩ := h
    exact ⟨rfl, Or.inl rfl⟩
  | startAmp u next t =>
    simp only [bind_ok_iff, authorised, require_ok, exists_const, Except.ok.injEq] at h
    obtain ⟨ho, a, ha, rfl⟩ := h
    exact ⟨rfl, Or.inr (Or.inl ⟨ho, u, next, t, rfl, ha⟩)⟩
  | stopAmp u =>
    simp only [bind_ok_iff, authorised, require_ok, exists_const, Except.ok.injEq] at h
    obtain ⟨ho, a, ha, rfl⟩ := h
    exact ⟨rfl, Or.inr (Or.inr ⟨ho, u, rfl, ha⟩)⟩
  | enableShare u bps r =>
    simp only [bind_ok_iff, authorised, require_ok, exists_const, Except.ok.injEq] at h
    obtain ⟨_, _, rfl⟩ := h
    exact ⟨rfl, Or.inl rfl⟩
  | disableShare u =>
    simp only [bind_ok_iff, authorised, require_ok, exists_const, Except.ok.injEq] at h
    obtain ⟨_, rfl⟩ := h
    exact ⟨rfl, Or.inl rfl⟩
  | send i u v n =>
    simp only [bind_ok_iff, Except.ok.injEq] at h
    obtain ⟨_, _, rfl⟩ := h
    exact ⟨rfl, Or.inl rfl⟩
  | sendLp u v n =>
    simp only [bind_ok_iff, Except.ok.injEq] at h
    obtain ⟨_, _, rfl⟩ := h
    exact ⟨rfl, Or.inl rfl⟩

theorem ampInv_exec {su : Setup} {me : A} {t now : Nat} {fo : A} {s s' : State A} {o : Op A}
    (hi : AmpInv s.amp t) (ht : t ≤ now) (h : exec su me now fo s o = .ok s') :
    AmpInv s'.amp now ∧ s.amp.initTime ≤ s'.amp.initTime := by
  have hi' : AmpInv s.amp now := { hi with past := le_trans hi.past ht }
  have hp := hi'.past
  rcases (exec_amp h).2 with he | ⟨_, u, next, tt, _, hs⟩ | ⟨_, u, _, hs⟩
  · rw [he]; exact ⟨hi', le_refl _⟩
  · obtain ⟨a1, a2, a3, a4, a5, a6, a7, a8, a9, a10⟩ := startChangingAmp_spec hs
    obtain ⟨b1, b2, _⟩ := currentAmp_inv hi' _ a3
    exact ⟨⟨b1, b2, by omega, by omega, by omega, by omega⟩, by omega⟩
  · obtain ⟨a3, a4, a5, a6⟩ := stopChangingAmp_spec hs
    obtain ⟨b1, b2, _⟩ := currentAmp_inv hi' _ a3
    exact ⟨⟨b1, b2, by omega, by omega, by omega, by omega⟩, by omega⟩

/-- Last block time of a history. -/
def lastTime (t : Nat) : List (Event A) → Nat
  | [] => t
  | e :: es => lastTime e.now es

theorem ampInv_run {su : Setup} {me : A} (es : List (Event A)) : ∀ {t : Nat} {s : State A},
    AmpInv s.amp t → Timed t es →
    AmpInv (run su me s es).amp (lastTime t es) ∧ s.amp.initTime ≤ (run su me s es).amp.initTime := by
  induction es with
  | nil => intro t s hi _; exact ⟨hi, le_refl _⟩
  | cons e es ih =>
    intro t s hi ht
    obtain ⟨h1, h2⟩ := ht
    have key : AmpInv (step su me s e).amp e.now ∧ s.amp.initTime ≤ (step su me s e).amp.initTime := by
      unfold step
      cases hx : exec su me e.now e.fo s e.op with
      | error _ => exact ⟨{ hi with past := le_trans hi.past h1 }, le_refl _⟩
      | ok s' => exact ampInv_exec hi h1 hx
    obtain ⟨k1, k2⟩ := ih key.1 h2
    exact ⟨k1, le_trans key.2 k2⟩

theorem ampInv_create {bal : Bool → A → Nat} {owner : Option A} {amp now : Nat} {s : State A}
    (h : create bal owner amp now = .ok s) : AmpInv s.amp now := by
  have e1 : MAX_AMP = 1000000 := rfl
  have e2 : AMP_PRECISION = 100 := rfl
  simp only [create, initAmp, bind_ok_iff, require_ok, exists_const, Except.ok.injEq] at h
  obtain ⟨_, ⟨h1, rfl⟩, rfl⟩ := h
  refine ⟨?_, ?_, ?_, ?_, ?_, ?_⟩ <;> dsimp only <;> rw [e1] at h1 <;> try rw [e2]
  all_goals omega

/-- **C46.** Through every history of transactions by anybody, the stored amplification stays within
`1..1_000_000` (scaled by 100), a pending ramp lasts at least a day, and the current amplification is
defined and within the same limits at any later time (`next_amp_time` is a `u64`). -/
theorem C46_bounds_kept (su : Setup) (me : A) (bal : Bool → A → Nat) (owner : Option A)
    (amp t0 : Nat) (s : State A) (hc : create bal owner amp t0 = .ok s) (es : List (Event A))
    (ht : Timed t0 es) :
    let c := (run su me s es).amp
    (100 ≤ c.init ∧ c.init ≤ 100000000) ∧ (100 ≤ c.next ∧ c.next ≤ 100000000) ∧
    (c.nextTime = c.initTime ∨ c.initTime + 86400 ≤ c.nextTime) ∧
    ∀ now, lastTime t0 es ≤ now → c.nextTime < 2 ^ 64 →
      ∃ a, currentAmp c now = .ok a ∧ 100 ≤ a ∧ a ≤ 100000000 := by
  obtain ⟨h, _⟩ := ampInv_run (su := su) (me := me) es (ampInv_create hc) ht
  intro c
  refine ⟨⟨h.init_lo, h.init_hi⟩, ⟨h.next_lo, h.next_hi⟩, h.day, ?_⟩
  intro now hn h64
  have hi' : AmpInv c now := { h with past := le_trans h.past hn }
  have hv : c.Valid := ⟨by have := hi'.init_hi; omega, by have := hi'.next_hi; omega, h64,
    by have := hi'.day; omega⟩
  have he := currentAmp_eq hv hi'.past
  obtain ⟨b1, b2, _⟩ := currentAmp_inv hi' _ he
  exact ⟨_, he, b1, b2⟩

/-- **C46.** A successful start of a ramp comes from the pool's owner, runs from now for at least a day to
a target within a factor of ten of the current amplification and within `1..1_000_000`, and only a
full day after the previous change. -/
theorem C46_ramp_limits (su : Setup) (me : A) (now : Nat) (fo : A) (s s' : State A) (u : A)
    (next t : Nat) (h : exec su me now fo s (.startAmp u next t) = .ok s') :
    u = s.owner.getD fo ∧ 1 ≤ next ∧ next ≤ 1000000 ∧ s.amp.initTime + 86400 ≤ now ∧ now + 86400 ≤ t ∧
    ∃ cur, currentAmp s.amp now = .ok cur ∧ cur ≤ 10 * (next * 100) ∧ next * 100 ≤ 10 * cur ∧
      s'.amp = { init := cur, initTime := now, next := next * 100, nextTime := t } := by
  rcases exec_amp h with ⟨_, he | ⟨ho, u', n', t', heq, hs⟩ | ⟨_, u', heq, _⟩⟩
  · exfalso
    simp only [exec, bind_ok_iff, require_ok, exists_const, authorised, Except.ok.injEq] at h
    obtain ⟨_, _, a, ha, rfl⟩ := h
    obtain ⟨_, _, _, _, a5, _, _, _, a9, _⟩ := startChangingAmp_spec ha
    dsimp only at he
    rw [he] at a5
    omega
  · cases heq
    obtain ⟨a1, a2, a3, a4, a5, a6, a7, a8, a9, a10⟩ := startChangingAmp_spec hs
    refine ⟨ho, a1, a2, a9, a10, s'.amp.init, a3, by omega, by omega, ?_⟩
    rcases hx : s'.amp with ⟨i, it, n, nt⟩
    rw [hx] at a4 a5 a6
    simp_all
  · cases heq

/-- **C46.** Two ramps never start within a day of each other, whatever happens in between. -/
theorem C46_ramps_a_day_apart (su : Setup) (me : A) (s s1 : State A) (e1 e2 : Event A)
    (es : List (Event A)) (t0 : Nat) (hi : AmpInv s.amp t0) (ht : Timed t0 (e1 :: es ++ [e2]))
    (u1 u2 : A) (n1 n2 d1 d2 : Nat) (ho1 : e1.op = .startAmp u1 n1 d1)
    (ho2 : e2.op = .startAmp u2 n2 d2)
    (h1 : exec su me e1.now e1.fo s e1.op = .ok s1)
    (h2 : Succeeds (exec su me e2.now e2.fo (run su me s1 es) e2.op)) :
    e1.now + 86400 ≤ e2.now := by
  obtain ⟨s2, h2⟩ := h2
  obtain ⟨k1, k2⟩ := ht
  have hs1 := ampInv_exec hi k1 h1
  rw [ho1] at h1
  rw [ho2] at h2
  obtain ⟨_, _, _, _, _, cur, _, _, _, heq⟩ := C46_ramp_limits _ _ _ _ _ _ _ _ _ h1
  have hd := (C46_ramp_limits _ _ _ _ _ _ _ _ _ h2).2.2.2.1
  have hT : Timed e1.now es := by
    clear hd h2 hs1 k1 ho2 h1 ho1 heq
    generalize e1.now = t at k2
    induction es generalizing t with
    | nil => trivial
    | cons e es ih => exact ⟨k2.1, ih e.now k2.2⟩
  have hm := (ampInv_run (su := su) (me := me) es hs1.1 hT).2
  rw [heq] at hm
  dsimp only at hm
  omega

/-- **C46.** No transaction makes the current amplification jump: right after any successful transaction it
is what it was right before; and only the owner changes the ramp at all. -/
theorem C46_no_jump (su : Setup) (me : A) (now : Nat) (fo : A) (s s' : State A) (o : Op A)
    (h : exec su me now fo s o = .ok s') :
    currentAmp s'.amp now = currentAmp s.amp now ∧
    (s'.amp ≠ s.amp → o.signer = s.owner.getD fo) := by
  rcases exec_amp h with ⟨_, he | ⟨ho, u', n', t', heq, hs⟩ | ⟨ho, u', heq, hs⟩⟩
  · rw [he]; exact ⟨rfl, fun h => absurd rfl h⟩
  · refine ⟨?_, fun _ => ho⟩
    obtain ⟨a1, a2, a3, a4, a5, a6, a7, a8, a9, a10⟩ := startChangingAmp_spec hs
    rw [a3]
    have hc : s'.amp.init < U64 := by
      unfold currentAmp at a3
      split at a3
      · split at a3 <;>
        · simp only [bind_ok_iff, u64_ok] at a3
          obtain ⟨_, _, _, _, _, _, hlt, heq⟩ := a3
          omega
      · have : U64 = 2 ^ 64 := rfl
        omega
    have hlt : now < s'.amp.nextTime := by omega
    have h0 : now - s'.amp.initTime = 0 := by omega
    have hr : s'.amp.nextTime - s'.amp.initTime ≠ 0 := by omega
    have hu : U64 ≤ U128 := by decide
    unfold currentAmp
    rw [if_pos hlt, h0]
    by_cases hi : s'.amp.init < s'.amp.next
    · rw [if_pos hi]
      simp only [bind_ok_iff, u128_ok, cdiv_ok, u64_ok, Nat.mul_zero]
      exact ⟨0, ⟨by decide, rfl⟩, 0, ⟨hr, by simp⟩, s'.amp.init, ⟨by omega, by omega⟩, hc, rfl⟩
    · rw [if_neg hi]
      simp only [bind_ok_iff, u128_ok, cdiv_ok, csub_ok, u64_ok, Nat.mul_zero]
      exact ⟨0, ⟨by decide, rfl⟩, 0, ⟨hr, by simp⟩, s'.amp.init, ⟨by omega, by omega⟩, hc, rfl⟩
  · refine ⟨?_, fun _ => ho⟩
    obtain ⟨a3, a4, a5, a6⟩ := stopChangingAmp_spec hs
    rw [a3]
    unfold currentAmp
    rw [if_neg (by omega), a4]

/-- Accounts of the examples. -/
abbrev Acct := Fin 4

/-- An empty pool with amplification 100 created at time 0 and owned by account 1. -/
def demo0 : State Acct :=
  { bal := fun _ _ => 10 ^ 12, lp := fun _ => 0, supply := 0, twap := ⟨fun _ => 0, 0⟩,
    amp := ⟨10000, 0, 10000, 0⟩, owner := some 1, share := none }

def demoSetup : Setup := ⟨fun _ => 6, fun _ => true⟩

/-- Non-vacuity: the owner ramps from 100 to 300 after a day; half way the amplification is 200; stopping
keeps it; another start is then refused for a day and accepted afterwards; a stranger cannot. -/
example :
    okAnd (create (A := Acct) (fun _ _ => 10 ^ 12) (some 1) 100 0) (fun s => s.amp = demo0.amp) = true ∧
    okAnd (exec demoSetup 0 86400 2 demo0 (.startAmp 1 300 259200)) (fun s =>
      okAnd (currentAmp s.amp 172800) (· = 20000) &&
      okAnd (exec demoSetup 0 172800 2 s (.stopAmp 1)) (fun s =>
        okAnd (currentAmp s.amp 999999999) (· = 20000) &&
        fails (exec demoSetup 0 (172800 + 86399) 2 s (.startAmp 1 300 600000)) &&
        okAnd (exec demoSetup 0 (172800 + 86400) 2 s (.startAmp 1 300 600000)) (fun _ => true))) = true ∧
    fails (exec demoSetup 0 86400 2 demo0 (.startAmp 2 300 259200)) = true := by
  decide +kernel

end Verif.Stable
