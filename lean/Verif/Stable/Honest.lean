import Verif.Stable.Entry

/-!
# Messages that pay what they declare (C174)

`Stable/Entry.lean` shows that a message to a stableswap pair that succeeds is a transaction of the pair.  Here the converse: a
message that declares what is attached to it succeeds whenever the transaction does, so that the checks at the entrance refuse
nobody who pays.
-/

namespace Verif.Ledgers

open Verif Verif.Asset
open Verif.XYK (sendOpt)

set_option linter.unusedSectionVars false

variable {A : Type} [DecidableEq A]

theorem led_move {w : Led A} {k : Info} {src dst : A} {n : Nat} {l : A → Nat} (h : Verif.move (w.of k) src dst n = .ok l) :
    ∃ w', w.move k src dst n = .ok w' ∧ w'.of k = l := by
  refine ⟨w.set k l, by simp only [Led.move, h, ok_bind], by rw [of_set, if_pos rfl]⟩

theorem pay_of_move {me : A} {w : Led A} {k : Info} {dst : A} {n : Nat} {l : A → Nat} (hn : ¬ (isNative k = true ∧ n = 0))
    (h : Verif.move (w.of k) me dst n = .ok l) : ∃ w', pay me w k dst n = .ok w' ∧ w'.of k = l := by
  obtain ⟨w', h1, h2⟩ := led_move h
  refine ⟨w', ?_, h2⟩
  simp only [pay, bind_ok_iff, require_ok, exists_const]
  exact ⟨hn, h1⟩

theorem payNonzero_of_move {me : A} {w : Led A} {k : Info} {dst : Option A} {n : Nat} {l : A → Nat}
    (h : sendOpt (w.of k) me dst n = .ok l) : ∃ w', payNonzero me w k dst n = .ok w' ∧ w'.of k = l := by
  unfold payNonzero
  cases dst with
  | none =>
    simp only [sendOpt, Except.ok.injEq] at h
    exact ⟨w, rfl, h⟩
  | some a =>
    simp only [sendOpt] at h
    by_cases hn : n = 0
    · subst hn
      rw [move_zero, Except.ok.injEq] at h
      exact ⟨w, by simp, h⟩
    · obtain ⟨w', h1, h2⟩ := pay_of_move (fun h => hn h.2) h
      exact ⟨w', by simp only [if_neg hn]; exact h1, h2⟩

end Verif.Ledgers

namespace Verif.Stable.Entry

open Verif Verif.Stable Verif.Ledgers
open Verif.XYK (Fees SwapOut checkSwapParameters splitFees sendOpt assertMaxSpread ensureMinAssets
  minimumLiquidity shareInAsset)
open Verif.Asset (Str Info Coin assertSent assertCoins sent declared)

set_option linter.unusedSectionVars false

variable {A : Type} [DecidableEq A]

/-! ## Specification -/

/-- An account other than the pair and the token contracts of its assets. -/
def User (c : Cfg A) (x : A) : Prop := x ≠ c.me ∧ c.infos false ≠ .token (c.addr x) ∧ c.infos true ≠ .token (c.addr x)

instance (c : Cfg A) (x : A) : Decidable (User c x) := inferInstanceAs (Decidable (_ ∧ _))

/-- The coins that belong to a deposit of `d`. -/
def coinsOf (c : Cfg A) (d : Bool → Nat) (i : Bool) : List Coin :=
  match c.infos i with
  | .native k => if d i = 0 then [] else [⟨k, d i⟩]
  | .token _ => []

/-- The user has allowed the pair to take the tokens of the deposit. -/
def Allowed (c : Cfg A) (w : Led A) (x : A) (d : Bool → Nat) : Prop :=
  ∀ i t, c.infos i = .token t → d i ≤ w.allow t x c.me

/-! ## Lemmas -/

/-- The converse of `swap_meaning`. -/
theorem swap_converse {c : Cfg A} (hc : c.Ok) {e : Env A} {w : Chain A} {v : State A} {l1 : Led A} {payer sender : A} {i : Bool}
    {n : Nat} {ask : Option Info} {belief maxSpread : Option Nat} {dest : Option A} {out : SwapOut}
    (hin : Ledgers.Moved w.led (c.infos i) payer (some c.me) n l1)
    (h : Stable.swap (setup c) c.me (view c w) e.now payer i n belief maxSpread (dest.getD sender) (fees e w) = .ok (v, out)) :
    ∃ w', swapMsg c e { w with led := l1 } sender ⟨c.infos i, n⟩ ask belief maxSpread dest = .ok (w', out) := by
  unfold Stable.swap at h
  simp only [bind_ok_iff, Except.ok.injEq, Prod.mk.injEq] at h
  obtain ⟨bo, hbo, po, hpo, amp, hamp, r, hr, g, hg, ⟨⟩, hms, ⟨sh, mk⟩, hsp, b1, g1, b2, g2, b3, g3, pools, hpools, tw, htw, _,
    rfl⟩ := h
  have hm := hin.move
  simp only [sendOpt] at hm
  have ev : ∀ j, (view c w).bal j = w.led.of (c.infos j) := fun _ => rfl
  rw [ev, hm, Except.ok.injEq] at hbo
  subst hbo
  have hother : ∀ j, j ≠ i → l1.of (c.infos j) = w.led.of (c.infos j) := fun j hj =>
    hin.other _ fun e => hj (infos_inj hc e)
  rw [payout_eq, ev, ← hother (!i) (by cases i <;> simp)] at g1
  obtain ⟨l2, k2, e2⟩ := payNonzero_of_move (w := l1) (dst := some (dest.getD sender)) g1
  rw [← e2] at g2
  obtain ⟨l3, k3, e3⟩ := payNonzero_of_move g2
  rw [← e3] at g3
  obtain ⟨l4, k4, e4⟩ := payNonzero_of_move g3
  have hp : ∀ j, (if c.infos j = c.infos i then csub (l1.of (c.infos j) c.me) n else .ok (l1.of (c.infos j) c.me)) =
      .ok (if j = i then po else w.led.of (c.infos (!i)) c.me) := by
    intro j
    by_cases hj : j = i
    · subst hj
      rw [if_pos rfl, if_pos rfl]
      exact hpo
    · rw [if_neg fun e => hj (infos_inj hc e), if_neg hj, hother j hj]
      have : j = !i := by cases i <;> cases j <;> simp_all
      rw [this]
  have hfun : (fun k => if k then (if true = i then po else w.led.of (c.infos (!i)) c.me)
      else (if false = i then po else w.led.of (c.infos (!i)) c.me)) =
      fun j => if j = i then po else (view c w).bal (!i) c.me := by
    funext j
    cases j <;> rfl
  refine ⟨{ w with led := l4, twap := tw }, ?_⟩
  unfold swapMsg
  simp only [bind_ok_iff, Except.ok.injEq, Prod.mk.injEq]
  refine ⟨_, hp false, _, hp true, (i, !i), ?_, amp, hamp, r, ?_, g, hg, (), hms, (sh, mk), hsp, pools, ?_, tw, htw, l2, k2, l3, k3, l4,
    k4, rfl, rfl⟩
  · simp only [selectPools, label_infos hc, orErr, ok_bind]
  · rw [hfun]
    exact hr
  · rw [hfun]
    exact hpools

theorem ensure_unlabel {c : Cfg A} {r0 r1 m0 m1 : Nat}
    (h : ensureMinAssets false true r0 r1 (some [(false, m0), (true, m1)]) = .ok ()) :
    ensureMinAssets (c.infos false) (c.infos true) r0 r1 (some [(c.infos false, m0), (c.infos true, m1)]) = .ok () := by
  simp only [ensureMinAssets, bind_ok_iff, require_ok, exists_const, ne_eq, not_true, if_false] at h ⊢
  exact ⟨Or.inl trivial, Or.inr trivial, h.2.2⟩

/-- The converse of `withdraw_meaning`. -/
theorem withdraw_converse {c : Cfg A} (hc : c.Ok) {e : Env A} {w : Chain A} {v : State A} {x : A} {n : Nat}
    {mins : Option (Nat × Nat)} {rs : Nat × Nat}
    (h : Stable.withdraw (setup c) c.me (view c w) e.now x n (mins.map fun m => [(false, m.1), (true, m.2)]) = .ok (v, rs)) :
    n ≠ 0 ∧ ∃ l1 w', attach w.led x c.me [⟨c.lp, n⟩] = .ok l1 ∧
      withdrawMsg c e { w with led := l1 } [⟨c.lp, n⟩] x [] (mins.map fun m => [(c.infos false, m.1), (c.infos true, m.2)]) =
        .ok (w', rs) := by
  unfold Stable.withdraw at h
  simp only [bind_ok_iff, require_ok, exists_const, Except.ok.injEq, Prod.mk.injEq] at h
  obtain ⟨hz, lp1, hlp1, r0, hr0, r1, hr1, ⟨⟩, hmin, pools, hpools, amp, hamp, tw, htw, ⟨n0, n1⟩, b0, g0, b1, g1, lp2, hlp2, sup, hsup,
    _, rfl⟩ := h
  refine ⟨hz, ?_⟩
  obtain ⟨l1, k1, e1⟩ := led_move (w := w.led) (k := .native c.lp) hlp1
  have m1 := move_moved k1
  have hof : ∀ i, l1.of (c.infos i) = w.led.of (c.infos i) := fun i => m1.other _ (hc.lp i)
  have ev : ∀ j, (view c w).bal j = w.led.of (c.infos j) := fun _ => rfl
  rw [ev, ← hof] at g0 g1
  obtain ⟨l2, k2, e2⟩ := pay_of_move (by simpa [setup] using n0) g0
  have m2 := pay_moved k2
  rw [← m2.other _ hc.ne.symm] at g1
  obtain ⟨l3, k3, e3⟩ := pay_of_move (by simpa [setup] using n1) g1
  have m3 := pay_moved k3
  have hb3 : l3.bank c.lp = lp1 := by
    rw [← e1]
    exact (m3.other (.native c.lp) (hc.lp _).symm).trans (m2.other (.native c.lp) (hc.lp _).symm)
  rw [← hb3] at hlp2
  refine ⟨l1, { w with led := { l3 with bank := Function.update l3.bank c.lp lp2 }, twap := tw, supply := sup }, ?_, ?_⟩
  · simp only [attach, k1, ok_bind]
  unfold withdrawMsg
  simp only [bind_ok_iff, require_ok, exists_const, Except.ok.injEq, Prod.mk.injEq]
  refine ⟨⟨c.lp, n⟩, by simp [oneCoin, hz], rfl, r0, ?_, r1, ?_, trivial, (), ?_, pools, ?_, amp, hamp, tw, htw, l2, k2, l3, k3, _, ?_,
    sup, hsup, rfl, rfl, rfl⟩
  · rw [hof]; exact hr0
  · rw [hof]; exact hr1
  · cases mins with
    | none => rfl
    | some m => exact ensure_unlabel hmin
  · simp only [hof]; exact hpools
  · simp only [burn, hlp2, ok_bind]

theorem pull_of_move {c : Cfg A} {w : Led A} {x : A} {i : Bool} {t : Str} {d : Nat} {l : A → Nat} (hi : c.infos i = .token t)
    (ha : d ≤ w.allow t x c.me) (h : Verif.move (w.of (c.infos i)) x c.me d = .ok l) :
    ∃ w', pull c w x i d = .ok w' ∧ w'.of (c.infos i) = l := by
  unfold pull
  rw [hi] at h ⊢
  simp only
  by_cases h0 : d = 0
  · subst h0
    rw [move_zero, Except.ok.injEq] at h
    exact ⟨w, by simp, h⟩
  · rw [if_neg h0]
    refine ⟨{ w with tok := Function.update w.tok t l
                     allow := fun t' o s => if t' = t ∧ o = x ∧ s = c.me then w.allow t x c.me - d else w.allow t' o s }, ?_, ?_⟩
    · have : Verif.move (w.tok t) x c.me d = .ok l := h
      simp only [transferFrom, (csub_ok _ _ _).2 ⟨ha, rfl⟩, ok_bind, this]
    · simp [Led.of]

theorem pull_allow {c : Cfg A} {w w' : Led A} {x : A} {i : Bool} {d : Nat} (h : pull c w x i d = .ok w') (t : Str)
    (ht : c.infos i ≠ .token t) : w'.allow t x c.me = w.allow t x c.me := by
  unfold pull at h
  split at h
  · simp only [Except.ok.injEq] at h
    rw [h]
  · rename_i t' ht'
    split_ifs at h
    · simp only [Except.ok.injEq] at h
      rw [h]
    · exact (transferFrom_allow h).1 _ _ _ fun e => ht (by rw [ht', e.1])

theorem sent_append (xs ys : List Coin) (k : Str) : sent (xs ++ ys) k = sent xs k + sent ys k := by
  induction xs with
  | nil => simp [sent]
  | cons x xs ih => rw [List.cons_append, sent_cons, sent_cons, ih, Nat.add_assoc]

theorem sent_coinsOf (c : Cfg A) (d : Bool → Nat) (i : Bool) (k : Str) :
    sent (coinsOf c d i) k = if c.infos i = .native k then d i else 0 := by
  unfold coinsOf
  cases h : c.infos i with
  | token t => simp [sent]
  | native k' =>
    by_cases h0 : d i = 0
    · simp [h0, sent]
    · by_cases hk : k' = k
      · subst hk
        simp [h0, sent]
      · simp [h0, sent, hk]

/-- The coins of a deposit. -/
def funds (c : Cfg A) (d : Bool → Nat) : List Coin := coinsOf c d false ++ coinsOf c d true

theorem sent_funds {c : Cfg A} (hc : c.Ok) (d : Bool → Nat) (i : Bool) (k : Str) (h : c.infos i = .native k) :
    sent (funds c d) k = d i := by
  rw [funds, sent_append, sent_coinsOf, sent_coinsOf]
  have hne := hc.ne
  cases i
  · rw [if_pos h, if_neg fun e => hne (h.trans e.symm), Nat.add_zero]
  · rw [if_pos h, if_neg fun e => hne (e.trans h.symm), Nat.zero_add]

theorem mem_coinsOf {c : Cfg A} {d : Bool → Nat} {i : Bool} {x : Coin} (h : x ∈ coinsOf c d i) :
    c.infos i = .native x.denom ∧ x.amount = d i ∧ d i ≠ 0 := by
  unfold coinsOf at h
  split at h
  · rename_i k hk
    split_ifs at h with h0
    · cases h
    · simp only [List.mem_singleton] at h
      subst h
      exact ⟨hk, rfl, h0⟩
  · cases h

theorem mem_funds {c : Cfg A} {d : Bool → Nat} {x : Coin} (h : x ∈ funds c d) :
    ∃ i, c.infos i = .native x.denom ∧ x.amount = d i ∧ d i ≠ 0 := by
  rcases List.mem_append.1 h with h | h
  · exact ⟨_, mem_coinsOf h⟩
  · exact ⟨_, mem_coinsOf h⟩

theorem funds_valid {c : Cfg A} (hc : c.Ok) (d : Bool → Nat) : ValidFunds (funds c d) := by
  refine ⟨?_, fun x hx => ?_⟩
  · rw [funds, List.map_append, List.nodup_append]
    have one : ∀ i, ((coinsOf c d i).map Coin.denom).Nodup := by
      intro i
      unfold coinsOf
      split
      · split_ifs <;> simp
      · simp
    refine ⟨one false, one true, ?_⟩
    intro a ha b hb hab
    simp only [List.mem_map] at ha hb
    obtain ⟨x, hx, rfl⟩ := ha
    obtain ⟨y, hy, rfl⟩ := hb
    exact hc.ne ((mem_coinsOf hx).1.trans (by rw [hab, (mem_coinsOf hy).1]))
  · obtain ⟨i, _, h1, h2⟩ := mem_funds hx
    rw [h1]
    exact h2

theorem found_funds {c : Cfg A} (hc : c.Ok) (d : Bool → Nat) (i : Bool) (k : Str) (h : c.infos i = .native k) :
    (((funds c d).find? fun x => decide (x.denom = k)).map Coin.amount).getD 0 = d i := by
  cases hf : (funds c d).find? fun x => decide (x.denom = k) with
  | none =>
    have := sent_funds hc d i k h
    rw [List.find?_eq_none] at hf
    have z : sent (funds c d) k = 0 := by
      unfold sent
      rw [List.filter_eq_nil_iff.2 hf]
      rfl
    rw [z] at this
    simp [← this]
  | some x =>
    obtain ⟨j, h1, h2, _⟩ := mem_funds (List.mem_of_find?_eq_some hf)
    have hk := List.find?_some hf
    simp only [decide_eq_true_eq] at hk
    rw [hk, ← h] at h1
    rw [← infos_inj hc h1]
    simp [h2]

theorem forAll_of {α : Type} {f : α → Res Unit} : ∀ {l : List α}, (∀ x ∈ l, f x = .ok ()) → Asset.forAll f l = .ok ()
  | [], _ => rfl
  | x :: xs, h => by
    simp only [Asset.forAll, h x (by simp), ok_bind]
    exact forAll_of fun y hy => h y (List.mem_cons_of_mem _ hy)

/-- The coins of a deposit are those that it declares. -/
theorem assertCoins_funds {c : Cfg A} (hc : c.Ok) (d : Bool → Nat) :
    assertCoins (funds c d) [⟨c.infos false, d false⟩, ⟨c.infos true, d true⟩] [c.infos false, c.infos true] = .ok () := by
  simp only [assertCoins, bind_ok_iff, require_ok, exists_const]
  refine ⟨by simp, by simp [hc.ne], (), forAll_of ?_, forAll_of ?_⟩
  · have one : ∀ i, Asset.checkInput (funds c d) [c.infos false, c.infos true] ⟨c.infos i, d i⟩ = .ok () := by
      intro i
      simp only [Asset.checkInput, bind_ok_iff, require_ok, exists_const]
      refine ⟨by cases i <;> simp, ?_⟩
      split
      · rename_i k hk
        rw [require_ok]
        exact found_funds hc d i k hk
      · rfl
    intro x hx
    simp only [List.mem_cons, List.not_mem_nil, or_false] at hx
    rcases hx with rfl | rfl
    · exact one false
    · exact one true
  · intro x hx
    obtain ⟨i, hi, _⟩ := mem_funds hx
    rw [require_ok, ← hi]
    cases i <;> simp

/-- A deposit that declares both assets passes the checks. -/
theorem getAssets_two {c : Cfg A} (hc : c.Ok) {d : Bool → Nat} (hnz : ¬ (d false = 0 ∧ d true = 0))
    (hchk : ∀ i, Asset.Info.check c.okAddr (c.infos i) = .ok ()) :
    getAssets c [⟨c.infos false, d false⟩, ⟨c.infos true, d true⟩] = .ok d := by
  simp only [getAssets, bind_ok_iff, require_ok, exists_const, Except.ok.injEq]
  refine ⟨by simp [hc.ne], (), forAll_of ?_, rfl, (), forAll_of ?_, ?_, ?_⟩
  · intro x hx
    simp only [List.mem_cons, List.not_mem_nil, or_false] at hx
    rcases hx with rfl | rfl
    · exact hchk false
    · exact hchk true
  · intro x hx
    simp only [List.mem_cons, List.not_mem_nil, or_false] at hx
    rw [require_ok]
    rcases hx with rfl | rfl <;> simp [label_infos hc]
  · simpa using hnz
  · funext i
    cases i
    · simp [amountOf]
    · simp [amountOf, hc.ne]

/-- What arrives with the message, and what is fetched. -/
theorem deposit_arrives {c : Cfg A} (hc : c.Ok) {l : Led A} {x : A} {d : Bool → Nat} (hs : x ≠ c.me) (hal : Allowed c l x d)
    {b : Bool → A → Nat} (hb : ∀ i, Verif.move (l.of (c.infos i)) x c.me (d i) = .ok (b i)) :
    ∃ l1 l2 l3, attach l x c.me (funds c d) = .ok l1 ∧ pull c l1 x false (d false) = .ok l2 ∧ pull c l2 x true (d true) = .ok l3 ∧
      ∀ i, l1.of (c.infos i) c.me = l.of (c.infos i) c.me + if (setup c).native i then d i else 0 := by
  have hbal : ∀ i, d i ≤ l.of (c.infos i) x := fun i => move_le (hb i)
  obtain ⟨l1, h1⟩ := attach_succeeds (funds := funds c d) (w := l) hs (by
    intro k
    by_cases hk : ∃ i, c.infos i = .native k
    · obtain ⟨i, hi⟩ := hk
      rw [sent_funds hc d i k hi]
      have := hbal i
      rw [hi] at this
      exact this
    · rw [funds, sent_append, sent_coinsOf, sent_coinsOf, if_neg fun e => hk ⟨_, e⟩, if_neg fun e => hk ⟨_, e⟩]
      exact Nat.zero_le _)
  obtain ⟨hbank, htok⟩ := attach_spec hs h1
  have hallow := attach_keeps h1
  have htk : ∀ i t, c.infos i = .token t → l1.of (c.infos i) = l.of (c.infos i) := fun i t hi => by
    rw [hi]
    exact congrFun htok t
  have p : ∀ (i : Bool) (w : Led A), (∀ t, c.infos i = .token t → w.allow t x c.me = l.allow t x c.me) →
      w.of (c.infos i) = l1.of (c.infos i) → ∃ w', pull c w x i (d i) = .ok w' := by
    intro i w ha hw
    cases hi : c.infos i with
    | native k => exact ⟨w, by simp [pull, hi]⟩
    | token t =>
      obtain ⟨w', h, _⟩ := pull_of_move (w := w) (x := x) (d := d i) hi (by rw [ha t hi]; exact hal i t hi)
        (by rw [hw, htk i t hi]; exact hb i)
      exact ⟨w', h⟩
  obtain ⟨l2, h2⟩ := p false l1 (fun t _ => by rw [hallow]) rfl
  obtain ⟨l3, h3⟩ := p true l2 (fun t ht => by
    rw [pull_allow h2 t (fun e => hc.ne (e.trans ht.symm)), hallow]) ((pull_other h2).1 _ hc.ne.symm)
  refine ⟨l1, l2, l3, h1, h2, h3, fun i => ?_⟩
  cases hi : c.infos i with
  | native k =>
    have hm := hbank k
    rw [sent_funds hc d i k hi] at hm
    have e := move_apply hm c.me
    rw [if_neg (Ne.symm hs), if_pos rfl] at e
    have hn : (setup c).native i = true := by simp [setup, hi, isNative]
    rw [hn, if_pos rfl]
    exact e
  | token t =>
    have hn : (setup c).native i = false := by simp [setup, hi, isNative]
    rw [hn, ← hi, htk i t hi]
    simp

/-- The converse of `provide_meaning`. -/
theorem provide_converse {c : Cfg A} (hc : c.Ok) {e : Env A} {w : Chain A} {v : State A} {x : A} {d : Bool → Nat}
    {minLp : Option Nat} {r : Option A} {share : Nat} (hs : x ≠ c.me) (hal : Allowed c w.led x d)
    (hchk : ∀ i, Asset.Info.check c.okAddr (c.infos i) = .ok ())
    (h : Stable.provide (setup c) c.me (view c w) e.now x d minLp (r.getD x) = .ok (v, share)) :
    ∃ l1 w', attach w.led x c.me (funds c d) = .ok l1 ∧
      provideMsg c e { w with led := l1 } (funds c d) x [⟨c.infos false, d false⟩, ⟨c.infos true, d true⟩] minLp r =
        .ok (w', share) := by
  unfold Stable.provide at h
  simp only [bind_ok_iff, require_ok, exists_const, Except.ok.injEq, Prod.mk.injEq] at h
  obtain ⟨hnz, ⟨z0, z1⟩, b0, g0, b1, g1, amp, hamp, sh, hsh, hmin, pools, hpools, tw, htw, _, rfl⟩ := h
  rw [payout_eq] at g0 g1
  have ev : ∀ j, (view c w).bal j = w.led.of (c.infos j) := fun _ => rfl
  obtain ⟨l1, l2, l3, h1, h2, h3, hl1⟩ := deposit_arrives hc hs hal (b := fun i => if i then b1 else b0) (by
    intro i
    cases i
    · exact g0
    · exact g1)
  have c1 := getAssets_two hc hnz hchk
  have c2 := assertCoins_funds hc d
  have pb : ∀ i, ¬ (d i = 0 ∧ w.led.of (c.infos i) c.me = 0) → poolBefore c l1 i (d i) = .ok (w.led.of (c.infos i) c.me) := by
    intro i hz
    simp only [poolBefore, bind_ok_iff, require_ok, exists_const]
    rw [hl1 i]
    refine ⟨fun h => hz ⟨h.1, by omega⟩, ?_⟩
    by_cases hn : isNative (c.infos i) = true
    · have : (setup c).native i = true := hn
      rw [if_pos hn, this, if_pos rfl, csub_ok]
      omega
    · have : (setup c).native i = false := by simpa [setup] using hn
      rw [if_neg hn, this]
      simp
  generalize hlo : (if w.supply = 0 then minimumLiquidity else 0) = lo
  refine ⟨l1, { w with led := mint (mint l3 c.lp c.me lo) c.lp (r.getD x) sh, twap := tw, supply := w.supply + lo + sh }, h1, ?_⟩
  unfold provideMsg
  simp only [bind_ok_iff, require_ok, exists_const, Except.ok.injEq, Prod.mk.injEq, hlo]
  refine ⟨d, c1, (), c2, _, pb false z0, _, pb true z1, amp, hamp, sh, ?_, hmin, pools, ?_, tw, htw, l2, h2, l3, h3, rfl, rfl⟩
  · have : (fun i => if i then w.led.of (c.infos true) c.me else w.led.of (c.infos false) c.me) =
        fun i => (view c w).bal i c.me := by
      funext i
      cases i <;> rfl
    rw [this]
    exact hsh
  · have : (fun i => l1.of (c.infos i) c.me) =
        fun i => (view c w).bal i c.me + if (setup c).native i then d i else 0 := funext hl1
    rw [this]
    exact hpools

/-! ## C174 -/

/-- **C174, trading coins.**  A swap message with the offered coins attached succeeds exactly when the trade does, and has
exactly its effect. -/
theorem C174_coin_trade_iff (c : Cfg A) (hc : c.Ok) (e : Env A) (w : Chain A) (x : A) (hx : User c x) (i : Bool) (k : Str)
    (hi : c.infos i = .native k) (hk : Asset.Info.check c.okAddr (.native k) = .ok ()) (n : Nat) (hn : n ≠ 0)
    (ask : Option Info) (belief maxSpread : Option Nat) (dest : Option A) (v : State A) :
    (∃ w', exec c w (.call e x [⟨k, n⟩] (.swap ⟨.native k, n⟩ ask belief maxSpread dest)) = .ok w' ∧ view c w' = v) ↔
    ∃ out, Stable.swap (setup c) c.me (view c w) e.now x i n belief maxSpread (dest.getD x) (fees e w) = .ok (v, out) := by
  constructor
  · rintro ⟨w', h, rfl⟩
    have := C162_messages_are_pair_transactions c hc w w' _ h
    have hl : label c (.native k) = some i := by rw [← hi, label_infos hc]
    simp only [meaning, ops, Tx.env, hl, List.map_cons, List.map_nil, List.foldlM_cons, List.foldlM_nil, bind_ok_iff, pure_eq_ok,
      Except.ok.injEq, exists_eq_right] at this
    unfold exec1 Stable.exec at this
    simp only [bind_ok_iff, Except.ok.injEq] at this
    obtain ⟨_, _, ⟨v, out⟩, h1, h2⟩ := this
    exact ⟨out, by rw [h1, ← h2]⟩
  · rintro ⟨out, h⟩
    have h' := h
    unfold Stable.swap at h'
    simp only [bind_ok_iff] at h'
    obtain ⟨bo, hbo, _⟩ := h'
    obtain ⟨l1, k1, _⟩ := led_move (w := w.led) (k := c.infos i) hbo
    have hm := move_moved k1
    obtain ⟨w', h1⟩ := swap_converse (ask := ask) hc hm h
    obtain ⟨i', hi', h2⟩ := swap_meaning (offer := ⟨c.infos i, n⟩) hc hm h1
    simp only [label_infos hc, Option.some.injEq] at hi'
    subst hi'
    rw [h, Except.ok.injEq, Prod.mk.injEq] at h2
    refine ⟨w', ?_, h2.1.symm⟩
    have hat : attach w.led x c.me [⟨k, n⟩] = .ok l1 := by
      rw [hi] at k1
      simp only [attach, k1, ok_bind]
    simp only [exec, execute, bind_ok_iff, require_ok, exists_const, Except.ok.injEq]
    refine ⟨hx, ⟨by simp, by simp [hn]⟩, l1, hat, (), hk, rfl, (), ?_, (w', out), by rw [← hi]; exact h1, rfl⟩
    exact (Asset.C67_single_coin k n _).2 ⟨rfl, hn⟩

/-- **C174, trading tokens.**  Sending tokens to the pair with a swap message - oneself, or on behalf of an owner who allows it -
succeeds exactly when the trade does, and has exactly its effect. -/
theorem C174_token_trade_iff (c : Cfg A) (hc : c.Ok) (e : Env A) (w : Chain A) (token owner spender : A) (ho : owner ≠ c.me)
    (hs : spender ≠ c.me) (i : Bool) (hi : c.infos i = .token (c.addr token)) (n : Nat)
    (hal : owner ≠ spender → n ≤ w.led.allow (c.addr token) owner spender)
    (ask : Option Info) (belief maxSpread : Option Nat) (dest : Option A) (v : State A) :
    (∃ w', exec c w (.send e token owner spender n ask belief maxSpread dest) = .ok w' ∧ view c w' = v) ↔
    ∃ out, Stable.swap (setup c) c.me (view c w) e.now owner i n belief maxSpread (dest.getD spender) (fees e w) = .ok (v, out) := by
  constructor
  · rintro ⟨w', h, rfl⟩
    have := C162_messages_are_pair_transactions c hc w w' _ h
    have hl : label c (.token (c.addr token)) = some i := by rw [← hi, label_infos hc]
    simp only [meaning, ops, Tx.env, hl, List.map_cons, List.map_nil, List.foldlM_cons, List.foldlM_nil, bind_ok_iff, pure_eq_ok,
      Except.ok.injEq, exists_eq_right] at this
    unfold exec1 Stable.exec at this
    simp only [bind_ok_iff, Except.ok.injEq] at this
    obtain ⟨_, _, ⟨v, out⟩, h1, h2⟩ := this
    exact ⟨out, by rw [h1, ← h2]⟩
  · rintro ⟨out, h⟩
    have h' := h
    unfold Stable.swap at h'
    simp only [bind_ok_iff] at h'
    obtain ⟨bo, hbo, _⟩ := h'
    have hin : ∃ l1, (if owner = spender then w.led.move (.token (c.addr token)) owner c.me n
        else Ledgers.transferFrom w.led (c.addr token) owner spender c.me n) = .ok l1 := by
      have hb : Verif.move (w.led.tok (c.addr token)) owner c.me n = .ok bo := by
        have e : (view c w).bal i = w.led.tok (c.addr token) := by
          change w.led.of (c.infos i) = _
          rw [hi]
          rfl
        rw [← e]
        exact hbo
      split_ifs with hos
      · obtain ⟨l1, h1, _⟩ := led_move (w := w.led) (k := .token (c.addr token)) hb
        exact ⟨l1, h1⟩
      · simp only [Ledgers.transferFrom, (csub_ok _ _ _).2 ⟨hal hos, rfl⟩, ok_bind, hb]
        exact ⟨_, rfl⟩
    obtain ⟨l1, k1⟩ := hin
    have hm : Ledgers.Moved w.led (c.infos i) owner (some c.me) n l1 := by
      rw [hi]
      split_ifs at k1
      · exact move_moved k1
      · exact transferFrom_moved k1
    obtain ⟨w', h1⟩ := swap_converse (ask := ask) hc hm h
    obtain ⟨i', hi', h2⟩ := swap_meaning (offer := ⟨c.infos i, n⟩) hc hm h1
    simp only [label_infos hc, Option.some.injEq] at hi'
    subst hi'
    rw [h, Except.ok.injEq, Prod.mk.injEq] at h2
    refine ⟨w', ?_, h2.1.symm⟩
    simp only [exec, execute, bind_ok_iff, require_ok, exists_const, Except.ok.injEq]
    refine ⟨⟨ho, hs⟩, l1, k1, ?_, (w', out), by rw [← hi]; exact h1, rfl⟩
    cases i
    · exact Or.inl hi
    · exact Or.inr hi

/-- **C174, withdrawing.**  A withdrawal message with LP tokens attached succeeds exactly when the withdrawal does, and has
exactly its effect. -/
theorem C174_withdraw_iff (c : Cfg A) (hc : c.Ok) (e : Env A) (w : Chain A) (x : A) (hx : User c x) (n : Nat)
    (mins : Option (Nat × Nat)) (v : State A) :
    (∃ w', exec c w (.call e x [⟨c.lp, n⟩]
      (.withdraw [] (mins.map fun m => [(c.infos false, m.1), (c.infos true, m.2)]))) = .ok w' ∧ view c w' = v) ↔
    ∃ rs, Stable.withdraw (setup c) c.me (view c w) e.now x n (mins.map fun m => [(false, m.1), (true, m.2)]) = .ok (v, rs) := by
  have emins : ((mins.map fun m => [(c.infos false, m.1), (c.infos true, m.2)]).map
      fun l => l.map fun a => (decide (a.1 = c.infos true), a.2)) = mins.map fun m => [(false, m.1), (true, m.2)] := by
    cases mins <;> simp [hc.ne]
  have esent : sent [⟨c.lp, n⟩] c.lp = n := by simp [sent]
  constructor
  · rintro ⟨w', h, rfl⟩
    have := C162_messages_are_pair_transactions c hc w w' _ h
    simp only [meaning, ops, Tx.env, List.map_cons, List.map_nil, List.foldlM_cons, List.foldlM_nil, bind_ok_iff, pure_eq_ok,
      Except.ok.injEq, exists_eq_right, emins, esent] at this
    unfold exec1 Stable.exec at this
    simp only [bind_ok_iff, Except.ok.injEq] at this
    obtain ⟨_, _, ⟨v, out⟩, h1, h2⟩ := this
    exact ⟨out, by rw [h1, ← h2]⟩
  · rintro ⟨rs, h⟩
    obtain ⟨hz, l1, w', h1, h2⟩ := withdraw_converse hc h
    have h3 := withdraw_meaning hc hx.1 h1 h2
    rw [emins, esent, h, Except.ok.injEq, Prod.mk.injEq] at h3
    refine ⟨w', ?_, h3.1.symm⟩
    simp only [exec, execute, bind_ok_iff, require_ok, exists_const, Except.ok.injEq]
    exact ⟨hx, ⟨by simp, by simp [hz]⟩, l1, h1, (w', rs), h2, rfl⟩

/-- **C174, depositing.**  A deposit message that declares both assets, with its coins attached and its tokens allowed, succeeds
exactly when the deposit does, and has exactly its effect. -/
theorem C174_deposit_iff (c : Cfg A) (hc : c.Ok) (hchk : ∀ i, Asset.Info.check c.okAddr (c.infos i) = .ok ()) (e : Env A)
    (w : Chain A) (x : A) (hx : User c x) (d : Bool → Nat) (hal : Allowed c w.led x d) (minLp : Option Nat) (dest : Option A)
    (v : State A) :
    (∃ w', exec c w (.call e x (coinsOf c d false ++ coinsOf c d true)
      (.provide [⟨c.infos false, d false⟩, ⟨c.infos true, d true⟩] minLp dest)) = .ok w' ∧ view c w' = v) ↔
    ∃ share, Stable.provide (setup c) c.me (view c w) e.now x d minLp (dest.getD x) = .ok (v, share) := by
  have ed : (fun i => declared [⟨c.infos false, d false⟩, ⟨c.infos true, d true⟩] (c.infos i)) = d := by
    funext i
    cases i <;> simp [declared, hc.ne, hc.ne.symm]
  constructor
  · rintro ⟨w', h, rfl⟩
    have := C162_messages_are_pair_transactions c hc w w' _ h
    simp only [meaning, ops, Tx.env, List.map_cons, List.map_nil, List.foldlM_cons, List.foldlM_nil, bind_ok_iff, pure_eq_ok,
      Except.ok.injEq, exists_eq_right, ed] at this
    unfold exec1 Stable.exec at this
    simp only [bind_ok_iff, Except.ok.injEq] at this
    obtain ⟨_, _, ⟨v, out⟩, h1, h2⟩ := this
    exact ⟨out, by rw [h1, ← h2]⟩
  · rintro ⟨share, h⟩
    obtain ⟨l1, w', h1, h2⟩ := provide_converse hc hx.1 hal hchk h
    have h3 := provide_meaning hc hx.1 (funds_valid hc d) h1 h2
    rw [ed, h, Except.ok.injEq, Prod.mk.injEq] at h3
    refine ⟨w', ?_, h3.1.symm⟩
    simp only [exec, execute, bind_ok_iff, require_ok, exists_const, Except.ok.injEq]
    exact ⟨hx, funds_valid hc d, l1, h1, (w', share), h2, rfl⟩

/-! ## Examples -/

/-- The hypotheses hold for users of the example of `Stable/Entry.lean`: 1 deposits coins and tokens, and 2 and 3 trade. -/
example : (∀ x ∈ [1, 2, 3], User demoCfg x) ∧ (∀ i, Asset.Info.check demoCfg.okAddr (demoCfg.infos i) = .ok ()) ∧
    Allowed demoCfg demoChain.led 1 (fun _ => 10 ^ 9) ∧
    coinsOf demoCfg (fun _ => 10 ^ 9) false ++ coinsOf demoCfg (fun _ => 10 ^ 9) true = [⟨"uluna".toList, 10 ^ 9⟩] ∧
    okAnd (exec demoCfg demoChain (.call (demoEnv 5) 1 [⟨"uluna".toList, 10 ^ 9⟩] (.provide
      [⟨demoCfg.infos false, 10 ^ 9⟩, ⟨demoCfg.infos true, 10 ^ 9⟩] none none))) (fun w =>
      decide (w.supply ≠ 0) &&
      (exec demoCfg w (.call (demoEnv 6) 2 [⟨"uluna".toList, 10 ^ 6⟩] (.swap ⟨.native "uluna".toList, 10 ^ 6⟩
        none none (some (10 ^ 17)) none))).isOk &&
      (exec demoCfg w (.send (demoEnv 6) 9 3 3 (10 ^ 6) none none (some (10 ^ 17)) (some 4))).isOk &&
      (exec demoCfg w (.call (demoEnv 6) 1 [⟨"lp".toList, 10 ^ 8⟩] (.withdraw [] none))).isOk) = true := by
  refine ⟨by decide, fun i => by cases i <;> decide, fun i t h => ?_, by decide, by decide +kernel⟩
  cases i <;> simp [demoCfg] at h <;> subst h <;> decide +kernel

end Verif.Stable.Entry
