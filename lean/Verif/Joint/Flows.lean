import Verif.Joint.Exchange

/-!
# What a message to a pair does to the ledgers

Lemmas for `Joint/Market.lean`: every accepted message to a constant product, stableswap or concentrated pair is a sequence of
payments by the payer and the pair, and of mints and burns of the pair's own LP token.
-/

namespace Verif.Exchange

open Verif
open Verif.Asset (Str Info Coin sent)
open Verif.Ledgers (Led Cfg Moved attach ValidFunds mint burn)

set_option linter.unusedSectionVars false

variable {A : Type} [DecidableEq A]

/-- Who pays: two accounts. -/
def Two (x m : A) : A → Prop := fun a => a = x ∨ a = m

theorem two_fst (x m : A) : Two x m x := Or.inl rfl

theorem two_snd (x m : A) : Two x m m := Or.inr rfl

/-- Payments by the accounts `P`, and mints and burns of the coin `lp`, whose supply goes along. -/
inductive Flow (P : A → Prop) (lp : Str) : Led A → Nat → Led A → Nat → Prop
  | done {l l' : Led A} {s : Nat} (h : ∀ k, l'.of k = l.of k) : Flow P lp l s l' s
  | move {l l1 l' : Led A} {s s' : Nat} {k : Info} {src dst : A} {n : Nat} (hp : P src)
      (m : Moved l k src (some dst) n l1) (f : Flow P lp l1 s l' s') : Flow P lp l s l' s'
  | mint {l l1 l' : Led A} {s s' : Nat} {dst : A} {n : Nat} (h : l1.of (.native lp) = credit (l.of (.native lp)) dst n)
      (ho : ∀ k, k ≠ .native lp → l1.of k = l.of k) (f : Flow P lp l1 (s + n) l' s') : Flow P lp l s l' s'
  | burn {l l1 l' : Led A} {s s' : Nat} {src : A} {n : Nat} (hp : P src)
      (h : debit (l.of (.native lp)) src n = .ok (l1.of (.native lp)))
      (ho : ∀ k, k ≠ .native lp → l1.of k = l.of k) (hs : n ≤ s) (f : Flow P lp l1 (s - n) l' s') : Flow P lp l s l' s'

namespace Flow

variable {P : A → Prop} {lp : Str}

theorem congr {l v l' : Led A} {s s' : Nat} (f : Flow P lp v s l' s') (h : ∀ k, v.of k = l.of k) : Flow P lp l s l' s' := by
  cases f with
  | done h' => exact .done fun k => (h' k).trans (h k)
  | @move _ l1 _ _ _ k src dst n hp m f =>
    have m' : Moved l k src (some dst) n l1 :=
      ⟨by rw [← h]; exact m.move, fun j hj => by rw [← h]; exact m.other j hj⟩
    exact .move hp m' f
  | mint h' ho f => exact .mint (by rw [← h]; exact h') (fun k hk => by rw [← h]; exact ho k hk) f
  | burn hp h' ho hs f => exact .burn hp (by rw [← h]; exact h') (fun k hk => by rw [← h]; exact ho k hk) hs f

theorem trans {l l1 l' : Led A} {s s1 s' : Nat} (f : Flow P lp l s l1 s1) (g : Flow P lp l1 s1 l' s') :
    Flow P lp l s l' s' := by
  induction f with
  | done h => exact g.congr h
  | move hp m _ ih => exact .move hp m (ih g)
  | mint h ho _ ih => exact .mint h ho (ih g)
  | burn hp h ho hs _ ih => exact .burn hp h ho hs (ih g)

theorem weaken {Q : A → Prop} {l l' : Led A} {s s' : Nat} (f : Flow P lp l s l' s') (h : ∀ a, P a → Q a) :
    Flow Q lp l s l' s' := by
  induction f with
  | done h => exact .done h
  | move hp m _ ih => exact .move (h _ hp) m ih
  | mint h ho _ ih => exact .mint h ho ih
  | burn hp h' ho hs _ ih => exact .burn (h _ hp) h' ho hs ih

theorem moved {l l1 : Led A} {s : Nat} {k : Info} {src : A} {dst : Option A} {n : Nat} (hp : P src)
    (m : Moved l k src dst n l1) : Flow P lp l s l1 s := by
  cases dst with
  | some d => exact .move hp m (.done fun _ => rfl)
  | none =>
    refine .done fun j => ?_
    by_cases hj : j = k
    · subst hj
      have := m.move
      simp only [XYK.sendOpt, Except.ok.injEq] at this
      exact this.symm
    · exact m.other j hj

theorem minted {l : Led A} {s : Nat} {dst : A} {n : Nat} : Flow P lp l s (Ledgers.mint l lp dst n) (s + n) :=
  .mint (l1 := Ledgers.mint l lp dst n) (dst := dst) (by simp [Ledgers.mint, Led.of]) (fun k hk => Ledgers.mint_of k hk) (.done fun _ => rfl)

theorem burnt {l l1 : Led A} {s : Nat} {src : A} {n : Nat} (hp : P src) (hs : n ≤ s)
    (h : Ledgers.burn l lp src n = .ok l1) : Flow P lp l s l1 (s - n) := by
  refine .burn hp ?_ (fun k hk => Ledgers.burn_of h k hk) hs (.done fun _ => rfl)
  simp only [Ledgers.burn, bind_ok_iff, Except.ok.injEq] at h
  obtain ⟨v, hv, rfl⟩ := h
  simpa [Led.of] using hv

theorem attached {src dst : A} (hp : P src) : ∀ {funds : List Coin} {l l1 : Led A} {s : Nat},
    attach l src dst funds = .ok l1 → Flow P lp l s l1 s
  | [], l, l1, s, h => by
    simp only [attach, Except.ok.injEq] at h
    subst h
    exact .done fun _ => rfl
  | c :: cs, l, l1, s, h => by
    simp only [attach, bind_ok_iff] at h
    obtain ⟨v, h1, h2⟩ := h
    exact .move hp (Ledgers.move_moved h1) (attached hp h2)

/-- Who does not pay has no less of anything. -/
theorem mono {l l' : Led A} {s s' : Nat} (f : Flow P lp l s l' s') {z : A} (hz : ¬ P z) (k : Info) :
    l.of k z ≤ l'.of k z := by
  induction f with
  | done h => rw [h]
  | @move l l1 l' s s' j src dst n hp m _ ih =>
    exact Nat.le_trans (m.mono (fun e : z = src => hz (by rw [e]; exact hp)) k) ih
  | @mint l l1 l' s s' dst n h ho _ ih =>
    refine Nat.le_trans ?_ ih
    by_cases hk : k = .native lp
    · subst hk
      rw [h, credit_apply]
      split_ifs <;> omega
    · rw [ho k hk]
  | @burn l l1 l' s s' src n hp h ho hs _ ih =>
    refine Nat.le_trans ?_ ih
    by_cases hk : k = .native lp
    · subst hk
      have := debit_apply h z
      rw [if_neg (fun e : z = src => hz (by rw [e]; exact hp))] at this
      rw [this]
    · rw [ho k hk]

/-- Every other asset is only passed on. -/
theorem sum [Fintype A] {l l' : Led A} {s s' : Nat} (f : Flow P lp l s l' s') {k : Info} (hk : k ≠ .native lp) :
    ∑ z, l'.of k z = ∑ z, l.of k z := by
  induction f with
  | done h => rw [h]
  | move hp m _ ih => exact ih.trans (Moved.sum m k)
  | mint h ho _ ih => rw [ih, ho k hk]
  | burn hp h ho hs _ ih => rw [ih, ho k hk]

/-- The supply of the LP token goes along with the balances. -/
theorem supply [Fintype A] {l l' : Led A} {s s' : Nat} (f : Flow P lp l s l' s') :
    s' + ∑ z, l.of (.native lp) z = s + ∑ z, l'.of (.native lp) z := by
  induction f with
  | done h => simp only [h]
  | move hp m _ ih => rw [← Moved.sum m (.native lp)]; exact ih
  | @mint l l1 l' s s' dst n h ho _ ih =>
    have : ∑ z, l1.of (.native lp) z = ∑ z, l.of (.native lp) z + n := by rw [h]; exact sum_credit _ _ _
    omega
  | @burn l l1 l' s s' src n hp h ho hs _ ih =>
    have := sum_debit h
    omega

end Flow

theorem xykLed_of (w : XYK.Entry.Chain A) (k : Info) : (xykLed w).of k = w.of k := by cases k <;> rfl

section XYK

open XYK.Entry

variable {P : A → Prop} {lp : Str}

theorem xyk_attached {src dst : A} (hp : P src) : ∀ {funds : List Coin} {w w1 : Chain A} {s : Nat},
    XYK.Entry.attach w src dst funds = .ok w1 → Flow P lp (xykLed w) s (xykLed w1) s ∧ w1.supply = w.supply
  | [], w, w1, s, h => by
    simp only [XYK.Entry.attach, Except.ok.injEq] at h
    subst h
    exact ⟨.done fun _ => rfl, rfl⟩
  | c :: cs, w, w1, s, h => by
    simp only [XYK.Entry.attach, bind_ok_iff] at h
    obtain ⟨v, h1, h2⟩ := h
    obtain ⟨g1, g2⟩ := xyk_attached hp (s := s) h2
    have m := XYK.Entry.move_moved h1
    exact ⟨.move hp (xyk_moved m) g1, g2.trans m.rest.supply⟩

theorem xyk_pulled {c : XYK.Entry.Cfg A} {w w1 : Chain A} {x : A} {i : Bool} {d s : Nat} (hp : P x)
    (h : XYK.Entry.pull c w x i d = .ok w1) : Flow P lp (xykLed w) s (xykLed w1) s := by
  unfold XYK.Entry.pull at h
  split at h
  · simp only [Except.ok.injEq] at h
    rw [h]
    exact .done fun _ => rfl
  · exact .moved hp (xyk_moved (XYK.Entry.transferFrom_moved h))

theorem xyk_swapped {c : XYK.Entry.Cfg A} {e : XYK.Entry.Env A} {w w' : Chain A} {funds : List Coin} {sender : A}
    {offer : Asset.Asset} {belief maxSpread : Option Nat} {dest : Option A} {out : XYK.SwapOut} (hp : P c.me)
    (h : XYK.Entry.swapMsg c e w funds sender offer belief maxSpread dest = .ok (w', out)) :
    Flow P lp (xykLed w) w.supply (xykLed w') w'.supply := by
  unfold XYK.Entry.swapMsg at h
  simp only [bind_ok_iff, Except.ok.injEq, Prod.mk.injEq] at h
  obtain ⟨_, _, p0, h0, p1, h1, i, hi, r, hr, g, hg, ⟨⟩, hms, ⟨sh, mk⟩, hsp, tO, hO, tA, hA, tw, htw, w2, g2, w3, g3, w4, g4,
    rfl, rfl⟩ := h
  have m2 := XYK.Entry.payNonzero_moved g2
  have m3 := XYK.Entry.payNonzero_moved g3
  have m4 := XYK.Entry.payNonzero_moved g4
  have e : w4.supply = w.supply := m4.rest.supply.trans (m3.rest.supply.trans m2.rest.supply)
  rw [e]
  exact (Flow.moved hp (xyk_moved m2)).trans ((Flow.moved hp (xyk_moved m3)).trans (.moved hp (xyk_moved m4)))

/-- What a message to a constant product pair does to the ledgers. -/
theorem xyk_flow {c : XYK.Entry.Cfg A} {w w' : Chain A} {t : XYK.Entry.Tx A}
    (h : XYK.Entry.exec c w t = .ok w') :
    Flow (Two t.payer c.me) c.lp (xykLed w) w.supply (xykLed w') w'.supply := by
  cases t with
  | call e x funds m =>
    simp only [XYK.Entry.exec, bind_ok_iff, require_ok, exists_const] at h
    obtain ⟨_, _, w1, h1, h2⟩ := h
    obtain ⟨fa, es⟩ := xyk_attached (P := Two x c.me) (lp := c.lp) (s := w.supply) (two_fst _ _) h1
    refine fa.trans ?_
    rw [← es]
    clear fa es h1
    have px := two_fst x c.me
    have pm := two_snd x c.me
    cases m with
    | receive u n b m r =>
      simp only [execute, bind_ok_iff, Except.ok.injEq] at h2
      obtain ⟨_, _, ⟨w2, out⟩, h, rfl⟩ := h2
      exact xyk_swapped (two_snd _ _) h
    | swap offer b m r =>
      simp only [execute, bind_ok_iff, Except.ok.injEq] at h2
      obtain ⟨_, _, _, _, ⟨w2, out⟩, h, rfl⟩ := h2
      exact xyk_swapped (two_snd _ _) h
    | provide assets tol minLp r =>
      simp only [execute, bind_ok_iff, Except.ok.injEq] at h2
      obtain ⟨⟨w2, sh⟩, h, rfl⟩ := h2
      unfold provideMsg at h
      simp only [bind_ok_iff, require_ok, exists_const, Except.ok.injEq, Prod.mk.injEq] at h
      obtain ⟨⟨d0, d1⟩, hd, _, hchk, _, hco, p0, hp0, p1, hp1, sh, hsh, hmin, t0, ht0, t1, ht1, tw, htw, w2, h2, w3, h3, rfl,
        rfl⟩ := h
      refine (xyk_pulled px h2).trans ((xyk_pulled px h3).trans ?_)
      refine (Flow.minted (dst := c.me)
        (n := if w1.supply = 0 then XYK.minimumLiquidity else 0)).trans
        ((Flow.minted (dst := r.getD x) (n := sh)).trans (.done fun k => ?_))
      cases k with
      | token t => rfl
      | native d =>
        by_cases hd : d = c.lp
        · subst hd
          simp [Led.of, Ledgers.mint, xykLed]
        · simp [Led.of, Ledgers.mint, xykLed, hd]
    | withdraw assets mins =>
      simp only [execute, bind_ok_iff, Except.ok.injEq] at h2
      obtain ⟨⟨w2, rs⟩, h, rfl⟩ := h2
      unfold withdrawMsg at h
      simp only [bind_ok_iff, require_ok, exists_const, Except.ok.injEq, Prod.mk.injEq] at h
      obtain ⟨co, hone, hden, r0, hr0, r1, hr1, _, _, hmin, t0, ht0, t1, ht1, tw, htw, w2, h2, w3, h3, lp, hlp, sup, hsup, rfl,
        rfl⟩ := h
      refine (Flow.moved pm (xyk_moved (XYK.Entry.pay_moved h2))).trans
        ((Flow.moved pm (xyk_moved (XYK.Entry.pay_moved h3))).trans ?_)
      obtain ⟨hle, rfl⟩ := (csub_ok _ _ _).1 hsup
      refine Flow.burn (l1 := ⟨Function.update w3.bank c.lp lp, w3.tok, w3.allow⟩) (src := c.me) (two_snd _ _) ?_ ?_ hle
        (.done fun k => rfl)
      · simpa [Led.of, xykLed] using hlp
      · intro k hk
        cases k with
        | token t => rfl
        | native d =>
          have : d ≠ c.lp := fun e => hk (by rw [e])
          simp [Led.of, xykLed, this]
    | updateConfig share =>
      simp only [execute, updateConfig, bind_ok_iff, require_ok, exists_const] at h2
      have hw : w' = { w1 with share := share } := by
        have h := h2.2
        split at h
        · simp only [bind_ok_iff, require_ok, exists_const, Except.ok.injEq] at h
          exact h.2.symm
        · simp only [ok_bind, Except.ok.injEq] at h
          exact h.symm
      subst hw
      exact .done fun k => rfl
  | send e token owner spender n b m r =>
    simp only [XYK.Entry.exec, execute, bind_ok_iff, require_ok, exists_const, Except.ok.injEq] at h
    obtain ⟨_, w1, hin, _, ⟨w2, out⟩, h, rfl⟩ := h
    have m : XYK.Entry.Moved w (.token (c.addr token)) owner (some c.me) n w1 := by
      split_ifs at hin with ho
      · exact XYK.Entry.move_moved hin
      · exact XYK.Entry.transferFrom_moved hin
    have f := xyk_swapped (P := Two owner c.me) (lp := c.lp) (two_snd _ _) h
    rw [m.rest.supply] at f
    exact .move (two_fst _ _) (xyk_moved m) f
  | transfer k src dst n =>
    simp only [XYK.Entry.exec, bind_ok_iff, require_ok, exists_const] at h
    have m := XYK.Entry.move_moved h.2
    rw [m.rest.supply]
    exact .moved (two_fst _ _) (xyk_moved m)
  | transferFrom token owner spender dst n =>
    simp only [XYK.Entry.exec, bind_ok_iff, require_ok, exists_const] at h
    have m := XYK.Entry.transferFrom_moved h.2
    rw [m.rest.supply]
    exact .moved (two_fst _ _) (xyk_moved m)
  | approve token owner spender n =>
    simp only [XYK.Entry.exec, bind_ok_iff, require_ok, exists_const, Except.ok.injEq] at h
    obtain ⟨_, rfl⟩ := h
    exact .done fun k => by cases k <;> rfl

end XYK

section Stable

open Stable.Entry

variable {P : A → Prop} {lp : Str}

theorem pulled {c : Cfg A} {l l1 : Led A} {x : A} {i : Bool} {d s : Nat} (hp : P x)
    (h : Ledgers.pull c l x i d = .ok l1) : Flow P lp l s l1 s := by
  unfold Ledgers.pull at h
  split at h
  · simp only [Except.ok.injEq] at h
    rw [h]
    exact .done fun _ => rfl
  · split_ifs at h
    · simp only [Except.ok.injEq] at h
      rw [h]
      exact .done fun _ => rfl
    · exact .moved hp (Ledgers.transferFrom_moved h)

theorem stable_swapped {c : Cfg A} {e : Stable.Entry.Env A} {w w' : Stable.Entry.Chain A} {sender : A}
    {offer : Asset.Asset} {ask : Option Info} {belief maxSpread : Option Nat} {dest : Option A} {out : XYK.SwapOut}
    (hp : P c.me) (h : Stable.Entry.swapMsg c e w sender offer ask belief maxSpread dest = .ok (w', out)) :
    Flow P lp w.led w.supply w'.led w'.supply := by
  obtain ⟨i, l2, l3, _, m2, m3, m4, _⟩ := stable_paid h
  have e : w'.supply = w.supply := by
    unfold Stable.Entry.swapMsg at h
    simp only [bind_ok_iff, Except.ok.injEq, Prod.mk.injEq] at h
    obtain ⟨p0, h0, p1, h1, ⟨i, j⟩, hij, amp, hamp, r, hr, g, hg, ⟨⟩, hms, ⟨sh, mk⟩, hsp, pools, hpools, tw, htw, l2, g2, l3,
      g3, l4, g4, rfl, rfl⟩ := h
    rfl
  rw [e]
  exact (Flow.moved hp m2).trans ((Flow.moved hp m3).trans (.moved hp m4))

/-- What a message to a stableswap pair does to the ledgers. -/
theorem stable_flow {c : Cfg A} {w w' : Stable.Entry.Chain A} {t : Stable.Entry.Tx A}
    (h : Stable.Entry.exec c w t = .ok w') :
    Flow (Two t.payer c.me) c.lp w.led w.supply w'.led w'.supply := by
  cases t with
  | call e x funds m =>
    simp only [Stable.Entry.exec, bind_ok_iff, require_ok, exists_const] at h
    obtain ⟨_, _, l1, h1, h2⟩ := h
    have fa := Flow.attached (P := Two x c.me) (lp := c.lp) (s := w.supply) (two_fst _ _) h1
    refine fa.trans ?_
    clear fa h1
    have px := two_fst x c.me
    have pm := two_snd x c.me
    cases m with
    | receive u n ask b m r =>
      simp only [Stable.Entry.execute, bind_ok_iff, Except.ok.injEq] at h2
      obtain ⟨_, _, ⟨w2, out⟩, h, rfl⟩ := h2
      exact stable_swapped (w := { w with led := l1 }) (two_snd _ _) h
    | swap offer ask b m r =>
      simp only [Stable.Entry.execute, bind_ok_iff, Except.ok.injEq] at h2
      obtain ⟨_, _, _, _, _, _, ⟨w2, out⟩, h, rfl⟩ := h2
      exact stable_swapped (w := { w with led := l1 }) (two_snd _ _) h
    | provide assets minLp r =>
      simp only [Stable.Entry.execute, bind_ok_iff, Except.ok.injEq] at h2
      obtain ⟨⟨w2, sh⟩, h, rfl⟩ := h2
      unfold Stable.Entry.provideMsg at h
      simp only [bind_ok_iff, require_ok, exists_const, Except.ok.injEq, Prod.mk.injEq] at h
      obtain ⟨d, hd, ⟨⟩, hco, p0, hp0, p1, hp1, amp, hamp, sh, hsh, hmin, pools, hpools, tw, htw, l2, h2, l3, h3, rfl, rfl⟩ := h
      exact (pulled px h2).trans ((pulled px h3).trans (Flow.minted.trans Flow.minted))
    | withdraw assets mins =>
      simp only [Stable.Entry.execute, bind_ok_iff, Except.ok.injEq] at h2
      obtain ⟨⟨w2, rs⟩, h, rfl⟩ := h2
      unfold Stable.Entry.withdrawMsg at h
      simp only [bind_ok_iff, require_ok, exists_const, Except.ok.injEq, Prod.mk.injEq] at h
      obtain ⟨co, hone, hden, r0, hr0, r1, hr1, _, ⟨⟩, hmin, pools, hpools, amp, hamp, tw, htw, l2, h2, l3, h3, l4, h4, sup, hsup,
        rfl, rfl⟩ := h
      obtain ⟨hle, rfl⟩ := (csub_ok _ _ _).1 hsup
      exact (Flow.moved pm (Ledgers.pay_moved h2)).trans
        ((Flow.moved pm (Ledgers.pay_moved h3)).trans (Flow.burnt pm hle h4))
    | updateConfig u =>
      simp only [Stable.Entry.execute, Stable.Entry.updateConfig, bind_ok_iff, require_ok, exists_const] at h2
      cases u <;> simp only [bind_ok_iff, require_ok, exists_const, Except.ok.injEq] at h2
      · obtain ⟨_, a, _, rfl⟩ := h2
        exact .done fun _ => rfl
      · obtain ⟨_, a, _, rfl⟩ := h2
        exact .done fun _ => rfl
      · obtain ⟨_, _, rfl⟩ := h2
        exact .done fun _ => rfl
      · obtain ⟨_, rfl⟩ := h2
        exact .done fun _ => rfl
  | send e token owner spender n ask b m r =>
    simp only [Stable.Entry.exec, Stable.Entry.execute, bind_ok_iff, require_ok, exists_const, Except.ok.injEq] at h
    obtain ⟨_, l1, hin, _, ⟨w2, out⟩, h, rfl⟩ := h
    have m : Moved w.led (.token (c.addr token)) owner (some c.me) n l1 := by
      split_ifs at hin with ho
      · exact Ledgers.move_moved hin
      · exact Ledgers.transferFrom_moved hin
    exact .move (two_fst _ _) m (stable_swapped (w := { w with led := l1 }) (two_snd _ _) h)
  | transfer e k src dst n =>
    simp only [Stable.Entry.exec, bind_ok_iff, require_ok, exists_const, Except.ok.injEq] at h
    obtain ⟨_, l, h, rfl⟩ := h
    exact .moved (two_fst _ _) (Ledgers.move_moved h)
  | transferFrom e token owner spender dst n =>
    simp only [Stable.Entry.exec, bind_ok_iff, require_ok, exists_const, Except.ok.injEq] at h
    obtain ⟨_, l, h, rfl⟩ := h
    exact .moved (two_fst _ _) (Ledgers.transferFrom_moved h)
  | approve e token owner spender n =>
    simp only [Stable.Entry.exec, bind_ok_iff, require_ok, exists_const, Except.ok.injEq] at h
    obtain ⟨_, rfl⟩ := h
    exact .done fun k => by cases k <;> rfl

end Stable

section PCL

open PCL.Entry

variable {P : A → Prop} {lp : Str}

theorem dec_pulled {c : Cfg A} {l l1 : Led A} {x : A} {i : Bool} {d s : Nat} (hp : P x)
    (h : PCL.Entry.pullDec c l x i d = .ok l1) : Flow P lp l s l1 s := by
  unfold PCL.Entry.pullDec at h
  split at h
  · simp only [Except.ok.injEq] at h
    rw [h]
    exact .done fun _ => rfl
  · split_ifs at h
    · simp only [Except.ok.injEq] at h
      rw [h]
      exact .done fun _ => rfl
    · simp only [bind_ok_iff] at h
      obtain ⟨n, _, h⟩ := h
      exact .moved hp (Ledgers.transferFrom_moved h)

theorem pcl_swapped {c : Cfg A} {e : PCL.Entry.Env A} {w w' : PCL.Entry.Chain A} {sender : A}
    {offer : Asset.Asset} {belief maxSpread : Option Nat} {dest : Option A} {out : PCL.SwapOut}
    (hp : P c.me) (h : PCL.Entry.swapMsg c e w sender offer belief maxSpread dest = .ok (w', out)) :
    Flow P lp w.led w.supply w'.led w'.supply := by
  unfold PCL.Entry.swapMsg at h
  simp only [bind_ok_iff, Except.ok.injEq, Prod.mk.injEq] at h
  obtain ⟨i, hi, off, hoff, ps, hps, rest, hrest, ⟨⟩, hbs, old, hold, fs, hfs, r, hr, o, ho, pool, hpool, ret, hret, sp,
    hsp, ⟨⟩, hms, sa, hsa, ma, hma, tw, htw, cm, hcm, l2, g2, l3, g3, l4, g4, rfl, rfl⟩ := h
  exact (Flow.moved hp (Ledgers.pay_moved g2)).trans ((Flow.moved hp (Ledgers.payNonzero_moved g3)).trans
    (.moved hp (Ledgers.payNonzero_moved g4)))

/-- What a message to a concentrated pair does to the ledgers. -/
theorem pcl_flow {c : Cfg A} {w w' : PCL.Entry.Chain A} {t : PCL.Entry.Tx A}
    (h : PCL.Entry.exec c w t = .ok w') :
    Flow (Two t.payer c.me) c.lp w.led w.supply w'.led w'.supply := by
  cases t with
  | call e x funds m =>
    simp only [PCL.Entry.exec, bind_ok_iff, require_ok, exists_const] at h
    obtain ⟨_, _, l1, h1, h2⟩ := h
    have fa := Flow.attached (P := Two x c.me) (lp := c.lp) (s := w.supply) (two_fst _ _) h1
    refine fa.trans ?_
    clear fa h1
    have px := two_fst x c.me
    have pm := two_snd x c.me
    cases m with
    | receive u n b m r =>
      simp only [PCL.Entry.execute, bind_ok_iff, Except.ok.injEq] at h2
      obtain ⟨_, _, ⟨w2, out⟩, h, rfl⟩ := h2
      exact pcl_swapped (w := { w with led := l1 }) (two_snd _ _) h
    | swap offer b m r =>
      simp only [PCL.Entry.execute, bind_ok_iff, Except.ok.injEq] at h2
      obtain ⟨_, _, _, _, _, _, _, _, ⟨w2, out⟩, h, rfl⟩ := h2
      exact pcl_swapped (w := { w with led := l1 }) (two_snd _ _) h
    | provide assets tol minLp r =>
      simp only [PCL.Entry.execute, bind_ok_iff, Except.ok.injEq] at h2
      obtain ⟨⟨w2, sh⟩, h, rfl⟩ := h2
      unfold PCL.Entry.provideMsg at h
      simp only [bind_ok_iff, require_ok, exists_const, Except.ok.injEq, Prod.mk.injEq] at h
      obtain ⟨total, htot, ps, hps, ⟨as', dd⟩, hget, ⟨⟩, hco, p0, hp0, p1, hp1, ⟨sd, pool⟩, hsh, sh, hto, hmin, tw, htw, l2,
        h2, l3, h3, hnz, sup, hsup, rfl, rfl⟩ := h
      rw [u128_ok] at hsup
      obtain ⟨_, rfl⟩ := hsup
      exact (dec_pulled px h2).trans ((dec_pulled px h3).trans (Flow.minted.trans Flow.minted))
    | withdraw assets mins =>
      simp only [PCL.Entry.execute, bind_ok_iff, Except.ok.injEq] at h2
      obtain ⟨⟨w2, rs⟩, h, rfl⟩ := h2
      unfold PCL.Entry.withdrawMsg at h
      simp only [bind_ok_iff, require_ok, exists_const, Except.ok.injEq, Prod.mk.injEq] at h
      obtain ⟨co, hone, hden, xs, hxs, _, r0, hr0, r1, hr1, y0, hy0, y1, hy1, iy, hiy, ag, hag, d, hd, xcp, hxcp, rest, hrest,
        rd, hrd, real, hreal, a0, ha0, a1, ha1, l2, h2, l3, h3, l4, h4, rfl, rfl⟩ := h
      obtain ⟨hle, rfl⟩ := (csub_ok _ _ _).1 hrest
      exact (Flow.moved pm (Ledgers.pay_moved h2)).trans
        ((Flow.moved pm (Ledgers.pay_moved h3)).trans (Flow.burnt pm hle h4))
    | updateConfig u =>
      simp only [PCL.Entry.execute, PCL.Entry.updateConfig, bind_ok_iff, require_ok, exists_const] at h2
      cases u <;> simp only [bind_ok_iff, require_ok, exists_const, Except.ok.injEq] at h2
      · obtain ⟨_, a, _, rfl⟩ := h2
        exact .done fun _ => rfl
      · obtain ⟨_, a, _, rfl⟩ := h2
        exact .done fun _ => rfl
      · obtain ⟨_, a, _, rfl⟩ := h2
        exact .done fun _ => rfl
      · obtain ⟨_, _, rfl⟩ := h2
        exact .done fun _ => rfl
      · obtain ⟨_, rfl⟩ := h2
        exact .done fun _ => rfl
  | send e token owner spender n b m r =>
    simp only [PCL.Entry.exec, PCL.Entry.execute, bind_ok_iff, require_ok, exists_const, Except.ok.injEq] at h
    obtain ⟨_, l1, hin, _, ⟨w2, out⟩, h, rfl⟩ := h
    have m : Moved w.led (.token (c.addr token)) owner (some c.me) n l1 := by
      split_ifs at hin with ho
      · exact Ledgers.move_moved hin
      · exact Ledgers.transferFrom_moved hin
    exact .move (two_fst _ _) m (pcl_swapped (w := { w with led := l1 }) (two_snd _ _) h)
  | transfer e k src dst n =>
    simp only [PCL.Entry.exec, bind_ok_iff, require_ok, exists_const, Except.ok.injEq] at h
    obtain ⟨_, l, h, rfl⟩ := h
    exact .moved (two_fst _ _) (Ledgers.move_moved h)
  | transferFrom e token owner spender dst n =>
    simp only [PCL.Entry.exec, bind_ok_iff, require_ok, exists_const, Except.ok.injEq] at h
    obtain ⟨_, l, h, rfl⟩ := h
    exact .moved (two_fst _ _) (Ledgers.transferFrom_moved h)
  | approve e token owner spender n =>
    simp only [PCL.Entry.exec, bind_ok_iff, require_ok, exists_const, Except.ok.injEq] at h
    obtain ⟨_, rfl⟩ := h
    exact .done fun k => by cases k <;> rfl

end PCL

end Verif.Exchange
