import Verif.XYK.Entry
import Verif.Stable.Honest

/-!
# Messages to constant product pairs that pay what they declare (C174)

`XYK/Entry.lean` shows that a message to a constant product pair that succeeds is a transaction of the pair.  Here the converse, as
`Stable/Honest.lean` and `PCL/Honest.lean` have it for the other kinds.
-/

namespace Verif.XYK.Entry

open Verif Verif.XYK
open Verif.Asset (Str Info Coin assertSent assertCoins sent declared)

set_option linter.unusedSectionVars false

variable {A : Type} [DecidableEq A]

/-! ## Specification -/

/-- An account other than the pair and the token contracts of its assets. -/
def User (c : Cfg A) (x : A) : Prop := x ≠ c.me ∧ c.infos false ≠ .token (c.addr x) ∧ c.infos true ≠ .token (c.addr x)

instance (c : Cfg A) (x : A) : Decidable (User c x) := inferInstanceAs (Decidable (_ ∧ _))

/-- The coins that belong to a deposit of `d`. -/
def coinsOf (c : Cfg A) (d : Bool → Nat) (i : Bool) : List Coin :=
  match c.infos i with
  | .native k => if d i = 0 then [] else [⟨k, d i⟩]
  | .token _ => []

/-- The user has allowed the pair to take the tokens of the deposit. -/
def Allowed (c : Cfg A) (w : Chain A) (x : A) (d : Bool → Nat) : Prop :=
  ∀ i t, c.infos i = .token t → d i ≤ w.allow t x c.me

/-- The bank does not send nothing: what a withdrawal pays out in coins must not be zero. -/
def Payable (c : Cfg A) (rs : Nat × Nat) : Prop :=
  ¬ (isNative (c.infos false) = true ∧ rs.1 = 0) ∧ ¬ (isNative (c.infos true) = true ∧ rs.2 = 0)

/-! ## Lemmas -/

theorem chain_move {w : Chain A} {k : Info} {src dst : A} {n : Nat} {l : A → Nat} (h : Verif.move (w.of k) src dst n = .ok l) :
    ∃ w', w.move k src dst n = .ok w' ∧ w'.of k = l := by
  refine ⟨w.set k l, by simp only [Chain.move, h, ok_bind], by rw [of_set, if_pos rfl]⟩

theorem pay_of_move {c : Cfg A} {w : Chain A} {k : Info} {dst : A} {n : Nat} {l : A → Nat} (hn : ¬ (isNative k = true ∧ n = 0))
    (h : Verif.move (w.of k) c.me dst n = .ok l) : ∃ w', pay c w k dst n = .ok w' ∧ w'.of k = l := by
  obtain ⟨w', h1, h2⟩ := chain_move h
  refine ⟨w', ?_, h2⟩
  simp only [pay, bind_ok_iff, require_ok, exists_const]
  exact ⟨hn, h1⟩

theorem payNonzero_of_move {c : Cfg A} {w : Chain A} {k : Info} {dst : Option A} {n : Nat} {l : A → Nat}
    (h : sendOpt (w.of k) c.me dst n = .ok l) : ∃ w', payNonzero c w k dst n = .ok w' ∧ w'.of k = l := by
  unfold payNonzero
  cases dst with
  | none =>
    simp only [sendOpt, Except.ok.injEq] at h
    exact ⟨w, rfl, h⟩
  | some a =>
    simp only [sendOpt] at h
    by_cases hn : n = 0
    · subst hn
      rw [move_zero, Except.ok.injEq] at h
      exact ⟨w, by simp, h⟩
    · obtain ⟨w', h1, h2⟩ := pay_of_move (fun h => hn h.2) h
      exact ⟨w', by simp only [if_neg hn]; exact h1, h2⟩

theorem of_stored (w : Chain A) (tw : Twap) (tr : Bool → Nat) (k : Info) :
    Chain.of { w with twap := tw, tracked := tr } k = w.of k := by cases k <;> rfl

/-- The converse of `swap_meaning`. -/
theorem swap_converse {c : Cfg A} (hc : c.Ok) {e : Env A} {w w1 : Chain A} {v : State A} {funds : List Coin} {payer sender : A}
    {i : Bool} {n : Nat} {belief maxSpread : Option Nat} {dest : Option A} {out : SwapOut}
    (hin : Moved w (c.infos i) payer (some c.me) n w1) (hsent : assertSent ⟨c.infos i, n⟩ funds = .ok ())
    (h : XYK.swap c.me (view c w) e.now payer i n belief maxSpread (dest.getD sender) (fees e w) = .ok (v, out)) :
    ∃ w', swapMsg c e w1 funds sender ⟨c.infos i, n⟩ belief maxSpread dest = .ok (w', out) := by
  unfold XYK.swap at h
  simp only [bind_ok_iff, Except.ok.injEq, Prod.mk.injEq] at h
  obtain ⟨bo, hbo, po, hpo, r, hr, g, hg, ⟨⟩, hms, ⟨sh, mk⟩, hsp, b1, g1, b2, g2, b3, g3, tO, hO, tA, hA, tw, htw, _, rfl⟩ := h
  have hm := hin.move
  simp only [sendOpt] at hm
  have ev : ∀ j, (view c w).bal j = w.of (c.infos j) := fun _ => rfl
  rw [ev, hm, Except.ok.injEq] at hbo
  subst hbo
  have hother : ∀ j, j ≠ i → w1.of (c.infos j) = w.of (c.infos j) := fun j hj =>
    hin.other _ fun e => hj (infos_inj hc e)
  have hni : (!i) ≠ i := by cases i <;> simp
  have hshare : w1.share = w.share := hin.rest.share
  have hfees : fees e w1 = fees e w := by unfold fees; rw [hshare]
  obtain ⟨w2, k2, e2⟩ := payNonzero_of_move
    (w := { w1 with twap := tw, tracked := fun j => if j = i then tO else tA }) (dst := some (dest.getD sender)) (k := c.infos (!i))
    (c := c) (n := r.ret) (l := b1) (by rw [of_stored, hother _ hni]; exact g1)
  obtain ⟨w3, k3, e3⟩ := payNonzero_of_move (w := w2) (k := c.infos (!i)) (by rw [e2]; exact g2)
  obtain ⟨w4, k4, e4⟩ := payNonzero_of_move (w := w3) (k := c.infos (!i)) (by rw [e3]; exact g3)
  have hp : ∀ j, (if c.infos j = c.infos i then csub (w1.of (c.infos j) c.me) n else .ok (w1.of (c.infos j) c.me)) =
      .ok (if j = i then po else w.of (c.infos (!i)) c.me) := by
    intro j
    by_cases hj : j = i
    · subst hj
      rw [if_pos rfl, if_pos rfl]
      exact hpo
    · rw [if_neg fun e => hj (infos_inj hc e), if_neg hj, hother j hj]
      have : j = !i := by cases i <;> cases j <;> simp_all
      rw [this]
  refine ⟨w4, ?_⟩
  unfold swapMsg
  simp only [bind_ok_iff, Except.ok.injEq, Prod.mk.injEq]
  have htwap : w1.twap = w.twap := hin.rest.twap
  refine ⟨(), hsent, _, hp false, _, hp true, i, ?_, r, ?_, g, hg, (), hms, (sh, mk), by rw [hfees]; exact hsp, tO, ?_, tA, ?_, tw, ?_,
    w2, k2, w3, by rw [hshare]; exact k3, w4, k4, rfl, rfl⟩
  · cases i
    · rw [if_pos rfl]
    · rw [if_neg hc.ne.symm, if_pos rfl]
  · cases i
    · exact hr
    · exact hr
  · cases i
    · exact hO
    · exact hO
  · cases i
    · exact hA
    · exact hA
  · rw [htwap]
    cases i
    · exact htw
    · exact htw

theorem ensure_unlabel {c : Cfg A} {r0 r1 m0 m1 : Nat}
    (h : ensureMinAssets false true r0 r1 (some [(false, m0), (true, m1)]) = .ok ()) :
    ensureMinAssets (c.infos false) (c.infos true) r0 r1 (some [(c.infos false, m0), (c.infos true, m1)]) = .ok () := by
  simp only [ensureMinAssets, bind_ok_iff, require_ok, exists_const, ne_eq, not_true, if_false] at h ⊢
  exact ⟨Or.inl trivial, Or.inr trivial, h.2.2⟩

/-- The converse of `withdraw_meaning`. -/
theorem withdraw_converse {c : Cfg A} (hc : c.Ok) {e : Env A} {w : Chain A} {v : State A} {x : A} {n : Nat}
    {mins : Option (Nat × Nat)} {rs : Nat × Nat} (hpay : Payable c rs)
    (h : XYK.withdraw c.me (view c w) e.now x n (mins.map fun m => [(false, m.1), (true, m.2)]) = .ok (v, rs)) :
    n ≠ 0 ∧ ∃ w1 w', attach w x c.me [⟨c.lp, n⟩] = .ok w1 ∧
      withdrawMsg c e w1 [⟨c.lp, n⟩] x [] (mins.map fun m => [(c.infos false, m.1), (c.infos true, m.2)]) = .ok (w', rs) := by
  unfold XYK.withdraw at h
  simp only [bind_ok_iff, require_ok, exists_const, Except.ok.injEq, Prod.mk.injEq] at h
  obtain ⟨hz, lp1, hlp1, r0, hr0, r1, hr1, ⟨⟩, hmin, t0, ht0, t1, ht1, tw, htw, b0, g0, b1, g1, lp2, hlp2, sup, hsup, _, rfl⟩ := h
  refine ⟨hz, ?_⟩
  obtain ⟨w1, k1, e1⟩ := chain_move (w := w) (k := .native c.lp) hlp1
  have m1 := move_moved k1
  have hof : ∀ i, w1.of (c.infos i) = w.of (c.infos i) := fun i => m1.other _ (hc.lp i)
  have hs1 : w1.supply = w.supply := m1.rest.supply
  have ht : w1.twap = w.twap := m1.rest.twap
  have ev : ∀ j, (view c w).bal j = w.of (c.infos j) := fun _ => rfl
  rw [ev, ← hof] at g0 g1
  obtain ⟨w2, k2, e2⟩ := pay_of_move (c := c) (w := { w1 with twap := tw, tracked := fun j => if j then t1 else t0 }) hpay.1
    (by rw [of_stored]; exact g0)
  have m2 := pay_moved k2
  obtain ⟨w3, k3, e3⟩ := pay_of_move (c := c) (w := w2) hpay.2 (by rw [m2.other _ hc.ne.symm, of_stored]; exact g1)
  have m3 := pay_moved k3
  have hb3 : w3.bank c.lp = lp1 := by
    rw [← e1]
    exact (m3.other (.native c.lp) (hc.lp _).symm).trans (m2.other (.native c.lp) (hc.lp _).symm)
  rw [← hb3] at hlp2
  refine ⟨w1, { w3 with bank := Function.update w3.bank c.lp lp2, supply := sup }, ?_, ?_⟩
  · simp only [attach, k1, ok_bind]
  unfold withdrawMsg
  simp only [bind_ok_iff, require_ok, exists_const, Except.ok.injEq, Prod.mk.injEq]
  refine ⟨⟨c.lp, n⟩, by simp [oneCoin, hz], rfl, r0, ?_, r1, ?_, trivial, (), ?_, t0, ?_, t1, ?_, tw, ?_, w2, k2, w3, k3, lp2, hlp2,
    sup, ?_, rfl, rfl, rfl⟩
  · rw [hof, hs1]; exact hr0
  · rw [hof, hs1]; exact hr1
  · cases mins with
    | none => rfl
    | some m => exact ensure_unlabel hmin
  · rw [hof]; exact ht0
  · rw [hof]; exact ht1
  · rw [hof, hof, ht]; exact htw
  · rw [hs1]; exact hsup

/-- What a withdrawal message that succeeds has paid. -/
theorem withdraw_payable {c : Cfg A} {e : Env A} {w w' : Chain A} {funds : List Coin} {x : A} {assets : List Asset.Asset}
    {mins : Option (List (Info × Nat))} {rs : Nat × Nat} (h : withdrawMsg c e w funds x assets mins = .ok (w', rs)) : Payable c rs := by
  unfold withdrawMsg at h
  simp only [bind_ok_iff, require_ok, exists_const, Except.ok.injEq, Prod.mk.injEq] at h
  obtain ⟨co, hone, hden, r0, hr0, r1, hr1, _, ⟨⟩, hmin, t0, ht0, t1, ht1, tw, htw, w2, h2, w3, h3, lp, hlp, sup, hsup, _, rfl⟩ := h
  simp only [pay, bind_ok_iff, require_ok, exists_const] at h2 h3
  exact ⟨h2.1, h3.1⟩

theorem pull_of_move {c : Cfg A} {w : Chain A} {x : A} {i : Bool} {t : Str} {d : Nat} {l : A → Nat} (hi : c.infos i = .token t)
    (ha : d ≤ w.allow t x c.me) (h : Verif.move (w.of (c.infos i)) x c.me d = .ok l) :
    ∃ w', pull c w x i d = .ok w' ∧ w'.of (c.infos i) = l := by
  unfold pull
  rw [hi] at h ⊢
  simp only
  refine ⟨{ w with tok := Function.update w.tok t l
                   allow := fun t' o s => if t' = t ∧ o = x ∧ s = c.me then w.allow t x c.me - d else w.allow t' o s }, ?_, ?_⟩
  · have : Verif.move (w.tok t) x c.me d = .ok l := h
    simp only [transferFrom, (csub_ok _ _ _).2 ⟨ha, rfl⟩, ok_bind, this]
  · simp [Chain.of]

theorem pull_allow {c : Cfg A} {w w' : Chain A} {x : A} {i : Bool} {d : Nat} (h : pull c w x i d = .ok w') (t : Str)
    (ht : c.infos i ≠ .token t) : w'.allow t x c.me = w.allow t x c.me := by
  unfold pull at h
  split at h
  · simp only [Except.ok.injEq] at h
    rw [h]
  · rename_i t' ht'
    simp only [transferFrom, bind_ok_iff, csub_ok, Except.ok.injEq] at h
    obtain ⟨left, ⟨_, rfl⟩, l, h1, rfl⟩ := h
    have : t ≠ t' := fun e => ht (by rw [ht', e])
    simp [this]

/-- The configuration as `Asset/Ledgers.lean` writes it. -/
def cv (c : Cfg A) : Ledgers.Cfg A := ⟨c.me, c.infos, c.lp, c.addr, c.okAddr, fun _ => 0⟩

theorem cv_ok {c : Cfg A} (hc : c.Ok) : (cv c).Ok := ⟨hc.ne, hc.lp⟩

/-- The coins of a deposit. -/
def funds (c : Cfg A) (d : Bool → Nat) : List Coin := coinsOf c d false ++ coinsOf c d true

theorem funds_cv (c : Cfg A) (d : Bool → Nat) : funds c d = Stable.Entry.funds (cv c) d := rfl

theorem attach_allow {src dst : A} {funds : List Coin} : ∀ {w w' : Chain A}, attach w src dst funds = .ok w' →
    w'.allow = w.allow := by
  induction funds with
  | nil =>
    intro w w' h
    simp only [attach, Except.ok.injEq] at h
    rw [h]
  | cons x xs ih =>
    intro w w' h
    simp only [attach, bind_ok_iff] at h
    obtain ⟨w1, h1, h2⟩ := h
    simp only [Chain.move, bind_ok_iff, Except.ok.injEq] at h1
    obtain ⟨l, _, rfl⟩ := h1
    rw [ih h2]
    rfl

theorem attach_succeeds {src dst : A} (hne : src ≠ dst) : ∀ {funds : List Coin} {w : Chain A},
    (∀ d, sent funds d ≤ w.bank d src) → ∃ w', attach w src dst funds = .ok w' := by
  intro funds
  induction funds with
  | nil => exact fun _ => ⟨_, rfl⟩
  | cons x xs ih =>
    intro w h
    have hx := h x.denom
    rw [sent_cons, if_pos rfl] at hx
    obtain ⟨l, hl⟩ := move_succeeds (l := w.bank x.denom) (a := src) (b := dst) (n := x.amount) (by omega)
    have hm : w.move (.native x.denom) src dst x.amount = .ok (w.set (.native x.denom) l) := by
      simp only [Chain.move, Chain.of, hl, ok_bind]
    obtain ⟨w', h'⟩ := ih (w := w.set (.native x.denom) l) (by
      intro d
      have hd := h d
      rw [sent_cons] at hd
      by_cases he : x.denom = d
      · subst he
        rw [if_pos rfl] at hd
        simp only [Chain.set, Function.update_self]
        rw [move_apply hl, if_pos rfl, if_neg hne]
        omega
      · rw [if_neg he] at hd
        simp only [Chain.set, Function.update_of_ne (Ne.symm he)]
        omega)
    exact ⟨w', by simp only [attach, hm, ok_bind]; exact h'⟩

/-- The converse of `provide_meaning`. -/
theorem provide_converse {c : Cfg A} (hc : c.Ok) {e : Env A} {w : Chain A} {v : State A} {x : A} {d : Bool → Nat}
    {tol minLp : Option Nat} {r : Option A} {share : Nat} (hs : x ≠ c.me) (hal : Allowed c w x d)
    (hchk : ∀ i, Asset.Info.check c.okAddr (c.infos i) = .ok ())
    (h : XYK.provide c.me (view c w) e.now x (d false) (d true) tol minLp (r.getD x) = .ok (v, share)) :
    ∃ w1 w', attach w x c.me (funds c d) = .ok w1 ∧
      provideMsg c e w1 (funds c d) x [⟨c.infos false, d false⟩, ⟨c.infos true, d true⟩] tol minLp r = .ok (w', share) := by
  unfold XYK.provide at h
  simp only [bind_ok_iff, require_ok, exists_const, Except.ok.injEq, Prod.mk.injEq] at h
  obtain ⟨hnz, b0, g0, b1, g1, p0, hp0, p1, hp1, sh, hsh, hmin, t0, ht0, t1, ht1, tw, htw, _, rfl⟩ := h
  have ev : ∀ j, (view c w).bal j = w.of (c.infos j) := fun _ => rfl
  rw [ev] at g0 g1
  have hb : ∀ i, ∃ b, Verif.move (w.of (c.infos i)) x c.me (d i) = .ok b := fun i => by
    cases i
    · exact ⟨_, g0⟩
    · exact ⟨_, g1⟩
  have hbal : ∀ i, d i ≤ w.of (c.infos i) x := fun i => move_le (hb i).choose_spec
  have hsf : ∀ i k, c.infos i = .native k → sent (funds c d) k = d i := fun i k hi =>
    Stable.Entry.sent_funds (cv_ok hc) d i k hi
  obtain ⟨w1, h1⟩ := attach_succeeds (funds := funds c d) (w := w) hs (by
    intro k
    by_cases hk : ∃ i, c.infos i = .native k
    · obtain ⟨i, hi⟩ := hk
      rw [hsf i k hi]
      have := hbal i
      rw [hi] at this
      exact this
    · rw [funds_cv, Stable.Entry.funds, Stable.Entry.sent_append, Stable.Entry.sent_coinsOf, Stable.Entry.sent_coinsOf,
        if_neg (fun e => hk ⟨false, e⟩ : ¬ (cv c).infos false = .native k),
        if_neg (fun e => hk ⟨true, e⟩ : ¬ (cv c).infos true = .native k)]
      exact Nat.zero_le _)
  obtain ⟨hbank, htok, hrest⟩ := attach_spec hs h1
  have hallow := attach_allow h1
  have htk : ∀ i t, c.infos i = .token t → w1.of (c.infos i) = w.of (c.infos i) := fun i t hi => by
    rw [hi]
    exact congrFun htok t
  have p : ∀ (i : Bool) (u : Chain A), (∀ t, c.infos i = .token t → u.allow t x c.me = w.allow t x c.me) →
      u.of (c.infos i) = w1.of (c.infos i) → ∃ u', pull c u x i (d i) = .ok u' := by
    intro i u ha hu
    cases hi : c.infos i with
    | native k => exact ⟨u, by simp [pull, hi]⟩
    | token t =>
      obtain ⟨w', h, _⟩ := pull_of_move (w := u) (x := x) (d := d i) hi (by rw [ha t hi]; exact hal i t hi)
        (by rw [hu, htk i t hi]; exact (hb i).choose_spec)
      exact ⟨w', h⟩
  obtain ⟨w2, h2⟩ := p false { w1 with twap := tw, tracked := fun j => if j then t1 else t0 } (fun t _ => by rw [← hallow])
    (of_stored ..)
  obtain ⟨w3, h3⟩ := p true w2 (fun t ht => by
    rw [pull_allow h2 t (fun e => hc.ne (e.trans ht.symm)), ← hallow]) (by rw [(pull_other h2).1 _ hc.ne.symm, of_stored])
  have pb : ∀ i p b, Verif.move (w.of (c.infos i)) x c.me (d i) = .ok b → csub (b c.me) (d i) = .ok p →
      poolBefore c w1 i (d i) = .ok p := by
    intro i p b hm hp
    have e := move_apply hm c.me
    rw [if_neg (Ne.symm hs), if_pos rfl] at e
    unfold poolBefore
    cases hi : c.infos i with
    | native k =>
      have hm' := hbank k
      rw [hsf i k hi] at hm'
      rw [hi] at hm
      have : w1.bank k = b := by
        have h' : Verif.move (w.bank k) x c.me (d i) = .ok b := hm
        rw [h', Except.ok.injEq] at hm'
        exact hm'.symm
      simp only [isNative, if_true, Chain.of]
      rw [this]
      exact hp
    | token t =>
      simp only [isNative, Bool.false_eq_true, if_false, ← hi, htk i t hi, Except.ok.injEq]
      rw [e, csub_ok] at hp
      omega
  have hsup : w1.supply = w.supply := hrest.supply
  have htwap : w1.twap = w.twap := hrest.twap
  have c1 : getDeposits ([⟨c.infos false, d false⟩, ⟨c.infos true, d true⟩].map fun a : Asset.Asset => (a.info, a.amount))
      (c.infos false) (c.infos true) = .ok (d false, d true) := by
    rw [C91_deposits_name_each_asset_once _ _ _ hc.ne]
    exact ⟨fun h => hnz (Or.inl h), fun h => hnz (Or.inr h), Or.inl rfl⟩
  have c2 := Stable.Entry.assertCoins_funds (cv_ok hc) d
  have c3 : Asset.forAll (fun a : Asset.Asset => Asset.Info.check c.okAddr a.info) [⟨c.infos false, d false⟩, ⟨c.infos true, d true⟩] = .ok () :=
    Stable.Entry.forAll_of (by
      intro y hy
      simp only [List.mem_cons, List.not_mem_nil, or_false] at hy
      rcases hy with rfl | rfl
      · exact hchk false
      · exact hchk true)
  have hshare : calculateShares (d false) (d true) p0 p1 w1.supply tol = .ok sh := by
    rw [hsup]
    exact hsh
  have haccum : accumulate w1.twap e.now p0 p1 = .ok tw := by
    rw [htwap]
    exact htw
  refine ⟨w1, { w3 with bank := Function.update w3.bank c.lp (credit (credit (w3.bank c.lp) c.me
                          (if w1.supply = 0 then minimumLiquidity else 0)) (r.getD x) sh),
                        supply := w1.supply + (if w1.supply = 0 then minimumLiquidity else 0) + sh }, h1, ?_⟩
  unfold provideMsg
  simp only [bind_ok_iff, require_ok, exists_const, Except.ok.injEq, Prod.mk.injEq]
  exact ⟨(d false, d true), c1, (), c3, (), c2, p0, pb false p0 b0 g0 hp0, p1, pb true p1 b1 g1 hp1, sh, hshare, hmin, t0, ht0, t1,
    ht1, tw, haccum, w2, h2, w3, h3, rfl, rfl⟩

/-! ## C174 -/

/-- **C174, trading coins.**  A swap message with the offered coins attached succeeds exactly when the trade does, and has
exactly its effect. -/
theorem C174_coin_trade_iff (c : Cfg A) (hc : c.Ok) (e : Env A) (w : Chain A) (x : A) (hx : User c x) (i : Bool) (k : Str)
    (hi : c.infos i = .native k) (hk : Asset.Info.check c.okAddr (.native k) = .ok ()) (n : Nat) (hn : n ≠ 0)
    (belief maxSpread : Option Nat) (dest : Option A) (v : State A) :
    (∃ w', exec c w (.call e x [⟨k, n⟩] (.swap ⟨.native k, n⟩ belief maxSpread dest)) = .ok w' ∧ view c w' = v) ↔
    ∃ out, XYK.swap c.me (view c w) e.now x i n belief maxSpread (dest.getD x) (fees e w) = .ok (v, out) := by
  constructor
  · rintro ⟨w', h, rfl⟩
    have := C160_messages_are_pair_transactions c hc w w' _ h
    have hl : label c (.native k) = some i := by rw [← hi, label_infos hc]
    simp only [meaning, hl, List.foldlM_cons, List.foldlM_nil, bind_ok_iff, pure_eq_ok, Except.ok.injEq, exists_eq_right] at this
    unfold XYK.exec at this
    simp only [bind_ok_iff, Except.ok.injEq] at this
    obtain ⟨_, _, ⟨v, out⟩, h1, h2⟩ := this
    exact ⟨out, by rw [h1, ← h2]⟩
  · rintro ⟨out, h⟩
    have h' := h
    unfold XYK.swap at h'
    simp only [bind_ok_iff] at h'
    obtain ⟨bo, hbo, _⟩ := h'
    obtain ⟨w1, k1, _⟩ := chain_move (w := w) (k := c.infos i) hbo
    have hm := move_moved k1
    have hsent : assertSent ⟨c.infos i, n⟩ [⟨k, n⟩] = .ok () := by
      rw [hi]
      exact (Asset.C67_single_coin k n _).2 ⟨rfl, hn⟩
    obtain ⟨w', h1⟩ := swap_converse hc hm hsent h
    obtain ⟨i', hi', h2⟩ := swap_meaning (offer := ⟨c.infos i, n⟩) hc hm h1
    simp only [label_infos hc, Option.some.injEq] at hi'
    subst hi'
    rw [h, Except.ok.injEq, Prod.mk.injEq] at h2
    refine ⟨w', ?_, h2.1.symm⟩
    have hat : attach w x c.me [⟨k, n⟩] = .ok w1 := by
      rw [hi] at k1
      simp only [attach, k1, ok_bind]
    simp only [exec, execute, bind_ok_iff, require_ok, exists_const, Except.ok.injEq]
    exact ⟨hx, ⟨by simp, by simp [hn]⟩, w1, hat, (), hk, rfl, (w', out), by rw [← hi]; exact h1, rfl⟩

/-- **C174, trading tokens.**  Sending tokens to the pair with a swap message - oneself, or on behalf of an owner who allows it -
succeeds exactly when the trade does, and has exactly its effect. -/
theorem C174_token_trade_iff (c : Cfg A) (hc : c.Ok) (e : Env A) (w : Chain A) (token owner spender : A) (ho : owner ≠ c.me)
    (hs : spender ≠ c.me) (i : Bool) (hi : c.infos i = .token (c.addr token)) (n : Nat)
    (hal : owner ≠ spender → n ≤ w.allow (c.addr token) owner spender)
    (belief maxSpread : Option Nat) (dest : Option A) (v : State A) :
    (∃ w', exec c w (.send e token owner spender n belief maxSpread dest) = .ok w' ∧ view c w' = v) ↔
    ∃ out, XYK.swap c.me (view c w) e.now owner i n belief maxSpread (dest.getD spender) (fees e w) = .ok (v, out) := by
  constructor
  · rintro ⟨w', h, rfl⟩
    have := C160_messages_are_pair_transactions c hc w w' _ h
    have hl : label c (.token (c.addr token)) = some i := by rw [← hi, label_infos hc]
    simp only [meaning, hl, List.foldlM_cons, List.foldlM_nil, bind_ok_iff, pure_eq_ok, Except.ok.injEq, exists_eq_right] at this
    unfold XYK.exec at this
    simp only [bind_ok_iff, Except.ok.injEq] at this
    obtain ⟨_, _, ⟨v, out⟩, h1, h2⟩ := this
    exact ⟨out, by rw [h1, ← h2]⟩
  · rintro ⟨out, h⟩
    have h' := h
    unfold XYK.swap at h'
    simp only [bind_ok_iff] at h'
    obtain ⟨bo, hbo, _⟩ := h'
    have hin : ∃ w1, (if owner = spender then w.move (.token (c.addr token)) owner c.me n
        else transferFrom w (c.addr token) owner spender c.me n) = .ok w1 := by
      have hb : Verif.move (w.tok (c.addr token)) owner c.me n = .ok bo := by
        have e : (view c w).bal i = w.tok (c.addr token) := by
          change w.of (c.infos i) = _
          rw [hi]
          rfl
        rw [← e]
        exact hbo
      split_ifs with hos
      · obtain ⟨l1, h1, _⟩ := chain_move (w := w) (k := .token (c.addr token)) hb
        exact ⟨l1, h1⟩
      · simp only [transferFrom, (csub_ok _ _ _).2 ⟨hal hos, rfl⟩, ok_bind, hb]
        exact ⟨_, rfl⟩
    obtain ⟨w1, k1⟩ := hin
    have hm : Moved w (c.infos i) owner (some c.me) n w1 := by
      rw [hi]
      split_ifs at k1
      · exact move_moved k1
      · exact transferFrom_moved k1
    have hsent : assertSent ⟨c.infos i, n⟩ [] = .ok () := by
      rw [hi]
      rfl
    obtain ⟨w', h1⟩ := swap_converse hc hm hsent h
    obtain ⟨i', hi', h2⟩ := swap_meaning (offer := ⟨c.infos i, n⟩) hc hm h1
    simp only [label_infos hc, Option.some.injEq] at hi'
    subst hi'
    rw [h, Except.ok.injEq, Prod.mk.injEq] at h2
    refine ⟨w', ?_, h2.1.symm⟩
    simp only [exec, execute, bind_ok_iff, require_ok, exists_const, Except.ok.injEq]
    refine ⟨⟨ho, hs⟩, w1, k1, ?_, (w', out), by rw [← hi]; exact h1, rfl⟩
    cases i
    · exact Or.inl hi
    · exact Or.inr hi

/-- **C174, withdrawing.**  A withdrawal message with LP tokens attached succeeds exactly when the withdrawal does and pays at least
one unit of every coin, and has exactly its effect. -/
theorem C174_withdraw_iff (c : Cfg A) (hc : c.Ok) (e : Env A) (w : Chain A) (x : A) (hx : User c x) (n : Nat)
    (mins : Option (Nat × Nat)) (v : State A) :
    (∃ w', exec c w (.call e x [⟨c.lp, n⟩]
      (.withdraw [] (mins.map fun m => [(c.infos false, m.1), (c.infos true, m.2)]))) = .ok w' ∧ view c w' = v) ↔
    ∃ rs, XYK.withdraw c.me (view c w) e.now x n (mins.map fun m => [(false, m.1), (true, m.2)]) = .ok (v, rs) ∧ Payable c rs := by
  have emins : ((mins.map fun m => [(c.infos false, m.1), (c.infos true, m.2)]).map
      fun l => l.map fun a => (decide (a.1 = c.infos true), a.2)) = mins.map fun m => [(false, m.1), (true, m.2)] := by
    cases mins <;> simp [hc.ne]
  have esent : sent [⟨c.lp, n⟩] c.lp = n := by simp [sent]
  constructor
  · rintro ⟨w', h, rfl⟩
    simp only [exec, execute, bind_ok_iff, require_ok, exists_const, Except.ok.injEq] at h
    obtain ⟨_, _, w1, h1, ⟨w2, rs⟩, h2, rfl⟩ := h
    have h3 := withdraw_meaning hc hx.1 h1 h2
    rw [emins, esent] at h3
    exact ⟨rs, h3, withdraw_payable h2⟩
  · rintro ⟨rs, h, hpay⟩
    obtain ⟨hz, w1, w', h1, h2⟩ := withdraw_converse hc hpay h
    have h3 := withdraw_meaning hc hx.1 h1 h2
    rw [emins, esent, h, Except.ok.injEq, Prod.mk.injEq] at h3
    refine ⟨w', ?_, h3.1.symm⟩
    simp only [exec, execute, bind_ok_iff, require_ok, exists_const, Except.ok.injEq]
    exact ⟨hx, ⟨by simp, by simp [hz]⟩, w1, h1, (w', rs), h2, rfl⟩

/-- **C174, depositing.**  A deposit message that declares both assets, with its coins attached and its tokens allowed, succeeds
exactly when the deposit does, and has exactly its effect. -/
theorem C174_deposit_iff (c : Cfg A) (hc : c.Ok) (hchk : ∀ i, Asset.Info.check c.okAddr (c.infos i) = .ok ()) (e : Env A)
    (w : Chain A) (x : A) (hx : User c x) (d : Bool → Nat) (hal : Allowed c w x d) (tol minLp : Option Nat) (dest : Option A)
    (v : State A) :
    (∃ w', exec c w (.call e x (coinsOf c d false ++ coinsOf c d true)
      (.provide [⟨c.infos false, d false⟩, ⟨c.infos true, d true⟩] tol minLp dest)) = .ok w' ∧ view c w' = v) ↔
    ∃ share, XYK.provide c.me (view c w) e.now x (d false) (d true) tol minLp (dest.getD x) = .ok (v, share) := by
  have ed : ∀ i, declared [⟨c.infos false, d false⟩, ⟨c.infos true, d true⟩] (c.infos i) = d i := by
    intro i
    cases i <;> simp [declared, hc.ne, hc.ne.symm]
  constructor
  · rintro ⟨w', h, rfl⟩
    simp only [exec, execute, bind_ok_iff, require_ok, exists_const, Except.ok.injEq] at h
    obtain ⟨_, hf, w1, h1, ⟨w2, share⟩, h2, rfl⟩ := h
    have h3 := provide_meaning hc hx.1 hf h1 h2
    rw [ed, ed] at h3
    exact ⟨share, h3⟩
  · rintro ⟨share, h⟩
    have hf : ValidFunds (funds c d) := Stable.Entry.funds_valid (cv_ok hc) d
    obtain ⟨w1, w', h1, h2⟩ := provide_converse hc hx.1 hal hchk h
    have h3 := provide_meaning hc hx.1 hf h1 h2
    rw [ed, ed, h, Except.ok.injEq, Prod.mk.injEq] at h3
    refine ⟨w', ?_, h3.1.symm⟩
    simp only [exec, execute, bind_ok_iff, require_ok, exists_const, Except.ok.injEq]
    exact ⟨hx, hf, w1, h1, (w', share), h2, rfl⟩

/-- Users 1, 2 and 3 are users; user 1 can deposit ten million units of each asset; after that trades and withdrawals go through,
and they pay coins. -/
example : (∀ x ∈ [1, 2, 3], User demoCfg x) ∧ (∀ i, Asset.Info.check demoCfg.okAddr (demoCfg.infos i) = .ok ()) ∧
    Allowed demoCfg demoChain 1 (fun _ => 10 ^ 7) ∧
    coinsOf demoCfg (fun _ => 10 ^ 7) false ++ coinsOf demoCfg (fun _ => 10 ^ 7) true = [⟨"uluna".toList, 10 ^ 7⟩] ∧
    okAnd (exec demoCfg demoChain (.call (demoEnv 5) 1 [⟨"uluna".toList, 10 ^ 7⟩] (.provide
      [⟨demoCfg.infos false, 10 ^ 7⟩, ⟨demoCfg.infos true, 10 ^ 7⟩] none none none))) (fun w =>
      decide (w.supply = 10 ^ 7) &&
      (exec demoCfg w (.call (demoEnv 6) 2 [⟨"uluna".toList, 10 ^ 4⟩] (.swap ⟨.native "uluna".toList, 10 ^ 4⟩
        none none none))).isOk &&
      (exec demoCfg w (.send (demoEnv 6) 9 3 3 (10 ^ 4) none none (some 4))).isOk &&
      (exec demoCfg w (.call (demoEnv 6) 1 [⟨"lp".toList, 10 ^ 6⟩] (.withdraw [] none))).isOk &&
      okAnd (XYK.withdraw demoCfg.me (view demoCfg w) 6 1 (10 ^ 6) none) fun o => decide (o.2 = (10 ^ 6, 10 ^ 6))) = true := by
  refine ⟨by decide, fun i => by cases i <;> decide, fun i t h => ?_, by decide, by decide +kernel⟩
  cases i <;> simp [demoCfg] at h <;> subst h <;> decide +kernel

/-- The condition of `C174_withdraw_iff` matters: from a pool of which one asset is nearly gone, a withdrawal that comes to nothing
of that coin is refused by the bank, though the pair's arithmetic accepts it. -/
theorem C174_withdrawing_no_coins_is_refused :
    let w : Chain Nat := { demoChain with
      bank := fun d a => if d = "uluna".toList ∧ a = 0 then 1 else if d = "lp".toList ∧ a = 1 then 10 ^ 4 else 0
      tok := fun t a => if t = "t9".toList ∧ a = 0 then 10 ^ 9 else 0
      supply := 10 ^ 5 }
    (XYK.withdraw demoCfg.me (view demoCfg w) 6 1 (10 ^ 4) none).isOk = true ∧
    (exec demoCfg w (.call (demoEnv 6) 1 [⟨"lp".toList, 10 ^ 4⟩] (.withdraw [] none))).isOk = false := by
  decide +kernel

end Verif.XYK.Entry
