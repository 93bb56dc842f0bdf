import Verif.SaleTax.Model
import Verif.XYK.Lemmas

namespace Verif.SaleTax
open Verif.XYK
variable {A : Type} [DecidableEq A]

/-- Every configured tax is at most one half and concerns a native asset of the pair. -/
def GoodTaxes (infos : Bool → Info) (t : Taxes A) : Prop :=
  ∀ d rate rec, (d, rate, rec) ∈ t → 2 * rate ≤ DEC ∧ ∃ i, infos i = .native d

omit [DecidableEq A] in
theorem checkTaxes_good {denomOk : String → Bool} {infos : Bool → Info} {t t' : Taxes A}
    (h : checkTaxes denomOk infos t = .ok t') : t' = t ∧ GoodTaxes infos t' := by
  induction t generalizing t' with
  | nil =>
    simp only [checkTaxes, Except.ok.injEq] at h
    subst h
    exact ⟨rfl, by intro d r a hm; simp at hm⟩
  | cons e rest ih =>
    unfold checkTaxes at h
    simp only [bind_ok_iff, require_ok, exists_const, Except.ok.injEq] at h
    obtain ⟨_, h1, h2, r, hr, rfl⟩ := h
    obtain ⟨rfl, hg⟩ := ih hr
    refine ⟨rfl, ?_⟩
    intro d rate rec hm
    rcases List.mem_cons.1 hm with he | hm
    · rw [← he] at h1 h2
      refine ⟨?_, ?_⟩
      · have := Nat.div_mul_le_self DEC 2
        simp only at h2
        omega
      · rcases h1 with h1 | h1
        · exact ⟨false, h1.symm⟩
        · exact ⟨true, h1.symm⟩
    · exact hg d rate rec hm

omit [DecidableEq A] in
theorem getTax_good {infos : Bool → Info} {t : Taxes A} (hg : GoodTaxes infos t) {k : String} {r : Nat} {a : A}
    (h : getTax t k = some (r, a)) : 2 * r ≤ DEC ∧ ∃ i, infos i = .native k := by
  unfold getTax at h
  split at h
  next e he =>
    simp only [Option.some.injEq] at h
    have hk := List.find?_some he
    have hm := List.mem_of_find?_eq_some he
    obtain ⟨k', r', a'⟩ := e
    simp only [decide_eq_true_eq, Prod.mk.injEq] at hk h
    obtain ⟨rfl, rfl⟩ := h
    subst hk
    exact hg _ _ _ hm
  · simp at h

theorem updateConfig_good {denomOk : String → Bool} {infos : Bool → Info} {c c' : Config A} {owner sender : A}
    {taxes : Option (Taxes A)} {admin : Option A} (h0 : GoodTaxes infos c.taxes)
    (hc : updateConfig denomOk infos c owner sender taxes admin = .ok c') : GoodTaxes infos c'.taxes := by
  unfold updateConfig at hc
  simp only [bind_ok_iff, require_ok, exists_const] at hc
  obtain ⟨_, c1, h1, h2⟩ := hc
  have g1 : GoodTaxes infos c1.taxes := by
    unfold setTaxes at h1
    split at h1
    · simp only [Except.ok.injEq] at h1; subst h1; exact h0
    · simp only [bind_ok_iff, require_ok, exists_const, Except.ok.injEq] at h1
      obtain ⟨_, t, ht, rfl⟩ := h1
      exact (checkTaxes_good ht).2
  unfold setAdmin at h2
  split at h2
  · simp only [Except.ok.injEq] at h2; subst h2; exact g1
  · simp only [bind_ok_iff, require_ok, exists_const, Except.ok.injEq] at h2
    obtain ⟨_, rfl⟩ := h2
    exact g1

omit [DecidableEq A] in
theorem initConfig_good {denomOk : String → Bool} {infos : Bool → Info} {taxes : Taxes A} {admin : A} {c : Config A}
    (h : initConfig denomOk infos taxes admin = .ok c) : GoodTaxes infos c.taxes := by
  unfold initConfig at h
  simp only [bind_ok_iff, require_ok, exists_const, Except.ok.injEq] at h
  obtain ⟨_, t, ht, rfl⟩ := h
  exact (checkTaxes_good ht).2

/-- **C18, configuration.**  Whatever sequence of configuration calls is sent after a successful
instantiation, all configured rates are at most 50% and concern native assets of the pair. -/
theorem C18_config_bounded (denomOk : String → Bool) (infos : Bool → Info) (taxes : Taxes A) (admin : A)
    (c : Config A) (h : initConfig denomOk infos taxes admin = .ok c) (os : List (CfgOp A)) :
    GoodTaxes infos (cfgRun denomOk infos c os).taxes := by
  have h0 : GoodTaxes infos c.taxes := initConfig_good h
  clear h
  induction os generalizing c with
  | nil => exact h0
  | cons o os ih =>
    apply ih
    exact commit'_inv (fun c : Config A => GoodTaxes infos c.taxes) h0 fun _ hc => updateConfig_good h0 hc

/-- **C18, authority.**  A configuration call that changes the taxes or the admin was sent by the tax admin,
and installs exactly what was requested; calls by anyone else leave the configuration as it is. -/
theorem C18_config_admin_only (denomOk : String → Bool) (infos : Bool → Info) (c : Config A) (o : CfgOp A) :
    (cfgStep denomOk infos c o ≠ c → o.sender = c.admin) ∧
    (∀ c', updateConfig denomOk infos c o.owner o.sender o.taxes o.admin = .ok c' →
      c'.taxes = o.taxes.getD c.taxes ∧ c'.admin = o.admin.getD c.admin) := by
  have key : ∀ c', updateConfig denomOk infos c o.owner o.sender o.taxes o.admin = .ok c' →
      (c'.taxes = o.taxes.getD c.taxes ∧ c'.admin = o.admin.getD c.admin) ∧
      (c' = c ∨ o.sender = c.admin) := by
    intro c' hc
    unfold updateConfig at hc
    simp only [bind_ok_iff, require_ok, exists_const] at hc
    obtain ⟨_, c1, h1, h2⟩ := hc
    unfold setTaxes at h1
    unfold setAdmin at h2
    cases ht : o.taxes with
    | none =>
      rw [ht] at h1
      simp only [Except.ok.injEq] at h1
      subst h1
      cases ha : o.admin with
      | none => rw [ha] at h2; simp only [Except.ok.injEq] at h2; subst h2; simp
      | some a =>
        rw [ha] at h2
        simp only [bind_ok_iff, require_ok, exists_const, Except.ok.injEq] at h2
        obtain ⟨hs, rfl⟩ := h2
        simp [hs]
    | some t =>
      rw [ht] at h1
      simp only [bind_ok_iff, require_ok, exists_const, Except.ok.injEq] at h1
      obtain ⟨hs, t', ht', rfl⟩ := h1
      have := (checkTaxes_good ht').1
      subst this
      cases ha : o.admin with
      | none => rw [ha] at h2; simp only [Except.ok.injEq] at h2; subst h2; simp [hs]
      | some a =>
        rw [ha] at h2
        simp only [bind_ok_iff, require_ok, exists_const, Except.ok.injEq] at h2
        obtain ⟨_, rfl⟩ := h2
        simp [hs]
  refine ⟨?_, fun c' h => (key c' h).1⟩
  intro hne
  unfold cfgStep commit' at hne
  split at hne
  next c' hc =>
    rcases (key c' hc).2 with h | h
    · exact absurd h hne
    · exact h
  next => exact absurd rfl hne

omit [DecidableEq A] in
theorem deduct_ok {offer net t : Nat} {tc : Option (Nat × A)} (h : deduct offer tc = .ok (net, t))
    (hr : ∀ r a, tc = some (r, a) → 2 * r ≤ DEC) :
    t + net = offer ∧ 2 * t ≤ offer ∧ (tc = none → t = 0) ∧
    (∀ r a, tc = some (r, a) → t = offer * r / DEC) := by
  unfold deduct at h
  cases tc with
  | none =>
    simp only [Except.ok.injEq, Prod.mk.injEq] at h
    obtain ⟨rfl, rfl⟩ := h
    simp
  | some p =>
    obtain ⟨r, a⟩ := p
    simp only [bind_ok_iff, csub_ok, Except.ok.injEq, Prod.mk.injEq] at h
    obtain ⟨n, ⟨h1, rfl⟩, rfl, rfl⟩ := h
    have h2 := hr r a rfl
    have h3 := mulDec_mul_le offer r
    have h4 : 2 * mulDec offer r ≤ offer := by
      have : 2 * mulDec offer r * DEC ≤ offer * DEC := by
        calc 2 * mulDec offer r * DEC = 2 * (mulDec offer r * DEC) := by ring
          _ ≤ 2 * (offer * r) := by omega
          _ = offer * (2 * r) := by ring
          _ ≤ offer * DEC := Nat.mul_le_mul_left _ h2
      exact Nat.le_of_mul_le_mul_right this DEC_pos
    refine ⟨by omega, h4, by simp, ?_⟩
    intro r' a' he
    simp only [Option.some.injEq, Prod.mk.injEq] at he
    obtain ⟨rfl, rfl⟩ := he
    rfl

/-- The pair's two assets cannot be confused when rendered as text: no token address equals the other asset's
denom. -/
def NoClash (infos : Bool → Info) : Prop := infos false ≠ infos true ∧ (infos false).str ≠ (infos true).str

omit [DecidableEq A] in
theorem taxedAsset_eq {infos : Bool → Info} (hc : NoClash infos) {t : Taxes A} (hg : GoodTaxes infos t)
    {i : Bool} {r : Nat} {a : A} (h : getTax t (infos i).str = some (r, a)) : taxedAsset infos i = .ok i := by
  obtain ⟨_, j, hj⟩ := getTax_good hg h
  unfold taxedAsset
  rw [if_pos]
  by_cases hij : j = i
  · subst hij; exact hj
  · exfalso
    have hs : (infos j).str = (infos i).str := by rw [hj]; rfl
    unfold NoClash at hc
    cases i <;> cases j <;> simp_all

/-- **C18, swaps (partial: token address and denom must differ, and the tax recipient is not the pool).**  For every successful swap with a valid configuration of a pair whose assets have different
names: the tax is `rate * offer` rounded down and at most half of the offer; tax and net offer add up to the
offer; the swap arithmetic is that of the plain constant product pair on the net offer; the pool's balance of
the offered asset grows by exactly the net offer, and the tax recipient receives exactly the tax (unless the
recipient is the trader or the pool); the recorded reserves equal the real ones (if neither receiver nor Maker is
the pool itself). -/
theorem C18_swap_tax_partial (infos : Bool → Info) (hclash : NoClash infos) (cfg : Config A)
    (hg : GoodTaxes infos cfg.taxes) (me : A) (s s' : State A) (now : Nat) (u : A) (hu : u ≠ me) (i : Bool)
    (offer : Nat) (belief maxSpread : Option Nat) (rcv : A) (f : Fees A) (out : Out)
    (hrec : ∀ r a, getTax cfg.taxes (infos i).str = some (r, a) → a ≠ me)
    (h : swap infos cfg me s now u i offer belief maxSpread rcv f = .ok (s', out)) :
    ∃ net, out.tax + net = offer ∧ 2 * out.tax ≤ offer ∧
      (∀ r a, getTax cfg.taxes (infos i).str = some (r, a) →
        out.tax = offer * r / DEC ∧ (a ≠ u → s'.bal i a = s.bal i a + out.tax)) ∧
      (getTax cfg.taxes (infos i).str = none → out.tax = 0) ∧
      s'.bal i me = s.bal i me + net ∧
      computeSwap (s.bal i me) (s.bal (!i) me) net f.total =
        .ok { ret := out.ret, spread := out.spread, commission := out.commission } ∧
      s'.tracked i = s'.bal i me ∧
      (rcv ≠ me → f.feeAddr ≠ some me →
        s'.bal (!i) me + (out.ret + out.makerFee) = s.bal (!i) me ∧
        s'.tracked (!i) = s'.bal (!i) me) := by
  unfold swap at h
  simp only [bind_ok_iff, csub_ok, u128_ok, Prod.exists, Except.ok.injEq, Prod.mk.injEq] at h
  obtain ⟨bo, hbo, op, ⟨hop, rfl⟩, r, hr, gross, ⟨_, rfl⟩, _, hsp, ba, hba, bal, hbal, ba2, hba2, tOff,
    ⟨_, rfl⟩, tAsk, ⟨hta, rfl⟩, tw, htw, rfl, rfl⟩ := h
  have hbm := move_apply hbo me
  rw [if_neg (Ne.symm hu), if_pos rfl] at hbm
  have hpool : bo me - offer = s.bal i me := by omega
  rw [hpool] at hr ⊢
  unfold computeSwapTax at hr
  simp only [bind_ok_iff, Prod.exists, Except.ok.injEq] at hr
  obtain ⟨net, tx, hd, cs, hcs, rfl⟩ := hr
  simp only at *
  have hrate : ∀ r a, getTax cfg.taxes (infos i).str = some (r, a) → 2 * r ≤ DEC :=
    fun r a he => (getTax_good hg he).1
  obtain ⟨d1, d2, d3, d4⟩ := deduct_ok hd hrate
  -- the offered asset after the tax
  have hoff : bal i me = s.bal i me + net ∧ bal (!i) = ba ∧
      (∀ r a, getTax cfg.taxes (infos i).str = some (r, a) → a ≠ u → bal i a = s.bal i a + tx) := by
    unfold sendTax at hbal
    cases htc : getTax cfg.taxes (infos i).str with
    | none =>
      rw [htc] at hbal
      simp only [Except.ok.injEq] at hbal
      have h0 := d3 htc
      subst hbal
      refine ⟨?_, ?_, by simp⟩
      · simp; omega
      · cases i <;> rfl
    | some p =>
      obtain ⟨r, a⟩ := p
      have hne := hrec r a htc
      rw [htc] at hbal
      simp only at hbal
      split at hbal
      · rw [taxedAsset_eq hclash hg htc, ok_bind] at hbal
        simp only [bind_ok_iff, if_true, Except.ok.injEq] at hbal
        obtain ⟨l, hl, rfl⟩ := hbal
        have h1 := move_apply hl me
        rw [if_pos rfl, if_neg (Ne.symm hne)] at h1
        have h2 := move_le hl
        refine ⟨?_, ?_, ?_⟩
        · simp; omega
        · cases i <;> rfl
        · intro r' a' he hau
          simp only [Option.some.injEq, Prod.mk.injEq] at he
          obtain ⟨rfl, rfl⟩ := he
          have h3 := move_apply hl a
          rw [if_neg hne, if_pos rfl] at h3
          have h4 := move_apply hbo a
          rw [if_neg hau, if_neg hne] at h4
          simp; omega
      next h0 =>
        simp only [Except.ok.injEq] at hbal
        subst hbal
        have h0 : tx = 0 := by simpa using h0
        refine ⟨?_, ?_, ?_⟩
        · simp; omega
        · cases i <;> rfl
        · intro r' a' he hau
          simp only [Option.some.injEq, Prod.mk.injEq] at he
          obtain ⟨rfl, rfl⟩ := he
          have h4 := move_apply hbo a
          rw [if_neg hau, if_neg hne] at h4
          simp; omega
  obtain ⟨o1, o2, o3⟩ := hoff
  refine ⟨net, d1, d2, ?_, d3, ?_, hcs, ?_, ?_⟩
  · intro r a he
    refine ⟨d4 r a he, fun hau => ?_⟩
    rw [if_pos trivial]
    exact o3 r a he hau
  · rw [if_pos trivial]; exact o1
  · rw [if_pos trivial, if_pos trivial]; exact o1.symm
  · intro hrm hfm
    have hni : (!i) ≠ i := by cases i <;> decide
    rw [if_neg hni, if_neg hni]
    rw [o2] at hba2
    have h1 := move_apply hba me
    rw [if_pos rfl, if_neg (Ne.symm hrm)] at h1
    have h2 := move_le hba
    cases hfa : f.feeAddr with
    | none =>
      rw [hfa] at hba2 hta
      simp only [sendOpt, Except.ok.injEq] at hba2
      subst hba2
      simp only at hta ⊢
      omega
    | some m =>
      rw [hfa] at hba2 hta
      simp only [sendOpt] at hba2
      have h3 := move_apply hba2 me
      have hmm : me ≠ m := by rintro rfl; exact hfm hfa
      rw [if_pos rfl, if_neg hmm] at h3
      have h4 := move_le hba2
      simp only at hta ⊢
      omega

/-- **C18, quotes.**  The Simulation query in the state before the swap returns exactly the amounts of the swap. -/
theorem C18_quote_exact (infos : Bool → Info) (cfg : Config A) (me : A) (s s' : State A) (now : Nat) (u : A)
    (hu : u ≠ me) (i : Bool) (offer : Nat) (belief maxSpread : Option Nat) (rcv : A) (f : Fees A) (out : Out)
    (h : swap infos cfg me s now u i offer belief maxSpread rcv f = .ok (s', out)) :
    simulation infos cfg me s i offer f =
      .ok { ret := out.ret, spread := out.spread, commission := out.commission } := by
  unfold swap at h
  simp only [bind_ok_iff, csub_ok, u128_ok, Prod.exists, Except.ok.injEq, Prod.mk.injEq] at h
  obtain ⟨bo, hbo, op, ⟨hop, rfl⟩, r, hr, gross, ⟨_, rfl⟩, _, hsp, ba, hba, bal, hbal, ba2, hba2, tOff,
    ⟨_, rfl⟩, tAsk, ⟨hta, rfl⟩, tw, htw, rfl, rfl⟩ := h
  have hbm := move_apply hbo me
  rw [if_neg (Ne.symm hu), if_pos rfl] at hbm
  have hpool : bo me - offer = s.bal i me := by omega
  rw [hpool] at hr
  unfold simulation
  rw [hr]
  rfl

theorem grossUp_arith {offer r om inv x : Nat} (hr : 2 * r ≤ DEC) (hom : om = DEC - r)
    (hinv : inv = DEC * DEC / om) (hx : offer * inv ≤ x * DEC) (hsmall : offer ≤ DEC) :
    offer ≤ x - x * r / DEC := by
  have hD := DEC_pos
  have hom0 : 0 < om := by omega
  have h1 : DEC * DEC < (inv + 1) * om := by rw [hinv]; exact lt_succ_div_mul _ hom0
  have hle : x * r / DEC ≤ x := mul_div_le_of_le (by omega)
  have h2 : x * r / DEC * DEC ≤ x * r := Nat.div_mul_le_self _ _
  by_contra hlt
  push Not at hlt
  -- x - x r/DEC ≤ offer - 1
  have h3 : x + 1 ≤ offer + x * r / DEC := by omega
  have h4 : (x + 1) * DEC ≤ offer * DEC + x * r := by
    calc (x + 1) * DEC ≤ (offer + x * r / DEC) * DEC := Nat.mul_le_mul_right _ h3
      _ = offer * DEC + x * r / DEC * DEC := by ring
      _ ≤ _ := by omega
  have h5 : x * om + DEC ≤ offer * DEC := by
    have : x * om + x * r = x * DEC := by rw [← Nat.mul_add]; congr 1; omega
    have e : (x + 1) * DEC = x * DEC + DEC := by ring
    omega
  -- multiply by DEC
  have h6 : x * DEC * om + DEC * DEC ≤ offer * (DEC * DEC) := by
    calc x * DEC * om + DEC * DEC = (x * om + DEC) * DEC := by ring
      _ ≤ offer * DEC * DEC := Nat.mul_le_mul_right _ h5
      _ = _ := by ring
  have h7 : offer * inv * om ≤ x * DEC * om := Nat.mul_le_mul_right _ hx
  have h8 : offer * (DEC * DEC) ≤ offer * ((inv + 1) * om) := Nat.mul_le_mul_left _ h1.le
  have e8 : offer * ((inv + 1) * om) = offer * inv * om + offer * om := by ring
  have h9 : offer * om < DEC * DEC ∨ offer = 0 := by
    by_cases h0 : offer = 0
    · right; exact h0
    · by_cases hr0 : r = 0
      · -- om = DEC, inv = DEC
        exfalso
        subst hr0
        have : om = DEC := by omega
        rw [this, Nat.mul_div_cancel _ hD] at hinv
        rw [hinv] at hx
        have := Nat.le_of_mul_le_mul_right hx hD
        simp at hlt
        omega
      · left
        calc offer * om ≤ DEC * om := Nat.mul_le_mul_right _ hsmall
          _ < DEC * DEC := Nat.mul_lt_mul_of_pos_left (by omega) hD
  rcases h9 with h9 | h9
  · omega
  · omega

/-- **C18, reverse quotes.**  The gross-up of the reverse quote is enough to pay the tax: if the quoted offer is
offered, what remains after tax is at least the offer computed without tax (up to 10^18 units). -/
theorem C18_reverse_gross_up (infos : Bool → Info) (cfg : Config A) (hg : GoodTaxes infos cfg.taxes) (me : A)
    (s : State A) (i : Bool) (ask : Nat) (f : Fees A) (q q0 : OfferResult)
    (h0 : XYK.reverseSimulation me s i ask f = .ok q0) (hsmall : q0.offer ≤ DEC)
    (h : reverseSimulation infos cfg me s i ask f = .ok q) (net tax : Nat)
    (hd : deduct q.offer (getTax cfg.taxes (infos i).str) = .ok (net, tax)) :
    q0.offer ≤ net ∧ q.spread = q0.spread ∧ q.commission = q0.commission := by
  unfold reverseSimulation computeOfferTax at h
  unfold XYK.reverseSimulation at h0
  rw [h0, ok_bind] at h
  simp only [bind_ok_iff, Except.ok.injEq] at h
  obtain ⟨o, ho, rfl⟩ := h
  refine ⟨?_, rfl, rfl⟩
  unfold addTax at ho
  cases htc : getTax cfg.taxes (infos i).str with
  | none =>
    rw [htc] at ho hd
    simp only [Except.ok.injEq] at ho
    simp only [deduct, Except.ok.injEq, Prod.mk.injEq] at hd
    omega
  | some p =>
    obtain ⟨r, a⟩ := p
    rw [htc] at ho hd
    simp only [bind_ok_iff, csub_ok, decDiv_ok, u128_ok] at ho
    obtain ⟨om, ⟨h1, rfl⟩, inv, ⟨h2, rfl⟩, _, rfl⟩ := ho
    simp only [deduct, bind_ok_iff, csub_ok, Except.ok.injEq, Prod.mk.injEq] at hd
    obtain ⟨n, ⟨h3, rfl⟩, rfl, rfl⟩ := hd
    have hr := (getTax_good hg htc).1
    refine grossUp_arith hr rfl rfl ?_ hsmall
    unfold mulDecCeil
    have hdm := Nat.div_add_mod (q0.offer * (DEC * DEC / (DEC - r))) DEC
    have hlt := Nat.mod_lt (q0.offer * (DEC * DEC / (DEC - r))) DEC_pos
    split
    · rw [Nat.mul_comm (_ / DEC)]; omega
    · rw [Nat.add_mul, Nat.mul_comm (_ / DEC)]; omega

/-! ## Concrete cases -/

/-- Pair UUSD / token, with a 5% tax on sales of UUSD to account 9. -/
def demoInfos : Bool → Info := fun b => if b then .token "wasm1token" else .native "uusd"
def demoCfg : Config Nat := { taxes := [("uusd", 5 * 10 ^ 16, 9)], admin := 5 }
def demoFees : Fees Nat := { total := 3 * 10 ^ 15, maker := 10 ^ 17, feeAddr := some 7, share := none }
def demoState : State Nat :=
  { bal := fun _ a => if a = 0 then 10 ^ 12 else if a = 1 then 10 ^ 10 else 0, lp := fun _ => 0,
    supply := 10 ^ 12, twap := ⟨0, 0, 0⟩, tracked := fun _ => 10 ^ 12 }

example : okAnd (swap demoInfos demoCfg 0 demoState 10 1 false 1000001 none none 1 demoFees)
    (fun x => x.2.tax = 50000 ∧ x.1.bal false 0 = 10 ^ 12 + 950001 ∧ x.1.bal false 9 = 50000 ∧
      x.2.ret = 947150) = true := by decide +kernel

example : NoClash demoInfos := by unfold NoClash; decide
example : GoodTaxes demoInfos demoCfg.taxes := by
  intro d r a h
  simp only [demoCfg, List.mem_singleton, Prod.mk.injEq] at h
  obtain ⟨rfl, rfl, rfl⟩ := h
  exact ⟨by decide, false, rfl⟩

example : okAnd (initConfig (fun _ => true) demoInfos demoCfg.taxes 5) (fun c => c.admin = 5) = true := by
  decide +kernel

/-- Reverse quote with and without the tax. -/
example : okAnd (XYK.reverseSimulation 0 demoState false 947150 demoFees) (fun x => x.offer = 949999) = true ∧
    okAnd (reverseSimulation demoInfos demoCfg 0 demoState false 947150 demoFees)
      (fun x => x.offer = 999999) = true := by decide +kernel

/-- **C18 needs different names.**  If the pair consists of a token and a native coin whose denom is the token's
address, selling the *token* pays the tax in the *coin*: the pool keeps the whole offer and loses coins. -/
theorem C18_same_name_violated :
    let infos : Bool → Info := fun b => if b then .token "wasm1token" else .native "wasm1token"
    let cfg : Config Nat := { taxes := [("wasm1token", 5 * 10 ^ 16, 9)], admin := 5 }
    infos false ≠ infos true ∧
    okAnd (initConfig (fun _ => true) infos cfg.taxes 5) (fun c => c.taxes = cfg.taxes) = true ∧
    okAnd (swap infos cfg 0 demoState 10 1 true 1000000 none none 1 demoFees)
      (fun x => x.2.tax = 50000 ∧ x.1.bal true 0 = 10 ^ 12 + 1000000 ∧ x.1.tracked true = 10 ^ 12 + 950000 ∧
        x.1.bal false 9 = 50000) = true := by
  refine ⟨by decide, by decide +kernel, by decide +kernel⟩

/-- **C12 is violated by this pair type.**  The minimum LP amount of a deposit and the minimum assets of a
withdrawal are ignored: the deposit asks for 2000 LP and gets 1000; the withdrawal asks for 600 and 600 and gets 500. -/
theorem C12_sale_tax_minimum_violated :
    okAnd (provide 0 demoState 10 1 1000 1000 none (some 2000) 1) (fun x => x.2 = 1000) = true ∧
    okAnd (withdraw 0 { demoState with lp := fun a => if a = 1 then 10 ^ 12 else 0 } 10 1 500
      (some [(false, 600), (true, 600)])) (fun x => x.2 = (500, 500)) = true := by
  refine ⟨by decide +kernel, by decide +kernel⟩

end Verif.SaleTax
