import Verif.Converter.Props

/-!
# Model of the converter on Neutron (`contracts/periphery/astro_converter_neutron`) (C140)

* Conversions are the code of the plain converter; `Burn` is refused; `TransferForBurning` attaches a fee in NTRN for the
  relayer, taken from the converter.
* The fee asked by the chain (`query_min_ibc_fee`) is an input of each transaction.  The fee module of the chain (a
  dependency) takes the whole fee, pays the relayer and returns the part that was not used.
* Not modelled: the `sudo` entry point (it answers and changes nothing), the sums of fees exceeding 128 bits.
-/

namespace Verif.Converter.Neutron

open Verif Verif.Converter

variable {A D : Type} [DecidableEq A] [DecidableEq D]

/-- neutron_sdk `IbcFee`. -/
structure Fee (D : Type) where
  recv : List (D × Nat)
  ack : List (D × Nat)
  timeout : List (D × Nat)
  deriving DecidableEq

/-- contracts/periphery/astro_converter_neutron/src/contract.rs:151-165, `min_ntrn_ibc_fee`; `f` is `untrn`. -/
def minFee (f : D) (fee : Fee D) : Fee D :=
  { recv := fee.recv
    ack := fee.ack.filter fun c => decide (c.1 = f)
    timeout := fee.timeout.filter fun c => decide (c.1 = f) }

/-- contracts/periphery/astro_converter_neutron/src/contract.rs:88-94: the fee in `untrn`. -/
def feeTotal (f : D) (fee : Fee D) : Nat :=
  (((fee.ack ++ fee.recv ++ fee.timeout).filter fun c => decide (c.1 = f)).map (·.2)).sum

/-- cw_utils `may_pay`: nothing, or one coin of this denom. -/
def mayPay (f : D) : List (D × Nat) → Res Nat
  | [] => .ok 0
  | [(d, n)] => if d = f then .ok n else .error (.invalid "PaymentError")
  | _ => .error (.invalid "PaymentError")

/-- The converter and the fees held by the fee module for its transfers. -/
structure NState (A D : Type) where
  st : State A D
  locked : Nat

/-- The fee module takes coins. -/
def takeCoins (s : State A D) (me : A) : List (D × Nat) → Res (State A D)
  | [] => .ok s
  | (d, n) :: rest => do
    let l ← debit (s.bal (.native d)) me n
    takeCoins { s with bal := Function.update s.bal (.native d) l } me rest

/-- The coins of a fee. -/
def Fee.coins (fee : Fee D) : List (D × Nat) := fee.recv ++ fee.ack ++ fee.timeout

/-- contracts/periphery/astro_converter_neutron/src/contract.rs:62-142, `ibc_transfer_for_burning`, and the message it
emits: the chain takes the fee and the tokens. -/
def ibcTransferForBurning (c : Cfg A D) (f : D) (me : A) (s : NState A D) (fee : Fee D) (funds : List (D × Nat))
    (timeout : Option Nat) : Res (NState A D) := do
  let _ ← mayPay f funds
  match c.old with
  | .native d => do
    require (120 ≤ timeout.getD 300 ∧ timeout.getD 300 ≤ 600) (.invalid "InvalidTimeout")
    require (feeTotal f (minFee f fee) ≤ s.st.bal (.native f) me) (.invalid "Contract requires at least")
    require (s.st.bal (.native d) me ≠ 0) (.invalid "No tokens to transfer")
    require (c.burnParams = true) (.invalid "No outpost burn params")
    let t ← takeCoins s.st me (minFee f fee).coins
    .ok { st := { t with
                  bal := Function.update t.bal (.native d) (Function.update (t.bal (.native d)) me 0)
                  bridged := t.bridged + s.st.bal (.native d) me }
          locked := s.locked + feeTotal f (minFee f fee) }
  | .token _ => .error (.invalid "IbcTransferError")

/-- A transaction (with the fee that the chain asks), a fee that comes back, a fee that goes to the relayer. -/
inductive NtOp (A D : Type) where
  | tx (fee : Fee D) (op : Op A D)
  | feeBack (n : Nat)
  | feeSpent (n : Nat)

/-- contracts/periphery/astro_converter_neutron/src/contract.rs:38-55, `execute`, and the events of the fee module. -/
def exec (c : Cfg A D) (f : D) (me pair : A) (s : NState A D) (sender : A) : NtOp A D → Res (NState A D)
  | .tx fee (.transferForBurning funds t) => do
    let st ← sendAll s.st sender me funds
    ibcTransferForBurning c f me { s with st := st } fee funds t
  | .tx _ (.burn _) => .error (.invalid "BurnError")
  | .tx _ op => do
    let st ← Converter.exec c me pair s.st sender op
    .ok { s with st := st }
  | .feeBack n => do
    let r ← csub s.locked n
    .ok { st := { s.st with bal := Function.update s.st.bal (.native f) (credit (s.st.bal (.native f)) me n) }
          locked := r }
  | .feeSpent n => do
    let r ← csub s.locked n
    .ok { s with locked := r }

/-- A history; the converter and the pair sign nothing. -/
def run (c : Cfg A D) (f : D) (me pair : A) : NState A D → List (A × NtOp A D) → NState A D
  | s, [] => s
  | s, (a, o) :: rest => run c f me pair
      (if a = me ∨ a = pair then s else commit' s (exec c f me pair s a o)) rest

/-! ## Specification -/

/-- The chain asks for no fee on reception but in `untrn` (Neutron's fee module asks none at all). -/
def RecvOk (f : D) (fee : Fee D) : Prop := ∀ c ∈ fee.recv, c.1 = f

/-- What the chain asks in `untrn`, of any kind. -/
def asked (f : D) (fee : Fee D) : Nat :=
  (((fee.recv ++ fee.ack ++ fee.timeout).filter fun c => decide (c.1 = f)).map (·.2)).sum

/-- Same holdings, but for `untrn`. -/
structure Same (f : D) (s t : State A D) : Prop where
  bal : ∀ i, i ≠ .native f → s.bal i = t.bal i
  burned : s.burned = t.burned
  bridged : s.bridged = t.bridged

/-! ## Lemmas -/

theorem feeTotal_asked (f : D) (fee : Fee D) : feeTotal f (minFee f fee) = asked f fee := by
  unfold feeTotal asked minFee
  simp only [List.filter_append, List.map_append, List.sum_append, List.filter_filter, Bool.and_self]
  omega

theorem coins_all {f : D} {fee : Fee D} (h : RecvOk f fee) : ∀ c ∈ (minFee f fee).coins, c.1 = f := by
  intro c hc
  unfold Fee.coins minFee at hc
  simp only [List.mem_append, List.mem_filter, decide_eq_true_eq] at hc
  rcases hc with (hc | hc) | hc
  · exact h c hc
  · exact hc.2
  · exact hc.2

omit [DecidableEq A] in
theorem coins_sum {f : D} {fee : Fee D} (h : RecvOk f fee) : ((minFee f fee).coins.map (·.2)).sum = asked f fee := by
  have h1 : fee.recv.filter (fun c => decide (c.1 = f)) = fee.recv :=
    List.filter_eq_self.2 fun c hc => by simpa using h c hc
  unfold Fee.coins minFee asked
  simp only [List.filter_append, h1]

/-- Taking coins of one denom. -/
theorem takeCoins_one {f : D} {me : A} {l : List (D × Nat)} (hl : ∀ c ∈ l, c.1 = f) : ∀ {s : State A D},
    (l.map (·.2)).sum ≤ s.bal (.native f) me →
    takeCoins s me l = .ok { s with
        bal := Function.update s.bal (.native f)
          (Function.update (s.bal (.native f)) me (s.bal (.native f) me - (l.map (·.2)).sum)) } := by
  induction l with
  | nil =>
    intro s _
    simp [takeCoins]
  | cons c l ih =>
    intro s h
    obtain ⟨d, n⟩ := c
    have hd : d = f := hl (d, n) List.mem_cons_self
    subst hd
    simp only [List.map_cons, List.sum_cons] at h
    have hd : debit (s.bal (.native d)) me n =
        .ok (Function.update (s.bal (.native d)) me (s.bal (.native d) me - n)) := debit_ok.2 ⟨by omega, rfl⟩
    rw [takeCoins, hd, ok_bind, ih (fun c hc => hl c (List.mem_cons_of_mem _ hc)) (by simp; omega)]
    simp [Nat.sub_sub]

omit [DecidableEq A] [DecidableEq D] in
theorem Same.refl (f : D) (s : State A D) : Same f s s := ⟨fun _ _ => rfl, rfl, rfl⟩

omit [DecidableEq A] [DecidableEq D] in
theorem Same.trans {f : D} {s t u : State A D} (h1 : Same f s t) (h2 : Same f t u) : Same f s u :=
  ⟨fun i hi => (h1.bal i hi).trans (h2.bal i hi), h1.burned.trans h2.burned, h1.bridged.trans h2.bridged⟩

omit [DecidableEq A] [DecidableEq D] in
theorem Same.symm {f : D} {s t : State A D} (h : Same f s t) : Same f t s :=
  ⟨fun i hi => (h.bal i hi).symm, h.burned.symm, h.bridged.symm⟩

theorem send_fee {f : D} {s s' : State A D} {a b : A} {n : Nat} (h : send s (.native f) a b n = .ok s') :
    Same f s' s := by
  obtain ⟨_, _, h3, h4, h5⟩ := send_ok h
  exact ⟨h3, h4, h5⟩

theorem send_lift {f : D} {s t s' : State A D} (hs : Same f s t) {i : Info A D} (hi : i ≠ .native f) {a b : A} {n : Nat}
    (h : send s i a b n = .ok s') : ∃ t', send t i a b n = .ok t' ∧ Same f s' t' := by
  unfold send at h ⊢
  simp only [bind_ok_iff, require_ok, exists_const, Except.ok.injEq] at h ⊢
  obtain ⟨hn, l, hl, rfl⟩ := h
  rw [hs.bal i hi] at hl
  refine ⟨_, ⟨hn, l, hl, rfl⟩, fun j hj => ?_, hs.burned, hs.bridged⟩
  by_cases hji : j = i
  · subst hji
    simp
  · simp only [Function.update_of_ne hji]
    exact hs.bal j hj

theorem sendAll_lift {f : D} {s t s' : State A D} (hs : Same f s t) {d : D} (hd : d ≠ f) {a b : A} {n : Nat}
    (h : sendAll s a b [(d, n)] = .ok s') : ∃ t', sendAll t a b [(d, n)] = .ok t' ∧ Same f s' t' := by
  obtain ⟨t', h1, h2⟩ := send_lift hs (by simpa using hd) (sendAll_one h)
  exact ⟨t', by simp [sendAll, h1], h2⟩

/-- A transaction other than `TransferForBurning` does the same whatever the holdings of `untrn`. -/
theorem exec_lift {c : Cfg A D} {f : D} (ho : c.old ≠ .native f) (hn : c.new ≠ f) {me pair a : A} {s s' t : State A D}
    (hs : Same f s t) {op : Op A D} (hop : ∀ x y, op ≠ .transferForBurning x y) (hb : ∀ x, op ≠ .burn x)
    (h : Converter.exec c me pair s a op = .ok s') :
    Same f s' t ∨ ∃ t', Converter.exec c me pair t a op = .ok t' ∧ Same f s' t' := by
  have hnew : (Info.native c.new : Info A D) ≠ .native f := by simpa using hn
  cases op with
  | convert funds r =>
    simp only [Converter.exec, bind_ok_iff] at h
    obtain ⟨s1, h1, h2⟩ := h
    unfold convert at h2
    split at h2
    · rename_i d hd
      rw [bind_ok_iff] at h2
      obtain ⟨n, h3, h4⟩ := h2
      have h3' := h3
      obtain ⟨rfl, _⟩ := mustPay_ok h3
      have hdf : d ≠ f := fun e => ho (by rw [hd, e])
      obtain ⟨t1, e1, e2⟩ := sendAll_lift hs hdf h1
      obtain ⟨t2, e3, e4⟩ := send_lift e2 hnew h4
      refine .inr ⟨t2, ?_, e4⟩
      simp only [Converter.exec, e1, ok_bind, convert, hd, h3', e3]
    · simp at h2
  | cw20Send tk n r =>
    simp only [Converter.exec, bind_ok_iff] at h
    obtain ⟨s1, h1, h2⟩ := h
    unfold cw20Receive at h2
    split at h2
    · rename_i x hx
      simp only [bind_ok_iff, require_ok, exists_const] at h2
      obtain ⟨rfl, h3⟩ := h2
      obtain ⟨t1, e1, e2⟩ := send_lift hs (by simp) h1
      obtain ⟨t2, e3, e4⟩ := send_lift e2 hnew h3
      refine .inr ⟨t2, ?_, e4⟩
      simp only [Converter.exec, e1, ok_bind, cw20Receive, hx]
      simp [require, e3]
    · simp at h2
  | forged claimed n r =>
    obtain ⟨e, he⟩ := C62_forged_refused c me pair s a claimed n r
    rw [he] at h
    simp at h
  | transferForBurning x y => exact absurd rfl (hop x y)
  | burn x => exact absurd rfl (hb x)
  | pairNative offer n funds dst =>
    simp only [Converter.exec, bind_ok_iff] at h
    obtain ⟨s1, h1, h2⟩ := h
    cases offer with
    | token x => simp at h2
    | native d =>
      simp only [bind_ok_iff, require_ok, exists_const] at h2
      obtain ⟨m, h3, rfl, h4⟩ := h2
      have h3' := h3
      obtain ⟨rfl, _⟩ := mustPay_ok h3
      unfold pairSwapNative at h4
      simp only [bind_ok_iff, require_ok, exists_const] at h4
      obtain ⟨h5, s2, h6, h7⟩ := h4
      have hdf : d ≠ f := fun e => ho (by rw [← h5, e])
      unfold convert at h7
      rw [← h5] at h7
      simp only [bind_ok_iff] at h7
      obtain ⟨q, h8, h9⟩ := h7
      rw [h3'] at h8
      simp only [Except.ok.injEq] at h8
      subst h8
      obtain ⟨t1, e1, e2⟩ := sendAll_lift hs hdf h1
      obtain ⟨t2, e3, e4⟩ := sendAll_lift e2 hdf h6
      obtain ⟨t3, e5, e6⟩ := send_lift e4 hnew h9
      refine .inr ⟨t3, ?_, e6⟩
      simp only [Converter.exec, e1, ok_bind, h3', pairSwapNative, convert]
      rw [← h5]
      simp [require, e3, h3']
      exact e5
  | pairCw20 tk n dst =>
    simp only [Converter.exec, bind_ok_iff] at h
    obtain ⟨s1, h1, h2⟩ := h
    unfold pairSwapCw20 at h2
    simp only [bind_ok_iff, require_ok, exists_const] at h2
    obtain ⟨h3, s2, h4, h5⟩ := h2
    unfold cw20Receive at h5
    rw [← h3] at h5
    simp only [bind_ok_iff, require_ok, exists_const] at h5
    obtain ⟨_, h6⟩ := h5
    obtain ⟨t1, e1, e2⟩ := send_lift hs (by simp) h1
    obtain ⟨t2, e3, e4⟩ := send_lift e2 (by simp) h4
    obtain ⟨t3, e5, e6⟩ := send_lift e4 hnew h6
    refine .inr ⟨t3, ?_, e6⟩
    simp only [Converter.exec, e1, ok_bind, pairSwapCw20, cw20Receive]
    rw [← h3]
    simp [require, e3]
    exact e5
  | refund n =>
    simp only [Converter.exec, bind_ok_iff, csub_ok, Except.ok.injEq] at h
    obtain ⟨r, ⟨hle, rfl⟩, rfl⟩ := h
    refine .inr ⟨{ t with
        bal := Function.update t.bal c.old (credit (t.bal c.old) me n)
        bridged := s.bridged - n }, ?_, ?_⟩
    · simp only [Converter.exec]
      rw [← hs.bridged, (csub_ok _ _ _).2 ⟨hle, rfl⟩, ok_bind]
    · refine ⟨fun i hi => ?_, hs.burned, rfl⟩
      by_cases hio : i = c.old
      · subst hio
        simp only [Function.update_self]
        rw [hs.bal _ hi]
      · simp only [Function.update_of_ne hio]
        exact hs.bal i hi
  | transfer i dst n =>
    simp only [Converter.exec] at h
    by_cases hi : i = .native f
    · subst hi
      exact .inl ((send_fee h).trans hs)
    · exact .inr (send_lift hs hi h)

/-- Success of `TransferForBurning` and what it does. -/
theorem transfer_iff {c : Cfg A D} {f : D} (ho : c.old ≠ .native f) {me pair a : A} {s s' : NState A D} {fee : Fee D}
    (hr : RecvOk f fee) {funds : List (D × Nat)} {t : Option Nat} :
    exec c f me pair s a (.tx fee (.transferForBurning funds t)) = .ok s' ↔
      ∃ st d, sendAll s.st a me funds = .ok st ∧ (funds = [] ∨ ∃ n, funds = [(f, n)]) ∧ c.old = .native d ∧
        120 ≤ t.getD 300 ∧ t.getD 300 ≤ 600 ∧ c.burnParams = true ∧ st.bal c.old me ≠ 0 ∧
        asked f fee ≤ st.bal (.native f) me ∧
        s' = { st := { st with
                       bal := Function.update
                         (Function.update st.bal (.native f)
                           (Function.update (st.bal (.native f)) me (st.bal (.native f) me - asked f fee)))
                         c.old (Function.update (st.bal c.old) me 0)
                       bridged := st.bridged + st.bal c.old me }
               locked := s.locked + asked f fee } := by
  have hpay : ∀ funds : List (D × Nat), (∃ n, mayPay f funds = .ok n) ↔ funds = [] ∨ ∃ n, funds = [(f, n)] := by
    intro funds
    unfold mayPay
    split
    · simp
    · rename_i d n
      by_cases hd : d = f
      · subst hd
        simp
      · simp [hd]
    · rename_i h1 h2
      constructor
      · rintro ⟨n, hn⟩
        simp at hn
      · rintro (rfl | ⟨n, rfl⟩)
        · exact absurd rfl h1
        · exact absurd rfl (h2 f n)
  have hold : ∀ {d}, c.old = .native d → (Info.native d : Info A D) ≠ .native f := fun h => by rw [← h]; exact ho
  simp only [exec, ibcTransferForBurning, bind_ok_iff]
  constructor
  · rintro ⟨st, h1, n, h2, h3⟩
    split at h3
    · rename_i d hd
      simp only [bind_ok_iff, require_ok, exists_const, Except.ok.injEq] at h3
      obtain ⟨⟨h4, h5⟩, h6, h7, h8, u, h9, rfl⟩ := h3
      rw [feeTotal_asked] at h6
      have hu := takeCoins_one (me := me) (coins_all hr) (s := st) (by rw [coins_sum hr]; exact h6)
      rw [hu] at h9
      simp only [Except.ok.injEq] at h9
      subst h9
      rw [hd]
      refine ⟨st, d, h1, (hpay _).1 ⟨n, h2⟩, rfl, h4, h5, h8, h7, h6, ?_⟩
      simp only
      rw [feeTotal_asked, coins_sum hr, Function.update_of_ne (hold hd)]
    · simp at h3
  · rintro ⟨st, d, h1, h2, hd, h4, h5, h8, h7, h6, rfl⟩
    obtain ⟨n, hn⟩ := (hpay _).2 h2
    refine ⟨st, h1, n, hn, ?_⟩
    rw [hd] at h7 ⊢
    simp only [bind_ok_iff, require_ok, exists_const, Except.ok.injEq]
    have hu := takeCoins_one (me := me) (coins_all hr) (s := st) (by rw [coins_sum hr]; exact h6)
    refine ⟨⟨h4, h5⟩, by rw [feeTotal_asked]; exact h6, h7, h8, _, hu, ?_⟩
    simp only
    rw [feeTotal_asked, coins_sum hr, Function.update_of_ne (hold hd)]

/-! ## Theorems -/

/-- **C140.**  When `TransferForBurning` succeeds (anybody may call it): the caller sent nothing but `untrn`, the time-out
is between two and ten minutes, and the converter held old tokens and at least the fee asked, including what the caller
sent.  Then all old tokens of the converter are on their way, the converter pays exactly the fee asked, and nothing else
changes. -/
theorem C140_transfer_exact (c : Cfg A D) (f : D) (ho : c.old ≠ .native f) (me pair a : A) (ha : a ≠ me) (s s' : NState A D)
    (fee : Fee D) (hr : RecvOk f fee) (funds : List (D × Nat)) (t : Option Nat)
    (h : exec c f me pair s a (.tx fee (.transferForBurning funds t)) = .ok s') :
    ∃ paid, (funds = [] ∧ paid = 0 ∨ funds = [(f, paid)]) ∧ 120 ≤ t.getD 300 ∧ t.getD 300 ≤ 600 ∧
      s.st.bal c.old me ≠ 0 ∧ asked f fee ≤ s.st.bal (.native f) me + paid ∧ paid ≤ s.st.bal (.native f) a ∧
      s'.st.bal c.old me = 0 ∧ s'.st.bridged = s.st.bridged + s.st.bal c.old me ∧ s'.st.burned = s.st.burned ∧
      s'.st.bal (.native f) me = s.st.bal (.native f) me + paid - asked f fee ∧
      s'.st.bal (.native f) a = s.st.bal (.native f) a - paid ∧
      s'.locked = s.locked + asked f fee ∧
      ∀ i x, ¬ (i = c.old ∧ x = me) → ¬ (i = .native f ∧ (x = me ∨ x = a)) → s'.st.bal i x = s.st.bal i x := by
  obtain ⟨st, d, h1, h2, hd, h4, h5, _, h7, h6, rfl⟩ := (transfer_iff ho hr).1 h
  have hpaid : ∃ paid, (funds = [] ∧ paid = 0 ∨ funds = [(f, paid)]) ∧ paid ≤ s.st.bal (.native f) a ∧
      st.bal (.native f) me = s.st.bal (.native f) me + paid ∧ st.bal (.native f) a = s.st.bal (.native f) a - paid ∧
      st.burned = s.st.burned ∧ st.bridged = s.st.bridged ∧
      ∀ i x, ¬ (i = .native f ∧ (x = me ∨ x = a)) → st.bal i x = s.st.bal i x := by
    rcases h2 with rfl | ⟨n, rfl⟩
    · simp only [sendAll, Except.ok.injEq] at h1
      subst h1
      exact ⟨0, .inl ⟨rfl, rfl⟩, Nat.zero_le _, rfl, rfl, rfl, rfl, fun _ _ _ => rfl⟩
    · obtain ⟨_, e2, e3, e4, e5⟩ := send_ok (sendAll_one h1)
      have m1 := move_apply e2 me
      have m2 := move_apply e2 a
      rw [if_neg (Ne.symm ha), if_pos rfl] at m1
      rw [if_pos rfl, if_neg ha] at m2
      refine ⟨n, .inr rfl, move_le e2, by omega, by omega, e4, e5, fun i x hx => ?_⟩
      by_cases hi : i = .native f
      · subst hi
        have hx' : x ≠ me ∧ x ≠ a := by simpa using hx
        rw [move_apply e2 x, if_neg hx'.2, if_neg hx'.1]
        omega
      · rw [e3 i hi]
  obtain ⟨paid, p1, p2, p3, p4, p5, p6, p7⟩ := hpaid
  have hom : st.bal c.old me = s.st.bal c.old me := p7 _ _ (by simp [ho])
  refine ⟨paid, p1, h4, h5, by rwa [← hom], by omega, p2, by simp, by simp only; omega, p5, ?_, ?_, rfl, ?_⟩
  · simp only
    rw [Function.update_of_ne (Ne.symm ho), Function.update_self, Function.update_self]
    omega
  · simp only
    rw [Function.update_of_ne (Ne.symm ho), Function.update_self, Function.update_of_ne ha]
    exact p4
  · intro i x hx hy
    simp only
    by_cases hi : i = c.old
    · subst hi
      have hxm : x ≠ me := by simpa using hx
      rw [Function.update_self, Function.update_of_ne hxm]
      exact p7 _ _ hy
    · rw [Function.update_of_ne hi]
      by_cases hf : i = .native f
      · subst hf
        have hx' : x ≠ me ∧ x ≠ a := by simpa using hy
        rw [Function.update_self, Function.update_of_ne hx'.1]
        exact p7 _ _ hy
      · rw [Function.update_of_ne hf]
        exact p7 _ _ hy

/-- **C140.**  And it succeeds whenever these conditions hold: nobody can prevent it. -/
theorem C140_transfer_succeeds (ibc : D → Bool) (d new f : D) (hf : ibc f = false) (c : Cfg A D)
    (hc : instantiate ibc (.native d) new true = .ok c) (me pair a : A) (ha : a ≠ me) (s : NState A D) (fee : Fee D)
    (hr : RecvOk f fee) (paid : Nat) (t : Option Nat) (ht : 120 ≤ t.getD 300 ∧ t.getD 300 ≤ 600)
    (hold : s.st.bal (.native d) me ≠ 0) (hp : paid ≤ s.st.bal (.native f) a)
    (hfee : asked f fee ≤ s.st.bal (.native f) me + paid) :
    ∃ s', exec c f me pair s a (.tx fee (.transferForBurning (if paid = 0 then [] else [(f, paid)]) t)) = .ok s' := by
  have hc' := hc
  obtain ⟨h1, _, _⟩ := instantiate_ok hc
  unfold instantiate at hc'
  simp only [bind_ok_iff, require_ok, exists_const, Except.ok.injEq] at hc'
  obtain ⟨_, hd, _, hb⟩ := hc'
  have hdf : d ≠ f := by
    rintro rfl
    rw [hf] at hd
    simp at hd
  have ho : c.old ≠ .native f := by rw [h1]; simpa using hdf
  by_cases hz : paid = 0
  · subst hz
    exact ⟨_, (transfer_iff ho hr).2 ⟨s.st, d, rfl, .inl rfl, h1, ht.1, ht.2, by rw [← hb], by rw [h1]; exact hold, hfee,
      rfl⟩⟩
  · rw [if_neg hz]
    obtain ⟨l, hl⟩ := move_succeeds (b := me) hp
    have hs : sendAll s.st a me [(f, paid)] = .ok { s.st with bal := Function.update s.st.bal (.native f) l } := by
      simp [sendAll, send, require, hz, hl]
    have m1 := move_apply hl me
    rw [if_neg (Ne.symm ha), if_pos rfl] at m1
    refine ⟨_, (transfer_iff ho hr).2 ⟨_, d, hs, .inr ⟨paid, rfl⟩, h1, ht.1, ht.2, by rw [← hb], ?_, ?_, rfl⟩⟩
    · rw [h1]
      simp only
      rw [Function.update_of_ne (by simpa using hdf)]
      exact hold
    · simp only [Function.update_self]
      omega

/-- **C140.**  But for holdings of `untrn`, a history of the converter on Neutron is a history of the plain converter by
the same accounts: everything proved about conversions there (C62, C97) holds here. -/
theorem C140_is_plain_converter (ibc : D → Bool) (d new f : D) (hf : ibc f = false) (hn : new ≠ f) (c : Cfg A D)
    (hc : instantiate ibc (.native d) new true = .ok c) (me pair : A) (s : NState A D) (ops : List (A × NtOp A D))
    (hr : ∀ a fee op, (a, NtOp.tx fee op) ∈ ops → RecvOk f fee) :
    ∃ plain : List (A × Op A D), (∀ p ∈ plain, ∃ fee op, (p.1, NtOp.tx fee op) ∈ ops) ∧
      Same f (run c f me pair s ops).st (Converter.run c me pair s.st plain) := by
  have hc' := hc
  obtain ⟨h1, h2, _⟩ := instantiate_ok hc
  unfold instantiate at hc'
  simp only [bind_ok_iff, require_ok, exists_const, Except.ok.injEq] at hc'
  obtain ⟨_, hd, _, hb⟩ := hc'
  have hdf : d ≠ f := by
    rintro rfl
    rw [hf] at hd
    simp at hd
  have ho : c.old ≠ .native f := by rw [h1]; simpa using hdf
  have hnew : c.new ≠ f := by rw [h2]; exact hn
  have key : ∀ (ops : List (A × NtOp A D)) (s : NState A D) (t : State A D), Same f s.st t →
      (∀ a fee op, (a, NtOp.tx fee op) ∈ ops → RecvOk f fee) →
      ∃ plain : List (A × Op A D), (∀ p ∈ plain, ∃ fee op, (p.1, NtOp.tx fee op) ∈ ops) ∧
        Same f (run c f me pair s ops).st (Converter.run c me pair t plain) := by
    intro ops
    induction ops with
    | nil => exact fun s t hs _ => ⟨[], by simp, hs⟩
    | cons x ops ih =>
      obtain ⟨a, op⟩ := x
      intro s t hs hr
      have hr' : ∀ a fee op, (a, NtOp.tx fee op) ∈ ops → RecvOk f fee := fun a fee op hm =>
        hr a fee op (List.mem_cons_of_mem _ hm)
      have skip : ∀ s1 : NState A D, Same f s1.st t → ∃ plain : List (A × Op A D),
          (∀ p ∈ plain, ∃ fee op', (p.1, NtOp.tx fee op') ∈ (a, op) :: ops) ∧
          Same f (run c f me pair s1 ops).st (Converter.run c me pair t plain) := by
        intro s1 hs1
        obtain ⟨plain, p1, p2⟩ := ih s1 t hs1 hr'
        refine ⟨plain, fun p hp => ?_, p2⟩
        obtain ⟨fee, op', h⟩ := p1 p hp
        exact ⟨fee, op', List.mem_cons_of_mem _ h⟩
      by_cases hab : a = me ∨ a = pair
      · simp only [run, if_pos hab]
        exact skip s hs
      simp only [run, if_neg hab]
      cases hx : exec c f me pair s a op with
      | error e => exact skip s hs
      | ok s1 =>
        show ∃ plain : List (A × Op A D), _ ∧ Same f (run c f me pair s1 ops).st _
        have go : ∀ (fee : Fee D) (p : Op A D) (t1 : State A D), op = .tx fee p →
            (∃ q, Converter.exec c me pair t a q = .ok t1) → Same f s1.st t1 →
            ∃ plain : List (A × Op A D), (∀ p ∈ plain, ∃ fee op', (p.1, NtOp.tx fee op') ∈ (a, op) :: ops) ∧
              Same f (run c f me pair s1 ops).st (Converter.run c me pair t plain) := by
          rintro fee p t1 rfl ⟨q, hq⟩ hs1
          obtain ⟨plain, p1, p2⟩ := ih s1 t1 hs1 hr'
          refine ⟨(a, q) :: plain, fun y hy => ?_, ?_⟩
          · rcases List.mem_cons.1 hy with rfl | hy
            · exact ⟨fee, p, List.mem_cons_self⟩
            · obtain ⟨fee', op', h⟩ := p1 y hy
              exact ⟨fee', op', List.mem_cons_of_mem _ h⟩
          · simp only [Converter.run, if_neg hab, hq]
            exact p2
        have plainCase : ∀ (fee : Fee D) (p : Op A D), op = .tx fee p → (∀ x y, p ≠ .transferForBurning x y) →
            (∀ x, p ≠ .burn x) → Converter.exec c me pair s.st a p = .ok s1.st →
            ∃ plain : List (A × Op A D), (∀ p ∈ plain, ∃ fee op', (p.1, NtOp.tx fee op') ∈ (a, op) :: ops) ∧
              Same f (run c f me pair s1 ops).st (Converter.run c me pair t plain) := by
          intro fee p hop h3 h4 h5
          rcases exec_lift ho hnew hs h3 h4 h5 with h6 | ⟨t1, h6, h7⟩
          · exact skip s1 h6
          · exact go fee p t1 hop ⟨p, h6⟩ h7
        cases op with
        | feeBack n =>
          simp only [exec, bind_ok_iff, Except.ok.injEq] at hx
          obtain ⟨r, _, rfl⟩ := hx
          refine skip _ ⟨fun i hi => ?_, hs.burned, hs.bridged⟩
          simp only [Function.update_of_ne hi]
          exact hs.bal i hi
        | feeSpent n =>
          simp only [exec, bind_ok_iff, Except.ok.injEq] at hx
          obtain ⟨r, _, rfl⟩ := hx
          exact skip _ hs
        | tx fee p =>
          cases p with
          | burn x => simp [exec] at hx
          | transferForBurning funds tm =>
            obtain ⟨st, d', e1, e2, e3, e4, e5, e6, e7, e8, rfl⟩ :=
              (transfer_iff ho (hr a fee _ List.mem_cons_self)).1 hx
            have hst : Same f st t := by
              rcases e2 with rfl | ⟨n, rfl⟩
              · simp only [sendAll, Except.ok.injEq] at e1
                subst e1
                exact hs
              · exact (send_fee (sendAll_one e1)).trans hs
            have heq : st.bal c.old = t.bal c.old := hst.bal _ ho
            refine go fee _ { t with
                bal := Function.update t.bal c.old (Function.update (t.bal c.old) me 0)
                bridged := t.bridged + t.bal c.old me } rfl ⟨.transferForBurning [] tm, ?_⟩ ⟨fun i hi => ?_, hst.burned, ?_⟩
            · simp only [Converter.exec, sendAll, ok_bind]
              unfold transferForBurning nonpayable
              rw [heq, e3] at e7
              rw [e3]
              simp [require, e4, e5, e6, e7]
            · simp only
              by_cases hio : i = c.old
              · subst hio
                simp only [Function.update_self]
                rw [heq]
              · simp only [Function.update_of_ne hio, Function.update_of_ne hi]
                exact hst.bal i hi
            · simp only
              rw [hst.bridged, heq]
          | convert x y =>
            simp only [exec, bind_ok_iff, Except.ok.injEq] at hx
            obtain ⟨st, hx, rfl⟩ := hx
            exact plainCase fee _ rfl nofun nofun hx
          | cw20Send x y z =>
            simp only [exec, bind_ok_iff, Except.ok.injEq] at hx
            obtain ⟨st, hx, rfl⟩ := hx
            exact plainCase fee _ rfl nofun nofun hx
          | forged x y z =>
            simp only [exec, bind_ok_iff, Except.ok.injEq] at hx
            obtain ⟨st, hx, rfl⟩ := hx
            exact plainCase fee _ rfl nofun nofun hx
          | pairNative x y z w =>
            simp only [exec, bind_ok_iff, Except.ok.injEq] at hx
            obtain ⟨st, hx, rfl⟩ := hx
            exact plainCase fee _ rfl nofun nofun hx
          | pairCw20 x y z =>
            simp only [exec, bind_ok_iff, Except.ok.injEq] at hx
            obtain ⟨st, hx, rfl⟩ := hx
            exact plainCase fee _ rfl nofun nofun hx
          | refund x =>
            simp only [exec, bind_ok_iff, Except.ok.injEq] at hx
            obtain ⟨st, hx, rfl⟩ := hx
            exact plainCase fee _ rfl nofun nofun hx
          | transfer x y z =>
            simp only [exec, bind_ok_iff, Except.ok.injEq] at hx
            obtain ⟨st, hx, rfl⟩ := hx
            exact plainCase fee _ rfl nofun nofun hx
  exact key ops s s.st (Same.refl f s.st) hr

/-- Transactions other than `TransferForBurning` take no `untrn` from the converter. -/
theorem exec_fee {c : Cfg A D} {f : D} (hne : c.old ≠ .native c.new) (ho : c.old ≠ .native f) (hn : c.new ≠ f)
    {me pair a : A} (ha : a ≠ me) {s s' : State A D} {op : Op A D} (hop : ∀ x y, op ≠ .transferForBurning x y)
    (hb : ∀ x, op ≠ .burn x) (h : Converter.exec c me pair s a op = .ok s') :
    s.bal (.native f) me ≤ s'.bal (.native f) me := by
  have hnew : (Info.native f : Info A D) ≠ .native c.new := by simpa using Ne.symm hn
  cases op with
  | convert funds r =>
    simp only [Converter.exec, bind_ok_iff] at h
    obtain ⟨s1, h1, h2⟩ := h
    unfold convert at h2
    split at h2
    · rw [bind_ok_iff] at h2
      obtain ⟨n, h3, h4⟩ := h2
      have := (sendAll_mono h1 ha).1 (.native f)
      rw [(send_ok h4).2.2.1 _ hnew]
      exact this
    · simp at h2
  | cw20Send tk n r =>
    simp only [Converter.exec, bind_ok_iff] at h
    obtain ⟨s1, h1, h2⟩ := h
    unfold cw20Receive at h2
    split at h2
    · simp only [bind_ok_iff, require_ok, exists_const] at h2
      obtain ⟨rfl, h3⟩ := h2
      have := send_mono h1 ha (.native f)
      rw [(send_ok h3).2.2.1 _ hnew]
      exact this
    · simp at h2
  | forged claimed n r =>
    obtain ⟨e, he⟩ := C62_forged_refused c me pair s a claimed n r
    rw [he] at h
    simp at h
  | transferForBurning x y => exact absurd rfl (hop x y)
  | burn x => exact absurd rfl (hb x)
  | pairNative offer n funds dst =>
    have hcv := (pairNative_converted hne h).2
    rw [hcv.rest _ (Ne.symm ho) hnew]
  | pairCw20 tk n dst =>
    have hcv := (pairCw20_converted hne h).2
    rw [hcv.rest _ (Ne.symm ho) hnew]
  | refund n =>
    simp only [Converter.exec, bind_ok_iff, csub_ok, Except.ok.injEq] at h
    obtain ⟨r, ⟨hle, rfl⟩, rfl⟩ := h
    simp only [Function.update_of_ne (Ne.symm ho)]
    exact le_refl _
  | transfer i dst n => exact send_mono h ha _

/-- What relayers were paid in a history. -/
def relayed : List (A × NtOp A D) → Nat
  | [] => 0
  | (_, .feeSpent n) :: rest => n + relayed rest
  | _ :: rest => relayed rest

/-- **C140.**  `untrn` leaves the converter only to pay for its transfers: at any time what it holds, what is deposited
for transfers on their way and what relayers were paid is at least what it held before. -/
theorem C140_ntrn_only_for_fees (ibc : D → Bool) (d new f : D) (hf : ibc f = false) (hn : new ≠ f) (c : Cfg A D)
    (hc : instantiate ibc (.native d) new true = .ok c) (me pair : A) (s : NState A D) (ops : List (A × NtOp A D))
    (hr : ∀ a fee op, (a, NtOp.tx fee op) ∈ ops → RecvOk f fee) :
    s.st.bal (.native f) me + s.locked ≤
      (run c f me pair s ops).st.bal (.native f) me + (run c f me pair s ops).locked + relayed ops := by
  have hc' := hc
  obtain ⟨h1, h2, hne⟩ := instantiate_ok hc
  unfold instantiate at hc'
  simp only [bind_ok_iff, require_ok, exists_const, Except.ok.injEq] at hc'
  obtain ⟨_, hd, _, hb⟩ := hc'
  have hdf : d ≠ f := by
    rintro rfl
    rw [hf] at hd
    simp at hd
  have ho : c.old ≠ .native f := by rw [h1]; simpa using hdf
  have hnew : c.new ≠ f := by rw [h2]; exact hn
  induction ops generalizing s with
  | nil => simp [run, relayed]
  | cons x ops ih =>
    obtain ⟨a, op⟩ := x
    have hr' : ∀ a fee op, (a, NtOp.tx fee op) ∈ ops → RecvOk f fee := fun a fee op hm =>
      hr a fee op (List.mem_cons_of_mem _ hm)
    have hrel : relayed ops ≤ relayed ((a, op) :: ops) := by
      cases op <;> simp [relayed]
    have skip : ∀ s1 : NState A D, s.st.bal (.native f) me + s.locked ≤ s1.st.bal (.native f) me + s1.locked →
        s.st.bal (.native f) me + s.locked ≤ (run c f me pair s1 ops).st.bal (.native f) me +
          (run c f me pair s1 ops).locked + relayed ((a, op) :: ops) := by
      intro s1 h
      have := ih s1 hr'
      omega
    by_cases hab : a = me ∨ a = pair
    · simp only [run, if_pos hab]
      exact skip s (le_refl _)
    simp only [run, if_neg hab]
    have ha : a ≠ me := fun e => hab (.inl e)
    cases hx : exec c f me pair s a op with
    | error e => exact skip s (le_refl _)
    | ok s1 =>
      show _ ≤ (run c f me pair s1 ops).st.bal (.native f) me + (run c f me pair s1 ops).locked + _
      have plainCase : ∀ p : Op A D, (∀ x y, p ≠ .transferForBurning x y) → (∀ x, p ≠ .burn x) →
          Converter.exec c me pair s.st a p = .ok s1.st → s1.locked = s.locked →
          s.st.bal (.native f) me + s.locked ≤ s1.st.bal (.native f) me + s1.locked := by
        intro p h3 h4 h5 h6
        have := exec_fee hne ho hnew ha h3 h4 h5
        omega
      cases op with
      | feeBack n =>
        refine skip s1 ?_
        simp only [exec, bind_ok_iff, csub_ok, Except.ok.injEq] at hx
        obtain ⟨r, ⟨hle, rfl⟩, rfl⟩ := hx
        simp only [Function.update_self, credit_self]
        omega
      | feeSpent n =>
        simp only [exec, bind_ok_iff, csub_ok, Except.ok.injEq] at hx
        obtain ⟨r, ⟨hle, rfl⟩, rfl⟩ := hx
        have := ih { s with locked := s.locked - n } hr'
        simp only [relayed]
        simp only at this
        omega
      | tx fee p =>
        refine skip s1 ?_
        cases p with
        | burn x => simp [exec] at hx
        | transferForBurning funds tm =>
          obtain ⟨paid, _, _, _, _, h5, _, _, _, _, h10, _, h12, _⟩ :=
            C140_transfer_exact c f ho me pair a ha s s1 fee (hr a fee _ List.mem_cons_self) funds tm hx
          omega
        | convert x y =>
          simp only [exec, bind_ok_iff, Except.ok.injEq] at hx
          obtain ⟨st, hx, rfl⟩ := hx
          exact plainCase (.convert x y) nofun nofun hx rfl
        | cw20Send x y z =>
          simp only [exec, bind_ok_iff, Except.ok.injEq] at hx
          obtain ⟨st, hx, rfl⟩ := hx
          exact plainCase (.cw20Send x y z) nofun nofun hx rfl
        | forged x y z =>
          simp only [exec, bind_ok_iff, Except.ok.injEq] at hx
          obtain ⟨st, hx, rfl⟩ := hx
          exact plainCase (.forged x y z) nofun nofun hx rfl
        | pairNative x y z w =>
          simp only [exec, bind_ok_iff, Except.ok.injEq] at hx
          obtain ⟨st, hx, rfl⟩ := hx
          exact plainCase (.pairNative x y z w) nofun nofun hx rfl
        | pairCw20 x y z =>
          simp only [exec, bind_ok_iff, Except.ok.injEq] at hx
          obtain ⟨st, hx, rfl⟩ := hx
          exact plainCase (.pairCw20 x y z) nofun nofun hx rfl
        | refund x =>
          simp only [exec, bind_ok_iff, Except.ok.injEq] at hx
          obtain ⟨st, hx, rfl⟩ := hx
          exact plainCase (.refund x) nofun nofun hx rfl
        | transfer x y z =>
          simp only [exec, bind_ok_iff, Except.ok.injEq] at hx
          obtain ⟨st, hx, rfl⟩ := hx
          exact plainCase (.transfer x y z) nofun nofun hx rfl

/-! A converter with 500 `untrn` of its own (denom 5); the chain asks 100 for an acknowledgement and 100 for a time-out,
and would also take another coin.  Anybody can make the converter pay, or can pay. -/

/-- converter 10, pair 11 -/
def demoNt : NState Nat Nat :=
  { st := { bal := fun i a => if i = .native 1 ∧ a = 10 then 1000 else if i = .native 0 ∧ a = 7 then 300
              else if i = .native 5 ∧ a = 10 then 500 else if i = .native 5 ∧ a = 7 then 50 else 0
            burned := 0, bridged := 0 }
    locked := 0 }

/-- the fee asked -/
def demoFee : Fee Nat := ⟨[], [(5, 100), (6, 3)], [(5, 100), (6, 3)]⟩

example : okAnd (instantiate (fun d => decide (d = 0)) (.native 0) 1 true : Res (Cfg Nat Nat)) (fun c =>
    okAnd (exec c 5 10 11 demoNt 7 (.tx demoFee (.convert [(0, 300)] none))) fun s =>
      okAnd (exec c 5 10 11 s 7 (.tx demoFee (.transferForBurning [(5, 50)] none))) fun s' =>
        decide (s'.st.bal (.native 5) 10 = 350 ∧ s'.locked = 200 ∧ s'.st.bridged = 300 ∧ s'.st.bal (.native 1) 7 = 300 ∧
          s'.st.bal (.native 0) 10 = 0)) = true := by decide +kernel

end Verif.Converter.Neutron
