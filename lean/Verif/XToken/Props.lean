import Verif.XToken.Model

/-!
# Properties of the xASTRO token
-/

namespace Verif.XToken

variable {A : Type} [DecidableEq A]

/-! ## Effects -/

/-- The ledger. -/
def led (s : State A) : A → Nat := fun a => bal s a

theorem bal_setBal (s : State A) (a : A) (n h : Nat) : led (setBal s a n h) = Function.update (led s) a n := by
  funext b
  unfold led bal setBal
  simp only [Function.update_apply]
  split
  · rfl
  · rfl

theorem subBal_ok {s s' : State A} {a : A} {n h : Nat} (hx : subBal s a n h = .ok s') :
    debit (led s) a n = .ok (led s') ∧ s' = setBal s a (bal s a - n) h := by
  unfold subBal at hx
  simp only [bind_ok_iff, csub_ok, Except.ok.injEq] at hx
  obtain ⟨v, ⟨h1, rfl⟩, rfl⟩ := hx
  exact ⟨debit_ok.2 ⟨h1, bal_setBal ..⟩, rfl⟩

theorem addBal_ok {s s' : State A} {a : A} {n h : Nat} (hx : addBal s a n h = .ok s') :
    led s' = credit (led s) a n ∧ s' = setBal s a (bal s a + n) h := by
  unfold addBal at hx
  simp only [bind_ok_iff, u128_ok, Except.ok.injEq] at hx
  obtain ⟨v, ⟨h1, rfl⟩, rfl⟩ := hx
  exact ⟨bal_setBal .., rfl⟩

theorem deduct_ok {s s' : State A} {e : Env} {owner sp : A} {n : Nat} (h : deduct s e owner sp n = .ok s') :
    ∃ k x, s.allow owner sp = some (k, x) ∧ n ≤ k ∧ x.expired e = false ∧
      s' = setAllow s owner sp (some (k - n, x)) := by
  unfold deduct at h
  simp only [bind_ok_iff, orErr_ok, require_ok, exists_const, csub_ok, Except.ok.injEq] at h
  obtain ⟨v, h1, h2, r, ⟨h3, rfl⟩, rfl⟩ := h
  exact ⟨v.1, v.2, h1, h3, h2, rfl⟩

/-- Kinds of successful transactions: what they do to the ledger, the supply, its record and the allowances. -/
inductive Eff (s s' : State A) (e : Env) (me : A) : Prop where
  /-- tokens of `src` go to `dst` -/
  | moved (src dst : A) (n : Nat) (hl : move (led s) src dst n = .ok (led s')) (hs : s'.supply = s.supply)
      (hh : s'.hist = s.hist)
      (hw : (src = me ∧ s'.allow = s.allow) ∨ ∃ k x, s.allow src me = some (k, x) ∧ n ≤ k ∧ x.expired e = false ∧
        s'.allow = (setAllow s src me (some (k - n, x))).allow)
  /-- tokens of `src` are burned -/
  | burned (src : A) (n : Nat) (hm : isMinter s me = true) (hl : debit (led s) src n = .ok (led s'))
      (hs : s'.supply + n = s.supply) (hh : s'.hist = kvInsert e.height s'.supply s.hist)
      (hw : (src = me ∧ s'.allow = s.allow) ∨ ∃ k x, s.allow src me = some (k, x) ∧ n ≤ k ∧ x.expired e = false ∧
        s'.allow = (setAllow s src me (some (k - n, x))).allow)
  /-- tokens are minted -/
  | minted (dst : A) (n : Nat) (hm : isMinter s me = true) (hl : led s' = credit (led s) dst n)
      (hs : s'.supply = s.supply + n) (hc : capOk s.mint s'.supply = true)
      (hh : s'.hist = kvInsert e.height s'.supply s.hist) (hw : s'.allow = s.allow)
  /-- the sender changes an allowance of their own -/
  | allowed (sp : A) (v : Option (Nat × Exp)) (hs : s' = setAllow s me sp v)

omit [DecidableEq A] in
theorem move_of {l l1 l2 : A → Nat} [DecidableEq A] {a b : A} {n : Nat} (h1 : debit l a n = .ok l1)
    (h2 : l2 = credit l1 b n) : move l a b n = .ok l2 := move_ok.2 ⟨l1, h1, h2⟩

theorem transfer_eff {s s' : State A} {e : Env} {me dst : A} {n : Nat} (h : transfer s e me dst n = .ok s') :
    Eff s s' e me := by
  unfold transfer at h
  simp only [bind_ok_iff, require_ok, exists_const] at h
  obtain ⟨_, s1, h1, h2⟩ := h
  obtain ⟨d1, e1⟩ := subBal_ok h1
  obtain ⟨d2, e2⟩ := addBal_ok h2
  exact .moved me dst n (move_of d1 d2) (by rw [e2, e1]; rfl) (by rw [e2, e1]; rfl) (.inl ⟨rfl, by rw [e2, e1]; rfl⟩)

theorem transferFrom_eff {s s' : State A} {e : Env} {me owner dst : A} {n : Nat}
    (h : transferFrom s e me owner dst n = .ok s') : Eff s s' e me := by
  unfold transferFrom at h
  simp only [bind_ok_iff] at h
  obtain ⟨s0, h0, s1, h1, h2⟩ := h
  obtain ⟨k, x, a1, a2, a3, rfl⟩ := deduct_ok h0
  obtain ⟨d1, e1⟩ := subBal_ok h1
  obtain ⟨d2, e2⟩ := addBal_ok h2
  exact .moved owner dst n (move_of d1 d2) (by rw [e2, e1]; rfl) (by rw [e2, e1]; rfl)
    (.inr ⟨k, x, a1, a2, a3, by rw [e2, e1]; rfl⟩)

theorem burn_eff {s s' : State A} {e : Env} {me : A} {n : Nat} (h : burn s e me n = .ok s') : Eff s s' e me := by
  unfold burn at h
  simp only [bind_ok_iff, require_ok, exists_const, csub_ok, Except.ok.injEq] at h
  obtain ⟨_, hm, s1, h1, sup, ⟨h2, rfl⟩, rfl⟩ := h
  obtain ⟨d1, e1⟩ := subBal_ok h1
  have hs1 : s1.supply = s.supply := by rw [e1]; rfl
  have hh : s1.hist = s.hist := by rw [e1]; rfl
  exact .burned me n hm d1 (by simp only [capture]; omega) (by simp only [capture, hh])
    (.inl ⟨rfl, by simp only [capture]; rw [e1]; rfl⟩)

theorem burnFrom_eff {s s' : State A} {e : Env} {me owner : A} {n : Nat} (h : burnFrom s e me owner n = .ok s') :
    Eff s s' e me := by
  unfold burnFrom at h
  simp only [bind_ok_iff, require_ok, exists_const, csub_ok, Except.ok.injEq] at h
  obtain ⟨hm, s0, h0, s1, h1, sup, ⟨h2, rfl⟩, rfl⟩ := h
  obtain ⟨k, x, a1, a2, a3, rfl⟩ := deduct_ok h0
  obtain ⟨d1, e1⟩ := subBal_ok h1
  have hs1 : s1.supply = s.supply := by rw [e1]; rfl
  have hh : s1.hist = s.hist := by rw [e1]; rfl
  exact .burned owner n hm d1 (by simp only [capture]; omega) (by simp only [capture, hh])
    (.inr ⟨k, x, a1, a2, a3, by simp only [capture]; rw [e1]; rfl⟩)

theorem mint_eff {s s' : State A} {e : Env} {me dst : A} {n : Nat} (h : mint s e me dst n = .ok s') :
    Eff s s' e me := by
  unfold mint at h
  simp only [bind_ok_iff, require_ok, exists_const, u128_ok] at h
  obtain ⟨_, hm, sup, ⟨_, rfl⟩, hc, h⟩ := h
  obtain ⟨d1, e1⟩ := addBal_ok h
  exact .minted dst n hm d1 (by rw [e1]; rfl) (by rw [e1]; exact hc) (by rw [e1]; rfl) (by rw [e1]; rfl)

theorem exec_eff {s s' : State A} {e : Env} {me : A} {o : Op A} (h : exec s e me o = .ok s') : Eff s s' e me := by
  cases o with
  | transfer dst n => exact transfer_eff h
  | send c n => exact transfer_eff h
  | burn n => exact burn_eff h
  | mint dst n => exact mint_eff h
  | increase sp n exp =>
    simp only [exec, increase, bind_ok_iff, require_ok, exists_const, u128_ok, Except.ok.injEq] at h
    obtain ⟨_, v, ⟨_, rfl⟩, rfl⟩ := h
    exact .allowed sp _ rfl
  | decrease sp n exp =>
    simp only [exec, decrease, bind_ok_iff, require_ok, exists_const, orErr_ok, Except.ok.injEq] at h
    obtain ⟨_, v, _, rfl⟩ := h
    exact .allowed sp _ rfl
  | transferFrom ow dst n => exact transferFrom_eff h
  | sendFrom ow c n => exact transferFrom_eff h
  | burnFrom ow n => exact burnFrom_eff h

/-- The minter and the cap are never changed. -/
theorem exec_mint {s s' : State A} {e : Env} {me : A} {o : Op A} (h : exec s e me o = .ok s') : s'.mint = s.mint := by
  cases o with
  | transfer dst n =>
    simp only [exec, transfer, bind_ok_iff, require_ok, exists_const] at h
    obtain ⟨_, s1, h1, h2⟩ := h
    rw [(addBal_ok h2).2, (subBal_ok h1).2]; rfl
  | send dst n =>
    simp only [exec, transfer, bind_ok_iff, require_ok, exists_const] at h
    obtain ⟨_, s1, h1, h2⟩ := h
    rw [(addBal_ok h2).2, (subBal_ok h1).2]; rfl
  | burn n =>
    simp only [exec, burn, bind_ok_iff, require_ok, exists_const, csub_ok, Except.ok.injEq] at h
    obtain ⟨_, hm, s1, h1, sup, ⟨h2, rfl⟩, rfl⟩ := h
    simp only [capture]
    rw [(subBal_ok h1).2]; rfl
  | mint dst n =>
    simp only [exec, mint, bind_ok_iff, require_ok, exists_const, u128_ok] at h
    obtain ⟨_, hm, sup, ⟨_, rfl⟩, hc, h⟩ := h
    rw [(addBal_ok h).2]; rfl
  | increase sp n exp =>
    simp only [exec, increase, bind_ok_iff, require_ok, exists_const, u128_ok, Except.ok.injEq] at h
    obtain ⟨_, v, ⟨_, rfl⟩, rfl⟩ := h
    rfl
  | decrease sp n exp =>
    simp only [exec, decrease, bind_ok_iff, require_ok, exists_const, orErr_ok, Except.ok.injEq] at h
    obtain ⟨_, v, _, rfl⟩ := h
    rfl
  | transferFrom ow dst n =>
    simp only [exec, transferFrom, bind_ok_iff] at h
    obtain ⟨s0, h0, s1, h1, h2⟩ := h
    obtain ⟨k, x, _, _, _, rfl⟩ := deduct_ok h0
    rw [(addBal_ok h2).2, (subBal_ok h1).2]; rfl
  | sendFrom ow dst n =>
    simp only [exec, transferFrom, bind_ok_iff] at h
    obtain ⟨s0, h0, s1, h1, h2⟩ := h
    obtain ⟨k, x, _, _, _, rfl⟩ := deduct_ok h0
    rw [(addBal_ok h2).2, (subBal_ok h1).2]; rfl
  | burnFrom ow n =>
    simp only [exec, burnFrom, bind_ok_iff, require_ok, exists_const, csub_ok, Except.ok.injEq] at h
    obtain ⟨hm, s0, h0, s1, h1, sup, ⟨h2, rfl⟩, rfl⟩ := h
    obtain ⟨k, x, _, _, _, rfl⟩ := deduct_ok h0
    simp only [capture]
    rw [(subBal_ok h1).2]; rfl

/-! ## C59: the sum of balances -/

theorem run_inv {P : State A → Prop} (hstep : ∀ (s : State A) (t : Tx A) (s' : State A), P s → exec s t.env t.sender t.op = .ok s' → P s')
    (ts : List (Tx A)) : ∀ s, P s → P (run s ts) := by
  induction ts with
  | nil => exact fun _ h => h
  | cons t rest ih =>
    intro s h
    exact ih _ (commit'_inv P h fun s' hx => hstep s t s' h hx)

variable [Fintype A]

theorem sum_eff {s s' : State A} {e : Env} {me : A} (h : Eff s s' e me) :
    ∑ a, bal s' a + s.supply = ∑ a, bal s a + s'.supply := by
  have hb : ∀ s : State A, ∑ a, bal s a = ∑ a, led s a := fun _ => rfl
  rw [hb, hb]
  cases h with
  | moved src dst n hl hs hh hw => rw [sum_move hl, hs]
  | burned src n hm hl hs hh hw =>
    have := sum_debit hl
    omega
  | minted dst n hm hl hs hc hh hw => rw [hl, sum_credit]; omega
  | allowed sp v hs => subst hs; rfl

omit [Fintype A] in
theorem createAccounts_mint {accounts : List (A × Nat)} {h : Nat} {s s' : State A}
    (hx : createAccounts s h accounts = .ok s') : s'.mint = s.mint ∧ s'.hist = s.hist ∧ s'.allow = s.allow := by
  induction accounts generalizing s with
  | nil =>
    simp only [createAccounts, Except.ok.injEq] at hx
    subst hx
    exact ⟨rfl, rfl, rfl⟩
  | cons x rest ih =>
    obtain ⟨a, n⟩ := x
    simp only [createAccounts, bind_ok_iff, u128_ok] at hx
    obtain ⟨sup, ⟨_, rfl⟩, hx⟩ := hx
    exact ih (s := { setBal s a n h with supply := s.supply + n }) hx

theorem createAccounts_le {accounts : List (A × Nat)} {h : Nat} {s s' : State A}
    (hx : createAccounts s h accounts = .ok s') (hs : ∑ a, bal s a ≤ s.supply) : ∑ a, bal s' a ≤ s'.supply := by
  induction accounts generalizing s with
  | nil =>
    simp only [createAccounts, Except.ok.injEq] at hx
    subst hx
    exact hs
  | cons x rest ih =>
    obtain ⟨a, n⟩ := x
    simp only [createAccounts, bind_ok_iff, u128_ok] at hx
    obtain ⟨sup, ⟨_, rfl⟩, hx⟩ := hx
    refine ih hx ?_
    have h1 : ∑ b, bal { setBal s a n h with supply := s.supply + n } b = ∑ b, Function.update (led s) a n b := by
      rw [← bal_setBal s a n h]; rfl
    have h2 : ∑ b, Function.update (led s) a n b ≤ ∑ b, credit (led s) a n b := by
      refine Finset.sum_le_sum fun b _ => ?_
      rw [credit_apply, Function.update_apply]
      split <;> omega
    have h3 : ∑ a, led s a = ∑ a, bal s a := rfl
    rw [sum_credit] at h2
    simp only at h1 ⊢
    omega

theorem createAccounts_eq {accounts : List (A × Nat)} {h : Nat} {s s' : State A}
    (hx : createAccounts s h accounts = .ok s') (hn : (accounts.map (·.1)).Nodup)
    (h0 : ∀ x ∈ accounts, bal s x.1 = 0) (hs : ∑ a, bal s a = s.supply) : ∑ a, bal s' a = s'.supply := by
  induction accounts generalizing s with
  | nil =>
    simp only [createAccounts, Except.ok.injEq] at hx
    subst hx
    exact hs
  | cons x rest ih =>
    obtain ⟨a, n⟩ := x
    simp only [createAccounts, bind_ok_iff, u128_ok] at hx
    obtain ⟨sup, ⟨_, rfl⟩, hx⟩ := hx
    simp only [List.map_cons, List.nodup_cons] at hn
    have ha : led s a = 0 := h0 (a, n) List.mem_cons_self
    have hb : ∀ b, bal { setBal s a n h with supply := s.supply + n } b = Function.update (led s) a n b := by
      intro b
      rw [← bal_setBal s a n h]; rfl
    refine ih hx hn.2 ?_ ?_
    · intro y hy
      rw [hb]
      have hne : y.1 ≠ a := by
        rintro rfl
        exact hn.1 (List.mem_map_of_mem hy)
      rw [Function.update_of_ne hne]
      exact h0 y (List.mem_cons_of_mem _ hy)
    · have h2 : ∀ b, Function.update (led s) a n b = credit (led s) a n b := by
        intro b
        rw [credit_apply, Function.update_apply]
        split
        · rename_i hba
          subst hba
          omega
        · rfl
      have h3 : ∑ a, led s a = ∑ a, bal s a := rfl
      rw [Finset.sum_congr rfl (fun b _ => (hb b).trans (h2 b)), sum_credit]
      simp only
      omega

omit [Fintype A] in
theorem instantiate_ok {h : Nat} {accounts : List (A × Nat)} {m : Option (A × Option Nat)} {s : State A}
    (hx : instantiate h accounts m = .ok s) : ∃ s1, createAccounts ⟨0, m, fun _ => Snap.empty, [], fun _ _ => none⟩ h
      accounts = .ok s1 ∧ s.supply = s1.supply ∧ s.bals = s1.bals ∧ s.mint = m ∧ s.allow = (fun _ _ => none) ∧
      s.hist = (if s.supply = 0 then [] else [(h, s.supply)]) ∧ capOk m s.supply = true := by
  unfold instantiate at hx
  simp only [bind_ok_iff, require_ok, exists_const, Except.ok.injEq] at hx
  obtain ⟨s1, h1, h2, rfl⟩ := hx
  obtain ⟨e1, e2, e3⟩ := createAccounts_mint h1
  refine ⟨s1, h1, ?_⟩
  split at h2
  · rename_i h0
    rw [if_pos h0]
    exact ⟨rfl, rfl, e1, e3, by rw [if_pos h0, e2], h2⟩
  · rename_i h0
    rw [if_neg h0]
    refine ⟨rfl, rfl, e1, e3, ?_, h2⟩
    rw [if_neg (show ¬ (capture s1 h).supply = 0 from h0)]
    simp only [capture, e2]; rfl

/-- **C59.**  In every reachable state, whatever the initial accounts, the balances sum to at most the total supply,
and the total supply is within the cap. -/
theorem C59_never_exceeds_supply_and_cap (h : Nat) (accounts : List (A × Nat)) (m : Option (A × Option Nat))
    (s : State A) (hx : instantiate h accounts m = .ok s) (ts : List (Tx A)) :
    ∑ a, bal (run s ts) a ≤ (run s ts).supply ∧
      ∀ minter cap, m = some (minter, some cap) → (run s ts).supply ≤ cap := by
  have inv : ∑ a, bal (run s ts) a ≤ (run s ts).supply ∧ (run s ts).mint = m ∧
      capOk m (run s ts).supply = true := by
    refine run_inv (P := fun s : State A => ∑ a, bal s a ≤ s.supply ∧ s.mint = m ∧ capOk m s.supply = true) ?_ ts s ?_
    · rintro s t s' ⟨h1, h2, h3⟩ hx
      have he := exec_eff hx
      have hs := sum_eff he
      refine ⟨by omega, (exec_mint hx).trans h2, ?_⟩
      cases he with
      | moved src dst n hl hs hh hw => rw [hs]; exact h3
      | burned src n hm hl hs hh hw =>
        unfold capOk at h3 ⊢
        split
        · simp only [decide_eq_true_eq] at h3 ⊢
          omega
        · rfl
      | minted dst n hm hl hs hc hh hw => rw [← h2]; exact hc
      | allowed sp v hs => subst hs; exact h3
    · obtain ⟨s1, h1, e1, e2, e3, _, _, e5⟩ := instantiate_ok hx
      refine ⟨?_, e3, e5⟩
      have := createAccounts_le h1 (by simp [bal, Snap.empty])
      rw [e1]
      calc ∑ a, bal s a = ∑ a, bal s1 a := by simp only [bal, e2]
        _ ≤ _ := this
  refine ⟨inv.1, ?_⟩
  rintro minter cap rfl
  have := inv.2.2
  unfold capOk at this
  simpa using this

/-- **C59 (partial).**  If no account is listed twice at instantiation, the balances sum to exactly the total supply
in every reachable state.  Missing: accounts listed twice, see `C59_duplicate_accounts_violated`. -/
theorem C59_sum_is_supply_partial (h : Nat) (accounts : List (A × Nat)) (m : Option (A × Option Nat))
    (hn : (accounts.map (·.1)).Nodup) (s : State A) (hx : instantiate h accounts m = .ok s) (ts : List (Tx A)) :
    ∑ a, bal (run s ts) a = (run s ts).supply := by
  refine run_inv (P := fun s : State A => ∑ a, bal s a = s.supply) ?_ ts s ?_
  · intro s t s' h1 hx
    have hs := sum_eff (exec_eff hx)
    omega
  · obtain ⟨s1, h1, e1, e2, _⟩ := instantiate_ok hx
    have := createAccounts_eq h1 hn (by simp [bal, Snap.empty]) (by simp [bal, Snap.empty])
    rw [e1, ← this]
    simp only [bal, e2]

/-- Minter 9 with a cap of 1000; 100 for account 1 and 50 for account 2 at height 3. -/
def demoInit : Res (State (Fin 10)) := instantiate 3 [(1, 100), (2, 50)] (some (9, some 1000))

/-- Minting, allowances, transfers by owner and spender and burning over four blocks. -/
def demoTs : List (Tx (Fin 10)) :=
  [⟨⟨5, 50⟩, 9, .mint 3 40⟩, ⟨⟨5, 50⟩, 1, .transfer 9 30⟩, ⟨⟨6, 60⟩, 2, .increase 4 20 (some (.height 8))⟩,
    ⟨⟨7, 70⟩, 4, .transferFrom 2 5 15⟩, ⟨⟨7, 70⟩, 9, .burn 10⟩, ⟨⟨8, 80⟩, 4, .transferFrom 2 5 1⟩]

example : okAnd demoInit (fun s => decide ((run s demoTs).supply = 180 ∧ bal (run s demoTs) 2 = 35 ∧
    bal (run s demoTs) 9 = 20 ∧ bal (run s demoTs) 5 = 15)) = true := by decide +kernel

/-- **C59 violated.**  An account listed twice keeps only its last amount, while the supply counts both.  Witness:
100 and 50 for the same account. -/
theorem C59_duplicate_accounts_violated :
    okAnd (instantiate 3 [((1 : Fin 2), 100), (1, 50)] none)
      (fun s => decide (s.supply = 150 ∧ ∑ a, bal s a = 50)) = true := by decide +kernel

/-! ## C60: history -/

omit [Fintype A] in
/-- A change of balances at height `h` leaves the past alone. -/
def Past (s s' : State A) (h : Nat) : Prop :=
  ∀ a H, H ≤ h → (s.bals a).UpTo H → (s'.bals a).UpTo h ∧ ∀ k, k ≤ h → (s'.bals a).at_ k = (s.bals a).at_ k

omit [Fintype A] [DecidableEq A] in
theorem Past.of_eq {s s' : State A} {h : Nat} (he : s'.bals = s.bals) : Past s s' h := fun a H hle hu => by
  rw [he]
  exact ⟨Snap.upTo_mono hu hle, fun _ _ => rfl⟩

omit [Fintype A] [DecidableEq A] in
theorem Past.trans {s s1 s' : State A} {h : Nat} (h1 : Past s s1 h) (h2 : Past s1 s' h) : Past s s' h := by
  intro a H hle hu
  obtain ⟨a1, a2⟩ := h1 a H hle hu
  obtain ⟨b1, b2⟩ := h2 a h (le_refl _) a1
  exact ⟨b1, fun k hk => (b2 k hk).trans (a2 k hk)⟩

omit [Fintype A] in
theorem setBal_past (s : State A) (a : A) (n h : Nat) : Past s (setBal s a n h) h := by
  intro b H hle hu
  unfold setBal
  simp only [Function.update_apply]
  split
  · rename_i hb
    subst hb
    refine ⟨Snap.save_upTo _ hu hle, fun k hk => ?_⟩
    rw [Snap.save_at _ hu hle, if_pos hk]
  · exact ⟨Snap.upTo_mono hu hle, fun _ _ => rfl⟩

omit [Fintype A] in
theorem exec_past {s s' : State A} {e : Env} {me : A} {o : Op A} (h : exec s e me o = .ok s') :
    Past s s' e.height := by
  have two : ∀ {s s1 s' : State A} {a b : A} {n : Nat}, subBal s a n e.height = .ok s1 →
      addBal s1 b n e.height = .ok s' → Past s s' e.height := by
    intro s s1 s' a b n h1 h2
    rw [(addBal_ok h2).2, (subBal_ok h1).2]
    exact (setBal_past _ _ _ _).trans (setBal_past _ _ _ _)
  cases o with
  | transfer dst n =>
    simp only [exec, transfer, bind_ok_iff, require_ok, exists_const] at h
    obtain ⟨_, s1, h1, h2⟩ := h
    exact two h1 h2
  | send dst n =>
    simp only [exec, transfer, bind_ok_iff, require_ok, exists_const] at h
    obtain ⟨_, s1, h1, h2⟩ := h
    exact two h1 h2
  | burn n =>
    simp only [exec, burn, bind_ok_iff, require_ok, exists_const, csub_ok, Except.ok.injEq] at h
    obtain ⟨_, hm, s1, h1, sup, ⟨h2, rfl⟩, rfl⟩ := h
    rw [(subBal_ok h1).2]
    exact (setBal_past _ _ _ _).trans (Past.of_eq rfl)
  | mint dst n =>
    simp only [exec, mint, bind_ok_iff, require_ok, exists_const, u128_ok] at h
    obtain ⟨_, hm, sup, ⟨_, rfl⟩, hc, h⟩ := h
    rw [(addBal_ok h).2]
    exact Past.trans (Past.of_eq rfl) (setBal_past _ _ _ _)
  | increase sp n exp =>
    simp only [exec, increase, bind_ok_iff, require_ok, exists_const, u128_ok, Except.ok.injEq] at h
    obtain ⟨_, v, ⟨_, rfl⟩, rfl⟩ := h
    exact Past.of_eq rfl
  | decrease sp n exp =>
    simp only [exec, decrease, bind_ok_iff, require_ok, exists_const, orErr_ok, Except.ok.injEq] at h
    obtain ⟨_, v, _, rfl⟩ := h
    exact Past.of_eq rfl
  | transferFrom ow dst n =>
    simp only [exec, transferFrom, bind_ok_iff] at h
    obtain ⟨s0, h0, s1, h1, h2⟩ := h
    obtain ⟨k, x, _, _, _, rfl⟩ := deduct_ok h0
    exact (Past.of_eq (s := s) (s' := setAllow s ow me (some (k - n, x))) rfl).trans (two h1 h2)
  | sendFrom ow dst n =>
    simp only [exec, transferFrom, bind_ok_iff] at h
    obtain ⟨s0, h0, s1, h1, h2⟩ := h
    obtain ⟨k, x, _, _, _, rfl⟩ := deduct_ok h0
    exact (Past.of_eq (s := s) (s' := setAllow s ow me (some (k - n, x))) rfl).trans (two h1 h2)
  | burnFrom ow n =>
    simp only [exec, burnFrom, bind_ok_iff, require_ok, exists_const, csub_ok, Except.ok.injEq] at h
    obtain ⟨hm, s0, h0, s1, h1, sup, ⟨h2, rfl⟩, rfl⟩ := h
    obtain ⟨k, x, _, _, _, rfl⟩ := deduct_ok h0
    rw [(subBal_ok h1).2]
    exact (Past.of_eq (s := s) (s' := setAllow s ow me (some (k - n, x))) rfl).trans ((setBal_past _ _ _ _).trans (Past.of_eq rfl))

omit [Fintype A] in
theorem createAccounts_past {accounts : List (A × Nat)} {h : Nat} {s s' : State A}
    (hx : createAccounts s h accounts = .ok s') : Past s s' h := by
  induction accounts generalizing s with
  | nil =>
    simp only [createAccounts, Except.ok.injEq] at hx
    subst hx
    exact Past.of_eq rfl
  | cons x rest ih =>
    obtain ⟨a, n⟩ := x
    simp only [createAccounts, bind_ok_iff, u128_ok] at hx
    obtain ⟨sup, ⟨_, rfl⟩, hx⟩ := hx
    exact ((setBal_past s a n h).trans (Past.of_eq rfl)).trans
      (ih (s := { setBal s a n h with supply := s.supply + n }) hx)

/-- Specification: the state at the beginning of block `b`, for a token instantiated at height `h` with result `s`:
nothing before instantiation, then everything done in earlier blocks. -/
def atStart (h : Nat) (s : State A) (ts : List (Tx A)) (b : Nat) : Option (State A) :=
  if b ≤ h then none else some (run s (ts.takeWhile fun t => decide (t.env.height < b)))

/-- Heights never decrease, starting with the instantiation. -/
def Timely (h : Nat) (ts : List (Tx A)) : Prop := Mono (fun t => t.env.height) h ts

instance (h : Nat) (ts : List (Tx A)) : Decidable (Timely h ts) := inferInstanceAs (Decidable (Mono _ _ _))

omit [Fintype A] in
/-- **C60.**  `BalanceAt` a block is the balance at the beginning of that block, for every account, every history and
every block. -/
theorem C60_balance_at_start_of_block (h : Nat) (accounts : List (A × Nat)) (m : Option (A × Option Nat))
    (s : State A) (hx : instantiate h accounts m = .ok s) (ts : List (Tx A)) (hm : Timely h ts) (a : A) (b : Nat) :
    balanceAt (run s ts) a b = ((atStart h s ts b).map (bal · a)).getD 0 := by
  obtain ⟨s1, h1, _, e2, _⟩ := instantiate_ok hx
  obtain ⟨p1, p2⟩ := createAccounts_past h1 a 0 (Nat.zero_le _) (by intro e he; simp [Snap.empty] at he)
  have hu : (s.bals a).UpTo h := by rw [e2]; exact p1
  have hh := history step (fun t => t.env.height) (fun s k => ((s.bals a).at_ k).getD 0) (fun s => bal s a)
    (fun s H => (s.bals a).UpTo H)
    (by
      intro s H t hi hle
      have key : ((step s t).bals a).UpTo t.env.height ∧
          ∀ k, k ≤ t.env.height → ((step s t).bals a).at_ k = (s.bals a).at_ k := by
        unfold step
        cases hx : exec s t.env t.sender t.op with
        | error e => exact ⟨Snap.upTo_mono hi hle, fun _ _ => rfl⟩
        | ok s' => exact exec_past hx a H hle hi
      refine ⟨key.1, fun k hk => by rw [key.2 k hk], fun k hk => ?_⟩
      rw [Snap.at_future key.1 hk]; rfl)
    s h ts hu hm b (fun hb => by rw [Snap.at_future hu hb]; rfl)
  unfold balanceAt run
  rw [hh]
  unfold atStart
  split
  · rename_i hb
    rw [e2, p2 b hb]
    simp [Snap.at_, Snap.empty]
  · simp only [Option.map_some, Option.getD_some]; rfl

/-- The supply's record: ordered, not in the future, and its last entry is the supply. -/
def HistOk (s : State A) (H : Nat) : Prop :=
  KvSorted s.hist ∧ (∀ e ∈ s.hist, e.1 ≤ H) ∧ ∀ b, H ≤ b → totalSupplyAt s b = s.supply

omit [Fintype A] in
theorem exec_hist {s s' : State A} {e : Env} {me : A} {o : Op A} (h : exec s e me o = .ok s') {H : Nat}
    (hi : HistOk s H) (hle : H ≤ e.height) :
    HistOk s' e.height ∧ ∀ b, b < e.height → totalSupplyAt s' b = totalSupplyAt s b := by
  have same : s'.supply = s.supply → s'.hist = s.hist →
      HistOk s' e.height ∧ ∀ b, b < e.height → totalSupplyAt s' b = totalSupplyAt s b := by
    intro h1 h2
    unfold HistOk totalSupplyAt
    rw [h1, h2]
    exact ⟨⟨hi.1, fun x hx => le_trans (hi.2.1 x hx) hle, fun b hb => hi.2.2 b (le_trans hle hb)⟩, fun _ _ => rfl⟩
  have ins : s'.hist = kvInsert e.height s'.supply s.hist →
      HistOk s' e.height ∧ ∀ b, b < e.height → totalSupplyAt s' b = totalSupplyAt s b := by
    intro h1
    have hk := kvLast_insert (v := s'.supply) hi.1 (fun x hx => le_trans (hi.2.1 x hx) hle)
    refine ⟨⟨?_, ?_, ?_⟩, ?_⟩
    · rw [h1]; exact kvSorted_insert hi.1
    · intro x hx
      rw [h1] at hx
      rcases mem_kvInsert hx with rfl | hx
      · exact le_refl _
      · exact le_trans (hi.2.1 x hx) hle
    · intro b hb
      unfold totalSupplyAt
      rw [h1, hk b, if_pos hb]; rfl
    · intro b hb
      unfold totalSupplyAt
      rw [h1, hk b, if_neg (by omega)]
  cases exec_eff h with
  | moved src dst n hl hs hh hw => exact same hs hh
  | burned src n hm hl hs hh hw => exact ins hh
  | minted dst n hm hl hs hc hh hw => exact ins hh
  | allowed sp v hs => subst hs; exact same rfl rfl

omit [Fintype A] in
/-- **C60.**  `TotalSupplyAt` a block is the total supply at the *end* of that block, i.e. at the beginning of the next
one, for every history and every block. -/
theorem C60_supply_at_end_of_block (h : Nat) (accounts : List (A × Nat)) (m : Option (A × Option Nat))
    (s : State A) (hx : instantiate h accounts m = .ok s) (ts : List (Tx A)) (hm : Timely h ts) (b : Nat) :
    totalSupplyAt (run s ts) b = ((atStart h s ts (b + 1)).map (·.supply)).getD 0 := by
  obtain ⟨s1, h1, _, _, _, _, e5, _⟩ := instantiate_ok hx
  have hi : HistOk s h ∧ ∀ b, b < h → totalSupplyAt s b = 0 := by
    unfold HistOk totalSupplyAt
    rw [e5]
    split
    · rename_i h0
      simp [KvSorted, kvLast, h0]
    · refine ⟨⟨by simp [KvSorted], by simp, fun b hb => ?_⟩, fun b hb => ?_⟩
      · simp [kvLast, hb]
      · have : ¬ h ≤ b := by omega
        simp [kvLast, this]
  have hh := history step (fun t => t.env.height) (fun s k => if k = 0 then 0 else totalSupplyAt s (k - 1))
    (fun s => s.supply) HistOk
    (by
      intro s H t hi hle
      have key : HistOk (step s t) t.env.height ∧
          ∀ b, b < t.env.height → totalSupplyAt (step s t) b = totalSupplyAt s b := by
        unfold step
        cases hx : exec s t.env t.sender t.op with
        | error e =>
          exact ⟨⟨hi.1, fun x hx => le_trans (hi.2.1 x hx) hle, fun b hb => hi.2.2 b (le_trans hle hb)⟩,
            fun _ _ => rfl⟩
        | ok s' => exact exec_hist hx hi hle
      refine ⟨key.1, fun k hk => ?_, fun k hk => ?_⟩
      · split
        · rfl
        · exact key.2 _ (by omega)
      · rw [if_neg (by omega)]
        exact key.1.2.2 _ (by omega))
    s h ts hi.1 hm (b + 1) (fun hb => by rw [if_neg (by omega)]; exact hi.1.2.2 _ (by omega))
  simp only [Nat.add_eq_zero_iff, one_ne_zero, and_false, if_false, Nat.add_sub_cancel] at hh
  unfold run
  rw [hh]
  unfold atStart
  split
  · rename_i hb
    exact hi.2 b (by omega)
  · rfl

/-- **C60 (partial).**  If no account is listed twice at instantiation, then for every block the balances reported for
the *next* block sum to the total supply reported for the block.  Missing: the same block, see
`C60_same_block_violated`. -/
theorem C60_balances_sum_to_previous_supply_partial (h : Nat) (accounts : List (A × Nat))
    (m : Option (A × Option Nat)) (hn : (accounts.map (·.1)).Nodup) (s : State A)
    (hx : instantiate h accounts m = .ok s) (ts : List (Tx A)) (hm : Timely h ts) (b : Nat) :
    ∑ a, balanceAt (run s ts) a (b + 1) = totalSupplyAt (run s ts) b := by
  rw [C60_supply_at_end_of_block h accounts m s hx ts hm]
  rw [Finset.sum_congr rfl (fun a _ => C60_balance_at_start_of_block h accounts m s hx ts hm a (b + 1))]
  unfold atStart
  split
  · simp
  · simp only [Option.map_some, Option.getD_some]
    exact C59_sum_is_supply_partial h accounts m hn s hx _

/-- **C60 (partial).**  Likewise for the same block, whenever total supply was not changed in it. -/
theorem C60_same_block_partial (h : Nat) (accounts : List (A × Nat))
    (m : Option (A × Option Nat)) (hn : (accounts.map (·.1)).Nodup) (s : State A)
    (hx : instantiate h accounts m = .ok s) (ts : List (Tx A)) (hm : Timely h ts) (b : Nat)
    (hs : totalSupplyAt (run s ts) (b + 1) = totalSupplyAt (run s ts) b) :
    ∑ a, balanceAt (run s ts) a (b + 1) = totalSupplyAt (run s ts) (b + 1) := by
  rw [hs, C60_balances_sum_to_previous_supply_partial h accounts m hn s hx ts hm b]

example : Timely 3 demoTs ∧ okAnd demoInit (fun s => decide (
    totalSupplyAt (run s demoTs) 6 = 190 ∧ ∑ a, balanceAt (run s demoTs) a 7 = 190 ∧
    totalSupplyAt (run s demoTs) 5 = 190 ∧ totalSupplyAt (run s demoTs) 4 = 150)) = true := by decide +kernel

/-- **C60 violated.**  In a block with a mint the reported balances are those before it and the reported total supply
is that after it.  Witness: 40 minted at height 5. -/
theorem C60_same_block_violated :
    Timely 3 demoTs ∧ okAnd demoInit (fun s => decide (
      ∑ a, balanceAt (run s demoTs) a 5 = 150 ∧ totalSupplyAt (run s demoTs) 5 = 190)) = true := by decide +kernel

/-! ## C61 -/

omit [Fintype A] in
/-- **C61.**  Total supply changes only in a transaction of the minter, and the minter (and the cap) never change: in
every history the minter is the one set at instantiation. -/
theorem C61_supply_only_by_minter (h : Nat) (accounts : List (A × Nat)) (m : Option (A × Option Nat)) (s : State A)
    (hx : instantiate h accounts m = .ok s) (ts : List (Tx A)) (t : Tx A)
    (hch : (run s (ts ++ [t])).supply ≠ (run s ts).supply) : ∃ cap, m = some (t.sender, cap) := by
  have hm : (run s ts).mint = m := by
    refine run_inv (P := fun s : State A => s.mint = m) ?_ ts s ?_
    · intro s t s' h1 hx
      exact (exec_mint hx).trans h1
    · obtain ⟨s1, h1, e1, e2, e3, _⟩ := instantiate_ok hx
      exact e3
  have hr : run s (ts ++ [t]) = step (run s ts) t := by
    unfold run
    rw [List.foldl_append]; rfl
  rw [hr] at hch
  unfold step at hch
  cases hx : exec (run s ts) t.env t.sender t.op with
  | error e => rw [hx] at hch; exact absurd rfl hch
  | ok s' =>
    rw [hx, commit'_ok] at hch
    have minter : isMinter (run s ts) t.sender = true → ∃ cap, m = some (t.sender, cap) := by
      intro h
      unfold isMinter at h
      rw [hm] at h
      cases m with
      | none => simp at h
      | some x =>
        obtain ⟨y, cap⟩ := x
        simp only [decide_eq_true_eq] at h
        exact ⟨cap, by rw [h]⟩
    cases exec_eff hx with
    | moved src dst n hl hs hh hw => exact absurd hs hch
    | burned src n hmm hl hs hh hw => exact minter hmm
    | minted dst n hmm hl hs hc hh hw => exact minter hmm
    | allowed sp v hs => subst hs; exact absurd rfl hch

example : okAnd demoInit (fun s => decide ((run s (demoTs.take 0 ++ [⟨⟨5, 50⟩, 9, .mint 3 40⟩])).supply ≠
    (run s (demoTs.take 0)).supply)) = true := by decide +kernel

/-- The amount of an allowance. -/
def allowance (s : State A) (owner sp : A) : Nat := ((s.allow owner sp).map (·.1)).getD 0

omit [Fintype A] in
/-- **C61.**  When an account's balance decreases, either it sent the transaction itself, or it had given the sender an
allowance that is not expired, covers the whole decrease and is reduced by it. -/
theorem C61_decrease_needs_consent (s s' : State A) (e : Env) (me : A) (o : Op A) (hx : exec s e me o = .ok s')
    (a : A) (hd : bal s' a < bal s a) :
    a = me ∨ ∃ k x, s.allow a me = some (k, x) ∧ x.expired e = false ∧
      s'.allow a me = some (k - (bal s a - bal s' a), x) ∧ bal s a - bal s' a ≤ k := by
  cases exec_eff hx with
  | moved src dst n hl hs hh hw =>
    have hb : bal s' a = (if a = src then bal s a - n else bal s a) + (if a = dst then n else 0) := move_apply hl a
    have hn : n ≤ bal s src := move_le hl
    have ha : a = src := by
      by_contra hne
      rw [if_neg hne] at hb
      omega
    subst ha
    have hdst : ¬ a = dst := by
      intro heq
      rw [if_pos rfl, if_pos heq] at hb
      omega
    rw [if_pos rfl, if_neg hdst] at hb
    rcases hw with ⟨h1, _⟩ | ⟨k, x, h1, h2, h3, h4⟩
    · exact .inl h1
    · right
      refine ⟨k, x, h1, h3, ?_, by omega⟩
      rw [h4, show bal s a - bal s' a = n by omega]
      simp [setAllow]
  | burned src n hm hl hs hh hw =>
    have hb : bal s' a = if a = src then bal s a - n else bal s a := debit_apply hl a
    have hn : n ≤ bal s src := debit_le hl
    have ha : a = src := by
      by_contra hne
      rw [if_neg hne] at hb
      omega
    subst ha
    rw [if_pos rfl] at hb
    rcases hw with ⟨h1, _⟩ | ⟨k, x, h1, h2, h3, h4⟩
    · exact .inl h1
    · right
      refine ⟨k, x, h1, h3, ?_, by omega⟩
      rw [h4, show bal s a - bal s' a = n by omega]
      simp [setAllow]
  | minted dst n hm hl hs hc hh hw =>
    have hb : bal s' a = credit (led s) dst n a := by rw [← hl]; rfl
    rw [credit_apply] at hb
    have : led s a = bal s a := rfl
    split at hb <;> omega
  | allowed sp v hs =>
    subst hs
    exact absurd hd (lt_irrefl _)

example : okAnd demoInit (fun s => decide (bal (run s (demoTs.take 4)) 2 < bal (run s (demoTs.take 3)) 2 ∧
    (run s (demoTs.take 3)).allow 2 4 = some (20, .height 8) ∧
    (run s (demoTs.take 4)).allow 2 4 = some (5, .height 8))) = true := by decide +kernel

theorem sum_allow_used {s : State A} {owner me : A} {k n : Nat} {x : Exp} (h1 : s.allow owner me = some (k, x))
    (h2 : n ≤ k) : ∑ sp, allowance (setAllow s owner me (some (k - n, x))) owner sp + n = ∑ sp, allowance s owner sp := by
  have hd : debit (fun sp => allowance s owner sp) me n =
      .ok (fun sp => allowance (setAllow s owner me (some (k - n, x))) owner sp) := by
    have hk : allowance s owner me = k := by simp [allowance, h1]
    refine debit_ok.2 ⟨by rw [hk]; exact h2, ?_⟩
    funext sp
    simp only [allowance, setAllow, Function.update_apply, if_true]
    split
    · simp [h1]
    · rfl
  exact sum_debit hd

/-- **C61.**  Over every history in which an account sends nothing itself, it loses at most the sum of the allowances
it had given. -/
theorem C61_loss_bounded_by_allowances (s : State A) (ts : List (Tx A)) (a : A) (hn : ∀ t ∈ ts, t.sender ≠ a) :
    bal s a + ∑ sp, allowance (run s ts) a sp ≤ bal (run s ts) a + ∑ sp, allowance s a sp := by
  induction ts generalizing s with
  | nil => exact le_refl _
  | cons t rest ih =>
    have hrun : run s (t :: rest) = run (step s t) rest := rfl
    rw [hrun]
    have h1 := ih (step s t) (fun t ht => hn t (List.mem_cons_of_mem _ ht))
    have hne := hn t List.mem_cons_self
    suffices h2 : bal s a + ∑ sp, allowance (step s t) a sp ≤ bal (step s t) a + ∑ sp, allowance s a sp by omega
    unfold step
    cases hx : exec s t.env t.sender t.op with
    | error e => exact le_refl _
    | ok s' =>
      simp only [commit'_ok]
      have same : s'.allow a = s.allow a → ∑ sp, allowance s' a sp = ∑ sp, allowance s a sp := by
        intro h
        simp only [allowance, h]
      have other : ∀ {src : A} {v : Option (Nat × Exp)}, s'.allow = (setAllow s src t.sender v).allow → a ≠ src →
          s'.allow a = s.allow a := by
        intro src v h hne
        rw [h]
        simp [setAllow, hne]
      cases exec_eff hx with
      | moved src dst n hl hs hh hw =>
        have hb : bal s' a = (if a = src then bal s a - n else bal s a) + (if a = dst then n else 0) := move_apply hl a
        rcases hw with ⟨h1, h2⟩ | ⟨k, x, h1, h2, h3, h4⟩
        · have hna : ¬ a = src := fun h => hne (h1.symm.trans h.symm)
          rw [if_neg hna] at hb
          rw [same (by rw [h2])]
          omega
        · by_cases ha : a = src
          · subst ha
            have := sum_allow_used h1 h2
            have h5 : ∑ sp, allowance s' a sp =
                ∑ sp, allowance (setAllow s a t.sender (some (k - n, x))) a sp := by
              simp only [allowance, h4]
            rw [if_pos rfl] at hb
            omega
          · rw [same (other h4 ha)]
            rw [if_neg ha] at hb
            omega
      | burned src n hm hl hs hh hw =>
        have hb : bal s' a = if a = src then bal s a - n else bal s a := debit_apply hl a
        rcases hw with ⟨h1, h2⟩ | ⟨k, x, h1, h2, h3, h4⟩
        · have hna : ¬ a = src := fun h => hne (h1.symm.trans h.symm)
          rw [if_neg hna] at hb
          rw [same (by rw [h2])]
          omega
        · by_cases ha : a = src
          · subst ha
            have := sum_allow_used h1 h2
            have h5 : ∑ sp, allowance s' a sp =
                ∑ sp, allowance (setAllow s a t.sender (some (k - n, x))) a sp := by
              simp only [allowance, h4]
            rw [if_pos rfl] at hb
            omega
          · rw [same (other h4 ha)]
            rw [if_neg ha] at hb
            omega
      | minted dst n hm hl hs hc hh hw =>
        have hb : bal s' a = credit (led s) dst n a := by rw [← hl]; rfl
        rw [credit_apply] at hb
        have hle : led s a = bal s a := rfl
        rw [same (by rw [hw])]
        split at hb <;> omega
      | allowed sp v hs =>
        subst hs
        rw [same (by simp [setAllow, (Ne.symm hne)])]
        exact le_refl _

example : okAnd demoInit (fun s => decide ((∀ t ∈ demoTs.drop 3, t.sender ≠ 2) ∧
    bal (run (run s (demoTs.take 3)) (demoTs.drop 3)) 2 = 35 ∧ bal (run s (demoTs.take 3)) 2 = 50)) = true := by
  decide +kernel

omit [Fintype A] in
/-- **C61.**  Without allowances nobody else can touch the tokens: an account that gave none and sends nothing never
loses anything. -/
theorem C61_no_allowance_no_loss [Fintype A] (s : State A) (ts : List (Tx A)) (a : A) (hn : ∀ t ∈ ts, t.sender ≠ a)
    (h0 : ∀ sp, s.allow a sp = none) : bal s a ≤ bal (run s ts) a := by
  have := C61_loss_bounded_by_allowances s ts a hn
  have h1 : ∑ sp, allowance s a sp = 0 := by simp [allowance, h0]
  omega

example : okAnd demoInit (fun s => decide ((∀ t ∈ demoTs.drop 2, t.sender ≠ 3) ∧ ∀ sp, s.allow 3 sp = none)) = true := by
  decide +kernel

/-! ## What each message does to allowances -/

/-- The entry for `owner` and `sp` after a message of `me`: owners raise and lower their own entries, an entry lowered
to nothing is removed; spending lowers the spender's entry and keeps it even when nothing is left. -/
def nextAllow (me : A) (o : Op A) (owner sp : A) (old : Option (Nat × Exp)) : Option (Nat × Exp) :=
  match o with
  | .increase x n exp =>
    if owner = me ∧ sp = x then
      match old with
      | none => some (n, exp.getD .never)
      | some (v, e) => some (v + n, exp.getD e)
    else old
  | .decrease x n exp =>
    if owner = me ∧ sp = x then
      match old with
      | none => none
      | some (v, e) => if v ≤ n then none else some (v - n, exp.getD e)
    else old
  | .transferFrom x _ n | .sendFrom x _ n | .burnFrom x n =>
    if owner = x ∧ sp = me then old.map fun v => (v.1 - n, v.2) else old
  | .transfer _ _ | .send _ _ | .burn _ | .mint _ _ => old

omit [Fintype A] in
theorem setAllow_apply (s : State A) (o x : A) (v : Option (Nat × Exp)) (owner sp : A) :
    (setAllow s o x v).allow owner sp = if owner = o ∧ sp = x then v else s.allow owner sp := by
  unfold setAllow
  by_cases h1 : owner = o
  · subst h1
    by_cases h2 : sp = x
    · subst h2; simp
    · simp [h2]
  · simp [h1]

omit [Fintype A] in
theorem subBal_allow {s s' : State A} {a : A} {n h : Nat} (hx : subBal s a n h = .ok s') : s'.allow = s.allow := by
  unfold subBal at hx
  simp only [bind_ok_iff, Except.ok.injEq] at hx
  obtain ⟨_, _, rfl⟩ := hx
  rfl

omit [Fintype A] in
theorem addBal_allow {s s' : State A} {a : A} {n h : Nat} (hx : addBal s a n h = .ok s') : s'.allow = s.allow := by
  unfold addBal at hx
  simp only [bind_ok_iff, Except.ok.injEq] at hx
  obtain ⟨_, _, rfl⟩ := hx
  rfl

omit [Fintype A] in
/-- **C61, allowances.**  Every message changes every allowance exactly as asked. -/
theorem C61_allowances_change_as_asked (s s' : State A) (e : Env) (me : A) (o : Op A) (hx : exec s e me o = .ok s')
    (owner sp : A) : s'.allow owner sp = nextAllow me o owner sp (s.allow owner sp) := by
  have hT : ∀ {dst n}, transfer s e me dst n = .ok s' → s'.allow = s.allow := by
    intro dst n h
    unfold transfer at h
    simp only [bind_ok_iff, require_ok, exists_const] at h
    obtain ⟨_, s1, h1, h⟩ := h
    rw [addBal_allow h, subBal_allow h1]
  have hD : ∀ {x n s1}, deduct s e x me n = .ok s1 →
      s1.allow owner sp = if owner = x ∧ sp = me then (s.allow owner sp).map fun v => (v.1 - n, v.2) else s.allow owner sp := by
    intro x n s1 h
    unfold deduct at h
    simp only [bind_ok_iff, require_ok, exists_const, orErr_ok, csub_ok, Except.ok.injEq] at h
    obtain ⟨v, hv, _, r, ⟨_, rfl⟩, rfl⟩ := h
    rw [setAllow_apply]
    split
    · rename_i hh
      rw [hh.1, hh.2, hv]; rfl
    · rfl
  have hF : ∀ {x dst n}, transferFrom s e me x dst n = .ok s' →
      s'.allow owner sp = if owner = x ∧ sp = me then (s.allow owner sp).map fun v => (v.1 - n, v.2) else s.allow owner sp := by
    intro x dst n h
    unfold transferFrom at h
    simp only [bind_ok_iff] at h
    obtain ⟨s1, h1, s2, h2, h⟩ := h
    rw [addBal_allow h, subBal_allow h2, hD h1]
  cases o with
  | transfer dst n => exact congrFun (congrFun (hT hx) owner) sp
  | send c n => exact congrFun (congrFun (hT hx) owner) sp
  | burn n =>
    simp only [exec, burn, bind_ok_iff, require_ok, exists_const, Except.ok.injEq] at hx
    obtain ⟨_, _, s1, h1, sup, _, rfl⟩ := hx
    exact congrFun (congrFun (subBal_allow h1) owner) sp
  | mint dst n =>
    simp only [exec, mint, bind_ok_iff, require_ok, exists_const] at hx
    obtain ⟨_, _, sup, _, _, h⟩ := hx
    exact congrFun (congrFun (addBal_allow h) owner) sp
  | increase x n exp =>
    simp only [exec, increase, bind_ok_iff, require_ok, exists_const, u128_ok, Except.ok.injEq] at hx
    obtain ⟨_, v, ⟨_, rfl⟩, rfl⟩ := hx
    rw [setAllow_apply]
    simp only [nextAllow]
    split
    · rename_i hh
      rw [hh.1, hh.2]
      cases s.allow me x with
      | none => simp
      | some v => rfl
    · rfl
  | decrease x n exp =>
    simp only [exec, decrease, bind_ok_iff, require_ok, exists_const, orErr_ok, Except.ok.injEq] at hx
    obtain ⟨_, v, hv, rfl⟩ := hx
    rw [setAllow_apply]
    simp only [nextAllow]
    split
    · rename_i hh
      rw [hh.1, hh.2, hv]
      by_cases hl : n < v.1
      · rw [if_pos hl]; simp [Nat.not_le.2 hl]
      · rw [if_neg hl]; simp [Nat.not_lt.1 hl]
    · rfl
  | transferFrom x dst n => exact hF hx
  | sendFrom x dst n => exact hF hx
  | burnFrom x n =>
    simp only [exec, burnFrom, bind_ok_iff, require_ok, exists_const, Except.ok.injEq] at hx
    obtain ⟨_, s1, h1, s2, h2, sup, _, rfl⟩ := hx
    change s2.allow owner sp = _
    rw [subBal_allow h2, hD h1]
    rfl

example : okAnd demoInit (fun s =>
    okAnd (exec (run s demoTs) ⟨5, 100⟩ 2 (.decrease 4 5 none)) fun s' =>
      decide ((run s demoTs).allow 2 4 = some (5, .height 8) ∧ s'.allow 2 4 = none)) = true := by
  decide +kernel

end Verif.XToken
