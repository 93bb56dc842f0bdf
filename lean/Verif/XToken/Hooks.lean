import Verif.XToken.Props

/-!
# C182: sending xASTRO with a call of the receiver

`Send` and `SendFrom` move the tokens and then call the receiving contract, which may do anything in turn: move tokens on, spend
allowances, send to further contracts, catch their failures, or fail.
-/

namespace Verif.XToken

open Finset

variable {A : Type} [DecidableEq A]

/-- What happens within one transaction, as far as the token is concerned. -/
inductive Act (A : Type) where
  | skip
  | seq (a b : Act A)
  /-- a submessage whose failure is caught (`reply_on_error`) -/
  | attempt (a : Act A)
  /-- a contract refuses -/
  | refuse
  /-- a message to the token that calls nobody -/
  | call (sender : A) (op : Op A)
  | send (sender contract : A) (n : Nat) (hook : Act A)
  | sendFrom (spender owner contract : A) (n : Nat) (hook : Act A)

/-- Who sends messages to the token in it. -/
def Act.signers : Act A → List A
  | .skip => []
  | .seq a b => a.signers ++ b.signers
  | .attempt a => a.signers
  | .refuse => []
  | .call u _ => [u]
  | .send u _ _ h => u :: h.signers
  | .sendFrom u _ _ _ h => u :: h.signers

/-- Messages run depth first, after the message that sends them; a failure that is not caught undoes everything.
contracts/tokenomics/xastro_token/src/contract.rs:212-259 for `call`; 389-433 `execute_send`; 533-579 `execute_send_from`: tokens are moved
first, then the receiver is called. -/
def act (s : State A) (e : Env) : Act A → Res (State A)
  | .skip => .ok s
  | .seq a b => do
    let s ← act s e a
    act s e b
  | .attempt a => .ok (commit' s (act s e a))
  | .refuse => .error (.invalid "refused")
  | .call u op => exec s e u op
  | .send u c n h => do
    let s ← transfer s e u c n
    act s e h
  | .sendFrom u o c n h => do
    let s ← transferFrom s e u o c n
    act s e h

/-- A transaction: everything or nothing. -/
def tx (s : State A) (t : Env × Act A) : State A := commit' s (act s t.1 t.2)

/-- A history of transactions. -/
def runTx (s : State A) (l : List (Env × Act A)) : State A := l.foldl tx s

/-! ## A transaction is a sequence of messages -/

/-- The messages that count, in order. -/
def flat (s : State A) (e : Env) : Act A → List (Tx A)
  | .skip => []
  | .seq a b => flat s e a ++ flat (commit' s (act s e a)) e b
  | .attempt a => match act s e a with
    | .ok _ => flat s e a
    | .error _ => []
  | .refuse => []
  | .call u op => [⟨e, u, op⟩]
  | .send u c n h => ⟨e, u, .send c n⟩ :: flat (commit' s (transfer s e u c n)) e h
  | .sendFrom u o c n h => ⟨e, u, .sendFrom o c n⟩ :: flat (commit' s (transferFrom s e u o c n)) e h

theorem flat_mem {e : Env} {t : Tx A} : ∀ {a : Act A} {s : State A}, t ∈ flat s e a → t.env = e ∧ t.sender ∈ a.signers
  | .skip, s, h => by simp [flat] at h
  | .seq a b, s, h => by
    simp only [flat, List.mem_append] at h
    rcases h with h | h
    · have := flat_mem h; exact ⟨this.1, by simp [Act.signers, this.2]⟩
    · have := flat_mem h; exact ⟨this.1, by simp [Act.signers, this.2]⟩
  | .attempt a, s, h => by
    simp only [flat] at h
    split at h
    · have := flat_mem (a := a) h; exact ⟨this.1, by simp only [Act.signers]; exact this.2⟩
    · simp at h
  | .refuse, s, h => by simp [flat] at h
  | .call u op, s, h => by
    simp only [flat, List.mem_singleton] at h
    subst h; simp [Act.signers]
  | .send u c n k, s, h => by
    simp only [flat, List.mem_cons] at h
    rcases h with rfl | h
    · simp [Act.signers]
    · have := flat_mem h; exact ⟨this.1, by simp [Act.signers, this.2]⟩
  | .sendFrom u o c n k, s, h => by
    simp only [flat, List.mem_cons] at h
    rcases h with rfl | h
    · simp [Act.signers]
    · have := flat_mem h; exact ⟨this.1, by simp [Act.signers, this.2]⟩

theorem run_append (s : State A) (l m : List (Tx A)) : run s (l ++ m) = run (run s l) m := List.foldl_append

theorem act_flat {e : Env} : ∀ {a : Act A} {s s' : State A}, act s e a = .ok s' → run s (flat s e a) = s'
  | .skip, s, s', h => by simp only [act, Except.ok.injEq] at h; exact h
  | .seq a b, s, s', h => by
    simp only [act, bind_ok_iff] at h
    obtain ⟨s1, h1, h2⟩ := h
    simp only [flat, run_append, h1, commit'_ok, act_flat h1, act_flat h2]
  | .attempt a, s, s', h => by
    simp only [act, Except.ok.injEq] at h
    simp only [flat]
    cases h1 : act s e a with
    | ok s1 => rw [h1, commit'_ok] at h; subst h; exact act_flat h1
    | error x => rw [h1] at h; exact h
  | .refuse, s, s', h => by simp [act] at h
  | .call u op, s, s', h => by
    simp only [act] at h
    show step s _ = s'
    simp only [step, h, commit'_ok]
  | .send u c n k, s, s', h => by
    simp only [act, bind_ok_iff] at h
    obtain ⟨s1, h1, h2⟩ := h
    show run (step s ⟨e, u, .send c n⟩) _ = s'
    simp only [step, exec, h1, commit'_ok]
    exact act_flat h2
  | .sendFrom u o c n k, s, s', h => by
    simp only [act, bind_ok_iff] at h
    obtain ⟨s1, h1, h2⟩ := h
    show run (step s ⟨e, u, .sendFrom o c n⟩) _ = s'
    simp only [step, exec, h1, commit'_ok]
    exact act_flat h2

/-- The messages of a transaction; none if it fails. -/
def flatTx (s : State A) (t : Env × Act A) : List (Tx A) := flat s t.1 (.attempt t.2)

theorem tx_flat (s : State A) (t : Env × Act A) : run s (flatTx s t) = tx s t :=
  act_flat (a := .attempt t.2) rfl

/-- The messages of a history. -/
def flatAll : State A → List (Env × Act A) → List (Tx A)
  | _, [] => []
  | s, t :: l => flatTx s t ++ flatAll (tx s t) l

theorem run_flatAll : ∀ (l : List (Env × Act A)) (s : State A), run s (flatAll s l) = runTx s l
  | [], _ => rfl
  | t :: l, s => by
    rw [flatAll, run_append, tx_flat, run_flatAll l]; rfl

theorem flatAll_mem {t : Tx A} : ∀ {l : List (Env × Act A)} {s : State A}, t ∈ flatAll s l →
    ∃ x ∈ l, t.env = x.1 ∧ t.sender ∈ x.2.signers
  | [], s, h => by simp [flatAll] at h
  | x :: l, s, h => by
    simp only [flatAll, List.mem_append] at h
    rcases h with h | h
    · exact ⟨x, by simp, flat_mem (a := .attempt x.2) h⟩
    · obtain ⟨y, hy, h⟩ := flatAll_mem h
      exact ⟨y, by simp [hy], h⟩

/-- Heights never decrease. -/
def InOrder (h : Nat) (l : List (Env × Act A)) : Prop := Mono (fun t => t.1.height) h l

instance (h : Nat) (l : List (Env × Act A)) : Decidable (InOrder h l) := inferInstanceAs (Decidable (Mono _ _ _))

theorem mono_weaken {O : Type} {ht : O → Nat} {H K : Nat} : ∀ {l : List O}, H ≤ K → Mono ht K l → Mono ht H l
  | [], _, _ => trivial
  | _ :: _, h, hm => ⟨le_trans h hm.1, hm.2⟩

theorem mono_append {O : Type} {ht : O → Nat} {K : Nat} : ∀ {l m : List O} {H : Nat}, (∀ x ∈ l, ht x = K) → H ≤ K →
    Mono ht K m → Mono ht H (l ++ m)
  | [], m, H, _, h, hm => mono_weaken h hm
  | x :: l, m, H, hl, h, hm => by
    have hx := hl x (by simp)
    refine ⟨by omega, ?_⟩
    rw [hx]
    exact mono_append (fun y hy => hl y (by simp [hy])) (le_refl _) hm

theorem timely_flatAll : ∀ {l : List (Env × Act A)} {h : Nat} {s : State A}, InOrder h l → Timely h (flatAll s l)
  | [], _, _, _ => trivial
  | t :: l, h, s, hm => by
    refine mono_append (K := t.1.height) (fun x hx => ?_) hm.1 (timely_flatAll (h := t.1.height) hm.2)
    rw [(flat_mem (a := .attempt t.2) hx).1]

theorem takeWhile_late {O : Type} {ht : O → Nat} {b : Nat} : ∀ {l : List O} {H : Nat}, b ≤ H → Mono ht H l →
    l.takeWhile (fun t => decide (ht t < b)) = []
  | [], _, _, _ => rfl
  | x :: l, H, h, hm => by
    have := hm.1
    rw [List.takeWhile_cons]
    simp only [decide_eq_true_eq, ite_eq_right_iff]
    omega

theorem takeWhile_flatAll {b : Nat} : ∀ {l : List (Env × Act A)} {h : Nat} {s : State A}, InOrder h l →
    (flatAll s l).takeWhile (fun t => decide (t.env.height < b)) =
      flatAll s (l.takeWhile fun t => decide (t.1.height < b))
  | [], _, _, _ => rfl
  | t :: l, h, s, hm => by
    by_cases hb : t.1.height < b
    · rw [List.takeWhile_cons, if_pos (by simpa using hb), flatAll, flatAll,
        List.takeWhile_append_of_pos (fun x hx => by
          rw [(flat_mem (a := .attempt t.2) hx).1]; simpa using hb), takeWhile_flatAll (h := t.1.height) hm.2]
    · rw [List.takeWhile_cons, if_neg (by simpa using hb)]
      exact takeWhile_late (H := t.1.height) (ht := fun t : Tx A => t.env.height) (by omega)
        (mono_append (K := t.1.height) (fun x hx => by rw [(flat_mem (a := .attempt t.2) hx).1]) (le_refl _)
          (timely_flatAll (h := t.1.height) hm.2))

/-! ## C182 -/

/-- **C182 (books).**  Whatever receiving contracts do, in every history the balances add up to the supply (if no account was
listed twice at the start) and the supply stays within the cap. -/
theorem C182_books [Fintype A] (h : Nat) (accounts : List (A × Nat)) (m : Option (A × Option Nat))
    (s : State A) (hx : instantiate h accounts m = .ok s) (l : List (Env × Act A)) :
    ((accounts.map (·.1)).Nodup → ∑ a, bal (runTx s l) a = (runTx s l).supply) ∧
    (∀ minter cap, m = some (minter, some cap) → (runTx s l).supply ≤ cap) := by
  rw [← run_flatAll]
  exact ⟨fun hn => C59_sum_is_supply_partial h accounts m hn s hx _, (C59_never_exceeds_supply_and_cap h accounts m s hx _).2⟩

/-- **C182 (history).**  `BalanceAt` a block is the balance before the first transaction of that block, and the reported balances
of the next block add up to the supply reported for the block, also if balances changed many times within transactions. -/
theorem C182_balance_at [Fintype A] (h : Nat) (accounts : List (A × Nat)) (m : Option (A × Option Nat))
    (s : State A) (hx : instantiate h accounts m = .ok s) (l : List (Env × Act A)) (hm : InOrder h l) (b : Nat) :
    (∀ a, balanceAt (runTx s l) a b =
      if b ≤ h then 0 else bal (runTx s (l.takeWhile fun t => decide (t.1.height < b))) a) ∧
    ((accounts.map (·.1)).Nodup → ∑ a, balanceAt (runTx s l) a (b + 1) = totalSupplyAt (runTx s l) b) := by
  have ht := timely_flatAll (s := s) hm
  rw [← run_flatAll]
  refine ⟨fun a => ?_, fun hn => C60_balances_sum_to_previous_supply_partial h accounts m hn s hx _ ht b⟩
  rw [C60_balance_at_start_of_block h accounts m s hx _ ht a b, atStart]
  split
  · rfl
  · rw [takeWhile_flatAll hm, run_flatAll]; rfl

/-- **C182 (consent).**  Whoever sends no message to the token, not even as a contract called on the way, loses at most the
allowances they had given; without allowances they lose nothing. -/
theorem C182_consent [Fintype A] (s : State A) (l : List (Env × Act A)) (a : A) (ha : ∀ t ∈ l, a ∉ t.2.signers) :
    bal s a + ∑ sp, allowance (runTx s l) a sp ≤ bal (runTx s l) a + ∑ sp, allowance s a sp ∧
    ((∀ sp, s.allow a sp = none) → bal s a ≤ bal (runTx s l) a) := by
  have hn : ∀ t ∈ flatAll s l, t.sender ≠ a := by
    intro t ht
    obtain ⟨x, hx, _, h2⟩ := flatAll_mem ht
    exact fun h => ha x hx (h ▸ h2)
  rw [← run_flatAll]
  exact ⟨C61_loss_bounded_by_allowances s _ a hn, C61_no_allowance_no_loss s _ a hn⟩

/-- **C182 (supply).**  A transaction in which the minter sends no message to the token leaves the supply as it is. -/
theorem C182_supply (h : Nat) (accounts : List (A × Nat)) (m : Option (A × Option Nat)) (s : State A)
    (hx : instantiate h accounts m = .ok s) (l : List (Env × Act A)) (t : Env × Act A)
    (hm : ∀ minter cap, m = some (minter, cap) → minter ∉ t.2.signers) :
    (runTx s (l ++ [t])).supply = (runTx s l).supply := by
  have e1 : runTx s (l ++ [t]) = run s (flatAll s l ++ flatTx (runTx s l) t) := by
    rw [run_append, run_flatAll, tx_flat]
    simp [runTx]
  rw [e1]
  have key : ∀ us : List (Tx A), (∀ x ∈ us, x.sender ∈ t.2.signers) → ∀ ts, (run s (ts ++ us)).supply = (run s ts).supply := by
    intro us
    induction us with
    | nil => intro _ ts; rw [List.append_nil]
    | cons u us ih =>
      intro hu ts
      have h1 : (run s (ts ++ [u])).supply = (run s ts).supply := by
        by_contra hne
        obtain ⟨cap, hc⟩ := C61_supply_only_by_minter h accounts m s hx ts u hne
        exact hm _ _ hc (hu u (by simp))
      have h2 := ih (fun x hx => hu x (by simp [hx])) (ts ++ [u])
      rw [List.append_assoc] at h2
      exact h2.trans h1
  have e2 := key (flatTx (runTx s l) t) (fun x hx => (flat_mem (a := .attempt t.2) hx).2) (flatAll s l)
  rw [e2, run_flatAll]

/-- **C182 (all or nothing).**  A send takes place only with the receiver's consent: it moves exactly the tokens, then the
receiver acts on that; if it refuses, nothing has happened. -/
theorem C182_all_or_nothing (s : State A) (e : Env) (u c : A) (n : Nat) (hook : Act A) :
    (∀ s', act s e (.send u c n hook) = .ok s' ↔
      ∃ s1, 0 < n ∧ n ≤ bal s u ∧ transfer s e u c n = .ok s1 ∧ act s1 e hook = .ok s') ∧
    ((∀ s1, ∃ x, act s1 e hook = .error x) → tx s (e, .send u c n hook) = s) := by
  refine ⟨fun s' => ?_, fun hf => ?_⟩
  · simp only [act, bind_ok_iff]
    constructor
    · rintro ⟨s1, h1, h2⟩
      have h3 := h1
      simp only [transfer, subBal, bind_ok_iff, require_ok, exists_const, csub_ok] at h3
      obtain ⟨h0, _, ⟨_, ⟨hle, _⟩, _⟩, _⟩ := h3
      exact ⟨s1, by omega, hle, h1, h2⟩
    · rintro ⟨s1, _, _, h1, h2⟩
      exact ⟨s1, h1, h2⟩
  · unfold tx
    simp only [act]
    cases h1 : transfer s e u c n with
    | error x => rfl
    | ok s1 =>
      obtain ⟨x, h2⟩ := hf s1
      simp only [ok_bind, h2]; rfl

/-- **C182 (the tokens are there).**  The receiver has the tokens when it is called: it can pass on all of them at once,
to anybody whose balance does not overflow by it, and then exactly sender and final recipient have changed. -/
theorem C182_pass_on (s : State A) (e : Env) (u c d : A) (n : Nat) (hn : 0 < n) (hu : n ≤ bal s u)
    (huc : u ≠ c) (hcd : c ≠ d) (hc : bal s c + n < U128) (hd : bal s d + n < U128) :
    ∃ s', act s e (.send u c n (.call c (.transfer d n))) = .ok s' ∧ s'.supply = s.supply ∧
      bal s' c = bal s c ∧ (u ≠ d → bal s' u + n = bal s u ∧ bal s' d = bal s d + n) ∧ (u = d → bal s' u = bal s u) ∧
      ∀ v, v ≠ u → v ≠ c → v ≠ d → bal s' v = bal s v := by
  have hb : ∀ (s : State A) (a b : A) (k h : Nat), bal (setBal s a k h) b = if b = a then k else bal s b := by
    intro s a b k h
    by_cases hab : b = a
    · subst hab; simp [bal, setBal, Snap.save]
    · simp [bal, setBal, hab]
  have htr : ∀ (s : State A) (a b : A), n ≤ bal s a → a ≠ b → bal s b + n < U128 →
      transfer s e a b n = .ok (setBal (setBal s a (bal s a - n) e.height) b (bal s b + n) e.height) := by
    intro s a b h1 h2 h3
    have e1 : require (n ≠ 0) (.invalid "InvalidZeroAmount") = .ok () := (require_ok _ _ _).2 (by omega)
    have e2 : csub (bal s a) n = .ok (bal s a - n) := by simp only [csub_ok]; exact ⟨h1, trivial⟩
    have e3 : u128 (bal (setBal s a (bal s a - n) e.height) b + n) = .ok (bal s b + n) := by
      rw [hb, if_neg (Ne.symm h2), u128_ok]; exact ⟨h3, rfl⟩
    simp only [transfer, subBal, addBal, e1, e2, e3, ok_bind]
  have h1 := htr s u c hu huc hc
  generalize hs1 : setBal (setBal s u (bal s u - n) e.height) c (bal s c + n) e.height = s1 at h1
  have b1 : ∀ v, bal s1 v = if v = c then bal s c + n else if v = u then bal s u - n else bal s v := by
    intro v; rw [← hs1, hb, hb]
  have hsup1 : s1.supply = s.supply := by rw [← hs1]; rfl
  have hdd : bal s1 d + n < U128 := by
    rw [b1, if_neg (Ne.symm hcd)]; split
    · rename_i h; subst h; omega
    · exact hd
  have h2 := htr s1 c d (by rw [b1, if_pos rfl]; omega) hcd hdd
  generalize hs2 : setBal (setBal s1 c (bal s1 c - n) e.height) d (bal s1 d + n) e.height = s2 at h2
  have b2 : ∀ v, bal s2 v = if v = d then bal s1 d + n else if v = c then bal s1 c - n else bal s1 v := by
    intro v; rw [← hs2, hb, hb]
  refine ⟨s2, ?_, ?_, ?_, ?_, ?_, ?_⟩
  · simp only [act, h1, ok_bind, exec, h2]
  · rw [← hs2, ← hsup1]; rfl
  · rw [b2, if_neg hcd, if_pos rfl, b1, if_pos rfl]; omega
  · intro hud
    refine ⟨?_, ?_⟩
    · rw [b2, if_neg hud, if_neg huc, b1, if_neg huc, if_pos rfl]; omega
    · rw [b2, if_pos rfl, b1, if_neg (Ne.symm hcd), if_neg (Ne.symm hud)]
  · rintro rfl
    rw [b2, if_pos rfl, b1, if_neg huc, if_pos rfl]; omega
  · intro v h3 h4 h5
    rw [b2, if_neg h5, if_neg h4, b1, if_neg h4, if_neg h3]

/-! ## Concrete cases -/

/-- Account 1 sends 60 to contract 5, which passes 10 on to 6 by a send that is refused and caught, gives 20 back, gives 2 an
allowance of 15, and 2 uses 5 of it by a send to 7. -/
def demoHook : Act (Fin 10) :=
  .send 1 5 60 (.seq (.attempt (.send 5 6 10 .refuse)) (.seq (.call 5 (.transfer 1 20))
    (.seq (.call 5 (.increase 2 15 none)) (.sendFrom 2 5 7 5 .skip))))

example : okAnd demoInit (fun s => decide (
    InOrder 3 [((⟨4, 40⟩ : Env), demoHook), (⟨6, 60⟩, .send 1 5 30 .refuse)] ∧
    [1, 5, 6, 7].map (bal (runTx s [(⟨4, 40⟩, demoHook), (⟨6, 60⟩, .send 1 5 30 .refuse)])) = [60, 35, 0, 5] ∧
    balanceAt (runTx s [(⟨4, 40⟩, demoHook)]) 1 4 = 100 ∧ balanceAt (runTx s [(⟨4, 40⟩, demoHook)]) 1 5 = 60 ∧
    3 ∉ demoHook.signers ∧ 9 ∉ demoHook.signers)) = true := by decide +kernel

/-- A receiver that passes everything on. -/
example : okAnd demoInit (fun s => decide (60 ≤ bal s 1 ∧ bal s 5 + 60 < U128 ∧ bal s 7 + 60 < U128 ∧
    [1, 5, 7].map (bal (runTx s [(⟨4, 40⟩, .send 1 5 60 (.call 5 (.transfer 7 60)))])) = [40, 0, 60])) = true := by decide +kernel

end Verif.XToken
