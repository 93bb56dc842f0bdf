import Verif.Base.Tracked
import Verif.XYK.Lemmas

/-!
# The recorded reserves of the constant product pair

`AssetBalanceAt` of a pair created with `track_asset_balances`.
-/

namespace Verif.XYK
variable {A : Type} [DecidableEq A]

/-- What a transaction writes to `BALANCES`: deposits (contracts/pair/src/contract.rs:428-437), withdrawals (535-544) and swaps (730-743)
the new reserves computed by them, everything else nothing. -/
def saved : State A → Op A → State A → Res (Option (Bool → Nat))
  | _, .provide .., s' | _, .withdraw .., s' | _, .swap .., s' => .ok (some s'.tracked)
  | _, _, _ => .ok none

/-- A history of a pair recording its reserves, created in block `H` with balances `bal`. -/
def recorded (me : A) (bal : Bool → A → Nat) (H : Nat) (xs : List (Nat × Op A)) : Recorded (State A) :=
  Recorded.run (exec me) saved (Recorded.create (init bal) H) xs

/-- Nothing of a pool asset reaches the pool except as a deposit or as the offer of a swap. -/
def NoDonation (me : A) : Op A → Prop
  | .send _ _ dst _ => dst ≠ me
  | .swap _ _ _ _ _ _ receiver f => receiver ≠ me ∧ f.feeAddr ≠ some me ∧ f.share.map (·.2) ≠ some me
  | _ => True

omit [DecidableEq A] in
theorem saved_cases {s s' : State A} {o : Op A} :
    (saved s o s' = .ok (some s'.tracked) ∧
      ((∃ a b c d e f g, o = .provide a b c d e f g) ∨ (∃ a b c d, o = .withdraw a b c d) ∨
        ∃ a b c d e f g k, o = .swap a b c d e f g k)) ∨
    (saved s o s' = .ok none ∧ ((∃ a b c d, o = .send a b c d) ∨ ∃ a b c, o = .sendLp a b c)) := by
  cases o <;> simp [saved]

theorem sendOpt_other {l l' : A → Nat} {me : A} {dst : Option A} {n : Nat} (hd : dst ≠ some me)
    (h0 : dst = none → n = 0) (h : sendOpt l me dst n = .ok l') : l' me = l me - n := by
  cases dst with
  | none => simp [sendOpt] at h; subst h; rw [h0 rfl]; rfl
  | some d =>
    simp only [sendOpt] at h
    have := move_apply h me
    have hne : me ≠ d := fun h => hd (by rw [h])
    simp [hne] at this
    exact this

/-- Recordings are made with the reserves the pool has then, or with less if a transaction paid the pool itself. -/
theorem saved_le {me : A} {s s' : State A} {o : Op A} {v : Bool → Nat} (h : exec me s o = .ok s')
    (hv : saved s o s' = .ok (some v)) (i : Bool) :
    v i ≤ s'.bal i me ∧ (NoDonation me o → v i = s'.bal i me) := by
  unfold exec at h
  simp only [bind_ok_iff, require_ok, exists_const] at h
  obtain ⟨hsig, h⟩ := h
  cases o with
  | provide now u d0 d1 tol m r =>
    simp only [saved, Except.ok.injEq, Option.some.injEq] at hv
    simp only [bind_ok_iff, Prod.exists, Except.ok.injEq] at h
    obtain ⟨_, _, h, rfl⟩ := h
    have hu : u ≠ me := by simpa [Op.signer] using hsig
    have sp := provide_spec hu h
    subst hv
    have e0 := move_apply sp.hb0 me
    have e1 := move_apply sp.hb1 me
    simp [Ne.symm hu] at e0 e1
    have h0 := sp.htr0
    have h1 := sp.htr1
    cases i <;> exact ⟨by omega, fun _ => by omega⟩
  | withdraw now u n mins =>
    simp only [saved, Except.ok.injEq, Option.some.injEq] at hv
    simp only [bind_ok_iff, Prod.exists, Except.ok.injEq] at h
    obtain ⟨_, _, _, h, rfl⟩ := h
    have hu : u ≠ me := by simpa [Op.signer] using hsig
    have sp := withdraw_spec hu h
    subst hv
    have e0 := move_apply sp.hb0 me
    have e1 := move_apply sp.hb1 me
    simp [Ne.symm hu] at e0 e1
    have h0 := sp.htr0
    have h1 := sp.htr1
    cases i <;> exact ⟨by omega, fun _ => by omega⟩
  | swap now u j n b m r f =>
    simp only [saved, Except.ok.injEq, Option.some.injEq] at hv
    simp only [bind_ok_iff, Prod.exists, Except.ok.injEq] at h
    obtain ⟨_, out, h, rfl⟩ := h
    have hu : u ≠ me := by simpa [Op.signer] using hsig
    have sp := swap_spec hu h
    subst hv
    by_cases hij : i = j
    · subst hij
      have e0 := move_apply sp.hbo me
      simp [Ne.symm hu] at e0
      have h0 := sp.htr0
      exact ⟨by omega, fun _ => by omega⟩
    · have hij' : i = !j := by cases i <;> cases j <;> simp_all
      subst hij'
      have h1 := sp.htr1
      refine ⟨by rw [h1]; exact swap_ask_ge sp, fun hn => ?_⟩
      obtain ⟨hr, hf, hs⟩ := hn
      obtain ⟨l1, l2, m1, m2, m3⟩ := sp.hba
      have e1 := move_apply m1 me
      simp [Ne.symm hr] at e1
      have hsh : f.share.map (·.2) = none → out.feeShare = 0 := by
        intro hnone
        have hsp := sp.hsplit
        unfold splitFees feeShareAmount at hsp
        simp only [Option.map_eq_none_iff] at hnone
        rw [hnone] at hsp
        simp only [ok_bind, Except.ok.injEq, Prod.mk.injEq] at hsp
        exact hsp.1.symm
      have hmk : f.feeAddr = none → out.makerFee = 0 := by
        intro hnone
        have hsp := sp.hsplit
        unfold splitFees at hsp
        rw [hnone] at hsp
        simp only [bind_ok_iff, Except.ok.injEq, Prod.mk.injEq] at hsp
        obtain ⟨_, _, _, h⟩ := hsp
        exact h.symm
      have e2 := sendOpt_other hs hsh m2
      have e3 := sendOpt_other hf hmk m3
      rw [h1, e3, e2, e1]
      omega
  | send k u w n => simp [saved] at hv
  | sendLp u w n => simp [saved] at hv

/-- Transactions that record nothing take nothing from the pool. -/
theorem unsaved_keeps {me : A} {s s' : State A} {o : Op A} (h : exec me s o = .ok s')
    (hv : saved s o s' = .ok none) (i : Bool) :
    s.bal i me ≤ s'.bal i me ∧ (NoDonation me o → s'.bal i me = s.bal i me) := by
  unfold exec at h
  simp only [bind_ok_iff, require_ok, exists_const] at h
  obtain ⟨hsig, h⟩ := h
  cases o with
  | provide now u d0 d1 tol m r => simp [saved] at hv
  | withdraw now u n mins => simp [saved] at hv
  | swap now u j n b m r f => simp [saved] at hv
  | send k u w n =>
    simp only [bind_ok_iff, Except.ok.injEq] at h
    obtain ⟨l, hl, rfl⟩ := h
    have hu : u ≠ me := by simpa [Op.signer] using hsig
    have e := move_apply hl me
    simp only [Ne.symm hu, if_false] at e
    dsimp only
    split
    next hk =>
      subst hk
      refine ⟨by rw [e]; omega, fun hn => ?_⟩
      rw [e, if_neg (Ne.symm hn)]
      rfl
    next => exact ⟨le_refl _, fun _ => rfl⟩
  | sendLp u w n =>
    simp only [bind_ok_iff, Except.ok.injEq] at h
    obtain ⟨l, hl, rfl⟩ := h
    exact ⟨le_refl _, fun _ => rfl⟩

/-- **C122** (holds for every history).  The balance reported for a block is at most what the pool held of the asset
when the block began; nothing is reported for blocks up to the pair's creation. -/
theorem C122_never_overstated (me : A) (bal : Bool → A → Nat) (H : Nat) (xs : List (Nat × Op A))
    (hm : Mono (fun x : Nat × Op A => x.1) H xs) (i : Bool) (h : Nat) :
    (h ≤ H → (recorded me bal H xs).balanceAt i h = none) ∧
    (H < h → ∃ v, (recorded me bal H xs).balanceAt i h = some v ∧
      v ≤ (recorded me bal H (Recorded.before h xs)).st.bal i me) :=
  Recorded.reported (exec me) saved (fun s i => s.bal i me) (· ≤ ·) (fun _ => True)
    (fun _ => True) (fun _ _ _ _ _ _ => trivial)
    (fun _ _ _ _ _ _ he hv i => (saved_le he hv i).1)
    (fun _ _ _ _ _ he hv i _ hn => le_trans hn (unsaved_keeps he hv i).1)
    (init bal) H trivial (fun _ => Nat.zero_le _) xs (fun _ _ => trivial) hm i h

/-- **C122** (partial: the pair starts empty and no pool asset is given to it other than by deposits and swaps).  The
balance reported for a block is exactly what the pool held when the block began, whatever happened in that block and
later.  Missing: histories with donations, see `C122_donation_unreported_violated`. -/
theorem C122_balance_at_partial (me : A) (bal : Bool → A → Nat) (h0 : ∀ i, bal i me = 0) (H : Nat)
    (xs : List (Nat × Op A)) (hd : ∀ x ∈ xs, NoDonation me x.2)
    (hm : Mono (fun x : Nat × Op A => x.1) H xs) (i : Bool) (h : Nat) (hh : H < h) :
    (recorded me bal H xs).balanceAt i h = some ((recorded me bal H (Recorded.before h xs)).st.bal i me) := by
  obtain ⟨v, hv, e⟩ := (Recorded.reported (exec me) saved (fun s i => s.bal i me) (· = ·) (NoDonation me)
    (fun _ => True) (fun _ _ _ _ _ _ => trivial)
    (fun _ _ _ _ _ hg he hv i => (saved_le he hv i).2 hg)
    (fun _ _ _ _ hg he hv i _ hn => hn.trans ((unsaved_keeps he hv i).2 hg).symm)
    (init bal) H trivial (fun i => (h0 i).symm) xs hd hm i h).2 hh
  have e' : v = (recorded me bal H (Recorded.before h xs)).st.bal i me := e
  rw [← e']
  exact hv

/-- Balances of the example: account 1 owns both assets, the pool is account 0. -/
def trackedBal : Bool → Nat → Nat := fun _ a => if a = 1 then 10 ^ 10 else 0

def trackedFees : Fees Nat := { total := 3 * 10 ^ 15, maker := 5 * 10 ^ 17, feeAddr := some 8, share := some (100, 9) }

/-- Deposit in block 5, swap in block 6, withdrawal in block 8. -/
def trackedOps : List (Nat × Op Nat) :=
  [(5, .provide 50 1 1000000 1000000 none none 1), (6, .swap 60 1 false 10000 none (some (5 * 10 ^ 17)) 2 trackedFees),
   (8, .withdraw 80 1 100000 none)]

example : (∀ x ∈ trackedOps, NoDonation 0 x.2) ∧ Mono (fun x : Nat × Op Nat => x.1) 4 trackedOps ∧
    ((recorded 0 trackedBal 4 trackedOps).balanceAt false 4,
      [5, 6, 7, 8, 9].map fun h => ((recorded 0 trackedBal 4 trackedOps).balanceAt false h,
        (recorded 0 trackedBal 4 trackedOps).balanceAt true h)) =
    (none, [(some 0, some 0), (some 1000000, some 1000000), (some 1010000, some 990115), (some 1010000, some 990115),
      (some 909000, some 891104)]) := by
  refine ⟨?_, by decide, by decide +kernel⟩
  intro x hx
  simp only [trackedOps, List.mem_cons, List.not_mem_nil, or_false] at hx
  rcases hx with rfl | rfl | rfl <;> simp [NoDonation, trackedFees]

/-- A transfer to the pool in block 6. -/
def donatedOps : List (Nat × Op Nat) :=
  [(5, .provide 50 1 1000000 1000000 none none 1), (6, .send false 1 0 777)]

/-- A swap whose proceeds go to the pool itself, in block 6. -/
def selfSwapOps : List (Nat × Op Nat) :=
  [(5, .provide 50 1 1000000 1000000 none none 1),
   (6, .swap 60 1 false 10000 none (some (5 * 10 ^ 17)) 0 trackedFees)]

/-- Tokens that reach the pool outside of its operations, or that a swap pays to the pool itself, are missing from the
reported balance. -/
theorem C122_donation_unreported_violated :
    ((recorded 0 trackedBal 4 donatedOps).balanceAt false 7,
      (recorded 0 trackedBal 4 (Recorded.before 7 donatedOps)).st.bal false 0) = (some 1000000, 1000777) ∧
    ((recorded 0 trackedBal 4 selfSwapOps).balanceAt true 7,
      (recorded 0 trackedBal 4 (Recorded.before 7 selfSwapOps)).st.bal true 0) = (some 990115, 999986) := by
  refine ⟨by decide +kernel, by decide +kernel⟩

end Verif.XYK
