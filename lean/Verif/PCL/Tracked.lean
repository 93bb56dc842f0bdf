import Verif.Base.Tracked
import Verif.PCL.Params
import Verif.XYK.Tracked

/-!
# The recorded reserves of the concentrated liquidity pair

`AssetBalanceAt` of a pair created with `track_asset_balances`.
-/

namespace Verif.PCL
open Verif.XYK (sendOpt sendOpt_self sendOpt_other)
open Verif.Stable (toU128 toU128_ok withPrec_ok scale_cancel dadd_ok dadd)
variable {A : Type} [DecidableEq A]

/-- What a transaction writes to `BALANCES`: a deposit the reserves plus the deposit (contracts/pair_concentrated/src/contract.rs:520-532), a
withdrawal the reserves less the refund (625-637), a swap the offered reserve plus the offer and the other one less
what is paid out (793-808), everything else nothing. -/
def saved (su : Setup) (me : A) (s : State A) (e : Event A) (_ : State A) : Res (Option (Bool → Nat)) :=
  match e.op with
  | .provide _ d _ _ _ => do
    let xs ← decPools su (fun i => s.bal i me)
    let dd ← decPools su d
    let y0 ← dadd (xs false) (dd false)
    let t0 ← toU128 y0 (su.prec false)
    let y1 ← dadd (xs true) (dd true)
    let t1 ← toU128 y1 (su.prec true)
    .ok (some fun i => if i then t1 else t0)
  | .withdraw u n mins => do
    let (_, (a0, a1)) ← withdraw su me s e.now u n mins
    let xs ← decPools su (fun i => s.bal i me)
    let p0 ← toU128 (xs false) (su.prec false)
    let t0 ← csub p0 a0
    let p1 ← toU128 (xs true) (su.prec true)
    let t1 ← csub p1 a1
    .ok (some fun i => if i then t1 else t0)
  | .swap u i n b m r f => do
    let (_, out) ← swap su me s e.now u i n b m r f
    let xs ← decPools su (fun i => s.bal i me)
    let off ← Stable.withPrec n (su.prec i)
    let y ← dadd (xs i) off
    let tOff ← toU128 y (su.prec i)
    let p ← toU128 (xs (!i)) (su.prec (!i))
    let tAsk ← csub p (out.ret + (if f.addr.isSome then out.maker else 0) + (if s.share.isSome then out.share else 0))
    .ok (some fun j => if j = i then tOff else tAsk)
  | _ => .ok none

/-- A transaction of the pair. -/
def execE (su : Setup) (me : A) (s : State A) (e : Event A) : Res (State A) := exec su me e.now e.fo s e.op

/-- A history of a pair recording its reserves, created in block `H` in state `s`. -/
def recorded (su : Setup) (me : A) (s : State A) (H : Nat) (xs : List (Nat × Event A)) : Recorded (State A) :=
  Recorded.run (execE su me) (saved su me) (Recorded.create s H) xs

/-- Nothing of a pool asset reaches the pool except as a deposit or as the offer of a swap. -/
def NoDonation (me : A) (e : Event A) : Prop :=
  match e.op with
  | .send _ _ dst _ => dst ≠ me
  | .swap _ _ _ _ _ receiver f => receiver ≠ me ∧ f.addr ≠ some me
  | .enableShare _ _ recipient => recipient ≠ me
  | _ => True

omit [DecidableEq A] in
theorem toU128_decPools {su : Setup} {b x : Bool → Nat} (h : decPools su b = .ok x) {i : Bool} {t : Nat}
    (ht : toU128 (x i) (su.prec i) = .ok t) : t = b i := by
  simp only [decPools, bind_ok_iff, withPrec_ok, Except.ok.injEq] at h
  obtain ⟨_, ⟨_, _, rfl⟩, _, ⟨_, _, rfl⟩, rfl⟩ := h
  rw [toU128_ok] at ht
  cases i <;> simp only [Bool.false_eq_true, if_false, if_true, scale_cancel] at ht <;> omega

theorem add_scale (a b p : Nat) : (a * 10 ^ (18 - p) + b * 10 ^ (18 - p)) / 10 ^ (18 - p) = a + b := by
  rw [← Nat.add_mul, scale_cancel]

/-- The recipient of the shared fee is not the pool. -/
def ShareElsewhere (me : A) (s : State A) : Prop := s.share.map (·.2) ≠ some me

theorem sendOpt_if {l l' : A → Nat} {me : A} {dst : Option A} {n : Nat} (h : sendOpt l me dst n = .ok l') :
    l me - (if dst.isSome then n else 0) ≤ l' me ∧
      (dst ≠ some me → l' me = l me - (if dst.isSome then n else 0)) := by
  cases dst with
  | none => simp [sendOpt] at h; subst h; simp
  | some d =>
    refine ⟨(sendOpt_self h).1, fun hne => ?_⟩
    have := sendOpt_other hne (by simp) h
    simpa using this

/-- Recordings are made with the reserves the pool has then, or with less if a transaction paid the pool itself. -/
theorem saved_le {su : Setup} {me : A} {s s' : State A} {e : Event A} {v : Bool → Nat}
    (h : execE su me s e = .ok s') (hv : saved su me s e s' = .ok (some v)) (i : Bool) :
    v i ≤ s'.bal i me ∧ (ShareElsewhere me s → NoDonation me e → v i = s'.bal i me) := by
  unfold execE exec at h
  simp only [bind_ok_iff, require_ok, exists_const] at h
  obtain ⟨hsig, h⟩ := h
  obtain ⟨now, fo, op⟩ := e
  cases op with
  | provide u d t m r =>
    simp only [bind_ok_iff, Prod.exists, Except.ok.injEq] at h
    obtain ⟨_, _, h, rfl⟩ := h
    have hu : u ≠ me := by simpa [Op.signer] using hsig
    obtain ⟨_, _, _, _, sp⟩ := provide_spec h
    simp only [saved, bind_ok_iff, decPools, withPrec_ok, dadd_ok, toU128_ok, Except.ok.injEq,
      Option.some.injEq] at hv
    obtain ⟨xs, ⟨_, ⟨_, _, rfl⟩, _, ⟨_, _, rfl⟩, rfl⟩, dd, ⟨_, ⟨_, _, rfl⟩, _, ⟨_, _, rfl⟩, rfl⟩, y0, ⟨_, rfl⟩, t0,
      ⟨_, _, rfl⟩, y1, ⟨_, rfl⟩, t1, ⟨_, _, rfl⟩, rfl⟩ := hv
    have e := move_apply (sp.hbal i) me
    simp only [Ne.symm hu, if_false, if_true] at e
    cases i <;> simp only [Bool.false_eq_true, if_false, if_true, add_scale] <;>
      exact ⟨by omega, fun _ _ => by omega⟩
  | withdraw u n mins =>
    simp only [bind_ok_iff, Prod.exists, Except.ok.injEq] at h
    obtain ⟨_, a0, a1, h, rfl⟩ := h
    have hu : u ≠ me := by simpa [Op.signer] using hsig
    simp only [saved, h, ok_bind, bind_ok_iff, csub_ok, Except.ok.injEq, Option.some.injEq] at hv
    obtain ⟨xs, hxs, p0, hp0, t0, ⟨_, rfl⟩, p1, hp1, t1, ⟨_, rfl⟩, rfl⟩ := hv
    obtain ⟨_, _, _, sp⟩ := withdraw_spec h
    have q0 := toU128_decPools hxs hp0
    have q1 := toU128_decPools hxs hp1
    have e0 := move_apply sp.hb0 me
    have e1 := move_apply sp.hb1 me
    simp [Ne.symm hu] at e0 e1
    cases i <;> simp only [Bool.false_eq_true, if_false, if_true] <;> exact ⟨by omega, fun _ _ => by omega⟩
  | swap u j n b m r f =>
    simp only [bind_ok_iff, Prod.exists, Except.ok.injEq] at h
    obtain ⟨_, out, h, rfl⟩ := h
    have hu : u ≠ me := by simpa [Op.signer] using hsig
    simp only [saved, h, ok_bind, bind_ok_iff, csub_ok, Except.ok.injEq, Option.some.injEq] at hv
    obtain ⟨xs, hxs, off, hoff, y, hy, tOff, hto, p, hp, tAsk, ⟨_, rfl⟩, rfl⟩ := hv
    obtain ⟨_, _, _, _, _, _, sp⟩ := swap_spec hu h
    by_cases hij : i = j
    · subst hij
      have e := move_apply sp.hbo me
      simp [Ne.symm hu] at e
      have : tOff = s.bal i me + n := by
        simp only [decPools, bind_ok_iff, withPrec_ok, Except.ok.injEq] at hxs
        obtain ⟨_, ⟨_, _, rfl⟩, _, ⟨_, _, rfl⟩, rfl⟩ := hxs
        rw [withPrec_ok] at hoff
        rw [dadd_ok] at hy
        rw [toU128_ok] at hto
        obtain ⟨_, _, rfl⟩ := hoff
        obtain ⟨_, rfl⟩ := hy
        obtain ⟨_, _, hto⟩ := hto
        rw [← hto]
        cases i
        · exact add_scale _ _ _
        · exact add_scale _ _ _
      simp only [if_true]
      exact ⟨by omega, fun _ _ => by omega⟩
    · have hij' : i = !j := Bool.eq_not_iff.2 hij
      subst hij'
      have hp' := toU128_decPools hxs hp
      obtain ⟨l1, l2, m1, m2, m3⟩ := sp.hba
      have e2 := sendOpt_if m2
      have e3 := sendOpt_if m3
      simp only [Option.isSome_map] at e2
      have e1 := move_apply m1 me
      simp only [if_true] at e1
      have hne : (!j) ≠ j := by cases j <;> simp
      simp only [hne, if_false]
      constructor
      · have : s.bal (!j) me - out.ret ≤ l1 me := by omega
        omega
      · intro hs hn
        have h2 := e2.2 hs
        have h3 := e3.2 hn.2
        rw [if_neg (Ne.symm hn.1)] at e1
        omega
  | update u v => simp [saved] at hv
  | promote u a g t => simp [saved] at hv
  | stop u => simp [saved] at hv
  | enableShare u bps r => simp [saved] at hv
  | disableShare u => simp [saved] at hv
  | send k u w n => simp [saved] at hv
  | sendLp u w n => simp [saved] at hv

/-- Transactions that record nothing take nothing from the pool. -/
theorem unsaved_keeps {su : Setup} {me : A} {s s' : State A} {e : Event A}
    (h : execE su me s e = .ok s') (hv : saved su me s e s' = .ok none) (i : Bool) :
    s.bal i me ≤ s'.bal i me ∧ (NoDonation me e → s'.bal i me = s.bal i me) := by
  unfold execE exec at h
  simp only [bind_ok_iff, require_ok, exists_const] at h
  obtain ⟨hsig, h⟩ := h
  obtain ⟨now, fo, op⟩ := e
  cases op with
  | provide u d t m r => simp [saved, bind_ok_iff] at hv
  | withdraw u n mins => simp [saved, bind_ok_iff] at hv
  | swap u j n b m r f => simp [saved, bind_ok_iff] at hv
  | send k u w n =>
    simp only [bind_ok_iff, Except.ok.injEq] at h
    obtain ⟨l, hl, rfl⟩ := h
    have hu : u ≠ me := by simpa [Op.signer] using hsig
    have e := move_apply hl me
    simp only [Ne.symm hu, if_false] at e
    dsimp only
    split
    next hk =>
      subst hk
      refine ⟨by rw [e]; omega, fun hn => ?_⟩
      rw [e, if_neg (Ne.symm hn)]
      rfl
    next => exact ⟨le_refl _, fun _ => rfl⟩
  | sendLp u w n =>
    simp only [bind_ok_iff, Except.ok.injEq] at h
    obtain ⟨l, hl, rfl⟩ := h
    exact ⟨le_refl _, fun _ => rfl⟩
  | update u v =>
    simp only [bind_ok_iff, authorised, require_ok, exists_const, Except.ok.injEq] at h
    obtain ⟨_, _, _, rfl⟩ := h
    exact ⟨le_refl _, fun _ => rfl⟩
  | promote u a g t =>
    simp only [bind_ok_iff, authorised, require_ok, exists_const, Except.ok.injEq] at h
    obtain ⟨_, _, _, rfl⟩ := h
    exact ⟨le_refl _, fun _ => rfl⟩
  | stop u =>
    simp only [bind_ok_iff, authorised, require_ok, exists_const, Except.ok.injEq] at h
    obtain ⟨_, _, _, rfl⟩ := h
    exact ⟨le_refl _, fun _ => rfl⟩
  | enableShare u bps r =>
    simp only [bind_ok_iff, authorised, require_ok, exists_const, Except.ok.injEq] at h
    obtain ⟨_, _, rfl⟩ := h
    exact ⟨le_refl _, fun _ => rfl⟩
  | disableShare u =>
    simp only [bind_ok_iff, authorised, require_ok, exists_const, Except.ok.injEq] at h
    obtain ⟨_, rfl⟩ := h
    exact ⟨le_refl _, fun _ => rfl⟩

theorem share_elsewhere {su : Setup} {me : A} {s s' : State A} {e : Event A} (hs : ShareElsewhere me s)
    (hn : NoDonation me e) (h : execE su me s e = .ok s') : ShareElsewhere me s' := by
  unfold execE exec at h
  simp only [bind_ok_iff, require_ok, exists_const] at h
  obtain ⟨hsig, h⟩ := h
  obtain ⟨now, fo, op⟩ := e
  unfold ShareElsewhere at hs ⊢
  cases op with
  | provide u d t m r =>
    simp only [bind_ok_iff, Prod.exists, Except.ok.injEq] at h
    obtain ⟨_, _, h, rfl⟩ := h
    obtain ⟨_, _, _, _, sp⟩ := provide_spec h
    rw [sp.hrest.2.2]; exact hs
  | withdraw u n mins =>
    simp only [bind_ok_iff, Prod.exists, Except.ok.injEq] at h
    obtain ⟨_, _, _, h, rfl⟩ := h
    obtain ⟨_, _, _, sp⟩ := withdraw_spec h
    rw [sp.hrest.2.2.1]; exact hs
  | swap u j n b m r f =>
    simp only [bind_ok_iff, Prod.exists, Except.ok.injEq] at h
    obtain ⟨_, _, h, rfl⟩ := h
    obtain ⟨_, _, _, _, _, _, sp⟩ := swap_spec (by simpa [Op.signer] using hsig) h
    rw [sp.hrest.2.2.1]; exact hs
  | send k u w n =>
    simp only [bind_ok_iff, Except.ok.injEq] at h
    obtain ⟨l, hl, rfl⟩ := h
    exact hs
  | sendLp u w n =>
    simp only [bind_ok_iff, Except.ok.injEq] at h
    obtain ⟨l, hl, rfl⟩ := h
    exact hs
  | update u v =>
    simp only [bind_ok_iff, authorised, require_ok, exists_const, Except.ok.injEq] at h
    obtain ⟨_, _, _, rfl⟩ := h
    exact hs
  | promote u a g t =>
    simp only [bind_ok_iff, authorised, require_ok, exists_const, Except.ok.injEq] at h
    obtain ⟨_, _, _, rfl⟩ := h
    exact hs
  | stop u =>
    simp only [bind_ok_iff, authorised, require_ok, exists_const, Except.ok.injEq] at h
    obtain ⟨_, _, _, rfl⟩ := h
    exact hs
  | enableShare u bps r =>
    simp only [bind_ok_iff, authorised, require_ok, exists_const, Except.ok.injEq] at h
    obtain ⟨_, _, rfl⟩ := h
    simpa [NoDonation] using hn
  | disableShare u =>
    simp only [bind_ok_iff, authorised, require_ok, exists_const, Except.ok.injEq] at h
    obtain ⟨_, rfl⟩ := h
    simp

/-- **C122** for the concentrated pair (holds for every history).  The balance reported for a block is at most what the
pool held of the asset when the block began; nothing is reported for blocks up to the pair's creation. -/
theorem C122_pcl_never_overstated (su : Setup) (me : A) (s : State A) (H : Nat) (xs : List (Nat × Event A))
    (hm : Mono (fun x : Nat × Event A => x.1) H xs) (i : Bool) (h : Nat) :
    (h ≤ H → (recorded su me s H xs).balanceAt i h = none) ∧
    (H < h → ∃ v, (recorded su me s H xs).balanceAt i h = some v ∧
      v ≤ (recorded su me s H (Recorded.before h xs)).st.bal i me) :=
  Recorded.reported (execE su me) (saved su me) (fun s i => s.bal i me) (· ≤ ·)
    (fun _ => True) (fun _ => True) (fun _ _ _ _ _ _ => trivial)
    (fun _ _ _ _ _ _ he hv i => (saved_le he hv i).1)
    (fun _ _ _ _ _ he hv i _ hn => le_trans hn (unsaved_keeps he hv i).1)
    s H trivial (fun _ => Nat.zero_le _) xs (fun _ _ => trivial) hm i h

/-- **C122** for the concentrated pair (partial: the pair starts empty and no pool asset is given to it other than by
deposits and swaps).  The balance reported for a block is exactly what the pool held when the block began, whatever
happened in that block and later.  Missing: histories with donations. -/
theorem C122_pcl_balance_at_partial (su : Setup) (me : A) (s : State A) (hs : s.share = none)
    (h0 : ∀ i, s.bal i me = 0) (H : Nat) (xs : List (Nat × Event A)) (hd : ∀ x ∈ xs, NoDonation me x.2)
    (hm : Mono (fun x : Nat × Event A => x.1) H xs) (i : Bool) (h : Nat) (hh : H < h) :
    (recorded su me s H xs).balanceAt i h =
      some ((recorded su me s H (Recorded.before h xs)).st.bal i me) := by
  obtain ⟨v, hv, e⟩ := (Recorded.reported (execE su me) (saved su me)
    (fun s i => s.bal i me) (· = ·) (NoDonation me) (ShareElsewhere me)
    (fun _ _ _ hs hn he => share_elsewhere hs hn he)
    (fun _ _ _ _ hs hg he hv i => (saved_le he hv i).2 hs hg)
    (fun _ _ _ _ hg he hv i _ hn => hn.trans ((unsaved_keeps he hv i).2 hg).symm)
    s H (by simp [ShareElsewhere, hs]) (fun i => (h0 i).symm) xs hd hm i h).2 hh
  have e' : v = (recorded su me s H (Recorded.before h xs)).st.bal i me := e
  rw [← e']
  exact hv

/-- Deposit in block 5, fee sharing in block 6, swap in block 7, withdrawal in block 9. -/
def trackedOps : List (Nat × Event Acct) :=
  [(5, ⟨2000, 1, .provide 2 (fun _ => 10 ^ 12) none none 2⟩), (6, ⟨2006, 1, .enableShare 1 500 1⟩),
   (7, ⟨2012, 1, .swap 3 false (10 ^ 9) none (some (5 * 10 ^ 17)) 3 ⟨5 * 10 ^ 17, some 2⟩⟩),
   (9, ⟨2024, 1, .withdraw 2 (10 ^ 11) none⟩)]

example : (∀ x ∈ trackedOps, NoDonation 0 x.2) ∧ Mono (fun x : Nat × Event Acct => x.1) 4 trackedOps ∧
    ((recorded demoSetup 0 demo0 4 trackedOps).balanceAt false 4,
      [5, 6, 7, 8, 9, 10].map fun h => ((recorded demoSetup 0 demo0 4 trackedOps).balanceAt false h,
        (recorded demoSetup 0 demo0 4 trackedOps).balanceAt true h)) =
    (none, [(some 0, some 0), (some 1000000000000, some 1000000000000), (some 1000000000000, some 1000000000000),
      (some 1001000000000, some 999001251405), (some 1001000000000, some 999001251405),
      (some 900900000002, some 899101126266)]) := by
  refine ⟨?_, by decide, by decide +kernel⟩
  intro x hx
  simp only [trackedOps, List.mem_cons, List.not_mem_nil, or_false] at hx
  rcases hx with rfl | rfl | rfl | rfl <;> unfold NoDonation <;> decide

end Verif.PCL
