import Verif.FeeGranter.Model

/-!
# Properties of the fee granter
-/

namespace Verif.FeeGranter

variable {A : Type} [DecidableEq A]

/-! ## Lemmas -/

theorem run_inv {P : State A → Prop} (me fc : A) {ok : A × Op A → Prop}
    (hstep : ∀ (s : State A) (a : A) (o : Op A) (s' : State A), ok (a, o) → P s → exec me fc s a o = .ok s' → P s')
    (ops : List (A × Op A)) (hok : ∀ x ∈ ops, ok x) : ∀ s, P s → P (run me fc s ops) := by
  induction ops with
  | nil => exact fun _ h => h
  | cons x rest ih =>
    obtain ⟨a, o⟩ := x
    intro s h
    exact ih (fun y hy => hok y (List.mem_cons_of_mem _ hy)) _
      (commit'_inv P h fun s' hx => hstep s a o s' (hok _ List.mem_cons_self) h hx)

theorem addAdmins_ok {cur l new : List A} (h : addAdmins cur l = .ok new) (hn : cur.Nodup) :
    new.Nodup ∧ ∀ a, a ∈ new ↔ a ∈ cur ∨ a ∈ l := by
  induction l generalizing cur with
  | nil =>
    simp only [addAdmins, Except.ok.injEq] at h
    subst h
    simp [hn]
  | cons x rest ih =>
    simp only [addAdmins, bind_ok_iff, require_ok, exists_const] at h
    obtain ⟨a1, a2⟩ := ih h.2 (List.nodup_cons.2 ⟨h.1, hn⟩)
    refine ⟨a1, fun a => ?_⟩
    rw [a2]
    simp only [List.mem_cons]
    tauto

theorem updateAdminsList_ok {cur add rem new : List A} (h : updateAdminsList cur add rem = .ok new)
    (hn : cur.Nodup) : new.Nodup ∧ new.length ≤ 2 ∧ ∀ a, a ∈ new ↔ (a ∈ cur ∨ a ∈ add) ∧ a ∉ rem := by
  simp only [updateAdminsList, bind_ok_iff, require_ok, exists_const, Except.ok.injEq] at h
  obtain ⟨l, h1, h2, rfl⟩ := h
  obtain ⟨a1, a2⟩ := addAdmins_ok h1 hn
  refine ⟨a1.filter _, h2, fun a => ?_⟩
  simp [List.mem_filter, a2]

/-! ## C64: who may do what -/

/-- **C64.**  There are at most two admins in every reachable state, never one twice. -/
theorem C64_at_most_two_admins (me fc owner : A) (admins : List A) (gas : A → Nat) (s₀ : State A)
    (h0 : instantiate owner admins gas = .ok s₀) (ops : List (A × Op A)) :
    (run me fc s₀ ops).admins.length ≤ 2 ∧ (run me fc s₀ ops).admins.Nodup := by
  refine run_inv (P := fun s : State A => s.admins.length ≤ 2 ∧ s.admins.Nodup) me fc (ok := fun _ => True) ?_ ops
    (fun _ _ => trivial) _ ?_
  · intro s a o s' _ hi hx
    cases o with
    | grant f g amount bypass =>
      simp only [exec, grant, bind_ok_iff, require_ok, exists_const, Except.ok.injEq] at hx
      obtain ⟨_, _, _, _, _, _, _, _, rfl⟩ := hx
      exact hi
    | revoke g =>
      simp only [exec, revoke, bind_ok_iff, require_ok, exists_const, Except.ok.injEq] at hx
      obtain ⟨_, _, _, rfl⟩ := hx
      exact hi
    | transferCoins amount receiver =>
      simp only [exec, transferCoins, bind_ok_iff, require_ok, exists_const, Except.ok.injEq] at hx
      obtain ⟨_, _, _, _, rfl⟩ := hx
      exact hi
    | updateAdmins add rem =>
      simp only [exec, updateAdmins, bind_ok_iff, require_ok, exists_const, Except.ok.injEq] at hx
      obtain ⟨_, l, h1, rfl⟩ := hx
      obtain ⟨b1, b2, _⟩ := updateAdminsList_ok h1 hi.2
      exact ⟨b2, b1⟩
    | own now m =>
      simp only [exec, bind_ok_iff, Except.ok.injEq] at hx
      obtain ⟨_, _, rfl⟩ := hx
      exact hi
    | useFee fee =>
      simp only [exec, useFee, bind_ok_iff, require_ok, exists_const, Except.ok.injEq] at hx
      obtain ⟨_, _, _, _, _, _, rfl⟩ := hx
      exact hi
    | send dst amount =>
      simp only [exec, bind_ok_iff, Except.ok.injEq] at hx
      obtain ⟨_, _, rfl⟩ := hx
      exact hi
  · simp only [instantiate, bind_ok_iff, Except.ok.injEq] at h0
    obtain ⟨l, h1, rfl⟩ := h0
    obtain ⟨b1, b2, _⟩ := updateAdminsList_ok h1 List.nodup_nil
    exact ⟨b2, b1⟩

/-- **C64.**  Admins change only in a transaction of the owner, and then exactly as asked: the new admins are the old
ones and the added ones without the removed ones. -/
theorem C64_admins_exact (me fc : A) (s s' : State A) (sender : A) (o : Op A) (hn : s.admins.Nodup)
    (h : exec me fc s sender o = .ok s') :
    s'.admins = s.admins ∨
      ∃ add rem, o = .updateAdmins add rem ∧ sender = s.own.owner ∧
        ∀ a, a ∈ s'.admins ↔ (a ∈ s.admins ∨ a ∈ add) ∧ a ∉ rem := by
  cases o with
  | grant f g amount bypass =>
    simp only [exec, grant, bind_ok_iff, require_ok, exists_const, Except.ok.injEq] at h
    obtain ⟨_, _, _, _, _, _, _, _, rfl⟩ := h
    exact .inl rfl
  | revoke g =>
    simp only [exec, revoke, bind_ok_iff, require_ok, exists_const, Except.ok.injEq] at h
    obtain ⟨_, _, _, rfl⟩ := h
    exact .inl rfl
  | transferCoins amount receiver =>
    simp only [exec, transferCoins, bind_ok_iff, require_ok, exists_const, Except.ok.injEq] at h
    obtain ⟨_, _, _, _, rfl⟩ := h
    exact .inl rfl
  | updateAdmins add rem =>
    simp only [exec, updateAdmins, bind_ok_iff, require_ok, exists_const, Except.ok.injEq] at h
    obtain ⟨h0, l, h1, rfl⟩ := h
    exact .inr ⟨add, rem, rfl, h0, (updateAdminsList_ok h1 hn).2.2⟩
  | own now m =>
    simp only [exec, bind_ok_iff, Except.ok.injEq] at h
    obtain ⟨_, _, rfl⟩ := h
    exact .inl rfl
  | useFee fee =>
    simp only [exec, useFee, bind_ok_iff, require_ok, exists_const, Except.ok.injEq] at h
    obtain ⟨_, _, _, _, _, _, rfl⟩ := h
    exact .inl rfl
  | send dst amount =>
    simp only [exec, bind_ok_iff, Except.ok.injEq] at h
    obtain ⟨_, _, rfl⟩ := h
    exact .inl rfl

/-- **C64.**  A limit on the chain changes only in a transaction of the owner or an admin, or by the grantee paying
fees out of it. -/
theorem C64_limits_only_by_privileged (me fc : A) (s s' : State A) (sender : A) (o : Op A)
    (h : exec me fc s sender o = .ok s') (g : A) (hc : s'.live g ≠ s.live g) :
    (sender = s.own.owner ∨ sender ∈ s.admins) ∨
      sender = g ∧ ∃ fee limit, o = .useFee fee ∧ s.live g = some limit ∧ fee ≤ limit := by
  cases o with
  | grant f g' amount bypass =>
    simp only [exec, grant, bind_ok_iff, require_ok, exists_const, Except.ok.injEq] at h
    obtain ⟨_, _, hp, _⟩ := h
    exact .inl hp
  | revoke g' =>
    simp only [exec, revoke, bind_ok_iff, require_ok, exists_const, Except.ok.injEq] at h
    exact .inl h.1
  | transferCoins amount receiver =>
    simp only [exec, transferCoins, bind_ok_iff, require_ok, exists_const, Except.ok.injEq] at h
    exact .inl h.2.1
  | updateAdmins add rem =>
    simp only [exec, updateAdmins, bind_ok_iff, require_ok, exists_const, Except.ok.injEq] at h
    exact .inl (.inl h.1)
  | own now m =>
    simp only [exec, bind_ok_iff, Except.ok.injEq] at h
    obtain ⟨_, _, rfl⟩ := h
    exact absurd rfl hc
  | useFee fee =>
    simp only [exec, useFee, bind_ok_iff, require_ok, exists_const, Except.ok.injEq, orErr_ok] at h
    obtain ⟨_, limit, hl, hle, _, _, rfl⟩ := h
    by_cases hg : g = sender
    · subst hg
      exact .inr ⟨rfl, fee, limit, rfl, hl, hle⟩
    · exact absurd (Function.update_of_ne hg _ _) hc
  | send dst amount =>
    simp only [exec, bind_ok_iff, Except.ok.injEq] at h
    obtain ⟨_, _, rfl⟩ := h
    exact absurd rfl hc

/-- **C64.**  The contract's coins leave only to a receiver named by the owner or an admin, or as fees of an account
with a live grant, at most its remaining limit; the limit is lowered by the fee.  (The contract itself signs nothing.) -/
theorem C64_coins_leave_only_so (me fc : A) (s s' : State A) (sender : A) (o : Op A) (hs : sender ≠ me)
    (h : exec me fc s sender o = .ok s') (hlt : s'.gas me < s.gas me) :
    ((sender = s.own.owner ∨ sender ∈ s.admins) ∧ ∃ n r, o = .transferCoins n r ∧ s'.gas me = s.gas me - n) ∨
      ∃ fee limit, o = .useFee fee ∧ s.live sender = some limit ∧ fee ≤ limit ∧ s'.gas me = s.gas me - fee ∧
        (s'.live sender).getD 0 = limit - fee := by
  cases o with
  | grant f g' amount bypass =>
    simp only [exec, grant, bind_ok_iff, require_ok, exists_const, Except.ok.injEq] at h
    obtain ⟨gas, hg, _, _, _, _, _, _, rfl⟩ := h
    have := move_apply hg me
    rw [if_neg (Ne.symm hs), if_pos rfl] at this
    simp only at hlt
    omega
  | revoke g' =>
    simp only [exec, revoke, bind_ok_iff, require_ok, exists_const, Except.ok.injEq] at h
    obtain ⟨_, _, _, rfl⟩ := h
    exact absurd hlt (lt_irrefl _)
  | transferCoins amount receiver =>
    simp only [exec, transferCoins, bind_ok_iff, require_ok, exists_const, Except.ok.injEq] at h
    obtain ⟨_, hp, gas, hg, rfl⟩ := h
    refine .inl ⟨hp, amount, receiver, rfl, ?_⟩
    have := move_apply hg me
    have hle := move_le hg
    rw [if_pos rfl] at this
    simp only at hlt ⊢
    rw [this] at hlt ⊢
    by_cases hr : me = receiver.getD sender
    · rw [if_pos hr] at hlt; omega
    · rw [if_neg hr]; omega
  | updateAdmins add rem =>
    simp only [exec, updateAdmins, bind_ok_iff, require_ok, exists_const, Except.ok.injEq] at h
    obtain ⟨_, _, _, rfl⟩ := h
    exact absurd hlt (lt_irrefl _)
  | own now m =>
    simp only [exec, bind_ok_iff, Except.ok.injEq] at h
    obtain ⟨_, _, rfl⟩ := h
    exact absurd hlt (lt_irrefl _)
  | useFee fee =>
    simp only [exec, useFee, bind_ok_iff, require_ok, exists_const, Except.ok.injEq, orErr_ok] at h
    obtain ⟨_, limit, hl, hle, gas, hg, rfl⟩ := h
    refine .inr ⟨fee, limit, rfl, hl, hle, ?_, ?_⟩
    · have := move_apply hg me
      have hle := move_le hg
      rw [if_pos rfl] at this
      simp only at hlt ⊢
      rw [this] at hlt ⊢
      by_cases hr : me = fc
      · rw [if_pos hr] at hlt; omega
      · rw [if_neg hr]; omega
    · simp only [Function.update_self, afterFee]
      split
      · simp; omega
      · rfl
  | send dst amount =>
    simp only [exec, bind_ok_iff, Except.ok.injEq] at h
    obtain ⟨gas, hg, rfl⟩ := h
    have := move_apply hg me
    rw [if_neg (Ne.symm hs)] at this
    simp only at hlt
    omega

/-! ## C64: grants -/

/-- **C64.**  Whoever has a live grant is listed in the contract's records with an amount at least the remaining
limit; so an account has at most the one grant recorded. -/
theorem C64_live_grants_recorded (me fc owner : A) (admins : List A) (gas : A → Nat) (s₀ : State A)
    (h0 : instantiate owner admins gas = .ok s₀) (ops : List (A × Op A)) (g : A) (limit : Nat)
    (hl : (run me fc s₀ ops).live g = some limit) :
    ∃ n, (run me fc s₀ ops).grants g = some n ∧ 0 < limit ∧ limit ≤ n := by
  revert g limit
  refine run_inv (P := fun s : State A => ∀ g limit, s.live g = some limit →
    ∃ n, s.grants g = some n ∧ 0 < limit ∧ limit ≤ n) me fc (ok := fun _ => True) ?_ ops
    (fun _ _ => trivial) _ ?_
  · intro s a o s' _ hi hx g limit hl
    cases o with
    | grant f g' amount bypass =>
      simp only [exec, grant, chainGrant, bind_ok_iff, require_ok, exists_const, Except.ok.injEq] at hx
      obtain ⟨_, _, _, _, _, _, _, ⟨hz, _, _, rfl⟩, rfl⟩ := hx
      simp only [Function.update_apply] at hl ⊢
      by_cases hg : g = g'
      · rw [if_pos hg] at hl ⊢
        simp only [Option.some.injEq] at hl
        exact ⟨amount, rfl, by omega, by omega⟩
      · rw [if_neg hg] at hl ⊢
        exact hi g limit hl
    | revoke g' =>
      simp only [exec, revoke, chainRevoke, bind_ok_iff, require_ok, exists_const, Except.ok.injEq] at hx
      obtain ⟨_, _, ⟨_, rfl⟩, rfl⟩ := hx
      simp only [Function.update_apply] at hl ⊢
      by_cases hg : g = g'
      · rw [if_pos hg] at hl; simp at hl
      · rw [if_neg hg] at hl ⊢
        exact hi g limit hl
    | transferCoins amount receiver =>
      simp only [exec, transferCoins, bind_ok_iff, require_ok, exists_const, Except.ok.injEq] at hx
      obtain ⟨_, _, _, _, rfl⟩ := hx
      exact hi g limit hl
    | updateAdmins add rem =>
      simp only [exec, updateAdmins, bind_ok_iff, require_ok, exists_const, Except.ok.injEq] at hx
      obtain ⟨_, l, h1, rfl⟩ := hx
      exact hi g limit hl
    | own now m =>
      simp only [exec, bind_ok_iff, Except.ok.injEq] at hx
      obtain ⟨_, _, rfl⟩ := hx
      exact hi g limit hl
    | useFee fee =>
      simp only [exec, useFee, bind_ok_iff, require_ok, exists_const, Except.ok.injEq, orErr_ok] at hx
      obtain ⟨_, lim, hlim, hle, _, _, rfl⟩ := hx
      simp only [Function.update_apply] at hl ⊢
      by_cases hg : g = a
      · subst hg
        rw [if_pos rfl] at hl
        unfold afterFee at hl
        split at hl
        · simp at hl
        · simp only [Option.some.injEq] at hl
          obtain ⟨n, h1, h2, h3⟩ := hi g lim hlim
          exact ⟨n, h1, by omega, by omega⟩
      · rw [if_neg hg] at hl
        exact hi g limit hl
    | send dst amount =>
      simp only [exec, bind_ok_iff, Except.ok.injEq] at hx
      obtain ⟨_, _, rfl⟩ := hx
      exact hi g limit hl
  · simp only [instantiate, bind_ok_iff, Except.ok.injEq] at h0
    obtain ⟨l, h1, rfl⟩ := h0
    intro g limit hl
    simp at hl

/-- **C64.**  While an account is recorded, no second grant to it succeeds. -/
theorem C64_one_grant_per_account (me fc : A) (s : State A) (sender : A) (f : Funds) (g : A) (amount n : Nat)
    (bypass : Bool) (hg : s.grants g = some n) : ∃ e, exec me fc s sender (.grant f g amount bypass) = .error e := by
  cases hx : exec me fc s sender (.grant f g amount bypass) with
  | error e => exact ⟨e, rfl⟩
  | ok s' =>
    simp only [exec, grant, bind_ok_iff, require_ok, exists_const, Except.ok.injEq] at hx
    obtain ⟨_, _, _, _, _, h, _⟩ := hx
    rw [hg] at h
    exact absurd h (by simp)

/-- **C64.**  A grant whose amount check is not bypassed is paid for exactly: the sender hands over exactly the amount
granted, in gas coins and nothing else, and the grantee can spend exactly that amount. -/
theorem C64_grant_paid_exactly (me fc : A) (s s' : State A) (sender : A) (f : Funds) (g : A) (amount : Nat)
    (hne : sender ≠ me) (h : exec me fc s sender (.grant f g amount false) = .ok s') :
    s'.gas me = s.gas me + amount ∧ s.gas sender = s'.gas sender + amount ∧ f = ⟨amount, false⟩ ∧
      s.live g = none ∧ s'.live g = some amount ∧ s'.grants g = some amount ∧
      (∀ a, a ≠ g → s'.live a = s.live a ∧ s'.grants a = s.grants a) ∧
      (sender = s.own.owner ∨ sender ∈ s.admins) := by
  simp only [exec, grant, chainGrant, checkAmount, Bool.false_eq_true, if_false, mustPay, bind_ok_iff, require_ok,
    exists_const, Except.ok.injEq] at h
  obtain ⟨gas, hg, hp, hc, hgr, _, ⟨hz, hgm, hl, rfl⟩, rfl⟩ := h
  obtain ⟨sent, ⟨ho, hnz, rfl⟩, hsa⟩ := hc
  have e1 := move_apply hg me
  have e2 := move_apply hg sender
  have hle := move_le hg
  rw [if_neg (Ne.symm hne), if_pos rfl] at e1
  rw [if_pos rfl, if_neg hne] at e2
  simp only
  refine ⟨by omega, by omega, ?_, hl, by simp, by simp, ?_, hp⟩
  · cases f; simp_all
  · intro a ha
    simp [ha]

/-- **C64.**  As long as nobody bypasses the amount check and no coins are transferred out, the contract holds enough
gas coins for all live grants together. -/
theorem C64_grants_backed [Fintype A] (me fc owner : A) (hfc : me ≠ fc) (admins : List A) (gas : A → Nat)
    (s₀ : State A) (h0 : instantiate owner admins gas = .ok s₀) (ops : List (A × Op A))
    (hops : ∀ x ∈ ops, x.1 ≠ me ∧ (∀ f g n, x.2 ≠ .grant f g n true) ∧ ∀ n r, x.2 ≠ .transferCoins n r) :
    ∑ g, ((run me fc s₀ ops).live g).getD 0 ≤ (run me fc s₀ ops).gas me := by
  have upd : ∀ (live : A → Option Nat) (g : A) (v : Option Nat),
      (∑ x, (Function.update live g v x).getD 0) + (live g).getD 0 = (∑ x, (live x).getD 0) + v.getD 0 := by
    intro live g v
    have h1 := Finset.add_sum_erase Finset.univ (fun x => (Function.update live g v x).getD 0) (Finset.mem_univ g)
    have h2 := Finset.add_sum_erase Finset.univ (fun x => (live x).getD 0) (Finset.mem_univ g)
    have h3 : ∑ x ∈ Finset.univ.erase g, (Function.update live g v x).getD 0 =
        ∑ x ∈ Finset.univ.erase g, (live x).getD 0 := by
      apply Finset.sum_congr rfl
      intro x hx
      rw [Function.update_of_ne (Finset.ne_of_mem_erase hx)]
    simp only [Function.update_self] at h1
    omega
  refine run_inv (P := fun s : State A => ∑ g, (s.live g).getD 0 ≤ s.gas me) me fc
    (ok := fun x : A × Op A => x.1 ≠ me ∧ (∀ f g n, x.2 ≠ .grant f g n true) ∧ ∀ n r, x.2 ≠ .transferCoins n r)
    ?_ ops hops _ ?_
  · intro s a o s' hok hi hx
    obtain ⟨ham, hg1, hg2⟩ := hok
    simp only at ham hg1 hg2
    cases o with
    | grant f g amount bypass =>
      cases bypass with
      | true => exact absurd rfl (hg1 f g amount)
      | false =>
        obtain ⟨e1, _, _, e2, e3, _, e4, _⟩ := C64_grant_paid_exactly me fc s s' a f g amount ham hx
        have hu : s'.live = Function.update s.live g (some amount) := by
          funext x
          by_cases hxg : x = g
          · subst hxg; simp [e3]
          · rw [Function.update_of_ne hxg, (e4 x hxg).1]
        have := upd s.live g (some amount)
        rw [← hu, e2] at this
        simp only [Option.getD_none, Option.getD_some] at this
        omega
    | revoke g' =>
      simp only [exec, revoke, chainRevoke, bind_ok_iff, require_ok, exists_const, Except.ok.injEq] at hx
      obtain ⟨_, _, ⟨_, rfl⟩, rfl⟩ := hx
      have := upd s.live g' none
      simp only [Option.getD_none] at this ⊢
      omega
    | transferCoins amount receiver => exact absurd rfl (hg2 amount receiver)
    | updateAdmins add rem =>
      simp only [exec, updateAdmins, bind_ok_iff, require_ok, exists_const, Except.ok.injEq] at hx
      obtain ⟨_, l, h1, rfl⟩ := hx
      exact hi
    | own now m =>
      simp only [exec, bind_ok_iff, Except.ok.injEq] at hx
      obtain ⟨_, _, rfl⟩ := hx
      exact hi
    | useFee fee =>
      simp only [exec, useFee, bind_ok_iff, require_ok, exists_const, Except.ok.injEq, orErr_ok] at hx
      obtain ⟨_, lim, hlim, hle, l, hm, rfl⟩ := hx
      have := upd s.live a (afterFee lim fee)
      have e1 := move_apply hm me
      have hle' := move_le hm
      rw [if_pos rfl, if_neg hfc] at e1
      rw [hlim] at this
      have hf : (afterFee lim fee).getD 0 = lim - fee := by
        unfold afterFee
        split
        · simp; omega
        · rfl
      simp only [Option.getD_some] at this
      simp only
      omega
    | send dst amount =>
      simp only [exec, bind_ok_iff, Except.ok.injEq] at hx
      obtain ⟨l, hm, rfl⟩ := hx
      have e1 := move_apply hm me
      rw [if_neg (Ne.symm ham)] at e1
      simp only
      omega
  · simp only [instantiate, bind_ok_iff, Except.ok.injEq] at h0
    obtain ⟨l, h1, rfl⟩ := h0
    simp

/-! ## C98: ending and renewing grants -/

/-- **C98** (partial).  A live grant can be ended by the owner or any admin, and the account can then be given a new
one.  Missing: grants that have been used up, see `C98_used_up_grant_stuck_violated`. -/
theorem C98_live_grant_renewable_partial (me fc : A) (s : State A) (sender g : A) (limit amount : Nat)
    (hp : sender = s.own.owner ∨ sender ∈ s.admins) (hl : s.live g = some limit) (hgm : g ≠ me) (ha : amount ≠ 0)
    (hb : amount ≤ s.gas sender) :
    ∃ s₁ s₂, exec me fc s sender (.revoke g) = .ok s₁ ∧ s₁.live g = none ∧
      exec me fc s₁ sender (.grant ⟨amount, false⟩ g amount false) = .ok s₂ ∧ s₂.live g = some amount := by
  refine ⟨{ s with grants := Function.update s.grants g none, live := Function.update s.live g none }, ?_⟩
  obtain ⟨gas, hm⟩ := move_succeeds (b := me) hb
  refine ⟨{ s with
            grants := Function.update (Function.update s.grants g none) g (some amount)
            live := Function.update (Function.update s.live g none) g (some amount)
            gas := gas }, ?_, by simp, ?_, by simp⟩
  · have hp' : privileged s sender := hp
    simp only [exec, revoke, chainRevoke, bind_ok_iff, require_ok, exists_const, Except.ok.injEq]
    exact ⟨hp', _, ⟨by rw [hl]; simp, rfl⟩, rfl⟩
  · simp only [exec, grant, chainGrant, checkAmount, mustPay, bind_ok_iff, require_ok, exists_const,
      Except.ok.injEq, Bool.false_eq_true, if_false]
    exact ⟨gas, hm, hp, ⟨amount, ⟨trivial, ha, rfl⟩, rfl⟩, by simp, _, ⟨ha, hgm, by simp, rfl⟩, rfl⟩

/-- An account that is recorded without a live grant. -/
def Stuck (s : State A) (g : A) : Prop := s.live g = none ∧ ∃ n, s.grants g = some n

/-- Once stuck, always stuck, whatever anybody does. -/
theorem stuck_forever (me fc : A) (ops : List (A × Op A)) (s : State A) (g : A) (h : Stuck s g) :
    Stuck (run me fc s ops) g := by
  refine run_inv (P := fun s : State A => Stuck s g) me fc (ok := fun _ => True) ?_ ops (fun _ _ => trivial) s h
  intro s a o s' _ hi hx
  obtain ⟨h1, n, h2⟩ := hi
  cases o with
  | grant f g' amount bypass =>
    by_cases hg : g = g'
    · subst hg
      obtain ⟨e, he⟩ := C64_one_grant_per_account me fc s a f g amount n bypass h2
      rw [he] at hx; simp at hx
    · simp only [exec, grant, chainGrant, bind_ok_iff, require_ok, exists_const, Except.ok.injEq] at hx
      obtain ⟨_, _, _, _, _, _, _, ⟨hz, _, _, rfl⟩, rfl⟩ := hx
      exact ⟨by simp [hg, h1], n, by simp [hg, h2]⟩
  | revoke g' =>
    simp only [exec, revoke, chainRevoke, bind_ok_iff, require_ok, exists_const, Except.ok.injEq] at hx
    obtain ⟨_, _, ⟨hl, rfl⟩, rfl⟩ := hx
    have hg : g ≠ g' := by rintro rfl; exact hl h1
    exact ⟨by simp [hg, h1], n, by simp [hg, h2]⟩
  | transferCoins amount receiver =>
    simp only [exec, transferCoins, bind_ok_iff, require_ok, exists_const, Except.ok.injEq] at hx
    obtain ⟨_, _, _, _, rfl⟩ := hx
    exact ⟨h1, n, h2⟩
  | updateAdmins add rem =>
    simp only [exec, updateAdmins, bind_ok_iff, require_ok, exists_const, Except.ok.injEq] at hx
    obtain ⟨_, l, _, rfl⟩ := hx
    exact ⟨h1, n, h2⟩
  | own now m =>
    simp only [exec, bind_ok_iff, Except.ok.injEq] at hx
    obtain ⟨_, _, rfl⟩ := hx
    exact ⟨h1, n, h2⟩
  | useFee fee =>
    simp only [exec, useFee, bind_ok_iff, require_ok, exists_const, Except.ok.injEq, orErr_ok] at hx
    obtain ⟨_, lim, hlim, hle, _, _, rfl⟩ := hx
    have hg : g ≠ a := by rintro rfl; rw [h1] at hlim; simp at hlim
    exact ⟨by simp [hg, h1], n, h2⟩
  | send dst amount =>
    simp only [exec, bind_ok_iff, Except.ok.injEq] at hx
    obtain ⟨_, _, rfl⟩ := hx
    exact ⟨h1, n, h2⟩

/-- Owner 1, admin 2, fee collector 9; the admin grants 40 to account 5, which spends all of it. -/
def demo0 : State Nat := ⟨⟨1, none⟩, [2], fun _ => none, fun _ => none, fun a => if a = 1 ∨ a = 2 then 100 else 0⟩

def demoOps : List (Nat × Op Nat) := [(2, .grant ⟨40, false⟩ 5 40 false), (5, .useFee 15), (5, .useFee 25)]

example : instantiate 1 [2] demo0.gas = .ok demo0 := rfl

/-- **C98** (violated).  An account that has used up its grant can never be given another one, whatever owner and
admins do: the record of the old one blocks it, and cannot be removed because there is nothing left to revoke on the
chain. -/
theorem C98_used_up_grant_stuck_violated :
    ∃ (s₀ : State Nat) (ops : List (Nat × Op Nat)), instantiate 1 [2] demo0.gas = .ok s₀ ∧
      (run 0 9 s₀ (ops.take 1)).live 5 = some 40 ∧
      ∀ later : List (Nat × Op Nat), (run 0 9 (run 0 9 s₀ ops) later).live 5 = none := by
  refine ⟨demo0, demoOps, rfl, by decide +kernel, fun later => ?_⟩
  refine (stuck_forever 0 9 later (run 0 9 demo0 demoOps) 5 ⟨by decide +kernel, 40, by decide +kernel⟩).1

example : (run 0 9 demo0 (demoOps.take 2)).live 5 = some 25 ∧ (run 0 9 demo0 (demoOps.take 2)).gas 0 = 25 ∧
    (run 0 9 demo0 demoOps).grants 5 = some 40 ∧ (run 0 9 demo0 demoOps).gas 9 = 40 := by decide +kernel

example : okAnd (exec 0 9 demo0 1 (.updateAdmins [3, 4] [2])) (fun s =>
    decide (s.admins = [4, 3])) = true ∧
    (match exec 0 9 demo0 1 (.updateAdmins [3, 4] []) with | .ok _ => false | .error _ => true) = true := by
  decide +kernel

end Verif.FeeGranter
