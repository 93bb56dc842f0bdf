import Verif.Converter.Model

/-!
# Properties of the ASTRO converter and its pair
-/

namespace Verif.Converter

variable {A D : Type} [DecidableEq A] [DecidableEq D]

/-! ## Lemmas -/

theorem move_trans {l l1 l2 : A → Nat} {a b c : A} {n : Nat} (h1 : move l a b n = .ok l1)
    (h2 : move l1 b c n = .ok l2) : move l a c n = .ok l2 := by
  have hle := move_le h1
  obtain ⟨l3, h3⟩ := move_succeeds (b := c) hle
  rw [h3]
  congr 1
  funext x
  rw [move_apply h3 x, move_apply h2 x, move_apply h1 x]
  by_cases ha : x = a
  · subst ha
    by_cases hb : x = b
    · subst hb; simp
    · simp [hb]
  · by_cases hb : x = b
    · subst hb; simp [ha]
    · simp [ha, hb]

theorem send_ok {s s' : State A D} {i : Info A D} {src dst : A} {n : Nat} (h : send s i src dst n = .ok s') :
    n ≠ 0 ∧ move (s.bal i) src dst n = .ok (s'.bal i) ∧ (∀ j, j ≠ i → s'.bal j = s.bal j) ∧
      s'.burned = s.burned ∧ s'.bridged = s.bridged := by
  unfold send at h
  simp only [bind_ok_iff, require_ok, exists_const, Except.ok.injEq] at h
  obtain ⟨h0, l, h1, rfl⟩ := h
  exact ⟨h0, by simpa using h1, fun j hj => by simp [hj], rfl, rfl⟩

/-- Receiving does not decrease a balance. -/
theorem send_mono {s s' : State A D} {i : Info A D} {src dst me : A} {n : Nat} (h : send s i src dst n = .ok s')
    (hne : src ≠ me) (j : Info A D) : s.bal j me ≤ s'.bal j me := by
  obtain ⟨_, h1, h2, _⟩ := send_ok h
  by_cases hj : j = i
  · subst hj
    rw [move_apply h1 me, if_neg (Ne.symm hne)]
    omega
  · rw [h2 j hj]

theorem sendAll_mono {s s' : State A D} {src dst me : A} {funds : List (D × Nat)}
    (h : sendAll s src dst funds = .ok s') (hne : src ≠ me) :
    (∀ j, s.bal j me ≤ s'.bal j me) ∧ s'.burned = s.burned ∧ s'.bridged = s.bridged := by
  induction funds generalizing s with
  | nil =>
    simp only [sendAll, Except.ok.injEq] at h
    subst h
    exact ⟨fun _ => le_refl _, rfl, rfl⟩
  | cons x rest ih =>
    obtain ⟨d, n⟩ := x
    simp only [sendAll, bind_ok_iff] at h
    obtain ⟨s1, h1, h⟩ := h
    obtain ⟨a1, a2, a3⟩ := ih h
    obtain ⟨_, _, _, b1, b2⟩ := send_ok h1
    exact ⟨fun j => le_trans (send_mono h1 hne j) (a1 j), a2.trans b1, a3.trans b2⟩

omit [DecidableEq A] in
theorem mustPay_ok {d : D} {funds : List (D × Nat)} {n : Nat} (h : mustPay d funds = .ok n) :
    funds = [(d, n)] ∧ n ≠ 0 := by
  unfold mustPay at h
  split at h
  · split at h
    · rename_i d' n' hc
      simp only [Except.ok.injEq] at h
      obtain ⟨h1, h2⟩ := hc
      subst h h1
      exact ⟨rfl, h2⟩
    · simp at h
  · simp at h

theorem sendAll_one {s s' : State A D} {src dst : A} {d : D} {n : Nat} (h : sendAll s src dst [(d, n)] = .ok s') :
    send s (.native d) src dst n = .ok s' := by
  simp only [sendAll, bind_ok_iff, Except.ok.injEq] at h
  obtain ⟨s1, h1, rfl⟩ := h
  exact h1

/-- Specification of a conversion of `n` tokens: they move from the user to the converter, as many new ones move from
the converter to the receiver, and nothing else changes. -/
structure Converted (c : Cfg A D) (me : A) (s s' : State A D) (user receiver : A) (n : Nat) : Prop where
  pos : 0 < n
  old : move (s.bal c.old) user me n = .ok (s'.bal c.old)
  new : move (s.bal (.native c.new)) me receiver n = .ok (s'.bal (.native c.new))
  rest : ∀ i, i ≠ c.old → i ≠ .native c.new → s'.bal i = s.bal i
  burned : s'.burned = s.burned
  bridged : s'.bridged = s.bridged

theorem instantiate_ok {ibc : D → Bool} {old : Info A D} {new : D} {params : Bool} {c : Cfg A D}
    (h : instantiate ibc old new params = .ok c) : c.old = old ∧ c.new = new ∧ c.old ≠ .native c.new := by
  unfold instantiate at h
  cases old with
  | native d =>
    simp only [bind_ok_iff, require_ok, exists_const, Except.ok.injEq] at h
    obtain ⟨h1, _, _, rfl⟩ := h
    exact ⟨rfl, rfl, h1⟩
  | token a =>
    simp only [bind_ok_iff, require_ok, exists_const, Except.ok.injEq] at h
    obtain ⟨h1, _, rfl⟩ := h
    exact ⟨rfl, rfl, h1⟩

theorem two_sends {c : Cfg A D} {me user receiver : A} {s s1 s' : State A D} {n : Nat} (hne : c.old ≠ .native c.new)
    (h1 : send s c.old user me n = .ok s1) (h2 : send s1 (.native c.new) me receiver n = .ok s') :
    Converted c me s s' user receiver n := by
  obtain ⟨a0, a1, a2, a3, a4⟩ := send_ok h1
  obtain ⟨_, b1, b2, b3, b4⟩ := send_ok h2
  refine ⟨Nat.pos_of_ne_zero a0, ?_, ?_, ?_, b3.trans a3, b4.trans a4⟩
  · rw [b2 _ hne]; exact a1
  · rw [← a2 _ (Ne.symm hne)]; exact b1
  · intro i h3 h4
    rw [b2 i h4, a2 i h3]

/-! ## C62 -/

/-- **C62.**  A conversion of native tokens: exactly one coin of the old denom must be attached, and the receiver (the
sender by default) gets exactly as many new tokens. -/
theorem C62_convert_one_to_one (ibc : D → Bool) (old : Info A D) (new : D) (params : Bool) (c : Cfg A D)
    (hc : instantiate ibc old new params = .ok c) (me pair : A) (s s' : State A D) (sender : A)
    (funds : List (D × Nat)) (receiver : Option A)
    (h : exec c me pair s sender (.convert funds receiver) = .ok s') :
    ∃ d n, c.old = .native d ∧ funds = [(d, n)] ∧ Converted c me s s' sender (receiver.getD sender) n := by
  obtain ⟨_, _, hne⟩ := instantiate_ok hc
  simp only [exec, bind_ok_iff] at h
  obtain ⟨s1, h1, h2⟩ := h
  unfold convert at h2
  split at h2
  · rename_i d hd
    rw [bind_ok_iff] at h2
    obtain ⟨n, h3, h4⟩ := h2
    obtain ⟨rfl, _⟩ := mustPay_ok h3
    refine ⟨d, n, hd, rfl, two_sends hne ?_ h4⟩
    rw [hd]
    exact sendAll_one h1
  · simp at h2

/-- **C62.**  A conversion of cw20 tokens: only the old token is accepted, and the receiver (the sender by default)
gets exactly as many new tokens. -/
theorem C62_cw20_one_to_one (ibc : D → Bool) (old : Info A D) (new : D) (params : Bool) (c : Cfg A D)
    (hc : instantiate ibc old new params = .ok c) (me pair : A) (s s' : State A D) (sender token : A) (n : Nat)
    (receiver : Option A) (h : exec c me pair s sender (.cw20Send token n receiver) = .ok s') :
    c.old = .token token ∧ Converted c me s s' sender (receiver.getD sender) n := by
  obtain ⟨_, _, hne⟩ := instantiate_ok hc
  simp only [exec, bind_ok_iff] at h
  obtain ⟨s1, h1, h2⟩ := h
  unfold cw20Receive at h2
  split at h2
  · rename_i a ha
    simp only [bind_ok_iff, require_ok, exists_const] at h2
    obtain ⟨rfl, h3⟩ := h2
    refine ⟨ha, two_sends hne ?_ h3⟩
    rw [ha]
    exact h1
  · simp at h2

/-- **C62.**  Calling the cw20 hook directly, with any content, is refused. -/
theorem C62_forged_refused (c : Cfg A D) (me pair : A) (s : State A D) (sender claimed : A) (n : Nat)
    (receiver : Option A) : ∃ e, exec c me pair s sender (.forged claimed n receiver) = .error e := by
  cases hx : exec c me pair s sender (.forged claimed n receiver) with
  | error e => exact ⟨e, rfl⟩
  | ok s' =>
    simp only [exec, bind_ok_iff, require_ok, exists_const] at hx
    obtain ⟨h1, h2⟩ := hx
    unfold cw20Receive at h2
    split at h2
    · rename_i a ha
      simp only [bind_ok_iff, require_ok, exists_const] at h2
      obtain ⟨h3, _⟩ := h2
      exact absurd (by rw [ha, h3]) h1
    · simp at h2

theorem burn_ok {c : Cfg A D} {me : A} {s s' : State A D} {funds : List (D × Nat)} (h : burn c me s funds = .ok s') :
    funds = [] ∧ s.bal c.old me ≠ 0 ∧ (∃ a, c.old = .token a) ∧
      s' = { s with
             bal := Function.update s.bal c.old (Function.update (s.bal c.old) me 0)
             burned := s.burned + s.bal c.old me } := by
  unfold burn nonpayable at h
  simp only [bind_ok_iff, require_ok, exists_const] at h
  obtain ⟨h0, h⟩ := h
  split at h
  · rename_i a ha
    simp only [bind_ok_iff, require_ok, exists_const, Except.ok.injEq] at h
    obtain ⟨h1, rfl⟩ := h
    rw [ha]
    exact ⟨h0, h1, ⟨a, rfl⟩, rfl⟩
  · simp at h

theorem transferForBurning_ok {c : Cfg A D} {me : A} {s s' : State A D} {funds : List (D × Nat)} {t : Option Nat}
    (h : transferForBurning c me s funds t = .ok s') :
    funds = [] ∧ s.bal c.old me ≠ 0 ∧ (∃ d, c.old = .native d) ∧ 120 ≤ t.getD 300 ∧ t.getD 300 ≤ 600 ∧
      s' = { s with
             bal := Function.update s.bal c.old (Function.update (s.bal c.old) me 0)
             bridged := s.bridged + s.bal c.old me } := by
  unfold transferForBurning nonpayable at h
  simp only [bind_ok_iff, require_ok, exists_const] at h
  obtain ⟨h0, h⟩ := h
  split at h
  · rename_i d hd
    simp only [bind_ok_iff, require_ok, exists_const, Except.ok.injEq] at h
    obtain ⟨⟨h1, h1'⟩, h2, _, rfl⟩ := h
    rw [hd]
    exact ⟨h0, h2, ⟨d, rfl⟩, h1, h1', rfl⟩
  · simp at h

/-- **C62.**  Burning takes all old tokens of the converter and nothing else: no other balance of anybody, and no new
token, changes. -/
theorem C62_burning_takes_only_old (c : Cfg A D) (me pair : A) (s s' : State A D) (sender : A)
    (funds : List (D × Nat)) (t : Option Nat)
    (h : exec c me pair s sender (.burn funds) = .ok s' ∨
      exec c me pair s sender (.transferForBurning funds t) = .ok s') :
    s'.bal c.old me = 0 ∧ s'.burned + s'.bridged = s.burned + s.bridged + s.bal c.old me ∧
      ∀ i a, (i ≠ c.old ∨ a ≠ me) → s'.bal i a = s.bal i a := by
  have key : ∀ {f : State A D}, f.bal = Function.update s.bal c.old (Function.update (s.bal c.old) me 0) →
      f.bal c.old me = 0 ∧ ∀ i a, (i ≠ c.old ∨ a ≠ me) → f.bal i a = s.bal i a := by
    intro f hf
    rw [hf]
    refine ⟨by simp, fun i a h => ?_⟩
    by_cases hi : i = c.old
    · subst hi
      rcases h with h | h
      · exact absurd rfl h
      · simp [h]
    · simp [hi]
  rcases h with h | h
  · simp only [exec, bind_ok_iff] at h
    obtain ⟨s1, h1, h2⟩ := h
    obtain ⟨rfl, _, _, rfl⟩ := burn_ok h2
    simp only [sendAll, Except.ok.injEq] at h1
    subst h1
    exact ⟨(key rfl).1, by simp only; omega, (key rfl).2⟩
  · simp only [exec, bind_ok_iff] at h
    obtain ⟨s1, h1, h2⟩ := h
    obtain ⟨rfl, _, _, _, _, rfl⟩ := transferForBurning_ok h2
    simp only [sendAll, Except.ok.injEq] at h1
    subst h1
    exact ⟨(key rfl).1, by simp only; omega, (key rfl).2⟩

theorem pairNative_converted {c : Cfg A D} {me pair : A} {s s' : State A D} {sender : A} {offer : Info A D} {n : Nat}
    {funds : List (D × Nat)} {dst : Option A} (hne : c.old ≠ .native c.new)
    (h : exec c me pair s sender (.pairNative offer n funds dst) = .ok s') :
    offer = c.old ∧ Converted c me s s' sender (dst.getD sender) n := by
  simp only [exec, bind_ok_iff] at h
  obtain ⟨s1, h1, h2⟩ := h
  cases offer with
  | token a => simp at h2
  | native d =>
    simp only [bind_ok_iff, require_ok, exists_const] at h2
    obtain ⟨m, h3, rfl, h4⟩ := h2
    obtain ⟨rfl, _⟩ := mustPay_ok h3
    unfold pairSwapNative at h4
    simp only [bind_ok_iff, require_ok, exists_const] at h4
    obtain ⟨hd, s2, h5, h6⟩ := h4
    refine ⟨hd, ?_⟩
    unfold convert at h6
    split at h6
    · rename_i d' hd'
      rw [hd'] at hd
      simp only [Info.native.injEq] at hd
      subst hd
      rw [bind_ok_iff] at h6
      obtain ⟨k, h7, h8⟩ := h6
      obtain ⟨hk, _⟩ := mustPay_ok h7
      simp only [List.cons.injEq, Prod.mk.injEq, true_and, and_true] at hk
      subst hk
      simp only [Option.getD_some] at h8
      have e1 := sendAll_one h1
      have e2 := sendAll_one h5
      obtain ⟨a0, a1, a2, a3, a4⟩ := send_ok e1
      obtain ⟨b0, b1, b2, b3, b4⟩ := send_ok e2
      obtain ⟨_, c1, c2, c3, c4⟩ := send_ok h8
      have hne' : c.old ≠ .native c.new := hne
      refine ⟨Nat.pos_of_ne_zero a0, ?_, ?_, ?_, c3.trans (b3.trans a3), c4.trans (b4.trans a4)⟩
      · rw [c2 _ hne', hd']
        exact move_trans a1 b1
      · rw [hd'] at hne
        rw [← a2 _ (Ne.symm hne), ← b2 _ (Ne.symm hne)]
        exact c1
      · intro i h9 h10
        rw [hd'] at h9
        rw [c2 i h10, b2 i h9, a2 i h9]
    · simp at h6

theorem pairCw20_converted {c : Cfg A D} {me pair : A} {s s' : State A D} {sender token : A} {n : Nat}
    {dst : Option A} (hne : c.old ≠ .native c.new)
    (h : exec c me pair s sender (.pairCw20 token n dst) = .ok s') :
    .token token = c.old ∧ Converted c me s s' sender (dst.getD sender) n := by
  simp only [exec, bind_ok_iff] at h
  obtain ⟨s1, h1, h2⟩ := h
  unfold pairSwapCw20 at h2
  simp only [bind_ok_iff, require_ok, exists_const] at h2
  obtain ⟨hd, s2, h3, h4⟩ := h2
  refine ⟨hd, ?_⟩
  unfold cw20Receive at h4
  split at h4
  · rename_i a ha
    simp only [bind_ok_iff, require_ok, exists_const, Option.getD_some] at h4
    obtain ⟨rfl, h5⟩ := h4
    obtain ⟨a0, a1, a2, a3, a4⟩ := send_ok h1
    obtain ⟨b0, b1, b2, b3, b4⟩ := send_ok h3
    obtain ⟨_, c1, c2, c3, c4⟩ := send_ok h5
    rw [hd] at a1 a2 b1 b2
    refine ⟨Nat.pos_of_ne_zero a0, ?_, ?_, ?_, c3.trans (b3.trans a3), c4.trans (b4.trans a4)⟩
    · rw [c2 _ hne]
      exact move_trans a1 b1
    · rw [← a2 _ (Ne.symm hne), ← b2 _ (Ne.symm hne)]
      exact c1
    · intro i h9 h10
      rw [c2 i h10, b2 i h9, a2 i h9]
  · simp at h4

/-- What every transaction does to the converter: it is a conversion, or its new tokens do not decrease. -/
theorem exec_cases {c : Cfg A D} (hne : c.old ≠ .native c.new) {me pair : A} {s s' : State A D} {sender : A}
    {o : Op A D} (hs : sender ≠ me) (h : exec c me pair s sender o = .ok s') :
    (∃ receiver n, Converted c me s s' sender receiver n) ∨
      (s.bal (.native c.new) me ≤ s'.bal (.native c.new) me ∧
        s.bal c.old me + s.burned + s.bridged ≤ s'.bal c.old me + s'.burned + s'.bridged) := by
  cases o with
  | convert funds r =>
    left
    simp only [exec, bind_ok_iff] at h
    obtain ⟨s1, h1, h2⟩ := h
    unfold convert at h2
    split at h2
    · rename_i d hd
      rw [bind_ok_iff] at h2
      obtain ⟨n, h3, h4⟩ := h2
      obtain ⟨rfl, _⟩ := mustPay_ok h3
      refine ⟨_, n, two_sends hne ?_ h4⟩
      rw [hd]
      exact sendAll_one h1
    · simp at h2
  | cw20Send t n r =>
    left
    simp only [exec, bind_ok_iff] at h
    obtain ⟨s1, h1, h2⟩ := h
    unfold cw20Receive at h2
    split at h2
    · rename_i a ha
      simp only [bind_ok_iff, require_ok, exists_const] at h2
      obtain ⟨rfl, h3⟩ := h2
      refine ⟨_, n, two_sends hne ?_ h3⟩
      rw [ha]
      exact h1
    · simp at h2
  | forged claimed n r =>
    obtain ⟨e, he⟩ := C62_forged_refused c me pair s sender claimed n r
    rw [he] at h
    simp at h
  | transferForBurning funds t =>
    right
    obtain ⟨h1, h2, h3⟩ := C62_burning_takes_only_old c me pair s s' sender funds t (.inr h)
    rw [h3 _ me (.inl (Ne.symm hne))]
    omega
  | burn funds =>
    right
    obtain ⟨h1, h2, h3⟩ := C62_burning_takes_only_old c me pair s s' sender funds none (.inl h)
    rw [h3 _ me (.inl (Ne.symm hne))]
    omega
  | pairNative offer n funds dst => exact .inl ⟨_, n, (pairNative_converted hne h).2⟩
  | pairCw20 t n dst => exact .inl ⟨_, n, (pairCw20_converted hne h).2⟩
  | refund n =>
    right
    simp only [exec, bind_ok_iff, csub_ok, Except.ok.injEq] at h
    obtain ⟨r, ⟨h1, rfl⟩, rfl⟩ := h
    simp only [Function.update_self, credit_self]
    rw [Function.update_of_ne (Ne.symm hne)]
    omega
  | transfer i dst n =>
    right
    have h1 := send_mono (me := me) h hs
    obtain ⟨_, _, _, b1, b2⟩ := send_ok h
    exact ⟨h1 _, by have := h1 c.old; omega⟩

/-- **C62.**  New tokens leave the converter in no other way than by conversion: whenever its new tokens decrease, its
old ones increase by exactly as much in the same transaction. -/
theorem C62_new_leaves_only_for_old (ibc : D → Bool) (old : Info A D) (new : D) (params : Bool) (c : Cfg A D)
    (hc : instantiate ibc old new params = .ok c) (me pair : A) (s s' : State A D) (sender : A) (o : Op A D)
    (hs : sender ≠ me) (h : exec c me pair s sender o = .ok s')
    (hd : s'.bal (.native new) me < s.bal (.native new) me) :
    s'.bal old me = s.bal old me + (s.bal (.native new) me - s'.bal (.native new) me) := by
  obtain ⟨rfl, rfl, hne⟩ := instantiate_ok hc
  rcases exec_cases hne hs h with ⟨r, n, hcv⟩ | ⟨h1, _⟩
  · have h1 := move_apply hcv.new me
    have h2 := move_apply hcv.old me
    have h3 := move_le hcv.new
    rw [if_pos rfl] at h1
    rw [if_neg (Ne.symm hs), if_pos rfl] at h2
    split at h1 <;> omega
  · omega

/-- **C62.**  Over every history the converter is never drained: what it holds in new tokens, plus what it holds, has
burned or has bridged in old tokens, never decreases.  So every new token that left was matched by an old one. -/
theorem C62_never_drained (ibc : D → Bool) (old : Info A D) (new : D) (params : Bool) (c : Cfg A D)
    (hc : instantiate ibc old new params = .ok c) (me pair : A) (s : State A D) (ops : List (A × Op A D)) :
    s.bal (.native new) me + s.bal old me + s.burned + s.bridged ≤
      (run c me pair s ops).bal (.native new) me + (run c me pair s ops).bal old me +
        (run c me pair s ops).burned + (run c me pair s ops).bridged := by
  obtain ⟨rfl, rfl, hne⟩ := instantiate_ok hc
  induction ops generalizing s with
  | nil => exact le_refl _
  | cons x rest ih =>
    obtain ⟨a, o⟩ := x
    unfold run
    refine le_trans ?_ (ih _)
    split
    · exact le_refl _
    · rename_i ha
      cases hx : exec c me pair s a o with
      | error e => exact le_refl _
      | ok s' =>
        simp only [commit'_ok]
        have hs : a ≠ me := fun h => ha (.inl h)
        rcases exec_cases hne hs hx with ⟨r, n, hcv⟩ | ⟨h1, h2⟩
        · have h1 := move_apply hcv.new me
          have h2 := move_apply hcv.old me
          have h3 := move_le hcv.new
          have h4 := hcv.burned
          have h5 := hcv.bridged
          rw [if_pos rfl] at h1
          rw [if_neg (Ne.symm hs), if_pos rfl] at h2
          split at h1 <;> omega
        · omega

/-- **C62.**  As long as the converter holds enough new tokens, everybody can convert any amount they hold. -/
theorem C62_conversion_available (ibc : D → Bool) (old : D) (new : D) (params : Bool) (c : Cfg A D)
    (hc : instantiate ibc (.native old) new params = .ok c) (me pair : A) (s : State A D) (sender : A) (n : Nat)
    (receiver : Option A) (hn : 0 < n) (h1 : n ≤ s.bal (.native old) sender) (h2 : n ≤ s.bal (.native new) me) :
    ∃ s', exec c me pair s sender (.convert [(old, n)] receiver) = .ok s' := by
  obtain ⟨e1, e2, hne⟩ := instantiate_ok hc
  obtain ⟨l1, hl1⟩ := move_succeeds (b := me) h1
  have hn0 : n ≠ 0 := by omega
  have hx : send s (.native old) sender me n =
      .ok { s with bal := Function.update s.bal (.native old) l1 } := by
    unfold send
    rw [(require_ok _ _ ()).2 hn0, ok_bind, hl1]; rfl
  rw [e1, e2] at hne
  obtain ⟨l2, hl2⟩ := move_succeeds (l := s.bal (.native new)) (a := me) (b := receiver.getD sender) h2
  simp only [exec, sendAll]
  rw [hx, ok_bind, ok_bind]
  unfold convert
  rw [e1]
  simp only
  rw [show mustPay old [(old, n)] = .ok n by simp [mustPay, hn0], ok_bind]
  unfold send
  rw [(require_ok _ _ ()).2 hn0, ok_bind, e2]
  simp only
  rw [Function.update_of_ne (Ne.symm hne), hl2]
  exact ⟨_, rfl⟩

/-- Denom 0 is the IBC denom of the old token, denom 1 the new one; the converter is 10, the pair 11. -/
def demoC : Cfg Nat Nat := ⟨.native 0, 1, true⟩

def demoS : State Nat Nat where
  bal := fun i a => if i = .native 1 ∧ a = 10 then 1000 else if i = .native 0 ∧ a < 5 then 100 else 0
  burned := 0
  bridged := 0

example : okAnd (instantiate (fun d => decide (d = 0)) (.native 0) 1 true : Res (Cfg Nat Nat)) (fun c =>
    okAnd (exec c 10 11 demoS 2 (.convert [(0, 60)] (some 3))) (fun s =>
      decide (s.bal (.native 1) 3 = 60 ∧ s.bal (.native 1) 10 = 940 ∧ s.bal (.native 0) 10 = 60 ∧
        s.bal (.native 0) 2 = 40))) = true := by decide +kernel

example : okAnd (instantiate (fun _ => false) (.token 77) 1 false : Res (Cfg Nat Nat)) (fun c =>
    okAnd (exec c 10 11 { demoS with bal := fun i a => if i = .native 1 ∧ a = 10 then 1000 else if a < 5 then 100 else 0 }
      2 (.cw20Send 77 60 none)) (fun s =>
      okAnd (exec c 10 11 s 9 (.burn [])) fun s' =>
        decide (s.bal (.native 1) 2 = 160 ∧ s'.burned = 60 ∧ s'.bal (.token 77) 10 = 0))) = true := by decide +kernel

example : ((run demoC 10 11 demoS [(1, .convert [(0, 30)] none), (2, .pairNative (.native 0) 20 [(0, 20)] none),
    (3, .transferForBurning [] none), (4, .forged 4 500 none), (4, .refund 10)]).bal (.native 1) 10,
    (run demoC 10 11 demoS [(1, .convert [(0, 30)] none), (2, .pairNative (.native 0) 20 [(0, 20)] none),
    (3, .transferForBurning [] none), (4, .forged 4 500 none), (4, .refund 10)]).bridged) = (950, 40) := by
  decide +kernel

/-! ## C97: the pair in front of the converter -/

/-- **C97.**  A swap through the pair is exactly a conversion of the offered amount, paid to the receiver named (the
sender by default): the pair keeps nothing, takes no fee, and accepts nothing but the old token. -/
theorem C97_pair_swap_is_conversion (ibc : D → Bool) (old : Info A D) (new : D) (params : Bool) (c : Cfg A D)
    (hc : instantiate ibc old new params = .ok c) (me pair : A) (s s' : State A D) (sender : A) (offer : Info A D)
    (n : Nat) (funds : List (D × Nat)) (dst : Option A)
    (h : exec c me pair s sender (.pairNative offer n funds dst) = .ok s' ∨
      ∃ t, offer = .token t ∧ exec c me pair s sender (.pairCw20 t n dst) = .ok s') :
    offer = old ∧ Converted c me s s' sender (dst.getD sender) n := by
  obtain ⟨rfl, rfl, hne⟩ := instantiate_ok hc
  rcases h with h | ⟨t, rfl, h⟩
  · exact pairNative_converted hne h
  · exact pairCw20_converted hne h

/-- **C97.**  The pair's quotes are exact: the simulation of an accepted swap reports what the receiver gets, and the
reverse simulation what has to be offered. -/
theorem C97_pair_quotes_exact (ibc : D → Bool) (old : Info A D) (new : D) (params : Bool) (c : Cfg A D)
    (hc : instantiate ibc old new params = .ok c) (me pair : A) (s s' : State A D) (sender : A) (offer : Info A D)
    (n : Nat) (funds : List (D × Nat)) (dst : A) (hd : dst ≠ me)
    (h : exec c me pair s sender (.pairNative offer n funds (some dst)) = .ok s' ∨
      ∃ t, offer = .token t ∧ exec c me pair s sender (.pairCw20 t n (some dst)) = .ok s') :
    simulate c offer n = .ok (s'.bal (.native new) dst - s.bal (.native new) dst) ∧
      reverseSimulate c (.native new) (s'.bal (.native new) dst - s.bal (.native new) dst) = .ok n := by
  obtain ⟨ho, hcv⟩ := C97_pair_swap_is_conversion ibc old new params c hc me pair s s' sender offer n funds (some dst) h
  obtain ⟨rfl, rfl, hne⟩ := instantiate_ok hc
  have h1 := move_apply hcv.new dst
  simp only [Option.getD_some, if_true] at h1
  rw [if_neg hd] at h1
  have h2 : s'.bal (.native c.new) dst - s.bal (.native c.new) dst = n := by omega
  rw [h2]
  unfold simulate reverseSimulate
  rw [(require_ok _ _ ()).2 ho, (require_ok _ _ ()).2 ⟨.inr rfl, Ne.symm hne⟩]
  exact ⟨rfl, rfl⟩

example : okAnd (exec demoC 10 11 demoS 2 (.pairNative (.native 0) 60 [(0, 60)] (some 3))) (fun s =>
    decide (s.bal (.native 1) 3 = 60 ∧ s.bal (.native 0) 11 = 0 ∧ s.bal (.native 0) 10 = 60)) = true := by
  decide +kernel

end Verif.Converter
