import Verif.Whitelist.Model

/-!
# Properties of the whitelist
-/

namespace Verif.Whitelist

variable {A M : Type} [DecidableEq A]

/-- **C65.**  Once frozen, the list of admins never changes again and the contract stays frozen. -/
theorem C65_frozen_forever (s : State A M) (hf : s.mutable_ = false) (ops : List (A × Op A M)) :
    (run s ops).admins = s.admins ∧ (run s ops).mutable_ = false := by
  induction ops generalizing s with
  | nil => exact ⟨rfl, hf⟩
  | cons x rest ih =>
    obtain ⟨a, o⟩ := x
    have h : (commit' s (exec s a o)).admins = s.admins ∧ (commit' s (exec s a o)).mutable_ = false := by
      refine commit'_inv (fun s₁ : State A M => s₁.admins = s.admins ∧ s₁.mutable_ = false) ⟨rfl, hf⟩ ?_
      intro s' hx
      cases o with
      | execute msgs =>
        simp only [exec, execute, bind_ok_iff, require_ok, exists_const, Except.ok.injEq] at hx
        obtain ⟨_, rfl⟩ := hx
        exact ⟨rfl, hf⟩
      | freeze =>
        simp only [exec, freeze, bind_ok_iff, require_ok, exists_const] at hx
        exact absurd hx.1.1 (by simp [hf])
      | updateAdmins l =>
        simp only [exec, updateAdmins, bind_ok_iff, require_ok, exists_const] at hx
        exact absurd hx.1.1 (by simp [hf])
    have := ih _ h.2
    exact ⟨this.1.trans h.1, this.2⟩

/-- **C65.**  Exactly the current admins can have messages sent; these are sent in order, and nothing else changes. -/
theorem C65_execute_iff_admin (s : State A M) (sender : A) (msgs : List M) :
    (sender ∈ s.admins ↔ ∃ s', exec s sender (.execute msgs) = .ok s') ∧
      ∀ s', exec s sender (.execute msgs) = .ok s' →
        s'.sent.reverse = s.sent.reverse ++ msgs ∧ s'.admins = s.admins ∧ s'.mutable_ = s.mutable_ := by
  refine ⟨⟨fun h => ?_, ?_⟩, ?_⟩
  · refine ⟨{ s with sent := msgs.reverse ++ s.sent }, ?_⟩
    simp only [exec, execute, bind_ok_iff, require_ok, exists_const]
    exact ⟨h, trivial⟩
  · rintro ⟨s', h⟩
    simp only [exec, execute, bind_ok_iff, require_ok, exists_const] at h
    exact h.1
  · intro s' h
    simp only [exec, execute, bind_ok_iff, require_ok, exists_const, Except.ok.injEq] at h
    obtain ⟨_, rfl⟩ := h
    simp

/-- **C65.**  Messages are sent, the list changed or the contract frozen only in a transaction of a current admin; the
latter two only while not frozen, and the list then is exactly the one asked for. -/
theorem C65_only_admins (s s' : State A M) (sender : A) (o : Op A M) (h : exec s sender o = .ok s') :
    sender ∈ s.admins ∧
      (s'.admins ≠ s.admins ∨ s'.mutable_ ≠ s.mutable_ → s.mutable_ = true) ∧
      (∀ l, o = .updateAdmins l → s'.admins = l ∧ s'.mutable_ = s.mutable_ ∧ s'.sent = s.sent) ∧
      (o = .freeze → s'.mutable_ = false ∧ s'.admins = s.admins ∧ s'.sent = s.sent) := by
  cases o with
  | execute msgs =>
    simp only [exec, execute, bind_ok_iff, require_ok, exists_const, Except.ok.injEq] at h
    obtain ⟨h, rfl⟩ := h
    simp [h]
  | freeze =>
    simp only [exec, freeze, bind_ok_iff, require_ok, exists_const, Except.ok.injEq] at h
    obtain ⟨⟨h1, h2⟩, rfl⟩ := h
    simp [h1, h2]
  | updateAdmins l =>
    simp only [exec, updateAdmins, bind_ok_iff, require_ok, exists_const, Except.ok.injEq] at h
    obtain ⟨⟨h1, h2⟩, rfl⟩ := h
    simp [h1, h2]

/-- **C65.**  Someone who is no admin now and whom no admin ever adds can never have anything sent: whatever is sent
was asked for by accounts that were admins at that time.  Here: if all transactions are of accounts that are not
admins, nothing at all changes. -/
theorem C65_strangers_change_nothing (s : State A M) (ops : List (A × Op A M)) (h : ∀ x ∈ ops, x.1 ∉ s.admins) :
    run s ops = s := by
  induction ops generalizing s with
  | nil => rfl
  | cons x rest ih =>
    obtain ⟨a, o⟩ := x
    have hx : commit' s (exec s a o) = s := by
      cases he : exec s a o with
      | error e => rfl
      | ok s' => exact absurd (C65_only_admins s s' a o he).1 (h _ List.mem_cons_self)
    have hrun : run s ((a, o) :: rest) = run (commit' s (exec s a o)) rest := rfl
    rw [hrun, hx]
    exact ih s fun y hy => h y (List.mem_cons_of_mem _ hy)

/-- Admins 1 and 2; 1 replaces 2 by 3, 2 no longer gets through, 3 freezes, 1 still sends but cannot change. -/
def demoOps : List (Nat × Op Nat String) :=
  [(2, .execute ["a", "b"]), (1, .updateAdmins [1, 3]), (2, .execute ["c"]), (3, .freeze), (1, .updateAdmins [7]),
    (1, .execute ["d"])]

example : (run (instantiate [1, 2] true) demoOps).sent = ["d", "b", "a"] ∧
    (run (instantiate [1, 2] true) demoOps).admins = [1, 3] ∧
    (run (M := String) (instantiate [1, 2] true) demoOps).mutable_ = false := by decide +kernel

example : okAnd (exec (M := String) (instantiate [1, 2] true) 1 (.updateAdmins [1, 3])) (fun s =>
    decide (s.admins = [1, 3])) = true := by decide +kernel

end Verif.Whitelist
