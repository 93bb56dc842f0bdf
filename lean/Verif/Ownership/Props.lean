import Verif.Ownership.Model

/-!
# C01, C02: ownership transfer

Specification vocabulary, independent of the model's state machine: a *successful* transaction, and a
condition on histories of transactions only.
-/

namespace Verif.Ownership

variable {A : Type} [DecidableEq A]

/-- The transactions of a history that actually succeeded (were not reverted), from state `s`. -/
def succeeded (s : State A) : List (Tx A) → List (Tx A)
  | [] => []
  | t :: ts =>
    match exec s t with
    | .ok s' => t :: succeeded s' ts
    | .error _ => succeeded s ts

/-- Specification: looking only at the list of successful transactions (oldest first), the transfer to
`new` claimed at time `claimTime` is legitimate for previous owner `old` if `old` proposed exactly
`new`, nobody proposed or dropped or claimed anything since, and the claim is not late. -/
def Legit (old new : A) (claimTime : Nat) (succ : List (Tx A)) : Prop :=
  ∃ before t0 e, succ = before ++ [⟨old, t0, .propose new e⟩] ∧ claimTime ≤ t0 + e ∧
    e ≤ maxProposalTtl

theorem exec_cases {s s' : State A} {t : Tx A} (h : exec s t = .ok s') :
    (∃ n e, t.msg = .propose n e ∧ t.sender = s.owner ∧ n ≠ s.owner ∧ e ≤ maxProposalTtl ∧
        s' = { s with proposal := some ⟨n, t.now + e⟩ }) ∨
    (t.msg = .drop ∧ t.sender = s.owner ∧ s' = { s with proposal := none }) ∨
    (∃ p, t.msg = .claim ∧ s.proposal = some p ∧ t.sender = p.owner ∧ t.now ≤ p.ttl ∧
        s' = ⟨p.owner, none⟩) := by
  unfold exec at h
  rcases t with ⟨sender, now, msg⟩
  cases msg with
  | propose n e =>
    left
    simp [propose] at h
    exact ⟨n, e, rfl, h.1, h.2.1, h.2.2.1, h.2.2.2.symm⟩
  | drop =>
    right; left
    simp [drop] at h
    exact ⟨rfl, h.1, h.2.symm⟩
  | claim =>
    right; right
    simp [claim] at h
    obtain ⟨p, h1, h2, h3, h4⟩ := h
    exact ⟨p, rfl, h1, h2, h3, h4.symm⟩

/-- The stored proposal is always explained by the last successful transaction of the history. -/
def Explained (s : State A) (succ : List (Tx A)) : Prop :=
  ∀ p, s.proposal = some p →
    ∃ before t0 e, succ = before ++ [⟨s.owner, t0, .propose p.owner e⟩] ∧ p.ttl = t0 + e ∧
      e ≤ maxProposalTtl

theorem explained_step {s s' : State A} {t : Tx A} {succ : List (Tx A)}
    (h : exec s t = .ok s') : Explained s' (succ ++ [t]) := by
  intro p hp
  rcases exec_cases h with ⟨n, e, hm, hs, _, he, rfl⟩ | ⟨_, _, rfl⟩ | ⟨q, _, _, _, _, rfl⟩
  · simp at hp
    subst hp
    refine ⟨succ, t.now, e, ?_, rfl, he⟩
    rcases t with ⟨a, b, c⟩
    simp_all
  · simp at hp
  · simp at hp

theorem explained_run (s : State A) (hs : s.proposal = none) (ts : List (Tx A)) :
    Explained (run s ts) (succeeded s ts) := by
  suffices ∀ (ts : List (Tx A)) (s : State A) (acc : List (Tx A)), Explained s acc →
      Explained (run s ts) (acc ++ succeeded s ts) by
    simpa using this ts s [] (by intro p hp; simp [hs] at hp)
  intro ts
  induction ts with
  | nil => intro s acc h; simpa [run, succeeded] using h
  | cons t ts ih =>
    intro s acc h
    simp only [run, List.foldl_cons, succeeded, step]
    cases hx : exec s t with
    | error e => simpa [run] using ih s acc h
    | ok s' =>
      simpa [run] using ih s' (acc ++ [t]) (explained_step hx)

/-- **C01.**  Take any history `ts` from a state without pending proposal, and any further transaction
`t`.  If `t` changes the owner, then `t` is a claim, its sender is the new owner, and the successful
transactions so far end with a proposal of exactly this new owner by the previous owner (so it was not
dropped, replaced or used since), whose deadline has not passed. -/
theorem C01_owner_changes_only_by_legitimate_claim (s : State A) (hs : s.proposal = none)
    (ts : List (Tx A)) (t : Tx A)
    (hch : (run s (ts ++ [t])).owner ≠ (run s ts).owner) :
    t.msg = .claim ∧ (run s (ts ++ [t])).owner = t.sender ∧
      Legit (run s ts).owner t.sender t.now (succeeded s ts) := by
  have hrun : run s (ts ++ [t]) = step (run s ts) t := by simp [run]
  have hexp := explained_run s hs ts
  rw [hrun] at hch ⊢
  unfold step at hch ⊢
  cases hx : exec (run s ts) t with
  | error e => simp [hx] at hch
  | ok s' =>
    simp only [hx, commit'_ok] at hch ⊢
    rcases exec_cases hx with ⟨n, e, _, _, _, _, rfl⟩ | ⟨_, _, rfl⟩ | ⟨p, hm, hp, hsnd, ht, rfl⟩
    · simp at hch
    · simp at hch
    · obtain ⟨before, t0, e, h1, h2, h3⟩ := hexp p hp
      exact ⟨hm, hsnd.symm, before, t0, e, by rw [hsnd]; exact h1, by omega, h3⟩

/-- **C01 (liveness side).**  A legitimate claim does succeed: right after the owner's proposal, the
proposed account's claim within the deadline makes it the owner. -/
theorem C01_legitimate_claim_succeeds (s : State A) (new : A) (t0 e t1 : Nat)
    (hne : new ≠ s.owner) (he : e ≤ maxProposalTtl) (ht : t1 ≤ t0 + e) :
    (run s [⟨s.owner, t0, .propose new e⟩, ⟨new, t1, .claim⟩]).owner = new := by
  have h1 : exec s ⟨s.owner, t0, .propose new e⟩
      = .ok { s with proposal := some ⟨new, t0 + e⟩ } := by
    simp [exec, propose, require, hne, Nat.not_lt.mpr he]
  simp only [run, List.foldl_cons, List.foldl_nil, step, h1, commit'_ok]
  have h2 : exec { s with proposal := some ⟨new, t0 + e⟩ } ⟨new, t1, .claim⟩
      = .ok ⟨new, none⟩ := by
    simp [exec, claim, require, orErr, Nat.not_lt.mpr ht]
  simp [h2]

/-- **C02.**  Single use: after a successful claim or drop, any further transactions that are claims
(by anybody, at any time) all fail, so ownership stays put until a new proposal. -/
theorem C02_claim_is_single_use (s s' : State A) (t : Tx A) (h : exec s t = .ok s')
    (ht : t.msg = .claim ∨ t.msg = .drop) (ts : List (Tx A)) (hts : ∀ u ∈ ts, u.msg = .claim) :
    run s' ts = s' ∧ ∀ u : Tx A, u.msg = .claim → ¬ Succeeds (exec s' u) := by
  have hp : s'.proposal = none := by
    rcases exec_cases h with ⟨n, e, hm, _, _, _, rfl⟩ | ⟨_, _, rfl⟩ | ⟨p, _, _, _, _, rfl⟩
    · rcases ht with h' | h' <;> simp [h'] at hm
    · rfl
    · rfl
  have hfail : ∀ u : Tx A, u.msg = .claim → ¬ Succeeds (exec s' u) := by
    rintro u hu ⟨a, ha⟩
    rcases exec_cases ha with ⟨n, e, hm, _⟩ | ⟨hm, _⟩ | ⟨p, _, hp', _⟩
    · simp [hu] at hm
    · simp [hu] at hm
    · simp [hp] at hp'
  refine ⟨?_, hfail⟩
  induction ts with
  | nil => rfl
  | cons u us ih =>
    have hu := hfail u (hts u (by simp))
    have : step s' u = s' := by
      unfold step
      cases hx : exec s' u with
      | error e => rfl
      | ok a => exact absurd ⟨a, hx⟩ hu
    simp only [run, List.foldl_cons, this]
    exact ih (fun v hv => hts v (by simp [hv]))

/-- **C02 (bounded).**  Whatever happened, a pending proposal was made by the current owner at some
time `t0` by the last successful transaction and expires at most 14 days (1 209 600 s) after it. -/
theorem C02_proposal_expires_within_14_days (s : State A) (hs : s.proposal = none)
    (ts : List (Tx A)) (p : Proposal A) (hp : (run s ts).proposal = some p) :
    ∃ t ∈ (succeeded s ts).getLast?, t.sender = (run s ts).owner ∧
      t.now ≤ p.ttl ∧ p.ttl ≤ t.now + 14 * 24 * 3600 := by
  obtain ⟨before, t0, e, h1, h2, h3⟩ := explained_run s hs ts p hp
  refine ⟨⟨(run s ts).owner, t0, .propose p.owner e⟩, by simp [h1], rfl, ?_, ?_⟩
  · simp; omega
  · simp [maxProposalTtl] at h3 ⊢; omega

/-- Non-vacuity: a history in which ownership does move (and a late or foreign claim fails). -/
example :
    let s : State Nat := ⟨1, none⟩
    let ts : List (Tx Nat) := [⟨1, 100, .propose 2 50⟩, ⟨3, 110, .claim⟩]
    (run s (ts ++ [⟨2, 150, .claim⟩])).owner = 2 ∧ (run s (ts ++ [⟨2, 151, .claim⟩])).owner = 1 := by
  decide

end Verif.Ownership
