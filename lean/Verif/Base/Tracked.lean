import Verif.Base.Snapshot
import Verif.Base.Res

/-!
# Pools that record their reserves

`BALANCES` of the pairs (contracts/pair/src/state.rs:34-40, contracts/pair_concentrated/src/state.rs:21-27): a
snapshot map with `Strategy::EveryBlock`, one entry per pool asset, kept by a pair created with
`track_asset_balances`.  `exec` is the pair's transaction and `saved` what it writes to `BALANCES`, if anything.
-/

namespace Verif

/-- A pool and its recorded reserves. -/
structure Recorded (S : Type) where
  st : S
  log : Bool → Snap Nat

namespace Recorded
variable {S O : Type}

/-- A pair created at height `H` records zero reserves (contracts/pair/src/contract.rs:93-97,
contracts/pair_concentrated/src/contract.rs:147-151). -/
def create (s : S) (H : Nat) : Recorded S := ⟨s, fun _ => (Snap.empty : Snap Nat).save 0 H⟩

/-- A transaction in block `x.1`. -/
def exec (ex : S → O → Res S) (saved : S → O → S → Res (Option (Bool → Nat))) (t : Recorded S) (x : Nat × O) :
    Res (Recorded S) := do
  let s' ← ex t.st x.2
  let v ← saved t.st x.2 s'
  match v with
  | none => .ok ⟨s', t.log⟩
  | some v => .ok ⟨s', fun i => (t.log i).save (v i) x.1⟩

/-- A history of (height, transaction). -/
def run (ex : S → O → Res S) (saved : S → O → S → Res (Option (Bool → Nat))) (t : Recorded S)
    (xs : List (Nat × O)) : Recorded S := xs.foldl (fun t x => commit' t (exec ex saved t x)) t

/-- `query_asset_balances_at`, contracts/pair/src/contract.rs:1158-1167,
contracts/pair_concentrated/src/queries.rs:333-342. -/
def balanceAt (t : Recorded S) (i : Bool) (h : Nat) : Option Nat := (t.log i).at_ h

/-- The transactions of the blocks before `h`. -/
def before (h : Nat) (xs : List (Nat × O)) : List (Nat × O) := xs.takeWhile fun x => decide (x.1 < h)

theorem exec_ok {ex : S → O → Res S} {saved : S → O → S → Res (Option (Bool → Nat))} {t t' : Recorded S}
    {x : Nat × O} (h : exec ex saved t x = .ok t') :
    ex t.st x.2 = .ok t'.st ∧ ((saved t.st x.2 t'.st = .ok none ∧ t'.log = t.log) ∨
      ∃ v, saved t.st x.2 t'.st = .ok (some v) ∧ t'.log = fun i => (t.log i).save (v i) x.1) := by
  simp only [exec, bind_ok_iff] at h
  obtain ⟨s', hs, v, hv, h⟩ := h
  cases v with
  | none =>
    simp only [Except.ok.injEq] at h
    subst h
    exact ⟨hs, Or.inl ⟨hv, rfl⟩⟩
  | some v =>
    simp only [Except.ok.injEq] at h
    subst h
    exact ⟨hs, Or.inr ⟨v, hv, rfl⟩⟩

/-- If every recording is related to the reserves it is made with, and transactions that record nothing keep the
relation, then the recording reported for a block is related to the reserves at the start of that block. -/
theorem reported (ex : S → O → Res S) (saved : S → O → S → Res (Option (Bool → Nat))) (hold : S → Bool → Nat)
    (R : Nat → Nat → Prop) (Good : O → Prop) (I : S → Prop)
    (hI : ∀ s o s', I s → Good o → ex s o = .ok s' → I s')
    (hsave : ∀ s o s' v, I s → Good o → ex s o = .ok s' → saved s o s' = .ok (some v) → ∀ i, R (v i) (hold s' i))
    (hkeep : ∀ s o s', I s → Good o → ex s o = .ok s' → saved s o s' = .ok none →
      ∀ i n, R n (hold s i) → R n (hold s' i))
    (s : S) (H : Nat) (hs : I s) (h0 : ∀ i, R 0 (hold s i)) (xs : List (Nat × O)) (hg : ∀ x ∈ xs, Good x.2)
    (hm : Mono (fun x : Nat × O => x.1) H xs) (i : Bool) (h : Nat) :
    (h ≤ H → balanceAt (run ex saved (create s H) xs) i h = none) ∧
    (H < h → ∃ v, balanceAt (run ex saved (create s H) xs) i h = some v ∧
      R v (hold (run ex saved (create s H) (before h xs)).st i)) := by
  have hi : ∀ j, Snap.UpTo ((create s H).log j) H := by
    intro j e he
    have : Snap.UpTo (Snap.empty : Snap Nat) 0 := by intro e he; simp [Snap.empty] at he
    exact Snap.save_upTo 0 this (Nat.zero_le _) e he
  have key := history (fun t x => commit' t (exec ex saved t x)) (fun x : Nat × O => x.1)
    (fun t h => balanceAt t i h) (fun t : Recorded S => (t.log i).cur) (fun t H => Snap.UpTo (t.log i) H)
    (by
      intro t H x hu hle
      cases he : exec ex saved t x with
      | error e =>
        simp only [commit']
        exact ⟨Snap.upTo_mono hu hle, fun _ _ => trivial, fun h hh => Snap.at_future hu (by omega)⟩
      | ok t' =>
        simp only [commit']
        rcases (exec_ok he).2 with ⟨_, hl⟩ | ⟨v, _, hl⟩
        · simp only [balanceAt, hl]
          exact ⟨Snap.upTo_mono hu hle, fun _ _ => trivial, fun h hh => Snap.at_future hu (by omega)⟩
        · simp only [balanceAt, hl]
          refine ⟨Snap.save_upTo _ hu hle, fun h hh => ?_, fun h hh => ?_⟩
          · rw [Snap.save_at _ hu hle, if_pos hh]
          · rw [Snap.save_at _ hu hle, if_neg (by omega)]
            rfl)
    (create s H) H xs (hi i) hm h (fun hh => Snap.at_future (hi i) hh)
  have hR : ∀ ys : List (Nat × O), (∀ x ∈ ys, Good x.2) → ∀ t : Recorded S, I t.st →
      (∀ j, ∃ v, (t.log j).cur = some v ∧ R v (hold t.st j)) →
      ∀ j, ∃ v, ((run ex saved t ys).log j).cur = some v ∧ R v (hold (run ex saved t ys).st j) := by
    intro ys
    induction ys with
    | nil => intro _ t _ ht; exact ht
    | cons y rest ih =>
      intro hy t hIt ht
      simp only [run, List.foldl_cons]
      have hgy0 := hy y List.mem_cons_self
      cases he : exec ex saved t y with
      | error e => exact ih (fun x hx => hy x (List.mem_cons_of_mem _ hx)) _ hIt ht
      | ok t' =>
        simp only [commit']
        apply ih (fun x hx => hy x (List.mem_cons_of_mem _ hx)) _ (hI _ _ _ hIt hgy0 (exec_ok he).1)
        intro j
        have hgy := hy y List.mem_cons_self
        obtain ⟨hx, hl⟩ := exec_ok he
        rcases hl with ⟨hn, hl⟩ | ⟨v, hv, hl⟩
        · obtain ⟨v, hc, hr⟩ := ht j
          exact ⟨v, by rw [hl]; exact hc, hkeep _ _ _ hIt hgy hx hn j v hr⟩
        · exact ⟨v j, by rw [hl]; rfl, hsave _ _ _ _ hIt hgy hx hv j⟩
  refine ⟨fun hh => ?_, fun hh => ?_⟩
  · rw [if_pos hh] at key
    have : balanceAt (create s H) i h = none := by
      have hu : Snap.UpTo (Snap.empty : Snap Nat) 0 := by intro e he; simp [Snap.empty] at he
      show Snap.at_ _ h = none
      unfold create
      simp only
      rw [Snap.save_at 0 hu (Nat.zero_le _), if_pos hh]
      rfl
    rw [← this]
    exact key
  · rw [if_neg (by omega)] at key
    obtain ⟨v, hc, hr⟩ := hR (before h xs) (fun x hx => hg x (List.takeWhile_subset _ hx)) (create s H) hs
      (fun j => ⟨0, rfl, h0 j⟩) i
    exact ⟨v, key.trans hc, hr⟩

end Recorded

end Verif
