import Verif.Duality.Lemmas
import Verif.PCL.Params

/-!
# Orderbook settings, and the pair's knowledge of its orders: C99, C103

Specification (independent of the model's helpers): `SettingsOk`, `Missing`, `Known`.
-/

namespace Verif.Duality

open Verif.PCL (Setup FeeInfo Pool demoSetup demoParams)

variable {A : Type} [DecidableEq A]

/-! ## Examples -/

/-- The accounts of the examples: 0 the pair, 1 the owner, 2 a liquidity provider, 3 a trader. -/
abbrev Acct := Fin 4

/-- Nobody trades: every placed order rests untouched. -/
def quiet : Env Acct := { f := ⟨0, none⟩, flip := false, out := fun _ => .rests 0 0 }

/-- A new pair with two orders per side, of at least 1000 units each, for 5% of the liquidity. -/
def demo : Res (State Acct) :=
  create (fun _ a => if a = 0 then 0 else 10 ^ 15) demoParams (40 * 10 ^ 18) (145 * 10 ^ 12) (10 ^ 18) 1000 none 2
    (fun _ => 1000) (5 * 10 ^ 16) (10 ^ 14)

/-- The owner enables the orderbook; the provider deposits `10 ^ 9` of each asset. -/
def demoStart : List (Event Acct) :=
  [⟨2000, 1, .config 1 { enable := some true }⟩, ⟨2000, 1, .provide 2 (fun _ => 10 ^ 9) none none 2 quiet⟩]

/-! ## C99: settings -/

/-- The documented ranges: 1 to 15 orders per side, 1% to 50% of the liquidity, a price tolerance of 1 to 30 basis
points, and order sizes of at least one unit. -/
def SettingsOk (ob : OB A) : Prop :=
  1 ≤ ob.number ∧ ob.number ≤ 15 ∧ 10 ^ 16 ≤ ob.percent ∧ ob.percent ≤ 50 * 10 ^ 16 ∧
  10 ^ 14 ≤ ob.adj ∧ ob.adj ≤ 30 * 10 ^ 14 ∧ ∀ i, 1 ≤ ob.minSize i

/-- The settings of the orderbook integration. -/
def settings (ob : OB A) : Option A × Nat × (Bool → Nat) × Nat × Nat × Bool :=
  (ob.executor, ob.number, ob.minSize, ob.percent, ob.adj, ob.enabled)

omit [DecidableEq A] in
theorem validate_spec {ob : OB A} (h : validate ob = .ok ()) : SettingsOk ob := by
  simp only [validate, bind_ok_iff, require_ok, exists_const] at h
  obtain ⟨h1, h2, h3, h4, h5⟩ := h
  refine ⟨h1.1, h1.2, h2.1, h2.2, h3.1, h3.2, ?_⟩
  intro i; cases i <;> omega

omit [DecidableEq A] in
/-- New orders change nothing but the recorded order sizes. -/
theorem deploy_same {su : Setup} {c : PCL.State A} {now : Nat} {ob ob' : OB A} {xs : Bool → Nat} {ms : List Msg}
    (h : deploy su c now ob xs = .ok (ob', ms)) : ob' = { ob with sizes := ob'.sizes } := by
  unfold deploy at h
  split at h
  · simp only [Except.ok.injEq, Prod.mk.injEq] at h
    obtain ⟨rfl, _⟩ := h; rfl
  · simp only [bind_ok_iff] at h
    obtain ⟨_, _, _, _, _, _, _, _, _, _, _, _, _, _, h⟩ := h
    split at h
    · simp only [Except.ok.injEq, Prod.mk.injEq] at h
      obtain ⟨rfl, _⟩ := h; rfl
    · simp only [bind_ok_iff, Except.ok.injEq, Prod.mk.injEq] at h
      obtain ⟨_, _, _, _, _, _, rfl, _⟩ := h; rfl

omit [DecidableEq A] in
theorem callback_same {me : A} {ob ob' : OB A} {p : Placing A} (h : callback me ob p = .ok ob') :
    ob' = { ob with orders := (p.book.map (·.1)).take 30, delayed := ob'.delayed } := by
  simp only [callback, bind_ok_iff] at h
  obtain ⟨_, _, h⟩ := h
  split at h
  · simp only [bind_ok_iff, Except.ok.injEq] at h
    obtain ⟨_, _, _, _, rfl⟩ := h; rfl
  · simp only [Except.ok.injEq] at h
    obtain rfl := h; rfl

theorem finish_settings {su : Setup} {me : A} {ob : OB A} {next now : Nat} {c : PCL.State A}
    {book : List (Nat × Order)} {xs : Bool → Nat} {out : Nat → Outcome} {s' : State A}
    (h : finish su me ob next now c book xs out = .ok s') : settings s'.ob = settings ob := by
  obtain ⟨ob1, ms, pre, p, sp⟩ := finish_spec h
  have h1 := deploy_same sp.hdep
  have e1 : settings ob1 = settings ob := by rw [h1]; rfl
  rcases sp.hob with ⟨_, h2⟩ | ⟨_, h2⟩
  · rw [h2, ← e1]; rfl
  · rw [callback_same h2, ← e1]; rfl

/-- **C99.** Orderbook settings are changed only by the owner of the pair (the factory's owner if it has none). -/
theorem C99_only_owner_changes_settings (su : Setup) (me : A) (now : Nat) (fo : A) (s s' : State A) (o : Op A)
    (h : exec su me now fo s o = .ok s') (hne : settings s'.ob ≠ settings s.ob) :
    ∃ u v, o = .config u v ∧ u = s.pcl.owner.getD fo := by
  rcases renew_of h with ⟨e, os, ts, bal, bal', book', c, xs, fin, _, r⟩ | ⟨u, v, rfl, hc⟩ | ⟨a, c, rfl, _, _, rfl⟩ |
    ⟨k, n, p, rfl, hf⟩
  · exact absurd (by rw [r.hob]; exact finish_settings r.hfin) hne
  · exact ⟨u, v, rfl, (config_spec hc).1⟩
  · exact absurd rfl hne
  · simp only [fill, bind_ok_iff, Except.ok.injEq] at hf
    obtain ⟨_, _, _, _, rfl⟩ := hf
    exact absurd rfl hne

omit [DecidableEq A] in
theorem settingsOk_of_eq {a b : OB A} (h : settings a = settings b) (hb : SettingsOk b) : SettingsOk a := by
  simp only [settings, Prod.mk.injEq] at h
  obtain ⟨_, h1, h2, h3, h4, _⟩ := h
  unfold SettingsOk
  rw [h1, h2, h3, h4]; exact hb

/-- **C99.** In every history of a pair that was created at all, its orderbook settings are in the documented
ranges. -/
theorem C99_settings_always_in_range (su : Setup) (me : A) (bal : Bool → A → Nat) (u : PCL.PParams)
    (amp gamma scale now : Nat) (executor : Option A) (number : Nat) (minSize : Bool → Nat) (percent adj : Nat)
    (s : State A) (es : List (Event A))
    (h : create bal u amp gamma scale now executor number minSize percent adj = .ok s) :
    SettingsOk (run su me s es).ob := by
  have h0 : SettingsOk s.ob := by
    simp only [create, newOB, bind_ok_iff, Except.ok.injEq] at h
    obtain ⟨_, ⟨_, hv, rfl⟩, _, _, rfl⟩ := h
    exact validate_spec hv
  clear h
  induction es generalizing s with
  | nil => exact h0
  | cons e rest ih =>
    have hrun : run su me s (e :: rest) = run su me (step su me s e) rest := rfl
    rw [hrun]
    apply ih
    refine commit'_inv (fun s : State A => SettingsOk s.ob) h0 ?_
    intro s' hs
    by_cases hne : settings s'.ob = settings s.ob
    · exact settingsOk_of_eq hne h0
    · obtain ⟨u, v, ho, _⟩ := C99_only_owner_changes_settings su me _ _ s s' _ hs hne
      rcases renew_of hs with ⟨e, os, ts, bal, bal', book', c, xs, fin, _, r⟩ | ⟨u, v, _, hc⟩ | ⟨a, c, ha, _⟩ |
        ⟨k, n, p, hf, _⟩
      · exact absurd (by rw [r.hob]; exact finish_settings r.hfin) hne
      · rcases (config_spec hc).2 with ⟨_, _, _, hx, _⟩ | ⟨_, hx, _⟩
        · exact validate_spec (updateOB_spec hx).1
        · exact validate_spec (updateOB_spec hx).1
      · rw [ho] at ha; cases ha
      · rw [ho] at hf; cases hf

/-- The pair is switched off and has nothing on the orderbook. -/
structure Off (s : State A) : Prop where
  henabled : s.ob.enabled = false
  horders : s.ob.orders = []
  hbook : s.book = []

theorem off_exec {su : Setup} {me : A} {now : Nat} {fo : A} {s s' : State A} {o : Op A} (hi : Off s)
    (ho : ∀ u v, o = .config u v → v.enable ≠ some true) (h : exec su me now fo s o = .ok s') : Off s' := by
  obtain ⟨h1, h2, h3⟩ := hi
  rcases renew_of h with ⟨e, os, ts, bal, bal', book', c, xs, fin, _, r⟩ | ⟨u, v, rfl, hc⟩ | ⟨a, c, rfl, _, _, rfl⟩ |
    ⟨k, n, p, rfl, hf⟩
  · have hset : settings fin.ob = settings s.ob := finish_settings r.hfin
    have hen : fin.ob.enabled = false := by
      simp only [settings, Prod.mk.injEq] at hset
      rw [hset.2.2.2.2.2]; exact h1
    have hc := r.hcancel
    rw [h2, h3] at hc
    simp only [cancelAll, Except.ok.injEq, Prod.mk.injEq] at hc
    have hfin := r.hfin
    simp only [finish, deploy, h1, if_true, ok_bind, bind_ok_iff, Except.ok.injEq] at hfin
    obtain ⟨pre, _, p, hp, rfl⟩ := hfin
    simp only [placeAll, Except.ok.injEq] at hp
    refine ⟨r.hob ▸ hen, r.hob ▸ h2, ?_⟩
    rw [r.hbook, ← hp]
    exact hc.2.symm
  · rcases (config_spec hc).2 with ⟨hv, bal, book, hob, hcan, hs⟩ | ⟨hv, hob, hs⟩
    · obtain ⟨_, e1, _, _, _, e2⟩ := updateOB_spec hob
      rw [h2, h3] at hcan
      simp only [cancelAll, Except.ok.injEq, Prod.mk.injEq] at hcan
      refine ⟨by rw [e2, hv]; rfl, by rw [e1], ?_⟩
      rw [hs]
      exact hcan.2.symm
    · obtain ⟨_, e1, _, _, _, e2⟩ := updateOB_spec hob
      refine ⟨?_, by rw [e1]; exact h2, by rw [hs]; exact h3⟩
      rw [e2]
      have := ho u v rfl
      cases hve : v.enable with
      | none => simpa using h1
      | some b => cases b with
        | false => rfl
        | true => exact absurd hve this
  · exact ⟨h1, h2, h3⟩
  · simp only [fill, h3, bind_ok_iff] at hf
    obtain ⟨_, hk, _⟩ := hf
    simp [kvGet, orErr] at hk

/-- **C99.** A new pair keeps off the orderbook until its owner switches the orderbook on: in every history without such a
message nothing of the pair is on the book and every coin stays in the pair. -/
theorem C99_off_until_enabled (su : Setup) (me : A) (bal : Bool → A → Nat) (u : PCL.PParams)
    (amp gamma scale now : Nat) (executor : Option A) (number : Nat) (minSize : Bool → Nat) (percent adj : Nat)
    (s : State A) (es : List (Event A))
    (h : create bal u amp gamma scale now executor number minSize percent adj = .ok s)
    (hes : ∀ e ∈ es, ∀ u v, e.op = .config u v → v.enable ≠ some true) :
    (run su me s es).ob.enabled = false ∧ (run su me s es).ob.orders = [] ∧ (run su me s es).book = [] := by
  have h0 : Off s := by
    simp only [create, newOB, bind_ok_iff, Except.ok.injEq] at h
    obtain ⟨_, ⟨_, hv, rfl⟩, _, _, rfl⟩ := h
    exact ⟨rfl, rfl, rfl⟩
  have key : Off (run su me s es) := by
    clear h
    induction es generalizing s with
    | nil => exact h0
    | cons e rest ih =>
      have hrun : run su me s (e :: rest) = run su me (step su me s e) rest := rfl
      rw [hrun]
      refine ih _ (fun e he => hes e (List.mem_cons_of_mem _ he)) ?_
      exact commit'_inv Off h0 (fun s' hs => off_exec h0 (hes e List.mem_cons_self) hs)
  exact ⟨key.1, key.2, key.3⟩

/-- Non-vacuity: a deposit in the pool of the example before it is switched on. -/
example : okAnd demo (fun s =>
    let z := run demoSetup 0 s ((demoStart.filter fun e => match e.op with | .config _ _ => false | _ => true))
    decide (z.pcl.supply ≠ 0 ∧ z.book.length = 0)) = true := by decide +kernel

/-- **C99.** When an executor is set, nobody else can synchronise the pool with the orderbook. -/
theorem C99_sync_only_by_executor (su : Setup) (me : A) (now : Nat) (fo : A) (s s' : State A) (u x : A) (e : Env A)
    (hx : s.ob.executor = some x) (h : exec su me now fo s (.sync u e) = .ok s') : u = x := by
  obtain ⟨_, h⟩ := exec_cases h
  rcases h with ⟨_, _, _, _, _, _, _, h, _⟩ | ⟨_, _, _, _, _, h, _⟩ | ⟨_, _, _, _, _, _, _, _, h, _⟩ |
    ⟨_, _, h1, h2⟩ | ⟨_, _, h, _⟩ | ⟨_, _, h, _⟩ | ⟨_, _, _, h, _⟩ <;> try cases h
  cases h1
  obtain ⟨_, _, _, _, _, _, _, _, _, _, sp⟩ := sync_spec h2
  rcases sp.hauth with h | h
  · rw [hx] at h; cases h
  · rw [hx] at h; cases h; rfl

/-- Non-vacuity: the owner sets valid settings, invalid ones and strangers are refused. -/
example : okAnd demo (fun s =>
    okAnd (exec demoSetup 0 2000 1 s (.config 1 { enable := some true, number := some 15, executor := some 3 })) (fun t =>
      decide (t.ob.number = 15) && decide (t.ob.executor = some 3)) &&
    fails (exec demoSetup 0 2000 1 s (.config 1 { number := some 16 })) &&
    fails (exec demoSetup 0 2000 1 s (.config 1 { percent := some (51 * 10 ^ 16) })) &&
    fails (exec demoSetup 0 2000 1 s (.config 2 { number := some 3 }))) = true := by decide +kernel

/-- Non-vacuity of the synchronisation: after a trade on the orderbook the executor, and only it, can do it. -/
example : okAnd demo (fun s =>
    let s := run demoSetup 0 s (demoStart ++ [⟨2000, 1, .config 1 { executor := some 3 }⟩,
      ⟨2000, 1, .fill 0 (10 ^ 6) (101 * 10 ^ 4)⟩])
    fails (exec demoSetup 0 2000 1 s (.sync 2 quiet)) &&
    okAnd (exec demoSetup 0 2000 1 s (.sync 3 quiet)) (fun t => decide (t.book.length = 4))) = true := by
  decide +kernel

/-! ## C103: the pair knows its orders -/

/-- An order the pair believes in is not on the orderbook. -/
def Missing (s : State A) : Prop := ∃ k ∈ s.ob.orders, kvGet k s.book = none

/-- The pair's list of orders is exactly what stands on the orderbook. -/
def Known (s : State A) : Prop := s.ob.orders = s.book.map (·.1)

theorem simAll_found {pre : Option (Bool → Nat)} {book : List (Nat × Order)} {ks : List Nat} {os : List Order}
    (h : simAll pre book ks = .ok os) : ∀ k ∈ ks, kvGet k book ≠ none := by
  induction ks generalizing os with
  | nil => simp
  | cons k ks ih =>
    simp only [simAll, simCancel, bind_ok_iff, orErr_ok, require_ok, exists_const, Except.ok.injEq] at h
    obtain ⟨o, ⟨_, hk, _, _, rfl⟩, os', hos, rfl⟩ := h
    intro x hx
    rcases List.mem_cons.1 hx with rfl | hx
    · rw [hk]; simp
    · exact ih hos x hx

theorem kvGet_remove_none {k x : Nat} {l : List (Nat × Order)} (h : kvGet x l = none) :
    kvGet x (kvRemove k l) = none := by
  induction l with
  | nil => rfl
  | cons y l ih =>
    unfold kvGet at h
    split at h
    · cases h
    · rename_i hx
      unfold kvRemove
      rw [List.filter_cons]
      split
      · unfold kvGet
        rw [if_neg hx]; exact ih h
      · exact ih h

theorem cancelAll_found {me : A} {ks : List Nat} {bal bal' : Bool → A → Nat} {book book' : List (Nat × Order)}
    (h : cancelAll me ks bal book = .ok (bal', book')) : ∀ k ∈ ks, kvGet k book ≠ none := by
  induction ks generalizing bal book with
  | nil => simp
  | cons k ks ih =>
    simp only [cancelAll, bind_ok_iff, orErr_ok] at h
    obtain ⟨o, ho, h⟩ := h
    intro x hx
    rcases List.mem_cons.1 hx with rfl | hx
    · rw [ho]; simp
    · intro hn
      exact ih h x hx (kvGet_remove_none hn)

omit [DecidableEq A] in
theorem fill_none {s s' : State A} {k n p x : Nat} (h : fill s k n p = .ok s') (hx : kvGet x s.book = none) :
    kvGet x s'.book = none := by
  simp only [fill, bind_ok_iff, orErr_ok, csub_ok, Except.ok.injEq] at h
  obtain ⟨o, ho, _, ⟨_, rfl⟩, rfl⟩ := h
  show kvGet x (s.book.map _) = none
  revert hx
  generalize s.book = l
  induction l with
  | nil => intro _; rfl
  | cons y l ih =>
    intro hx
    unfold kvGet at hx
    split at hx
    · cases hx
    · rename_i hne
      rw [List.map_cons]
      by_cases hy : y.1 = k
      · rw [if_pos hy]
        unfold kvGet
        rw [if_neg (by rw [← hy]; exact hne)]
        exact ih hx
      · rw [if_neg hy]
        unfold kvGet
        rw [if_neg hne]
        exact ih hx

/-- The transactions by which users and the owner move liquidity. -/
def Op.liquidity : Op A → Bool
  | .provide _ _ _ _ _ _ | .withdraw _ _ _ _ | .swap _ _ _ _ _ _ _ | .sync _ _ => true
  | .config _ v => decide (v.enable = some false)
  | _ => false

theorem missing_step {su : Setup} {me : A} {now : Nat} {fo : A} {s : State A} {o : Op A} (hm : Missing s) :
    (o.liquidity = true → fails (exec su me now fo s o) = true) ∧ Missing (commit' s (exec su me now fo s o)) := by
  have key : ∀ s', exec su me now fo s o = .ok s' → o.liquidity = false ∧ Missing s' := by
    intro s' h
    obtain ⟨k, hk, hn⟩ := hm
    obtain ⟨_, hx⟩ := exec_cases h
    have hr := renew_of h
    rcases hr with ⟨e, os, ts, bal, bal', book', c, xs, fin, _, r⟩ | ⟨u, v, rfl, hc⟩ | ⟨a, c, rfl, _, _, rfl⟩ |
      ⟨k', n, p, rfl, hf⟩
    · exact absurd hn (simAll_found r.hos k hk)
    · rcases (config_spec hc).2 with ⟨_, _, _, _, hx, _⟩ | ⟨hv, hx, hs⟩
      · exact absurd hn (cancelAll_found hx k hk)
      · refine ⟨by simp [Op.liquidity, hv], k, ?_, ?_⟩
        · rw [(updateOB_spec hx).2.1]; exact hk
        · rw [hs]; exact hn
    · exact ⟨rfl, k, hk, hn⟩
    · refine ⟨rfl, k, ?_, fill_none hf hn⟩
      simp only [fill, bind_ok_iff, Except.ok.injEq] at hf
      obtain ⟨_, _, _, _, rfl⟩ := hf
      exact hk
  constructor
  · intro ho
    rw [fails_iff]
    intro s' h
    rw [(key s' h).1] at ho; cases ho
  · exact commit'_inv (fun s : State A => Missing s) hm (fun s' h => (key s' h).2)

theorem missing_run {su : Setup} {me : A} {s : State A} (es : List (Event A)) (hm : Missing s) :
    Missing (run su me s es) := by
  induction es generalizing s with
  | nil => exact hm
  | cons e rest ih =>
    have hrun : run su me s (e :: rest) = run su me (step su me s e) rest := rfl
    rw [hrun]
    exact ih (missing_step hm).2

/-- The only provider withdraws most of the liquidity. -/
def demoExit : List (Event Acct) := demoStart ++ [⟨3000, 1, .withdraw 2 999950000 none quiet⟩]

/-- **C103 is violated**: a provider withdraws most of a pool whose orders rest on the orderbook.  The remaining
liquidity is too small for new orders; the old ones are cancelled but stay in the pair's list.  From then on no
deposit, withdrawal, swap or synchronisation by anybody succeeds, ever, and the owner cannot disable the orderbook
either: the remaining 50001 units of each asset are locked for good, although the provider still holds LP tokens. -/
theorem C103_pool_frozen_forever_violated :
    ∃ s, demo = .ok s ∧ Known (run demoSetup 0 s demoStart) ∧
    (let z := run demoSetup 0 s demoExit
     z.pcl.lp 2 = 49000 ∧ z.pcl.bal false 0 = 50001 ∧ z.pcl.bal true 0 = 50001 ∧ z.book = []) ∧
    ∀ (es : List (Event Acct)) (now : Nat) (fo : Acct) (o : Op Acct), o.liquidity = true →
      fails (exec demoSetup 0 now fo (run demoSetup 0 s (demoExit ++ es)) o) = true := by
  have hx : okAnd demo (fun s =>
      decide ((run demoSetup 0 s demoStart).ob.orders = (run demoSetup 0 s demoStart).book.map (·.1)) &&
      (let z := run demoSetup 0 s demoExit
       decide (z.pcl.lp 2 = 49000 ∧ z.pcl.bal false 0 = 50001 ∧ z.pcl.bal true 0 = 50001 ∧ z.book = []) &&
       decide (z.ob.orders = [0, 1, 2, 3]))) = true := by decide +kernel
  obtain ⟨s, hs, h⟩ := okAnd_iff.1 hx
  simp only [Bool.and_eq_true, decide_eq_true_eq] at h
  obtain ⟨h1, h2, h3⟩ := h
  refine ⟨s, hs, h1, h2, ?_⟩
  intro es now fo o ho
  have hm : Missing (run demoSetup 0 s demoExit) := ⟨0, by rw [h3]; simp, by rw [h2.2.2.2]; rfl⟩
  have hr : run demoSetup 0 s (demoExit ++ es) = run demoSetup 0 (run demoSetup 0 s demoExit) es := by
    simp [run, List.foldl_append]
  rw [hr]
  exact (missing_step (missing_run es hm)).1 ho

/-! ## C100: what is placed on the orderbook -/

/-- The list of order messages of one deployment: `n` orders per side; all orders that sell asset `i` sell `z i`. -/
def Ladder (n : Nat) (z : Bool → Nat) (ms : List Msg) : Prop :=
  (∀ i, (ms.filter fun m => decide (m.sell = i)).length = n) ∧ ∀ m ∈ ms, m.amount = z m.sell

omit [DecidableEq A] in
theorem buildOrders_spec {pp : PCL.PParams} {p : Pool} {ag : PCL.AG} {d : Nat} {ixs size : Bool → Nat} :
    ∀ (fuel i : Nat) (acc l : List Post), buildOrders pp p ag d ixs size fuel i acc = .ok (some l) →
      ∃ new, l = acc ++ new ∧ (∀ j, (new.filter fun o => decide (o.sell = j)).length = fuel) ∧
        (∀ o ∈ new, o.size = size o.sell) ∧ (∀ o ∈ new, o.price ≠ 0) := by
  intro fuel
  induction fuel with
  | zero =>
    intro i acc l h
    simp only [buildOrders, Except.ok.injEq, Option.some.injEq] at h
    exact ⟨[], by simp [h], by simp, by simp, by simp⟩
  | succ fuel ih =>
    intro i acc l h
    simp only [buildOrders, bind_ok_iff] at h
    obtain ⟨sp, _, bp, _, h⟩ := h
    split at h
    · cases h
    · rename_i hz
      obtain ⟨new, rfl, hc, hs, hp⟩ := ih _ _ _ h
      refine ⟨[⟨false, sp, size false⟩, ⟨true, bp, size true⟩] ++ new, by simp, ?_, ?_, ?_⟩
      · intro j
        rw [List.filter_append, List.length_append, hc j]
        cases j <;> simp [Nat.add_comm]
      · intro o ho
        simp only [List.cons_append, List.nil_append, List.mem_cons] at ho
        rcases ho with rfl | rfl | ho
        · rfl
        · rfl
        · exact hs o ho
      · intro o ho
        simp only [List.cons_append, List.nil_append, List.mem_cons] at ho
        rcases ho with rfl | rfl | ho
        · exact fun h => hz (Or.inl h)
        · exact fun h => hz (Or.inr h)
        · exact hp o ho

theorem postMsgs_spec {su : Setup} {adj : Nat} :
    ∀ {l : List Post} {ms : List Msg}, postMsgs su adj l = .ok ms →
      (∀ i, (ms.filter fun m => decide (m.sell = i)).length = (l.filter fun o => decide (o.sell = i)).length) ∧
      ∀ m ∈ ms, ∃ o ∈ l, postMsg su adj o = .ok m := by
  intro l
  induction l with
  | nil =>
    intro ms h
    simp only [postMsgs, Except.ok.injEq] at h
    subst h; simp
  | cons o l ih =>
    intro ms h
    simp only [postMsgs, bind_ok_iff, Except.ok.injEq] at h
    obtain ⟨m, hm, ms', hms, rfl⟩ := h
    obtain ⟨h1, h2⟩ := ih hms
    have hs : m.sell = o.sell := by
      simp only [postMsg, bind_ok_iff, Except.ok.injEq] at hm
      obtain ⟨_, _, _, _, _, _, _, _, _, _, _, _, rfl⟩ := hm
      rfl
    constructor
    · intro i
      rw [List.filter_cons, List.filter_cons, hs]
      split
      · simp [h1 i]
      · exact h1 i
    · intro x hx
      rcases List.mem_cons.1 hx with rfl | hx
      · exact ⟨o, by simp, hm⟩
      · obtain ⟨y, hy, hy2⟩ := h2 x hx
        exact ⟨y, by simp [hy], hy2⟩

theorem postMsg_amount {su : Setup} {adj : Nat} {o : Post} {m : Msg} (hp : su.prec o.sell ≤ 18)
    (h : postMsg su adj o = .ok m) : m.sell = o.sell ∧ m.amount = o.size / 10 ^ (18 - su.prec o.sell) := by
  simp only [postMsg, bind_ok_iff, Except.ok.injEq, Stable.dmul_ok, u128_ok] at h
  obtain ⟨_, ⟨_, rfl⟩, _, ⟨_, rfl⟩, _, _, _, _, _, _, _, _, rfl⟩ := h
  refine ⟨rfl, ?_⟩
  show o.size * (10 ^ su.prec o.sell * DEC) / DEC / DEC = _
  rw [Stable.mul_kDEC]
  have hD : DEC = 10 ^ (su.prec o.sell) * 10 ^ (18 - su.prec o.sell) := by
    rw [← Nat.pow_add, Nat.add_sub_cancel' hp]; rfl
  rw [hD, Nat.mul_div_mul_left _ _ (Nat.pow_pos (by decide))]

theorem size_bound {x percent n D k : Nat} (hD : 0 < D) :
    2 * D * (n * (x * (percent * D / (2 * D)) / D * D / (n * D) / k * k)) ≤ percent * x := by
  have h1 : x * (percent * D / (2 * D)) / D * D / (n * D) = x * (percent / 2) / D / n := by
    rw [Nat.mul_div_mul_right _ _ hD, Nat.mul_div_mul_right _ _ hD]
  rw [h1]
  calc 2 * D * (n * (x * (percent / 2) / D / n / k * k)) ≤ 2 * D * (n * (x * (percent / 2) / D / n)) :=
        Nat.mul_le_mul_left _ (Nat.mul_le_mul_left _ (Nat.div_mul_le_self _ _))
    _ ≤ 2 * D * (x * (percent / 2) / D) := Nat.mul_le_mul_left _ (Nat.mul_div_le _ _)
    _ = 2 * (D * (x * (percent / 2) / D)) := by ring
    _ ≤ 2 * (x * (percent / 2)) := Nat.mul_le_mul_left _ (Nat.mul_div_le _ _)
    _ = x * (2 * (percent / 2)) := by ring
    _ ≤ x * percent := Nat.mul_le_mul_left _ (Nat.mul_div_le _ _)
    _ = percent * x := Nat.mul_comm _ _

omit [DecidableEq A] in
/-- A deployment for the (decimal) reserves `xs` posts nothing, or a ladder whose orders are at least the minimal
size and together at most half of the configured percentage of the reserves. -/
theorem deploy_spec {su : Setup} {c : PCL.State A} {now : Nat} {ob ob' : OB A} {xs : Bool → Nat} {ms : List Msg}
    (h : deploy su c now ob xs = .ok (ob', ms)) :
    ms = [] ∨ (ob.enabled = true ∧ ∃ z : Bool → Nat, ob'.sizes = some z ∧ Ladder ob.number z ms ∧
      (∀ i, ob.minSize i ≤ z i) ∧
      ∀ i, 2 * DEC * (ob.number * (z i * 10 ^ (18 - su.prec i))) ≤ ob.percent * xs i) := by
  unfold deploy at h
  split at h
  · simp only [Except.ok.injEq, Prod.mk.injEq] at h
    exact Or.inl h.2.symm
  · rename_i hen
    simp only [bind_ok_iff, Stable.dmul_ok, Stable.ddiv_ok, Stable.withPrec_ok] at h
    obtain ⟨_, ⟨_, _, rfl⟩, _, ⟨_, rfl⟩, _, ⟨_, rfl⟩, _, ⟨hp0, _, rfl⟩, _, ⟨hp1, _, rfl⟩, t0, ⟨hn0, _, ht0⟩, t1,
      ⟨_, _, ht1⟩, h⟩ := h
    split at h
    · simp only [Except.ok.injEq, Prod.mk.injEq] at h
      exact Or.inl h.2.symm
    · rename_i hlt
      simp only [bind_ok_iff, Except.ok.injEq, Prod.mk.injEq, Stable.toU128_ok] at h
      obtain ⟨_, ⟨_, _, rfl⟩, _, ⟨_, _, rfl⟩, ms', hd, rfl, rfl⟩ := h
      by_cases hms : ms' = []
      · exact Or.inl hms
      · refine Or.inr ⟨by simpa using hen, _, rfl, ?_, ?_, ?_⟩
        · simp only [deployAt, bind_ok_iff] at hd
          obtain ⟨ag, _, x1, _, d, _, r, hr, hd⟩ := hd
          cases r with
          | none => simp only [Except.ok.injEq] at hd; exact absurd hd.symm hms
          | some l =>
            simp only at hd
            obtain ⟨new, hl, hc, hs, _⟩ := buildOrders_spec _ _ _ _ hr
            rw [List.nil_append] at hl
            subst hl
            obtain ⟨h1, h2⟩ := postMsgs_spec hd
            refine ⟨fun i => by rw [h1 i, hc i], ?_⟩
            intro m hm
            obtain ⟨o, ho, hpm⟩ := h2 m hm
            have hpo : su.prec o.sell ≤ 18 := by cases o.sell <;> assumption
            obtain ⟨e1, e2⟩ := postMsg_amount hpo hpm
            rw [e2, hs o ho, e1]
            cases o.sell <;> rfl
        · intro i
          have hk : ∀ p, 0 < 10 ^ (18 - p) := fun p => Nat.pow_pos (by decide)
          push Not at hlt
          cases i
          · exact (Nat.le_div_iff_mul_le (hk _)).2 hlt.1
          · exact (Nat.le_div_iff_mul_le (hk _)).2 hlt.2
        · intro i
          cases i
          · rw [← ht0]; exact size_bound DEC_pos
          · rw [← ht1]; exact size_bound DEC_pos

end Verif.Duality
