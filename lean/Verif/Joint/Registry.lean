import Verif.Factory.Settings
import Verif.Incentives.Alloc

/-!
# The factory and the incentives contract together: which pools receive ASTRO (C158)

The incentives contract asks the factory whether a pool's pair is registered and whether its type is excluded, but only when
the list of active pools is set; the factory tells the incentives contract when a pair is deregistered.  Here both contracts
(`Factory/Model.lean`, `Incentives/Alloc.lean`) run together, with the answers and messages between them.
-/

namespace Verif.Joint.Registry

open Verif Verif.Asset Verif.Factory Verif.Incentives

variable {A P : Type} [DecidableEq A] [DecidableEq P]

/-- What a contract answers to `Pair {}` (`PairInfo`, `packages/astroport/src/asset.rs:602-612`): its assets, LP token and
type.  Pairs never change these. -/
structure PairInfo (P : Type) where
  assets : List Info
  lp : P
  type : PairType

/-- The fixed surroundings: the roles of the incentives contract, its own address, the factory's address, the contract
that is asked about an LP token (`query_pair_info`, `contracts/tokenomics/incentives/src/utils.rs:385-402`: the minter named
in the denom, or the minter of the cw20 token; `none` if the text has another form) and what contracts answer about
themselves.  Nothing is assumed about these answers: anybody can deploy a contract. -/
structure Cfg (A P : Type) where
  owner : A
  controller : Option A
  guardian : Option A
  astro : Info
  factory : A
  incentives : A
  minter : P → Option A
  report : A → PairInfo P
  okAddr : Str → Bool

/-- The pair information used for an LP token. -/
def Cfg.info (c : Cfg A P) (p : P) : Option (PairInfo P) := (c.minter p).map c.report

/-- The configuration of the incentives contract. -/
def Cfg.alloc (c : Cfg A P) : Alloc.Cfg P Info A :=
  ⟨c.owner, c.controller, c.guardian, c.factory, c.astro, fun p => ((c.info p).map PairInfo.assets).getD []⟩

/-- `is_pool_registered` (`contracts/tokenomics/incentives/src/utils.rs:406-435`): the factory knows a pair with the assets that the
LP token's minter reports, and that pair's LP token is the given one. -/
def registered (c : Cfg A P) (f : Factory.State A) (p : P) : Bool :=
  match c.info p with
  | none => false
  | some i =>
    match queryPair f i.assets with
    | none => false
    | some a => decide ((c.report a).lp = p)

/-- The type check of `setup_pools` (`contracts/tokenomics/incentives/src/execute.rs:290-318`) and `deactivate_blocked_pools`
(`contracts/tokenomics/incentives/src/utils.rs:155-171`): is the reported type among those the factory excludes?  An LP token without a minter
makes the query fail; such tokens are refused by `registered` first. -/
def excluded (c : Cfg A P) (f : Factory.State A) (p : P) : Bool :=
  match c.info p with
  | none => true
  | some i => decide (i.type ∈ queryBlacklisted f)

/-- The factory's answers. -/
def env (c : Cfg A P) (f : Factory.State A) : Alloc.Env P := ⟨registered c f, excluded c f⟩

/-- Both contracts. -/
structure State (A P : Type) where
  f : Factory.State A
  g : Alloc.State P Info

/-- Transactions: any call of the factory, and the calls of the incentives contract that concern the distribution of ASTRO. -/
inductive Op (A P : Type) where
  | factory (o : Factory.Op A)
  | setup (sender : A) (pools : List (P × Nat))
  | setRate (sender : A) (amount : Nat)
  | deactivate (sender : A) (p : P)
  | deactivateBlocked
  | updateBlocked (sender : A) (add remove : List Info)

/-- The message that `deregister` sends (`contracts/factory/src/contract.rs:408-419`, received at
`contracts/tokenomics/incentives/src/execute.rs:141`): if a generator is set, its pool is deactivated.  Should
the generator be another contract than this one, that contract is assumed to accept the message. -/
def notify (c : Cfg A P) (f : Factory.State A) (g : Alloc.State P Info) (pair : A) : Res (Alloc.State P Info) :=
  if f.config.generator = some c.incentives then Alloc.deactivatePool c.alloc g c.factory (c.report pair).lp
  else .ok g

/-- Deregistration as one transaction: `deregister` (`contracts/factory/src/contract.rs:391-425`) and its message. -/
def deregister (c : Cfg A P) (s : State A P) (sender : A) (infos : List Info) : Res (State A P) := do
  let r ← Factory.deregister c.okAddr s.f sender infos
  let g ← notify c s.f s.g r.2
  .ok ⟨r.1, g⟩

/-- One transaction. -/
def exec (c : Cfg A P) (s : State A P) : Op A P → Res (State A P)
  | .factory (.deregister sender infos) => deregister c s sender infos
  | .factory o => do
    let f ← Factory.exec c.okAddr s.f o
    .ok { s with f := f }
  | .setup sender pools => do
    let g ← Alloc.exec c.alloc s.g (.setup (env c s.f) sender pools)
    .ok { s with g := g }
  | .setRate sender amount => do
    let g ← Alloc.exec c.alloc s.g (.setRate sender amount)
    .ok { s with g := g }
  | .deactivate sender p => do
    let g ← Alloc.exec c.alloc s.g (.deactivate sender p)
    .ok { s with g := g }
  | .deactivateBlocked => do
    let g ← Alloc.exec c.alloc s.g (.deactivateBlocked (env c s.f))
    .ok { s with g := g }
  | .updateBlocked sender add remove => do
    let g ← Alloc.exec c.alloc s.g (.updateBlocked sender add remove)
    .ok { s with g := g }

/-- A failed transaction changes nothing. -/
def step (c : Cfg A P) (s : State A P) (o : Op A P) : State A P := commit' s (exec c s o)

/-- A history. -/
def run (c : Cfg A P) (s : State A P) (os : List (Op A P)) : State A P := os.foldl (step c) s

/-- Both contracts just instantiated. -/
def start (f : Factory.State A) : State A P := ⟨f, Alloc.State.init⟩

/-! ## Projections -/

/-- What a transaction does to the incentives contract: nothing, or one of its calls. -/
theorem exec_g {c : Cfg A P} {s s' : State A P} {o : Op A P} (h : exec c s o = .ok s') :
    s'.g = s.g ∨ ∃ o', Alloc.exec c.alloc s.g o' = .ok s'.g ∧
      (∀ e x pools, o' = .setup e x pools → o = .setup x pools ∧ e = env c s.f) ∧
      (∀ x add rem, o' = .updateBlocked x add rem → o = .updateBlocked x add rem) := by
  cases o with
  | factory o =>
    cases o with
    | deregister sender infos =>
      simp only [exec, deregister, notify, bind_ok_iff, Except.ok.injEq] at h
      obtain ⟨r, _, g, hg, rfl⟩ := h
      split_ifs at hg
      · exact Or.inr ⟨.deactivate c.factory (c.report r.2).lp, hg, by simp, by simp⟩
      · simp only [Except.ok.injEq] at hg; exact Or.inl hg.symm
    | own => simp only [exec, bind_ok_iff, Except.ok.injEq] at h; obtain ⟨f, _, rfl⟩ := h; exact Or.inl rfl
    | updateConfig => simp only [exec, bind_ok_iff, Except.ok.injEq] at h; obtain ⟨f, _, rfl⟩ := h; exact Or.inl rfl
    | updateTracker => simp only [exec, bind_ok_iff, Except.ok.injEq] at h; obtain ⟨f, _, rfl⟩ := h; exact Or.inl rfl
    | updatePairConfig => simp only [exec, bind_ok_iff, Except.ok.injEq] at h; obtain ⟨f, _, rfl⟩ := h; exact Or.inl rfl
    | create => simp only [exec, bind_ok_iff, Except.ok.injEq] at h; obtain ⟨f, _, rfl⟩ := h; exact Or.inl rfl
  | setup x pools =>
    simp only [exec, bind_ok_iff, Except.ok.injEq] at h
    obtain ⟨g, hg, rfl⟩ := h
    refine Or.inr ⟨_, hg, ?_, by simp⟩
    rintro e y ps he
    cases he
    exact ⟨rfl, rfl⟩
  | setRate x n =>
    simp only [exec, bind_ok_iff, Except.ok.injEq] at h
    obtain ⟨g, hg, rfl⟩ := h
    exact Or.inr ⟨_, hg, by simp, by simp⟩
  | deactivate x p =>
    simp only [exec, bind_ok_iff, Except.ok.injEq] at h
    obtain ⟨g, hg, rfl⟩ := h
    exact Or.inr ⟨_, hg, by simp, by simp⟩
  | deactivateBlocked =>
    simp only [exec, bind_ok_iff, Except.ok.injEq] at h
    obtain ⟨g, hg, rfl⟩ := h
    exact Or.inr ⟨_, hg, by simp, by simp⟩
  | updateBlocked x add rem =>
    simp only [exec, bind_ok_iff, Except.ok.injEq] at h
    obtain ⟨g, hg, rfl⟩ := h
    refine Or.inr ⟨_, hg, by simp, ?_⟩
    rintro y a r he
    cases he
    rfl

/-- What a transaction does to the factory: nothing, or its call. -/
theorem exec_f {c : Cfg A P} {s s' : State A P} {o : Op A P} (h : exec c s o = .ok s') :
    s'.f = s.f ∨ ∃ o', o = .factory o' ∧ Factory.exec c.okAddr s.f o' = .ok s'.f := by
  cases o with
  | factory o =>
    right
    refine ⟨o, rfl, ?_⟩
    cases o with
    | deregister sender infos =>
      simp only [exec, deregister, bind_ok_iff, Except.ok.injEq] at h
      obtain ⟨r, hr, g, hg, rfl⟩ := h
      simp only [Factory.exec, bind_ok_iff, Except.ok.injEq]
      exact ⟨r, hr, rfl⟩
    | own => simp only [exec, bind_ok_iff, Except.ok.injEq] at h; obtain ⟨f, hf, rfl⟩ := h; exact hf
    | updateConfig => simp only [exec, bind_ok_iff, Except.ok.injEq] at h; obtain ⟨f, hf, rfl⟩ := h; exact hf
    | updateTracker => simp only [exec, bind_ok_iff, Except.ok.injEq] at h; obtain ⟨f, hf, rfl⟩ := h; exact hf
    | updatePairConfig => simp only [exec, bind_ok_iff, Except.ok.injEq] at h; obtain ⟨f, hf, rfl⟩ := h; exact hf
    | create => simp only [exec, bind_ok_iff, Except.ok.injEq] at h; obtain ⟨f, hf, rfl⟩ := h; exact hf
  | setup => simp only [exec, bind_ok_iff, Except.ok.injEq] at h; obtain ⟨f, _, rfl⟩ := h; exact Or.inl rfl
  | setRate => simp only [exec, bind_ok_iff, Except.ok.injEq] at h; obtain ⟨f, _, rfl⟩ := h; exact Or.inl rfl
  | deactivate => simp only [exec, bind_ok_iff, Except.ok.injEq] at h; obtain ⟨f, _, rfl⟩ := h; exact Or.inl rfl
  | deactivateBlocked => simp only [exec, bind_ok_iff, Except.ok.injEq] at h; obtain ⟨f, _, rfl⟩ := h; exact Or.inl rfl
  | updateBlocked => simp only [exec, bind_ok_iff, Except.ok.injEq] at h; obtain ⟨f, _, rfl⟩ := h; exact Or.inl rfl

theorem step_f (c : Cfg A P) (s : State A P) (o : Op A P) :
    ∃ os, (step c s o).f = Factory.run c.okAddr s.f os ∧ ∀ x ∈ os, o = .factory x := by
  unfold step
  cases h : exec c s o with
  | error e => exact ⟨[], rfl, by simp⟩
  | ok s' =>
    rcases exec_f h with h1 | ⟨o', rfl, h1⟩
    · exact ⟨[], h1, by simp⟩
    · refine ⟨[o'], ?_, by simp⟩
      show s'.f = commit' s.f (Factory.exec c.okAddr s.f o')
      rw [h1]; rfl

/-- The factory's part of a joint history is a history of the factory. -/
theorem run_f (c : Cfg A P) (os : List (Op A P)) : ∀ s : State A P,
    ∃ os', (run c s os).f = Factory.run c.okAddr s.f os' ∧ ∀ x ∈ os', .factory x ∈ os := by
  induction os with
  | nil => intro s; exact ⟨[], rfl, by simp⟩
  | cons o os ih =>
    intro s
    obtain ⟨l, hl, hm⟩ := step_f c s o
    obtain ⟨l', hl', hm'⟩ := ih (step c s o)
    refine ⟨l ++ l', ?_, ?_⟩
    · show (run c (step c s o) os).f = _
      rw [hl', hl]
      simp [Factory.run, List.foldl_append]
    · intro x hx
      rcases List.mem_append.1 hx with hx | hx
      · rw [← hm x hx]; simp
      · exact List.mem_cons_of_mem _ (hm' x hx)

theorem run_allocInv {c : Cfg A P} (os : List (Op A P)) : ∀ {s : State A P}, Alloc.Inv c.alloc s.g →
    Alloc.Inv c.alloc (run c s os).g := by
  induction os with
  | nil => intro s h; exact h
  | cons o os ih =>
    intro s h
    apply ih
    refine commit'_inv (fun s : State A P => Alloc.Inv c.alloc s.g) h fun s' hs => ?_
    rcases exec_g hs with h1 | ⟨o', h1, _⟩
    · rw [h1]; exact h
    · exact (Alloc.exec_inv h o' h1).1

/-! ## Rates can always be recomputed -/

/-- The numbers in force were computed without overflow. -/
def Fit (g : Alloc.State P Info) : Prop := ∀ x ∈ g.active, g.aps * x.2 < U128 ∧ g.total ≠ 0

omit [DecidableEq A] in
theorem setRates_fit {aps total : Nat} : ∀ {l : List (P × Nat)} {rps rps' : P → Nat},
    Alloc.setRates aps total l rps = .ok rps' → ∀ x ∈ l, aps * x.2 < U128 ∧ total ≠ 0
  | [], _, _, _ => by simp
  | (q, a) :: rest, rps, rps', h => by
    simp only [Alloc.setRates, Alloc.rateFor, bind_ok_iff, u128_ok, dec256FromRatio_ok] at h
    obtain ⟨r, ⟨n, ⟨h1, rfl⟩, h2, _, rfl⟩, h⟩ := h
    intro x hx
    rcases List.mem_cons.1 hx with rfl | hx
    · exact ⟨h1, h2⟩
    · exact setRates_fit h x hx

theorem setRates_succeeds {aps total : Nat} : ∀ (l : List (P × Nat)) (rps : P → Nat),
    (∀ x ∈ l, aps * x.2 < U128 ∧ total ≠ 0) → ∃ rps', Alloc.setRates aps total l rps = .ok rps'
  | [], rps, _ => ⟨rps, rfl⟩
  | (q, a) :: rest, rps, h => by
    obtain ⟨h1, h2⟩ := h (q, a) (by simp)
    have hr : Alloc.rateFor aps total a = .ok (aps * a * DEC / total) := by
      simp only [Alloc.rateFor, bind_ok_iff, u128_ok, dec256FromRatio_ok]
      refine ⟨_, ⟨h1, rfl⟩, h2, ?_, rfl⟩
      have : aps * a * DEC / total ≤ aps * a * DEC := Nat.div_le_self _ _
      have h3 : aps * a * DEC < U128 * DEC := Nat.mul_lt_mul_of_pos_right h1 (by decide)
      have h4 : U128 * DEC ≤ U256 := by decide
      omega
    obtain ⟨r, h⟩ := setRates_succeeds rest (Function.update rps q (aps * a * DEC / total))
      (fun x hx => h x (by simp [hx]))
    refine ⟨r, ?_⟩
    simp only [Alloc.setRates, hr, ok_bind, h]

theorem allocExec_fit {c : Alloc.Cfg P Info A} {g g' : Alloc.State P Info} (hF : Fit g) (o : Alloc.Op P Info A)
    (h : Alloc.exec c g o = .ok g') : Fit g' := by
  cases o with
  | setup e sender pools =>
    simp only [Alloc.exec, Alloc.setupPools, bind_ok_iff, require_ok, exists_const, Except.ok.injEq] at h
    obtain ⟨_, _, _, _, _, _, total, _, rps, hr, rfl⟩ := h
    exact setRates_fit hr
  | setRate sender amount =>
    simp only [Alloc.exec, Alloc.setTokensPerSecond, bind_ok_iff, require_ok, exists_const, Except.ok.injEq] at h
    obtain ⟨_, rps, hr, rfl⟩ := h
    exact setRates_fit hr
  | deactivate sender p =>
    simp only [Alloc.exec, Alloc.deactivatePool, bind_ok_iff, require_ok, exists_const] at h
    obtain ⟨_, h⟩ := h
    split at h
    · simp only [Except.ok.injEq] at h; subst h; exact hF
    · simp only [bind_ok_iff, orErr_ok, csub_ok, Except.ok.injEq] at h
      obtain ⟨x, hx, total, ⟨_, rfl⟩, rps, hr, rfl⟩ := h
      exact setRates_fit hr
  | deactivateBlocked e =>
    simp only [Alloc.exec, Alloc.deactivateBlockedPools, bind_ok_iff] at h
    obtain ⟨total, ht, h⟩ := h
    split at h
    · simp only [Except.ok.injEq] at h; subst h; exact hF
    · simp only [bind_ok_iff, Except.ok.injEq] at h
      obtain ⟨rps, hr, rfl⟩ := h
      exact setRates_fit hr
  | updateBlocked sender add remove =>
    simp only [Alloc.exec, Alloc.updateBlocked, bind_ok_iff, require_ok, exists_const] at h
    obtain ⟨_, _, b, hb, bd, hbd, h⟩ := h
    split at h
    · simp only [Except.ok.injEq] at h; subst h; exact hF
    · simp only [bind_ok_iff, csub_ok, Except.ok.injEq] at h
      obtain ⟨red, hred, total, ⟨_, rfl⟩, rps, hr, rfl⟩ := h
      exact setRates_fit hr

/-- Holds in every history of the two contracts. -/
structure Inv (c : Cfg A P) (s : State A P) : Prop where
  alloc : Alloc.Inv c.alloc s.g
  fit : Fit s.g

theorem exec_inv {c : Cfg A P} {s s' : State A P} (hI : Inv c s) {o : Op A P} (h : exec c s o = .ok s') : Inv c s' := by
  rcases exec_g h with h1 | ⟨o', h1, _⟩
  · exact ⟨h1 ▸ hI.alloc, h1 ▸ hI.fit⟩
  · exact ⟨(Alloc.exec_inv hI.alloc o' h1).1, allocExec_fit hI.fit o' h1⟩

theorem run_inv {c : Cfg A P} (os : List (Op A P)) : ∀ {s : State A P}, Inv c s → Inv c (run c s os) := by
  induction os with
  | nil => intro s h; exact h
  | cons o os ih => intro s h; exact ih (commit'_inv (Inv c) h fun s' hs => exec_inv h hs)

omit [DecidableEq A] in
theorem start_inv (c : Cfg A P) (f : Factory.State A) : Inv c (start f) :=
  ⟨Alloc.init_inv _, by intro x hx; simp [start, Alloc.State.init] at hx⟩

/-! ## Only registered pools -/

/-- Deregistrations are announced to this incentives contract, and at that time ASTRO is being emitted (enough that every
active pool's share is a positive rate). -/
def Careful (c : Cfg A P) (s : State A P) : Op A P → Prop
  | .factory (.deregister _ _) => s.f.config.generator = some c.incentives ∧ s.g.total ≤ s.g.aps * DEC
  | _ => True

/-- The same along a history. -/
def CarefulHistory (c : Cfg A P) : State A P → List (Op A P) → Prop
  | _, [] => True
  | s, o :: os => Careful c s o ∧ CarefulHistory c (step c s o) os

omit [DecidableEq A] in
theorem registered_mono {c : Cfg A P} {f f' : Factory.State A} {p : P}
    (h : ∀ i, c.info p = some i → ∀ a, queryPair f i.assets = some a → queryPair f' i.assets = some a)
    (hr : registered c f p = true) : registered c f' p = true := by
  unfold registered at *
  cases hi : c.info p with
  | none => rw [hi] at hr; simp at hr
  | some i =>
    rw [hi] at hr
    simp only at hr ⊢
    cases ha : queryPair f i.assets with
    | none => rw [ha] at hr; simp at hr
    | some a =>
      rw [ha] at hr
      rw [h i hi a ha]
      exact hr

theorem exec_registered {c : Cfg A P} {s s' : State A P} (hI : Inv c s)
    (hR : ∀ x ∈ s.g.active, registered c s.f x.1 = true) {o : Op A P} (hc : Careful c s o) (h : exec c s o = .ok s') :
    ∀ x ∈ s'.g.active, registered c s'.f x.1 = true := by
  have hfac : ∀ o', (∀ k, ¬Deregisters k o') → Factory.exec c.okAddr s.f o' = .ok s'.f → s'.g = s.g →
      ∀ x ∈ s'.g.active, registered c s'.f x.1 = true := by
    intro o' hd hf hg x hx
    rw [hg] at hx
    refine registered_mono (f := s.f) (fun i _ a ha => ?_) (hR x hx)
    have := C35_stays_registered c.okAddr i.assets a [o'] s.f ha (by simp [hd])
    simpa [Factory.run, Factory.step, hf, commit'] using this
  cases o with
  | factory o =>
    cases o with
    | deregister sender infos =>
      simp only [exec, deregister, bind_ok_iff, Except.ok.injEq] at h
      obtain ⟨r, hr, g, hg, rfl⟩ := h
      obtain ⟨_, _, hk, hf⟩ := deregister_ok.1 hr
      obtain ⟨hgen, htot⟩ := hc
      rw [notify, if_pos hgen] at hg
      intro x hx
      have hsub := (Alloc.exec_inv (c := c.alloc) hI.alloc (.deactivate c.factory (c.report r.2).lp) hg).2
      have hxa : x ∈ s.g.active := by
        rcases hsub with ⟨_, _, _, he, _⟩ | hsub
        · simp at he
        · exact hsub x hx
      have hreg := hR x hxa
      refine registered_mono (f := s.f) (fun i hi a ha => ?_) hreg
      rw [hf]
      unfold queryPair at ha ⊢
      rw [kvGet_remove, if_neg]
      · exact ha
      intro he
      rw [he, hk] at ha
      -- the removed pair is that of `x`
      have hlp : (c.report r.2).lp = x.1 := by
        unfold registered at hreg
        rw [hi] at hreg
        simp only [queryPair, he, hk] at hreg
        simpa using hreg
      have hrate : s.g.rps x.1 ≠ 0 := by
        rw [hI.alloc.rate x hxa]
        have h1 := hI.alloc.pos x hxa
        have h2 := (hI.fit x hxa).2
        have h3 : s.g.total ≤ s.g.aps * x.2 * DEC := by
          refine Nat.le_trans htot ?_
          exact Nat.mul_le_mul_right _ (Nat.le_mul_of_pos_right _ (Nat.pos_of_ne_zero h1))
        exact Nat.ne_of_gt (Nat.div_pos h3 (Nat.pos_of_ne_zero h2))
      simp only [Alloc.deactivatePool, bind_ok_iff, require_ok, exists_const, hlp, if_neg hrate, orErr_ok, csub_ok,
        Except.ok.injEq] at hg
      obtain ⟨_, y, hy, total, ⟨_, rfl⟩, rps, hr', rfl⟩ := hg
      have hyp : y.1 = x.1 := by simpa using List.find?_some hy
      have := ((Alloc.swapRemove_perm hy).map Prod.fst).nodup_iff.2 hI.alloc.nodup
      rw [List.map_cons, List.nodup_cons, hyp] at this
      exact this.1 (List.mem_map_of_mem hx)
    | own t => simp only [exec, bind_ok_iff, Except.ok.injEq] at h; obtain ⟨f, hf, rfl⟩ := h; exact hfac _ (by simp [Deregisters]) hf rfl
    | updateConfig => simp only [exec, bind_ok_iff, Except.ok.injEq] at h; obtain ⟨f, hf, rfl⟩ := h; exact hfac _ (by simp [Deregisters]) hf rfl
    | updateTracker => simp only [exec, bind_ok_iff, Except.ok.injEq] at h; obtain ⟨f, hf, rfl⟩ := h; exact hfac _ (by simp [Deregisters]) hf rfl
    | updatePairConfig => simp only [exec, bind_ok_iff, Except.ok.injEq] at h; obtain ⟨f, hf, rfl⟩ := h; exact hfac _ (by simp [Deregisters]) hf rfl
    | create => simp only [exec, bind_ok_iff, Except.ok.injEq] at h; obtain ⟨f, hf, rfl⟩ := h; exact hfac _ (by simp [Deregisters]) hf rfl
  | setup x pools =>
    simp only [exec, bind_ok_iff, Except.ok.injEq] at h
    obtain ⟨g, hg, rfl⟩ := h
    simp only [Alloc.exec, Alloc.setupPools, bind_ok_iff, require_ok, exists_const, Except.ok.injEq] at hg
    obtain ⟨_, _, _, hreg, _, _, total, _, rps, _, rfl⟩ := hg
    exact hreg
  | setRate x n =>
    simp only [exec, bind_ok_iff, Except.ok.injEq] at h
    obtain ⟨g, hg, rfl⟩ := h
    rcases (Alloc.exec_inv hI.alloc _ hg).2 with ⟨_, _, _, he, _⟩ | hs
    · simp at he
    · exact fun x hx => hR x (hs x hx)
  | deactivate x n =>
    simp only [exec, bind_ok_iff, Except.ok.injEq] at h
    obtain ⟨g, hg, rfl⟩ := h
    rcases (Alloc.exec_inv hI.alloc _ hg).2 with ⟨_, _, _, he, _⟩ | hs
    · simp at he
    · exact fun x hx => hR x (hs x hx)
  | deactivateBlocked =>
    simp only [exec, bind_ok_iff, Except.ok.injEq] at h
    obtain ⟨g, hg, rfl⟩ := h
    rcases (Alloc.exec_inv hI.alloc _ hg).2 with ⟨_, _, _, he, _⟩ | hs
    · simp at he
    · exact fun x hx => hR x (hs x hx)
  | updateBlocked x a r =>
    simp only [exec, bind_ok_iff, Except.ok.injEq] at h
    obtain ⟨g, hg, rfl⟩ := h
    rcases (Alloc.exec_inv hI.alloc _ hg).2 with ⟨_, _, _, he, _⟩ | hs
    · simp at he
    · exact fun x hx => hR x (hs x hx)

theorem run_registered {c : Cfg A P} (os : List (Op A P)) : ∀ {s : State A P}, Inv c s →
    (∀ x ∈ s.g.active, registered c s.f x.1 = true) → CarefulHistory c s os →
    ∀ x ∈ (run c s os).g.active, registered c (run c s os).f x.1 = true := by
  induction os with
  | nil => intro s _ h _; exact h
  | cons o os ih =>
    intro s hI hR hc
    refine ih (run_inv [o] hI) ?_ hc.2
    show ∀ x ∈ (step c s o).g.active, registered c (step c s o).f x.1 = true
    unfold step
    cases he : exec c s o with
    | error e => exact hR
    | ok s' => exact exec_registered hI hR hc.1 he

/-- C158, partial: in every history of factory and incentives contract in which pairs are deregistered only while the
factory knows the incentives contract and ASTRO is emitted, a pool receives ASTRO only while the factory lists, under the
assets of the pool, a pair whose LP token is the pool's. -/
theorem C158_only_registered_pools_partial (c : Cfg A P) (f : Factory.State A) (os : List (Op A P))
    (hc : CarefulHistory c (start f) os) (p : P) (hp : (run c (start f) os).g.rps p ≠ 0) :
    ∃ m a, c.minter p = some m ∧ queryPair (run c (start f) os).f (c.report m).assets = some a ∧ (c.report a).lp = p := by
  have hI := run_inv (c := c) os (start_inv c f)
  have hm : p ∈ (run c (start f) os).g.active.map Prod.fst := by
    by_contra hn
    exact hp (hI.alloc.off p hn)
  obtain ⟨x, hx, rfl⟩ := List.mem_map.1 hm
  have h := run_registered (c := c) os (start_inv c f) (by intro x hx; simp [start, Alloc.State.init] at hx) hc x hx
  unfold registered Cfg.info at h
  cases hmin : c.minter x.1 with
  | none => rw [hmin] at h; simp at h
  | some m =>
    rw [hmin] at h
    simp only [Option.map_some] at h
    cases ha : queryPair (run c (start f) os).f (c.report m).assets with
    | none => rw [ha] at h; simp at h
    | some a => rw [ha] at h; exact ⟨m, a, rfl, ha, by simpa using h⟩

/-! ## Deregistration goes through, and stops the pool's ASTRO -/

/-- No single call blocks two tokens of one active pool (otherwise the stored total of points goes wrong, C33). -/
def OneEach (c : Cfg A P) (s : State A P) : Op A P → Prop
  | .updateBlocked _ add _ => ∀ x ∈ s.g.active, ∀ i, c.info x.1 = some i →
      ∀ t ∈ add, ∀ t' ∈ add, t ∈ i.assets → t' ∈ i.assets → t = t'
  | _ => True

/-- The same along a history. -/
def OneEachHistory (c : Cfg A P) : State A P → List (Op A P) → Prop
  | _, [] => True
  | s, o :: os => OneEach c s o ∧ OneEachHistory c (step c s o) os

theorem exec_total {c : Cfg A P} {s s' : State A P} (hI : Inv c s) (ht : s.g.total = Alloc.pts s.g.active) {o : Op A P}
    (ho : OneEach c s o) (h : exec c s o = .ok s') : s'.g.total = Alloc.pts s'.g.active := by
  rcases exec_g h with h1 | ⟨o', h1, _, h3⟩
  · rw [h1]; exact ht
  · refine Alloc.exec_total hI.alloc ht o' ?_ h1
    cases o' with
    | updateBlocked x add rem =>
      rw [h3 x add rem rfl] at ho
      intro x hx t ht t' ht' h1 h2
      simp only [Cfg.alloc] at h1 h2
      cases hi : c.info x.1 with
      | none => rw [hi] at h1; simp at h1
      | some i =>
        rw [hi] at h1 h2
        exact ho x hx i hi t ht t' ht' (by simpa using h1) (by simpa using h2)
    | _ => trivial

theorem run_total {c : Cfg A P} (os : List (Op A P)) : ∀ {s : State A P}, Inv c s → s.g.total = Alloc.pts s.g.active →
    OneEachHistory c s os → (run c s os).g.total = Alloc.pts (run c s os).g.active := by
  induction os with
  | nil => intro s _ h _; exact h
  | cons o os ih =>
    intro s hI h hd
    refine ih (run_inv [o] hI) ?_ hd.2
    show (step c s o).g.total = Alloc.pts (step c s o).g.active
    unfold step
    cases he : exec c s o with
    | error e => exact h
    | ok s' => exact exec_total hI h hd.1 he

omit [DecidableEq P] in
theorem pts_mem {l : List (P × Nat)} {x : P × Nat} (h : x ∈ l) : x.2 ≤ Alloc.pts l :=
  List.single_le_sum (fun _ _ => Nat.zero_le _) _ (List.mem_map_of_mem h)

theorem deactivate_succeeds {c : Alloc.Cfg P Info A} {g : Alloc.State P Info} (hI : Alloc.Inv c g) (hF : Fit g)
    (ht : g.total = Alloc.pts g.active) (p : P) :
    ∃ g', Alloc.deactivatePool c g c.factory p = .ok g' := by
  unfold Alloc.deactivatePool
  by_cases hr : g.rps p = 0
  · exact ⟨g, by simp only [bind_ok_iff, require_ok, exists_const, if_pos hr, true_and]⟩
  · have hm : p ∈ g.active.map Prod.fst := by
      by_contra hn; exact hr (hI.off p hn)
    obtain ⟨y, hy, hyp⟩ := List.mem_map.1 hm
    obtain ⟨x, hx⟩ : ∃ x, g.active.find? (fun x => decide (x.1 = p)) = some x := by
      cases hf : g.active.find? (fun x => decide (x.1 = p)) with
      | some x => exact ⟨x, rfl⟩
      | none => exact absurd (List.find?_eq_none.1 hf y hy) (by simp [hyp])
    have hperm := Alloc.swapRemove_perm hx
    have hpts := Alloc.pts_perm hperm
    have hle : x.2 ≤ g.total := by rw [ht]; exact pts_mem (List.mem_of_find?_eq_some hx)
    have hrest : g.total - x.2 = Alloc.pts (Alloc.swapRemove p g.active) := by
      simp only [Alloc.pts, List.map_cons, List.sum_cons] at hpts ht ⊢
      omega
    obtain ⟨rps, hrps⟩ := setRates_succeeds (aps := g.aps) (total := g.total - x.2) (Alloc.swapRemove p g.active)
      (Alloc.disable [p] g.rps) (by
        intro z hz
        have hza : z ∈ g.active := hperm.subset (by simp [hz])
        refine ⟨(hF z hza).1, ?_⟩
        rw [hrest]
        have h1 := pts_mem hz
        have h2 := hI.pos z hza
        omega)
    refine ⟨{ g with active := Alloc.swapRemove p g.active, total := g.total - x.2, rps := rps }, ?_⟩
    · simp only [bind_ok_iff, require_ok, exists_const, if_neg hr, orErr_ok, csub_ok, Except.ok.injEq]
      exact ⟨trivial, x, hx, _, ⟨hle, rfl⟩, rps, hrps, rfl⟩

/-- C158, partial: in every history in which no call blocks two tokens of one pool, the factory's owner can deregister every
registered pair. -/
theorem C158_deregister_available_partial (c : Cfg A P) (f : Factory.State A) (os : List (Op A P))
    (hd : OneEachHistory c (start f) os) (infos : List Info) (hn : infos.Nodup)
    (hv : ∀ a ∈ infos, a.check c.okAddr = .ok ()) {a : A}
    (ha : queryPair (run c (start f) os).f infos = some a) :
    ∃ s', exec c (run c (start f) os) (.factory (.deregister (run c (start f) os).f.own.owner infos)) = .ok s' ∧
      queryPair s'.f infos = none := by
  have hI := run_inv (c := c) os (start_inv c f)
  have ht := run_total (c := c) os (start_inv c f) rfl hd
  generalize run c (start f) os = s at *
  have hr : Factory.deregister c.okAddr s.f s.f.own.owner infos =
      .ok ({ s.f with pairs := kvRemove (pairKey infos) s.f.pairs }, a) :=
    deregister_ok.2 ⟨⟨hn, hv⟩, rfl, ha, rfl⟩
  obtain ⟨g, hg⟩ : ∃ g, notify c s.f s.g a = .ok g := by
    unfold notify
    split
    · exact deactivate_succeeds hI.alloc hI.fit ht _
    · exact ⟨_, rfl⟩
  refine ⟨⟨{ s.f with pairs := kvRemove (pairKey infos) s.f.pairs }, g⟩, ?_, ?_⟩
  · simp only [exec, deregister, hr, ok_bind, hg]
  · show kvGet (pairKey infos) (kvRemove (pairKey infos) s.f.pairs) = none
    rw [kvGet_remove, if_pos rfl]

/-- C158: deregistering a pair whose pool receives ASTRO stops it at once, leaves the other pools active with their points,
and shares the unchanged emission among these by the stored points. -/
theorem C158_deregister_stops (c : Cfg A P) (f : Factory.State A) (os : List (Op A P)) (sender a : A) (infos : List Info)
    (s' : State A P) (ha : queryPair (run c (start f) os).f infos = some a)
    (hg : (run c (start f) os).f.config.generator = some c.incentives)
    (hr : (run c (start f) os).g.rps (c.report a).lp ≠ 0)
    (h : exec c (run c (start f) os) (.factory (.deregister sender infos)) = .ok s') :
    s'.g.rps (c.report a).lp = 0 ∧ s'.g.aps = (run c (start f) os).g.aps ∧
    (∀ x, x ∈ s'.g.active ↔ x ∈ (run c (start f) os).g.active ∧ x.1 ≠ (c.report a).lp) ∧
    (∀ x ∈ s'.g.active, s'.g.rps x.1 = s'.g.aps * x.2 * DEC / s'.g.total) ∧
    (OneEachHistory c (start f) os → s'.g.total = (s'.g.active.map Prod.snd).sum) := by
  have hI := run_inv (c := c) os (start_inv c f)
  have ht : OneEachHistory c (start f) os → _ := run_total (c := c) os (start_inv c f) rfl
  generalize run c (start f) os = s at *
  have hI' := exec_inv hI h
  refine ⟨?A, ?B, ?C, hI'.alloc.rate, fun hd => exec_total hI (ht hd) (o := .factory (.deregister sender infos)) trivial h⟩
  all_goals
    simp only [exec, deregister, bind_ok_iff, Except.ok.injEq] at h
    obtain ⟨r, hdr, g, hn, rfl⟩ := h
    obtain ⟨_, _, hk, _⟩ := deregister_ok.1 hdr
    have hra : r.2 = a := by
      unfold queryPair at ha
      rw [hk] at ha
      exact Option.some.inj ha
    rw [notify, if_pos hg, hra] at hn
    simp only [Alloc.deactivatePool, bind_ok_iff, require_ok, exists_const, if_neg hr, orErr_ok, csub_ok,
      Except.ok.injEq] at hn
    obtain ⟨_, y, hy, total, ⟨_, rfl⟩, rps, hr', rfl⟩ := hn
    have hyp : y.1 = (c.report a).lp := by simpa using List.find?_some hy
    have hperm := Alloc.swapRemove_perm hy
    have hnd := (hperm.map Prod.fst).nodup_iff.2 hI.alloc.nodup
    rw [List.map_cons, List.nodup_cons, hyp] at hnd
  case A => exact hI'.alloc.off _ hnd.1
  case C =>
    intro x
    constructor
    · intro hx
      refine ⟨hperm.subset (List.mem_cons_of_mem _ hx), ?_⟩
      intro he
      have hm := List.mem_map_of_mem (f := Prod.fst) hx
      rw [he] at hm
      exact hnd.1 hm
    · rintro ⟨hx, hne⟩
      rcases List.mem_cons.1 (hperm.symm.subset hx) with rfl | hx
      · exact absurd hyp hne
      · exact hx

/-! ## Excluded pair types -/

/-- Does the transaction change the configuration of a pair type? -/
def SetsType : Op A P → Prop
  | .factory (.updatePairConfig _ _) => True
  | _ => False

theorem exec_pairConfigs {c : Cfg A P} {s s' : State A P} {o : Op A P} (ho : ¬SetsType o) (h : exec c s o = .ok s') :
    s'.f.pairConfigs = s.f.pairConfigs := by
  rcases exec_f h with h1 | ⟨o', rfl, hs⟩
  · rw [h1]
  · cases o' with
    | own t =>
      simp only [Factory.exec, bind_ok_iff, Except.ok.injEq] at hs
      obtain ⟨_, _, hs⟩ := hs; rw [← hs]
    | updateConfig sender new =>
      simp only [Factory.exec, updateConfig, bind_ok_iff, require_ok, exists_const, Except.ok.injEq] at hs
      obtain ⟨_, hs⟩ := hs; rw [← hs]
    | updateTracker sender code tf =>
      simp only [Factory.exec, updateTracker, bind_ok_iff, require_ok, exists_const] at hs
      obtain ⟨_, hs⟩ := hs
      split at hs
      · simp only [Except.ok.injEq] at hs; rw [← hs]
      · simp only [bind_ok_iff, Except.ok.injEq] at hs
        obtain ⟨_, _, hs⟩ := hs; rw [← hs]
    | updatePairConfig sender p => exact absurd trivial ho
    | create sender t l inst =>
      obtain ⟨_, _, _, q, _, hs⟩ := create_ok.1 hs; rw [hs]
    | deregister sender l =>
      simp only [Factory.exec, bind_ok_iff, Except.ok.injEq] at hs
      obtain ⟨x, hx, hs⟩ := hs
      obtain ⟨_, _, _, h4⟩ := deregister_ok.1 hx
      rw [← hs, h4]

/-- No active pool is of an excluded type. -/
def Clean (c : Cfg A P) (s : State A P) : Prop := ∀ x ∈ s.g.active, excluded c s.f x.1 = false

theorem exec_clean {c : Cfg A P} {s s' : State A P} (hI : Inv c s) (hC : Clean c s) {o : Op A P} (ho : ¬SetsType o)
    (h : exec c s o = .ok s') : Clean c s' := by
  have hb : ∀ p, excluded c s'.f p = excluded c s.f p := by
    intro p
    unfold excluded queryBlacklisted
    rw [exec_pairConfigs ho h]
  intro x hx
  rw [hb]
  rcases exec_g h with h1 | ⟨o', h1, h2, _⟩
  · rw [h1] at hx; exact hC x hx
  · rcases (Alloc.exec_inv hI.alloc o' h1).2 with ⟨e, sender, pools, rfl, hp⟩ | hs
    · obtain ⟨_, rfl⟩ := h2 e sender pools rfl
      simp only [Alloc.exec, Alloc.setupPools, bind_ok_iff, require_ok, exists_const] at h1
      rw [hp] at hx
      exact h1.2.2.2.2.2.1 x hx
    · exact hC x (hs x hx)

theorem run_clean {c : Cfg A P} (os : List (Op A P)) : ∀ {s : State A P}, Inv c s → Clean c s → (∀ o ∈ os, ¬SetsType o) →
    Clean c (run c s os) := by
  induction os with
  | nil => intro s _ h _; exact h
  | cons o os ih =>
    intro s hI hC ho
    refine ih (run_inv [o] hI) ?_ (fun o h => ho o (by simp [h]))
    exact commit'_inv (Clean c) hC fun s' hs => exec_clean hI hC (ho o (by simp)) hs

theorem sweep_clean {c : Cfg A P} {s s' : State A P} (h : exec c s .deactivateBlocked = .ok s') : Clean c s' := by
  simp only [exec, Alloc.exec, Alloc.deactivateBlockedPools, bind_ok_iff, Except.ok.injEq] at h
  obtain ⟨g, ⟨total, _, hg⟩, rfl⟩ := h
  intro x hx
  show excluded c s.f x.1 = false
  by_contra hne
  have hne : (env c s.f).blacklisted x.1 = true := eq_true_of_ne_false hne
  split_ifs at hg with hnil
  · simp only [Except.ok.injEq] at hg
    subst hg
    have : x ∈ s.g.active.filter (fun x => (env c s.f).blacklisted x.1) := List.mem_filter.2 ⟨hx, hne⟩
    rw [hnil] at this
    simp at this
  · simp only [bind_ok_iff, Except.ok.injEq] at hg
    obtain ⟨rps, _, rfl⟩ := hg
    obtain ⟨hxa, hx⟩ := List.mem_filter.1 hx
    refine of_decide_eq_true hx ?_
    exact List.mem_map_of_mem (List.mem_filter.2 ⟨hxa, hne⟩)

/-- C158: once anybody has called `DeactivateBlockedPools`, and until a pair type is configured anew, no pool of a type that
is disabled or excluded from rewards receives ASTRO; in particular no such pool can be set up. -/
theorem C158_excluded_types_get_nothing (c : Cfg A P) (owner : A) (config : Factory.Config A) (pcs : List PairConfig)
    (f : Factory.State A) (hf : Factory.instantiate owner config pcs = .ok f) (before after : List (Op A P))
    (s' : State A P) (h : exec c (run c (start f) before) .deactivateBlocked = .ok s') (ho : ∀ o ∈ after, ¬SetsType o)
    (p : P) (hp : (run c s' after).g.rps p ≠ 0) :
    ∃ m, c.minter p = some m ∧ ∀ pc, kvGet (c.report m).type.name (run c s' after).f.pairConfigs = some pc →
      pc.isDisabled = false ∧ pc.isGeneratorDisabled = false := by
  have hI := exec_inv (run_inv (c := c) before (start_inv c f)) h
  have hC := run_clean (c := c) after hI (sweep_clean h) ho
  have hI2 := run_inv (c := c) after hI
  have hm : p ∈ (run c s' after).g.active.map Prod.fst := by
    by_contra hn
    exact hp (hI2.alloc.off p hn)
  obtain ⟨x, hx, rfl⟩ := List.mem_map.1 hm
  have hx := hC x hx
  have heq : run c s' after = run c (start f) (before ++ [.deactivateBlocked] ++ after) := by
    simp only [run, List.foldl_append, List.foldl_cons, List.foldl_nil]
    congr 1
    show s' = commit' _ (exec c (run c (start f) before) .deactivateBlocked)
    rw [h]; rfl
  obtain ⟨os, hos, _⟩ := run_f c (before ++ [.deactivateBlocked] ++ after) (start f)
  have hex := (C38_excluded_types c.okAddr owner config pcs f hf os).1
  rw [← heq] at hos
  change _ = Factory.run c.okAddr f os at hos
  rw [← hos] at hex
  unfold excluded Cfg.info at hx
  cases hmin : c.minter x.1 with
  | none => rw [hmin] at hx; simp at hx
  | some m =>
    rw [hmin] at hx
    simp only [Option.map_some, decide_eq_false_iff_not] at hx
    refine ⟨m, rfl, fun pc hpc => ?_⟩
    by_contra hcon
    refine hx ((hex _).2 ⟨pc, hpc, ?_⟩)
    cases h1 : pc.isDisabled <;> cases h2 : pc.isGeneratorDisabled <;> simp_all

theorem subAll_succeeds : ∀ (l : List Nat) (t : Nat), l.sum ≤ t → Alloc.subAll t l = .ok (t - l.sum)
  | [], t, _ => by simp [Alloc.subAll]
  | a :: l, t, h => by
    simp only [List.sum_cons] at h
    have h1 : csub t a = .ok (t - a) := by rw [csub_ok]; exact ⟨by omega, rfl⟩
    simp only [Alloc.subAll, h1, ok_bind]
    rw [subAll_succeeds l (t - a) (by omega), List.sum_cons, Nat.sub_sub]

/-- C158, partial: in every history in which no call blocks two tokens of one pool, `DeactivateBlockedPools` succeeds. -/
theorem C158_sweep_available_partial (c : Cfg A P) (f : Factory.State A) (os : List (Op A P))
    (hd : OneEachHistory c (start f) os) : ∃ s', exec c (run c (start f) os) .deactivateBlocked = .ok s' := by
  have hI := run_inv (c := c) os (start_inv c f)
  have ht := run_total (c := c) os (start_inv c f) rfl hd
  generalize run c (start f) os = s at *
  have hsplit := Alloc.pts_filter s.g.active (fun x => (env c s.f).blacklisted x.1)
  have hsub := subAll_succeeds ((s.g.active.filter (fun x => (env c s.f).blacklisted x.1)).map Prod.snd) s.g.total (by
    simp only [Alloc.pts] at *; omega)
  suffices hS : ∃ g, Alloc.exec c.alloc s.g (.deactivateBlocked (env c s.f)) = .ok g by
    obtain ⟨g, hg⟩ := hS
    exact ⟨{ s with g := g }, by simp only [exec, hg, ok_bind]⟩
  simp only [Alloc.exec, Alloc.deactivateBlockedPools, hsub, ok_bind]
  split
  · exact ⟨_, rfl⟩
  · rename_i hne
    have hle : ∀ z ∈ s.g.active.filter (fun x => decide (x.1 ∉ (s.g.active.filter
        (fun x => (env c s.f).blacklisted x.1)).map Prod.fst)),
        s.g.aps * z.2 < U128 ∧ s.g.total - ((s.g.active.filter (fun x => (env c s.f).blacklisted x.1)).map Prod.snd).sum ≠ 0 := by
      intro z hz
      obtain ⟨hza, hz⟩ := List.mem_filter.1 hz
      have hz := of_decide_eq_true hz
      refine ⟨(hI.fit z hza).1, ?_⟩
      have hz' : z ∈ s.g.active.filter (fun x => !(env c s.f).blacklisted x.1) := by
        refine List.mem_filter.2 ⟨hza, ?_⟩
        cases hb : (env c s.f).blacklisted z.1
        · rfl
        · exact absurd (List.mem_map_of_mem (List.mem_filter.2 ⟨hza, hb⟩)) hz
      have h1 := pts_mem hz'
      have h2 := hI.alloc.pos z hza
      simp only [Alloc.pts] at *
      omega
    obtain ⟨rps, hrps⟩ := setRates_succeeds _ (Alloc.disable ((s.g.active.filter
      (fun x => (env c s.f).blacklisted x.1)).map Prod.fst) s.g.rps) hle
    exact ⟨_, by simp only [hrps, ok_bind]; rfl⟩

section Witness

/-- Pool `p` is minted by pair `p`; pair `20` trades `uluna` and `uusd`, pair `21` `uatom` and `uosmo`. -/
def wCfg : Cfg Nat Nat where
  owner := 0
  controller := none
  guardian := none
  astro := .native "uastro".toList
  factory := 1
  incentives := 2
  minter := fun p => some p
  report := fun a => ⟨if a = 20 then [.native "uluna".toList, .native "uusd".toList]
    else [.native "uatom".toList, .native "uosmo".toList], a, .xyk⟩
  okAddr := fun _ => true

/-- A factory that knows the incentives contract. -/
def wFactory : Factory.State Nat := ⟨⟨0, none⟩, ⟨1, none, some 2, 2, 3, none⟩, [(PairType.xyk.name, ⟨7, .xyk, 30, 3000, false, false, false⟩)], []⟩

/-- It is an instantiated one. -/
example : Factory.instantiate 0 (⟨1, none, some 2, 2, 3, none⟩ : Factory.Config Nat) [⟨7, .xyk, 30, 3000, false, false, false⟩] =
    .ok wFactory := by rfl

/-- Two pairs are created and their pools set up. -/
def wSetup : List (Op Nat Nat) :=
  [.factory (.create 5 .xyk [.native "uluna".toList, .native "uusd".toList] (some 20)),
   .factory (.create 6 .xyk [.native "uosmo".toList, .native "uatom".toList] (some 21)),
   .setup 0 [(20, 10), (21, 90)]]

/-- Then ASTRO is emitted, and the second pair is deregistered. -/
def wOps : List (Op Nat Nat) :=
  wSetup ++ [.setRate 0 100, .factory (.deregister 0 [.native "uatom".toList, .native "uosmo".toList])]

/-- The hypotheses of the theorems above: the history is careful and blocks no two tokens of one pool; the deregistered pool
had received ASTRO, afterwards only the first one does. -/
example : CarefulHistory wCfg (start wFactory) wOps ∧ OneEachHistory wCfg (start wFactory) wOps := by
  refine ⟨⟨trivial, trivial, trivial, trivial, ⟨?_, ?_⟩, trivial⟩, ⟨trivial, trivial, trivial, trivial, trivial, trivial⟩⟩
  · rfl
  · show (run wCfg (start wFactory) (wOps.take 4)).g.total ≤ (run wCfg (start wFactory) (wOps.take 4)).g.aps * DEC
    decide +kernel

example : (run wCfg (start wFactory) (wOps.take 4)).g.rps 21 = 90 * DEC ∧
    queryPair (run wCfg (start wFactory) (wOps.take 4)).f [.native "uosmo".toList, .native "uatom".toList] = some 21 ∧
    (run wCfg (start wFactory) wOps).g.rps 21 = 0 ∧ (run wCfg (start wFactory) wOps).g.rps 20 = 100 * DEC ∧
    queryPair (run wCfg (start wFactory) wOps).f [.native "uosmo".toList, .native "uatom".toList] = none := by
  decide +kernel

/-- Excluding the type does nothing by itself; then anybody's call ends the emissions. -/
def wExclude : List (Op Nat Nat) :=
  wSetup ++ [.setRate 0 100, .factory (.updatePairConfig 0 ⟨7, .xyk, 30, 3000, false, true, false⟩)]

example : (run wCfg (start wFactory) wExclude).g.rps 21 = 90 * DEC ∧
    okAnd (exec wCfg (run wCfg (start wFactory) wExclude) .deactivateBlocked) (fun s =>
      decide (s.g.rps 21 = 0 ∧ s.g.rps 20 = 0 ∧ s.g.active = [])) = true := by decide +kernel

/-- C158 is violated when the pair is deregistered while nothing is emitted: its pool stays active, and once the emission
is switched on it receives ASTRO although no pair with its assets is registered. -/
theorem C158_unregistered_pool_paid_violated :
    let s := run wCfg (start wFactory) (wSetup ++
      [.factory (.deregister 0 [.native "uatom".toList, .native "uosmo".toList]), .setRate 0 100])
    s.g.rps 21 = 90 * DEC ∧ queryPair s.f [.native "uatom".toList, .native "uosmo".toList] = none := by
  decide +kernel

/-- C158 is violated when the factory does not know the incentives contract: the pool of a deregistered pair goes on
receiving ASTRO. -/
theorem C158_unannounced_deregistration_violated :
    let f := { wFactory with config := { wFactory.config with generator := none } }
    let s := run wCfg (start f) wOps
    s.g.rps 21 = 90 * DEC ∧ queryPair s.f [.native "uatom".toList, .native "uosmo".toList] = none := by
  decide +kernel

/-- C158 is violated after a call that blocked both tokens of one pool: the stored total of points is too small, and then
neither can the owner deregister the other pair nor can anybody remove excluded pools. -/
theorem C158_deregister_blocked_violated :
    let s := run wCfg (start wFactory) (wSetup ++ [.setRate 0 9,
      .updateBlocked 0 [.native "uluna".toList, .native "uusd".toList] [],
      .factory (.updatePairConfig 0 ⟨7, .xyk, 30, 3000, false, true, false⟩)])
    queryPair s.f [.native "uatom".toList, .native "uosmo".toList] = some 21 ∧ s.g.active = [(21, 90)] ∧ s.g.total = 80 ∧
    fails (exec wCfg s (.factory (.deregister 0 [.native "uatom".toList, .native "uosmo".toList]))) = true ∧
    fails (exec wCfg s .deactivateBlocked) = true := by
  decide +kernel

end Witness

end Verif.Joint.Registry
