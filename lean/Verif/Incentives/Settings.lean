import Verif.Incentives.Alloc

/-!
# Incentives: changing the settings (C150)

Models `update_config` (`contracts/tokenomics/incentives/src/execute.rs:381-466`), the settings written by
`instantiate` (`contracts/tokenomics/incentives/src/instantiate.rs:15-50`), and the name of the protocol reward that each
pool carries (`RewardType::Int(astro_token)`, given by `set_astro_rewards`,
`contracts/tokenomics/incentives/src/state.rs:211-228`), joined to the distribution of `Verif.Incentives.Alloc`.
Transfer of ownership is modelled in `Verif.Ownership`; here the owner can change by an event that stands for a completed
transfer.  Addresses, assets and denominations are abstract; `Chk` says which of them are well formed
(`addr_validate`, `AssetInfo::check`, `validate_native_denom`).
-/

namespace Verif.Incentives.Settings

open Verif.Incentives.Alloc (Cfg Env)

variable {P T U D : Type} [DecidableEq P] [DecidableEq T] [DecidableEq U]

/-- What is accepted by `addr_validate`, `AssetInfo::check` and `validate_native_denom`
(`packages/astroport/src/asset.rs:555-597`). -/
structure Chk (T U D : Type) where
  addr : U → Bool
  asset : T → Bool
  denom : D → Bool

/-- `IncentivizationFeeInfo` (`packages/astroport/src/incentives.rs:284-290`). -/
structure Fee (U D : Type) where
  receiver : U
  denom : D
  amount : Nat

/-- `Config` (`packages/astroport/src/incentives.rs:292-318`) without the emission rate and the total of points, which are in
`Alloc.State`. -/
structure Config (T U D : Type) where
  owner : U
  factory : U
  controller : Option U
  astro : T
  vesting : U
  guardian : Option U
  fee : Option (Fee U D)
  gas : Option Nat

/-- `ExecuteMsg::UpdateConfig` (`packages/astroport/src/incentives.rs:168-181`). -/
structure Update (T U D : Type) where
  astro : Option T
  vesting : Option U
  controller : Option U
  guardian : Option U
  fee : Option (Fee U D)
  gas : Option Nat

/-- Settings, distribution, and the asset named by the protocol reward of each pool (`none`: the pool has no protocol
reward). -/
structure State (P T U D : Type) where
  cfg : Config T U D
  alloc : Alloc.State P T
  tok : P → Option T

/-- `TOKEN_TRANSFER_GAS_LIMIT` (`packages/astroport/src/incentives.rs:25`). -/
def gasAllowed (g : Nat) : Bool := decide (400000 ≤ g ∧ g ≤ 1500000)

/-- `if let Some(v) = … { addr_validate(v)?; … }` (`contracts/tokenomics/incentives/src/execute.rs:424-446`). -/
def checked {α : Type} (ok : α → Bool) (o : Option α) (e : Err) : Res Unit :=
  match o with
  | none => .ok ()
  | some a => require (ok a = true) e

/-- Renaming the protocol reward of the active pools (`contracts/tokenomics/incentives/src/execute.rs:407-421`). -/
def rename (t : T) : List P → (P → Option T) → Res (P → Option T)
  | [], tok => .ok tok
  | p :: ps, tok => do
    require ((tok p).isSome = true) (.invalid "Protocol ASTRO reward not found in active pool")
    rename t ps (Function.update tok p (some t))

/-- The first branch of `update_config` (`contracts/tokenomics/incentives/src/execute.rs:401-422`): the new names of the rewards. -/
def renameIf (k : Chk T U D) (s : State P T U D) (o : Option T) : Res (P → Option T) :=
  match o with
  | none => .ok s.tok
  | some t => do
    require (k.asset t = true) (.invalid "AssetInfo::check")
    rename t (s.alloc.active.map Prod.fst) s.tok

/-- `update_config` (`contracts/tokenomics/incentives/src/execute.rs:381-466`). -/
def updateConfig (k : Chk T U D) (s : State P T U D) (sender : U) (m : Update T U D) : Res (State P T U D) := do
  require (sender = s.cfg.owner) .unauthorized
  let tok ← renameIf k s m.astro
  checked k.addr m.vesting (.invalid "addr_validate")
  checked k.addr m.controller (.invalid "addr_validate")
  checked k.addr m.guardian (.invalid "addr_validate")
  checked (fun f => k.addr f.receiver && k.denom f.denom) m.fee (.invalid "fee info")
  checked gasAllowed m.gas (.invalid "Invalid token transfer gas limit")
  .ok { s with
    tok := tok
    cfg := { s.cfg with
      astro := m.astro.getD s.cfg.astro
      vesting := m.vesting.getD s.cfg.vesting
      controller := m.controller.orElse fun _ => s.cfg.controller
      guardian := m.guardian.orElse fun _ => s.cfg.guardian
      fee := m.fee.orElse fun _ => s.cfg.fee
      gas := m.gas.orElse fun _ => s.cfg.gas } }

/-- What the distribution sees of the settings. -/
def view (assets : P → List T) (c : Config T U D) : Cfg P T U := ⟨c.owner, c.controller, c.guardian, c.factory, c.astro, assets⟩

/-- `set_astro_rewards` on each active pool (`contracts/tokenomics/incentives/src/state.rs:211-228`): a pool without a protocol reward
gets one with the configured asset, others keep theirs.  (Calls that do not visit the active pools leave the names alone in
the code; by `Good.named` below naming again changes nothing then.) -/
def announce (t : T) (active : List (P × Nat)) (tok : P → Option T) : P → Option T :=
  fun p => if p ∈ active.map Prod.fst ∧ tok p = none then some t else tok p

/-- The calls: a change of the distribution, of the settings, or a completed transfer of ownership
(`contracts/tokenomics/incentives/src/execute.rs:163-173`). -/
inductive Op (P T U D : Type) where
  | alloc (o : Alloc.Op P T U)
  | update (sender : U) (m : Update T U D)
  | owner (u : U)

/-- The result of one call. -/
def exec (k : Chk T U D) (assets : P → List T) (s : State P T U D) : Op P T U D → Res (State P T U D)
  | .alloc o => do
    let a ← Alloc.exec (view assets s.cfg) s.alloc o
    .ok { s with alloc := a, tok := announce s.cfg.astro a.active s.tok }
  | .update sender m => updateConfig k s sender m
  | .owner u => .ok { s with cfg := { s.cfg with owner := u } }

/-- A failed call changes nothing. -/
def step (k : Chk T U D) (assets : P → List T) (s : State P T U D) (o : Op P T U D) : State P T U D :=
  commit' s (exec k assets s o)

/-- A history of calls. -/
def run (k : Chk T U D) (assets : P → List T) (s : State P T U D) (os : List (Op P T U D)) : State P T U D :=
  os.foldl (step k assets) s

/-- `instantiate` (`contracts/tokenomics/incentives/src/instantiate.rs:15-50`). -/
def instantiate (k : Chk T U D) (owner factory : U) (astro : T) (vesting : U) (guardian : Option U)
    (fee : Option (Fee U D)) : Res (State P T U D) := do
  require (k.asset astro = true) (.invalid "AssetInfo::check")
  checked (fun f => k.addr f.receiver && k.denom f.denom) fee (.invalid "fee info")
  require (k.addr owner = true) (.invalid "addr_validate")
  require (k.addr factory = true) (.invalid "addr_validate")
  require (k.addr vesting = true) (.invalid "addr_validate")
  checked k.addr guardian (.invalid "addr_validate")
  .ok ⟨⟨owner, factory, none, astro, vesting, guardian, fee, none⟩, Alloc.State.init, fun _ => none⟩

/-- States that follow an instantiation. -/
def Reachable (k : Chk T U D) (assets : P → List T) (s : State P T U D) : Prop :=
  ∃ owner factory astro vesting guardian fee s0 os,
    instantiate (P := P) k owner factory astro vesting guardian fee = .ok s0 ∧ s = run k assets s0 os

/-! ## Lemmas -/

theorem checked_ok {α : Type} (ok : α → Bool) (o : Option α) (e : Err) (u : Unit) :
    checked ok o e = .ok u ↔ ∀ a, o = some a → ok a = true := by
  cases o <;> simp [checked]

omit [DecidableEq T] in
theorem rename_iff (t : T) : ∀ (ps : List P) (tok tok' : P → Option T),
    rename t ps tok = .ok tok' ↔ (∀ p ∈ ps, (tok p).isSome = true) ∧ tok' = fun p => if p ∈ ps then some t else tok p
  | [], tok, tok' => by
    simp only [rename, Except.ok.injEq, List.not_mem_nil, false_imp_iff, implies_true, if_false, true_and]
    exact eq_comm
  | q :: ps, tok, tok' => by
    simp only [rename, bind_ok_iff, require_ok, exists_const, rename_iff t ps, List.mem_cons]
    have hf : (fun p => if p ∈ ps then some t else Function.update tok q (some t) p) =
        fun p => if p = q ∨ p ∈ ps then some t else tok p := by
      funext p
      by_cases h1 : p = q
      · subst h1; simp
      · simp [h1]
    rw [hf]
    constructor
    · rintro ⟨h1, h2, h3⟩
      refine ⟨?_, h3⟩
      rintro p (rfl | hp)
      · exact h1
      · by_cases h : p = q
        · subst h; exact h1
        · simpa [h] using h2 p hp
    · rintro ⟨h1, h2⟩
      refine ⟨h1 q (Or.inl rfl), ?_, h2⟩
      intro p hp
      by_cases h : p = q
      · subst h; simp
      · simpa [h] using h1 p (Or.inr hp)

/-- What is true in every history. -/
structure Good (s : State P T U D) : Prop where
  named : ∀ p ∈ s.alloc.active.map Prod.fst, (s.tok p).isSome = true
  gas : ∀ g, s.cfg.gas = some g → 400000 ≤ g ∧ g ≤ 1500000

omit [DecidableEq U] [DecidableEq T] in
theorem renameIf_iff (k : Chk T U D) (s : State P T U D) (o : Option T) (tok' : P → Option T) (g : Good s) :
    renameIf k s o = .ok tok' ↔ (∀ t, o = some t → k.asset t = true) ∧
      tok' = fun p => match o with
        | none => s.tok p
        | some t => if p ∈ s.alloc.active.map Prod.fst then some t else s.tok p := by
  cases o with
  | none => simp only [renameIf, Except.ok.injEq, reduceCtorEq, false_imp_iff, implies_true, true_and]; exact eq_comm
  | some t =>
    simp only [renameIf, bind_ok_iff, require_ok, exists_const, rename_iff, Option.some.injEq, forall_eq']
    constructor
    · rintro ⟨h1, _, h3⟩; exact ⟨h1, h3⟩
    · rintro ⟨h1, h3⟩; exact ⟨h1, g.named, h3⟩

/-- The settings asked for are well formed. -/
def WellFormed (k : Chk T U D) (m : Update T U D) : Prop :=
  (∀ t, m.astro = some t → k.asset t = true) ∧
  (∀ u, m.vesting = some u ∨ m.controller = some u ∨ m.guardian = some u → k.addr u = true) ∧
  (∀ f, m.fee = some f → k.addr f.receiver = true ∧ k.denom f.denom = true) ∧
  ∀ g, m.gas = some g → 400000 ≤ g ∧ g ≤ 1500000

omit [DecidableEq T] in
theorem update_iff (k : Chk T U D) (s s' : State P T U D) (sender : U) (m : Update T U D) (g : Good s) :
    updateConfig k s sender m = .ok s' ↔ sender = s.cfg.owner ∧ WellFormed k m ∧
      s' = { s with
        tok := fun p => match m.astro with
          | none => s.tok p
          | some t => if p ∈ s.alloc.active.map Prod.fst then some t else s.tok p
        cfg := { s.cfg with
          astro := m.astro.getD s.cfg.astro
          vesting := m.vesting.getD s.cfg.vesting
          controller := m.controller.orElse fun _ => s.cfg.controller
          guardian := m.guardian.orElse fun _ => s.cfg.guardian
          fee := m.fee.orElse fun _ => s.cfg.fee
          gas := m.gas.orElse fun _ => s.cfg.gas } } := by
  simp only [updateConfig, bind_ok_iff, require_ok, exists_const, renameIf_iff k s m.astro _ g, checked_ok, Except.ok.injEq,
    WellFormed, gasAllowed, Bool.and_eq_true, decide_eq_true_eq]
  constructor
  · rintro ⟨h1, tok, ⟨h2, rfl⟩, h3, h4, h5, h6, h7, rfl⟩
    refine ⟨h1, ⟨h2, ?_, h6, h7⟩, rfl⟩
    rintro u (h | h | h)
    · exact h3 u h
    · exact h4 u h
    · exact h5 u h
  · rintro ⟨h1, ⟨h2, h3, h6, h7⟩, rfl⟩
    exact ⟨h1, _, ⟨h2, rfl⟩, fun u h => h3 u (.inl h), fun u h => h3 u (.inr (.inl h)), fun u h => h3 u (.inr (.inr h)),
      h6, h7, rfl⟩

theorem good_exec {k : Chk T U D} {assets : P → List T} {s s' : State P T U D} {o : Op P T U D} (g : Good s)
    (h : exec k assets s o = .ok s') : Good s' := by
  cases o with
  | alloc o =>
    simp only [exec, bind_ok_iff, Except.ok.injEq] at h
    obtain ⟨a, _, rfl⟩ := h
    refine ⟨fun p hp => ?_, g.gas⟩
    show (announce s.cfg.astro a.active s.tok p).isSome = true
    unfold announce
    split
    · rfl
    · rename_i hn
      have hp' : p ∈ a.active.map Prod.fst := hp
      cases ht : s.tok p with
      | none => exact absurd ⟨hp', ht⟩ hn
      | some t => rfl
  | update sender m =>
    rw [exec, update_iff k s s' sender m g] at h
    obtain ⟨_, hw, rfl⟩ := h
    refine ⟨fun p hp => ?_, fun x hx => ?_⟩
    · have hp' : p ∈ s.alloc.active.map Prod.fst := hp
      have := g.named p hp'
      cases hm : m.astro <;> simp [hp', this]
    · have hx' : (m.gas.orElse fun _ => s.cfg.gas) = some x := hx
      cases hm : m.gas with
      | none => rw [hm] at hx'; exact g.gas x (by simpa using hx')
      | some y => rw [hm] at hx'; exact hw.2.2.2 x (by simpa [hm] using hx')
  | owner u =>
    simp only [exec, Except.ok.injEq] at h
    subst h
    exact ⟨g.named, g.gas⟩

theorem good_step {k : Chk T U D} {assets : P → List T} {s : State P T U D} (o : Op P T U D) (g : Good s) :
    Good (step k assets s o) :=
  commit'_inv (fun s : State P T U D => Good s) g (fun _ h => good_exec g h)

theorem good_run {k : Chk T U D} {assets : P → List T} (os : List (Op P T U D)) : ∀ {s : State P T U D}, Good s →
    Good (run k assets s os) := by
  induction os with
  | nil => exact fun g => g
  | cons o os ih => exact fun g => ih (good_step o g)

omit [DecidableEq P] [DecidableEq T] [DecidableEq U] in
theorem init_ok {k : Chk T U D} {owner factory : U} {astro : T} {vesting : U} {guardian : Option U}
    {fee : Option (Fee U D)} {s : State P T U D} (h : instantiate k owner factory astro vesting guardian fee = .ok s) :
    s = ⟨⟨owner, factory, none, astro, vesting, guardian, fee, none⟩, Alloc.State.init, fun _ => none⟩ := by
  simp only [instantiate, bind_ok_iff, require_ok, exists_const, Except.ok.injEq] at h
  obtain ⟨_, _, _, _, _, _, _, _, rfl⟩ := h
  rfl

theorem good_reachable {k : Chk T U D} {assets : P → List T} {s : State P T U D} (h : Reachable k assets s) : Good s := by
  obtain ⟨owner, factory, astro, vesting, guardian, fee, s0, os, h0, rfl⟩ := h
  apply good_run
  rw [init_ok h0]
  exact ⟨by simp [Alloc.State.init], by simp⟩

/-! ## The theorems -/

/-- **C150.** In every reachable state the settings can be changed exactly by the owner with well formed values; each value
given replaces the setting of that name and no other; the distribution of emissions is untouched; a new ASTRO token is
announced by the pools active at that moment. -/
theorem C150_settings_exact (k : Chk T U D) (assets : P → List T) (s : State P T U D) (hr : Reachable k assets s)
    (sender : U) (m : Update T U D) :
    ((∃ s', exec k assets s (.update sender m) = .ok s') ↔ sender = s.cfg.owner ∧
      (∀ t, m.astro = some t → k.asset t = true) ∧
      (∀ u, m.vesting = some u ∨ m.controller = some u ∨ m.guardian = some u → k.addr u = true) ∧
      (∀ f, m.fee = some f → k.addr f.receiver = true ∧ k.denom f.denom = true) ∧
      ∀ g, m.gas = some g → 400000 ≤ g ∧ g ≤ 1500000) ∧
    ∀ s', exec k assets s (.update sender m) = .ok s' →
      s'.alloc = s.alloc ∧ s'.cfg.owner = s.cfg.owner ∧ s'.cfg.factory = s.cfg.factory ∧
      s'.cfg.astro = (match m.astro with | some t => t | none => s.cfg.astro) ∧
      s'.cfg.vesting = (match m.vesting with | some u => u | none => s.cfg.vesting) ∧
      s'.cfg.controller = (match m.controller with | some u => some u | none => s.cfg.controller) ∧
      s'.cfg.guardian = (match m.guardian with | some u => some u | none => s.cfg.guardian) ∧
      s'.cfg.fee = (match m.fee with | some u => some u | none => s.cfg.fee) ∧
      s'.cfg.gas = (match m.gas with | some u => some u | none => s.cfg.gas) ∧
      (∀ p, (m.astro = none ∨ ∀ a, (p, a) ∉ s.alloc.active) → s'.tok p = s.tok p) ∧
      ∀ p t a, m.astro = some t → (p, a) ∈ s.alloc.active → s'.tok p = some t := by
  have g := good_reachable hr
  refine ⟨?_, ?_⟩
  · simp only [exec, update_iff k s _ sender m g, WellFormed]
    constructor
    · rintro ⟨_, h1, h2, _⟩; exact ⟨h1, h2⟩
    · rintro ⟨h1, h2⟩; exact ⟨_, h1, h2, rfl⟩
  · intro s' h
    rw [exec, update_iff k s s' sender m g] at h
    obtain ⟨_, _, rfl⟩ := h
    refine ⟨rfl, rfl, rfl, ?_, ?_, ?_, ?_, ?_, ?_, ?_, ?_⟩
    · cases m.astro <;> rfl
    · cases m.vesting <;> rfl
    · cases m.controller <;> rfl
    · cases m.guardian <;> rfl
    · cases m.fee <;> rfl
    · cases m.gas <;> rfl
    · rintro p (h | h)
      · simp [h]
      · have hn : p ∉ s.alloc.active.map Prod.fst := fun hp => by
          obtain ⟨x, hx, rfl⟩ := List.mem_map.1 hp
          exact h x.2 hx
        cases m.astro <;> simp [hn]
    · intro p t a ht ha
      have hp : p ∈ s.alloc.active.map Prod.fst := List.mem_map.2 ⟨_, ha, rfl⟩
      simp only [ht, if_pos hp]

/-- **C150.** In every history the gas limit of reward transfers, once set, lies between 400000 and 1500000. -/
theorem C150_gas_limit_in_range (k : Chk T U D) (assets : P → List T) (s : State P T U D) (hr : Reachable k assets s)
    (g : Nat) (hg : s.cfg.gas = some g) : 400000 ≤ g ∧ g ≤ 1500000 := (good_reachable hr).gas g hg

/-- **C150.** Settings other than the owner change only by the owner's update: any other call leaves them as they are. -/
theorem C150_settings_change_only_by_owner (k : Chk T U D) (assets : P → List T) (s : State P T U D)
    (o : Op P T U D) (hne : ∀ m, o ≠ .update s.cfg.owner m) :
    let s' := step k assets s o
    s'.cfg.factory = s.cfg.factory ∧ s'.cfg.astro = s.cfg.astro ∧ s'.cfg.vesting = s.cfg.vesting ∧
      s'.cfg.controller = s.cfg.controller ∧ s'.cfg.guardian = s.cfg.guardian ∧ s'.cfg.fee = s.cfg.fee ∧
      s'.cfg.gas = s.cfg.gas := by
  unfold step
  cases h : exec k assets s o with
  | error e => exact ⟨rfl, rfl, rfl, rfl, rfl, rfl, rfl⟩
  | ok s' =>
    simp only [commit'_ok]
    cases o with
    | alloc o =>
      simp only [exec, bind_ok_iff, Except.ok.injEq] at h
      obtain ⟨a, _, rfl⟩ := h
      exact ⟨rfl, rfl, rfl, rfl, rfl, rfl, rfl⟩
    | update sender m =>
      simp only [exec, updateConfig, bind_ok_iff, require_ok, exists_const] at h
      exact absurd (by rw [h.1]) (hne m)
    | owner u =>
      simp only [exec, Except.ok.injEq] at h
      subst h
      exact ⟨rfl, rfl, rfl, rfl, rfl, rfl, rfl⟩

/-- The controller, the guardian, the incentivization fee and the gas limit, once set, cannot be cleared again. -/
theorem C150_optional_settings_stay_set (k : Chk T U D) (assets : P → List T) (os : List (Op P T U D)) :
    ∀ s : State P T U D,
    (s.cfg.controller.isSome = true → (run k assets s os).cfg.controller.isSome = true) ∧
    (s.cfg.guardian.isSome = true → (run k assets s os).cfg.guardian.isSome = true) ∧
    (s.cfg.fee.isSome = true → (run k assets s os).cfg.fee.isSome = true) ∧
    (s.cfg.gas.isSome = true → (run k assets s os).cfg.gas.isSome = true) := by
  induction os with
  | nil => exact fun s => ⟨id, id, id, id⟩
  | cons o os ih =>
    intro s
    have key : (s.cfg.controller.isSome = true → (step k assets s o).cfg.controller.isSome = true) ∧
        (s.cfg.guardian.isSome = true → (step k assets s o).cfg.guardian.isSome = true) ∧
        (s.cfg.fee.isSome = true → (step k assets s o).cfg.fee.isSome = true) ∧
        (s.cfg.gas.isSome = true → (step k assets s o).cfg.gas.isSome = true) := by
      by_cases hne : ∃ m, o = .update s.cfg.owner m
      · obtain ⟨m, rfl⟩ := hne
        unfold step
        cases h : exec k assets s (.update s.cfg.owner m) with
        | error e => exact ⟨id, id, id, id⟩
        | ok s' =>
          simp only [exec, updateConfig, bind_ok_iff, require_ok, exists_const, Except.ok.injEq] at h
          obtain ⟨_, tok, _, _, _, _, _, _, _, _, _, _, _, rfl⟩ := h
          simp only [commit'_ok]
          refine ⟨?_, ?_, ?_, ?_⟩
          · cases m.controller <;> simp
          · cases m.guardian <;> simp
          · cases m.fee <;> simp
          · cases m.gas <;> simp
      · have h := C150_settings_change_only_by_owner k assets s o (fun m hm => hne ⟨m, hm⟩)
        simp only at h
        obtain ⟨_, _, _, h1, h2, h3, h4⟩ := h
        rw [h1, h2, h3, h4]
        exact ⟨id, id, id, id⟩
    obtain ⟨k1, k2, k3, k4⟩ := key
    obtain ⟨i1, i2, i3, i4⟩ := ih (step k assets s o)
    exact ⟨i1 ∘ k1, i2 ∘ k2, i3 ∘ k3, i4 ∘ k4⟩

/-- At each change of the ASTRO token every pool that ever was active is active. -/
def NoPoolLeftBehind (k : Chk T U D) (assets : P → List T) : State P T U D → List (Op P T U D) → Prop
  | _, [] => True
  | s, o :: os =>
    (∀ sender m, o = .update sender m → m.astro.isSome = true → ∀ p, (s.tok p).isSome = true → ∃ a, (p, a) ∈ s.alloc.active) ∧
    NoPoolLeftBehind k assets (step k assets s o) os

/-- **C150 (partial).** The English claim: the protocol reward that a pool announces is always the configured ASTRO token.
Proved for histories in which the token changes only while every pool that ever was active is active. -/
theorem C150_announced_token_partial (k : Chk T U D) (assets : P → List T) (owner factory : U) (astro : T) (vesting : U)
    (guardian : Option U) (fee : Option (Fee U D)) (s0 : State P T U D) (os : List (Op P T U D))
    (h0 : instantiate k owner factory astro vesting guardian fee = .ok s0) (hc : NoPoolLeftBehind k assets s0 os)
    (p : P) (t : T) (ht : (run k assets s0 os).tok p = some t) : t = (run k assets s0 os).cfg.astro := by
  have key : ∀ (os : List (Op P T U D)) (s : State P T U D), Good s → (∀ p t, s.tok p = some t → t = s.cfg.astro) →
      NoPoolLeftBehind k assets s os →
      ∀ p t, (run k assets s os).tok p = some t → t = (run k assets s os).cfg.astro := by
    intro os
    induction os with
    | nil => exact fun s _ h _ => h
    | cons o os ih =>
      intro s g hs hcl
      refine ih (step k assets s o) (good_step o g) ?_ hcl.2
      intro p t
      unfold step
      cases h : exec k assets s o with
      | error e => exact hs p t
      | ok s' =>
        simp only [commit'_ok]
        cases o with
        | alloc o =>
          simp only [exec, bind_ok_iff, Except.ok.injEq] at h
          obtain ⟨a, _, rfl⟩ := h
          simp only [announce]
          split
          · intro h; exact (Option.some.inj h).symm
          · exact hs p t
        | update sender m =>
          rw [exec, update_iff k s s' sender m g] at h
          obtain ⟨_, _, rfl⟩ := h
          have hall := hcl.1 sender m rfl
          cases hm : m.astro with
          | none => exact hs p t
          | some t' =>
            intro htok
            have htok' : (if p ∈ s.alloc.active.map Prod.fst then some t' else s.tok p) = some t := htok
            show t = t'
            split at htok'
            · exact (Option.some.inj htok').symm
            · rename_i hn
              obtain ⟨a, ha⟩ := hall (by rw [hm]; rfl) p (by rw [htok']; rfl)
              exact absurd (List.mem_map.2 ⟨_, ha, rfl⟩) hn
        | owner u =>
          simp only [exec, Except.ok.injEq] at h
          subst h
          exact hs p t
  apply key os s0 ?_ ?_ hc p t ht
  · rw [init_ok h0]; exact ⟨by simp [Alloc.State.init], by simp⟩
  · rw [init_ok h0]; simp

/-- C74, with settings changing as well: in every history no pool with a blocked token receives ASTRO. -/
theorem C74_blocked_token_no_astro_settings (k : Chk T U D) (assets : P → List T) (s : State P T U D)
    (hr : Reachable k assets s) (p : P) (t : T) (hp : t ∈ assets p) (ht : t ∈ s.alloc.blocked) : s.alloc.rps p = 0 := by
  have key : ∀ (os : List (Op P T U D)) (s : State P T U D), Alloc.Inv (view assets s.cfg) s.alloc →
      Alloc.Inv (view assets (run k assets s os).cfg) (run k assets s os).alloc := by
    intro os
    induction os with
    | nil => exact fun _ h => h
    | cons o os ih =>
      intro s h
      refine ih _ (commit'_inv (fun s : State P T U D => Alloc.Inv (view assets s.cfg) s.alloc) h fun s' hx => ?_)
      cases o with
      | alloc o =>
        simp only [exec, bind_ok_iff, Except.ok.injEq] at hx
        obtain ⟨a, ha, rfl⟩ := hx
        exact (Alloc.exec_inv h o ha).1
      | update sender m =>
        simp only [exec, updateConfig, bind_ok_iff, require_ok, exists_const, Except.ok.injEq] at hx
        obtain ⟨_, tok, _, _, _, _, _, _, _, _, _, _, _, rfl⟩ := hx
        exact ⟨h.nodup, h.pos, h.rate, h.off, h.free⟩
      | owner u =>
        simp only [exec, Except.ok.injEq] at hx
        subst hx
        exact ⟨h.nodup, h.pos, h.rate, h.off, h.free⟩
  obtain ⟨owner, factory, astro, vesting, guardian, fee, s0, os, h0, rfl⟩ := hr
  have hI := key os s0 (by rw [init_ok h0]; exact Alloc.init_inv _)
  apply hI.off
  intro hm
  obtain ⟨x, hx, rfl⟩ := List.mem_map.1 hm
  exact hI.free x hx t hp ht

/-! ## Concrete cases -/

/-- Everything is well formed except address 99. -/
def demoChk : Chk Nat Nat Nat := ⟨fun u => decide (u ≠ 99), fun _ => true, fun _ => true⟩
/-- Pool `p` holds the tokens `p` and `1000`. -/
def demoAssets (p : Nat) : List Nat := [p, 1000]
/-- Every pair is registered and of an allowed type. -/
def allGood : Env Nat := ⟨fun _ => true, fun _ => false⟩
/-- Owner 1, factory 2, ASTRO is 7, vesting contract 3. -/
def demoInit : State Nat Nat Nat Nat :=
  ⟨⟨1, 2, none, 7, 3, none, none, none⟩, Alloc.State.init, fun _ => none⟩
/-- An update of nothing. -/
def noUpdate : Update Nat Nat Nat := ⟨none, none, none, none, none, none⟩
/-- Pool 10 is set up with an emission, replaced by pool 11, the ASTRO token changes, and pool 10 returns. -/
def demoHistory : List (Op Nat Nat Nat Nat) :=
  [.alloc (.setup allGood 1 [(10, 5)]), .alloc (.setRate 1 1000), .alloc (.setup allGood 1 [(11, 5)]),
   .update 1 { noUpdate with astro := some 8 }, .alloc (.setup allGood 1 [(10, 5), (11, 5)])]

example : instantiate (P := Nat) demoChk 1 2 7 3 none none = .ok demoInit := rfl
example : Reachable demoChk demoAssets (run demoChk demoAssets demoInit demoHistory) :=
  ⟨1, 2, 7, 3, none, none, demoInit, demoHistory, by rfl, rfl⟩
example : okAnd (exec demoChk demoAssets demoInit (.update 1 { noUpdate with gas := some 400000, guardian := some 4 }))
    (fun s => decide (s.cfg.gas = some 400000 ∧ s.cfg.guardian = some 4 ∧ s.cfg.controller = none)) = true := by decide +kernel
example : fails (exec demoChk demoAssets demoInit (.update 1 { noUpdate with gas := some 399999 })) = true := by decide +kernel
example : fails (exec demoChk demoAssets demoInit (.update 2 noUpdate)) = true := by decide +kernel
/-- A history that meets the hypothesis of `C150_announced_token_partial` and changes the token with an active pool. -/
example : NoPoolLeftBehind demoChk demoAssets demoInit
    [.alloc (.setup allGood 1 [(10, 5)]), .update 1 { noUpdate with astro := some 8 }] := by
  refine And.intro (fun sender m h => nomatch h) (And.intro (fun sender m _ _ p hp => ?_) trivial)
  have e : step demoChk demoAssets demoInit (.alloc (.setup allGood 1 [(10, 5)])) =
      ⟨demoInit.cfg, ⟨[(10, 5)], 5, 0, [], Function.update (Alloc.disable [] fun _ => 0) 10 0⟩,
        announce 7 [(10, 5)] fun _ => none⟩ := rfl
  rw [e] at hp ⊢
  refine ⟨5, ?_⟩
  by_cases hq : p = 10
  · subst hq; simp
  · simp [announce, hq] at hp

/-- **C150 (violated).** A pool that was inactive when the ASTRO token changed announces the old token, also after it is set
up again with emissions of the new one. -/
theorem C150_announced_token_violated :
    (let s := run demoChk demoAssets demoInit demoHistory
     decide (s.cfg.astro = 8 ∧ s.tok 10 = some 7 ∧ s.tok 11 = some 8 ∧ (10, 5) ∈ s.alloc.active ∧ 0 < s.alloc.rps 10)) =
      true := by decide +kernel

/-- C74 also says that the ASTRO token is never blocked.  A change of the token does not look at the list of blocked tokens:
the new ASTRO token can be a blocked one, and pools containing it cannot be set up. -/
theorem C74_astro_blocked_after_change_violated :
    (let s := run demoChk demoAssets demoInit
       [.alloc (.updateBlocked 1 [8] []), .update 1 { noUpdate with astro := some 8 }]
     decide (s.cfg.astro = 8 ∧ 8 ∈ s.alloc.blocked) &&
       fails (exec demoChk demoAssets s (.alloc (.setup allGood 1 [(8, 5)])))) = true := by decide +kernel

end Verif.Incentives.Settings
