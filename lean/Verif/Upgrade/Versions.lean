import Verif.Base.Res

/-!
# Which contracts can be upgraded to which code (C153)

Every contract stores its name and version (`cw2`).  The `migrate` entry point of a code decides by them whether it takes a
contract over, and then stores its own.  What the migrations do besides is modelled with the contracts: `Factory/Migrate`,
`Tracker/Migrate`, `Joint/VestingMigration`, `SaleTax/Upgrade`, `Oracle/Upgrade`, `Maker/Upgrade`.
-/

namespace Verif.Upgrade

open Verif

/-- A released version.  Simplification: versions that are not of the form `a.b.c` are left out; no code accepts them. -/
structure Version where
  major : Nat
  minor : Nat
  patch : Nat
  deriving DecidableEq, Repr

/-- What `cw2` stores. -/
structure Stamp where
  name : String
  version : Version
  deriving DecidableEq, Repr

/-- The codes of the repository that have a `migrate` entry point. -/
inductive Code
  | pair | stable | transmuter | concentrated | saleTax | converterPair | duality | injective
  | factory | router | maker | vesting | staking | xastro | incentives | oracle | registry | tracker
  deriving DecidableEq, Repr

/-- `CONTRACT_NAME` and `CONTRACT_VERSION` of each code: the constants in `contracts/pair/src/contract.rs:45-47` and its likes,
and `name` and `version` in the `Cargo.toml` of each contract. -/
def stamp : Code → Stamp
  | .pair => ⟨"astroport-pair", 2, 1, 0⟩
  | .stable => ⟨"astroport-pair-stable", 4, 1, 1⟩
  | .transmuter => ⟨"astroport-pair-transmuter", 1, 1, 2⟩
  | .concentrated => ⟨"astroport-pair-concentrated", 4, 1, 1⟩
  | .saleTax => ⟨"astroport-pair-xyk-sale-tax", 2, 1, 0⟩
  | .converterPair => ⟨"astroport-pair-converter", 1, 0, 0⟩
  | .duality => ⟨"astroport-pair-concentrated-duality", 4, 1, 1⟩
  | .injective => ⟨"astroport-pair-concentrated-injective", 2, 2, 2⟩
  | .factory => ⟨"astroport-factory", 1, 9, 0⟩
  | .router => ⟨"astroport-router", 1, 3, 1⟩
  | .maker => ⟨"astroport-maker", 1, 7, 0⟩
  | .vesting => ⟨"astroport-vesting", 1, 4, 0⟩
  | .staking => ⟨"astroport-staking", 2, 3, 0⟩
  | .xastro => ⟨"astroport-xastro-token", 1, 1, 0⟩
  | .incentives => ⟨"astroport-incentives", 1, 3, 0⟩
  | .oracle => ⟨"astroport-oracle", 2, 1, 2⟩
  | .registry => ⟨"astroport-native-coin-registry", 1, 1, 0⟩
  | .tracker => ⟨"astroport-tokenfactory-tracker", 2, 0, 0⟩

/-- `VersionReq::parse(">=4.0.0, <5.0.0")` (`contracts/pair_concentrated_duality/src/migrate.rs:16,30-33`). -/
def dualityReq (v : Version) : Bool := decide (4 ≤ v.major) && decide (v.major < 5)

/-- The check of name and version at the start of `migrate`:
`contracts/pair/src/contract.rs:1424-1426`, `contracts/pair_stable/src/contract.rs:1047-1049` and
`contracts/pair_transmuter/src/contract.rs:304-306` (always abort);
`contracts/pair_concentrated/src/contract.rs:907-913`; `contracts/pair_xyk_sale_tax/src/contract.rs:1422-1457`;
`contracts/pair_astro_converter/src/contract.rs:160-179`; `contracts/pair_concentrated_duality/src/migrate.rs:28-58`;
`contracts/pair_concentrated_inj/src/migrate.rs:27-76`; `contracts/factory/src/contract.rs:573-611`;
`contracts/router/src/contract.rs:278-284`; `contracts/tokenomics/maker/src/contract.rs:1033-1082`;
`contracts/tokenomics/vesting/src/contract.rs:527-577`; `contracts/tokenomics/staking/src/migrate.rs:15-21`;
`contracts/tokenomics/xastro_token/src/contract.rs:685-699`; `contracts/tokenomics/incentives/src/migrate.rs:14-20`;
`contracts/periphery/oracle/src/contract.rs:197-243`; `contracts/periphery/native_coin_registry/src/contract.rs:261-267`;
`contracts/periphery/tokenfactory_tracker/src/contract.rs:138-158`.
`orderbook` tells the two messages of the last two pools apart (`MigrateToOrderbook`, `Migrate`). -/
def accepts (c : Code) (orderbook : Bool) (s : Stamp) : Bool :=
  match c with
  | .pair | .stable | .transmuter => false
  | .concentrated => decide (s.name = "astroport-pair-concentrated") &&
      decide (s.version ∈ [⟨4, 0, 0⟩, ⟨4, 0, 1⟩, ⟨4, 1, 0⟩])
  | .saleTax => decide (s.name = "astroport-pair") &&
      decide (s.version ∈ [⟨1, 3, 0⟩, ⟨1, 3, 1⟩, ⟨1, 3, 3⟩, ⟨1, 4, 0⟩, ⟨1, 5, 0⟩, ⟨1, 5, 1⟩])
  | .converterPair => decide (s.name = "astroport-pair") &&
      decide (s.version ∈ [⟨1, 0, 1⟩, ⟨1, 1, 0⟩, ⟨1, 3, 0⟩, ⟨1, 3, 3⟩])
  | .duality => if orderbook then decide (s.name = "astroport-pair-concentrated") && dualityReq s.version else false
  | .injective =>
    if orderbook then decide (s.name = "astroport-pair-concentrated") && decide (s.version = ⟨2, 2, 2⟩)
    else decide (s.name = "astroport-pair-concentrated-injective") && decide (s.version ∈ [⟨2, 0, 3⟩, ⟨2, 0, 4⟩])
  | .factory => decide (s.name = "astroport-factory") &&
      decide (s.version ∈ [⟨1, 3, 1⟩, ⟨1, 5, 1⟩, ⟨1, 6, 0⟩, ⟨1, 7, 0⟩, ⟨1, 8, 0⟩, ⟨1, 8, 1⟩])
  | .router => decide (s.name = "astroport-router") && decide (s.version ∈ [⟨1, 1, 2⟩, ⟨1, 2, 0⟩, ⟨1, 3, 0⟩])
  | .maker => decide (s.name = "astroport-maker") &&
      decide (s.version ∈ [⟨1, 2, 0⟩, ⟨1, 4, 0⟩, ⟨1, 5, 0⟩, ⟨1, 6, 0⟩])
  | .vesting => decide (s.name = "astroport-vesting") &&
      decide (s.version ∈ [⟨1, 1, 0⟩, ⟨1, 2, 0⟩, ⟨1, 3, 0⟩, ⟨1, 3, 1⟩])
  | .staking => decide (s.name = "astroport-staking") && decide (s.version ∈ [⟨2, 0, 0⟩, ⟨2, 1, 0⟩])
  | .xastro => decide (s.name = "astroport-xastro-token") && decide (s.version ∈ [⟨1, 0, 0⟩, ⟨1, 0, 1⟩, ⟨1, 0, 2⟩])
  | .incentives => decide (s.name = "astroport-incentives") &&
      decide (s.version ∈ [⟨1, 0, 0⟩, ⟨1, 0, 1⟩, ⟨1, 1, 0⟩, ⟨1, 2, 0⟩])
  | .oracle => decide (s.name = "astroport-oracle") && decide (s.version ∈ [⟨1, 0, 0⟩, ⟨1, 0, 1⟩, ⟨1, 0, 2⟩])
  | .registry => decide (s.name = "astroport-native-coin-registry") && decide (s.version = ⟨1, 0, 1⟩)
  | .tracker => decide (s.name = "astroport-tokenfactory-tracker") && decide (s.version = ⟨1, 0, 0⟩)

/-- An attempt to upgrade: the code and the kind of message. -/
structure Attempt where
  code : Code
  orderbook : Bool
  deriving DecidableEq, Repr

/-- The part of `migrate` common to all contracts (`set_contract_version` at the end of each). -/
def migrate (s : Stamp) (a : Attempt) : Res Stamp := do
  require (accepts a.code a.orderbook s = true) (.invalid "MigrationError")
  .ok (stamp a.code)

/-- A refused upgrade changes nothing. -/
def step (s : Stamp) (a : Attempt) : Stamp := commit' s (migrate s a)

/-- A history of upgrades of one contract. -/
def run (s : Stamp) (as : List Attempt) : Stamp := as.foldl step s

/-! ## Specification -/

/-- `v` is an earlier version than `w`. -/
def Version.before (v w : Version) : Prop :=
  v.major < w.major ∨ v.major = w.major ∧ (v.minor < w.minor ∨ v.minor = w.minor ∧ v.patch < w.patch)

instance (v w : Version) : Decidable (v.before w) := by unfold Version.before; infer_instance

/-- The number of attempts of a history that are accepted. -/
def accepted : Stamp → List Attempt → Nat
  | _, [] => 0
  | s, a :: rest => (if accepts a.code a.orderbook s = true then 1 else 0) + accepted (step s a) rest

/-! ## Lemmas -/

theorem step_accepted {s : Stamp} {a : Attempt} (h : accepts a.code a.orderbook s = true) : step s a = stamp a.code := by
  simp [step, migrate, h, require, ok_bind, commit']

theorem step_refused {s : Stamp} {a : Attempt} (h : ¬ accepts a.code a.orderbook s = true) : step s a = s := by
  simp [step, migrate, h, require, error_bind, commit']

/-- Code taken over by new code takes only one further upgrade: a concentrated pool to a pool on Duality's orderbook. -/
theorem after_upgrade : ∀ (c d : Code) (b : Bool), accepts d b (stamp c) = true →
    c = .concentrated ∧ d = .duality ∧ b = true := by
  intro c d b
  cases c <;> cases d <;> cases b <;> decide +kernel

theorem accepted_eq_zero {s : Stamp} (h : ∀ a : Attempt, ¬ accepts a.code a.orderbook s = true) :
    ∀ as, accepted s as = 0
  | [] => rfl
  | a :: rest => by
    unfold accepted
    rw [if_neg (h a), step_refused (h a), accepted_eq_zero h rest]

theorem accepted_stamp (c : Code) : ∀ as, accepted (stamp c) as ≤ 1
  | [] => by simp [accepted]
  | a :: rest => by
    unfold accepted
    by_cases h : accepts a.code a.orderbook (stamp c) = true
    · rw [if_pos h, step_accepted h]
      obtain ⟨rfl, hd, _⟩ := after_upgrade _ _ _ h
      rw [hd, accepted_eq_zero]
      intro b hb
      obtain ⟨e, _⟩ := after_upgrade _ _ _ hb
      cases e
    · rw [if_neg h, step_refused h, Nat.zero_add]
      exact accepted_stamp c rest

/-! ## C153 -/

/-- C153: no code takes over a contract that already runs it, whatever the message: an upgrade cannot be repeated. -/
theorem C153_not_repeatable (c : Code) (b : Bool) : migrate (stamp c) ⟨c, b⟩ = .error (.invalid "MigrationError") := by
  have : ¬ accepts c b (stamp c) = true := by
    intro h
    obtain ⟨rfl, e, _⟩ := after_upgrade _ _ _ h
    cases e
  simp [migrate, this, require, error_bind]

/-- C153: an accepted upgrade leaves the name and version of the new code; a contract that keeps its name gets a later
version; one that changes its name was a constant product pool, which becomes a sale-tax or a converter pool, or a
concentrated pool, which becomes a pool on an orderbook. -/
theorem C153_only_forward {s s' : Stamp} {a : Attempt} (h : migrate s a = .ok s') :
    s' = stamp a.code ∧
    (s'.name = s.name → s.version.before s'.version) ∧
    (s'.name ≠ s.name →
      s.name = "astroport-pair" ∧ (a.code = .saleTax ∨ a.code = .converterPair) ∨
      s.name = "astroport-pair-concentrated" ∧ (a.code = .duality ∨ a.code = .injective) ∧ a.orderbook = true) := by
  simp only [migrate, bind_ok_iff, require_ok, exists_const, Except.ok.injEq] at h
  obtain ⟨h, rfl⟩ := h
  obtain ⟨n, v⟩ := s
  obtain ⟨c, b⟩ := a
  refine ⟨rfl, ?_, ?_⟩
  · intro hn
    cases c <;> simp only [stamp] at hn ⊢
    case duality =>
      simp only [accepts, Bool.if_false_right, Bool.and_eq_true, decide_eq_true_eq] at h
      obtain ⟨_, h, _⟩ := h
      subst h
      exact absurd hn (by decide)
    case injective =>
      cases b with
      | true =>
        simp only [accepts, if_true, Bool.and_eq_true, decide_eq_true_eq] at h
        obtain ⟨h, _⟩ := h
        subst h
        exact absurd hn (by decide)
      | false =>
        simp only [accepts, Bool.false_eq_true, if_false, Bool.and_eq_true, decide_eq_true_eq] at h
        exact (show ∀ w ∈ _, Version.before w _ by decide) v h.2
    case saleTax | converterPair =>
      simp only [accepts, Bool.and_eq_true, decide_eq_true_eq] at h
      obtain ⟨h, _⟩ := h
      subst h
      exact absurd hn (by decide)
    case registry | tracker =>
      simp only [accepts, Bool.and_eq_true, decide_eq_true_eq] at h
      obtain ⟨_, rfl⟩ := h
      decide
    case pair | stable | transmuter => simp [accepts] at h
    all_goals
      simp only [accepts, Bool.and_eq_true, decide_eq_true_eq] at h
      exact (show ∀ w ∈ _, Version.before w _ by decide) v h.2
  · intro hn
    cases c <;>
      simp only [accepts, Bool.and_eq_true, decide_eq_true_eq, Bool.false_eq_true, Bool.if_false_right] at h
    all_goals first
      | exact absurd h.1.symm hn
      | exact .inl ⟨h.1, .inl rfl⟩
      | exact .inl ⟨h.1, .inr rfl⟩
      | exact .inr ⟨h.2.1, .inl rfl, h.1⟩
      | skip
    cases b with
    | true =>
      simp only [if_true, Bool.and_eq_true, decide_eq_true_eq] at h
      exact .inr ⟨h.1, .inr rfl, rfl⟩
    | false =>
      simp only [Bool.false_eq_true, if_false, Bool.and_eq_true, decide_eq_true_eq] at h
      exact absurd h.1.symm hn

/-- C153: pools that issue LP tokens themselves and were created by this code stay what they are: neither a constant product
nor a stable, transmuter, sale-tax, converter or orderbook pool of the current version takes any upgrade, and a current
concentrated pool only the one to an orderbook pool. -/
theorem C153_current_pools_stay (c : Code) (as : List Attempt)
    (hc : c ∈ [.pair, .stable, .transmuter, .saleTax, .converterPair, .duality, .injective]) : run (stamp c) as = stamp c := by
  induction as with
  | nil => rfl
  | cons a as ih =>
    have : ¬ accepts a.code a.orderbook (stamp c) = true := by
      intro h
      obtain ⟨rfl, _⟩ := after_upgrade _ _ _ h
      simp at hc
    show run (step (stamp c) a) as = _
    rw [step_refused this, ih]

/-- C153: whatever contract one starts with and however often one tries, at most two upgrades are accepted. -/
theorem C153_at_most_two (s : Stamp) (as : List Attempt) : accepted s as ≤ 2 := by
  induction as generalizing s with
  | nil => simp [accepted]
  | cons a as ih =>
    unfold accepted
    by_cases h : accepts a.code a.orderbook s = true
    · rw [if_pos h, step_accepted h]
      have := accepted_stamp a.code as
      omega
    · rw [if_neg h, step_refused h, Nat.zero_add]
      exact ih s

/-- Two upgrades do happen: a concentrated pool 4.0.1 is brought up to date and then put on Duality's orderbook. -/
example : accepted ⟨"astroport-pair-concentrated", 4, 0, 1⟩
    [⟨.pair, false⟩, ⟨.concentrated, false⟩, ⟨.concentrated, false⟩, ⟨.duality, false⟩, ⟨.duality, true⟩, ⟨.duality, true⟩] = 2 ∧
    run ⟨"astroport-pair-concentrated", 4, 0, 1⟩ [⟨.concentrated, false⟩, ⟨.duality, true⟩] = stamp .duality := by
  decide +kernel

end Verif.Upgrade
