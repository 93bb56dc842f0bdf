import Verif.Base.KV
import Verif.Asset.Model
import Verif.Ownership.Model
import Mathlib.Data.List.Lex
import Mathlib.Data.Char

/-!
# Model of `contracts/factory/src/{contract,state}.rs`
-/

namespace Verif.Factory

open Verif.Asset

variable {A : Type} [DecidableEq A]

/-- `pair_key` (`contracts/factory/src/state.rs:31-39`): the assets' bytes, sorted, concatenated. -/
def pairKey (infos : List Info) : List Nat :=
  ((infos.map Info.bytes).insertionSort (· ≤ ·)).flatten

/-- `PairType` (`packages/astroport/src/factory.rs:35-44`). -/
inductive PairType
  | xyk
  | stable
  | custom (name : Str)
  deriving DecidableEq, Repr

/-- `PairType::to_string` (`packages/astroport/src/factory.rs:47-55`), the key of `PAIR_CONFIGS`. -/
def PairType.name : PairType → Str
  | .xyk => ['x', 'y', 'k']
  | .stable => ['s', 't', 'a', 'b', 'l', 'e']
  | .custom n => ['c', 'u', 's', 't', 'o', 'm', '-'] ++ n

/-- `PairConfig` (`packages/astroport/src/factory.rs:57-82`). -/
structure PairConfig where
  codeId : Nat
  pairType : PairType
  totalFeeBps : Nat
  makerFeeBps : Nat
  isDisabled : Bool
  isGeneratorDisabled : Bool
  permissioned : Bool
  deriving DecidableEq, Repr

/-- `PairConfig::valid_fee_bps` (`packages/astroport/src/factory.rs:84-89`), `MAX_TOTAL_FEE_BPS = MAX_MAKER_FEE_BPS = 10_000`. -/
def PairConfig.valid (c : PairConfig) : Bool := decide (c.totalFeeBps ≤ 10000) && decide (c.makerFeeBps ≤ 10000)

/-- `Config` (`packages/astroport/src/factory.rs:11-25`) without the owner; `TRACKER_CONFIG`'s code id. -/
structure Config (A : Type) where
  tokenCodeId : Nat
  feeAddress : Option A
  generator : Option A
  whitelistCodeId : Nat
  registry : A
  tracker : Option (Nat × A)

/-- Storage: `CONFIG`, `PAIR_CONFIGS` and `PAIRS` (`contracts/factory/src/state.rs:16-26`).  Text keys are compared by their
characters, which is the order of their bytes. -/
structure State (A : Type) where
  own : Ownership.State A
  config : Config A
  pairConfigs : List (Str × PairConfig)
  pairs : List (List Nat × A)

/-- `check_asset_infos` (`contracts/factory/src/state.rs:101-113`). -/
def checkAssetInfos (okAddr : Str → Bool) (infos : List Info) : Res Unit := do
  require infos.Nodup (.invalid "DoublingAssets")
  forAll (Info.check okAddr) infos

/-- The loop of `instantiate` storing pair configs (`contracts/factory/src/contract.rs:71-77`). -/
def storeConfigs : List PairConfig → List (Str × PairConfig) → Res (List (Str × PairConfig))
  | [], m => .ok m
  | c :: cs, m => do
    require (c.valid = true) (.invalid "PairConfigInvalidFeeBps")
    storeConfigs cs (kvInsert c.pairType.name c m)

/-- `instantiate` (`contracts/factory/src/contract.rs:41-95`). -/
def instantiate (owner : A) (config : Config A) (pcs : List PairConfig) : Res (State A) := do
  require (pcs.map fun c => c.pairType.name).Nodup (.invalid "PairConfigDuplicate")
  let m ← storeConfigs pcs []
  .ok ⟨⟨owner, none⟩, config, m, []⟩

/-- `UpdateConfig` (`contracts/factory/src/contract.rs:97-108`); addresses that do not validate are left out. -/
structure Update (A : Type) where
  tokenCodeId : Option Nat := none
  feeAddress : Option A := none
  generator : Option A := none
  whitelistCodeId : Option Nat := none
  registry : Option A := none

/-- `execute_update_config` (`contracts/factory/src/contract.rs:213-250`). -/
def updateConfig (s : State A) (sender : A) (u : Update A) : Res (State A) := do
  require (sender = s.own.owner) .unauthorized
  let c := s.config
  let c := match u.feeAddress with
    | some a => { c with feeAddress := some a }
    | none => c
  let c := match u.generator with
    | some a => { c with generator := some a }
    | none => c
  let c := match u.tokenCodeId with
    | some n => { c with tokenCodeId := n }
    | none => c
  let c := match u.whitelistCodeId with
    | some n => { c with whitelistCodeId := n }
    | none => c
  let c := match u.registry with
    | some a => { c with registry := a }
    | none => c
  .ok { s with config := c }

/-- `update_tracker_config` (`contracts/factory/src/contract.rs:427-454`). -/
def updateTracker (s : State A) (sender : A) (code : Nat) (tf : Option A) : Res (State A) := do
  require (sender = s.own.owner) .unauthorized
  match s.config.tracker with
  | some t => .ok { s with config := { s.config with tracker := some (code, t.2) } }
  | none => do
    let a ← orErr tf (.invalid "token_factory_addr is required")
    .ok { s with config := { s.config with tracker := some (code, a) } }

/-- `execute_update_pair_config` (`contracts/factory/src/contract.rs:258-282`). -/
def updatePairConfig (s : State A) (sender : A) (c : PairConfig) : Res (State A) := do
  require (sender = s.own.owner) .unauthorized
  require (c.valid = true) (.invalid "PairConfigInvalidFeeBps")
  .ok { s with pairConfigs := kvInsert c.pairType.name c s.pairConfigs }

/-- `execute_create_pair` (`contracts/factory/src/contract.rs:291-351`): the checks, and the key kept for the reply. -/
def createPair (okAddr : Str → Bool) (s : State A) (sender : A) (t : PairType) (infos : List Info) :
    Res (List Nat) := do
  checkAssetInfos okAddr infos
  require (kvGet (pairKey infos) s.pairs = none) (.invalid "PairWasCreated")
  let c ← orErr (kvGet t.name s.pairConfigs) (.invalid "PairConfigNotFound")
  require (¬(c.permissioned = true ∧ sender ≠ s.own.owner)) .unauthorized
  require (c.isDisabled = false) (.invalid "PairConfigDisabled")
  .ok (pairKey infos)

/-- `reply` (`contracts/factory/src/contract.rs:355-383`): the instantiated pair is registered under the kept key. -/
def reply (s : State A) (key : List Nat) (pair : A) : Res (State A) := do
  require (kvGet key s.pairs = none) (.invalid "PairWasRegistered")
  .ok { s with pairs := kvInsert key pair s.pairs }

/-- The whole transaction: create, instantiation of the pair contract (which returns its address or
fails), reply.  The pair contracts of this repository do not call the factory while being instantiated,
so nothing happens in between. -/
def create (okAddr : Str → Bool) (s : State A) (sender : A) (t : PairType) (infos : List Info)
    (inst : Option A) : Res (State A) := do
  let key ← createPair okAddr s sender t infos
  let pair ← orErr inst (.invalid "pair instantiation failed")
  reply s key pair

/-- `deregister` (`contracts/factory/src/contract.rs:391-425`); returns the pair's address, whose pool is deactivated in the
generator if one is configured. -/
def deregister (okAddr : Str → Bool) (s : State A) (sender : A) (infos : List Info) : Res (State A × A) := do
  checkAssetInfos okAddr infos
  require (sender = s.own.owner) .unauthorized
  let p ← orErr (kvGet (pairKey infos) s.pairs) (.invalid "not found")
  .ok ({ s with pairs := kvRemove (pairKey infos) s.pairs }, p)

/-- `query_pair` (`contracts/factory/src/contract.rs:521-524`): the registered address. -/
def queryPair (s : State A) (infos : List Info) : Option A := kvGet (pairKey infos) s.pairs

/-- `MAX_LIMIT`, `DEFAULT_LIMIT` (`contracts/factory/src/state.rs:46-48`). -/
def MAX_LIMIT : Nat := 30
/-- See `MAX_LIMIT`. -/
def DEFAULT_LIMIT : Nat := 10

/-- `calc_range_start` (`contracts/factory/src/state.rs:93-99`). -/
def rangeStart (infos : List Info) : List Nat := pairKey infos ++ [1]

/-- `read_pairs` (`contracts/factory/src/state.rs:56-87`), returning the keys too (the query returns each pair's full
information, among it its assets). -/
def readPairs (s : State A) (startAfter : Option (List Info)) (limit : Option Nat) : List (List Nat × A) :=
  let n := min (limit.getD DEFAULT_LIMIT) MAX_LIMIT
  match startAfter with
  | some a => (kvAfter (rangeStart a) s.pairs).take n
  | none => s.pairs.take n

/-- `query_fee_info` (`contracts/factory/src/contract.rs:546-555`). -/
def queryFeeInfo (s : State A) (t : PairType) : Option (Option A × Nat × Nat) :=
  (kvGet t.name s.pairConfigs).map fun c => (s.config.feeAddress, c.totalFeeBps, c.makerFeeBps)

/-- `query_blacklisted_pair_types` (`contracts/factory/src/contract.rs:483-497`). -/
def queryBlacklisted (s : State A) : List PairType :=
  s.pairConfigs.filterMap fun v => if v.2.isDisabled || v.2.isGeneratorDisabled then some v.2.pairType else none

/-- The pair configurations of `query_config` (`contracts/factory/src/contract.rs:500-516`). -/
def queryPairConfigs (s : State A) : List PairConfig := s.pairConfigs.map Prod.snd

/-- `query_tracker_config` (`contracts/factory/src/contract.rs:557-566`). -/
def queryTracker (s : State A) : Res (Nat × A) := orErr s.config.tracker (.invalid "Tracker config is not set")

/-- Calls. -/
inductive Op (A : Type) where
  | own (t : Ownership.Tx A)
  | updateConfig (sender : A) (u : Update A)
  | updateTracker (sender : A) (code : Nat) (tf : Option A)
  | updatePairConfig (sender : A) (c : PairConfig)
  | create (sender : A) (t : PairType) (infos : List Info) (inst : Option A)
  | deregister (sender : A) (infos : List Info)

/-- `execute` (`contracts/factory/src/contract.rs:138-205`). -/
def exec (okAddr : Str → Bool) (s : State A) : Op A → Res (State A)
  | .own t => do
    let o ← Ownership.exec s.own t
    .ok { s with own := o }
  | .updateConfig sender u => updateConfig s sender u
  | .updateTracker sender code tf => updateTracker s sender code tf
  | .updatePairConfig sender c => updatePairConfig s sender c
  | .create sender t infos inst => create okAddr s sender t infos inst
  | .deregister sender infos => do
    let r ← deregister okAddr s sender infos
    .ok r.1

/-- A failed call changes nothing. -/
def step (okAddr : Str → Bool) (s : State A) (o : Op A) : State A := commit' s (exec okAddr s o)

/-- A history. -/
def run (okAddr : Str → Bool) (s : State A) (os : List (Op A)) : State A := os.foldl (step okAddr) s

end Verif.Factory
