import Verif.Base.Res
import Verif.Base.Ledger
import Verif.Base.Dec

/-!
# Model of the maker (`contracts/tokenomics/maker`)

The maker collects protocol fees in any token, swaps them to ASTRO through registered pools (directly or over
"bridge" tokens) and distributes the ASTRO.

* `A` are addresses, `I` assets, `P` the state of all pools.  Pools are not trusted: their behaviour is an arbitrary
  function `Market.swap`, which is given the maker's offer and decides what the maker gets, and the set of pools
  registered with the factory is an arbitrary `Market.has`, both depending on `P`.
* Not modelled: attributes, queries, address syntax checks, migration (see `Upgrade.lean`) and the two-step ownership transfer (which is
  `Verif.Ownership`, the same helper functions).
-/

namespace Verif.Maker

/-- Pools registered with the factory, and what a swap against the pool of `i` and `j` returns. -/
structure Market (P I : Type) where
  has : P → I → I → Bool
  swap : P → I → I → Nat → Res (P × Nat)

/-- packages/astroport/src/maker.rs:9-18, `DevFundConfig`; `share` in 18 digits. -/
structure DevFund (A I : Type) where
  addr : A
  share : Nat
  asset : I
  deriving DecidableEq

/-- packages/astroport/src/maker.rs:20-55, `Config`; `second` is the second receiver with its cut in percent. -/
structure Cfg (A I : Type) where
  owner : A
  staking : Option A
  dev : Option (DevFund A I)
  defaultBridge : Option I
  gov : Option A
  govPct : Nat
  astro : I
  maxSpread : Nat
  enabled : Bool
  preBlocks : Nat
  lastBlock : Nat
  remainder : Nat
  preAmount : Nat
  second : Option (A × Nat)
  cooldown : Option Nat

/-- Stored data (state.rs) and the ledger of all assets. -/
structure State (P A I : Type) where
  cfg : Cfg A I
  lastCollect : Nat
  bridges : I → Option I
  seizeTo : A
  seizable : List I
  bal : I → A → Nat
  world : P

variable {P A I : Type} [DecidableEq A] [DecidableEq I]

/-- packages/astroport/src/maker.rs:8, `COOLDOWN_LIMITS`. -/
def COOLDOWN_MIN : Nat := 30
/-- packages/astroport/src/maker.rs:8, `COOLDOWN_LIMITS`. -/
def COOLDOWN_MAX : Nat := 600
/-- maker.rs: `MAX_SECOND_RECEIVER_CUT`. -/
def MAX_SECOND_RECEIVER_CUT : Nat := 50
/-- pair.rs: `MAX_ALLOWED_SLIPPAGE`, 50%. -/
def MAX_SPREAD : Nat := 5 * 10 ^ 17
/-- contracts/tokenomics/maker/src/utils.rs:21, `BRIDGES_MAX_DEPTH`. -/
def BRIDGES_MAX_DEPTH : Nat := 2
/-- contracts/tokenomics/maker/src/utils.rs:23, `BRIDGES_EXECUTION_MAX_DEPTH`. -/
def BRIDGES_EXECUTION_MAX_DEPTH : Nat := 5

/-! ## Configuration -/

/-- `validate_cooldown`, contracts/tokenomics/maker/src/utils.rs:263-274. -/
def validateCooldown : Option Nat → Res Unit
  | none => .ok ()
  | some c => require (COOLDOWN_MIN ≤ c ∧ c ≤ COOLDOWN_MAX) (.invalid "IncorrectCooldown")

/-- `update_second_receiver_cfg`, contracts/tokenomics/maker/src/utils.rs:236-260. -/
def updateSecond (c : Cfg A I) : Option (A × Nat) → Res (Cfg A I)
  | none => .ok c
  | some (a, cut) => do
    require (¬ (cut > MAX_SECOND_RECEIVER_CUT ∨ cut = 0)) (.invalid "Incorrect second receiver percent of its share")
    .ok { c with second := some (a, cut) }

/-- The check of `max_spread`, contracts/tokenomics/maker/src/contract.rs:62-70 and 786-793. -/
def checkSpread (m : Nat) : Res Unit := require (¬ (m = 0 ∨ m > MAX_SPREAD)) (.invalid "IncorrectMaxSpread")

/-- `instantiate`, contracts/tokenomics/maker/src/contract.rs:41-158.  `max_spread` defaults to 5%, `governance_percent` to 0. -/
def create (owner : A) (staking gov : Option A) (govPct maxSpread : Option Nat) (astro : I)
    (defaultBridge : Option I) (second : Option (A × Nat)) (cooldown : Option Nat) (now : Nat) (nobody : A)
    (bal : I → A → Nat) (w : P) : Res (State P A I) := do
  let pct := govPct.getD 0
  require (¬ pct > 100) (.invalid "IncorrectGovernancePercent")
  require (¬ (staking = none ∧ pct ≠ 100)) (.invalid "GovernancePercentMustBe100")
  let spread := maxSpread.getD (5 * 10 ^ 16)
  checkSpread spread
  validateCooldown cooldown
  let c : Cfg A I := {
    owner := owner, staking := staking, dev := none, defaultBridge := defaultBridge, gov := gov
    govPct := pct, astro := astro, maxSpread := spread, enabled := false, preBlocks := 0, lastBlock := 0
    remainder := 0, preAmount := 0, second := none, cooldown := cooldown }
  let c ← updateSecond c second
  require (¬ (c.staking = none ∧ c.gov = none)) (.invalid "Either staking or governance contract must be set")
  .ok { cfg := c, lastCollect := now, bridges := fun _ => none, seizeTo := nobody, seizable := [], bal := bal,
        world := w }

/-- The message of `update_config`; `gov` is `Some (some a)` for `Set(a)` and `Some none` for `Remove`; `dev` is
`Some set`. -/
structure Update (A I : Type) where
  staking : Option A := none
  gov : Option (Option A) := none
  govPct : Option Nat := none
  defaultBridge : Option I := none
  maxSpread : Option Nat := none
  second : Option (A × Nat) := none
  cooldown : Option Nat := none
  astro : Option I := none
  dev : Option (Option (DevFund A I)) := none

/-- The governance part of `update_config`, contracts/tokenomics/maker/src/contract.rs:750-766. -/
def updateGov (c : Cfg A I) : Option (Option A) → Res (Cfg A I)
  | none => .ok c
  | some (some a) => .ok { c with gov := some a }
  | some none => do
    require (¬ c.staking = none) (.invalid "Cannot remove governance contract if staking contract is not set")
    .ok { c with gov := none }

/-- The percentage part of `update_config`, contracts/tokenomics/maker/src/contract.rs:768-778. -/
def updatePct (c : Cfg A I) : Option Nat → Res (Cfg A I)
  | none => .ok c
  | some p => do
    require (¬ p > 100) (.invalid "IncorrectGovernancePercent")
    require (¬ (c.staking = none ∧ p ≠ 100)) (.invalid "GovernancePercentMustBe100")
    .ok { c with govPct := p }

/-- The spread part of `update_config`, contracts/tokenomics/maker/src/contract.rs:786-793. -/
def updateSpread (c : Cfg A I) : Option Nat → Res (Cfg A I)
  | none => .ok c
  | some m => do
    checkSpread m
    .ok { c with maxSpread := m }

/-- The cooldown part of `update_config`, contracts/tokenomics/maker/src/contract.rs:808-812. -/
def updateCooldown (c : Cfg A I) : Option Nat → Res (Cfg A I)
  | none => .ok c
  | some d => do
    validateCooldown (some d)
    .ok { c with cooldown := some d }

/-- The dev fund part of `update_config`, contracts/tokenomics/maker/src/contract.rs:819-843. -/
def updateDev (mk : Market P I) (w : P) (c : Cfg A I) : Option (Option (DevFund A I)) → Res (Cfg A I)
  | none => .ok c
  | some none => .ok { c with dev := none }
  | some (some d) => do
    require (0 < d.share ∧ d.share ≤ DEC) (.invalid "Dev fund share must be > 0 and <= 1")
    require (mk.has w c.astro d.asset = true) (.invalid "InvalidBridgeNoPool")
    .ok { c with dev := some d }

/-- The staking part of `update_config`, contracts/tokenomics/maker/src/contract.rs:745-748. -/
def setStaking (c : Cfg A I) : Option A → Cfg A I
  | none => c
  | some a => { c with staking := some a }

/-- The default bridge part of `update_config`, contracts/tokenomics/maker/src/contract.rs:780-784. -/
def setBridge (c : Cfg A I) : Option I → Cfg A I
  | none => c
  | some b => { c with defaultBridge := some b }

/-- The ASTRO part of `update_config`, contracts/tokenomics/maker/src/contract.rs:814-818. -/
def setAstro (c : Cfg A I) : Option I → Cfg A I
  | none => c
  | some i => { c with astro := i }

/-- `update_config`, contracts/tokenomics/maker/src/contract.rs:718-850 (owner checked in `exec`; the factory address is part of `world`). -/
def updateConfig (mk : Market P I) (w : P) (c : Cfg A I) (u : Update A I) : Res (Cfg A I) := do
  let c ← updateGov (setStaking c u.staking) u.gov
  let c ← updatePct c u.govPct
  let c ← updateSpread (setBridge c u.defaultBridge) u.maxSpread
  let c ← updateSecond c u.second
  let c ← updateCooldown c u.cooldown
  updateDev mk w (setAstro c u.astro) u.dev

/-! ## Bridges -/

/-- `validate_bridge`, contracts/tokenomics/maker/src/utils.rs:143-180; `left` is `BRIDGES_MAX_DEPTH - depth`. -/
def validateBridge (mk : Market P I) (w : P) (bridges : I → Option I) (astro : I) : Nat → I → I → Res Unit
  | left, src, bridge => do
    require (mk.has w src bridge = true) (.invalid "InvalidBridgeNoPool")
    if bridge = astro ∨ mk.has w bridge astro = true then .ok ()
    else match left with
      | 0 => .error (.invalid "MaxBridgeDepth")
      | left + 1 => match bridges bridge with
        | none => .error (.invalid "InvalidBridgeDestination")
        | some b => validateBridge mk w bridges astro left bridge b

/-- The loop over added bridges of `update_bridges`, contracts/tokenomics/maker/src/contract.rs:879-898. -/
def addBridges (mk : Market P I) (w : P) (astro : I) : (I → Option I) → List (I × I) → Res (I → Option I)
  | m, [] => .ok m
  | m, (a, b) :: rest => do
    require (¬ a = b) (.invalid "InvalidBridge")
    validateBridge mk w m astro BRIDGES_MAX_DEPTH a b
    addBridges mk w astro (Function.update m a (some b)) rest

/-- `update_bridges`, contracts/tokenomics/maker/src/contract.rs:858-901 (owner checked in `exec`). -/
def updateBridges (mk : Market P I) (s : State P A I) (add : List (I × I)) (remove : List I) : Res (State P A I) := do
  let m : I → Option I := fun i => if i ∈ remove then none else s.bridges i
  let m ← addBridges mk s.world s.cfg.astro m add
  .ok { s with bridges := m }

/-- `swap`, contracts/tokenomics/maker/src/contract.rs:416-475: the token a fee token is swapped to, and whether that is a bridge. -/
def target (mk : Market P I) (s : State P A I) (src : I) : Res (I × Bool) :=
  match s.bridges src with
  | some b => do
    validateBridge mk s.world s.bridges s.cfg.astro BRIDGES_MAX_DEPTH src b
    .ok (b, decide (b ≠ s.cfg.astro))
  | none =>
    match s.cfg.defaultBridge with
    | some d =>
      if src ≠ d ∧ mk.has s.world src d = true then .ok (d, true)
      else if mk.has s.world src s.cfg.astro = true then .ok (s.cfg.astro, false)
      else .error (.invalid "CannotSwap")
    | none =>
      if mk.has s.world src s.cfg.astro = true then .ok (s.cfg.astro, false)
      else .error (.invalid "CannotSwap")

/-- The amount `swap_assets` offers: the balance, or the limit when that is smaller and positive. -/
def offered (balance : Nat) : Option Nat → Nat
  | none => balance
  | some l => if l < balance ∧ 0 < l then l else balance

/-- `swap_assets`, contracts/tokenomics/maker/src/contract.rs:377-409: swap messages `(from, to, amount)` and the set of bridge tokens.  The code
collects the set in a hash map, whose order is unspecified; here it is in order of first appearance. -/
def swapAssets (mk : Market P I) (me : A) (s : State P A I) : List (I × Option Nat) →
    Res (List (I × I × Nat) × List I)
  | [] => .ok ([], [])
  | (i, l) :: rest => do
    let n := offered (s.bal i me) l
    if n = 0 then swapAssets mk me s rest
    else do
      let (t, br) ← target mk s i
      let (ms, bs) ← swapAssets mk me s rest
      .ok ((i, t, n) :: ms, if br then (if t ∈ bs then bs else t :: bs) else bs)

/-- Executing one swap message (`build_swap_msg`, contracts/tokenomics/maker/src/utils.rs:55-95): the offer goes to the pool, the proceeds come to
the maker. -/
def doSwap (mk : Market P I) (me : A) (s : State P A I) (m : I × I × Nat) : Res (State P A I) := do
  let l ← debit (s.bal m.1) me m.2.2
  let (w, out) ← mk.swap s.world m.1 m.2.1 m.2.2
  let b := Function.update s.bal m.1 l
  .ok { s with bal := Function.update b m.2.1 (credit (b m.2.1) me out), world := w }

/-- The swap messages one after the other. -/
def doSwaps (mk : Market P I) (me : A) : State P A I → List (I × I × Nat) → Res (State P A I)
  | s, [] => .ok s
  | s, m :: rest => do
    let s ← doSwap mk me s m
    doSwaps mk me s rest

/-! ## Distribution -/

/-- The amounts of one distribution. -/
structure Parts where
  second : Nat
  gov : Nat
  dev : Nat
  staking : Nat
  deriving DecidableEq

/-- `distribute`, contracts/tokenomics/maker/src/contract.rs:561-603: what is available for distribution, with the configuration after it; `none`
when nothing is distributed. -/
def available (c : Cfg A I) (height balance : Nat) : Res (Cfg A I × Option Nat) :=
  if balance = 0 then .ok (c, none)
  else if c.enabled = false then .ok ({ c with preAmount := balance, remainder := balance }, none)
  else if c.remainder ≠ 0 then do
    let passed ← csub height c.lastBlock
    if passed = 0 then .ok (c, none)
    else do
      let portion ← cdiv c.preAmount c.preBlocks
      let cur ← u128 (passed * portion)
      let cur := min cur c.remainder
      let pure ← csub balance c.remainder
      let amount ← u128 (pure + cur)
      let rem ← csub c.remainder cur
      .ok ({ c with remainder := rem, lastBlock := height }, some amount)
  else .ok (c, some balance)

/-- The second receiver's part, contracts/tokenomics/maker/src/contract.rs:605-625. -/
def secondPart (c : Cfg A I) (amount : Nat) : Res Nat :=
  match c.second with
  | some (_, cut) => mulRatio amount cut 100
  | none => .ok 0

/-- The governance part, contracts/tokenomics/maker/src/contract.rs:627-646. -/
def govPart (c : Cfg A I) (amount second : Nat) : Res Nat :=
  match c.gov with
  | some _ => do
    let r ← csub amount second
    mulRatio r c.govPct 100
  | none => .ok 0

/-- The dev fund's part, contracts/tokenomics/maker/src/contract.rs:648-675. -/
def devPart (c : Cfg A I) (amount : Nat) : Res Nat :=
  match c.dev with
  | some d => u128 (mulDec amount d.share)
  | none => .ok 0

/-- The staking contract's part, contracts/tokenomics/maker/src/contract.rs:677-683. -/
def stakingPart (c : Cfg A I) (amount second gov dev : Nat) : Res Nat :=
  match c.staking with
  | some _ => do
    let t ← u128 (gov + second)
    let t ← u128 (t + dev)
    csub amount t
  | none => .ok 0

/-- `distribute`, contracts/tokenomics/maker/src/contract.rs:605-683: how the available amount is split. -/
def split (c : Cfg A I) (amount : Nat) : Res Parts := do
  let second ← secondPart c amount
  let gov ← govPart c amount second
  let dev ← devPart c amount
  let staking ← stakingPart c amount second gov dev
  .ok { second := second, gov := gov, dev := dev, staking := staking }

/-- A transfer of ASTRO out of the maker; nothing is sent when the amount is zero. -/
def payTo (s : State P A I) (me : A) (dst : Option A) (n : Nat) : Res (State P A I) :=
  match dst with
  | none => .ok s
  | some a => if n = 0 then .ok s else do
    let l ← move (s.bal s.cfg.astro) me a n
    .ok { s with bal := Function.update s.bal s.cfg.astro l }

/-- The dev fund part of the messages of `distribute`, contracts/tokenomics/maker/src/contract.rs:646-675, with `reply` (reply.rs): the share is
swapped to the dev fund's asset, and then *the whole balance* of that asset is sent on.  Bank and cw20 refuse to send
nothing. -/
def payDev (mk : Market P I) (me : A) (s : State P A I) (n : Nat) : Res (State P A I) :=
  match s.cfg.dev with
  | none => .ok s
  | some d => if n = 0 then .ok s else do
    require (mk.has s.world s.cfg.astro d.asset = true) (.invalid "InvalidBridgeNoPool")
    let s ← doSwap mk me s (s.cfg.astro, d.asset, n)
    require (s.bal d.asset me ≠ 0) (.invalid "invalid coins")
    let l ← move (s.bal d.asset) me d.addr (s.bal d.asset me)
    .ok { s with bal := Function.update s.bal d.asset l }

/-- `distribute`, contracts/tokenomics/maker/src/contract.rs:553-698, with the execution of its messages in their order. -/
def distribute (mk : Market P I) (me : A) (s : State P A I) (height : Nat) : Res (State P A I) := do
  let (c, am) ← available s.cfg height (s.bal s.cfg.astro me)
  let s := { s with cfg := c }
  match am with
  | none => .ok s
  | some amount => do
    let p ← split c amount
    let s ← payTo s me (c.second.map (·.1)) p.second
    let s ← payTo s me c.gov p.gov
    let s ← payDev mk me s p.dev
    payTo s me c.staking p.staking

/-- `swap_bridge_assets`, contracts/tokenomics/maker/src/contract.rs:485-528, with its submessages; `left` is
`BRIDGES_EXECUTION_MAX_DEPTH - depth`.  (`build_distribute_msg`, contracts/tokenomics/maker/src/utils.rs:102-127, chooses the continuation.)  The
second result counts the nested calls. -/
def bridgeRun (mk : Market P I) (me : A) (height : Nat) : Nat → List I → State P A I → Res (State P A I × Nat)
  | 0, _, _ => .error (.invalid "MaxBridgeDepth")
  | left + 1, assets, s => do
    let (ms, bs) ← swapAssets mk me s (assets.map fun i => (i, none))
    require (ms ≠ []) (.invalid "Empty swap messages")
    let s ← doSwaps mk me s ms
    if bs = [] then do
      let s ← distribute mk me s height
      .ok (s, 1)
    else do
      let (s, k) ← bridgeRun mk me height left bs s
      .ok (s, k + 1)

/-- The cooldown check of `collect`, contracts/tokenomics/maker/src/contract.rs:317-324. -/
def checkCooldown (cd : Option Nat) (last now : Nat) : Res Unit :=
  match cd with
  | none => .ok ()
  | some p => require (¬ now < last + p) (.invalid "Cooldown")

/-- `collect`, contracts/tokenomics/maker/src/contract.rs:309-362; anybody can call it. -/
def collect (mk : Market P I) (me : A) (s : State P A I) (now height : Nat) (assets : List (I × Option Nat)) :
    Res (State P A I × Nat) := do
  checkCooldown s.cfg.cooldown s.lastCollect now
  let s := { s with lastCollect := now }
  require ((assets.map (·.1)).Nodup) (.invalid "DuplicatedAsset")
  let (ms, bs) ← swapAssets mk me s (assets.filter fun a => a.1 ≠ s.cfg.astro)
  if ms = [] then do
    let s ← distribute mk me s height
    .ok (s, 0)
  else do
    let s ← doSwaps mk me s ms
    if bs = [] then do
      let s ← distribute mk me s height
      .ok (s, 0)
    else bridgeRun mk me height BRIDGES_EXECUTION_MAX_DEPTH bs s

/-! ## Seizing -/

/-- The messages of `seize`, contracts/tokenomics/maker/src/contract.rs:932-954, computed from the balances before them. -/
def seizeAmounts (me : A) (s : State P A I) (assets : List (I × Option Nat)) : List (I × Nat) :=
  (assets.map fun a => (a.1, match a.2 with | some l => min l (s.bal a.1 me) | none => s.bal a.1 me)).filter
    fun a => a.2 ≠ 0

/-- Executing them. -/
def doSeize (me : A) : State P A I → List (I × Nat) → Res (State P A I)
  | s, [] => .ok s
  | s, (i, n) :: rest => do
    let l ← move (s.bal i) me s.seizeTo n
    doSeize me { s with bal := Function.update s.bal i l } rest

/-- `seize`, contracts/tokenomics/maker/src/contract.rs:903-960; anybody can call it. -/
def seize (me : A) (s : State P A I) (assets : List (I × Option Nat)) : Res (State P A I) := do
  require (assets ≠ []) (.invalid "assets vector is empty")
  require (s.seizable ≠ []) (.invalid "No seizable assets found")
  require (∀ a ∈ assets, a.1 ∈ s.seizable) (.invalid "Input vector contains assets that are not seizable")
  doSeize me s (seizeAmounts me s assets)

/-! ## Transactions -/

/-- Transactions, with the block they are in where it matters.  `send` is a plain transfer (for example the arrival of
fees), `world` any change of the pools by others. -/
inductive Op (P A I : Type)
  | collect (now height : Nat) (assets : List (I × Option Nat))
  | update (sender : A) (u : Update A I)
  | bridges (sender : A) (add : List (I × I)) (remove : List I)
  | enable (sender : A) (height blocks : Nat)
  | seize (assets : List (I × Option Nat))
  | updateSeize (sender : A) (dst : Option A) (assets : List I)
  | send (i : I) (src dst : A) (n : Nat)
  | world (w : P)

/-- `execute`, contracts/tokenomics/maker/src/contract.rs:189-304. -/
def exec (mk : Market P I) (me : A) (s : State P A I) : Op P A I → Res (State P A I)
  | .collect now height assets => do
    let (s, _) ← collect mk me s now height assets
    .ok s
  | .update sender u => do
    require (sender = s.cfg.owner) .unauthorized
    let c ← updateConfig mk s.world s.cfg u
    .ok { s with cfg := c }
  | .bridges sender add remove => do
    require (sender = s.cfg.owner) .unauthorized
    updateBridges mk s add remove
  | .enable sender height blocks => do
    require (sender = s.cfg.owner) .unauthorized
    require (s.cfg.enabled = false) (.invalid "RewardsAlreadyEnabled")
    require (blocks ≠ 0) (.invalid "Number of blocks should be > 0")
    .ok { s with cfg := { s.cfg with enabled := true, preBlocks := blocks, lastBlock := height } }
  | .seize assets => seize me s assets
  | .updateSeize sender dst assets => do
    require (sender = s.cfg.owner) .unauthorized
    .ok { s with seizeTo := dst.getD s.seizeTo, seizable := assets }
  | .send i src dst n => do
    require (src ≠ me) .unauthorized
    let l ← move (s.bal i) src dst n
    .ok { s with bal := Function.update s.bal i l }
  | .world w => .ok { s with world := w }

/-- A history; failed transactions change nothing. -/
def run (mk : Market P I) (me : A) (s : State P A I) (os : List (Op P A I)) : State P A I :=
  os.foldl (fun s o => commit' s (exec mk me s o)) s

end Verif.Maker
