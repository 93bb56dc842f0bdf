# Formal model of astroport-core in Lean 4 — design

## Method

The Rust contracts are modelled function by function as total, computable Lean functions
`State → Call → Except Err (State × Output)`.  Rust `Result::Err`, panics (arithmetic overflow,
underflow, division by zero, failed `unwrap`) are all *data* (`Except.error`); a reverted CosmWasm
transaction leaves the state untouched, which is how the step relation of each contract treats an
error.  Histories are lists of calls (any sender, any amount, any block time that the property allows)
and history properties are proved by induction over the list.  Amounts are natural numbers; where the
code would abort because a `Uint128`/`Uint256`/`Decimal` overflows the model has the explicit check,
unless a comment at the definition says it was left out (then the model allows *more* executions than
the code, which is sound for safety properties).

External calls (bank module, cw20 tokens, token factory, other contracts' queries) are parameters or
are modelled by a ledger.

Layout of `lean/Verif`:

* `Base/*`  – result monad lemmas, fixed point numbers (`Decimal`, `Decimal256`), ledgers.
* `<Area>/Model.lean` – the model; every definition cites file and lines in `/repo`.
* `<Area>/Spec.lean` (when needed) – independent specification used in the statements.
* `<Area>/Props.lean` – the property theorems (names `Cxx_...`), each with a concrete non-vacuity example.
* helper lemmas live in `<Area>/Lemmas.lean` or above the theorems.

When the code *violates* the English property, the negation is proved with a concrete witness
(`Cxx_..._violated`), and the strongest true version is proved as `..._partial`.

## Trusted base

* Lean 4.33.0 kernel.
* Axioms: every theorem listed in `MANIFEST.json` depends on at most `propext`, `Classical.choice` and
  `Quot.sound` (checked with `#print axioms`).  No `sorry`, no `native_decide`, no `bv_decide`, no own axioms.
  Concrete witnesses are evaluated by the kernel (`decide +kernel` only asks the kernel to run the decision
  procedure; it uses no compiled code).
* The transcription of Rust into Lean (done by hand, cited line by line).
* Semantics of `cosmwasm_std` 1.x numbers as transcribed in `Base/Dec.lean`, `PCL/Signed.lean` and
  `PCL.dsqrt`; `cw-storage-plus` maps as functions or ordered association lists (`Base/KV.lean`),
  `SnapshotMap`/`SnapshotItem` as in `Base/Snapshot.lean`; `cw20-base` 0.15.1 allowances, `cw1-whitelist` and
  `cw_utils` payment helpers from their documented behaviour (their source is not in the repository).
* Atomic revert of failed transactions; token ledgers that move exactly the requested amounts; the bank and the
  token factory refuse empty coins; `overflow-checks = true` in release builds (Cargo.toml).

## What is modelled

| area (`lean/Verif/…`) | code | not modelled |
|---|---|---|
| `Ownership` | packages/astroport/src/common.rs | – |
| `Asset` | packages/astroport/src/asset.rs: identifiers, denom grammar, `assert_coins_properly_sent`, balances checks | queries, message construction, `Display` |
| `Staking` | contracts/tokenomics/staking, contracts/pair_xastro | tracker hook (see `Tracker`), instantiation replies |
| `XYK` | contracts/pair: all of swap, provide, withdraw, quotes, accumulators, fee share, recorded balances, the messages and payments around them (`XYK.Entry`) (`migrate` always refuses, see `Upgrade`) | the factory queries (parameters) |
| `SaleTax` | contracts/pair_xyk_sale_tax: tax, configuration, swaps, quotes, histories, migration, the messages and payments around them (`SaleTax.Entry`), when they succeed (`SaleTax.Honest`, `SaleTax.Available`) | the factory queries (parameters) |
| `Stable` | contracts/pair_stable: invariant solver, swaps, deposits, withdrawals, ramps, quotes, accumulators | as for `XYK`; observations (see `Observation`) |
| `PCL` | packages/astroport_pcl_common and contracts/pair_concentrated: solver, signed decimals, fee, ramp, repeg, all transactions and quotes (`migrate` changes only the stored version, see `Upgrade`) | precisions above 18, ownership (see `Ownership`) |
| `Duality` | contracts/pair_concentrated_duality: all transactions, order construction, reply, sync, queries, upgrade from a concentrated pool | the orderbook itself (an arbitrary environment), merging of two orders at one tick; of a pool with a cw20 token only swaps of the token |
| `Restricted` | packages/astroport/src/restricted_vector.rs | `Display` of keys (only in error texts) |
| `Inj` | contracts/pair_concentrated_inj: all transactions, the messages they arrive in, begin blocker, order construction, quotes, migration of a plain pool | the exchange itself (an arbitrary environment: fills, acceptance of orders), the two averaging functions (parameters: not in this commit) |
| `Transmuter` | contracts/pair_transmuter: all transactions and quotes (`migrate` always refuses) | – |
| `Converter` | contracts/periphery/astro_converter, contracts/periphery/astro_converter_neutron, contracts/pair_astro_converter, the upgrade of a pool to the latter, several chains connected by an idealised ICS-20 | IBC itself |
| `Observation` | packages/circular_buffer, packages/astroport/src/observation.rs, `accumulate_swap_sizes` | serialization |
| `Factory` | contracts/factory: registry, configuration, creation, queries, migration of the pair configurations | attributes |
| `Router` | contracts/router: operations, replies, simulation, re-entrancy by arbitrary contracts | – |
| `Vesting` | contracts/tokenomics/vesting with its messages on chain (`Vesting/Entry`), its migration to a new token (`Joint/VestingMigration`) and the list of accounts | other queries of the configuration |
| `Incentives` | contracts/tokenomics/incentives: staking, accrual, schedules, claims, removal, blocking, allocation, fees, settings, queries of pools, schedules, stakers, blocked tokens and pending rewards | – |
| `Maker` | contracts/tokenomics/maker, with its migration | queries |
| `TokenFactory` | packages/astroport/src/token_factory.rs: messages that create, mint and burn, in all three builds, and the answer to creation | the tracking hook's message; the chains' modules are a specification of the environment |
| `Tracker` | contracts/periphery/tokenfactory_tracker, with its migration | – |
| `XToken` | contracts/tokenomics/xastro_token | marketing, migration |
| `Registry`, `FeeGranter`, `Whitelist`, `Oracle` | the four contracts, with the migration of the oracle | attributes |
| `Upgrade` | the name and version gates of all `migrate` entry points | the stored JSON (old and new forms are records here) |
| `Joint` | a pair and the incentives contract on one ledger of LP tokens: automatic staking, joint histories (constant product, stableswap, concentrated); staking and the tracker on one ledger of xASTRO; the factory and the incentives contract (which pools may be rewarded); the router in front of real pairs (`Exchange`); factory, pairs and router in one history (`Market`) | – |

Not modelled at all: contracts' attributes and events, JSON (de)serialization, gas, address
validation (addresses are arbitrary values of a type `A` with decidable equality), test helpers.

## Plan per property


| id | model | proof |
|----|-------|-------|
| C01, C02 | `common.rs` ownership state machine | invariant over histories + step decision logic |
| C03–C06 | staking contract with ASTRO/xASTRO ledger | cross-multiplied rate invariant, induction over histories |
| C07 | pair_xastro prediction | equality with staking's formula; branch mismatch proved as violation |
| C08, C10, C11, C15, C16 | XYK compute_swap / swap / quotes | floor arithmetic; counterexamples where 18-digit truncation leaks |
| C09, C13, C14 | XYK provide/withdraw | per-asset rate invariant by induction |
| C12 | min_lp / min_assets checks | decision logic; duplicate-entry violation |
| C17 | price accumulators | modular telescoping over histories |
| C18 | sale tax pair | decision logic + config invariant |
| C19 | circular buffer | refinement to last-N list |
| C20–C22, C72 | observations | correctness of binary search by invariant; interpolation bounds; SMA telescoping, violation |
| C23–C27 | vesting | floor arithmetic; claim history invariant; funded invariant; limit violation |
| C28–C34 | incentives | per-pool multi-staker accounting invariant; schedule arithmetic; violations |
| C33, C73, C74 | incentives, contract-wide distribution (`Alloc.lean`) | list invariant over histories; violations |
| C35–C38 | factory | registry as map; byte-key lemmas; pagination walk |
| C39–C41 | router | step machine with re-entrancy; list decision logic; fold |
| C42–C44 | transmuter | normalisation arithmetic, invariant over histories |
| C45–C48, C69 | stableswap | ramp arithmetic; Newton loop as fuelled recursion with the code's 64 iterations |
| C49–C53, C70 | concentrated | parameter histories; ramp; fee convexity; update_price guard; signed decimal |
| C54–C57 | maker | distribution arithmetic; histories; bridge graph search |
| C58 | tracker | SnapshotMap model; refinement to ledger history |
| C59–C61 | xastro cw20 | ledger sum invariant; snapshot histories |
| C62 | converter | ledger invariant |
| C63–C65 | registry, fee granter, whitelist | invariants over histories |
| C66 | oracle | modular telescoping |
| C67, C68 | asset checks | decision logic as iff |
| C71 | pair_xastro reverse quote | floor arithmetic; violation |
| C75, C76 | router over pools | decision logic of the spread check; composition; revisit violation |
| C77–C80 | stableswap accumulators, rounding, availability, quotes | unfolding of transactions; residual bounds of the root; concrete dust pools |
| C81, C82, C85 | concentrated ramp and parameters | definedness of all partial operations; witnesses |
| C83, C84 | update_price | convexity of the moving average and of the repeg step; the weight is compared with the real power 2^(-elapsed/half time) through the binomial series, error at most 1.01e-10 |
| C86–C90, C92 | concentrated transactions | inversion of the transaction; ledger sum invariants over histories |
| C91 | XYK deposit limits | decision logic |
| C93–C95 | maker | frame theorems for arbitrary pools; release schedule by induction over distributions |
| C96 | tracker supply | snapshot history |
| C97, C98 | converter pair, fee granter | inversion; invariants over histories; witness of a stuck grant |
| C99–C110 | orderbook pair | list of standing orders as environment; conservation of coins over placing/cancelling; floor bounds for the exported share; witnesses for the accounting errors |
| C112–C121 | Injective pair | exchange account as second ledger, fills as environment events; inversion of transactions, invariants over histories; witnesses for the accounting errors |
| C122 | recorded balances | one simulation (`Base.Tracked`) of any reserve function with any history, instantiated for both pair types |
| C123–C126 | queries and costs of incentives | pages as a reader would walk them, shown equal to one list; list compared with the rates of C31; induction over the schedules of a message, over histories for the number of tokens |
| C127, C128 | the incentives contract as a whole | all pools with one balance per token, adversarial transfer failures; the funding invariant of C31 summed over pools against the balance; claims of several pools by induction over the list |
| C129, C130 | a pair and the incentives contract together | both models on one LP ledger; auto-staking as the provision to the pair followed by a deposit by the pair; histories with events of both contracts, invariants of both carried along |
| C131 | factory migration | the store as a map of raw keys to old or new configs; the loop over the keys in ascending order, by induction with an invariant for the keys done and to do |
| C132 | vesting migration | the vesting model and the converter model on one ledger; solvency of C25 carried over the exchange, then any further history |
| C133 | tracker migration | the tracker's history with a change of the unit of time in between; the snapshot map's lookups before and after |
| C134 | sale tax pair | every transaction of the taxed pair is the transaction of the plain pair with the tax taken off before, or fails; by induction a history of the taxed pair is a history of the plain pair |
| C135–C137 | list queries of vesting, xASTRO, fee granter | `Base/Listing`: the sorted list of a storage map, a reader turning pages in either direction; completeness by induction on pages |
| C138 | blocked tokens | the keys of assets with their decoding; the same reader; the change of the list call by call |
| C139 | converters on several chains | hub and outposts with packets in any order; escrow and packets as an invariant; a continuation that burns everything, built explicitly |
| C140 | Neutron converter | its transfer inverted exactly; simulation of its histories by histories of the plain converter |
| C141 | Stable ledgers | LP and asset ledgers of the stableswap pair over its histories: invariant by induction, per-operation ledger moves inverted, sum of floors |
| C142 | Joint, all pairs | joint histories defined once for any kind of pair (`Face`), its ledger laws proved for the stableswap and concentrated models; invariant by induction over joint histories |
| C143 | Joint, staking and tracker | staking calls as lists of tracker transactions on one xASTRO ledger (`Verif.Joint.StakingHistory`); refinement to the staking model in both directions, then the snapshot history lemma over joint steps, whose last movement is never a burn |
| C144 | concentrated pool queries | the two queries as functions of the state (`Verif.PCL.Queries`); equality with the specification of a swap; exact value after the first deposit; a concrete history in which a deposit makes the reported accumulators run back |
| C145 | assets as text | decision logic of `determine_asset_info` for every string and every set of valid addresses; counterexample for denoms that are addresses |
| C146 | concentrated pool solvers | refinement of the fixed point loop to Newton's method over integers cut toward zero, by induction over the iterations; residual bound at the last iterate |
| C147 | reverse quotes of the concentrated pools | `compute_offer_amount` and the three queries; inversion into the curve equation; gross amount covers the fee by exact floor accounting; equality of the exchange pairs' queries with those of a plain pool (`Verif.PCL.Reverse`, `Verif.Duality.Queries`, `Verif.Inj.Queries`); concrete quotes that buy too little |
| C148 | metadata and logos of tokens | the validation functions over byte lists (`Verif.XToken.Info`); the specification is written with membership and lengths only; equivalence by case analysis |
| C149 | trade sizes seen by the Injective pair | `accumulate_swap_sizes` and the precommit buffer joined to the pair model (`Verif.Inj.Sizes`); invariant over joint histories; refinement of the pair model |
| C150 | settings of the incentives contract | `update_config` and the name of each pool's protocol reward joined to the distribution model (`Verif.Incentives.Settings`); exact success condition and effect; invariants by induction |
| C151 | stable solvers always converge | fixed point Newton steps compared with the real Newton map (`Verif.Stable.NewtonReal`), error bounds through the linear and quadratic phase (`Converge`, `ConvergeY`), margin of the remaining reserve (`Quote`), carried to queries and transactions (`Available`) |
| C152 | list of pending rewards | the query with its merging of neighbouring entries (`Verif.Incentives.Pending`), for any order of the stored keys; sums of the list compared with `pending` and `claim` |
| C153 | upgrades | the name and version gate of every `migrate` (`Verif.Upgrade.Versions`); induction over sequences of attempts |
| C154 | upgrade to a pool with sale tax | `migrate` and the pool after it, with the LP token a coin or a cw20 token (`Verif.SaleTax.Upgrade`); induction over later histories |
| C155 | upgrade of an oracle | `migrate` (`Verif.Oracle.Upgrade`) composed with `consult` and `update` |
| C156 | upgrade of a maker | `migrate` (`Verif.Maker.Upgrade`); induction over later histories |
| C157 | upgrade to a pool with orders | `migrate` (`Verif.Duality.Upgrade`); refinement: each transaction of the new pool without orders succeeds exactly when that of the plain pool does, with the same result; induction over histories. For cw20 tokens: the swap entry point that collects nothing |
| C158 | factory and incentives together | both models run as one system (`Verif.Joint.Registry`): the factory's answers are computed from its state, deregistration sends its message; invariants by induction over joint histories |
| C159 | list of reward pools | the keys of the pools (`Verif.Incentives.Pools`); the same reader as for the other lists |
| C160 | messages to a constant product pair | all ledgers of the chain, allowances, attached coins and cw20 callbacks around the pair (`Verif.XYK.Entry`); refinement: every accepted transaction is the named transactions of `Verif.XYK.Model`, hence its theorems hold on the chain; nobody else pays: by cases |
| C161 | trading ASTRO and xASTRO through the virtual pair is staking | the pair's `swap` with attached coins, joined to the staking model (`Verif.Joint.XastroPair`); the pair's balance is passed through, so a trade equals `enter`/`leave` by the trader both ways; induction over histories |
| C162 | messages to a stableswap pair | as C160, over the shared ledgers of `Verif.Asset.Ledgers` (`Verif.Stable.Entry`); the refinement also keeps block times, so theorems about timed histories carry over |
| C163 | a trade gets the asset it names or fails | the `ask_asset_info` of the same messages and `select_pools`; false: the field is ignored in pools of two assets |
| C164 | messages to a concentrated pair | as C162 (`Verif.PCL.Entry`): the pair takes the offer out of its pools in decimal form, completes a deposit that names one asset, orders the assets, and asks the factory whether it is still registered |
| C165 | a route through real pairs | the router (`route`, `reply`, all ways of paying it, also a forged `Receive`) in front of any number of constant product, stableswap and concentrated pairs with the code of C160, C162, C164 over common ledgers (`Verif.Joint.Exchange`); every hop is four payments and the pair's own quote (`traded`), routes by induction (`Steps`) |
| C166 | everything sent with a route is traded | same model; false of the code (coins that are not offered on the route stay in the router for whoever comes next), proved when only offered assets are sent |
| C167 | pairs are what their creation said, for ever | the factory, all pairs it creates (the three kinds, instantiated by their own code), the router, transfers and other coins in one history over common ledgers (`Verif.Joint.Market`); invariant over histories |
| C168 | LP supply, locked minimum and covered claims of every pair of the exchange | same model; every message to a pair is a sequence of payments, mints and burns of its own LP token (`Verif.Joint.Flows`), so the invariants of C09, C141 and C164 survive everything else that happens |
| C169 | transactions take only from who pays; pairs are isolated; routes give the minimum | same model; `Acts`: payments by who pays and messages to the pairs it talks to |
| C170 | the directory names the right pair, routes deliver the quote, in every reachable state | same model; false of the code for assets whose identifiers can be confused (C36), proved for all others by discharging the assumptions of C165 from the history |
| C171 | LP tokens of constant product pairs never lose value, whatever happens on the exchange | same model (`Verif.Joint.Value`); every transaction is a sequence of payments and messages, each of which keeps `x·y/supply²`; the fees are valid because the factory's are, shared fees by an invariant; false of the code beyond 10^18 units |
| C172 | Withdrawals, trades and deposits at constant product pairs always work | same model (`Verif.XYK.Available`, `Verif.Joint.Available`): success of the messages from the state alone, fees, shared fees, LP supply and asset checks from invariants of the history; false of the code when price times idle time reaches 2^128 (`accumulate_prices` overflows) |
| C173 | Sale-tax pairs: any message means exactly one transaction of the pair, the tax is exact, only the payer pays | messages of the sale-tax pair (`Verif.SaleTax.Entry`), sharing deposits and withdrawals with `XYK.Entry`; refinement to the transactions of C134, tax paid as bank coins whose denom is the text of the offered asset |
| C174 | Messages that pay what they declare succeed exactly when the trade, deposit or withdrawal does | entry models `XYK.Entry`, `SaleTax.Entry`, `Stable.Entry` and `PCL.Entry`; converse of C160/C162/C164/C173: from a successful transaction of the pair, the attached coins, asset lists, allowances and payments of the message are constructed and shown to pass every check (`XYK/Honest.lean`, `SaleTax/Honest.lean`, `Stable/Honest.lean`, `PCL/Honest.lean`) |
| C175 | Stableswap pools of ordinary size: withdrawing, trading and depositing work in every history | model of `Joint/Market.lean`; invariant: the amplification of every stableswap pair stays in its range (induction over histories, through C162 and the transactions of C46); convergence from C151, success of the messages from C174 (`Joint/StableAvailable.lean`) |
| C176 | Balances of a tracked token are on record from its first unit on | model of the setup of tracked tokens (`instantiate` and both `reply`s), the token factory, the bank and any number of trackers (`Joint/Tracked.lean`); every history of the chain is mapped, step by step, to a history of the tracker's model, to which C58 and C96 apply |
| C177 | What accounts send to the vesting contract means what it should | `execute` and `receive_cw20` of the vesting contract over the ledgers of the chain (`Vesting/Entry.lean`); each accepted transaction is mapped to vesting transactions, histories by induction, then C24, C25 and the arithmetic of payments |
| C178 | Staked LP tokens are there to be withdrawn, even where LP tokens are rewards | the whole incentives contract of C127 with one balance per token for stakes and rewards (`Incentives/Vault.lean`); invariant of C127 with the stakes added, together with C28; witness of a lost stake after a bypassed removal |
| C179 | What messages to the incentives contract do to positions and balances | `execute` with attached coins, the cw20 hook, payments that may fail, and arbitrary other activity on the ledgers (`Incentives/Entry.lean`); every transaction is simulated by events of C178; positions and losses by cases over messages; witness of a lost stake |
| C180 | Messages to the ASTRO staking contract keep the pool whole, whatever hooks do | `execute` with attached coins on a bank with all denominations; what a hooked contract does is an arbitrary tree of actions, with caught failures (`Staking/Entry.lean`); induction over the tree simulates every transaction by operations of the staking model, then C03 to C06 and a new invariant (never below par) |
| C181 | Messages to a transmuter pool: who pays, what is accepted, and what LP tokens are worth | `execute` with attached coins (`Transmuter/Messages.lean`) on the model of C42–C44; who pays by cases over messages; acceptance by construction of the resulting state; value per LP token by cross-multiplication, with a witness that deposits dilute a surplus |
| C182 | Sending xASTRO with a call of the receiver is safe whatever the receiver does | transactions as trees of messages with caught failures (`XToken/Hooks.lean`); flattening to histories of the token model, so that C59–C61 carry over; all or nothing by cases |
| C183 | Messages to a pair with orderbook integration are paid with the attached coins, exactly | dispatcher with attached coins and the ledgers of all denoms (`Duality/Entry.lean`); refinement to histories of the pool model; acceptance as equivalences; per-transaction bounds on the signer's loss from the transaction specifications |
| C184 | Messages to a pair on the Injective orderbook take exactly what was attached or sent | dispatcher with attached coins, receipts of the LP token, allowances and the ledgers of all denoms (`Inj/Entry.lean`); refinement to histories of the pool model; acceptance as equivalences; per-transaction bounds on the payer's loss from the transaction specifications |
| C185 | Turning a constant product pool into the pair in front of the converter strands nothing | `migrate` with its checks, the pair's dispatcher with receipts and attached coins (`Converter/Upgrade.lean`); acceptance as an equivalence; reduction of the pair's trades to conversions (C97); induction over histories for the pair's holdings. False as to liquidity left in the pool |
| C186 | Moving a concentrated pool to the Injective orderbook changes nothing until the orders start | `migrate` (`Inj/Upgrade.lean`); simulation: each transaction the plain pool accepts is accepted by the new one without orders, with the same outcome and state but the accumulators; induction over histories. False for a recorded fee share |
| C187 | Vectors of running totals add up and keep their order | `RestrictedVector` (`Restricted/Model.lean`); specification of one addition, induction over sequences from the right |
| C188 | A pool computes with the decimals its assets had when it was created | `query_token_precision`, `store_precisions`, `get_precision` joined to the registry model (`Registry/Decimals.lean`); specification of the loop by induction; induction over joint histories. False for assets that share a text, and for the ticks of the Injective pair |
| C189 | A pair with sale tax is always there, whatever its tax admin does | `SaleTax.Entry` (`Verif.SaleTax.Available`): success of the taxed trade from the state alone, with the invariant that taxes are at most one half; withdrawals and deposits from C172's lemmas; false of the code when price times idle time reaches 2^128 |
| C190 | Nobody can stop a concentrated pool by sending it coins | `PCL.Model` (`Verif.PCL.Gifts`): every trade, deposit and quote solves for the invariant of the present holdings first, so none succeeds when the solver fails; induction over histories that leave the holdings alone; withdrawals as an equivalence with the solver's answer for the rest; false of the code, by a concrete gift |
| C191 | LP tokens are minted and burnt alike on every chain | `TokenFactory.Model`: the derived encoders byte by byte in the three builds, a reader by the rules of the wire format, and the chains' mint, burn and send; reading back by strong induction on numbers and induction on fields; effect of the message lists as equivalences |
| C192 | Numbers passed to and from the Injective exchange arrive exactly or are refused | texts of decimals digit by digit (`Verif.Inj.Numbers`), written with trailing zeros cut and read back; induction on digits; the other conversions as equivalences |
| C193 | Dust does not move the prices of a concentrated pool | `PCL.Model` (`Verif.PCL.Dust`): case analysis of one transaction, induction over histories; rounding of what is paid out against the decimal amounts |
| C194 | Concentrated pool: trading there and back gains nothing | `PCL.Model` (`Verif.PCL.RoundTrip`): false for tiny trades, by a concrete round trip evaluated by the kernel; for others the check of the LP value is carried over to the reserves after the trade |
| C195 | Concentrated pool: it works at every size | `PCL.Model` (`Verif.PCL.Large`): false; lower bounds carried through the first step of the solver show that it overflows for every pool with 10^12 tokens on both sides, and trades of some sizes fail already below, by a concrete pool evaluated by the kernel |
| C111 | incentives: lower bound on payouts | potential function over histories |

Properties that cannot be expressed: none in the list so far.  (Cost of gas, iteration-limit
exhaustion of the real VM, and behaviour of third-party contracts are outside any model here.)

## Properties found false of the code

Each has a kernel-checked witness from a reachable state (theorem names end in `_violated` unless noted).

* C07 first stake is quoted wrongly by the virtual pair; C71 its reverse quote is short by rounding.
* C08, C10, C16 constant product pair: 18-digit truncation lets the product fall and the reserve be drained above
  10^18 raw units; reverse simulation is one unit short.
* C12 duplicate entries in `min_assets_to_receive` defeat the check; the sale-tax pair ignores both minima.
* C13 dust deposits mint nothing.
* C18 sale-tax pair with two assets of the same name (a native denom equal to a cw20 address).
* C22, C72 the moving average at full buffer counts a stale entry, can block swaps, and only the first trade of a
  block is observed.
* C27 limit of schedules per account not enforced for a registration with many schedules.
* C28, C30, C31, C33, C34, C73 incentives: stuck withdrawals, dust claims erase rewards, orphaned rewards refunded
  twice, upcoming schedules not refunded, double subtraction of points, lost rewards, deactivation with zero rate.
* C36 registry keys of different asset sets collide.
* C39 re-entrancy overwrites the router's minimum; C76 routes visiting a pool twice are misquoted.
* C44 transmuter reverse quote rounds down and compares the reserve in the wrong unit.
* C47, C77–C80 stableswap: whole reserve can leave, deposits skew the accumulator, rounding in favour of the trader,
  dust pools are bricked, reverse quote wrong for different decimals.
* C49, C51, C52, C81, C82, C85–C87 concentrated pool: fee order, one-unit fee bounds, profit guard circumvented by ramp
  and withdrawal, far ramps overflow, zero parameters block swaps, end of a ramp blocks swaps, floating point TWAP
  constant, minimum of withdrawals dropped.
* C54, C55, C94, C95 maker: overpaying with a dev fund and no staking, configurations that make distribution fail,
  dev fund takes waiting fees, pre-upgrade ASTRO below the number of blocks never released.
* C59, C60 xASTRO token: duplicate accounts at instantiation, different block conventions of the two histories.
* C66 plain transfers into the pair break the averages.
* C67 undeclared coins are kept by the check itself; in the constant product, stableswap and concentrated pairs both assets
  are always declared in the end, so their deposits do not get there (C160, C162, C164).  C166 coins sent along with a route
  that the route does not offer stay in the router, and the next caller can take them.  C145 a native denom that is also a valid address is read as a token.
* C171 (as C08) when more than 10^18 units of an asset exist, a trade of one unit can take a unit of value from the pool.
* C172 when the price times the seconds since the last message reaches 2^128 (with six digits), `accumulate_prices` (contracts/pair/src/contract.rs:844-876) overflows in `multiply_ratio` and every deposit, withdrawal and trade fails from then on: a pair of 10^30 units of one coin and 2000 of another is stuck after eight days without messages.
* C170 asked for a token whose address reads like a coin of a pair, the factory names that pair; the router quotes the trade,
  executes it if no minimum is set, and the receiver gets the coin instead of the token.
* C19 `read_all` misses values pushed after `clear_buffer` (which no contract calls).
* C147 the quoted offer of a reverse simulation buys less than was asked (9 units instead of 10, 10^11 - 1 instead of 10^11).
* C148 the plain token message accepts digits and slashes in symbols.  C149 a minimum of one trade is reached only at the second.
* C150 a pool inactive when the ASTRO token changes announces the old token for ever; C74 the new ASTRO token may be a blocked one.
* C152 (stronger reading) an asset can be listed twice among the pending rewards.
* C154 the upgrade to a pool with sale tax accepts only pools with cw20 LP tokens, whose liquidity it locks for ever.
* C157 a concentrated pool with a cw20 token can be upgraded to the code with orders, which then accepts swaps of tokens nobody
  has sent and pays coins for them.
* C158 a pair deregistered while nothing is emitted, or while the factory does not know the incentives contract, receives ASTRO
  later; after both tokens of one pool were blocked at once, other pairs cannot be deregistered nor excluded pools removed.
* C163 a trade that names a wrong asset to be paid in is accepted and paid in the other asset of the pool.
* C144 a deposit changes the cumulative prices reported in its block, in one direction downwards.
* C96 burns are recorded late; C98 a used-up fee grant can be neither revoked nor renewed.
* C103, C104, C105, C109 orderbook pair: frozen for ever by a stale order list, blocked by balanced fills, wrong price for
  two-sided fills, executed orders miscounted.
* C125, C126 incentives: the limit of reward tokens is lost once ASTRO is the sixth, the page size is ignored.
* C127 a bypassed removal in one pool takes the rewards of stakers of other pools.
* C178 where an LP token is also a reward, a bypassed removal lets claims in one pool be paid with LP tokens staked in another, whose stakers can then not withdraw.
* C179 the same at the level of messages: the staker's withdrawal message is refused because the contract no longer has the LP coins.
* C181 a transmuter pool's surplus above par is shared with the next depositor, who can withdraw it at once: existing LP tokens fall in value (never below par).
* C128 a failed reward transfer is ignored and the reward is lost for the claimer.
* C122 plain transfers are not recorded until the next operation.
* C115, C116, C119–C121 Injective pair: sell orders far below the curve, deposit rounded down, leaving the exchange is taken for a trade (frozen pool, fee on nothing), fee of
  executed orders dropped, fills with equal net amounts block the pool, simulation ignores executed orders.
* C185 turning a pool into the converter's pair is accepted while the pool holds liquidity, which is then locked for good:
  the pair reports an empty pool and refuses withdrawals.
* C186 a pool moved to the Injective orderbook keeps its fee share on record but no trade pays it any more.
* C188 a coin and a token with the same text share one entry of the decimals; the Injective pair converts the exchange's quantity step
  with the registry's present decimals while it computes with those of its creation.
* C189 the accumulators of the pair with sale tax overflow in the same way (contracts/pair_xyk_sale_tax/src/contract.rs:790-822): after that neither deposits nor withdrawals nor trades succeed.
* C190 a gift can stop a concentrated pool: with amplification 40 and gamma 0.000145, a pool of a million of each asset that is sent 10^11 times as much of one of them has no invariant the solver finds (packages/astroport_pcl_common/src/math/math_decimal.rs:58-75 overflows); no trade and no deposit succeeds after that, and withdrawing even 99% of the LP tokens fails.
* C194 concentrated pool: a round trip with `10^6` units of an 18 digit asset returns 237 times as much; the solvers are exact only
  to 0.00001 of a token, and smaller trades are not checked for a loss of LP value.
* C195 concentrated pool: with mainnet parameters the solver overflows at `10^12` tokens of each asset, and from about `10^11` tokens
  on trades of some sizes fail while smaller and larger ones succeed.

## Testing the theorems

`seeded/LOG.jsonl` records wrong programs: the model was edited in a scratch copy, rebuilt, failing proofs replaced by
`sorry`, and the manifest theorems depending on `sorryAx` collected.  Theorems that survived a harmful edit were
tightened or new ones added (noted in the log).
