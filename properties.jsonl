{"id": "C01", "title": "Ownership moves only by propose + timely claim", "statement": "For every contract using the shared two-step ownership helper: after any sequence of propose / drop / claim calls (by any senders, at any block times), the owner differs from the previous owner only if the previous owner proposed that exact address, did not drop or replace the proposal since, and the proposed address itself claimed no later than the proposal's expiry. Every other call by anybody leaves the owner unchanged.", "quantifier": "all finite histories of calls, senders, block times and expiry values", "why_tests_cant": "A test fixes one call sequence; the claim must survive every interleaving of callers, amounts and block times.", "anchors": ["packages/astroport/src/common.rs: propose_new_owner, drop_ownership_proposal, claim_ownership"]}
{"id": "C02", "title": "An ownership proposal is single use and bounded", "statement": "A proposal can be claimed at most once: right after a successful claim or drop no claim succeeds until the (new) owner proposes again, and a stored proposal never expires later than 14 days after it was made.", "quantifier": "all histories", "why_tests_cant": "A test fixes one call sequence; the claim must survive every interleaving of callers, amounts and block times.", "anchors": ["packages/astroport/src/common.rs: claim_ownership, MAX_PROPOSAL_TTL"]}
{"id": "C03", "title": "xASTRO redemption rate never falls", "statement": "While xASTRO is outstanding, the amount of ASTRO backing one xASTRO (contract ASTRO balance / xASTRO supply) never decreases under any sequence of Enter, EnterWithHook, Leave and plain ASTRO donations.", "quantifier": "all histories of stakers, amounts and donations from any state", "why_tests_cant": "Integer rounding goes wrong only at particular magnitudes; samples cannot rule out the one input that leaks value.", "anchors": ["contracts/tokenomics/staking/src/contract.rs: execute_enter, execute_leave"]}
{"id": "C04", "title": "Stake/unstake round trip is never profitable and loses less than one share plus dust", "statement": "Entering with any amount and leaving immediately with everything minted returns at most the amount paid (the pool being empty or already running), and (when the pool is already running) the loss is smaller than the price of one xASTRO unit plus one unit of ASTRO.", "quantifier": "all pool states and amounts for which Enter succeeds", "why_tests_cant": "Integer rounding goes wrong only at particular magnitudes; samples cannot rule out the one input that leaks value.", "anchors": ["contracts/tokenomics/staking/src/contract.rs: execute_enter, execute_leave"]}
{"id": "C05", "title": "First stake locks 1000 xASTRO for good", "statement": "After the first successful Enter the staking contract itself holds at least 1000 xASTRO and the xASTRO supply is at least 1000, and at least one unit of ASTRO backs it, in every later state; so every Leave by a holder with positive amount succeeds.", "quantifier": "all histories starting from the empty contract", "why_tests_cant": "A test fixes one call sequence; the claim must survive every interleaving of callers, amounts and block times.", "anchors": ["contracts/tokenomics/staking/src/contract.rs: MINIMUM_STAKE_AMOUNT, execute_enter, execute_leave"]}
{"id": "C06", "title": "Staking never dilutes other holders and is always solvent", "statement": "An Enter or Leave by somebody else never lowers the amount of ASTRO any holder would get by leaving now, and at every moment the contract holds enough ASTRO for all holders to leave in any order.", "quantifier": "all holders, all histories", "why_tests_cant": "A test fixes one call sequence; the claim must survive every interleaving of callers, amounts and block times.", "anchors": ["contracts/tokenomics/staking/src/contract.rs: execute_enter, execute_leave"]}
{"id": "C07", "title": "ASTRO-xASTRO virtual pair quotes what staking pays", "statement": "The return amount that the ASTRO/xASTRO virtual pair reports (simulation and swap attribute) is exactly the amount the staking contract mints or pays in the same transaction.", "quantifier": "all staking states and offer amounts", "why_tests_cant": "The two contracts duplicate the formula; only a proof over all states shows the copies agree on every branch.", "anchors": ["contracts/pair_xastro/src/contract.rs: predict_stake, predict_unstake", "contracts/tokenomics/staking/src/contract.rs"]}
{"id": "C08", "title": "XYK swaps never decrease the constant product", "statement": "A swap on a constant product pool never decreases the product of the two reserves.", "quantifier": "all reserves, offers, fee rates", "why_tests_cant": "Integer rounding goes wrong only at particular magnitudes; samples cannot rule out the one input that leaks value.", "anchors": ["contracts/pair/src/contract.rs: compute_swap, swap"]}
{"id": "C09", "title": "XYK LP token never loses backing", "statement": "For each pool asset, reserve per LP token never decreases when anybody provides or withdraws liquidity (with any amounts, in any order), and the pool stays able to pay every LP holder's pro-rata claim.", "quantifier": "all histories of provides and withdrawals", "why_tests_cant": "Integer rounding goes wrong only at particular magnitudes; samples cannot rule out the one input that leaks value.", "anchors": ["contracts/pair/src/contract.rs: calculate_shares, get_share_in_assets, provide_liquidity, withdraw_liquidity"]}
{"id": "C10", "title": "XYK swap output is bounded and fees split exactly", "statement": "A swap pays the trader less than the whole ask reserve; trader output + protocol fee + shared fee never exceeds the gross output, protocol and shared fee together never exceed the commission, and reserves after the swap are exactly old reserves plus offer minus what was sent out.", "quantifier": "all reserves, offers, fee configurations with rates of at most 100%", "why_tests_cant": "Integer rounding goes wrong only at particular magnitudes; samples cannot rule out the one input that leaks value.", "anchors": ["contracts/pair/src/contract.rs: compute_swap, swap, calculate_maker_fee"]}
{"id": "C11", "title": "Slippage protection of swaps is enforced", "statement": "If a swap succeeds with a belief price and maximum spread, the trader received at least (1 - max_spread) of what the belief price promises, up to rounding; without a belief price, the reported spread is at most max_spread of the gross return. A max_spread above 50% is rejected and a missing one means 0.5%.", "quantifier": "all amounts, prices and spreads", "why_tests_cant": "The check is a chain of truncating fixed point operations; correctness at every magnitude needs a proof.", "anchors": ["contracts/pair/src/contract.rs: assert_max_spread", "contracts/pair_stable/src/contract.rs: assert_max_spread", "packages/astroport_pcl_common/src/utils.rs: assert_max_spread"]}
{"id": "C12", "title": "Minimum LP / minimum withdrawal limits are honoured", "statement": "A successful provide mints at least min_lp_to_receive; a successful withdraw pays, for each asset listed in min_assets_to_receive, at least the listed amount of that asset.", "quantifier": "all requests", "why_tests_cant": "The check indexes two lists by position; every list shape (duplicates, order) has to be covered.", "anchors": ["contracts/pair/src/contract.rs: provide_liquidity, ensure_min_assets_to_receive", "contracts/pair_stable/src/contract.rs: ensure_min_assets_to_receive"]}
{"id": "C13", "title": "Depositors of an XYK pool always receive LP tokens", "statement": "A successful provide that moves tokens into the pool mints a positive number of LP tokens to the provider.", "quantifier": "all pool states and deposits", "why_tests_cant": "Integer rounding goes wrong only at particular magnitudes; samples cannot rule out the one input that leaks value.", "anchors": ["contracts/pair/src/contract.rs: calculate_shares"]}
{"id": "C14", "title": "XYK first provider cannot strand the pool", "statement": "The initial provide locks exactly 1000 LP tokens in the pair for ever, so the LP supply of a used pool is always at least 1000 and withdraw never divides by zero.", "quantifier": "all histories", "why_tests_cant": "A test fixes one call sequence; the claim must survive every interleaving of callers, amounts and block times.", "anchors": ["contracts/pair/src/contract.rs: provide_liquidity, calculate_shares, withdraw_liquidity"]}
{"id": "C15", "title": "XYK quotes equal execution", "statement": "Simulation returns exactly the return, spread and commission that a swap with the same reserves produces, and Share returns exactly what a withdrawal pays.", "quantifier": "all pool states and amounts", "why_tests_cant": "Two code paths must agree on every input.", "anchors": ["contracts/pair/src/contract.rs: query_simulation, swap, query_share, withdraw_liquidity"]}
{"id": "C16", "title": "XYK reverse simulation quote is sufficient", "statement": "Offering the amount quoted by ReverseSimulation yields at least the asked amount.", "quantifier": "all reserves, ask amounts and commission rates", "why_tests_cant": "Integer rounding goes wrong only at particular magnitudes; samples cannot rule out the one input that leaks value.", "anchors": ["contracts/pair/src/contract.rs: compute_offer_amount, query_reverse_simulation"]}
{"id": "C17", "title": "XYK cumulative prices advance once per time step and survive wrap-around", "statement": "Cumulative prices do not change twice within one block time, grow by elapsed time times the floor of the scaled spot price, and the modular difference of two readings equals the sum of those increments as long as that sum fits in 128 bits.", "quantifier": "all histories of pool interactions", "why_tests_cant": "Wrap-around at 2^128 takes centuries to reach in a test.", "anchors": ["contracts/pair/src/contract.rs: accumulate_prices"]}
{"id": "C18", "title": "Sale-tax pair: tax is bounded, conserved and quoted", "statement": "In the sale-tax pair the tax taken is at most 50% of the offer, tax plus taxed offer equals the offer, the pool keeps exactly the taxed offer, and configuration can only ever contain rates of at most 50% for the pair's own native assets, changed only by the tax admin.", "quantifier": "all offers and all configuration histories", "why_tests_cant": "A test fixes one call sequence; the claim must survive every interleaving of callers, amounts and block times.", "anchors": ["contracts/pair_xyk_sale_tax/src/contract.rs: compute_swap, update_config", "packages/astroport/src/pair_xyk_sale_tax.rs"]}
{"id": "C19", "title": "Circular buffer behaves as the last-N list", "statement": "For any capacity N > 0 and any sequence of pushes, the circular buffer's contents read oldest-to-newest are exactly the last N pushed values; read_last is the newest value; reading a slot never written reports emptiness.", "quantifier": "all capacities, push sequences and read positions", "why_tests_cant": "Index arithmetic modulo capacity fails only at particular head positions.", "anchors": ["packages/circular_buffer/src/lib.rs"]}
{"id": "C20", "title": "Oracle observation lookup is total and exact", "statement": "For any non-empty observation history with strictly increasing timestamps and any target time not older than the oldest stored observation, the observation query terminates, reads only stored observations, and returns the stored value at an exact hit, the newest value after the newest timestamp, and otherwise the linear interpolation between the two neighbouring observations; a target older than the oldest observation is an error.", "quantifier": "all histories, buffer capacities, wrap positions and query times", "why_tests_cant": "Binary search bounds on a wrapped ring buffer have many boundary states.", "anchors": ["packages/astroport/src/observation.rs: query_observation, binary_search"]}
{"id": "C21", "title": "Interpolated oracle price stays between its neighbours", "statement": "An interpolated observation is never outside the interval spanned by the two neighbouring stored averages and differs from the exact straight line by at most the seconds elapsed since the earlier neighbour times (1 + price difference) times 1e-18.", "quantifier": "all neighbouring observations and times", "why_tests_cant": "Integer rounding goes wrong only at particular magnitudes; samples cannot rule out the one input that leaks value.", "anchors": ["packages/astroport/src/observation.rs: query_observation"]}
{"id": "C22", "title": "Moving average equals the mean of the last N prices", "statement": "The moving average stored with each oracle observation equals (up to fixed point rounding) the arithmetic mean of the last N observed prices, N being the buffer capacity, or of all of them while fewer exist.", "quantifier": "all price histories and capacities", "why_tests_cant": "Needs long histories and exact rational reasoning.", "anchors": ["contracts/pair_stable/src/utils.rs: accumulate_swap_sizes", "contracts/pair_concentrated/src/utils.rs: accumulate_swap_sizes", "packages/astroport/src/observation.rs: safe_sma_calculation, safe_sma_buffer_not_full"]}
{"id": "C23", "title": "Vesting releases monotonically between start and end amounts", "statement": "At any time the amount unlocked by a vesting schedule lies between 0 and its end amount, is 0 before the start, never decreases with time, and equals the end amount from the end time on.", "quantifier": "all valid schedules and times", "why_tests_cant": "Integer rounding goes wrong only at particular magnitudes; samples cannot rule out the one input that leaks value.", "anchors": ["contracts/tokenomics/vesting/src/contract.rs: calc_schedule_unlocked_amount, assert_vesting_schedules"]}
{"id": "C24", "title": "Vesting claims never overpay and are history independent", "statement": "However often and whenever a recipient claims (full or partial), the total paid by time t never exceeds what their schedules unlocked by t, and a full claim at t always brings the total to exactly that amount.", "quantifier": "all claim histories", "why_tests_cant": "A test fixes one call sequence; the claim must survive every interleaving of callers, amounts and block times.", "anchors": ["contracts/tokenomics/vesting/src/contract.rs: claim, compute_available_amount"]}
{"id": "C25", "title": "Vesting contract is fully funded", "statement": "The vesting contract's token balance always covers everything it still owes to all accounts (sum over accounts of scheduled total minus released), through any history of registrations, claims and owner withdrawals from active schedules.", "quantifier": "all histories of registrations, claims, withdrawals", "why_tests_cant": "A test fixes one call sequence; the claim must survive every interleaving of callers, amounts and block times.", "anchors": ["contracts/tokenomics/vesting/src/contract.rs: register_vesting_accounts, claim, withdraw_from_active_schedule"]}
{"id": "C26", "title": "Owner withdrawal from an active vesting schedule keeps what was already unlocked", "statement": "withdraw_from_active_schedule takes only not yet unlocked tokens: immediately after it the recipient can still claim exactly what was claimable before, and their final total drops by exactly the withdrawn amount.", "quantifier": "all schedules, times and amounts for which it succeeds", "why_tests_cant": "Integer rounding goes wrong only at particular magnitudes; samples cannot rule out the one input that leaks value.", "anchors": ["contracts/tokenomics/vesting/src/contract.rs: withdraw_from_active_schedule"]}
{"id": "C27", "title": "A vesting account holds at most the documented number of schedules", "statement": "No account ever holds more than the schedule limit (8) of vesting schedules.", "quantifier": "all registration histories", "why_tests_cant": "A test fixes one call sequence; the claim must survive every interleaving of callers, amounts and block times.", "anchors": ["contracts/tokenomics/vesting/src/contract.rs: register_vesting_accounts", "contracts/tokenomics/vesting/src/state.rs"]}
{"id": "C28", "title": "Incentives: LP deposits are conserved", "statement": "For each pool the sum of all stakers' positions equals the pool's total and the LP tokens held for it; a staker can always withdraw at most, and exactly up to, what they deposited.", "quantifier": "all histories of deposits, withdrawals and claims by any number of stakers", "why_tests_cant": "A test fixes one call sequence; the claim must survive every interleaving of callers, amounts and block times.", "anchors": ["contracts/tokenomics/incentives/src/execute.rs: deposit, withdraw", "contracts/tokenomics/incentives/src/state.rs: update_and_sync_position"]}
{"id": "C29", "title": "Incentives: never more rewards than emitted", "statement": "For a reward stream of a pool, the total paid to all stakers plus what is still claimable plus orphaned rewards never exceeds the tokens emitted by the stream (rate times active time), for any interleaving of deposits, withdrawals, claims and time.", "quantifier": "all histories, any number of stakers", "why_tests_cant": "Integer rounding goes wrong only at particular magnitudes; samples cannot rule out the one input that leaks value.", "anchors": ["contracts/tokenomics/incentives/src/state.rs: update_rewards, calculate_reward, calculate_rewards, update_and_sync_position", "contracts/tokenomics/incentives/src/utils.rs: claim_rewards"]}
{"id": "C30", "title": "Incentives: rewards are pro rata and history independent", "statement": "While a staker's position is unchanged, they earn the same total (up to rounding of at most one unit per claim) no matter how often they or others claim, and two stakers with equal positions over the same period earn the same.", "quantifier": "all claim schedules", "why_tests_cant": "A test fixes one call sequence; the claim must survive every interleaving of callers, amounts and block times.", "anchors": ["contracts/tokenomics/incentives/src/state.rs: calculate_reward, update_rewards"]}
{"id": "C31", "title": "Incentives: external schedules are fully funded", "statement": "Total tokens ever paid out or orphaned for an external reward never exceed the tokens sent by incentivizers for it, across any history of overlapping schedules; removing a reward sends back exactly what would have been emitted from then on and what had accrued for nobody.", "quantifier": "all histories of incentivize calls, updates and claims", "why_tests_cant": "A test fixes one call sequence; the claim must survive every interleaving of callers, amounts and block times.", "anchors": ["contracts/tokenomics/incentives/src/state.rs: update_rewards, incentivize", "packages/astroport/src/incentives.rs: IncentivesSchedule::from_input"]}
{"id": "C32", "title": "Incentives: schedules end on epoch boundaries", "statement": "Every accepted external schedule ends a whole number of weeks after the fixed Monday epoch origin, strictly after now, after between 1 and 25 epochs, and pays at least one unit per second.", "quantifier": "all block times, amounts and durations", "why_tests_cant": "Depends on modular arithmetic far beyond today's block times.", "anchors": ["packages/astroport/src/incentives.rs: IncentivesSchedule::from_input"]}
{"id": "C33", "title": "Incentives: total allocation points equal the sum of active pools' points", "statement": "The stored total of allocation points always equals the sum over active pools, so the ASTRO emitted per second to all pools never exceeds the configured rate.", "quantifier": "all histories of setup, deactivation and blocking", "why_tests_cant": "A test fixes one call sequence; the claim must survive every interleaving of callers, amounts and block times.", "anchors": ["contracts/tokenomics/incentives/src/execute.rs: setup_pools, update_blocked_pool_tokens", "contracts/tokenomics/incentives/src/utils.rs: deactivate_pool, deactivate_blocked_pools"]}
{"id": "C34", "title": "Incentives: finished or removed rewards stay claimable", "statement": "When a reward stream finishes or is removed, every staker who had accrued it can still claim what had accrued up to that moment.", "quantifier": "all histories of finishing, removal and later claims", "why_tests_cant": "A test fixes one call sequence; the claim must survive every interleaving of callers, amounts and block times.", "anchors": ["contracts/tokenomics/incentives/src/state.rs: save, claim_finished_rewards, deregister_reward"]}
{"id": "C35", "title": "Factory registers at most one pool per asset set, order-insensitively", "statement": "Creating a pair succeeds only if no pair with the same assets (in any order) is registered; a registered pair can be looked up with its assets in any order; deregistering makes exactly that pair unavailable.", "quantifier": "all histories of create / reply / deregister", "why_tests_cant": "A test fixes one call sequence; the claim must survive every interleaving of callers, amounts and block times.", "anchors": ["contracts/factory/src/contract.rs: execute_create_pair, reply, deregister", "contracts/factory/src/state.rs: pair_key"]}
{"id": "C36", "title": "Factory lookups never confuse different asset sets", "statement": "Two different sets of assets never share a registry slot: looking up one never returns or blocks the other.", "quantifier": "all pairs of asset sets", "why_tests_cant": "Needs an adversarial choice of denoms.", "anchors": ["contracts/factory/src/state.rs: pair_key", "packages/astroport/src/asset.rs: as_bytes"]}
{"id": "C37", "title": "Factory pagination enumerates every pair exactly once", "statement": "Walking the pair list page by page (any page size from 1 to 30), passing the last pair of a page as start_after, visits every registered pair exactly once in order.", "quantifier": "all registries and page sizes", "why_tests_cant": "Byte-string boundary conditions of range scans.", "anchors": ["contracts/factory/src/state.rs: read_pairs, calc_range_start"]}
{"id": "C38", "title": "Factory fee configuration and permissions are always valid", "statement": "In every reachable state each pair type's total and maker fee are at most 100%; pool creation of a disabled type fails, of a permissioned type only succeeds for the owner, and nobody but the owner changes configuration. A change of settings alters exactly what it names; pairs pay the fees set last for their type; the list of types excluded from rewards names exactly the disabled ones and those without rewards.", "quantifier": "all histories", "why_tests_cant": "A test fixes one call sequence; the claim must survive every interleaving of callers, amounts and block times.", "anchors": ["contracts/factory/src/contract.rs: execute_update_config, update_tracker_config, execute_update_pair_config, execute_create_pair, query_blacklisted_pair_types, query_config", "packages/astroport/src/factory.rs: valid_fee_bps"]}
{"id": "C39", "title": "Router delivers at least minimum_receive", "statement": "A successful multi-hop swap increases the recipient's balance of the final asset by at least minimum_receive.", "quantifier": "all routes, all pool behaviours, including pools or tokens that call back into the router", "why_tests_cant": "A test fixes one call sequence; the claim must survive every interleaving of callers, amounts and block times.", "anchors": ["contracts/router/src/contract.rs: execute_swap_operations, reply"]}
{"id": "C40", "title": "Router accepts exactly connected routes", "statement": "A route is accepted iff it has 1 to 50 hops, each hop offers and asks different assets, and each hop offers what the previous one asked; the reported target is the last ask asset.", "quantifier": "all operation lists", "why_tests_cant": "Every list shape.", "anchors": ["contracts/router/src/contract.rs: assert_operations"]}
{"id": "C41", "title": "Router simulation composes hop by hop", "statement": "Simulating a concatenated route equals feeding the result of the first part into the second; reverse simulation likewise from the back.", "quantifier": "all routes and pool quote functions", "why_tests_cant": "Quantifies over arbitrary pools.", "anchors": ["contracts/router/src/contract.rs: simulate_swap_operations, simulate_reverse_swap_operations"]}
{"id": "C42", "title": "Transmuter swaps are 1:1 and never lose value", "statement": "Every transmuter swap pays out at most the normalised value of the offer and less than one smallest ask unit below it; the total normalised value of the reserves never decreases.", "quantifier": "all decimals, reserves, amounts", "why_tests_cant": "Integer rounding goes wrong only at particular magnitudes; samples cannot rule out the one input that leaks value.", "anchors": ["contracts/pair_transmuter/src/utils.rs: assert_and_swap", "contracts/pair_transmuter/src/state.rs: normalize, denormalize"]}
{"id": "C43", "title": "Transmuter LP is always fully backed", "statement": "The normalised value of the reserves is at least the LP supply in every reachable state, so all LP can be redeemed.", "quantifier": "all histories of provide, swap, balanced and imbalanced withdraw", "why_tests_cant": "A test fixes one call sequence; the claim must survive every interleaving of callers, amounts and block times.", "anchors": ["contracts/pair_transmuter/src/contract.rs"]}
{"id": "C44", "title": "Transmuter reverse simulation quote is sufficient", "statement": "Swapping the amount quoted by ReverseSimulation returns at least the asked amount, and the quote is available whenever the pool can serve it.", "quantifier": "all decimals, reserves, amounts", "why_tests_cant": "Integer rounding goes wrong only at particular magnitudes; samples cannot rule out the one input that leaks value.", "anchors": ["contracts/pair_transmuter/src/queries.rs: query_reverse_simulation"]}
{"id": "C45", "title": "Stableswap amplification ramps inside its bounds", "statement": "At any time the effective amplification lies between the initial and the target value, moves monotonically toward the target, equals the initial value at the start of the ramp and the target from its end on.", "quantifier": "all ramps and times", "why_tests_cant": "Integer rounding goes wrong only at particular magnitudes; samples cannot rule out the one input that leaks value.", "anchors": ["contracts/pair_stable/src/utils.rs: compute_current_amp"]}
{"id": "C46", "title": "Stableswap amplification changes are rate limited", "statement": "Through any history of start/stop calls the stored amplification parameters stay within 1..1e6 (scaled), a ramp takes at least one day, cannot start within one day of the previous one, targets at most a tenfold change, and starting or stopping a ramp does not make the current amplification jump.", "quantifier": "all histories of owner calls and times", "why_tests_cant": "A test fixes one call sequence; the claim must survive every interleaving of callers, amounts and block times.", "anchors": ["contracts/pair_stable/src/contract.rs: start_changing_amp, stop_changing_amp"]}
{"id": "C47", "title": "Stableswap swap output never exceeds the reserve and never prices above 1:1 gain", "statement": "A stableswap swap pays less than the ask reserve, reports return + commission consistent with fees, and fails rather than pays when the invariant solver does not converge.", "quantifier": "all reserves and offers", "why_tests_cant": "Integer rounding goes wrong only at particular magnitudes; samples cannot rule out the one input that leaks value.", "anchors": ["contracts/pair_stable/src/utils.rs: compute_swap", "contracts/pair_stable/src/math.rs: compute_d, calc_y"]}
{"id": "C48", "title": "Stableswap deposits never mint more than the invariant growth", "statement": "LP minted for a deposit is at most total LP times the relative growth of the invariant D; withdrawal pays at most the pro-rata share of each reserve; zero-share deposits are rejected.", "quantifier": "all pools and deposits", "why_tests_cant": "Integer rounding goes wrong only at particular magnitudes; samples cannot rule out the one input that leaks value.", "anchors": ["contracts/pair_stable/src/utils.rs: calculate_shares, get_share_in_assets"]}
{"id": "C49", "title": "Concentrated pool parameters always stay inside their documented bounds", "statement": "Through any history of parameter updates every concentrated pool parameter stays inside its documented range and out_fee stays above mid_fee.", "quantifier": "all histories of owner updates", "why_tests_cant": "A test fixes one call sequence; the claim must survive every interleaving of callers, amounts and block times.", "anchors": ["packages/astroport_pcl_common/src/state.rs: update_params", "packages/astroport_pcl_common/src/consts.rs"]}
{"id": "C50", "title": "Concentrated pool amp/gamma ramp stays between its end points", "statement": "At any time the effective amp and gamma lie between initial and future values; starting or stopping a promotion does not make them jump; promotions respect the one day minimum, tenfold limit and parameter ranges.", "quantifier": "all histories and times", "why_tests_cant": "A test fixes one call sequence; the claim must survive every interleaving of callers, amounts and block times.", "anchors": ["packages/astroport_pcl_common/src/state.rs: get_amp_gamma, promote_params, stop_promotion"]}
{"id": "C51", "title": "Concentrated pool fee lies between mid_fee and out_fee", "statement": "The dynamic swap fee of a concentrated pool is always between mid_fee and out_fee (given mid_fee <= out_fee) for any reserves.", "quantifier": "all reserves and parameters", "why_tests_cant": "Integer rounding goes wrong only at particular magnitudes; samples cannot rule out the one input that leaks value.", "anchors": ["packages/astroport_pcl_common/src/state.rs: fee"]}
{"id": "C52", "title": "Concentrated pool repricing never eats more than half of the LPs' profit", "statement": "A repeg is adopted only if the LP value index stays above the level that preserves at least half of the accumulated profit; otherwise the price scale is unchanged; and an operation that would lower the LP value index outside a ramp is rejected.", "quantifier": "all states and trades", "why_tests_cant": "A test fixes one call sequence; the claim must survive every interleaving of callers, amounts and block times.", "anchors": ["packages/astroport_pcl_common/src/state.rs: update_price"]}
{"id": "C53", "title": "Signed fixed point arithmetic agrees with integers", "statement": "The signed decimal type's addition, subtraction, comparison-free difference, multiplication and conversion agree with signed integer arithmetic on the underlying atomics (multiplication truncating toward zero), for all operands within range.", "quantifier": "all operands", "why_tests_cant": "Sign cases and truncation.", "anchors": ["packages/astroport_pcl_common/src/math/signed_decimal.rs"]}
{"id": "C54", "title": "Maker distributes exactly what it holds for distribution", "statement": "One distribution never sends out more ASTRO than is available for distribution, and when a staking contract is configured it sends out exactly that amount; the pre-upgrade remainder only decreases and is never paid twice.", "quantifier": "all balances, percentages, histories", "why_tests_cant": "Integer rounding goes wrong only at particular magnitudes; samples cannot rule out the one input that leaks value.", "anchors": ["contracts/tokenomics/maker/src/contract.rs: distribute"]}
{"id": "C55", "title": "Maker configuration can never make distribution fail", "statement": "Whatever configuration the owner is allowed to set, distribution of a positive balance does not fail for arithmetic reasons.", "quantifier": "all accepted configurations and balances", "why_tests_cant": "Needs the combination of several percentage settings.", "anchors": ["contracts/tokenomics/maker/src/contract.rs: distribute, update_config"]}
{"id": "C56", "title": "Maker collect respects its cooldown", "statement": "Two successful collect calls are never closer than the configured cooldown, and a configured cooldown is always within 30..600 seconds.", "quantifier": "all histories", "why_tests_cant": "A test fixes one call sequence; the claim must survive every interleaving of callers, amounts and block times.", "anchors": ["contracts/tokenomics/maker/src/contract.rs: collect", "contracts/tokenomics/maker/src/utils.rs: validate_cooldown"]}
{"id": "C57", "title": "Maker bridges always lead to ASTRO in at most a bounded number of hops", "statement": "A bridge accepted by configuration has, at that moment, a chain of existing pools from the asset to ASTRO of bounded length, and the recursive bridge swap never recurses more than the depth limit.", "quantifier": "all bridge maps and pool sets (including cyclic ones)", "why_tests_cant": "Cycles and depth boundaries.", "anchors": ["contracts/tokenomics/maker/src/utils.rs: validate_bridge", "contracts/tokenomics/maker/src/contract.rs: swap_bridge_assets"]}
{"id": "C58", "title": "Supply tracker reproduces historical balances", "statement": "For every address and every past tracking unit, the tracker's BalanceAt returns the bank balance the address had at the beginning of that unit, and for the current unit the balance now, for any history of mints, burns and transfers of a denom tracked since its first mint; the tracker blocks no transfer.", "quantifier": "all histories", "why_tests_cant": "A test fixes one call sequence; the claim must survive every interleaving of callers, amounts and block times.", "anchors": ["contracts/periphery/tokenfactory_tracker/src/contract.rs: track_balances", "contracts/periphery/tokenfactory_tracker/src/query.rs"]}
{"id": "C59", "title": "xASTRO cw20 balances always sum to total supply", "statement": "In every reachable state of the xASTRO cw20 token, the sum of all balances equals total supply and never exceeds the mint cap.", "quantifier": "all instantiations and histories", "why_tests_cant": "A test fixes one call sequence; the claim must survive every interleaving of callers, amounts and block times.", "anchors": ["contracts/tokenomics/xastro_token/src/contract.rs"]}
{"id": "C60", "title": "xASTRO cw20 historical queries are mutually consistent", "statement": "For every past block the balances reported for all holders at that block sum to the total supply reported for that block.", "quantifier": "all histories and blocks", "why_tests_cant": "A test fixes one call sequence; the claim must survive every interleaving of callers, amounts and block times.", "anchors": ["contracts/tokenomics/xastro_token/src/contract.rs: query_balance_at", "contracts/tokenomics/xastro_token/src/state.rs: get_total_supply_at"]}
{"id": "C61", "title": "Only the minter creates or destroys xASTRO cw20 supply; transfers need funds or allowance", "statement": "Total supply changes only by mint/burn from the configured minter; an account's balance decreases only by its own call or within an allowance.", "quantifier": "all histories", "why_tests_cant": "A test fixes one call sequence; the claim must survive every interleaving of callers, amounts and block times.", "anchors": ["contracts/tokenomics/xastro_token/src/contract.rs"]}
{"id": "C62", "title": "ASTRO converter is one-to-one and cannot be drained", "statement": "Every conversion pays exactly as many new tokens as old tokens were received; new tokens leave the converter in no other way; burning or bridging takes only old tokens.", "quantifier": "all histories", "why_tests_cant": "A test fixes one call sequence; the claim must survive every interleaving of callers, amounts and block times.", "anchors": ["contracts/periphery/astro_converter/src/contract.rs: convert, cw20_receive, burn, ibc_transfer_for_burning"]}
{"id": "C63", "title": "Coin registry decimals are trustworthy", "statement": "Every registered decimals value is within the allowed range; a permissionless registration never changes an existing entry and needs a sent coin of that denom; only the owner updates or removes; requests with duplicate denoms have no effect.", "quantifier": "all histories", "why_tests_cant": "A test fixes one call sequence; the claim must survive every interleaving of callers, amounts and block times.", "anchors": ["contracts/periphery/native_coin_registry/src/contract.rs"]}
{"id": "C64", "title": "Fee granter admin set and grants are controlled", "statement": "At most two admins ever exist; only owner/admins grant, revoke or transfer; a grantee has at most one live grant and a non-bypassed grant is funded exactly.", "quantifier": "all histories", "why_tests_cant": "A test fixes one call sequence; the claim must survive every interleaving of callers, amounts and block times.", "anchors": ["contracts/periphery/fee_granter/src/contract.rs", "contracts/periphery/fee_granter/src/state.rs"]}
{"id": "C65", "title": "Whitelist freezing is permanent", "statement": "Once frozen, the admin list of the whitelist contract never changes again; before that only current admins can change it, and only admins can execute.", "quantifier": "all histories", "why_tests_cant": "A test fixes one call sequence; the claim must survive every interleaving of callers, amounts and block times.", "anchors": ["contracts/whitelist/src/contract.rs"]}
{"id": "C66", "title": "TWAP oracle averages over full periods", "statement": "The oracle updates at most once per day and after an update each stored average is the modular growth of the cumulative price divided by the elapsed time, so that the average lies between the minimum and maximum spot price of the period.", "quantifier": "all price histories", "why_tests_cant": "A test fixes one call sequence; the claim must survive every interleaving of callers, amounts and block times.", "anchors": ["contracts/periphery/oracle/src/contract.rs: update, consult"]}
{"id": "C67", "title": "Declared native deposits equal sent coins", "statement": "The coin check of pair contracts accepts a message iff every sent coin belongs to the pool with the declared amount and every declared native deposit was sent, so declared deposits can neither exceed nor fall short of what arrived.", "quantifier": "all coin and asset lists", "why_tests_cant": "Every list shape.", "anchors": ["packages/astroport/src/asset.rs: assert_coins_properly_sent, assert_sent_native_token_balance"]}
{"id": "C68", "title": "Denom validation accepts exactly the Cosmos SDK denom grammar", "statement": "A native denom is accepted iff it has 3 to 128 bytes, starts with an ASCII letter and continues with letters, digits or one of / : . _ -.", "quantifier": "all byte strings", "why_tests_cant": "Infinite input space.", "anchors": ["packages/astroport/src/asset.rs: validate_native_denom"]}
{"id": "C69", "title": "Stableswap invariant solver returns only converged values", "statement": "Whenever the D and y solvers return, the last Newton step changed the value by at most the convergence tolerance, so a returned D/y is a fixed point up to the tolerance; otherwise the call errors.", "quantifier": "all reserves and amplifications", "why_tests_cant": "Numerical iteration on arbitrary inputs.", "anchors": ["contracts/pair_stable/src/math.rs"]}
{"id": "C70", "title": "Concentrated pool swap accounting", "statement": "In a concentrated pool swap the trader's output plus maker and shared fee never exceeds the gross curve output, fees are split so that maker + shared <= total fee, and a provide mints at most the invariant growth.", "quantifier": "all pool states for which the solver returns", "why_tests_cant": "Integer rounding goes wrong only at particular magnitudes; samples cannot rule out the one input that leaks value.", "anchors": ["packages/astroport_pcl_common/src/utils.rs: compute_swap", "contracts/pair_concentrated/src/utils.rs: calculate_shares"]}
{"id": "C71", "title": "ASTRO-xASTRO virtual pair reverse quote is sufficient", "statement": "Offering the amount quoted by the virtual pair's reverse simulation yields at least the asked amount of the other token.", "quantifier": "all staking pool states and amounts", "why_tests_cant": "Integer rounding goes wrong only at particular magnitudes; samples cannot rule out the one input that leaks value.", "anchors": ["contracts/pair_xastro/src/contract.rs: query_reverse_simulation"]}
{"id": "C72", "title": "A block's oracle observation covers the whole block", "statement": "The oracle observation committed for a block has as its price the total base amount divided by the total quote amount of all (non-dust) swaps of that block.", "quantifier": "all swap histories, any number of swaps per block", "why_tests_cant": "The defect shows only with several swaps in one block after the buffer is non-empty.", "anchors": ["contracts/pair_concentrated/src/utils.rs: accumulate_swap_sizes", "packages/astroport/src/observation.rs: PrecommitObservation::save"]}
{"id": "C73", "title": "Incentives: a deactivated pool receives no ASTRO", "statement": "After the factory deactivates a pool (its pair was deregistered), or a token of the pool is blocked, the pool receives no ASTRO until it is set up again, whatever else is configured meanwhile.", "quantifier": "all histories before and after the deactivation", "why_tests_cant": "Needs every order of rate changes, set-ups and deactivations.", "anchors": ["contracts/tokenomics/incentives/src/utils.rs: deactivate_pool", "contracts/tokenomics/incentives/src/execute.rs: update_blocked_pool_tokens"]}
{"id": "C74", "title": "Incentives: pools with blocked tokens never receive ASTRO", "statement": "In every reachable state a pool containing a blocked token has no ASTRO emission, ASTRO itself is never blocked, and only owner, controller, guardian and factory (each in their role) change the distribution.", "quantifier": "all histories of setup, blocking, unblocking and deactivation", "why_tests_cant": "All interleavings.", "anchors": ["contracts/tokenomics/incentives/src/execute.rs: setup_pools, update_blocked_pool_tokens"]}
{"id": "C75", "title": "Slippage protection of multi-hop swaps is only minimum_receive", "statement": "Inside a route of several hops the spread limit given by the user is not enforced by the pools (it cannot make any hop fail), while a single-hop route enforces it; hence the user's protection on longer routes is exactly minimum_receive.", "quantifier": "all amounts and limits", "why_tests_cant": "Integer rounding goes wrong only at particular magnitudes; samples cannot rule out the one input that leaks value.", "anchors": ["contracts/router/src/operations.rs: asset_into_swap_msg", "contracts/pair/src/contract.rs: assert_max_spread"]}
{"id": "C76", "title": "Route simulation predicts execution", "statement": "With honest pools, executing a route delivers exactly the amount that SimulateSwapOperations reported just before for the router's offer balance.", "quantifier": "all routes, pool states, pool pricing functions", "why_tests_cant": "A test fixes one call sequence; the claim must survive every interleaving of callers, amounts and block times.", "anchors": ["contracts/router/src/contract.rs: simulate_swap_operations, execute_swap_operations", "contracts/router/src/operations.rs: execute_swap_operation"]}
{"id": "C77", "title": "Stableswap price accumulators use the price that was in force", "statement": "When time has passed since the last update, a transaction on a stableswap pool adds to each cumulative price the elapsed seconds times the price at the reserves that stood in the pool during that time, i.e. before the transaction; within a block nothing is added twice.", "quantifier": "all transactions, reserves and times", "why_tests_cant": "A test fixes one call sequence; the claim must survive every interleaving of callers, amounts and block times.", "anchors": ["contracts/pair_stable/src/utils.rs: accumulate_prices", "contracts/pair_stable/src/contract.rs: provide_liquidity, withdraw_liquidity, swap"]}
{"id": "C78", "title": "Stableswap rounding does not favour the trader", "statement": "A stableswap swap never pays more than the curve gives up, so swapping there and back cannot end with more than one started with.", "quantifier": "all reserves, offers and fees", "why_tests_cant": "Integer rounding goes wrong only at particular magnitudes; samples cannot rule out the one input that leaks value.", "anchors": ["contracts/pair_stable/src/math.rs: calc_y", "contracts/pair_stable/src/utils.rs: compute_swap"]}
{"id": "C79", "title": "Stableswap liquidity can be withdrawn and added again at any time", "statement": "A holder of LP tokens can withdraw them in any block, and a pool whose providers have left accepts new deposits.", "quantifier": "all reachable pools", "why_tests_cant": "A test fixes one call sequence; the claim must survive every interleaving of callers, amounts and block times.", "anchors": ["contracts/pair_stable/src/contract.rs: withdraw_liquidity, provide_liquidity", "contracts/pair_stable/src/math.rs: compute_d"]}
{"id": "C80", "title": "Stableswap quotes are exact", "statement": "Swap simulation, deposit simulation and the share query of a stableswap pool report exactly what the transaction then does, and the offer quoted by the reverse simulation buys at least the asked amount.", "quantifier": "all reserves, amounts and fees", "why_tests_cant": "Integer rounding goes wrong only at particular magnitudes; samples cannot rule out the one input that leaks value.", "anchors": ["contracts/pair_stable/src/contract.rs: query_simulation, query_reverse_simulation, query_share, query_simulate_provide"]}
{"id": "C81", "title": "Concentrated pool: a ramp in progress never blocks the pool", "statement": "After the owner starts a change of amp and gamma, the current values are defined at every time, so swaps, deposits and withdrawals keep working and the ramp can be stopped.", "quantifier": "all accepted ramps and all times", "why_tests_cant": "The failure depends on the end time, which tests keep near.", "anchors": ["packages/astroport_pcl_common/src/state.rs: AmpGamma ramp, PoolState::get_amp_gamma, promote_params, stop_promotion"]}
{"id": "C82", "title": "Concentrated pool: accepted parameters never make trading impossible", "statement": "With any parameters accepted at creation or by an update the dynamic fee is defined and swaps within the curve's limits go through.", "quantifier": "all accepted parameter sets and reserves", "why_tests_cant": "Extreme accepted values are not sampled.", "anchors": ["packages/astroport_pcl_common/src/state.rs: PoolParams::update_params, fee", "packages/astroport_pcl_common/src/state.rs: PoolState::update_price"]}
{"id": "C83", "title": "Concentrated pool: the internal oracle is a manipulation-resistant moving average", "statement": "The oracle price after a trade lies between the previous oracle price and the last traded price recorded in an earlier transaction; trades within one block do not move it more than once, and the price of the trade itself does not enter it. The average is exponential with the configured half time, up to a relative error of 1.01e-10.", "quantifier": "all trades, prices and elapsed times", "why_tests_cant": "A test fixes one call sequence; the claim must survive every interleaving of callers, amounts and block times.", "anchors": ["packages/astroport_pcl_common/src/state.rs: PoolState::update_price", "packages/astroport_pcl_common/src/math/math_decimal.rs: half_float_pow"]}
{"id": "C84", "title": "Concentrated pool: the price scale only moves towards the oracle", "statement": "When a transaction changes the price scale, the new value lies strictly between the old one and the oracle price, or equals it within rounding, and the move keeps at least half of the profit.", "quantifier": "all states, trades and times", "why_tests_cant": "Integer rounding goes wrong only at particular magnitudes; samples cannot rule out the one input that leaks value.", "anchors": ["packages/astroport_pcl_common/src/state.rs: PoolState::update_price"]}
{"id": "C85", "title": "Concentrated pool: the end of a ramp leaves the pool tradable", "statement": "When a ramp of amp and gamma ends, swaps that were possible during the ramp remain possible.", "quantifier": "all ramps, reserves and times", "why_tests_cant": "A test fixes one call sequence; the claim must survive every interleaving of callers, amounts and block times.", "anchors": ["packages/astroport_pcl_common/src/state.rs: PoolState::update_price", "contracts/pair_concentrated/src/contract.rs: swap"]}
{"id": "C86", "title": "Concentrated pool: price accumulators use prices in force before the transaction", "statement": "Each cumulative price grows by elapsed seconds times the price (six digits) that was in force before the transaction; the trade itself does not influence the increment and nothing is added twice within a block.", "quantifier": "all transactions, reserves and times", "why_tests_cant": "A test fixes one call sequence; the claim must survive every interleaving of callers, amounts and block times.", "anchors": ["contracts/pair_concentrated/src/utils.rs: accumulate_prices", "contracts/pair_concentrated/src/contract.rs: swap, provide_liquidity"]}
{"id": "C87", "title": "Concentrated pool: withdrawals are proportional and respect the stated minimum", "statement": "Burning n of the LP supply pays each asset in the proportion n to supply, rounded against the withdrawer by less than a bounded dust, and fails when less than min_assets_to_receive would be paid.", "quantifier": "all reserves, supplies and amounts", "why_tests_cant": "Integer rounding goes wrong only at particular magnitudes; samples cannot rule out the one input that leaks value.", "anchors": ["contracts/pair_concentrated/src/contract.rs: withdraw_liquidity", "contracts/pair_concentrated/src/utils.rs: get_share_in_assets"]}
{"id": "C88", "title": "Concentrated pool: quotes are exact", "statement": "Swap simulation, deposit simulation and the share query report exactly what the transaction then does in the same block.", "quantifier": "all reserves, amounts and times", "why_tests_cant": "Integer rounding goes wrong only at particular magnitudes; samples cannot rule out the one input that leaks value.", "anchors": ["contracts/pair_concentrated/src/queries.rs: query_simulation, query_simulate_provide, query_share"]}
{"id": "C89", "title": "Concentrated pool: LP supply is the sum of balances and the minimum liquidity stays locked", "statement": "Over every history the LP supply equals the sum of all LP balances, and once the pool has been funded the first thousand LP units remain with the pool for ever.", "quantifier": "all histories of all transactions", "why_tests_cant": "A test fixes one call sequence; the claim must survive every interleaving of callers, amounts and block times.", "anchors": ["contracts/pair_concentrated/src/contract.rs: provide_liquidity, withdraw_liquidity", "contracts/pair_concentrated/src/utils.rs: mint_liquidity_token_message"]}
{"id": "C90", "title": "Concentrated pool: nobody loses tokens without signing", "statement": "A transaction decreases the asset and LP balances of nobody but its sender and the pool.", "quantifier": "all transactions and states", "why_tests_cant": "A test fixes one call sequence; the claim must survive every interleaving of callers, amounts and block times.", "anchors": ["contracts/pair_concentrated/src/contract.rs: execute"]}
{"id": "C91", "title": "Deposit limits of constant product pools are enforced", "statement": "A deposit into a funded constant product pool is accepted only if the ratio of the two amounts is within the slippage tolerance of the ratio of the reserves in both directions; the message must name each pool asset exactly once with a positive amount.", "quantifier": "all reserves, deposits and tolerances", "why_tests_cant": "Integer rounding goes wrong only at particular magnitudes; samples cannot rule out the one input that leaks value.", "anchors": ["contracts/pair/src/contract.rs: assert_slippage_tolerance, get_deposits_from_assets"]}
{"id": "C92", "title": "Concentrated pool: limits stated by users are enforced", "statement": "A swap respects the belief price and spread limit, a deposit mints at least min_lp_to_receive and, when it moves the price, no less than the slippage tolerance below its fair value; no limit above 50% is accepted.", "quantifier": "all states, amounts and limits", "why_tests_cant": "Integer rounding goes wrong only at particular magnitudes; samples cannot rule out the one input that leaks value.", "anchors": ["packages/astroport_pcl_common/src/utils.rs: assert_max_spread", "packages/astroport_pcl_common/src/utils.rs: assert_slippage_tolerance", "contracts/pair_concentrated/src/contract.rs: provide_liquidity, swap"]}
{"id": "C93", "title": "Collecting and seizing pay only the configured receivers", "statement": "Whoever calls collect, and with whatever assets, no account but the maker loses anything and only the configured receivers gain, and only ASTRO (the dev fund also its own asset); seizing sends only seizable assets and only to the configured receiver; only the owner changes the settings.", "quantifier": "all callers, asset lists, pools, configurations", "why_tests_cant": "A test fixes one call sequence; the claim must survive every interleaving of callers, amounts and block times.", "anchors": ["contracts/tokenomics/maker/src/contract.rs: collect, seize, distribute, update_config, update_bridges", "contracts/tokenomics/maker/src/reply.rs: reply"]}
{"id": "C94", "title": "The dev fund receives only its share", "statement": "In one distribution the dev fund receives exactly the proceeds of swapping its configured share of the distributed ASTRO.", "quantifier": "all balances and configurations", "why_tests_cant": "Depends on what else the maker holds at that moment.", "anchors": ["contracts/tokenomics/maker/src/reply.rs: reply", "contracts/tokenomics/maker/src/contract.rs: distribute"]}
{"id": "C95", "title": "Pre-upgrade ASTRO is released completely", "statement": "The ASTRO accrued before rewards were enabled is released portion by portion, and all of it after the configured number of blocks (up to rounding).", "quantifier": "all amounts, numbers of blocks and histories", "why_tests_cant": "Integer rounding goes wrong only at particular magnitudes; samples cannot rule out the one input that leaks value.", "anchors": ["contracts/tokenomics/maker/src/contract.rs: distribute"]}
{"id": "C96", "title": "Supply tracker reproduces the historical total supply", "statement": "For every past tracking unit TotalSupplyAt returns the supply the denom had at the beginning of that unit, and for the current unit the supply now, so that it is the sum of the balances reported for that unit.", "quantifier": "all histories of mints, burns and sends", "why_tests_cant": "A test fixes one call sequence; the claim must survive every interleaving of callers, amounts and block times.", "anchors": ["contracts/periphery/tokenfactory_tracker/src/contract.rs: track_balances", "contracts/periphery/tokenfactory_tracker/src/query.rs: total_supply_at"]}
{"id": "C97", "title": "Converter pair: a swap is exactly a conversion and quotes are exact", "statement": "Swapping old ASTRO on the converter pair delivers exactly the same amount of new ASTRO to the chosen receiver and nothing else changes hands; forward and reverse quotes state exactly that; swaps in the other direction and with other assets fail.", "quantifier": "all amounts, receivers and states", "why_tests_cant": "Integer rounding goes wrong only at particular magnitudes; samples cannot rule out the one input that leaks value.", "anchors": ["contracts/pair_astro_converter/src/contract.rs: swap", "contracts/pair_astro_converter/src/queries.rs: query"]}
{"id": "C98", "title": "Fee grants can always be ended and renewed", "statement": "The owner or an admin can at any time end the fee grant of an account and give it a new one.", "quantifier": "all histories of grants, revocations and fee payments", "why_tests_cant": "A test fixes one call sequence; the claim must survive every interleaving of callers, amounts and block times.", "anchors": ["contracts/periphery/fee_granter/src/contract.rs: grant, revoke", "contracts/periphery/fee_granter/src/state.rs: GRANTS"]}
{"id": "C99", "title": "Orderbook pair: only the owner changes the orderbook settings", "statement": "The executor, the number of orders, their minimal sizes, the liquidity percentage, the price adjustment and the on/off switch change only by a configuration message of the pair's owner (the factory owner by default) and are always within the documented ranges; when an executor is set, only they can sync.", "quantifier": "all transactions and histories", "why_tests_cant": "A test fixes one call sequence; the claim must survive every interleaving of callers, amounts and block times.", "anchors": ["contracts/pair_concentrated_duality/src/execute.rs: execute, process_custom_msgs", "contracts/pair_concentrated_duality/src/orderbook/state.rs: OrderbookState::new, update_config, validate"]}
{"id": "C100", "title": "Orderbook pair: only the configured share of the liquidity is put on the order book", "statement": "After every transaction whose orders stay unexecuted the pair has either no orders or, on each side, exactly the configured number of equal orders of at least the minimal size, together at most half the configured percentage and at most a quarter of everything the pair holds of that asset.", "quantifier": "all reachable states, transactions and settings", "why_tests_cant": "A test fixes one call sequence; the claim must survive every interleaving of callers, amounts and block times.", "anchors": ["contracts/pair_concentrated_duality/src/orderbook/state.rs: OrderbookState::deploy_orders, flatten_msgs_and_add_callback", "contracts/pair_concentrated_duality/src/orderbook/utils.rs: SpotOrdersFactory::construct_orders"]}
{"id": "C101", "title": "Orderbook pair: withdrawals pay the pro-rata share of everything held", "statement": "Redeeming LP tokens pays at most, and up to one unit per asset exactly, the pro-rata share of the pair's whole holdings (its balance, its standing orders and their proceeds) less the fees of trades not yet accounted for; the minimum stated by the user is respected; the sender is paid and only their LP tokens are burnt.", "quantifier": "all reachable states and amounts", "why_tests_cant": "Integer rounding goes wrong only at particular magnitudes; samples cannot rule out the one input that leaks value.", "anchors": ["contracts/pair_concentrated_duality/src/execute.rs: withdraw_liquidity", "contracts/pair_concentrated_duality/src/orderbook/state.rs: fetch_all_orders, fetch_cumulative_trades"]}
{"id": "C102", "title": "Orderbook pair: syncing pays exactly the fees of the executed orders", "statement": "Anyone (or the executor) may sync; nobody but the pair and the receivers of fees is affected, and each receiver gets exactly its part of the fee on what was received for executed orders.", "quantifier": "all reachable states, fills and settings", "why_tests_cant": "Integer rounding goes wrong only at particular magnitudes; samples cannot rule out the one input that leaks value.", "anchors": ["contracts/pair_concentrated_duality/src/orderbook/execute.rs: sync_pool_with_orderbook, process_cumulative_trades"]}
{"id": "C103", "title": "Orderbook pair: liquidity can always be withdrawn", "statement": "Whatever happened on the order book, the pair keeps a correct list of its orders, so liquidity providers can withdraw.", "quantifier": "all reachable states", "why_tests_cant": "A test fixes one call sequence; the claim must survive every interleaving of callers, amounts and block times.", "anchors": ["contracts/pair_concentrated_duality/src/orderbook/state.rs: deploy_orders, cancel_orders", "contracts/pair_concentrated_duality/src/reply.rs: reply", "contracts/pair_concentrated_duality/src/execute.rs: withdraw_liquidity"]}
{"id": "C104", "title": "Orderbook pair: fills of its orders never block the pool", "statement": "Whatever amounts were executed on the order book, later swaps, deposits, withdrawals and syncs can be priced.", "quantifier": "all fills of the orders", "why_tests_cant": "Integer rounding goes wrong only at particular magnitudes; samples cannot rule out the one input that leaks value.", "anchors": ["contracts/pair_concentrated_duality/src/orderbook/execute.rs: process_cumulative_trades", "contracts/pair_concentrated_duality/src/orderbook/state.rs: fetch_cumulative_trades"]}
{"id": "C105", "title": "Orderbook pair: the recorded price is the price of the executed orders", "statement": "After executed orders are accounted for, the last price is the ratio of the amounts exchanged.", "quantifier": "all fills of the orders", "why_tests_cant": "Integer rounding goes wrong only at particular magnitudes; samples cannot rule out the one input that leaks value.", "anchors": ["contracts/pair_concentrated_duality/src/orderbook/execute.rs: process_cumulative_trades"]}
{"id": "C106", "title": "Orderbook pair: orders are priced on the curve", "statement": "For every k, the first k orders of a side together ask for what the pool's curve (with fee) charges for a swap of the same size, up to rounding.", "quantifier": "all pool states, numbers and sizes of orders", "why_tests_cant": "Integer rounding goes wrong only at particular magnitudes; samples cannot rule out the one input that leaks value.", "anchors": ["contracts/pair_concentrated_duality/src/orderbook/state.rs: deploy_orders", "contracts/pair_concentrated_duality/src/orderbook/utils.rs: compute_offer_amount, SpotOrdersFactory"]}
{"id": "C107", "title": "Orderbook pair: quotes take the order book into account and are exact", "statement": "The swap, withdrawal and deposit quotes equal what the transaction delivers in the same state, with trades pending on the order book included; the pool query reports everything the pair holds.", "quantifier": "all states and amounts", "why_tests_cant": "Integer rounding goes wrong only at particular magnitudes; samples cannot rule out the one input that leaks value.", "anchors": ["contracts/pair_concentrated_duality/src/queries.rs: query_simulation, query_share, query_simulate_provide, query_pool"]}
{"id": "C108", "title": "Orderbook pair: nobody loses coins without signing and no coins appear or vanish", "statement": "A transaction, a sync or a fill decreases the asset and LP balances of nobody but its sender and the pair; the coins in all accounts and in the pair's orders together stay the same in every transaction of the pair.", "quantifier": "all transactions and reachable states", "why_tests_cant": "A test fixes one call sequence; the claim must survive every interleaving of callers, amounts and block times.", "anchors": ["contracts/pair_concentrated_duality/src/execute.rs: execute", "contracts/pair_concentrated_duality/src/orderbook/execute.rs: sync_pool_with_orderbook", "contracts/pair_concentrated_duality/src/orderbook/state.rs: cancel_orders"]}
{"id": "C109", "title": "Orderbook pair: orders executed at placement are accounted for", "statement": "When an order is executed at the moment it is placed, the amounts sold and received are recorded as a trade.", "quantifier": "all fills at placement", "why_tests_cant": "Depends on what the order book does with each of the placed orders and on the balances around the placement.", "anchors": ["contracts/pair_concentrated_duality/src/reply.rs: reply", "contracts/pair_concentrated_duality/src/orderbook/state.rs: flatten_msgs_and_add_callback", "contracts/pair_concentrated_duality/src/orderbook/utils.rs: fetch_autoexecuted_trade"]}
{"id": "C110", "title": "Orderbook pair: LP supply equals the sum of LP balances and never returns to zero", "statement": "In every history the LP supply is the sum of the LP balances, the 1000 LP tokens locked in the pair at the first deposit stay there, and the supply never returns to zero.", "quantifier": "all histories of all transactions", "why_tests_cant": "A test fixes one call sequence; the claim must survive every interleaving of callers, amounts and block times.", "anchors": ["contracts/pair_concentrated_duality/src/execute.rs: provide_liquidity, withdraw_liquidity"]}
{"id": "C111", "title": "Incentives: emitted ASTRO reaches the stakers", "statement": "All ASTRO a pool emits (its rate over the time it was in force) is paid to stakers, claimable by them or waiting for the next staker, up to rounding of one token per transaction; what was emitted while nobody staked goes to whoever stakes next.", "quantifier": "all histories, any number of stakers", "why_tests_cant": "A test fixes one call sequence; the claim must survive every interleaving of callers, amounts and block times.", "anchors": ["contracts/tokenomics/incentives/src/state.rs: update_rewards, calculate_reward", "contracts/tokenomics/incentives/src/utils.rs: claim_rewards"]}
{"id": "C112", "title": "Injective pair: nobody loses coins without signing and no coins appear or vanish", "statement": "A transaction of the pair, a call at the beginning of a block or the execution of its orders decreases the asset and LP balances of nobody but its sender and the pair; the coins in all accounts and in the pair's exchange account together stay the same in every transaction of the pair.", "quantifier": "all transactions, states, settings and chain responses", "why_tests_cant": "A test fixes one call sequence; the claim must survive every interleaving of callers, amounts and block times.", "anchors": ["contracts/pair_concentrated_inj/src/contract.rs: execute", "contracts/pair_concentrated_inj/src/orderbook/sudo.rs: begin_blocker, deactivate", "contracts/pair_concentrated_inj/src/orderbook/utils.rs: leave_orderbook"]}
{"id": "C113", "title": "Injective pair: LP supply equals the sum of LP balances and never returns to zero", "statement": "In every history the LP supply is the sum of the LP balances, the 1000 LP tokens locked at the first deposit stay locked, and the supply never returns to zero.", "quantifier": "all histories of all transactions, blocks and fills", "why_tests_cant": "A test fixes one call sequence; the claim must survive every interleaving of callers, amounts and block times.", "anchors": ["contracts/pair_concentrated_inj/src/contract.rs: provide_liquidity, withdraw_liquidity"]}
{"id": "C114", "title": "Injective pair: withdrawals pay the pro rata part of everything the pair owns", "statement": "A withdrawal pays the sender exactly the announced share of both assets, counting the coins on the exchange, to within rounding down; it never fails for lack of coins in the pair's own balance.", "quantifier": "all states, amounts and splits of the reserves between balance and exchange", "why_tests_cant": "Integer rounding goes wrong only at particular magnitudes; samples cannot rule out the one input that leaks value.", "anchors": ["contracts/pair_concentrated_inj/src/contract.rs: withdraw_liquidity", "contracts/pair_concentrated_inj/src/queries.rs: query_share", "contracts/pair_concentrated_inj/src/orderbook/utils.rs: leave_orderbook"]}
{"id": "C115", "title": "Injective pair: executed orders are charged once, and only executed orders", "statement": "When orders of the pair were executed on the exchange, the next transaction pays the receiver of fees its part of the fee on the net amount sold, once; a pool none of whose orders was executed pays nothing and is not affected.", "quantifier": "all histories of transactions, blocks and fills", "why_tests_cant": "A test fixes one call sequence; the claim must survive every interleaving of callers, amounts and block times.", "anchors": ["contracts/pair_concentrated_inj/src/orderbook/utils.rs: process_cumulative_trade", "contracts/pair_concentrated_inj/src/orderbook/sudo.rs: begin_blocker", "contracts/pair_concentrated_inj/src/contract.rs: provide_liquidity, swap, withdraw_liquidity"]}
{"id": "C116", "title": "Injective pair: executed orders never block the pool", "statement": "Whatever amounts were executed on the exchange, later swaps, deposits and blocks can account for them.", "quantifier": "all fills of the orders", "why_tests_cant": "Integer rounding goes wrong only at particular magnitudes; samples cannot rule out the one input that leaks value.", "anchors": ["contracts/pair_concentrated_inj/src/orderbook/utils.rs: process_cumulative_trade"]}
{"id": "C117", "title": "Injective pair: settings change only as documented and stay in range", "statement": "The number of orders is changed by the admin only and stays between 1 and 30; the tick sizes follow the market; the required number of trades stays as chosen at creation, between 1 and 3000.", "quantifier": "all histories", "why_tests_cant": "A test fixes one call sequence; the claim must survive every interleaving of callers, amounts and block times.", "anchors": ["contracts/pair_concentrated_inj/src/contract.rs: update_config", "contracts/pair_concentrated_inj/src/orderbook/state.rs: OrderbookState::new, set_ticks", "contracts/pair_concentrated_inj/src/orderbook/consts.rs"]}
{"id": "C118", "title": "Injective pair: deactivation and emergency withdrawal bring everything back", "statement": "When the chain deactivates the pair, or someone calls the emergency withdrawal of an inactive pair, all coins return from the exchange to the pair's balance, no orders stay, the integration is off and later blocks do nothing.", "quantifier": "all states, callers and chain responses", "why_tests_cant": "A test fixes one call sequence; the claim must survive every interleaving of callers, amounts and block times.", "anchors": ["contracts/pair_concentrated_inj/src/orderbook/sudo.rs: deactivate", "contracts/pair_concentrated_inj/src/contract.rs: withdraw_from_orderbook"]}
{"id": "C119", "title": "Injective pair: orders are priced on the curve", "statement": "For every k, the first k orders of a side together are no better for the counterparty than the pool's own curve with fee for a swap of the same size.", "quantifier": "all pool states, numbers and sizes of orders, tick sizes", "why_tests_cant": "Integer rounding goes wrong only at particular magnitudes; samples cannot rule out the one input that leaks value.", "anchors": ["contracts/pair_concentrated_inj/src/orderbook/sudo.rs: begin_blocker", "contracts/pair_concentrated_inj/src/orderbook/utils.rs: compute_swap, SpotOrdersFactory"]}
{"id": "C120", "title": "Injective pair: quotes are exact", "statement": "The swap simulation announces what the swap pays in the same state, and the pool query everything the pair owns.", "quantifier": "all states and amounts", "why_tests_cant": "Integer rounding goes wrong only at particular magnitudes; samples cannot rule out the one input that leaks value.", "anchors": ["contracts/pair_concentrated_inj/src/queries.rs: query_simulation, query_pool"]}
{"id": "C121", "title": "Injective pair: the deposit covers the orders", "statement": "When the pair places orders, its account on the exchange holds what all of them can give away.", "quantifier": "all pool states, numbers and sizes of orders, tick sizes", "why_tests_cant": "Integer rounding goes wrong only at particular magnitudes; samples cannot rule out the one input that leaks value.", "anchors": ["contracts/pair_concentrated_inj/src/orderbook/utils.rs: SpotOrdersFactory::total_deposit, collect_orders"]}
{"id": "C122", "title": "Recorded balances are what the pool held", "statement": "With balance tracking on, AssetBalanceAt for a block height answers what the pool held of each asset when that block began; it never answers more than that, and answers nothing for heights up to the creation of the pool.", "quantifier": "all histories of deposits, withdrawals, swaps and plain transfers over any number of blocks, all heights", "why_tests_cant": "A test fixes one call sequence; the claim must survive every interleaving of callers, amounts and block times.", "anchors": ["contracts/pair/src/contract.rs: query_asset_balances_at, provide_liquidity, withdraw_liquidity, swap", "contracts/pair_concentrated/src/contract.rs: provide_liquidity, withdraw_liquidity, internal_swap", "contracts/pair_concentrated/src/queries.rs: query_asset_balances_at"]}
{"id": "C123", "title": "Announced reward schedules are what is emitted", "statement": "ExternalRewardSchedules, read page by page, is one gapless list of periods starting now; during every second of a period the reward is emitted at exactly the listed rate, and after the last period not at all. Every single answer is truthful whatever start_after and limit are, and the query fails only for rewards of which nothing is emitted any more.", "quantifier": "all histories of deposits, withdrawals, claims, incentivizations, removals and time; all page sizes and start points", "why_tests_cant": "A test fixes one call sequence; the claim must survive every interleaving of callers, amounts and block times.", "anchors": ["contracts/tokenomics/incentives/src/query.rs: query_external_reward_schedules", "contracts/tokenomics/incentives/src/state.rs: PoolInfo::update_rewards, incentivize"]}
{"id": "C124", "title": "Incentivizing costs exactly the rewards and the announced fees", "statement": "An accepted Incentivize or IncentivizeMany takes from the sender exactly the rewards plus the configured fee once for every new (pool, reward) pair, a pair being new exactly if IsFeeExpected says so; the contract receives exactly the rewards, the fee receiver exactly the fees, and coins attached beyond that are refused.", "quantifier": "all pool states, lists of schedules, attached coins and configurations", "why_tests_cant": "Lists of schedules with repeated tokens and pools, fee and reward in the same coin, and coinciding accounts have unbounded combinations.", "anchors": ["contracts/tokenomics/incentives/src/utils.rs: incentivize, incentivize_many", "contracts/tokenomics/incentives/src/query.rs: IsFeeExpected"]}
{"id": "C125", "title": "At most five reward tokens per pool", "statement": "Besides ASTRO, at most five external reward tokens run in a pool at the same time.", "quantifier": "all histories", "why_tests_cant": "A test fixes one call sequence; the claim must survive every interleaving of callers, amounts and block times.", "anchors": ["contracts/tokenomics/incentives/src/state.rs: PoolInfo::incentivize", "packages/astroport/src/incentives.rs: MAX_REWARD_TOKENS"]}
{"id": "C126", "title": "The list of stakers is complete", "statement": "PoolStakers, read page by page, lists every staker exactly once with their deposits less their withdrawals; the listed stakes add up to the LP tokens of the pool, which the contract holds; no page is longer than the limit asked for.", "quantifier": "all histories, all limits", "why_tests_cant": "A test fixes one call sequence; the claim must survive every interleaving of callers, amounts and block times.", "anchors": ["contracts/tokenomics/incentives/src/state.rs: list_pool_stakers", "contracts/tokenomics/incentives/src/query.rs: QueryMsg::PoolStakers"]}
{"id": "C127", "title": "The incentives contract can pay all stakers of all pools", "statement": "At every moment the contract holds, of each external reward token, at least everything the stakers of all pools can claim, plus the orphaned rewards it stores, plus everything its schedules still promise; so no payment fails for lack of funds, whatever other pools do.", "quantifier": "all histories of all pools together, including failing transfers and donations", "why_tests_cant": "A test fixes one call sequence; the claim must survive every interleaving of callers, amounts and block times.", "anchors": ["contracts/tokenomics/incentives/src/execute.rs: ClaimRewards", "contracts/tokenomics/incentives/src/utils.rs: claim_rewards, remove_reward_from_pool, claim_orphaned_rewards", "contracts/tokenomics/incentives/src/reply.rs: reply"]}
{"id": "C128", "title": "Claiming from several pools pays the sum of the pending rewards", "statement": "ClaimRewards for several pools pays, for each reward, exactly the sum of what PendingRewards answers for these pools, and leaves nothing pending; pools not named do not change; naming a pool twice or one without a position fails as a whole; what is no longer pending has been received.", "quantifier": "all histories, all lists of pools", "why_tests_cant": "A test fixes one call sequence; the claim must survive every interleaving of callers, amounts and block times.", "anchors": ["contracts/tokenomics/incentives/src/execute.rs: ClaimRewards", "contracts/tokenomics/incentives/src/utils.rs: claim_rewards", "contracts/tokenomics/incentives/src/query.rs: query_pending_rewards", "contracts/tokenomics/incentives/src/reply.rs: reply"]}
{"id": "C129", "title": "Providing liquidity with automatic staking", "statement": "A provision with auto_stake is accepted only if the same provision without it would be; it mints the same number of LP tokens and leaves the pair in the same state; the LP tokens are in the incentives contract instead of the receiver's wallet, the receiver's position (and nobody else's) is larger by them, and the receiver is paid exactly the rewards that were pending.  Without an incentives contract, or with an unregistered pair, it fails as a whole; nothing else makes it fail.", "quantifier": "all states of the pair (constant product, stable, concentrated) and of the incentives contract, all deposits", "why_tests_cant": "Integer rounding goes wrong only at particular magnitudes; samples cannot rule out the one input that leaks value.", "anchors": ["contracts/pair/src/contract.rs: mint_liquidity_token_message", "contracts/pair_stable/src/utils.rs: mint_liquidity_token_message", "packages/astroport_pcl_common/src/utils.rs: mint_liquidity_token_message", "contracts/tokenomics/incentives/src/execute.rs: deposit"]}
{"id": "C130", "title": "A pair and the incentives contract share the LP token soundly", "statement": "Whatever users do with the pair and with the incentives contract, in any order: LP supply is the sum of all LP balances, the incentives contract holds all positions, nobody's LP tokens, position or coins fall unless they sign, what wallets and positions can be redeemed for together is covered by the reserves, and a staker can always unstake and redeem for what the Share query answers.", "quantifier": "all histories of provisions (with and without automatic staking), withdrawals, swaps, transfers, stakings, unstakings, claims and reward schedules", "why_tests_cant": "A test fixes one call sequence; the claim must survive every interleaving of callers, amounts and block times.", "anchors": ["contracts/pair/src/contract.rs: provide_liquidity, withdraw_liquidity, swap", "contracts/tokenomics/incentives/src/execute.rs: deposit, withdraw"]}
{"id": "C131", "title": "Migrating the factory keeps every pair configuration", "statement": "After the migration from the old format, the factory has exactly the pair configurations it had before (code, fees, maker fee, disabled flag, whether its generator is disabled), each under the name of its pair type; none is lost, overwritten or invented.  If two configurations would collide the migration fails as a whole.", "quantifier": "all stores of configurations, of any number of pair types including custom ones", "why_tests_cant": "Integer rounding goes wrong only at particular magnitudes; samples cannot rule out the one input that leaks value.", "anchors": ["contracts/factory/src/migration.rs: migrate_pair_configs", "contracts/factory/src/contract.rs: migrate"]}
{"id": "C132", "title": "Migrating vesting to the new token keeps every claim", "statement": "A migration of the vesting contract to the new token turns its holding into the new token one to one, changes no schedule, no released amount and nobody's available amount, and the contract stays funded so that everything unlocked can be claimed in the new token.  It succeeds exactly if the converter is for the vesting token, something is held, and the converter can pay.", "quantifier": "all histories before and after the migration", "why_tests_cant": "A test fixes one call sequence; the claim must survive every interleaving of callers, amounts and block times.", "anchors": ["contracts/tokenomics/vesting/src/contract.rs: migrate", "contracts/periphery/astro_converter/src/contract.rs: convert"]}
{"id": "C133", "title": "Migrating the tracker keeps the history of balances", "statement": "After the migration of the balance tracker, balances and total supply at past times are what they were, and later times are tracked in the unit chosen.", "quantifier": "all histories before and after the migration, all accounts and times", "why_tests_cant": "A test fixes one call sequence; the claim must survive every interleaving of callers, amounts and block times.", "anchors": ["contracts/periphery/tokenfactory_tracker/src/contract.rs: migrate", "contracts/periphery/tokenfactory_tracker/src/query.rs"]}
{"id": "C134", "title": "A pair with sale tax is a plain pair plus the tax", "statement": "Whatever happens on a pair with sale tax, the pool, the LP tokens and the traders' proceeds are those of a plain constant product pair on which the tax was paid before each taxed swap; the tax goes to its recipient and is the rate of the offered amount. So LP tokens stay backed and the liquidity behind one LP token never falls.", "quantifier": "all histories of a pair with sale tax, including changes of the tax configuration", "why_tests_cant": "A test fixes one call sequence; the claim must survive every interleaving of callers, amounts and block times.", "anchors": ["contracts/pair_xyk_sale_tax/src/contract.rs: swap, provide_liquidity, withdraw_liquidity"]}
{"id": "C135", "title": "The list of vesting accounts is complete", "statement": "Reading VestingAccounts page by page, in either order and with any positive limit, gives every account that has a vesting exactly once, in order, with what VestingAccount answers; no page exceeds the limit or 30; the contract holds what the listed accounts have yet to receive.", "quantifier": "all histories, limits and orders", "why_tests_cant": "A test fixes one call sequence; the claim must survive every interleaving of callers, amounts and block times.", "anchors": ["contracts/tokenomics/vesting/src/contract.rs: query_vesting_accounts", "contracts/tokenomics/vesting/src/state.rs: read_vesting_infos"]}
{"id": "C136", "title": "The lists of xASTRO holders and allowances are complete", "statement": "Reading AllAccounts page by page gives each account at most once, every holder, and balances that add up to the total supply; reading AllAllowances gives every spender with an allowance exactly once with what Allowance answers.", "quantifier": "all histories and limits", "why_tests_cant": "A test fixes one call sequence; the claim must survive every interleaving of callers, amounts and block times.", "anchors": ["contracts/tokenomics/xastro_token/src/contract.rs: query_all_accounts"]}
{"id": "C137", "title": "The list of fee grants is complete", "statement": "Reading GrantsList page by page gives every recorded grant exactly once with what GrantFor answers, among them every account with a live grant, with at least what is left of it; GrantFor answers zero for all others.", "quantifier": "all histories and limits", "why_tests_cant": "A test fixes one call sequence; the claim must survive every interleaving of callers, amounts and block times.", "anchors": ["contracts/periphery/fee_granter/src/query.rs: list_grants, grant_for"]}
{"id": "C138", "title": "The list of blocked tokens is complete and changes only as asked", "statement": "Reading BlockedTokensList page by page gives exactly the blocked tokens, each once and as the asset that was given; the list changes only by an update of the owner or the guardian, exactly by the tokens named.", "quantifier": "all histories and limits, native and cw20 tokens of any name", "why_tests_cant": "A test fixes one call sequence; the claim must survive every interleaving of callers, amounts and block times.", "anchors": ["contracts/tokenomics/incentives/src/query.rs: query_blocked_tokens", "contracts/tokenomics/incentives/src/utils.rs: asset_info_key, from_key_to_asset_info", "contracts/tokenomics/incentives/src/execute.rs: update_blocked_pool_tokens"]}
{"id": "C139", "title": "Converting on several chains: payouts are backed and everything can be burnt", "statement": "With a converter on the old hub and one on each outpost, connected by IBC transfers that arrive or fail in any order: old ASTRO taken by a converter never comes back into circulation on any chain, new ASTRO paid out on all chains together is at most the old ASTRO retired, no packet gets stuck, and at any time anybody can have everything retired burnt on the hub.", "quantifier": "any number of outposts, all histories of conversions, transfers, arrivals, refusals and time-outs on all chains", "why_tests_cant": "A test fixes one call sequence; the claim must survive every interleaving of callers, amounts and block times.", "anchors": ["contracts/periphery/astro_converter/src/contract.rs: convert, cw20_receive, ibc_transfer_for_burning, burn", "contracts/pair_astro_converter/src/contract.rs: swap"]}
{"id": "C140", "title": "The Neutron converter is the plain converter with an IBC fee in NTRN", "statement": "On Neutron a transfer for burning sends all old ASTRO of the converter and pays exactly the fee in NTRN that the chain asks, from the converter including what the caller attaches; it succeeds whenever the fee is there. NTRN leaves the converter only as such fees. Otherwise conversions, holdings and histories are those of the plain converter.", "quantifier": "all histories, all fees asked by the chain, all callers", "why_tests_cant": "A test fixes one call sequence; the claim must survive every interleaving of callers, amounts and block times.", "anchors": ["contracts/periphery/astro_converter_neutron/src/contract.rs: ibc_transfer_for_burning, min_ntrn_ibc_fee, execute"]}
{"id": "C141", "title": "LP tokens and assets of a stableswap pair stay accounted for", "statement": "After every history of a stableswap pair the LP supply is the sum of all LP balances; once anybody provided, the pair holds at least 1000 locked LP units and the supply never returns to zero. A transaction lowers nobody's LP balance and nobody's balance of a pool asset except its signer's (and the pair's own), and creates or destroys no assets. What all LP holders together can redeem never exceeds the reserves.", "quantifier": "all histories, all operations, all accounts", "why_tests_cant": "A test fixes one call sequence; the claim must survive every interleaving of callers, amounts and block times.", "anchors": ["contracts/pair_stable/src/contract.rs: execute, provide_liquidity, withdraw_liquidity, swap", "contracts/pair_stable/src/utils.rs: mint_liquidity_token_message"]}
{"id": "C142", "title": "Stableswap and concentrated pairs and the incentives contract share one LP ledger consistently", "statement": "In every history in which users trade, provide (with or without automatic staking), withdraw, stake, unstake, claim and send LP tokens around with a stableswap or a concentrated pair: the LP supply is the sum of all balances; the incentives contract holds all positions; every position is what was deposited less what was withdrawn; wallets and positions of users together make up the supply; no event lowers the LP balance, position or asset balance of anybody but its signer; a staker can always unstake; and everything users can redeem is covered by the reserves.", "quantifier": "all joint histories of the two contracts, all accounts, both kinds of pairs", "why_tests_cant": "A test fixes one call sequence; the claim must survive every interleaving of callers, amounts and block times.", "anchors": ["contracts/pair_stable/src/utils.rs: mint_liquidity_token_message", "packages/astroport_pcl_common/src/utils.rs: mint_liquidity_token_message", "contracts/tokenomics/incentives/src/execute.rs: deposit, withdraw"]}
{"id": "C143", "title": "Past xASTRO balances and supply that the staking contract reports are exact", "statement": "The staking contract and the tracker of xASTRO on one ledger: the tracker never makes a stake, unstake or transfer fail and changes nothing about it; BalanceAt of a past time is the xASTRO balance of the account at the beginning of that time, TotalSupplyAt the true supply then (also after burns, which a tracker alone gets wrong), without a time both answer for now; and at every time the balances of all accounts add up to the reported supply.", "quantifier": "all histories of stakes, unstakes, hooks and transfers, all accounts and times", "why_tests_cant": "A test fixes one call sequence; the claim must survive every interleaving of callers, amounts and block times.", "anchors": ["contracts/tokenomics/staking/src/contract.rs: execute_enter, execute_leave, query", "contracts/periphery/tokenfactory_tracker/src/contract.rs: sudo, track_balances", "contracts/periphery/tokenfactory_tracker/src/query.rs: balance_at, total_supply_at"]}
{"id": "C144", "title": "Reported cumulative prices and LP value of a concentrated pool are what trades record", "statement": "The cumulative prices reported in a block are the ones a swap in this block would store, whoever trades what; they are the stored ones, plus the seconds passed times the present price of a small trade and its inverse, modulo 2^128. A swap does not change what is reported in its block. The value of one LP token reported right after the first deposit is one.", "quantifier": "all states, times, trades and first deposits", "why_tests_cant": "Integer rounding goes wrong only at particular magnitudes; samples cannot rule out the one input that leaks value.", "anchors": ["contracts/pair_concentrated/src/queries.rs: query_cumulative_prices, query_lp_price", "contracts/pair_concentrated_duality/src/queries.rs: query_cumulative_prices", "packages/astroport_pcl_common/src/utils.rs: accumulate_prices", "contracts/pair_concentrated/src/contract.rs: swap, provide_liquidity"]}
{"id": "C145", "title": "An asset given as text is read unambiguously", "statement": "Wherever the API takes an asset as a plain string, the string is accepted exactly if it is a valid address or a valid denom, is read as an asset with this name, and every valid asset is read back from its name.", "quantifier": "all strings, all notions of valid addresses", "why_tests_cant": "The set of strings is infinite.", "anchors": ["packages/astroport/src/asset.rs: determine_asset_info"]}
{"id": "C146", "title": "Concentrated pool: the solvers return only converged solutions of the pool's equation", "statement": "Whenever the pool's invariant or a reserve on the curve is computed, the result is the first Newton iterate (of at most 64, from the documented starting point) that is within 1e-5 of the one before, the equation of the curve holds there up to that tolerance times its slope, and it is not negative; otherwise the call fails.", "quantifier": "every amplification, gamma, pair of reserves and invariant", "why_tests_cant": "The iteration runs over 18 digit fixed point numbers with 256 bit overflow; tests only see a few pools, and whether an unconverged or negative iterate can ever be returned is a statement about all of them.", "anchors": ["packages/astroport_pcl_common/src/math/math_decimal.rs: newton_d, newton_y, f, df_dd, df_dx", "packages/astroport_pcl_common/src/math/mod.rs: calc_d, calc_y"]}
{"id": "C147", "title": "Concentrated pools: the reverse quote is sufficient", "statement": "Offering what the reverse simulation quotes for an asked amount buys at least that amount. The quote charges the largest fee of the pool on the asked amount and moves the reserves along the curve. Pools that keep part of their reserves in orders on an exchange quote as a plain pool with all they own.", "quantifier": "all states of the pool, amounts, times and parameters; pools with orders on an exchange as well", "why_tests_cant": "The quote inverts a fixed point swap through two divisions and a Newton solver; whether it is enough is a question about all amounts and pools.", "anchors": ["packages/astroport_pcl_common/src/utils.rs: compute_offer_amount", "contracts/pair_concentrated/src/queries.rs: query_reverse_simulation", "contracts/pair_concentrated_duality/src/queries.rs: query_reverse_simulation, query_lp_price", "contracts/pair_concentrated_inj/src/queries.rs: query_reverse_simulation, query_lp_price"]}
{"id": "C148", "title": "Token metadata: names, symbols, decimals and logos are validated exactly as documented", "statement": "The xASTRO token is created exactly when its name has 3 to 50 bytes, its symbol has 3 to 12 letters or hyphens and it has at most 18 decimals; a logo is stored exactly when it is a link, a PNG of at most 5 KB with the PNG header or an SVG of at most 5 KB with an XML preamble. The same rule, with the same error text, governs the plain LP token message.", "quantifier": "all names, symbols, decimals and logo bytes", "why_tests_cant": "The accepted set is a language over arbitrary byte strings; samples cannot show that nothing else is accepted.", "anchors": ["packages/astroport/src/xastro_token.rs: InstantiateMsg::validate, is_valid_name, is_valid_symbol", "packages/astroport/src/token.rs: InstantiateMsg::validate, is_valid_symbol", "contracts/tokenomics/xastro_token/src/contract.rs: verify_logo, verify_xml_logo, verify_png_logo"]}
{"id": "C149", "title": "Orderbook pair (Injective): orders wait for the configured number of trades and are sized by their average", "statement": "A pair places no orders before it has observed the configured minimum number of trades, is ready as soon as it has observed them, and the orders of a block are sized by the average of the trades of earlier blocks, which trades of the same block do not move.", "quantifier": "all histories of swaps, deposits and end-of-block calls, all settings and averaging functions", "why_tests_cant": "Readiness depends on the history of observations across blocks and on the order of trades and block ends.", "anchors": ["contracts/pair_concentrated_inj/src/utils.rs: accumulate_swap_sizes", "contracts/pair_concentrated_inj/src/orderbook/state.rs: OrderbookState", "contracts/pair_concentrated_inj/src/orderbook/sudo.rs: begin_blocker"]}
{"id": "C150", "title": "Incentives: settings change exactly as the owner asks and pools announce the configured ASTRO token", "statement": "The settings of the incentives contract change only by an update of the owner with well formed values; each value given replaces the setting of that name and nothing else, in particular not the distribution of emissions. The gas limit for reward transfers stays within its bounds. Every pool that has received ASTRO announces the configured ASTRO token as its protocol reward.", "quantifier": "all histories of setups, rate changes, deactivations, blocked tokens, setting updates and ownership transfers", "why_tests_cant": "Which token a pool announces depends on when it was active relative to each change of the token.", "anchors": ["contracts/tokenomics/incentives/src/execute.rs: update_config", "contracts/tokenomics/incentives/src/state.rs: PoolInfo::set_astro_rewards", "contracts/tokenomics/incentives/src/instantiate.rs: instantiate"]}
{"id": "C151", "title": "Stableswap: a pool of ordinary size always finds its invariant, quotes, trades, pays out and takes deposits", "statement": "For every admissible amplification and reserves between 0.00001 and 10^16 tokens the invariant is found within the 64 iterations of the solver and is within 0.000003 tokens of the exact one, and so is the reserve on the curve for any new reserve of at least a tenthousandth of the old one. As a consequence every offer of at least 0.00002 k tokens, where neither reserve is more than k^3 times the other, is quoted, and traded unless the trader's own spread limit refuses; every withdrawal that refunds something succeeds in any later block; and every deposit worth one unit of LP tokens is taken.", "quantifier": "all amplifications from 1 to 1000000, all reserves in the range, all offers, withdrawals and deposits, all histories for withdrawals", "why_tests_cant": "The loop gives up after 64 iterations and the code only comments that it should converge by then; rounding in 18 digit fixed point must be bounded at each step for all inputs.", "anchors": ["contracts/pair_stable/src/math.rs: compute_d, calc_y, calculate_step", "contracts/pair_stable/src/utils.rs: compute_swap, accumulate_prices, calculate_shares", "contracts/pair_stable/src/contract.rs: swap, provide_liquidity, withdraw_liquidity, query_simulation"]}
{"id": "C152", "title": "Incentives: the list of pending rewards is what a claim pays", "statement": "The amounts the pending rewards query lists for an asset add up to exactly what a claim at that moment pays in that asset; the query answers whenever the claim would be executed, and a claim is executed whenever the query answers.", "quantifier": "all states of pools, users and schedules, all orders in which the stored rewards are visited", "why_tests_cant": "The answer merges entries of finished and running rewards that meet in an order given by storage keys; a sample of pools does not meet the orders in which merging goes wrong.", "anchors": ["contracts/tokenomics/incentives/src/query.rs: query_pending_rewards", "contracts/tokenomics/incentives/src/state.rs: UserInfo::claim_finished_rewards, PoolInfo::calculate_rewards, asset_info_key"]}
{"id": "C153", "title": "Upgrades go only forward and cannot be repeated", "statement": "A contract is taken over by new code only from the listed names and versions; it then carries the name and version of that code, which is later than its old one when the name is kept; no upgrade can be repeated, and pools of the current versions cannot be turned into something else except that a concentrated pool of the current version may become a pool with orders.", "quantifier": "all contracts, all sequences of upgrade attempts with any code and message", "why_tests_cant": "It is a statement about every sequence of attempts across all contracts' gates.", "anchors": ["contracts/*/src/contract.rs: migrate", "contracts/tokenomics/*/src: migrate", "contracts/pair_concentrated_duality/src/migrate.rs: migrate", "contracts/pair_concentrated_inj/src/migrate.rs: migrate"]}
{"id": "C154", "title": "Upgrading a constant product pool to a pool with sale tax leaves its liquidity available", "statement": "The upgrade keeps assets, LP token, factory, accumulated prices and the recording of balances; taxes are on the pool's own coins and at most 50%; and afterwards every holder of LP tokens can withdraw as before.", "quantifier": "all stored configurations and messages, all states of the pool, all histories after the upgrade", "why_tests_cant": "Whether a holder can still withdraw is a statement about every later history.", "anchors": ["contracts/pair_xyk_sale_tax/src/contract.rs: migrate, withdraw_liquidity, provide_liquidity, receive_cw20", "contracts/pair/src/contract.rs: migrate", "packages/astroport/src/token_factory.rs: tf_mint_msg"]}
{"id": "C155", "title": "Upgrading an oracle keeps its averages and does not restart the averaging", "statement": "After the upgrade the oracle answers with the averages it had before; the next update needs a full day since the last update before the upgrade and averages over exactly that time.", "quantifier": "all stored records, assets, decimals, amounts and times", "why_tests_cant": "Swapping the two directions or the two prices is invisible for symmetric samples.", "anchors": ["contracts/periphery/oracle/src/contract.rs: migrate, update, consult", "contracts/periphery/oracle/src/migration.rs: PriceCumulativeLastV100", "contracts/periphery/oracle/src/state.rs: store_precisions"]}
{"id": "C156", "title": "Upgrading a maker keeps its funds and settings and lets nothing be seized", "statement": "An upgrade changes no balance, bridge, receiver or release schedule; new values of cooldown and second receiver are within their limits; the settings stay accepted ever after; and nothing can be seized until the owner has named what may be.", "quantifier": "all versions, messages and states, all histories after the upgrade", "why_tests_cant": "That nothing is seized is a statement about every history before the owner acts.", "anchors": ["contracts/tokenomics/maker/src/contract.rs: migrate, seize", "contracts/tokenomics/maker/src/migration.rs: migrate_from_v120_plus", "contracts/tokenomics/maker/src/utils.rs: validate_cooldown, update_second_receiver_cfg"]}
{"id": "C157", "title": "Upgrading a concentrated pool to one with orders changes nothing until the orders are switched on", "statement": "The upgrade to the code with orders on Duality's orderbook keeps owner, parameters, prices, profit, fee share, LP tokens and coins and places no order. Until the owner switches the orders on, every deposit, withdrawal and swap is accepted exactly when it would have been without the upgrade, gives the same and leaves the pool the same; the quotes are the same; and nobody gets coins of the pool without paying.", "quantifier": "all stored configurations and messages, all states of the pool, all histories after the upgrade", "why_tests_cant": "It compares two programs over every later history.", "anchors": ["contracts/pair_concentrated_duality/src/migrate.rs: migrate", "contracts/pair_concentrated_duality/src/execute.rs: execute, provide_liquidity, withdraw_liquidity, swap", "contracts/pair_concentrated_duality/src/instantiate.rs: instantiate", "packages/astroport/src/asset.rs: assert_sent_native_token_balance", "contracts/pair_concentrated/src/contract.rs: provide_liquidity, withdraw_liquidity, swap"]}
{"id": "C158", "title": "Only pools of registered pairs and admitted types receive ASTRO", "statement": "A pool receives ASTRO only while the factory lists a pair with the pool's assets whose LP token is the pool's. Deregistering a pair is always possible for the factory's owner, stops its pool's ASTRO in the same transaction and gives its share to the other pools. After the owner excludes a pair type anybody can end the emissions to pools of that type, and they get none until the type is configured anew.", "quantifier": "all joint histories of calls to the factory and the incentives contract, all answers of contracts about themselves", "why_tests_cant": "It relates the stored data of two contracts over every interleaving of their calls.", "anchors": ["contracts/factory/src/contract.rs: deregister, query_blacklisted_pair_types, query_pair", "contracts/tokenomics/incentives/src/execute.rs: setup_pools, set_tokens_per_second, update_blocked_pool_tokens", "contracts/tokenomics/incentives/src/utils.rs: deactivate_pool, deactivate_blocked_pools, is_pool_registered, query_pair_info"]}
{"id": "C159", "title": "The list of reward pools is complete", "statement": "Reading the list of pools page by page, each page starting after the last entry of the one before, shows every LP token that was ever staked, given a reward or set up for ASTRO, exactly once; an unreadable starting point is refused.", "quantifier": "all histories, page sizes and starting points", "why_tests_cant": "Pages meet at every possible position in every possible set of pools.", "anchors": ["contracts/tokenomics/incentives/src/query.rs: list_pools", "contracts/tokenomics/incentives/src/state.rs: POOLS, PoolInfo::save", "packages/astroport/src/asset.rs: determine_asset_info"]}
{"id": "C160", "title": "Only coins and tokens that really arrived are traded or credited", "statement": "Whatever messages anybody sends to a constant product pair, with any coins attached, a transaction that succeeds is exactly the deposit, withdrawal, trade or transfer it claims to be, paid in full by the account that signed it or whose approval was used. A message announcing tokens from anybody but the pool's own token contracts is refused. No message lowers the balance of anybody but the payer, tokens are fetched only within the payer's approval and use it up by exactly that amount, and only the factory's owner can set the shared fee. So on the chain, after any messages, what LP holders can redeem is in the pair.", "quantifier": "all messages, senders, attached coins, allowances, pools of coins and tokens, and histories", "why_tests_cant": "Who sends what with which coins attached is unbounded; a test tries a few mismatches.", "anchors": ["contracts/pair/src/contract.rs: execute, receive_cw20, provide_liquidity, withdraw_liquidity, swap, update_config", "packages/astroport/src/asset.rs: assert_sent_native_token_balance, assert_coins_properly_sent, into_msg"]}
{"id": "C161", "title": "Trading ASTRO and xASTRO through the virtual pair is staking", "statement": "A trade through the ASTRO/xASTRO pair that succeeds does exactly what the trader staking or unstaking the same amount for the same receiver would do, and was paid with exactly that coin; and whoever can stake or unstake can do it through the pair and receives the amount the pair reports. The pair keeps nothing of it. Every history with trades through the pair is a history of the staking contract, so what holds of staking holds with the pair in place.", "quantifier": "all messages to the pair, attached coins, senders, receivers and histories of staking and trades", "why_tests_cant": "The two contracts and their coins interact through every history; a test tries a few trades.", "anchors": ["contracts/pair_xastro/src/contract.rs: execute, swap, predict_stake, predict_unstake", "contracts/tokenomics/staking/src/contract.rs: execute"]}
{"id": "C162", "title": "Only coins and tokens that really arrived are traded or credited by a stableswap pair", "statement": "Whatever messages anybody sends to a stableswap pair, with any coins attached, a transaction that succeeds is exactly the deposit, withdrawal, trade, change of settings or transfer it claims to be, paid in full by the account that signed it or whose approval was used. A message announcing tokens from anybody but the pool's own token contracts is refused, no message lowers the balance of anybody but the payer, tokens are fetched only within the payer's approval and use it up by exactly that amount, and only the pair's owner changes its settings. So on the chain, after any messages, what LP holders can redeem is in the pair.", "quantifier": "all messages, senders, attached coins, allowances, pools of coins and tokens, and histories", "why_tests_cant": "Who sends what with which coins attached is unbounded; a test tries a few mismatches.", "anchors": ["contracts/pair_stable/src/contract.rs: execute, receive_cw20, provide_liquidity, withdraw_liquidity, swap, update_config", "contracts/pair_stable/src/utils.rs: get_assets_collection, check_assets, check_cw20_in_pool, select_pools", "packages/astroport/src/asset.rs: assert_sent_native_token_balance, assert_coins_properly_sent, into_msg"]}
{"id": "C163", "title": "A trade that names the asset it wants gets that asset or fails", "statement": "A trade pays in the other asset of the pool and in nothing else, and when the message names the asset wanted (ask_asset_info) and that is not the asset the pool would pay, the trade is refused.", "quantifier": "all trades by message, named assets and pools of two assets", "why_tests_cant": "The field is read only in pools with more assets; no test names a wrong asset.", "anchors": ["contracts/pair_stable/src/contract.rs: execute, swap", "contracts/pair_stable/src/utils.rs: select_pools", "packages/astroport/src/pair.rs: ExecuteMsg"]}
{"id": "C164", "title": "Only coins and tokens that really arrived are traded or credited by a concentrated pair", "statement": "Whatever messages anybody sends to a concentrated pair, with any coins attached, a transaction that succeeds is exactly the deposit, withdrawal, trade, change of settings or transfer it claims to be, paid in full by the account that signed it or whose approval was used; a deposit that names one asset moves nothing of the other. A message announcing tokens from anybody but the pool's own token contracts is refused, no message lowers the balance of anybody but the payer, tokens are fetched only within the payer's approval and use it up by exactly that amount, only the pair's owner changes its settings, and a pair the factory has dropped takes no deposits but works otherwise. So on the chain, after any messages, what LP holders can redeem is in the pair.", "quantifier": "all messages, senders, attached coins, allowances, pools of coins and tokens of any precision, and histories", "why_tests_cant": "Who sends what with which coins attached is unbounded; a test tries a few mismatches.", "anchors": ["contracts/pair_concentrated/src/contract.rs: execute, receive_cw20, provide_liquidity, withdraw_liquidity, swap, update_config", "contracts/pair_concentrated/src/utils.rs: get_assets_with_precision", "packages/astroport_pcl_common/src/utils.rs: check_assets, check_cw20_in_pool, check_pair_registered", "packages/astroport/src/asset.rs: assert_sent_native_token_balance, assert_coins_properly_sent, into_msg"]}
{"id": "C165", "title": "A route through the exchange pays the receiver what was quoted, and takes from nobody but the payer", "statement": "A call of the router, through any number of constant product, stableswap and concentrated pairs, that succeeds gives the receiver at least the stated minimum of the last asset. Whatever the message says, also one that announces tokens which never came, only the account whose coins or tokens came along pays, and only what came along. The router keeps nothing of the assets it trades, no assets appear or vanish, pairs off the route are untouched, and if no pair is used twice and the router holds nothing of these assets, the receiver gets exactly what the router's simulation answered before. Nobody but the router runs a single hop.", "quantifier": "all routes, pairs of the three kinds in any state, ways of paying, callers, receivers, fees and balances", "why_tests_cant": "Routes, pool states and callers are unbounded, and contracts of four kinds interact; tests run a few routes through one kind of pair.", "anchors": ["contracts/router/src/contract.rs: execute, receive_cw20, execute_swap_operations, reply, simulate_swap_operations", "contracts/router/src/operations.rs: execute_swap_operation, asset_into_swap_msg", "contracts/pair/src/contract.rs: execute, swap, query_simulation", "contracts/pair_stable/src/contract.rs: execute, swap, query_simulation", "contracts/pair_concentrated/src/contract.rs: execute, swap", "contracts/pair_concentrated/src/queries.rs: query_simulation"]}
{"id": "C166", "title": "Everything that is sent along with a route is traded or the call fails", "statement": "After a successful call of the router it holds no more of any asset than before: what came along with the call was traded on the route.", "quantifier": "all routes, attached coins, callers and states of the pairs", "why_tests_cant": "No test attaches coins that are no part of the route.", "anchors": ["contracts/router/src/contract.rs: execute, execute_swap_operations", "contracts/router/src/operations.rs: execute_swap_operation"]}
{"id": "C167", "title": "A pair is what its creation said, and nothing but creation makes or changes pairs", "statement": "At any time, after anything happened on the exchange: creating a pair succeeds only for two different assets of which the factory lists no pair in either order, with an enabled type, and by the owner if the type is permissioned; afterwards the pair is found in either order, with these assets, this type and the contract set for the type, without LP supply and without sharing fees, and no other pair, lookup or balance (except of who created it) is worse off. Assets, type, decimals and contract of a pair never change, every pair stems from such a creation, and its fees are always found in the factory and are at most 100 %.", "quantifier": "all histories of the exchange: factory, any number of pairs of three kinds, router, transfers, other coins", "why_tests_cant": "Histories interleave many contracts without bound; tests create a few pairs from a fresh factory.", "anchors": ["contracts/factory/src/contract.rs: execute_create_pair, reply, execute_update_pair_config, deregister, query_pair, query_fee_info", "contracts/pair/src/contract.rs: instantiate, reply", "contracts/pair_stable/src/contract.rs: instantiate, reply", "contracts/pair_concentrated/src/contract.rs: instantiate, reply"]}
{"id": "C168", "title": "On the whole exchange, LP tokens are always backed", "statement": "At any time, for every pair of the exchange: the supply of its LP token is what all accounts hold together, once there is any the pair holds at least 1000 of it, and what the pair's share query answers to all holders together is no more than the pair has. No message to any other pair, route, transfer or factory message changes that.", "quantifier": "all histories of the exchange, pairs, holders", "why_tests_cant": "It must survive every interleaving of messages to all contracts; tests look at one pair alone.", "anchors": ["contracts/pair/src/contract.rs: execute, query_share", "contracts/pair_stable/src/contract.rs: execute, query_share", "contracts/pair_concentrated/src/contract.rs: execute", "contracts/pair_concentrated/src/queries.rs: query_share", "contracts/router/src/contract.rs: execute"]}
{"id": "C169", "title": "A transaction takes only from who pays for it and from the pairs it talks to", "statement": "At any time, a transaction on the exchange leaves nobody with less of any asset except the account that signs or approved it, the pairs it talks to, and for routes the router. A pair that no transaction talks to keeps its state and LP supply and loses nothing, however long. Totals of all assets are kept except LP tokens of the pairs talked to. A route gives the receiver at least the minimum, even where the factory confuses assets.", "quantifier": "all histories of the exchange, transactions, accounts, assets", "why_tests_cant": "Isolation is a statement about all transactions and all other accounts; tests check the accounts they use.", "anchors": ["contracts/router/src/contract.rs: execute, receive_cw20, execute_swap_operations, reply", "contracts/router/src/operations.rs: execute_swap_operation", "contracts/pair/src/contract.rs: execute", "contracts/pair_stable/src/contract.rs: execute", "contracts/pair_concentrated/src/contract.rs: execute", "contracts/factory/src/contract.rs: execute"]}
{"id": "C170", "title": "The directory names a pair of the assets asked for, and routes deliver their quote", "statement": "At any time the factory names for two assets, if at all, a pair of exactly these two; and a route on which no pair is used twice, through a router that holds nothing of its assets, delivers what the router's simulation answered before.", "quantifier": "all histories of the exchange, assets, routes", "why_tests_cant": "Collisions of the directory's keys and reachable pool states are unbounded; tests use well-chosen names.", "anchors": ["contracts/factory/src/state.rs: pair_key", "contracts/factory/src/contract.rs: query_pair", "contracts/router/src/contract.rs: execute_swap_operations, simulate_swap_operations"]}
{"id": "C171", "title": "Nobody on the exchange can take anything from those who hold a constant product pair's LP tokens", "statement": "From any time on at which LP tokens of a constant product pair exist, whatever anybody does on the exchange (deposits, withdrawals, trades and routes through this and other pairs, gifts, new pairs, changes of fees, owners and shared fees), what is behind an LP token, measured as the product of the reserves over the square of the supply, never falls; and the share of the fees that a pair pays to somebody stays between 0.01 % and 10 %.", "quantifier": "all histories of factory, pairs, router, bank and tokens; all pairs; all later histories", "why_tests_cant": "The attacker combines any number of transactions with several contracts; tests try single sequences.", "anchors": ["contracts/pair/src/contract.rs: execute, swap, provide_liquidity, withdraw_liquidity, update_config, compute_swap", "contracts/factory/src/contract.rs: execute, query_fee_info", "contracts/router/src/contract.rs: execute"]}
{"id": "C172", "title": "A constant product pair is always there: withdrawals, trades and deposits need nobody's consent and cannot be blocked", "statement": "Whatever happened on the exchange before, whoever holds LP tokens of a constant product pair can hand them in at once and gets what the Share query names; whoever has one of its assets can trade up to half of what the pair has of it and gets at least what the Simulation query names; and whoever has both assets (and allows the pair to take the tokens among them) can deposit them. No owner, fee setting, shared fee, disabled or deregistered pair type, or idle time stands in the way.", "quantifier": "all histories of factory, pairs, router, bank and tokens; all constant product pairs; all users, amounts and later times", "why_tests_cant": "A pair that gets stuck does so after some long or odd history (years without a message, extreme prices, changed settings) that no test reaches.", "anchors": ["contracts/pair/src/contract.rs: execute, withdraw_liquidity, swap, provide_liquidity, accumulate_prices, get_share_in_assets, compute_swap, assert_max_spread", "contracts/factory/src/contract.rs: execute, query_fee_info"]}
{"id": "C173", "title": "Sale-tax pair: whatever message is sent, trades are paid, exactly the tax is taken and nobody else pays", "statement": "Any account may send any message with any coins to a pair with sale tax, and any token may announce itself. A transaction that succeeds is a deposit of exactly the declared amounts, a withdrawal of the LP tokens that were sent, a trade of exactly what was paid, or a change of settings by the tax admin. A trade of n coins costs the trader n; the tax recipient gets n times the rate rounded down and the pair the rest. No message lowers the balance of anybody but the payer. LP tokens stay backed (for pairs whose assets have different names).", "quantifier": "all messages, senders, attached coins, tokens, tax tables and histories", "why_tests_cant": "A test sends well-formed messages; the claim is about every message, every list of coins and every caller, in every order.", "anchors": ["contracts/pair_xyk_sale_tax/src/contract.rs: execute, receive_cw20, provide_liquidity, withdraw_liquidity, swap, update_config", "packages/astroport/src/pair_xyk_sale_tax.rs: TaxConfigsUnchecked::check", "packages/astroport/src/asset.rs: assert_coins_properly_sent, into_msg"]}
{"id": "C174", "title": "A message that pays what it declares succeeds exactly when the trade, deposit or withdrawal it asks for does", "statement": "At every kind of pair (constant product, with and without sale tax, stableswap, concentrated), a user who attaches exactly the coins they declare (and has approved the tokens they deposit) is refused by nothing but the trade, deposit or withdrawal itself: the message succeeds if and only if the corresponding transaction of the pair does, and both lead to the same state of the pool. At concentrated pairs, deposits need the pair to be registered in the factory: otherwise every one is refused. Withdrawals from constant product pairs must moreover come to at least one unit of every coin, since the bank refuses to send nothing.", "quantifier": "all users, amounts, limits, receivers, states of the pair, of the ledgers and of the allowances", "why_tests_cant": "A test shows that one well-formed message is accepted; that no well-formed message is refused by the checks of attached coins, asset lists and allowances is a claim about all of them.", "anchors": ["contracts/pair/src/contract.rs: execute, receive_cw20, provide_liquidity, withdraw_liquidity, swap", "contracts/pair_xyk_sale_tax/src/contract.rs: execute, receive_cw20, provide_liquidity, withdraw_liquidity, swap", "contracts/pair_stable/src/contract.rs: execute, receive_cw20, provide_liquidity, withdraw_liquidity, swap", "contracts/pair_concentrated/src/contract.rs: execute, receive_cw20, provide_liquidity, withdraw_liquidity, swap", "packages/astroport/src/asset.rs: assert_coins_properly_sent, assert_sent_native_token_balance, into_msg", "packages/astroport/src/cosmwasm_ext.rs"]}
{"id": "C175", "title": "Stableswap pools of ordinary size are always there: withdrawing, trading and depositing work in every history", "statement": "Whatever happened in the exchange before - any messages to factory, pairs and router by anybody, ramps of the amplification included - as long as the reserves of a stableswap pair are between 0.00001 and 10^16 tokens and not too far apart, whoever holds its LP tokens can withdraw any quantity worth a unit of each asset and gets what the Share query names; every offer that is not tiny gets a quote, and the trade succeeds unless the trader's own limit refuses it, paying the receiver at least the quote; and deposits of coins and approved tokens (reserves between 0.0001 and 10^10 tokens, at most 100 LP tokens minted per token) mint what SimulateProvide names unless worth less than one unit.", "quantifier": "all histories of the exchange, all users, amounts, receivers, decimals up to 18, reserves in the range, block times within 10^16 seconds of the last message", "why_tests_cant": "The solvers of the stableswap curve are loops that may not converge; that they do for every reserve, amplification and offer that a history can bring about cannot be sampled.", "anchors": ["contracts/pair_stable/src/contract.rs: execute, provide_liquidity, withdraw_liquidity, swap, query_simulation, query_share, query_simulate_provide, start_changing_amp, stop_changing_amp", "contracts/pair_stable/src/utils.rs: compute_current_amp, compute_swap, accumulate_prices", "contracts/pair_stable/src/math.rs: compute_d, calc_y", "contracts/factory/src/contract.rs: execute", "contracts/router/src/contract.rs: execute"]}
{"id": "C176", "title": "Balances of a tracked token are on record from its first unit on", "statement": "When the staking contract or a pool with balance tracking has been created, its token has no supply yet and the chain will call its tracker before every movement of that token; from then on, whatever anybody does on the chain (creating denoms, hooks and trackers of their own, pointing hooks at this tracker, minting, burning and sending), the tracker answers for every account and every past block the balance the bank had at the beginning of that block, never a supply below the true one, and nobody but the contract can mint, burn or redirect the token's hook.", "quantifier": "every history of the chain with any number of denoms, hooks, trackers and such contracts, every account other than the token factory module, every block height", "why_tests_cant": "The claim is about all later histories of a chain with other users and contracts; a test sees one setup and a few movements.", "anchors": ["contracts/tokenomics/staking/src/contract.rs: instantiate, reply", "contracts/pair/src/contract.rs: instantiate, reply", "contracts/pair_concentrated/src/contract.rs: instantiate, reply", "contracts/pair_xyk_sale_tax/src/contract.rs: instantiate, reply", "contracts/periphery/tokenfactory_tracker/src/contract.rs: instantiate, sudo", "contracts/periphery/tokenfactory_tracker/src/query.rs: query"]}
{"id": "C177", "title": "What accounts send to the vesting contract means what it should", "statement": "Whatever anybody sends to the vesting contract (any message with any coins attached, tokens sent by their owner or by an approved spender, tokens of other contracts, messages pretending that tokens arrived), a transaction that succeeds is exactly the claim, paid registration, withdrawal, change of owner or transfers of the vesting token it stands for. So in every history of the chain the contract's own balance covers all it owes, nobody was paid more than their schedules have unlocked, everybody with schedules can claim at any time exactly what is due, schedules are registered only by the owner together with a payment of exactly their totals, an account's vesting changes only by its own claim or by the owner, messages cost nobody but their sender, and other assets sent to the contract stay there.", "quantifier": "every history of messages, attached coins, token sends, allowances, transfers and waiting, any vesting token (coin or cw20), every account, recipient and amount", "why_tests_cant": "Tests send a few well-formed messages one after the other; the claim covers all senders, all attached funds, all tokens and all later histories.", "anchors": ["contracts/tokenomics/vesting/src/contract.rs: instantiate, execute, receive_cw20, register_vesting_accounts, claim, withdraw_from_active_schedule", "packages/astroport/src/vesting.rs: ExecuteMsg, Cw20HookMsg", "packages/astroport/src/common.rs: propose_new_owner, drop_ownership_proposal, claim_ownership"]}
{"id": "C178", "title": "Staked LP tokens are there to be withdrawn, even where LP tokens are rewards", "statement": "The LP token of a pool can itself be a reward of any pool; stakes and rewards are then paid from the incentives contract's one balance of that token. At every moment that balance covers all positions of all stakers together with all rewards they can claim, orphaned rewards and everything announced, so no withdrawal is ever reverted because the contract has spent staked LP tokens on rewards.", "quantifier": "every history of deposits, withdrawals, claims from one or many pools, incentives, removals, orphan claims, failing transfers, donations and movements of LP tokens elsewhere, any number of pools and tokens, any pools whose LP tokens are among the reward tokens", "why_tests_cant": "It takes a particular combination of a reward that is some pool's LP token and the owner's removal in another pool; the claim is about all such histories.", "anchors": ["contracts/tokenomics/incentives/src/execute.rs: withdraw, deposit", "contracts/tokenomics/incentives/src/utils.rs: claim_rewards, incentivize, remove_reward_from_pool, claim_orphaned_rewards", "contracts/tokenomics/incentives/src/state.rs: deregister_reward", "contracts/tokenomics/incentives/src/reply.rs: reply"]}
{"id": "C179", "title": "What messages to the incentives contract do to positions and balances", "statement": "Whoever sends whichever message with whichever coins to the incentives contract: a position grows only by LP coins attached to a deposit message or by LP tokens sent through their own token contract, and by exactly that amount; it shrinks only by its owner's own withdrawals, by exactly the amount withdrawn; only LP tokens the factory knows are accepted; nobody can pretend to be a token contract; no account but the sender, or the owner of sent tokens, loses anything; and after every history the contract's balances cover all positions, all claimable and orphaned rewards and everything announced, so withdrawals are paid even if all reward transfers fail.", "quantifier": "every history of messages by any accounts with any coins attached, token sends by owners or spenders, transfers, mints, burns and waiting, any number of pools and tokens (coins or cw20, LP tokens among the rewards), any configuration, blocklist, fee and registration in force at each call, any failing transfers", "why_tests_cant": "Tests send well-formed messages from a few accounts; the claim ranges over all senders, attachments and interleavings and over everything that other contracts may answer.", "anchors": ["contracts/tokenomics/incentives/src/execute.rs: execute, receive, deposit, withdraw", "contracts/tokenomics/incentives/src/utils.rs: claim_rewards, incentivize, incentivize_many, remove_reward_from_pool, claim_orphaned_rewards, is_pool_registered", "contracts/tokenomics/incentives/src/reply.rs: reply", "packages/astroport/src/incentives.rs: ExecuteMsg"]}
{"id": "C180", "title": "Messages to the ASTRO staking contract keep the pool whole, whatever hooks do", "statement": "Whatever coins messages to the staking contract carry, and whatever the contract called by EnterWithHook does with its turn (staking and unstaking again, nesting hooks, catching failures, failing): the ASTRO behind each xASTRO never falls and is never below one for one; every holder can turn in any positive part of their xASTRO and is paid its share, at least one for one; staking goes through when it buys at least one unit; messages carrying anything but one coin of the right token are refused; accounts that do not act lose nothing in any token, nor the value of their xASTRO; other coins sent to the contract stay there.", "quantifier": "every history of transactions by any accounts, with any coins, any hooked contracts acting arbitrarily and to any depth, any denominations", "why_tests_cant": "Tests use one well-behaved hook; re-entrancy is a claim about every contract that could be hooked and every interleaving of its calls.", "anchors": ["contracts/tokenomics/staking/src/contract.rs: instantiate, execute, execute_enter, execute_leave, reply, query"]}
{"id": "C181", "title": "Messages to a transmuter pool: who pays, what is accepted, and what LP tokens are worth", "statement": "A message to a transmuter pool takes nothing from any account but its sender's (and the pool's), and from the sender at most the coins attached. Swaps that carry exactly the coin they offer go through whenever the pool has the value in the other asset, and pay exactly that value rounded down; deposits that carry exactly the coins they declare go through and mint LP tokens of exactly their value; any positive part of anyone's LP tokens can be turned in without asking for assets, for that share of every asset. What LP tokens are worth never falls by what others do.", "quantifier": "every pool (number of assets, decimals), state, sender, list of attached coins, message and recipient", "why_tests_cant": "Tests try a few messages with two or three assets; that nobody else pays and that honest messages are never refused is about all states, coins and amounts.", "anchors": ["contracts/pair_transmuter/src/contract.rs: execute, provide_liquidity, swap, withdraw_liquidity", "contracts/pair_transmuter/src/utils.rs: assert_and_swap, get_share_in_assets"]}
{"id": "C182", "title": "Sending xASTRO with a call of the receiver is safe whatever the receiver does", "statement": "A send (or a send from an allowance) moves exactly the tokens and then calls the receiver, who already has them and can pass them on; if the receiver refuses, nothing has happened. Whatever called contracts do in turn - transfers, spending of allowances, further sends, catching failures - balances keep adding up to the supply within the cap, historical balances stay those at the beginning of each block, nobody who sends no message loses more than the allowances they gave, and the supply changes only if the minter takes part.", "quantifier": "every history of transactions, each an arbitrary tree of messages to the token with nested calls of receivers and caught failures, every account and block", "why_tests_cant": "Tests use a receiver that accepts; re-entrancy is about arbitrary nested calls by arbitrary contracts.", "anchors": ["contracts/tokenomics/xastro_token/src/contract.rs: execute_send, execute_send_from, execute"]}
{"id": "C183", "title": "Messages to a pair with orderbook integration are paid with the attached coins, exactly", "statement": "A deposit is accepted only if of every denom whatsoever the attached amount is the declared one, a trade only if exactly the offered coin and nothing else is attached, a withdrawal only if LP coins and nothing else are attached; honest messages of these kinds are accepted whenever the pool's own computation succeeds, and what is then booked is exactly what was attached. The sender of any message loses, of every denom, at most what they attached; nobody else but the pair loses anything; coins attached to settings or to a synchronisation go to the pool; unknown messages (such as receipts of cw20 tokens) are refused. Every history of messages is a history of the pool's own transactions, so that all that is proved of those holds on the chain.", "quantifier": "every pair of two coins, every sequence of messages by any accounts with any attached coins, transfers and fills of orders, every denom", "why_tests_cant": "Tests attach the right coins; who pays is a statement about every message, every list of coins and every ledger.", "anchors": ["contracts/pair_concentrated_duality/src/execute.rs: execute, provide_liquidity, withdraw_liquidity, update_config, process_custom_msgs", "contracts/pair_concentrated_duality/src/utils.rs: get_assets_with_precision, ensure_min_assets_to_receive", "packages/astroport/src/asset.rs: assert_sent_native_token_balance, assert_coins_properly_sent"]}
{"id": "C184", "title": "Messages to a pair on the Injective orderbook take exactly what was attached or sent", "statement": "A deposit is accepted only if of every denom whatsoever the attached amount is the declared one, a trade only if exactly the offered coin and nothing else is attached; LP tokens come back only through the LP token's own Send and SendFrom, and a receipt announced by anybody else is refused; honest messages are accepted whenever the pool's own computation succeeds, and what is then booked is exactly what was paid. Whoever pays loses, of every denom and of the LP token, at most what they attached or sent (or what was sent out of an allowance they gave, within it); nobody else but the pair loses anything, whatever the chain calls and the exchange fills. Every history of messages is a history of the pool's own transactions, so that all that is proved of those holds on the chain.", "quantifier": "every pair of two coins, every sequence of messages by any accounts with any attached coins, sends of LP tokens by owners and spenders, transfers, allowances, calls by the chain and fills of orders, every denom", "why_tests_cant": "Tests attach the right coins and send real tokens; who pays is a statement about every message, every list of coins and every ledger.", "anchors": ["contracts/pair_concentrated_inj/src/contract.rs: execute, receive_cw20, provide_liquidity, withdraw_liquidity, update_config", "packages/astroport/src/asset.rs: assert_sent_native_token_balance, assert_coins_properly_sent, AssetInfo::check"]}
{"id": "C185", "title": "Turning a constant product pool into the pair in front of the converter strands nothing", "statement": "Only pools of exactly the converter's old and new token (of the known old versions) can be turned into the converter's pair; from then on its only trades are conversions of the old token one to one, paid for with coins attached or tokens really sent, and the pair neither keeps nor gives anything; what the pool held at the upgrade can be taken by nobody else, and stays available to those who hold its LP tokens.", "quantifier": "every stored version, every list of assets, every converter, every message by any account with any coins, every history after the upgrade", "why_tests_cant": "Tests upgrade an empty pool and make one swap; what happens to liquidity that was there is a statement about all later histories.", "anchors": ["contracts/pair_astro_converter/src/contract.rs: execute, receive_cw20, swap, migrate", "contracts/pair_astro_converter/src/migration.rs: migrate_config, sanity_checks", "contracts/pair_astro_converter/src/queries.rs: query_pool"]}
{"id": "C186", "title": "Moving a concentrated pool to the Injective orderbook changes nothing until the orders start", "statement": "Only a concentrated pool of release 2.2.2 with two coins can be moved to the code with orders on the Injective exchange, with settings in the ranges that hold at creation; the move keeps owner, parameters, prices, profit, fee share, LP tokens and coins and places no order. Until enough trades have been observed for the orders to start, deposits, withdrawals and trades are accepted exactly when the pool without the move would accept them, with the same amounts, quotes and fees and the same state afterwards, whatever the chain does at the beginning of blocks and the owner does to the settings of the orders.", "quantifier": "every stored version, every pool of two coins, every settings, every history after the move in which the observations are not complete, every point of it, every transaction and quote", "why_tests_cant": "Tests migrate one pool and make a few swaps; the claim compares two codes over all pools and all histories.", "anchors": ["contracts/pair_concentrated_inj/src/migrate.rs: migrate", "contracts/pair_concentrated_inj/src/orderbook/state.rs: OrderbookState::new", "contracts/pair_concentrated_inj/src/orderbook/utils.rs: calc_market_ids", "contracts/pair_concentrated_inj/src/contract.rs: provide_liquidity, withdraw_liquidity, swap"]}
{"id": "C187", "title": "Vectors of running totals add up and keep their order", "statement": "In the shared library's vector of totals, under each key stands the sum of everything ever added under it and nothing under any other key; the entries are in the order in which the keys first appeared, each key once; an addition is refused exactly when the total would exceed 128 bits, and then nothing changes; asking for the latest entry succeeds exactly for the key that appeared last, with its total.", "quantifier": "every sequence of additions with any keys and values, including refused ones", "why_tests_cant": "Tests add a few entries; sums and order are statements about every sequence.", "anchors": ["packages/astroport/src/restricted_vector.rs: RestrictedVector::update, load, get_last, new, Increaseable::increase"]}
{"id": "C188", "title": "A pool computes with the decimals its assets had when it was created", "statement": "A stable or concentrated pool is created exactly when every coin among its assets is registered and every token answers; from then on it computes with the decimals they had at that moment (at most 18 for coins), whatever is registered, changed or removed later by anybody; it knows no other assets, and its greatest decimals are the greatest of these.", "quantifier": "every history of messages to the coin registry by any accounts, any number of pools of any assets created in between, any answers of tokens", "why_tests_cant": "Tests create a pool and query it; that no later registry history matters is a statement about all histories.", "anchors": ["packages/astroport/src/querier.rs: query_token_precision", "packages/astroport_pcl_common/src/state.rs: Precisions::store_precisions, get_precision", "contracts/pair_stable/src/state.rs: store_precisions, get_precision", "contracts/periphery/native_coin_registry/src/contract.rs: execute", "contracts/pair_concentrated_inj/src/contract.rs: update_market_ticks"]}
{"id": "C189", "title": "A pair with sale tax is always there, whatever its tax admin does", "statement": "Whatever taxes are or were set on a pair with sale tax, whoever holds LP tokens can withdraw at once and gets what the share query names without any tax, whoever has one of the assets can trade a moderate amount and gets at least the quoted amount, and whoever has both can deposit them without tax. Nobody's consent is needed and nobody can prevent it.", "quantifier": "all histories of messages to the pair from its creation, all tax tables and changes of the tax admin, all accounts, amounts and times", "why_tests_cant": "A test sees one tax table and one moment; the claim is that no sequence of configuration changes, trades and pauses leads to a state in which funds are locked.", "anchors": ["contracts/pair_xyk_sale_tax/src/contract.rs: execute, swap, provide_liquidity, withdraw_liquidity, accumulate_prices", "packages/astroport/src/pair_xyk_sale_tax.rs: TaxConfigsUnchecked"]}
{"id": "C190", "title": "Nobody can stop a concentrated pool by sending it coins", "statement": "A concentrated pool goes on trading, taking deposits and paying out withdrawals whatever amounts of its assets others send to it. If it should ever be unable to value what it holds, it changes nothing until its holdings change, and a holder can withdraw exactly when what would remain can be valued, for their part of each asset.", "quantifier": "all pools and states of them, all gifts, all later histories of trades, deposits, fee changes and transfers by any accounts at any times, all withdrawals", "why_tests_cant": "Tests use balanced reserves; whether some gift makes the numeric solver fail, and for whom and how long, is a statement about all holdings and all later transactions.", "anchors": ["contracts/pair_concentrated/src/contract.rs: swap, provide_liquidity, withdraw_liquidity", "packages/astroport_pcl_common/src/utils.rs: compute_swap, calc_last_prices, get_share_in_assets", "packages/astroport_pcl_common/src/math/math_decimal.rs: newton_d", "contracts/pair_concentrated/src/queries.rs: query_simulation, query_lp_price, query_cumulative_prices, query_simulate_provide"]}
{"id": "C191", "title": "LP tokens are minted and burnt alike on every chain", "statement": "On each of the chains the code is built for, the encoded messages to the chain's token factory say exactly what was meant, whatever the texts and amounts, and the contract reads from the chain's answer the denom that was created. Minting gives the receiver the amount and changes no other balance, and burning takes it from the contract only, whether or not the chain can mint to somebody else.", "quantifier": "all chains supported, all contract and receiver addresses, denoms, names and amounts, all balances, supplies and admins", "why_tests_cant": "Tests run the default build with a mocked token factory; the encodings and the two-step minting of the other builds are never executed, and a wrong length or digit shows only for particular sizes.", "anchors": ["packages/astroport/src/token_factory.rs: tf_mint_msg, tf_burn_msg, tf_create_denom_msg, MsgMint, MsgBurn, MsgCreateDenom, MsgCreateDenomResponse"]}
{"id": "C192", "title": "Numbers passed to and from the Injective exchange arrive exactly or are refused", "statement": "Prices and quantities that a pool hands to the Injective exchange are the same numbers there, to the last of their 18 digits, and tick sizes and rates read from it or shortened are the numbers meant; what does not fit or is negative is refused, never cut.", "quantifier": "all decimals of 128 and 256 bits, all signed decimals of the exchange", "why_tests_cant": "The conversion goes through text; a lost zero after the point or a cut digit shows only for particular numbers, and tests try one.", "anchors": ["packages/astroport/src/injective_ext.rs: ConvertInto", "packages/astroport/src/cosmwasm_ext.rs: ConvertInto", "contracts/pair_concentrated_inj/src/orderbook/utils.rs", "contracts/pair_concentrated_inj/src/orderbook/state.rs"]}
{"id": "C193", "title": "Dust does not move the prices of a concentrated pool", "statement": "However many transactions follow each other, as long as none is a deposit and every trade among them takes in less than 0.00001 of a token, the pool remembers the same oracle price, last price, price scale, time of the last update and profit index; withdrawals, transfers to the pool and settings of the owner never change them. A trade that changes them takes in at least 0.00001 of a token and pays out at least that, up to one unit for each recipient.", "quantifier": "all histories, pools, senders, precisions and amounts", "why_tests_cant": "Tests make single trades of ordinary size; that no number of tiny trades adds up to a change is a statement about all histories.", "anchors": ["contracts/pair_concentrated/src/contract.rs: swap, withdraw_liquidity, update_config", "packages/astroport/src/pair.rs: MIN_TRADE_SIZE", "packages/astroport_pcl_common/src/state.rs: PoolState::update_price"]}
{"id": "C194", "title": "Concentrated pool: trading there and back gains nothing", "statement": "Selling some of an asset to a concentrated pool and selling what was received back to it never returns more than one started with, and no trade lowers the value behind the LP tokens.", "quantifier": "all pools, reserves, parameters, amounts and sequences of trades", "why_tests_cant": "The solvers are approximate; where their error exceeds what a trade is worth depends on the magnitudes of reserves and amounts, and tests trade ordinary amounts.", "anchors": ["packages/astroport_pcl_common/src/math/math_decimal.rs: newton_y, newton_d", "packages/astroport_pcl_common/src/utils.rs: compute_swap", "packages/astroport_pcl_common/src/consts.rs: TOL", "contracts/pair_concentrated/src/contract.rs: swap"]}
{"id": "C195", "title": "Concentrated pool: it works at every size", "statement": "Deposits and trades in a concentrated pool succeed at every size of the reserves that token balances can reach; the arithmetic of the solver does not stop them.", "quantifier": "all pools, reserves, parameters, deposits and trades", "why_tests_cant": "Where 256 bit products of reserves and parameters overflow, or the iteration fails to settle, depends on their magnitudes together; tests use pools of ordinary size.", "anchors": ["packages/astroport_pcl_common/src/math/math_decimal.rs: newton_d, df_dd, PADDING", "contracts/pair_concentrated/src/utils.rs: calculate_shares", "packages/astroport_pcl_common/src/utils.rs: compute_swap"]}
