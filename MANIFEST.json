{
 "claims": [
  {
   "property": "C01",
   "status": "proved",
   "theorems": [
    "Verif.Ownership.C01_legitimate_claim_succeeds",
    "Verif.Ownership.C01_owner_changes_only_by_legitimate_claim"
   ],
   "note": "All histories of propose/drop/claim, any senders and times; plus liveness of the legitimate claim."
  },
  {
   "property": "C02",
   "status": "proved",
   "theorems": [
    "Verif.Ownership.C02_claim_is_single_use",
    "Verif.Ownership.C02_proposal_expires_within_14_days"
   ],
   "note": "Single use and expiry bound; full."
  },
  {
   "property": "C03",
   "status": "proved",
   "theorems": [
    "Verif.Staking.C03_redemption_rate_never_falls"
   ],
   "note": "All histories of Enter/Leave/donation/transfer."
  },
  {
   "property": "C04",
   "status": "proved",
   "theorems": [
    "Verif.Staking.C04_first_staker_takes_prior_donation",
    "Verif.Staking.C04_round_trip_not_profitable"
   ],
   "note": "Round trip not profitable for running or empty pool, loss bound; the exception (first staker takes ASTRO donated before the first stake) is C04_first_staker_takes_prior_donation."
  },
  {
   "property": "C05",
   "status": "proved",
   "theorems": [
    "Verif.Staking.C05_minimum_stake_locked_forever"
   ],
   "note": "Invariant over all histories, including that every Leave by a holder succeeds."
  },
  {
   "property": "C06",
   "status": "proved",
   "theorems": [
    "Verif.Staking.C06_everybody_can_leave_in_any_order",
    "Verif.Staking.C06_others_never_dilute"
   ],
   "note": "Non-dilution and solvency in any leaving order."
  },
  {
   "property": "C07",
   "status": "partial",
   "theorems": [
    "Verif.Staking.C07_quote_equals_staking_partial",
    "Verif.Staking.C07_quote_violated"
   ],
   "note": "Equal to staking while the staking pool is running with non-zero supply; C07_quote_violated shows a mismatch for the code's other branch (first stake)."
  },
  {
   "property": "C08",
   "status": "partial",
   "theorems": [
    "Verif.XYK.C08_constant_product_partial",
    "Verif.XYK.C08_constant_product_violated"
   ],
   "note": "False of the code for reserves above 10^18 raw units (C08_constant_product_violated, reachable state); proved below that, plus a general loss bound of 10^-18 ask unit times offer reserve."
  },
  {
   "property": "C09",
   "status": "partial",
   "theorems": [
    "Verif.XYK.C09_assets_per_lp_never_fall",
    "Verif.XYK.C09_claims_covered",
    "Verif.XYK.C09_liquidity_per_lp_never_falls_partial",
    "Verif.XYK.C09_liquidity_per_lp_violated",
    "Verif.XYK.C09_rounding_loss_bounded"
   ],
   "note": "Rate per asset non-decreasing for provide/withdraw/transfers (full); with swaps the product per LP squared never falls for reserves up to 10^18 (partial; false above, see C09_liquidity_per_lp_violated) and for reserves of any size at least q falls by less than one part in q*10^18 per swap (C09_rounding_loss_bounded); claims covered by reserves (full)."
  },
  {
   "property": "C10",
   "status": "partial",
   "theorems": [
    "Verif.XYK.C10_reserve_drained",
    "Verif.XYK.C10_swap_accounting_partial"
   ],
   "note": "Everything except strictness of 'less than whole reserve', which is false of the code in extreme states (C10_reserve_drained); strict under a side condition."
  },
  {
   "property": "C11",
   "status": "proved",
   "theorems": [
    "Verif.XYK.C11_swap_slippage_enforced"
   ],
   "note": "XYK pair; rounding terms explicit."
  },
  {
   "property": "C12",
   "status": "partial",
   "theorems": [
    "Verif.SaleTax.C12_sale_tax_minimum_violated",
    "Verif.XYK.C12_duplicate_minimum_violated",
    "Verif.XYK.C12_min_assets_respected_partial",
    "Verif.XYK.C12_min_lp_respected"
   ],
   "note": "min_lp full for the XYK pair; min_assets for distinct assets; duplicate entries defeat the check (C12_duplicate_minimum_violated); the sale-tax pair ignores both limits (C12_sale_tax_minimum_violated)."
  },
  {
   "property": "C13",
   "status": "partial",
   "theorems": [
    "Verif.XYK.C13_minted_amount",
    "Verif.XYK.C13_positive_shares_partial",
    "Verif.XYK.C13_positive_shares_violated"
   ],
   "note": "Violated by the code for dust deposits (C13_positive_shares_violated); proved for first deposits, deposits worth one LP unit, or a positive min_lp_to_receive. Exact minted amount in C13_minted_amount."
  },
  {
   "property": "C14",
   "status": "proved",
   "theorems": [
    "Verif.XYK.C14_minimum_liquidity_locked"
   ],
   "note": "Invariant over all histories."
  },
  {
   "property": "C15",
   "status": "proved",
   "theorems": [
    "Verif.XYK.C15_share_equals_withdraw",
    "Verif.XYK.C15_simulate_provide_equals_provide",
    "Verif.XYK.C15_simulation_equals_swap"
   ],
   "note": "Swap, withdraw and provide."
  },
  {
   "property": "C16",
   "status": "partial",
   "theorems": [
    "Verif.XYK.C16_reverse_simulation_partial",
    "Verif.XYK.C16_reverse_simulation_violated"
   ],
   "note": "Violated by the code (rounding down); proved: quote + 1 yields at least ask - 1."
  },
  {
   "property": "C17",
   "status": "proved",
   "theorems": [
    "Verif.XYK.C17_accumulator_growth",
    "Verif.XYK.C17_once_per_block"
   ],
   "note": "Modular growth over all histories; once per block."
  },
  {
   "property": "C18",
   "status": "partial",
   "theorems": [
    "Verif.SaleTax.C18_config_admin_only",
    "Verif.SaleTax.C18_config_bounded",
    "Verif.SaleTax.C18_quote_exact",
    "Verif.SaleTax.C18_reverse_gross_up",
    "Verif.SaleTax.C18_same_name_violated",
    "Verif.SaleTax.C18_swap_tax_partial"
   ],
   "note": "Config bounds and authority: all histories (full). Quotes exact, gross-up sufficient up to 10^18 units. Swap accounting needs that the two assets have different names (C18_same_name_violated) and that the tax recipient is not the pool."
  },
  {
   "property": "C19",
   "status": "proved",
   "theorems": [
    "Verif.Buffer.C19_buffer_is_last_N",
    "Verif.Buffer.C19_clear",
    "Verif.Buffer.C19_read_all",
    "Verif.Buffer.C19_read_all_after_clear_violated"
   ],
   "note": "Refinement of any sequence of sessions of pushes to the last-N list, also across clear_buffer; read_all misses values pushed after clearing (violated, no contract clears)."
  },
  {
   "property": "C20",
   "status": "proved",
   "theorems": [
    "Verif.Observation.C20_observation_lookup"
   ],
   "note": "All reachable states, all capacities from 2 up to 2^30, all query times; full."
  },
  {
   "property": "C21",
   "status": "proved",
   "theorems": [
    "Verif.Observation.C21_interpolation_between_neighbours"
   ],
   "note": "Full, with the explicit rounding bound."
  },
  {
   "property": "C22",
   "status": "partial",
   "theorems": [
    "Verif.Observation.C22_moving_average_partial",
    "Verif.Observation.C22_moving_average_violated",
    "Verif.Observation.C22_swap_blocked_violated",
    "Verif.Observation.C22_swaps_not_blocked_partial"
   ],
   "note": "False of the code at its own capacity (C22_moving_average_violated: average 1.99 although the last 6000 prices are 1; C22_swap_blocked_violated: rounding losses make every later swap fail). Partial: the exact telescoped value the code computes, and availability under a price bound."
  },
  {
   "property": "C23",
   "status": "proved",
   "theorems": [
    "Verif.Vesting.C23_release_curve"
   ],
   "note": "All valid schedules and times; the code's formula equals the specified curve."
  },
  {
   "property": "C24",
   "status": "proved",
   "theorems": [
    "Verif.Vesting.C24_claims_exact"
   ],
   "note": "All histories of registrations, claims, withdrawals, transfers and time."
  },
  {
   "property": "C25",
   "status": "proved",
   "theorems": [
    "Verif.Vesting.C25_claim_succeeds",
    "Verif.Vesting.C25_fully_funded"
   ],
   "note": "All histories and all finite sets of accounts; plus that every full claim succeeds."
  },
  {
   "property": "C26",
   "status": "proved",
   "theorems": [
    "Verif.Vesting.C26_withdraw_keeps_unlocked"
   ],
   "note": "All reachable states; the available amount is literally the same before and after."
  },
  {
   "property": "C27",
   "status": "partial",
   "theorems": [
    "Verif.Vesting.C27_limit_partial",
    "Verif.Vesting.C27_limit_violated"
   ],
   "note": "Violated by the code (C27_limit_violated: 9 or 107 schedules). Proved when each registration entry carries at most one schedule."
  },
  {
   "property": "C28",
   "status": "partial",
   "theorems": [
    "Verif.Incentives.C28_can_withdraw_partial",
    "Verif.Incentives.C28_lp_conserved",
    "Verif.Incentives.C28_withdraw_exact",
    "Verif.Incentives.C28_withdraw_stuck_violated"
   ],
   "note": "Conservation and exact withdrawal: full. 'Can always withdraw' is false of the code (C28_withdraw_stuck_violated: owner removes a reward in the block of a claim and it is added again); proved in clean histories below the u128 range."
  },
  {
   "property": "C29",
   "status": "proved",
   "theorems": [
    "Verif.Incentives.C29_astro_within_emission",
    "Verif.Incentives.C29_external_within_emission"
   ],
   "note": "All histories, all numbers of stakers, external rewards and ASTRO."
  },
  {
   "property": "C30",
   "status": "partial",
   "theorems": [
    "Verif.Incentives.C30_claim_syncs",
    "Verif.Incentives.C30_deposit_syncs",
    "Verif.Incentives.C30_equal_positions",
    "Verif.Incentives.C30_pro_rata_partial",
    "Verif.Incentives.C30_touch_rounding_violated"
   ],
   "note": "Equal positions earn the same: full. The one-unit-per-claim bound is false of the code (C30_touch_rounding_violated: a dust staker claiming every second erases everybody's rewards); pro-rata upper bound and an explicit lower bound proved."
  },
  {
   "property": "C31",
   "status": "partial",
   "theorems": [
    "Verif.Incentives.C31_bypass_violated",
    "Verif.Incentives.C31_fully_funded_partial",
    "Verif.Incentives.C31_orphaned_twice_violated",
    "Verif.Incentives.C31_refund_exact"
   ],
   "note": "False of the code (C31_orphaned_twice_violated, C31_bypass_violated); proved when the owner's removals include upcoming schedules and happen with nothing orphaned."
  },
  {
   "property": "C32",
   "status": "proved",
   "theorems": [
    "Verif.Incentives.C32_accepted_schedule",
    "Verif.Incentives.C32_accepts",
    "Verif.Incentives.C32_incentivize_adds",
    "Verif.Incentives.C32_mondays",
    "Verif.Incentives.C32_none_after_2077",
    "Verif.Incentives.C32_starts_next_epoch"
   ],
   "note": "All block times, amounts, durations. C32_none_after_2077: from 2077 on no schedule is accepted."
  },
  {
   "property": "C33",
   "status": "partial",
   "theorems": [
    "Verif.Incentives.Alloc.C33_double_block_violated",
    "Verif.Incentives.Alloc.C33_total_is_sum_partial"
   ],
   "note": "False of the code when one call blocks two tokens of one active pool (C33_double_block_violated); proved otherwise, for all histories and all finite sets of pools."
  },
  {
   "property": "C34",
   "status": "partial",
   "theorems": [
    "Verif.Incentives.C34_claim_pays_pending",
    "Verif.Incentives.C34_lost_violated",
    "Verif.Incentives.C34_removal_keeps_accrued_partial",
    "Verif.Incentives.C34_stays_claimable_partial"
   ],
   "note": "False of the code (C34_lost_violated); proved for clean histories (a reward removed by the owner is not in use in the same block by a synced staker etc.)."
  },
  {
   "property": "C35",
   "status": "proved",
   "theorems": [
    "Verif.Factory.C35_create",
    "Verif.Factory.C35_deregister",
    "Verif.Factory.C35_duplicate_fails",
    "Verif.Factory.C35_lookup_any_order",
    "Verif.Factory.C35_stays_registered"
   ],
   "note": "All registry states, all permutations, all histories. What happens to asset sets with the same registry key is C36."
  },
  {
   "property": "C36",
   "status": "partial",
   "theorems": [
    "Verif.Factory.C36_collision_violated",
    "Verif.Factory.C36_create_isolated_partial",
    "Verif.Factory.C36_no_confusion_partial",
    "Verif.Factory.C36_token_native_violated"
   ],
   "note": "Violated by the code (C36_collision_violated: abc+defg and abcd+efg share a slot; C36_token_native_violated). Proved for identifiers none of which is a prefix of another."
  },
  {
   "property": "C37",
   "status": "proved",
   "theorems": [
    "Verif.Factory.C37_reachable",
    "Verif.Factory.C37_walk",
    "Verif.Factory.C37_walk_complete"
   ],
   "note": "All histories, all page sizes; needs valid addresses to be printable ASCII (denoms are proved to be)."
  },
  {
   "property": "C38",
   "status": "proved",
   "theorems": [
    "Verif.Factory.C38_create_permission",
    "Verif.Factory.C38_excluded_types",
    "Verif.Factory.C38_fees_bounded",
    "Verif.Factory.C38_last_setting_counts",
    "Verif.Factory.C38_only_owner",
    "Verif.Factory.C38_pair_config_exact",
    "Verif.Factory.C38_settings_exact",
    "Verif.Factory.C38_tracker_exact"
   ],
   "note": "All histories from instantiation."
  },
  {
   "property": "C39",
   "status": "partial",
   "theorems": [
    "Verif.Router.C39_minimum_receive_partial",
    "Verif.Router.C39_reentrancy_violated"
   ],
   "note": "Violated by the code (C39_reentrancy_violated: a contract on the route calls the router, overwriting the single stored minimum and recipient). Proved for arbitrary pools and tokens that do not call back into the router."
  },
  {
   "property": "C40",
   "status": "proved",
   "theorems": [
    "Verif.Router.C40_accepted_routes",
    "Verif.Router.C40_target"
   ],
   "note": "All operation lists."
  },
  {
   "property": "C41",
   "status": "proved",
   "theorems": [
    "Verif.Router.C41_reverse_composes",
    "Verif.Router.C41_simulation_composes",
    "Verif.Router.C41_single_hop"
   ],
   "note": "All accepted routes, all splits, all pool quote functions including failing ones."
  },
  {
   "property": "C42",
   "status": "proved",
   "theorems": [
    "Verif.Transmuter.C42_equal_decimals",
    "Verif.Transmuter.C42_one_to_one"
   ],
   "note": "All decimals, reserves and amounts."
  },
  {
   "property": "C43",
   "status": "proved",
   "theorems": [
    "Verif.Transmuter.C43_backed",
    "Verif.Transmuter.C43_created",
    "Verif.Transmuter.C43_redeemable",
    "Verif.Transmuter.C43_request_served",
    "Verif.Transmuter.C43_start"
   ],
   "note": "All histories. Redeemable up to less than one smallest unit of the coarsest asset (C43_redeemable)."
  },
  {
   "property": "C44",
   "status": "partial",
   "theorems": [
    "Verif.Transmuter.C44_available_partial",
    "Verif.Transmuter.C44_exact_quote_partial",
    "Verif.Transmuter.C44_insufficient_violated",
    "Verif.Transmuter.C44_short_by_one_unit_partial",
    "Verif.Transmuter.C44_unavailable_violated"
   ],
   "note": "False of the code both as to sufficiency (C44_insufficient_violated: quote rounded down) and availability (C44_unavailable_violated: reserve compared in the wrong unit). Proved for exact quotes, and that the shortfall is less than one offered unit."
  },
  {
   "property": "C45",
   "status": "proved",
   "theorems": [
    "Verif.Stable.C45_end_points",
    "Verif.Stable.C45_monotone",
    "Verif.Stable.C45_within_bounds"
   ],
   "note": "All ramps with u64 values and all times."
  },
  {
   "property": "C46",
   "status": "proved",
   "theorems": [
    "Verif.Stable.C46_bounds_kept",
    "Verif.Stable.C46_no_jump",
    "Verif.Stable.C46_ramp_limits",
    "Verif.Stable.C46_ramps_a_day_apart"
   ],
   "note": "All histories of all transactions with non-decreasing times."
  },
  {
   "property": "C47",
   "status": "partial",
   "theorems": [
    "Verif.Stable.C47_fee_share_bounded",
    "Verif.Stable.C47_no_solution_no_swap",
    "Verif.Stable.C47_reserve_drained_violated",
    "Verif.Stable.C47_swap_accounting_partial"
   ],
   "note": "Strictness is false of the code (C47_reserve_drained_violated: a huge offer takes the whole reserve, the remaining fraction of a unit being rounded to zero). Everything else is proved for all reserves and offers."
  },
  {
   "property": "C48",
   "status": "proved",
   "theorems": [
    "Verif.Stable.C48_first_deposit",
    "Verif.Stable.C48_mint_bounded_by_invariant",
    "Verif.Stable.C48_withdraw_pro_rata"
   ],
   "note": "All pools and deposits."
  },
  {
   "property": "C49",
   "status": "partial",
   "theorems": [
    "Verif.PCL.C49_fee_share_range",
    "Verif.PCL.C49_mid_fee_above_out_fee_violated",
    "Verif.PCL.C49_only_owner_shares_fees",
    "Verif.PCL.C49_only_owner_updates",
    "Verif.PCL.C49_out_above_mid_partial",
    "Verif.PCL.C49_ranges_partial"
   ],
   "note": "The rule mid_fee <= out_fee is not enforced by partial updates (C49_mid_fee_above_out_fee_violated); the ranges and the ordering at creation are proved."
  },
  {
   "property": "C50",
   "status": "proved",
   "theorems": [
    "Verif.PCL.C50_between_end_points",
    "Verif.PCL.C50_documented_max_amp_refused",
    "Verif.PCL.C50_linear",
    "Verif.PCL.C50_no_jump",
    "Verif.PCL.C50_promotion_limits",
    "Verif.PCL.C50_promotions_a_day_apart"
   ],
   "note": "All ramps and times."
  },
  {
   "property": "C51",
   "status": "partial",
   "theorems": [
    "Verif.PCL.C51_fee_below_mid_violated",
    "Verif.PCL.C51_fee_between_partial",
    "Verif.PCL.C51_fee_between_reversed_partial"
   ],
   "note": "False by one unit of the 18th digit (C51_fee_below_mid_violated); proved up to that unit, for both orders of the two fees."
  },
  {
   "property": "C52",
   "status": "partial",
   "theorems": [
    "Verif.PCL.C52_half_of_profit_kept",
    "Verif.PCL.C52_half_profit_history_partial",
    "Verif.PCL.C52_losing_swap_refused",
    "Verif.PCL.C52_ramp_and_withdrawal_violated",
    "Verif.PCL.C52_withdraw_keeps_scale"
   ],
   "note": "Proved for each transaction; over histories only without ramps (C52_half_profit_history_partial), false with a ramp followed by a withdrawal (C52_ramp_and_withdrawal_violated)."
  },
  {
   "property": "C53",
   "status": "proved",
   "theorems": [
    "Verif.PCL.C53_add",
    "Verif.PCL.C53_dec_div",
    "Verif.PCL.C53_diff",
    "Verif.PCL.C53_div",
    "Verif.PCL.C53_mul",
    "Verif.PCL.C53_mul_dec",
    "Verif.PCL.C53_neg_of",
    "Verif.PCL.C53_pow",
    "Verif.PCL.C53_sub",
    "Verif.PCL.C53_sub_dec",
    "Verif.PCL.C53_to_unsigned"
   ],
   "note": "All values."
  },
  {
   "property": "C54",
   "status": "partial",
   "theorems": [
    "Verif.Maker.C54_nothing_before_enabling",
    "Verif.Maker.C54_overpays_violated",
    "Verif.Maker.C54_remainder_backed_partial",
    "Verif.Maker.C54_remainder_only_decreases",
    "Verif.Maker.C54_sends_exactly_what_is_available_partial"
   ],
   "note": "One distribution: exact shares and exactly the remainder kept, when a staking contract is set or there is no dev fund; the remainder over all histories; witness that with a dev fund and no staking contract more than the available amount is sent."
  },
  {
   "property": "C55",
   "status": "partial",
   "theorems": [
    "Verif.Maker.C55_change_of_astro_violated",
    "Verif.Maker.C55_distribution_succeeds_partial",
    "Verif.Maker.C55_governance_and_dev_fund_violated"
   ],
   "note": "Violated: governance 100% together with a dev fund, or changing ASTRO while a remainder is left, makes every distribution fail (witnesses). Partial: succeeds for all accepted configurations whose parts fit into the whole."
  },
  {
   "property": "C56",
   "status": "proved",
   "theorems": [
    "Verif.Maker.C56_collects_respect_the_cooldown",
    "Verif.Maker.C56_first_collect"
   ],
   "note": "All histories."
  },
  {
   "property": "C57",
   "status": "proved",
   "theorems": [
    "Verif.Maker.C57_accepted_bridges_have_a_route",
    "Verif.Maker.C57_default_bridge_diverts_violated",
    "Verif.Maker.C57_recursion_bounded",
    "Verif.Maker.C57_swaps_use_existing_pools"
   ],
   "note": "Routes of accepted bridges, existing pools of all swaps, bounded recursion; additionally a witness that the default bridge can make a collect over an accepted bridge fail."
  },
  {
   "property": "C58",
   "status": "proved",
   "theorems": [
    "Verif.Tracker.C58_balance_history",
    "Verif.Tracker.C58_foreign_denom_ignored",
    "Verif.Tracker.C58_holders_can_always_send",
    "Verif.Tracker.C58_late_attachment_violated",
    "Verif.Tracker.C58_never_blocks"
   ],
   "note": "All histories from the first mint; a witness shows that a tracker attached later reports nothing for a holder until their next movement."
  },
  {
   "property": "C59",
   "status": "partial",
   "theorems": [
    "Verif.XToken.C59_duplicate_accounts_violated",
    "Verif.XToken.C59_never_exceeds_supply_and_cap",
    "Verif.XToken.C59_sum_is_supply_partial"
   ],
   "note": "All histories: sum of balances never above supply, supply never above the cap. Equality with the supply is partial: violated (witness) when the instantiate message lists an account twice."
  },
  {
   "property": "C60",
   "status": "partial",
   "theorems": [
    "Verif.XToken.C60_balance_at_start_of_block",
    "Verif.XToken.C60_balances_sum_to_previous_supply_partial",
    "Verif.XToken.C60_same_block_partial",
    "Verif.XToken.C60_same_block_violated",
    "Verif.XToken.C60_supply_at_end_of_block"
   ],
   "note": "All histories: balances as of the start of each block, supply as of the end of each block. The two disagree about blocks with mints or burns (witness), so the sum is stated against the supply one block earlier."
  },
  {
   "property": "C61",
   "status": "proved",
   "theorems": [
    "Verif.XToken.C61_allowances_change_as_asked",
    "Verif.XToken.C61_decrease_needs_consent",
    "Verif.XToken.C61_loss_bounded_by_allowances",
    "Verif.XToken.C61_no_allowance_no_loss",
    "Verif.XToken.C61_supply_only_by_minter"
   ],
   "note": "All transactions and histories."
  },
  {
   "property": "C62",
   "status": "proved",
   "theorems": [
    "Verif.Converter.C62_burning_takes_only_old",
    "Verif.Converter.C62_conversion_available",
    "Verif.Converter.C62_convert_one_to_one",
    "Verif.Converter.C62_cw20_one_to_one",
    "Verif.Converter.C62_forged_refused",
    "Verif.Converter.C62_never_drained",
    "Verif.Converter.C62_new_leaves_only_for_old"
   ],
   "note": "All transactions and histories."
  },
  {
   "property": "C63",
   "status": "proved",
   "theorems": [
    "Verif.Registry.C63_decimals_in_range",
    "Verif.Registry.C63_duplicates_refused",
    "Verif.Registry.C63_listing_complete",
    "Verif.Registry.C63_only_owner_changes_entries",
    "Verif.Registry.C63_owner_changes_exact",
    "Verif.Registry.C63_register_only_adds",
    "Verif.Registry.C63_register_returns_coins"
   ],
   "note": "All histories; listing complete for every page size."
  },
  {
   "property": "C64",
   "status": "proved",
   "theorems": [
    "Verif.FeeGranter.C64_admins_exact",
    "Verif.FeeGranter.C64_at_most_two_admins",
    "Verif.FeeGranter.C64_coins_leave_only_so",
    "Verif.FeeGranter.C64_grant_paid_exactly",
    "Verif.FeeGranter.C64_grants_backed",
    "Verif.FeeGranter.C64_limits_only_by_privileged",
    "Verif.FeeGranter.C64_live_grants_recorded",
    "Verif.FeeGranter.C64_one_grant_per_account"
   ],
   "note": "All histories of messages and fee payments; the chain's fee grant module is modelled as far as needed (assumptions in the model's header)."
  },
  {
   "property": "C65",
   "status": "proved",
   "theorems": [
    "Verif.Whitelist.C65_execute_iff_admin",
    "Verif.Whitelist.C65_frozen_forever",
    "Verif.Whitelist.C65_only_admins",
    "Verif.Whitelist.C65_strangers_change_nothing"
   ],
   "note": "All histories."
  },
  {
   "property": "C66",
   "status": "partial",
   "theorems": [
    "Verif.Oracle.C66_at_most_once_a_day",
    "Verif.Oracle.C66_average_between_spot_prices_partial",
    "Verif.Oracle.C66_average_is_growth_over_time",
    "Verif.Oracle.C66_consult_exact",
    "Verif.Oracle.C66_full_day_between_updates",
    "Verif.Oracle.C66_transfer_breaks_average_violated"
   ],
   "note": "Averages, spacing and answers exact for all histories. The average is between the spot prices for all constant product pair histories without plain transfers to the pair; with them violated (witness)."
  },
  {
   "property": "C67",
   "status": "partial",
   "theorems": [
    "Verif.Asset.C67_declared_was_sent",
    "Verif.Asset.C67_honest_accepted",
    "Verif.Asset.C67_sent_equals_declared_partial",
    "Verif.Asset.C67_single_coin",
    "Verif.Asset.C67_undeclared_coin_violated"
   ],
   "note": "Violated by the code (C67_undeclared_coin_violated: pool coins sent but not declared are accepted and kept by the check itself; the pairs always declare both assets, so their deposits do not get there, see C160, C162, C164). Partial: exact equality when every native pool asset is declared; what is declared was always sent in full."
  },
  {
   "property": "C68",
   "status": "proved",
   "theorems": [
    "Verif.Asset.C68_denom_grammar"
   ],
   "note": "All strings; the accepted set is exactly the grammar."
  },
  {
   "property": "C69",
   "status": "proved",
   "theorems": [
    "Verif.Stable.C69_d_converged",
    "Verif.Stable.C69_no_convergence_no_result",
    "Verif.Stable.C69_y_converged"
   ],
   "note": "All inputs; for y the returned value is shown to be a root of the curve's quadratic with explicit residual bounds."
  },
  {
   "property": "C70",
   "status": "proved",
   "theorems": [
    "Verif.PCL.C70_first_deposit",
    "Verif.PCL.C70_provide_mints_at_most_growth",
    "Verif.PCL.C70_swap_accounting"
   ],
   "note": "All states for which the solvers return."
  },
  {
   "property": "C71",
   "status": "partial",
   "theorems": [
    "Verif.Staking.C71_reverse_quote_error_partial",
    "Verif.Staking.C71_reverse_quote_insufficient"
   ],
   "note": "Violated by rounding (C71_reverse_quote_insufficient); error bound proved."
  },
  {
   "property": "C72",
   "status": "partial",
   "theorems": [
    "Verif.Observation.C72_block_price_partial",
    "Verif.Observation.C72_block_price_violated",
    "Verif.Observation.C72_first_block_total_partial"
   ],
   "note": "False of the code (C72_block_price_violated): only a block's first trade enters. Partial: exact when no two swaps share a block."
  },
  {
   "property": "C73",
   "status": "partial",
   "theorems": [
    "Verif.Incentives.Alloc.C73_blocked_gets_nothing",
    "Verif.Incentives.Alloc.C73_deactivate_violated",
    "Verif.Incentives.Alloc.C73_deactivated_gets_nothing_partial"
   ],
   "note": "False of the code when the pool's rate is zero at deactivation (C73_deactivate_violated); proved for a nonzero rate; blocking part full."
  },
  {
   "property": "C74",
   "status": "partial",
   "theorems": [
    "Verif.Incentives.Alloc.C74_astro_never_blocked_partial",
    "Verif.Incentives.Alloc.C74_authority",
    "Verif.Incentives.Alloc.C74_blocked_token_no_astro",
    "Verif.Incentives.Settings.C74_astro_blocked_after_change_violated",
    "Verif.Incentives.Settings.C74_blocked_token_no_astro_settings"
   ],
   "note": "All histories. That ASTRO is never blocked is proved while the ASTRO token is fixed; a change of the token can choose a blocked one (violated)."
  },
  {
   "property": "C75",
   "status": "proved",
   "theorems": [
    "Verif.Router.C75_multi_hop_unchecked"
   ],
   "note": "All amounts and all limits up to 50 %, for the XYK pool's check."
  },
  {
   "property": "C76",
   "status": "partial",
   "theorems": [
    "Verif.Router.C76_revisit_violated",
    "Verif.Router.C76_simulation_exact_partial"
   ],
   "note": "False when a route visits a pool twice (C76_revisit_violated). Proved for routes with pairwise different pools and a router holding nothing else on the path."
  },
  {
   "property": "C77",
   "status": "partial",
   "theorems": [
    "Verif.Stable.C77_accumulator_uses_old_reserves_partial",
    "Verif.Stable.C77_deposit_skews_violated"
   ],
   "note": "False for deposits of native coins (C77_deposit_skews_violated); proved for swaps, withdrawals and cw20 deposits."
  },
  {
   "property": "C78",
   "status": "partial",
   "theorems": [
    "Verif.Stable.C78_payment_close_to_curve_partial",
    "Verif.Stable.C78_round_trip_violated"
   ],
   "note": "False of the code (C78_round_trip_violated: the remaining reserve is rounded down, in the trader's favour); proved that the excess is less than one unit."
  },
  {
   "property": "C79",
   "status": "partial",
   "theorems": [
    "Verif.Stable.C79_dust_pool_refuses_deposits",
    "Verif.Stable.C79_pool_bricked_violated",
    "Verif.Stable.C79_withdraw_blocked_violated",
    "Verif.Stable.C79_withdraw_succeeds_partial"
   ],
   "note": "False of the code for dust pools of 18-decimal assets (C79_withdraw_blocked_violated, C79_pool_bricked_violated, general form C79_dust_pool_refuses_deposits); proved when the accumulators are already up to date in the block, and for pools of ordinary size in every later block (C151_withdraw_available, C151_deposit_available)."
  },
  {
   "property": "C80",
   "status": "partial",
   "theorems": [
    "Verif.Stable.C80_forward_quotes_partial",
    "Verif.Stable.C80_reverse_quote_violated",
    "Verif.Stable.C80_share_query_exact",
    "Verif.Stable.C80_simulate_provide_exact",
    "Verif.Stable.C80_simulation_exact"
   ],
   "note": "Forward quotes exact for all inputs; the reverse quote is false of the code with assets of different decimals (C80_reverse_quote_violated)."
  },
  {
   "property": "C81",
   "status": "partial",
   "theorems": [
    "Verif.PCL.C81_far_ramp_blocks_pool_violated",
    "Verif.PCL.C81_ramp_defined_partial"
   ],
   "note": "False for ramps far in the future (C81_far_ramp_blocks_pool_violated); proved for ramps whose length keeps the products in range."
  },
  {
   "property": "C82",
   "status": "partial",
   "theorems": [
    "Verif.PCL.C82_fee_defined_partial",
    "Verif.PCL.C82_zero_fee_gamma_blocks_balanced_pool_violated",
    "Verif.PCL.C82_zero_price_scale_delta_blocks_swap_violated"
   ],
   "note": "False for fee_gamma = 0 and price_scale_delta = 0, both accepted (C82_zero_fee_gamma_blocks_balanced_pool_violated, C82_zero_price_scale_delta_blocks_swap_violated); the fee is proved defined for positive fee_gamma."
  },
  {
   "property": "C83",
   "status": "proved",
   "theorems": [
    "Verif.PCL.C83_oracle_between",
    "Verif.PCL.C83_oracle_is_exponential_average",
    "Verif.PCL.C83_oracle_not_manipulable",
    "Verif.PCL.C83_weight",
    "Verif.PCL.C83_weight_accurate"
   ],
   "note": "All trades."
  },
  {
   "property": "C84",
   "status": "proved",
   "theorems": [
    "Verif.PCL.C84_repeg_towards_oracle"
   ],
   "note": "All trades."
  },
  {
   "property": "C85",
   "status": "partial",
   "theorems": [
    "Verif.PCL.C85_end_of_ramp_blocks_swaps_violated",
    "Verif.PCL.C85_only_losses_blocked_partial"
   ],
   "note": "False of the code (C85_end_of_ramp_blocks_swaps_violated)."
  },
  {
   "property": "C86",
   "status": "partial",
   "theorems": [
    "Verif.PCL.C86_accumulator_rate_partial",
    "Verif.PCL.C86_accumulators_independent_of_trade",
    "Verif.PCL.C86_unit_price_violated"
   ],
   "note": "The increments are off by up to one unit per second because of a floating point constant (C86_unit_price_violated); proved within that, and independent of the trade."
  },
  {
   "property": "C87",
   "status": "partial",
   "theorems": [
    "Verif.PCL.C87_min_assets_ignored_violated",
    "Verif.PCL.C87_withdraw_pro_rata_partial"
   ],
   "note": "min_assets_to_receive is ignored by the contract (C87_min_assets_ignored_violated); proportionality proved for all states."
  },
  {
   "property": "C88",
   "status": "proved",
   "theorems": [
    "Verif.PCL.C88_share_and_deposit_quotes_exact",
    "Verif.PCL.C88_swap_quote_exact"
   ],
   "note": "All states and amounts."
  },
  {
   "property": "C89",
   "status": "proved",
   "theorems": [
    "Verif.PCL.C89_lp_supply_and_locked_minimum"
   ],
   "note": "All histories."
  },
  {
   "property": "C90",
   "status": "proved",
   "theorems": [
    "Verif.PCL.C90_others_never_lose"
   ],
   "note": "All transactions."
  },
  {
   "property": "C91",
   "status": "proved",
   "theorems": [
    "Verif.XYK.C91_deposit_slippage_enforced",
    "Verif.XYK.C91_deposits_name_each_asset_once"
   ],
   "note": "All inputs."
  },
  {
   "property": "C92",
   "status": "proved",
   "theorems": [
    "Verif.PCL.C92_deposit_slippage_enforced",
    "Verif.PCL.C92_min_lp_respected",
    "Verif.PCL.C92_swap_slippage_enforced"
   ],
   "note": "All inputs."
  },
  {
   "property": "C93",
   "status": "proved",
   "theorems": [
    "Verif.Maker.C93_collect_pays_only_receivers",
    "Verif.Maker.C93_collect_sells_what_is_asked",
    "Verif.Maker.C93_seize_pays_only_its_receiver",
    "Verif.Maker.C93_seize_takes_what_is_asked",
    "Verif.Maker.C93_settings_in_range",
    "Verif.Maker.C93_settings_only_by_owner"
   ],
   "note": "All callers, asset lists, pools and configurations."
  },
  {
   "property": "C94",
   "status": "partial",
   "theorems": [
    "Verif.Maker.C94_dev_fund_gets_its_share_partial",
    "Verif.Maker.C94_dev_fund_takes_waiting_fees_violated"
   ],
   "note": "Violated (witness): the whole balance of the dev fund's asset is sent, including waiting fees. Partial: exact when the maker holds none of that asset."
  },
  {
   "property": "C95",
   "status": "partial",
   "theorems": [
    "Verif.Maker.C95_fully_released_partial",
    "Verif.Maker.C95_never_released_violated"
   ],
   "note": "Violated for all amounts below the number of blocks (never released); partial: fully released within twice the number of blocks otherwise."
  },
  {
   "property": "C96",
   "status": "partial",
   "theorems": [
    "Verif.Tracker.C96_burn_unrecorded_violated",
    "Verif.Tracker.C96_exact_after_movement_partial",
    "Verif.Tracker.C96_exact_without_burns_partial",
    "Verif.Tracker.C96_never_understated"
   ],
   "note": "Violated: a burn is not recorded until the next mint or send (witness). Partial: never understated; exact without burns and after any mint or send."
  },
  {
   "property": "C97",
   "status": "proved",
   "theorems": [
    "Verif.Converter.C97_pair_quotes_exact",
    "Verif.Converter.C97_pair_swap_is_conversion"
   ],
   "note": "All states and amounts."
  },
  {
   "property": "C98",
   "status": "partial",
   "theorems": [
    "Verif.FeeGranter.C98_live_grant_renewable_partial",
    "Verif.FeeGranter.C98_used_up_grant_stuck_violated"
   ],
   "note": "Violated (witness): once a grant is used up on the chain it can neither be revoked nor renewed, for ever. Partial: live grants can be ended and renewed."
  },
  {
   "property": "C99",
   "status": "proved",
   "theorems": [
    "Verif.Duality.C99_off_until_enabled",
    "Verif.Duality.C99_only_owner_changes_settings",
    "Verif.Duality.C99_settings_always_in_range",
    "Verif.Duality.C99_sync_only_by_executor"
   ],
   "note": "All transactions and histories."
  },
  {
   "property": "C100",
   "status": "proved",
   "theorems": [
    "Verif.Duality.C100_orders_bounded"
   ],
   "note": "All reachable states and transactions whose orders are left standing by the order book."
  },
  {
   "property": "C101",
   "status": "proved",
   "theorems": [
    "Verif.Duality.C101_min_assets_respected",
    "Verif.Duality.C101_withdraw_at_most_pro_rata",
    "Verif.Duality.C101_withdraw_pays_sender",
    "Verif.Duality.C101_withdraw_pro_rata"
   ],
   "note": "All reachable states, both bounds; pending trades and their fees included."
  },
  {
   "property": "C102",
   "status": "proved",
   "theorems": [
    "Verif.Duality.C102_sync_pays_exact_fees"
   ],
   "note": "All reachable states and fills."
  },
  {
   "property": "C103",
   "status": "partial",
   "theorems": [
    "Verif.Duality.C103_disabled_never_frozen_partial",
    "Verif.Duality.C103_orders_known_partial",
    "Verif.Duality.C103_pool_frozen_forever_violated"
   ],
   "note": "Violated (witness): when a withdrawal leaves too little for new orders the old order list is kept, and every later transaction of the pool fails for ever. Partial: the list is right after every other transaction; with the integration off it never blocks."
  },
  {
   "property": "C104",
   "status": "partial",
   "theorems": [
    "Verif.Duality.C104_orderbook_trades_block_pool_violated",
    "Verif.Duality.C104_unbalanced_trades_priced_partial"
   ],
   "note": "Violated (witness): after fills on both sides with equal net amounts the trade price has a zero numerator or denominator and every transaction fails. Partial: all other fills are priced."
  },
  {
   "property": "C105",
   "status": "partial",
   "theorems": [
    "Verif.Duality.C105_one_sided_price_partial",
    "Verif.Duality.C105_two_sided_price_violated"
   ],
   "note": "Violated (witness) when both sides were filled: the price of the net amounts is recorded, far off both. Partial: one-sided fills."
  },
  {
   "property": "C106",
   "status": "proved",
   "theorems": [
    "Verif.Duality.C106_orders_follow_curve"
   ],
   "note": "All pool states; both directions of the rounding bound."
  },
  {
   "property": "C107",
   "status": "proved",
   "theorems": [
    "Verif.Duality.C107_deposit_quote_exact",
    "Verif.Duality.C107_pool_query_complete",
    "Verif.Duality.C107_share_quote_exact",
    "Verif.Duality.C107_swap_quote_exact"
   ],
   "note": "All states and amounts."
  },
  {
   "property": "C108",
   "status": "proved",
   "theorems": [
    "Verif.Duality.C108_coins_conserved",
    "Verif.Duality.C108_others_never_lose"
   ],
   "note": "All transactions; conservation for transactions whose orders are left standing and for reachable states."
  },
  {
   "property": "C109",
   "status": "partial",
   "theorems": [
    "Verif.Duality.C109_executed_order_recorded_partial",
    "Verif.Duality.C109_executed_orders_undercounted_violated",
    "Verif.Duality.C109_rounding_flips_executed_order_violated"
   ],
   "note": "Violated (two witnesses): two executed orders are counted as one; and rounding of the share fee turns an executed sale into a purchase. Partial: exactly one executed order, balances otherwise as predicted."
  },
  {
   "property": "C110",
   "status": "proved",
   "theorems": [
    "Verif.Duality.C110_lp_supply_and_locked_minimum"
   ],
   "note": "All histories."
  },
  {
   "property": "C111",
   "status": "proved",
   "theorems": [
    "Verif.Incentives.C111_emitted_astro_not_lost",
    "Verif.Incentives.C111_orphaned_astro_distributed"
   ],
   "note": "All histories, explicit rounding bound."
  },
  {
   "property": "C112",
   "status": "proved",
   "theorems": [
    "Verif.Inj.C112_coins_conserved",
    "Verif.Inj.C112_others_never_lose"
   ],
   "note": "All transactions and states."
  },
  {
   "property": "C113",
   "status": "proved",
   "theorems": [
    "Verif.Inj.C113_lp_supply_and_locked_minimum"
   ],
   "note": "All histories."
  },
  {
   "property": "C114",
   "status": "proved",
   "theorems": [
    "Verif.Inj.C114_withdraw_pays_sender",
    "Verif.Inj.C114_withdraw_pro_rata",
    "Verif.Inj.C114_withdrawal_never_short"
   ],
   "note": "All states; the last theorem shows that a quoted withdrawal succeeds however the reserves are split."
  },
  {
   "property": "C115",
   "status": "partial",
   "theorems": [
    "Verif.Inj.C115_charged_once_partial",
    "Verif.Inj.C115_fee_dropped_violated",
    "Verif.Inj.C115_fee_exact_partial",
    "Verif.Inj.C115_phantom_trade_charged_violated",
    "Verif.Inj.C115_swap_fee_exact_partial",
    "Verif.Inj.C115_withdrawal_freezes_pool_violated"
   ],
   "note": "Violated (three witnesses): a withdrawal that takes the pair off the exchange freezes a pool that never traded, or makes it pay a fee for a trade that never happened; leaving the exchange in a block drops the fee. Partial: exact fee and no repetition for the other transactions."
  },
  {
   "property": "C116",
   "status": "partial",
   "theorems": [
    "Verif.Inj.C116_balanced_fills_block_pool_violated",
    "Verif.Inj.C116_round_trip_blocks_pool_violated",
    "Verif.Inj.C116_unbalanced_fills_priced_partial"
   ],
   "note": "Violated (two witnesses): fills whose net amount in one asset is zero block every later transaction. Partial: all other fills are priced (no receiver of fees; the price update itself may fail as in any swap)."
  },
  {
   "property": "C117",
   "status": "proved",
   "theorems": [
    "Verif.Inj.C117_settings",
    "Verif.Inj.C117_settings_in_range"
   ],
   "note": "All histories."
  },
  {
   "property": "C118",
   "status": "proved",
   "theorems": [
    "Verif.Inj.C118_everything_returns"
   ],
   "note": "All states."
  },
  {
   "property": "C119",
   "status": "partial",
   "theorems": [
    "Verif.Inj.C119_buy_orders_on_curve_partial",
    "Verif.Inj.C119_sell_orders_below_curve_violated",
    "Verif.Inj.C119_sell_orders_partial"
   ],
   "note": "Violated (witness): the sell orders together give 394 coins for 500.03 where the pool gives 336, and taking them freezes the pool. Partial: buy orders, all k, as sent to the exchange; sell orders: exact upper bound of each amount and lower bound of the total asked."
  },
  {
   "property": "C120",
   "status": "partial",
   "theorems": [
    "Verif.Inj.C120_pending_orders_ignored_violated",
    "Verif.Inj.C120_pool_query_complete",
    "Verif.Inj.C120_swap_quote_exact_partial"
   ],
   "note": "Violated (witness): the simulation ignores executed orders. Partial: exact while none are waiting; pool query always complete."
  },
  {
   "property": "C121",
   "status": "partial",
   "theorems": [
    "Verif.Inj.C121_deposit_covers_orders_partial",
    "Verif.Inj.C121_deposit_rounded_down_violated"
   ],
   "note": "Violated (witness): the deposit for buy orders is rounded down to units. Partial: sell orders exactly, buy orders to less than one unit."
  },
  {
   "property": "C122",
   "status": "partial",
   "theorems": [
    "Verif.PCL.C122_pcl_balance_at_partial",
    "Verif.PCL.C122_pcl_never_overstated",
    "Verif.XYK.C122_balance_at_partial",
    "Verif.XYK.C122_donation_unreported_violated",
    "Verif.XYK.C122_never_overstated"
   ],
   "note": "Violated by plain transfers to the pool, which are not recorded until the next operation (witness). Never overstated: all histories, both pair types. Partial: exact in histories without plain transfers."
  },
  {
   "property": "C123",
   "status": "proved",
   "theorems": [
    "Verif.Incentives.C123_not_found",
    "Verif.Incentives.C123_page_truthful",
    "Verif.Incentives.C123_schedules_complete"
   ],
   "note": "All histories."
  },
  {
   "property": "C124",
   "status": "proved",
   "theorems": [
    "Verif.Incentives.C124_attached_exactly",
    "Verif.Incentives.C124_costs_exactly"
   ],
   "note": "All histories."
  },
  {
   "property": "C125",
   "status": "partial",
   "theorems": [
    "Verif.Incentives.C125_at_most_five_partial",
    "Verif.Incentives.C125_limit_lost_violated"
   ],
   "note": "Violated: the code tests for exactly five, so once ASTRO is the sixth token any number is accepted (witness: eight besides ASTRO). Partial: all histories in which ASTRO is not added as an external reward."
  },
  {
   "property": "C126",
   "status": "partial",
   "theorems": [
    "Verif.Incentives.C126_all_stakers_partial",
    "Verif.Incentives.C126_limit_ignored_violated"
   ],
   "note": "Violated: the code takes the maximum of the limit and 50 (witness: two stakers in a page of one). Partial: everything but the page size."
  },
  {
   "property": "C127",
   "status": "partial",
   "theorems": [
    "Verif.Incentives.C127_insolvent_violated",
    "Verif.Incentives.C127_payments_covered_partial",
    "Verif.Incentives.C127_solvent_partial"
   ],
   "note": "Violated through C31's bypassed removal (witness: a pool nobody tampered with cannot pay its staker). Partial: histories in which removals of the token are tidy, as in C31; any number of pools, any failing transfers."
  },
  {
   "property": "C128",
   "status": "partial",
   "theorems": [
    "Verif.Incentives.C128_claim_pays_sum_partial",
    "Verif.Incentives.C128_failed_transfer_violated",
    "Verif.Incentives.C128_refused"
   ],
   "note": "Violated: failed transfers are ignored (reply.rs) and the reward is no longer pending (witness). Partial: transfers that are carried out."
  },
  {
   "property": "C129",
   "status": "proved",
   "theorems": [
    "Verif.Joint.C129_accepted",
    "Verif.Joint.C129_pcl_auto_stake",
    "Verif.Joint.C129_refused",
    "Verif.Joint.C129_stable_auto_stake",
    "Verif.Joint.C129_xyk_auto_stake"
   ],
   "note": "Full."
  },
  {
   "property": "C130",
   "status": "proved",
   "theorems": [
    "Verif.Joint.C130_accounts",
    "Verif.Joint.C130_claims_covered",
    "Verif.Joint.C130_others_never_lose",
    "Verif.Joint.C130_redeem"
   ],
   "note": "Full."
  },
  {
   "property": "C131",
   "status": "proved",
   "theorems": [
    "Verif.Factory.C131_ambiguous_refused",
    "Verif.Factory.C131_configs_kept"
   ],
   "note": "All stores; a factory with both `concentrated` and a custom type of this name is refused (second theorem)."
  },
  {
   "property": "C132",
   "status": "proved",
   "theorems": [
    "Verif.Joint.C132_migrates_iff",
    "Verif.Joint.C132_vesting_kept"
   ],
   "note": "All histories; the vesting contract and the converter in one model."
  },
  {
   "property": "C133",
   "status": "partial",
   "theorems": [
    "Verif.Tracker.C133_earlier_times_violated",
    "Verif.Tracker.C133_heights_kept",
    "Verif.Tracker.C133_later_units_partial",
    "Verif.Tracker.C133_only_from_first_version"
   ],
   "note": "Violated when the migration switches to seconds: past balances were stored under heights and are then looked up by times (witness). Partial: heights kept; times after the migration."
  },
  {
   "property": "C134",
   "status": "partial",
   "theorems": [
    "Verif.SaleTax.C134_history_of_plain_pair",
    "Verif.SaleTax.C134_liquidity_per_lp_never_falls_partial",
    "Verif.SaleTax.C134_liquidity_per_lp_violated",
    "Verif.SaleTax.C134_lp_tokens_backed",
    "Verif.SaleTax.C134_plain_transaction_and_tax",
    "Verif.SaleTax.C134_rounding_loss_bounded"
   ],
   "note": "Exact for all histories of pairs without a token whose address is the denom of the other asset (see C18). Partial: liquidity per LP token as in C09: never falls for reserves up to 10^18, bounded loss per swap for any reserves, witness of the loss."
  },
  {
   "property": "C135",
   "status": "proved",
   "theorems": [
    "Verif.Vesting.C135_all_accounts_listed"
   ],
   "note": "All histories."
  },
  {
   "property": "C136",
   "status": "proved",
   "theorems": [
    "Verif.XToken.C136_all_allowances_listed",
    "Verif.XToken.C136_all_holders_listed",
    "Verif.XToken.C136_listed_balances_are_supply"
   ],
   "note": "All histories; at most the supply in general, exactly the supply unless an account was listed twice at instantiation (C59)."
  },
  {
   "property": "C137",
   "status": "proved",
   "theorems": [
    "Verif.FeeGranter.C137_all_grants_listed"
   ],
   "note": "All histories."
  },
  {
   "property": "C138",
   "status": "proved",
   "theorems": [
    "Verif.Incentives.Alloc.C138_all_blocked_listed",
    "Verif.Incentives.Alloc.C138_list_changes_as_asked"
   ],
   "note": "All histories."
  },
  {
   "property": "C139",
   "status": "proved",
   "theorems": [
    "Verif.Converter.C139_escrow_covers_vouchers",
    "Verif.Converter.C139_everything_can_be_burnt",
    "Verif.Converter.C139_old_supply",
    "Verif.Converter.C139_packets_never_stuck",
    "Verif.Converter.C139_payouts_backed_by_retired"
   ],
   "note": "IBC itself (ICS-20, cw20-ics20) is an assumption of the model: packets are delivered or refunded at most once each. New ASTRO is not moved between chains in the model."
  },
  {
   "property": "C140",
   "status": "proved",
   "theorems": [
    "Verif.Converter.Neutron.C140_is_plain_converter",
    "Verif.Converter.Neutron.C140_ntrn_only_for_fees",
    "Verif.Converter.Neutron.C140_transfer_exact",
    "Verif.Converter.Neutron.C140_transfer_succeeds"
   ],
   "note": "The caller need not pay the fee: anybody can have the converter spend its own NTRN (shown by an example and by C140_transfer_succeeds with nothing paid). Assumes that the chain asks no reception fee in another denom."
  },
  {
   "property": "C141",
   "status": "proved",
   "theorems": [
    "Verif.Stable.C141_claims_covered",
    "Verif.Stable.C141_lp_supply_and_locked_minimum",
    "Verif.Stable.C141_others_never_lose"
   ],
   "note": "All histories."
  },
  {
   "property": "C142",
   "status": "proved",
   "theorems": [
    "Verif.Joint.C142_pcl_accounts",
    "Verif.Joint.C142_pcl_claims_covered",
    "Verif.Joint.C142_pcl_others_never_lose",
    "Verif.Joint.C142_pcl_unstake",
    "Verif.Joint.C142_stable_accounts",
    "Verif.Joint.C142_stable_claims_covered",
    "Verif.Joint.C142_stable_others_never_lose",
    "Verif.Joint.C142_stable_unstake"
   ],
   "note": "All joint histories; the two kinds of pairs as two instances of one interface."
  },
  {
   "property": "C143",
   "status": "proved",
   "theorems": [
    "Verif.Joint.StakingHistory.C143_balance_at",
    "Verif.Joint.StakingHistory.C143_total_supply_at",
    "Verif.Joint.StakingHistory.C143_tracker_transparent",
    "Verif.Joint.StakingHistory.C143_votes_add_up"
   ],
   "note": "All histories that name no module account (which the chain blocks). The ASTRO supply fits 128 bits."
  },
  {
   "property": "C144",
   "status": "partial",
   "theorems": [
    "Verif.Duality.C144_orderbook_report_is_what_a_swap_stores",
    "Verif.PCL.C144_deposit_changes_report_violated",
    "Verif.PCL.C144_lp_price_starts_at_one",
    "Verif.PCL.C144_report_extends_stored",
    "Verif.PCL.C144_report_is_what_a_swap_stores",
    "Verif.PCL.C144_report_stands_in_block_partial"
   ],
   "note": "The report is exact against what a swap stores; after a deposit in the same block it can run back (violated, because a deposit accumulates the price of the last trade), so that claim is partial: swaps only."
  },
  {
   "property": "C145",
   "status": "partial",
   "theorems": [
    "Verif.Asset.C145_determine",
    "Verif.Asset.C145_read_back_partial",
    "Verif.Asset.C145_read_back_violated"
   ],
   "note": "Exact for all strings; reading back fails for a native denom that is also a valid address (violated), hence partial."
  },
  {
   "property": "C146",
   "status": "proved",
   "theorems": [
    "Verif.PCL.C146_invariant_is_newton_iterate",
    "Verif.PCL.C146_invariant_solves_equation",
    "Verif.PCL.C146_reserve_is_newton_iterate",
    "Verif.PCL.C146_reserve_solves_equation"
   ],
   "note": "The equation and its slopes are written once more with integers cut toward zero; what the code returns is the first close Newton iterate of that equation. How far this rounded equation is from the real one is not bounded here."
  },
  {
   "property": "C147",
   "status": "partial",
   "theorems": [
    "Verif.Duality.C147_orderbook_quotes_as_plain_pool",
    "Verif.Inj.C147_injective_quotes_as_plain_pool",
    "Verif.PCL.C147_reverse_quote_partial",
    "Verif.PCL.C147_reverse_quote_violated"
   ],
   "note": "Rounding down makes the quoted offer buy less than asked (violated, also for large amounts), so only what is quoted, and that the gross amount covers every fee, is proved. For the pair on Duality: while no fills are waiting."
  },
  {
   "property": "C148",
   "status": "partial",
   "theorems": [
    "Verif.XToken.Info.C148_general_token_metadata_partial",
    "Verif.XToken.Info.C148_general_token_symbol_violated",
    "Verif.XToken.Info.C148_logo",
    "Verif.XToken.Info.C148_token_metadata"
   ],
   "note": "Proved for the xASTRO token and for logos. The plain token message accepts digits and slashes in symbols although its error text excludes them (violated)."
  },
  {
   "property": "C149",
   "status": "partial",
   "theorems": [
    "Verif.Inj.Sizes.C149_averages_per_asset",
    "Verif.Inj.Sizes.C149_block_uses_last_average",
    "Verif.Inj.Sizes.C149_one_observation_not_enough_violated",
    "Verif.Inj.Sizes.C149_orders_need_observations",
    "Verif.Inj.Sizes.C149_ready_exactly_partial",
    "Verif.Inj.Sizes.C149_refines",
    "Verif.Inj.Sizes.C149_swap_remembered"
   ],
   "note": "The averaging functions are parameters: they come from a version of the shared library that is not in this commit. With a minimum of one trade the pair is ready only after the second (violated); readiness is proved exactly for minima of at least two."
  },
  {
   "property": "C150",
   "status": "partial",
   "theorems": [
    "Verif.Incentives.Settings.C150_announced_token_partial",
    "Verif.Incentives.Settings.C150_announced_token_violated",
    "Verif.Incentives.Settings.C150_gas_limit_in_range",
    "Verif.Incentives.Settings.C150_optional_settings_stay_set",
    "Verif.Incentives.Settings.C150_settings_change_only_by_owner",
    "Verif.Incentives.Settings.C150_settings_exact"
   ],
   "note": "Settings: full. A pool inactive at the moment the ASTRO token changes keeps announcing the old token, even after it is set up again (violated); the last sentence is proved for histories without such a pool."
  },
  {
   "property": "C151",
   "status": "proved",
   "theorems": [
    "Verif.Stable.C151_deposit_available",
    "Verif.Stable.C151_invariant_always_found",
    "Verif.Stable.C151_quote_available",
    "Verif.Stable.C151_reserve_always_found",
    "Verif.Stable.C151_swap_available",
    "Verif.Stable.C151_tiny_offer_fails",
    "Verif.Stable.C151_withdraw_available"
   ],
   "note": "The exact invariant is the real root of the curve's equation (IsInvariant). The Newton error is followed through a linear and a quadratic phase over the reals, with the fixed point rounding of every pass bounded. Below the range the code fails: offers of about 1e-8 tokens (C151_tiny_offer_fails) and dust pools (C79)."
  },
  {
   "property": "C152",
   "status": "proved",
   "theorems": [
    "Verif.Incentives.C152_claim_pays_listed",
    "Verif.Incentives.C152_listed_is_pending",
    "Verif.Incentives.C152_listed_twice_violated",
    "Verif.Incentives.C152_query_answers"
   ],
   "note": "Full for the claim as stated. In the stronger reading of one entry per asset it is false: an asset can be listed twice when finished rewards and the running one are not neighbours (C152_listed_twice_violated)."
  },
  {
   "property": "C153",
   "status": "proved",
   "theorems": [
    "Verif.Upgrade.C153_at_most_two",
    "Verif.Upgrade.C153_current_pools_stay",
    "Verif.Upgrade.C153_not_repeatable",
    "Verif.Upgrade.C153_only_forward"
   ],
   "note": "The gates of all 18 migrate entry points. What each migration does to the stored data is proved per contract: C154, C155, C156, and the migrations of factory, tracker and vesting."
  },
  {
   "property": "C154",
   "status": "partial",
   "theorems": [
    "Verif.SaleTax.C154_liquidity_stranded_violated",
    "Verif.SaleTax.C154_settings_carried_over",
    "Verif.SaleTax.C154_withdraw_as_before_partial"
   ],
   "note": "The versions the upgrade accepts had cw20 LP tokens, while the new code knows only token factory coins: after the upgrade nobody can ever withdraw or add liquidity (violated, for all later histories). Proved for a pool whose LP token is a coin. That no coin carries the name of a cw20 contract is part of the model."
  },
  {
   "property": "C155",
   "status": "proved",
   "theorems": [
    "Verif.Oracle.C155_accepted",
    "Verif.Oracle.C155_answers_as_before",
    "Verif.Oracle.C155_averaging_goes_on"
   ],
   "note": "Full."
  },
  {
   "property": "C156",
   "status": "proved",
   "theorems": [
    "Verif.Maker.C156_nothing_seized_until_allowed",
    "Verif.Maker.C156_settings_stay_accepted",
    "Verif.Maker.C156_upgrade_keeps"
   ],
   "note": "The invalid receiver address after an upgrade is an ordinary address in the model."
  },
  {
   "property": "C157",
   "status": "partial",
   "theorems": [
    "Verif.Duality.C157_same_answers_partial",
    "Verif.Duality.C157_same_history_partial",
    "Verif.Duality.C157_unsent_tokens_accepted_violated",
    "Verif.Duality.C157_upgrade_keeps"
   ],
   "note": "A refinement between the two pool models, for pools of two coins with at most 18 digits and fewer than 2^128 of each, and withdrawals without a minimum (the plain pool ignores one). For pools with a cw20 token it is false: unlike creation the upgrade does not refuse them, and then swaps of tokens that were never sent are accepted (violated: most of the coins while amp is being changed, dust at other times)."
  },
  {
   "property": "C158",
   "status": "partial",
   "theorems": [
    "Verif.Joint.Registry.C158_deregister_available_partial",
    "Verif.Joint.Registry.C158_deregister_blocked_violated",
    "Verif.Joint.Registry.C158_deregister_stops",
    "Verif.Joint.Registry.C158_excluded_types_get_nothing",
    "Verif.Joint.Registry.C158_only_registered_pools_partial",
    "Verif.Joint.Registry.C158_sweep_available_partial",
    "Verif.Joint.Registry.C158_unannounced_deregistration_violated",
    "Verif.Joint.Registry.C158_unregistered_pool_paid_violated"
   ],
   "note": "All joint histories. Only registered pools: proved when deregistrations happen while ASTRO is emitted and the factory knows the incentives contract; otherwise violated. That deregistration and removal of excluded pools always succeed: proved when no call blocks two tokens of one active pool (C33); otherwise violated."
  },
  {
   "property": "C159",
   "status": "proved",
   "theorems": [
    "Verif.Incentives.Pools.C159_all_pools_listed",
    "Verif.Incentives.Pools.C159_page"
   ],
   "note": "Full; the contents of the pools are not part of the list."
  },
  {
   "property": "C160",
   "status": "proved",
   "theorems": [
    "Verif.XYK.Entry.C160_approval_used_up",
    "Verif.XYK.Entry.C160_claims_covered_on_chain",
    "Verif.XYK.Entry.C160_deposit_within_allowance",
    "Verif.XYK.Entry.C160_fee_share_by_owner",
    "Verif.XYK.Entry.C160_histories_are_pair_histories",
    "Verif.XYK.Entry.C160_messages_are_pair_transactions",
    "Verif.XYK.Entry.C160_offer_was_paid",
    "Verif.XYK.Entry.C160_only_the_payer_pays",
    "Verif.XYK.Entry.C160_spoofed_tokens_refused",
    "Verif.XYK.Entry.C160_tokens_were_paid"
   ],
   "note": "Full, for the XYK pair; assumed: the bank moves attached coins first and the pool's cw20 tokens are honest (cw20-base). auto_stake is C129's subject. Texts that do not parse are refused before the modelled code."
  },
  {
   "property": "C161",
   "status": "proved",
   "theorems": [
    "Verif.Joint.XastroPair.C161_available",
    "Verif.Joint.XastroPair.C161_history_is_staking_history",
    "Verif.Joint.XastroPair.C161_pair_keeps_nothing",
    "Verif.Joint.XastroPair.C161_staking_by_swap",
    "Verif.Joint.XastroPair.C161_swap_is_staking"
   ],
   "note": "Full: the pair's entry point with its attached coins joined to the staking model; the reported amount equals the received one under C07's condition (xASTRO outstanding or nothing staked)."
  },
  {
   "property": "C162",
   "status": "proved",
   "theorems": [
    "Verif.Stable.Entry.C162_claims_covered_on_chain",
    "Verif.Stable.Entry.C162_deposit_within_allowance",
    "Verif.Stable.Entry.C162_histories_are_pair_histories",
    "Verif.Stable.Entry.C162_messages_are_pair_transactions",
    "Verif.Stable.Entry.C162_offer_was_paid",
    "Verif.Stable.Entry.C162_only_the_payer_pays",
    "Verif.Stable.Entry.C162_settings_by_owner",
    "Verif.Stable.Entry.C162_spoofed_tokens_refused",
    "Verif.Stable.Entry.C162_tokens_were_paid"
   ],
   "note": "Full, for the stableswap pair, with the assumptions of C160 (honest bank and pool tokens); auto_stake, ownership handover and the observation buffer are modelled elsewhere."
  },
  {
   "property": "C163",
   "status": "partial",
   "theorems": [
    "Verif.Stable.Entry.C163_asked_asset_ignored_violated",
    "Verif.Stable.Entry.C163_asked_asset_makes_no_difference",
    "Verif.Stable.Entry.C163_other_asset_paid_partial"
   ],
   "note": "Found false: with two pools select_pools never looks at ask_asset_info when the offer is known, so a trade naming a foreign asset, or the offered asset itself, is accepted and paid in the other asset (C163_asked_asset_ignored_violated). Proved: only the other asset of the pool is ever paid, and the named asset makes no difference."
  },
  {
   "property": "C164",
   "status": "proved",
   "theorems": [
    "Verif.PCL.Entry.C164_claims_covered_on_chain",
    "Verif.PCL.Entry.C164_deposit_within_allowance",
    "Verif.PCL.Entry.C164_deregistered_pair",
    "Verif.PCL.Entry.C164_histories_are_pair_histories",
    "Verif.PCL.Entry.C164_messages_are_pair_transactions",
    "Verif.PCL.Entry.C164_offer_was_paid",
    "Verif.PCL.Entry.C164_only_the_payer_pays",
    "Verif.PCL.Entry.C164_settings_by_owner",
    "Verif.PCL.Entry.C164_single_sided_deposit",
    "Verif.PCL.Entry.C164_spoofed_tokens_refused",
    "Verif.PCL.Entry.C164_tokens_were_paid"
   ],
   "note": "Full, for the concentrated pair, with the assumptions of C160 (honest bank and pool tokens) and token precisions of at most 18; auto_stake, ownership handover, the observation buffer and recorded balances are modelled elsewhere."
  },
  {
   "property": "C165",
   "status": "proved",
   "theorems": [
    "Verif.Exchange.C165_minimum_received",
    "Verif.Exchange.C165_only_the_payer_pays",
    "Verif.Exchange.C165_other_pairs_keep_their_state",
    "Verif.Exchange.C165_pays_the_quote",
    "Verif.Exchange.C165_router_keeps_nothing",
    "Verif.Exchange.C165_single_hops_by_the_router_only",
    "Verif.Exchange.C165_totals_kept"
   ],
   "note": "Full, for routes over the repository's three main pair kinds with two assets; assumed: honest bank and cw20 tokens, the factory's directory names pairs of the two assets. Exactly the quote: when the router held none of the path's assets, no pair is used twice and the receiver, the router and the pairs on the way receive no fees."
  },
  {
   "property": "C166",
   "status": "partial",
   "theorems": [
    "Verif.Exchange.C166_all_that_was_sent_is_traded_partial",
    "Verif.Exchange.C166_all_that_was_sent_is_traded_violated"
   ],
   "note": "Found false: coins attached to a route that no hop offers stay in the router and the next caller can take them (C166_all_that_was_sent_is_traded_violated). Proved when only assets offered on the route come along."
  },
  {
   "property": "C167",
   "status": "proved",
   "theorems": [
    "Verif.Market.C167_create",
    "Verif.Market.C167_fees_are_always_there",
    "Verif.Market.C167_only_creation_makes_pairs",
    "Verif.Market.C167_pairs_never_change"
   ],
   "note": "Full, in the joint model of factory, pairs and router (Verif.Joint.Market). A pair of its own LP token is refused in the model; new addresses are unused; tracking contracts and migrations are not part of it."
  },
  {
   "property": "C168",
   "status": "proved",
   "theorems": [
    "Verif.Market.C168_claims_covered",
    "Verif.Market.C168_lp_supply"
   ],
   "note": "Full, for every pair of the three kinds in every history of the joint model."
  },
  {
   "property": "C169",
   "status": "proved",
   "theorems": [
    "Verif.Market.C169_minimum_received",
    "Verif.Market.C169_only_payers_pay",
    "Verif.Market.C169_pairs_are_isolated",
    "Verif.Market.C169_totals_kept"
   ],
   "note": "Full. Pairs and the router start no transactions; the bank and cw20 tokens are honest."
  },
  {
   "property": "C170",
   "status": "partial",
   "theorems": [
    "Verif.Market.C170_directory_partial",
    "Verif.Market.C170_directory_violated",
    "Verif.Market.C170_pays_the_quote_partial",
    "Verif.Market.C170_quote_violated"
   ],
   "note": "Found false for assets whose identifiers can be confused: the factory names a coin pair when a token with the same text is asked for, and the router quotes it (C170_directory_violated, C170_quote_violated). Proved for all assets that cannot be confused, in every reachable state."
  },
  {
   "property": "C171",
   "status": "partial",
   "theorems": [
    "Verif.Market.C171_fee_share_bounded",
    "Verif.Market.C171_lp_value_never_falls_partial",
    "Verif.Market.C171_lp_value_violated"
   ],
   "note": "Constant product pairs in the history of the whole exchange (factory, pairs of three kinds, router, transfers, other coins). Found false when more than 10^18 units of an asset exist (C171_lp_value_violated: a trade takes one unit too much); proved below that, for assets that are not LP tokens of other pairs. The bound on shared fees holds for all three kinds of pairs without restriction."
  },
  {
   "property": "C172",
   "status": "partial",
   "theorems": [
    "Verif.Market.C172_deposit_available_partial",
    "Verif.Market.C172_stuck_violated",
    "Verif.Market.C172_trade_available_partial",
    "Verif.Market.C172_withdraw_available_partial"
   ],
   "note": "Found false: accumulate_prices multiplies the price with the seconds since the last message in 128 bits; with a price of 5*10^26 units per unit this overflows eight days after the last message, and then every deposit, withdrawal and trade fails for good (C172_stuck_violated; only a gift of the scarce asset revives the pair). Proved for every history whenever price times idle time stays below 2^128: withdrawals of any amount worth a unit of each coin, trades of coins and tokens (up to half the pool, worth two units, maximum spread 50 %), deposits of coins and of tokens the pair is allowed to take."
  },
  {
   "property": "C173",
   "status": "proved",
   "theorems": [
    "Verif.SaleTax.Entry.C173_claims_covered_on_chain",
    "Verif.SaleTax.Entry.C173_coins_taxed",
    "Verif.SaleTax.Entry.C173_histories_are_pair_histories",
    "Verif.SaleTax.Entry.C173_messages_are_pair_transactions",
    "Verif.SaleTax.Entry.C173_only_the_payer_pays",
    "Verif.SaleTax.Entry.C173_spoofed_tokens_refused",
    "Verif.SaleTax.Entry.C173_taxes_by_admin"
   ],
   "note": "Messages, attached coins and cw20 hooks of the sale-tax pair with the payments executed; every successful transaction refines to the transactions of C134 (no assumption on asset names); tax on coins exact for every account; LP claims covered under different asset names (C18_same_name_violated shows why names matter)."
  },
  {
   "property": "C174",
   "status": "proved",
   "theorems": [
    "Verif.PCL.Entry.C174_coin_trade_iff",
    "Verif.PCL.Entry.C174_deposit_iff",
    "Verif.PCL.Entry.C174_token_trade_iff",
    "Verif.PCL.Entry.C174_unregistered_refuses_deposits",
    "Verif.PCL.Entry.C174_withdraw_iff",
    "Verif.SaleTax.Entry.C174_coin_trade_iff",
    "Verif.SaleTax.Entry.C174_deposit_iff",
    "Verif.SaleTax.Entry.C174_token_trade_iff",
    "Verif.SaleTax.Entry.C174_withdraw_iff",
    "Verif.Stable.Entry.C174_coin_trade_iff",
    "Verif.Stable.Entry.C174_deposit_iff",
    "Verif.Stable.Entry.C174_token_trade_iff",
    "Verif.Stable.Entry.C174_withdraw_iff",
    "Verif.XYK.Entry.C174_coin_trade_iff",
    "Verif.XYK.Entry.C174_deposit_iff",
    "Verif.XYK.Entry.C174_token_trade_iff",
    "Verif.XYK.Entry.C174_withdraw_iff",
    "Verif.XYK.Entry.C174_withdrawing_no_coins_is_refused"
   ],
   "note": "Converse of C160, C162, C164 and C173 (all four kinds of pairs) for well-formed messages: the checks at the entrance refuse nobody who pays what they declare. Trades of coins and of tokens (Send and SendFrom), deposits of any mix of coins and tokens, withdrawals; for concentrated pairs the balances must fit 128 bits after the deposit. Trades name no asked asset other than the existing check allows; withdrawals name minimums for both assets or none."
  },
  {
   "property": "C175",
   "status": "proved",
   "theorems": [
    "Verif.Market.C175_deposit_available",
    "Verif.Market.C175_trade_available",
    "Verif.Market.C175_withdraw_available"
   ],
   "note": "Joins C151 (the solvers converge), C174 (messages that pay succeed) and an invariant of all histories of the exchange (the stored amplification stays in its range) on the model of factory, pairs and router. Outside the stated range the claim is false (C79_pool_bricked_violated, C151_tiny_offer_fails); first deposits are not claimed."
  },
  {
   "property": "C176",
   "status": "proved",
   "theorems": [
    "Verif.Tracked.C176_balances_are_recorded",
    "Verif.Tracked.C176_in_place_from_the_start",
    "Verif.Tracked.C176_module_account_matters",
    "Verif.Tracked.C176_nobody_else_controls_it",
    "Verif.Tracked.C176_supply_is_never_understated"
   ],
   "note": "The token factory, the bank, all trackers and the contracts that have one on one chain, with arbitrary other users; by simulation onto the history of the tracker (C58, C96). The module account told to the tracker must be the right one (C176_module_account_matters). Assumed: the chain calls the hook as documented in the tracker's comments."
  },
  {
   "property": "C177",
   "status": "proved",
   "theorems": [
    "Verif.Vesting.Entry.C177_claim_available",
    "Verif.Vesting.Entry.C177_fully_funded_on_chain",
    "Verif.Vesting.Entry.C177_histories",
    "Verif.Vesting.Entry.C177_messages_are_vesting_transactions",
    "Verif.Vesting.Entry.C177_only_the_sender_pays",
    "Verif.Vesting.Entry.C177_other_assets_stay",
    "Verif.Vesting.Entry.C177_owner_changes_only_by",
    "Verif.Vesting.Entry.C177_registrations_are_paid_for",
    "Verif.Vesting.Entry.C177_spoofed_tokens_refused",
    "Verif.Vesting.Entry.C177_vesting_changes_only_by"
   ],
   "note": "The messages of the vesting contract on the ledgers of the chain (bank, cw20 tokens, allowances), simulated onto the vesting model of C23-C27. Assumed: cw20 tokens follow cw20-base; claims succeed unless the account's schedules add up to more than 128 bits. Messages that cannot be parsed are left out."
  },
  {
   "property": "C178",
   "status": "partial",
   "theorems": [
    "Verif.Incentives.C178_stake_lost_violated",
    "Verif.Incentives.C178_stakes_and_rewards_covered_partial",
    "Verif.Incentives.C178_withdrawals_go_through_partial"
   ],
   "note": "All pools, with one balance per token shared by stakes and rewards, adversarial transfer failures and arbitrary outside movements of LP tokens; invariant over histories on top of C127 and C28. Proved when the owner's removals of that token are tidy; false otherwise (C178_stake_lost_violated: a staker of another pool was paid with staked LP tokens). Assumed: rewards of ASTRO come from the vesting contract."
  },
  {
   "property": "C179",
   "status": "partial",
   "theorems": [
    "Verif.Incentives.Entry.C179_balances_fall_only_by",
    "Verif.Incentives.Entry.C179_claims_are_paid_partial",
    "Verif.Incentives.Entry.C179_histories",
    "Verif.Incentives.Entry.C179_only_the_owner_removes",
    "Verif.Incentives.Entry.C179_positions_change_only_by",
    "Verif.Incentives.Entry.C179_spoofed_deposits_refused",
    "Verif.Incentives.Entry.C179_stake_lost_violated",
    "Verif.Incentives.Entry.C179_stakes_and_rewards_covered_partial",
    "Verif.Incentives.Entry.C179_withdrawals_go_through_partial"
   ],
   "note": "The incentives contract's messages on one ledger per token for all accounts, simulated onto the world of C178 (C179_histories) and hence onto C127 and C28. What the factory and the configuration say is arbitrary at each call. Coverage and withdrawals are proved when the owner's removals of that token are tidy, and false otherwise (C179_stake_lost_violated); positions, balances of others and refused messages are proved without that. ASTRO of the protocol is paid by the vesting contract and left out."
  },
  {
   "property": "C180",
   "status": "proved",
   "theorems": [
    "Verif.Staking.Entry.C180_enter_available",
    "Verif.Staking.Entry.C180_histories",
    "Verif.Staking.Entry.C180_hook_all_or_nothing",
    "Verif.Staking.Entry.C180_leave_available",
    "Verif.Staking.Entry.C180_never_below_par",
    "Verif.Staking.Entry.C180_others_never_lose",
    "Verif.Staking.Entry.C180_rate_never_falls",
    "Verif.Staking.Entry.C180_what_the_contract_keeps",
    "Verif.Staking.Entry.C180_wrong_funds_refused"
   ],
   "note": "The bank with all denominations, attached coins and nested hooks as a tree of actions within a transaction; every transaction is simulated by operations of the staking model (C180_histories). Assumed: ASTRO is neither minted nor burnt (only its total being below 2^128 matters), and the tracker hook does not refuse transfers (C58)."
  },
  {
   "property": "C181",
   "status": "partial",
   "theorems": [
    "Verif.Transmuter.C181_deposits_accepted",
    "Verif.Transmuter.C181_only_the_sender_pays",
    "Verif.Transmuter.C181_refused",
    "Verif.Transmuter.C181_surplus_diluted_violated",
    "Verif.Transmuter.C181_swaps_accepted",
    "Verif.Transmuter.C181_value_per_lp_partial",
    "Verif.Transmuter.C181_withdrawals_accepted"
   ],
   "note": "The transmuter's execute with attached coins on the model of C42-C44. The last sentence is false: a surplus above par (gifts, gains from rounding) is shared with whoever deposits next, who can take part of it at once (C181_surplus_diluted_violated); proved for everything but deposits (C181_value_per_lp_partial), while deposits never bring the value below par (C43)."
  },
  {
   "property": "C182",
   "status": "proved",
   "theorems": [
    "Verif.XToken.C182_all_or_nothing",
    "Verif.XToken.C182_balance_at",
    "Verif.XToken.C182_books",
    "Verif.XToken.C182_consent",
    "Verif.XToken.C182_pass_on",
    "Verif.XToken.C182_supply"
   ],
   "note": "Transactions as trees of messages, run depth first with rollback; each is shown to be a sequence of the messages of the token model (C59-C61), so that those theorems carry over. Exact sums need that no account is listed twice at instantiation (C59)."
  },
  {
   "property": "C183",
   "status": "proved",
   "theorems": [
    "Verif.Duality.Entry.C183_deposits_accepted",
    "Verif.Duality.Entry.C183_deposits_are_exact",
    "Verif.Duality.Entry.C183_histories_are_pair_histories",
    "Verif.Duality.Entry.C183_messages_are_pair_transactions",
    "Verif.Duality.Entry.C183_others_never_lose",
    "Verif.Duality.Entry.C183_signer_pays_what_is_attached",
    "Verif.Duality.Entry.C183_trades_accepted_iff",
    "Verif.Duality.Entry.C183_unknown_messages_refused",
    "Verif.Duality.Entry.C183_withdrawals_accepted_iff"
   ],
   "note": "Pairs of two coins, as instantiation demands; an upgraded pool with a cw20 token is C157. The model's transactions take the attached coins from the sender themselves; the theorems show that the checks make these exactly the attached ones. Auto-staking and ownership handover are modelled elsewhere."
  },
  {
   "property": "C184",
   "status": "proved",
   "theorems": [
    "Verif.Inj.Entry.C184_deposits_accepted",
    "Verif.Inj.Entry.C184_deposits_are_exact",
    "Verif.Inj.Entry.C184_histories_are_pair_histories",
    "Verif.Inj.Entry.C184_messages_are_pair_transactions",
    "Verif.Inj.Entry.C184_others_never_lose",
    "Verif.Inj.Entry.C184_payer_pays_what_is_attached",
    "Verif.Inj.Entry.C184_spoofed_receipts_refused",
    "Verif.Inj.Entry.C184_trades_accepted_iff",
    "Verif.Inj.Entry.C184_withdrawals_accepted_iff",
    "Verif.Inj.Entry.C184_within_allowance"
   ],
   "note": "Pairs of two coins, as instantiation demands. The model's transactions take attached coins and sent LP tokens from the payer themselves; the theorems show that the checks make these exactly the attached ones. Auto-staking and ownership handover are modelled elsewhere."
  },
  {
   "property": "C185",
   "status": "partial",
   "theorems": [
    "Verif.Converter.C185_liquidity_lost_violated",
    "Verif.Converter.C185_liquidity_untouched_partial",
    "Verif.Converter.C185_trades_are_conversions",
    "Verif.Converter.C185_upgrade_accepted_iff"
   ],
   "note": "False as to the liquidity: the upgrade is accepted of a pool with liquidity, the pair then reports nothing, refuses every withdrawal and in every history keeps what was in the pool (C185_liquidity_lost_violated). Proved: acceptance as an equivalence, trades are conversions, nobody can take what the pool held. The code of the old pool is not in the repository; only its stored configuration matters here."
  },
  {
   "property": "C186",
   "status": "partial",
   "theorems": [
    "Verif.Inj.C186_fee_share_stops_violated",
    "Verif.Inj.C186_same_answers_partial",
    "Verif.Inj.C186_same_history_partial",
    "Verif.Inj.C186_upgrade_keeps"
   ],
   "note": "Partial: proved that whatever the plain pool accepts is accepted with the same outcome and state (not the converse: the plain pool also refuses deposits that mint nothing), for pools of two coins without a fee share; the accumulated prices are left out (the new code does not continue them). False for a fee share: it stays on record but no trade pays it (C186_fee_share_stops_violated). The plain pool compared with is the one of this repository; release 2.2.2 is not in it."
  },
  {
   "property": "C187",
   "status": "proved",
   "theorems": [
    "Verif.Restricted.C187_addition_accepted_iff",
    "Verif.Restricted.C187_latest",
    "Verif.Restricted.C187_order_of_first_appearance",
    "Verif.Restricted.C187_totals"
   ],
   "note": "Induction over the additions. The vector is public API of the shared package; no contract of this commit uses it."
  },
  {
   "property": "C188",
   "status": "partial",
   "theorems": [
    "Verif.Registry.Decimals.C188_created_iff",
    "Verif.Registry.Decimals.C188_decimals_of_creation_partial",
    "Verif.Registry.Decimals.C188_nothing_changes_it",
    "Verif.Registry.Decimals.C188_same_text_violated",
    "Verif.Registry.Decimals.C188_ticks_follow_registry_violated"
   ],
   "note": "Partial: proved for assets whose texts differ; a coin whose denom is the text of the token's address shares its entry (C188_same_text_violated). On Injective the quantity step is converted with the registry's present decimals (C188_ticks_follow_registry_violated); the model of that pair elsewhere assumes the registry's entry unchanged."
  },
  {
   "property": "C189",
   "status": "partial",
   "theorems": [
    "Verif.SaleTax.Entry.C189_deposit_available_partial",
    "Verif.SaleTax.Entry.C189_stuck_violated",
    "Verif.SaleTax.Entry.C189_trade_available_partial",
    "Verif.SaleTax.Entry.C189_withdraw_available_partial"
   ],
   "note": "Found false: as in C172 the price accumulators overflow when price times idle time reaches 2^128, and then every deposit, withdrawal and trade fails (C189_stuck_violated). Proved for every history whenever price times idle time is below that, whatever taxes (the checks keep them at one half at most) and admins were set; the two assets must have different names (C18_same_name_violated). Trades: at most half of the pool, worth at least four units, maximum spread 50 %."
  },
  {
   "property": "C190",
   "status": "partial",
   "theorems": [
    "Verif.PCL.C190_gift_stops_pool_violated",
    "Verif.PCL.C190_stays_stopped",
    "Verif.PCL.C190_unsolvable_stops",
    "Verif.PCL.C190_withdraw_exactly_partial"
   ],
   "note": "False: with the parameters used on mainnet for volatile pairs, a gift that makes the reserves very uneven leaves the solver of the invariant without an answer; no trade or deposit succeeds any more at any time, and even 99% of the LP tokens cannot be withdrawn (C190_gift_stops_pool_violated). Proved: everything stops in such a state and stays stopped through all histories without withdrawals, further gifts and changes of the curve; a withdrawal goes through exactly when the solver values what remains. For which holdings the solver has an answer is not proved."
  },
  {
   "property": "C191",
   "status": "proved",
   "theorems": [
    "Verif.TokenFactory.C191_burn_on_every_chain",
    "Verif.TokenFactory.C191_messages_read_back",
    "Verif.TokenFactory.C191_mint_on_every_chain"
   ],
   "note": "The wire format is modelled byte by byte (keys, lengths, left out empty strings, digits of amounts) and read back by induction on numbers and lists. The chains' modules are the environment's specification: Osmosis mints to the named account, Injective and Sei to the sender; on Sei the message carries no sender. Lengths of 2^64 and more are not considered. The message that sets the tracking hook is not included; its address is that of the Osmosis module in every build."
  },
  {
   "property": "C192",
   "status": "proved",
   "theorems": [
    "Verif.Inj.Numbers.C192_numbers_arrive_exactly",
    "Verif.Inj.Numbers.C192_round_trip"
   ],
   "note": "The texts are modelled digit by digit; cosmwasm-std's Display and injective-math's from_str are modelled from their documented behaviour, since their sources are not in the repository."
  },
  {
   "property": "C193",
   "status": "proved",
   "theorems": [
    "Verif.PCL.C193_dust_moves_nothing",
    "Verif.PCL.C193_small_trades_move_nothing"
   ],
   "note": "The other side of the rule: trades split into dust move the reserves without being remembered (an example beside the theorem moves 108 units in twelve trades). The index of the value of LP tokens (xcp_profit_real) is set by withdrawals and so is not among what is said to stay."
  },
  {
   "property": "C194",
   "status": "partial",
   "theorems": [
    "Verif.PCL.C194_round_trip_violated",
    "Verif.PCL.C194_sizeable_trades_keep_value_partial"
   ],
   "note": "False: the solvers stop when two approximations differ by at most 0.00001 of a token, and trades below that size are exempt from the check of the LP value; in a pool of 1.1 and 1 million tokens with 18 decimals a round trip with 10^6 units returns 237300541 of them (C194_round_trip_violated). The amounts are tiny (10^-10 of a token for each trade). Proved: outside of changes of the curve, a trade of at least 0.00001 of a token both ways leaves reserves at which an LP token is worth at least what the pool last recorded."
  },
  {
   "property": "C195",
   "status": "partial",
   "theorems": [
    "Verif.PCL.C195_deposits_stop_at_limit",
    "Verif.PCL.C195_every_size_violated",
    "Verif.PCL.C195_large_pools_stop"
   ],
   "note": "False: with mainnet parameters a first deposit of 10^12 tokens of each asset fails, and a pool of 9*10^10 and 10^11 tokens accepts trades of 1000 and 10^9 tokens but not of 10^6 tokens (C195_every_size_violated). Proved in general: for every pool with amp*gamma^2 at least 0.00000001, no deposit takes it to 10^12 tokens on both sides, and a pool brought there by transfers refuses every trade and deposit."
  }
 ]
}