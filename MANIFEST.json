{
 "claims": [
  {
   "property": "C01",
   "status": "partial",
   "theorems": [
    "OraiV3.C01_active_partial",
    "OraiV3.C01_no_drift_partial",
    "OraiV3.C01_false_limit_on_tick",
    "OraiV3.C01_false_stall",
    "OraiV3.C01_false_passing",
    "OraiV3.C01_drift_init",
    "OraiV3.C01_drift_other",
    "OraiV3.C01_drift_swap",
    "OraiV3.C01_drift_route",
    "OraiV3.C01_drift_swap_regular"
   ],
   "note": "False as stated: three concrete histories (swap limited exactly at an initialized tick; a swap stalling right after a crossing; an exact-input swap overshooting its target tick) leave the pool with a liquidity that is not that of the in-range positions. C01_active_partial proves the property for every history (any calls, any length, any number of pools) whose swaps in this pool do not end in one of these three ways (RegularReach c (\u00b7 = k)); what happens in other pools does not matter. Other claims are proved under the condition that the liquidity of the pool concerned is right, drift = 0, which C01_no_drift_partial gives. The C01_drift theorems are the law for all histories: the error of a pool's liquidity starts at zero, no call but a swap changes it, and a swap changes it only in these three ways, each time by exactly the net liquidity of the tick missed."
  },
  {
   "property": "C02",
   "status": "proved",
   "theorems": [
    "OraiV3.C02_ticks_are_the_positions",
    "OraiV3.C02_tickmap_is_the_positions"
   ],
   "note": ""
  },
  {
   "property": "C03",
   "status": "proved",
   "theorems": [
    "OraiV3.C03_price_tick",
    "OraiV3.C03_tick_of_price",
    "OraiV3.C03_check"
   ],
   "note": "In every reachable state; uses the exact tick-of-price theorem and an induction over the iterations of every swap."
  },
  {
   "property": "C04",
   "status": "partial",
   "theorems": [
    "OraiV3.C04_solvent_partial",
    "OraiV3.C04_whole_units_partial",
    "OraiV3.C04_payout_partial",
    "OraiV3.C04_false"
   ],
   "note": "False as stated: C04_false is a concrete history after which the contract holds 991 X but owes 1488, and a removal fails for lack of tokens (a swap stopped exactly on the price of a used tick; see DESIGN.md). Proved for all histories of calls by all users and every set T of tokens, where no swap in a pool that trades a token of T ends in one of those exceptional ways and routes do not take a native token of T twice: balance >= everything owed, for every token of T and set of pools, up to 10^-14 units per price step; hence payouts in tokens of T never fail. Swaps in other pools may end in any way. C91 allows in addition that other tokens misbehave."
  },
  {
   "property": "C05",
   "status": "partial",
   "theorems": [
    "OraiV3.C05_fees_partial",
    "OraiV3.C05_earn_partial",
    "OraiV3.C05_isolated",
    "OraiV3.C05_false"
   ],
   "note": "False as stated: in C05_false the only trader pays 913 units in total and a liquidity provider claims 11000 as fees. Proved for all histories and every pool whose swaps end regularly (none exactly on a used tick / outside its limit; other pools do not matter): claimable + paid out <= charged, up to 10^-14 units per price step, including wrap-around; earnings per swap are proportional to liquidity, none out of range; other calls change no other position's earnings (all histories)."
  },
  {
   "property": "C06",
   "status": "proved",
   "theorems": [
    "OraiV3.C06_no_profit"
   ],
   "note": "Stated on token balances of a world (contract storage plus token ledger): opening then closing, for any two transactions that do so in sequence."
  },
  {
   "property": "C07",
   "status": "proved",
   "theorems": [
    "OraiV3.C07_exact_input"
   ],
   "note": "Stated on the token ledger: the caller's balance of the input asset falls by exactly the amount, attached excess is returned."
  },
  {
   "property": "C08",
   "status": "proved",
   "theorems": [
    "OraiV3.C08_exact_output"
   ],
   "note": "Stated on the token ledger."
  },
  {
   "property": "C09",
   "status": "partial",
   "theorems": [
    "OraiV3.C09_direction",
    "OraiV3.C09_limit_partial",
    "OraiV3.C09_limit_false"
   ],
   "note": "Direction holds for every swap. The limit holds except that exact-input swaps from X to Y can end below it by less than 10^24/limit; C09_limit_false is a concrete swap that ends below its limit, so the full statement is false of the code."
  },
  {
   "property": "C10",
   "status": "proved",
   "theorems": [
    "OraiV3.C10_no_free_swap"
   ],
   "note": "Stated on the token ledger."
  },
  {
   "property": "C100",
   "status": "proved",
   "theorems": [
    "OraiV3.C100_return",
    "OraiV3.C100_small",
    "OraiV3.C100_at_once"
   ],
   "note": "C100_return: amounts, for any opening and any closing at the same price (closed with remove_position; a burn by the owner is the same call, C17). C100_small: the bound on token X for deposits below 10^13. C100_at_once: both calls that open and both that close, any attached coins."
  },
  {
   "property": "C101",
   "status": "partial",
   "theorems": [
    "OraiV3.C101_next_partial",
    "OraiV3.C101_protocol_partial",
    "OraiV3.C101_all_partial",
    "OraiV3.C101_empty",
    "OraiV3.C33_false",
    "OraiV3.C41_false"
   ],
   "note": "False after an irregular end of a swap (C01): C33_false is a state in which a withdrawal is refused, C41_false one in which a payment fails for lack of tokens. Proved for histories whose swaps in pools that trade the tokens concerned end regularly, up to 10^14 roundings and while the contract holds less than 2^128 of each token: after any run of withdrawals, claims and burns the next withdrawal is accepted and paid (C101_next_partial), the protocol's too (C101_protocol_partial), and every run can go on until no position is left (C101_all_partial; positions given to the contract itself are lost, C68). What a withdrawal pays does not depend on the others: C74, C90. C101_empty holds for every reachable state in which the pool's liquidity is right."
  },
  {
   "property": "C102",
   "status": "proved",
   "theorems": [
    "OraiV3.C102_cost",
    "OraiV3.C102_price"
   ],
   "note": "A caller who attaches coins attaches more than is needed and gets change, as in C71; coins of a token of which nothing is needed are kept (C29)."
  },
  {
   "property": "C103",
   "status": "proved",
   "theorems": [
    "OraiV3.C103_cost",
    "OraiV3.C103_more",
    "OraiV3.C103_rate",
    "OraiV3.C103_value",
    "OraiV3.C103_value_more",
    "OraiV3.C103_value_rate"
   ],
   "note": "Opening and Closing are those of C71: a successful call in any reachable state, seen through the caller's balances (closing: net of the whole units of unpaid fees, which C32 and C63 are about). That for different ranges X is compared only up to a unit and one part in 10^14 is due to the 24 decimals of the product of two square roots of prices."
  },
  {
   "property": "C104",
   "status": "proved",
   "theorems": [
    "OraiV3.C104_holding",
    "OraiV3.C104_loss",
    "OraiV3.C104_square_root"
   ],
   "note": "Opening and Closing are those of C71, linked by pool, range and liquidity, which never change (C69). The rate is the product of the two square roots of prices, each moved into the range (C95). That at the price of the opening nothing is lost is C95_opening_price. Fees are paid in addition (C05, C63)."
  },
  {
   "property": "C105",
   "status": "partial",
   "theorems": [
    "OraiV3.C105_zero_sum_partial",
    "OraiV3.C105_sandwich_partial",
    "OraiV3.C89_false"
   ],
   "note": "False after an irregular end of a swap (C01): in C89_false somebody gains 1262809663 units of Y with three swaps, alone, so that nobody else trades or loses by a trade. Proved for every sequence whose swaps end regularly, from every reachable state in which the pool's liquidity is right, with 10^-14 units of X per rounding, the roundings of C64 and, for exact-input swaps from X to Y, the exception of C09 (a price at most 10^24/limit below the limit). The example is a sandwich that gains 386084006 of the 482535000 units the trader loses."
  },
  {
   "property": "C106",
   "status": "partial",
   "theorems": [
    "OraiV3.C106_deposit_partial"
   ],
   "note": "False after an irregular end of a swap (C01) for the reason given with C105 (C89_false). Proved for every sequence whose swaps end regularly, from every reachable state in which the pool's liquidity is right, with 10^-14 units of X per rounding and the roundings of C102, for a depositor who has no position in the pool before; both create_position and the NFT mint. The example is a sandwich of a deposit that gains 193980788 units of Y."
  },
  {
   "property": "C107",
   "status": "proved",
   "theorems": [
    "OraiV3.C107_withdrawal",
    "OraiV3.C107_direction"
   ],
   "note": "The fees are paid in addition (Closing, C05) and are not taken away by later trades (C81). The two withdrawals are linked by pool, range and liquidity only, so nothing is assumed about the history in between; irregular swap ends (C01) do not matter."
  },
  {
   "property": "C108",
   "status": "partial",
   "theorems": [
    "OraiV3.C108_sandwich_partial"
   ],
   "note": "Proved for every sequence whose swaps end regularly (otherwise C89_false gains alone), from every reachable state in which the pool's liquidity is right, as long as the fees the position has earned do not become less before the withdrawal: C81 shows when they do not, and C81_false that they can, when the counter of fees runs over."
  },
  {
   "property": "C11",
   "status": "proved",
   "theorems": [
    "OraiV3.C11_swap_as_quoted",
    "OraiV3.C11_quote_as_swapped"
   ],
   "note": "Both directions: a swap that succeeds pays and charges the quoted amounts; a quote that succeeds and fits the balances is what the swap then does."
  },
  {
   "property": "C12",
   "status": "proved",
   "theorems": [
    "OraiV3.C12_route_as_quoted",
    "OraiV3.C12_quoted_route_accepted",
    "OraiV3.C12_same_pool_false"
   ],
   "note": "For routes through different pools. C12_same_pool_false: a route that visits a pool twice is quoted more than it pays."
  },
  {
   "property": "C13",
   "status": "proved",
   "theorems": [
    "OraiV3.C13_route_slippage",
    "OraiV3.C13_position_price_bounds"
   ],
   "note": ""
  },
  {
   "property": "C14",
   "status": "proved",
   "theorems": [
    "OraiV3.C14_only_admin_changes_settings",
    "OraiV3.C14_others_are_refused",
    "OraiV3.C14_withdraw_refused",
    "OraiV3.C14_only_these_calls"
   ],
   "note": ""
  },
  {
   "property": "C15",
   "status": "proved",
   "theorems": [
    "OraiV3.C15_strangers_cannot_touch_positions",
    "OraiV3.C15_strangers_cannot_appoint"
   ],
   "note": "Accounts are assumed shorter than 65536 bytes in the second theorem: that is what the two-byte length prefix of the operators' map can hold."
  },
  {
   "property": "C16",
   "status": "proved",
   "theorems": [
    "OraiV3.C16_no_gaps",
    "OraiV3.C16_list_operations"
   ],
   "note": ""
  },
  {
   "property": "C17",
   "status": "partial",
   "theorems": [
    "OraiV3.C17_false",
    "OraiV3.C17_owner_burn_partial",
    "OraiV3.C17_burn_partial"
   ],
   "note": "The property is false of the code (C17_false): Burn by an approved spender or operator removes the sender's own position with the same number. C17_owner_burn_partial covers burns by the owner. C17_burn_partial says exactly when Burn is accepted and what it does, for every caller."
  },
  {
   "property": "C18",
   "status": "proved",
   "theorems": [
    "OraiV3.C18_transfer_needs_permission_and_clears",
    "OraiV3.C18_transfer_position_clears",
    "OraiV3.C18_approve_and_revoke",
    "OraiV3.C18_revoked_spender_has_no_approval",
    "OraiV3.C18_operators",
    "OraiV3.C18_operators_are_the_appointed"
   ],
   "note": ""
  },
  {
   "property": "C19",
   "status": "proved",
   "theorems": [
    "OraiV3.C19_no_second_pool",
    "OraiV3.C19_create_keeps_pools",
    "OraiV3.C19_pool_never_removed"
   ],
   "note": ""
  },
  {
   "property": "C20",
   "status": "partial",
   "theorems": [
    "OraiV3.C20_false",
    "OraiV3.C20_fee_tiers_partial"
   ],
   "note": "The property is false of the code (C20_false): AddFeeTier accepts a tier that is already listed. C20_fee_tiers_partial says what the list operations do."
  },
  {
   "property": "C21",
   "status": "proved",
   "theorems": [
    "OraiV3.C21_pool_key_roundtrip",
    "OraiV3.C21_keys_do_not_collide",
    "OraiV3.C21_token_id"
   ],
   "note": ""
  },
  {
   "property": "C22",
   "status": "proved",
   "theorems": [
    "OraiV3.C22_domain",
    "OraiV3.C22_price_increasing",
    "OraiV3.C22_price_range",
    "OraiV3.C22_tick_of_price",
    "OraiV3.C22_out_of_range",
    "OraiV3.C22_roundtrip"
   ],
   "note": "Proved for all prices and spacings by bounding the error of the integer logarithm against the real logarithm; no enumeration of prices. The reported tick may be a multiple of the spacing below the smallest tick when the price is near the minimum."
  },
  {
   "property": "C23",
   "status": "proved",
   "theorems": [
    "OraiV3.C23_search_up",
    "OraiV3.C23_search_down",
    "OraiV3.C23_flip"
   ],
   "note": ""
  },
  {
   "property": "C24",
   "status": "proved",
   "theorems": [
    "OraiV3.C24_terminates",
    "OraiV3.C24_terminates_all",
    "OraiV3.C24_fuel"
   ],
   "note": "The loop without a bound ends; at most 443637 iterations for X to Y and for exact-input swaps."
  },
  {
   "property": "C25",
   "status": "proved",
   "theorems": [
    "OraiV3.C25_deposit",
    "OraiV3.C25_withdraw",
    "OraiV3.C25_charge_y",
    "OraiV3.C25_pay_y",
    "OraiV3.C25_pay_x",
    "OraiV3.C25_charge_x",
    "OraiV3.C25_dust",
    "OraiV3.C25_charge_x_below_exact"
   ],
   "note": "C25_deposit and C25_withdraw are about whole calls and balances, the others about the amount formulas. Exact rational amounts are defined in Verif/Exact.lean. Charged X may fall short of the exact amount by at most dustX, which is below 1e-14 of the smallest unit in the price range of the contract; C25_charge_x_below_exact shows the shortfall is real."
  },
  {
   "property": "C26",
   "status": "partial",
   "theorems": [
    "OraiV3.C26_out",
    "OraiV3.C26_out_target",
    "OraiV3.C26_in_up",
    "OraiV3.C26_in_down_partial",
    "OraiV3.C26_iteration",
    "OraiV3.C26_in_false",
    "OraiV3.C26_target_false"
   ],
   "note": "Holds for exact-output steps and for exact-input steps from Y to X. For exact-input steps from X to Y both halves are false (C26_in_false, C26_target_false); the partial theorem bounds the excess. Every executed iteration of a successful swap spends at most what was left."
  },
  {
   "property": "C27",
   "status": "partial",
   "theorems": [
    "OraiV3.C27_total",
    "OraiV3.C27_crossing_partial",
    "OraiV3.C27_create_partial",
    "OraiV3.C27_remove_partial",
    "OraiV3.C27_false"
   ],
   "note": "C27_total: in every reachable state the liquidity of all positions of a pool is below 2^128. Crossing never overflows/underflows, creating never overflows and removing never underflows the pool's liquidity in every reachable state, for every pool whose liquidity is right (drift = 0, see C01). False without that restriction (C27_false): after a swap limited at an initialized tick the active liquidity is too small and the next crossing underflows."
  },
  {
   "property": "C28",
   "status": "proved",
   "theorems": [
    "OraiV3.C28_swap_shares",
    "OraiV3.C28_swap_records_share",
    "OraiV3.C28_protocol_fee_accounting"
   ],
   "note": "C28_swap_shares: any swap, any reachable state, on balances; each price move names its fee, its share and the exact amounts of the price curve (ChargeOk in Verif/Shares.lean). A route is a sequence of such swaps (C79)."
  },
  {
   "property": "C29",
   "status": "partial",
   "theorems": [
    "OraiV3.C29_false",
    "OraiV3.C29_zero_false",
    "OraiV3.C29_route_law",
    "OraiV3.C29_route_partial"
   ],
   "note": "False as stated: a route that takes the same native coin in two hops gives the unused attached amount back twice, at the expense of the pools (C29_false), and a coin attached to a call that turns out to need none of it is kept (C29_zero_false). C29_route_law is the exact balance change of the sender for every route and every token; C29_route_partial the intended behaviour when no coin is the input of two hops and only coins taken are attached. Single swaps and deposits: C07_exact_input, C11_swap_as_quoted, C25_deposit."
  },
  {
   "property": "C30",
   "status": "partial",
   "theorems": [
    "OraiV3.C30_false",
    "OraiV3.C30_count_partial"
   ],
   "note": "The property is false of the code (C30_false): the query panics when an end word of the tickmap is used completely (shift by 64). C30_count_partial: in every other case the count is right."
  },
  {
   "property": "C31",
   "status": "partial",
   "theorems": [
    "OraiV3.C31_false_cap",
    "OraiV3.C31_false_offset",
    "OraiV3.C31_false_tokens",
    "OraiV3.C31_positions",
    "OraiV3.C31_tokens",
    "OraiV3.C31_pools",
    "OraiV3.C31_pools_paging",
    "OraiV3.C31_all_tokens"
   ],
   "note": "False as stated: the positions listing does not cap its limit (C31_false_cap), fails on u32 overflow of offset plus limit (C31_false_offset), and the tokens listing treats start_after as inclusive (C31_false_tokens). The other theorems say exactly what every listing returns; the pools listing is complete, ordered, capped and pages correctly (C31_pools_paging)."
  },
  {
   "property": "C32",
   "status": "proved",
   "theorems": [
    "OraiV3.C32_claim",
    "OraiV3.C32_second_claim",
    "OraiV3.C32_isolated"
   ],
   "note": "Exact payout in whole units, second claim changes no balance, frame for positions, pools, ticks, bitmap, config. All reachable states."
  },
  {
   "property": "C33",
   "status": "partial",
   "theorems": [
    "OraiV3.C33_accepted_partial",
    "OraiV3.C33_paid_partial",
    "OraiV3.C33_false"
   ],
   "note": "False as stated: in C33_false a removal fails with an underflow after another user's swap stopped exactly on the position's lower tick. Proved: in every reachable state removal is accepted if the liquidity of the position's pool is right (C01) and the amounts fit into 128 bits; in histories whose swaps in pools that trade the position's tokens end regularly, it is accepted and paid whenever the contract holds less than 2^128 of both tokens (up to 10^14 price steps)."
  },
  {
   "property": "C34",
   "status": "partial",
   "theorems": [
    "OraiV3.C34_false",
    "OraiV3.C34_partial",
    "OraiV3.C78_accepted_partial"
   ],
   "note": "False as stated: C34_false is a reachable pool in which 2000000 Y cannot be bought by exact output although an exact-input swap and two smaller exact-output swaps deliver it. C34_partial proves for every reachable state that selling X for exact Y is never refused for wanting less (every smaller amount works and costs no more). C78_accepted_partial bounds the amount that can be had, for sales of X, from the liquidity between the price and the limit alone. Not proved: the same for buying X (rounding can leave one unit that is sought beyond the range)."
  },
  {
   "property": "C35",
   "status": "partial",
   "theorems": [
    "OraiV3.C35_false",
    "OraiV3.C35_partial"
   ],
   "note": "False as stated: C35_false shows a 200% protocol fee accepted from the admin, after which swaps that worked panic in both directions. C35_partial proves, for every reachable state, that raising the fee to at most 100% stops no swap and changes no payment, as long as the pool's protocol counter cannot exceed a u128."
  },
  {
   "property": "C36",
   "status": "proved",
   "theorems": [
    "OraiV3.C36_simulation",
    "OraiV3.C36_from_queries"
   ],
   "note": "Whenever the contract's quote succeeds the simulation on the same data succeeds with the same amounts, price and crossed ticks, unless more than 173 ticks are crossed, in which case and only then it reports max_ticks_crossed. C36_from_queries starts from the answers of the Pool, Tickmap and LiquidityTicks queries. The client's copies of the arithmetic are those of the contract up to the type of their errors and share its definitions in the model."
  },
  {
   "property": "C37",
   "status": "proved",
   "theorems": [
    "OraiV3.C37_by_x",
    "OraiV3.C37_by_y",
    "OraiV3.C37_both"
   ],
   "note": "Stated on balances, for every reachable state and both deposit messages."
  },
  {
   "property": "C38",
   "status": "partial",
   "theorems": [
    "OraiV3.C38_false",
    "OraiV3.C38_ids_partial"
   ],
   "note": "The property is false of the code (C38_false): removing a position renumbers the last one. C38_ids_partial: an id is stable except in exactly that case."
  },
  {
   "property": "C39",
   "status": "proved",
   "theorems": [
    "OraiV3.C39_supply",
    "OraiV3.C39_count"
   ],
   "note": ""
  },
  {
   "property": "C40",
   "status": "proved",
   "theorems": [
    "OraiV3.C40_failed_calls_change_nothing",
    "OraiV3.C40_other_pools_unchanged"
   ],
   "note": ""
  },
  {
   "property": "C41",
   "status": "partial",
   "theorems": [
    "OraiV3.C41_accepted",
    "OraiV3.C41_paid_partial",
    "OraiV3.C41_false"
   ],
   "note": "False as stated: in C41_false other users' swaps (one stopping exactly on the position's lower tick) leave a position credited with fees nobody paid, more than the contract holds, so its owner's claim fails. Acceptance by the contract is proved for all histories, for fees that fit into 128 bits; that the contract can pay is proved for histories whose swaps in pools that trade the position's tokens end regularly (up to 10^14 price steps)."
  },
  {
   "property": "C42",
   "status": "partial",
   "theorems": [
    "OraiV3.C42_false",
    "OraiV3.C42_by_x_partial",
    "OraiV3.C42_by_y_partial"
   ],
   "note": "False as stated: C42_false is a deposit that takes one unit more than reported. Proved: bounds on the shortfall."
  },
  {
   "property": "C43",
   "status": "proved",
   "theorems": [
    "OraiV3.C43_tickmap",
    "OraiV3.C43_tickmap_is_the_positions",
    "OraiV3.C43_answers"
   ],
   "note": ""
  },
  {
   "property": "C44",
   "status": "proved",
   "theorems": [
    "OraiV3.C44_operators",
    "OraiV3.C44_operators_are_the_appointed"
   ],
   "note": ""
  },
  {
   "property": "C45",
   "status": "proved",
   "theorems": [
    "OraiV3.C45_position_ticks"
   ],
   "note": ""
  },
  {
   "property": "C46",
   "status": "partial",
   "theorems": [
    "OraiV3.C46_false",
    "OraiV3.C46_no_gain_partial",
    "OraiV3.C46_any_price_partial",
    "OraiV3.C46_alone_partial"
   ],
   "note": "False as stated: in C46_false a trader makes three swaps in a pool and gains 1262809663 Y at no cost in X (a swap limited exactly at a used tick makes the pool count the liquidity twice). C46_no_gain_partial proves it for every reachable state in which the pool's liquidity is right (C01) and every sequence of regular swaps, up to 10^14 price steps, or 10^14 divided by the price at the beginning if that is less; C46_any_price_partial: up to 23000 price steps whatever the price."
  },
  {
   "property": "C47",
   "status": "proved",
   "theorems": [
    "OraiV3.C47_reported",
    "OraiV3.C47_claim_accepted",
    "OraiV3.C47_claim",
    "OraiV3.C47_remove"
   ],
   "note": "The queries answer for every position; prediction succeeds iff the claim is accepted; the amounts are equal. For removals: the amounts of an accepted removal (acceptance is C33)."
  },
  {
   "property": "C48",
   "status": "proved",
   "theorems": [
    "OraiV3.C48_back",
    "OraiV3.C48_forth",
    "OraiV3.C48_decode",
    "OraiV3.C48_complete"
   ],
   "note": "Conversions inverse to each other for every positive spacing; decoding a tickmap answer gives exactly the used ticks in every reachable state."
  },
  {
   "property": "C49",
   "status": "proved",
   "theorems": [
    "OraiV3.C49_rate",
    "OraiV3.C49_quote"
   ],
   "note": "For every swap and quote in every reachable state, with the pool's price read before the swap. When X is sold the bound has an allowance of 10^-18 units of Y, a billionth of a billionth of the smallest unit, because the required amount of X is computed with a divisor that was rounded down."
  },
  {
   "property": "C50",
   "status": "proved",
   "theorems": [
    "OraiV3.C50_add",
    "OraiV3.C50_sub",
    "OraiV3.C50_mul",
    "OraiV3.C50_mul_up",
    "OraiV3.C50_div",
    "OraiV3.C50_div_up",
    "OraiV3.C50_big_mul",
    "OraiV3.C50_big_mul_up",
    "OraiV3.C50_big_div",
    "OraiV3.C50_big_div_up",
    "OraiV3.C50_big_mul_to_value",
    "OraiV3.C50_from_integer",
    "OraiV3.C50_from_decimal",
    "OraiV3.C50_checked_from_decimal",
    "OraiV3.C50_from_decimal_up",
    "OraiV3.C50_down_spec",
    "OraiV3.C50_up_spec"
   ],
   "note": "The operations are the literal transcriptions in Decimal.lean. C50_down_spec and C50_up_spec say what rounding down and up means. Operations that use a 128-bit intermediate result abort when that overflows although the result would fit; the statements give the exact condition."
  },
  {
   "property": "C51",
   "status": "proved",
   "theorems": [
    "OraiV3.C51_amount_x",
    "OraiV3.C51_amount_y",
    "OraiV3.C51_price_from_input",
    "OraiV3.C51_price_from_output",
    "OraiV3.C51_swap_step",
    "OraiV3.C51_enough_amount",
    "OraiV3.C51_min_amount_out",
    "OraiV3.C51_tick_price",
    "OraiV3.C51_tick_of_price",
    "OraiV3.C51_position_amounts",
    "OraiV3.C51_fee_growth",
    "OraiV3.C51_fees"
   ],
   "note": "Equality of the literal fixed-width functions (namespace Lit) with the functions over unbounded integers that all other theorems are about. The least i32 as a tick is excluded: the code panics on it instead of returning its error."
  },
  {
   "property": "C52",
   "status": "proved",
   "theorems": [
    "OraiV3.C52_owner_of",
    "OraiV3.C52_nft_info",
    "OraiV3.C52_who_can_move",
    "OraiV3.C52_amount",
    "OraiV3.C52_admin",
    "OraiV3.C52_fee_tier"
   ],
   "note": "The only exception in C52_who_can_move is a receiver with 2^32-1 positions, for which the code panics."
  },
  {
   "property": "C53",
   "status": "partial",
   "theorems": [
    "OraiV3.C53_pools_for_pair_partial",
    "OraiV3.C53_false_removed",
    "OraiV3.C53_false_twice"
   ],
   "note": "False of the code: the pool of a removed fee tier is not listed any more although it stays open, and a tier added twice lists its pool twice. Proved: the answer is exactly the pools of the pair whose tier is listed at the moment, once per listing of the tier, for both token orders."
  },
  {
   "property": "C54",
   "status": "partial",
   "theorems": [
    "OraiV3.C54_sell_x_partial",
    "OraiV3.C54_sell_y_partial",
    "OraiV3.C54_sell_y_small_partial",
    "OraiV3.C54_buy_y_partial",
    "OraiV3.C54_false_buy_x",
    "OraiV3.C54_false_sell_y",
    "OraiV3.C54_false_sell_x"
   ],
   "note": "False of the code in three of the four cases (witnesses: 1 X costs 17 Y while 2 X cost 5 Y; one more unit sold gives less at low prices). Proved: buying Y at any price; selling X at prices of at least 1; selling Y at any price up to one unit and one part in 10^14."
  },
  {
   "property": "C55",
   "status": "proved",
   "theorems": [
    "OraiV3.C55_outcome",
    "OraiV3.C55_commute"
   ],
   "note": "For every reachable storage and every pair of calls meeting Spec's Msg.usesPool/accounts/global conditions. The proof runs each call in two storages that agree on the data it uses (Lemmas/Rel*)."
  },
  {
   "property": "C56",
   "status": "proved",
   "theorems": [
    "OraiV3.C56_clock"
   ],
   "note": "For whole histories from instantiation, failing calls included; block times must not decrease (with decreasing times the timestamp subtraction fails)."
  },
  {
   "property": "C57",
   "status": "proved",
   "theorems": [
    "OraiV3.C57_everybody"
   ],
   "note": "For swap and swap_route, any state."
  },
  {
   "property": "C58",
   "status": "proved",
   "theorems": [
    "OraiV3.C58_parameters",
    "OraiV3.C58_create",
    "OraiV3.C58_new_pool"
   ],
   "note": "Equivalence for every reachable storage."
  },
  {
   "property": "C59",
   "status": "proved",
   "theorems": [
    "OraiV3.C59_deposit",
    "OraiV3.C59_deposit_contracts",
    "OraiV3.C59_deposit_regular"
   ],
   "note": "Equivalence for every reachable storage; the amounts to be charged for native coins are those of the deposit formula, whose size C25 bounds. For cw20 tokens the token contract may still refuse the transfer."
  },
  {
   "property": "C60",
   "status": "partial",
   "theorems": [
    "OraiV3.C60_clock_partial",
    "OraiV3.C60_age",
    "OraiV3.C60_new_tick",
    "OraiV3.C60_false"
   ],
   "note": "False as stated (C60_false): a swap ending exactly at its limit on a used tick moves the pool onto the tick without crossing it, so the clock of a range the pool never entered jumps by the age of the pool in one call. Proved for every stretch of history whose swaps in the pool end regularly (the same condition as in C01); the bound by the age and the start of a new tick hold for all histories."
  },
  {
   "property": "C61",
   "status": "proved",
   "theorems": [
    "OraiV3.C61_same_call",
    "OraiV3.C61_action",
    "OraiV3.C61_parties",
    "OraiV3.C61_swap",
    "OraiV3.C61_claim",
    "OraiV3.C61_route",
    "OraiV3.C61_create",
    "OraiV3.C61_remove",
    "OraiV3.C61_pool_not_named",
    "OraiV3.C61_receiver_not_named"
   ],
   "note": "respond (Verif/Events.lean) is execute with attributes; C61_same_call shows that it is the same call. C61_swap and C61_claim compare the texts, read back as numbers, with balances of the ledger; conditions: the sender is not the contract, attached denominations are distinct and, for swaps, nothing of the bought coin is attached (it would be kept, see C29). The last two theorems show what events leave out: the pool of a position and the receiver of transfer_position."
  },
  {
   "property": "C62",
   "status": "proved",
   "theorems": [
    "OraiV3.C62_keys",
    "OraiV3.C62_flat",
    "OraiV3.C62_unique",
    "OraiV3.C62_faithful",
    "OraiV3.C62_read",
    "OraiV3.C62_write",
    "OraiV3.C62_remove",
    "OraiV3.C62_list",
    "OraiV3.C62_list_operators"
   ],
   "note": "Refinement between the flat storage with cw_storage_plus keys (Verif/Raw.lean) and the maps of the model. Values are records, not JSON text. Listings of operators are for owners that are non-empty and do not end in byte 255, which no address does."
  },
  {
   "property": "C63",
   "status": "partial",
   "theorems": [
    "OraiV3.C63_moves_partial",
    "OraiV3.C63_all_fees_partial",
    "OraiV3.C63_ranges_partial",
    "OraiV3.C63_same_range",
    "OraiV3.C63_new",
    "OraiV3.C63_false"
   ],
   "note": "C63_moves_partial and C63_ranges_partial: any reachable state, any swap whose end is regular. C63_all_fees_partial: the conservation of fees for pools whose liquidity is right (C01). C63_same_range and C63_new hold in all histories. False for swaps with an irregular end (finding 19): C63_false is a swap that takes 507 units from the trader while the positions earn 6000."
  },
  {
   "property": "C64",
   "status": "proved",
   "theorems": [
    "OraiV3.C64_worst_price"
   ],
   "note": "For all reachable states. The step count in the bound is that of C24; the example moves the price by a fifth across a tick."
  },
  {
   "property": "C65",
   "status": "partial",
   "theorems": [
    "OraiV3.C65_refusals_partial",
    "OraiV3.C65_swap_partial",
    "OraiV3.C65_dust_false",
    "OraiV3.C65_odd_amount_false"
   ],
   "note": "False of the code. C65_dust_false: a position that costs one unit of X, opened in a gap of the liquidity, makes every larger exact-input purchase of X across the gap fail with a conversion error (finding 28). C65_odd_amount_false: a sale of 1000 units is refused while 999 and 1001 are accepted (finding 29). Proved: in every reachable state, for a pool whose liquidity is right (C01), with fee at most 99.99 %, block time after the creation of the pool and an amount that fits next to the unclaimed protocol fee, no other refusal exists than the stated ones; for purchases of X under the condition that no range ahead is thinner than amount/(3*10^8), for sales up to the three named failures of finding 12 and 18."
  },
  {
   "property": "C66",
   "status": "proved",
   "theorems": [
    "OraiV3.C66_messages",
    "OraiV3.C66_third_parties",
    "OraiV3.C66_conserved",
    "OraiV3.C66_other_tokens"
   ],
   "note": "The cw20 contracts and the bank are the ledger of Ledger.lean. What a contract that is notified by SendNft does afterwards is its own transaction and not part of the claim."
  },
  {
   "property": "C67",
   "status": "proved",
   "theorems": [
    "OraiV3.C67_effect",
    "OraiV3.C67_accepted",
    "OraiV3.C67_nothing_else"
   ],
   "note": ""
  },
  {
   "property": "C68",
   "status": "partial",
   "theorems": [
    "OraiV3.C68_only_accounts_partial",
    "OraiV3.C68_lost",
    "OraiV3.C68_frozen",
    "OraiV3.C68_false"
   ],
   "note": "False of the code (C68_false). Proved: it holds if the strings given to TransferNft, SendNft, ChangeAdmin and ChangeFeeReceiver are accounts (TransferPosition needs no such condition); what is given to anything else is lost for ever (C68_lost, C68_frozen)."
  },
  {
   "property": "C69",
   "status": "proved",
   "theorems": [
    "OraiV3.C69_opened",
    "OraiV3.C69_records",
    "OraiV3.C69_nothing_owed",
    "OraiV3.C69_times",
    "OraiV3.C69_created"
   ],
   "note": ""
  },
  {
   "property": "C70",
   "status": "proved",
   "theorems": [
    "OraiV3.C70_pool",
    "OraiV3.C70_position",
    "OraiV3.C70_liquidity_ticks"
   ],
   "note": ""
  },
  {
   "property": "C71",
   "status": "proved",
   "theorems": [
    "OraiV3.C71_open",
    "OraiV3.C71_close",
    "OraiV3.C71_saving"
   ],
   "note": "Costs and payments are the changes of the caller's balances. C71_saving shows that the one unit of the first token can really be saved, so the bound is sharp."
  },
  {
   "property": "C72",
   "status": "proved",
   "theorems": [
    "OraiV3.C72_no_trace",
    "OraiV3.C72_future"
   ],
   "note": "NoTrace allows three differences that no call can see: lastTs of the pool, the sign stored with a liquidity change of zero (which does flip: a tick with change 0 and sign true has sign false afterwards), and a bitmap word or list length stored as 0 instead of being absent."
  },
  {
   "property": "C73",
   "status": "proved",
   "theorems": [
    "OraiV3.C73_order",
    "OraiV3.C73_future",
    "OraiV3.C73_any_order"
   ],
   "note": "C73_order: two deposits, with the records compared field by field; C73_any_order: any number of deposits in any order, and whatever follows. Acceptance in the other order is derived from the exact acceptance condition C59_deposit. The records may differ in the sign stored with a liquidity change of zero, as in C72 (NoTrace); the example shows such a case. Deposits of the same account get different places in its list, so the accounts are assumed to be different."
  },
  {
   "property": "C74",
   "status": "proved",
   "theorems": [
    "OraiV3.C74_withdraw",
    "OraiV3.C74_claim",
    "OraiV3.C74_withdraw_regular"
   ],
   "note": "The amounts are equal in every history (C74_withdraw, C74_claim). That the withdrawal stays possible is proved if the pool's liquidity is right, which it is without irregular swap ends in this pool (C74_withdraw_regular); otherwise it is false, see C33_false."
  },
  {
   "property": "C75",
   "status": "proved",
   "theorems": [
    "OraiV3.C75_withdraw",
    "OraiV3.C75_claim",
    "OraiV3.C75_transfer",
    "OraiV3.C75_approve",
    "OraiV3.C75_operators"
   ],
   "note": "Equivalences for all reachable states, irregular swap ends included. The condition on the pool's liquidity in C75_withdraw always holds if the pool's swaps ended regularly (C01_active_partial) and fails in the state of C33_false."
  },
  {
   "property": "C76",
   "status": "partial",
   "theorems": [
    "OraiV3.C76_fee_partial",
    "OraiV3.C76_false",
    "OraiV3.C76_two_ways"
   ],
   "note": "False of the code: only exact-input steps that end between ticks charge the pool's percentage of the gross amount; exact-output swaps and steps that end at a tick or limit charge it on the net amount (C76_false; C76_two_ways shows the same trade for less). Proved for all swaps with a regular end: the trader pays at least the curve's input plus the pool's percentage of it, up to 2e-14 of a unit per move."
  },
  {
   "property": "C77",
   "status": "partial",
   "theorems": [
    "OraiV3.C77_pool_key",
    "OraiV3.C77_token_x",
    "OraiV3.C77_tier_partial",
    "OraiV3.C77_tier_false",
    "OraiV3.C77_range_partial",
    "OraiV3.C77_range_refused",
    "OraiV3.C77_range_false",
    "OraiV3.C77_prices",
    "OraiV3.C77_prices_attained"
   ],
   "note": "Keys, token order and extreme prices agree. False at two edges: the client accepts a fee of exactly 100 % (C77_tier_false) and empty ranges (C77_range_false), which the contract refuses; everywhere else tier and range checks agree (the _partial theorems)."
  },
  {
   "property": "C78",
   "status": "partial",
   "theorems": [
    "OraiV3.C78_refusals_partial",
    "OraiV3.C78_swap_partial",
    "OraiV3.C78_accepted_partial",
    "OraiV3.noThinRange_of_positions",
    "OraiV3.C78_dust_false"
   ],
   "note": "False of the code: a range that is thin compared with the amount makes the arithmetic overflow, and one unit deposited into a gap is enough (C78_dust_false). Proved for pools whose liquidity is right (C01) and where no range up to the limit is thin: the only refusals are a zero amount, a wrong limit, the end of the tick range with a limit outside it, and the limit being reached, which implies that no more was on offer than the amount plus one unit per price step. For sales this gives acceptance of every amount the pool has on offer with 443637 units to spare."
  },
  {
   "property": "C79",
   "status": "proved",
   "theorems": [
    "OraiV3.C79_hops",
    "OraiV3.C79_transactions"
   ],
   "note": "C79_hops: necessary and sufficient, for every state and route, with or without attached coins. C79_transactions: the same with balances if no coins are attached (attached coins are handed over once but counted by each hop, see C29)."
  },
  {
   "property": "C80",
   "status": "proved",
   "theorems": [
    "OraiV3.C80_trade",
    "OraiV3.C80_liquidity",
    "OraiV3.C80_solvent",
    "OraiV3.C80_withdraw"
   ],
   "note": "SafeTrade (SafeSpec) looks only at the state before the trade and at the answer of the Quote query. Only trades in the pool, respectively in pools that trade the tokens concerned, need to be safe. C80_solvent and C80_withdraw: up to 10^-14 of a unit per rounding, respectively up to 10^14 roundings and balances below 2^128, for routes that take each native coin once (cf. C04, C33, C41)."
  },
  {
   "property": "C81",
   "status": "partial",
   "theorems": [
    "OraiV3.C81_keeps_partial",
    "OraiV3.C81_from_the_start_partial",
    "OraiV3.C81_false"
   ],
   "note": "False as stated (C81_false): fees are counted per unit of stored liquidity modulo 2^128 (34028 units of the token), and a position whose fees go beyond that starts again from zero; in the witness 170141183498 units become 75 by a trader paying as much again. Proved for every position whose pool's liquidity is right (C01) and every stretch of history whose trades in this pool end regularly, during which what is pending and what traders pay stay below that."
  },
  {
   "property": "C82",
   "status": "partial",
   "theorems": [
    "OraiV3.C82_curve_partial",
    "OraiV3.C82_last_digit",
    "OraiV3.C82_false"
   ],
   "note": "False of the code after an irregular end (C01): concrete history in which 499 units are paid out over a price range where no position is active. Proved for every swap with a regular end in every reachable state in which the pool's liquidity is right (C01): what is paid and what is received lie between explicit bounds around the exact amounts of the price curve, which is defined from the open positions and the prices before and after only."
  },
  {
   "property": "C83",
   "status": "proved",
   "theorems": [
    "OraiV3.C83_global",
    "OraiV3.C83_refusals",
    "OraiV3.C83_inside",
    "OraiV3.C83_difference",
    "OraiV3.C83_adjacent"
   ],
   "note": "The functions are exported but called by no entry point, so the history is that of the bookkeeping they are made for (TimeSpec), not of contract calls."
  },
  {
   "property": "C84",
   "status": "proved",
   "theorems": [
    "OraiV3.C84_tickmap",
    "OraiV3.C84_ticks",
    "OraiV3.C84_simulation"
   ],
   "note": ""
  },
  {
   "property": "C85",
   "status": "partial",
   "theorems": [
    "OraiV3.C85_sizes_partial",
    "OraiV3.C85_false"
   ],
   "note": "False for listings of pools: the library gives 220 and 126, the contract returns at most 100 per page, so that a page shorter than asked for need not be the last (C85_false). Right for the tickmap and for ticks."
  },
  {
   "property": "C86",
   "status": "partial",
   "theorems": [
    "OraiV3.C86_steps_partial",
    "OraiV3.C86_false"
   ],
   "note": "False for purchases of X by exact output: C86_false has a reachable pool in which buying one unit of X takes four steps, although no tick in use is passed and the tick moves by fewer than 256 spacings (the bound is two). C86_steps_partial proves the bound for all other successful swaps: X sold in either mode, Y sold by exact input. Swaps that fail are not covered."
  },
  {
   "property": "C87",
   "status": "proved",
   "theorems": [
    "OraiV3.C87_claim_first",
    "OraiV3.C87_at_once"
   ],
   "note": "Storage and the whole ledger are equal. The second direction assumes that fees and principal together fit into 128 bits: the contract adds them in a u128 when the position is closed at once."
  },
  {
   "property": "C88",
   "status": "proved",
   "theorems": [
    "OraiV3.handover_place",
    "OraiV3.C88_withdraw",
    "OraiV3.C88_claim"
   ],
   "note": "Covers all three calls that move a position and also giving it to oneself. The old and the new holder are compared from the same balances."
  },
  {
   "property": "C89",
   "status": "partial",
   "theorems": [
    "OraiV3.C89_no_gain_partial",
    "OraiV3.C89_no_free_money_partial",
    "OraiV3.C89_false"
   ],
   "note": "False as stated (C89_false, the three swaps of C46_false: a swap that ends exactly on an initialized tick makes the pool count liquidity twice). Proved for every sequence by any group of accounts whose swaps end regularly, from every reachable state in which the pool's liquidity is right (C01); the bound has 10^-14 units of X per rounding of an amount of X, which the code's rounding of required amounts of X can lose. Sequences with SwapRoute or with calls in several pools are the subject of C94."
  },
  {
   "property": "C90",
   "status": "proved",
   "theorems": [
    "OraiV3.C90_order",
    "OraiV3.C90_any_order"
   ],
   "note": "C90_order: two calls, with the records compared field by field (NoTrace: up to the sign stored with a liquidity change of zero); C90_any_order: any number of calls in any order, with what each gets, and whatever follows. Calls of the same account are excluded: closing a position renumbers the others. Deposits are not included because they do not commute with withdrawals: a tick that one order deletes and creates again gets new counters, and the cap per tick may be reached in one order only."
  },
  {
   "property": "C91",
   "status": "proved",
   "theorems": [
    "OraiV3.C91_covered",
    "OraiV3.C91_midway",
    "OraiV3.C91_whole_units",
    "OraiV3.C91_payout",
    "OraiV3.C91_withdraw",
    "OraiV3.C91_claim",
    "OraiV3.C91_reachable",
    "OraiV3.C91_every_history"
   ],
   "note": "Nested (HostileSpec.lean) lists everything that can happen when only a given set T of tokens behaves like tokens: calls from inside a message to any other program, arbitrary changes of balances except those of tokens of T held by the contract; swaps in pools that trade no token of T are unrestricted. A call that fails or is taken back leaves an earlier state of the same list."
  },
  {
   "property": "C92",
   "status": "proved",
   "theorems": [
    "OraiV3.C92_same_trades",
    "OraiV3.C92_next_swap",
    "OraiV3.C92_quote",
    "OraiV3.C92_quote_route"
   ],
   "note": "SameButFees (NeutralSpec.lean) compares two storages record by record with the fee counters and the rate blanked. The hypothesis that the same calls succeed is needed: a rate above 100 percent, which the administrator may set, stops swaps (example; finding 5), and fee counters near 2^128 can overflow at one rate and not at another."
  },
  {
   "property": "C93",
   "status": "partial",
   "theorems": [
    "OraiV3.C93_looser_limit_partial",
    "OraiV3.C93_looser_quote_partial",
    "OraiV3.C93_looser_limit_false"
   ],
   "note": "False of the code for exact-output swaps from Y to X: C93_looser_limit_false is a purchase that ends 8 units inside its limit and fails with a limit one unit looser (finding 39). Proved for the other three modes: exact-input swaps in both directions and exact-output swaps from X to Y, for all reachable states, amounts and limits."
  },
  {
   "property": "C94",
   "status": "partial",
   "theorems": [
    "OraiV3.C94_no_arbitrage_partial",
    "OraiV3.C94_no_free_money_partial",
    "OraiV3.C94_false"
   ],
   "note": "False as stated: C94_false is one route call that pays with the same native coin twice (C29) and gains 99968 units; the irregular swaps of C89_false are another case. Proved for every sequence of calls by any group of accounts in any list of pools, routes of any length included, whose swaps end regularly and whose routes take each native coin at most once, from every reachable state in which the pools' liquidity is right (C01). The bound has 10^-14 units of each token per rounding."
  },
  {
   "property": "C95",
   "status": "proved",
   "theorems": [
    "OraiV3.C95_mean_price",
    "OraiV3.C95_opening_price",
    "OraiV3.C95_sold",
    "OraiV3.C95_bought"
   ],
   "note": "Rounding: two units of Y, three of X, and one part in 10^14 of the amounts of X. The two calls are linked by pool, range and liquidity of the position only, which C69 shows never to change, so nothing is assumed about the history in between; irregular swap ends (C01) do not matter. Fees are paid in addition (C05, C63)."
  },
  {
   "property": "C96",
   "status": "proved",
   "theorems": [
    "OraiV3.C96_open",
    "OraiV3.C96_close",
    "OraiV3.C96_fees",
    "OraiV3.C96_fees_new"
   ],
   "note": "Rounding of the amounts: one unit of Y, two units and one part in 10^14 of X. Fees are exact (before the division by 10^34 when they are paid) and modulo 2^128 like all counters; C96_fees_new is the version without the modulus. Opening and Closing are the calls of C71."
  },
  {
   "property": "C97",
   "status": "partial",
   "theorems": [
    "OraiV3.C97_dividing_partial",
    "OraiV3.C97_false"
   ],
   "note": "False as stated: in C97_false a sale of 1000000 units in a pool with a fee of 1 % gives 989901, and in two parts, the first specified by its output, 989999, because the fee is charged on the gross amount in one case and on the net amount in the other (C76). Proved for every reachable state in which the pool's liquidity is right (C01) and all sequences whose swaps end regularly: the gain is at most the square of the fee rate of the amount, at the price where the one swap ends, and what rounding makes of the one swap (three units paid and one received per price step, relative errors of 10^-13, the last digit of the price). After irregular ends the curve itself is left (C82_false)."
  },
  {
   "property": "C98",
   "status": "partial",
   "theorems": [
    "OraiV3.C98_depth_partial",
    "OraiV3.C98_deposit_partial",
    "OraiV3.C98_false"
   ],
   "note": "False as stated: C98_false is a reachable state in which a position opened in the range of the current price doubles the liquidity there and a sale of 1020000 units then gets 1009800 instead of 1009899, because its fee is charged on the gross amount instead of the net amount (C76). C98_depth_partial compares any two reachable states with the same price of the pool, the second with all positions of the first and others: the trade in the second gets no less, valued at the price where it ends, than any sequence of swaps in the first, up to the square of the fee rate and explicit rounding. C98_deposit_partial is the case of one position opened. For regular ends and pools whose liquidity is right (C01)."
  },
  {
   "property": "C99",
   "status": "partial",
   "theorems": [
    "OraiV3.C99_swap_partial",
    "OraiV3.C99_open",
    "OraiV3.C99_payout",
    "OraiV3.C99_rest",
    "OraiV3.C99_counter_false",
    "OraiV3.C99_swap_false",
    "OraiV3.C29_zero_false"
   ],
   "note": "Proved for every call but routes, which do what their hops do one after the other (C79). Missing for swaps, and false there: irregular ends, now or earlier (C99_swap_false), and counters that run over (C99_counter_false: 170141183500 units are paid in and the pool owes 170141183420 less than before). Coins attached to a deposit that needs none of them are kept without an owner (C29_zero_false; the theorem says so: costOf). Payouts are stated for calls without attached coins."
  }
 ]
}