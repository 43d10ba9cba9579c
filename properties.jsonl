{"id": "C01", "title": "Active liquidity equals the in-range positions", "statement": "After any sequence of contract calls, the liquidity a pool reports (and trades against) equals the sum of the liquidity of all open positions in that pool whose range [lower tick, upper tick) contains the pool's current tick.", "quantifier": "every reachable contract state: all sequences of messages by all senders, all pools, all tick spacings and prices", "why_tests_cant": "The sum must survive every interleaving of deposits, withdrawals and swaps that cross ticks; the failing corner (a swap that crosses a tick and then cannot move the price any more) needs a very particular ratio of liquidities that example tests do not hit.", "anchors": ["contracts/oraiswap-v3/src/entrypoints/common.rs:calculate_swap", "contracts/oraiswap-v3/src/storage/pool.rs:Pool::update_tick", "contracts/oraiswap-v3/src/storage/pool.rs:Pool::update_liquidity", "contracts/oraiswap-v3/src/storage/tick.rs:Tick::cross"]}
{"id": "C02", "title": "Tick bookkeeping is exactly the open positions", "statement": "A tick of a pool is stored (and its bit in the tickmap is set) exactly when at least one open position of the pool has it as its lower or upper bound; its gross liquidity is the sum of those positions' liquidity and its signed net change is the sum over positions starting there minus the sum over positions ending there. Closing the last position at a tick removes it.", "quantifier": "every reachable state, every pool, every tick index", "why_tests_cant": "Requires an inductive argument over all create/remove histories in every order, including sign flips of the net change and several positions sharing a tick.", "anchors": ["contracts/oraiswap-v3/src/storage/tick.rs:Tick::update", "contracts/oraiswap-v3/src/storage/tick.rs:update_liquidity_change", "contracts/oraiswap-v3/src/storage/tick.rs:calculate_new_liquidity_gross", "contracts/oraiswap-v3/src/storage/position.rs:create", "contracts/oraiswap-v3/src/storage/position.rs:remove", "contracts/oraiswap-v3/src/state.rs:flip_bitmap", "contracts/oraiswap-v3/src/entrypoints/execute.rs:create_position", "contracts/oraiswap-v3/src/entrypoints/execute.rs:remove_position"]}
{"id": "C03", "title": "Price and tick stay consistent", "statement": "In every reachable state the current tick of a pool is a multiple of its tick spacing within the tick range, and the pool price lies between the prices of the current tick and of the next usable tick (inclusive).", "quantifier": "every reachable state, every pool, every u128 price reached by any sequence of swaps", "why_tests_cant": "Price moves over about 6.5e28 values and is converted to ticks through an approximate logarithm; only a proof covers all of them.", "anchors": ["contracts/oraiswap-v3/src/math/log.rs:get_tick_at_sqrt_price", "contracts/oraiswap-v3/src/storage/pool.rs:Pool::create", "contracts/oraiswap-v3/src/storage/pool.rs:Pool::update_tick", "contracts/oraiswap-v3/src/entrypoints/common.rs:calculate_swap"]}
{"id": "C04", "title": "Solvency", "statement": "At every point of every history the tokens the contract holds cover everything it owes: the principal of all open positions at the current price, all unclaimed position fees and all unclaimed protocol fees, for each token, across all pools sharing that token. Hence a payout never depends on later deposits.", "quantifier": "all histories of messages by all users, all tokens, all pools", "why_tests_cant": "It is a global inequality over unbounded histories in which every rounding, fee split and tick crossing must go in the contract's favour.", "anchors": ["contracts/oraiswap-v3/src/entrypoints/execute.rs", "contracts/oraiswap-v3/src/entrypoints/common.rs:calculate_swap", "contracts/oraiswap-v3/src/entrypoints/common.rs:swap_internal", "contracts/oraiswap-v3/src/math/clamm.rs", "contracts/oraiswap-v3/src/storage/pool.rs", "contracts/oraiswap-v3/src/storage/position.rs", "contracts/oraiswap-v3/src/interface.rs:Asset::transfer_from", "contracts/oraiswap-v3/src/interface.rs:Asset::transfer"]}
{"id": "C05", "title": "Liquidity providers are never credited more fees than traders paid", "statement": "The fees all positions of a pool can claim, together with the protocol fee, never exceed the fees charged to traders in that pool; a position earns fees only while the current tick is inside its range, in proportion to its liquidity; opening, closing or claiming one position never changes what another position can claim.", "quantifier": "all histories, all pools, all sets of positions, including wrap-around of the fee accumulators", "why_tests_cant": "The fee-growth-inside trick is correct only through an invariant over all tick crossings, and wrap-around modulo 2^128 cannot be exercised by tests.", "anchors": ["contracts/oraiswap-v3/src/math/types/fee_growth.rs:calculate_fee_growth_inside", "contracts/oraiswap-v3/src/storage/pool.rs:Pool::add_fee", "contracts/oraiswap-v3/src/storage/position.rs:update", "contracts/oraiswap-v3/src/storage/position.rs:claim_fee", "contracts/oraiswap-v3/src/storage/tick.rs:Tick::cross", "contracts/oraiswap-v3/src/storage/tick.rs:Tick::create"]}
{"id": "C06", "title": "No profit from opening and closing a position", "statement": "Creating a position and removing it again before anything else happens returns at most the tokens deposited, for both tokens, in every pool state and for every range and liquidity.", "quantifier": "all pool states, ranges, liquidity amounts, prices", "why_tests_cant": "Rounding of two different formulas over a 128-bit domain in three cases each.", "anchors": ["contracts/oraiswap-v3/src/math/clamm.rs:calculate_amount_delta", "contracts/oraiswap-v3/src/math/clamm.rs:get_delta_x", "contracts/oraiswap-v3/src/math/clamm.rs:get_delta_y", "contracts/oraiswap-v3/src/storage/position.rs:create", "contracts/oraiswap-v3/src/storage/position.rs:remove"]}
{"id": "C07", "title": "Exact-input swaps charge exactly the input", "statement": "A successful swap by input amount charges the caller exactly the requested amount of the input token: never more, never less, fees included.", "quantifier": "all pool states and swap parameters", "why_tests_cant": "The total is accumulated over an unbounded loop of steps with several rounding and leftover cases.", "anchors": ["contracts/oraiswap-v3/src/entrypoints/common.rs:calculate_swap", "contracts/oraiswap-v3/src/math/clamm.rs:compute_swap_step", "contracts/oraiswap-v3/src/storage/pool.rs:Pool::update_tick"]}
{"id": "C08", "title": "Exact-output swaps deliver exactly the output", "statement": "A successful swap by output amount pays the caller exactly the requested amount of the output token.", "quantifier": "all pool states and swap parameters", "why_tests_cant": "Needs that the leftover branch never drops a positive remaining output, over all loop lengths and prices.", "anchors": ["contracts/oraiswap-v3/src/entrypoints/common.rs:calculate_swap", "contracts/oraiswap-v3/src/math/clamm.rs:compute_swap_step", "contracts/oraiswap-v3/src/math/clamm.rs:is_enough_amount_to_change_price", "contracts/oraiswap-v3/src/storage/pool.rs:Pool::update_tick"]}
{"id": "C09", "title": "Price limit and direction of a swap", "statement": "A successful swap moves the pool price only in the swap's direction and never beyond the caller's price limit; a swap that would reach the limit with something left to trade fails as a whole.", "quantifier": "all pool states and swap parameters, all intermediate steps", "why_tests_cant": "Holds for each of an unbounded number of steps over all prices.", "anchors": ["contracts/oraiswap-v3/src/entrypoints/common.rs:calculate_swap", "contracts/oraiswap-v3/src/state.rs:get_closer_limit", "contracts/oraiswap-v3/src/math/clamm.rs:compute_swap_step"]}
{"id": "C10", "title": "No free swap", "statement": "A successful swap gives the caller a positive amount of the output token and charges a positive amount of the input token.", "quantifier": "all pool states, all swap parameters, all fee tiers including fee 0", "why_tests_cant": "Zero input could only come from rounding in the price/liquidity formulas, for extreme values.", "anchors": ["contracts/oraiswap-v3/src/entrypoints/common.rs:calculate_swap", "contracts/oraiswap-v3/src/math/clamm.rs:compute_swap_step"]}
{"id": "C11", "title": "A quote is what the swap does", "statement": "For the same state, time and parameters the Quote query returns exactly the input, output and final price that Swap produces, and fails exactly when Swap fails before transferring tokens; quoting changes nothing.", "quantifier": "all states and parameters", "why_tests_cant": "An equality of two entry points on all inputs.", "anchors": ["contracts/oraiswap-v3/src/entrypoints/query.rs:quote", "contracts/oraiswap-v3/src/entrypoints/execute.rs:swap", "contracts/oraiswap-v3/src/entrypoints/common.rs:calculate_swap"]}
{"id": "C12", "title": "A route quote is what the route swap does", "statement": "QuoteRoute returns the amount SwapRoute would pay for the same route, provided no pool is visited twice; a route visiting the same pool twice can be quoted more than it pays.", "quantifier": "all states, all routes of every length", "why_tests_cant": "Universally quantified over lists of hops.", "anchors": ["contracts/oraiswap-v3/src/entrypoints/query.rs:quote_route", "contracts/oraiswap-v3/src/entrypoints/common.rs:swap_route_internal", "contracts/oraiswap-v3/src/entrypoints/common.rs:route"]}
{"id": "C13", "title": "Slippage protection", "statement": "SwapRoute succeeds only if the final amount is at least the expected amount reduced by the slippage; CreatePosition succeeds only if the pool price is within the caller's price bounds.", "quantifier": "all states, expected amounts, slippages and bounds", "why_tests_cant": "Rounding of the minimum amount over all 128-bit amounts.", "anchors": ["contracts/oraiswap-v3/src/entrypoints/execute.rs:swap_route", "contracts/oraiswap-v3/src/entrypoints/execute.rs:create_position", "contracts/oraiswap-v3/src/math/clamm.rs:calculate_min_amount_out"]}
{"id": "C14", "title": "Administrative actions need their role", "statement": "Only the admin can change the admin, the protocol fee, the fee tiers and a pool's fee receiver; only a pool's fee receiver can withdraw its protocol fee. For anyone else these calls fail and nothing changes, and no other call changes those settings.", "quantifier": "all states, all senders, all messages", "why_tests_cant": "Quantifies over every message and every sender, including which messages can change a setting at all.", "anchors": ["contracts/oraiswap-v3/src/entrypoints/execute.rs:change_admin", "contracts/oraiswap-v3/src/entrypoints/execute.rs:change_protocol_fee", "contracts/oraiswap-v3/src/entrypoints/execute.rs:add_fee_tier", "contracts/oraiswap-v3/src/entrypoints/execute.rs:remove_fee_tier", "contracts/oraiswap-v3/src/entrypoints/execute.rs:change_fee_receiver", "contracts/oraiswap-v3/src/entrypoints/execute.rs:withdraw_protocol_fee"]}
{"id": "C15", "title": "Positions can be touched only by their owner or whom the owner approved", "statement": "A call by anyone who is not the owner, not a non-expired operator of the owner and holds no non-expired approval cannot remove, transfer, alter the approvals of, or claim fees from any of the owner's positions. Nor can anybody but the owner appoint or dismiss an operator of the owner.", "quantifier": "all states, all senders and messages, all third parties", "why_tests_cant": "Frame property over every message of the interface.", "anchors": ["contracts/oraiswap-v3/src/entrypoints/execute.rs:remove_position", "contracts/oraiswap-v3/src/entrypoints/execute.rs:transfer_position", "contracts/oraiswap-v3/src/entrypoints/execute.rs:claim_fee", "contracts/oraiswap-v3/src/entrypoints/execute.rs:handle_transfer_nft", "contracts/oraiswap-v3/src/entrypoints/execute.rs:handle_send_nft", "contracts/oraiswap-v3/src/entrypoints/execute.rs:handle_burn", "contracts/oraiswap-v3/src/entrypoints/execute.rs:handle_approve", "contracts/oraiswap-v3/src/entrypoints/execute.rs:handle_revoke", "contracts/oraiswap-v3/src/entrypoints/execute.rs:handle_approve_all", "contracts/oraiswap-v3/src/entrypoints/execute.rs:handle_revoke_all", "contracts/oraiswap-v3/src/entrypoints/common.rs:check_can_send", "contracts/oraiswap-v3/src/entrypoints/common.rs:check_can_approve"]}
{"id": "C16", "title": "An account's positions form a list with swap-remove", "statement": "The positions of an account are numbered 0..n-1 without gaps; creating appends at n, removing index i moves the last position to i and shortens the list by one, transferring removes from the sender in that way and appends to the recipient; other accounts' lists are unchanged.", "quantifier": "all reachable states and all position operations, including self transfers", "why_tests_cant": "Refinement of the raw key-value encoding to lists for all accounts and histories.", "anchors": ["contracts/oraiswap-v3/src/state.rs:add_position", "contracts/oraiswap-v3/src/state.rs:remove_position", "contracts/oraiswap-v3/src/state.rs:get_position", "contracts/oraiswap-v3/src/state.rs:get_position_length", "contracts/oraiswap-v3/src/entrypoints/execute.rs:create_position", "contracts/oraiswap-v3/src/entrypoints/execute.rs:remove_position", "contracts/oraiswap-v3/src/entrypoints/execute.rs:transfer_position"]}
{"id": "C17", "title": "Burning a token destroys that token", "statement": "A successful Burn of a token id removes exactly that token's position, whoever of the permitted callers (owner, approved spender, operator) sends it.", "quantifier": "all states, all permitted callers", "why_tests_cant": "Tests burn as owner only; the property quantifies over the caller.", "anchors": ["contracts/oraiswap-v3/src/entrypoints/execute.rs:handle_burn", "contracts/oraiswap-v3/src/entrypoints/execute.rs:remove_position", "contracts/oraiswap-v3/src/entrypoints/common.rs:check_can_send"]}
{"id": "C18", "title": "Approvals are scoped, expire and do not survive a transfer", "statement": "An approval lets the spender move only the approved token, only until it expires and only until revoked; after a transfer the token carries no approvals; an expired approval can not be granted.", "quantifier": "all states, spenders, tokens, expirations and block heights/times", "why_tests_cant": "Quantifies over all block times and all sequences of approve/revoke/transfer.", "anchors": ["contracts/oraiswap-v3/src/entrypoints/common.rs:check_can_send", "contracts/oraiswap-v3/src/entrypoints/common.rs:update_approvals", "contracts/oraiswap-v3/src/entrypoints/common.rs:transfer_nft", "contracts/oraiswap-v3/src/interface.rs:Approval", "contracts/oraiswap-v3/src/entrypoints/execute.rs:handle_approve", "contracts/oraiswap-v3/src/entrypoints/execute.rs:handle_revoke", "contracts/oraiswap-v3/src/entrypoints/execute.rs:handle_approve_all"]}
{"id": "C19", "title": "One pool per token pair and fee tier", "statement": "Two successful CreatePool calls never refer to the same unordered token pair and the same fee tier; creating a pool never alters an existing pool, and a pool once created is never removed.", "quantifier": "all reachable states and histories, all token names", "why_tests_cant": "Depends on the ordering of arbitrary token strings and injectivity of the storage key for all strings.", "anchors": ["contracts/oraiswap-v3/src/entrypoints/execute.rs:create_pool", "contracts/oraiswap-v3/src/storage/pool_key.rs:PoolKey::new", "contracts/oraiswap-v3/src/storage/pool_key.rs:PoolKey::key"]}
{"id": "C20", "title": "The fee tier list has no duplicates", "statement": "Adding a fee tier that already exists fails (as documented), so that the list of fee tiers has no duplicates and removing a tier removes it.", "quantifier": "all states and histories of fee tier changes", "why_tests_cant": "Negative case over histories.", "anchors": ["contracts/oraiswap-v3/src/entrypoints/execute.rs:add_fee_tier", "contracts/oraiswap-v3/src/entrypoints/execute.rs:remove_fee_tier", "contracts/oraiswap-v3/src/storage/fee_tier.rs:FeeTier::new"]}
{"id": "C21", "title": "Storage keys never collide", "statement": "The records of different pools, ticks, tickmap chunks, positions and operators are stored under different keys, and pool keys read back from storage are the ones written.", "quantifier": "all token strings, fees, tick spacings, tick indices, addresses and indices", "why_tests_cant": "Injectivity over unbounded byte strings.", "anchors": ["contracts/oraiswap-v3/src/storage/pool_key.rs:PoolKey::key", "contracts/oraiswap-v3/src/storage/pool_key.rs:PoolKey::from_bytes", "contracts/oraiswap-v3/src/state.rs:position_key", "contracts/oraiswap-v3/src/state.rs:tick_key", "contracts/oraiswap-v3/src/state.rs:bitmap_key", "contracts/oraiswap-v3/src/storage/fee_tier.rs:FeeTier::key"]}
{"id": "C22", "title": "Tick/price conversion", "statement": "The price of a tick is strictly increasing in the tick over the whole tick range; the tick reported for a price is the greatest multiple of the tick spacing whose price does not exceed it.", "quantifier": "all 443637 ticks, all prices between the minimum and the maximum (about 6.5e28), all tick spacings", "why_tests_cant": "The price domain cannot be enumerated; the conversion uses an approximate logarithm with a fixed error allowance.", "anchors": ["contracts/oraiswap-v3/src/math/types/sqrt_price.rs:calculate_sqrt_price", "contracts/oraiswap-v3/src/math/log.rs:get_tick_at_sqrt_price", "contracts/oraiswap-v3/src/math/log.rs:log2_iterative_approximation_x32"]}
{"id": "C23", "title": "The tickmap search finds the nearest initialized tick", "statement": "Searching up (down) from a tick returns the nearest initialized tick above (at or below) it within the search range, and nothing if there is none; setting or clearing one tick affects no other.", "quantifier": "all tickmap contents, all ticks, all tick spacings", "why_tests_cant": "All contents of thousands of 64-bit words.", "anchors": ["contracts/oraiswap-v3/src/state.rs:next_initialized", "contracts/oraiswap-v3/src/state.rs:prev_initialized", "contracts/oraiswap-v3/src/state.rs:get_closer_limit", "contracts/oraiswap-v3/src/state.rs:flip_bitmap", "contracts/oraiswap-v3/src/state.rs:get_bitmap", "contracts/oraiswap-v3/src/storage/tickmap.rs:tick_to_position", "contracts/oraiswap-v3/src/storage/tickmap.rs:get_search_limit"]}
{"id": "C24", "title": "Swaps terminate", "statement": "Every swap and quote finishes after finitely many steps: each step reaches the end of the trade or makes strict progress in price or tick.", "quantifier": "all reachable states and swap parameters", "why_tests_cant": "Non-termination cannot be refuted by running examples.", "anchors": ["contracts/oraiswap-v3/src/entrypoints/common.rs:calculate_swap"]}
{"id": "C25", "title": "Rounding favours the pool", "statement": "The amount required for adding liquidity (or charged by a swap step) is at least, and the amount returned for removing liquidity (or paid by a swap step) is at most, the exact rational amount given by the concentrated-liquidity formula, up to a stated bound where the code rounds an intermediate value down.", "quantifier": "all prices, liquidities and rounding modes for which the call succeeds", "why_tests_cant": "128-bit domains; the deviation occurs only for particular low-order digits.", "anchors": ["contracts/oraiswap-v3/src/math/clamm.rs:get_delta_x", "contracts/oraiswap-v3/src/math/clamm.rs:get_delta_y"]}
{"id": "C26", "title": "A swap step never takes more than offered", "statement": "In a step of an exact-input swap, input plus fee is at most the amount still available, and the price does not pass the step's target; in an exact-output step the output is at most what is still wanted.", "quantifier": "all prices, targets, liquidities, amounts, fees", "why_tests_cant": "128-bit domains with rounding in opposite directions.", "anchors": ["contracts/oraiswap-v3/src/math/clamm.rs:compute_swap_step", "contracts/oraiswap-v3/src/math/clamm.rs:get_next_sqrt_price_x_up", "contracts/oraiswap-v3/src/math/clamm.rs:get_next_sqrt_price_y_down"]}
{"id": "C27", "title": "Per-tick liquidity cap prevents overflow", "statement": "Because every tick's gross liquidity is kept below the per-tick cap, the liquidity of a pool can never overflow its 128-bit representation: crossing ticks never fails because of overflow or underflow.", "quantifier": "all reachable states, all sets of positions, all spacings", "why_tests_cant": "Needs a counting argument over all possible positions.", "anchors": ["contracts/oraiswap-v3/src/math/clamm.rs:calculate_max_liquidity_per_tick", "contracts/oraiswap-v3/src/storage/tick.rs:Tick::cross", "contracts/oraiswap-v3/src/storage/tick.rs:calculate_new_liquidity_gross"]}
{"id": "C28", "title": "Protocol fee accounting", "statement": "A pool's protocol fee grows with each charged fee by the configured share rounded up and never by more than the fee itself, changes in no other way except that the fee receiver's withdrawal pays out exactly the recorded amounts and sets them to zero.", "quantifier": "all histories and all messages", "why_tests_cant": "Frame property over every message plus rounding for all amounts.", "anchors": ["contracts/oraiswap-v3/src/storage/pool.rs:Pool::add_fee", "contracts/oraiswap-v3/src/storage/pool.rs:Pool::withdraw_protocol_fee", "contracts/oraiswap-v3/src/entrypoints/execute.rs:withdraw_protocol_fee"]}
{"id": "C29", "title": "Attached native funds are charged exactly once", "statement": "A call that needs a native token takes exactly the needed amount out of the attached funds and returns the rest, also when the needed amount is zero and also when several hops of a route use the same token.", "quantifier": "all messages, all attached funds, all routes", "why_tests_cant": "Quantifies over attached funds and lists of hops; tests use cw20 tokens or one hop.", "anchors": ["contracts/oraiswap-v3/src/interface.rs:Asset::transfer_from", "contracts/oraiswap-v3/src/entrypoints/common.rs:swap_route_internal", "contracts/oraiswap-v3/src/entrypoints/common.rs:swap_internal", "contracts/oraiswap-v3/src/entrypoints/execute.rs:create_position"]}
{"id": "C30", "title": "Counting initialized ticks", "statement": "The query for the number of initialized ticks in [lower, upper] returns the number of initialized ticks with index in that interval for all valid bounds.", "quantifier": "all tickmap contents and all pairs of valid bounds", "why_tests_cant": "All contents of the tickmap and all pairs of bounds; boundary chunks hide corner cases.", "anchors": ["contracts/oraiswap-v3/src/entrypoints/query.rs:get_liquidity_ticks_amount", "contracts/oraiswap-v3/src/entrypoints/common.rs"]}
{"id": "C31", "title": "Listings are complete and paginate", "statement": "Paging through positions, pools and fee tiers returns every entry exactly once and in order, and a page never has more entries than the documented maximum.", "quantifier": "all states, offsets and limits", "why_tests_cant": "All sizes, offsets and limits.", "anchors": ["contracts/oraiswap-v3/src/entrypoints/query.rs:get_positions", "contracts/oraiswap-v3/src/entrypoints/query.rs:get_pools", "contracts/oraiswap-v3/src/entrypoints/query.rs:query_tokens", "contracts/oraiswap-v3/src/entrypoints/query.rs:query_all_tokens", "contracts/oraiswap-v3/src/state.rs:get_all_positions", "contracts/oraiswap-v3/src/state.rs:get_pools"]}
{"id": "C32", "title": "Claiming fees is idempotent and isolated", "statement": "Claiming fees pays exactly what has accrued since the last claim, a second claim right after pays nothing, and claiming changes neither the liquidity of any position, pool or tick nor the price.", "quantifier": "all states and positions", "why_tests_cant": "Frame property for all states.", "anchors": ["contracts/oraiswap-v3/src/entrypoints/execute.rs:claim_fee", "contracts/oraiswap-v3/src/storage/position.rs:claim_fee", "contracts/oraiswap-v3/src/storage/position.rs:update"]}
{"id": "C33", "title": "Withdrawals cannot be blocked", "statement": "The owner of a position can always remove it: no state produced by other users, no price and no fee history makes the call fail.", "quantifier": "all reachable states, all positions", "why_tests_cant": "Liveness over all reachable states including arithmetic limits.", "anchors": ["contracts/oraiswap-v3/src/entrypoints/execute.rs:remove_position", "contracts/oraiswap-v3/src/storage/position.rs:remove", "contracts/oraiswap-v3/src/storage/tick.rs"]}
{"id": "C34", "title": "Exact-output swaps are not refused while liquidity is available", "statement": "A swap by output amount within the liquidity available before the price limit succeeds, also if it has to pass through a thin range first.", "quantifier": "all distributions of liquidity", "why_tests_cant": "Depends on ratios between the liquidity of neighbouring ranges and the amount still wanted.", "anchors": ["contracts/oraiswap-v3/src/storage/pool.rs:Pool::update_tick", "contracts/oraiswap-v3/src/math/clamm.rs:is_enough_amount_to_change_price"]}
{"id": "C35", "title": "Configured fees cannot stop trading", "statement": "Whatever protocol fee an admin can configure, swaps in pools with liquidity remain possible.", "quantifier": "all protocol fee values accepted by the contract", "why_tests_cant": "Only values above 100% show it.", "anchors": ["contracts/oraiswap-v3/src/entrypoints/execute.rs:change_protocol_fee", "contracts/oraiswap-v3/src/contract.rs:instantiate", "contracts/oraiswap-v3/src/storage/pool.rs:Pool::add_fee"]}
{"id": "C36", "title": "The client simulation agrees with the contract", "statement": "If the client library's simulation is given the pool, ticks and tickmap of a state and succeeds, the contract's quote in that state charges and pays the same amounts and ends at the same price, whenever the contract's swap succeeds.", "quantifier": "all states, tickmaps and swap parameters", "why_tests_cant": "Equality of two separately written loops on all inputs.", "anchors": ["wasm/swap.rs:simulate_swap", "contracts/oraiswap-v3/src/entrypoints/common.rs:calculate_swap"]}
{"id": "C37", "title": "Liquidity for an amount is affordable", "statement": "The liquidity the helper computes from a token amount can be deposited with at most that amount of the token.", "quantifier": "all amounts, prices and ranges for which the helper succeeds", "why_tests_cant": "Two chains of rounding over 128-bit domains.", "anchors": ["contracts/oraiswap-v3/src/logic/math.rs:get_liquidity_by_x", "contracts/oraiswap-v3/src/logic/math.rs:get_liquidity_by_y", "contracts/oraiswap-v3/src/logic/math.rs:get_liquidity"]}
{"id": "C38", "title": "Position ids identify positions", "statement": "The id of a position keeps denoting the same position until that position is removed or transferred.", "quantifier": "all histories of other operations", "why_tests_cant": "A statement about all later histories.", "anchors": ["contracts/oraiswap-v3/src/state.rs:remove_position", "contracts/oraiswap-v3/src/entrypoints/execute.rs:remove_position", "contracts/oraiswap-v3/src/entrypoints/execute.rs:transfer_position", "contracts/oraiswap-v3/src/entrypoints/execute.rs:handle_burn"]}
{"id": "C39", "title": "Position supply is conserved", "statement": "The number of positions is the number of successful creations minus the number of successful removals (and burns); every other call, transfers included, preserves the multiset of (pool, range, liquidity) of all positions.", "quantifier": "all histories", "why_tests_cant": "Induction over all histories.", "anchors": ["contracts/oraiswap-v3/src/state.rs:add_position", "contracts/oraiswap-v3/src/state.rs:remove_position", "contracts/oraiswap-v3/src/entrypoints/execute.rs"]}
{"id": "C40", "title": "Failed calls change nothing", "statement": "A call that returns an error or panics leaves balances and all stored data unchanged, and a successful swap or position call on one pool leaves every other pool, its ticks and positions unchanged.", "quantifier": "all states, all messages", "why_tests_cant": "Frame property over every message and pool.", "anchors": ["contracts/oraiswap-v3/src/contract.rs:execute", "contracts/oraiswap-v3/src/entrypoints/execute.rs"]}
{"id": "C41", "title": "Fee claims cannot be blocked", "statement": "The owner of a position can claim its fees at any time: no state produced by other users, no price and no tick at its liquidity cap makes the call fail, and the contract has the tokens to pay.", "quantifier": "all reachable states, all positions", "why_tests_cant": "Liveness over all reachable states including arithmetic limits and the per-tick cap.", "anchors": ["contracts/oraiswap-v3/src/entrypoints/execute.rs:claim_fee", "contracts/oraiswap-v3/src/storage/position.rs:claim_fee", "contracts/oraiswap-v3/src/storage/position.rs:modify", "contracts/oraiswap-v3/src/storage/tick.rs:Tick::update"]}
{"id": "C42", "title": "The helper's amount of the other token suffices", "statement": "The amount of the other token that the liquidity helper reports, rounded up, for a deposit computed from an amount of one token is enough to make the deposit.", "quantifier": "all amounts, prices and ranges for which the helper succeeds", "why_tests_cant": "The helper and the contract round the same quantity through different intermediate divisions; agreement on samples says nothing about all 128-bit inputs.", "anchors": ["contracts/oraiswap-v3/src/logic/math.rs:get_liquidity_by_x", "contracts/oraiswap-v3/src/logic/math.rs:get_liquidity_by_y", "contracts/oraiswap-v3/src/logic/math.rs:calculate_x", "contracts/oraiswap-v3/src/logic/math.rs:calculate_y", "contracts/oraiswap-v3/src/math/clamm.rs:get_delta_x", "contracts/oraiswap-v3/src/math/clamm.rs:get_delta_y"]}
{"id": "C43", "title": "The tickmap query shows exactly the initialized ticks", "statement": "For any two valid ticks of a pool the tickmap query answers with at most 1638 chunks, in the direction asked for; every tick between the two bounds is shown as set in the answer exactly if a position starts or ends there, as long as the answer is not full or the tick does not lie beyond its last chunk.", "quantifier": "all histories, pools, bounds, directions and ticks", "why_tests_cant": "the tests look at a few hand-placed ticks; a client rebuilding the tickmap relies on completeness for every tick, spacing and page boundary", "anchors": ["contracts/oraiswap-v3/src/entrypoints/query.rs:get_tickmap", "contracts/oraiswap-v3/src/entrypoints/common.rs:tickmap_slice", "contracts/oraiswap-v3/src/storage/tickmap.rs:get_max_chunk", "contracts/oraiswap-v3/src/storage/tickmap.rs:get_min_chunk", "contracts/oraiswap-v3/src/storage/tickmap.rs:tick_to_position"]}
{"id": "C44", "title": "The operators query lists exactly the operators", "statement": "The query for the operators of an account returns, page by page after a given address and at most 100 at a time, exactly the accounts it has approved as operators, each once, in order and with its expiry, leaving out expired ones unless asked for them.", "quantifier": "all histories, owners, block times, start addresses and limits", "why_tests_cant": "completeness and order concern every set of approvals, and the storage is shared between owners whose keys could overlap", "anchors": ["contracts/oraiswap-v3/src/entrypoints/query.rs:query_all_approvals", "contracts/oraiswap-v3/src/state.rs:OPERATORS"]}
{"id": "C45", "title": "The position-ticks query returns both ticks of every position", "statement": "The query for the ticks of an account's positions from a given entry on returns the lower and the upper tick of each position in the order of the list, as stored, for the first 186 positions; it never skips a position.", "quantifier": "all histories, accounts and offsets", "why_tests_cant": "the code silently skips ticks it cannot load; that this never happens depends on the invariant that the ticks of every open position are stored, over all histories", "anchors": ["contracts/oraiswap-v3/src/entrypoints/query.rs:get_position_ticks"]}
{"id": "C46", "title": "No gain from trading back and forth", "statement": "Whatever swaps are made in a pool one after the other, by one trader or several, and with nothing else happening in between: if together they take some of one token out of the contract, they pay some of the other token in. In particular a trader who ends with as much of one token as before has not gained any of the other.", "quantifier": "all reachable states, all sequences of swaps of any length and direction in one pool, all amounts and price limits", "why_tests_cant": "Ranges over all liquidity distributions and all sequences of swaps; rounding of every step could leak value a little at a time.", "anchors": ["contracts/oraiswap-v3/src/entrypoints/execute.rs:swap", "contracts/oraiswap-v3/src/entrypoints/common.rs:calculate_swap", "contracts/oraiswap-v3/src/math/clamm.rs:compute_swap_step", "contracts/oraiswap-v3/src/storage/pool.rs:Pool::update_tick"]}
{"id": "C47", "title": "The client predicts payouts exactly", "statement": "Given the pool, the position and its two ticks as the queries report them, the client library's fee calculation succeeds exactly if the owner's fee claim at that moment is accepted, and gives exactly the amounts the claim pays. When a removal is accepted it pays, in each token, the client's amount for the position's whole liquidity plus that fee.", "quantifier": "all histories, accounts, positions, blocks", "why_tests_cant": "the client works on query results and its own copy of the formulas; the contract recomputes after changing ticks, pool and position, and adds fees stored in the position; agreement must hold in every reachable state including wrapped-around fee counters", "anchors": ["wasm/custom.rs:calculate_fee", "wasm/clamm.rs:calculate_amount_delta", "contracts/oraiswap-v3/src/entrypoints/execute.rs:claim_fee", "contracts/oraiswap-v3/src/entrypoints/execute.rs:remove_position", "contracts/oraiswap-v3/src/storage/position.rs:modify"]}
{"id": "C48", "title": "The client decodes the tickmap correctly", "statement": "The client library's conversions between ticks and places in the tickmap are inverse to each other on all valid ticks and all places. In every reachable state each bit set in an answer of the tickmap query decodes to a tick at which an open position of that pool begins or ends, and every such tick in the range asked for is obtained unless the answer is cut off.", "quantifier": "all histories, pools, tick spacings, ranges", "why_tests_cant": "ranges over all ticks, spacings and histories; one wrong rounding at an end of the range shifts every decoded tick", "anchors": ["wasm/collections/tickmap.rs:tick_to_position_js", "wasm/collections/tickmap.rs:position_to_tick", "contracts/oraiswap-v3/src/entrypoints/query.rs:get_tickmap"]}
{"id": "C49", "title": "No swap trades better than the pool's price", "statement": "A swap that sells X pays out no more Y than the X it takes is worth at the price the pool has before the swap, less the pool's fee. A swap that buys X takes at least the worth, at that price, of the X it pays out, and the fee on it. The same holds for every quote.", "quantifier": "all reachable states, pools, directions, amounts, exact-input and exact-output mode, price limits", "why_tests_cant": "ranges over all liquidity distributions and all numbers of price steps; every step rounds several times, and one rounding in favour of the trader breaks the bound only for particular amounts and prices", "anchors": ["contracts/oraiswap-v3/src/entrypoints/execute.rs:swap", "contracts/oraiswap-v3/src/entrypoints/query.rs:quote", "contracts/oraiswap-v3/src/entrypoints/common.rs:calculate_swap", "contracts/oraiswap-v3/src/math/clamm.rs:compute_swap_step"]}
{"id": "C50", "title": "Decimal operations round as named and never wrap", "statement": "Every arithmetic operation of the contract's decimal types (add, subtract, multiply and divide rounded down or up, through 128-bit or 256-bit intermediate results, and conversions between scales and from integers) returns the exact rational result rounded in the direction its name says, or aborts. It never returns a wrapped or truncated number.", "quantifier": "all pairs of the contract's decimal types and all values of the underlying integer types", "why_tests_cant": "the operations are generated by macros for every type; the overflow boundary lies at particular products near 2^128 or 2^256 for each of the 36 pairs of types", "anchors": ["packages/decimal-core/src/ops.rs", "packages/decimal-core/src/big_ops.rs", "packages/decimal-core/src/by_number.rs", "packages/decimal-core/src/factories.rs", "packages/decimal-core/src/base.rs"]}
{"id": "C51", "title": "Fixed-width arithmetic does not distort prices and amounts", "statement": "Token amounts, next prices, swap steps, tick prices, ticks of prices, fee growths and fees computed by the contract in 64, 128, 256 and 320-bit integers, with casts, shifts and bit operations, are those of the same formulas over unbounded integers, with the same errors. No intermediate overflow, truncating cast or lost carry changes a result or makes a computation fail whose result fits.", "quantifier": "all prices, liquidities and amounts of type u128, all fees of type u64, all ticks of type i32 except the least, all tick spacings of type u16", "why_tests_cant": "an overflow of an intermediate result occurs only for extreme combinations of price, liquidity and amount, and a truncating cast gives a plausible wrong number instead of an error", "anchors": ["contracts/oraiswap-v3/src/math/clamm.rs", "contracts/oraiswap-v3/src/math/log.rs", "contracts/oraiswap-v3/src/math/types/sqrt_price.rs", "contracts/oraiswap-v3/src/math/types/fee_growth.rs", "packages/decimal/src/uint.rs"]}
{"id": "C52", "title": "The token queries say who controls a position", "statement": "OwnerOf answers for exactly the existing tokens, and the account it names is the one in whose list the position is. NftInfo and AllNftInfo return that position. The accounts that can transfer or send the token are exactly the named owner, the accounts named in the unexpired approvals OwnerOf lists, and the owner's unexpired operators. UserPositionAmount is the length of the account's list. Admin names the only account that can hand over the administration. FeeTierExist says whether a tier is listed, and without a listed tier no pool can be created.", "quantifier": "all reachable states, all token ids, accounts, times and receivers", "why_tests_cant": "An equivalence between what a query lists and what calls by every possible account do, in every history.", "anchors": ["contracts/oraiswap-v3/src/entrypoints/query.rs:query_owner_of", "contracts/oraiswap-v3/src/entrypoints/query.rs:query_nft_info", "contracts/oraiswap-v3/src/entrypoints/query.rs:query_all_nft_info", "contracts/oraiswap-v3/src/entrypoints/query.rs:get_user_position_amount", "contracts/oraiswap-v3/src/entrypoints/query.rs:query_admin", "contracts/oraiswap-v3/src/entrypoints/query.rs:fee_tier_exist", "contracts/oraiswap-v3/src/entrypoints/query.rs:get_fee_tiers", "contracts/oraiswap-v3/src/entrypoints/common.rs:check_can_send", "contracts/oraiswap-v3/src/entrypoints/common.rs:transfer_nft", "contracts/oraiswap-v3/src/entrypoints/common.rs:humanize_approvals"]}
{"id": "C53", "title": "PoolsForPair lists every pool of a pair once", "statement": "PoolsForPair returns every pool of the two tokens, each exactly once and as stored, whatever the order of the two tokens.", "quantifier": "all reachable states and histories of fee tier changes, all pairs of different tokens", "why_tests_cant": "Whether a pool is listed depends on the whole history of fee tier changes.", "anchors": ["contracts/oraiswap-v3/src/entrypoints/query.rs:get_all_pools_for_pair", "contracts/oraiswap-v3/src/entrypoints/execute.rs:add_fee_tier", "contracts/oraiswap-v3/src/entrypoints/execute.rs:remove_fee_tier"]}
{"id": "C54", "title": "A larger trade never gives less", "statement": "From the same state, in the same direction and with the same price limit, whoever sells more of a token receives at least as much of the other, and whoever buys more of a token pays at least as much of the other.", "quantifier": "all reachable states, pools, both directions, exact input and exact output, all limits and all pairs of amounts a <= b for which both swaps succeed", "why_tests_cant": "Each amount takes its own path of steps, crossings and roundings; monotonicity compares two executions for every pair of amounts.", "anchors": ["contracts/oraiswap-v3/src/entrypoints/common.rs:calculate_swap", "contracts/oraiswap-v3/src/math/clamm.rs:compute_swap_step", "contracts/oraiswap-v3/src/math/clamm.rs:get_delta_x", "contracts/oraiswap-v3/src/math/clamm.rs:get_next_sqrt_price_x_up", "contracts/oraiswap-v3/src/entrypoints/query.rs:quote"]}
{"id": "C55", "title": "Calls about different pools and accounts do not affect each other", "statement": "Take two calls that change neither the settings nor an account's operators, that use no pool in common and look into no account's list of positions in common. Executing one does not change whether the other is accepted, which error it gives if not, or the payments it makes; and executing both in either order leads to the same storage.", "quantifier": "every reachable state, every pair of such calls (any message kinds, senders, amounts, routes), every pair of blocks", "why_tests_cant": "a test runs a few pairs of calls; interference through shared storage keys, key collisions or global counters can occur for any pair and any history", "anchors": ["contracts/oraiswap-v3/src/entrypoints/execute.rs", "contracts/oraiswap-v3/src/state.rs:tick_key", "contracts/oraiswap-v3/src/state.rs:position_key"]}
{"id": "C56", "title": "Only approvals depend on the clock", "statement": "Make the same sequence of calls at other block times and heights (times never decreasing). As long as each expiration set by one of the calls is expired or not alike whenever a call is made, every call gives the same result (the same payments or the same error), and the final storages differ only in recorded timestamps, seconds and block heights.", "quantifier": "every sequence of calls by anybody (failing ones included), every two assignments of block times and heights to it", "why_tests_cant": "tests use one fixed block; dependence on time can hide in any arithmetic on timestamps (including panics on subtraction) and shows only for particular histories of times", "anchors": ["contracts/oraiswap-v3/src/storage/pool.rs", "contracts/oraiswap-v3/src/storage/tick.rs", "contracts/oraiswap-v3/src/storage/position.rs", "contracts/oraiswap-v3/src/entrypoints/common.rs:TimeStampExt"]}
{"id": "C57", "title": "Everybody trades on the same terms", "statement": "A swap, or a route of swaps, sent with the same coins by a different account is accepted or refused alike with the same error, changes the storage in the same way and makes the same payments, from and to that account.", "quantifier": "every state, every swap or route, every two senders", "why_tests_cant": "a test tries a few senders; the claim is about all of them in every state", "anchors": ["contracts/oraiswap-v3/src/entrypoints/execute.rs:swap", "contracts/oraiswap-v3/src/entrypoints/execute.rs:swap_route", "contracts/oraiswap-v3/src/entrypoints/common.rs:swap_internal"]}
{"id": "C58", "title": "Pool parameters and who can create a pool", "statement": "Every pool has two different tokens in order, a tick spacing between 1 and 100 and a fee below 100%, and so has every fee tier on offer. Anybody can create a pool, exactly if the tokens differ, the fee tier is on offer, the initial tick is valid for its spacing, the initial price belongs to that tick, and the two tokens have no pool of this tier in either order. The new pool has the given price and tick, no liquidity, no fees and the admin as fee receiver.", "quantifier": "every reachable state, every CreatePool message and sender", "why_tests_cant": "the conditions are an equivalence over all states, prices, ticks and token names; a test can only try some", "anchors": ["contracts/oraiswap-v3/src/entrypoints/execute.rs:create_pool", "contracts/oraiswap-v3/src/entrypoints/execute.rs:add_fee_tier", "contracts/oraiswap-v3/src/storage/pool.rs:Pool::create", "contracts/oraiswap-v3/src/storage/pool_key.rs:PoolKey::new"]}
{"id": "C59", "title": "Deposits are refused only for the stated reasons", "statement": "CreatePosition (and Mint) is accepted exactly if the pool exists, the liquidity is positive, the lower tick is below the upper tick and both are valid, the pool price is within the caller's bounds, the liquidity at both ticks stays below the per-tick cap, the pool's liquidity stays below 2^128 if the range is active, the caller has fewer than 2^32-1 positions, and native coins to be charged are attached. No price, range, amount or fee history makes it fail otherwise.", "quantifier": "every reachable state, every deposit message, sender, attached funds and block not earlier than the pool's creation", "why_tests_cant": "absence of any other failure (overflow of an amount, tickmap mismatch, wrapped fee growth) must hold for all of 2^128 liquidities, all ranges and all histories", "anchors": ["contracts/oraiswap-v3/src/entrypoints/execute.rs:create_position", "contracts/oraiswap-v3/src/storage/position.rs:create", "contracts/oraiswap-v3/src/storage/position.rs:modify", "contracts/oraiswap-v3/src/storage/tick.rs:Tick::update", "contracts/oraiswap-v3/src/math/clamm.rs:calculate_amount_delta"]}
{"id": "C60", "title": "The time a pool spends in a price range is recorded correctly", "statement": "From the times shown with the two ticks of a position and the creation time of its pool a client can compute how long the pool was inside the position's range: age minus time below the lower tick minus time above the upper tick. As long as the position exists, this clock advances by exactly the time during which the pool's tick was inside the range, and no call changes it. No tick ever records more time than the age of its pool, and a tick used for the first time starts with all earlier time counted as below it.", "quantifier": "all histories on a chain whose block time never decreases, all pools, ranges and positions, all calls including swaps crossing any number of ticks and routes", "why_tests_cant": "The time record of a tick is turned over every time a swap crosses it; the claim is about every sequence of crossings, waits, openings and closings of other positions.", "anchors": ["contracts/oraiswap-v3/src/storage/tick.rs:Tick::create", "contracts/oraiswap-v3/src/storage/tick.rs:Tick::cross", "contracts/oraiswap-v3/src/storage/pool.rs:update_tick", "contracts/oraiswap-v3/src/entrypoints/query.rs:get_position_ticks"]}
{"id": "C61", "title": "Events say what happened", "statement": "The response of every successful call carries the attribute `action` naming the call (mint and burn appear as create_position and remove_position). The amounts reported by a swap are exactly what the sender's balances lose and gain, those reported by a claim exactly what the sender receives, the amount reported by a route is the amount of its final payment. Events of opened and closed positions report the owner, the exact liquidity, both ticks and the exact price of the pool; approvals and transfers of tokens report both parties. All numbers can be read back from their decimal text without loss.", "quantifier": "every reachable state, every caller, every message and parameters, every block", "why_tests_cant": "Tests compare a few events by eye; that the texts are exact for every amount, scale and number of digits, and agree with the balances after every possible swap or claim, needs a proof over all values and states.", "anchors": ["contracts/oraiswap-v3/src/entrypoints/execute.rs:create_position", "contracts/oraiswap-v3/src/entrypoints/execute.rs:swap", "contracts/oraiswap-v3/src/entrypoints/execute.rs:swap_route", "contracts/oraiswap-v3/src/entrypoints/execute.rs:claim_fee", "contracts/oraiswap-v3/src/entrypoints/execute.rs:remove_position", "contracts/oraiswap-v3/src/entrypoints/execute.rs:handle_approve", "contracts/oraiswap-v3/src/entrypoints/execute.rs:handle_transfer_nft", "packages/decimal-core/src/others.rs:Display"]}
{"id": "C62", "title": "Records never share storage", "statement": "The chain gives the contract one flat map from byte strings to values. Pools, positions, position counters, ticks, tickmap chunks, operators, the configuration and the version record are kept in it without interference: every record has a raw key of its own, writing or removing a record changes that raw key only and leaves every other record as it was, reading finds what was last written to that record, and a listing over a raw key range finds exactly the entries of its map, in key order.", "quantifier": "every storage content, every kind of record, every key (any byte string), every write, removal and listing", "why_tests_cant": "A collision would need particular addresses, token names and indices whose encodings happen to coincide; tests use a handful of short names. Absence of collisions is a statement about all byte strings.", "anchors": ["contracts/oraiswap-v3/src/state.rs:CONFIG", "contracts/oraiswap-v3/src/state.rs:POOLS", "contracts/oraiswap-v3/src/state.rs:POSITIONS", "contracts/oraiswap-v3/src/state.rs:POSITIONS_LENGTH", "contracts/oraiswap-v3/src/state.rs:TICKS", "contracts/oraiswap-v3/src/state.rs:BITMAP", "contracts/oraiswap-v3/src/state.rs:OPERATORS", "contracts/oraiswap-v3/src/state.rs:get_pools", "contracts/oraiswap-v3/src/entrypoints/query.rs:query_all_approvals"]}
{"id": "C63", "title": "The fee of a swap reaches the positions in range in proportion to their liquidity, and none of it is lost", "statement": "A swap is a sequence of price moves. In each of them the trader pays the amount the price curve demands for the liquidity of the positions whose range contains the current tick, plus a fee. The fee, less the protocol's part, goes to exactly these positions in proportion to their liquidity: what a unit of liquidity earns depends only on the range, a wider range earns at least as much, and adjacent ranges earn together what their union earns. All positions together earn the fees paid less the protocol's part, short only by the rounding of the per-liquidity counter. A position that was just opened has earned nothing, and two untouched positions with the same range earn the same per unit of liquidity over any period.", "quantifier": "every reachable state, every accepted swap in either direction by input or output, every set of positions; for two positions with the same range: every pair of states of every history", "why_tests_cant": "A test fixes a handful of positions and a swap. The claim is about every arrangement of overlapping ranges and every number of crossings in one swap, and about sums over all positions.", "anchors": ["contracts/oraiswap-v3/src/storage/pool.rs:add_fee", "contracts/oraiswap-v3/src/entrypoints/common.rs:calculate_swap", "contracts/oraiswap-v3/src/math/types/fee_growth.rs:calculate_fee_growth_inside", "contracts/oraiswap-v3/src/storage/tick.rs:cross", "contracts/oraiswap-v3/src/storage/position.rs:update"]}
{"id": "C64", "title": "No swap trades worse than the pool's price afterwards", "statement": "The price a swap ends at is the worst price any part of it trades at: when a swap has succeeded, what the sender paid, less the fee, valued at the pool's price after the swap, is at most what they got, up to stated rounding: a relative error of 10^-9, three units of either token per price step, and what the rounding of the last price amounts to for the active liquidity.", "quantifier": "every reachable state, account, pool, direction, amount, exact input or output and price limit", "why_tests_cant": "A swap can cross any number of ranges with any liquidity in them, at any price the ticks allow, and each step rounds in several places; tests sample a few of these and compare with recorded numbers.", "anchors": ["contracts/oraiswap-v3/src/entrypoints/common.rs:calculate_swap", "contracts/oraiswap-v3/src/math/clamm.rs:compute_swap_step", "contracts/oraiswap-v3/src/entrypoints/execute.rs:swap"]}
{"id": "C65", "title": "Exact-input swaps are refused only for a stated reason", "statement": "A quote or swap of an exact input amount in an existing pool is refused only because the amount is zero, the price limit is on the wrong side of the current price, the limit is reached before the amount is used up, the liquidity ends before it is used up, nothing would be paid out, or the caller attached too little. No other trader or liquidity provider can make such a swap fail with an arithmetic error.", "quantifier": "every reachable state, pool, direction, amount and limit", "why_tests_cant": "The failing amounts and positions are isolated: whether some amount, liquidity distribution and price make an intermediate value overflow or underflow can only be settled by bounding every intermediate value of every iteration.", "anchors": ["contracts/oraiswap-v3/src/entrypoints/common.rs:calculate_swap", "contracts/oraiswap-v3/src/math/clamm.rs:compute_swap_step", "contracts/oraiswap-v3/src/math/clamm.rs:is_enough_amount_to_change_price", "contracts/oraiswap-v3/src/storage/pool.rs:Pool::update_tick"]}
{"id": "C66", "title": "Nobody else's tokens are touched", "statement": "Every successful call moves tokens only between the account that sent it and the contract: no balance of any third account changes, no allowance granted by anyone but the sender changes, what the sender gains in a token the contract loses, and, apart from the funds the sender attached, only the two tokens of pools the call is about are moved. In particular protocol fees go to the receiver that withdraws them, and claims and removals pay the caller.", "quantifier": "every call (all messages, any arguments and attached funds), every sender, every storage and every token ledger, every account and every token", "why_tests_cant": "A test looks at the balances of the accounts it set up; the claim is about all accounts, tokens, allowances and messages.", "anchors": ["contracts/oraiswap-v3/src/interface.rs:Asset", "contracts/oraiswap-v3/src/entrypoints/execute.rs:swap", "contracts/oraiswap-v3/src/entrypoints/execute.rs:swap_route", "contracts/oraiswap-v3/src/entrypoints/execute.rs:create_position", "contracts/oraiswap-v3/src/entrypoints/execute.rs:remove_position", "contracts/oraiswap-v3/src/entrypoints/execute.rs:claim_fee", "contracts/oraiswap-v3/src/entrypoints/execute.rs:withdraw_protocol_fee", "contracts/oraiswap-v3/src/entrypoints/execute.rs:handle_send_nft"]}
{"id": "C67", "title": "Administrative calls do exactly what they say", "statement": "ChangeAdmin, ChangeProtocolFee, AddFeeTier and RemoveFeeTier put exactly the given value into the settings (appending the tier, or removing one occurrence of it) and ChangeFeeReceiver makes the given account the receiver of exactly the named pool; no other call changes settings or receivers. They are accepted exactly if the caller is the admin and, respectively, the pool exists, the spacing is 1 to 100 and the fee below 100%, the tier is listed; WithdrawProtocolFee is accepted exactly if the caller is the pool's fee receiver. They change nothing else, and only the withdrawal moves tokens.", "quantifier": "every storage with settings, every call, every caller and argument, every pool", "why_tests_cant": "Both directions of acceptance, and the absence of any other effect, range over all settings, callers, arguments and pools.", "anchors": ["contracts/oraiswap-v3/src/entrypoints/execute.rs:change_admin", "contracts/oraiswap-v3/src/entrypoints/execute.rs:change_protocol_fee", "contracts/oraiswap-v3/src/entrypoints/execute.rs:change_fee_receiver", "contracts/oraiswap-v3/src/entrypoints/execute.rs:add_fee_tier", "contracts/oraiswap-v3/src/entrypoints/execute.rs:remove_fee_tier", "contracts/oraiswap-v3/src/entrypoints/execute.rs:withdraw_protocol_fee"]}
{"id": "C68", "title": "Positions and roles are given only to accounts", "statement": "If every call is sent by an account, then at any time every holder of a position, the admin and every fee receiver is an account (a string the chain accepts as an address), so that somebody can act as it. (False of the code: only TransferPosition validates the receiver; TransferNft, ChangeAdmin and ChangeFeeReceiver accept any string. A position sent to a string that is not an account can never be touched again, and an admin that is not an account freezes the settings.)", "quantifier": "every history of calls sent by accounts, every owner, pool and string", "why_tests_cant": "That a position is lost for ever is a statement about all later histories of calls by everybody.", "anchors": ["contracts/oraiswap-v3/src/entrypoints/execute.rs:transfer_position", "contracts/oraiswap-v3/src/entrypoints/execute.rs:handle_transfer_nft", "contracts/oraiswap-v3/src/entrypoints/execute.rs:handle_send_nft", "contracts/oraiswap-v3/src/entrypoints/execute.rs:change_admin", "contracts/oraiswap-v3/src/entrypoints/execute.rs:change_fee_receiver", "contracts/oraiswap-v3/src/msg.rs:ExecuteMsg"]}
{"id": "C69", "title": "Positions and pools record their origin", "statement": "A deposit adds exactly one entry to the caller's list, with the pool, range and liquidity asked for, the block of the deposit, nothing owed and nobody approved. The recorded pool, range, liquidity and block of a position stay the same for its whole life: claims, approvals and swaps do not change them and transfers take them along. No position is ever owed fees between calls. A pool keeps its creation time, and the time of its last change is never before its creation nor in the future.", "quantifier": "every reachable storage, every call, every owner and pool, every sequence of block times", "why_tests_cant": "It is about the whole life of a position, through any interleaving of calls by all accounts.", "anchors": ["contracts/oraiswap-v3/src/storage/position.rs:Position", "contracts/oraiswap-v3/src/storage/pool.rs:Pool", "contracts/oraiswap-v3/src/entrypoints/execute.rs:create_position", "contracts/oraiswap-v3/src/entrypoints/execute.rs:claim_fee", "contracts/oraiswap-v3/src/entrypoints/execute.rs:transfer_position", "contracts/oraiswap-v3/src/entrypoints/common.rs:transfer_nft"]}
{"id": "C70", "title": "The queries show the state", "statement": "Pool finds the pool of two tokens and a fee tier whatever the order of the tokens and fails exactly if there is none. Position shows the entry of the account's list and fails exactly beyond its end. LiquidityTicks answers exactly if at most 780 ticks are asked for and each is the end of an open position, and shows for each the liquidity of the positions starting there minus that of those ending there.", "quantifier": "every reachable storage, every pair of tokens, fee tier, account, index and list of ticks", "why_tests_cant": "Each is an equivalence over all inputs and all histories of positions.", "anchors": ["contracts/oraiswap-v3/src/entrypoints/query.rs:get_pool", "contracts/oraiswap-v3/src/entrypoints/query.rs:get_position", "contracts/oraiswap-v3/src/entrypoints/query.rs:get_liquidity_ticks", "contracts/oraiswap-v3/src/storage/pool_key.rs:PoolKey"]}
{"id": "C71", "title": "Splitting liquidity over positions gains nothing but a unit", "statement": "At a given price of a pool, opening two positions in a range instead of one with their combined liquidity never costs less of the second token of the pool, never saves more than one smallest unit of the first token, and never costs more than one unit more of either. Closing two positions instead of one with their combined liquidity never pays more of either token (unpaid fees aside) and at most one unit less. Who makes the calls, when and in which state of the contract does not matter.", "quantifier": "All pools, ranges, prices, liquidities and reachable states, all callers; three openings or three closings at the same price", "why_tests_cant": "Whether rounding favours splitting depends on the remainders of products of 80- and 128-bit numbers; an unfavourable one is found by solving a congruence, not by sampling.", "anchors": ["contracts/oraiswap-v3/src/math/clamm.rs:get_delta_x", "contracts/oraiswap-v3/src/math/clamm.rs:get_delta_y", "contracts/oraiswap-v3/src/math/clamm.rs:calculate_amount_delta", "contracts/oraiswap-v3/src/entrypoints/execute.rs:create_position", "contracts/oraiswap-v3/src/entrypoints/execute.rs:remove_position"]}
{"id": "C72", "title": "Opening and closing a position leaves no trace", "statement": "If somebody opens a position and closes it again, then afterwards every pool has the price, liquidity and fees it had before, every tick, position, account and setting is as it was (only the time of the pool's last change has moved on), and every sequence of later calls by anybody gives, call by call, the same payments or the same error as if the position had never existed.", "quantifier": "for every reachable state with its history of block times, every pool, range, liquidity, account and pair of block times, and every finite sequence of later calls by any accounts", "why_tests_cant": "A test compares a few fields after one deposit and withdrawal; that no later call of any kind can tell the difference is a statement about all states and all continuations, including ticks shared with other positions.", "anchors": ["contracts/oraiswap-v3/src/entrypoints/execute.rs:create_position", "contracts/oraiswap-v3/src/entrypoints/execute.rs:remove_position", "contracts/oraiswap-v3/src/storage/tick.rs:update", "contracts/oraiswap-v3/src/state.rs:flip_bitmap"]}
{"id": "C73", "title": "The order of deposits does not matter", "statement": "If any number of accounts deposit liquidity in the same block, in the same pool or in several, sharing ticks or not, and all deposits are accepted in one order, then they are accepted in every order; each account pays the same in every order, the resulting pools, ticks, positions and lists are the same, and no later sequence of calls can tell which order it was. So whoever orders the transactions of a block cannot make a depositor pay more by moving another deposit before theirs.", "quantifier": "for every reachable state, block time, finite list of deposits of pairwise different accounts with any pools, ranges, liquidity amounts and price bounds, every permutation of it, and every finite sequence of later calls", "why_tests_cant": "Each test fixes an order. That the order is irrelevant relates two executions from the same arbitrary state, including the creation of ticks that both need and the caps that both approach.", "anchors": ["contracts/oraiswap-v3/src/entrypoints/execute.rs:create_position", "contracts/oraiswap-v3/src/storage/tick.rs:update", "contracts/oraiswap-v3/src/state.rs:flip_bitmap", "contracts/oraiswap-v3/src/storage/pool.rs:update_liquidity"]}
{"id": "C74", "title": "What a position pays out does not depend on other liquidity providers", "statement": "As long as nobody trades in its pool, a position is paid the same whenever it is closed, in tokens and in fees, and the same whenever its fees are claimed, whatever all other accounts (and the owner with other positions) deposit, withdraw, claim, transfer, approve, configure or trade in other pools in the meantime. A claim that is possible before is possible afterwards; so is a withdrawal, unless a swap of the history has corrupted the pool's liquidity.", "quantifier": "for every reachable state, position in it, and every finite sequence of calls by any accounts with any arguments at any times, none of which trades in the position's pool and all of which leave the position in its place", "why_tests_cant": "A test can insert a few calls between two withdrawals. The claim is about every sequence of calls, including deposits that share one or both ticks of the position, withdrawals that delete and re-create ticks, and dilution of the pool's liquidity by any amount.", "anchors": ["contracts/oraiswap-v3/src/entrypoints/execute.rs:remove_position", "contracts/oraiswap-v3/src/entrypoints/execute.rs:claim_fee", "contracts/oraiswap-v3/src/storage/position.rs:modify", "contracts/oraiswap-v3/src/math/types/fee_growth.rs:calculate_fee_growth_inside"]}
{"id": "C75", "title": "Withdrawals, claims, transfers and approvals are refused only for the stated reasons", "statement": "RemovePosition is accepted exactly if the caller has the position with that number, the pool's liquidity covers it in case its range is active, and the amounts to be paid fit into 128 bits. ClaimFee is accepted exactly if the caller has the position and the fees fit into 128 bits. TransferPosition is accepted exactly if the caller has the position, the receiver is a valid address, and the receiver's list has room. Approve is accepted exactly if the token exists, the caller is its owner or an operator of the owner, and the expiration is in the future; Revoke under the first two conditions. ApproveAll is refused only for an expiration in the past, RevokeAll never. Together with C17, C52, C58, C59 and C67 this settles for every call but the swaps when it is accepted.", "quantifier": "for every reachable state, caller, block and argument of these calls", "why_tests_cant": "The absence of any further reason for failure (a wrapped fee growth, a missing tick, a mismatch of the tick map, an overflow) has to hold in every reachable state; a test shows success or failure in one.", "anchors": ["contracts/oraiswap-v3/src/entrypoints/execute.rs:remove_position", "contracts/oraiswap-v3/src/entrypoints/execute.rs:claim_fee", "contracts/oraiswap-v3/src/entrypoints/execute.rs:transfer_position", "contracts/oraiswap-v3/src/entrypoints/common.rs:update_approvals", "contracts/oraiswap-v3/src/entrypoints/execute.rs:handle_approve_all"]}
{"id": "C76", "title": "A swap pays the pool's fee", "statement": "In a pool with a fee of f percent a trader pays f percent of the amount charged as a fee, whichever way the trade is specified: along the price curve, the trader receives at most what the curve gives and pays at least what the curve asks divided by (1 - f).", "quantifier": "for every reachable state, pool, trader, direction, amount, way of specifying the amount and price limit", "why_tests_cant": "A swap takes any number of steps, each with its own liquidity, rounding and way to compute the fee. A test shows the fee of one trade; whether some sequence of ticks, amounts and limits gets the trade cheaper is a question about all of them.", "anchors": ["contracts/oraiswap-v3/src/math/clamm.rs:compute_swap_step", "contracts/oraiswap-v3/src/entrypoints/common.rs:calculate_swap", "contracts/oraiswap-v3/src/entrypoints/execute.rs:swap"]}
{"id": "C77", "title": "The client's checks agree with the contract", "statement": "The client library's helpers tell beforehand what the contract does: the pool key it forms from two tokens, in either order, is the key a pool of these tokens is stored under, and isTokenX says which of them is X; a fee tier passes its check exactly if the admin can add it; a range passes its check exactly if the contract accepts it for a deposit; and the prices of all pools lie between its minimum and maximum price for their tick spacing, both of which are attained.", "quantifier": "for every reachable state, pair of tokens, fee tier, range, tick spacing and pool", "why_tests_cant": "The client carries its own copies of the checks. That two checks agree on every input, and that the price of a pool stays between the client's bounds whatever is traded, cannot be seen from samples.", "anchors": ["wasm/storage/pool_key.rs:PoolKey::new", "wasm/storage/fee_tier.rs:FeeTier::new", "wasm/custom.rs:is_token_x", "wasm/clamm.rs:check_ticks", "wasm/types/sqrt_price.rs:get_max_sqrt_price", "wasm/types/sqrt_price.rs:get_min_sqrt_price", "contracts/oraiswap-v3/src/entrypoints/execute.rs:add_fee_tier", "contracts/oraiswap-v3/src/entrypoints/execute.rs:create_position"]}
{"id": "C78", "title": "What the pool has on offer can be bought", "statement": "A swap for an exact amount of the output token is refused only because the amount is zero, the price limit is on the wrong side, or the pool does not have the amount on offer between the current price and the limit (up to one unit for each price step); if the pool has it, with that margin, the quote is given and pays exactly the amount.", "quantifier": "for every reachable state (whose swaps ended regularly), pool, direction, amount, price limit, block time and caller", "why_tests_cant": "The swap passes through any number of ranges, each with its own liquidity; an intermediate value of any of them can overflow or fall below zero. A test shows that one swap goes through, not that no combination of positions, price and amount makes the arithmetic fail.", "anchors": ["contracts/oraiswap-v3/src/entrypoints/common.rs:calculate_swap", "contracts/oraiswap-v3/src/math/clamm.rs:compute_swap_step", "contracts/oraiswap-v3/src/math/clamm.rs:is_enough_amount_to_change_price", "contracts/oraiswap-v3/src/storage/pool.rs:update_tick", "contracts/oraiswap-v3/src/entrypoints/query.rs:quote", "contracts/oraiswap-v3/src/entrypoints/execute.rs:swap"]}
{"id": "C79", "title": "A route does what its hops do one by one", "statement": "SwapRoute is accepted exactly if each of its hops would be accepted as an exact-input Swap of its own, made in order, each selling the output of the one before with the loosest price limit, and the last output is at least the expected amount less the slippage. It leads to the same state and makes the same payments as those swaps; if no coins are attached it leaves the same balances as those swaps sent as separate transactions.", "quantifier": "all states, all routes of every length, all senders, amounts, expectations and slippages", "why_tests_cant": "An equivalence between one call and a list of calls of any length, in both directions.", "anchors": ["contracts/oraiswap-v3/src/entrypoints/common.rs:swap_route_internal", "contracts/oraiswap-v3/src/entrypoints/common.rs:swap_internal", "contracts/oraiswap-v3/src/entrypoints/execute.rs:swap_route", "contracts/oraiswap-v3/src/entrypoints/execute.rs:swap", "contracts/oraiswap-v3/src/math/clamm.rs:calculate_min_amount_out"]}
{"id": "C80", "title": "Harmless trades can be told in advance", "statement": "A trade cannot upset a pool's books if it buys an exact amount of Y; or if it buys X with a price limit that is not the price of a tick at which a position starts or ends; or if it sells an exact amount of X and its quoted final price is neither the price of such a tick nor less than 10^24/price below one. After any history of such trades and any other calls, every pool counts exactly the liquidity in range, the contract holds what it owes, and every owner can claim and withdraw and is paid.", "quantifier": "all histories of calls whose trades are safe in this sense (routes: hop by hop), all pools, all positions", "why_tests_cant": "The condition is on each call when it is made, the conclusion on all later states of arbitrary histories.", "anchors": ["contracts/oraiswap-v3/src/entrypoints/common.rs:calculate_swap", "contracts/oraiswap-v3/src/entrypoints/common.rs:swap_route_internal", "contracts/oraiswap-v3/src/storage/pool.rs:update_tick", "contracts/oraiswap-v3/src/entrypoints/query.rs:quote", "contracts/oraiswap-v3/src/entrypoints/execute.rs:remove_position", "contracts/oraiswap-v3/src/entrypoints/execute.rs:claim_fee"]}
{"id": "C81", "title": "Earned fees are not taken away again", "statement": "Whatever other users do, the fees a position has earned and not been paid never become less, and they grow by no more than what traders pay into its pool in that token.", "quantifier": "all histories between two moments during which the position is not touched, all calls by all users including routes, both tokens", "why_tests_cant": "Quantifies over histories of any length; the exception (a counter running over) needs more fees than a test pays.", "anchors": ["contracts/oraiswap-v3/src/math/types/fee_growth.rs:unchecked_add", "contracts/oraiswap-v3/src/math/types/fee_growth.rs:unchecked_sub", "contracts/oraiswap-v3/src/math/types/fee_growth.rs:from_fee", "contracts/oraiswap-v3/src/storage/pool.rs:add_fee", "contracts/oraiswap-v3/src/storage/position.rs:update", "contracts/oraiswap-v3/src/storage/position.rs:claim_fee"]}
{"id": "C82", "title": "A swap follows the price curve", "statement": "What the positions of a pool consist of is a function of the price. A swap that moves the price costs exactly what the positions have more of at the new price, plus the pool's fee, and gives exactly what they have less of. It deviates from this by no more than rounding: a few units per price step, and the amount that moves the price by one in its last digit.", "quantifier": "every reachable state, every swap (direction, amount, by input or output, limit) and the prices before and after it", "why_tests_cant": "The comparison is with exact arithmetic over all positions crossed on the way, for any set of positions, any number of ticks crossed and any amounts; tests compare single rounded numbers.", "anchors": ["contracts/oraiswap-v3/src/entrypoints/common.rs:calculate_swap", "contracts/oraiswap-v3/src/math/clamm.rs:compute_swap_step", "contracts/oraiswap-v3/src/math/clamm.rs:is_enough_amount_to_change_price", "contracts/oraiswap-v3/src/storage/pool.rs:update_tick"]}
{"id": "C83", "title": "Time weighted by liquidity is counted exactly", "statement": "The time-weighting functions the contract exports agree with their meaning. The global function answers exactly when the time given is later than the last one, the liquidity is not zero and the result fits into 128 bits, and then gives the time divided by the liquidity, rounded down in the 24th decimal; each other case has its own error. If a pool's counter grows as time passes and a tick's counter is mirrored whenever the price passes it, then over any history the number computed for a range grows by exactly what passed while the price was in that range, whatever the counters were before and even if they wrap round; and two neighbouring ranges together count what the joined range counts.", "quantifier": "all liquidities and times; all counters, all histories of time passing and price moves, all ranges", "why_tests_cant": "The counters start at arbitrary values and wrap round, and the price may pass the two ends of a range in any order any number of times; unit tests check single calls.", "anchors": ["contracts/oraiswap-v3/src/math/types/seconds_per_liquidity.rs:calculate_seconds_per_liquidity_global", "contracts/oraiswap-v3/src/math/types/seconds_per_liquidity.rs:calculate_seconds_per_liquidity_inside", "wasm/types/seconds_per_liquidity.rs"]}
{"id": "C84", "title": "A pool can be read completely from outside", "statement": "Whoever reads a pool through the contract's queries gets all of it, however many positions and ticks there are. At most five tickmap queries, each continuing after the last chunk received, give a tickmap which, decoded by the client library, is exactly the ascending list of ticks at which a position of the pool begins or ends. Asking for these ticks in batches of the library's size always succeeds and gives each tick once, with the liquidity that positions add or take away there. Put into the library's simulation together with the pool, these data give exactly the amounts, price and crossed ticks that the contract quotes, unless more than 173 ticks are crossed, in which case the simulation says so.", "quantifier": "all reachable states, pools, and trades the contract quotes", "why_tests_cant": "Pages are cut at 1638 chunks and 780 ticks, sizes no unit test fills; whether the pages join without gap or overlap must hold for every set of used ticks and every tick spacing.", "anchors": ["contracts/oraiswap-v3/src/entrypoints/query.rs:get_tickmap", "contracts/oraiswap-v3/src/entrypoints/query.rs:get_liquidity_ticks", "contracts/oraiswap-v3/src/entrypoints/common.rs:tickmap_slice", "wasm/collections/tickmap.rs:position_to_tick", "wasm/consts.rs:get_max_chunk", "wasm/swap.rs:simulate_swap"]}
{"id": "C85", "title": "The library's page sizes are the contract's", "statement": "The page sizes that the client library exports are those of the contract: a page of the tickmap has at most that many chunks and is complete if it has fewer; a query of ticks is refused for its length exactly if it asks for more; a listing of pools that has fewer entries than the size asked for is complete.", "quantifier": "all states, pools, ranges and lists of ticks; all reachable states for the listing of pools", "why_tests_cant": "Client and contract are tested separately, and no test creates as many objects as a page holds.", "anchors": ["wasm/consts.rs:get_max_tickmap_query_size", "wasm/consts.rs:get_liquidity_ticks_limit", "wasm/consts.rs:get_max_pool_keys_returned", "wasm/consts.rs:get_max_pool_pairs_returned", "contracts/oraiswap-v3/src/state.rs:get_pools"]}
{"id": "C86", "title": "The work of a swap is bounded by what it passes", "statement": "The number of price steps of a swap, on which its gas depends, is at most the number of ticks in use between the pool's tick before and its tick after the swap, plus one for each 256 tick spacings between them, plus two. In particular it does not depend on the amounts traded or on anything outside the price range passed.", "quantifier": "all reachable states, pools, senders, directions, amounts, modes and limits of successful swaps", "why_tests_cant": "the bound is over every arrangement of positions and every amount; a test measures the gas of one swap", "anchors": ["contracts/oraiswap-v3/src/entrypoints/common.rs:calculate_swap", "contracts/oraiswap-v3/src/state.rs:get_closer_limit", "contracts/oraiswap-v3/src/state.rs:next_initialized", "contracts/oraiswap-v3/src/state.rs:prev_initialized", "contracts/oraiswap-v3/src/math/clamm.rs:compute_swap_step"]}
{"id": "C87", "title": "Claiming before withdrawing makes no difference", "statement": "An account that can close a position (RemovePosition) can instead claim its fees (ClaimFee) and then close it; both ways leave the same contract storage and the same balances of every account in every token. Conversely, an account that has claimed the fees and then closed the position could have closed it at once with the same result, as long as fees and principal together fit into 128 bits.", "quantifier": "every reachable storage, every ledger, every account other than the contract, every position index, every block in which the calls are made", "why_tests_cant": "The claim rewrites the position, both tick records, the pool and both fee checkpoints; that the withdrawal afterwards nevertheless ends in exactly the same storage and pays exactly the fees less has to hold for every history of swaps and deposits and every rounding of the fees.", "anchors": ["contracts/oraiswap-v3/src/entrypoints/execute.rs:claim_fee", "contracts/oraiswap-v3/src/entrypoints/execute.rs:remove_position", "contracts/oraiswap-v3/src/storage/position.rs:claim_fee", "contracts/oraiswap-v3/src/storage/position.rs:remove", "contracts/oraiswap-v3/src/storage/tick.rs:update_liquidity_change"]}
{"id": "C88", "title": "A position that changes hands keeps its value", "statement": "After a position has been given to somebody else (TransferPosition, TransferNft or SendNft), the new holder can close it, or claim its fees, exactly if the old holder could have done so just before; is paid exactly the amounts of both tokens the old holder would have been paid; and the call leaves the same pools, ticks and configuration. After a closure everybody's list of positions is the same in both cases; after a claim the position is the same but for its approvals. The position is at the end of the new holder's list.", "quantifier": "Every reachable state, every position, every caller allowed to move it, every receiver, every time of the later call and all balances; neither holder is the contract itself.", "why_tests_cant": "Unpaid fees are kept partly in the record that moves and partly in pool and ticks that do not; a test moves one position in one state and checks that the record exists, not that what it is worth is unchanged in all of them.", "anchors": ["contracts/oraiswap-v3/src/entrypoints/execute.rs:transfer_position", "contracts/oraiswap-v3/src/entrypoints/common.rs:transfer_nft", "contracts/oraiswap-v3/src/entrypoints/execute.rs:remove_position", "contracts/oraiswap-v3/src/entrypoints/execute.rs:claim_fee", "contracts/oraiswap-v3/src/state.rs:add_position"]}
{"id": "C89", "title": "No strategy in a pool gains at its price", "statement": "When an account, or a group of accounts, acts alone in a pool with any sequence of swaps, new positions, withdrawals, fee claims and transfers of positions within the group, then everything it has at the end - balances of both tokens, what its positions in the pool consist of, and their unpaid fees - is worth no more than what it had at the beginning, both valued at the price the pool had at the beginning. In particular an account without positions before and after that has gained some of one token has less of the other.", "quantifier": "Every reachable state, every pool, every group of accounts (some of which may have positions already), every sequence of Swap, CreatePosition, Mint, RemovePosition, Burn and ClaimFee calls, and TransferPosition calls to members of the group, of any length with any parameters, at any times.", "why_tests_cant": "Profitable attacks on liquidity pools are sequences nobody thought of: provide liquidity just before a swap, move the price, withdraw, swap back. A test plays a few such sequences; that none of them pays has to hold for all.", "anchors": ["contracts/oraiswap-v3/src/entrypoints/execute.rs:swap", "contracts/oraiswap-v3/src/entrypoints/execute.rs:create_position", "contracts/oraiswap-v3/src/entrypoints/execute.rs:remove_position", "contracts/oraiswap-v3/src/entrypoints/execute.rs:claim_fee", "contracts/oraiswap-v3/src/entrypoints/common.rs:calculate_swap"]}
{"id": "C90", "title": "The order of withdrawals and claims does not matter", "statement": "If any number of accounts close a position or claim fees in the same block, in the same pool or in several, sharing ticks or not, and all these calls are accepted in one order, then they are accepted in every order; each account is paid the same in every order, the resulting pools, ticks, positions and lists are the same, and no later sequence of calls can tell which order it was. So there is no run on a pool: who leaves last gets what they would have got by leaving first.", "quantifier": "for every reachable state, block time, finite list of withdrawals and claims of pairwise different accounts, every permutation of it, and every finite sequence of later calls", "why_tests_cant": "The number of orders grows factorially, and the interesting cases (ticks that one order deletes and the other keeps, chunks of the bitmap that are shared) depend on who shares ticks with whom; a test compares a few orders of a few calls.", "anchors": ["contracts/oraiswap-v3/src/entrypoints/execute.rs:remove_position", "contracts/oraiswap-v3/src/entrypoints/execute.rs:claim_fee", "contracts/oraiswap-v3/src/storage/position.rs:modify", "contracts/oraiswap-v3/src/state.rs:remove_position", "contracts/oraiswap-v3/src/state.rs:remove_tick", "contracts/oraiswap-v3/src/state.rs:flip_bitmap"]}
{"id": "C91", "title": "Dishonest tokens cannot reach other tokens", "statement": "Anybody can create a pool for a token of their own making. Whatever such tokens do (report false balances, refuse transfers or not carry them out, take fees, call the contract from inside a transfer, to any depth and as any sender but the contract), what the contract owes in every honest token, in all pools together, stays covered by its balance at every moment, counting the payments that are still to be carried out; a payout in honest tokens that the contract accepts never fails for lack of tokens; the owner of a position in two honest tokens can always remove it and claim its fees and is paid, as long as the contract holds less than 2^128 of the two; and a call made from inside another one finds a storage that calls made one after the other could have left. As in C04 this is for swaps that end regularly, but only those in pools that trade the honest token in question matter, and for routes that take this token, if it is a native coin, once; and it is up to 10^-14 of a unit per rounding.", "quantifier": "all tokens and all behaviours of the dishonest ones, all histories of calls by all users with callbacks nested to any depth, all pools", "why_tests_cant": "A test uses a well-behaved token, or one particular attack. The claim is about every program a token could be and every interleaving of its calls with unfinished transactions.", "anchors": ["contracts/oraiswap-v3/src/interface.rs:Asset::transfer", "contracts/oraiswap-v3/src/interface.rs:Asset::transfer_from", "contracts/oraiswap-v3/src/entrypoints/execute.rs:create_pool", "contracts/oraiswap-v3/src/entrypoints/execute.rs:swap", "contracts/oraiswap-v3/src/entrypoints/execute.rs:swap_route", "contracts/oraiswap-v3/src/entrypoints/execute.rs:create_position", "contracts/oraiswap-v3/src/entrypoints/execute.rs:remove_position", "contracts/oraiswap-v3/src/entrypoints/execute.rs:claim_fee", "contracts/oraiswap-v3/src/entrypoints/execute.rs:withdraw_protocol_fee", "contracts/oraiswap-v3/src/entrypoints/execute.rs:handle_send_nft", "contracts/oraiswap-v3/src/entrypoints/common.rs:swap_internal", "contracts/oraiswap-v3/src/entrypoints/common.rs:swap_route_internal"]}
{"id": "C92", "title": "The protocol fee is not paid by traders", "statement": "The protocol's share of the swap fee is taken out of what the liquidity providers earn and out of nothing else. Run the same calls, in the same blocks, on two exchanges that differ only in the protocol fee they start with and in the protocol fees set on the way: as long as the same calls succeed, every swap and every route takes and gives the same amounts, every deposit costs the same, and all pools have the same prices, liquidity, ticks and positions at the end. Only the records of earned fees and the calls that pay them out differ. Quotes do not depend on the protocol fee either, and changing it does not change what the next swap gives.", "quantifier": "all histories of calls by all users in all pools, all pairs of protocol fees and all pairs of later changes of them, all quotes and quoted routes", "why_tests_cant": "It compares two whole histories for every pair of rates; the fee counters the rate changes are stored next to the prices and liquidity in the same records, and are read in every swap, deposit and removal.", "anchors": ["contracts/oraiswap-v3/src/storage/pool.rs:Pool::add_fee", "contracts/oraiswap-v3/src/storage/pool.rs:Pool::update_tick", "contracts/oraiswap-v3/src/entrypoints/common.rs:calculate_swap", "contracts/oraiswap-v3/src/entrypoints/common.rs:swap", "contracts/oraiswap-v3/src/entrypoints/common.rs:swap_route_internal", "contracts/oraiswap-v3/src/entrypoints/execute.rs:change_protocol_fee"]}
{"id": "C93", "title": "The price limit is only a guard", "statement": "The limit a trader gives with a swap decides whether the swap goes through, not what it costs. If a swap succeeds and leaves the pool at a price that has not reached its limit, then the same swap with any looser limit succeeds too, takes and gives exactly the same amounts and leaves exactly the same state; and a quote that has not reached its limit is the quote for every looser limit.", "quantifier": "all reachable states, pools, directions, exact-input and exact-output swaps and quotes, all amounts, and all pairs of limits of which one is looser", "why_tests_cant": "It compares two runs for every pair of limits; the limit is the target of some of the steps, so it enters the rounded amounts from which the step decides whether the target is reached.", "anchors": ["contracts/oraiswap-v3/src/entrypoints/common.rs:calculate_swap", "contracts/oraiswap-v3/src/state.rs:get_closer_limit", "contracts/oraiswap-v3/src/math/clamm.rs:compute_swap_step", "contracts/oraiswap-v3/src/math/clamm.rs:get_delta_x", "contracts/oraiswap-v3/src/math/clamm.rs:get_delta_y", "contracts/oraiswap-v3/src/entrypoints/query.rs:quote"]}
{"id": "C94", "title": "Pools whose prices agree cannot be played against each other", "statement": "When the prices of some pools agree - each token can be given a value such that every one of these pools trades its two tokens at the ratio of their values - then no account or group of accounts acting alone in these pools gains anything: after any sequence of swaps, routes through several pools, new positions, withdrawals, fee claims and transfers of positions within the group, everything it has (balances, what its positions consist of, their unpaid fees), valued as before, is worth no more than at the beginning. In particular an account without positions before and after that ends with no less of any token has exactly what it had; going round a circle of pools never pays.", "quantifier": "Every reachable state, every set of pools and every valuation of their tokens that agrees with the pools' prices, every group of accounts (some of which may have positions already), every sequence of Swap, SwapRoute, CreatePosition, Mint, RemovePosition, Burn and ClaimFee calls, and TransferPosition calls to members of the group, of any length with any parameters, at any times.", "why_tests_cant": "The number of pools, tokens, calls and accounts is unbounded, and a gain of one unit per round from rounding, fee sharing or message handling could be repeated at will; a test can only try particular circles and amounts.", "anchors": ["contracts/oraiswap-v3/src/entrypoints/execute.rs:swap_route", "contracts/oraiswap-v3/src/entrypoints/execute.rs:swap", "contracts/oraiswap-v3/src/entrypoints/common.rs:swap_route_internal", "contracts/oraiswap-v3/src/entrypoints/execute.rs:create_position", "contracts/oraiswap-v3/src/entrypoints/execute.rs:remove_position"]}
{"id": "C95", "title": "A position trades only between the prices it has seen", "statement": "A position that is opened and closed later, by whoever holds it then and whatever has happened in between, pays out, apart from its fees, what was put in, with the difference between the tokens exchanged at the geometric mean of the price at the opening and the price at the closing, each taken as the nearer end of the range when it is outside, up to rounding. Hence a position opened above the price and closed when the price has passed it has sold all its X at the geometric mean of the ends of its range (a range order), and the other way round for Y; and valued at the price of its opening no position ever pays less than was put in.", "quantifier": "Every chain, every reachable state for the opening (CreatePosition or Mint, any range and liquidity, any attached coins) and every reachable state for the closing in which somebody holds a position of this pool, range and liquidity (these never change, C69), so every history in between, with swaps of any kind, transfers and other positions.", "why_tests_cant": "Between opening and closing any number of swaps, deposits and transfers by others can happen, at any prices; that the payout depends on nothing but the two prices, with an error that does not grow with the number of events, is a statement about all histories.", "anchors": ["contracts/oraiswap-v3/src/entrypoints/execute.rs:create_position", "contracts/oraiswap-v3/src/entrypoints/execute.rs:remove_position", "contracts/oraiswap-v3/src/math/clamm.rs:calculate_amount_delta", "contracts/oraiswap-v3/src/math/clamm.rs:get_delta_x", "contracts/oraiswap-v3/src/math/clamm.rs:get_delta_y", "contracts/oraiswap-v3/src/storage/position.rs:Position::modify"]}
{"id": "C96", "title": "Two adjacent ranges are one", "statement": "A position over a range does the same as two positions with the same liquidity over the two parts into which any tick divides the range: opening it costs, closing it pays, and holding it earns the same, in both tokens, up to rounding of the amounts. Dividing a position at a tick neither creates nor avoids fees.", "quantifier": "Every chain, pool, price, range and dividing tick; for opening and closing any three reachable states at the same price, any caller and attached coins; for fees any two reachable states with any history in between (swaps with regular and irregular ends, claims, other positions at the same ticks opened and closed), and any positions not touched in between.", "why_tests_cant": "The fees of the three positions are computed from the counters of three ticks, which every crossing rewrites, modulo 2^128; that the sums agree after every history of crossings and for every order in which the ticks were first used cannot be tried out.", "anchors": ["contracts/oraiswap-v3/src/math/types/fee_growth.rs:calculate_fee_growth_inside", "contracts/oraiswap-v3/src/math/clamm.rs:calculate_amount_delta", "contracts/oraiswap-v3/src/storage/tick.rs:Tick::cross", "contracts/oraiswap-v3/src/entrypoints/execute.rs:create_position", "contracts/oraiswap-v3/src/entrypoints/execute.rs:remove_position", "contracts/oraiswap-v3/src/entrypoints/execute.rs:claim_fee"]}
{"id": "C97", "title": "Dividing a trade gains nothing", "statement": "Whoever trades a certain amount of a token in a pool in several swaps, one after the other, receives no more of the other token than by trading the same amount in one swap, up to rounding.", "quantifier": "Every reachable state, pool and direction, every swap and every sequence of swaps of any length in this direction from the same state, by one trader or several, specified by input or by output, with any price limits.", "why_tests_cant": "The swaps of a sequence cross other ticks in other steps than the one swap, each with its own roundings and its own way of charging the fee; the sequences are unbounded and cannot be sampled.", "anchors": ["contracts/oraiswap-v3/src/entrypoints/execute.rs:swap", "contracts/oraiswap-v3/src/entrypoints/common.rs:calculate_swap", "contracts/oraiswap-v3/src/math/clamm.rs:compute_swap_step"]}
{"id": "C98", "title": "More liquidity makes no trade worse", "statement": "If somebody adds liquidity to a pool, at whatever range of prices, a trader who then trades a certain amount of a token receives no less of the other token than without that liquidity, up to rounding.", "quantifier": "Every reachable state, pool and direction, every range and amount of additional liquidity, every swap after it and every swap or sequence of swaps in the same direction without it, specified by input or by output, with any price limits.", "why_tests_cant": "The additional liquidity changes where each price step ends, which way the fee is charged in it and how each amount is rounded; the ranges, prices and amounts are too many to sample, and the case in which it fails depends on where the price stands relative to a tick.", "anchors": ["contracts/oraiswap-v3/src/entrypoints/execute.rs:create_position", "contracts/oraiswap-v3/src/entrypoints/execute.rs:swap", "contracts/oraiswap-v3/src/entrypoints/common.rs:calculate_swap", "contracts/oraiswap-v3/src/math/clamm.rs:compute_swap_step"]}
{"id": "C99", "title": "The books balance", "statement": "Whatever a caller pays is added to what the pool owes (to its open positions as principal and unpaid fees, and to the protocol), and whatever a caller gets is taken from it, up to rounding, in both directions: a swap, a deposit or a payout neither creates a debt that was not paid for nor leaves tokens behind that belong to nobody. Other pools' debts do not change, and no other call changes any debt or moves tokens.", "quantifier": "for every reachable state, every call by anybody, every amount, and every pool", "why_tests_cant": "Needs the sum over all open positions of exact (rational) amounts before and after every possible call, including swaps across any number of ticks", "anchors": ["contracts/oraiswap-v3/src/entrypoints/execute.rs", "contracts/oraiswap-v3/src/entrypoints/common.rs:calculate_swap", "contracts/oraiswap-v3/src/storage/position.rs", "contracts/oraiswap-v3/src/storage/pool.rs"]}
{"id": "C100", "title": "A position closed at the price it was opened at returns the deposit", "statement": "If a position is closed while the pool's price is what it was when the position was opened, then whatever happened in between, its owner gets back what was deposited besides the fees: never more, at most one unit of token Y less, and at most two units and two parts in 10^14 of token X less. Whoever opens a position can close it in the very next call: the call is accepted and the contract is able to pay, even if positions of others cannot be closed at the time and whatever the contract owes to others.", "quantifier": "for every pool, range, price and liquidity, every reachable state and time in which the position is opened and every one in which it is closed, every owner, and both calls that open and both that close a position", "why_tests_cant": "Needs the rounding of both calls for every price and range, and that no reachable state whatsoever blocks the closing of a new position", "anchors": ["contracts/oraiswap-v3/src/entrypoints/execute.rs:create_position", "contracts/oraiswap-v3/src/entrypoints/execute.rs:remove_position", "contracts/oraiswap-v3/src/storage/position.rs:modify", "contracts/oraiswap-v3/src/math/clamm.rs:calculate_amount_delta"]}
{"id": "C101", "title": "Everybody can leave", "statement": "If everybody closes their positions, one after the other, in any order and at any times, nobody comes too late: every withdrawal is accepted and paid in full, fees included, and so is what is recorded for the protocol. Once the last position of a pool is closed the pool is empty: it has no liquidity and no tick in use, and owes nothing but the protocol's fees.", "quantifier": "for every history of calls by all users, every order and timing of withdrawals, claims and burns by any accounts, and every position and pool", "why_tests_cant": "The order of the withdrawals, the positions and the history before them are arbitrary; that the last one is paid depends on the rounding of every call ever made", "anchors": ["contracts/oraiswap-v3/src/entrypoints/execute.rs:remove_position", "contracts/oraiswap-v3/src/entrypoints/execute.rs:withdraw_protocol_fee", "contracts/oraiswap-v3/src/storage/position.rs:remove", "contracts/oraiswap-v3/src/storage/pool.rs:update_liquidity"]}
{"id": "C102", "title": "The price bounds of a deposit bound its cost", "statement": "Whoever opens a position with a lower and an upper price bound pays, whatever others do before the call is executed, no more X than the range contains at the lower bound and no more Y than it contains at the upper bound, rounded up to whole units (X up to one part in 10^14), and no less than it contains at the opposite bounds. At a higher price the same position takes no less Y and, up to a unit and one part in 10^14, no more X.", "quantifier": "for every reachable state, range, liquidity and pair of bounds, both calls that open a position, and every pair of prices", "why_tests_cant": "The price at which the call is executed is chosen by others; needs the rounding for every price, range and liquidity", "anchors": ["contracts/oraiswap-v3/src/entrypoints/execute.rs:create_position", "contracts/oraiswap-v3/src/storage/position.rs:create", "contracts/oraiswap-v3/src/math/clamm.rs:calculate_amount_delta"]}
{"id": "C103", "title": "Cost and value of a position grow with its liquidity and its range", "statement": "At a given price a position with a range that contains another's and with no less liquidity costs no less of either token when it is opened and pays no less, besides the fees, when it is closed; and for each unit of liquidity in the same range everybody pays and gets the same. Token Y: exactly, and rates agree up to one unit. Token X: exactly for the same range, otherwise up to one unit and one part in 10^14.", "quantifier": "any two openings (or closings) in the same pool at the same price, by anybody, in any reachable states, all ranges of which one contains the other, all liquidities", "why_tests_cant": "the amounts are computed by different formulas depending on where the price lies relative to the range, with 24-digit rounding in each; comparing two arbitrary ranges and liquidities at every price cannot be sampled", "anchors": ["contracts/oraiswap-v3/src/math/clamm.rs:calculate_amount_delta", "contracts/oraiswap-v3/src/math/clamm.rs:get_delta_x", "contracts/oraiswap-v3/src/math/clamm.rs:get_delta_y", "contracts/oraiswap-v3/src/entrypoints/execute.rs:create_position", "contracts/oraiswap-v3/src/entrypoints/execute.rs:remove_position", "contracts/oraiswap-v3/src/storage/pool.rs:update_liquidity"]}
{"id": "C104", "title": "What a position loses against holding the tokens is bounded", "statement": "Valued at the price of its closing, a position is worth, without its fees, no more than the tokens that were put in would be if they had been kept, and no less than these times the ratio of the rate at which the position has exchanged the tokens and the price at the closing (the smaller divided by the larger). As long as both prices are within the range this is the square root of the ratio of the two prices. Up to rounding: 10^-14 units of X for the first bound; one unit of each token for cost and payment and one part in 10^14 of X for the second.", "quantifier": "every opening and every closing, in any two reachable states, of a position with the same pool, range and liquidity, so every history in between; all ranges, liquidities and prices", "why_tests_cant": "it relates two calls separated by an arbitrary history of trades, claims, transfers and other deposits, at every pair of prices and every range; the rounding of four amounts enters", "anchors": ["contracts/oraiswap-v3/src/math/clamm.rs:calculate_amount_delta", "contracts/oraiswap-v3/src/math/clamm.rs:get_delta_x", "contracts/oraiswap-v3/src/math/clamm.rs:get_delta_y", "contracts/oraiswap-v3/src/entrypoints/execute.rs:create_position", "contracts/oraiswap-v3/src/entrypoints/execute.rs:remove_position", "contracts/oraiswap-v3/src/storage/position.rs:create", "contracts/oraiswap-v3/src/storage/position.rs:remove"]}
{"id": "C105", "title": "What others can take from a trader is bounded by the trader's price limit", "statement": "Others may do what they like in a pool before and after the swap of a trader who has no position there (buying before and selling after, providing liquidity for the moment, claiming). Valued at the price the pool had at the beginning, they gain together at most what the trader pays less what the trader gets; and that is limited by the limit the trader set, since what the trader pays, less the fee, is worth at the price the swap ends at no more than what they get, and this price is not beyond the limit. More generally, when two groups act in a pool, one gains at most what the other loses.", "quantifier": "every reachable state, every pool, every group of other accounts and every sequence of their swaps, deposits, withdrawals, claims and transfers among themselves before and after, every swap of the trader in either direction and mode with any limit", "why_tests_cant": "the sequences of calls around the trade are arbitrary and unbounded, and the gain to be excluded is that of the best possible strategy", "anchors": ["contracts/oraiswap-v3/src/entrypoints/execute.rs:swap", "contracts/oraiswap-v3/src/entrypoints/execute.rs:create_position", "contracts/oraiswap-v3/src/entrypoints/execute.rs:remove_position", "contracts/oraiswap-v3/src/entrypoints/execute.rs:claim_fee", "contracts/oraiswap-v3/src/entrypoints/common.rs:calculate_swap", "contracts/oraiswap-v3/src/math/clamm.rs:compute_swap_step"]}
{"id": "C106", "title": "What others can take from a depositor is bounded by the deposit's price bounds", "statement": "Others may do what they like in a pool before and after the deposit of somebody who has no other position there (moving the price before and moving it back after, depositing and withdrawing, claiming). Valued at the price the pool had at the beginning, they gain together at most what the depositor pays less what the same position would contain at the price of the beginning. And what the depositor pays is limited by the price bounds given with the deposit: no more of token X than the range contains at the lower bound and no more of token Y than it contains at the upper.", "quantifier": "every reachable state, every pool, every group of other accounts and every sequence of their swaps, deposits, withdrawals, claims and transfers among themselves before and after, every deposit with any range, liquidity and price bounds", "why_tests_cant": "It ranges over every strategy of any number of accounts around the deposit and over every state, range, liquidity and pair of bounds; a test tries a few sandwiches.", "anchors": ["contracts/oraiswap-v3/src/entrypoints/execute.rs:create_position", "contracts/oraiswap-v3/src/entrypoints/execute.rs:swap", "contracts/oraiswap-v3/src/storage/position.rs:create"]}
{"id": "C107", "title": "A withdrawal needs no price bounds", "statement": "Removing a position takes no price bounds, and needs none: if the price has moved since the owner decided to withdraw, for instance because somebody moved it just before, the owner gets other amounts, less of one token and more of the other, but valued at the price before the move these are worth no less, fees apart, than what the owner would have got at that price, up to a unit of each token and one part in 10^14 of the amount of X.", "quantifier": "every pool, range and liquidity; every pair of reachable states, with any prices, in which a position of this pool, range and liquidity is withdrawn, so every history in between", "why_tests_cant": "It compares the withdrawals in all pairs of states, at all prices inside and outside all ranges; a test moves the price a few times.", "anchors": ["contracts/oraiswap-v3/src/entrypoints/execute.rs:remove_position", "contracts/oraiswap-v3/src/storage/position.rs:remove", "contracts/oraiswap-v3/src/math/clamm.rs:calculate_amount_delta"]}
{"id": "C108", "title": "Nobody gains by acting around a withdrawal", "statement": "Others may do what they like in a pool before and after somebody with one position there withdraws it. Valued at the price the pool had at the beginning, they gain together nothing but roundings: at most two units of each token, one part in 10^14 of the X withdrawn, and 10^-14 units of X for each of their own swap steps and deposits.", "quantifier": "every reachable state, every pool, every group of other accounts and every sequence of their swaps, deposits, withdrawals, claims and transfers among themselves before and after, every position of the one who withdraws", "why_tests_cant": "It ranges over every strategy of any number of accounts around the withdrawal and over every state and position; a test tries a few sandwiches.", "anchors": ["contracts/oraiswap-v3/src/entrypoints/execute.rs:remove_position", "contracts/oraiswap-v3/src/entrypoints/execute.rs:swap", "contracts/oraiswap-v3/src/storage/position.rs:remove"]}
