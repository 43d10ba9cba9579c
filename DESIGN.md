# Formal model of oraichain/oraiswap-v3 — design

Everything is in `lean/Verif`. The source is the Rust CosmWasm contract in
`/repo/contracts/oraiswap-v3`, its decimal macros in `/repo/packages/decimal*` and the client
simulation in `/repo/wasm`. The code was read as text; nothing of it is executed.

## Shape of the model

* Function by function, total computable Lean definitions, each with a comment giving file and lines.
* `Result` stays data: `M α = Except Err α`. `Err` lists the contract's error variants that can
  occur; a Rust panic (overflow, `unwrap`, `assert!`, index out of range; release profile has
  `overflow-checks = true`, `panic = "abort"`) is the explicit value `Err.panic`. In CosmWasm both
  abort the message and revert all its writes.
* Integers are `Nat`/`Int` with the overflow checks of the code written out. Where both operands have
  a type that cannot overflow the operation (u128 × u128 in 256 bits) the check is omitted and the
  comment says so; C51 proves that nothing is lost by this. Out-of-range numbers in a message are rejected at the boundary like serde does.
* Storage is a record of sorted key/value maps (`KV`) with **raw byte keys**, encoded as in the code
  (length prefixes, big endian integers), so that key collisions would be visible.
* Loops are structural recursions; the swap loop takes fuel, running out is the explicit
  `Err.outOfFuel`, and a theorem shows the fuel is never exhausted (termination).
* `execute : Chain → Env → Info → Msg → Store → M (Store × List OutMsg)` is the message interface.
  A `World` adds a token ledger (native and cw20 balances, allowances) in which the attached funds are
  moved first and the emitted messages are then carried out; any failure reverts the whole call.
* Histories are lists of calls by arbitrary senders plus arbitrary outside changes of the ledger that
  do not take tokens from the contract. Invariants are proved by induction over histories.

## Layout

| module | content |
|--------|---------|
| `Base`, `KV` | errors, result monad, integer widths, byte strings; ordered key/value storage |
| `Decimal` | the decimal library and the arithmetic of the contract once more, literally, in fixed-width integers |
| `Math` | decimals with the code's rounding, tick prices, integer logarithm, token amounts, swap step |
| `Types`, `State` | stored records, messages, byte keys; storage access, tickmap and its search |
| `PoolOps`, `Swap` | operations on ticks, pools and positions; the swap loop and routes |
| `Contract`, `Query` | all execute and query entry points |
| `Events` | the responses with their attributes; how to read them |
| `Raw` | the flat storage below the maps |
| `Liquidity`, `Sdk`, `Client` | the liquidity helpers; the client's swap simulation; the client's fee and tickmap helpers |
| `TimeWeight` | `seconds_per_liquidity.rs` |
| `Ledger` | token balances, allowances, transactions (environment, not code of the repository) |
| `Spec`, `Exact`, `FeeSpec`, `FeeHistory`, `Solvency`, `TradeSpec`, `Clock`, `Shares`, `Party`, `AdminSpec`, `AccountSpec`, `RecordSpec`, `TraceSpec`, `PayoutSpec`, `OfferSpec`, `RouteSpec`, `SafeSpec`, `KeepSpec`, `CurveSpec`, `TimeSpec`, `ReadSpec`, `OperatorSpec`, `WorkSpec`, `HandoverSpec`, `StrategySpec`, `ExitSpec`, `HostileSpec`, `NeutralSpec`, `PartsSpec` | vocabulary of the statements; not used by the model |
| `Examples`, `WorldExamples` | concrete histories: non-vacuity and counterexamples |
| `Lemmas/*` | helper lemmas |
| `Props/*` | the property theorems, each beside a non-vacuity example |
| `Tests/*` | the repository's own tests, run on the model |

Where to start reading: `Spec.lean` (which states are reachable), then `Props/`.

Vocabulary of the statements:

* `Reach c s`: storage `s` occurs after instantiation and any list of calls by any senders at any times.
* `drift s k`: the error of a pool's liquidity. Many properties are false of the code once it is not zero, and are proved for
  pools in which it is zero. C01 is the complete law of it: it becomes nonzero only by swaps in the same pool that end in one of
  the exceptional ways listed in `Spec.lean` (`RegularEnd`; findings 1, 18 and 19 below).
* `RegularReach c P s`: `s` is reached by calls whose swaps in pools of `P` end regularly. `History c T w n`: the same with
  balances, for the pools that trade a token of `T`. Swaps in other pools are not restricted.
* `World`: storage plus token ledger. `World.tx` is one transaction with its fund transfers.

## Trusted base

* Lean 4.33.0 kernel. Axioms: at most `propext`, `Classical.choice`, `Quot.sound` (standard library and
  Mathlib); `#print axioms` on every theorem of `MANIFEST.json` shows nothing else. No own axioms, no
  `sorry`, no `native_decide`/`bv_decide`. `decide +kernel` (evaluation by the kernel) is used for
  concrete witnesses and for finite tables that a lemma then lifts.
* That the model's definitions transcribe the cited lines. As a check of this (not as a proof of anything), `Tests/*` runs the
  repository's own tests on the model, with their literal numbers: the vectors of the unit tests of the decimal, math and
  storage modules, and the integration scenarios of `src/tests`, played as transactions with balances. All of them pass. The
  kernel evaluates them, except those with hundreds of positions (`Tests/Large`), which Lean's interpreter evaluates (`#guard`);
  no theorem depends on them. One passes but is too slow for the build (`test_get_tickmap_max_chunks_returned`).
* CosmWasm semantics: atomic revert on error/panic; messages of the response are executed after the
  handler, in order; attached funds are credited before the handler; storage is a map ordered by key
  bytes; message senders are authenticated and the contract never is a sender of a message to itself.
* `cw-storage-plus` forms raw keys as described in `Raw`. That the maps then do not interfere, so that the model may have
  one `KV` per map, is proved (C62).
* `uint`, `cw-storage-plus`, `cosmwasm-storage`, `cw20` behave as documented; cw20 tokens and the bank
  module are honest ledgers (no fee on transfer, no rebasing, no call back into the contract). C91 drops this for
  all tokens but the one it speaks about.

### Not modelled

* JSON (de)serialisation, gas, schema generation, the `cw2` version record.
* UTF-8 validity of strings: a string is any byte list, which is a superset.
* The JS bindings in `wasm`, apart from the arithmetic helpers and the simulation loop. The client's
  copies of the arithmetic are those of the contract up to the type of their errors and share its definitions.
* The migrate entry point (it does nothing) and the receiver contract called by `SendNft`
  (the message is emitted; what the receiver does later is a further call of the history).
* `math/types/seconds_per_liquidity.rs` is called by no entry point; it is modelled as a library (C83).

### Known deviations of the model

* `Pool.updateTick` turns every error of `Tick::cross` into a panic, as the code's `unwrap` does.
* Keys of ticks and chunks are computed modulo 2^32 and 2^16 like the casts in the code; the
  theorems on keys (C21) show that this loses nothing for valid ticks.

## Properties: what is modelled and how it is proved

| id | plan |
|----|------|
| C01 | Sum invariant over all reachable states. Expected to be false: after crossing a tick downwards a step that does not move the price recomputes the tick from the price and "un-crosses" it without restoring liquidity (Uniswap guards this case, `Pool::update_tick` does not). Plan: concrete witness history evaluated by the kernel, and the invariant for all histories in which no swap stalls on a boundary (`_partial`). For all histories: the error of the liquidity (`drift`) and how each call changes it. |
| C02 | Invariant by induction over histories (create/remove/claim/swap), tick records and bitmap against sums over the positions map. |
| C03 | Invariant; needs C22 (monotone price function, correct logarithm) and nearest-tick search C23. |
| C04 | Potential function: exact rational value of all positions at the current price + exact pending fees + protocol fees ≤ ledger balance + ε·steps. `get_delta_x` rounding "up" floors an intermediate product, so the exact inequality has an error of at most 10^24/(a·b) per step; proved with the step count. False for routes that pay twice with the same native coin (witness). The single-token form, which restricts only the pools that trade the token, is C91. |
| C05 | Part of the potential argument: fee growth inside is unchanged by crossing and grows only for in-range positions; wrap-around modulo 2^128 handled explicitly. |
| C06 | Arithmetic lemmas on `get_delta_x/y`, lifted to `create_position`/`remove_position`. |
| C07, C08, C09, C10 | Loop invariants of `calculate_swap`. |
| C11, C12 | Equality of the entry points; route by induction over hops with a frame lemma; witness for a repeated pool. |
| C13, C14, C15, C18, C40 | Case analysis over all messages with frame lemmas. |
| C16, C38, C39 | Refinement of the raw key encoding to a list of positions per account; witness that ids are not stable. |
| C17 | Expected to be false for approved callers: `handle_burn` checks the named token but removes the *sender's* position with that index. Negation with witness, theorem for the owner as `_partial`. |
| C19, C21 | Injectivity of the byte encodings, invariant on the pools map. |
| C20 | Expected to be false (`add_fee_tier` has no duplicate check): witness; positive part `_partial`. |
| C22 | Price function: kernel-checked complete table/analytic ratio argument; logarithm: monotonicity of the approximation plus a check of every tick boundary, lifted to all prices. |
| C23, C30 | Bit-level lemmas for all bitmaps. C30 expected to fail (`1u64 << 64` panics at chunk borders): witness and conditional theorem. |
| C24 | Fuel sufficiency from a decreasing measure. |
| C25, C26 | Inequalities over `Nat`/`Rat`. |
| C27 | Counting: active liquidity ≤ sum of tick gross ≤ number of ticks × cap. |
| C28, C32 | Case analysis over messages, arithmetic of `add_fee`; for C28 also induction over the price moves of a swap, naming the fee and the share of each. |
| C29 | Single payments: theorem on the emitted messages. Routes and zero amounts: witnesses that the claim is false. |
| C31 | Page functions over lists; the documented maximum is not enforced: witness. |
| C33 | Success theorem for `remove_position` in invariant states. |
| C34, C35 | Expected to be false: witnesses. |
| C36 | Simulation relation between the two loops. |
| C37 | Inequalities over `Nat`. |
| C41 | Success theorem for `claim_fee` in invariant states; payment from C04; a concrete counterexample (`C41_false`) for irregular swaps. |
| C42 | Inequalities over `Nat`; witness for the shortfall. |
| C43 | The pages of the tickmap as a function of the storage; combined with C02. |
| C44, C45 | Pages of sorted lists. |
| C46 | Potential argument: principal of all positions as a function of the price, monotone in both tokens, against the contract's balances. Expected to fail with the swaps of finding 19: witness. |
| C47 | `calculateFee` modelled; both sides reduce to the whole units of `accrued`; acceptance from C41, amounts from the removal and claim views. |
| C48 | Both conversions reduce to the bit number of a tick; set bits are stored ticks (bitmap invariant), stored ticks are used ticks (C02). |
| C49 | Bound for one price step (both rounding directions, fee), invariant over the loop with the price on the right side of the starting price; number of steps from C24. |
| C50 | The decimal library transcribed literally, generic in scale and widths; each operation against floor and ceiling of the rational result. |
| C51 | The arithmetic transcribed a second time, literally (`Lit`); bounds for every intermediate result; disjoint bits for `|=`; loop of the logarithm by induction. |
| C52 | Every token query against the numbered lists (`IsToken`); success of a transfer as an equivalence with the accounts the queries name. |
| C53 | The listing as a filter of the fee tiers; false of the code (two histories), the exact content of the answer is proved instead. |
| C54 | Two runs of the swap loop from the same state are compared by induction (`Lemmas/Mono`); false of the code in three cases, proved for the rest and up to rounding. |
| C55 | Two runs of a call side by side, in storages that agree on the data the call uses, plus frame conditions (`Lemmas/Rel`, `RelStore`, `RelExec`); commutation by comparing both orders component by component. |
| C56 | The same side-by-side relation, with pools, ticks and positions equal up to timestamps and heights; induction over the history. |
| C57 | Unfolding of swap and route; the sender occurs only in the messages. |
| C58 | Invariant `Struct` for the parameters; acceptance of CreatePool as an equivalence. |
| C59 | Acceptance of a deposit as an equivalence (`Lemmas/Accept`): every step of the call succeeds, using the invariants for ticks, tickmap and price and bounds on the amounts. |
| C60 | `Clock`: time below and above a tick, histories with a clock. Invariant: recorded time ≤ age of the pool. An iteration of a swap keeps the time below every used tick (`Lemmas/Clock`), as for the fees of C04. |
| C61 | `Events`: handlers with their attributes, decimal text, and a reader of decimal text as specification. Dropping the attributes gives `execute`; reading back what `Display` writes is the identity; the amounts are tied to balances with the ledger lemmas of C07, C08 and C29. |
| C62 | `Raw`: the flat storage with the raw keys of `cw_storage_plus`. Names are prefix free because of the length in front; simulation of reads, writes, removals and range scans by the maps of the model. |
| C63 | `Shares`: a swap as a list of price moves. Each iteration of the loop is one move; the growth inside a range is tracked as in C05, with a lower bound for what a unit of liquidity gets. Summed over positions with `liquidityInRange`. |
| C64 | Bound for one price step measured at the price it reaches (both rounding directions, fee, the final rounding of the price), invariant over the loop counted by its steps. Together with C49 it puts every trade between the price before and the price after. |
| C65 | Every part of the loop shown to succeed under stated bounds: search, price step (both directions), fee growth, tick crossing (C27), totals (what is paid out bounded by the distance the price moved). Induction along the iterations, which end by C24. Refuted in full by two concrete pools. |
| C66 | Every message of every entry point classified (`OutMsg.Between`: a transfer to the sender, or from the sender to the contract); effect of such messages and of attached funds on an arbitrary account of the ledger. |
| C67 | Settings and receivers as functions of the call (`AdminSpec`), case analysis over all messages with frame lemmas; acceptance as an equivalence. |
| C68 | Invariant over histories of calls sent by accounts (`AccountSpec`). Refuted by a concrete history. For strings that are not accounts: nobody can become their operator or be approved (C15), so their list of positions only grows. |
| C69 | Refinement of C16 with the whole record (`RecordSpec`); invariant over timed histories for the times of pools. |
| C70 | From the ordering of tokens in stored keys (C58), the list of positions (C16) and the tick sums (C02). |
| C71 | The charges as functions of the price (C25, C37) and how the two roundings of `get_delta_x` and `get_delta_y` behave under addition. Witness for the saved unit: a price just above 1 and a liquidity solving a congruence. |
| C72 | Views of the two calls composed: ticks return to their value because gross and net are added and subtracted, the bitmap because flips are exclusive-ors that cancel, the list because the freed place was the last. For the continuation the relation between two runs of C56 is reused, extended to ticks that differ in the sign of a zero. |
| C73 | The other order is accepted by the exact condition of C59, whose sums and caps are symmetric in the two deposits. The two final states agree field by field: what a deposit does not change in a tick is the same whether the tick is found or created (`Base`), gross and net follow from the tick invariant and the equal positions, the bitmap from exclusive-ors that commute. The continuation is that of C72. Any number of deposits: every permutation is made of exchanges of neighbours (`Batch.any_order`). |
| C74 | Induction over the calls in between: a call that does not trade in the pool leaves its price, its tick, its fee growth and the fee growth outside the position's ticks as they are (they are occupied, so they are not deleted); the payment is a function of these (C25, C47). Acceptance from the exact condition for withdrawals. |
| C75 | Inversion of each handler in one direction; in the other the invariants of C01, C02, C12, C16 and C23 exclude every other error: records exist, ticks are initialised, bits are set, sums do not underflow. |
| C76 | False of the code (finding 33). What holds of every swap with a regular end follows from the price moves of C63: each step charges at least the curve's input plus the pool's percentage of it, summed over the moves. |
| C77 | The client's functions are modelled beside the contract's and compared with the exact acceptance conditions of C58, C59 and C67. False at two edges (finding 34). |
| C78 | Invariant of the loop: cost so far, amount paid out, and the exact amount on offer between the current price and the limit; each step of the loop is shown to succeed from bounds on its intermediate values. False where a range is thin compared with the amount (finding 35). |
| C79 | Induction over the hops; a hop as a call of its own is the same swap with the same price limit, and its output fits the message. With balances: messages sent together or one list after the other do the same. |
| C80 | A safe trade ends regularly (the swap does not change positions, and the quote is the final price); so histories of safe calls are histories of regular calls, and C01, C04, C33 and C41 apply. |
| C81 | The moves of a swap (C63) bound what a unit of liquidity earns by what the trader pays; induction over hops and over calls, with the earnings per unit kept modulo `2^128`. False when that counter runs over (finding 36). |
| C82 | Each step compared with the exact amounts of the curve, both ways; the curve as a function of the positions (`CurveSpec`) by the telescoping sums of C04; invariant of the loop with the unused last digit of the price counted only in the last step. False after an irregular end. |
| C83 | Induction over a history of counters: time passing adds, passing a tick mirrors; arithmetic modulo `2^128` as for fees (C05). |
| C84 | A reading client as a recursive function over the queries (`ReadSpec`); induction over the pages, then C02, C36 and C48. |
| C85 | The limits of the queries against the library's constants; false for pools (finding 37): 101 pools as witness. |
| C86 | An invariant of the loop with a step counter (`swap_count`): each step that leaves something crosses a tick in use or passes 256 empty ones, because the search for the next tick stops no earlier (`Closer.far`). |
| C87 | A claim changes a tick record at most in the sign of a zero change (`tick_claim`), which the removal overwrites; the rest of the storage is compared record by record (`claim_remove_store`). A payment in two parts is the same as one payment (`pay_split`). |
| C88 | The three calls take the record out and append it, approvals cleared (`handover_inv`, `handover_view`). Acceptance follows from the exact conditions of C75, payments from `remove_pays` / `claim_owes`, and the storage is compared record by record (`handover_remove`, `handover_claim`). |
| C89 | Potential argument: the principal of the others' positions plus the worth of the group's positions grows by at most what the contract receives, in each token and for each kind of call (`Staked.*`, from the books of C27/C33; a swap's fees are shared so that no part of the positions gets more than the fee). The others' principal is a convex function of the price: valued at the first price it is least there (`rest_tangent`). Expected to fail with the swaps of finding 19: witness. |
| C90 | Like C73. A withdrawal or claim is described by what it does to lists, pools, tick counters and bitmap (`Exit`); the other order is accepted by the exact conditions of C75, as the fees inside a range do not depend on who else leaves. Final states: the lists determine the positions (`positions_of_lists`), these the ticks' liquidity, and the stored ticks the bitmap (`chunks_of_ticks`). |
| C91 | Machine with a list of unfinished messages: foreign programs may call whenever it is their turn, the messages of such a call come first. Invariant by induction over its steps: owed ≤ balance + messages still to be carried out. Every call changes both sides equally whatever the balances are (`execute_covered` of C04), a foreign message moves no honest token. Regular swaps are demanded only in pools that trade a token of the set (`ActiveIn`); the others change no debt in it. Removal and claim follow as in C33 and C41. |
| C92 | Two runs side by side: if both computations succeed, their results agree up to fee counters (`Both`, `SameButFees`), function by function; the counters are read only to compute counters and payouts of fees. Induction over the calls. |
| C93 | Per step: a step that stops short of its target stops at the same price for a target further away, because the amount needed for the target grows with it; then the tick is recomputed from the price in both runs. Induction over the steps, with prices moving one way. False for exact-output swaps from Y to X, where the amount does not grow with the target (finding 39). |
| C94 | As C89, token by token over a list of pools: every call, and every hop of a route, changes the stakes of one pool by at most what the contract receives and those of the others not at all (`Staked.other`, `route_stakes`); the sum weighted with the tokens' values is a sum over pools, each of which keeps at least the others' principal at its first price. Expected to fail for routes that pay twice with the same native coin: witness. |
| C95 | Exact amounts at two prices differ by an exchange at the mean of the two (moved into the range), an identity of rational functions (`position_rate`); the whole calls stay within C25's roundings of the exact amounts. No invariant about the history is needed, because a withdrawal is computed from the position's record (constant by C69) and the price alone. |
| C96 | Exact amounts over a range are the sum of those over its parts (case distinction on the side of the dividing tick the price is on), and the calls of C71 stay within a rounding of them. For fees: the growth inside a range is a difference of the ticks' counters modulo `2^128`, so the counter of the dividing tick cancels in every state, and nothing about the history is needed. |
| C97 | Both the one swap and the parts follow the price curve (C82), and curve amounts add up, because swaps do not change the positions. The curve bends: beyond the end of the one swap the other token costs at least the price there (`principal_tangent`). The two ways of charging the fee (C76) leave the square of the rate between them; witness from `C76_two_ways`. |
| C98 | As C97, with two states: at the same pair of prices the curve of the deeper pool is that of the other plus the contents of the additional positions, and these trade at no worse than the price at which the trade ends. Opening a position changes no price and adds one position (C63). The two ways of charging the fee (C76) again leave the square of the rate between them; witness at a tick where two positions meet. |
| C99 | One theorem for each kind of call. Swaps: the price moves of C63 make up the way along the curve of C82, so that inputs, fees and protocol shares account for all of the change in principal, unpaid fees and protocol record; the counters are assumed not to run over. Deposits and payouts: the debt changes by exactly what the position is worth, compared with the rounded amounts of C06. All other calls: case by case. Witnesses: a counter that runs over (C81), an irregular end (C82), coins attached but not needed (C29). Routes are left to C79. |
| C100 | Both amounts are the exact content of the position at that price, rounded up when it is opened and down when it is closed (as in C96). Closing at once: the pool's active liquidity has just grown by that of the position, its fees are zero, and the contract has just been paid at least what it has to pay; no invariant about the other positions is needed. |
| C101 | A withdrawal belongs to the histories of C04 and rounds nothing in the contract's disfavour, so C33 applies after any number of them; induction over the number of open positions (C39). That an empty pool has no liquidity, ticks or debts follows from C01 and C02. Witnesses: those of C33 and C41. |
| C102 | The bounds of C13, the exact amounts of C96, and that the contents of a range are monotone in the price. |
| C103 | The exact amounts of C96, and that the contents of a range grow with the range and are proportional to the liquidity; for X in the same range the rounding itself is monotone. |
| C104 | The exact amounts of C96 and the rate of exchange of C95 (the payoff of a range is concave in the price); the bound on the loss is an identity in the two prices. |
| C105 | C89 for the group of all who act, whose wealth is the sum over its parts; the balances of the trader change only in the trade (C66); C64 and C09 for the trade itself. |
| C106 | C105 with the depositor as the other group; others do not change the list of positions of the depositor (C16), so that it has the new position at the end; its contents are worth at the first price at least what they would be there (C95's tangent inequality); C102 for what is paid. |
| C107 | What a withdrawal pays is the exact content of the range at the current price up to rounding (C96); valued at one price the content is least at this price (C95's tangent inequality). |
| C108 | As C106: C105 with the owner as the other group; the owner's position is the same record until the withdrawal (C16), which pays its content up to rounding and its fees, and C107 compares the content at the two prices. |

The outcome for every property, with the names of the theorems and what is missing, is in
`MANIFEST.json`. Outcomes that differ from the plan:

* C01, C04, C05, C27, C33, C46, C63, C89: false as stated, because of findings 1, 18 and 19. Each is proved for all
  histories that avoid these endings of swaps.
* C09, C26: false for exact-input swaps from X to Y (finding 18). The excess is bounded.
* C93: false for exact-output swaps from Y to X (finding 39), proved for the other three modes.
* C94: false for routes that pay twice with one native coin (C29) and for irregular swaps (C89), proved without these.
* C22: proved analytically. The error of the integer logarithm is bounded against the real logarithm;
  no table of ticks is needed.
* C04: the rounding error is bounded per price step (10^-14 units) and enters the theorem as the number of
  steps of the history.

## Mutation tests

`seeded/LOG.jsonl` has one line per wrong program tried: the edit, the claims it was expected to break, and the
theorems whose proofs then fail. A theorem counts as failing if its own proof fails or if it depends on one that
does. A failing proof shows that the theorem notices the edit, not that its statement has become false: that was
judged by reading. `claim` is what was expected before the run; when only some of the expected claims have a theorem
in `claim_theorems_no_longer_proved`, the others did not notice the edit. `outcome` is `caught` as soon as one
expected claim fails. Attempts whose edited copy did not build far enough to say anything are kept, as `inconclusive`.

Edits that showed a theorem to be too weak, and what was done:

- `n01`: the parameters of a new fee tier were not stated; `C58_parameters`.
- `n48`: dismissing operators of somebody else; `C15_strangers_cannot_appoint`.
- `n07v`: burning without permission; `C17_burn_partial`. C15 stays true of this edit, because burning acts on the
  caller's own position of that number (finding on C17).
- `p27`: `ApproveAll` recording the appointment the wrong way round was noticed by `C18_operators` but not by C44, whose
  theorem spoke of the stored records only; `C44_operators_are_the_appointed` and `C18_operators_are_the_appointed` speak
  of the calls made.
- `p34`: changing the protocol fee also changing the fee tiers was noticed by other claims but not by C14;
  `C14_only_these_calls`.
- `u14`: fees at the lower tick of a range counted as outside it went unnoticed by C32, whose theorem took what has accrued from
  the code's own function; it is now `accrued`, defined from the growth on either side of the range (`FeeSpec.lean`).

Expiry (`ValidAt`) was made explicit in the theorems of C52 and C56 in the same way.

## Findings

Disagreements between documentation, claims and code found on the way. Those with a theorem name are
proved by a concrete history in the model.

1. **Stall after a crossing** (`C01_false_stall`). After crossing a tick downwards, an iteration that does
   not move the price recomputes the tick from the price and steps back over the tick without restoring
   its liquidity. The pool then trades against the wrong liquidity.
2. **Burn by an approved spender** (`C17_false`). `Burn` checks the permission on the named token but removes
   the *sender's* position with that number.
3. **Duplicate fee tiers** (`C20_false`). `AddFeeTier` accepts a tier already listed, although documented
   otherwise; removing it removes one copy.
4. **Attached native coins.** A route whose hops take the same coin twice is refunded the unused amount at every
   hop (`C29_false`: a trader gains 99000 X from the pools). A coin attached to a call that turns out to need
   none of it is kept (`C29_zero_false`). Unrelated coins attached to a call are kept.
5. **Protocol fee above 100 %** (`C35_false`). It is accepted and every swap that charges a fee then panics. A
   slippage above 100 % also panics.
6. **Quotes of routes** (`C12_same_pool_false`). `QuoteRoute` computes each hop on the unchanged state. A route
   visiting a pool twice is quoted 81878 and pays 68294.
7. **Counting ticks** (`C30_false`). `LiquidityTicksAmount` shifts a 64-bit word by 64 and panics when a bound is
   at the end of a word.
8. **Listings** (`C31_false_cap`, `C31_false_offset`, `C31_false_tokens`). The positions listing has no cap, although
   a comment says 100; offset plus limit may overflow; `start_after` of the tokens listing is inclusive.
9. **Token ids are not stable** (`C38_false`). Removing a position renumbers the last position of the account.
10. **Exact output in a thin range** (`C34_false`). The step computes a target price by a subtraction that fails
    when the amount wanted exceeds the thin range, and the swap is refused although enough liquidity
    follows. Exact input succeeds.
11. Exact-input swaps charge exactly the amount, exact-output swaps pay exactly the amount (`C07`, `C08`); no
    exception found.
12. **Step of an exact-input swap** (`C26_in_false`). Input plus fee may exceed the amount left; the loop then fails
    by underflow.
13. **Rounding of charged X** (`C25_charge_x_below_exact`). `get_delta_x` rounds an intermediate product down, so that
    the charged amount can be below the exact one, by less than 10^-14 units.
14. A swap never pays without charging (`C10`); no exception found.
15. **Liquidity helper** (`C42_false`). The reported amount of the other token may be one unit too small (34
    reported, 35 taken).
16. **Dust liquidity.** `FeeGrowth::from_fee` fails when the fee is large relative to the liquidity, which
    refuses the swap. Lowering the protocol fee can bring this about.
17. **Reported fee.** The `fee` a swap reports leaves out the unused remainder of the input, which is also
    given to the liquidity providers.
18. **Overshoot** (`C09_limit_false`, `C26_target_false`, `C01_false_passing`). An exact-input step from X to Y can end
    below its target price because the next price is rounded down. A swap can end beyond the caller's
    limit, and a tick can be passed without being crossed.
19. **Limit on a used tick** (`C01_false_limit_on_tick`, `C04_false`, `C05_false`, `C27_false`, `C33_false`,
    `C46_false`). A swap whose
    limit is exactly the price of an initialised tick stops there with the tick recomputed but not crossed. The
    pool's liquidity is wrong from then on. Consequences shown: the contract holds 991 X and owes 1488; the only
    trader paid 913 Y and a provider claims 11000 Y as fees; a removal fails by underflow; a trader gains
    2.5 % of a provider's deposit with three swaps and no cost.
20. **Locked position** (`C33_false`, `C41_false`). After a swap as in 19 the removal of a position underflows the pool liquidity and fails; a position may be credited with more fees than the contract has, and its claims fail.
21. **Wrap-around of fee growth.** The accumulators wrap modulo 2^128. A position that does not claim while the
    growth passes 2^128 loses that multiple; it never gains (`C05_fees_partial` covers it).
22. **Routes need not be connected.** Nothing checks that the output token of a hop is the input token of the next.
    With native coins every hop's input must be attached to the call up front.
23. **Simulation gives up early** (`C36_simulation`). The client simulation stops after 173 crossed ticks; the contract
    has no such limit.
24. **Pools of removed tiers are not listed** (`C53_false_removed`, `C53_false_twice`). `PoolsForPair` goes through the
    current fee tiers. A pool whose tier was removed stays open and trades but is not listed; a tier added twice lists its pool
    twice.
25. **A larger trade can give less** (`C54_false_buy_x`, `C54_false_sell_y`, `C54_false_sell_x`). In a thin pool one unit of X costs
    17 Y while two units cost 5 Y. At low prices selling one unit more can pay less (10436185647 units of X, 400000 units of
    Y), because a step that ends at a tick uses other roundings than a step that ends before it.
26. **Time records go wrong with uncrossed ticks** (`C60_false`). After a swap that ends on a tick without crossing it
    (finding on C01) the recorded time in range of a range the pool never entered is the whole age of the pool. The field is
    called `seconds_outside` but counts milliseconds.
27. **Events are incomplete** (`C61_pool_not_named`, `C61_receiver_not_named`). Events of opening and closing a position name neither
    the pool nor the index of the position, a swap event names no pool, and the event of `transfer_position` names neither position nor
    receiver. The comments of `swap` and `swap_route` promise an event per crossed tick and per hop; there is none.
28. **A deposit of one unit blocks purchases** (`C65_dust_false`). When an exact-input purchase of X arrives at a tick, the contract
    computes how far the whole remaining amount would move the price in the range it just left. With liquidity 1 (raw) this
    overflows for more than 3.4·10^8 units of Y and the swap fails. Anybody can open such a position in a gap of the
    liquidity, for one unit of X; every larger purchase that has to pass the gap then fails.
29. **Single amounts are refused** (`C65_odd_amount_false`). With 12, an exact-input sale of 1000 units is refused at a
    price of 1.0005 while 999 and 1001 units are accepted.
30. **Receivers are not validated** (`C68_false`, `C68_lost`, `C68_frozen`). `transfer_position` validates the receiver's address;
    `transfer_nft`, `send_nft`, `change_admin` and `change_fee_receiver` take an `Addr` from the message, which is any string. A position sent to a
    mistyped address (or one in upper case) is lost for ever together with its tokens, and a mistyped admin freezes the settings.
31. **`last_block_number` is the first block** (`C69_records`). The field is set when a position is opened and never updated.
32. *Sign of zero* (C72, C73). A tick's net liquidity is stored as a magnitude and a sign. Opening and closing a position at a
    tick whose net liquidity is zero leaves the magnitude zero but flips the sign, and so does exchanging two deposits (C73) (`update_liquidity_change`,
    `storage/tick.rs:131-142`). No call depends on it, but the tick queries show it.
33. **The fee depends on how a trade is specified** (`C76_false`, `C76_two_ways`). A step of an exact-input swap that ends between
    two ticks keeps the pool's percentage of the amount paid. Every other step (exact output, or an end at a tick or limit)
    adds the percentage to the net input, which is less. In a pool with a fee of 1 %, 989901 Y cost 1000000 X by amount in
    and 999900 X by amount out (`math/clamm.rs`, `compute_swap_step`).
34. **The client accepts what the contract refuses** (`C77_tier_false`, `C77_range_false`). `new_fee_tier` accepts a fee of exactly 100 %,
    `add_fee_tier` does not (`>` against `>=`); `check_ticks` accepts an empty range, `create_position` does not.
35. **One unit deposited into a gap blocks purchases of an exact amount** (`C78_dust_false`). At a tick boundary the swap asks whether the
    amount still to be paid out would move the price, using the liquidity of the range it leaves. If that liquidity is small,
    the price asked for does not exist and the computation fails (`.bigLiquidityOverflow` for purchases, `.sub` for sales) instead of answering
    yes. A position of liquidity 0.000001 in a gap costs one unit and makes every purchase across the gap for more than a
    handful of units fail (`math/clamm.rs`, `is_enough_amount_to_change_price`).
36. **Earned fees are lost when their counter runs over** (`C81_false`). Fees per unit of stored liquidity are kept modulo `2^128` in units of
    `10^-34`, which is 34028 units of the token. A position that lets more than that accumulate per unit of its stored liquidity is paid the
    remainder only; the rest stays in the contract (`math/types/fee_growth.rs`, `unchecked_add`, `unchecked_sub`).
37. **The client's page sizes for pools exceed the contract's** (`C85_false`). The library exports 220 and 126 as the numbers of pools a query
    returns (`wasm/consts.rs`); the contract cuts every listing at 100 (`state.rs`, `MAX_LIMIT`). A client that takes a page shorter than it
    asked for as the last one misses pools as soon as there are more than 100.
38. **Buying X by exact output may take extra steps within one range** (`C86_false`). The step computes the price for the amount wanted, rounds,
    and delivers less than wanted; the loop goes on from there. In a thin pool one unit costs four steps and 17 Y, two units one step
    and 5 Y (see also finding on C54) (`math/clamm.rs`, `compute_swap_step`).
39. **A looser limit can make a purchase fail** (`C93_looser_limit_false`). For the amount of X available up to its target a step divides by
    the product of the two prices, rounded up (`math/clamm.rs`, `get_delta_x`). Where that product steps up by one unit the computed amount
    goes down as the target goes up; at low prices by many units. In a pool at tick -200000 a purchase of 2408.66 * 10^18 units ends inside
    its limit, and fails with `PriceLimitReached` when the limit is raised by one unit of price.
