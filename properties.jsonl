{"id": "C01", "title": "Tick to price conversion is total on the tick range and strictly increasing", "statement": "For every tick in [-221818, 221818] the tick-to-sqrt-price conversion succeeds, the price of a larger tick is strictly larger, tick 0 has price exactly 1, the two extreme ticks have exactly the published minimum and maximum sqrt prices, and every tick outside the range is rejected with an error rather than a price.", "quantifier": "every 32-bit tick index (and every pair of ticks in range)", "why_tests_cant": "443637 ticks give ~10^11 pairs; the price is a product of up to 18 truncated constants and, for negative ticks, a truncated reciprocal, so monotonicity at every carry has to be argued, not sampled.", "anchors": ["calc/math/types/sqrt_price.rs: calculate_sqrt_price", "calc/math/consts.rs: MAX_TICK, MIN_TICK, MAX_SQRT_PRICE, MIN_SQRT_PRICE"]}
{"id": "C02", "title": "Price to tick lookup returns the floor tick for every price and spacing", "statement": "For every sqrt price between the minimum and maximum sqrt price and every tick spacing 1..100, whenever the lookup returns a tick t, t is a multiple of the spacing, and the price lies in [price(t), price(t+spacing)) (with ticks outside the range treated as unbounded); in particular looking up the price of a tick that is a multiple of the spacing returns that tick. The lookup only fails on out-of-range prices, or at the single top price when the spacing leaves no room for a farther tick.", "quantifier": "every sqrt price value (about 6.5*10^28 of them) and every tick spacing", "why_tests_cant": "The lookup uses an iterative fixed-point base-2 logarithm with truncations and a two-candidate correction; no test can visit all prices, and one wrong candidate breaks swap accounting.", "anchors": ["calc/math/log.rs: get_tick_at_sqrt_price, log2_iterative_approximation_x32, align_tick_to_spacing, sqrt_price_to_x32"]}
{"id": "C03", "title": "Token-Y amounts are exact ceilings and floors", "statement": "The amount of token Y for a price interval and a liquidity, whenever returned, equals the exact real value L*|a-b| rounded up to the next integer when rounding up is requested and rounded down otherwise, for any order of the two prices, and an error is returned only if that amount does not fit in 256 bits.", "quantifier": "every pair of 128-bit sqrt prices and every 256-bit liquidity", "why_tests_cant": "Rounding is done in several stages at different widths; that the composition equals one exact ceil/floor for all operands is an algebraic fact.", "anchors": ["calc/math/clamm.rs: get_delta_y", "calc/decimal/decimal_core/src/by_number.rs: big_mul_to_value, big_mul_to_value_up"]}
{"id": "C04", "title": "Token-X amounts are rounded in the pool's favour", "statement": "The amount of token X for a price interval and a liquidity is never below the exact real value L*|a-b|/(a*b) when rounding up is requested, never above it when rounding down is requested, and rounding up never yields less than rounding down.", "quantifier": "every pair of positive sqrt prices in the legal price range and every 256-bit liquidity", "why_tests_cant": "The bound concerns the exact rational value over a space of 2^512 inputs; the failing inputs, if any, are those where an intermediate truncation crosses an integer.", "anchors": ["calc/math/clamm.rs: get_delta_x", "calc/math/types/sqrt_price.rs: big_div_values_to_token, big_div_values_to_token_up"]}
{"id": "C05", "title": "Depositing and withdrawing the same liquidity at an unchanged price never returns more than was paid", "statement": "For any current tick, current price, range and liquidity, the amounts of both tokens returned for withdrawing a liquidity are at most the amounts charged for depositing it; withdrawing it in several pieces never returns more in total than withdrawing it at once, and depositing in several pieces never costs less in total (up to the documented token-X rounding defect).", "quantifier": "every current tick, sqrt price, tick range and liquidity, and every split of it into pieces", "why_tests_cant": "A profit of one unit per round trip could be repeated indefinitely; only a proof excludes every rounding pattern.", "anchors": ["calc/math/clamm.rs: calculate_amount_delta, get_delta_x, get_delta_y", "src/contracts/storage/position.rs: create, remove"]}
{"id": "C06", "title": "A swap step never moves the price beyond its target", "statement": "For every swap step the resulting sqrt price lies between the current price and the target price of the step (inclusive), whatever the liquidity, amount, fee and direction.", "quantifier": "every current price, target price, liquidity, amount, fee and both amount modes", "why_tests_cant": "Overshooting the target of a step by even one price unit skips the crossing of the tick that sits on the target; it depends on how three truncations interact and cannot be excluded by samples.", "anchors": ["calc/math/clamm.rs: compute_swap_step, get_next_sqrt_price_x_up, get_next_sqrt_price_y_down"]}
{"id": "C07", "title": "A swap step never takes more input than offered nor gives more output than asked for", "statement": "In exact-input mode a step consumes input plus fee of at most the offered amount, and exactly the offered amount when the target is not reached; in exact-output mode a step pays out at most the requested amount. A step with zero liquidity moves to the target free of charge.", "quantifier": "every current price, target price, liquidity, amount, fee below 100% and both directions", "why_tests_cant": "The bound mixes four independently rounded quantities over 2^600 inputs.", "anchors": ["calc/math/clamm.rs: compute_swap_step"]}
{"id": "C08", "title": "A swap step charges at least, and pays at most, what the price curve prescribes", "statement": "For every swap step the token-Y side satisfies exactly: input Y is at least, output Y at most, the real curve amount between the old and the new price; the token-X side satisfies the same up to one part in 2.3*10^14 of a token unit.", "quantifier": "every current price, target price, liquidity, amount, fee and both amount modes", "why_tests_cant": "This is the local solvency argument of the pool; a violation on a single rounding pattern can be exploited repeatedly.", "anchors": ["calc/math/clamm.rs: compute_swap_step, get_delta_x, get_delta_y"]}
{"id": "C09", "title": "Minimum output computation is the exact ceiling of expected*(1-slippage)", "statement": "For every expected amount and every slippage of at most 100% the minimum accepted output is the exact ceiling of expected*(1-slippage): it never exceeds the expected amount, equals it at zero slippage and is 0 at 100%; a slippage above 100% is rejected.", "quantifier": "every 256-bit expected amount and every 128-bit slippage", "why_tests_cant": "An all-inputs bound on a rounded product.", "anchors": ["calc/math/clamm.rs: calculate_min_amount_out", "src/invariant_service.rs: swap_route"]}
{"id": "C10", "title": "Fee-growth accumulators are exact modulo 2^128 and crossing a tick preserves every range's inside growth", "statement": "Wrapping addition and subtraction of fee growth are addition and subtraction modulo 2^128 and inverse to each other. The fee growth inside a tick range, read before and after any sequence of fee additions and tick crossings, advances exactly by the growth added while the current tick was inside the range, modulo 2^128.", "quantifier": "all accumulator values including those about to wrap, all tick ranges, and all sequences of fee additions and tick crossings", "why_tests_cant": "Involves wrap-around and unbounded histories of crossings in both directions.", "anchors": ["calc/math/types/fee_growth.rs: unchecked_add, unchecked_sub, calculate_fee_growth_inside", "src/contracts/storage/tick.rs: cross", "src/contracts/storage/pool.rs: add_fee"]}
{"id": "C11", "title": "Fees paid out never exceed the fees collected", "statement": "Distributing a fee over the active liquidity and letting any set of positions whose liquidities sum to at most the active liquidity collect it pays out in total at most that fee; splitting the collection over time does not increase it.", "quantifier": "every fee, every liquidity, every finite family of positions and every history of fee additions", "why_tests_cant": "A sum over arbitrarily many floored quotients; needs an inequality for all families.", "anchors": ["calc/math/types/fee_growth.rs: from_fee, to_fee", "src/contracts/storage/pool.rs: add_fee", "src/contracts/storage/position.rs: update"]}
{"id": "C12", "title": "Tick liquidity caps make the pool liquidity counters overflow-free", "statement": "With the per-tick gross liquidity cap enforced on deposit, the liquidity of a pool, of every tick and of every position never overflows 256 bits, so a deposit accepted by both of its ticks is never rejected for liquidity overflow.", "quantifier": "every tick spacing 1..100 and every reachable distribution of liquidity over ticks", "why_tests_cant": "The bound is on the sum over all ticks of a pool in every reachable state.", "anchors": ["calc/math/clamm.rs: calculate_max_liquidity_per_tick", "src/contracts/storage/tick.rs: calculate_new_liquidity_gross", "src/contracts/storage/pool.rs: update_liquidity"]}
{"id": "C13", "title": "Checked integer conversions preserve the value or fail", "statement": "Every checked conversion between the wide integer types and to the primitive types returns the same numeric value, and fails exactly when the value does not fit the target.", "quantifier": "every wide integer value and every target width", "why_tests_cant": "2^512 inputs; a missing limb in an overflow test is invisible to small samples.", "anchors": ["calc/decimal/decimal_core/src/uint_casts.rs: impl_uint_casts, impl_primitive_casts"]}
{"id": "C14", "title": "Tick bitmap is a faithful set of ticks per pool", "statement": "After any sequence of initialising and clearing ticks, a tick is reported initialised exactly if its last accepted change initialised it; changing a tick of one pool never changes the answer for another tick or another pool; initialising an initialised tick or clearing a clear one is rejected.", "quantifier": "every sequence of flips, every pool, every spacing 1..100 and every legal tick", "why_tests_cant": "Ticks are packed 64 to a word with an offset; aliasing between two ticks can only be excluded for all pairs by proof.", "anchors": ["src/contracts/collections/tickmap.rs: tick_to_position, get, flip", "src/invariant_service.rs: is_tick_initialized"]}
{"id": "C15", "title": "Search for the next initialised tick finds the nearest one", "statement": "Searching upwards from a tick returns the smallest initialised tick strictly above it within the search range, and nothing exactly if there is none; searching downwards returns the largest initialised tick at or below it within the range, and nothing exactly if there is none.", "quantifier": "every bitmap content, every spacing 1..100, every start tick on the grid", "why_tests_cant": "The search jumps over 64-bit words with shifts and masks, with different boundary conditions at both ends; the space of bitmaps is 2^443637.", "anchors": ["src/contracts/collections/tickmap.rs: next_initialized, prev_initialized, get_search_limit"]}
{"id": "C16", "title": "A swap step's target never skips an initialised tick nor exceeds the user's limit", "statement": "The target chosen for a swap step never lies beyond the caller's price limit, no initialised tick lies strictly between the current tick and the target, and when a tick is reported as limiting, the target is exactly that tick's price.", "quantifier": "every bitmap content, current tick, price limit, direction and spacing", "why_tests_cant": "Skipping one initialised tick loses its liquidity change; the property ranges over all bitmaps.", "anchors": ["src/contracts/collections/tickmap.rs: get_closer_limit"]}
{"id": "C17", "title": "Tick map export lists exactly the initialised ticks", "statement": "The exported tick map of a pool contains, for every chunk, exactly the bits of the initialised ticks: decoding it gives each initialised tick once and nothing else.", "quantifier": "every reachable tick bitmap and every spacing 1..100", "why_tests_cant": "Includes the first and the last chunk for every spacing and every bitmap.", "anchors": ["src/invariant_service.rs: get_tickmap", "src/invariant_storage.rs: tickmap_slice", "src/contracts/collections/tickmap.rs: get_max_chunk, position_to_tick"]}
{"id": "C18", "title": "The reported number of initialised ticks is the number of initialised ticks", "statement": "get_liquidity_ticks_amount returns exactly the number of ticks of the pool for which is_tick_initialized is true.", "quantifier": "every reachable state and every pool", "why_tests_cant": "Requires agreement of a counting loop with the bitmap for every bitmap, including the last chunk.", "anchors": ["src/invariant_service.rs: get_liquidity_ticks_amount", "src/invariant_storage.rs: liquidity_ticks_count"]}
{"id": "C19", "title": "The per-owner position list behaves as a list with swap-removal", "statement": "For every owner the positions are exactly an array indexed 0..n-1: creation appends, removal returns the chosen element and moves the last one into its place, update replaces in place, transfer removes from the sender and appends to the receiver; other owners' arrays are untouched; no position is ever lost or duplicated.", "quantifier": "every sequence of position operations by any number of owners", "why_tests_cant": "The array is stored as two hash maps whose agreement is an invariant over all histories, including transfer to oneself and removal of the last element.", "anchors": ["src/contracts/collections/positions.rs: add, update, remove, transfer, get, get_all, get_slice, get_length"]}
{"id": "C20", "title": "Pool identity does not depend on token order and is unique", "statement": "Pool keys built from the two tokens in either order are equal, always have the smaller token first, and identical tokens are rejected; at most one pool ever exists for a key and once created it exists forever.", "quantifier": "every pair of token addresses, every fee tier and every history", "why_tests_cant": "Uniqueness and permanence are statements about all histories.", "anchors": ["src/contracts/storage/pool_key.rs: PoolKey::new", "src/invariant_service.rs: create_pool, get_pool", "src/contracts/collections/pools.rs: add"]}
{"id": "C21", "title": "Pool enumeration lists every created pool exactly once in creation order", "statement": "get_pool_keys returns the created pools in creation order without gaps or repetitions, the reported count is the number of created pools, and pages are consecutive slices of that list.", "quantifier": "every history of pool creation and every page size and offset", "why_tests_cant": "The list is kept in two maps and a 16-bit counter; agreement must hold for every history, including very long ones.", "anchors": ["src/invariant_service.rs: get_pool_keys", "src/contracts/collections/pool_keys.rs: add, get_all, count"]}
{"id": "C22", "title": "Listed fee tiers are always valid, unique and admin-controlled", "statement": "In every reachable state each listed fee tier has spacing between 1 and 100 and a fee below 100%, no tier is listed twice, tiers change only by calls of the admin, and every existing pool has a tier that was valid when the pool was created.", "quantifier": "every history of calls by any callers", "why_tests_cant": "Invariant over all histories.", "anchors": ["src/invariant_service.rs: add_fee_tier, remove_fee_tier, create_pool", "src/contracts/collections/fee_tiers.rs: add, remove, contains"]}
{"id": "C23", "title": "Internal balances change by exact amounts and can never be overdrawn", "statement": "Crediting an account raises exactly that account's balance of exactly that token by exactly the amount; debiting lowers it by exactly the amount and is refused if the balance is smaller; debiting without amount removes the whole balance and returns it; no other balance changes; a refused change leaves all balances unchanged; a zero balance is never stored.", "quantifier": "every balance table, account, token and amount", "why_tests_cant": "All tables and amounts including equality and overflow boundaries.", "anchors": ["src/invariant_storage.rs: increase_token_balance, decrease_token_balance, can_increase_token_balance", "src/invariant_service.rs: get_user_balances"]}
{"id": "C24", "title": "A failed call changes nothing", "statement": "Every synchronous call that fails leaves the whole state exactly as before, no matter how far it had proceeded.", "quantifier": "every state, every call with every argument, every failure point", "why_tests_cant": "Failure points are internal and data dependent; the property covers each of them.", "anchors": ["src/invariant_service.rs: panicking! (all commands)", "src/invariant_storage.rs"]}
{"id": "C25", "title": "Only the admin changes global settings and only the fee receiver collects protocol fees", "statement": "The protocol fee, the fee tier list and the fee receiver of a pool are changed only by calls made by the admin, and the protocol fees of a pool are paid only to, and only on a call of, its current fee receiver; the admin itself never changes.", "quantifier": "every history of calls with every caller", "why_tests_cant": "A statement about all histories and callers.", "anchors": ["src/invariant_service.rs: change_protocol_fee, add_fee_tier, remove_fee_tier, change_fee_receiver, withdraw_protocol_fee, is_caller_admin"]}
{"id": "C26", "title": "Nobody can spend another user's balance or touch another user's position", "statement": "A synchronous call never lowers the balance of any token of anyone other than the caller, and never changes, removes or reorders positions of anyone other than the caller (a transfer may append one to the receiver's list).", "quantifier": "every state and every call with every caller and argument", "why_tests_cant": "Quantifies over every other account in every state.", "anchors": ["src/invariant_service.rs: create_position, remove_position, transfer_position, claim_fee, swap, swap_route, withdraw_protocol_fee, deposit_vara, withdraw_vara"]}
{"id": "C27", "title": "A swap debits and credits exactly the reported amounts", "statement": "A successful swap lowers the caller's balance of the input token by exactly the reported input amount and raises the balance of the output token by exactly the reported output amount; nothing else in anyone's balances changes; exactly one pool changes.", "quantifier": "every state and every swap call", "why_tests_cant": "Frame condition over the complete state.", "anchors": ["src/invariant_service.rs: swap"]}
{"id": "C28", "title": "A swap moves the price only in its direction and never past the caller's limit", "statement": "After a successful swap from X to Y the price is not above the starting price and not below the caller's limit; symmetrically for Y to X. The reported start and target prices are the pool's prices before and after.", "quantifier": "every reachable state and every swap call", "why_tests_cant": "The loop takes a data-dependent, unbounded number of steps.", "anchors": ["src/invariant_storage.rs: calculate_swap", "src/invariant_service.rs: swap"]}
{"id": "C29", "title": "Exact amounts are honoured", "statement": "A successful exact-input swap takes exactly the requested input amount; a successful exact-output swap pays exactly the requested output amount (never more). Otherwise the swap fails as a whole.", "quantifier": "every reachable state and every swap call", "why_tests_cant": "Sum over a data-dependent number of steps each with its own rounding.", "anchors": ["src/invariant_storage.rs: calculate_swap", "src/contracts/storage/pool.rs: update_tick", "calc/math/clamm.rs: compute_swap_step"]}
{"id": "C30", "title": "A quote predicts the swap exactly and changes nothing", "statement": "For every state, a quote returns the amounts, final price and crossed ticks that a swap with the same arguments executed in the same state and block reports, it fails exactly when the swap computation fails, and it never changes the state.", "quantifier": "every state and every argument", "why_tests_cant": "Agreement of two entry points on all states.", "anchors": ["src/invariant_service.rs: quote, swap", "src/invariant_storage.rs: calculate_swap"]}
{"id": "C31", "title": "A multi-hop route pays at least the minimum or has no effect, and its quote is exact when no pool repeats", "statement": "A successful swap_route returns an amount of at least ceil(expected*(1-slippage)), has exactly the effect of performing the hops one after the other, each hop spending exactly the previous output; otherwise nothing changes. quote_route returns the same amount as swap_route in the same state whenever no pool occurs twice in the route.", "quantifier": "every state, every list of hops of any length, every expected amount and slippage", "why_tests_cant": "Routes have unbounded length; with a repeated pool the quote and the execution diverge.", "anchors": ["src/invariant_service.rs: swap_route, quote_route, route"]}
{"id": "C32", "title": "Claiming fees is idempotent and touches nothing but the owed fees", "statement": "Claiming the fees of a position pays the fees accrued since the last collection; an immediately repeated claim pays zero; claiming changes neither the position's liquidity and range, nor the pool's liquidity and price, nor any tick's liquidity.", "quantifier": "every reachable state, owner and position index", "why_tests_cant": "Requires equality of a wrapping difference with zero and a frame condition in every reachable state.", "anchors": ["src/invariant_service.rs: claim_fee", "src/contracts/storage/position.rs: claim_fee, modify, update"]}
{"id": "C33", "title": "Tick bookkeeping equals the sum of the positions", "statement": "In every reachable state and for every pool and tick: the tick's gross liquidity is the sum of the liquidities of the positions having the tick as lower or upper bound, its signed liquidity change is the sum over positions with it as lower bound minus the sum over positions with it as upper bound; the tick exists exactly if some position uses it, and exactly then is it marked in the tick map. The amount and the sign are stored apart, so that zero has two forms; the form stored is the direction of the last position that was opened or closed at the tick.", "quantifier": "every history of calls by any number of users on any number of pools", "why_tests_cant": "Invariant over all histories, involving sums over all positions.", "anchors": ["src/invariant_service.rs: create_position, remove_position", "src/contracts/storage/tick.rs: update, update_liquidity_change, calculate_new_liquidity_gross", "src/invariant_storage.rs: add_tick, remove_tick"]}
{"id": "C34", "title": "The pool's active liquidity is the liquidity of the positions in range", "statement": "In every reachable state the liquidity of a pool equals the sum of the liquidities of the positions whose lower tick is at or below, and whose upper tick is above, the pool's current tick.", "quantifier": "every history of calls by any number of users on any number of pools", "why_tests_cant": "The counter is updated incrementally by tick crossings inside swaps; a single missed or doubled crossing in any history breaks it. Tests only see a few histories.", "anchors": ["src/invariant_storage.rs: calculate_swap", "src/contracts/storage/pool.rs: update_tick", "src/contracts/storage/tick.rs: cross", "src/invariant_service.rs: create_position, remove_position, swap"]}
{"id": "C35", "title": "Price and current tick of a pool always agree", "statement": "In every reachable state the price of a pool is within the global price range, its current tick is a multiple of the spacing, and the price lies between the price of the current tick and the price of the next tick on the grid (inclusive).", "quantifier": "every history of calls", "why_tests_cant": "Depends on the logarithm-based lookup being right for every price and on every branch of the swap loop.", "anchors": ["src/contracts/storage/pool.rs: create, update_tick", "src/invariant_storage.rs: calculate_swap", "calc/math/log.rs: get_tick_at_sqrt_price"]}
{"id": "C36", "title": "A liquidity provider can always exit", "statement": "In every reachable state the owner of a position can remove it: the call succeeds (as long as the resulting token amounts fit in 256 bits), removes the position, and pays its liquidity plus accrued fees.", "quantifier": "every reachable state and every position", "why_tests_cant": "A liveness property over all histories: every internal subtraction and cast must succeed.", "anchors": ["src/invariant_service.rs: remove_position", "src/contracts/storage/position.rs: remove, modify", "src/contracts/storage/pool.rs: update_liquidity", "src/contracts/storage/tick.rs: update"]}
{"id": "C37", "title": "The program stays solvent", "statement": "In every reachable state and for every token, the tokens received by the program minus the tokens sent out cover all internal balances, all uncollected protocol fees, and everything that would be paid if all positions were removed.", "quantifier": "every history of deposits, withdrawals, position operations and swaps by any users on any pools", "why_tests_cant": "Global conservation over all histories with rounding in every step.", "anchors": ["src/invariant_service.rs", "src/invariant_storage.rs: calculate_swap", "src/contracts/storage/position.rs: create, remove, claim_fee"]}
{"id": "C38", "title": "Every swap computation terminates", "statement": "For every reachable state and every swap or quote argument the swap loop ends after finitely many steps, with a result or an error.", "quantifier": "every reachable state and all arguments", "why_tests_cant": "Termination for all inputs.", "anchors": ["src/invariant_storage.rs: calculate_swap"]}
{"id": "C39", "title": "Position creation respects the caller's price bounds and charges exactly the computed amounts", "statement": "create_position succeeds only if the pool price lies within the caller's two bounds, the ticks are valid for the spacing, distinct and ordered, and the liquidity is not zero; it charges exactly the rounded-up token amounts for the range at the current price and nobody else's funds.", "quantifier": "every state and every argument", "why_tests_cant": "All states and arguments, including orderings of ticks and boundary prices.", "anchors": ["src/invariant_service.rs: create_position", "src/contracts/storage/position.rs: create", "calc/math/clamm.rs: calculate_amount_delta"]}
{"id": "C40", "title": "Protocol fees are a bounded share and are paid out completely once", "statement": "Of each collected fee the protocol takes ceil(fee*rate); with a rate of at most 100% this never exceeds the fee; collecting pays exactly the accumulated amounts to the caller, resets them to zero, and an immediate second collection pays zero.", "quantifier": "every fee amount, every rate, every state", "why_tests_cant": "All amounts and rates.", "anchors": ["src/contracts/storage/pool.rs: add_fee, withdraw_protocol_fee", "src/invariant_service.rs: withdraw_protocol_fee"]}
{"id": "C41", "title": "Trading keeps working for every protocol fee the admin can set", "statement": "Whatever protocol fee the admin sets with change_protocol_fee, swaps that would succeed with a zero protocol fee still succeed.", "quantifier": "every protocol fee value accepted by change_protocol_fee and every swap", "why_tests_cant": "Ranges over all accepted fee values.", "anchors": ["src/invariant_service.rs: change_protocol_fee", "src/contracts/storage/pool.rs: add_fee"]}
{"id": "C42", "title": "Swaps can pass through thin liquidity", "statement": "If the liquidity beyond a thinly supplied price interval suffices, a swap is not aborted because of the thin interval: crossing a tick never fails merely because the remaining amount is large compared with the liquidity before the tick.", "quantifier": "every remaining amount, price, liquidity, amount mode and direction at a tick crossing", "why_tests_cant": "The failing combinations depend on the ratio of amount and liquidity, over 2^512 inputs.", "anchors": ["calc/math/clamm.rs: is_enough_amount_to_change_price", "src/contracts/storage/pool.rs: update_tick"]}
{"id": "C43", "title": "A deposit is credited at most once and only after the token confirmed it", "statement": "For every interleaving of calls, token replies, timeouts and failures: a deposit changes the depositor's balance only when the token contract's positive reply for that very transfer is handled, by exactly the deposited amount, at most once; a negative, failed or unreadable reply credits nothing.", "quantifier": "all interleavings of messages and replies, all tokens, all users", "why_tests_cant": "Schedules and reply orders are unbounded; double credit would need a particular interleaving.", "anchors": ["src/invariant_service.rs: deposit_single_token, deposit_token_pair, send_transfer_token_message, reply_handler, handle_valid_reply, handle_panic, handle_transfer_result"]}
{"id": "C44", "title": "A withdrawal is taken before the transfer and returned exactly when the token reports failure", "statement": "For every interleaving: a withdrawal's amount leaves the user's balance before the token transfer is requested, it is returned exactly once if and only if a readable negative or panic reply to that transfer is handled, and never returned after a positive reply.", "quantifier": "all interleavings of messages and replies, all tokens, all users", "why_tests_cant": "Schedules, reply orders and crash points are unbounded.", "anchors": ["src/invariant_service.rs: withdraw_single_token, withdraw_token_pair, reply_handler, handle_valid_reply, handle_panic"]}
{"id": "C45", "title": "Token accounting is conserved across asynchronous transfers", "statement": "For every token contract that moves tokens exactly when it answers positively, and every interleaving of calls and replies, the tokens actually held by the program are at least the sum of all internal balances plus everything still owed by unresolved transfers; replies can never make the sum of internal balances exceed the holdings.", "quantifier": "all interleavings, all users, all behaviours of the other tokens", "why_tests_cant": "Concurrency: unbounded number of transfers in flight.", "anchors": ["src/invariant_service.rs: transfer_single_token, transfer_token_pair, reply_handler", "src/invariant_storage.rs: awaiting_transfers"]}
{"id": "C46", "title": "Transfer legs are independent and never resolved twice", "statement": "In a two-token transfer the outcome of one token never changes the accounting of the other; each pending transfer entry is removed by exactly one event, and once it is removed no later reply or wake-up changes any balance on its account.", "quantifier": "all interleavings of both replies, timeouts and other calls", "why_tests_cant": "Orders of two replies, a wake-up and unrelated calls.", "anchors": ["src/invariant_service.rs: transfer_token_pair, handle_transfer_result, handle_valid_reply, handle_panic"]}
{"id": "C47", "title": "The native coin can only move through the native-coin calls", "statement": "The internal balance of the native coin is raised only by attached value on deposit_vara (besides pool operations), lowered by withdraw_vara by exactly the value sent back; token-contract deposits or withdrawals naming the native coin's address are rejected without effect, as are zero amounts and transfers of the program to itself.", "quantifier": "every state, caller and argument", "why_tests_cant": "All states and arguments.", "anchors": ["src/invariant_service.rs: deposit_vara, withdraw_vara, transfer_single_token, transfer_token_pair, send_transfer_token_message"]}
{"id": "C48", "title": "A withdrawal of 'everything' takes exactly the balance", "statement": "Withdrawing without an amount takes exactly the caller's balance of the token (zero if there is none) and leaves none; a two-token withdrawal fails without effect if either explicit amount exceeds the balance.", "quantifier": "every state, caller, token and argument", "why_tests_cant": "All states and arguments.", "anchors": ["src/invariant_service.rs: withdraw_vara, withdraw_single_token, withdraw_token_pair", "src/invariant_storage.rs: decrease_token_balance"]}
{"id": "C49", "title": "Pools do not influence each other", "statement": "A call that operates on one pool (creating, removing or claiming a position of it, swapping on it, collecting its protocol fee) leaves every other pool, its ticks, its tick map and its positions unchanged.", "quantifier": "every state, every call, every other pool", "why_tests_cant": "Frame condition over all pools in all states.", "anchors": ["src/invariant_service.rs", "src/invariant_storage.rs"]}
{"id": "C50", "title": "The test token's total supply equals the sum of balances", "statement": "In the extended VFT service every mint raises and every burn lowers the total supply by exactly the amount by which the account balance changes, only role holders can do so, so the sum of balances always equals the total supply. A mint succeeds exactly when the caller is a minter and the supply has room for it, a burn exactly when the caller is a burner and the owner has the amount; roles are changed by admins only.", "quantifier": "every history of calls by any callers", "why_tests_cant": "Invariant over all histories.", "anchors": ["extended-vft/app/src/services/extended_vft/funcs.rs: mint, burn", "extended-vft/app/src/services/extended_vft/mod.rs"]}
{"id": "C51", "title": "The SDK simulation agrees with the contract", "statement": "When the SDK's swap simulation is run on the exported pool, tick map and ticks and reports neither insufficient liquidity, outdated state nor too many steps, its input, output, fee and final price equal those of the on-chain swap in the same state. It reports too many steps exactly when the swap takes more than 142 rounds, and every simulated step moves the price towards its target.", "quantifier": "every reachable state and all swap arguments", "why_tests_cant": "Agreement of two separately written loops over all states.", "anchors": ["sdk/src/wasm/swap.rs: simulate_invariant_swap", "sdk/src/wasm/storage/pool.rs: update_tick", "sdk/src/wasm/collections/tickmap.rs", "src/invariant_storage.rs: calculate_swap"]}
{"id": "C52", "title": "Liquidity estimates from a token amount never require more of that token", "statement": "If the liquidity helper computes the liquidity affordable with a given amount of token Y (or X) for a range and price, then depositing that liquidity at that price requires at most that amount of the token.", "quantifier": "every amount, tick range and price", "why_tests_cant": "All inputs of a multi-stage rounding computation and its inverse.", "anchors": ["src/contracts/logic/liquidity_result.rs: get_liquidity_by_x, get_liquidity_by_y, get_liquidity", "sdk/src/wasm/math.rs"]}
{"id": "C53", "title": "The counterpart amounts reported by the liquidity helpers cover the deposit", "statement": "When asked to round up, the amount of the other token reported by the one-token liquidity helpers is at least what depositing the reported liquidity at that price costs. The two-token helper answers for every price, including the ends of the range, and reports for each token what the returned liquidity costs, hence never more than was offered.", "quantifier": "every amount, tick range and price", "why_tests_cant": "Two different rounding pipelines must agree for all inputs; the few tested points use prices near 1, where the lost fractions are below one unit.", "anchors": ["src/contracts/logic/liquidity_result.rs: calculate_x, calculate_y, get_liquidity, get_liquidity_by_x, get_liquidity_by_y", "sdk/src/wasm/math.rs: calculate_x, calculate_y"]}
{"id": "C54", "title": "Claimed fees come from fees paid by swaps", "statement": "A swap adds to the fees claimable by all positions of its pool and to the protocol fees together at most what the trader paid in, in the token paid in, and nothing in the other token. A claim never pays more than the program holds.", "quantifier": "every history of calls, every swap and every claim", "why_tests_cant": "Fee accumulators wrap around by design, so one swap that leaves a tick on the wrong side turns a small growth into one near 2^128. This needs the price to end exactly at an initialised tick with nothing left to swap, which the tests never produce.", "anchors": ["src/invariant_storage.rs: calculate_swap", "src/contracts/storage/tick.rs: cross", "src/contracts/storage/position.rs: update, claim_fee", "calc/math/types/fee_growth.rs: calculate_fee_growth_inside"]}
{"id": "C55", "title": "Position queries report exactly the stored positions", "statement": "A page of positions lists exactly the positions of the owner with the requested indexes, split by pool, each with its index and the stored state of its pool, and the total number of positions. Requesting page after page as the SDK does lists every position once, in order. The query of a position with its associates succeeds exactly for existing positions and reports its pool and its two ticks; the query of position ticks reports both ticks of every position from the offset on, up to its limit.", "quantifier": "every history without an account of 2^32 - 1 positions, every owner, page size and offset", "why_tests_cant": "Needs the link between positions, pools and ticks in every reachable state, and the grouping and paging arithmetic for every size.", "anchors": ["src/invariant_service.rs: get_positions, get_position_with_associates, get_position_ticks", "src/contracts/collections/positions.rs: get_slice", "sdk/src/invariant.ts: getAllPositions, getPositions"]}
{"id": "C56", "title": "The pair query reports every pool of the pair", "statement": "Asking for all pools of a pair of tokens, in either order, reports every pool of that pair with its fee tier and nothing else.", "quantifier": "every reachable state and every pair of tokens", "why_tests_cant": "Depends on the history of added and removed fee tiers.", "anchors": ["src/invariant_service.rs: get_all_pools_for_pair, remove_fee_tier", "src/contracts/storage/pool_key.rs: PoolKey::new"]}
{"id": "C57", "title": "The exported ticks describe the liquidity at every price", "statement": "From the ticks fetched by the SDK, the sum of the signed liquidity changes of all ticks up to a tick is the total liquidity of the positions whose range contains that tick. The fetched ticks are in ascending order, and the breakpoints the SDK computes from them pair every tick with that liquidity.", "quantifier": "every history without an account of 2^32 - 1 positions, every pool and every tick", "why_tests_cant": "A sum over all positions compared with a sum over all exported ticks, in every reachable state.", "anchors": ["src/invariant_service.rs: get_tickmap, get_liquidity_ticks", "sdk/src/invariant.ts: getAllLiquidityTicks", "sdk/src/utils.ts: calculateLiquidityBreakpoints"]}
{"id": "C58", "title": "What the SDK announces for a position is what the contract books", "statement": "The amounts and fees the SDK computes from the answer of the position query are exactly the amounts the contract pays when the owner then claims fees or removes the position, and exactly the amounts it takes when the position is created.", "quantifier": "every reachable state and every successful claim, removal or creation", "why_tests_cant": "Needs the equality of two implementations on every reachable state, including wrapped fee growths.", "anchors": ["sdk/src/utils.ts: calculateFee, calculateTokenAmounts", "sdk/src/wasm/custom.rs: calculate_fee", "src/invariant_service.rs: claim_fee, remove_position, create_position"]}
{"id": "C59", "title": "Square root, price conversion and price impact of the SDK", "statement": "The square root of the SDK returns the integer square root of every non-negative number. The root price of a price is the largest one whose square does not exceed it, converting there and back loses less than one unit of the price, and the price impact is the relative difference of the two prices rounded down, independent of their order.", "quantifier": "every number, price and pair of prices", "why_tests_cant": "Convergence and result of an iteration for every input.", "anchors": ["sdk/src/utils.ts: sqrt, newtonIteration, sqrtPriceToPrice, priceToSqrtPrice, calculatePriceImpact"]}
{"id": "C60", "title": "Slippage prices of the SDK", "statement": "The root price after slippage is the root of the price times one plus or minus the slippage, rounded down, up to one unit of the price; a slippage above 100% downwards is refused; the lower and the upper bound enclose the price they were computed from.", "quantifier": "every price in the range of the protocol, every slippage", "why_tests_cant": "Rounding of a square root of a rounded square for every input.", "anchors": ["sdk/src/utils.ts: calculateSqrtPriceAfterSlippage", "sdk/src/invariant.ts: swapWithSlippage, createPosition"]}
{"id": "C61", "title": "Filtered ticks and chunks still describe the swap", "statement": "The filters of the SDK keep exactly the ticks or chunks that a swap in the given direction can meet, in their order; a simulation on the filtered data gives the amounts, price and crossed ticks of the contract's swap.", "quantifier": "every list of ticks, every bitmap, every reachable pool, direction, amount and limit", "why_tests_cant": "A list mutated while it is iterated; the simulation has to agree for every state and every swap.", "anchors": ["sdk/src/utils.ts: filterTicks, filterTickmap", "sdk/src/wasm/swap.rs: simulate_invariant_swap"]}
{"id": "C62", "title": "Amounts announced with slippage suffice", "statement": "A position created with the price limits the SDK derives from a price and a tolerance takes, at whatever price the pool has when the request is handled, at most the amounts the SDK announces for that price and tolerance.", "quantifier": "every history, pool, range, liquidity, announced price and tolerance", "why_tests_cant": "The price at the time of the request is any price within the limits; the rounding must hold for each.", "anchors": ["sdk/src/utils.ts: calculateTokenAmountsWithSlippage", "sdk/src/invariant.ts: createPosition", "src/invariant_service.rs: create_position"]}
{"id": "C63", "title": "Answers of token contracts are read as the codec defines", "statement": "A reply is read as an answer exactly if it starts with the canonical encodings of two UTF-8 texts and a truth value, and as an error text exactly if it is no such answer but starts with the encoding of a UTF-8 text.", "quantifier": "every sequence of bytes", "why_tests_cant": "All byte sequences, including overlong, surrogate and non-canonical encodings.", "anchors": ["src/invariant_service.rs: reply_handler", "parity-scale-codec: String, Compact<u32>, bool"]}
{"id": "C64", "title": "A deposit that the rules allow is accepted", "statement": "In every reachable state, create_position on an existing pool with two ticks of its grid in order succeeds whenever the liquidity is positive, the current price is within the caller's bounds, the deposit leaves both ticks below the per-tick cap, the caller owns the two token amounts of the range (rounded up) and, if the range contains the current tick, the pool's liquidity counter has room. In histories in which no swap ends near an initialised tick (as in C34) the last condition is always met. Conversely a deposit that brings a tick to the cap or the counter to 2^256 is refused without effect.", "quantifier": "all histories of calls in which no account reaches 2^32 - 1 positions, all pools, ranges, liquidities, balances, price bounds and callers", "why_tests_cant": "Tests deposit into a handful of ranges; that no combination of tick state, bitmap state, fee growth and balances makes an allowed deposit panic is a statement over all histories.", "anchors": ["src/invariant_service.rs:220-301 create_position", "src/contracts/storage/position.rs:158-198 Position::create", "src/contracts/storage/tick.rs:133-189 Tick::update", "src/contracts/storage/pool.rs:108-142 Pool::update_liquidity"]}
{"id": "C65", "title": "The events tell the liquidity, the ticks and the prices", "statement": "From the events alone, in the order sent: (a) for every pool and range the liquidity of the created positions minus that of the removed ones is the liquidity of the stored positions; (b) the same sums per tick, unsigned and signed, are the gross and net liquidity of the tick, and a tick exists exactly if its sum is not zero; (c) the last event of a pool states its current price and every event states for the time before it the price that the previous event of the pool left; (d) a swap changes the active liquidity by the net liquidities of the ticks it reports as crossed, which are reported in the order of passing, each once, between the two reported prices, and the reported amounts are what the caller's balances change by; (e) the owners of positions follow from the events.", "quantifier": "all histories of calls of all users, including routes, with the events of the accepted calls", "why_tests_cant": "The tests compare the events of single calls with expected literals; that their sums agree with the storage after any interleaving of deposits, removals, transfers and crossings is a statement over all histories.", "anchors": ["io/src/lib.rs:25-60 InvariantEvent", "src/invariant_service.rs:288-297 PositionCreatedEvent", "src/invariant_service.rs:375-384 PositionRemovedEvent", "src/invariant_service.rs:529-550 CrossTickEvent, SwapEvent", "src/invariant_service.rs:390-398 transfer_position"]}
{"id": "C66", "title": "Decimal operations are exact up to one rounding and fail only when the result cannot be held", "statement": "Every operation of the fixed-point decimal library returns the exact rational result rounded down, or up for the operations named _up, to a multiple of the type's smallest step; it fails only when the rounded result does not fit the type or the divisor is zero; the operations named checked_ report that failure instead of panicking. Conversions between decimal types keep the number up to the same rounding, and a conversion to more places and back is the identity.", "quantifier": "every scale, every width of the field and of the wide intermediate type, every pair of decimal types, all raw values", "why_tests_cant": "The generated tests of each type multiply one by two and divide small numbers; an intermediate overflow or a rounding slip depends on the scales and widths of both types and on values near 2^128 or 2^256.", "anchors": ["calc/decimal/decimal_core/src/ops.rs", "calc/decimal/decimal_core/src/big_ops.rs", "calc/decimal/decimal_core/src/by_number.rs", "calc/decimal/decimal_core/src/others.rs: mul_up, div_up, sub_abs", "calc/decimal/decimal_core/src/factories.rs", "calc/decimal/decimal_core/src/checked_ops.rs", "calc/decimal/decimal_core/src/base.rs: checked_one, checked_almost_one"]}
{"id": "C67", "title": "The printed text of a decimal denotes its value", "statement": "The text that Display writes for a decimal denotes exactly its value, has the whole part before the point and exactly as many places after it as the type has; two decimals of a type with the same text are equal.", "quantifier": "every decimal type with at most 255 places and every raw value", "why_tests_cant": "The padding with zeros depends on the number of leading zeros of the fraction; tests print a few numbers.", "anchors": ["calc/decimal/decimal_core/src/others.rs: Display::fmt"]}
{"id": "C68", "title": "The SDK orders the two tokens of a pool as the contract does", "statement": "For any two texts of addresses, isTokenX says that the first is token X exactly if the first address is smaller in the contract's order; newPoolKey names the tokens in the order of the contract's pool key and refuses a pair exactly if the two addresses are equal.", "quantifier": "every pair of addresses and every way to write them in hexadecimal", "why_tests_cant": "2^512 pairs of addresses, each with many spellings; a wrong order shows only for certain digits at the first difference.", "anchors": ["sdk/src/wasm/custom.rs: is_token_x", "sdk/src/wasm/storage/pool_key.rs: PoolKey::new", "src/contracts/storage/pool_key.rs: PoolKey::new"]}
{"id": "C69", "title": "The SDK makes exactly the fee tiers the contract knows", "statement": "newFeeTier succeeds exactly for a tick spacing from 1 to 100 and a fee of at most 100%, and returns the given fee and spacing; the administrator can add what it returns, except for a fee of exactly 100%. calculateFeeTierWithLinearRatio succeeds exactly for 1 to 100 ticks and gives 0.01% per tick. A refusal gives InvalidTickSpacing exactly for a spacing that is not one of 1 to 100, and InvalidFee exactly for such a spacing with a fee above 100%.", "quantifier": "every fee and every 64-bit spacing", "why_tests_cant": "The spacing is cut to 16 bits, so wrong acceptances lie beyond any range a test would try.", "anchors": ["sdk/src/wasm/storage/fee_tier.rs: new_fee_tier", "sdk/src/utils.ts: calculateFeeTierWithLinearRatio", "src/invariant_service.rs: add_fee_tier"]}
{"id": "C70", "title": "The fees of a position can always be claimed", "statement": "In every reachable state claim_fee by the owner of a position succeeds if and only if the owner's two token balances have room for the fees below 2^256, and it then pays exactly the fee growth inside the position's range since its last checkpoint times its liquidity, rounded down. Neither a wrong liquidity counter of the pool, nor a tick at its cap, nor another position can block it. A claim without a position fails as PositionNotFound.", "quantifier": "all histories of calls in which no account reaches 2^32 - 1 positions, all owners, positions, pools and balances", "why_tests_cant": "Tests claim from a few positions; that no state of ticks, counters and fee accumulators makes the call panic is a statement over all histories, and removing the same position can panic (C36).", "anchors": ["src/invariant_service.rs:640-682 claim_fee", "src/contracts/storage/position.rs:131-156 Position::claim_fee", "src/contracts/storage/position.rs:50-130 Position::modify and update"]}
{"id": "C71", "title": "An exact-input swap is not aborted", "statement": "In a pool of a history in which no swap ended at an initialised tick, a swap of a given input that the caller can pay succeeds and uses the whole input, or is refused with PriceLimitReached, TickLimitReached or NoGainSwap. It never aborts with a panic.", "quantifier": "all such histories, pools, positions, callers, both directions, all amounts below 2^256, all limits on the right side (selling X: not within 65536 units of the lowest price), fees from just above 0 to 99.999%, protocol fees up to 100%, active liquidity below 2^255 (selling Y: not thin compared with the amount)", "why_tests_cant": "Whether some step of some path makes one of the checked subtractions, additions or divisions fail depends on all digits of price, liquidity and amount; the failing amounts are isolated values that a test meets only by construction.", "anchors": ["src/invariant_storage.rs:111-249 calculate_swap", "calc/math/clamm.rs:15-100 compute_swap_step", "src/contracts/storage/pool.rs: update_tick, add_fee", "src/contracts/storage/tick.rs: cross"]}
{"id": "C72", "title": "Which deposits and withdrawals are requested from the token contracts", "statement": "A deposit or withdrawal of one or two tokens is accepted, and its transfers requested, exactly if the two tokens differ, the new balances fit or the old ones cover the amounts, an explicit single amount is not zero, no moved token is the native coin, there are 42400200000 gas for each transfer, the caller is not the program and the messages can be sent. Failures for the native coin name it as the reason.", "quantifier": "all states, callers, tokens, amounts below 2^256 including absent ones, gas amounts and outcomes of sending", "why_tests_cant": "The tests run with plenty of gas and one order of failures; the accepted set is a combination of seven conditions over all balances and amounts, with the boundary at one unit of gas and one unit of balance.", "anchors": ["src/invariant_service.rs:769-1024 deposit and withdraw calls", "src/invariant_service.rs:1124-1183 transfer_single_token, transfer_token_pair", "src/invariant_storage.rs: increase_token_balance, decrease_token_balance, can_increase_token_balance"]}
{"id": "C73", "title": "The seconds outside the ticks tell how long the price was within a range", "statement": "For two ticks that stay initialised, the seconds a reader computes from the pool and the two ticks grow exactly by the time during which the current tick lies within the range. If a deposit made both ticks they are the seconds within the range since then.", "quantifier": "all reachable states, pools, pairs of ticks and all sequences of calls at non-decreasing times (64-bit arithmetic)", "why_tests_cant": "The tests look at the field after single crossings with hand-made pools; the claim is about sums of durations over arbitrary interleavings of swaps, deposits and removals and holds or fails with the side on which each crossing leaves the current tick.", "anchors": ["src/contracts/storage/tick.rs:79-131 create, cross", "src/contracts/storage/pool.rs:144-200 update_tick", "src/invariant_storage.rs:111-249 calculate_swap"]}
{"id": "C74", "title": "Seconds per liquidity are exact and fail only when they do not fit", "statement": "The seconds per liquidity of a time span are the exact quotient rounded down and exist whenever the quotient fits 128 bits; sum and difference are exact modulo 2^128; the value within a range is what was counted while the price was within it, if the ticks carry what was counted on their other side.", "quantifier": "all liquidities, timestamps, tick positions and 128-bit values", "why_tests_cant": "The tests use single numbers; that the intermediate 128-bit product is too narrow shows only for spans beyond 340282366, and wrap-around of the three differences must be right for all combinations of sides.", "anchors": ["calc/math/types/seconds_per_liquidity.rs:11-86"]}
{"id": "C75", "title": "An exact-output swap is not aborted", "statement": "In a pool of a history in which no swap ended at an initialised tick, a swap for a given output that the caller can pay succeeds and pays out exactly this amount, or is refused with PriceLimitReached or TickLimitReached. It never aborts with a panic.", "quantifier": "all such histories, pools, positions, callers, both directions, all amounts, all limits on the right side, all fees and protocol fees up to 100%, active liquidity below 2^230, at every tick on the way enough liquidity that it could pay the amount if it went on beyond the tick", "why_tests_cant": "Whether some step of some path makes one of the checked operations fail depends on all digits of price, liquidity and amount, and the sum of the inputs of up to 6.6e28 rounds must be bounded.", "anchors": ["src/invariant_storage.rs:111-249 calculate_swap", "calc/math/clamm.rs:15-132 compute_swap_step", "calc/math/clamm.rs:321 is_enough_amount_to_change_price", "src/contracts/storage/pool.rs:167-205 update_tick"]}
{"id": "C76", "title": "A pool is created exactly when the request is right, at the price asked for", "statement": "create_pool succeeds exactly if the fee tier is listed, the tick is on the grid of the tier, the tokens differ, the pool is not stored and the price lies in the interval of the tick; otherwise it refuses with the reason of the first of these that fails. The new pool is at the price asked for and its tick is the look-up of this price; it has no liquidity and no fees, and no other pool changes. The request that the SDK makes, with the tick it looks up for a price, is granted for every price from that of the lowest to that of the highest tick of the grid and for no other.", "quantifier": "all histories, callers, times, tokens, tiers, prices and ticks", "why_tests_cant": "The intervals of 443637 ticks at up to 100 spacings cannot be enumerated, nor the states; that the price asked for is dropped shows only for prices between ticks.", "anchors": ["src/invariant_service.rs:146-183 create_pool", "src/contracts/storage/pool.rs:57-80 Pool::create", "calc/math/types/sqrt_price.rs:123-144 check_tick_to_sqrt_price_relationship", "calc/math/clamm.rs:349-370 check_ticks, check_tick", "calc/math/types/sqrt_price.rs:224-242 get_max_tick", "sdk/src/invariant.ts:500-517 createPoolTx"]}
{"id": "C77", "title": "Settings, protocol fees, the native coin and transfers of positions are refused only for the announced reasons", "statement": "For change_protocol_fee, add_fee_tier, remove_fee_tier, change_fee_receiver, withdraw_protocol_fee, deposit_vara, withdraw_vara and transfer_position: the complete list of the cases in which the command is refused, with the reason, in the order of the checks; in all other cases the command succeeds with the announced effect and no other.", "quantifier": "all histories (for the transfer of positions: with fewer than 2^32 - 1 positions per account), callers, tiers, pools, receivers, amounts and indexes", "why_tests_cant": "Tests show single refusals; that nothing else makes a command fail, and that no other state changes, is a statement about all states.", "anchors": ["src/invariant_service.rs:86-140 change_protocol_fee, add_fee_tier, remove_fee_tier", "src/invariant_service.rs:204-218 change_fee_receiver", "src/invariant_service.rs:390-398 transfer_position", "src/invariant_service.rs:684-767 withdraw_protocol_fee, deposit_vara, withdraw_vara", "src/contracts/collections/fee_tiers.rs:10-29"]}
{"id": "C78", "title": "Trading to and fro gains nothing", "statement": "In any series of swaps in a pool during which its positions do not change, by any number of accounts and with swaps in other pools and transfers in between, the accounts taken together do not take token X out of the pool without putting in token Y, nor token Y without putting in token X; and if the pool's price ends where it began, they have gained in neither token.", "quantifier": "all histories, pools, series of swaps (lengths, directions, amounts, limits, callers)", "why_tests_cant": "A gain may need many swaps with amounts chosen to make the roundings fall one way or a price that stops exactly at a tick; the number of series is unbounded.", "anchors": ["src/invariant_storage.rs:111-249 calculate_swap", "src/contracts/storage/pool.rs:143-202 update_tick", "calc/math/clamm.rs:15-188 compute_swap_step, get_delta_x, get_delta_y"]}
{"id": "C79", "title": "A swap pays the curve's price and the fee of the tier on it", "statement": "In every swap the trader puts in at least what the price curves of all positions of the pool take up between the price before and the price after it, with the fee of the pool's tier on top, and gets at most what these curves give back. The curves are those of the positions, not of the pool's own liquidity counter.", "quantifier": "all histories, pools with any positions, directions, amounts, limits, exact input or output", "why_tests_cant": "The amounts are sums over many steps with several roundings each, over any number of positions with arbitrary ranges; a fee that is missed in one kind of step (target reached, not reached, rest taken as fee) or a wrong liquidity after one particular kind of swap shows only for special amounts.", "anchors": ["src/invariant_storage.rs:111-249 calculate_swap", "calc/math/clamm.rs:15-132 compute_swap_step", "src/contracts/storage/pool.rs:143-202 update_tick"]}
{"id": "C80", "title": "The average price of an exact-input swap is no worse than the price it ends at", "statement": "A trader who gives an exact amount into a swap gets at least that amount, without the fee of the tier, at the price the swap ends at, up to a few units of rounding for each round of the loop, 5·10^-15 of the output and the granularity of the price; the number of rounds is bounded by the ticks crossed and the distance walked. Hence the average price is never worse than the limit the trader gave.", "quantifier": "all histories (also after swaps that ended exactly at a tick), pools, directions, amounts, limits", "why_tests_cant": "The loss is a sum of roundings over an unbounded number of rounds with arbitrary liquidities and prices; a step that keeps more than a rounding of the input (for example where the remaining amount cannot move the price) shows only for special amounts.", "anchors": ["src/invariant_storage.rs:111-249 calculate_swap", "calc/math/clamm.rs:15-132 compute_swap_step", "src/contracts/storage/pool.rs:143-202 update_tick"]}
{"id": "C81", "title": "Numbers cross the boundary of the SDK unchanged or are refused", "statement": "A number that a user of the TypeScript SDK hands to one of its wasm functions arrives there unchanged, or the call is refused; a number that a wasm function returns arrives unchanged. This holds for amounts of 256 bits, which travel as decimal text or 64-bit words, and for ticks, spacings and scales, which are small integers.", "quantifier": "all integers, all widths, all decimal types", "why_tests_cant": "Tests use ordinary values; cut high bits, a lost word or a wrong digit show only for values beyond 64 or 32 bits.", "anchors": ["sdk/src/wasm/wasm_wrapper/src/conversion.rs:7-68 convert_params", "sdk/src/wasm/wasm_wrapper/src/export.rs:47-92 value_exported_function", "sdk/src/wasm-serializer.ts:35-49 decodeU256FromU64Array, encodeU256ToU64Array", "calc/decimal/src/uint.rs:61-110 Serialize, Deserialize", "sdk/src/wasm/helpers.rs:24-83 decimal_ops"]}
{"id": "C82", "title": "The page-by-page queries of the SDK leave nothing out", "statement": "The list of pool keys that the SDK puts together from pages is the list of all created pools, each once and in creation order. The pages of positions it returns are exactly those of the owner's list that were not to be skipped, each with its index and its positions in order with the state of their pools.", "quantifier": "all histories, numbers of pools and positions, page sizes, lists of pages to be skipped", "why_tests_cant": "Tests have a handful of pools and positions and one page; the end of the last page and the bound of 16 bits show only with tens of thousands of entries.", "anchors": ["sdk/src/invariant.ts:184-193 getAllPoolKeys", "sdk/src/invariant.ts:212-261 getAllPositions", "src/contracts/collections/pool_keys.rs:46-58 get_all", "src/invariant_service.rs:404-433 get_positions"]}
{"id": "C83", "title": "The native coins held cover the balances, and every coin sent in is credited or given back", "statement": "As long as no pool trades the native coin, the program always holds at least the sum of all internal balances of it, so that everybody can take out what they have; and every coin attached to a message is credited to the sender or given back, so that the program holds nothing that is owed to nobody.", "quantifier": "all histories of calls, transfer commands, replies and gifts with any attached values, all callers", "why_tests_cant": "Tests attach value only to deposit_vara and look at one account.", "anchors": ["src/invariant_service.rs:717-726 deposit_vara", "src/invariant_service.rs:728-767 withdraw_vara"]}
{"id": "C84", "title": "A provider loses nothing but roundings, counted at the price of the deposit", "statement": "What a position pays when it is removed, counted at the price the pool had when the position was made, is worth at least what was put in, but for two units of each token, however the price moved, whoever traded and whatever other positions came and went in between; and when the price is back, both tokens come back but for two units.", "quantifier": "all pairs of reachable states, all pools, ranges, amounts of liquidity and callers", "why_tests_cant": "Tests remove positions at a few prices and compare with hard-coded amounts; the claim is about every pair of states and every range, and the exception shows only at low prices inside the range.", "anchors": ["calc/math/clamm.rs:273-319 calculate_amount_delta", "src/contracts/storage/pool.rs:107-142 update_liquidity", "src/invariant_service.rs:220-301 create_position", "src/invariant_service.rs:319-388 remove_position"]}
{"id": "C85", "title": "Who puts in more gets no less, who asks for more pays no less", "statement": "Of two swaps requested in the same state, in the same direction, with the same limit and both successful: if the exact input of one is larger, its output is no smaller and the price moves at least as far; if the exact output of one is larger, its input is no smaller and the price moves at least as far.", "quantifier": "all reachable states, pools, pairs of amounts, limits, both directions, both kinds of amounts", "why_tests_cant": "Tests try single amounts; the claim compares all pairs of amounts, and the exceptions need prices and amounts at which a rounded product of two prices or a second round inside a range is felt.", "anchors": ["src/invariant_storage.rs:111-249 calculate_swap", "calc/math/clamm.rs:15-132 compute_swap_step", "calc/math/clamm.rs:134-157 get_delta_x", "src/contracts/storage/pool.rs:144-202 update_tick"]}
{"id": "C86", "title": "The price limit only stops a swap", "statement": "If a swap succeeds and ends strictly before its price limit, then the same swap with any price limit further away succeeds too, with the same resulting state, amounts, fee and price.", "quantifier": "all reachable states, pools, amounts, both directions, both kinds of amounts, all pairs of limits", "why_tests_cant": "Tests use the extreme limits or one limit next to the price; the claim compares all pairs of limits, and the exception needs a limit within a few units of a price at which the amount of X between two prices is not monotone.", "anchors": ["src/invariant_storage.rs:111-249 calculate_swap", "src/contracts/collections/tickmap.rs:180-223 get_closer_limit", "calc/math/clamm.rs:15-132 compute_swap_step", "calc/math/clamm.rs:134-157 get_delta_x"]}
{"id": "C87", "title": "Providers of the same range share the fees in proportion to their liquidity", "statement": "Two positions in the same range of a pool, opened one after the other, or claimed one after the other whenever they were opened: in every later state in which both are kept as they are, what the two can claim is in the proportion of their liquidities, in each token, up to less than one unit for each of the two.", "quantifier": "all reachable states, pools, ranges, pairs of positions and owners, all liquidities, all calls of anybody in between", "why_tests_cant": "Tests compare the fees of single positions with expected numbers; the claim ties two positions together over every later history, including crossings of their ticks, wrapping growths and other positions sharing one of the ticks.", "anchors": ["src/contracts/storage/position.rs:80-107 update", "src/contracts/storage/position.rs:131-156 claim_fee", "src/contracts/storage/position.rs:157-198 create", "calc/math/types/fee_growth.rs:42-57 to_fee", "src/invariant_service.rs:640-682 claim_fee"]}
{"id": "C88", "title": "The clock decides nothing but the stored times", "statement": "Two runs of the same messages from the deployment on, each at times that do not decrease but otherwise arbitrary, in blocks with arbitrary numbers, end in states that differ in nothing but the start and last times of pools, the seconds stored in ticks and the block numbers stored in positions. Every message fails with the same error in both or succeeds in both with the same amounts and prices.", "quantifier": "all histories of the synchronous calls, all pairs of clocks", "why_tests_cant": "Tests run with one clock. The claim compares every pair of timings of every history; it fails if any amount, price, acceptance or order anywhere depends on a timestamp or block number.", "anchors": ["src/contracts/storage/tick.rs:102-131 cross", "src/contracts/storage/tick.rs:80-101 create", "src/contracts/storage/pool.rs:57-80 create", "src/contracts/storage/position.rs:32-78 modify", "src/invariant_storage.rs:111-249 calculate_swap", "src/invariant_service.rs"]}
{"id": "C89", "title": "Accounts are interchangeable", "statement": "If all accounts are renamed one to one, in the state and in the messages, every call has the same outcome with the accounts renamed: the same errors, amounts, prices, positions and balances. No account has rights, prices or fees of its own beyond the roles stored for it, those of administrator, fee receiver and owner.", "quantifier": "all states, all one-to-one renamings of accounts, all synchronous calls and histories of them", "why_tests_cant": "Tests use a few fixed accounts. The claim rules out every dependence on the identity of a caller, for all identities.", "anchors": ["src/invariant_service.rs", "src/invariant_storage.rs:32-109 increase_token_balance, decrease_token_balance", "src/contracts/collections/positions.rs:11-103"]}
{"id": "C90", "title": "A call sees only its own pools and accounts, so the order of unrelated calls does not matter", "statement": "The outcome of a call, its error or its reply included, depends on the settings, on the pools it names (record, ticks, tick map) and on the accounts it involves (balances, positions), and on nothing else of the state; a quote depends on no account. Apart from calls that change the protocol fee, the fee tiers or the list of pools, a call changes nothing else either. So two groups of messages on different pools and of different accounts can be interleaved in any way: each group ends as if the other had sent nothing, and all interleavings end in the same state.", "quantifier": "all states, all synchronous calls, all pairs of message lists with disjoint pools and accounts, all interleavings", "why_tests_cant": "Tests run one order of a few calls. That no other entry of the state is read can only be shown by comparing all pairs of states that agree on the relevant part.", "anchors": ["src/invariant_service.rs", "src/contracts/collections/tickmap.rs", "src/contracts/collections/positions.rs:11-103", "src/invariant_storage.rs:32-109 increase_token_balance, decrease_token_balance"]}
{"id": "C91", "title": "A claim is not noticed by others, and it does not matter when fees are claimed", "statement": "Claiming the fees of a position changes nothing that matters to anybody else: every later message of other accounts has the same outcome, with the same reply, as if the claim had not been made, for any history of such messages. For the provider, a claim now and a claim later pay, per token, at most one unit less than a single claim later and never more, as long as the accumulators do not grow by 2^128 inside the range in the meantime. A position can be closed after a claim exactly when it can be closed without it, and claiming first and closing then yields the same amounts and the same state as closing directly.", "quantifier": "all reachable states, all positions, all claims, all histories of messages of other accounts between the claims", "why_tests_cant": "Tests compare a few balances after one history. That nobody else can tell whether a claim was made needs two histories compared message by message for all histories, and the two payments differ in rounding and, for histories no test reaches, by the wrap-around of the accumulators.", "anchors": ["src/invariant_service.rs:319-388 remove_position", "src/invariant_service.rs:640-682 claim_fee", "src/contracts/storage/position.rs:131-156 claim_fee", "src/contracts/storage/position.rs:200-231 remove", "src/contracts/storage/tick.rs: update", "calc/math/types/fee_growth.rs:59-107 calculate_fee_growth_inside"]}
{"id": "C92", "title": "A position in two parts is worth the same as the whole, and nobody else notices", "statement": "Making one deposit in a range or two deposits in the same range whose liquidities add up to it comes to the same: it costs the same up to one unit of each token, never less of Y, leaves the same state for everybody else, and is accepted in one way if it is accepted in the other and a unit of the tokens is left. Whatever others do afterwards has the same outcome. Claims for both parts pay what a claim for the whole pays, or one unit of each token less; taking both parts out pays the same as taking out the whole, or up to two units less. The parts never pay more than the whole, and never cost less of X (the last is false by one unit).", "quantifier": "all reachable states, all pools, ranges and pairs of liquidities, all histories of messages of other accounts in between", "why_tests_cant": "A test compares one division of one deposit. Rounding in the amounts depends on prices and liquidity, so equality up to a unit has to hold for all of them, and that others notice nothing is a statement about all their later messages.", "anchors": ["src/invariant_service.rs:220-317 create_position", "src/invariant_service.rs:319-388 remove_position", "src/invariant_service.rs:640-682 claim_fee", "src/contracts/storage/position.rs:131-156 claim_fee", "calc/math/clamm.rs:273 calculate_amount_delta", "calc/math/clamm.rs: get_delta_x, get_delta_y"]}
{"id": "C93", "title": "A swap in several parts gains nothing", "statement": "Selling an amount of a token in one swap, or in any number of swaps one after the other that add up to it: as long as no initialised tick is reached, the parts do not take the price further than the whole and do not pay more than the whole. (For X sold from a tick's price this holds exactly, from any price up to a unit; for Y it holds up to a unit and a relative error of 10^24 over the product of the raw prices, and without that error it is false.)", "quantifier": "all reachable states and pools, all lists of amounts, all limits, as long as the price stays before the next initialised tick and the end of the search range", "why_tests_cant": "A test splits one amount in one way. The fee and the price are rounded in every swap, so whether parts pay more depends on all amounts, prices and liquidities; the number of parts is unbounded.", "anchors": ["src/invariant_service.rs: swap", "src/invariant_storage.rs:111-249 calculate_swap", "calc/math/clamm.rs: compute_swap_step", "calc/math/clamm.rs: get_next_sqrt_price_x_up, get_next_sqrt_price_y_down"]}
{"id": "C94", "title": "The same output asked for in several parts costs no less", "statement": "Asking for an amount of Y against X in one swap, or in any number of swaps one after the other that add up to it: as long as no initialised tick is reached, the parts take the price at least as far as the whole and cost at least as much as the whole. (This holds up to two units when the cost is small against the product of the raw prices, and in general up to a few units and a relative error of 6*10^-15; without the error it is false at low prices.)", "quantifier": "all reachable states and pools, all lists of up to 10^14 amounts, all limits, as long as the price stays before the next initialised tick and the end of the search range", "why_tests_cant": "A test splits one amount in one way. Price, charge and fee are rounded in every swap, so whether parts cost less depends on all amounts, prices and liquidities; the number of parts is unbounded.", "anchors": ["src/invariant_service.rs: swap", "src/invariant_storage.rs:111-249 calculate_swap", "calc/math/clamm.rs: compute_swap_step", "calc/math/clamm.rs: get_next_sqrt_price_y_down, get_delta_x"]}
{"id": "C95", "title": "Only swaps in its pool change what a position is worth", "statement": "While the owner of a position does nothing and nobody swaps in its pool (alone or in a route), the position keeps its content, its amounts on the curve and its accrued fees, whatever others do: deposits, exits and claims in the same pool, withdrawals of protocol fees, swaps in other pools, changes of settings, token transfers. A claim is accepted as before and pays the same, the exit pays the same, and the same deposit costs the same.", "quantifier": "all states reachable with fewer than 2^32 - 1 positions per account, all positions, all histories of calls and transfers of others without a swap in the pool", "why_tests_cant": "A test sees a few actions of others. That no sequence of them moves the value of a position is a statement about every call and every length of history, including the deletion and re-creation of neighbouring ticks and the shared ticks at its own bounds.", "anchors": ["src/invariant_service.rs: create_position, remove_position, claim_fee", "src/contracts/storage/position.rs: modify, update", "calc/math/clamm.rs: calculate_amount_delta", "calc/math/types/fee_growth.rs: calculate_fee_growth_inside"]}
{"id": "C96", "title": "A position earns and changes nothing while the price is outside its range", "statement": "While the price of the pool is strictly above, or strictly below, the range of a position after every call, and its owner does nothing, the position keeps its content, its amount on the curve, which is of one token only, and its accrued fees, however much others trade in the pool. A claim is accepted as before and pays the same, and so does the exit.", "quantifier": "all states reachable with fewer than 2^32 - 1 positions per account, all positions, all histories of calls and transfers of others (routes through the pool counted as the series of their swaps) with the price on one side of the range", "why_tests_cant": "A test trades a few times next to a range. The growth inside a range is a difference of wrapping counters which swaps change at every tick they cross; that it stays put for every history, however many ticks are crossed outside, is a statement about all of them.", "anchors": ["src/invariant_storage.rs:111-249 calculate_swap", "src/contracts/storage/tick.rs: cross", "calc/math/types/fee_growth.rs:60-107 calculate_fee_growth_inside", "src/contracts/storage/position.rs: update"]}
{"id": "C97", "title": "The storage holds no more than what is in use", "statement": "At every moment each stored tick bounds a stored position, so there are at most twice as many ticks as positions; only nonzero balances are stored; every stored word of the tick map belongs to an existing pool, with at most 6932 words per pool; and a pool without positions has no ticks, no set bits and no words in the tick map.", "quantifier": "every state after any history of calls (for the ticks: histories in which no account comes to 2^32 - 1 positions)", "why_tests_cant": "A test looks at single entries after a few calls; that the sizes of all maps stay bounded by each other after any history needs an invariant over all calls, including removals in any order.", "anchors": ["src/contracts/collections/tickmap.rs", "src/contracts/collections/ticks.rs", "src/lib.rs"]}
{"id": "C98", "title": "A trade depends on the market only", "statement": "In two pools of the same fee and tick spacing that have the same price, current tick, active liquidity and the same ticks with the same net liquidity, the same order leads to the same amounts, fee, prices and ticks passed, and to the same market afterwards. The tokens, the caller, the clock, the fees collected so far, the protocol fee and the accounts behind the liquidity make no difference. What one of the pools refuses for an announced reason the other does not trade.", "quantifier": "every two reachable states, pools with the same market, orders, callers and times", "why_tests_cant": "It compares two runs from arbitrary different histories; a test compares a few pairs and cannot show that none of the remaining fields of the state has an influence.", "anchors": ["src/invariant_storage.rs", "src/contracts/storage/pool.rs", "src/contracts/storage/tick.rs"]}
{"id": "C99", "title": "A lower fee is never worse for the trader", "statement": "Take two pools with the same tick spacing, price, current tick, active liquidity and ticks with the same net liquidity, one of them with a lower fee. For an exact output the trader pays no more in the cheaper pool, gets the same, moves the price to the same place, and the markets stay the same. For an exact input the trader gets no less in the cheaper pool.", "quantifier": "every two reachable states, pools that differ in the fee, orders, callers and times", "why_tests_cant": "It compares two runs with different fees through any number of ticks; the fee changes where each step stops and how it is rounded. The counterexamples need prices within one unit of a tick and pass any random test.", "anchors": ["calc/math/clamm.rs", "src/invariant_storage.rs", "src/contracts/storage/pool.rs"]}
{"id": "C100", "title": "To ask for the proceeds of an exact input costs no more than the input", "statement": "Let an exact input pay a certain amount. An exact output for just this amount, in the same state, in the same direction and with the same limit, pays this amount and takes no more than the input. Conversely, an exact input of what an exact output has cost pays no less than this output.", "quantifier": "every reachable state, pool, direction, amount, limit, callers and times for which both swaps succeed", "why_tests_cant": "It compares the two modes of the same trade through any number of ticks. They use different roundings and charge the fee on different amounts, and a deviation shows only where a trade ends within a fraction of a unit of a tick; a test checks each mode against its own expected numbers.", "anchors": ["calc/math/clamm.rs: compute_swap_step, get_next_sqrt_price_from_input, get_next_sqrt_price_from_output", "src/invariant_storage.rs: calculate_swap", "src/contracts/storage/pool.rs: update_tick"]}
{"id": "C101", "title": "A position that was opened and closed again leaves no trace", "statement": "If an account opens a position and removes it again, then afterwards the pools, ticks, tick maps (as the program reads them: a missing word is zero), fee tiers, settings, pending transfers, and everybody's positions are as before, up to the time of the pool's last change and the sign of a zero net change; all other balances are as before; the account gets back no more than it paid, at most one unit less of Y and at most three units and 2*10^-14 of the amount less of X. Whatever others do afterwards has the same outcomes and replies as if the position had never been. The removal is accepted whenever the balances of the account are below 2^254.", "quantifier": "for all reachable states, accounts, pools, ranges, liquidities, times and blocks of the two messages, and all later histories of messages of others", "why_tests_cant": "The claim compares every entry of the state and every later history with one in which the position never existed. Tests look at a few fields of one pool after one withdrawal.", "anchors": ["src/contracts/storage/position.rs: create, remove, modify", "src/contracts/storage/tick.rs: update, create", "src/contracts/storage/pool.rs: update_liquidity", "src/contracts/collections/tickmap.rs: flip", "src/contracts/collections/positions.rs: add, remove", "src/invariant_service.rs: create_position, remove_position"]}
{"id": "C102", "title": "The whole system holds what it owes, with pools, token transfers and the native coin together", "statement": "At any moment of any history - calls, asynchronous deposits and withdrawals, replies that are late, lost, repeated or unreadable, time-outs - (a) an honest token contract holds for the program at least the internal balances of all accounts, the uncollected protocol fees, what removing every position would pay and everything owed because of transfers under way; (b) the native coins on the account of the program are at least the balances, fees and payouts in the coin, also when pools trade it, besides the coins that did not come with deposit_vara; (c) therefore everybody can take out all their coins at any time, and every requested transfer to a user can be made.", "quantifier": "all histories of the program with its users and token contracts, all tokens (one of them honest, the others arbitrary), all accounts", "why_tests_cant": "The claim ranges over all interleavings of messages with all sequences of pool operations; a test runs a few interleavings and a few swaps.", "anchors": ["src/invariant_service.rs: deposit_single_token, deposit_token_pair, withdraw_single_token, withdraw_token_pair, deposit_vara, withdraw_vara, swap, swap_route, create_position, remove_position, claim_fee, withdraw_protocol_fee, reply_handler, handle_valid_reply, handle_panic, handle_transfer_result", "src/invariant_storage.rs: increase_token_balance, decrease_token_balance, calculate_swap"]}
{"id": "C103", "title": "A swap sent after a quote, with a tolerance, does what the quote said", "statement": "Let an exact-input quote end short of its price limit. If the pool has not changed, the swap sent by swapWithSlippage with the estimated price of that quote and any tolerance up to 100% computes a limit that fits a u128, is accepted, and has exactly the outcome of the quote: the limit computed by the SDK never cuts off or refuses the swap the user was shown.", "quantifier": "all reachable states, pools, amounts, limits of the quote and tolerances", "why_tests_cant": "The limit is computed by an integer square root in the SDK and compared with a price that the contract rounds in every round; the tests use one pool and a tolerance of a few percent, and the claim fails only for tolerance 0 and for a sale with tolerance 100%.", "anchors": ["sdk/src/invariant.ts: swapWithSlippage", "sdk/src/utils.ts: calculateSqrtPriceAfterSlippage, sqrtPriceToPrice, priceToSqrtPrice, sqrt, newtonIteration", "src/invariant_service.rs: swap, quote", "src/invariant_storage.rs: calculate_swap", "calc/math/clamm.rs: compute_swap_step, get_next_sqrt_price_from_input"]}
{"id": "C104", "title": "A swap sent with a tolerance is never worse than the tolerance says", "statement": "A user sends a swap with swapWithSlippage, an estimated price and a tolerance. Whatever others do before it is handled, if it succeeds then its average price without the fee of the tier is no worse than the estimated price less the tolerance (for a purchase: plus the tolerance), up to a few units for every round of the swap, one part in 2*10^14 and the resolution of the price.", "quantifier": "all reachable states, in particular all sequences of messages of others before the swap; all pools, amounts, estimates and tolerances", "why_tests_cant": "The claim ranges over everything an adversary may do between the quote and the swap, and over all shapes of liquidity that the swap crosses.", "anchors": ["sdk/src/invariant.ts: swapWithSlippage", "sdk/src/utils.ts: calculateSqrtPriceAfterSlippage, sqrtPriceToPrice, priceToSqrtPrice", "src/invariant_service.rs: swap", "src/invariant_storage.rs: calculate_swap", "calc/math/clamm.rs: compute_swap_step, get_delta_x, get_delta_y"]}
{"id": "C105", "title": "A position gains on keeping its tokens only by its fees", "statement": "Compare, at the price of the moment a position is closed, what the removal pays with the tokens that were put in: but for the fees a claim would have paid at that moment, the removal is never worth more (up to one fifty-thousandth of a unit of Y), whatever happened to the pool in between. And the higher the price, the less X and the more Y the position is made of.", "quantifier": "all reachable states at the deposit and at the removal, all pools, ranges, liquidities and accounts", "why_tests_cant": "The claim ranges over every pair of moments in all histories; roundings in favour of a provider would show only in special prices and ranges, and a test looks at a few.", "anchors": ["src/invariant_service.rs: create_position, remove_position, claim_fee", "src/contracts/storage/position.rs: create, modify, update, remove, claim_fee", "calc/math/clamm.rs: calculate_amount_delta, get_delta_x, get_delta_y"]}
{"id": "C106", "title": "No swap gets a better price than the one it starts at, and a later swap none better than an earlier one", "statement": "(a) The average price of every swap, exact input or output, is no better than the price of the pool when it begins, with the fee of the tier on top. (b) Of two swaps in the same direction the later gets no better average price than the earlier, up to roundings, unless the price moved back in between: who comes first is served first.", "quantifier": "all reachable states, pools, amounts, limits and directions; for (b) all pairs of swaps with any messages between them that do not move the price back", "why_tests_cant": "The claim compares arbitrary pairs of trades over arbitrary liquidity; the fee is taken from the input in the last round of a swap and on top of it in the others, which shows only if one trade crosses a tick and the other does not.", "anchors": ["src/invariant_service.rs: swap", "src/invariant_storage.rs: calculate_swap", "calc/math/clamm.rs: compute_swap_step, get_delta_x, get_delta_y, get_next_sqrt_price_from_input, get_next_sqrt_price_from_output"]}
{"id": "C107", "title": "What a trader pays is credited to the positions and the protocol", "statement": "Every swap leaves the positions of the pool and the protocol together richer by what the trader pays, and poorer by what the trader gets, in the two tokens respectively, counted exactly (amounts on the curve, fees accrued without rounding, protocol fees), up to the roundings of each round of the swap: nothing a trader pays is lost and nothing is handed out twice.", "quantifier": "all reachable states, pools, amounts, limits, directions and kinds of swap", "why_tests_cant": "What is credited is spread over the growth accumulators of all ticks and is never added up by the program; tokens that are paid and credited to nobody do not fail any call, and only an exact account over all positions shows them.", "anchors": ["src/invariant_service.rs: swap, calculate_swap", "src/contracts/storage/pool.rs: add_fee, update_tick", "src/contracts/storage/tick.rs: cross, calculate_fee_growth_inside", "calc/math/clamm.rs: compute_swap_step, get_delta_x, get_delta_y"]}
{"id": "C108", "title": "No tokens get stuck: what the program holds is owed to somebody", "statement": "Over every history the balances of the accounts, the fees of the protocol and what the positions have (amounts on the curve and fees, counted exactly) make up what the program holds of every token, up to the roundings: three units a call, two units and two roundings of the fee growth a round of a swap, one unit of the price where the output of a swap is given, and 5·10^-15 parts of what has moved between the balances and the pools.", "quantifier": "all histories of calls, deposits and withdrawals, all tokens, any number of pools, positions and accounts", "why_tests_cant": "Tokens that belong to nobody make no call fail; to see them one has to add up the exact worth of all positions, the balances and the protocol fees after a long history and compare with the tokens that came in, for every history.", "anchors": ["src/invariant_service.rs: swap, create_position, remove_position, claim_fee, withdraw_protocol_fee", "src/contracts/storage/position.rs: modify, remove, claim_fee", "src/contracts/storage/pool.rs: add_fee, update_liquidity", "calc/math/clamm.rs: compute_swap_step, calculate_amount_delta, get_delta_x, get_delta_y"]}
{"id": "C109", "title": "A refused swap or route names its reason", "statement": "When a swap or a quote is refused, the reason given is true of the request: AmountIsZero, PoolNotFound and WrongLimit are given exactly when, in this order, the amount is zero, there is no such pool, or the limit is not beyond the price; PriceLimitReached only if the limit is beyond the price and still within the range of prices of the pool's ticks; TickLimitReached only if the limit is beyond the end of that range; NoGainSwap only for an exact input; NoBalanceForTheToken and FailedToChangeTokenBalance only if the quote succeeds and the caller has no balance, too little of it, or no room for the proceeds. No other reason is ever given. A route is refused with the reason of its first swap that is refused, after the swaps before it, or with AmountUnderMinimumAmountOut, which is given exactly if all its swaps are executed and the last one gives less than the minimum; a quote of a route likewise gives the reason of its first refused swap.", "quantifier": "every reachable state, every pool key, both directions, exact input and exact output, all amounts and limits, all lists of hops", "why_tests_cant": "The reason depends on where in the loop over ticks the swap stops; tests provoke each reason once, but a wrong reason at one end of the tick range, or a reason leaking from an inner function (a missing tick), needs all states.", "anchors": ["src/invariant_storage.rs: calculate_swap", "src/contracts/collections/tickmap.rs: get_closer_limit", "src/contracts/storage/pool.rs: update_tick", "src/invariant_service.rs: swap, quote, swap_route, quote_route, route"]}
{"id": "C110", "title": "A refused call about a position names its reason", "statement": "When creating a position is refused with an error of the program, the reason given is true of the request: ZeroLiquidity, InvalidTickIndex and PoolNotFound are given exactly when, in this order, the liquidity is zero, the two ticks are equal, or there is no such pool; PriceLimitReached only if the price is outside the caller's bounds; NoBalanceForTheToken and FailedToChangeTokenBalance only if the price is within the bounds and the caller has no balance, or less than the deposit needs, of one of the tokens. Removing a position and claiming its fees give PositionNotFound exactly when the caller has no position of that number, and otherwise only FailedToChangeTokenBalance, when what is paid out would not fit in the caller's balance; transferring gives PositionNotFound exactly when there is no such position, and nothing else. No other reason is ever given: no tick is missing or found twice, and no tick that is not empty is removed.", "quantifier": "every reachable state (for removing, claiming and transferring: without an account of 2^32-1 positions), every caller, key, pair of ticks, liquidity, bounds and index", "why_tests_cant": "Most of the error values in these functions must never appear, which no test can show; whether a tick is created or updated, removed or kept depends on all positions that ever shared it.", "anchors": ["src/invariant_service.rs: create_position, remove_position, claim_fee, transfer_position", "src/invariant_storage.rs: add_tick, remove_tick, get_or_create_tick", "src/contracts/storage/position.rs: create"]}
{"id": "C111", "title": "What a user is told about deposits and withdrawals is true", "statement": "A deposit or withdrawal of tokens that is not requested from the token contracts names the first reason that applies (equal tokens, a balance that would not fit or does not suffice, an amount of zero, the native coin, too little gas, a transfer that cannot be sent), and without a reason it is requested. When the waiting command ends, the caller is told that all is done exactly if every token contract has confirmed its transfer and every confirmation was handled; that a reply was not handled exactly if a transfer is still in the books; that a deposit failed unrecoverably exactly if no token contract has confirmed; and of a recoverable failure in the remaining cases.", "quantifier": "every state, caller, amounts, gas and runtime result; every history of calls, answers, deliveries and wake-ups", "why_tests_cant": "The outcome depends on the order of answers, handlers and timeouts of two contracts, and the refusals on the order of the checks for every combination of amounts and balances.", "anchors": ["src/invariant_service.rs: deposit_single_token, withdraw_single_token, deposit_token_pair, withdraw_token_pair, transfer_single_token, transfer_token_pair, send_transfer_token_message, handle_transfer_result, reply_with_err_and_leave", "src/invariant_storage.rs: can_increase_token_balance, decrease_token_balance"]}
{"id": "C112", "title": "Whoever has tokens in the program can bring them home", "statement": "At any moment an account can take out all it has of a token whose contract is honest: the request is sent, the contract holds enough to pay it, and after the reply and the end of the command the account has nothing left inside, the contract holds exactly that much less for the program, and nothing else has changed. The owner of a position can remove it and take both tokens home: outside the program they receive the balances they had, the worth of the position on the curve (Y rounded down, X up to one unit and a relative error of 1/(2.3*10^14)) and all accrued fees.", "quantifier": "all histories of the program with its users and token contracts, all accounts, positions and tokens", "why_tests_cant": "It chains the removal of a position, two asynchronous withdrawals and the solvency of the whole system, and has to hold after every history; a test can follow one provider out of one state.", "anchors": ["src/invariant_service.rs: remove_position, withdraw_single_token, transfer_single_token, reply_handler, handle_valid_reply, handle_transfer_result", "src/invariant_storage.rs: decrease_token_balance, increase_token_balance", "calc/math/clamm.rs: calculate_amount_delta"]}
{"id": "C113", "title": "The concentrations the SDK offers mean what they say and belong to allowed ranges", "statement": "calculateConcentration says how many times less value stands behind a range than behind the same liquidity over all ticks; it decreases with the width of the range. calculateTickDelta gives the narrowest range whose concentration is no more than the one asked for, and is the inverse of calculateConcentration. getConcentrationArray ends, and every concentration in it belongs to a range that is no narrower than the minimal range.", "quantifier": "all tick spacings, minimal ranges, widths, concentrations and current ticks, in the real numbers", "why_tests_cant": "The repository does not test these helpers; the meaning of the formula, the inverse for all arguments and the end of the loop are statements about all real arguments.", "anchors": ["sdk/src/utils.ts: calculateConcentration, calculateTickDelta, getConcentrationArray", "sdk/src/consts.ts: CONCENTRATION_FACTOR", "sdk/src/computed-consts.ts: CONCENTRATION_ARRAY"]}
{"id": "C114", "title": "A transfer happens or leaves no trace", "statement": "A deposit or withdrawal that passes the checks of the program and with which nothing interferes changes the balance of the user by exactly the requested amount if the token contract confirms it, and changes nothing at all if the contract refuses or fails with a text. With two tokens this holds for each of the two by itself, whatever becomes of the other and whichever reply is first. Depositing and withdrawing the same amount restores the state. After any intelligible reply the waiting command ends well exactly if it is shown a success.", "quantifier": "all histories of the program before the transfer, all users, tokens, amounts, gas limits that suffice, and intelligible replies in either order", "why_tests_cant": "The repository tests a handful of transfers from fresh states; that no other balance, waiting transfer or part of the state changes, from every state and for every reply, is a statement about all histories.", "anchors": ["src/invariant_service.rs: deposit_single_token, withdraw_single_token, deposit_token_pair, withdraw_token_pair, transfer_single_token, transfer_token_pair, reply_handler, handle_valid_reply, handle_transfer_result", "src/invariant_storage.rs: increase_token_balance, decrease_token_balance, can_increase_token_balance"]}
{"id": "C115", "title": "Pools can be removed", "statement": "After any sequence of additions and removals of pool keys, the collection of keys shows its readers exactly the keys that were added and not removed, in the order in which they were added: their number, every page, and which keys there are. A pool or key that is not there cannot be removed; one that is there can, and afterwards exactly this one is gone.", "quantifier": "all sequences of fewer than 65535 additions and removals, all keys, all pages; all maps of pools", "why_tests_cant": "The repository tests the removal of the only key of a collection, where the gap that a removal leaves cannot be seen. The property fails only if another key than the last is removed.", "anchors": ["src/contracts/collections/pool_keys.rs: remove, add, contains, get_all", "src/contracts/collections/pools.rs: remove"]}
{"id": "C116", "title": "Nobody notices the token transfers of others", "statement": "Whatever deposits and withdrawals other accounts begin, whatever the token contracts make of them and whenever their replies arrive, in between the calls of a group of accounts, the calls of the group succeed and fail with the same errors and leave the same pools, positions and balances of the group as if no such transfer had been made. Conversely a reply has the same effect on the balance of its user wherever it arrives among the calls of others.", "quantifier": "all reachable worlds (program, token contracts and messages in flight), all groups of accounts and pools, all interleavings of the group's calls with the transfers of others, all answers of the token contracts, all calls", "why_tests_cant": "The tests finish every transfer before they send the next message, so no call is ever made while a transfer waits; the property ranges over all interleavings and all answers.", "anchors": ["src/invariant_service.rs: deposit_single_token, deposit_token_pair, withdraw_single_token, withdraw_token_pair, reply_handler, handle_valid_reply, handle_panic, handle_transfer_result", "src/invariant_storage.rs: increase_token_balance, decrease_token_balance, can_increase_token_balance"]}
{"id": "C117", "title": "The stores of pools and ticks are dictionaries that name the reason of a refusal", "statement": "After any sequence of additions, updates and removals, some of them refused, the store of ticks shows exactly the ticks of a dictionary, and so does the store of pools: adding what is there is refused with TickAlreadyExist or PoolAlreadyExist, reading, changing or removing what is not there with TickNotFound or PoolNotFound, and everything else is done. add_tick and remove_tick keep the marks of the tick map equal to the set of stored ticks; a tick with liquidity is not removed (NotEmptyTickDeinitialization) and the removal of a tick that is not there panics. create_tick makes a tick only on the grid of an existing pool.", "quantifier": "all sequences of operations on any pools and ticks, and every next operation", "why_tests_cant": "The tests perform two or three operations on one key; the agreement of the ticks with the tick map and the refusals are statements about all sequences.", "anchors": ["src/contracts/collections/ticks.rs: add, update, remove, get", "src/contracts/collections/pools.rs: add, update, remove, get", "src/invariant_storage.rs: create_tick, add_tick, remove_tick", "src/contracts/collections/tickmap.rs: flip"]}
{"id": "C118", "title": "Pools and positions requested through the SDK", "statement": "A pool requested through the SDK (createPool, which looks up the initial tick itself) at any price a pool can have is made if it may be made, and starts at the price asked for. A position requested through the SDK at the price of the pool, with any tolerance up to 100 %, has exactly the outcome of a request without price limits; if the price has moved meanwhile the position is made only if the new price is within the tolerance.", "quantifier": "every reachable state, all pool keys and prices; all tick ranges, liquidities, spot prices and tolerances up to 100 %", "why_tests_cant": "The tests of the SDK create their pools at price 1 and their positions at the price of the pool; the prices at which the look-up of the tick and the check of the program disagree lie at the ends of the grids.", "anchors": ["sdk/src/invariant.ts: createPoolTx, createPositionTx", "sdk/src/wasm/log.rs: get_tick_at_sqrt_price", "sdk/src/utils.ts: calculateSqrtPriceAfterSlippage", "src/invariant_service.rs: create_pool, create_position", "src/contracts/logic/clamm.rs"]}
{"id": "C119", "title": "A setting matters only to the calls it is for", "statement": "The admin, the protocol fee and the list of fee tiers influence only the calls that are about them: the admin the calls reserved for the admin and the receiver of fees of a new pool, the protocol fee its own change and swaps, the list of tiers its own changes and the making of pools. Every other call has the same outcome (failures included) under any other settings, and leaves them as they are. So pools of a removed fee tier go on exactly as before for positions, swaps, claims and withdrawals, and a new protocol fee is noticed only by swaps. No part of a token deposit or withdrawal depends on a setting or changes one.", "quantifier": "all states (reachable or not), all synchronous calls and their arguments, senders and environments, all settings, all finite histories of calls, replies and resumed transfers", "why_tests_cant": "The tests change a setting and look at the calls it is meant for; one of them (interaction_with_pool_on_remove_fee_tier.rs) also uses a pool after its tier was removed, for one position, one swap and one claim. That no other call depends on a setting, whatever the state, the arguments and the history, is a statement about all pairs of states that differ in settings.", "anchors": ["src/invariant_service.rs: change_protocol_fee, add_fee_tier, remove_fee_tier, create_pool, change_fee_receiver, create_position, remove_position, transfer_position, swap, swap_route, claim_fee, withdraw_protocol_fee, deposit_vara, withdraw_vara", "src/contracts/collections/fee_tiers.rs", "src/contracts/storage/pool.rs", "src/e2e/gtest/interaction_with_pool_on_remove_fee_tier.rs", "src/invariant_service.rs: deposit_single_token, withdraw_single_token, deposit_token_pair, withdraw_token_pair, reply_handler"]}
{"id": "C120", "title": "A position pays its new owner what it would have paid the old one", "statement": "After transfer_position the receiver can claim the fees and remove the position whenever the old owner could have, and is paid exactly the same amounts. A claim before or after the transfer leaves the same state but for the account that was paid, and so do the exits of the two owners. It makes no difference when the position is handed over among the messages of other accounts, including swaps in its pool. A transfer to oneself only moves the position to the end of the list.", "quantifier": "all states reachable with fewer than 2^32 - 1 positions per account, all positions, all receivers (the owner included) whose balances have room for the payment, all later histories of messages of others that change no settings and make no pools", "why_tests_cant": "The tests compare the transferred record and the two lists; none of them claims or removes a position as its receiver (the example of the SDK hands it back first), and equality of the final states for all positions, pools and receivers is not a finite check.", "anchors": ["src/invariant_service.rs: transfer_position, claim_fee, remove_position", "src/contracts/collections/positions.rs: transfer, remove, add", "src/contracts/storage/position.rs: claim_fee, remove"]}
{"id": "C121", "title": "It does not matter when the protocol's fees are collected", "statement": "After the receiver of fees has collected the protocol's part from a pool, every message of other accounts has the same outcome and the same reply as if it had not been collected, for any history of such messages, and leaves the same state but for what is still to be collected and the balances of the receiver. Collecting now and again later pays exactly what collecting once later pays, succeeds exactly when that does, and ends with the same state. The only exception is a pool whose fees to be collected outgrow 256 bits: there a swap panics until they are collected.", "quantifier": "all states and messages, all receivers and pools, all histories of messages of accounts other than the receiver that do not collect from the pool themselves, as long as what was collected and what the pool has at the end fit into 256 bits together", "why_tests_cant": "The tests collect once, after one swap, and compare the amounts with constants; none of them collects twice with trades in between or compares the runs with and without collecting, which is a statement about pairs of histories of any length.", "anchors": ["src/invariant_service.rs: withdraw_protocol_fee, swap, claim_fee, create_position, remove_position", "src/contracts/storage/pool.rs: add_fee, update_liquidity, update_tick, withdraw_protocol_fee"]}
{"id": "C122", "title": "A higher protocol fee gives the protocol no less", "statement": "For the same successful orders, one or many, in two pools with the same market, the protocol's part that is put aside grows at least as much where the protocol fee is higher, for each of the two tokens. In particular, raising the fee before some orders never leaves the protocol with less after them. The part is rounded up in every step of every swap, so it is not simply the share of the fees paid. Of the fee reported for a swap the protocol gets at least its share in the token that is paid, and nothing of the other token.", "quantifier": "every two reachable states, pools with the same market, protocol fees of which the second is not lower, lists of orders executed in both, callers and times", "why_tests_cant": "It compares two runs over any number of steps, ticks and orders, with a rounding in each step; tests compute the part for single settings.", "anchors": ["src/contracts/storage/pool.rs", "src/invariant_storage.rs"]}
{"id": "C123", "title": "A pool without positions stands still", "statement": "As long as nobody has a position in a pool, every swap, quote and route through it is refused, and the pool keeps its price, current tick and fee growth, and has no ticks; only the receiver of fees and the fees to be collected change. More generally, whenever a swap is executed, there is a position in the pool whose price range contains a part of the way that the price went. (False of the code in general: a swap that ends exactly at a tick leaves the liquidity of a position counted after the position is removed, and then the pool trades although nobody offers anything. Proved where the pool's liquidity is the one of the positions in range; the second part for histories and swaps that do not end near a tick.)", "quantifier": "every reachable state with a pool without positions, every history of calls and transfers after it as long as there are none, every order", "why_tests_cant": "It is about every order of every kind after any history; the wrong liquidity arises only if a swap ends exactly at a tick and the position is removed afterwards.", "anchors": ["src/invariant_storage.rs: calculate_swap", "src/contracts/storage/pool.rs: update_tick", "src/invariant_service.rs: swap, remove_position"]}
