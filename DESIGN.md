# Formal model of the Invariant protocol on Vara: design

The subject is the Rust code in `/repo` (read as text, never built). The model is a Lean 4 development in
`lean/`. The properties are in `properties.jsonl`; `MANIFEST.json` maps each property to the theorems that
settle it; `seeded/LOG.jsonl` records the tests of the theorems against wrong programs.

Contents: 1 shape of the model, 2 files, 3 histories and specifications, 4 properties and proofs,
5 trusted base, 6 what is modelled and what is not, 7 where code and properties disagree,
8 tests against wrong programs.

## 1. Shape of the model

* **Values.** Every decimal type of the code (`Liquidity`, `SqrtPrice`, `TokenAmount`, …) is modelled by its
  raw integer as a `Nat`. Every arithmetic operation of the code is an operation in an error monad that checks
  the bit width the code checks. `M α := Except Err α` with `Err = panic | track | inv e`: a Rust panic, a
  `TrackableError`, or an `InvariantError`. Guards of the form `if c { return Err(e) }` are `failIf c e`.
  Widths: `Liquidity`, `TokenAmount` 256 bit; `SqrtPrice`, `FeeGrowth`, `Percentage`, `FixedPoint` 128 bit;
  intermediate types 192, 256, 320, 384, 448, 512 bit, as in the code. Operations that wrap in a release build
  (`+=` on `u16` and `u32` counters, `i32::abs`, the fee growth accumulators) wrap in the model.
* **Maps.** A Rust `HashMap` is a finite map `Map K V`, an association list without duplicate keys.
* **State.** `Inv` has one field per field of `Invariant` (`src/invariant_storage.rs`).
* **Synchronous calls.** `step : Env → Inv → Call → M Inv`. A program that panics while handling a message is
  rolled back by the runtime, so a failed call leaves the state as it was (`run`). Since the real program
  writes in place, `Model/Inplace` holds a second version of every command as a sequence of storage writes
  that stay after a failure; C24 relates the two and shows that the roll-back of the runtime is needed.
* **Asynchronous calls.** Calls that talk to token contracts are a transition system over the storage, the
  pending tasks and the token ledgers (`Spec/World`): a task is committed where the program awaits; replies
  arrive in any order with any content (true, false, other payload, panic text, undecodable bytes), or never;
  the reply hook runs in the message that delivers the reply, before the waiting task is woken, and may fail
  (gas), which undoes only that execution. Replies are byte strings, read as `Model/Scale` says.
* **Swap loop.** `calculate_swap` is a recursion with a bound on the number of rounds that is proved never to be
  exhausted (C38).

## 2. Files

`Verif/Base.lean`: monad, checked arithmetic, maps. `Verif/Model/*`: the code, function by function, each
definition citing file and lines. `Verif/Spec/*`: small independent specifications. `Verif/Proofs/*`: helper
lemmas. `Verif/Props/*`: the property theorems, with examples that meet their hypotheses.

| model file | code |
|---|---|
| Math | `calc/math`: decimal operations, tick prices, logarithm, token deltas, swap step, fee growth |
| SecondsPerLiquidity | `calc/math/types/seconds_per_liquidity.rs` |
| Casts | `calc/decimal`: conversions between integer types, on lists of 64-bit words |
| Decimal | `calc/decimal/decimal_core`: the generated operations of a decimal type, for any scale and widths |
| Storage | `src/contracts/storage`: fee tiers, pool keys, pools, ticks, positions |
| Tickmap | `src/contracts/collections/tickmap.rs` |
| State | `src/contracts/collections`, `src/invariant_storage.rs` |
| SdkRequests | `createPoolTx` and `createPositionTx` of `sdk/src/invariant.ts`, with the command they send |
| Removal | `Pools::remove`, `PoolKeys::remove`, which only their own tests call |
| Service | the synchronous part of `src/invariant_service.rs` |
| Inplace | the same commands as sequences of writes |
| Events | `io/src/lib.rs` events and the `notify_on` calls |
| Async, Scale | the token transfers and reply handlers; decoding of replies |
| LiquidityResult | `src/contracts/logic/liquidity_result.rs` |
| Queries | the combined queries of `src/invariant_service.rs`; the paging of `sdk/src/invariant.ts` |
| Sdk | `sdk/src/wasm`: fetching the state, the swap simulation |
| Wasm | boundary of the SDK: arguments, texts and words (`sdk/src/wasm/wasm_wrapper`, `sdk/src/wasm/helpers.rs`, `sdk/src/wasm-serializer.ts`, `calc/decimal/src/uint.rs` 61-110) |
| SdkUtils | helpers of `sdk/src/utils.ts`, `sdk/src/wasm/custom.rs`, `sdk/src/wasm/storage` |
| Concentration | `sdk/src/utils.ts` 730-780: `calculateConcentration`, `calculateTickDelta`, `getConcentrationArray`; floating-point numbers are real numbers |
| Vft | `extended-vft/app`: mint, burn, roles |

## 3. Histories and specifications

* `Reach s`: `s` arises from a new program by any successful calls of any users and by any change of the
  balances that deposits and withdrawals can make. `Reach32`: in addition no account gets to 2^32 - 1
  positions (the counter is a wrapping `u32`; see C19). `Clear`: in addition no swap ends near an
  initialised tick in the sense of `Near`: a purchase of X that stops at its limit exactly at such a tick, or a
  sale of an exact input of X that stops exactly at one other than by its limit or, at prices up to one, within
  65536 units of 10^-24 below one. A sale for an exact output is never excluded. `Books s held`: a history together with the amount
  of every token the program holds. `ClearBooks s held n`: both, with a bound `n` on the number of calls.
* `World`: a state with the pending transfers and the ledgers of the token contracts (C43 to C48).
* `Coins`: a world with the native coins on the account of the program (C83).
* `Alike`: two states that differ only in times and in the names of accounts, two results with the same outcome (C88, C89).
* `Apart`: two states that agree on given pools and accounts, the accounts of a message, interleavings of two lists of messages (C90).
* `Unseen`: two states that differ only in the balances and positions of one account, in the time of the last change of a pool and in the sign stored with a net change of zero; how much the accumulators grew inside a position (C91).
* `Parts`: a position in the same range with the same fees behind it; two states of which one has two positions for one of the other, and which are the same for everybody else (C92).
* `Split`: several swaps in a row and the sum they pay or cost; a price before which there is no initialised tick (C93, C94).
* `Quiet`: what can become of a state while one account does nothing and nobody swaps in one pool (C95).
* `Aside`: histories in which the price of a pool stays on one side of a position's range (C96).
* `Market`: which pools have the same market, and which results are the same trade (C98).
* `Cheaper`: the same market with a lower fee (C99).
* `Traceless`: states that are the same for everybody but one account, a missing word counting as zero (C101).
* `Reasons`: what the reasons given for refused swaps say of the request (C109; `RefusedAt`, for routes, stands beside its theorem).
* `Told`: the reasons for refused deposits and withdrawals, what the token contracts have answered, and with what a waiting command is resumed (C111).
* `Home`: the events by which an account takes all it has of a token out, and what they change (C112).
* `Concentration`: the value behind a range and behind all prices, in the real numbers (C113).
* `Attempt`: the events of an undisturbed transfer of one or two tokens, and what it is to change nothing but the
  balance concerned (C114).
* `Removal`: a list of keys with additions and removals, and what it is to show a list to readers (C115).
* `Elsewhere`: states that agree on some pools and accounts whatever transfers they wait for, and the events of transfers
  that do not concern those accounts (C116).
* `Dictionary`: a partial function with additions, updates and removals, and which of them are possible (C117).
* `Settings`: the three settings of the admin, the calls each of them is for, and states that agree in all but settings (C119).
* `Sale`: who is paid, and states that agree in all but balances (C120).
* `Till`: states that differ in the protocol fees still to be collected, and runs of which the first may panic for lack of room (C121).
* `Idle`: pools without positions, and histories as long as there are none (C123).
* `Toll`: what the protocol has put aside in a pool, and orders executed one after the other (C122).
* `Refusals`: the same for creating, removing and claiming a position (C110), with the exact amounts of the curve.
* `Whole`: histories of calls, token transfers and native coins together, with the condition that no swap ends near an initialised tick (C102).
* `Curve`: exact rational amounts between two prices. `FeeHistory`: fee additions, tick crossings and moves of
  the price as an inductive relation, with the growth that happened while the price was in a range.
  `CollectHistory`: sequences of fee collections. `TickSet`: a set of ticks as a predicate. `Collections`: lists
  and functions that the stored collections stand for. `Words`: value of a list of 64-bit words. `Exit`: the
  exact worth of a position. `Accrued`: the fees accrued by the positions of a pool. `Credited`: all that positions and protocol have in a pool. `Stuck`: all that is owed in a token, and histories with what roundings may have taken.
* `Demo`, `WorldDemo`, `Exploit`: concrete histories for the examples and refutations.

## 4. Properties and proofs

| id | specification | proof |
|----|---------------|-------|
| C01 | order of the prices, endpoint values | products of low-bit constants stay below the next constant; the reciprocal for negative ticks keeps gaps |
| C02 | `price t ≤ p < price (t + s)` | the approximate logarithm is monotone in the price; its value at both ends of each of the 443637 tick intervals is evaluated by the kernel (the whole table), so the two candidates always contain the floor tick |
| C03, C04 | rational amounts | division lemmas; C04 error below 1/(2.3·10^14) of a unit |
| C05 | deposits and withdrawals in pieces | monotonicity and (super/sub)additivity of rounding |
| C06–C08 | rational curve | case analysis over the branches of the step |
| C09 | rounding up | division lemmas |
| C10, C11 | `FeeHist`, collections | induction over histories in arithmetic mod 2^128 |
| C12, C33 | sums over all positions | inductive invariant over all calls; with lost positions as a remainder for histories of any length; the negation of C12 by induction over the number of rounds of an attack; the sign of a zero change by cases |
| C13 | value of a word list | induction over words |
| C14–C18 | set of ticks | bit lemmas, induction over chunks |
| C19–C23 | lists, sets, functions | refinement; invariants over calls |
| C24 | equality of states | refinement of the in-place version |
| C25–C27, C49 | frame conditions | case analysis of every call |
| C28, C29, C38 | interval, sums | loop invariants |
| C30, C31 | sequential composition | induction over the hops |
| C32 | difference zero mod 2^128 | the stored growth is the inside growth after a claim |
| C34 | sum of the in-range positions | invariant of the swap loop over the tick grid; `C34_limit`: the same loop with a limit at an initialised tick, which `getCloserLimit` never takes as a tick to cross because it compares strictly, gives the error exactly; `C34_attack`: buying exactly the X below the next tick takes one round that succeeds (`Proofs/StopAtTick`), so every healthy pool can be brought there |
| C35 | C02 | inductive invariant |
| C36 | exact worth | from C33, C34; `C36_attack` from `C34_attack` |
| C37 | sum of everything owed as a rational | potential argument: each call changes the exact worth of all positions by no more than what it books, up to 2·10^-9 units |
| C39–C42 | sums, exact conditions | case analysis; simulation between swaps with different protocol fees |
| C43–C48 | ledgers | invariants over the transition system |
| C50 | sum of balances, `VftAllowed` | invariant; `C50_accept`: a call succeeds exactly when allowed, because no balance exceeds the supply |
| C51 | equality of results | simulation relation between the two loops |
| C52, C53 | inequalities over the curve | division lemmas |
| C54 | `accrued` | loop invariant on the fees of all positions, on top of C10; `C54_attack` from `C34_attack`: after the purchase the range lies below the price, so its growth is outside(upper) − outside(lower) instead of global − outside(upper) − outside(lower); `C54_theft`: the claim is evaluated on that growth |
| C55, C56 | pages and filters of lists | grouping preserves order and content; invariants from C19–C22, C33 |
| C57 | sum of the in-range positions | C33 for each tick, exchange of two sums |
| C58 | equality of amounts | the effect lemmas of C32, C39, C36 |
| C59, C60 | `Nat.sqrt` characterised by its two inequalities | descent of Newton's iteration, division lemmas |
| C61 | filters of a list; the contract's swap | the simulation reads only ticks ahead of the pool's tick |
| C62 | balances before and after | monotonicity of the two amount formulas in the price |
| C63 | UTF-8 and compact integers by their encoders | induction over the bytes, arithmetic on the digits |
| C64 | exact amounts and caps | every step of the call shown to succeed from the invariants; converse of C39 |
| C65 | sums over the log of events (`Spec/Events`) | induction over histories with their events; the sums of log, ticks and positions kept equal up to a list of lost positions; loop invariant for the crossed ticks |
| C66 | rational values and rounding (`Spec/Decimal`) | each operation reduced to a quotient of integers; the operations of Math shown to be instances |
| C67 | a reader of texts (`Spec/Decimal`) | digits of quotient and remainder; length of the padding |
| C68 | a reader of addresses (`Spec/Names`) | digit strings of one length are ordered like their numbers |
| C69 | intervals of spacing and fee | case analysis; spacings beyond 16 bits by a witness |
| C70 | what a position is worth (`Spec/Exit`) and the balances | every step of the call shown to succeed; the liquidity counter stays below 2^256 in all histories |
| C71 | active liquidity from the positions, exact amounts on the curve (`Spec/Tie`, `Spec/Curve`), announced refusals | every round of the loop shown to succeed or to be refused; paid output bounded by the curve along the whole path |
| C72 | the balance book and the gas price of one transfer, written out in `Props/Requests` | both directions of every condition, by inverting the command before its first await |
| C73 | durations summed over the history (`Spec/Clock`) | seconds below a tick, kept by every iteration of a swap modulo 2^64 |
| C74 | integers and remainders | the checked products and the quotient inverted; differences modulo 2^128 |
| C75 | active liquidity and virtual reserves `p·L`, `L/p` at the ticks of the grid (`Spec/Curve`, `Spec/Book`), announced refusals | every round of the loop shown to succeed or to be refused; paid input bounded along the curve (Y) or by the number of rounds of C38 (X) |
| C76 | interval of a tick on the grid, list of reasons in order (`Spec.refusal`) | every check decided; the keys listed are the pools stored by induction over histories; look-up by monotonic prices; the SDK's look-up composed with the answer |
| C77 | the answer of each command as a nested case distinction | unfolding; credits by well-formed balances; lists of positions by C19's representation |
| C78 | series of swaps with the sums paid (`Spec.Trades`) | the exact amounts on the curve of all positions as functions of the price alone; each swap pays at least the difference (C08 summed over the iterations), and the amounts in X fall when those in Y rise |
| C79 | exact amounts on the curves of the positions at a price (`Spec.curveHeld`) | per step, input and fee cover the curve times one plus the rate (C08 where the target is reached, the price formula inverted where it is not); summed over the rounds like C78 |
| C80 | price, rate and liquidity as rationals (`Spec.price`, `Spec.pct`, `Spec.liq`), bound on the rounds (`Spec.rounds`) | per round: input without fee is at most the curve amount plus roundings, and at the new price at most the output; only the last round can stop short of its target; rounds counted by ticks crossed and search ranges walked |
| C81 | integers; `RoundsDown` of `Spec/Decimal` | digits of a number, induction over digits and words; cuts by witnesses |
| C82 | list of created pools (`Spec.Created`), lists of positions (`Spec.Holds`), pages wanted (`Spec.pagesWanted`) | consecutive slices put together; the bound of 16 bits on offset plus size |
| C83 | account of the program with the coins that came with every message (`Spec/Coins`) | invariant: coins held = balances + coins not deposited; the sum depends only on the balances (`total_congr`) |
| C84 | exact amounts on the curve (`Spec.amountX`, `Spec.amountY`), what the balances lost (`Spec.Cost`) | at the price of the deposit the exact amounts of a range are worth least at that price (`hold_curve`, in each of the three places of the price); rounding of the amounts on both sides |
| C85 | pairs of results of swaps in one state | two runs of the loop: they stay at the same place (`Level`) until the smaller amount is used up, or the smaller one lags behind at the end of a search range with too little to change the price (`Lag`) |
| C86 | pairs of results of swaps with two limits | the rounds are the same one by one: the search is independent of the limit (`closer_further`), a step that stops before its target is the same with a target further away (`step_further`), as the amounts that decide it grow with the target; a round never comes to the first limit because prices go on in one direction (`loop_onward`) |
| C87 | pairs of claims of two positions in the same range, in any later state | two positions opened or claimed one after the other store the same growths inside the range (`Inside.eq`: the second call changes neither the growths of the pool nor those of the initialised ticks); later claims are then one growth times the two liquidities, each rounded down |
| C88 | states that differ only in times (`Spec/Alike`), `SameOutcome` of two results, ordered histories | a relation between two runs is carried through every function of the model (`Proofs/Alike`): a time is read only in `Tick.cross` and `Tick.create` and goes only into fields that nothing else reads; the one check on it, that a pool is not younger than the message, holds in both runs |
| C89 | states alike up to a one-to-one renaming of accounts | the same relation with renamed keys of balances and positions; accounts are only stored, looked up and compared |
| C90 | states agree on given pools and accounts; interleavings of two lists of messages | the relation of C88 restricted to keys of given pools and accounts, with equal times; then C26 and C49 for what is left alone, and induction on the interleaving |
| C91 | states that are the same for all but one account; two histories with and without a claim | the relation of C88 with a third strictness (times may differ in the pool, signs of zero may differ); floors of two summands for the amounts; `remove_succeeds` in both states for leaving |
| C92 | one position against two with the same sum of liquidity | the two orders of writing ticks, pool, bitmap and balances compared field by field; floors and ceilings of two summands (`Proofs/Parts`); the relation of C91 for the time in between; `create_succeeds` for acceptance |
| C93 | a list of swaps against one swap of the sum | a swap that ends before the border is one step with closed forms (`Split.short_of`); the border carries over to the next part; induction over the list: the price stays above the curve of the sum, the payments telescope |
| C94 | a list of requests for Y against one request for the sum | such a request is one step that pays exactly what was asked (`Split.shortOut_of`); induction over the list: the charges cover the way between the prices but for 10^-14 units each (`charge_one`, `charge_trans`), the charge of the whole exceeds it by less than a unit and a relative error (`charge_upper`) |
| C95 | the histories of `Quiet` | a call that does not swap in the pool leaves its price, tick and fee growths, and the growths of every tick that exists before and after (`calm_step`, from the effects of the calls); the ticks of a stored position exist throughout (`stored_has`); amounts and fees are functions of these; a claim is accepted as before (from C70), while the acceptance of the exit still depends on the liquidity counter (C36) |
| C96 | the histories of `Aside` | ticks crossed by a swap have prices between its start and its end (`calculateSwap_crossed`), so the bounds of the range keep their growths (`step_bounds`, with `calm_step` for the other calls); outside the range the growth inside is a difference of these two only (`inside_aside`) and the amounts do not depend on the price |
| C97 | entry counts of the maps of `Inv` | every key of the tick map's words by induction over calls; ticks injected into the bounds of positions (C33); a word without set bits is zero by legality of set bits; witness: remove the only position of a pool |
| C98 | `SameMarket`, `SameDeal` (`Spec/Market`) | two runs side by side: every operation either gives related results, fails on both sides, or is an internal abort on one (`Paired`); words of the tick map equal because set bits are stored ticks |
| C99 | `LowerFee` (`Spec/Cheaper`) | two runs side by side with two fees: for an exact output they stay at the same place (`Even`); for an exact input as in C85, level until the dearer one is used up, or that one stays behind at the end of its search range (`Behind`) |
| C100 | `swap` of the two modes | two runs side by side, an exact input and an exact output for its proceeds: at the same place until the exact input is used up (`Par`); then the exact output ends before it, or goes to the next tick for less than one unit of Y (`dxUp_close`); the fee on the net input is covered by the fee on the whole amount (`fee_room`) |
| C101 | `Traceless`: `SameForOthers` with missing words as zero; balances, replies | tick and pool updates cancel, fresh ticks go again (a stored tick has liquidity), words follow from the ticks by the store invariant, inside growth unchanged so no fees; later histories by the simulation of C88–C91 with words compared as read; acceptance from C36 |
| C102 | `Whole`, `ClearEvent`, `HonestEvent`; sums of balances, fees, payouts, transfers under way | the books of C37 are followed through every event (credits and debits of the transfers are deposits and withdrawals there); their holdings are the sum of balances less what calls booked, which C45 bounds by the tokens held, and the coins held less the stray ones |
| C103 | quote and swap of the model; the limit computed by the SDK | a limit nearer than the old one but beyond the end of the swap leaves every round as it is: its target may move, but the price the round ends at is found from the amount, and the rounding of the test "does the target cost more than there is" is bounded by 2·10^5 units of the price (`step_nearer`, `loop_nearer`); a tolerance above 0 leaves more room than that (`slippage_room`) |
| C104 | `price`, `pct`, `liq`, `rounds` (C80), `TookRounds`, `endLiq` | C80 bounds the average price by the limit; the limit is bounded by the estimate and the tolerance (C60). For an exact output of Y the input of each round is compared with the output at the end price of the round (`iter_take_x`), and the sum over the rounds follows by the walk of C80. For an exact output of X (`C104_take`, from `swap_avg_take`) the rounds are counted by the relation `TookRounds`, which only repeats `swapIter`: they are not bounded by the ticks passed, because a round may fall short of the remaining output without reaching a tick |
| C105 | `Cost`, `price` (C80, C84); calls of the model | the deposit is at least the curve (but for 4.35·10^-15 of a unit of X), the payment at most the curve; on the curve the mix of tokens at the current price is the cheapest of all mixes of the range (`hold_curve`, from C84 with the two moments exchanged); the amounts are monotone in the price cut to the range (`cut_mono`, `dxDown_wider`, `dyDown_wider`) |
| C106 | `price`, `pct`, `rounds` (C80) | in each round the output is at most the curve and the input with its fee at least 1 + fee times the curve (C08, `step_pays`), and amounts of X and Y between two prices differ by the product of the prices (`amountY_as_X`); summed over the rounds (`swap_start_x`, `swap_start_y`); with C80 for the earlier swap |
| C107 | `credited` (`curveHeld` of C79, `poolAccrued`, protocol fees), `poolLiq`, `lastUnit`, `Roomy`, `rounds` (C80), `TookRounds` | the growth inside a range advances by exactly the growth of the round as long as it stays below 2^128 (`fgSub_mod_eq`, C10), and the growth times the least liquidity is at most the input so far (`GrownBy`), so nothing turns over; each round the input exceeds the curve, and the fees exceed growth times liquidity, by the roundings only (`iter_curve_ge`, `le_growth_mul`); for a given output the price goes too far by one unit, in the last round only (`nextY_out_le'`, `nextX_out_le'`, `outGrain`); summed with the number of rounds (`swap_keeps`), which the ticks passed bound except for exact outputs of X; the upper bounds are those of the solvency proof (`swap_balance`) |
| C108 | `claims` (balances, protocol fees, `posHas` of every position), `Metered` (histories with what is held and what roundings may have taken), `Calm` | the solvency proof of C37 from below: a position put in is worth what was paid but for one unit and relX (`in_le`), taken out pays its worth but for three (`out_ge`), a claim drops a fraction (`owed_claim_ge`), a swap loses what C107 allows (`owed_swap_ge`); other positions keep their worth exactly; induction over the history (`metered_owed`); the exact worth is that of the spec (`claims_eq`) |
| C109 | `Reason`, `ReasonBalance`, `PastLast`, `RefusedAt` | every error value of a round is traced to its place in the loop; the loop invariant (price and tick agree, price between start and limit) turns the place into a statement about the limit and the tick grid; routes by induction over the hops |
| C110 | `CreateReason`, `PayReason` | inversion of every failing step; the invariants of the tick store (C12, C33) and of the position lists (C19–C23) exclude the reasons that would mean a broken store |
| C111 | `singleReason`, `sendReason`, `lack`, `Done`, `Failed`, `Heard` | case analysis of the first part of every command; invariant of the histories (`Proofs/Told`): the transfers a command waits for are in the books or have a legible answer, and no two commands wait for the same transfer |
| C112 | `takeHome`, `leave`, `leaveCoin`, `Home`, `Worth` | the four events are computed from unused message identifiers; they are fair for every token contract, so C102 still applies between the two withdrawals; C36 gives the removal and its amounts |
| C113 | `rangeValue`, `wholeValue`, `ticksAway` | algebra with real powers and logarithms; the loop by induction over the fuel, every round but the first lowers a positive number by 1; the constant by powers of 10001 |
| C114 | `attempt`, `attemptPair`, `Booked`, `BookedPair`, `after` | the events are computed from unused message identifiers; one lemma handles the reply of one token, and is used twice in either order |
| C115 | `keysAfter`, `Shows` | refinement of the collection by a list, with removals at the end of the list |
| C116 | `AgreeAside`, `Elsewhere`, `Among`, `SameOutcome` | the simulation of C70 for states that wait for different transfers; the events of others keep `AgreeAside`, so induction on the history; a reply and a call of another account change different balances and commute |
| C117 | `Dict`, `DictOp`, `dictAfter`, `DictOutcome`, `Marked` | refinement of the hash maps by a partial function, operation by operation; the flip of a mark changes exactly one bit of the tick map |
| C118 | `Between`, `AtTick`, `factor` | the tick that the look-up of C02 finds is the one that the check of C76 wants, exactly between the outermost ticks of the grid; the limits of C60 enclose the price |
| C119 | `withSettings`, `about`, `Matches`, `SameBusiness` | each call commutes with an exchange of the settings it is not about, failures included; frames and histories follow by induction |
| C120 | `PaidTo`, `SameButBalances`, `Room` | claim and exit read the record, the ticks and the pool, none of which names the owner; the lists of C19 for the two orders; C90 for the moment |
| C121 | `Fuller`, `Full`, `Follows`, `SameBooks` | the two amounts are only added to; one run of every message is carried along with the other, the loop of swaps by induction on its steps; the amounts only grow in between, so a lack of room is still seen at the end; the payments by comparing balances |
| C122 | `toll`, `Order`, `Executed`, `SameMarket` | the lockstep of C98 with one more component: a bound on the difference of the two protocol counters, which no step increases because the rounded-up part is monotone in the share; induction over the orders; for the share of the reported fee an invariant of the loop, where steps without liquidity have no fee |
| C123 | `Deserted`, `Idle`, `Stands` | without liquidity and ticks the loop hands out nothing, so that the swap is refused; every other call leaves the pool alone (C49) or would need a position in it; induction over the history. The other side of a trade: if no range meets the way of the price, the positions hold the same at both ends, and C79 says that nothing was paid out, which is refused. Negation: the history of C34, with the position removed before the second purchase |

## 5. Trusted base

* The Lean 4.33.0 kernel, and of its axioms only `propext`, `Classical.choice` and `Quot.sound`. No own axioms,
  no `sorry`, no `native_decide`, no `bv_decide`. Evaluation of the model on concrete numbers is by
  `decide +kernel`, which is checked by the kernel.
* The reading of the Rust text: each model definition cites what it models and says where it simplifies.
* The rules of the Gear runtime as in section 1: roll-back on panic, commit at an await, `exec::leave` commits,
  a reply hook in its own execution, one hook per reply, messages to a program handled one at a time. For C83:
  attached value goes to the program when a message succeeds or first waits and back to the sender when it fails,
  and the Sails version in use lets any method be called with value. These rules are not part of the repository
  and could not be looked up here.
* `parity-scale-codec`: a value is read from the front of the payload and what follows is ignored; the compact
  length prefix; UTF-8 validity of strings (`Model/Scale`).
* The release profile: overflow of plain integer operators wraps. The decimal operators are checked as written.
* The token contracts: a transfer either moves the amount between two accounts of its ledger or does nothing.
* `vft-service` (a dependency of the extended VFT): a map of balances and a total.
* The SDK functions that are the same text as the contract's are represented by the contract's model.

## 6. What is modelled and what is not

Modelled: everything in the table of section 2, that is all commands of the program, all its queries except
those in the list below, the reply handlers, the helper functions of the SDK named in section 2.

The concentration helpers of the SDK are modelled in the real numbers, without floating-point roundings.

Not modelled: gas metering (other than that a hook or a wake-up may fail), the message encoding apart from
replies of token contracts and events, the Sails dispatch code, the texts of `TrackableError` locations,
memory limits, the parts of the SDK that sign and send messages, the test helpers, the existential deposit of the native coin.

## 7. Where code and properties disagree

Each item is a theorem, except 45, which is only read from the text; C numbers are those of the properties.

Loss of funds:

1. **Tick not crossed (C34, C36, C37, C45, C54, C73).** A swap from Y to X that ends exactly at the price of an
   initialised tick with nothing left to swap sets the current tick to that tick without crossing it. Three
   consequences, each reachable with ordinary calls: the liquidity counter of the pool stays too high, so the
   next swap gets tokens no position provides (`C37_negation`: 9·10^7 of a token are taken from other users for
   10^8 of another); an owner cannot remove their position (`C36_negation`); the growth inside a range ending
   there jumps backwards, wraps, and a claim pays about 2^128 · liquidity / 10^33 units (`C54_negation`:
   3.4·10^19 of a token of which the program holds 10^9). The seconds stored with the tick are wrong, too
   (`C73_negation`). No special pool is needed: anybody who can pay for the X up to the next initialised tick can
   do it (`C34_attack`), and so lock up a large position that starts there (`C36_attack`), or make the growth inside
   every range ending there jump by 2 · outside − global (`C54_attack`). With a fresh position whose upper tick is
   new, the claim that follows pays exactly (2^128 − global) · liquidity / 10^33 of each token in which the pool ever
   took a fee (`C54_theft`).
2. **Overshoot (C06, C28).** An exact-input step from X to Y can end below its target price, by at most 65536
   units of 10^-24, hence past the user's limit or past a tick.
3. **Lost refunds (C44).** A negative reply that arrives after the waiting period returns nothing.
4. **Roundings (C04, C05, C07, C53).** Rounding up in token X can be one unit too low; the reported input can
   exceed the offer; the amounts reported by the liquidity helpers can be short by tens of thousands of units.

Loss of service:

5. **Protocol fee above 100% (C41)** is accepted and stops every swap that pays a fee.
6. **Thin liquidity (C42, C75).** The check whether the rest of an amount can change the price aborts the swap when
   the next price does not exist. For exact output this is the only reason for an abort (C75).
7. **Ends of a range (C53).** `get_liquidity` panics at prices equal to an end of the range.

21. **Ties (C71).** Selling X panics when the input left for a step moves the price exactly onto the end of the
   step although the program's rounded-up input for the step is larger: the subtraction of the remaining amount
   underflows. In a pool without fee this happens for a good part of all amounts, because the recomputed input can
   exceed the offer by one.

Wrap-around and truncation:

8. `calculate_sqrt_price(i32::MIN)` is the price 1 (C01). 9. The `u16` and `u32` conversions check only the
   lowest word (C13). 10. The count of initialised ticks omits the last chunk (C18). 11. The counters of
   positions (C19) and of pools (C21) wrap; after 2^32 + 1 deposits of one account the ticks count a position
   that was overwritten (C33, C57).

Other: 12. the simulation of the SDK saturates where the contract aborts (C51). 13. A two-token transfer
accepts a zero amount beside a nonzero one (C47). 14. The pools of a pair are listed by the fee tiers in
force, so a pool whose tier was removed is left out although it still trades (C56). 15. The square root of the
SDK gives 1 for 4 (C59); no price conversion meets that value. 16. `filterTicks` of the SDK removes from the
list it iterates over and so leaves the tick after a removed one (C61); the simulation does not meet it.
17. The amounts announced with slippage use the tick of the current price for both bounds: with the price just
outside the range the second token is announced as zero, although the limits of the request let the price enter
the range (C62). 18. `transfer_position` sends no event, so an indexer cannot tell who owns a position
(C65_owners_negation); neither do `create_pool`, `claim_fee` and the administrative commands. 19. In the decimal library the product of
the price one with itself panics, some `checked_` functions panic, and whole numbers are printed with one zero too
many (C66, C67); the contract uses the operations through the wide type and meets none of these. 20. The SDK
orders the tokens of a pool by the text of their addresses, so capital letters give another order than the
contract's (C68), and it cuts the tick spacing of a fee tier to 16 bits before checking it (C69). 22. The seconds
per liquidity of a span longer than 340282366 cannot be computed (C74); no command of the program needs them. 23. `create_pool`
checks the initial price and then uses the price of the tick instead (C76). 24. The wrong liquidity left by a swap that
ends at a tick (finding on C34) also lets a trader without a position gain in both tokens with three swaps (C78). 25. The SDK reads
small integer arguments as 64 bits and cuts them, so the price of tick 2^32 is that of tick 0, and a scale of 256 acts as 0 (C81). 26. The SDK cannot list the pools when
there are more than 57540, and `getAllPositions` returns the first page even if it is to be skipped (C82). 27. Native coins attached to any call other than `deposit_vara` are kept by the program
and credited to nobody (C83; no other function reads the attached value). 28. At low prices a position made and removed at once loses more than the units of rounding:
the product of the two prices is rounded, which costs up to 10^-14 of the amount of X (C84). 29. For the same reason, and because an exact output of X may take two rounds inside a range,
putting in one unit more can yield less, and asking for one unit more can cost less (C85). 30. A higher limit can make a purchase of an exact amount of X fail: the
amount of X up to the limit, rounded down, is not monotone in the limit (C86). 31. Fees are lost if they wait for too long: the growth inside a range is known
only modulo 2^128, so a provider who claims after each of two large swaps in a
pool with an almost total fee and little liquidity gets 3.6 * 10^12 units, and
one who claims once after both gets 0.2 * 10^12 (C91). The pool keeps the rest
for good. 32. A deposit may cost a unit of X less if it is split: the amount of X is
rounded down once before it is rounded up. One unit of the last digit below a
tick, a deposit of 120000 costs one unit of X, two deposits of 60000 cost none
(C92; C05 has it for the amounts alone). It is never more than one unit for two
parts, and Y is never cheaper. 33. The counter of item 1 can be raised without end. A
swap that stops exactly at the upper tick of a position leaves its liquidity counted, the next swap down adds it once
more, a swap up to the tick completes the round. Each round costs the roundings only, a unit of either token in a pool
without fee (example beside `C12_pump`). With a position of the largest size, 4435 rounds bring the counter next to
2^256. A deposit that both ticks accept is then refused for overflow (`C12_negation`). 34. A swap of Y can pay more X in parts: at the tick -221810
with a liquidity of 10^23, two halves pay 14085446738 units of X (of 4.3·10^24) more than the whole, because the
product of the prices is rounded up to a small integer (`C93_negation`). 35. A request for Y can cost less X in parts. The mirror image of 34: in `get_delta_x` the product of the two prices
is rounded down to a small integer at low prices, so one large charge can exceed the sum of two smaller ones by a
relative 10^-15. With a liquidity of 10^25 at the price of the tick -221500, two halves cost 6750597080 units of X less
than the whole (`C94_negation`). 36. `Tickmap::flip` (`tickmap.rs` 231-243) always writes the word back, also when its last bit is cleared, and nothing else removes words. Ticks and positions are deleted, the words stay: whoever opens and closes positions over the whole range leaves up to 6932 zero words per pool in the storage (`C97_negation`, bound `C97_words`). 37. A pool with a lower fee and otherwise the same market can pay less for the same input. With the higher fee the trade ends just before a tick and the price it ends at is rounded in the trader's favour; with the lower fee the rest goes on into a thin range and yields less than the rounding (`C99_input_y_negation`; below the price one also for X, `C99_input_x_negation`). The loss is of the order of 10^-15 of the trade. 38. The two modes of a swap charge the fee on different
amounts. `compute_swap_step` (`clamm.rs` 15-130) takes, in the last step of an exact input, the fee as a part of the whole
amount; in all other steps, those of an exact output and those that reach a tick, it takes the same part of the net input,
so that the provider gets `f/(1+f)` of what the trader pays in place of `f`. With the fee of one percent, to ask for an
output is cheaper by one ten-thousandth than to put in the same coins (`C100_back_negation`). Moreover an exact output that
would end within one unit before a tick is taken to the tick and pays for the way, at low prices 3714908916 units of X for
nothing (`C100_low_negation`, `C100_y_negation`). 39. `swapWithSlippage` with tolerance 0 sends as the limit of
a sale the price one unit below the end of the quote; the contract recomputes the price with roundings and may refuse the
swap in an unchanged pool with `PriceLimitReached` (`C103_negation`). A sale with tolerance 100% yields the limit −1, which
cannot be sent. 40. In the last round of an exact-input swap the fee is a
part of the input, in the rounds before it a rate on top of the input that is used. Therefore a swap that crosses ticks pays
a smaller fee than one that does not (with a rate of 50%: a third of the input instead of a half), and a later, larger trade
can get a better average price than an earlier one (`C106_negation`). 41. The liquidity that a pool wrongly counts after a swap that ended exactly
at a tick not only serves traders with tokens of others (`C79_negation`): what the next trader pays for it is credited to
no position and not to the protocol, 495000 of 990000 units in `C107_negation`, and stays in the program for good. 42. The SDK's test "attempt to
try create pool with wrong tick sqrtPrice relationship" does not wait for the answer it checks; the SDK looks the tick up
itself, so the request succeeds (`C76_sdk`, `Tests/Sdk`). Only prices beyond the outermost ticks of the grid are refused, with
two different errors at the two ends (example of `C76_sdk`). 43. `getConcentrationArray` appends the
integers from the rounded-up last concentration downwards, so for wide minimal ranges it offers a concentration that only a range
narrower than the minimal one has (`C113_negation`). The arrays the SDK computes itself are not affected (`C113_own`). 44. `PoolKeys::remove`
frees the index of a key but does not move the last key there. If another key than the last were removed, a page would panic, and
the next key added would take the index of another (`C115_negation`). The function is dead code; its test removes the only key. 45. (SDK, by reading only.) The type text in
`validateFungibleTokenResponse` (`sdk/src/utils.ts`) is `'(String, String, bool'`, without the closing parenthesis that the
texts of the other validators have. What the type registry makes of it is not modelled, so no theorem is about it. 46. The liquidity that
a swap ending at a tick leaves counted (C34) outlives the position: after its removal nobody has a position in any pool, and
the pool still sells tokens, which are taken from the deposits of others (`C123_negation`).

## 8. Tests

**The repository's own tests, on the model.** `Verif/Tests/*.lean` transcribe the tests of the source: `Clamm` (all 19
tests of `calc/math/clamm.rs`), `Types` (`log.rs`, `sqrt_price.rs`, `fee_growth.rs`, `seconds_per_liquidity.rs`,
`liquidity_result.rs`), `Storage` (`src/contracts/{storage,collections}`), `Contract` (the scenarios of
`src/e2e/gtest`: swaps, positions, limits, routes, slippage, the 893-tick swap of `max_tick_cross.rs`), `Balances` (deposits
and withdrawals with failing token contracts, `balances.rs`), `Reads` (fee tiers, settings, queries, tick maps; with
`Contract` and `Balances` every test of `src/e2e/gtest` but those listed below), `DecimalCrate` (`calc/decimal/src`),
`Simulation` and `Sdk` (`sdk/tests`: the simulation, positions, protocol fee, queries, estimates of liquidity), `Vft`
(`extended-vft/app/tests`: minting, burning, roles). Each expected
number is the one written in the source. They prove nothing about the properties; they are evidence, gathered without
running the code, that the model computes what the code computes: not one expected value differs.

Of `src/e2e/gtest`, these tests are not transcribed: `test_init` and `test_init_tokens`, which only set up;
`test_vara_deposit_not_enough_value`, which tests the simulator's own check of a sender's funds; and
`test_get_liquidity_ticks_limit`, `.._limit_with_spread` and `test_get_position_ticks_limit`, which the repository itself
marks `#[ignore]` and which, with 8936 to 10772 positions, take too long on the lists that stand for the maps.
The transcriptions leave out events, allowances and the withdrawals between the steps; a position whose source gives the
widest limits on the price may be opened with the current price as both limits. An audit late in the work compared the
parameters of the tests of `src/e2e/gtest`, of `extended-vft/app/tests` and of the six files of `sdk/tests` with their
transcriptions. It found three tests missing and about two dozen that used other amounts, accounts or protocol fees than
the source, one of them (`not_cross_case`) another scenario. They were rewritten after the source; every expected value
still came out. In `Clamm` it found no difference; in `Types`, `Storage`, `DecimalCrate` and
`Simulation` it found checks left out and a few simplified set-ups, which were put right with no other outcome.

**Wrong programs.**

`seeded/LOG.jsonl` has one line per edit of the model: what was edited, which claim it breaks, which theorems
failed. Edits are made in a copy outside `/verif`, and the whole development is rebuilt; for the last
ones, only the modules that their line names and what these import. Where a theorem
still proved although its claim was false of the edited program, the theorem was tightened, and the line says
which.
