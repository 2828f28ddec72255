{
 "claims": [
  {
   "property": "C01",
   "status": "partial",
   "theorems": [
    "Verif.C01_negation",
    "Verif.C01_partial"
   ],
   "note": "False at one point: calculate_sqrt_price(i32::MIN) returns the price 1 in a build without overflow checks (C01_negation). Proved for every other 32-bit tick."
  },
  {
   "property": "C02",
   "status": "proved",
   "theorems": [
    "Verif.C02_floor",
    "Verif.C02_total",
    "Verif.C02_inverse"
   ],
   "note": ""
  },
  {
   "property": "C03",
   "status": "proved",
   "theorems": [
    "Verif.C03_amount_y"
   ],
   "note": ""
  },
  {
   "property": "C04",
   "status": "partial",
   "theorems": [
    "Verif.C04_negation",
    "Verif.C04_partial",
    "Verif.C04_succeeds"
   ],
   "note": "False when rounding up (C04_negation). Proved: down is a lower bound, up misses the exact amount by less than 1/(2.3e14) unit, up is never below down, and success whenever the amount is below 2^255."
  },
  {
   "property": "C05",
   "status": "partial",
   "theorems": [
    "Verif.C05_no_profit",
    "Verif.C05_withdraw_pieces",
    "Verif.C05_deposit_pieces_partial",
    "Verif.C05_negation",
    "Verif.C05_round_trip"
   ],
   "note": "No-profit, piecewise withdrawal and round trip proved in full (up to 2e14 pieces); piecewise deposits can save one unit of X in total (C05_negation), bounded by C05_deposit_pieces_partial."
  },
  {
   "property": "C06",
   "status": "partial",
   "theorems": [
    "Verif.C06_negation",
    "Verif.C06_partial",
    "Verif.C06_overshoot_bound_partial"
   ],
   "note": "False for X to Y exact input at low prices (C06_negation). Proved for the other three modes, for that mode under a width condition, and with an overshoot bound of 65536/10^24 in general."
  },
  {
   "property": "C07",
   "status": "partial",
   "theorems": [
    "Verif.C07_negation",
    "Verif.C07_partial"
   ],
   "note": "False for X to Y exact input (C07_negation): the reported input can exceed the offer when the price lands exactly on the target. Everything else proved."
  },
  {
   "property": "C08",
   "status": "proved",
   "theorems": [
    "Verif.C08_step_curve"
   ],
   "note": ""
  },
  {
   "property": "C09",
   "status": "proved",
   "theorems": [
    "Verif.C09_min_amount_out",
    "Verif.C09_bounds"
   ],
   "note": ""
  },
  {
   "property": "C10",
   "status": "proved",
   "theorems": [
    "Verif.C10_ring",
    "Verif.C10_history",
    "Verif.C10_difference"
   ],
   "note": ""
  },
  {
   "property": "C11",
   "status": "proved",
   "theorems": [
    "Verif.C11_distribute",
    "Verif.C11_history"
   ],
   "note": ""
  },
  {
   "property": "C12",
   "status": "partial",
   "theorems": [
    "Verif.C12_counters",
    "Verif.C12_accept_partial",
    "Verif.C12_pump",
    "Verif.C12_negation"
   ],
   "note": "C12_counters holds in every reachable state. Acceptance of deposits (C12_accept_partial) is proved for states in which the pool's liquidity counter is right; refuted without that by C12_negation: two swaps per round add the liquidity of a position to the counter once more (C12_pump, for every number of rounds up to the limit), until a deposit of 10000 units that both ticks accept overflows it."
  },
  {
   "property": "C13",
   "status": "partial",
   "theorems": [
    "Verif.C13_wide",
    "Verif.C13_u64_u128",
    "Verif.C13_negation",
    "Verif.C13_narrow_partial",
    "Verif.C13_from_primitive",
    "Verif.C13_u320"
   ],
   "note": "False for u8, u16 and u32 targets, which look only at the lowest word (C13_negation); proved for every other conversion."
  },
  {
   "property": "C14",
   "status": "proved",
   "theorems": [
    "Verif.C14_bitmap_is_set"
   ],
   "note": ""
  },
  {
   "property": "C15",
   "status": "proved",
   "theorems": [
    "Verif.C15_next",
    "Verif.C15_prev"
   ],
   "note": ""
  },
  {
   "property": "C16",
   "status": "proved",
   "theorems": [
    "Verif.C16_closer_limit"
   ],
   "note": ""
  },
  {
   "property": "C17",
   "status": "proved",
   "theorems": [
    "Verif.C17_export",
    "Verif.C17_position"
   ],
   "note": ""
  },
  {
   "property": "C18",
   "status": "partial",
   "theorems": [
    "Verif.C18_negation",
    "Verif.C18_partial"
   ],
   "note": "False: the last chunk is not counted (C18_negation). C18_partial gives the exact value returned."
  },
  {
   "property": "C19",
   "status": "partial",
   "theorems": [
    "Verif.C19_position_lists_partial",
    "Verif.C19_swap_remove",
    "Verif.C19_negation"
   ],
   "note": "False for 2^32 positions of one owner (counter wraps, C19_negation). Proved for every sequence of fewer than 2^32-1 operations."
  },
  {
   "property": "C20",
   "status": "proved",
   "theorems": [
    "Verif.C20_key",
    "Verif.C20_pools"
   ],
   "note": ""
  },
  {
   "property": "C21",
   "status": "partial",
   "theorems": [
    "Verif.C21_enumeration_partial",
    "Verif.C21_total",
    "Verif.C21_negation"
   ],
   "note": "False for 65536 pools (16-bit counter wraps, C21_negation). Proved for every history creating at most 65535 pools."
  },
  {
   "property": "C22",
   "status": "proved",
   "theorems": [
    "Verif.C22_reachable",
    "Verif.C22_admin"
   ],
   "note": ""
  },
  {
   "property": "C23",
   "status": "proved",
   "theorems": [
    "Verif.C23_credit",
    "Verif.C23_debit",
    "Verif.C23_debit_all",
    "Verif.C23_reachable",
    "Verif.C23_query"
   ],
   "note": ""
  },
  {
   "property": "C24",
   "status": "proved",
   "theorems": [
    "Verif.C24_failed_call",
    "Verif.C24_refinement",
    "Verif.C24_runtime_needed"
   ],
   "note": ""
  },
  {
   "property": "C25",
   "status": "proved",
   "theorems": [
    "Verif.C25_settings",
    "Verif.C25_receiver",
    "Verif.C25_protocol_fees",
    "Verif.C25_history"
   ],
   "note": ""
  },
  {
   "property": "C26",
   "status": "proved",
   "theorems": [
    "Verif.C26_balances",
    "Verif.C26_positions"
   ],
   "note": ""
  },
  {
   "property": "C27",
   "status": "proved",
   "theorems": [
    "Verif.C27_balances",
    "Verif.C27_frame"
   ],
   "note": ""
  },
  {
   "property": "C28",
   "status": "partial",
   "theorems": [
    "Verif.C28_direction",
    "Verif.C28_limit_partial",
    "Verif.C28_negation"
   ],
   "note": "Direction of the price and the reported prices are proved for every swap (C28_direction). The limit is proved to be respected except for x-to-y exact-input swaps, where the overshoot is bounded (C28_limit_partial); C28_negation exhibits a reachable swap that ends past its limit."
  },
  {
   "property": "C29",
   "status": "proved",
   "theorems": [
    "Verif.C29_exact",
    "Verif.C29_quote",
    "Verif.C29_balances"
   ],
   "note": ""
  },
  {
   "property": "C30",
   "status": "proved",
   "theorems": [
    "Verif.C30_quote_of_swap",
    "Verif.C30_quote_fails",
    "Verif.C30_swap_of_quote"
   ],
   "note": ""
  },
  {
   "property": "C31",
   "status": "proved",
   "theorems": [
    "Verif.C31_route",
    "Verif.C31_route_fails",
    "Verif.C31_quote"
   ],
   "note": ""
  },
  {
   "property": "C32",
   "status": "proved",
   "theorems": [
    "Verif.C32_amount",
    "Verif.C32_frame",
    "Verif.C32_twice"
   ],
   "note": ""
  },
  {
   "property": "C33",
   "status": "partial",
   "theorems": [
    "Verif.C33_ledger_partial",
    "Verif.C33_covers",
    "Verif.C33_sign_open",
    "Verif.C33_sign_close",
    "Verif.C33_negation"
   ],
   "note": "False beyond 2^32 positions of one account: C33_negation runs 2^32 + 1 deposits and finds the tick counting one more than the positions. C33_ledger_partial proves the statement for every history in which no account reaches 2^32 - 1 positions, C33_covers what holds in every history. C33_sign_open and C33_sign_close fix the sign stored with a zero change."
  },
  {
   "property": "C34",
   "status": "partial",
   "theorems": [
    "Verif.C34_clear_partial",
    "Verif.C34_step_partial",
    "Verif.C34_limit",
    "Verif.C34_attack",
    "Verif.C34_negation"
   ],
   "note": "Refuted for the code as it is by C34_negation (a y-to-x swap whose limit is the price of an initialised tick). Proved for every history in which no swap ends near an initialised tick (Near, Spec/Book.lean) (C34_clear_partial), and step by step for every other call (C34_step_partial). Near: a purchase of X stopped by its limit exactly at an initialised tick, or a sale of an exact input of X stopping exactly at one other than by its limit or, at prices up to one, within 65536 units (6.6e-20) below one; a sale for an exact output never ends so. C34_limit shows the first of these exclusions to be necessary and gives the error: from a right counter, every purchase of X stopped by its limit exactly at an initialised tick leaves the pool at that tick with the liquidity active below it, i.e. off by the net liquidity of the positions bounded there. C34_attack: such a purchase is available in every pool with a right counter to anybody who can pay for the X up to the next initialised tick (at least two units of X, within 256 grid steps, not the last tick), at the cost of an honest purchase."
  },
  {
   "property": "C35",
   "status": "proved",
   "theorems": [
    "Verif.C35_agree"
   ],
   "note": ""
  },
  {
   "property": "C36",
   "status": "partial",
   "theorems": [
    "Verif.C36_attack",
    "Verif.C36_worth",
    "Verif.C36_exit_partial",
    "Verif.C36_clear_partial",
    "Verif.C36_pays",
    "Verif.C36_negation"
   ],
   "note": "False as stated: C36_negation reaches a state (one swap ending exactly at an initialised tick, C34_negation) in which an owner's removal aborts because the pool's liquidity counter is smaller than the position. Proved: C36_exit_partial, for every reachable state without an account of 2^32-1 positions, the removal succeeds if and only if the counter covers the position while it is in range (given that what the owner ends up with fits; the bound used on the X side is 2^255 because the code's intermediate result can exceed the exact amount); C36_clear_partial, it always succeeds in histories where no swap ends near an initialised tick (Near, Spec/Book.lean); C36_pays, what a successful removal pays and removes; C36_worth, every stored position has the worth these theorems speak about. C36_attack: in every healthy pool, anybody who can buy the X up to the next initialised tick can lock up every position that contains that tick and is larger than what is active just below it."
  },
  {
   "property": "C37",
   "status": "partial",
   "theorems": [
    "Verif.C37_negation",
    "Verif.C37_clear_partial"
   ],
   "note": "False of the code: C37_negation is a sequence of calls after which users are owed more of a token than the program holds, and the attacker can withdraw it. Proved: C37_clear_partial, for every history of at most 5*10^8 calls in which no swap ends near an initialised tick (Near, Spec/Book.lean), everything owed in each token (balances, protocol fees, removal of every position) is at most what the program holds. The bound on the number of calls is there because C05 is off by one unit in token X; the proof charges less than 2*10^-9 units for every call."
  },
  {
   "property": "C38",
   "status": "proved",
   "theorems": [
    "Verif.C38_terminates",
    "Verif.C38_rounds",
    "Verif.C38_fuel"
   ],
   "note": ""
  },
  {
   "property": "C39",
   "status": "proved",
   "theorems": [
    "Verif.C39_create",
    "Verif.C39_refused"
   ],
   "note": ""
  },
  {
   "property": "C40",
   "status": "proved",
   "theorems": [
    "Verif.C40_share",
    "Verif.C40_no_liquidity",
    "Verif.C40_bounded",
    "Verif.C40_swap",
    "Verif.C40_withdraw",
    "Verif.C40_twice"
   ],
   "note": ""
  },
  {
   "property": "C41",
   "status": "partial",
   "theorems": [
    "Verif.C41_accepted",
    "Verif.C41_swap_partial",
    "Verif.C41_above_all",
    "Verif.C41_negation"
   ],
   "note": "The contract accepts any protocol fee (C41_accepted). For a fee of at most 100% the swap has the same price path and amounts as with no protocol fee, given room for the token totals (C41_swap_partial). Above 100% it is false: such a swap only succeeds when it pays no fee at all (C41_above_all), and C41_negation exhibits a reachable pool that stops swapping once the fee is set."
  },
  {
   "property": "C42",
   "status": "partial",
   "theorems": [
    "Verif.C42_in_x",
    "Verif.C42_in_y_partial",
    "Verif.C42_out_y_partial",
    "Verif.C42_out_x_partial",
    "Verif.C42_negation"
   ],
   "note": "False of the code for three of the four modes: update_tick evaluates the next price with the liquidity before the tick and aborts when it does not exist. Exact input from X to Y never fails (C42_in_x). For the other modes the exact condition is proved (the _partial theorems), and C42_negation shows a reachable state where an exact-output swap is aborted that succeeds right after a swap of 60 units."
  },
  {
   "property": "C43",
   "status": "proved",
   "theorems": [
    "Verif.C43_cause",
    "Verif.C43_credit",
    "Verif.C43_no_credit",
    "Verif.C43_start"
   ],
   "note": ""
  },
  {
   "property": "C44",
   "status": "partial",
   "theorems": [
    "Verif.C44_taken_first",
    "Verif.C44_returned_partial",
    "Verif.C44_paid",
    "Verif.C44_negation"
   ],
   "note": "False as stated: if the waiting period ends first, the entry is dropped and a negative reply handled afterwards returns nothing (C44_negation). Proved for every interleaving: debit before the request, return of exactly the amount while the transfer is pending, nothing after a positive reply, never twice (with C46_settled_forever)."
  },
  {
   "property": "C45",
   "status": "partial",
   "theorems": [
    "Verif.C45_transfers_conserve",
    "Verif.C45_holdings_partial",
    "Verif.C45_holdings_if_booked",
    "Verif.C45_negation"
   ],
   "note": "False as stated because of what the pools credit (C45_negation, the history of C37_negation). Proved: no transfer event ever raises balances plus debts by more than the holdings (C45_transfers_conserve), and the inequality up to what synchronous calls have booked (C45_holdings_partial)."
  },
  {
   "property": "C46",
   "status": "proved",
   "theorems": [
    "Verif.C46_settled_forever",
    "Verif.C46_independent",
    "Verif.C46_resume",
    "Verif.C46_settled_by"
   ],
   "note": ""
  },
  {
   "property": "C47",
   "status": "partial",
   "theorems": [
    "Verif.C47_transfers",
    "Verif.C47_requests",
    "Verif.C47_refused",
    "Verif.C47_refused_pair_partial",
    "Verif.C47_deposit",
    "Verif.C47_withdraw",
    "Verif.C47_other_calls",
    "Verif.C47_pair_with_zero_accepted",
    "Verif.C47_negation"
   ],
   "note": "Proved except for one clause: in a two-token deposit or withdrawal a zero amount (even of the native coin) is accepted beside a nonzero one (C47_negation); nothing is transferred for it (C47_pair_with_zero_accepted). 'Besides pool operations' is made precise as: tokens that no pool trades (Untraded)."
  },
  {
   "property": "C48",
   "status": "proved",
   "theorems": [
    "Verif.C48_all_single",
    "Verif.C48_all_vara",
    "Verif.C48_all_pair",
    "Verif.C48_too_much"
   ],
   "note": ""
  },
  {
   "property": "C49",
   "status": "proved",
   "theorems": [
    "Verif.C49_pools",
    "Verif.C49_positions"
   ],
   "note": ""
  },
  {
   "property": "C50",
   "status": "proved",
   "theorems": [
    "Verif.C50_mint",
    "Verif.C50_burn",
    "Verif.C50_supply",
    "Verif.C50_roles",
    "Verif.C50_accept"
   ],
   "note": ""
  },
  {
   "property": "C51",
   "status": "partial",
   "theorems": [
    "Verif.C51_fetch",
    "Verif.C51_request",
    "Verif.C51_swap_partial",
    "Verif.C51_negation",
    "Verif.C51_steps",
    "Verif.C51_direction"
   ],
   "note": "False of the code as stated: C51_negation gives a reachable state where the simulation raises no flag and the contract rejects the swap, because the SDK price functions saturate where the contract aborts. Proved: the SDK fetches exactly the stored ticks (C51_fetch), and for every swap the contract accepts the simulation succeeds and, unless it reports too many steps, agrees on input, output, fee, prices and crossed ticks (C51_swap_partial). The report of too many steps is exact (C51_steps); steps where the contract aborts still move the price to the right side (C51_direction)."
  },
  {
   "property": "C52",
   "status": "proved",
   "theorems": [
    "Verif.C52_by_x",
    "Verif.C52_by_y",
    "Verif.C52_both",
    "Verif.C52_create"
   ],
   "note": ""
  },
  {
   "property": "C53",
   "status": "partial",
   "theorems": [
    "Verif.C53_reported_y_partial",
    "Verif.C53_reported_x_partial",
    "Verif.C53_negation_short",
    "Verif.C53_negation_offered",
    "Verif.C53_negation_ends"
   ],
   "note": "The stated property is false: C53_negation_short gives ranges where the amount reported with rounding up is 12046 units (token Y) and 32269 units (token X) short of what the deposit costs, C53_negation_offered a call that reports 434322 of a token of which 4 were offered, C53_negation_ends prices at which the two-token helper panics. Proved instead: the shortfall is bounded by the price distance in whole units (Y) resp. by (10^24+n)/(10^5 n)+1 (X), never negative for Y, and zero for Y when the liquidity is whole."
  },
  {
   "property": "C54",
   "status": "partial",
   "theorems": [
    "Verif.C54_attack",
    "Verif.C54_theft",
    "Verif.C54_swap_partial",
    "Verif.C54_accrued_partial",
    "Verif.C54_claim_partial",
    "Verif.C54_negation"
   ],
   "note": "False of the code: C54_negation reaches, with two swaps and no special rights, a state in which claim_fee pays 3.4*10^19 of a token of which the program holds 1.001*10^9; a swap ending exactly at an initialised tick moves the current tick without crossing it, and the growth inside ranges ending there jumps backwards and wraps. Proved: C54_swap_partial, every swap that does not end near an initialised tick (Near, Spec/Book.lean) advances the growth inside a range exactly by what was added while the price was in it; C54_accrued_partial, such a swap adds to all positions and the protocol together at most what the trader paid, and nothing in the other token; C54_claim_partial, in histories of such swaps a claim is covered by what the program holds. C54_attack: in every pool with a right counter, anybody who can pay for the X up to the next initialised tick can make the growth inside every range that contains the price and ends at that tick jump by 2*outside - global, modulo 2^128, in both tokens. C54_theft: with an up-to-date position whose upper tick was never crossed (a position created just before has such), the claim after that purchase pays exactly (2^128 - global) mod 2^128 * liquidity / 10^33 of each token."
  },
  {
   "property": "C55",
   "status": "proved",
   "theorems": [
    "Verif.C55_lists",
    "Verif.C55_positions",
    "Verif.C55_paging",
    "Verif.C55_associates",
    "Verif.C55_ticks"
   ],
   "note": ""
  },
  {
   "property": "C56",
   "status": "partial",
   "theorems": [
    "Verif.C56_pair_partial",
    "Verif.C56_same",
    "Verif.C56_negation"
   ],
   "note": "False of the code: C56_negation, a pool whose fee tier has been removed still trades but is not reported. Proved: exactly the pools of the pair with a listed tier are reported, in the order of the tiers, for either order of the tokens (C56_pair_partial); equal tokens are refused unless no tier is listed (C56_same)."
  },
  {
   "property": "C57",
   "status": "partial",
   "theorems": [
    "Verif.C57_chart_partial",
    "Verif.C57_breakpoints_partial",
    "Verif.C57_negation"
   ],
   "note": "False beyond 2^32 positions of one account (C57_negation). Proved for every history in which no account reaches 2^32 - 1 positions. For the current tick the sum equals the pool's liquidity in histories where no swap ends near an initialised tick (Near, Spec/Book.lean) (elsewhere C34_negation applies). The breakpoints of the SDK are covered by C57_breakpoints_partial."
  },
  {
   "property": "C58",
   "status": "proved",
   "theorems": [
    "Verif.C58_fee",
    "Verif.C58_removal",
    "Verif.C58_deposit"
   ],
   "note": ""
  },
  {
   "property": "C59",
   "status": "partial",
   "theorems": [
    "Verif.C59_sqrt_partial",
    "Verif.C59_negation",
    "Verif.C59_price",
    "Verif.C59_back",
    "Verif.C59_impact"
   ],
   "note": "False of the code at one number: C59_negation, sqrt(4) is 1. Proved: the integer square root of every other number, with a recursion no deeper than the number of bits plus two (C59_sqrt_partial); no price conversion meets the exception (C59_price, C59_back); the price impact (C59_impact)."
  },
  {
   "property": "C60",
   "status": "proved",
   "theorems": [
    "Verif.C60_bound",
    "Verif.C60_refused",
    "Verif.C60_encloses"
   ],
   "note": ""
  },
  {
   "property": "C61",
   "status": "partial",
   "theorems": [
    "Verif.C61_ticks_partial",
    "Verif.C61_negation",
    "Verif.C61_tickmap",
    "Verif.C61_simulation"
   ],
   "note": "False of the code for ticks: C61_negation, of two consecutive ticks behind the price the second stays, because the list is spliced while it is iterated. Proved: nothing a swap can meet is removed and the order is kept (C61_ticks_partial); for at most 142 chunks the tickmap filter is exact (C61_tickmap); the simulation on filtered data equals the contract's swap (C61_simulation)."
  },
  {
   "property": "C62",
   "status": "partial",
   "theorems": [
    "Verif.C62_suffices_partial",
    "Verif.C62_negation"
   ],
   "note": "False of the code: C62_negation, with the price just outside the range only one token is announced although the limits let the price enter the range, where the other token is taken too. Proved when the tick is inside the range or the limits stay outside it (C62_suffices_partial)."
  },
  {
   "property": "C63",
   "status": "proved",
   "theorems": [
    "Verif.C63_utf8",
    "Verif.C63_compact",
    "Verif.C63_string",
    "Verif.C63_response",
    "Verif.C63_panic"
   ],
   "note": ""
  },
  {
   "property": "C64",
   "status": "proved",
   "theorems": [
    "Verif.C64_accept",
    "Verif.C64_clear",
    "Verif.C64_refused"
   ],
   "note": ""
  },
  {
   "property": "C65",
   "status": "partial",
   "theorems": [
    "Verif.C65_ranges_partial",
    "Verif.C65_ranges_le",
    "Verif.C65_ticks",
    "Verif.C65_active_partial",
    "Verif.C65_price",
    "Verif.C65_swap",
    "Verif.C65_negation",
    "Verif.C65_owners_negation"
   ],
   "note": "(b), (c) and (d) are proved for all histories (C65_ticks, C65_price, C65_swap). (a) is proved for histories in which no account reaches 2^32 - 1 positions (C65_ranges_partial, for every weighting of the ranges), with the inequality that remains in general (C65_ranges_le); beyond that it is false (C65_negation). (e) is false: transfer_position sends no event (C65_owners_negation). C65_active_partial: the liquidity counter is the sum over the ranges that contain the current tick, where C34 holds."
  },
  {
   "property": "C66",
   "status": "partial",
   "theorems": [
    "Verif.Decimal.C66_big",
    "Verif.Decimal.C66_big_div_up",
    "Verif.Decimal.C66_room",
    "Verif.Decimal.C66_to_value",
    "Verif.Decimal.C66_small_partial",
    "Verif.Decimal.C66_add_sub",
    "Verif.Decimal.C66_convert",
    "Verif.Decimal.C66_round_trip",
    "Verif.Decimal.C66_more_partial",
    "Verif.Decimal.C66_negation",
    "Verif.Decimal.C66_checked",
    "Verif.Decimal.C66_checked_negation",
    "Verif.Decimal.C66_instances"
   ],
   "note": "Proved in both directions for the operations through the wide type (big_mul, big_mul_up, big_div, checked_big_div, big_div_up) whenever the wide type has room, which is shown for all pairs of the seven types but those named in C66_room; for the products as values, addition, subtraction, from_decimal, from_integer and checked_from_decimal_to_value. C66_small_partial and C66_more_partial: the operations inside the type, from_decimal_up and the division by a number return the rounded exact result, but also fail when an intermediate value overflows. C66_negation: the price one times the price one panics, and four similar cases. C66_checked: which checked_ operations never panic; C66_checked_negation: four that do. C66_instances: the operations written out in the model of the price math are instances."
  },
  {
   "property": "C67",
   "status": "partial",
   "theorems": [
    "Verif.Decimal.C67_text",
    "Verif.Decimal.C67_places_partial",
    "Verif.Decimal.C67_negation"
   ],
   "note": "C67_text: the text denotes the value and determines it. C67_places_partial: a fraction is printed with the places of the type. C67_negation: a whole number is printed with one zero more than the type has places."
  },
  {
   "property": "C68",
   "status": "partial",
   "theorems": [
    "Verif.C68_order_partial",
    "Verif.C68_key_partial",
    "Verif.C68_symmetric",
    "Verif.C68_negation"
   ],
   "note": "Proved for texts without capital letters (C68_order_partial, C68_key_partial). C68_negation: with capital letters the SDK orders two tokens differently from the contract and accepts a token paired with itself."
  },
  {
   "property": "C69",
   "status": "partial",
   "theorems": [
    "Verif.C69_new_partial",
    "Verif.C69_reason_partial",
    "Verif.C69_negation",
    "Verif.C69_accepted",
    "Verif.C69_linear"
   ],
   "note": "C69_new_partial and C69_reason_partial for spacings of 16 bits; C69_negation: 65537 is accepted as spacing 1. C69_linear and C69_accepted hold for all arguments."
  },
  {
   "property": "C70",
   "status": "proved",
   "theorems": [
    "Verif.C70_amount",
    "Verif.C70_claim",
    "Verif.C70_missing"
   ],
   "note": ""
  },
  {
   "property": "C71",
   "status": "partial",
   "theorems": [
    "Verif.C71_y",
    "Verif.C71_x_partial",
    "Verif.C71_negation",
    "Verif.C71_negation_free"
   ],
   "note": "False of the code when selling X: C71_negation reaches a pool with fee 0.01% at a price close to 1 in which selling 4985060 units panics while one unit less or more works, and C71_negation_free a pool without fee in which a good part of all amounts panic. Proved: C71_y, selling Y is never aborted; C71_x_partial, with a positive fee selling X is aborted only if the input left for a step, after fees, lies between the exact input of the step and the exact input for one price unit more plus one (Tie), i.e. it moves the price exactly onto the end of the step."
  },
  {
   "property": "C72",
   "status": "proved",
   "theorems": [
    "Verif.C72_deposit",
    "Verif.C72_deposit_pair",
    "Verif.C72_withdraw",
    "Verif.C72_withdraw_pair",
    "Verif.C72_deposit_reason",
    "Verif.C72_withdraw_reason"
   ],
   "note": ""
  },
  {
   "property": "C73",
   "status": "partial",
   "theorems": [
    "Verif.C73_watch_partial",
    "Verif.C73_fresh_partial",
    "Verif.C73_negation"
   ],
   "note": "False of the code: C73_negation, after a swap that ends exactly at an initialised tick the ticks 0 and 10 tell 0 seconds instead of 100. Proved: C73_watch_partial and C73_fresh_partial, for every sequence of calls in which no swap of the pool ends near an initialised tick (Near, Spec/Book.lean)."
  },
  {
   "property": "C74",
   "status": "partial",
   "theorems": [
    "Verif.C74_mod",
    "Verif.C74_value_partial",
    "Verif.C74_exact",
    "Verif.C74_decimal",
    "Verif.C74_negation",
    "Verif.C74_inside"
   ],
   "note": "False of the code: C74_negation, a span of 340282367 at a liquidity of 10^25 units has a small quotient, but the product is taken in 128 bits and fails. C74_value_partial gives the exact condition for success; C74_exact, C74_mod and C74_inside hold for all values."
  },
  {
   "property": "C75",
   "status": "partial",
   "theorems": [
    "Verif.C75_quote_partial",
    "Verif.C75_swap_partial",
    "Verif.C75_negation"
   ],
   "note": "False of the code without depth: C75_negation, a pool with a thin interval between deep ones aborts when asked for 10^6 units that it could pay (the check at the tick, C42); asked for more than the virtual reserves it aborts instead of refusing. Proved: C75_quote_partial and C75_swap_partial, in both directions, whenever at every tick on the way the active liquidity before the tick is zero or could pay the amount (taking X: twice the amount) if it went on beyond the tick."
  },
  {
   "property": "C76",
   "status": "partial",
   "theorems": [
    "Verif.C76_check",
    "Verif.C76_answer",
    "Verif.C76_pool_partial",
    "Verif.C76_negation",
    "Verif.C76_ticks",
    "Verif.C76_limits",
    "Verif.C76_sdk"
   ],
   "note": "False of the code in one point: C76_negation, the pool is made at the price of the tick, not at the price asked for (with a spacing of 10 a request for 1.0004 makes a pool at 1). Proved for all states and requests: C76_answer (acceptance and every reason), C76_check, C76_pool_partial (all fields; the price is the tick's, equal to the one asked for if that is the price of a tick of the grid), C76_ticks, C76_limits, C76_sdk (which prices the SDK's own request is granted for)."
  },
  {
   "property": "C77",
   "status": "proved",
   "theorems": [
    "Verif.C77_protocol_fee",
    "Verif.C77_add_tier",
    "Verif.C77_remove_tier",
    "Verif.C77_receiver",
    "Verif.C77_collect",
    "Verif.C77_deposit_vara",
    "Verif.C77_withdraw_vara",
    "Verif.C77_withdraw_all_vara",
    "Verif.C77_transfer"
   ],
   "note": ""
  },
  {
   "property": "C78",
   "status": "partial",
   "theorems": [
    "Verif.C78_gain_partial",
    "Verif.C78_gain_Y_partial",
    "Verif.C78_back_partial",
    "Verif.C78_negation"
   ],
   "note": "False of the code: C78_negation, three swaps by one account in a pool, the first ending exactly at a tick, gain it 100 of token X and 23 of token Y. Proved for all series of swaps that do not end near an initialised tick (Near, Spec/Book.lean): C78_gain_partial (no gain in X without paying Y, up to 5*10^8 swaps), C78_gain_Y_partial (no gain in Y without paying X, where the number of swaps times the price is at most 5*10^8, because the roundings in X are bounded in units of X), C78_back_partial (no gain in either token if the price comes back)."
  },
  {
   "property": "C79",
   "status": "partial",
   "theorems": [
    "Verif.C79_paid_partial",
    "Verif.C79_negation"
   ],
   "note": "False of the code: C79_negation, after a swap that ended exactly at a tick the next one is paid 990499 of Y where the only position holds 500101. Proved (C79_paid_partial) for all swaps that do not end near an initialised tick (Near, Spec/Book.lean) in histories without such swaps; in token X up to 10^-8 of a unit."
  },
  {
   "property": "C80",
   "status": "proved",
   "theorems": [
    "Verif.C80_sell",
    "Verif.C80_buy",
    "Verif.C80_sell_limit",
    "Verif.C80_buy_limit"
   ],
   "note": ""
  },
  {
   "property": "C81",
   "status": "partial",
   "theorems": [
    "Verif.C81_text",
    "Verif.C81_words",
    "Verif.C81_args_partial",
    "Verif.C81_safe",
    "Verif.C81_decimal_partial",
    "Verif.C81_negation"
   ],
   "note": "False for small integers, which are read as 64 bits and cut (C81_negation: tick 2^32, scale 256). Proved for texts and words of any size, and for arguments that fit their type. C81_safe: which integers the cast to a number accepts."
  },
  {
   "property": "C82",
   "status": "partial",
   "theorems": [
    "Verif.C82_pool_keys_partial",
    "Verif.C82_negation",
    "Verif.C82_positions_partial",
    "Verif.C82_skip_negation"
   ],
   "note": "False for more than 57540 pools (C82_negation: a request is refused) and where the first page is to be skipped (C82_skip_negation). Proved for up to 57540 pools, and for positions where page 0 is not skipped or the true, nonzero count is given."
  },
  {
   "property": "C83",
   "status": "partial",
   "theorems": [
    "Verif.C83_address",
    "Verif.C83_held",
    "Verif.C83_withdraw",
    "Verif.C83_locked",
    "Verif.C83_negation"
   ],
   "note": "Proved for all histories while no pool trades the coin: the coins held are exactly the balances plus what came otherwise than with deposit_vara (C83_held), everybody can take out their balance (C83_withdraw). False in one clause: value attached to another call is neither credited nor returned (C83_negation) and stays with the program for ever (C83_locked). Rests on the runtime rules for attached value named in DESIGN section 5."
  },
  {
   "property": "C84",
   "status": "partial",
   "theorems": [
    "Verif.C84_hold_partial",
    "Verif.C84_back_partial",
    "Verif.C84_negation"
   ],
   "note": "Proved for all reachable states up to a relative error of 2*10^-14 besides the two units (C84_hold_partial), and for a price that is back, with one unit of Y and the same relative error in X (C84_back_partial). In units alone it is false (C84_negation): at a low price an account that makes a position and removes it at once gets 383361 units of X less."
  },
  {
   "property": "C85",
   "status": "partial",
   "theorems": [
    "Verif.C85_output_y",
    "Verif.C85_input_x_partial",
    "Verif.C85_input_y_partial",
    "Verif.C85_input_y_negation",
    "Verif.C85_output_x_negation",
    "Verif.C85_input_x_negation"
   ],
   "note": "Proved in full for an exact output of Y (C85_output_y), for an exact input of X if the limit is above the price one (C85_input_x_partial), and for an exact input of Y up to one unit and 5*10^-15 (C85_input_y_partial; the price is exact there). False in the other cases: one unit more of Y can yield 14085446739 units of X less (C85_input_y_negation), one unit more of X 3220 units of Y less (C85_input_x_negation), one unit more of output can cost two units less (C85_output_x_negation)."
  },
  {
   "property": "C86",
   "status": "partial",
   "theorems": [
    "Verif.C86_partial",
    "Verif.C86_negation"
   ],
   "note": "Proved for an exact input in both directions and for an exact output of Y (C86_partial). False for an exact output of X: a purchase that ends 17 units before its limit is refused with PriceLimitReached if the limit is raised by 10 units (C86_negation)."
  },
  {
   "property": "C87",
   "status": "proved",
   "theorems": [
    "Verif.C87_claims",
    "Verif.C87_opened",
    "Verif.C87_claimed"
   ],
   "note": ""
  },
  {
   "property": "C88",
   "status": "proved",
   "theorems": [
    "Verif.C88_step",
    "Verif.C88_replies",
    "Verif.C88_history"
   ],
   "note": ""
  },
  {
   "property": "C89",
   "status": "proved",
   "theorems": [
    "Verif.C89_step",
    "Verif.C89_replies",
    "Verif.C89_history"
   ],
   "note": ""
  },
  {
   "property": "C90",
   "status": "proved",
   "theorems": [
    "Verif.C90_reads",
    "Verif.C90_replies",
    "Verif.C90_quote",
    "Verif.C90_writes",
    "Verif.C90_groups",
    "Verif.C90_order"
   ],
   "note": ""
  },
  {
   "property": "C91",
   "status": "partial",
   "theorems": [
    "Verif.C91_message",
    "Verif.C91_replies",
    "Verif.C91_claim",
    "Verif.C91_unnoticed",
    "Verif.C91_late",
    "Verif.C91_early_partial",
    "Verif.C91_same",
    "Verif.C91_leave",
    "Verif.C91_negation"
   ],
   "note": "Proved: others notice nothing (C91_message, C91_replies, C91_claim, C91_unnoticed), claiming late pays at most one unit more (C91_late), leaving after a claim is the same as leaving (C91_same, C91_leave). That claiming early does not pay more is proved as long as the accumulators do not grow by 2^128 inside the range (C91_early_partial) and false without that (C91_negation): fees that wait while an accumulator goes around are lost."
  },
  {
   "property": "C92",
   "status": "partial",
   "theorems": [
    "Verif.C92_deposit",
    "Verif.C92_history",
    "Verif.C92_claim",
    "Verif.C92_leave",
    "Verif.C92_whole",
    "Verif.C92_halves",
    "Verif.C92_end",
    "Verif.C92_negation"
   ],
   "note": "Proved: the deposit costs the same up to one unit of each token, never less of Y (C92_deposit); it is accepted as a whole if it is in parts and the other way round, with a unit to spare (C92_whole, C92_halves); others notice nothing, then or later (C92_deposit, C92_history); claims pay the same or one unit less (C92_claim), leaving the same or up to two units less (C92_leave, C92_end). That the parts cost no less X is false by one unit (C92_negation)."
  },
  {
   "property": "C93",
   "status": "partial",
   "theorems": [
    "Verif.C93_sell_x_partial",
    "Verif.C93_sell_x_unit_partial",
    "Verif.C93_sell_y_partial",
    "Verif.C93_sell_y_unit_partial",
    "Verif.C93_start",
    "Verif.C93_negation"
   ],
   "note": "Proved for any number of parts that stay before the next initialised tick: the parts do not take the price further and pay no more Y when 10^5 divides price times liquidity at the start (C93_sell_x_partial), as at every tick price (C93_start); from any price at most one unit more while the liquidity is below 10^24 (C93_sell_x_unit_partial); for Y against X the price goes no further and the payment is bounded up to a unit and a relative error (C93_sell_y_partial, C93_sell_y_unit_partial). Without the error it is false at low prices: two halves pay 14085446738 units of X more (C93_negation). Splits across initialised ticks are not covered; exact outputs of Y are C94."
  },
  {
   "property": "C94",
   "status": "partial",
   "theorems": [
    "Verif.C94_unit_partial",
    "Verif.C94_ratio_partial",
    "Verif.C94_negation"
   ],
   "note": "Proved for any number (up to 10^14) of requests for Y that stay before the next initialised tick: the parts take the price at least as far, and the whole costs at most two units more than the parts when twice its cost times 10^24 is at most the product of the prices (C94_unit_partial); in general it costs more by at most a relative 6*10^-15 and a few units (C94_ratio_partial). Without the error it is false at low prices: the whole costs 6750597080 units of X more than two halves (C94_negation). Requests for X, where one swap can take several steps, and splits across initialised ticks are not covered."
  },
  {
   "property": "C95",
   "status": "proved",
   "theorems": [
    "Verif.Quietly.C95_worth",
    "Verif.Quietly.C95_claim",
    "Verif.Quietly.C95_leave",
    "Verif.Quietly.C95_deposit"
   ],
   "note": ""
  },
  {
   "property": "C96",
   "status": "proved",
   "theorems": [
    "Verif.Sidelined.C96_worth",
    "Verif.Sidelined.C96_claim",
    "Verif.Sidelined.C96_leave"
   ],
   "note": ""
  },
  {
   "property": "C97",
   "status": "partial",
   "theorems": [
    "Verif.Stored.C97_ticks",
    "Verif.Stored.C97_words",
    "Verif.Stored.C97_balances",
    "Verif.Stored.C97_empty_partial",
    "Verif.Stored.C97_negation"
   ],
   "note": "The bounds hold, and in a pool without positions there are no ticks and no set bits. But the words of the tick map are never removed: a pool without positions keeps words that are zero (C97_negation). The bound on ticks is for histories in which no account comes to 2^32 - 1 positions."
  },
  {
   "property": "C98",
   "status": "proved",
   "theorems": [
    "Verif.Market.C98_swap",
    "Verif.Market.C98_quote",
    "Verif.Market.C98_refused",
    "Verif.Market.C98_protocol_fee"
   ],
   "note": ""
  },
  {
   "property": "C99",
   "status": "partial",
   "theorems": [
    "Verif.Cheap.C99_output",
    "Verif.Cheap.C99_input_x_partial",
    "Verif.Cheap.C99_input_y_partial",
    "Verif.Cheap.C99_input_y_negation",
    "Verif.Cheap.C99_input_x_negation"
   ],
   "note": "Proved in full for an exact output in both directions (C99_output), for an exact input of X if the limit is above the price one (C99_input_x_partial), and for an exact input of Y up to one unit and 5*10^-15 (C99_input_y_partial; the price is exact there). False for exact inputs otherwise: the cheaper pool can pay 70836199850 units of X less (C99_input_y_negation), or one unit of Y less (C99_input_x_negation)."
  },
  {
   "property": "C100",
   "status": "partial",
   "theorems": [
    "Verif.Twin.C100_partial",
    "Verif.Twin.C100_unit_negation",
    "Verif.Twin.C100_low_negation",
    "Verif.Twin.C100_y_negation",
    "Verif.Twin.C100_back_negation"
   ],
   "note": "Proved for X against Y with a limit above the price one, up to eight units (C100_partial). False without the units (C100_unit_negation), below the price one (C100_low_negation), for Y against X (C100_y_negation), and for the way back (C100_back_negation): the same coins put in pay about a square of the fee less."
  },
  {
   "property": "C101",
   "status": "proved",
   "theorems": [
    "Verif.C101_restored",
    "Verif.C101_message",
    "Verif.C101_replies",
    "Verif.C101_history",
    "Verif.C101_accepted"
   ],
   "note": "The removal is assumed for the state, the replies and the histories, and shown to be accepted for balances below 2^254. The words of tick maps are compared as the program reads them: a word that became zero stays stored (C97); the example shows one."
  },
  {
   "property": "C102",
   "status": "partial",
   "theorems": [
    "Verif.C102_tokens_partial",
    "Verif.C102_coin_partial",
    "Verif.C102_withdraw_partial",
    "Verif.C102_requests_partial",
    "Verif.C102_negation"
   ],
   "note": "False of the code (C102_negation): in a pool of the native coin a swap that ends exactly at a tick lets an account take out coins of others, so that a withdrawal of a billion coins cannot be paid. Proved for histories of at most 5*10^8 calls in which no swap ends near an initialised tick (Near, Spec/Book.lean): the tokens (C102_tokens_partial) and the coin (C102_coin_partial) held cover everything owed, coins can be taken out at any time (C102_withdraw_partial), and all requested transfers to users are covered (C102_requests_partial). C37, C45 and C83 are put together here; the native coin may be traded by pools."
  },
  {
   "property": "C103",
   "status": "partial",
   "theorems": [
    "Verif.C103_nearer_partial",
    "Verif.C103_buy",
    "Verif.C103_sell_partial",
    "Verif.C103_negation"
   ],
   "note": "False of the code for tolerance 0 (C103_negation): the limit of a sale is one unit below the price at which the quote ended, and a reachable pool is given in which the rounding of the computed price makes the contract refuse the swap with PriceLimitReached. Proved for purchases with any tolerance up to 100% (C103_buy), for sales with a tolerance strictly between 0 and 100% (C103_sell_partial; at 100% the limit is -1 and cannot be sent), and for any nearer limit that leaves room for the rounding (C103_nearer_partial)."
  },
  {
   "property": "C104",
   "status": "proved",
   "theorems": [
    "Verif.C104_end",
    "Verif.C104_sell",
    "Verif.C104_buy",
    "Verif.C104_out",
    "Verif.C104_take"
   ],
   "note": ""
  },
  {
   "property": "C105",
   "status": "proved",
   "theorems": [
    "Verif.C105_hold",
    "Verif.C105_mix"
   ],
   "note": ""
  },
  {
   "property": "C106",
   "status": "partial",
   "theorems": [
    "Verif.C106_sell",
    "Verif.C106_buy",
    "Verif.C106_later_sell_partial",
    "Verif.C106_later_buy_partial",
    "Verif.C106_negation"
   ],
   "note": "Part (a) is proved for all swaps (C106_sell, C106_buy). Part (b) is false of the code (C106_negation): the fee is a part of the input in the last round but a rate on top of the input in the rounds before it, so that in a pool with a fee of 50% a later and larger sale that crosses a tick gets 0.62 of Y for a unit of X where the earlier one got 0.50. Proved up to the factors 1 - fee and 1 + fee (C106_later_sell_partial, C106_later_buy_partial)."
  },
  {
   "property": "C107",
   "status": "partial",
   "theorems": [
    "Verif.C107_credited_partial",
    "Verif.C107_negation"
   ],
   "note": "False of the code: C107_negation, after a swap that ended exactly at a tick the pool computes with twice the liquidity of its only position, and of the 990000 of X the next trader pays less than 495002 are credited to anyone. Proved (C107_credited_partial), from both sides, for swaps that do not end near an initialised tick (Near, Spec/Book.lean) in histories without such swaps, as long as no fee growth turns over 2^128; the rounds of the swap are counted (TookRounds, unique by took_unique) and bounded by the ticks passed, exact outputs of X aside."
  },
  {
   "property": "C108",
   "status": "partial",
   "theorems": [
    "Verif.C108_stuck_partial",
    "Verif.C108_negation"
   ],
   "note": "Full statement refuted by C108_negation (Exploit history: after a swap ending exactly at tick 10, 494999 of the 990000 units of X the next trader pays belong to nobody). Proved for all histories whose swaps do not end near an initialised tick (Near, Spec/Book.lean) and turn over no position's fee growth (Calm)."
  },
  {
   "property": "C109",
   "status": "proved",
   "theorems": [
    "Verif.C109_quote",
    "Verif.C109_iff",
    "Verif.C109_route",
    "Verif.C109_route_minimum",
    "Verif.C109_route_quote"
   ],
   "note": ""
  },
  {
   "property": "C110",
   "status": "proved",
   "theorems": [
    "Verif.C110_create",
    "Verif.C110_create_iff",
    "Verif.C110_remove",
    "Verif.C110_claim",
    "Verif.C110_missing"
   ],
   "note": ""
  },
  {
   "property": "C111",
   "status": "proved",
   "theorems": [
    "Verif.C111_deposit",
    "Verif.C111_deposit_pair",
    "Verif.C111_withdraw",
    "Verif.C111_withdraw_pair",
    "Verif.C111_waiting",
    "Verif.C111_single",
    "Verif.C111_pair"
   ],
   "note": ""
  },
  {
   "property": "C112",
   "status": "partial",
   "theorems": [
    "Verif.C112_token",
    "Verif.C112_fair",
    "Verif.C112_balance_partial",
    "Verif.C112_provider_partial",
    "Verif.C112_coin_partial",
    "Verif.C112_negation"
   ],
   "note": "False of the code (C112_negation): the token contract is honest, but after a swap that ends exactly at a tick the program holds less of the token than an account has in its balance, and no honest contract can pay it. Proved for all histories as long as the contract holds enough (C112_token); it does in histories of at most 5*10^8 calls in which no swap ends near an initialised tick (C112_balance_partial), where providers can leave with the worth of their positions and all fees (C112_provider_partial, and C112_coin_partial for pools of the native coin; the amounts must fit)."
  },
  {
   "property": "C113",
   "status": "partial",
   "theorems": [
    "Verif.C113_meaning",
    "Verif.C113_factor",
    "Verif.C113_decreasing",
    "Verif.C113_least",
    "Verif.C113_inverse",
    "Verif.C113_array",
    "Verif.C113_offers_partial",
    "Verif.C113_own",
    "Verif.C113_negation"
   ],
   "note": "False of the code for the offers (C113_negation): for a minimal range of 10000 steps of spacing 4 with a concentration below 1.6 the array contains 2, whose range is narrower than the minimal one. Proved when the minimal range and the next differ by at least 1, (C113_offers_partial), as for all arrays the SDK computes itself (C113_own); the meaning, the constant factor (up to 2*10^-9), monotonicity, the inverse and the end of the loop are proved without such a condition. The model uses real numbers in place of floating-point numbers, so roundings are not covered."
  },
  {
   "property": "C114",
   "status": "proved",
   "theorems": [
    "Verif.C114_deposit",
    "Verif.C114_refused_deposit",
    "Verif.C114_withdrawal",
    "Verif.C114_refused_withdrawal",
    "Verif.C114_undo",
    "Verif.C114_told",
    "Verif.C114_deposit_pair",
    "Verif.C114_withdraw_pair"
   ],
   "note": ""
  },
  {
   "property": "C115",
   "status": "partial",
   "theorems": [
    "Verif.C115_keys_partial",
    "Verif.C115_contains",
    "Verif.C115_pools",
    "Verif.C115_negation"
   ],
   "note": "False of the code if a key other than the last is removed: PoolKeys::remove leaves a gap in the indices, so a page panics and the next key added takes the index of another (C115_negation). C115_keys_partial assumes that only the last key is removed; C115_contains and C115_pools hold without it. No entry point calls these functions."
  },
  {
   "property": "C116",
   "status": "proved",
   "theorems": [
    "Verif.C116_reads",
    "Verif.C116_event",
    "Verif.C116_history",
    "Verif.C116_outcome",
    "Verif.C116_moment"
   ],
   "note": ""
  },
  {
   "property": "C117",
   "status": "proved",
   "theorems": [
    "Verif.C117_ticks",
    "Verif.C117_pools",
    "Verif.C117_storage",
    "Verif.C117_create"
   ],
   "note": ""
  },
  {
   "property": "C118",
   "status": "partial",
   "theorems": [
    "Verif.C118_pool_partial",
    "Verif.C118_position",
    "Verif.C118_tolerance",
    "Verif.C118_negation",
    "Verif.C118_negation_price"
   ],
   "note": "False of the code in two points about pools: C118_negation (on a grid of 10 the request for the lowest price is refused, finding 42) and C118_negation_price (the pool starts at the price of the tick below, finding 23). Proved for all states and prices: C118_pool_partial (made exactly for the prices between ticks of the grid, as in C76_sdk, and at the highest price of a tick not above the one asked for). The parts about positions hold in full: C118_position (equality with the request without limits), C118_tolerance (the lower bound up to the rounding of the root)."
  },
  {
   "property": "C119",
   "status": "proved",
   "theorems": [
    "Verif.C119_call",
    "Verif.C119_frame",
    "Verif.C119_history",
    "Verif.C119_tiers",
    "Verif.C119_fee",
    "Verif.C119_world",
    "Verif.C119_money"
   ],
   "note": ""
  },
  {
   "property": "C120",
   "status": "proved",
   "theorems": [
    "Verif.C120_claim",
    "Verif.C120_exit",
    "Verif.C120_when"
   ],
   "note": ""
  },
  {
   "property": "C121",
   "status": "proved",
   "theorems": [
    "Verif.C121_message",
    "Verif.C121_replies",
    "Verif.C121_collect",
    "Verif.C121_history",
    "Verif.C121_total"
   ],
   "note": ""
  },
  {
   "property": "C122",
   "status": "proved",
   "theorems": [
    "Verif.Toll.C122_swap",
    "Verif.Toll.C122_share",
    "Verif.Toll.C122_orders",
    "Verif.Toll.C122_raise"
   ],
   "note": ""
  },
  {
   "property": "C123",
   "status": "partial",
   "theorems": [
    "Verif.Standing.C123_refused_partial",
    "Verif.Standing.C123_still_partial",
    "Verif.Standing.C123_clear_partial",
    "Verif.Standing.C123_counterparty_partial",
    "Verif.Standing.C123_negation"
   ],
   "note": "Proved for pools whose liquidity is that of the positions in range, which holds in all histories in which no swap ends near a tick (C123_clear_partial). That a trade has another side is proved for swaps in such histories that do not themselves end near a tick. C123_negation: with no position in any pool, a user buys 90822353 tokens that belong to the deposit of another user."
  }
 ]
}