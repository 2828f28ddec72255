import Verif.Tests.Storage
import Verif.Model.Service
import Verif.Model.LiquidityResult

/-!
# The repository's own tests of the whole program (`src/e2e/gtest/*.rs`), on the model

Same convention as `Verif.Tests.Clamm`: the scenario and the expected numbers are those of the source. The actors and the
tokens have the identifiers of `src/test_helpers/gtest/consts.rs`. A deposit of the source credits a balance of the
program, which is what `dep` does; the withdrawals at the end of the scenarios are left out, so that "the program holds
`n` of a token" is "what was deposited less what the users can withdraw" (`kept`).
Events and allowances are left out. Where the source gives the widest limits on the price of a position, `pos` may be used
all the same, with the current price as both limits.
-/

namespace Verif.Tests.Contract
open Verif.Tests.Clamm Verif.Tests.Storage Verif.LiquidityResult

def ADMIN : ActorId := 1
def U1 : ActorId := 2
def U2 : ActorId := 3
def X : ActorId := 106
def Y : ActorId := 107
def Z : ActorId := 108

def env (a : ActorId) : Env := ⟨a, 1000, 10, 0⟩
def dep (u t n : Nat) (s : Inv) : M Inv := do
  let b ← increaseTokenBalance s.balances t u n
  pure { s with balances := b }
def bal (s : Inv) (u t : ActorId) : Nat := (s.balances.get (u, t)).getD 0
/-- what is left in the program of deposits `d` of the token -/
def kept (s : Inv) (t : ActorId) (d : Nat) : Nat := d - (bal s ADMIN t + bal s U1 t + bal s U2 t)

def tier : FeeTier := ⟨pc 6 3, 10⟩
def K : PoolKey := ⟨X, Y, tier⟩

/-- a program with one fee tier and one pool of `X` and `Y` -/
def withPool (protocolFee : Nat) (t : FeeTier) (tick : Int) : M Inv := do
  let (s, _) ← Service.addFeeTier (env ADMIN) (Inv.init ADMIN protocolFee) t
  let p ← calculateSqrtPrice tick
  Service.createPool (env U1) s X Y t p tick

/-- a position with the limits at the current price -/
def pos (u : ActorId) (k : PoolKey) (lo hi : Int) (l : Nat) (s : Inv) : M Inv := do
  let p ← poolsGet s.pools k
  let (s, _) ← Service.createPosition (env u) s k lo hi l p.sqrtPrice p.sqrtPrice
  pure s

/-- a position with the limits `lo'` and `hi'` on the price -/
def posLim (u : ActorId) (k : PoolKey) (lo hi : Int) (l lo' hi' : Nat) (s : Inv) : M Inv :=
  (Service.createPosition (env u) s k lo hi l lo' hi').map (·.1)

/-- a swap with no limit -/
def sw (u : ActorId) (k : PoolKey) (xToY : Bool) (n : Nat) (byIn : Bool) (s : Inv) : M Inv := do
  let (s, _) ← Service.swap (env u) s k xToY n byIn (if xToY then MIN_SQRT_PRICE else MAX_SQRT_PRICE)
  pure s

/-- `snippets/swap_exact_limit.rs`: the price of the quote is the limit of the swap -/
def swExact (u : ActorId) (k : PoolKey) (xToY : Bool) (n : Nat) (byIn : Bool) (s : Inv) : M Inv := do
  let q ← Service.quote s 1000 k xToY n byIn (if xToY then MIN_SQRT_PRICE else MAX_SQRT_PRICE)
  let s ← dep u (if xToY then k.tokenX else k.tokenY) q.amountIn s
  let (s, _) ← Service.swap (env u) s k xToY n byIn q.targetSqrtPrice
  pure s

def poolOf (s : Inv) (k : PoolKey) : Pool := (s.pools.get k).getD pool0
def tickOf (s : Inv) (k : PoolKey) (i : Int) : Tick := (s.ticks.get (k, i)).getD tick0
/-- tick, liquidity, fee growths, protocol fees -/
def view (s : Inv) (k : PoolKey) : Int × Nat × Nat × Nat × Nat × Nat :=
  let p := poolOf s k
  (p.currentTickIndex, p.liquidity, p.feeGrowthGlobalX, p.feeGrowthGlobalY, p.feeProtocolTokenX, p.feeProtocolTokenY)

/-- does a scenario end well, in a state for which the test holds -/
def passes (m : M Inv) (t : Inv → Bool) : Bool := match m with | .ok s => t s | .error _ => false
/-- does a scenario fail, and how -/
def fails {α} (m : M α) (e : Err) : Bool := match m with | .ok _ => false | .error e' => e' == e

/-! ## `snippets/init_basic_*.rs`, `swap.rs` -/

/-- `init_basic_pool`, `init_basic_position` -/
def basic : M Inv :=
  withPool (pc 1 2) tier 0 >>= dep U1 X (10 ^ 10) >>= dep U1 Y (10 ^ 10) >>= pos U1 K (-20) 10 (lq 1000000)

-- init_basic_position
example : passes basic (fun s => kept s X (10 ^ 10) == 500 && kept s Y (10 ^ 10) == 1000 &&
    (poolOf s K).liquidity == lq 1000000) = true := by decide +kernel

-- init_basic_swap
def basicSwap : M Inv := basic >>= dep U2 X 1000 >>= sw U2 K true 1000 true

example : (basic >>= dep U2 X 1000 >>= fun s =>
      (Service.swap (env U2) s K true 1000 true MIN_SQRT_PRICE).map (fun r =>
        (r.2.amountIn, r.2.amountOut, r.2.fee, r.2.startSqrtPrice, r.2.targetSqrtPrice, r.2.ticks.length)))
    = .ok (1000, 993, 6, sp 1, 999006987054867461743028, 0) := by decide +kernel

example : passes basicSwap (fun s =>
    view s K == (-20, lq 1000000, 50000000000000000000000, 0, 1, 0) &&
    kept s X (10 ^ 10 + 1000) == 1500 && kept s Y (10 ^ 10) == 7 && bal s U2 X == 0 && bal s U2 Y == 993) = true := by
  decide +kernel

-- test_swap_not_enough_token_x, test_swap_not_enough_token_y
example : fails (basic >>= dep U2 X 999 >>= sw U2 K true 1000 true) (.inv .FailedToChangeTokenBalance) = true ∧
    fails (basic >>= dep U2 Y 499 >>= sw U2 K false 500 true) (.inv .FailedToChangeTokenBalance) = true := by
  decide +kernel

-- test_swap_not_enough_liquidity_token_x, test_swap_not_enough_liquidity_token_y
example : fails (basic >>= dep U2 Y 1000 >>= sw U2 K false 1000 true) (.inv .TickLimitReached) = true ∧
    fails (basic >>= dep U2 X 2000 >>= sw U2 K true 2000 true) (.inv .TickLimitReached) = true := by decide +kernel

/-- `init_cross_position` -/
def cross : M Inv := basic >>= pos U1 K (-40) (-10) (lq 1000000)

-- init_cross_position
example : passes cross (fun s => kept s X (10 ^ 10) == 500 && kept s Y (10 ^ 10) == 2499) = true := by decide +kernel

-- cross.rs, init_cross_swap
example : passes (cross >>= dep U2 X 1000 >>= sw U2 K true 1000 true) (fun s =>
    view s K == (-20, 2 * lq 1000000, 40000000000000000000000, 0, 2, 0) &&
    bal s U2 Y == 990 && kept s X (10 ^ 10 + 1000) == 1500 && kept s Y (10 ^ 10) == 1509 &&
    (tickOf s K 10).liquidityChange == lq 1000000 && (tickOf s K (-10)).liquidityChange == lq 1000000 &&
    (tickOf s K (-20)).liquidityChange == lq 1000000 && (tickOf s K 10).feeGrowthOutsideX == 0 &&
    (tickOf s K (-10)).feeGrowthOutsideX == 30000000000000000000000 && (tickOf s K (-20)).feeGrowthOutsideX == 0) = true := by
  decide +kernel

-- test_swap_x_to_y
example : passes (withPool (pc 6 3) tier 0 >>= dep U1 X (10 ^ 10) >>= dep U1 Y (10 ^ 10) >>=
      posLim U1 K (-20) 10 (lq 1000000) 0 MAX_SQRT_PRICE >>= posLim U1 K (-40) (-10) (lq 1000000) 0 MAX_SQRT_PRICE >>=
      swExact U2 K true 1000 true) (fun s =>
    view s K == (-20, 2 * lq 1000000, 40000000000000000000000, 0, 2, 0) && bal s U2 X == 0 && bal s U2 Y == 990 &&
    (tickOf s K (-20)).liquidityChange == lq 1000000 && (tickOf s K (-10)).liquidityChange == lq 1000000 &&
    (tickOf s K 10).liquidityChange == lq 1000000 &&
    (tickOf s K (-10)).feeGrowthOutsideX == 30000000000000000000000 && (tickOf s K (-20)).feeGrowthOutsideX == 0 &&
    (tickOf s K 10).feeGrowthOutsideX == 0 &&
    (match Service.isTickInitialized s K (-20), Service.isTickInitialized s K (-10), Service.isTickInitialized s K 10 with
      | .ok a, .ok b, .ok c => a && b && c | _, _, _ => false)) = true := by decide +kernel

-- test_swap_y_to_x
example : passes (withPool (pc 6 3) tier 0 >>= dep U1 X (10 ^ 10) >>= dep U1 Y (10 ^ 10) >>=
      posLim U1 K (-10) 20 (lq 1000000) 0 MAX_SQRT_PRICE >>= posLim U1 K 10 40 (lq 1000000) 0 MAX_SQRT_PRICE >>=
      swExact U2 K false 1000 true) (fun s =>
    (tickOf s K (-10)).liquidityChange == lq 1000000 && (tickOf s K 10).liquidityChange == lq 1000000 &&
    (tickOf s K 20).liquidityChange == lq 1000000 &&
    view s K == (10, 2 * lq 1000000, 0, 40000000000000000000000, 0, 2) && bal s U2 Y == 0 && bal s U2 X == 990 &&
    kept s X (10 ^ 10) == 1509 && kept s Y (10 ^ 10 + 1000) == 1500 &&
    (tickOf s K 10).feeGrowthOutsideY == 30000000000000000000000 && (tickOf s K 20).feeGrowthOutsideY == 0 &&
    (tickOf s K (-10)).feeGrowthOutsideY == 0) = true := by decide +kernel

/-! ## `claim.rs`, `protocol_fee.rs`, `change_fee_receiver.rs` -/

-- test_claim
example : (basicSwap >>= fun s => Service.claimFee (env U1) s 0).map (fun r =>
      (r.2, (r.1.positions.map.get (U1, 0)).map (fun p => (p.feeGrowthInsideX, p.tokensOwedX, p.tokensOwedY)),
        bal r.1 U1 X + 500 == 10 ^ 10 + 5)) =
    .ok ((5, 0), some (50000000000000000000000, 0, 0), true) := by decide +kernel

-- test_claim_not_owner
example : fails (basicSwap >>= fun s => Service.claimFee (env U2) s 0) (.inv .PositionNotFound) = true := by
  decide +kernel

-- test_protocol_fee, test_protocol_fee_not_admin
example : (basicSwap >>= fun s => Service.withdrawProtocolFee (env ADMIN) s K).map (fun r =>
      (r.2, bal r.1 ADMIN X, bal r.1 ADMIN Y, (poolOf r.1 K).feeProtocolTokenX, (poolOf r.1 K).feeProtocolTokenY)) =
      .ok ((1, 0), 1, 0, 0, 0) ∧
    (basicSwap >>= fun s => Service.withdrawProtocolFee (env ADMIN) s K).map (fun r =>
      (kept r.1 X (10 ^ 10 + 1000), kept r.1 Y (10 ^ 10))) = .ok (1499, 7) ∧
    fails (basicSwap >>= fun s => Service.withdrawProtocolFee (env U1) s K) (.inv .NotFeeReceiver) = true := by
  decide +kernel

-- test_withdraw_fee_not_deployer
example : (basicSwap >>= fun s => Service.changeFeeReceiver (env ADMIN) s K U2 >>= fun s =>
      Service.withdrawProtocolFee (env U2) s K).map (fun r => (r.2, bal r.1 U2 X, bal r.1 U2 Y,
        kept r.1 X (10 ^ 10 + 1000), kept r.1 Y (10 ^ 10), (poolOf r.1 K).feeReceiver)) = .ok ((1, 0), 1, 993, 1499, 7, U2) ∧
    fails (basicSwap >>= fun s => Service.changeFeeReceiver (env ADMIN) s K U2 >>= fun s =>
      Service.withdrawProtocolFee (env ADMIN) s K) (.inv .NotFeeReceiver) = true := by decide +kernel

/-! ## `cross_both_sides.rs` -/

/-- the common beginning, with a first deposit of `n`: the price goes down exactly to the tick -10 -/
def bothSides (n : Nat) : M Inv :=
  withPool (pc 1 2) tier 0 >>= dep U1 X n >>= dep U1 Y n >>= pos U1 K (-10) 10 (lq 20006000) >>=
    pos U1 K (-20) (-10) (lq 20006000) >>= dep U1 X (10068 + 1 + 3 + 20136101434) >>=
    dep U1 Y (10068 + 1 + 3 + 20136101434) >>= sw U1 K true 10068 true

def atTick (s : Inv) : Bool := (poolOf s K).currentTickIndex == -10 && (poolOf s K).liquidity == lq 20006000 &&
  (match calculateSqrtPrice (-10) with | .ok p => (poolOf s K).sqrtPrice == p | _ => false)

-- test_cross_both_sides
example : passes (bothSides (10 ^ 5)) atTick = true ∧
    passes (bothSides (10 ^ 5) >>= sw U1 K true 3 true >>= sw U1 K false 3 true >>= dep U1 X (10 ^ 19) >>=
      dep U1 Y (10 ^ 19) >>= posLim U1 K (-20) 0 (lq 19996000399699881985603) MIN_SQRT_PRICE MAX_SQRT_PRICE >>=
      sw U1 K true 1 false >>= sw U1 K false 2 true) (fun s =>
    view s K == (-20, lq 19996000399699901991603, 29991002699190242927121, 0, 4, 2) &&
    (poolOf s K).sqrtPrice == 999500149964999999999999 &&
    (tickOf s K (-20)).feeGrowthOutsideX == 0 && (tickOf s K (-20)).feeGrowthOutsideY == 0 &&
    (tickOf s K (-20)).liquidityChange == lq 19996000399699901991603 &&
    (tickOf s K (-10)).feeGrowthOutsideX == 29991002699190242927121 && (tickOf s K (-10)).feeGrowthOutsideY == 0 &&
    (tickOf s K (-10)).liquidityChange == 0 && (tickOf s K 10).feeGrowthOutsideX == 0 &&
    (tickOf s K 10).feeGrowthOutsideY == 0 && (tickOf s K 10).liquidityChange == lq 20006000) = true := by
  decide +kernel

-- test_cross_both_sides_not_cross_case
example : passes (bothSides (10 ^ 10)) atTick = true ∧
    fails (bothSides (10 ^ 10) >>= sw U1 K true 1 true) (.inv .NoGainSwap) = true := by decide +kernel

/-! ## `multiple_swap.rs` -/

def K1 : PoolKey := ⟨X, Y, ⟨pc 1 3, 1⟩⟩

/-- the swap of 10 repeated -/
def tenTimes (xToY : Bool) : Nat → Inv → M Inv
  | 0, s => .ok s
  | n + 1, s => swExact U2 K1 xToY 10 true s >>= tenTimes xToY n

def multiple (xToY : Bool) : M Inv := do
  let s ← withPool (pc 1 2) K1.feeTier 0
  let r ← getLiquidity 100 100 (-953) 953 (sp 1) true
  let s ← dep U1 X (10 ^ 10) s
  let s ← dep U1 Y (10 ^ 10) s
  let s ← pos U1 K1 (-953) 953 r.l s
  tenTimes xToY 10 s

-- test_multiple_swap_x_to_y
example : passes (multiple true) (fun s =>
    (poolOf s K1).currentTickIndex == -821 && (poolOf s K1).feeGrowthGlobalX == 0 && (poolOf s K1).feeGrowthGlobalY == 0 &&
    (poolOf s K1).feeProtocolTokenX == 10 && (poolOf s K1).feeProtocolTokenY == 0 &&
    (poolOf s K1).sqrtPrice == 959805958530842759275220 && kept s X (10 ^ 10 + 100) == 200 &&
    kept s Y (10 ^ 10) == 20 && bal s U2 X == 0 && bal s U2 Y == 80) = true := by decide +kernel

-- test_multiple_swap_y_to_x
example : passes (multiple false) (fun s =>
    (poolOf s K1).currentTickIndex == 820 && (poolOf s K1).feeGrowthGlobalX == 0 && (poolOf s K1).feeGrowthGlobalY == 0 &&
    (poolOf s K1).feeProtocolTokenX == 0 && (poolOf s K1).feeProtocolTokenY == 10 &&
    (poolOf s K1).sqrtPrice == 1041877257701839564633600 && kept s X (10 ^ 10) == 20 &&
    kept s Y (10 ^ 10 + 100) == 200 && bal s U2 Y == 0 && bal s U2 X == 80) = true := by decide +kernel

/-! ## `slippage.rs`, `position_slippage.rs` -/

/-- `init_slippage_pool_with_liquidity` -/
def slip : M Inv :=
  withPool (pc 1 2) tier 0 >>= dep U1 X (10 ^ 10) >>= dep U1 Y (10 ^ 10) >>= pos U1 K (-1000) 1000 (lq (10 ^ 10))

-- test_basic_slippage
example : (slip >>= dep U1 Y (10 ^ 8) >>= fun s => Service.swap (env U1) s K false (10 ^ 8) true 1009940000000000000000001).map
    (fun r => (poolOf r.1 K).sqrtPrice) = .ok 1009940000000000000000000 := by decide +kernel

-- test_swap_close_to_limit
example : fails (slip >>= dep U1 Y (10 ^ 8) >>= fun s => Service.quote s 1000 K false (10 ^ 8) true MAX_SQRT_PRICE >>= fun q =>
    Service.swap (env U1) s K false (10 ^ 8) true (q.targetSqrtPrice - 1)) (.inv .PriceLimitReached) = true := by
  decide +kernel

-- test_swap_exact_limit
example : passes (basic >>= swExact U2 K true 1000 true) (fun s => bal s U2 Y == 993) = true := by decide +kernel

-- test_position_slippage_zero_slippage_and_inside_range
example : passes (slip >>= pos U1 K (-10) 10 (lq 1000000)) (fun _ => true) = true ∧
    (slip >>= fun s => Service.createPosition (env U1) s K (-10) 10 (lq 1000000) 994734637981406576896367
      1025038048074314166333500).toBool = true := by decide +kernel

-- test_position_slippage_below_range, test_position_slippage_above_range
example : fails (slip >>= fun s => Service.createPosition (env U1) s K (-10) 10 (lq 1000000) 1014432353584998786339859
      1045335831204498605270797) (.inv .PriceLimitReached) = true ∧
    fails (slip >>= fun s => Service.createPosition (env U1) s K (-10) 10 (lq 1000000) 955339206774222158009382
      984442481813945288458906) (.inv .PriceLimitReached) = true := by decide +kernel

/-! ## `liquidity_gap.rs` -/

def gap : M Inv :=
  withPool (pc 1 2) tier 0 >>= dep U1 X maxU128 >>= dep U1 Y maxU128 >>= pos U1 K (-10) 10 (lq 20006000) >>=
    swExact U2 K true 10067 true

-- test_liquidity_gap
example : passes gap (fun s => view s K == (-10, lq 20006000, 29991002699190242927121, 0, 1, 0) &&
      (match calculateSqrtPrice (-10) with | .ok p => (poolOf s K).sqrtPrice == p | _ => false) &&
      bal s U2 X == 0 && bal s U2 Y == 9999) = true ∧
    fails (gap >>= sw U2 K true 1 true) (.inv .NoGainSwap) = true ∧
    passes (gap >>= pos U1 K (-90) (-50) (lq 20008000) >>= swExact U2 K true 5000 true) (fun _ => true) = true := by
  decide +kernel

/-! ## `limits.rs` -/

def K6 : PoolKey := ⟨X, Y, ⟨pc 6 3, 1⟩⟩

def big (xToY : Bool) : M Inv := do
  let n := 2 ^ 206
  let s ← withPool (pc 1 2) K6.feeTier 0
  let r ← if xToY then getLiquidityByY n (-1) 0 (sp 1) true else getLiquidityByX n 0 1 (sp 1) true
  let s ← dep U1 X n s
  let s ← dep U1 Y n s
  if xToY then pos U1 K6 (-1) 0 r.l s else pos U1 K6 0 1 r.l s

-- test_limits_big_deposit_x_and_swap_y, test_limits_big_deposit_y_and_swap_x
example : passes (big true) (fun s => kept s X (2 ^ 206) == 0 && kept s Y (2 ^ 206) ==
      maxU256 - 115792089237316092579536152433310273167696074831234002618465981909171670351871) = true ∧
    passes (big false) (fun s => kept s Y (2 ^ 206) == 0 && kept s X (2 ^ 206) ==
      maxU256 - 115792089237316092579536152433310273167696074831234002618465981909171670351871) = true ∧
    passes (big true >>= fun s => sw U1 K6 true (2 ^ 206) true s) (fun s =>
      bal s U1 X == 0 && decide (0 < bal s U1 Y)) = true ∧
    passes (big false >>= fun s => sw U1 K6 false (2 ^ 206) true s) (fun s =>
      bal s U1 Y == 0 && decide (0 < bal s U1 X)) = true := by decide +kernel

/-- a position of `n` of the first token, after a deposit of `d` of each token, or of just what the test computes; with
the amount of the second token and the two deposits -/
def bothTokens (n : Nat) (d : Option Nat) : M (Inv × Nat × Nat × Nat) := do
  let s ← withPool (pc 1 2) K6.feeTier 0
  let r ← getLiquidityByX n (-1) 1 (sp 1) false
  let lo ← calculateSqrtPrice (-1)
  let y ← getDeltaY lo (sp 1) r.l true
  let x ← getDeltaX lo (sp 1) r.l true
  let s ← dep U1 X (d.getD x) s
  let s ← dep U1 Y (d.getD y) s
  let s ← pos U1 K6 (-1) 1 r.l s
  pure (s, y, d.getD x, d.getD y)

def keeps (m : M (Inv × Nat × Nat × Nat)) (n : Nat) : Bool :=
  match m with
  | .ok (s, y, dx, dy) => kept s X dx == n && kept s Y dy == y
  | .error _ => false

-- test_limits_big_deposit_both_tokens
example : keeps (bothTokens 95780971304118053647396689196894323976171195136475136 none)
    95780971304118053647396689196894323976171195136475136 = true := by decide +kernel

/-- the four swaps of `test_limits_big_deposit_and_swaps` -/
def fourSwaps (n : Nat) (s : Inv) : M Inv :=
  sw U1 K6 false n true s >>= sw U1 K6 true n true >>= sw U1 K6 false n true >>= sw U1 K6 true n true

-- test_limits_big_deposit_and_swaps
example : keeps (bothTokens (2 ^ 177 / 2) (some maxU256)) (2 ^ 177 / 2) = true ∧
    passes (bothTokens (2 ^ 177 / 2) (some maxU256) >>= fun r => fourSwaps (2 ^ 177 / 8) r.1) (fun _ => true) = true := by
  decide +kernel

-- test_deposit_limits_at_upper_limit
example : passes (do
    let s ← withPool (pc 1 2) K6.feeTier MAX_TICK
    let r ← getLiquidityByY (2 ^ 236 - 1) 0 MAX_TICK (poolOf s K6).sqrtPrice false
    let s ← dep U1 X maxU256 s
    let s ← dep U1 Y maxU256 s
    pos U1 K6 0 MAX_TICK r.l s) (fun s => (poolOf s K6).currentTickIndex == MAX_TICK) = true := by decide +kernel

-- test_limits_full_range_with_max_liquidity
example : passes (do
    let s ← withPool (pc 1 2) K6.feeTier MAX_TICK
    let s ← dep U1 X maxU256 s
    let s ← dep U1 Y maxU256 s
    pos U1 K6 (-MAX_TICK) MAX_TICK 220855883097298041197912187592864814478435487109452369765200775161577472 s) (fun s =>
      kept s X maxU256 == 0 &&
      kept s Y maxU256 == 144738750896072444118518848476700723725861030905971328860187553943253568) = true := by
  decide +kernel

/-! ## `swap_route.rs` -/

def KYZ : PoolKey := ⟨Y, Z, ⟨pc 6 3, 1⟩⟩
def hops : List Service.SwapHop := [⟨K6, true⟩, ⟨KYZ, true⟩]

def route : M (Inv × Nat) := do
  let n := 2 ^ 64 - 1
  let s ← withPool (pc 1 2) K6.feeTier 0
  let s ← Service.createPool (env U2) s Y Z K6.feeTier (sp 1) 0
  let s ← dep U2 X n s
  let s ← dep U2 Y n s
  let s ← dep U2 Z n s
  let s ← dep U1 X 1000 s
  let s ← pos U2 K6 (-1) 1 (2 ^ 63 - 1) s
  let s ← pos U2 KYZ (-1) 1 (2 ^ 63 - 1) s
  let e ← Service.quoteRoute s 1000 1000 hops
  Service.swapRoute (env U1) s 1000 e 0 hops

-- swap_route_test
example : passes (route.map (·.1)) (fun s => bal s U1 X == 0 && bal s U1 Y == 0 && bal s U1 Z == 986 &&
      (poolOf s K6).feeProtocolTokenX == 1 && (poolOf s K6).feeProtocolTokenY == 0 &&
      (poolOf s KYZ).feeProtocolTokenX == 1 && (poolOf s KYZ).feeProtocolTokenY == 0) = true ∧
    (route >>= fun s => Service.claimFee (env U2) s.1 0 >>= fun a => Service.claimFee (env U2) a.1 1 >>= fun b =>
      pure (a.2, b.2)) = .ok ((4, 0), (4, 0)) := by decide +kernel

/-! ## `max_tick_cross.rs` -/

/-- one position per word of the tickmap, the lowest first -/
def ladder (l : Nat) : Nat → Int → Inv → M Inv
  | 0, _, s => .ok s
  | n + 1, i, s => pos U1 K6 i (i + 256) l s >>= ladder l n (i + 256)

def crossAll : M Inv :=
  withPool (pc 1 2) K6.feeTier 0 >>= dep U1 X maxU256 >>= dep U1 Y maxU256 >>=
    ladder (lq 1000000000000000) 895 (-863 * 256) >>= sw U1 K6 false 489951846302626 true

def crossResult (r : CalculateSwapResult) : Nat × Nat × Nat × Nat × Nat × Nat :=
  (r.amountIn, r.amountOut, r.fee, r.startSqrtPrice, r.targetSqrtPrice, r.ticks.length)

-- max_tick_cross: 893 ticks crossed by one swap (run by the interpreter, it is too much for the kernel)
#guard (crossAll >>= fun s => Service.quote s 1000 K6 true 63058587794151558883 true MIN_SQRT_PRICE >>= fun q =>
      Service.swap (env U1) s K6 true 63058587794151558883 true MIN_SQRT_PRICE >>= fun r =>
      getTickAtSqrtPrice (poolOf r.1 K6).sqrtPrice 1 >>= fun i =>
      pure (crossResult r.2 == (63058587794151558883, 1487013034191998, 376123656973987223, 1487028987445999000000000,
        15953254000000000001, 893) && q.ticks.length == 893 && i == (poolOf r.1 K6).currentTickIndex)) = .ok true

/-! ## `create_pool.rs` -/

def half (n : Nat) : FeeTier := ⟨pc 5 1, n⟩
def added (n : Nat) : M Inv := (Service.addFeeTier (env ADMIN) (Inv.init ADMIN 100) (half n)).map (·.1)
def keysOf (s : Inv) : M (List PoolKey × Nat) := Service.getPoolKeys s 65535 0

-- test_create_pool, test_create_pool_x_to_y_and_y_to_x
example : (added 100 >>= fun s => Service.createPool (env U1) s 1 2 (half 100) (sp 1) 0 >>= keysOf) =
      .ok ([⟨1, 2, half 100⟩], 1) ∧
    (added 100 >>= fun s => Service.createPool (env U1) s 1 2 (half 100) (sp 1) 0 >>= fun s =>
      Service.getPool s 1 2 (half 100)) =
      .ok { pool0 with sqrtPrice := sp 1, feeReceiver := ADMIN, startTimestamp := 1000, lastTimestamp := 1000 } ∧
    fails (added 100 >>= fun s => Service.createPool (env U1) s 1 2 (half 100) (sp 1) 0 >>= fun s =>
      Service.createPool (env U1) s 2 1 (half 100) (sp 1) 0) (.inv .PoolAlreadyExist) = true := by decide +kernel

-- test_create_pool_with_same_tokens, test_create_pool_fee_tier_not_added,
-- test_create_pool_init_tick_not_divisible_by_tick_spacing
example : fails (added 100 >>= fun s => Service.createPool (env U1) s 1 1 (half 100) (sp 1) 0) (.inv .TokensAreSame) = true ∧
    fails (Service.createPool (env U1) (Inv.init ADMIN 100) 1 2 (half 100) (sp 1) 0) (.inv .FeeTierNotFound) = true ∧
    fails (added 3 >>= fun s => calculateSqrtPrice 2 >>= fun p => Service.createPool (env U1) s 1 2 (half 3) p 2)
      (.inv .InvalidInitTick) = true := by decide +kernel

-- test_create_pool_init_sqrt_price_minimal_difference_from_tick, .._has_closer_init_tick, .._spacing_over_one
example :
    (added 3 >>= fun s => Service.createPool (env U1) s 1 2 (half 3) (sp 1 + 1) 0 >>= fun s =>
      Service.getPool s 1 2 (half 3)).map (·.currentTickIndex) = .ok 0 ∧
    fails (added 1 >>= fun s => Service.createPool (env U1) s 1 2 (half 1) 1000175003749000000000000 2)
      (.inv .InvalidInitSqrtPrice) = true ∧
    (added 1 >>= fun s => Service.createPool (env U1) s 1 2 (half 1) 1000175003749000000000000 3 >>= fun s =>
      Service.getPool s 1 2 (half 1)).map (·.currentTickIndex) = .ok 3 ∧
    fails (added 3 >>= fun s => Service.createPool (env U1) s 1 2 (half 3) 1000225003749000000000000 0)
      (.inv .InvalidInitSqrtPrice) = true ∧
    (added 3 >>= fun s => Service.createPool (env U1) s 1 2 (half 3) 1000225003749000000000000 3 >>= fun s =>
      Service.getPool s 1 2 (half 3)).map (·.currentTickIndex) = .ok 3 := by decide +kernel

/-! ## `position.rs` -/

def K4 : PoolKey := ⟨X, Y, ⟨pc 2 4, 4⟩⟩

-- test_create_position, test_position_same_upper_and_lower_tick
example : (withPool 100 (half 10) 0 >>= dep U1 X 500 >>= dep U1 Y 500 >>= fun s =>
      Service.createPosition (env U1) s ⟨X, Y, half 10⟩ (-10) 10 10 (sp 1) (sp 1)).map (·.2) =
      .ok ⟨⟨X, Y, half 10⟩, 10, -10, 10, 0, 0, 10, 0, 0⟩ ∧
    fails (withPool 100 (half 10) 0 >>= dep U1 X 500 >>= dep U1 Y 500 >>= fun s =>
      Service.createPosition (env U1) s ⟨X, Y, half 10⟩ 10 10 10 (sp 1) (sp 1)) (.inv .InvalidTickIndex) = true := by
  decide +kernel

/-- the two ticks, the position and the pool after a position of `position.rs` -/
def after (tick lo hi : Int) (l n : Nat) (poolLiq x y : Nat) : Bool :=
  passes (withPool 100 K4.feeTier tick >>= dep U1 X n >>= dep U1 Y n >>= pos U1 K4 lo hi l) (fun s =>
    let a := tickOf s K4 lo
    let b := tickOf s K4 hi
    a.index == lo && b.index == hi && a.liquidityGross == l && b.liquidityGross == l && a.liquidityChange == l &&
    b.liquidityChange == l && a.sign && !b.sign &&
    (match s.positions.map.get (U1, 0) with
      | some p => p.poolKey == K4 && p.liquidity == l && p.lowerTickIndex == lo && p.upperTickIndex == hi &&
          p.feeGrowthInsideX == 0 && p.feeGrowthInsideY == 0
      | none => false) &&
    (poolOf s K4).liquidity == poolLiq && (poolOf s K4).currentTickIndex == tick && kept s X n == x && kept s Y n == y)

-- test_position_below_current_tick, test_position_within_current_tick, test_position_above_current_tick
example : after 0 (-46080) (-23040) (lq 10000) (10 ^ 10) 0 0 2162 = true ∧
    after (-23028) (-177440) 177440 (lq 100) 100000000 (lq 100) 317 32 = true ∧
    after (-23028) (-22980) 0 (lq 10000) 100000000 0 21549 0 = true := by decide +kernel

-- test_create_position_not_enough_token_x, test_create_position_not_enough_token_y
example : fails (withPool 100 K4.feeTier 0 >>= dep U1 X 1 >>= dep U1 Y 100000000 >>= pos U1 K4 (-8) 8 (lq 10000))
      (.inv .FailedToChangeTokenBalance) = true ∧
    fails (withPool 100 K4.feeTier 0 >>= dep U1 X 100000000 >>= dep U1 Y 1 >>= pos U1 K4 (-8) 8 (lq 10000))
      (.inv .FailedToChangeTokenBalance) = true := by decide +kernel

def removal : M Inv := basic >>= pos U1 K (-70) 60 (lq 1000000 * 1000000) >>= dep U2 X 1000 >>= sw U2 K true 1000 true

-- test_remove_position
example : passes removal (fun s => view s K == (-10, lq 1000000 + lq 1000000 * 1000000, 49999950000049999, 0, 1, 0) &&
      decide ((poolOf s K).sqrtPrice < sp 1) && bal s U2 X == 0 && bal s U2 Y == 993) = true ∧
    (removal >>= fun s => Service.removePosition (env U1) s 0).map (fun r =>
      (r.2, (poolOf r.1 K).liquidity, (poolOf r.1 K).currentTickIndex, r.1.ticks.get (K, -20), r.1.ticks.get (K, 10))) =
      .ok ((499, 999), lq 1000000 * 1000000, -10, none, none) ∧
    (removal >>= fun s => Service.removePosition (env U1) s 0 >>= fun r =>
      Service.isTickInitialized r.1 K (-20) >>= fun a => Service.isTickInitialized r.1 K 10 >>= fun b => pure (a, b)) =
      .ok (false, false) := by decide +kernel

/-! ## `position_list.rs` -/

def K3 (fee : Nat) : PoolKey := ⟨X, Y, ⟨fee, 3⟩⟩
def all (s : Inv) (u : ActorId) : M (List Position) := s.positions.getAll u

def four (fee : Nat) : M Inv :=
  withPool (pc 6 3) (K3 fee).feeTier (-23028) >>= dep U1 X (10 ^ 10) >>= dep U1 Y (10 ^ 10) >>=
  pos U1 (K3 fee) (-9780) (-42) (lq 1000000) >>= pos U1 (K3 fee) (-9780) (-42) (lq 1000000) >>=
  pos U1 (K3 fee) (-9780) 0 (lq 1000000) >>= pos U1 (K3 fee) (-42) 276 (lq 1000000)

def rm (u : ActorId) (i : Nat) (s : Inv) : M Inv := (Service.removePosition (env u) s i).map (·.1)
def give (u : ActorId) (i : Nat) (v : ActorId) (s : Inv) : M Inv := Service.transferPosition (env u) s i v
def ranges (u : ActorId) (s : Inv) : M (List (Int × Int)) :=
  (all s u).map (List.map (fun p => (p.lowerTickIndex, p.upperTickIndex)))
/-- the lists of the two users -/
def both (s : Inv) : M (List (Int × Int) × List (Int × Int)) :=
  ranges U1 s >>= fun a => ranges U2 s >>= fun b => pure (a, b)

-- test_remove_position_from_empty_list
example : fails (withPool (pc 6 3) (K3 (pc 6 3)).feeTier (-23028) >>= rm U1 0) (.inv .PositionNotFound) = true := by
  decide +kernel

-- test_only_owner_can_modify_position_list
example : (four (pc 2 4) >>= rm U1 2 >>= ranges U1) = .ok [(-9780, -42), (-9780, -42), (-42, 276)] ∧
    (four (pc 2 4) >>= rm U1 2 >>= pos U1 (K3 (pc 2 4)) (-42) 0 (lq 1000000) >>= ranges U1) =
      .ok [(-9780, -42), (-9780, -42), (-42, 276), (-42, 0)] ∧
    fails (four (pc 2 4) >>= rm U1 2 >>= pos U1 (K3 (pc 2 4)) (-42) 0 (lq 1000000) >>= rm U2 3)
      (.inv .PositionNotFound) = true := by decide +kernel

def f6 : M Inv := four (pc 6 3)

-- test_add_multiple_positions
example : (f6 >>= ranges U1) = .ok [(-9780, -42), (-9780, -42), (-9780, 0), (-42, 276)] ∧
    (f6 >>= rm U1 2 >>= ranges U1) = .ok [(-9780, -42), (-9780, -42), (-42, 276)] ∧
    (f6 >>= rm U1 2 >>= pos U1 (K3 (pc 6 3)) (-42) 0 (lq 1000000) >>= ranges U1) =
      .ok [(-9780, -42), (-9780, -42), (-42, 276), (-42, 0)] ∧
    (f6 >>= rm U1 2 >>= pos U1 (K3 (pc 6 3)) (-42) 0 (lq 1000000) >>= rm U1 3 >>= ranges U1) =
      .ok [(-9780, -42), (-9780, -42), (-42, 276)] ∧
    (f6 >>= rm U1 2 >>= rm U1 2 >>= rm U1 1 >>= rm U1 0 >>= ranges U1) = .ok [] ∧
    (f6 >>= rm U1 2 >>= rm U1 2 >>= rm U1 1 >>= rm U1 0 >>= pos U1 (K3 (pc 6 3)) (-9780) (-42) (lq 1000000) >>=
      ranges U1) = .ok [(-9780, -42)] := by decide +kernel

def given : M Inv := four (pc 2 4) >>= give U1 0 U2 >>= give U1 1 U2

-- test_transfer_position_ownership: the first, the middle, the last, the only one, and one back
example : (four (pc 2 4) >>= give U1 0 U2 >>= both) =
      .ok ([(-42, 276), (-9780, -42), (-9780, 0)], [(-9780, -42)]) ∧
    (given >>= both) = .ok ([(-42, 276), (-9780, 0)], [(-9780, -42), (-9780, -42)]) ∧
    (given >>= give U1 1 U2 >>= both) = .ok ([(-42, 276)], [(-9780, -42), (-9780, -42), (-9780, 0)]) := by
  decide +kernel

example : (given >>= give U1 1 U2 >>= give U1 0 U2 >>= both) =
      .ok ([], [(-9780, -42), (-9780, -42), (-9780, 0), (-42, 276)]) ∧
    fails (given >>= give U1 1 U2 >>= give U1 0 U2 >>= fun s => s.positions.get U1 0) (.inv .PositionNotFound) = true ∧
    (given >>= give U1 1 U2 >>= give U1 0 U2 >>= give U2 0 U1 >>= both) =
      .ok ([(-9780, -42)], [(-42, 276), (-9780, -42), (-9780, 0)]) := by decide +kernel

-- test_only_owner_can_transfer_position
example : fails (four (pc 2 4) >>= give U2 0 U1) (.inv .PositionNotFound) = true ∧
    (four (pc 2 4) >>= both).map (fun r => (r.1.length, r.2.length)) = .ok (4, 0) := by decide +kernel

def KS : PoolKey := ⟨X, Y, ⟨pc 2 4, 10⟩⟩
def same3 : M Inv := withPool (pc 6 3) KS.feeTier 0 >>= dep U1 X (10 ^ 8) >>= dep U1 Y (10 ^ 8) >>=
  pos U1 KS (-10) 10 100 >>= pos U1 KS (-10) 10 100 >>= pos U1 KS (-10) 10 100
def same6 : M Inv := same3 >>= pos U1 KS (-10) 10 100 >>= pos U1 KS (-20) (-10) 100 >>= pos U1 KS 10 20 100

/-- index, gross liquidity, change and sign of a tick -/
def tickView (s : Inv) (i : Int) : Int × Nat × Nat × Bool :=
  let t := tickOf s KS i
  (t.index, t.liquidityGross, t.liquidityChange, t.sign)
/-- is the position `n` of the first user the one from `lo` to `hi` -/
def posIs (s : Inv) (n : Nat) (lo hi : Int) : Bool :=
  match s.positions.map.get (U1, n) with
  | some p => p.poolKey == KS && p.liquidity == 100 && p.lowerTickIndex == lo && p.upperTickIndex == hi &&
      p.feeGrowthInsideX == 0 && p.feeGrowthInsideY == 0
  | none => false

-- test_multiple_positions_on_same_tick
example : passes same3 (fun s => tickView s (-10) == (-10, 300, 300, true) && tickView s 10 == (10, 300, 300, false) &&
      (poolOf s KS).liquidity == 300 && (poolOf s KS).currentTickIndex == 0 &&
      posIs s 0 (-10) 10 && posIs s 1 (-10) 10 && posIs s 2 (-10) 10) = true ∧
    passes same6 (fun s => posIs s 0 (-10) 10 && posIs s 4 (-20) (-10) && posIs s 5 10 20 &&
      tickView s (-20) == (-20, 100, 100, true) && tickView s (-10) == (-10, 500, 300, true) &&
      tickView s 10 == (10, 500, 300, false) && tickView s 20 == (20, 100, 100, false) &&
      (poolOf s KS).liquidity == 400 && (poolOf s KS).currentTickIndex == 0 &&
      [-20, -10, 10, 20].all (fun i => match Service.isTickInitialized s KS i with | .ok b => b | _ => false)) = true := by
  decide +kernel

end Verif.Tests.Contract
