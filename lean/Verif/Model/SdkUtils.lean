import Verif.Model.Sdk
import Verif.Model.Scale

/-!
# Model of the helpers of the SDK: `sdk/src/utils.ts`, `sdk/src/wasm/custom.rs`, `sdk/src/wasm/storage`

A JavaScript `bigint` is an integer without bounds; where the code only ever has non-negative values it is a
`Nat`. A thrown exception is an error. `get*Denominator()` are the constants of the decimal types.
`calculate_fee_growth_inside`, `to_fee`, `unchecked_sub`, `calculate_amount_delta`, `calculate_sqrt_price` and
`get_tick_at_sqrt_price` of the SDK are the same text as the contract's and are represented by its model.
Conversions of field names and between `number` and `bigint` are not modelled.
-/

namespace Verif.Sdk

/-! ### Previews of what a position pays -/

/-- `sdk/src/wasm/custom.rs` 47-81 `calculate_fee` -/
def calculateFeeWasm (lower : Int) (lowerOutX lowerOutY : Nat) (upper : Int) (upperOutX upperOutY : Nat)
    (cur : Int) (globalX globalY insideX insideY L : Nat) : M (Nat × Nat) := do
  let gx := feeGrowthInside1 lower lowerOutX upper upperOutX cur globalX
  let gy := feeGrowthInside1 lower lowerOutY upper upperOutY cur globalY
  let x ← fgToFee (fgSub gx insideX) L
  let y ← fgToFee (fgSub gy insideY) L
  pure (x, y)

/-- `sdk/src/utils.ts` 574-594 `calculateFee` -/
def calculateFee (pool : Verif.Pool) (p : Position) (lower upper : Tick) : M (Nat × Nat) :=
  calculateFeeWasm lower.index lower.feeGrowthOutsideX lower.feeGrowthOutsideY upper.index
    upper.feeGrowthOutsideX upper.feeGrowthOutsideY pool.currentTickIndex pool.feeGrowthGlobalX
    pool.feeGrowthGlobalY p.feeGrowthInsideX p.feeGrowthInsideY p.liquidity

/-- `sdk/src/utils.ts` 542-564 `calculateTokenAmounts` and `_calculateTokenAmounts` -/
def calculateTokenAmounts (pool : Verif.Pool) (p : Position) (sign : Bool) : M (Nat × Nat) := do
  let r ← calculateAmountDelta pool.currentTickIndex pool.sqrtPrice p.liquidity sign p.upperTickIndex
    p.lowerTickIndex
  pure (r.1, r.2.1)

/-! ### Prices -/

/-- `sdk/src/utils.ts` 419-425 `newtonIteration`; the first argument bounds the depth of the recursion -/
def newtonIteration : Nat → Nat → Nat → Option Nat
  | 0, _, _ => none
  | k + 1, n, x0 =>
    let x1 := (n / x0 + x0) / 2
    if x0 = x1 ∨ x0 + 1 = x1 then some x0 else newtonIteration k n x1

/-- `sdk/src/utils.ts` 407-417 `sqrt`; the depth is that of any machine on which it returns -/
def sqrt (depth : Nat) (value : Int) : M Nat :=
  if value < 0 then .error .panic
  else if value < 2 then .ok value.toNat
  else match newtonIteration depth value.toNat 1 with
    | some r => .ok r
    | none => .error .panic

/-- recursions that deep are within what JavaScript engines allow -/
def DEPTH : Nat := 1000

/-- `sdk/src/utils.ts` 427-439 `calculatePriceImpact`; the quotient of two zeros throws -/
def calculatePriceImpact (start final : Nat) : M Nat :=
  let a := start * start
  let b := final * final
  let diff : Int := (a : Int) - b
  let nominator := if diff > 0 then diff.toNat else (-diff).toNat
  let denominator := if a > b then a else b
  divC .panic (nominator * pctOne) denominator

/-- `sdk/src/utils.ts` 441-443 `sqrtPriceToPrice` -/
def sqrtPriceToPrice (p : Nat) : Nat := p * p / spOne

/-- `sdk/src/utils.ts` 445-447 `priceToSqrtPrice` -/
def priceToSqrtPrice (price : Int) : M Nat := sqrt DEPTH (price * spOne)

/-- `sdk/src/utils.ts` 463-479 `calculateSqrtPriceAfterSlippage` -/
def calculateSqrtPriceAfterSlippage (p slippage : Nat) (up : Bool) : M Nat :=
  if slippage = 0 then .ok p
  else do
    let multiplier : Int := pctOne + (if up then (slippage : Int) else -slippage)
    let price := sqrtPriceToPrice p
    let r ← priceToSqrtPrice (price * multiplier * pctOne)
    pure (r / pctOne)

/-- `sdk/src/invariant.ts` 745-759: the price limit of `swapWithSlippage` -/
def swapLimit (estimated slippage : Nat) (xToY : Bool) : M Int := do
  let r ← calculateSqrtPriceAfterSlippage estimated slippage (!xToY)
  pure (if xToY then (r : Int) - 1 else (r : Int) + 1)

/-- `sdk/src/invariant.ts` 538-547: the price limits of `createPosition` -/
def createPositionLimits (spot slippage : Nat) : M (Nat × Nat) := do
  let lo ← calculateSqrtPriceAfterSlippage spot slippage false
  let hi ← calculateSqrtPriceAfterSlippage spot slippage true
  pure (lo, hi)

/-- `sdk/src/utils.ts` 804-836 `calculateTokenAmountsWithSlippage` -/
def calculateTokenAmountsWithSlippage (spacing p L : Nat) (lower upper : Int) (slippage : Nat) (up : Bool) :
    M (Nat × Nat) := do
  let lo ← calculateSqrtPriceAfterSlippage p slippage false
  let hi ← calculateSqrtPriceAfterSlippage p slippage true
  let t ← getTickAtSqrtPrice p spacing
  let a ← calculateAmountDelta t lo L up upper lower
  let b ← calculateAmountDelta t hi L up upper lower
  pure (if a.1 > b.1 then a.1 else b.1, if a.2.1 > b.2.1 then a.2.1 else b.2.1)

/-! ### Ticks -/

/-- `sdk/src/utils.ts` 449-461 `calculateLiquidityBreakpoints` -/
def breakpointsFrom (acc : Int) : List LiquidityTick → List (Int × Int)
  | [] => []
  | t :: l =>
    let acc := acc + t.liquidityChange * (if t.sign then 1 else -1)
    (acc, t.index) :: breakpointsFrom acc l

def calculateLiquidityBreakpoints (ticks : List LiquidityTick) : List (Int × Int) := breakpointsFrom 0 ticks

/-- the condition under which `filterTicks` and `filterTickmap` remove an entry -/
def wrongSide (xToY : Bool) (i cur : Int) : Bool := if xToY then decide (i > cur) else decide (i < cur)

/-- `sdk/src/utils.ts` 488-504: the loop of `filterTicks` with the number of rounds left. The iterator of a
JavaScript array holds an index and looks at the array as it is now, so after `splice` it goes on with the
element after the one that has moved into the gap. -/
def filterLoop (cur : Int) (xToY : Bool) : Nat → Nat → List LiquidityTick → List LiquidityTick
  | 0, _, l => l
  | n + 1, i, l =>
    match l[i]? with
    | none => l
    | some t => filterLoop cur xToY n (i + 1) (if wrongSide xToY t.index cur then l.eraseIdx i else l)

/-- `sdk/src/utils.ts` 481-507 `filterTicks` -/
def filterTicks (ticks : List LiquidityTick) (cur : Int) (xToY : Bool) : List LiquidityTick :=
  filterLoop cur xToY MAX_SWAP_STEPS 0 ticks

/-- `sdk/src/utils.ts` 518-533: the loop of `filterTickmap` with the number of rounds left. Deleting an entry
of a JavaScript `Map` does not disturb its iterator. -/
def filterChunks (cur : Nat) (xToY : Bool) : Nat → List (Nat × Nat) → List (Nat × Nat)
  | 0, l => l
  | _, [] => []
  | n + 1, e :: l =>
    if wrongSide xToY e.1 cur then filterChunks cur xToY n l else e :: filterChunks cur xToY n l

/-- `sdk/src/utils.ts` 509-536 `filterTickmap` -/
def filterTickmap (bm : List (Nat × Nat)) (spacing : Nat) (cur : Int) (xToY : Bool) : M (List (Nat × Nat)) := do
  let c ← tickToPosition cur spacing
  pure (filterChunks c.1 xToY MAX_SWAP_STEPS bm)

/-! ### Names of pools and fee tiers -/

/-- `<` of Rust strings: byte by byte -/
def bytesLt : Bytes → Bytes → Bool
  | _, [] => false
  | [], _ :: _ => true
  | a :: l, b :: m => decide (a < b) || (decide (a = b) && bytesLt l m)

/-- `sdk/src/wasm/custom.rs` 83-86 `is_token_x` -/
def isTokenX (candidate other : Bytes) : Bool := bytesLt candidate other

/-- `sdk/src/wasm/storage/pool_key.rs` 21-43 `PoolKey::new`: the texts of the two tokens in order -/
def newPoolKey (token0 token1 : Bytes) : M (Bytes × Bytes) :=
  if token0 = token1 then .error (.inv .TokensAreSame)
  else if isTokenX token0 token1 then .ok (token0, token1) else .ok (token1, token0)

/-- `sdk/src/wasm/storage/fee_tier.rs` 34-39 `new_fee_tier`: the spacing, a `u64`, is cut to 16 bits -/
def newFeeTier (fee tickSpacing : Nat) : M FeeTier := FeeTier.new fee (tickSpacing % 2 ^ 16)

/-- `sdk/src/utils.ts` 726-728 `calculateFeeTierWithLinearRatio` with `to_percentage(1, 4)` -/
def calculateFeeTierWithLinearRatio (tickCount : Nat) : M FeeTier := newFeeTier (tickCount * 10 ^ 8) tickCount

end Verif.Sdk
