import Verif.Base

/-!
# Model of `calc/math` (decimal types, price math, logarithm, fee growth)

A decimal value is its raw integer. Scales and widths:

* `Liquidity`   `calc/math/types/liquidity.rs`    scale 5,  256 bit, big type 512 bit
* `TokenAmount` `calc/math/types/token_amount.rs` scale 0,  256 bit, big type 512 bit
* `Percentage`  `calc/math/types/percentage.rs`   scale 12, 128 bit, big type 256 bit
* `FixedPoint`  `calc/math/types/fixed_point.rs`  scale 12, 128 bit, big type 192 bit
* `SqrtPrice`   `calc/math/types/sqrt_price.rs`   scale 24, 128 bit, big type 384 bit
* `FeeGrowth`   `calc/math/types/fee_growth.rs`   scale 28, 128 bit, big type 256 bit
-/

namespace Verif

/-- `Liquidity::one()` -/
def liqOne : Nat := 100000
/-- `Percentage::one()` -/
def pctOne : Nat := 1000000000000
/-- `FixedPoint::one()` -/
def fpOne : Nat := 1000000000000
/-- `SqrtPrice::one()` -/
def spOne : Nat := 1000000000000000000000000
/-- `FeeGrowth::one()` -/
def fgOne : Nat := 10000000000000000000000000000

/-- `calc/math/consts.rs`: `MAX_TICK` (`MIN_TICK = -MAX_TICK`) -/
def MAX_TICK : Int := 221818
/-- `calc/math/consts.rs`: `MIN_TICK` -/
def MIN_TICK : Int := -221818
/-- `calc/math/consts.rs`: `MAX_SQRT_PRICE` -/
def MAX_SQRT_PRICE : Nat := 65535383934512647000000000000
/-- `calc/math/consts.rs`: `MIN_SQRT_PRICE` -/
def MIN_SQRT_PRICE : Nat := 15258932000000000000
/-- `calc/math/consts.rs`: `TICK_SEARCH_RANGE` -/
def TICK_SEARCH_RANGE : Int := 256

/-! ## Decimal operations -/

/-- `BigOps::big_mul`, `decimal_core/src/big_ops.rs` 24-36; `big` is the width of the big type,
`w` that of the result, `one` the one of the right operand. -/
def bigMul (big w one : Nat) (a b : Nat) : M Nat := do
  let p ← mulC big .panic a b
  fit w .panic (p / one)

/-- `BigOps::big_mul_up`, `decimal_core/src/big_ops.rs` 38-52 -/
def bigMulUp (big w one : Nat) (a b : Nat) : M Nat := do
  let p ← mulC big .panic a b
  let q ← addC big .panic p (one - 1)
  fit w .panic (q / one)

/-- `ToValue::big_mul_to_value`, `decimal_core/src/by_number.rs` 82-92 -/
def bigMulToValue (big one : Nat) (a b : Nat) : M Nat := do
  let p ← mulC big .panic a b
  pure (p / one)

/-- `ToValue::big_mul_to_value_up`, `decimal_core/src/by_number.rs` 94-108 -/
def bigMulToValueUp (big one : Nat) (a b : Nat) : M Nat := do
  let p ← mulC big .panic a b
  let q ← addC big .panic p (one - 1)
  pure (q / one)

/-- `TokenAmount::big_mul(Percentage)` -/
def tokMulPct (a p : Nat) : M Nat := bigMul 512 256 pctOne a p
/-- `TokenAmount::big_mul_up(Percentage)` -/
def tokMulPctUp (a p : Nat) : M Nat := bigMulUp 512 256 pctOne a p

/-! ## Price of a tick -/

/-- `FixedPoint * FixedPoint`, `decimal_core/src/ops.rs` 43-64 -/
def fpMul (a b : Nat) : M Nat := do
  let p ← mulC 128 .panic a b
  pure (p / fpOne)

/-- the masks and factors in `calculate_sqrt_price`, `calc/math/types/sqrt_price.rs` 156-209 -/
def priceTable : List (Nat × Nat) :=
  [(0x1, 1000049998750), (0x2, 1000100000000), (0x4, 1000200010000), (0x8, 1000400060004),
   (0x10, 1000800280056), (0x20, 1001601200560), (0x40, 1003204964963), (0x80, 1006420201726),
   (0x100, 1012881622442), (0x200, 1025929181080), (0x400, 1052530684591),
   (0x800, 1107820842005), (0x1000, 1227267017980), (0x2000, 1506184333421),
   (0x4000, 2268591246242), (0x8000, 5146506242525), (0x10000, 26486526504348),
   (0x20000, 701536086265529)]

/-- `i32::abs` in a build without overflow checks: `i32::MIN` is its own absolute value -/
def absI32 (t : Int) : Int := if t = -2147483648 then t else (t.natAbs : Int)

/-- the two's complement bit pattern of an `i32` -/
def bitsI32 (t : Int) : Nat := (t.emod 4294967296).toNat

/-- `calc/math/types/sqrt_price.rs` 146-222 `calculate_sqrt_price`. The eighteen `if`s are a fold
over `priceTable`. -/
def calculateSqrtPrice (tick : Int) : M Nat := do
  let t := absI32 tick
  failIf (t > MAX_TICK) .track
  let sp ← priceTable.foldlM
    (fun sp mc => if bitsI32 t &&& mc.1 ≠ 0 then fpMul sp mc.2 else pure sp) fpOne
  if tick ≥ 0 then
    mulC 128 .track sp 1000000000000
  else do
    let n ← mulC 128 .track fpOne fpOne
    let q ← divC .track n sp
    mulC 128 .track q 1000000000000

/-- `calc/math/types/sqrt_price.rs` 224-227 `get_max_tick` -/
def getMaxTick (spacing : Nat) : Int := MAX_TICK.tdiv spacing * spacing
/-- `calc/math/types/sqrt_price.rs` 229-232 `get_min_tick` -/
def getMinTick (spacing : Nat) : Int := MIN_TICK.tdiv spacing * spacing
/-- `calc/math/types/sqrt_price.rs` 234-237 `get_max_sqrt_price` -/
def getMaxSqrtPrice (spacing : Nat) : M Nat := unwrap (calculateSqrtPrice (getMaxTick spacing))
/-- `calc/math/types/sqrt_price.rs` 239-242 `get_min_sqrt_price` -/
def getMinSqrtPrice (spacing : Nat) : M Nat := unwrap (calculateSqrtPrice (getMinTick spacing))

/-- `calc/math/types/sqrt_price.rs` 123-144 `check_tick_to_sqrt_price_relationship` -/
def checkTickToSqrtPriceRelationship (tick : Int) (spacing : Nat) (sqrtPrice : Nat) : M Bool := do
  if tick + spacing > MAX_TICK then
    let maxSp ← calculateSqrtPrice (getMaxTick spacing)
    pure (decide (sqrtPrice = maxSp))
  else
    let lo ← calculateSqrtPrice tick
    let hi ← calculateSqrtPrice (tick + spacing)
    pure (!(decide (sqrtPrice ≥ hi) || decide (sqrtPrice < lo)))

/-! ## Logarithm and tick lookup -/

/-- `calc/math/log.rs` 19-21 `sqrt_price_to_x32` -/
def sqrtPriceToX32 (p : Nat) : Nat := p * 4294967296 / spOne

/-- `calc/math/log.rs` 23-28 `align_tick_to_spacing` -/
def alignTick (tick spacing : Int) : Int :=
  if tick > 0 then tick - tick.tmod spacing else tick - tick.emod spacing

/-- `calc/math/log.rs` 30-58 `log2_floor_x32` -/
def log2FloorX32 (x : Nat) : Nat :=
  let (x, m) := if x ≥ 4294967296 then (x >>> 32, 32) else (x, 0)
  let (x, m) := if x ≥ 65536 then (x >>> 16, m ||| 16) else (x, m)
  let (x, m) := if x ≥ 256 then (x >>> 8, m ||| 8) else (x, m)
  let (x, m) := if x ≥ 16 then (x >>> 4, m ||| 4) else (x, m)
  let (x, m) := if x ≥ 4 then (x >>> 2, m ||| 2) else (x, m)
  if x ≥ 2 then m ||| 1 else m

/-- `calc/math/log.rs` 74-82: the `while delta > LOG2_ACCURACY` loop. `n` bounds the number of
iterations; it is called with 32, the loop body runs 15 times. -/
def logLoop : Nat → Nat → Nat → Nat → Nat
  | 0, _, _, result => result
  | n + 1, delta, y, result =>
    if delta > 65536 then
      let y := y * y / 4294967296
      if y ≥ 8589934592 then logLoop n (delta >>> 1) (y >>> 1) (result ||| delta)
      else logLoop n (delta >>> 1) y result
    else result

/-- `calc/math/log.rs` 60-84 `log2_iterative_approximation_x32` -/
def log2X32 (x : Nat) : Bool × Nat :=
  let sign := !(decide (x < 4294967296))
  let x := if x < 4294967296 then 18446744073709551616 / (x + 1) else x
  let fl := log2FloorX32 (x >>> 32)
  let result := fl <<< 32
  let y := x >>> fl
  if y = 4294967296 then (sign, result)
  else (sign, logLoop 32 2147483648 y result)

/-- `calc/math/log.rs` 94-106: the two candidate ticks -/
def tickCandidates (p : Nat) : Bool × Int × Int :=
  let r := log2X32 (sqrtPriceToX32 p)
  if r.1 then
    let a : Int := ((r.2 / 309801 : Nat) : Int)
    (true, a, a + 1)
  else
    let a : Int := (((r.2 + 300000) / 309801 : Nat) : Int)
    (false, -a, -a - 1)

/-- `calc/math/log.rs` 86-135 `get_tick_at_sqrt_price` -/
def getTickAtSqrtPrice (p : Nat) (spacing : Nat) : M Int := do
  failIf (p > MAX_SQRT_PRICE ∨ p < MIN_SQRT_PRICE) .track
  let c := tickCandidates p
  let nearer := c.2.1
  let farther := c.2.2
  let fartherS := alignTick farther spacing
  let nearerS := alignTick nearer spacing
  if fartherS = nearerS then
    pure nearerS
  else do
    let accurate ←
      (if c.1 then do
        let fp ← calculateSqrtPrice farther
        pure (if p ≥ fp then fartherS else nearerS)
      else do
        let np ← calculateSqrtPrice nearer
        pure (if np ≤ p then nearerS else fartherS))
    pure (if spacing > 1 then alignTick accurate spacing else accurate)

/-! ## Token deltas and swap step -/

/-- `calc/math/types/sqrt_price.rs` 16-40 `big_div_values_to_token` -/
def bigDivValuesToToken (nominator denominator : Nat) : M Nat := do
  let m ← mulC 448 .track nominator spOne
  let q ← divC .track m denominator
  let i ← fit 384 .track q
  fit 256 .track (i / spOne)

/-- `calc/math/types/sqrt_price.rs` 42-70 `big_div_values_to_token_up`; `denominator - 1` is an
unchecked-looking `U448` subtraction that panics on underflow. -/
def bigDivValuesToTokenUp (nominator denominator : Nat) : M Nat := do
  let m ← mulC 448 .track nominator spOne
  let d1 ← subC .panic denominator 1
  let s ← addC 448 .track m d1
  let q ← divC .track s denominator
  let i ← fit 384 .track q
  let r ← addC 384 .track i (spOne - 1)
  fit 256 .track (r / spOne)

/-- `calc/math/types/sqrt_price.rs` 85-98 `checked_big_div_values` -/
def checkedBigDivValues (nominator denominator : Nat) : M Nat := do
  let m ← mulC 448 .track nominator spOne
  let q ← divC .track m denominator
  fit 128 .track q

/-- `calc/math/types/sqrt_price.rs` 100-120 `checked_big_div_values_up` -/
def checkedBigDivValuesUp (nominator denominator : Nat) : M Nat := do
  let m ← mulC 448 .track nominator spOne
  let d1 ← subC .track denominator 1
  let s ← addC 448 .track m d1
  let q ← divC .track s denominator
  fit 128 .track q

/-- the absolute difference computed at `calc/math/clamm.rs` 140-144 and 165-169 -/
def absDiff (a b : Nat) : Nat := if a > b then a - b else b - a

/-- `calc/math/clamm.rs` 134-157 `get_delta_x` -/
def getDeltaX (a b L : Nat) (up : Bool) : M Nat := do
  let nominator ← bigMulToValue 384 liqOne (absDiff a b) L
  if up then do
    let d ← bigMulToValue 384 spOne a b
    bigDivValuesToTokenUp nominator d
  else do
    let d ← bigMulToValueUp 384 spOne a b
    bigDivValuesToToken nominator d

/-- `calc/math/clamm.rs` 159-188 `get_delta_y` -/
def getDeltaY (a b L : Nat) (up : Bool) : M Nat := do
  if up then do
    let v ← bigMulToValueUp 384 liqOne (absDiff a b) L
    let s ← addC 384 .track v (spOne - 1)
    fit 256 .track (s / spOne)
  else do
    let v ← bigMulToValue 384 liqOne (absDiff a b) L
    fit 256 .track (v / spOne)

/-- `SqrtPrice::checked_from_decimal_to_value(liquidity)`, `decimal_core/src/factories.rs` 117-129
(scale 24 - 5) -/
def liqToPriceValue (L : Nat) : M Nat := mulC 384 .panic L 10000000000000000000

/-- `SqrtPrice::checked_from_decimal_to_value(token_amount)`, same place (scale 24 - 0) -/
def tokToPriceValue (a : Nat) : M Nat := mulC 384 .panic a 1000000000000000000000000

/-- `calc/math/clamm.rs` 222-244 `get_next_sqrt_price_x_up` -/
def getNextSqrtPriceXUp (p L x : Nat) (addX : Bool) : M Nat :=
  if x = 0 then .ok p
  else do
    let priceDelta ← liqToPriceValue L
    let px ← bigMulToValue 384 1 p x
    let den ← (if addX then addC 384 .track priceDelta px else subC .track priceDelta px)
    let num ← bigMulToValueUp 384 liqOne p L
    checkedBigDivValuesUp num den

/-- `calc/math/clamm.rs` 246-271 `get_next_sqrt_price_y_down` -/
def getNextSqrtPriceYDown (p L y : Nat) (addY : Bool) : M Nat := do
  let num ← tokToPriceValue y
  let den ← liqToPriceValue L
  if addY then do
    let q ← checkedBigDivValues num den
    addC 128 .track p q
  else do
    let q ← checkedBigDivValuesUp num den
    subC .track p q

/-- `calc/math/clamm.rs` 190-204 `get_next_sqrt_price_from_input` -/
def getNextSqrtPriceFromInput (p L amount : Nat) (xToY : Bool) : M Nat :=
  if xToY then getNextSqrtPriceXUp p L amount true else getNextSqrtPriceYDown p L amount true

/-- `calc/math/clamm.rs` 206-220 `get_next_sqrt_price_from_output` -/
def getNextSqrtPriceFromOutput (p L amount : Nat) (xToY : Bool) : M Nat :=
  if xToY then getNextSqrtPriceYDown p L amount false else getNextSqrtPriceXUp p L amount false

/-- `calc/math/clamm.rs` 7-13 `SwapResult` -/
structure SwapResult where
  nextSqrtPrice : Nat
  amountIn : Nat
  amountOut : Nat
  feeAmount : Nat
  deriving DecidableEq, Repr

/-- `calc/math/clamm.rs` 39-55: next price and provisional input for a given input amount -/
def stepByIn (cur target L amount : Nat) (fee : Nat) (xToY : Bool) : M (Nat × Nat) := do
  let k ← subC .panic pctOne fee
  let after ← tokMulPct amount k
  let ain ← (if xToY then getDeltaX target cur L true else getDeltaY cur target L true)
  let next ← (if after ≥ ain then pure target else getNextSqrtPriceFromInput cur L after xToY)
  pure (next, ain)

/-- `calc/math/clamm.rs` 56-74: next price and provisional output for a given output amount -/
def stepByOut (cur target L amount : Nat) (xToY : Bool) : M (Nat × Nat) := do
  let aout ← (if xToY then getDeltaY target cur L false else getDeltaX cur target L false)
  let next ← (if amount ≥ aout then pure target else getNextSqrtPriceFromOutput cur L amount xToY)
  pure (next, aout)

/-- `calc/math/clamm.rs` 15-132 `compute_swap_step` -/
def computeSwapStep (cur target L amount : Nat) (byIn : Bool) (fee : Nat) : M SwapResult :=
  if L = 0 then .ok ⟨target, 0, 0, 0⟩
  else do
    let xToY := decide (cur ≥ target)
    let r ← (if byIn then do
        let (n, i) ← stepByIn cur target L amount fee xToY
        pure (n, i, 0)
      else do
        let (n, o) ← stepByOut cur target L amount xToY
        pure (n, 0, o) : M (Nat × Nat × Nat))
    let next := r.1
    let notMax := decide (target ≠ next)
    let ain ←
      (if notMax || !byIn then
        (if xToY then getDeltaX next cur L true else getDeltaY cur next L true)
      else pure r.2.1)
    let aout ←
      (if notMax || byIn then
        (if xToY then getDeltaY next cur L false else getDeltaX cur next L false)
      else pure r.2.2)
    let aout := if !byIn && decide (aout > amount) then amount else aout
    let feeAmount ←
      (if byIn && decide (next ≠ target) then subC .panic amount ain
      else tokMulPctUp ain fee)
    pure ⟨next, ain, aout, feeAmount⟩

/-- `calc/math/clamm.rs` 273-319 `calculate_amount_delta` -/
def calculateAmountDelta (curTick : Int) (curPrice L : Nat) (sign : Bool) (upper lower : Int) :
    M (Nat × Nat × Bool) := do
  failIf (upper < lower) .track
  if curTick < lower then do
    let pl ← calculateSqrtPrice lower
    let pu ← calculateSqrtPrice upper
    let x ← getDeltaX pl pu L sign
    pure (x, 0, false)
  else if curTick < upper then do
    let pu ← calculateSqrtPrice upper
    let x ← getDeltaX curPrice pu L sign
    let pl ← calculateSqrtPrice lower
    let y ← getDeltaY pl curPrice L sign
    pure (x, y, true)
  else do
    let pl ← calculateSqrtPrice lower
    let pu ← calculateSqrtPrice upper
    let y ← getDeltaY pl pu L sign
    pure (0, y, false)

/-- `calc/math/clamm.rs` 321-341 `is_enough_amount_to_change_price` -/
def isEnoughAmountToChangePrice (amount p L fee : Nat) (byIn xToY : Bool) : M Bool :=
  if L = 0 then .ok true
  else do
    let next ←
      (if byIn then do
        let k ← subC .panic pctOne fee
        let after ← tokMulPct amount k
        getNextSqrtPriceFromInput p L after xToY
      else getNextSqrtPriceFromOutput p L amount xToY)
    pure (decide (p ≠ next))

/-- `calc/math/clamm.rs` 343-347 `calculate_max_liquidity_per_tick`; a zero spacing divides by
zero in the code and is excluded by `FeeTier::new`. -/
def calculateMaxLiquidityPerTick (spacing : Nat) : Nat := (2 ^ 256 - 1) / (443637 / spacing)

/-- `calc/math/clamm.rs` 358-370 `check_tick` -/
def checkTick (tick : Int) (spacing : Nat) : M Unit := do
  failIf (tick.tmod spacing ≠ 0) .track
  failIf (tick > getMaxTick spacing ∨ tick < getMinTick spacing) .track
  pure ()

/-- `calc/math/clamm.rs` 349-357 `check_ticks` -/
def checkTicks (lower upper : Int) (spacing : Nat) : M Unit := do
  failIf (lower > upper) .track
  checkTick lower spacing
  checkTick upper spacing

/-- `calc/math/clamm.rs` 371-376 `calculate_min_amount_out` -/
def calculateMinAmountOut (expected slippage : Nat) : M Nat := do
  let k ← subC .panic pctOne slippage
  tokMulPctUp expected k

/-! ## Fee growth -/

/-- `calc/math/types/fee_growth.rs` 12-18 `unchecked_add` -/
def fgAdd (a b : Nat) : Nat :=
  if b > (2 ^ 128 - 1) - a then (b - ((2 ^ 128 - 1) - a)) - 1 else a + b

/-- `calc/math/types/fee_growth.rs` 20-26 `unchecked_sub` -/
def fgSub (a b : Nat) : Nat :=
  if b > a then (2 ^ 128 - 1) - (b - a) + 1 else a - b

/-- `calc/math/types/fee_growth.rs` 28-41 `from_fee` -/
def fgFromFee (L fee : Nat) : M Nat := do
  let a ← mulC 384 .track fee fgOne
  let b ← mulC 384 .track a liqOne
  let c ← divC .track b L
  fit 128 .track c

/-- `calc/math/types/fee_growth.rs` 43-56 `to_fee` -/
def fgToFee (g L : Nat) : M Nat := do
  let a ← mulC 384 .track g L
  fit 256 .track (a / liqOne / fgOne)

/-- one token's part of `calculate_fee_growth_inside`, `calc/math/types/fee_growth.rs` 60-107 -/
def feeGrowthInside1 (lower : Int) (lowerOut : Nat) (upper : Int) (upperOut : Nat) (cur : Int)
    (global : Nat) : Nat :=
  let below := if cur ≥ lower then lowerOut else fgSub global lowerOut
  let above := if cur < upper then upperOut else fgSub global upperOut
  fgSub (fgSub global below) above

end Verif
