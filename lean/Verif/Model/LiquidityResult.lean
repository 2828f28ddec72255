import Verif.Model.Math

/-!
# Model of `src/contracts/logic/liquidity_result.rs`

Liquidity affordable with an amount of one or both tokens. `sdk/src/wasm/math.rs` 31-213 is the same
code up to names. Subtraction of two `SqrtPrice`s panics on underflow, `U512`/`U256` operators panic
on overflow and on division by zero.
-/

namespace Verif.LiquidityResult

/-- `BigOps::big_div`, `decimal_core/src/big_ops.rs` 54-66 -/
def bigDiv (big w one : Nat) (a b : Nat) : M Nat := do
  let p ← mulC big .panic a one
  let q ← divC .panic p b
  fit w .panic q

/-- `LiquidityResult`, lines 9-14 -/
structure Both where
  x : Nat
  y : Nat
  l : Nat
  deriving DecidableEq, Repr

/-- `SingleTokenLiquidity`, lines 16-20 -/
structure Single where
  l : Nat
  amount : Nat
  deriving DecidableEq, Repr

/-- `calculate_x`, lines 245-262 -/
def calculateX (nominator denominator liquidity : Nat) (up : Bool) : M Nat := do
  let a ← bigMul 512 256 spOne liquidity nominator
  let common ← bigDiv 512 256 spOne a denominator
  if up then do
    let b ← addC 256 .panic common liqOne
    let c ← subC .panic b 1
    pure (c / liqOne)
  else pure (common / liqOne)

/-- `calculate_y`, lines 264-283 -/
def calculateY (diff liquidity : Nat) (up : Bool) : M Nat := do
  let p ← mulC 256 .panic diff (liquidity / liqOne)
  if up then do
    let a ← addC 256 .panic p spOne
    let b ← subC .panic a 1
    pure (b / spOne)
  else pure (p / spOne)

/-- `a.big_mul(b).big_div(SqrtPrice::from_integer(1))`, lines 132-133, 150-152, 233-234 -/
def priceProduct (a b : Nat) : M Nat := do
  let m ← bigMul 384 128 spOne a b
  bigDiv 384 128 spOne m spOne

/-- the liquidity expression of lines 135-143 and 154-160 -/
def liquidityOfX (x nominator denominator : Nat) : M Nat := do
  let a ← mulC 512 .panic x nominator
  let b ← mulC 512 .panic a liqOne
  let q ← divC .panic b denominator
  fit 256 .track q

/-- the liquidity expression of lines 208-216 and 224-232 -/
def liquidityOfY (y diff : Nat) : M Nat := do
  let a ← mulC 512 .panic y spOne
  let b ← mulC 512 .panic a liqOne
  let q ← divC .panic b diff
  fit 256 .track q

/-- `get_liquidity_by_x_sqrt_price`, lines 120-168 -/
def getLiquidityByXSqrtPrice (x lower upper current : Nat) (up : Bool) : M Single := do
  failIf (upper < current) .track
  if current < lower then do
    let n ← priceProduct lower upper
    let d ← subC .panic upper lower
    let l ← liquidityOfX x n d
    pure ⟨l, 0⟩
  else do
    let n ← priceProduct current upper
    let d ← subC .panic upper current
    let l ← liquidityOfX x n d
    let diff ← subC .panic current lower
    let y ← calculateY diff l up
    pure ⟨l, y⟩

/-- `get_liquidity_by_y_sqrt_price`, lines 194-243 -/
def getLiquidityByYSqrtPrice (y lower upper current : Nat) (up : Bool) : M Single := do
  failIf (current < lower) .track
  if upper ≤ current then do
    let diff ← subC .panic upper lower
    let l ← liquidityOfY y diff
    pure ⟨l, 0⟩
  else do
    let diff ← subC .panic current lower
    let l ← liquidityOfY y diff
    let d ← priceProduct current upper
    let n ← subC .panic upper current
    let x ← calculateX n d l up
    pure ⟨l, x⟩

/-- `get_liquidity_by_x`, lines 96-118 -/
def getLiquidityByX (x : Nat) (lower upper : Int) (current : Nat) (up : Bool) : M Single := do
  failIf (lower < -MAX_TICK ∨ upper > MAX_TICK) .track
  let pl ← calculateSqrtPrice lower
  let pu ← calculateSqrtPrice upper
  getLiquidityByXSqrtPrice x pl pu current up

/-- `get_liquidity_by_y`, lines 170-192 -/
def getLiquidityByY (y : Nat) (lower upper : Int) (current : Nat) (up : Bool) : M Single := do
  failIf (lower < -MAX_TICK ∨ upper > MAX_TICK) .track
  let pl ← calculateSqrtPrice lower
  let pu ← calculateSqrtPrice upper
  getLiquidityByYSqrtPrice y pl pu current up

/-- `get_liquidity`, lines 22-94 -/
def getLiquidity (x y : Nat) (lower upper : Int) (current : Nat) (up : Bool) : M Both := do
  failIf (lower < -MAX_TICK ∨ upper > MAX_TICK) .track
  let pl ← calculateSqrtPrice lower
  let pu ← calculateSqrtPrice upper
  if pu < current then do
    let r ← getLiquidityByYSqrtPrice y pl pu current up
    pure ⟨r.amount, y, r.l⟩
  else if current < pl then do
    let r ← getLiquidityByXSqrtPrice x pl pu current up
    pure ⟨x, r.amount, r.l⟩
  else do
    let ry ← getLiquidityByYSqrtPrice y pl pu current up
    let rx ← getLiquidityByXSqrtPrice x pl pu current up
    if ry.l < rx.l then pure ⟨ry.amount, rx.amount, ry.l⟩
    else pure ⟨ry.amount, rx.amount, rx.l⟩

end Verif.LiquidityResult
