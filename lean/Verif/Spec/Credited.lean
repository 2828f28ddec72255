import Verif.Spec.Accrued
import Verif.Spec.Held
import Verif.Spec.Curve

/-!
# Specification: what a pool's positions and the protocol are credited with
-/

namespace Verif.Spec

/-- what the positions of a pool have on the curve and in fees, and the protocol in fees, in a token (`true`: X) -/
def credited (tok : Bool) (s : Inv) (key : PoolKey) : ℚ :=
  match s.pools.get key with
  | some pool => curveHeld tok s key pool.sqrtPrice + poolAccrued s key pool tok +
      if tok then pool.feeProtocolTokenX else pool.feeProtocolTokenY
  | none => 0

/-- the liquidity of all positions of a pool -/
def poolLiq (s : Inv) (key : PoolKey) : Nat :=
  s.positions.map.sum fun _ q => if q.poolKey = key then q.liquidity else 0

/-- what one unit of the price is worth, in the token a swap gives, to liquidity `L`: of Y, or of X at root price
`start`, with the rounding of a product there -/
def lastUnit (xToY : Bool) (start L : Nat) : ℚ :=
  if xToY then (L : ℚ) / 10 ^ 29 else (liq L + 1) / (10 ^ 24 * price start ^ 2)

/-- `M` is positive and no more than the liquidity at any tick that has some, and `amount`, shared out over the
liquidity `M`, leaves the growth of every position below 2^128 -/
def Roomy (tok : Bool) (s : Inv) (key : PoolKey) (pool : Pool) (amount M : Nat) : Prop :=
  0 < M ∧ (∀ t, activeLiq s key t ≠ 0 → M ≤ activeLiq s key t) ∧
  ∀ k q i, s.positions.map.get k = some q → q.poolKey = key →
    (if tok then (world s key pool).insideX q.lowerTickIndex q.upperTickIndex
      else (world s key pool).insideY q.lowerTickIndex q.upperTickIndex) = some i →
    (i + 2 ^ 128 - if tok then q.feeGrowthInsideX else q.feeGrowthInsideY) % 2 ^ 128 + amount * 10 ^ 33 / M + 1 < 2 ^ 128

end Verif.Spec
