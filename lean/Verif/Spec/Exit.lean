import Verif.Spec.Book
import Verif.Spec.Curve

/-!
# Specification: what a position is worth
-/

namespace Verif.Spec

/-- the pool's price, cut off at the ends of a range with the prices `pl`, `pu` -/
def cutPrice (pool : Pool) (lo hi : Int) (pl pu : Nat) : Nat :=
  if pool.currentTickIndex < lo then pl
  else if pool.currentTickIndex < hi then pool.sqrtPrice
  else pu

/-- `wx`, `wy` are the exact amounts of the two tokens on the curve in the position's range, and `fx`, `fy`
the fees it has accrued: the growth inside the range since it was last recorded (modulo 2^128) times the
liquidity, rounded down. -/
def Worth (s : Inv) (p : Position) (pool : Pool) (wx wy : ℚ) (fx fy : Nat) : Prop :=
  ∃ pl pu ix iy, calculateSqrtPrice p.lowerTickIndex = .ok pl ∧ calculateSqrtPrice p.upperTickIndex = .ok pu ∧
    (world s p.poolKey pool).insideX p.lowerTickIndex p.upperTickIndex = some ix ∧
    (world s p.poolKey pool).insideY p.lowerTickIndex p.upperTickIndex = some iy ∧
    wx = amountX (cutPrice pool p.lowerTickIndex p.upperTickIndex pl pu) pu p.liquidity ∧
    wy = amountY pl (cutPrice pool p.lowerTickIndex p.upperTickIndex pl pu) p.liquidity ∧
    fx = (ix + (2 ^ 128 - p.feeGrowthInsideX)) % 2 ^ 128 * p.liquidity / 10 ^ 33 ∧
    fy = (iy + (2 ^ 128 - p.feeGrowthInsideY)) % 2 ^ 128 * p.liquidity / 10 ^ 33

end Verif.Spec
