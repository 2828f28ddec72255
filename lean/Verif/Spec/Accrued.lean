import Verif.Spec.Book
import Mathlib.Data.Rat.Defs
import Mathlib.Algebra.Order.Field.Rat

/-!
# Specification: fees accrued to positions, without rounding
-/

namespace Verif.Spec

/-- fees accrued to a position in a token (`true`: X) since they were last recorded: the advance of the
growth inside its range, modulo 2^128, in units of 10^-28, times its liquidity, in units of 10^-5 -/
def accrued (tok : Bool) (w : FeeWorld) (q : Position) : ℚ :=
  match (if tok then w.insideX q.lowerTickIndex q.upperTickIndex
    else w.insideY q.lowerTickIndex q.upperTickIndex) with
  | some i => ((i + 2 ^ 128 - if tok then q.feeGrowthInsideX else q.feeGrowthInsideY) % 2 ^ 128 : Nat) *
      q.liquidity / 10 ^ 33
  | none => 0

/-- the sum over the positions of a pool -/
def poolAccrued (s : Inv) (key : PoolKey) (pool : Pool) (tok : Bool) : ℚ :=
  s.positions.map.sum fun _ q => if q.poolKey = key then accrued tok (world s key pool) q else 0

end Verif.Spec
