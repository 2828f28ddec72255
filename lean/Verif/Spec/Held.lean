import Verif.Spec.Book
import Verif.Spec.Curve

/-!
# Specification: what the positions of a pool hold on the curve
-/

namespace Verif.Spec

/-- exact amount of token X (`tok`), or of token Y, of a position on the curve when the pool is at price `P` -/
def curveHeldBy (tok : Bool) (P : Nat) (q : Position) : ℚ :=
  match calculateSqrtPrice q.lowerTickIndex, calculateSqrtPrice q.upperTickIndex with
  | .ok pl, .ok pu =>
    if tok then amountX (max pl (min P pu)) pu q.liquidity else amountY pl (max pl (min P pu)) q.liquidity
  | _, _ => 0

/-- the sum over all positions of the pool -/
def curveHeld (tok : Bool) (s : Inv) (key : PoolKey) (P : Nat) : ℚ :=
  s.positions.map.sum fun _ q => if q.poolKey = key then curveHeldBy tok P q else 0

end Verif.Spec
