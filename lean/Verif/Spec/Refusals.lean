import Verif.Spec.Exit
import Verif.Spec.Collections

/-! # Specification: what the reasons given for a refused call about a position mean (C110) -/

namespace Verif.Spec
open Verif.Service

/-- what the reason says of a request to create a position -/
def CreateReason (s : Inv) (who : ActorId) (key : PoolKey) (lower upper : Int) (delta low high : Nat) : InvErr → Prop
  | .ZeroLiquidity => delta = 0
  | .InvalidTickIndex => delta ≠ 0 ∧ lower = upper
  | .PoolNotFound => delta ≠ 0 ∧ lower ≠ upper ∧ s.pools.get key = none
  | .PriceLimitReached => ∃ pool, s.pools.get key = some pool ∧ (pool.sqrtPrice < low ∨ high < pool.sqrtPrice)
  | .NoBalanceForTheToken => ∃ pool pl pu, s.pools.get key = some pool ∧ low ≤ pool.sqrtPrice ∧ pool.sqrtPrice ≤ high ∧
      calculateSqrtPrice lower = .ok pl ∧ calculateSqrtPrice upper = .ok pu ∧
      ((s.balances.get (who, key.tokenX) = none ∧ pool.currentTickIndex < upper) ∨
       (s.balances.get (who, key.tokenY) = none ∧ 0 < amountY pl (cutPrice pool lower upper pl pu) delta))
  | .FailedToChangeTokenBalance => ∃ pool pl pu, s.pools.get key = some pool ∧ low ≤ pool.sqrtPrice ∧
      pool.sqrtPrice ≤ high ∧ calculateSqrtPrice lower = .ok pl ∧ calculateSqrtPrice upper = .ok pu ∧
      ((pool.currentTickIndex < upper ∧ (bal s.balances who key.tokenX : ℚ) <
          amountX (cutPrice pool lower upper pl pu) pu delta * (1 + 1 / (23 * 10 ^ 13)) + 1) ∨
       (bal s.balances who key.tokenY : ℚ) < amountY pl (cutPrice pool lower upper pl pu) delta)
  | _ => False

/-- what the reason says of a request to pay out a position, with what is on the curve (`all`) or its fees only -/
def PayReason (s : Inv) (who : ActorId) (index : Nat) (all : Bool) : InvErr → Prop
  | .PositionNotFound => s.positions.map.get (who, index) = none
  | .FailedToChangeTokenBalance => ∃ p pool wx wy fx fy, s.positions.map.get (who, index) = some p ∧
      s.pools.get p.poolKey = some pool ∧ Worth s p pool wx wy fx fy ∧
      (2 ^ 256 ≤ bal s.balances who p.poolKey.tokenX + (if all then wx else 0) + fx ∨
       2 ^ 256 ≤ bal s.balances who p.poolKey.tokenY + (if all then wy else 0) + fy)
  | _ => False

end Verif.Spec
