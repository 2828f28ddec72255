import Verif.Spec.Book
import Verif.Spec.TickSet
import Verif.Spec.Collections

/-! # Specification: what the reasons given for a refused swap mean (C109) -/

namespace Verif.Spec
open Verif.Service

/-- the limit is beyond the end of the grid: above the last tick, or below the last but one, up to 65536 units -/
def PastLast (sp : Nat) (x : Bool) (limit : Nat) : Prop :=
  ∃ i p, Grid sp i ∧ calculateSqrtPrice i = .ok p ∧
    if x then (∀ j, Grid sp j → i ≤ j + sp) ∧ limit ≤ p + 65536 else (∀ j, Grid sp j → j ≤ i) ∧ p ≤ limit

/-- what the reason says of the request and of the pool asked -/
def Reason (s : Inv) (key : PoolKey) (xToY : Bool) (amount : Nat) (byIn : Bool) (limit : Nat) : InvErr → Prop
  | .AmountIsZero => amount = 0
  | .PoolNotFound => s.pools.get key = none
  | .WrongLimit => ∃ pool, s.pools.get key = some pool ∧
      if xToY then pool.sqrtPrice ≤ limit else limit ≤ pool.sqrtPrice
  | .PriceLimitReached => ∃ pool, s.pools.get key = some pool ∧
      (if xToY then limit < pool.sqrtPrice else pool.sqrtPrice < limit) ∧
      ∃ i p, Grid key.feeTier.tickSpacing i ∧ calculateSqrtPrice i = .ok p ∧ if xToY then p ≤ limit else limit ≤ p
  | .TickLimitReached => PastLast key.feeTier.tickSpacing xToY limit
  | .NoGainSwap => byIn = true ∧ amount ≠ 0
  | _ => False

/-- the reasons that concern the balances of the caller, who would pay `paid` and get `got` -/
def ReasonBalance (b : Balances) (who tin tout : ActorId) (paid got : Nat) : InvErr → Prop
  | .NoBalanceForTheToken => b.get (who, tin) = none ∧ paid ≠ 0
  | .FailedToChangeTokenBalance => bal b who tin < paid ∨ 2 ^ 256 ≤ bal b who tout + got
  | _ => False

end Verif.Spec
