import Verif.Spec.TickSet
import Verif.Model.Service

/-! # Specification: a swap in several parts -/

namespace Verif.Spec
open Verif.Service

/-- several swaps in the same direction, one after the other, and the sum of what they pay -/
def inParts (env : Env) (key : PoolKey) (xToY : Bool) (limit : Nat) : List Nat → Inv → M (Inv × Nat)
  | [], s => .ok (s, 0)
  | a :: l, s => do
    let r ← swap env s key xToY a true limit
    let t ← inParts env key xToY limit l r.1
    pure (t.1, r.2.amountOut + t.2)

/-- several requests for given amounts of Y against X, one after the other, and the sum of what they cost -/
def askedInParts (env : Env) (key : PoolKey) (limit : Nat) : List Nat → Inv → M (Inv × Nat)
  | [], s => .ok (s, 0)
  | a :: l, s => do
    let r ← swap env s key true a false limit
    let t ← askedInParts env key limit l r.1
    pure (t.1, r.2.amountIn + t.2)

/-- the price of a pool -/
def priceNow (s : Inv) (key : PoolKey) : Nat := ((s.pools.get key).map (·.sqrtPrice)).getD 0

/-- Between the tick `cur` and the price `b` there is no initialised tick, and `b` is not further away than the program
looks in one step. -/
structure Border (s : Inv) (key : PoolKey) (xToY : Bool) (cur : Int) (b : Nat) : Prop where
  ticks : ∀ i w, (s.ticks.get (key, i)).isSome → calculateSqrtPrice i = .ok w →
    if xToY then i ≤ cur → w ≤ b else cur < i → b ≤ w
  near : ∃ j w, Grid key.feeTier.tickSpacing j ∧ calculateSqrtPrice j = .ok w ∧
    if xToY then cur - 256 * key.feeTier.tickSpacing ≤ j ∧ w ≤ b else j ≤ cur + 256 * key.feeTier.tickSpacing ∧ b ≤ w

/-- the price `q` is on the near side of `b` -/
def Before (xToY : Bool) (b q : Nat) : Prop := if xToY then b < q else q < b

end Verif.Spec
