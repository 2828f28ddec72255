import Verif.Spec.Apart
import Verif.Spec.Alike
import Verif.Spec.Book

/-! # Specification: states that are the same for everybody but one account -/

namespace Verif.Spec
open Verif.Service

/-- the same pool apart from the time of its last change -/
def SamePool (p q : Pool) : Prop := q = { p with lastTimestamp := q.lastTimestamp }

/-- the same tick with the same net change of liquidity; the stored sign may differ only if that change is zero -/
def SameTick (t u : Tick) : Prop := u = { t with sign := u.sign } ∧ netLiq u = netLiq t

/-- `t` is `s` for everybody but `o`: the same settings, pools, ticks and tick maps, and the same balances and positions
of everybody but `o`. -/
structure SameForOthers (o : ActorId) (s t : Inv) : Prop where
  admin : t.admin = s.admin
  protocolFee : t.protocolFee = s.protocolFee
  feeTiers : t.feeTiers = s.feeTiers
  poolKeys : t.poolKeys = s.poolKeys
  awaiting : ∀ k, t.awaiting.get k = s.awaiting.get k
  pool : ∀ k, Option.Rel SamePool (s.pools.get k) (t.pools.get k)
  tick : ∀ k, Option.Rel SameTick (s.ticks.get k) (t.ticks.get k)
  word : ∀ k, t.tickmap.get k = s.tickmap.get k
  length : ∀ a, a ≠ o → t.positions.getLength a = s.positions.getLength a
  position : ∀ a, a ≠ o → ∀ i, t.positions.get a i = s.positions.get a i
  balance : ∀ a, a ≠ o → ∀ k, t.balances.get (a, k) = s.balances.get (a, k)

/-- how much both accumulators grew within the range of a position since the values stored in it, as far as numbers of
128 bits tell -/
def unclaimed (s : Inv) (p : Position) : Option (Nat × Nat) := do
  let pool ← s.pools.get p.poolKey
  let x ← (world s p.poolKey pool).insideX p.lowerTickIndex p.upperTickIndex
  let y ← (world s p.poolKey pool).insideY p.lowerTickIndex p.upperTickIndex
  pure ((x + (2 ^ 128 - p.feeGrowthInsideX)) % 2 ^ 128, (y + (2 ^ 128 - p.feeGrowthInsideY)) % 2 ^ 128)

end Verif.Spec
