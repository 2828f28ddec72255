import Verif.Spec.Book

/-!
# The same market with a lower fee (C99)
-/

namespace Verif.Spec

/-- the pool `k'` of `s'` has the spacing, price, current tick, active liquidity and ticks, with the same net liquidity,
of the pool `k` of `s`, and a fee that is not higher -/
structure LowerFee (s : Inv) (k : PoolKey) (s' : Inv) (k' : PoolKey) : Prop where
  fee : k'.feeTier.fee ≤ k.feeTier.fee
  spacing : k'.feeTier.tickSpacing = k.feeTier.tickSpacing
  pool : Option.Rel (fun p q : Pool => q.sqrtPrice = p.sqrtPrice ∧ q.currentTickIndex = p.currentTickIndex ∧
    q.liquidity = p.liquidity) (s.pools.get k) (s'.pools.get k')
  ticks : ∀ i, Option.Rel (fun t u : Tick => netLiq u = netLiq t) (s.ticks.get (k, i)) (s'.ticks.get (k', i))

end Verif.Spec
