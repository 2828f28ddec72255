import Verif.Spec.Book

/-!
# The market of a pool: what a trade may depend on (C98)
-/

namespace Verif.Spec

/-- the pool `k` of `s` and the pool `k'` of `s'` have the same fee and spacing, price, current tick and active
liquidity, and the same ticks with the same net liquidity -/
structure SameMarket (s : Inv) (k : PoolKey) (s' : Inv) (k' : PoolKey) : Prop where
  tier : k'.feeTier = k.feeTier
  pool : Option.Rel (fun p q : Pool => q.sqrtPrice = p.sqrtPrice ∧ q.currentTickIndex = p.currentTickIndex ∧
    q.liquidity = p.liquidity) (s.pools.get k) (s'.pools.get k')
  ticks : ∀ i, Option.Rel (fun t u : Tick => netLiq u = netLiq t) (s.ticks.get (k, i)) (s'.ticks.get (k', i))

/-- the same trade: amounts, fee, prices and the ticks passed -/
structure SameDeal (r r' : CalculateSwapResult) : Prop where
  amountIn : r'.amountIn = r.amountIn
  amountOut : r'.amountOut = r.amountOut
  fee : r'.fee = r.fee
  start : r'.startSqrtPrice = r.startSqrtPrice
  target : r'.targetSqrtPrice = r.targetSqrtPrice
  ticks : r'.ticks.map (·.index) = r.ticks.map (·.index)

end Verif.Spec
