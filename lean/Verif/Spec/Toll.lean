import Verif.Spec.Market

/-!
# What the protocol has taken in a pool (C122)
-/

namespace Verif.Spec

/-- the protocol's part of the fees of the pool that is still to be collected, of the token X or of the token Y -/
def toll (s : Inv) (k : PoolKey) (x : Bool) : Int :=
  match s.pools.get k with
  | some p => if x then p.feeProtocolTokenX else p.feeProtocolTokenY
  | none => 0

/-- an order: direction, amount, whether the amount is the input, limit of the price -/
structure Order where
  xToY : Bool
  amount : Nat
  byIn : Bool
  limit : Nat

/-- the orders are executed in the pool one after the other, all of them, by anybody at any time -/
inductive Executed (k : PoolKey) : Inv → List Order → Inv → Prop
  | none {s : Inv} : Executed k s [] s
  | next {s t u : Inv} {env : Env} {r : CalculateSwapResult} {o : Order} {l : List Order} :
      Service.swap env s k o.xToY o.amount o.byIn o.limit = .ok (t, r) → Executed k t l u → Executed k s (o :: l) u

end Verif.Spec
