import Verif.Spec.Queries

/-! # Specification: who is paid, and states that agree in all but balances -/

namespace Verif.Spec

/-- what a payment of `x` and `y` in the two tokens of a pool comes to in the token `t` -/
def paid (k : PoolKey) (x y : Nat) (t : ActorId) : Nat := (if t = k.tokenX then x else 0) + if t = k.tokenY then y else 0

/-- the balances of `s'` are those of `s` with the payment to `who`, and nothing else -/
def PaidTo (who : ActorId) (k : PoolKey) (x y : Nat) (s s' : Inv) : Prop :=
  ∀ w t, bal s'.balances w t = bal s.balances w t + if w = who then paid k x y t else 0

/-- the states agree in all but balances; the positions are compared as lists by owner -/
structure SameButBalances (s t : Inv) : Prop where
  settings : t.admin = s.admin ∧ t.protocolFee = s.protocolFee ∧ t.feeTiers = s.feeTiers
  pools : t.pools = s.pools
  keys : t.poolKeys = s.poolKeys
  ticks : t.ticks = s.ticks
  tickmap : t.tickmap = s.tickmap
  awaiting : t.awaiting = s.awaiting
  positions : ∀ L : Lists, Holds s L ↔ Holds t L

/-- `who` has room for a payment -/
def Room (who : ActorId) (k : PoolKey) (x y : Nat) (s : Inv) : Prop :=
  ∀ t, bal s.balances who t + paid k x y t < 2 ^ 256

end Verif.Spec
