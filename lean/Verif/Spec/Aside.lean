import Verif.Spec.Quiet

/-! # Specification: histories in which the price stays outside a range -/

namespace Verif.Spec
open Verif.Service

/-- the price of the position's pool is above (`up`) or below (otherwise) the position's range -/
def Beyond (p : Position) (up : Bool) (s : Inv) : Prop :=
  ∃ pool bound, s.pools.get p.poolKey = some pool ∧
    calculateSqrtPrice (if up then p.upperTickIndex else p.lowerTickIndex) = .ok bound ∧
    if up then bound < pool.sqrtPrice else pool.sqrtPrice < bound

/-- what can become of the state `s` while the account `o` does nothing, is given no position, and the price is on the
same side of the position's range after every call. Others do what they like, swaps in the pool included. Routes
through the pool are left out: they are series of swaps, between which the price may be anywhere. -/
inductive Aside (o : ActorId) (p : Position) (up : Bool) (s : Inv) : Inv → Prop
  | start : Beyond p up s → Aside o p up s s
  | call {t t' : Inv} {env : Env} {c : Call} : Aside o p up s t → step env t c = .ok t' → o ∉ parties env c →
      (∀ a e sl hops, c = .swapRoute a e sl hops → ¬ SwapsIn p.poolKey c) → FewPositions t' → Beyond p up t' →
      Aside o p up s t'
  | transfers {t : Inv} {b : Balances} {aw : Map (MessageId × ActorId) AwaitingTransfer} : Aside o p up s t →
      (∀ k v, b.get k = some v → v ≠ 0 ∧ v < 2 ^ 256) → (∀ token, b.get (o, token) = t.balances.get (o, token)) →
      Aside o p up s { t with balances := b, awaiting := aw }

end Verif.Spec
