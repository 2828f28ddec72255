import Verif.Spec.Apart

/-! # Specification: histories in which nobody trades in a pool -/

namespace Verif.Spec
open Verif.Service

/-- the call is a swap in the pool, alone or as part of a route -/
def SwapsIn (key : PoolKey) : Call → Prop
  | .swap k _ _ _ _ => k = key
  | .swapRoute _ _ _ hops => ∃ h ∈ hops, h.key = key
  | _ => False

/-- what can become of the state `s` while the account `o` does nothing, is given no position, and nobody swaps in the
pool `key`: any successful calls of others, and any transfers of others. As in `Reach32`, no account comes to hold
2^32 - 1 positions. -/
inductive Quiet (o : ActorId) (key : PoolKey) (s : Inv) : Inv → Prop
  | start : Quiet o key s s
  | call {t t' : Inv} {env : Env} {c : Call} : Quiet o key s t → step env t c = .ok t' → o ∉ parties env c →
      ¬ SwapsIn key c → FewPositions t' → Quiet o key s t'
  | transfers {t : Inv} {b : Balances} {aw : Map (MessageId × ActorId) AwaitingTransfer} : Quiet o key s t →
      (∀ k v, b.get k = some v → v ≠ 0 ∧ v < 2 ^ 256) → (∀ token, b.get (o, token) = t.balances.get (o, token)) →
      Quiet o key s { t with balances := b, awaiting := aw }

end Verif.Spec
