import Verif.Spec.Unseen

/-! # Specification: a position that was opened and closed again leaves no trace (C101) -/

namespace Verif.Spec
open Verif.Service

/-- `t` is `s` for everybody but `o`, where a word of a tick map that is missing counts as zero -/
structure Traceless (o : ActorId) (s t : Inv) : Prop where
  admin : t.admin = s.admin
  protocolFee : t.protocolFee = s.protocolFee
  feeTiers : t.feeTiers = s.feeTiers
  poolKeys : t.poolKeys = s.poolKeys
  awaiting : ∀ k, t.awaiting.get k = s.awaiting.get k
  pool : ∀ k, Option.Rel SamePool (s.pools.get k) (t.pools.get k)
  tick : ∀ k, Option.Rel SameTick (s.ticks.get k) (t.ticks.get k)
  word : ∀ k, (t.tickmap.get k).getD 0 = (s.tickmap.get k).getD 0
  length : ∀ a, a ≠ o → t.positions.getLength a = s.positions.getLength a
  position : ∀ a, a ≠ o → ∀ i, t.positions.get a i = s.positions.get a i
  balance : ∀ a, a ≠ o → ∀ k, t.balances.get (a, k) = s.balances.get (a, k)

end Verif.Spec
