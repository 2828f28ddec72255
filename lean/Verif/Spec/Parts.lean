import Verif.Spec.Unseen

/-! # Specification: a position and the same position in two parts -/

namespace Verif.Spec
open Verif.Service

/-- a position in the same range with the same fees behind it -/
def PartOf (p q : Position) : Prop :=
  q = { p with liquidity := q.liquidity, lastBlockNumber := q.lastBlockNumber }

/-- `t` is `s` for everybody but `o`, who has two positions `j` and `k` in `t` for the position `i` in `s` -/
structure Halves (o : ActorId) (s t : Inv) (i j k : Nat) : Prop where
  others : SameForOthers o s t
  ne : j ≠ k
  parts : ∃ p q r, s.positions.get o i = .ok p ∧ t.positions.get o j = .ok q ∧ t.positions.get o k = .ok r ∧
    PartOf p q ∧ PartOf p r ∧ p.liquidity = q.liquidity + r.liquidity

end Verif.Spec
