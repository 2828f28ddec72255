import Verif.Spec.Collections

/-! # Specification: what the combined queries report -/

namespace Verif.Spec

/-- `L` are the positions of every owner in index order, as the single reads see them -/
def Holds (s : Inv) (L : Lists) : Prop :=
  ∀ a, s.positions.getLength a = (L a).length ∧ ∀ i, s.positions.map.get (a, i) = (L a)[i]?

/-- the positions with index from `offset` to `offset + size`, with their indexes -/
def page (l : List Position) (offset size : Nat) : List (Position × Nat) :=
  ((l.drop offset).take size).zipIdx offset

/-- a list split by pool, the pools in the order in which they first occur -/
def byPool (l : List (Position × Nat)) : List (List (Position × Nat)) :=
  (l.map (fun e => e.1.poolKey)).eraseDups.map (fun k => l.filter (fun e => decide (e.1.poolKey = k)))

end Verif.Spec
