import Verif.Model.State

/-!
# Specification: lists of positions per owner, list of pools

Plain lists, with the operations described in words by C19 and C21.
-/

namespace Verif.Spec

/-- the positions of every owner, in index order -/
abbrev Lists := ActorId → List Position

/-- replace the list of one owner -/
def Lists.put (L : Lists) (a : ActorId) (l : List Position) : Lists :=
  fun b => if b = a then l else L b

/-- remove the `i`-th element and move the last one into its place -/
def swapRemove {α : Type} (l : List α) (i : Nat) : List α :=
  match l.getLast? with
  | none => []
  | some x => (l.set i x).dropLast

/-- operations on positions -/
inductive PosOp
  | create (a : ActorId) (p : Position)
  | replace (a : ActorId) (i : Nat) (p : Position)
  | remove (a : ActorId) (i : Nat)
  | transfer (a : ActorId) (i : Nat) (b : ActorId)

/-- effect of an operation; `none` if it is refused. A removal hands out the removed position. -/
def Lists.apply (L : Lists) : PosOp → Option (Lists × Option Position)
  | .create a p => some (L.put a (L a ++ [p]), none)
  | .replace a i p => if i < (L a).length then some (L.put a ((L a).set i p), none) else none
  | .remove a i =>
    match (L a)[i]? with
    | none => none
    | some p => some (L.put a (swapRemove (L a) i), some p)
  | .transfer a i b =>
    match (L a)[i]? with
    | none => none
    | some p =>
      let L' := L.put a (swapRemove (L a) i)
      some (L'.put b (L' b ++ [p]), none)

/-- a refused operation has no effect -/
def Lists.applyAll (L : Lists) : List PosOp → Lists
  | [] => L
  | o :: l => (match L.apply o with | some r => r.1 | none => L).applyAll l

/-- balance of `who` in `token`; 0 if none is stored -/
def bal (b : Balances) (who token : ActorId) : Nat :=
  match b.get (who, token) with
  | some v => v
  | none => 0

end Verif.Spec
