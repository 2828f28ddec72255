import Verif.Model.Tickmap

/-!
# Specification: sets of ticks

A tick is legal for a spacing if it is a multiple of it within ±221818. The bitmap is specified by a
set of (pool, tick) pairs.
-/

namespace Verif.Spec

/-- legal tick of a grid -/
def Grid (s : Nat) (t : Int) : Prop := (s : Int) ∣ t ∧ -221818 ≤ t ∧ t ≤ 221818

instance (s : Nat) (t : Int) : Decidable (Grid s t) := by unfold Grid; infer_instance

/-- legal spacing -/
def Spacing (s : Nat) : Prop := 1 ≤ s ∧ s ≤ 100

/-- a set of ticks per pool -/
abbrev TickSet := PoolKey → Int → Bool

def TickSet.none : TickSet := fun _ _ => false

/-- a request to mark (`true`) or clear (`false`) a tick of a pool -/
structure Flip where
  value : Bool
  key : PoolKey
  tick : Int

/-- marking a marked tick or clearing a clear one is refused; illegal ticks are refused -/
def TickSet.flip (S : TickSet) (f : Flip) : Option TickSet :=
  if Grid f.key.feeTier.tickSpacing f.tick ∧ S f.key f.tick ≠ f.value then
    some (fun k t => if k = f.key ∧ t = f.tick then f.value else S k t)
  else Option.none

/-- a refused request leaves the set as it is -/
def TickSet.flips (S : TickSet) : List Flip → TickSet
  | [] => S
  | f :: l => ((S.flip f).getD S).flips l

end Verif.Spec
