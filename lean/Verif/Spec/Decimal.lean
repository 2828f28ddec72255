import Verif.Model.Decimal
import Mathlib.Algebra.Order.Field.Rat

/-!
# What a decimal stands for

The rational number behind a raw integer, rounding to a multiple of the smallest step, and the
number that a printed text denotes. Only the parameters of the decimal types are taken from the
model.
-/

namespace Verif.Decimal

/-- the number that the raw integer `a` stands for -/
def value (S : DecType) (a : Nat) : ℚ := (a : ℚ) / 10 ^ S.scale

/-- `r` is the largest decimal that is not above `x` -/
def RoundsDown (S : DecType) (r : Nat) (x : ℚ) : Prop := value S r ≤ x ∧ x < value S (r + 1)

/-- `r` is the smallest decimal that is not below `x` -/
def RoundsUp (S : DecType) (r : Nat) (x : ℚ) : Prop :=
  x ≤ value S r ∧ ∀ r' : Nat, x ≤ value S r' → r ≤ r'

/-- the type can hold one, and the big type is at least as wide as the type -/
def Sane (S : DecType) : Prop := 10 ^ S.scale < 2 ^ S.width ∧ S.width ≤ S.big

/-- the big type of `S` holds every decimal of type `T` and every value of `S` with the places of
`T` appended -/
def Room (S T : DecType) : Prop :=
  T.width ≤ S.big ∧ 10 ^ T.scale * 2 ^ S.width ≤ 2 ^ S.big

/-- … and there is room to add a decimal of type `T` -/
def RoomUp (S T : DecType) : Prop :=
  T.width ≤ S.big ∧ 10 ^ T.scale * 2 ^ S.width + 2 ^ T.width ≤ 2 ^ S.big

instance (S : DecType) : Decidable (Sane S) := by unfold Sane; infer_instance
instance (S T : DecType) : Decidable (Room S T) := by unfold Room; infer_instance
instance (S T : DecType) : Decidable (RoomUp S T) := by unfold RoomUp; infer_instance

/-- the decimal types of `calc/math/types` -/
def types : List DecType :=
  [liquidityT, tokenAmountT, percentageT, fixedPointT, sqrtPriceT, feeGrowthT,
   secondsPerLiquidityT]

/-- the number written by a list of decimal digits -/
def readNat (l : List Char) : Nat := l.foldl (fun n c => 10 * n + (c.toNat - 48)) 0

/-- the text before the point -/
def wholePart (t : List Char) : List Char := t.takeWhile (· ≠ '.')
/-- the text after the point -/
def places (t : List Char) : List Char := (t.dropWhile (· ≠ '.')).drop 1

/-- the number denoted by a text of digits with at most one point -/
def readText (t : List Char) : ℚ :=
  (readNat (wholePart t) : ℚ) + (readNat (places t) : ℚ) / 10 ^ (places t).length

end Verif.Decimal
