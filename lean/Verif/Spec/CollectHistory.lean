import Verif.Model.Storage
import Mathlib.Algebra.BigOperators.Fin
import Mathlib.Algebra.Order.BigOperators.Group.Finset

/-!
# Specification of fee collection histories

`n` positions with the fee growth inside their ranges, as read from the pool. `CollectHist f cx cy px py`
says that the family `f` arises, from positions without liquidity, by a sequence of

* fees of token x or y: the growth `fgFromFee L amount` is added for a set of active positions
  whose liquidities sum to at most `L`,
* position changes (`Position.update`: settles the growth since the last change, then changes the
  liquidity; a change by 0 only settles),
* payouts: the settled amount is paid and set to 0,

where `cx`, `cy` are the fees collected and `px`, `py` the amounts paid out so far.
-/

namespace Verif

structure Family (n : Nat) where
  pos : Fin n → Position
  accX : Fin n → Nat
  accY : Fin n → Nat

inductive CollectHist {n : Nat} : Family n → Nat → Nat → Nat → Nat → Prop
  | start {f : Family n} : (∀ i, (f.pos i).liquidity = 0 ∧ (f.pos i).tokensOwedX = 0 ∧
        (f.pos i).tokensOwedY = 0 ∧ f.accX i < 2 ^ 128 ∧ f.accY i < 2 ^ 128 ∧
        (f.pos i).feeGrowthInsideX < 2 ^ 128 ∧ (f.pos i).feeGrowthInsideY < 2 ^ 128) →
      CollectHist f 0 0 0 0
  | feeX {f cx cy px py L amount g} {active : Fin n → Bool} : CollectHist f cx cy px py →
      fgFromFee L amount = .ok g →
      (∑ i, if active i then (f.pos i).liquidity else 0) ≤ L →
      CollectHist { f with accX := fun i => if active i then fgAdd (f.accX i) g else f.accX i }
        (cx + amount) cy px py
  | feeY {f cx cy px py L amount g} {active : Fin n → Bool} : CollectHist f cx cy px py →
      fgFromFee L amount = .ok g →
      (∑ i, if active i then (f.pos i).liquidity else 0) ≤ L →
      CollectHist { f with accY := fun i => if active i then fgAdd (f.accY i) g else f.accY i }
        cx (cy + amount) px py
  | update {f cx cy px py i sign delta p} : CollectHist f cx cy px py →
      (f.pos i).update sign delta (f.accX i) (f.accY i) = .ok p →
      CollectHist { f with pos := Function.update f.pos i p } cx cy px py
  | payout {f cx cy px py i} : CollectHist f cx cy px py →
      CollectHist
        { f with
          pos := Function.update f.pos i { f.pos i with tokensOwedX := 0, tokensOwedY := 0 } }
        cx cy (px + (f.pos i).tokensOwedX) (py + (f.pos i).tokensOwedY)

end Verif
