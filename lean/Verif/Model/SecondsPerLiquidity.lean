import Verif.Model.Math

/-!
# Model of `calc/math/types/seconds_per_liquidity.rs`

Library functions for rewards; no command of the program calls them. A value is a 128-bit number of units of
10^-25 seconds per unit of liquidity. Timestamps are 64-bit numbers.
-/

namespace Verif

/-- `Self::one()` of `#[decimal(25, U256)]` -/
def splOne : Nat := 10 ^ 25

/-- lines 12-20 `unchecked_add` -/
def splAdd (a b : Nat) : Nat :=
  if b > (2 ^ 128 - 1) - a then (b - ((2 ^ 128 - 1) - a)) - 1 else a + b

/-- lines 22-30 `unchecked_sub` -/
def splSub (a b : Nat) : Nat :=
  if b > a then (2 ^ 128 - 1) - (b - a) + 1 else a - b

/-- lines 31-56 `calculate_seconds_per_liquidity_global`; the products are taken in 128 bits, the quotient in 256 -/
def splGlobal (L now last : Nat) : M Nat := do
  failIf (now ≤ last) .track
  let a ← mulC 128 .track (now - last) splOne
  let b ← mulC 128 .track a liqOne
  let c ← divC .track b L
  fit 128 .track c

/-- lines 59-86 `calculate_seconds_per_liquidity_inside` -/
def splInside (lower upper cur : Int) (lowerOut upperOut global : Nat) : Nat :=
  let below := if cur ≥ lower then lowerOut else splSub global lowerOut
  let above := if cur < upper then upperOut else splSub global upperOut
  splSub (splSub global below) above

end Verif
