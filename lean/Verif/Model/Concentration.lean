import Mathlib.Analysis.SpecialFunctions.Pow.Real
import Verif.Model.Sdk

/-!
# Model of the concentration helpers of the SDK: `sdk/src/utils.ts` 730-780

A JavaScript `number` is a real number here, so the roundings of floating-point operations are left out; everything
else is as in the code. The loop runs with fuel, and `none` means that the fuel was not enough.
-/

namespace Verif.Sdk
open Classical

/-- `sdk/src/consts.ts` 66 -/
noncomputable def CONCENTRATION_FACTOR : ℝ := 1.00001526069123

/-- `sdk/src/utils.ts` 730-733 -/
noncomputable def calculateConcentration (tickSpacing minimumRange n : ℝ) : ℝ :=
  1 / (1 - (1.0001 : ℝ) ^ (-tickSpacing * (minimumRange + 2 * n) / 4)) / CONCENTRATION_FACTOR

/-- `sdk/src/utils.ts` 735-746 -/
noncomputable def calculateTickDelta (tickSpacing minimumRange concentration : ℝ) : ℤ :=
  let base : ℝ := (1.0001 : ℝ) ^ (-(tickSpacing / 4))
  let logArg : ℝ := (1 - 1 / (concentration * CONCENTRATION_FACTOR)) /
    (1.0001 : ℝ) ^ (-tickSpacing * minimumRange / 4)
  ⌈Real.log logArg / Real.log base / 2⌉

/-- the first loop of `getConcentrationArray`, lines 759-765 -/
noncomputable def collect (tickSpacing minimumRange : ℝ) : Nat → Nat → ℝ → Option (List ℝ)
  | 0, _, _ => none
  | fuel + 1, counter, last =>
    let c := calculateConcentration tickSpacing minimumRange counter
    if last - c ≥ 1 then (collect tickSpacing minimumRange fuel (counter + 1) c).map (c :: ·) else some [c]

/-- the second loop, lines 768-771, from an integer down to 2 -/
noncomputable def countDown : Nat → List ℝ
  | 0 => []
  | 1 => []
  | n + 2 => (n + 2 : ℝ) :: countDown (n + 1)

/-- `sdk/src/utils.ts` 748-780; `slice` cuts its argument to an integer -/
noncomputable def getConcentrationArray (fuel tickSpacing minimumRange : Nat) (currentTick : Int) :
    Option (M (List ℝ)) :=
  (collect tickSpacing minimumRange fuel 0 (calculateConcentration tickSpacing minimumRange 0 + 1)).map fun l =>
    let all := l ++ countDown ⌈l.getLastD 0⌉₊
    let maxTick : ℝ := alignTick (getMaxTick 1) tickSpacing
    if (minimumRange : ℝ) / 2 * tickSpacing > maxTick - |(currentTick : ℝ)| then .error (.inv .TickLimitReached)
    else .ok (all.take ⌊(maxTick - |(currentTick : ℝ)| - (minimumRange : ℝ) / 2 * tickSpacing) / tickSpacing⌋₊)

end Verif.Sdk
