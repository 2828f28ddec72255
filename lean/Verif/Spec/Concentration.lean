import Mathlib.Analysis.SpecialFunctions.Pow.Real

/-! # How concentrated liquidity is, on the curve in the real numbers -/

namespace Verif.Spec

/-- value, in Y at the square root price `s`, of the tokens behind liquidity `L` between the square root prices `a`
and `b` around `s` -/
noncomputable def rangeValue (L s a b : ℝ) : ℝ := L * (s - a) + L * (1 / s - 1 / b) * s ^ 2

/-- value of the same liquidity at all prices -/
noncomputable def wholeValue (L s : ℝ) : ℝ := L * s + L * (1 / s) * s ^ 2

/-- the square root price `d` ticks away -/
noncomputable def ticksAway (s d : ℝ) : ℝ := s * (1.0001 : ℝ) ^ (d / 2)

end Verif.Spec
