import Mathlib.Data.Rat.Floor
import Mathlib.Algebra.Order.Round

/-!
# Specification: the exact price curve over the rationals

Independent of the model: raw integers are scaled to rationals and the textbook formulas of
concentrated liquidity are used.
-/

namespace Verif.Spec

/-- value of a raw sqrt price (24 decimals) -/
def price (p : Nat) : ℚ := (p : ℚ) / 10 ^ 24

/-- value of a raw liquidity (5 decimals) -/
def liq (L : Nat) : ℚ := (L : ℚ) / 10 ^ 5

/-- value of a raw percentage (12 decimals) -/
def pct (f : Nat) : ℚ := (f : ℚ) / 10 ^ 12

/-- exact amount of token Y between two sqrt prices: `L · |√a - √b|` -/
def amountY (a b L : Nat) : ℚ := liq L * |price a - price b|

/-- exact amount of token X between two sqrt prices: `L · |1/√a - 1/√b|` -/
def amountX (a b L : Nat) : ℚ := liq L * |1 / price a - 1 / price b|

end Verif.Spec
