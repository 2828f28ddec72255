import Verif.Spec.Curve

/-! # Specification: an offer that ends exactly on a price -/

namespace Verif.Spec

/-- an offer of `x` of token X ends exactly on the price `target`: it pays for the way there on the exact curve,
but not for one price unit (and one token unit) more -/
def Tie (p target L x : Nat) : Prop :=
  amountX p target L ≤ x ∧ (x : ℚ) < amountX p (target - 1) L + 1

end Verif.Spec
