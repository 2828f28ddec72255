import Mathlib.Tactic.Ring

/-! # Specification: the number a list of 64-bit words denotes -/

namespace Verif.Spec

/-- little-endian value of 64-bit words -/
def value : List Nat → Nat
  | [] => 0
  | w :: l => w + value l * 2 ^ 64

end Verif.Spec
