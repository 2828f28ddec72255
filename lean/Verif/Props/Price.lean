import Verif.Proofs.Price

/-!
# C01: tick to price conversion

`calculateSqrtPrice` is the model of `calculate_sqrt_price`. Statements use only the tick range, the
order of prices and the two published price constants.
-/

namespace Verif

/-- C01 fails at one point of the 32-bit range: in a build without overflow checks
`calculate_sqrt_price(i32::MIN)` does not reject the tick, it returns the price 1. -/
theorem C01_negation :
    ¬ ∀ t : Int, -2 ^ 31 ≤ t → t < 2 ^ 31 → (t < -221818 ∨ 221818 < t) →
      ∃ e, calculateSqrtPrice t = .error e := by
  intro h
  obtain ⟨e, he⟩ := h (-2147483648) (by norm_num) (by norm_num) (by norm_num)
  have : calculateSqrtPrice (-2147483648) = .ok (10 ^ 24) := by decide +kernel
  rw [this] at he
  cases he

/-- C01 for every tick but `i32::MIN`: the conversion succeeds on the whole tick range with prices
between the published bounds, is strictly increasing, has the published values at the ends and at
zero, and rejects every other tick. (Full statement: without `t ≠ -2^31` in the last part.) -/
theorem C01_partial :
    (∀ t : Int, -221818 ≤ t → t ≤ 221818 →
      ∃ p, calculateSqrtPrice t = .ok p ∧
        15258932000000000000 ≤ p ∧ p ≤ 65535383934512647000000000000) ∧
    (∀ (t u : Int) (p q : Nat), -221818 ≤ t → t < u → u ≤ 221818 →
      calculateSqrtPrice t = .ok p → calculateSqrtPrice u = .ok q → p < q) ∧
    calculateSqrtPrice 0 = .ok (10 ^ 24) ∧
    calculateSqrtPrice 221818 = .ok 65535383934512647000000000000 ∧
    calculateSqrtPrice (-221818) = .ok 15258932000000000000 ∧
    (∀ t : Int, (t < -221818 ∨ 221818 < t) → t ≠ -2 ^ 31 →
      ∃ e, calculateSqrtPrice t = .error e) := by
  refine ⟨?_, ?_, ?_, ?_, ?_, ?_⟩
  · intro t h1 h2
    exact ⟨_, calculateSqrtPrice_eq h1 h2, priceOf_ge_min h1 h2, priceOf_le_max h1 h2⟩
  · intro t u p q h1 h2 h3 hp hq
    rw [calculateSqrtPrice_eq h1 (by simp only [MAX_TICK]; omega)] at hp
    rw [calculateSqrtPrice_eq (by simp only [MIN_TICK]; omega) h3] at hq
    cases hp; cases hq
    exact priceOf_lt h1 h3 h2
  · decide +kernel
  · decide +kernel
  · decide +kernel
  · intro t h h2
    exact ⟨_, calculateSqrtPrice_out h (by norm_num at h2; exact h2)⟩

/-- a carry through many bits, a negative tick, and a rejected tick -/
example : calculateSqrtPrice 65535 = .ok 26485202277305000000000000 ∧
    calculateSqrtPrice 65536 = .ok 26486526504348000000000000 ∧
    calculateSqrtPrice (-1) = .ok 999950003749000000000000 ∧
    calculateSqrtPrice 221819 = .error .track := by decide +kernel

end Verif
