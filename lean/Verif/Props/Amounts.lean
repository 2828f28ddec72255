import Verif.Proofs.Curve
import Verif.Proofs.Price

/-!
# C03, C04: token amounts of a price interval

The specification (`Spec.amountY`, `Spec.amountX`) is the exact curve over the rationals.
-/

set_option exponentiation.threshold 1000

namespace Verif
open Spec

/-- C03: the token Y amount is the exact ceiling (floor) of `L · |√a - √b|`; the only failure is an
amount of 256 bits or more. -/
theorem C03_amount_y {a b L : Nat} (ha : a < 2 ^ 128) (hb : b < 2 ^ 128) (hL : L < 2 ^ 256) :
    (getDeltaY a b L true =
      if ⌈amountY a b L⌉₊ < 2 ^ 256 then .ok ⌈amountY a b L⌉₊ else .error .track) ∧
    (getDeltaY a b L false =
      if ⌊amountY a b L⌋₊ < 2 ^ 256 then .ok ⌊amountY a b L⌋₊ else .error .track) := by
  rw [getDeltaY_up ha hb hL, getDeltaY_down ha hb hL, dyUp_eq_ceil, dyDown_eq_floor]
  exact ⟨rfl, rfl⟩

/-- a case where the two roundings differ, and one that overflows -/
example : getDeltaY (10 ^ 24) (3 * 10 ^ 24 + 7) (10 ^ 6) true = .ok 21 ∧
    getDeltaY (10 ^ 24) (3 * 10 ^ 24 + 7) (10 ^ 6) false = .ok 20 ∧
    getDeltaY 0 (2 ^ 128 - 1) (2 ^ 256 - 1) false = .error .track := by decide +kernel

/-- C04 is false for rounding up: the returned amount can be below the exact curve amount. -/
theorem C04_negation :
    ¬ ∀ a b L x : Nat, MIN_SQRT_PRICE ≤ a → a ≤ MAX_SQRT_PRICE → MIN_SQRT_PRICE ≤ b →
      b ≤ MAX_SQRT_PRICE → L < 2 ^ 256 → getDeltaX a b L true = .ok x →
      amountX a b L ≤ x := by
  intro h
  have h1 := h (10 ^ 24) (10 ^ 24 + 1) (10 ^ 29 + 10 ^ 5 + 1) 1 (by norm_num [MIN_SQRT_PRICE])
    (by norm_num [MAX_SQRT_PRICE]) (by norm_num [MIN_SQRT_PRICE]) (by norm_num [MAX_SQRT_PRICE])
    (by norm_num) (by decide +kernel)
  unfold amountX liq price at h1
  norm_num [abs_of_pos] at h1

/-- C04, what does hold: rounding down never exceeds the exact amount, rounding up falls short of it
by less than `1 / 2.3·10^14` of a token unit, and never yields less than rounding down.
(Full statement: `amountX a b L ≤ x` when rounding up; refuted by `C04_negation`.) -/
theorem C04_partial {a b L : Nat} (ha : MIN_SQRT_PRICE ≤ a) (hb : MIN_SQRT_PRICE ≤ b) :
    (∀ x, getDeltaX a b L false = .ok x → (x : ℚ) ≤ amountX a b L) ∧
    (∀ x, getDeltaX a b L true = .ok x → amountX a b L < x + 1 / (23 * 10 ^ 13)) ∧
    (∀ x y, getDeltaX a b L true = .ok x → getDeltaX a b L false = .ok y → y ≤ x) := by
  have ha0 : 0 < a := lt_of_lt_of_le (by norm_num [MIN_SQRT_PRICE]) ha
  have hb0 : 0 < b := lt_of_lt_of_le (by norm_num [MIN_SQRT_PRICE]) hb
  refine ⟨?_, ?_, ?_⟩
  · intro x h
    rw [(getDeltaX_down_ok h).1]
    exact dxDown_le_amountX ha0 hb0 L
  · intro x h
    obtain ⟨h1, -, h2⟩ := getDeltaX_up_ok h
    rw [h1]
    refine lt_of_lt_of_le (amountX_lt_dxUp ha0 hb0 L h2) ?_
    have hab : 23 * 10 ^ 37 ≤ a * b :=
      le_trans (by norm_num [MIN_SQRT_PRICE]) (Nat.mul_le_mul ha hb)
    have hab' : (23 * 10 ^ 37 : ℚ) ≤ ((a * b : Nat) : ℚ) := by exact_mod_cast hab
    have : (10 : ℚ) ^ 24 / ((a * b : Nat) : ℚ) ≤ 1 / (23 * 10 ^ 13) := by
      rw [div_le_div_iff₀ (by linarith) (by norm_num)]
      linarith
    linarith
  · intro x y hx hy
    obtain ⟨h1, -, h2⟩ := getDeltaX_up_ok hx
    rw [h1, (getDeltaX_down_ok hy).1]
    exact dxDown_le_dxUp L h2

/-- a range where the roundings differ -/
example : getDeltaX (10 ^ 24) (3 * 10 ^ 24) (10 ^ 6) true = .ok 7 ∧
    getDeltaX (10 ^ 24) (3 * 10 ^ 24) (10 ^ 6) false = .ok 6 := by decide +kernel

/-- C04, when the calculation fails: for legal prices it succeeds whenever the exact amount plus one
fits comfortably, i.e. is below `2^255`. -/
theorem C04_succeeds {a b L : Nat} (ha : MIN_SQRT_PRICE ≤ a) (ha2 : a ≤ MAX_SQRT_PRICE)
    (hb : MIN_SQRT_PRICE ≤ b) (hb2 : b ≤ MAX_SQRT_PRICE) (hL : L < 2 ^ 256)
    (h : amountX a b L < 2 ^ 255) (up : Bool) : ∃ x, getDeltaX a b L up = .ok x := by
  have ha0 : 0 < a := lt_of_lt_of_le (by norm_num [MIN_SQRT_PRICE]) ha
  have hb0 : 0 < b := lt_of_lt_of_le (by norm_num [MIN_SQRT_PRICE]) hb
  have hab0 : 0 < a * b := Nat.mul_pos ha0 hb0
  have hab : 23 * 10 ^ 37 ≤ a * b :=
    le_trans (by norm_num [MIN_SQRT_PRICE]) (Nat.mul_le_mul ha hb)
  have ha3 : a < 2 ^ 128 := lt_of_le_of_lt ha2 (by norm_num [MAX_SQRT_PRICE])
  have hb3 : b < 2 ^ 128 := lt_of_le_of_lt hb2 (by norm_num [MAX_SQRT_PRICE])
  rw [amountX_eq ha0 hb0, div_lt_iff₀ (by exact_mod_cast hab0)] at h
  have h1 : absDiff a b * L * 10 ^ 19 < 2 ^ 255 * (a * b) := by exact_mod_cast h
  exact getDeltaX_total ha3 hb3 hL (by omega) h1 up

/-- a liquidity of more than 2^220 still works -/
example : ∃ x, getDeltaX (10 ^ 24) (3 * 10 ^ 24) (2 ^ 220) true = .ok x := by
  apply C04_succeeds <;> norm_num [MIN_SQRT_PRICE, MAX_SQRT_PRICE, amountX, liq, price, abs_of_pos]

end Verif
