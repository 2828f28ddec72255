import Verif.Proofs.SdkUtils

/-!
# Properties C59, C60: prices computed by the SDK
-/

set_option exponentiation.threshold 1000

namespace Verif
open Sdk

/-! ## C59: square roots, conversions, price impact -/

/-- C59 where it is true: the square root of the SDK is the integer square root of every number but 4, with a
recursion no deeper than the number of bits plus two. The full claim has no exception; see `C59_negation`. -/
theorem C59_sqrt_partial {v k d : Nat} (h4 : v ≠ 4) (hk : v < 2 ^ k) (hd : k + 2 ≤ d) :
    ∃ r, Sdk.sqrt d v = .ok r ∧ r * r ≤ v ∧ v < (r + 1) * (r + 1) :=
  ⟨_, sqrt_ok h4 hk hd, Nat.sqrt_le v, Nat.lt_succ_sqrt v⟩

/-- the square root of 10^30 + 1 -/
example : Sdk.sqrt 102 (10 ^ 30 + 1) = .ok (10 ^ 15) := by decide +kernel

/-- C59 is false at 4: the first step of the iteration goes from 1 to 2, which is taken for the end of the
oscillation between the root and the number above it. -/
theorem C59_negation : ¬ ∀ v d : Nat, ∀ r, Sdk.sqrt (d + 1) v = .ok r → v < (r + 1) * (r + 1) := by
  intro h
  exact absurd (h 4 0 1 (by decide +kernel)) (by decide)

/-- C59, the conversions: no price is affected by the exception. The root price of a price is the largest whose
square does not exceed it. -/
theorem C59_price {p : Nat} (hp : p < 2 ^ 900) :
    ∃ r, priceToSqrtPrice p = .ok r ∧ r * r ≤ p * 10 ^ 24 ∧ p * 10 ^ 24 < (r + 1) * (r + 1) := by
  have hlt : p * 10 ^ 24 < 2 ^ 980 := by
    calc p * 10 ^ 24 < 2 ^ 900 * 10 ^ 24 := Nat.mul_lt_mul_of_pos_right hp (by positivity)
      _ ≤ 2 ^ 980 := by norm_num
  have h4 : p * 10 ^ 24 ≠ 4 := by omega
  obtain ⟨r, h1, h2, h3⟩ := C59_sqrt_partial (d := DEPTH) h4 hlt (by decide)
  refine ⟨r, ?_, h2, h3⟩
  unfold priceToSqrtPrice
  rw [← h1]
  congr 1

/-- the root of 4 -/
example : priceToSqrtPrice (4 * 10 ^ 24) = .ok (2 * 10 ^ 24) := by decide +kernel

/-- C59, there and back: converting a root price to a price and back gives at most the root price, and less than
one unit of 10^-24 less in the price. -/
theorem C59_back {p : Nat} (hp : p < 2 ^ 128) :
    ∃ r, priceToSqrtPrice (sqrtPriceToPrice p) = .ok r ∧ r ≤ p ∧ p * p < (r + 1) * (r + 1) + 10 ^ 24 := by
  have hq1 : p * p / 10 ^ 24 * 10 ^ 24 ≤ p * p := Nat.div_mul_le_self _ _
  have hq2 : p * p < p * p / 10 ^ 24 * 10 ^ 24 + 10 ^ 24 := by
    have := Nat.div_add_mod (p * p) (10 ^ 24)
    have := Nat.mod_lt (p * p) (show 0 < 10 ^ 24 by positivity)
    omega
  have hlt : sqrtPriceToPrice p < 2 ^ 900 := by
    refine lt_of_le_of_lt (Nat.div_le_self _ _) ?_
    calc p * p < 2 ^ 128 * 2 ^ 128 := Nat.mul_lt_mul'' hp hp
      _ ≤ 2 ^ 900 := by norm_num
  obtain ⟨r, h1, h2, h3⟩ := C59_price hlt
  refine ⟨r, h1, ?_, ?_⟩
  · have : r * r ≤ p * p := le_trans h2 hq1
    exact Nat.mul_self_le_mul_self_iff.1 this
  · have : p * p / 10 ^ 24 * 10 ^ 24 < (r + 1) * (r + 1) := h3
    omega

example : priceToSqrtPrice (sqrtPriceToPrice 15258932000000000017) = .ok 15258932000000000000 := by decide +kernel

/-- C59, the price impact: the relative difference of the two prices, in units of 10^-12, rounded down; the order
of the prices does not matter, and it is at most the whole. -/
theorem C59_impact {a b : Nat} (h : 0 < max a b) :
    ∃ k, calculatePriceImpact a b = .ok k ∧ calculatePriceImpact b a = .ok k ∧ k ≤ 10 ^ 12 ∧
      k * (max a b * max a b) ≤ (max a b * max a b - min a b * min a b) * 10 ^ 12 ∧
      (max a b * max a b - min a b * min a b) * 10 ^ 12 < (k + 1) * (max a b * max a b) := by
  have key : ∀ x y : Nat, x ≤ y → 0 < y →
      calculatePriceImpact x y = .ok ((y * y - x * x) * 10 ^ 12 / (y * y)) ∧
      calculatePriceImpact y x = .ok ((y * y - x * x) * 10 ^ 12 / (y * y)) := by
    intro x y hxy hy
    have hsq : x * x ≤ y * y := Nat.mul_le_mul hxy hxy
    have hpos : 0 < y * y := Nat.mul_pos hy hy
    unfold calculatePriceImpact divC
    constructor
    · have e1 : (if ((x * x : Nat) : Int) - ((y * y : Nat) : Int) > 0 then
          (((x * x : Nat) : Int) - ((y * y : Nat) : Int)).toNat
          else (-(((x * x : Nat) : Int) - ((y * y : Nat) : Int))).toNat) = y * y - x * x := by
        split <;> omega
      have e2 : (if x * x > y * y then x * x else y * y) = y * y := if_neg (by omega)
      simp only [e1, e2]
      rw [if_neg (by omega)]
      rfl
    · have e1 : (if ((y * y : Nat) : Int) - ((x * x : Nat) : Int) > 0 then
          (((y * y : Nat) : Int) - ((x * x : Nat) : Int)).toNat
          else (-(((y * y : Nat) : Int) - ((x * x : Nat) : Int))).toNat) = y * y - x * x := by
        split <;> omega
      have e2 : (if y * y > x * x then y * y else x * x) = y * y := by split <;> omega
      simp only [e1, e2]
      rw [if_neg (by omega)]
      rfl
  have hdiv : ∀ x y : Nat, x ≤ y → 0 < y →
      (y * y - x * x) * 10 ^ 12 / (y * y) ≤ 10 ^ 12 ∧
      (y * y - x * x) * 10 ^ 12 / (y * y) * (y * y) ≤ (y * y - x * x) * 10 ^ 12 ∧
      (y * y - x * x) * 10 ^ 12 < ((y * y - x * x) * 10 ^ 12 / (y * y) + 1) * (y * y) := by
    intro x y _ hy
    have hpos : 0 < y * y := Nat.mul_pos hy hy
    refine ⟨?_, Nat.div_mul_le_self _ _, ?_⟩
    · apply Nat.div_le_of_le_mul
      exact Nat.mul_le_mul_right _ (Nat.sub_le _ _)
    · rw [Nat.mul_comm ((y * y - x * x) * 10 ^ 12 / (y * y) + 1)]
      exact Nat.lt_mul_div_succ _ hpos
  rcases Nat.le_total a b with hab | hab
  · rw [max_eq_right hab, min_eq_left hab]
    rw [max_eq_right hab] at h
    obtain ⟨k1, k2⟩ := key a b hab h
    exact ⟨_, k1, k2, hdiv a b hab h⟩
  · rw [max_eq_left hab, min_eq_right hab]
    rw [max_eq_left hab] at h
    obtain ⟨k1, k2⟩ := key b a hab h
    exact ⟨_, k2, k1, hdiv b a hab h⟩

/-- from price 1 to price 0.81: a fall by 19% -/
example : calculatePriceImpact (10 ^ 24) (9 * 10 ^ 23) = .ok (19 * 10 ^ 10) := by decide +kernel

/-! ## C60: prices after slippage -/

/-- the factor of a slippage in units of 10^-12 -/
def Spec.factor (slippage : Nat) (up : Bool) : Nat := if up then 10 ^ 12 + slippage else 10 ^ 12 - slippage

open Spec

/-- C60: the root price after slippage is the root of the price times the factor, rounded down, up to one unit
of 10^-24 in the price. -/
theorem C60_bound {p slippage : Nat} {up : Bool} (hp : p < 2 ^ 128) (hs : slippage < 2 ^ 128)
    (hd : up = false → slippage ≤ 10 ^ 12) :
    ∃ r, calculateSqrtPriceAfterSlippage p slippage up = .ok r ∧
      r * r * 10 ^ 12 ≤ p * p * factor slippage up ∧
      p * p * factor slippage up < (r + 1) * (r + 1) * 10 ^ 12 + 10 ^ 24 * factor slippage up := by
  unfold calculateSqrtPriceAfterSlippage
  by_cases h0 : slippage = 0
  · subst h0
    rw [if_pos rfl]
    have hf : factor 0 up = 10 ^ 12 := by unfold factor; split <;> rfl
    refine ⟨p, rfl, by rw [hf], ?_⟩
    rw [hf]
    have : p * p ≤ (p + 1) * (p + 1) := Nat.mul_le_mul (by omega) (by omega)
    omega
  rw [if_neg h0]
  have hm : ((pctOne : Int) + (if up = true then (slippage : Int) else -slippage)) = (factor slippage up : Nat) := by
    unfold factor pctOne
    cases up with
    | true => simp
    | false =>
      have := hd rfl
      simp only [Bool.false_eq_true, if_false]
      omega
  simp only [hm]
  have hfl : factor slippage up < 2 ^ 129 := by
    unfold factor
    split <;> omega
  have hq1 : p * p / 10 ^ 24 * 10 ^ 24 ≤ p * p := Nat.div_mul_le_self _ _
  have hq2 : p * p < p * p / 10 ^ 24 * 10 ^ 24 + 10 ^ 24 := by
    have := Nat.div_add_mod (p * p) (10 ^ 24)
    have := Nat.mod_lt (p * p) (show 0 < 10 ^ 24 by positivity)
    omega
  generalize factor slippage up = m at *
  have hpr : sqrtPriceToPrice p = p * p / 10 ^ 24 := rfl
  have hpl : p * p / 10 ^ 24 < 2 ^ 256 := by
    refine lt_of_le_of_lt (Nat.div_le_self _ _) ?_
    calc p * p < 2 ^ 128 * 2 ^ 128 := Nat.mul_lt_mul'' hp hp
      _ = 2 ^ 256 := by norm_num
  rw [hpr]
  generalize p * p / 10 ^ 24 = q at *
  generalize p * p = n at *
  have hlt : q * m * 10 ^ 12 < 2 ^ 900 := by
    calc q * m * 10 ^ 12 ≤ 2 ^ 256 * 2 ^ 129 * 10 ^ 12 :=
          Nat.mul_le_mul_right _ (Nat.mul_le_mul (le_of_lt hpl) (le_of_lt hfl))
      _ < 2 ^ 900 := by norm_num
  obtain ⟨r, h1, h2, h3⟩ := C59_price hlt
  have hc : ((q : Int) * (m : Nat) * (pctOne : Nat)) = ((q * m * 10 ^ 12 : Nat) : Int) := by
    push_cast; rfl
  rw [hc, h1]
  refine ⟨r / pctOne, rfl, ?_, ?_⟩
  · -- (r / 10^12)^2 10^24 ≤ r^2 ≤ q m 10^36
    have h4 : r / 10 ^ 12 * 10 ^ 12 ≤ r := Nat.div_mul_le_self _ _
    have h5 : (r / 10 ^ 12 * 10 ^ 12) * (r / 10 ^ 12 * 10 ^ 12) ≤ r * r := Nat.mul_le_mul h4 h4
    show r / 10 ^ 12 * (r / 10 ^ 12) * 10 ^ 12 ≤ n * m
    generalize r / 10 ^ 12 = t at *
    have h6 : t * t * 10 ^ 24 ≤ q * m * 10 ^ 36 := by
      calc t * t * 10 ^ 24 = t * 10 ^ 12 * (t * 10 ^ 12) := by ring
        _ ≤ r * r := h5
        _ ≤ q * m * 10 ^ 12 * 10 ^ 24 := h2
        _ = q * m * 10 ^ 36 := by ring
    have h7 : q * m * 10 ^ 24 ≤ n * m := by
      calc q * m * 10 ^ 24 = q * 10 ^ 24 * m := by ring
        _ ≤ n * m := Nat.mul_le_mul_right _ hq1
    generalize q * m = u at h6 h7
    generalize n * m = v at h7 ⊢
    generalize t * t = w at h6 ⊢
    refine Nat.le_of_mul_le_mul_right (c := 10 ^ 12) ?_ (by positivity)
    calc w * 10 ^ 12 * 10 ^ 12 = w * 10 ^ 24 := by ring
      _ ≤ u * 10 ^ 36 := h6
      _ = u * 10 ^ 24 * 10 ^ 12 := by ring
      _ ≤ v * 10 ^ 12 := Nat.mul_le_mul_right _ h7
  · show n * m < (r / 10 ^ 12 + 1) * (r / 10 ^ 12 + 1) * 10 ^ 12 + 10 ^ 24 * m
    have h4 : r + 1 ≤ (r / 10 ^ 12 + 1) * 10 ^ 12 := by
      have := Nat.lt_mul_div_succ r (show 0 < 10 ^ 12 by positivity)
      omega
    have h5 : (r + 1) * (r + 1) ≤ ((r / 10 ^ 12 + 1) * 10 ^ 12) * ((r / 10 ^ 12 + 1) * 10 ^ 12) :=
      Nat.mul_le_mul h4 h4
    generalize r / 10 ^ 12 + 1 = t at *
    have h6 : q * m * 10 ^ 36 < t * t * 10 ^ 24 := by
      calc q * m * 10 ^ 36 = q * m * 10 ^ 12 * 10 ^ 24 := by ring
        _ < (r + 1) * (r + 1) := h3
        _ ≤ _ := h5
        _ = t * t * 10 ^ 24 := by ring
    have h7 : n * m ≤ q * m * 10 ^ 24 + 10 ^ 24 * m := by
      calc n * m ≤ (q * 10 ^ 24 + 10 ^ 24) * m := Nat.mul_le_mul_right _ (le_of_lt hq2)
        _ = q * m * 10 ^ 24 + 10 ^ 24 * m := by ring
    generalize q * m = u at h6 h7
    generalize n * m = v at h7 ⊢
    generalize t * t = w at h6 ⊢
    clear * - h6 h7
    omega

/-- one percent around the price 1 -/
example : calculateSqrtPriceAfterSlippage (10 ^ 24) (10 ^ 10) true = .ok 1004987562112089027021926 ∧
    calculateSqrtPriceAfterSlippage (10 ^ 24) (10 ^ 10) false = .ok 994987437106619954734479 := by
  decide +kernel

/-- C60: a slippage above the whole is refused. -/
theorem C60_refused {p slippage : Nat} (hp : 10 ^ 12 ≤ p) (hs : 10 ^ 12 < slippage) :
    calculateSqrtPriceAfterSlippage p slippage false = .error .panic := by
  unfold calculateSqrtPriceAfterSlippage
  rw [if_neg (by omega)]
  have hq : 0 < sqrtPriceToPrice p := by
    unfold sqrtPriceToPrice
    refine Nat.div_pos ?_ (by unfold spOne; positivity)
    calc spOne = 10 ^ 12 * 10 ^ 12 := by unfold spOne; norm_num
      _ ≤ p * p := Nat.mul_le_mul hp hp
  have hneg : ((sqrtPriceToPrice p : Int) * ((pctOne : Int) + (if false = true then (slippage : Int) else -slippage))
      * pctOne * spOne) < 0 := by
    simp only [Bool.false_eq_true, if_false]
    have h1 : (pctOne : Int) + -(slippage : Int) < 0 := by unfold pctOne; omega
    have h2 : (0 : Int) < sqrtPriceToPrice p := by exact_mod_cast hq
    have h3 : (0 : Int) < (pctOne : Int) := by unfold pctOne; norm_num
    have h4 : (0 : Int) < (spOne : Int) := by unfold spOne; norm_num
    have := mul_neg_of_pos_of_neg h2 h1
    have := mul_neg_of_neg_of_pos this h3
    exact mul_neg_of_neg_of_pos this h4
  unfold priceToSqrtPrice Sdk.sqrt
  simp only
  rw [if_pos hneg]
  rfl

example : calculateSqrtPriceAfterSlippage (10 ^ 24) (2 * 10 ^ 12) false = .error .panic := by decide +kernel

/-- C60: the bounds enclose the price. So a position asked for with any tolerance is not refused while the price
stays as it is, and the limit of a swap lies on the side the contract demands. -/
theorem C60_encloses {p slippage : Nat} (h1 : 15258932000000000000 ≤ p) (h2 : p ≤ 65535383934512647000000000000)
    (hs : slippage ≤ 10 ^ 12) :
    ∃ lo hi, calculateSqrtPriceAfterSlippage p slippage false = .ok lo ∧
      calculateSqrtPriceAfterSlippage p slippage true = .ok hi ∧ lo ≤ p ∧ p ≤ hi ∧
      swapLimit p slippage true = .ok ((lo : Int) - 1) ∧ swapLimit p slippage false = .ok ((hi : Int) + 1) := by
  have hp : p < 2 ^ 128 := by omega
  have hs' : slippage < 2 ^ 128 := by omega
  obtain ⟨lo, e1, a1, -⟩ := C60_bound (up := false) hp hs' (fun _ => hs)
  obtain ⟨hi, e2, -, b2⟩ := C60_bound (up := true) hp hs' (fun h => by cases h)
  refine ⟨lo, hi, e1, e2, ?_, ?_, ?_, ?_⟩
  · have hf : factor slippage false ≤ 10 ^ 12 := by
      unfold factor; simp only [Bool.false_eq_true, if_false]; omega
    have : lo * lo * 10 ^ 12 ≤ p * p * 10 ^ 12 := le_trans a1 (Nat.mul_le_mul_left _ hf)
    exact Nat.mul_self_le_mul_self_iff.1 (Nat.le_of_mul_le_mul_right this (by positivity))
  · by_cases h0 : slippage = 0
    · subst h0
      have : hi = p := by
        have := e2
        unfold calculateSqrtPriceAfterSlippage at this
        rw [if_pos rfl] at this
        injection this with this
        exact this.symm
      omega
    · by_contra hc
      have hle : hi + 1 ≤ p := by omega
      have h3 : (hi + 1) * (hi + 1) ≤ p * p := Nat.mul_le_mul hle hle
      have h4 : 15258932000000000000 * 15258932000000000000 ≤ p * p := Nat.mul_le_mul h1 h1
      have hf : factor slippage true = 10 ^ 12 + slippage := rfl
      rw [hf] at b2
      generalize (hi + 1) * (hi + 1) = w at *
      generalize p * p = n at *
      have h5 : n * 10 ^ 12 + n * slippage < n * 10 ^ 12 + (10 ^ 36 + 10 ^ 24 * slippage) := by
        calc n * 10 ^ 12 + n * slippage = n * (10 ^ 12 + slippage) := by ring
          _ < w * 10 ^ 12 + 10 ^ 24 * (10 ^ 12 + slippage) := b2
          _ ≤ n * 10 ^ 12 + 10 ^ 24 * (10 ^ 12 + slippage) :=
            Nat.add_le_add_right (Nat.mul_le_mul_right _ h3) _
          _ = _ := by ring
      have h6 : n * slippage < 10 ^ 36 + 10 ^ 24 * slippage := Nat.lt_of_add_lt_add_left h5
      have h7 : (2 * 10 ^ 38) * slippage ≤ n * slippage := Nat.mul_le_mul_right _ (le_trans (by norm_num) h4)
      omega
  · unfold swapLimit
    simp only [Bool.not_true, e1]
    rfl
  · unfold swapLimit
    simp only [Bool.not_false, e2]
    rfl

example : swapLimit (10 ^ 24) (10 ^ 10) true = .ok 994987437106619954734478 := by decide +kernel

end Verif
