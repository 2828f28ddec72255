import Verif.Proofs.Thin
import Verif.Props.Active

/-!
# C42: swaps through thin liquidity

When a step reaches an initialized tick, `update_tick` asks whether the remaining amount could move
the price any further, using the liquidity before the tick. The full property is that this question
always has an answer; it does for exact input from X to Y. In the other three cases the answer exists
exactly under the stated condition, and the swap is aborted otherwise.
-/

set_option exponentiation.threshold 1000

namespace Verif
open Service Spec

variable {amount p L fee : Nat}

/-- the amount left after the fee, as the check computes it -/
private theorem after_lt (ha : amount < 2 ^ 256) :
    amount * (10 ^ 12 - fee) / 10 ^ 12 < 2 ^ 256 := by
  rw [Nat.div_lt_iff_lt_mul (by positivity)]
  exact lt_of_le_of_lt (Nat.mul_le_mul_left _ (Nat.sub_le _ _))
    (Nat.mul_lt_mul_of_pos_right ha (by positivity))

private theorem byIn_iff (ha : amount < 2 ^ 256) (hf : fee ≤ 10 ^ 12) (hL : L ≠ 0) {x : Bool} :
    (∃ b, isEnoughAmountToChangePrice amount p L fee true x = .ok b) ↔
      ∃ n, getNextSqrtPriceFromInput p L (amount * (10 ^ 12 - fee) / 10 ^ 12) x = .ok n := by
  unfold isEnoughAmountToChangePrice
  rw [if_neg hL]
  have e1 : subC .panic pctOne fee = .ok (10 ^ 12 - fee) := by
    rw [subC_ok_iff, pctOne_eq]; exact ⟨hf, rfl⟩
  simp only [if_true, e1, ok_bind, tokMulPct_eq ha (Nat.sub_le _ _), bind_ok_iff, pure_ok_iff]
  constructor
  · rintro ⟨_, n, h, _⟩; exact ⟨n, h⟩
  · rintro ⟨n, h⟩; exact ⟨_, n, h, rfl⟩

private theorem byOut_iff (hL : L ≠ 0) {x : Bool} :
    (∃ b, isEnoughAmountToChangePrice amount p L fee false x = .ok b) ↔
      ∃ n, getNextSqrtPriceFromOutput p L amount x = .ok n := by
  unfold isEnoughAmountToChangePrice
  rw [if_neg hL]
  simp only [Bool.false_eq_true, if_false, bind_ok_iff, pure_ok_iff]
  constructor
  · rintro ⟨_, n, h, _⟩; exact ⟨n, h⟩
  · rintro ⟨n, h⟩; exact ⟨_, n, h, rfl⟩

private theorem zero_ok {byIn x : Bool} :
    ∃ b, isEnoughAmountToChangePrice amount p 0 fee byIn x = .ok b :=
  ⟨true, by unfold isEnoughAmountToChangePrice; rw [if_pos rfl]⟩

/-- C42, exact input from X to Y: the check never fails, whatever the amount and the liquidity. -/
theorem C42_in_x (hp : PriceOK p) (hL : L < 2 ^ 256) (ha : amount < 2 ^ 256) (hf : fee ≤ 10 ^ 12) :
    ∃ b, isEnoughAmountToChangePrice amount p L fee true true = .ok b := by
  by_cases h0 : L = 0
  · subst h0; exact zero_ok
  rw [byIn_iff ha hf h0]
  have hx := after_lt (fee := fee) ha
  generalize amount * (10 ^ 12 - fee) / 10 ^ 12 = x at hx
  refine ⟨nextX true p L x, ?_⟩
  unfold getNextSqrtPriceFromInput
  rw [if_pos rfl, nextXUp_add_eq hp hL hx]

/-- C42, exact input from Y to X: the check fails exactly when the price that the liquidity before the
tick would reach does not fit in 128 bits. (Full statement: it never fails.) -/
theorem C42_in_y_partial (hp : PriceOK p) (hL : L < 2 ^ 256) (ha : amount < 2 ^ 256) (hf : fee ≤ 10 ^ 12) :
    (∃ b, isEnoughAmountToChangePrice amount p L fee true false = .ok b) ↔
      L = 0 ∨ p + amount * (10 ^ 12 - fee) / 10 ^ 12 * 10 ^ 29 / L < 2 ^ 128 := by
  by_cases h0 : L = 0
  · subst h0; simp only [true_or, iff_true]; exact zero_ok
  rw [byIn_iff ha hf h0]
  unfold getNextSqrtPriceFromInput
  simp only [Bool.false_eq_true, if_false]
  rw [nextYDown_add_iff hp hL (after_lt ha)]
  simp only [h0, false_or, Nat.pos_of_ne_zero h0, true_and]

/-- C42, exact output from X to Y: the check fails exactly when the liquidity before the tick could not
pay the remaining amount before the price is zero. (Full statement: it never fails.) -/
theorem C42_out_y_partial (hp : PriceOK p) (hL : L < 2 ^ 256) (ha : amount < 2 ^ 256) :
    (∃ b, isEnoughAmountToChangePrice amount p L fee false true = .ok b) ↔
      L = 0 ∨ amount * 10 ^ 29 ≤ p * L := by
  by_cases h0 : L = 0
  · subst h0; simp only [true_or, iff_true]; exact zero_ok
  rw [byOut_iff h0]
  unfold getNextSqrtPriceFromOutput
  simp only [if_true]
  rw [nextYDown_sub_iff hp hL ha, cdiv_le_iff (Nat.pos_of_ne_zero h0)]
  simp only [h0, false_or, Nat.pos_of_ne_zero h0, true_and]

/-- C42, exact output from Y to X: the check fails exactly when the liquidity before the tick could not
pay the remaining amount at a price of 128 bits. (Full statement: it never fails.) -/
theorem C42_out_x_partial (hp : PriceOK p) (hL : L < 2 ^ 256) (ha : amount < 2 ^ 256) :
    (∃ b, isEnoughAmountToChangePrice amount p L fee false false = .ok b) ↔
      L = 0 ∨ amount = 0 ∨ (p * amount < L * 10 ^ 19 ∧
        cdiv (cdiv (p * L) (10 ^ 5) * 10 ^ 24) (L * 10 ^ 19 - p * amount) < 2 ^ 128) := by
  by_cases h0 : L = 0
  · subst h0; simp only [true_or, iff_true]; exact zero_ok
  rw [byOut_iff h0]
  unfold getNextSqrtPriceFromOutput
  simp only [Bool.false_eq_true, if_false]
  rw [nextXUp_sub_iff hp hL ha]
  simp only [h0, false_or]
  by_cases h1 : amount = 0
  · simp [h1]
  · simp only [h1, false_or, nextX, if_false, Bool.false_eq_true]

namespace Thin

/-- a thin position around the price and deep ones on both sides of it -/
def s0 : Inv :=
  runAll Demo.funded
    [(Demo.by_ 1, .addFeeTier Demo.tier),
     (Demo.by_ 2, .createPool 7 5 Demo.tier (10 ^ 24) 0),
     (Demo.by_ 2, .createPosition Demo.key (-10) 10 (10 ^ 10) 0 (10 ^ 25)),
     (Demo.by_ 3, .createPosition Demo.key (-50) (-10) (10 ^ 15) 0 (10 ^ 25)),
     (Demo.by_ 3, .createPosition Demo.key 10 50 (10 ^ 15) 0 (10 ^ 25))]

theorem s0_clear : Clear s0 := by
  have h0 : Clear Demo.funded := by
    refine .transfers (s := Inv.init 1 (10 ^ 11)) (aw := ∅) (.init _ _) ?_
    intro k v hk
    simp only [Map.get_insert] at hk
    split_ifs at hk <;> first | (cases hk; norm_num) | simp at hk
  have h1 := clear_run (c := .addFeeTier Demo.tier) (env := Demo.by_ 1) h0 ⟨by simp, by simp⟩ (by decide +kernel)
  have h2 := clear_run (c := .createPool 7 5 Demo.tier (10 ^ 24) 0) (env := Demo.by_ 2) h1 ⟨by simp, by simp⟩
    (by decide +kernel)
  have h3 := clear_run (c := .createPosition Demo.key (-10) 10 (10 ^ 10) 0 (10 ^ 25))
    (env := Demo.by_ 2) h2 ⟨by simp, by simp⟩ (by decide +kernel)
  have h4 := clear_run (c := .createPosition Demo.key (-50) (-10) (10 ^ 15) 0 (10 ^ 25))
    (env := Demo.by_ 3) h3 ⟨by simp, by simp⟩ (by decide +kernel)
  have h5 := clear_run (c := .createPosition Demo.key 10 50 (10 ^ 15) 0 (10 ^ 25))
    (env := Demo.by_ 3) h4 ⟨by simp, by simp⟩ (by decide +kernel)
  unfold s0
  simp only [runAll]
  exact h5

theorem s0_reach : Reach s0 := (reach32_reach _ (clear_reach32 _ s0_clear)).1

end Thin

/-- C42 is false: a call for an exact output is aborted although the very same call succeeds right after
a swap of 60 units that uses up the thin interval. -/
theorem C42_negation :
    ¬ ∀ (env : Env) (s s1 s2 : Inv) (key : PoolKey) (xToY : Bool) (first amount limit : Nat)
      (r1 r2 : CalculateSwapResult), Reach s →
      swap env s key xToY first true limit = .ok (s1, r1) →
      swap env s1 key xToY amount false limit = .ok (s2, r2) →
      ∃ s' r', swap env s key xToY amount false limit = .ok (s', r') := by
  intro h
  have e1 : (swap (Demo.by_ 2) Thin.s0 Demo.key true 60 true MIN_SQRT_PRICE).toOption.isSome = true := by
    decide +kernel
  have e2 : ((swap (Demo.by_ 2) Thin.s0 Demo.key true 60 true MIN_SQRT_PRICE).toOption.bind (fun x =>
      (swap (Demo.by_ 2) x.1 Demo.key true (10 ^ 6) false MIN_SQRT_PRICE).toOption)).isSome = true := by
    decide +kernel
  have e3 : (swap (Demo.by_ 2) Thin.s0 Demo.key true (10 ^ 6) false MIN_SQRT_PRICE).toOption.isSome = false := by
    decide +kernel
  cases k1 : swap (Demo.by_ 2) Thin.s0 Demo.key true 60 true MIN_SQRT_PRICE with
  | error e => rw [k1] at e1; cases e1
  | ok x =>
    rw [k1] at e2
    simp only [Except.toOption, Option.bind_some] at e2
    cases k2 : swap (Demo.by_ 2) x.1 Demo.key true (10 ^ 6) false MIN_SQRT_PRICE with
    | error e => rw [k2] at e2; cases e2
    | ok y =>
      obtain ⟨s', r', k3⟩ := h _ _ x.1 y.1 _ _ _ _ _ x.2 y.2 Thin.s0_reach k1 k2
      rw [k3] at e3
      cases e3

/-- from the same state the exact-input swap of 10^6 units crosses the thin interval, in both directions -/
example :
    (swap (Demo.by_ 2) Thin.s0 Demo.key true (10 ^ 6) true MIN_SQRT_PRICE).toOption.map
      (fun x => x.2.amountOut) = some 997898 ∧
    (swap (Demo.by_ 2) Thin.s0 Demo.key false (10 ^ 6) true MAX_SQRT_PRICE).toOption.isSome = true ∧
    (swap (Demo.by_ 2) Thin.s0 Demo.key false (10 ^ 6) false MAX_SQRT_PRICE).toOption.isSome = false := by
  decide +kernel

/-- the check at a tick with liquidity 100000.00000 at price 1: 99999 units out can be asked, 100001 cannot -/
example : isEnoughAmountToChangePrice 99999 (10 ^ 24) (10 ^ 10) 0 false true = .ok true ∧
    (isEnoughAmountToChangePrice 100001 (10 ^ 24) (10 ^ 10) 0 false true).toOption = none ∧
    isEnoughAmountToChangePrice (10 ^ 40) (10 ^ 24) (10 ^ 10) 0 true true = .ok true ∧
    (isEnoughAmountToChangePrice (10 ^ 40) (10 ^ 24) (10 ^ 10) 0 true false).toOption = none := by
  decide +kernel

end Verif
