import Verif.Props.Step
import Verif.Proofs.SwapWorth

/-! # What a step of a swap pays on top of the curve -/

namespace Verif
open Service Spec

/-- the price an input of X leads to is not lower than the curve prescribes -/
theorem amountX_nextX {p L x : Nat} (hp : 10 ^ 12 ≤ p) (hL : 0 < L) (hn : 0 < nextX true p L x) :
    amountX p (nextX true p L x) L ≤ x := by
  have hle := nextX_add_le (L := L) (x := x) hp
  have hp0 : 0 < p := by omega
  rw [amountX_eq hp0 hn, div_le_iff₀ (by exact_mod_cast Nat.mul_pos hp0 hn), absDiff_of_ge hle]
  suffices (p - nextX true p L x) * L * 10 ^ 19 ≤ x * (p * nextX true p L x) by exact_mod_cast this
  by_cases hx : x = 0
  · have : nextX true p L x = p := by unfold nextX; rw [if_pos hx]
    rw [this]; simp
  · have e : nextX true p L x = cdiv (cdiv (p * L) (10 ^ 5) * 10 ^ 24) (L * 10 ^ 19 + p * x) := by
      unfold nextX; rw [if_neg hx]; simp only [if_true]
    have h1 := le_cdiv_mul (cdiv (p * L) (10 ^ 5) * 10 ^ 24) (d := L * 10 ^ 19 + p * x) (by positivity)
    have h2 := le_cdiv_mul (p * L) (d := 10 ^ 5) (by positivity)
    rw [← e] at h1
    generalize nextX true p L x = n at *
    generalize cdiv (p * L) (10 ^ 5) = c at *
    obtain ⟨k, rfl⟩ := Nat.exists_eq_add_of_le hle
    rw [Nat.add_sub_cancel_left]
    have h3 : (n + k) * L * 10 ^ 19 ≤ c * 10 ^ 5 * 10 ^ 19 := Nat.mul_le_mul_right _ h2
    nlinarith

/-- the price an input of Y leads to is not higher than the curve prescribes -/
theorem amountY_nextY {p L y : Nat} : amountY p (p + y * 10 ^ 29 / L) L ≤ y := by
  rw [amountY_eq, div_le_iff₀ (by positivity), absDiff_of_le (Nat.le_add_right _ _), Nat.add_sub_cancel_left]
  have := Nat.div_mul_le_self (y * 10 ^ 29) L
  exact_mod_cast this

theorem pct_le_one {f : Nat} (h : f ≤ 10 ^ 12) : pct f ≤ 1 := by
  unfold pct
  rw [div_le_one (by positivity)]
  exact_mod_cast h

theorem pct_nonneg (f : Nat) : 0 ≤ pct f := by unfold pct; positivity

/-- fees taken off the amount first cover the rate on the rest -/
theorem rate_of_rest {w : ℚ} {amount fee : Nat} (hf : fee ≤ 10 ^ 12)
    (h : w ≤ ((amount * (10 ^ 12 - fee) / 10 ^ 12 : Nat) : ℚ)) : (1 + pct fee) * w ≤ amount := by
  have h1 : ((amount * (10 ^ 12 - fee) / 10 ^ 12 : Nat) : ℚ) ≤ amount * (1 - pct fee) := by
    have h2 := Nat.div_mul_le_self (amount * (10 ^ 12 - fee)) (10 ^ 12)
    have h3 : ((amount * (10 ^ 12 - fee) / 10 ^ 12 : Nat) : ℚ) * 10 ^ 12 ≤ amount * (10 ^ 12 - fee) := by
      have h4 : (((amount * (10 ^ 12 - fee) / 10 ^ 12 * 10 ^ 12 : Nat)) : ℚ) ≤
          ((amount * (10 ^ 12 - fee) : Nat) : ℚ) := by exact_mod_cast h2
      rw [Nat.cast_mul, Nat.cast_mul, Nat.cast_sub hf] at h4
      push_cast at h4
      exact h4
    unfold pct
    have e : (amount : ℚ) * (1 - fee / 10 ^ 12) = amount * (10 ^ 12 - fee) / 10 ^ 12 := by ring
    rw [e, le_div_iff₀ (by positivity)]
    exact h3
  have p0 := pct_nonneg fee
  have p1 := pct_le_one hf
  have a0 : (0 : ℚ) ≤ amount := Nat.cast_nonneg _
  have h5 := mul_le_mul_of_nonneg_left (h.trans h1) (by linarith : 0 ≤ 1 + pct fee)
  have h6 : (1 + pct fee) * (amount * (1 - pct fee)) = amount - amount * (pct fee * pct fee) := by ring
  have h7 : 0 ≤ (amount : ℚ) * (pct fee * pct fee) := by positivity
  linarith

/-- a step pays the rate on what the curve prescribes besides it -/
theorem step_pays {cur target L amount fee : Nat} {byIn : Bool} {r : SwapResult}
    (hc : MIN_SQRT_PRICE ≤ cur) (ht : MIN_SQRT_PRICE ≤ target) (hL : L ≠ 0) (hf : fee ≤ 10 ^ 12)
    (h : computeSwapStep cur target L amount byIn fee = .ok r) :
    (target ≤ cur → (1 + pct fee) * amountX cur r.nextSqrtPrice L ≤ r.amountIn + r.feeAmount + 2 * slackX) ∧
    (cur < target → (1 + pct fee) * amountY cur r.nextSqrtPrice L ≤ r.amountIn + r.feeAmount) := by
  have F := computeSwapStep_ok hL h
  have hC := C08_step_curve hc ht hL h
  have p0 := pct_nonneg fee
  have p1 := pct_le_one hf
  have sl := slackX_pos
  have hc12 : 10 ^ 12 ≤ cur := le_trans (by norm_num [MIN_SQRT_PRICE]) hc
  by_cases hcase : byIn = true ∧ r.nextSqrtPrice ≠ target
  · have hfe := F.feeEq
    rw [if_pos hcase] at hfe
    have e : (r.amountIn : ℚ) + r.feeAmount = amount := by
      have : r.amountIn + r.feeAmount = amount := by omega
      exact_mod_cast this
    rw [e]
    obtain ⟨_, hn⟩ := F.nextIn hcase.1
    have hn := (hn.resolve_left (fun h => hcase.2 h.2)).2
    unfold getNextSqrtPriceFromInput at hn
    constructor
    · intro hle
      have hd : decide (cur ≥ target) = true := by simpa using hle
      rw [hd, if_pos rfl] at hn
      have hn := (getNextSqrtPriceXUp_add_ok hn).1
      have hpos : 0 < r.nextSqrtPrice := by
        have := step_target_le_next_slack hL hle hc h
        simp only [MIN_SQRT_PRICE] at ht
        omega
      have := amountX_nextX (x := amount * (10 ^ 12 - fee) / 10 ^ 12) hc12 (Nat.pos_of_ne_zero hL)
        (by rw [← hn]; exact hpos)
      rw [← hn] at this
      have := rate_of_rest hf this
      linarith
    · intro hlt
      have hd : decide (cur ≥ target) = false := by simpa using hlt
      rw [hd, if_neg (by decide)] at hn
      have hn := (getNextSqrtPriceYDown_add_ok hn).1
      have := amountY_nextY (p := cur) (L := L) (y := amount * (10 ^ 12 - fee) / 10 ^ 12)
      rw [← hn] at this
      exact rate_of_rest hf this
  · have hfe := F.feeEq
    rw [if_neg hcase] at hfe
    have hr : pct fee * r.amountIn ≤ r.feeAmount := by
      have h1 := le_cdiv_mul (r.amountIn * fee) (d := 10 ^ 12) (by positivity)
      rw [← hfe] at h1
      have h2 : (r.amountIn : ℚ) * fee ≤ r.feeAmount * 10 ^ 12 := by exact_mod_cast h1
      unfold pct
      rw [div_mul_eq_mul_div, div_le_iff₀ (by positivity)]
      linarith
    constructor
    · intro hle
      have h1 := (hC.1 hle).1
      have h2 : amountX cur r.nextSqrtPrice L ≤ r.amountIn + slackX := by unfold slackX; exact h1.le
      have := mul_le_mul_of_nonneg_left h2 (by linarith : 0 ≤ 1 + pct fee)
      nlinarith
    · intro hlt
      have := mul_le_mul_of_nonneg_left (hC.2 hlt).1 (by linarith : 0 ≤ 1 + pct fee)
      nlinarith

variable {s : Inv} {a : SwapArgs} {st st' : SwapState} {target dust : Nat} {r : SwapResult} {p1 p2 : Pool}

/-- one round of a swap -/
theorem iter_pays (hp : PriceOK st.pool.sqrtPrice) (hp' : PriceOK st'.pool.sqrtPrice)
    (hf : a.key.feeTier.fee ≤ 10 ^ 12) (h : IterMove s a st st' target r dust p1 p2) :
    (1 + pct a.key.feeTier.fee) *
        (liq st.pool.liquidity * (coord a.xToY st'.pool.sqrtPrice - coord a.xToY st.pool.sqrtPrice)) ≤
      r.amountIn + r.feeAmount + (if a.xToY then 2 * slackX else 0) := by
  have hn := h.next
  have htg := h.tgt
  rw [h.price] at hp' ⊢
  have pos : ∀ {q}, PriceOK q → 0 < q := fun h => lt_of_lt_of_le (by norm_num [MIN_SQRT_PRICE]) h.1
  have sl := slackX_pos
  by_cases hL : st.pool.liquidity = 0
  · have hst := h.step
    rw [hL, computeSwapStep_zero] at hst
    cases hst
    rw [hL]
    unfold liq
    cases a.xToY <;> simp [sl.le]
  · have hC := step_pays hp.1 h.priceOK.1 hL hf h.step
    cases hx : a.xToY
    · simp only [hx, Bool.false_eq_true, if_false, add_zero] at hn htg ⊢
      rw [coord_diff_Y hn.1]
      rcases Nat.lt_or_ge st.pool.sqrtPrice target with hlt | hge
      · exact hC.2 hlt
      · have e2 : r.nextSqrtPrice = st.pool.sqrtPrice := by omega
        rw [e2, amountY_self, mul_zero]
        positivity
    · simp only [hx, if_true] at hn htg ⊢
      rw [coord_diff_X (pos hp') hn]
      exact hC.1 htg

end Verif
