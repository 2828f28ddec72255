import Verif.Proofs.MoreSwap

/-! # A step of a swap with more to spend and a lower fee -/

namespace Verif
open Service Spec

namespace Cheap

variable {cur target L A B fee fee' : Nat} {ra rb : SwapResult}

theorem after_le (h : A ≤ B) (hf : fee' ≤ fee) : A * (10 ^ 12 - fee) / 10 ^ 12 ≤ B * (10 ^ 12 - fee') / 10 ^ 12 :=
  Nat.div_le_div_right (Nat.mul_le_mul h (Nat.sub_le_sub_left hf _))

/-- how the same step of an exact input ends: both at the target with the same amounts and no higher fee, or the
smaller one is used up on the way -/
structure StepLow (xToY : Bool) (A target : Nat) (ra rb : SwapResult) : Prop where
  price : if xToY then rb.nextSqrtPrice ≤ ra.nextSqrtPrice else ra.nextSqrtPrice ≤ rb.nextSqrtPrice
  out : xToY = true → ra.amountOut ≤ rb.amountOut
  outX : xToY = false → (ra.amountOut : ℚ) ≤ (1 + relX) * (rb.amountOut + 1)
  which : (ra.nextSqrtPrice = target ∧ rb.nextSqrtPrice = target ∧ rb.amountIn = ra.amountIn ∧
      rb.amountOut = ra.amountOut ∧ rb.feeAmount ≤ ra.feeAmount) ∨
    (ra.nextSqrtPrice ≠ target ∧ ra.amountIn + ra.feeAmount = A)

theorem StepLow.same {xToY : Bool} (h : ra.nextSqrtPrice = target ∧ rb.nextSqrtPrice = target ∧
    rb.amountIn = ra.amountIn ∧ rb.amountOut = ra.amountOut ∧ rb.feeAmount ≤ ra.feeAmount) :
    StepLow xToY A target ra rb where
  price := by rw [h.1, h.2.1]; split <;> exact le_rfl
  out _ := h.2.2.2.1.ge
  outX _ := by
    have h0 : (0 : ℚ) ≤ ra.amountOut := Nat.cast_nonneg _
    rw [h.2.2.2.1]
    nlinarith [relX_pos]
  which := .inl h

/-- both steps of an exact input reach the target -/
theorem step_same_low (hL : L ≠ 0) (hf : fee' ≤ fee) (ha : computeSwapStep cur target L A true fee = .ok ra)
    (hb : computeSwapStep cur target L B true fee' = .ok rb) (e1 : ra.nextSqrtPrice = target)
    (e2 : rb.nextSqrtPrice = target) : ra.nextSqrtPrice = target ∧ rb.nextSqrtPrice = target ∧
      rb.amountIn = ra.amountIn ∧ rb.amountOut = ra.amountOut ∧ rb.feeAmount ≤ ra.feeAmount := by
  have Fa := computeSwapStep_ok hL ha
  have Fb := computeSwapStep_ok hL hb
  have i1 := Fa.inEq
  have i2 := Fb.inEq
  have o1 := Fa.outEq
  have o2 := Fb.outEq
  have f1 := Fa.feeEq
  have f2 := Fb.feeEq
  rw [if_neg (by simp [e1])] at f1
  rw [if_neg (by simp [e2])] at f2
  rw [e1] at i1 o1
  rw [e2] at i2 o2
  refine ⟨e1, e2, by rw [i1, i2], by rw [o1, o2]; rfl, ?_⟩
  rw [f1, f2, i1, i2]
  exact cdiv_mono (Nat.mul_le_mul_left _ hf)

/-- exact input of X, above the price one -/
theorem step_low_x (hf : fee' ≤ fee) (hAB : A ≤ B) (hc : MIN_SQRT_PRICE ≤ cur) (hle : target ≤ cur)
    (hw : 10 ^ 24 < target) (ha : computeSwapStep cur target L A true fee = .ok ra)
    (hb : computeSwapStep cur target L B true fee' = .ok rb) : StepLow true A target ra rb := by
  by_cases hL : L = 0
  · rw [hL, computeSwapStep_zero] at ha hb
    cases ha; cases hb
    exact .same ⟨rfl, rfl, rfl, rfl, le_rfl⟩
  have Fa := computeSwapStep_ok hL ha
  have Fb := computeSwapStep_ok hL hb
  have hd : decide (cur ≥ target) = true := by simpa using hle
  have hwide : (cur - target + 1) * 10 ^ 24 ≤ cur * cur := Nat.mul_le_mul (by omega) (by omega)
  have t1 := step_target_le_next hL hle (fun _ => hwide) ha
  have t2 := step_target_le_next hL hle (fun _ => hwide) hb
  have c12 : 10 ^ 12 ≤ cur := le_trans (by norm_num [MIN_SQRT_PRICE]) hc
  have u1 := step_next_le_cur hL c12 hle ha
  have u2 := step_next_le_cur hL c12 hle hb
  have hab := after_le hAB hf
  have hprice : rb.nextSqrtPrice ≤ ra.nextSqrtPrice := by
    rcases (Fb.nextIn rfl).2 with ⟨h0, h1⟩ | ⟨h0, h1⟩
    · omega
    · rcases (Fa.nextIn rfl).2 with ⟨h2, h3⟩ | ⟨h2, h3⟩
      · omega
      · rw [hd] at h1 h3
        unfold getNextSqrtPriceFromInput at h1 h3
        rw [if_pos rfl] at h1 h3
        rw [(getNextSqrtPriceXUp_add_ok h1).1, (getNextSqrtPriceXUp_add_ok h3).1]
        exact nextX_anti c12 (Nat.pos_of_ne_zero hL) hab
  by_cases e1 : ra.nextSqrtPrice = target
  · have e2 : rb.nextSqrtPrice = target := by omega
    exact .same (step_same_low hL hf ha hb e1 e2)
  · refine ⟨by simpa using hprice, fun _ => ?_, by simp, .inr ⟨e1, step_done_in hL ha e1⟩⟩
    have o1 := Fa.outEq
    have o2 := Fb.outEq
    rw [if_pos rfl, hd, outAmt, if_pos rfl] at o1 o2
    rw [o1, o2]
    exact dyDown_down hprice u1

/-- exact input of Y -/
theorem step_low_y (hf : fee' ≤ fee) (hAB : A ≤ B) (hc : MIN_SQRT_PRICE ≤ cur) (hle : cur ≤ target)
    (ha : computeSwapStep cur target L A true fee = .ok ra)
    (hb : computeSwapStep cur target L B true fee' = .ok rb) : StepLow false A target ra rb := by
  by_cases hL : L = 0
  · rw [hL, computeSwapStep_zero] at ha hb
    cases ha; cases hb
    exact .same ⟨rfl, rfl, rfl, rfl, le_rfl⟩
  have Fa := computeSwapStep_ok hL ha
  have Fb := computeSwapStep_ok hL hb
  rcases Nat.eq_or_lt_of_le hle with heq | hlt
  · have hz : inAmt (decide (cur ≥ target)) cur target L = 0 := by
      have hd : decide (cur ≥ target) = true := by simp [heq]
      rw [hd, inAmt, if_pos rfl, dxUp_def, dxNum_def, heq, absDiff_of_le le_rfl]
      simp [cdiv_zero]
    have e1 : ra.nextSqrtPrice = target := by
      rcases (Fa.nextIn rfl).2 with ⟨-, h⟩ | ⟨h, -⟩
      · exact h
      · omega
    have e2 : rb.nextSqrtPrice = target := by
      rcases (Fb.nextIn rfl).2 with ⟨-, h⟩ | ⟨h, -⟩
      · exact h
      · omega
    exact .same (step_same_low hL hf ha hb e1 e2)
  have hd : decide (cur ≥ target) = false := by simpa using hlt
  have hD : 10 ^ 24 ≤ cur * target :=
    le_trans (by norm_num [MIN_SQRT_PRICE]) (Nat.mul_le_mul hc (hc.trans hle))
  have t1 := step_next_le_target hL hlt hD ha
  have t2 := step_next_le_target hL hlt hD hb
  have u1 := step_cur_le_next hL hlt ha
  have hab := after_le hAB hf
  have hprice : ra.nextSqrtPrice ≤ rb.nextSqrtPrice := by
    rcases (Fb.nextIn rfl).2 with ⟨h0, h1⟩ | ⟨h0, h1⟩
    · omega
    · rcases (Fa.nextIn rfl).2 with ⟨h2, h3⟩ | ⟨h2, h3⟩
      · omega
      · rw [hd] at h1 h3
        unfold getNextSqrtPriceFromInput at h1 h3
        rw [if_neg (by decide)] at h1 h3
        rw [(getNextSqrtPriceYDown_add_ok h1).1, (getNextSqrtPriceYDown_add_ok h3).1]
        exact Nat.add_le_add_left (Nat.div_le_div_right (Nat.mul_le_mul_right _ hab)) _
  by_cases e1 : ra.nextSqrtPrice = target
  · have e2 : rb.nextSqrtPrice = target := by omega
    exact .same (step_same_low hL hf ha hb e1 e2)
  · refine ⟨by simpa using hprice, by simp, fun _ => ?_, .inr ⟨e1, step_done_in hL ha e1⟩⟩
    have o1 := Fa.outEq
    have o2 := Fb.outEq
    rw [if_pos rfl, hd, outAmt, if_neg (by decide)] at o1 o2
    rw [o1, o2]
    exact dxDown_up u1 hprice hc

/-- exact output: the fee changes nothing but itself -/
theorem step_low_out (hf : fee' ≤ fee) (ha : computeSwapStep cur target L A false fee = .ok ra)
    (hb : computeSwapStep cur target L A false fee' = .ok rb) : rb.nextSqrtPrice = ra.nextSqrtPrice ∧
      rb.amountIn = ra.amountIn ∧ rb.amountOut = ra.amountOut ∧ rb.feeAmount ≤ ra.feeAmount := by
  by_cases hL : L = 0
  · rw [hL, computeSwapStep_zero] at ha hb
    cases ha; cases hb
    exact ⟨rfl, rfl, rfl, le_rfl⟩
  have Fa := computeSwapStep_ok hL ha
  have Fb := computeSwapStep_ok hL hb
  have hn : rb.nextSqrtPrice = ra.nextSqrtPrice := by
    rcases Fa.nextOut rfl with ⟨h1, h2⟩ | ⟨h1, h2⟩ <;> rcases Fb.nextOut rfl with ⟨h3, h4⟩ | ⟨h3, h4⟩
    · rw [h2, h4]
    · omega
    · omega
    · rw [h2] at h4; injection h4 with h4; exact h4.symm
  have hi : rb.amountIn = ra.amountIn := by rw [Fa.inEq, Fb.inEq, hn]
  refine ⟨hn, hi, by rw [Fa.outEq, Fb.outEq, hn], ?_⟩
  have f1 := Fa.feeEq
  have f2 := Fb.feeEq
  rw [if_neg (by simp)] at f1 f2
  rw [f1, f2, hi]
  exact cdiv_mono (Nat.mul_le_mul_left _ hf)

theorem enough_low {x y p : Nat} {e : Bool} (hf : fee' ≤ fee) (hxy : x ≤ y) (hp : 10 ^ 12 ≤ p)
    (h1 : isEnoughAmountToChangePrice y p L fee' true true = .ok false)
    (h2 : isEnoughAmountToChangePrice x p L fee true true = .ok e) : e = false := by
  obtain ⟨hL, h3⟩ := enough_false h1
  unfold isEnoughAmountToChangePrice at h2
  rw [if_neg hL] at h2
  simp only [if_true, bind_ok_iff, pure_ok_iff, subC_ok_iff] at h2
  obtain ⟨n, ⟨k, ⟨_, rfl⟩, z, hz, hn⟩, rfl⟩ := h2
  have e := tokMulPct_ok hz
  rw [pctOne_eq] at e
  unfold getNextSqrtPriceFromInput at hn
  rw [if_pos rfl] at hn
  have h4 := (getNextSqrtPriceXUp_add_ok hn).1
  rw [e] at h4
  have h5 := nextX_anti hp (Nat.pos_of_ne_zero hL) (after_le hxy hf)
  have h6 := nextX_add_le (L := L) (x := x * (10 ^ 12 - fee) / 10 ^ 12) hp
  simp only [ne_eq, decide_eq_false_iff_not, not_not]
  omega

theorem enough_out {x p : Nat} {xToY : Bool} : isEnoughAmountToChangePrice x p L fee' false xToY =
    isEnoughAmountToChangePrice x p L fee false xToY := by
  unfold isEnoughAmountToChangePrice
  simp

end Cheap
end Verif
