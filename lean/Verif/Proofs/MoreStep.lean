import Verif.Proofs.AvgStep

/-! # A step of a swap with more to spend -/

namespace Verif
open Service Spec

variable {cur target L A B fee : Nat} {ra rb : SwapResult}

theorem div_anti {n d e : Nat} (hd : 0 < d) (h : d ≤ e) : n / e ≤ n / d := Nat.div_le_div_left h hd

theorem cdiv_anti {n d e : Nat} (hd : 0 < d) (h : d ≤ e) : cdiv n e ≤ cdiv n d := by
  rw [cdiv_le_iff (by omega)]
  exact le_trans (le_cdiv_mul n hd) (Nat.mul_le_mul_left _ h)

/-- further down, more X -/
theorem dxUp_down {p n t : Nat} (h1 : t ≤ n) (h2 : n ≤ p) (hd : 0 < p * t / 10 ^ 24) : dxUp p n L ≤ dxUp p t L := by
  rw [dxUp_def, dxUp_def]
  refine le_trans (cdiv_anti hd (Nat.div_le_div_right (Nat.mul_le_mul_left _ h1))) (cdiv_mono ?_)
  rw [dxNum_def, dxNum_def, absDiff_of_ge h2, absDiff_of_ge (h1.trans h2)]
  exact Nat.div_le_div_right (Nat.mul_le_mul_right _ (by omega))

theorem dyDown_down {p n t : Nat} (h1 : t ≤ n) (h2 : n ≤ p) : dyDown p n L ≤ dyDown p t L := by
  rw [dyDown_def, dyDown_def, absDiff_of_ge h2, absDiff_of_ge (h1.trans h2)]
  exact Nat.div_le_div_right (Nat.mul_le_mul_right _ (by omega))

/-- further up, more X but for roundings -/
theorem dxDown_up {p n t : Nat} (h1 : p ≤ n) (h2 : n ≤ t) (hp : MIN_SQRT_PRICE ≤ p) :
    (dxDown p n L : ℚ) ≤ (1 + relX) * (dxDown p t L + 1) := by
  have m0 : 0 < MIN_SQRT_PRICE := by norm_num [MIN_SQRT_PRICE]
  have hp0 : 0 < p := lt_of_lt_of_le m0 hp
  refine (dxDown_le_amountX hp0 (by omega) L).trans (le_trans ?_ (le_dxDown (a := p) (b := t) (L := L) ?_))
  · rw [amountX_eq hp0 (by omega), amountX_eq hp0 (by omega), absDiff_of_le h1, absDiff_of_le (h1.trans h2),
      div_le_div_iff₀ (by exact_mod_cast Nat.mul_pos hp0 (by omega)) (by exact_mod_cast Nat.mul_pos hp0 (by omega))]
    have : (n - p) * t ≤ (t - p) * n := by
      obtain ⟨i, rfl⟩ := Nat.exists_eq_add_of_le h1
      obtain ⟨j, rfl⟩ := Nat.exists_eq_add_of_le h2
      have e1 : p + i - p = i := by omega
      have e2 : p + i + j - p = i + j := by omega
      rw [e1, e2]
      nlinarith
    have h3 : (n - p) * L * 10 ^ 19 * (p * t) ≤ (t - p) * L * 10 ^ 19 * (p * n) := by
      calc (n - p) * L * 10 ^ 19 * (p * t) = (n - p) * t * (L * 10 ^ 19 * p) := by ring
        _ ≤ (t - p) * n * (L * 10 ^ 19 * p) := Nat.mul_le_mul_right _ this
        _ = _ := by ring
    exact_mod_cast h3
  · refine le_trans ?_ (Nat.mul_le_mul hp (hp.trans (h1.trans h2)))
    norm_num [MIN_SQRT_PRICE]

theorem nextX_anti {p x y : Nat} (hp : 10 ^ 12 ≤ p) (hL : 0 < L) (h : x ≤ y) : nextX true p L y ≤ nextX true p L x := by
  by_cases hx : x = 0
  · have : nextX true p L x = p := by unfold nextX; rw [if_pos hx]
    rw [this]
    exact nextX_add_le hp
  · unfold nextX
    rw [if_neg hx, if_neg (by omega)]
    simp only [if_true]
    exact cdiv_anti (by positivity) (Nat.add_le_add_left (Nat.mul_le_mul_left _ h) _)

theorem after_mono (h : A ≤ B) : A * (10 ^ 12 - fee) / 10 ^ 12 ≤ B * (10 ^ 12 - fee) / 10 ^ 12 :=
  Nat.div_le_div_right (Nat.mul_le_mul_right _ h)

/-- how the same step ends for a smaller and for a larger amount: both at the target with the same amounts, or the
smaller one is used up on the way -/
structure StepOrd (xToY byIn : Bool) (A target : Nat) (ra rb : SwapResult) : Prop where
  price : if xToY then rb.nextSqrtPrice ≤ ra.nextSqrtPrice else ra.nextSqrtPrice ≤ rb.nextSqrtPrice
  out : xToY = true → ra.amountOut ≤ rb.amountOut
  outX : xToY = false → (ra.amountOut : ℚ) ≤ (1 + relX) * (rb.amountOut + 1)
  inp : byIn = false → ra.amountIn + ra.feeAmount ≤ rb.amountIn + rb.feeAmount
  which : (ra.nextSqrtPrice = target ∧ rb = ra) ∨
    (if byIn then ra.nextSqrtPrice ≠ target ∧ ra.amountIn + ra.feeAmount = A else ra.amountOut = A)

theorem StepOrd.same {xToY byIn : Bool} (h : ra.nextSqrtPrice = target) : StepOrd xToY byIn A target ra ra where
  price := by split <;> exact le_rfl
  out _ := le_rfl
  outX _ := by
    have h0 : (0 : ℚ) ≤ ra.amountOut := Nat.cast_nonneg _
    nlinarith [relX_pos]
  inp _ := le_rfl
  which := .inl ⟨h, rfl⟩

theorem SwapResult.ext' {a b : SwapResult} (h1 : a.nextSqrtPrice = b.nextSqrtPrice) (h2 : a.amountIn = b.amountIn)
    (h3 : a.amountOut = b.amountOut) (h4 : a.feeAmount = b.feeAmount) : a = b := by
  cases a; cases b; simp_all

/-- both steps of an exact input reach the target -/
theorem step_same_in (hL : L ≠ 0) (ha : computeSwapStep cur target L A true fee = .ok ra)
    (hb : computeSwapStep cur target L B true fee = .ok rb) (e1 : ra.nextSqrtPrice = target)
    (e2 : rb.nextSqrtPrice = target) : rb = ra := by
  have Fa := computeSwapStep_ok hL ha
  have Fb := computeSwapStep_ok hL hb
  have i1 := Fa.inEq
  have i2 := Fb.inEq
  have o1 := Fa.outEq
  have o2 := Fb.outEq
  have f1 := Fa.feeEq
  have f2 := Fb.feeEq
  rw [if_neg (by simp [e1])] at f1
  rw [if_neg (by simp [e2])] at f2
  rw [e1] at i1 o1
  rw [e2] at i2 o2
  exact SwapResult.ext' (by rw [e1, e2]) (by rw [i1, i2]) (by rw [o1, o2]; rfl) (by rw [f1, f2, i1, i2])

theorem step_done_in (hL : L ≠ 0) (ha : computeSwapStep cur target L A true fee = .ok ra)
    (e1 : ra.nextSqrtPrice ≠ target) : ra.amountIn + ra.feeAmount = A := by
  have f1 := (computeSwapStep_ok hL ha).feeEq
  rw [if_pos ⟨rfl, e1⟩] at f1
  omega

/-- exact input of X, above the price one -/
theorem step_ord_xin (hAB : A ≤ B) (hc : MIN_SQRT_PRICE ≤ cur) (hle : target ≤ cur) (hw : 10 ^ 24 < target)
    (ha : computeSwapStep cur target L A true fee = .ok ra)
    (hb : computeSwapStep cur target L B true fee = .ok rb) : StepOrd true true A target ra rb := by
  by_cases hL : L = 0
  · rw [hL, computeSwapStep_zero] at ha hb
    cases ha; cases hb
    exact .same rfl
  have Fa := computeSwapStep_ok hL ha
  have Fb := computeSwapStep_ok hL hb
  have hd : decide (cur ≥ target) = true := by simpa using hle
  have hwide : (cur - target + 1) * 10 ^ 24 ≤ cur * cur := Nat.mul_le_mul (by omega) (by omega)
  have t1 := step_target_le_next hL hle (fun _ => hwide) ha
  have t2 := step_target_le_next hL hle (fun _ => hwide) hb
  have c12 : 10 ^ 12 ≤ cur := le_trans (by norm_num [MIN_SQRT_PRICE]) hc
  have u1 := step_next_le_cur hL c12 hle ha
  have u2 := step_next_le_cur hL c12 hle hb
  have hab := after_mono (fee := fee) hAB
  have hprice : rb.nextSqrtPrice ≤ ra.nextSqrtPrice := by
    rcases (Fb.nextIn rfl).2 with ⟨h0, h1⟩ | ⟨h0, h1⟩
    · omega
    · rcases (Fa.nextIn rfl).2 with ⟨h2, h3⟩ | ⟨h2, h3⟩
      · omega
      · rw [hd] at h1 h3
        unfold getNextSqrtPriceFromInput at h1 h3
        rw [if_pos rfl] at h1 h3
        rw [(getNextSqrtPriceXUp_add_ok h1).1, (getNextSqrtPriceXUp_add_ok h3).1]
        exact nextX_anti c12 (Nat.pos_of_ne_zero hL) hab
  by_cases e1 : ra.nextSqrtPrice = target
  · have e2 : rb.nextSqrtPrice = target := by omega
    have := step_same_in hL ha hb e1 e2
    subst this
    exact .same e1
  · refine ⟨by simpa using hprice, fun _ => ?_, by simp, by simp, .inr ?_⟩
    · have o1 := Fa.outEq
      have o2 := Fb.outEq
      rw [if_pos rfl, hd, outAmt, if_pos rfl] at o1 o2
      rw [o1, o2]
      exact dyDown_down hprice u1
    · rw [if_pos rfl]
      exact ⟨e1, step_done_in hL ha e1⟩

/-- exact input of Y -/
theorem step_ord_yin (hAB : A ≤ B) (hc : MIN_SQRT_PRICE ≤ cur) (hle : cur ≤ target)
    (ha : computeSwapStep cur target L A true fee = .ok ra)
    (hb : computeSwapStep cur target L B true fee = .ok rb) : StepOrd false true A target ra rb := by
  by_cases hL : L = 0
  · rw [hL, computeSwapStep_zero] at ha hb
    cases ha; cases hb
    exact .same rfl
  have Fa := computeSwapStep_ok hL ha
  have Fb := computeSwapStep_ok hL hb
  rcases Nat.eq_or_lt_of_le hle with heq | hlt
  · have hz : inAmt (decide (cur ≥ target)) cur target L = 0 := by
      have hd : decide (cur ≥ target) = true := by simp [heq]
      rw [hd, inAmt, if_pos rfl, dxUp_def, dxNum_def, heq, absDiff_of_le le_rfl]
      simp [cdiv_zero]
    have e1 : ra.nextSqrtPrice = target := by
      rcases (Fa.nextIn rfl).2 with ⟨-, h⟩ | ⟨h, -⟩
      · exact h
      · omega
    have e2 : rb.nextSqrtPrice = target := by
      rcases (Fb.nextIn rfl).2 with ⟨-, h⟩ | ⟨h, -⟩
      · exact h
      · omega
    have := step_same_in hL ha hb e1 e2
    subst this
    exact .same e1
  have hd : decide (cur ≥ target) = false := by simpa using hlt
  have hD : 10 ^ 24 ≤ cur * target :=
    le_trans (by norm_num [MIN_SQRT_PRICE]) (Nat.mul_le_mul hc (hc.trans hle))
  have t1 := step_next_le_target hL hlt hD ha
  have t2 := step_next_le_target hL hlt hD hb
  have u1 := step_cur_le_next hL hlt ha
  have hab := after_mono (fee := fee) hAB
  have hprice : ra.nextSqrtPrice ≤ rb.nextSqrtPrice := by
    rcases (Fb.nextIn rfl).2 with ⟨h0, h1⟩ | ⟨h0, h1⟩
    · omega
    · rcases (Fa.nextIn rfl).2 with ⟨h2, h3⟩ | ⟨h2, h3⟩
      · omega
      · rw [hd] at h1 h3
        unfold getNextSqrtPriceFromInput at h1 h3
        rw [if_neg (by decide)] at h1 h3
        rw [(getNextSqrtPriceYDown_add_ok h1).1, (getNextSqrtPriceYDown_add_ok h3).1]
        exact Nat.add_le_add_left (Nat.div_le_div_right (Nat.mul_le_mul_right _ hab)) _
  by_cases e1 : ra.nextSqrtPrice = target
  · have e2 : rb.nextSqrtPrice = target := by omega
    have := step_same_in hL ha hb e1 e2
    subst this
    exact .same e1
  · refine ⟨by simpa using hprice, by simp, fun _ => ?_, by simp, .inr ?_⟩
    · have o1 := Fa.outEq
      have o2 := Fb.outEq
      rw [if_pos rfl, hd, outAmt, if_neg (by decide)] at o1 o2
      rw [o1, o2]
      exact dxDown_up u1 hprice hc
    · rw [if_pos rfl]
      exact ⟨e1, step_done_in hL ha e1⟩

/-- exact output of Y -/
theorem step_ord_xout (hAB : A ≤ B) (hc : MIN_SQRT_PRICE ≤ cur) (ht : MIN_SQRT_PRICE ≤ target) (hle : target ≤ cur)
    (ha : computeSwapStep cur target L A false fee = .ok ra)
    (hb : computeSwapStep cur target L B false fee = .ok rb) : StepOrd true false A target ra rb := by
  by_cases hL : L = 0
  · rw [hL, computeSwapStep_zero] at ha hb
    cases ha; cases hb
    exact .same rfl
  have Fa := computeSwapStep_ok hL ha
  have Fb := computeSwapStep_ok hL hb
  have hd : decide (cur ≥ target) = true := by simpa using hle
  have t1 := step_target_le_next hL hle (by simp) ha
  have t2 := step_target_le_next hL hle (by simp) hb
  have c12 : 10 ^ 12 ≤ cur := le_trans (by norm_num [MIN_SQRT_PRICE]) hc
  have u1 := step_next_le_cur hL c12 hle ha
  have hprice : rb.nextSqrtPrice ≤ ra.nextSqrtPrice := by
    rcases Fb.nextOut rfl with ⟨h0, h1⟩ | ⟨h0, h1⟩
    · omega
    · rcases Fa.nextOut rfl with ⟨h2, h3⟩ | ⟨h2, h3⟩
      · omega
      · rw [hd] at h1 h3
        unfold getNextSqrtPriceFromOutput at h1 h3
        rw [if_pos rfl] at h1 h3
        rw [(getNextSqrtPriceYDown_sub_ok h1).2.1, (getNextSqrtPriceYDown_sub_ok h3).2.1]
        exact Nat.sub_le_sub_left (cdiv_mono (Nat.mul_le_mul_right _ hAB)) _
  have o1 := Fa.outEq
  have o2 := Fb.outEq
  rw [if_neg (by decide), hd, outAmt, if_pos rfl] at o1 o2
  have hout := dyDown_down (L := L) hprice u1
  have i1 := Fa.inEq
  have i2 := Fb.inEq
  rw [hd, inAmt, if_pos rfl] at i1 i2
  have f1 := Fa.feeEq
  have f2 := Fb.feeEq
  rw [if_neg (by simp)] at f1 f2
  have hin : ra.amountIn ≤ rb.amountIn := by
    rw [i1, i2]
    exact dxUp_down hprice u1 (Fb.dPos hle)
  have hfee : ra.feeAmount ≤ rb.feeAmount := by
    rw [f1, f2]
    exact cdiv_mono (Nat.mul_le_mul_right _ hin)
  have hout' : ra.amountOut ≤ rb.amountOut := by
    rw [o1, o2]
    exact min_le_min hout hAB
  refine ⟨by simpa using hprice, fun _ => hout', by simp, fun _ => Nat.add_le_add hin hfee, ?_⟩
  rcases Fa.nextOut rfl with ⟨h2, h3⟩ | ⟨h2, h3⟩
  · have e2 : rb.nextSqrtPrice = target := by omega
    left
    rw [hd, outAmt, if_pos rfl] at h2
    refine ⟨h3, SwapResult.ext' (by rw [h3, e2]) (by rw [i1, i2, h3, e2]) ?_ (by rw [f1, f2, i1, i2, h3, e2])⟩
    rw [o1, o2, h3, e2, min_eq_left h2, min_eq_left (h2.trans hAB)]
  · right
    rw [if_neg (by decide)]
    rw [o1]
    apply min_eq_right
    rw [hd] at h3
    unfold getNextSqrtPriceFromOutput at h3
    rw [if_pos rfl] at h3
    obtain ⟨g1, g2, g3⟩ := getNextSqrtPriceYDown_sub_ok h3
    rw [dyDown_def, absDiff_of_ge u1, g2, Nat.sub_sub_self g1, Nat.le_div_iff_mul_le (by positivity)]
    exact le_cdiv_mul _ g3

end Verif
