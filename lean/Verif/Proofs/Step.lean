import Verif.Proofs.Amount

/-! # The swap step: inversion and price bounds -/

set_option exponentiation.threshold 1000

namespace Verif

/-! ## Next price, closed forms -/

/-- next price after adding (`add = true`) or taking `x` token X -/
def nextX (add : Bool) (p L x : Nat) : Nat :=
  if x = 0 then p
  else cdiv (cdiv (p * L) (10 ^ 5) * 10 ^ 24)
    (if add then L * 10 ^ 19 + p * x else L * 10 ^ 19 - p * x)

theorem tenTo19 : (10000000000000000000 : Nat) = 10 ^ 19 := by norm_num
theorem tenTo24 : (1000000000000000000000000 : Nat) = 10 ^ 24 := by norm_num

theorem getNextSqrtPriceXUp_add_ok {p L x n : Nat} (h : getNextSqrtPriceXUp p L x true = .ok n) :
    n = nextX true p L x ∧ (x = 0 ∨ n < 2 ^ 128) ∧ (x = 0 ∨ 0 < L * 10 ^ 19 + p * x) := by
  unfold getNextSqrtPriceXUp at h
  by_cases hx : x = 0
  · rw [if_pos hx] at h
    cases h
    simp [nextX, hx]
  · rw [if_neg hx] at h
    unfold liqToPriceValue checkedBigDivValuesUp at h
    simp only [if_true, bind_ok_iff, mulC_ok_iff, addC_ok_iff, subC_ok_iff, divC_ok_iff,
      fit_ok_iff] at h
    obtain ⟨_, ⟨_, rfl⟩, px, hpx, den, ⟨_, rfl⟩, num, hnum, _, ⟨_, rfl⟩, _, ⟨h1, rfl⟩, _, ⟨_, rfl⟩,
      _, ⟨h0, rfl⟩, hlt, rfl⟩ := h
    have hpx := bigMulToValue_ok hpx
    have hnum := bigMulToValueUp_ok hnum
    rw [Nat.div_one] at hpx
    subst hpx hnum
    have e : nextX true p L x = (cdiv (p * L) liqOne * spOne +
        (L * 10000000000000000000 + p * x - 1)) / (L * 10000000000000000000 + p * x) := by
      rw [← cdiv_def, liqOne_eq, spOne_eq, tenTo19]
      simp only [nextX, if_neg hx, if_true]
    rw [← e] at hlt
    refine ⟨e.symm, Or.inr (e ▸ hlt), Or.inr ?_⟩
    rw [tenTo19] at h1
    exact h1

theorem getNextSqrtPriceXUp_sub_ok {p L x n : Nat} (h : getNextSqrtPriceXUp p L x false = .ok n) :
    n = nextX false p L x ∧ (x = 0 ∨ n < 2 ^ 128) ∧ (x = 0 ∨ p * x < L * 10 ^ 19) := by
  unfold getNextSqrtPriceXUp at h
  by_cases hx : x = 0
  · rw [if_pos hx] at h
    cases h
    simp [nextX, hx]
  · rw [if_neg hx] at h
    unfold liqToPriceValue checkedBigDivValuesUp at h
    simp only [Bool.false_eq_true, if_false, bind_ok_iff, mulC_ok_iff, addC_ok_iff, subC_ok_iff,
      divC_ok_iff, fit_ok_iff] at h
    obtain ⟨_, ⟨_, rfl⟩, px, hpx, den, ⟨hle, rfl⟩, num, hnum, _, ⟨_, rfl⟩, _, ⟨h1, rfl⟩, _,
      ⟨_, rfl⟩, _, ⟨h0, rfl⟩, hlt, rfl⟩ := h
    have hpx := bigMulToValue_ok hpx
    have hnum := bigMulToValueUp_ok hnum
    rw [Nat.div_one] at hpx
    subst hpx hnum
    have e : nextX false p L x = (cdiv (p * L) liqOne * spOne +
        (L * 10000000000000000000 - p * x - 1)) / (L * 10000000000000000000 - p * x) := by
      rw [← cdiv_def, liqOne_eq, spOne_eq, tenTo19]
      simp only [nextX, if_neg hx, Bool.false_eq_true, if_false]
    rw [← e] at hlt
    refine ⟨e.symm, Or.inr (e ▸ hlt), Or.inr ?_⟩
    rw [tenTo19] at h1
    generalize L * 10 ^ 19 = u at *
    omega

theorem mul_24_24 (y : Nat) : y * 10 ^ 24 * 10 ^ 24 = y * 10 ^ 29 * 10 ^ 19 := by ring

theorem getNextSqrtPriceYDown_add_ok {p L y n : Nat}
    (h : getNextSqrtPriceYDown p L y true = .ok n) :
    n = p + y * 10 ^ 29 / L ∧ n < 2 ^ 128 ∧ 0 < L := by
  unfold getNextSqrtPriceYDown tokToPriceValue liqToPriceValue checkedBigDivValues at h
  simp only [if_true, bind_ok_iff, mulC_ok_iff, addC_ok_iff, divC_ok_iff, fit_ok_iff] at h
  obtain ⟨_, ⟨_, rfl⟩, _, ⟨_, rfl⟩, _, ⟨_, ⟨_, rfl⟩, _, ⟨h0, rfl⟩, _, rfl⟩, hlt, rfl⟩ := h
  rw [spOne_eq, tenTo24, tenTo19, mul_24_24, Nat.mul_div_mul_right _ _ (by positivity)] at *
  refine ⟨rfl, hlt, ?_⟩
  rcases Nat.eq_zero_or_pos L with h2 | h2
  · rw [h2] at h0; simp at h0
  · exact h2

theorem getNextSqrtPriceYDown_sub_ok {p L y n : Nat}
    (h : getNextSqrtPriceYDown p L y false = .ok n) :
    cdiv (y * 10 ^ 29) L ≤ p ∧ n = p - cdiv (y * 10 ^ 29) L ∧ 0 < L := by
  unfold getNextSqrtPriceYDown tokToPriceValue liqToPriceValue checkedBigDivValuesUp at h
  simp only [Bool.false_eq_true, if_false, bind_ok_iff, mulC_ok_iff, addC_ok_iff, divC_ok_iff,
    fit_ok_iff, subC_ok_iff] at h
  obtain ⟨_, ⟨_, rfl⟩, _, ⟨_, rfl⟩, _, ⟨_, ⟨_, rfl⟩, _, ⟨h1, rfl⟩, _, ⟨_, rfl⟩, _, ⟨h0, rfl⟩, _,
    rfl⟩, hle, rfl⟩ := h
  have hL : 0 < L := by
    rcases Nat.eq_zero_or_pos L with h2 | h2
    · rw [h2] at h0; simp at h0
    · exact h2
  rw [spOne_eq, ← cdiv_def, tenTo24, tenTo19, mul_24_24, cdiv_mul_right _ (by positivity) hL] at *
  exact ⟨hle, rfl, hL⟩

/-! ## Inversion of the step -/

/-- closed form of the input (rounded up) between two prices -/
def inAmt (xToY : Bool) (a b L : Nat) : Nat := if xToY then dxUp a b L else dyUp a b L
/-- closed form of the output (rounded down) between two prices -/
def outAmt (xToY : Bool) (a b L : Nat) : Nat := if xToY then dyDown a b L else dxDown a b L

theorem absDiff_swap_dx (a b L : Nat) : dxUp a b L = dxUp b a L := by
  unfold dxUp dxNum; rw [absDiff_comm, Nat.mul_comm a b]
theorem absDiff_swap_dxd (a b L : Nat) : dxDown a b L = dxDown b a L := by
  unfold dxDown dxNum; rw [absDiff_comm, Nat.mul_comm a b]
theorem absDiff_swap_dy (a b L : Nat) : dyUp a b L = dyUp b a L := by
  unfold dyUp; rw [absDiff_comm]
theorem absDiff_swap_dyd (a b L : Nat) : dyDown a b L = dyDown b a L := by
  unfold dyDown; rw [absDiff_comm]

theorem tokMulPct_ok {a p r : Nat} (h : tokMulPct a p = .ok r) : r = a * p / 10 ^ 12 := by
  unfold tokMulPct bigMul at h
  simp only [bind_ok_iff, mulC_ok_iff, fit_ok_iff] at h
  obtain ⟨_, ⟨_, rfl⟩, _, rfl⟩ := h
  rw [pctOne_eq]

theorem tokMulPctUp_ok {a p r : Nat} (h : tokMulPctUp a p = .ok r) :
    r = cdiv (a * p) (10 ^ 12) ∧ r < 2 ^ 256 := by
  unfold tokMulPctUp bigMulUp at h
  simp only [bind_ok_iff, mulC_ok_iff, fit_ok_iff, addC_ok_iff] at h
  obtain ⟨_, ⟨_, rfl⟩, _, ⟨_, rfl⟩, hlt, rfl⟩ := h
  rw [pctOne_eq, ← cdiv_def] at *
  exact ⟨rfl, hlt⟩

theorem getIn_ok {xToY : Bool} {a b L x : Nat}
    (h : (if xToY = true then getDeltaX b a L true else getDeltaY a b L true) = .ok x) :
    x = inAmt xToY a b L ∧ x < 2 ^ 256 ∧ (xToY = true → 0 < a * b / 10 ^ 24) := by
  cases xToY
  · simp only [Bool.false_eq_true, if_false] at h
    obtain ⟨h1, h2⟩ := getDeltaY_up_ok h
    refine ⟨?_, h2, by simp⟩
    rw [h1]; exact (if_neg (by decide)).symm
  · simp only [if_true] at h
    obtain ⟨h1, h2, h3⟩ := getDeltaX_up_ok h
    refine ⟨?_, h2, fun _ => by rw [Nat.mul_comm]; exact h3⟩
    rw [h1, absDiff_swap_dx]
    exact (if_pos rfl).symm

theorem getOut_ok {xToY : Bool} {a b L x : Nat}
    (h : (if xToY = true then getDeltaY b a L false else getDeltaX a b L false) = .ok x) :
    x = outAmt xToY a b L ∧ x < 2 ^ 256 := by
  cases xToY
  · simp only [Bool.false_eq_true, if_false] at h
    obtain ⟨h1, h2, -⟩ := getDeltaX_down_ok h
    refine ⟨?_, h2⟩
    rw [h1]
    exact (if_neg (by decide)).symm
  · simp only [if_true] at h
    obtain ⟨h1, h2⟩ := getDeltaY_down_ok h
    refine ⟨?_, h2⟩
    rw [h1, absDiff_swap_dyd]
    exact (if_pos rfl).symm

/-- the facts established by a successful step with non-zero liquidity -/
structure StepFacts (cur target L amount : Nat) (byIn : Bool) (fee : Nat) (r : SwapResult) : Prop
    where
  inEq : r.amountIn = inAmt (decide (cur ≥ target)) cur r.nextSqrtPrice L
  inLt : r.amountIn < 2 ^ 256
  dPos : target ≤ cur → 0 < cur * r.nextSqrtPrice / 10 ^ 24
  outEq : r.amountOut = if byIn then outAmt (decide (cur ≥ target)) cur r.nextSqrtPrice L
    else min (outAmt (decide (cur ≥ target)) cur r.nextSqrtPrice L) amount
  feeEq : if byIn = true ∧ r.nextSqrtPrice ≠ target then
      r.amountIn ≤ amount ∧ r.feeAmount = amount - r.amountIn
    else r.feeAmount = cdiv (r.amountIn * fee) (10 ^ 12)
  nextIn : byIn = true → fee ≤ 10 ^ 12 ∧
    ((inAmt (decide (cur ≥ target)) cur target L ≤ amount * (10 ^ 12 - fee) / 10 ^ 12 ∧
      r.nextSqrtPrice = target) ∨
     (amount * (10 ^ 12 - fee) / 10 ^ 12 < inAmt (decide (cur ≥ target)) cur target L ∧
      getNextSqrtPriceFromInput cur L (amount * (10 ^ 12 - fee) / 10 ^ 12) (decide (cur ≥ target))
        = .ok r.nextSqrtPrice))
  nextOut : byIn = false →
    ((outAmt (decide (cur ≥ target)) cur target L ≤ amount ∧ r.nextSqrtPrice = target) ∨
     (amount < outAmt (decide (cur ≥ target)) cur target L ∧
      getNextSqrtPriceFromOutput cur L amount (decide (cur ≥ target)) = .ok r.nextSqrtPrice))
  dTarget : byIn = true → target ≤ cur → 0 < cur * target / 10 ^ 24

theorem computeSwapStep_zero {cur target amount fee : Nat} {byIn : Bool} :
    computeSwapStep cur target 0 amount byIn fee = .ok ⟨target, 0, 0, 0⟩ := by
  unfold computeSwapStep; rw [if_pos rfl]

theorem stepByIn_ok {cur target L amount fee n i : Nat} {d : Bool}
    (h : stepByIn cur target L amount fee d = .ok (n, i)) :
    fee ≤ 10 ^ 12 ∧ i = inAmt d cur target L ∧ i < 2 ^ 256 ∧
    (d = true → 0 < cur * target / 10 ^ 24) ∧
    ((inAmt d cur target L ≤ amount * (10 ^ 12 - fee) / 10 ^ 12 ∧ n = target) ∨
     (amount * (10 ^ 12 - fee) / 10 ^ 12 < inAmt d cur target L ∧
      getNextSqrtPriceFromInput cur L (amount * (10 ^ 12 - fee) / 10 ^ 12) d = .ok n)) := by
  unfold stepByIn at h
  simp only [bind_ok_iff, subC_ok_iff, pure_ok_iff, Prod.mk.injEq] at h
  obtain ⟨_, ⟨hf, rfl⟩, after, hafter, ain, hain, next, hnext, rfl, rfl⟩ := h
  have hafter := tokMulPct_ok hafter
  obtain ⟨hi, hi2, hi3⟩ := getIn_ok hain
  rw [pctOne_eq] at hf hafter
  rw [hafter, hi] at hnext
  refine ⟨hf, hi, hi2, hi3, ?_⟩
  split at hnext
  · rename_i hc
    simp only [pure_ok_iff] at hnext
    exact Or.inl ⟨hc, hnext.symm⟩
  · rename_i hc
    exact Or.inr ⟨not_le.1 hc, hnext⟩

theorem stepByOut_ok {cur target L amount n o : Nat} {d : Bool}
    (h : stepByOut cur target L amount d = .ok (n, o)) :
    o = outAmt d cur target L ∧ o < 2 ^ 256 ∧
    ((outAmt d cur target L ≤ amount ∧ n = target) ∨
     (amount < outAmt d cur target L ∧ getNextSqrtPriceFromOutput cur L amount d = .ok n)) := by
  unfold stepByOut at h
  simp only [bind_ok_iff, pure_ok_iff, Prod.mk.injEq] at h
  obtain ⟨aout, hout, next, hnext, rfl, rfl⟩ := h
  obtain ⟨hi, hi2⟩ := getOut_ok hout
  rw [hi] at hnext
  refine ⟨hi, hi2, ?_⟩
  split at hnext
  · rename_i hc
    simp only [pure_ok_iff] at hnext
    exact Or.inl ⟨hc, hnext.symm⟩
  · rename_i hc
    exact Or.inr ⟨not_le.1 hc, hnext⟩

theorem computeSwapStep_ok {cur target L amount fee : Nat} {byIn : Bool} {r : SwapResult}
    (hL : L ≠ 0) (h : computeSwapStep cur target L amount byIn fee = .ok r) :
    StepFacts cur target L amount byIn fee r := by
  unfold computeSwapStep at h
  rw [if_neg hL] at h
  cases byIn
  · simp only [Bool.false_eq_true, if_false, bind_ok_iff, pure_ok_iff, Bool.not_false, Bool.or_true,
      if_true, Bool.or_false, Bool.true_and, Bool.false_and] at h
    obtain ⟨⟨n, i0, o0⟩, ⟨⟨n', o'⟩, hstep, heq⟩, ain, hain, aout, haout, fe, hfee, rfl⟩ := h
    simp only [Prod.mk.injEq] at heq
    obtain ⟨rfl, rfl, rfl⟩ := heq
    obtain ⟨ho, ho2, hn⟩ := stepByOut_ok hstep
    obtain ⟨hi, hi2, hi3⟩ := getIn_ok hain
    obtain ⟨hf, hf2⟩ := tokMulPctUp_ok hfee
    have haout' : aout = outAmt (decide (cur ≥ target)) cur n' L := by
      split at haout
      · exact (getOut_ok haout).1
      · rename_i hc
        simp only [decide_eq_true_eq, not_not] at hc
        simp only [pure_ok_iff] at haout
        rw [← haout, ho, hc]
    refine ⟨hi, hi2, fun hle => hi3 (by simpa using hle), ?_, ?_, by simp, fun _ => hn, by simp⟩
    · simp only [Bool.false_eq_true, if_false, decide_eq_true_eq]
      rw [← haout']
      split <;> omega
    · simp only [Bool.false_eq_true, false_and, if_false]
      exact hf
  · simp only [if_true, bind_ok_iff, pure_ok_iff, Bool.not_true, Bool.or_true,
      if_true, Bool.or_false, Bool.true_and, Bool.false_and] at h
    obtain ⟨⟨n, i0, o0⟩, ⟨⟨n', i'⟩, hstep, heq⟩, ain, hain, aout, haout, fe, hfee, rfl⟩ := h
    simp only [Prod.mk.injEq] at heq
    obtain ⟨rfl, rfl, rfl⟩ := heq
    obtain ⟨hfee1, ho, ho2, hD, hn⟩ := stepByIn_ok hstep
    have hin : ain = inAmt (decide (cur ≥ target)) cur n' L ∧ ain < 2 ^ 256 ∧
        (decide (cur ≥ target) = true → 0 < cur * n' / 10 ^ 24) := by
      split at hain
      · exact getIn_ok hain
      · rename_i hc
        simp only [decide_eq_true_eq, not_not] at hc
        simp only [pure_ok_iff] at hain
        rw [← hain, ← hc]
        exact ⟨ho, ho2, hD⟩
    obtain ⟨hi, hi2, hi3⟩ := hin
    refine ⟨hi, hi2, fun hle => hi3 (by simpa using hle), ?_, ?_, fun _ => ⟨hfee1, hn⟩, by simp,
      fun _ hle => hD (by simpa using hle)⟩
    · simp only [Bool.false_eq_true, if_false, if_true]
      exact (getOut_ok haout).1
    · simp only [true_and]
      by_cases hc : n' = target
      · rw [if_neg (by simpa using hc)]
        rw [if_neg (by simpa using hc)] at hfee
        exact (tokMulPctUp_ok hfee).1
      · rw [if_pos hc]
        rw [if_pos (by simpa using hc)] at hfee
        simp only [subC_ok_iff] at hfee
        exact hfee

/-! ## Price bounds of the four modes -/

theorem ten24_le_sq {p : Nat} (hp : 10 ^ 12 ≤ p) : 10 ^ 24 ≤ p * p :=
  le_trans (by norm_num) (Nat.mul_le_mul hp hp)

/-- adding token X never raises the price -/
theorem nextX_add_le {p L x : Nat} (hp : 10 ^ 12 ≤ p) : nextX true p L x ≤ p := by
  unfold nextX
  by_cases hx : x = 0
  · rw [if_pos hx]
  · rw [if_neg hx]
    simp only [if_true]
    have hpx : 0 < p * x := Nat.mul_pos (by omega) (Nat.pos_of_ne_zero hx)
    rw [cdiv_le_iff (by omega)]
    have h1 := cdiv_mul_lt (p * L) (d := 10 ^ 5) (by positivity)
    have h2 := ten24_le_sq hp
    have h3 : 1 ≤ x := Nat.pos_of_ne_zero hx
    have h4 : p * p * 1 ≤ p * p * x := Nat.mul_le_mul_left _ h3
    generalize cdiv (p * L) (10 ^ 5) = c at *
    have h5 : c * 10 ^ 5 * 10 ^ 19 ≤ (p * L + 10 ^ 5) * 10 ^ 19 := Nat.mul_le_mul_right _ h1.le
    nlinarith

/-- taking token X never lowers the price -/
theorem le_nextX_sub {p L x : Nat} (h : x = 0 ∨ p * x < L * 10 ^ 19) : p ≤ nextX false p L x := by
  unfold nextX
  by_cases hx : x = 0
  · rw [if_pos hx]
  · rw [if_neg hx]
    simp only [Bool.false_eq_true, if_false]
    have hlt := h.resolve_left hx
    rcases Nat.eq_zero_or_pos p with h0 | h0
    · omega
    apply Nat.le_of_pred_lt
    rw [lt_cdiv_iff (by omega)]
    have h1 := le_cdiv_mul (p * L) (d := 10 ^ 5) (by positivity)
    generalize cdiv (p * L) (10 ^ 5) = c at *
    have h5 : p * L * 10 ^ 19 ≤ c * 10 ^ 5 * 10 ^ 19 := Nat.mul_le_mul_right _ h1
    have h6 : p.pred * (L * 10 ^ 19 - p * x) ≤ p.pred * (L * 10 ^ 19) :=
      Nat.mul_le_mul_left _ (Nat.sub_le _ _)
    have h7 : p.pred * (L * 10 ^ 19) < p * (L * 10 ^ 19) :=
      Nat.mul_lt_mul_of_pos_right (Nat.pred_lt (by omega)) (by omega)
    calc _ ≤ _ := h6
      _ < _ := h7
      _ = p * L * 10 ^ 19 := by ring
      _ ≤ _ := h5
      _ = c * 10 ^ 24 := by ring

/-- exact output Y→X: the target is not passed -/
theorem nextX_sub_le {p b L x : Nat} (hpb : p ≤ b) (hD : 10 ^ 24 ≤ p * b)
    (hx : x < dxDown p b L) (hden : x = 0 ∨ p * x < L * 10 ^ 19) : nextX false p L x ≤ b := by
  unfold nextX
  by_cases h0 : x = 0
  · rw [if_pos h0]; exact hpb
  · rw [if_neg h0]
    simp only [Bool.false_eq_true, if_false]
    have hlt := hden.resolve_left h0
    rw [cdiv_le_iff (by omega)]
    -- (x + 1) * (p b) ≤ Δ L 10^19
    have h1 : (x + 1) * cdiv (p * b) (10 ^ 24) ≤ dxNum p b L := by
      have hpos : 0 < cdiv (p * b) (10 ^ 24) := cdiv_pos (by omega) (by positivity)
      rw [dxDown_def] at hx; exact (Nat.le_div_iff_mul_le hpos).1 hx
    have h2 := le_cdiv_mul (p * b) (d := 10 ^ 24) (by positivity)
    have h3 : dxNum p b L * 10 ^ 5 ≤ absDiff p b * L := by rw [dxNum_def]; exact Nat.div_mul_le_self _ _
    rw [absDiff_of_le hpb] at h3
    have h4 := cdiv_mul_lt (p * L) (d := 10 ^ 5) (by positivity)
    generalize cdiv (p * L) (10 ^ 5) = c at *
    generalize cdiv (p * b) (10 ^ 24) = D at *
    generalize dxNum p b L = N at *
    obtain ⟨k, rfl⟩ := Nat.exists_eq_add_of_le hpb
    rw [Nat.add_sub_cancel_left] at h3
    obtain ⟨e, he⟩ := Nat.exists_eq_add_of_le hlt.le
    have he' : L * 10 ^ 19 - p * x = e := by omega
    rw [he']
    have h5 : (x + 1) * (p * (p + k)) ≤ k * L * 10 ^ 19 := by
      calc (x + 1) * (p * (p + k)) ≤ (x + 1) * (D * 10 ^ 24) := Nat.mul_le_mul_left _ h2
        _ = (x + 1) * D * 10 ^ 24 := by ring
        _ ≤ N * 10 ^ 24 := Nat.mul_le_mul_right _ h1
        _ = N * 10 ^ 5 * 10 ^ 19 := by ring
        _ ≤ _ := Nat.mul_le_mul_right _ h3
    -- c 10^24 ≤ p L 10^19 + 10^24 ≤ (p+k) e
    have h6 : c * 10 ^ 5 * 10 ^ 19 ≤ (p * L + 10 ^ 5) * 10 ^ 19 := Nat.mul_le_mul_right _ h4.le
    have h7 : (p + k) * (L * 10 ^ 19) = (p + k) * (p * x + e) := by rw [he]
    nlinarith

/-- exact input X→Y: the target is not passed when the interval is not too wide for its price -/
theorem le_nextX_add {a b L x : Nat} (hab : a ≤ b) (hL : 0 < L)
    (hw : (b - a + 1) * 10 ^ 24 ≤ b * b) (hD : 0 < b * a / 10 ^ 24)
    (hx : x < dxUp b a L) : a ≤ nextX true b L x := by
  unfold nextX
  by_cases h0 : x = 0
  · rw [if_pos h0]; exact hab
  · rw [if_neg h0]
    simp only [if_true]
    rcases Nat.eq_zero_or_pos a with ha | ha
    · omega
    apply Nat.le_of_pred_lt
    rw [lt_cdiv_iff (by positivity)]
    have h1 : x * (b * a / 10 ^ 24) < dxNum b a L := by rw [dxUp_def] at hx; exact (lt_cdiv_iff hD).1 hx
    have h2 := lt_div_add_one_mul (b * a) (d := 10 ^ 24) (by positivity)
    have h3 : dxNum b a L * 10 ^ 5 ≤ absDiff b a * L := by rw [dxNum_def]; exact Nat.div_mul_le_self _ _
    rw [absDiff_of_ge hab] at h3
    have h4 := le_cdiv_mul (b * L) (d := 10 ^ 5) (by positivity)
    generalize cdiv (b * L) (10 ^ 5) = c at *
    generalize b * a / 10 ^ 24 = D at *
    generalize dxNum b a L = N at *
    obtain ⟨k, rfl⟩ := Nat.exists_eq_add_of_le hab
    rw [Nat.add_sub_cancel_left] at h3 hw
    obtain ⟨a', rfl⟩ := Nat.exists_eq_succ_of_ne_zero ha.ne'
    simp only [Nat.pred_succ, Nat.succ_eq_add_one] at *
    -- x ((a+k) a) < k L 10^19 + x 10^24
    have h5 : x * ((a' + 1 + k) * (a' + 1)) < k * L * 10 ^ 19 + x * 10 ^ 24 := by
      have hx0 : 0 < x := Nat.pos_of_ne_zero h0
      calc x * ((a' + 1 + k) * (a' + 1)) < x * ((D + 1) * 10 ^ 24) :=
            Nat.mul_lt_mul_of_pos_left h2 hx0
        _ = x * D * 10 ^ 24 + x * 10 ^ 24 := by ring
        _ ≤ N * 10 ^ 24 + x * 10 ^ 24 :=
            Nat.add_le_add_right (Nat.mul_le_mul_right _ h1.le) _
        _ = N * 10 ^ 5 * 10 ^ 19 + x * 10 ^ 24 := by ring
        _ ≤ _ := Nat.add_le_add_right (Nat.mul_le_mul_right _ h3) _
    -- key: x * 10^24 ≤ L 10^19 + x (a+k), otherwise contradiction with the width
    have h6 : x * 10 ^ 24 ≤ L * 10 ^ 19 + x * (a' + 1 + k) := by
      by_contra hc
      rw [not_le] at hc
      -- (L 10^19) < x (10^24 - b);  x (b a - 10^24) < k L 10^19
      have h7 : k * (L * 10 ^ 19 + x * (a' + 1 + k)) ≤ k * (x * 10 ^ 24) :=
        Nat.mul_le_mul_left _ hc.le
      have h8 : x * ((k + 1) * 10 ^ 24) ≤ x * ((a' + 1 + k) * (a' + 1 + k)) :=
        Nat.mul_le_mul_left _ hw
      nlinarith
    have h9 : (a' + 1 + k) * L * 10 ^ 19 ≤ c * 10 ^ 5 * 10 ^ 19 := Nat.mul_le_mul_right _ h4
    have h10 : 0 < L * 10 ^ 19 := by positivity
    nlinarith

/-- exact input Y→X: the target is not passed -/
theorem nextY_add_le {p b L y : Nat} (hpb : p ≤ b) (hL : 0 < L) (hy : y < dyUp p b L) :
    p + y * 10 ^ 29 / L ≤ b := by
  have h1 : y * 10 ^ 29 < absDiff p b * L := by rw [dyUp_def] at hy; exact (lt_cdiv_iff (by positivity)).1 hy
  rw [absDiff_of_le hpb] at h1
  have : y * 10 ^ 29 / L ≤ b - p := by
    rw [← Nat.lt_add_one_iff, Nat.div_lt_iff_lt_mul hL, Nat.add_mul]
    omega
  omega

/-- exact output X→Y: the target is not passed -/
theorem le_nextY_sub {p a L y : Nat} (hap : a ≤ p) (hL : 0 < L) (hy : y < dyDown p a L) :
    a ≤ p - cdiv (y * 10 ^ 29) L := by
  have h1 : (y + 1) * 10 ^ 29 ≤ absDiff p a * L := by rw [dyDown_def] at hy; exact (Nat.le_div_iff_mul_le (by positivity)).1 hy
  rw [absDiff_of_ge hap] at h1
  have : cdiv (y * 10 ^ 29) L ≤ p - a := by
    rw [cdiv_le_iff hL]
    exact le_trans (Nat.mul_le_mul_right _ (Nat.le_succ y)) h1
  omega

/-! ## The step as a whole -/

theorem step_next_le_cur {cur target L amount fee : Nat} {byIn : Bool} {r : SwapResult}
    (hL : L ≠ 0) (hc : 10 ^ 12 ≤ cur) (hle : target ≤ cur)
    (h : computeSwapStep cur target L amount byIn fee = .ok r) : r.nextSqrtPrice ≤ cur := by
  have F := computeSwapStep_ok hL h
  have hd : decide (cur ≥ target) = true := by simpa using hle
  cases byIn
  · rcases F.nextOut rfl with ⟨-, h1⟩ | ⟨-, h1⟩
    · omega
    · rw [hd] at h1
      unfold getNextSqrtPriceFromOutput at h1
      rw [if_pos rfl] at h1
      obtain ⟨-, h2, -⟩ := getNextSqrtPriceYDown_sub_ok h1
      omega
  · rcases (F.nextIn rfl).2 with ⟨-, h1⟩ | ⟨-, h1⟩
    · omega
    · rw [hd] at h1
      unfold getNextSqrtPriceFromInput at h1
      rw [if_pos rfl] at h1
      obtain ⟨h2, -⟩ := getNextSqrtPriceXUp_add_ok h1
      rw [h2]
      exact nextX_add_le hc

theorem step_cur_le_next {cur target L amount fee : Nat} {byIn : Bool} {r : SwapResult}
    (hL : L ≠ 0) (hlt : cur < target)
    (h : computeSwapStep cur target L amount byIn fee = .ok r) : cur ≤ r.nextSqrtPrice := by
  have F := computeSwapStep_ok hL h
  have hd : decide (cur ≥ target) = false := by simpa using hlt
  cases byIn
  · rcases F.nextOut rfl with ⟨-, h1⟩ | ⟨-, h1⟩
    · omega
    · rw [hd] at h1
      unfold getNextSqrtPriceFromOutput at h1
      rw [if_neg (by decide)] at h1
      obtain ⟨h2, -, h3⟩ := getNextSqrtPriceXUp_sub_ok h1
      rw [h2]
      exact le_nextX_sub h3
  · rcases (F.nextIn rfl).2 with ⟨-, h1⟩ | ⟨-, h1⟩
    · omega
    · rw [hd] at h1
      unfold getNextSqrtPriceFromInput at h1
      rw [if_neg (by decide)] at h1
      obtain ⟨h2, -⟩ := getNextSqrtPriceYDown_add_ok h1
      rw [h2]
      exact Nat.le_add_right _ _

theorem step_next_le_target {cur target L amount fee : Nat} {byIn : Bool} {r : SwapResult}
    (hL : L ≠ 0) (hlt : cur < target) (hD : 10 ^ 24 ≤ cur * target)
    (h : computeSwapStep cur target L amount byIn fee = .ok r) : r.nextSqrtPrice ≤ target := by
  have F := computeSwapStep_ok hL h
  have hd : decide (cur ≥ target) = false := by simpa using hlt
  cases byIn
  · rcases F.nextOut rfl with ⟨-, h1⟩ | ⟨h0, h1⟩
    · omega
    · rw [hd] at h1 h0
      unfold outAmt at h0
      unfold getNextSqrtPriceFromOutput at h1
      rw [if_neg (by decide)] at h1 h0
      obtain ⟨h2, -, h3⟩ := getNextSqrtPriceXUp_sub_ok h1
      rw [h2]
      exact nextX_sub_le hlt.le hD h0 h3
  · rcases (F.nextIn rfl).2 with ⟨-, h1⟩ | ⟨h0, h1⟩
    · omega
    · rw [hd] at h1 h0
      unfold inAmt at h0
      unfold getNextSqrtPriceFromInput at h1
      rw [if_neg (by decide)] at h1 h0
      obtain ⟨h2, -⟩ := getNextSqrtPriceYDown_add_ok h1
      rw [h2]
      exact nextY_add_le hlt.le (Nat.pos_of_ne_zero hL) h0

theorem step_target_le_next {cur target L amount fee : Nat} {byIn : Bool} {r : SwapResult}
    (hL : L ≠ 0) (hle : target ≤ cur)
    (hw : byIn = true → (cur - target + 1) * 10 ^ 24 ≤ cur * cur)
    (h : computeSwapStep cur target L amount byIn fee = .ok r) : target ≤ r.nextSqrtPrice := by
  have F := computeSwapStep_ok hL h
  have hd : decide (cur ≥ target) = true := by simpa using hle
  cases byIn
  · rcases F.nextOut rfl with ⟨-, h1⟩ | ⟨h0, h1⟩
    · omega
    · rw [hd] at h1 h0
      unfold outAmt at h0
      unfold getNextSqrtPriceFromOutput at h1
      rw [if_pos rfl] at h1 h0
      obtain ⟨-, h2, -⟩ := getNextSqrtPriceYDown_sub_ok h1
      rw [h2]
      exact le_nextY_sub hle (Nat.pos_of_ne_zero hL) h0
  · rcases (F.nextIn rfl).2 with ⟨-, h1⟩ | ⟨h0, h1⟩
    · omega
    · rw [hd] at h1 h0
      unfold inAmt at h0
      unfold getNextSqrtPriceFromInput at h1
      rw [if_pos rfl] at h1 h0
      obtain ⟨h2, -⟩ := getNextSqrtPriceXUp_add_ok h1
      rw [h2]
      exact le_nextX_add hle (Nat.pos_of_ne_zero hL) (hw rfl) (F.dTarget rfl hle) h0

/-- exact input X→Y: the target is passed by at most `e` if `e · b ≥ 10^24` -/
theorem le_nextX_add_slack {a b L x e : Nat} (hab : a ≤ b) (hL : 0 < L)
    (he : 10 ^ 24 ≤ e * b) (hD : 0 < b * a / 10 ^ 24)
    (hx : x < dxUp b a L) : a ≤ nextX true b L x + e := by
  unfold nextX
  by_cases h0 : x = 0
  · rw [if_pos h0]; omega
  · rw [if_neg h0]
    simp only [if_true]
    rcases Nat.lt_or_ge e a with hea | hea
    swap
    · omega
    obtain ⟨a', ha'⟩ : ∃ a', a = a' + 1 + e := ⟨a - e - 1, by omega⟩
    suffices a' < cdiv (cdiv (b * L) (10 ^ 5) * 10 ^ 24) (L * 10 ^ 19 + b * x) by omega
    rw [lt_cdiv_iff (by positivity)]
    have h1 : x * (b * a / 10 ^ 24) < dxNum b a L := by
      rw [dxUp_def] at hx; exact (lt_cdiv_iff hD).1 hx
    have h2 := lt_div_add_one_mul (b * a) (d := 10 ^ 24) (by positivity)
    have h3 : dxNum b a L * 10 ^ 5 ≤ absDiff b a * L := by
      rw [dxNum_def]; exact Nat.div_mul_le_self _ _
    rw [absDiff_of_ge hab] at h3
    have h4 := le_cdiv_mul (b * L) (d := 10 ^ 5) (by positivity)
    generalize cdiv (b * L) (10 ^ 5) = c at *
    generalize b * a / 10 ^ 24 = D at *
    generalize dxNum b a L = N at *
    obtain ⟨k, hk⟩ := Nat.exists_eq_add_of_le hab
    rw [hk, Nat.add_sub_cancel_left] at h3
    have h5 : x * (b * a) < k * L * 10 ^ 19 + x * 10 ^ 24 := by
      have hx0 : 0 < x := Nat.pos_of_ne_zero h0
      calc x * (b * a) < x * ((D + 1) * 10 ^ 24) :=
            Nat.mul_lt_mul_of_pos_left h2 hx0
        _ = x * D * 10 ^ 24 + x * 10 ^ 24 := by ring
        _ ≤ N * 10 ^ 24 + x * 10 ^ 24 :=
            Nat.add_le_add_right (Nat.mul_le_mul_right _ h1.le) _
        _ = N * 10 ^ 5 * 10 ^ 19 + x * 10 ^ 24 := by ring
        _ ≤ _ := Nat.add_le_add_right (Nat.mul_le_mul_right _ h3) _
    have h6 : x * 10 ^ 24 ≤ x * (e * b) := Nat.mul_le_mul_left _ he
    have h9 : b * L * 10 ^ 19 ≤ c * 10 ^ 5 * 10 ^ 19 := Nat.mul_le_mul_right _ h4
    have h10 : 0 < L * 10 ^ 19 := by positivity
    calc a' * (L * 10 ^ 19 + b * x) ≤ (a' + 1) * (L * 10 ^ 19) + x * (b * (a' + 1)) := by
          nlinarith [Nat.zero_le (L * 10 ^ 19), Nat.zero_le (x * b)]
      _ < (a' + 1) * (L * 10 ^ 19) + (k + e) * (L * 10 ^ 19) := by
          have : x * (b * a) = x * (b * (a' + 1)) + x * (e * b) := by rw [ha']; ring
          have h11 : k * L * 10 ^ 19 ≤ (k + e) * (L * 10 ^ 19) := by
            rw [Nat.mul_assoc]; exact Nat.mul_le_mul_right _ (Nat.le_add_right _ _)
          omega
      _ = b * L * 10 ^ 19 := by rw [hk, ha']; ring
      _ ≤ _ := h9
      _ = c * 10 ^ 24 := by ring

theorem step_target_le_next_slack {cur target L amount fee : Nat} {byIn : Bool} {r : SwapResult}
    (hL : L ≠ 0) (hle : target ≤ cur) (hc : MIN_SQRT_PRICE ≤ cur)
    (h : computeSwapStep cur target L amount byIn fee = .ok r) :
    target ≤ r.nextSqrtPrice + 65536 := by
  cases byIn
  · exact Nat.le_add_right_of_le (step_target_le_next hL hle (by simp) h)
  · have F := computeSwapStep_ok hL h
    have hd : decide (cur ≥ target) = true := by simpa using hle
    rcases (F.nextIn rfl).2 with ⟨-, h1⟩ | ⟨h0, h1⟩
    · omega
    · rw [hd] at h1 h0
      unfold inAmt at h0
      unfold getNextSqrtPriceFromInput at h1
      rw [if_pos rfl] at h1 h0
      obtain ⟨h2, -⟩ := getNextSqrtPriceXUp_add_ok h1
      rw [h2]
      refine le_nextX_add_slack hle (Nat.pos_of_ne_zero hL) ?_ (F.dTarget rfl hle) h0
      exact le_trans (by norm_num [MIN_SQRT_PRICE]) (Nat.mul_le_mul_left 65536 hc)

/-- input plus fee stays within the amount the input was computed from -/
theorem in_add_fee_le {i amount fee : Nat} (hf : fee ≤ 10 ^ 12)
    (hi : i ≤ amount * (10 ^ 12 - fee) / 10 ^ 12) : i + cdiv (i * fee) (10 ^ 12) ≤ amount := by
  rw [Nat.le_div_iff_mul_le (by positivity)] at hi
  obtain ⟨k, hk⟩ := Nat.exists_eq_add_of_le hf
  have hk' : 10 ^ 12 - fee = k := by omega
  rw [hk'] at hi
  have h1 : i * (fee + k) ≤ amount * k := by rw [← hk]; exact hi
  have hle : i ≤ amount := by
    rcases Nat.eq_zero_or_pos k with h0 | h0
    · subst h0
      have : 0 < fee := by omega
      have : i * fee ≤ 0 := by simpa using h1
      have : i = 0 := by nlinarith
      omega
    · nlinarith
  have : cdiv (i * fee) (10 ^ 12) ≤ amount - i := by
    rw [cdiv_le_iff (by positivity), hk]
    obtain ⟨d, rfl⟩ := Nat.exists_eq_add_of_le hle
    rw [Nat.add_sub_cancel_left]
    nlinarith
  omega

/-- in the direction Y→X an input that does not cover the target does not reach it -/
theorem nextY_add_lt {p b L y : Nat} (hpb : p ≤ b) (hL : 0 < L) (hy : y < dyUp p b L) :
    p + y * 10 ^ 29 / L < b := by
  have h1 : y * 10 ^ 29 < absDiff p b * L := by
    rw [dyUp_def] at hy; exact (lt_cdiv_iff (by positivity)).1 hy
  rw [absDiff_of_le hpb] at h1
  have : y * 10 ^ 29 / L < b - p := by rwa [Nat.div_lt_iff_lt_mul hL]
  omega

theorem step_not_reached_y {cur target L amount fee : Nat} {r : SwapResult}
    (hL : L ≠ 0) (hlt : cur < target)
    (h : computeSwapStep cur target L amount true fee = .ok r) (hn : r.nextSqrtPrice = target) :
    inAmt (decide (cur ≥ target)) cur target L ≤ amount * (10 ^ 12 - fee) / 10 ^ 12 := by
  have F := computeSwapStep_ok hL h
  have hd : decide (cur ≥ target) = false := by simpa using hlt
  rcases (F.nextIn rfl).2 with ⟨h0, -⟩ | ⟨h0, h1⟩
  · exact h0
  · exfalso
    rw [hd] at h1 h0
    unfold inAmt at h0
    unfold getNextSqrtPriceFromInput at h1
    rw [if_neg (by decide)] at h1 h0
    obtain ⟨h2, -⟩ := getNextSqrtPriceYDown_add_ok h1
    have := nextY_add_lt hlt.le (Nat.pos_of_ne_zero hL) h0
    omega

theorem amountY_nonneg (a b L : Nat) : 0 ≤ Spec.amountY a b L := by
  rw [amountY_eq]; positivity

theorem cdiv_mul_self (n : Nat) {d : Nat} (hd : 0 < d) : cdiv (n * d) d = n := by
  apply le_antisymm
  · rw [cdiv_le_iff hd]
  · exact Nat.le_of_mul_le_mul_right (le_cdiv_mul (n * d) hd) hd

theorem tokMulPctUp_eq {a p : Nat} (ha : a < 2 ^ 256) (hp : p ≤ 10 ^ 12) :
    tokMulPctUp a p = .ok (cdiv (a * p) (10 ^ 12)) := by
  have h1 : a * p ≤ a * 10 ^ 12 := Nat.mul_le_mul_left _ hp
  have h2 : a * 10 ^ 12 < 2 ^ 256 * 10 ^ 12 := Nat.mul_lt_mul_of_pos_right ha (by positivity)
  have h3 : (2 ^ 256 * 10 ^ 12 + 10 ^ 12 : Nat) < 2 ^ 512 := by norm_num
  unfold tokMulPctUp bigMulUp
  rw [mulC_eq (lt_of_le_of_lt h1 (lt_trans h2 (by norm_num))), ok_bind, pctOne_eq,
    addC_eq (lt_trans (Nat.add_lt_add_of_lt_of_le (lt_of_le_of_lt h1 h2)
      (Nat.sub_le (10 ^ 12) 1)) h3), ok_bind, ← cdiv_def, fit_eq]
  refine lt_of_le_of_lt ?_ ha
  rw [cdiv_le_iff (by positivity)]
  exact h1

theorem calculateMinAmountOut_eq {e s : Nat} (he : e < 2 ^ 256) (hs : s ≤ 10 ^ 12) :
    calculateMinAmountOut e s = .ok (cdiv (e * (10 ^ 12 - s)) (10 ^ 12)) := by
  unfold calculateMinAmountOut
  rw [pctOne_eq, subC_eq hs, ok_bind]
  exact tokMulPctUp_eq he (Nat.sub_le _ _)

end Verif
