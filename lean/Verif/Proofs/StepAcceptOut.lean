import Verif.Proofs.StepAccept

/-! # An exact-output step of a swap succeeds -/

set_option exponentiation.threshold 1000

namespace Verif
open Service Spec

private theorem priceOK_mul24 {a b : Nat} (ha : PriceOK a) (hb : PriceOK b) : 10 ^ 24 ≤ a * b :=
  le_trans (by norm_num [MIN_SQRT_PRICE]) (Nat.mul_le_mul ha.1 hb.1)

/-- taking less X than lies between two prices leaves something at the first price -/
theorem out_x_room {p b L x : Nat} (hp : PriceOK p) (hb : PriceOK b) (hpb : p ≤ b) (hL : 0 < L)
    (hx : x < dxDown p b L) : p * x < L * 10 ^ 19 := by
  have h1 : (x : ℚ) ≤ amountX p b L :=
    le_trans (by exact_mod_cast hx.le) (dxDown_le_amountX hp.pos hb.pos L)
  rw [amountX_eq hp.pos hb.pos, le_div_iff₀ (by exact_mod_cast Nat.mul_pos hp.pos hb.pos)] at h1
  have h2 : x * (p * b) ≤ absDiff p b * L * 10 ^ 19 := by exact_mod_cast h1
  rw [absDiff_of_le hpb] at h2
  have h3 : (b - p) * L * 10 ^ 19 < b * L * 10 ^ 19 := by
    have : b - p < b := by have := hp.pos; omega
    exact Nat.mul_lt_mul_of_pos_right (Nat.mul_lt_mul_of_pos_right this hL) (by positivity)
  have h4 : (p * x) * b < (L * 10 ^ 19) * b := by
    calc (p * x) * b = x * (p * b) := by ring
      _ < b * L * 10 ^ 19 := lt_of_le_of_lt h2 h3
      _ = _ := by ring
  exact Nat.lt_of_mul_lt_mul_right h4

theorem nextX_sub_ge {p L x : Nat} (h : x = 0 ∨ p * x < L * 10 ^ 19) : p ≤ nextX false p L x := by
  unfold nextX
  by_cases h0 : x = 0
  · rw [if_pos h0]
  rw [if_neg h0]
  simp only [Bool.false_eq_true, if_false]
  have hd : 0 < L * 10 ^ 19 - p * x := by
    have := h.resolve_left h0
    omega
  have h1 : p * L ≤ cdiv (p * L) (10 ^ 5) * 10 ^ 5 := le_cdiv_mul _ (by positivity)
  have h2 : p * (L * 10 ^ 19 - p * x) ≤ cdiv (p * L) (10 ^ 5) * 10 ^ 24 := by
    calc p * (L * 10 ^ 19 - p * x) ≤ p * (L * 10 ^ 19) := Nat.mul_le_mul_left _ (Nat.sub_le _ _)
      _ = p * L * 10 ^ 19 := by ring
      _ ≤ cdiv (p * L) (10 ^ 5) * 10 ^ 5 * 10 ^ 19 := Nat.mul_le_mul_right _ h1
      _ = _ := by ring
  exact Nat.le_of_mul_le_mul_right (le_trans h2 (le_cdiv_mul _ hd)) hd

/-- the price after an output that is less than the whole step -/
theorem next_from_output {cur target L amount : Nat} (hc : PriceOK cur) (ht : PriceOK target) (hL0 : L ≠ 0)
    (hL : L < 2 ^ 255) (h : amount < outAmt (decide (cur ≥ target)) cur target L) :
    ∃ n, getNextSqrtPriceFromOutput cur L amount (decide (cur ≥ target)) = .ok n ∧ PriceOK n := by
  have hLp : 0 < L := Nat.pos_of_ne_zero hL0
  have hL6 : L < 2 ^ 256 := lt_trans hL (by norm_num)
  have ha : amount < 2 ^ 256 := by
    have := (getOut_ok (getOut_succeeds hc ht hL (decide (cur ≥ target)))).2
    omega
  unfold getNextSqrtPriceFromOutput
  by_cases hd : cur ≥ target
  · rw [decide_eq_true hd] at h ⊢
    simp only [if_true]
    have h1 : amount * 10 ^ 29 ≤ (cur - target) * L := by
      unfold outAmt at h
      rw [if_pos rfl, dyDown_def, absDiff_of_ge hd] at h
      exact le_trans (Nat.mul_le_mul_right _ h.le) (Nat.div_mul_le_self _ _)
    have h3 : cdiv (amount * 10 ^ 29) L ≤ cur - target := (cdiv_le_iff hLp).2 h1
    obtain ⟨n, hn⟩ := (nextYDown_sub_iff hc hL6 ha).2 ⟨hLp, le_trans h3 (Nat.sub_le _ _)⟩
    refine ⟨n, hn, ?_⟩
    obtain ⟨_, rfl, _⟩ := getNextSqrtPriceYDown_sub_ok hn
    have := ht.1
    have := hc.2
    constructor <;> omega
  · rw [decide_eq_false hd] at h ⊢
    simp only [Bool.false_eq_true, if_false]
    have hd' : cur ≤ target := by omega
    unfold outAmt at h
    rw [if_neg (by decide)] at h
    have h1 := out_x_room hc ht hd' hLp h
    have h2 := nextX_sub_le hd' (priceOK_mul24 hc ht) h (.inr h1)
    obtain ⟨n, hn⟩ := (nextXUp_sub_iff hc hL6 ha).2 (.inr ⟨h1, lt_of_le_of_lt h2 ht.lt128⟩)
    refine ⟨n, hn, ?_⟩
    obtain ⟨rfl, _, _⟩ := getNextSqrtPriceXUp_sub_ok hn
    exact ⟨le_trans hc.1 (nextX_sub_ge (.inr h1)), le_trans h2 ht.2⟩

/-- what is known of a step with an exact output -/
structure StepOut (cur target L amount fee : Nat) (r : SwapResult) : Prop where
  price : PriceOK r.nextSqrtPrice
  ain : r.amountIn = inAmt (decide (cur ≥ target)) cur r.nextSqrtPrice L
  feeLe : r.feeAmount ≤ r.amountIn
  feeFits : r.feeAmount * 10 ^ 33 < 2 ^ 128 * L
  out : r.amountOut ≤ amount

theorem step_out_succeeds {cur target L amount fee : Nat} (hc : PriceOK cur) (ht : PriceOK target)
    (hL0 : L ≠ 0) (hL : L < 2 ^ 255) (hf : fee ≤ 10 ^ 12) :
    ∃ r, computeSwapStep cur target L amount false fee = .ok r ∧ StepOut cur target L amount fee r := by
  have hLp : 0 < L := Nat.pos_of_ne_zero hL0
  -- the price and the output of the step
  have hstep : ∃ n o, stepByOut cur target L amount (decide (cur ≥ target)) = .ok (n, o) ∧ PriceOK n ∧
      (n = target → (o = outAmt (decide (cur ≥ target)) cur target L)) := by
    have ho := getOut_succeeds hc ht hL (decide (cur ≥ target))
    unfold stepByOut
    rw [ho, ok_bind]
    by_cases h : amount ≥ outAmt (decide (cur ≥ target)) cur target L
    · rw [if_pos h]
      exact ⟨_, _, rfl, ht, fun _ => rfl⟩
    · rw [if_neg h]
      obtain ⟨n, h1, h2⟩ := next_from_output (amount := amount) hc ht hL0 hL (by omega)
      rw [h1]
      exact ⟨_, _, rfl, h2, fun _ => rfl⟩
  obtain ⟨n, o0, hs, hn, ho0⟩ := hstep
  have hi := getIn_succeeds hc hn hL (decide (cur ≥ target))
  have hi6 := (getIn_ok hi).2.1
  have ho := getOut_succeeds hc hn hL (decide (cur ≥ target))
  have hi3 := inAmt_le (L := L) hc hn (decide (cur ≥ target))
  have hfee := tokMulPctUp_eq hi6 hf
  have hfit := fee_fit_max hf hLp hi3
  have hfle : cdiv (inAmt (decide (cur ≥ target)) cur n L * fee) (10 ^ 12) ≤
      inAmt (decide (cur ≥ target)) cur n L := by
    rw [cdiv_le_iff (by positivity)]
    exact Nat.mul_le_mul_left _ hf
  have key : ∃ o, computeSwapStep cur target L amount false fee = .ok
      ⟨n, inAmt (decide (cur ≥ target)) cur n L, if o > amount then amount else o,
        cdiv (inAmt (decide (cur ≥ target)) cur n L * fee) (10 ^ 12)⟩ := by
    unfold computeSwapStep
    rw [if_neg hL0]
    generalize inAmt (decide (cur ≥ target)) cur n L = i at *
    generalize cdiv (i * fee) (10 ^ 12) = f at *
    by_cases hne : n = target
    · refine ⟨o0, ?_⟩
      simp only [Bool.false_eq_true, if_false, bind_ok_iff, pure_ok_iff]
      refine ⟨(n, 0, o0), ⟨(n, o0), hs, rfl⟩, i, ?_, o0, ?_, f, ?_, ?_⟩
      · rw [if_pos (by simp)]; exact hi
      · rw [if_neg (by simp [hne])]; rfl
      · rw [if_neg (by simp)]; exact hfee
      · simp
    · refine ⟨outAmt (decide (cur ≥ target)) cur n L, ?_⟩
      generalize outAmt (decide (cur ≥ target)) cur n L = o at *
      simp only [Bool.false_eq_true, if_false, bind_ok_iff, pure_ok_iff]
      refine ⟨(n, 0, o0), ⟨(n, o0), hs, rfl⟩, i, ?_, o, ?_, f, ?_, ?_⟩
      · rw [if_pos (by simp)]; exact hi
      · rw [if_pos (by simp [Ne.symm hne])]; exact ho
      · rw [if_neg (by simp)]; exact hfee
      · simp
  obtain ⟨o, ho⟩ := key
  refine ⟨_, ho, hn, rfl, hfle, hfit, ?_⟩
  dsimp only
  split <;> omega

end Verif
