import Verif.Proofs.CheapSwap

/-! # A step of an exact input and one of an exact output for its proceeds -/

namespace Verif
open Service Spec

namespace Twin

variable {cur target L A R fee : Nat} {ra rb : SwapResult}

/-- the cost of the last fraction of a unit of Y, above the price one -/
theorem dxUp_close {p n t : Nat} (ht : 10 ^ 24 ≤ t) (htn : t < n) (hnp : n ≤ p) (hy : (n - t) * L < 10 ^ 29) :
    dxUp p t L ≤ dxUp p n L + 3 := by
  have hL : L < 10 ^ 29 := lt_of_le_of_lt (Nat.le_mul_of_pos_left _ (by omega)) hy
  rw [dxUp_def, dxUp_def]
  set D := p * t / 10 ^ 24 with hD
  set E := p * n / 10 ^ 24 with hE
  have hDp : p ≤ D := (Nat.le_div_iff_mul_le (by norm_num)).2 (Nat.mul_le_mul_left _ ht)
  have hEp : p ≤ E := (Nat.le_div_iff_mul_le (by norm_num)).2 (Nat.mul_le_mul_left _ (by omega))
  have hpos : 0 < D := by omega
  have hED : E ≤ D + (p * (n - t) / 10 ^ 24 + 1) := by
    have e : p * n = p * t + p * (n - t) := by rw [← Nat.mul_add]; congr 1; omega
    rw [hE, hD, e]
    omega
  have hN : dxNum p n L < p * 10 ^ 24 := by
    rw [dxNum_def, absDiff_of_ge hnp, Nat.div_lt_iff_lt_mul (by norm_num)]
    calc (p - n) * L ≤ p * L := Nat.mul_le_mul_right _ (by omega)
      _ < p * 10 ^ 29 := Nat.mul_lt_mul_of_pos_left hL (by omega)
      _ = _ := by ring
  have hT : dxNum p t L ≤ dxNum p n L + 10 ^ 24 := by
    rw [dxNum_def, dxNum_def, absDiff_of_ge hnp, absDiff_of_ge (by omega)]
    have e : (p - t) * L = (p - n) * L + (n - t) * L := by rw [← Nat.add_mul]; congr 1; omega
    rw [e]
    omega
  have h1 : dxNum p n L * (p * (n - t) / 10 ^ 24) ≤ D * E := by
    have h2 : dxNum p n L * 10 ^ 5 ≤ (p - n) * L := by
      rw [dxNum_def, absDiff_of_ge hnp]
      exact Nat.div_mul_le_self _ _
    have h3 : p * (n - t) / 10 ^ 24 * 10 ^ 24 ≤ p * (n - t) := Nat.div_mul_le_self _ _
    have h4 : dxNum p n L * (p * (n - t) / 10 ^ 24) * 10 ^ 29 ≤ p * p * 10 ^ 29 := by
      calc dxNum p n L * (p * (n - t) / 10 ^ 24) * 10 ^ 29
          = dxNum p n L * 10 ^ 5 * (p * (n - t) / 10 ^ 24 * 10 ^ 24) := by ring
        _ ≤ (p - n) * L * (p * (n - t)) := Nat.mul_le_mul h2 h3
        _ = (p - n) * p * ((n - t) * L) := by ring
        _ ≤ p * p * 10 ^ 29 := Nat.mul_le_mul (Nat.mul_le_mul_right _ (by omega)) hy.le
    exact (Nat.le_of_mul_le_mul_right h4 (by norm_num)).trans (Nat.mul_le_mul hDp hEp)
  have h5 : dxNum p n L ≤ D * E := by
    refine hN.le.trans ?_
    rw [Nat.mul_comm]
    exact Nat.mul_le_mul (by omega) hEp
  have h6 : dxNum p n L ≤ cdiv (dxNum p n L) E * E := le_cdiv_mul _ (by omega)
  rw [cdiv_le_iff hpos]
  have h7 : dxNum p n L ≤ (cdiv (dxNum p n L) E + 2) * D := by
    have hE0 : 0 < E := by omega
    refine Nat.le_of_mul_le_mul_right ?_ hE0
    calc dxNum p n L * E ≤ dxNum p n L * (D + (p * (n - t) / 10 ^ 24 + 1)) := Nat.mul_le_mul_left _ hED
      _ = dxNum p n L * D + dxNum p n L * (p * (n - t) / 10 ^ 24) + dxNum p n L := by ring
      _ ≤ cdiv (dxNum p n L) E * E * D + D * E + D * E :=
          Nat.add_le_add (Nat.add_le_add (Nat.mul_le_mul_right _ h6) h1) h5
      _ = _ := by ring
  calc dxNum p t L ≤ dxNum p n L + 10 ^ 24 := hT
    _ ≤ (cdiv (dxNum p n L) E + 2) * D + D := Nat.add_le_add h7 (by omega)
    _ = _ := by ring

/-- what the new price costs, above the price one -/
theorem dxUp_next {p n x : Nat} (hn : n = nextX true p L x) (hn0 : 10 ^ 24 ≤ n) (hnp : n ≤ p) :
    (dxUp p n L - 1) * (p * n / 10 ^ 24) ≤ x * (p * n / 10 ^ 24 + 1) := by
  set D := p * n / 10 ^ 24 with hD
  have hp0 : 0 < p := by omega
  have hDp : p ≤ D := (Nat.le_div_iff_mul_le (by norm_num)).2 (Nat.mul_le_mul_left _ hn0)
  have hnum : dxNum p n L ≤ x * (D + 1) := by
    by_cases hx : x = 0
    · have : n = p := by rw [hn]; unfold nextX; rw [if_pos hx]
      rw [this, dxNum_def, absDiff_of_le le_rfl]
      simp
    · have h1 : p * L * 10 ^ 19 ≤ n * (L * 10 ^ 19 + p * x) := by
        unfold nextX at hn
        rw [if_neg hx] at hn
        simp only [if_true] at hn
        have h2 := le_cdiv_mul (cdiv (p * L) (10 ^ 5) * 10 ^ 24) (d := L * 10 ^ 19 + p * x)
          (Nat.add_pos_right _ (Nat.mul_pos hp0 (Nat.pos_of_ne_zero hx)))
        rw [← hn] at h2
        have h3 := le_cdiv_mul (p * L) (d := 10 ^ 5) (by norm_num)
        calc p * L * 10 ^ 19 ≤ cdiv (p * L) (10 ^ 5) * 10 ^ 5 * 10 ^ 19 := Nat.mul_le_mul_right _ h3
          _ = cdiv (p * L) (10 ^ 5) * 10 ^ 24 := by ring
          _ ≤ _ := h2
      have h4 : (p - n) * L * 10 ^ 19 ≤ p * n * x := by
        have e : p * L * 10 ^ 19 = n * L * 10 ^ 19 + (p - n) * L * 10 ^ 19 := by
          rw [← Nat.add_mul, ← Nat.add_mul]; congr 2; omega
        have e2 : n * (L * 10 ^ 19 + p * x) = n * L * 10 ^ 19 + p * n * x := by ring
        rw [e, e2] at h1
        exact Nat.le_of_add_le_add_left h1
      have h5 : p * n ≤ (D + 1) * 10 ^ 24 := by
        have h8 := (Nat.lt_div_mul_add (a := p * n) (b := 10 ^ 24) (by norm_num)).le
        rw [Nat.add_mul, Nat.one_mul]
        exact h8
      rw [dxNum_def, absDiff_of_ge hnp]
      have h6 : (p - n) * L * 10 ^ 19 ≤ x * (D + 1) * 10 ^ 5 * 10 ^ 19 := by
        calc (p - n) * L * 10 ^ 19 ≤ p * n * x := h4
          _ ≤ (D + 1) * 10 ^ 24 * x := Nat.mul_le_mul_right _ h5
          _ = _ := by ring
      exact Nat.div_le_of_le_mul (by
        have := Nat.le_of_mul_le_mul_right h6 (by norm_num)
        omega)
  rw [dxUp_def]
  have h7 := cdiv_mul_lt (dxNum p n L) (d := D) (by omega)
  by_cases h0 : cdiv (dxNum p n L) D = 0
  · rw [h0]; simp
  · obtain ⟨b, hb⟩ := Nat.exists_eq_succ_of_ne_zero h0
    rw [hb] at h7 ⊢
    rw [Nat.succ_sub_one]
    rw [Nat.succ_mul] at h7
    omega

/-- the price of the net input with its fee -/
theorem fee_room {b D f x : Nat} (hf0 : f ≠ 0) (hf : f ≤ 10 ^ 12) (hD : 10 ^ 24 ≤ D) (hb : b * D ≤ x * (D + 1))
    (hx : x = A * (10 ^ 12 - f) / 10 ^ 12) : b + cdiv (b * f) (10 ^ 12) ≤ A := by
  have h1 : x * 10 ^ 12 ≤ A * (10 ^ 12 - f) := by rw [hx]; exact Nat.div_mul_le_self _ _
  obtain ⟨g, hg⟩ := Nat.exists_eq_add_of_le hf
  have e1 : 10 ^ 12 - f = g := by omega
  rw [e1] at h1
  have h2 : b * (10 ^ 12 + f) ≤ A * 10 ^ 12 := by
    have hD0 : 0 < D := by omega
    have h3 : g * (10 ^ 12 + f) + f * f = 10 ^ 24 := by
      calc g * (10 ^ 12 + f) + f * f = (f + g) * (10 ^ 12 + f) - f * (10 ^ 12 + f) + f * f := by
            rw [Nat.add_mul, Nat.add_sub_cancel_left]
        _ = 10 ^ 12 * (10 ^ 12 + f) - f * (10 ^ 12 + f) + f * f := by rw [← hg]
        _ = _ := by
            have : f * (10 ^ 12 + f) ≤ 10 ^ 12 * (10 ^ 12 + f) := Nat.mul_le_mul_right _ hf
            have e : 10 ^ 12 * (10 ^ 12 + f) = 10 ^ 24 + 10 ^ 12 * f := by ring
            have e2 : f * (10 ^ 12 + f) = 10 ^ 12 * f + f * f := by ring
            omega
    have h4 : g * (10 ^ 12 + f) * (D + 1) ≤ 10 ^ 24 * D := by
      have h5 : 1 ≤ f * f := Nat.mul_pos (Nat.pos_of_ne_zero hf0) (Nat.pos_of_ne_zero hf0)
      have h6 : (g * (10 ^ 12 + f) + f * f) * (D + 1) = 10 ^ 24 * (D + 1) := by rw [h3]
      have h7 : D + 1 ≤ f * f * (D + 1) := Nat.le_mul_of_pos_left _ h5
      rw [Nat.add_mul] at h6
      omega
    refine Nat.le_of_mul_le_mul_right ?_ (Nat.mul_pos hD0 (by norm_num : 0 < 10 ^ 12))
    calc b * (10 ^ 12 + f) * (D * 10 ^ 12) = b * D * (10 ^ 12 * (10 ^ 12 + f)) := by ring
      _ ≤ x * (D + 1) * (10 ^ 12 * (10 ^ 12 + f)) := Nat.mul_le_mul_right _ hb
      _ = x * 10 ^ 12 * ((10 ^ 12 + f) * (D + 1)) := by ring
      _ ≤ A * g * ((10 ^ 12 + f) * (D + 1)) := Nat.mul_le_mul_right _ h1
      _ = A * (g * (10 ^ 12 + f) * (D + 1)) := by ring
      _ ≤ A * (10 ^ 24 * D) := Nat.mul_le_mul_left _ h4
      _ = _ := by ring
  have hbA : b ≤ A := by
    refine Nat.le_of_mul_le_mul_right ?_ (by norm_num : 0 < 10 ^ 12)
    exact (Nat.mul_le_mul_left _ (by omega)).trans h2
  have : cdiv (b * f) (10 ^ 12) ≤ A - b := by
    rw [cdiv_le_iff (by norm_num), Nat.sub_mul]
    rw [Nat.mul_add] at h2
    omega
  omega

/-- four units more cost at most eight with their fee -/
theorem fee_more {b f c : Nat} (hf : f ≤ 10 ^ 12) : cdiv ((b + c) * f) (10 ^ 12) ≤ cdiv (b * f) (10 ^ 12) + c := by
  rw [cdiv_le_iff (by norm_num), Nat.add_mul, Nat.add_mul]
  exact Nat.add_le_add (le_cdiv_mul _ (by norm_num)) (Nat.mul_le_mul_left _ hf)

/-- a step of an exact input, and the step of an exact output for no less, or just for its proceeds when the input is
used up -/
theorem step_twin (hc : MIN_SQRT_PRICE ≤ cur) (hle : target ≤ cur) (hw : 10 ^ 24 < target)
    (ha : computeSwapStep cur target L A true fee = .ok ra) (hb : computeSwapStep cur target L R false fee = .ok rb)
    (hR : ra.amountOut ≤ R) (hlast : ra.nextSqrtPrice ≠ target → R = ra.amountOut) :
    (ra.nextSqrtPrice = target ∧ rb = ra) ∨
    (ra.nextSqrtPrice ≠ target ∧ ra.amountIn + ra.feeAmount = A ∧ rb.amountOut = R ∧
      rb.amountIn + rb.feeAmount ≤ A + 8) := by
  by_cases hL : L = 0
  · rw [hL, computeSwapStep_zero] at ha hb
    cases ha; cases hb
    exact .inl ⟨rfl, rfl⟩
  have Fa := computeSwapStep_ok hL ha
  have Fb := computeSwapStep_ok hL hb
  have hd : decide (cur ≥ target) = true := by simpa using hle
  have hwide : (cur - target + 1) * 10 ^ 24 ≤ cur * cur := Nat.mul_le_mul (by omega) (by omega)
  have t1 := step_target_le_next hL hle (fun _ => hwide) ha
  have c12 : 10 ^ 12 ≤ cur := le_trans (by norm_num [MIN_SQRT_PRICE]) hc
  have u1 := step_next_le_cur hL c12 hle ha
  have u2 := step_next_le_cur hL c12 hle hb
  have i1 := Fa.inEq
  have i2 := Fb.inEq
  have o1 := Fa.outEq
  have o2 := Fb.outEq
  have f1 := Fa.feeEq
  have f2 := Fb.feeEq
  rw [if_neg (by simp)] at f2
  rw [if_pos rfl, hd, outAmt, if_pos rfl] at o1
  rw [if_neg (by decide), hd, outAmt, if_pos rfl] at o2
  rw [hd, inAmt, if_pos rfl] at i1 i2
  have hnb := Fb.nextOut rfl
  rw [hd, outAmt, if_pos rfl] at hnb
  by_cases e1 : ra.nextSqrtPrice = target
  · left
    rw [if_neg (by simp [e1])] at f1
    rw [e1] at i1 o1
    have e2 : rb.nextSqrtPrice = target := by
      rcases hnb with ⟨-, h⟩ | ⟨h, -⟩
      · exact h
      · omega
    rw [e2] at i2 o2
    refine ⟨e1, SwapResult.ext' (by rw [e1, e2]) (by rw [i1, i2]) ?_ (by rw [f1, f2, i1, i2])⟩
    rw [o2, o1, min_eq_left (by omega)]
  · right
    have hR' := hlast e1
    have hin := step_done_in hL ha e1
    have hf := (Fa.nextIn rfl).1
    have hnext : ra.nextSqrtPrice = nextX true cur L (A * (10 ^ 12 - fee) / 10 ^ 12) := by
      rcases (Fa.nextIn rfl).2 with ⟨-, h⟩ | ⟨-, h⟩
      · exact absurd h e1
      · rw [hd] at h
        unfold getNextSqrtPriceFromInput at h
        rw [if_pos rfl] at h
        exact (getNextSqrtPriceXUp_add_ok h).1
    have hroom := dxUp_next hnext (by omega) u1
    rw [← i1] at hroom
    -- what the exact output pays for its move
    have key : rb.amountOut = R ∧ rb.amountIn ≤ ra.amountIn + 3 := by
      rcases hnb with ⟨h1, h2⟩ | ⟨h1, h2⟩
      · rw [h2] at o2 i2
        have hmono := dyDown_down (L := L) t1 u1
        have heq : dyDown cur target L = R := by omega
        refine ⟨by rw [o2, heq, min_self], ?_⟩
        rw [i2, i1]
        refine dxUp_close hw.le (by omega) u1 ?_
        have h3 : dyDown cur target L = dyDown cur ra.nextSqrtPrice L := by omega
        rw [dyDown_def, dyDown_def, absDiff_of_ge hle, absDiff_of_ge u1] at h3
        have e : (cur - target) * L = (cur - ra.nextSqrtPrice) * L + (ra.nextSqrtPrice - target) * L := by
          rw [← Nat.add_mul]; congr 1; omega
        rw [e] at h3
        omega
      · unfold getNextSqrtPriceFromOutput at h2
        rw [if_pos rfl] at h2
        obtain ⟨g1, g2, g3⟩ := getNextSqrtPriceYDown_sub_ok h2
        have hge : ra.nextSqrtPrice ≤ rb.nextSqrtPrice := by
          have : cdiv (R * 10 ^ 29) L ≤ cur - ra.nextSqrtPrice := by
            rw [cdiv_le_iff g3, hR', o1, dyDown_def, absDiff_of_ge u1]
            exact Nat.div_mul_le_self _ _
          omega
        refine ⟨?_, ?_⟩
        · rw [o2]
          apply min_eq_right
          rw [dyDown_def, absDiff_of_ge u2, g2, Nat.sub_sub_self g1, Nat.le_div_iff_mul_le (by positivity)]
          exact le_cdiv_mul _ g3
        · rw [i2, i1]
          exact (dxUp_down hge u2 (Fa.dPos hle)).trans (by omega)
    refine ⟨e1, hin, key.1, ?_⟩
    rw [f2]
    by_cases hf0 : fee = 0
    · rw [hf0, Nat.mul_zero, cdiv_zero]
      omega
    have hD : 10 ^ 24 ≤ cur * ra.nextSqrtPrice / 10 ^ 24 :=
      (Nat.le_div_iff_mul_le (by norm_num)).2 (Nat.mul_le_mul (by omega) (by omega))
    have h8 := fee_room (A := A) hf0 hf hD hroom rfl
    have h9 := fee_more (b := ra.amountIn - 1) (c := 4) hf
    have h10 : cdiv (rb.amountIn * fee) (10 ^ 12) ≤ cdiv ((ra.amountIn - 1 + 4) * fee) (10 ^ 12) :=
      cdiv_mono (Nat.mul_le_mul_right _ (by omega))
    omega

end Twin
end Verif
