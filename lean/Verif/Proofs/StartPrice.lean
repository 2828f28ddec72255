import Verif.Proofs.AvgOut
import Verif.Proofs.StepPays

/-! # The average price of a swap, compared with the price it starts at -/

namespace Verif
open Service Spec

variable {s : Inv} {a : SwapArgs} {st st' : SwapState} {start : Nat}

theorem amountY_as_X {p n : Nat} (L : Nat) (hp : 0 < p) (hn : 0 < n) :
    amountY p n L = price p * price n * amountX p n L := by
  have p0 : 0 < price p := by unfold price; positivity
  have n0 : 0 < price n := by unfold price; positivity
  have e : 1 / price p - 1 / price n = -((price p - price n) / (price p * price n)) := by field_simp; ring
  unfold amountY amountX
  rw [e, abs_neg, abs_div, abs_of_pos (mul_pos p0 n0)]
  field_simp

/-- one round, X for Y: at the price `P` or a lower one nothing is sold for more than `P`, with the fee on top -/
theorem iter_start_x (hw : StoreWF s) (hs : Spacing a.key.feeTier.tickSpacing) (hf : a.key.feeTier.fee ≤ 10 ^ 12)
    (hsd : SwapSide a start st) (h0 : st.remaining ≠ 0) (hx : a.xToY = true)
    (hi : swapIter s a st = .ok st') {P : Nat} (hP : st.pool.sqrtPrice ≤ P) :
    st'.pool.sqrtPrice ≤ P ∧
    (1 + pct a.key.feeTier.fee) * ((st'.totalOut : ℚ) - st.totalOut) ≤
      price P ^ 2 * ((st'.totalIn : ℚ) - st.totalIn + 2 * slackX) := by
  have hsd' := iter_side hw hs hsd h0 hi
  have hp := hsd.agree.price
  have hp' := hsd'.agree.price
  obtain ⟨target, info, r, remaining, pool, tick, u, h⟩ := swapIter_ok hi
  have hl : if a.xToY then a.limit ≤ st.pool.sqrtPrice else st.pool.sqrtPrice ≤ a.limit := by
    have := hsd.limit
    simp only [hx, if_true] at this ⊢
    omega
  have ht := iter_target hw hs hsd.agree hl h.limit
  have hn := iter_next (remaining := remaining) hp ht h.step h.rem
  have ep := iterOk_price h
  have hts := ht.side
  have hns := hn.side
  simp only [hx, if_true] at hts hns
  have ein : (r.amountIn : ℚ) + r.feeAmount ≤ (st'.totalIn : ℚ) - st.totalIn := by
    rw [h.res]; push_cast; have : (0 : ℚ) ≤ u.total := Nat.cast_nonneg _; linarith
  have eout : (st'.totalOut : ℚ) - st.totalOut = r.amountOut := by
    rw [h.res]; push_cast; ring
  rw [eout, ep]
  refine ⟨hns.trans hP, ?_⟩
  have sl := slackX_pos
  have pos : ∀ {q}, PriceOK q → 0 < q := fun h => lt_of_lt_of_le (by norm_num [MIN_SQRT_PRICE]) h.1
  have hsq : 0 ≤ price P ^ 2 := sq_nonneg _
  by_cases hL : st.pool.liquidity = 0
  · have := h.step
    rw [hL, computeSwapStep_zero] at this
    cases this
    simp only [Nat.cast_zero, mul_zero, add_zero] at ein ⊢
    positivity
  · rw [ep] at hp'
    have c1 := ((C08_step_curve hp.1 ht.price.1 hL h.step).1 hts.2).2
    have c2 := (step_pays hp.1 ht.price.1 hL hf h.step).1 hts.2
    rw [amountY_as_X _ (pos hp) (pos hp')] at c1
    have p0 := pct_nonneg a.key.feeTier.fee
    have e1 := mul_le_mul_of_nonneg_left c1 (by linarith : 0 ≤ 1 + pct a.key.feeTier.fee)
    have n0 : 0 ≤ price (r.nextSqrtPrice) := by unfold price; positivity
    have q0 : 0 ≤ price (st.pool.sqrtPrice) := by unfold price; positivity
    have hA := amountX_nonneg st.pool.sqrtPrice r.nextSqrtPrice st.pool.liquidity
    have k1 : price st.pool.sqrtPrice ≤ price P := price_le hP
    have k2 : price r.nextSqrtPrice ≤ price P := price_le (hns.trans hP)
    have k3 : price st.pool.sqrtPrice * price r.nextSqrtPrice ≤ price P ^ 2 := by
      rw [sq]; exact mul_le_mul k1 k2 n0 (q0.trans k1)
    calc (1 + pct a.key.feeTier.fee) * (r.amountOut : ℚ)
        ≤ (price st.pool.sqrtPrice * price r.nextSqrtPrice) * ((1 + pct a.key.feeTier.fee) *
            amountX st.pool.sqrtPrice r.nextSqrtPrice st.pool.liquidity) := by linarith
      _ ≤ price P ^ 2 * ((1 + pct a.key.feeTier.fee) *
            amountX st.pool.sqrtPrice r.nextSqrtPrice st.pool.liquidity) :=
          mul_le_mul_of_nonneg_right k3 (by positivity)
      _ ≤ _ := mul_le_mul_of_nonneg_left (by linarith) hsq

/-- one round, Y for X -/
theorem iter_start_y (hw : StoreWF s) (hs : Spacing a.key.feeTier.tickSpacing) (hf : a.key.feeTier.fee ≤ 10 ^ 12)
    (hsd : SwapSide a start st) (h0 : st.remaining ≠ 0) (hx : a.xToY = false)
    (hi : swapIter s a st = .ok st') {P : Nat} (hP : P ≤ st.pool.sqrtPrice) :
    P ≤ st'.pool.sqrtPrice ∧
    (1 + pct a.key.feeTier.fee) * (price P ^ 2 * ((st'.totalOut : ℚ) - st.totalOut)) ≤
      (st'.totalIn : ℚ) - st.totalIn := by
  have hsd' := iter_side hw hs hsd h0 hi
  have hp := hsd.agree.price
  have hp' := hsd'.agree.price
  obtain ⟨target, info, r, remaining, pool, tick, u, h⟩ := swapIter_ok hi
  have hl : if a.xToY then a.limit ≤ st.pool.sqrtPrice else st.pool.sqrtPrice ≤ a.limit := by
    have := hsd.limit
    simp only [hx] at this ⊢
    simpa using this
  have ht := iter_target hw hs hsd.agree hl h.limit
  have hn := iter_next (remaining := remaining) hp ht h.step h.rem
  have ep := iterOk_price h
  have hts := ht.side
  have hns := hn.side
  simp only [hx, Bool.false_eq_true, if_false] at hts hns
  have ein : (r.amountIn : ℚ) + r.feeAmount ≤ (st'.totalIn : ℚ) - st.totalIn := by
    rw [h.res]; push_cast; have : (0 : ℚ) ≤ u.total := Nat.cast_nonneg _; linarith
  have eout : (st'.totalOut : ℚ) - st.totalOut = r.amountOut := by
    rw [h.res]; push_cast; ring
  rw [eout, ep]
  refine ⟨hP.trans hns.1, ?_⟩
  have pos : ∀ {q}, PriceOK q → 0 < q := fun h => lt_of_lt_of_le (by norm_num [MIN_SQRT_PRICE]) h.1
  by_cases hL : st.pool.liquidity = 0
  · have := h.step
    rw [hL, computeSwapStep_zero] at this
    cases this
    simp only [Nat.cast_zero, mul_zero, add_zero] at ein ⊢
    exact ein
  · rw [ep] at hp'
    have p0 := pct_nonneg a.key.feeTier.fee
    have n0 : 0 ≤ price (r.nextSqrtPrice) := by unfold price; positivity
    have q0 : 0 ≤ price (P) := by unfold price; positivity
    have hA := amountX_nonneg st.pool.sqrtPrice r.nextSqrtPrice st.pool.liquidity
    have k1 : price P ≤ price st.pool.sqrtPrice := price_le hP
    have k2 : price P ≤ price r.nextSqrtPrice := price_le (hP.trans hns.1)
    have k3 : price P ^ 2 ≤ price st.pool.sqrtPrice * price r.nextSqrtPrice := by
      rw [sq]; exact mul_le_mul k1 k2 q0 (q0.trans k1)
    have hcase : (r.amountOut : ℚ) ≤ amountX st.pool.sqrtPrice r.nextSqrtPrice st.pool.liquidity ∧
        (1 + pct a.key.feeTier.fee) * amountY st.pool.sqrtPrice r.nextSqrtPrice st.pool.liquidity ≤
          r.amountIn + r.feeAmount := by
      rcases Nat.lt_or_ge st.pool.sqrtPrice target with hlt | hge
      · exact ⟨((C08_step_curve hp.1 ht.price.1 hL h.step).2 hlt).2, (step_pays hp.1 ht.price.1 hL hf h.step).2 hlt⟩
      · have e2 : r.nextSqrtPrice = st.pool.sqrtPrice := by omega
        have := ((C08_step_curve hp.1 ht.price.1 hL h.step).1 hge).2
        rw [e2, amountY_self] at this
        rw [e2, amountY_self, amountX_self, mul_zero]
        exact ⟨this, by positivity⟩
    obtain ⟨c1, c2⟩ := hcase
    rw [amountY_as_X _ (pos hp) (pos hp')] at c2
    calc (1 + pct a.key.feeTier.fee) * (price P ^ 2 * (r.amountOut : ℚ))
        ≤ (1 + pct a.key.feeTier.fee) * ((price st.pool.sqrtPrice * price r.nextSqrtPrice) *
            amountX st.pool.sqrtPrice r.nextSqrtPrice st.pool.liquidity) := by
          refine mul_le_mul_of_nonneg_left ?_ (by linarith)
          exact mul_le_mul k3 c1 (Nat.cast_nonneg _) (mul_nonneg (q0.trans k1) n0)
      _ ≤ _ := by linarith

variable {key : PoolKey} {now amount limit : Nat} {byIn : Bool} {r : CalculateSwapResult} {pool : Pool}

/-- a whole swap, X for Y -/
theorem swap_start_x (hw : StoreWF s) (hs : Spacing key.feeTier.tickSpacing) (hf : key.feeTier.fee ≤ 10 ^ 12)
    (h : calculateSwap s now key true amount byIn limit = .ok r) (hp : s.pools.get key = some pool)
    (hsd : SwapSide ⟨key, true, byIn, limit, now⟩ pool.sqrtPrice
      { pool := pool, ticks := [], remaining := amount, totalIn := 0, totalOut := 0, fee := 0 }) :
    ∃ n : Nat, n ≤ r.ticks.length + 2 +
        (r.pool.currentTickIndex - pool.currentTickIndex).natAbs / (256 * key.feeTier.tickSpacing) ∧
      (1 + pct key.feeTier.fee) * r.amountOut ≤ price pool.sqrtPrice ^ 2 * (r.amountIn + n * (2 * slackX)) := by
  obtain ⟨st, ⟨hsd', n, hn, w1, w2⟩, h0, _, e⟩ := calculateSwap_ind
    (P := fun st => SwapSide ⟨key, true, byIn, limit, now⟩ pool.sqrtPrice st ∧ ∃ n : Nat,
      RoundsOk ⟨key, true, byIn, limit, now⟩ pool.currentTickIndex n st ∧ st.pool.sqrtPrice ≤ pool.sqrtPrice ∧
      (1 + pct key.feeTier.fee) * (st.totalOut : ℚ) ≤ price pool.sqrtPrice ^ 2 * (st.totalIn + n * (2 * slackX))) h hp
    (by
      refine ⟨hsd, 0, ?_, le_rfl, by simp⟩
      unfold RoundsOk walk
      simp only [if_true]
      split <;> simp <;> positivity)
    (by
      rintro st st' ⟨hsd, n, hn, w1, w2⟩ h0 hi
      obtain ⟨v1, v2⟩ := iter_start_x hw hs hf hsd h0 rfl hi w1
      refine ⟨iter_side hw hs hsd h0 hi, n + 1, rounds_step hw hs hsd h0 hi (.inr rfl) hn, v1, ?_⟩
      dsimp only at v2
      push_cast
      linarith)
  subst e
  exact ⟨n, rounds_le (a := ⟨key, true, byIn, limit, now⟩) hs.1 h0 hn, w2⟩

/-- a whole swap, Y for X -/
theorem swap_start_y (hw : StoreWF s) (hs : Spacing key.feeTier.tickSpacing) (hf : key.feeTier.fee ≤ 10 ^ 12)
    (h : calculateSwap s now key false amount byIn limit = .ok r) (hp : s.pools.get key = some pool)
    (hsd : SwapSide ⟨key, false, byIn, limit, now⟩ pool.sqrtPrice
      { pool := pool, ticks := [], remaining := amount, totalIn := 0, totalOut := 0, fee := 0 }) :
    (1 + pct key.feeTier.fee) * (price pool.sqrtPrice ^ 2 * r.amountOut) ≤ r.amountIn := by
  obtain ⟨st, ⟨hsd', w1, w2⟩, h0, _, e⟩ := calculateSwap_ind
    (P := fun st => SwapSide ⟨key, false, byIn, limit, now⟩ pool.sqrtPrice st ∧ pool.sqrtPrice ≤ st.pool.sqrtPrice ∧
      (1 + pct key.feeTier.fee) * (price pool.sqrtPrice ^ 2 * (st.totalOut : ℚ)) ≤ st.totalIn) h hp
    ⟨hsd, le_rfl, by simp⟩
    (by
      rintro st st' ⟨hsd, w1, w2⟩ h0 hi
      obtain ⟨v1, v2⟩ := iter_start_y hw hs hf hsd h0 rfl hi w1
      refine ⟨iter_side hw hs hsd h0 hi, v1, ?_⟩
      dsimp only at v2
      linarith)
  subst e
  exact w2

end Verif
