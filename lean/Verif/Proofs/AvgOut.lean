import Verif.Proofs.AvgSwap

/-! # The average price of an exact output of Y -/

namespace Verif
open Service Spec

/-- an output of Y moves the price as far as it should, up to the granularity -/
theorem nextY_out_le {p L y n : Nat} (h : getNextSqrtPriceYDown p L y false = .ok n) :
    amountY p n L ≤ y + grain L := by
  obtain ⟨h1, h2, hL⟩ := getNextSqrtPriceYDown_sub_ok h
  have h3 := cdiv_mul_lt (y * 10 ^ 29) hL
  have hd : absDiff p n = cdiv (y * 10 ^ 29) L := by rw [absDiff_of_ge (by omega)]; omega
  rw [amountY_eq, hd]
  generalize cdiv (y * 10 ^ 29) L = c at *
  have h4 : (c : ℚ) * L < y * 10 ^ 29 + L := by exact_mod_cast h3
  unfold grain liq
  have L0 : (0 : ℚ) ≤ L := Nat.cast_nonneg _
  rw [div_le_iff₀ (by positivity)]
  push_cast
  linarith

/-- a step from X for a given output of Y -/
theorem step_take_x {cur target L amount fee : Nat} {r : SwapResult} (hc : PriceOK cur)
    (hn : PriceOK r.nextSqrtPrice) (hle : target ≤ cur) (hL : L ≠ 0) (hf : fee ≤ 10 ^ 12)
    (hnc : r.nextSqrtPrice ≤ cur) (h : computeSwapStep cur target L amount false fee = .ok r) :
    ∃ w : ℚ, 0 ≤ w ∧
      (1 - pct fee) * ((r.amountIn : ℚ) + r.feeAmount) ≤ (1 + relX) * w + 2 ∧
      price r.nextSqrtPrice ^ 2 * w ≤ r.amountOut + 1 + (if r.amountOut = amount then grain L else 0) := by
  have F := computeSwapStep_ok hL h
  have hd : decide (cur ≥ target) = true := by simpa using hle
  have pos : ∀ {q}, PriceOK q → 0 < q := fun h => lt_of_lt_of_le (by norm_num [MIN_SQRT_PRICE]) h.1
  refine ⟨amountX cur r.nextSqrtPrice L, amountX_nonneg _ _ _, ?_, ?_⟩
  · have hfe := F.feeEq
    rw [if_neg (by simp)] at hfe
    have hin := F.inEq
    rw [hd] at hin
    unfold inAmt at hin
    rw [if_pos rfl] at hin
    have h1 := dxUp_le (L := L) (prod_ge hc hn)
    rw [← hin] at h1
    have := rate_of_in hf hfe
    linarith
  · have ho := F.outEq
    rw [if_neg (by decide), hd] at ho
    have hno := F.nextOut rfl
    rw [hd] at hno
    unfold outAmt at ho hno
    simp only [if_true] at ho hno
    have hY : amountY cur r.nextSqrtPrice L ≤
        r.amountOut + 1 + (if r.amountOut = amount then grain L else 0) := by
      have g0 := (grain_pos L).le
      have gi : 0 ≤ (if r.amountOut = amount then grain L else 0) := by split <;> linarith
      have h4 := le_dyDown cur r.nextSqrtPrice L
      rcases hno with ⟨h1, h2⟩ | ⟨h1, h2⟩
      · rw [h2, min_eq_left h1] at ho
        rw [h2, ← ho] at h4
        rw [h2]
        linarith
      · unfold getNextSqrtPriceFromOutput at h2
        rw [if_pos rfl] at h2
        have h3 := nextY_out_le h2
        rcases Nat.le_total (dyDown cur r.nextSqrtPrice L) amount with h5 | h5
        · rw [min_eq_left h5] at ho
          rw [← ho] at h4
          linarith
        · rw [min_eq_right h5] at ho
          rw [if_pos ho]
          rw [← ho] at h3
          linarith
    refine le_trans ?_ hY
    rw [amounts_prop (pos hc) (pos hn)]
    apply mul_le_mul_of_nonneg_right _ (amountX_nonneg _ _ _)
    have := price_le hnc
    have := price_pos (pos hn)
    nlinarith

theorem enough_zero {p L fee : Nat} (hL : L ≠ 0) : isEnoughAmountToChangePrice 0 p L fee false true ≠ .ok true := by
  intro h
  unfold isEnoughAmountToChangePrice at h
  rw [if_neg hL] at h
  simp only [Bool.false_eq_true, if_false, bind_ok_iff, pure_ok_iff] at h
  obtain ⟨n, h1, h2⟩ := h
  unfold getNextSqrtPriceFromOutput at h1
  rw [if_pos rfl] at h1
  obtain ⟨_, e, _⟩ := getNextSqrtPriceYDown_sub_ok h1
  rw [Nat.zero_mul, cdiv_zero] at e
  simp [e] at h2

variable {s : Inv} {a : SwapArgs} {st st' : SwapState} {start : Nat}

/-- the granularity counts in the last round only -/
def endGrain (st : SwapState) : ℚ := if st.remaining = 0 then grain st.pool.liquidity else 0

theorem endGrain_nonneg (st : SwapState) : 0 ≤ endGrain st := by
  unfold endGrain
  have := (grain_pos st.pool.liquidity).le
  split <;> linarith

/-- one round from X for an output of Y -/
theorem iter_take_x (hw : StoreWF s) (hs : Spacing a.key.feeTier.tickSpacing) (hf : a.key.feeTier.fee ≤ 10 ^ 12)
    (hsd : SwapSide a start st) (h0 : st.remaining ≠ 0) (hb : a.byIn = false) (hx : a.xToY = true)
    (hi : swapIter s a st = .ok st') :
    st'.pool.sqrtPrice ≤ st.pool.sqrtPrice ∧ ∃ w : ℚ, 0 ≤ w ∧
      (1 - pct a.key.feeTier.fee) * ((st'.totalIn : ℚ) - st.totalIn) ≤ (1 + relX) * w + 2 ∧
      price st'.pool.sqrtPrice ^ 2 * w ≤ (st'.totalOut : ℚ) - st.totalOut + 1 + endGrain st' := by
  have hsd' := iter_side hw hs hsd h0 hi
  have hp := hsd.agree.price
  have hp' := hsd'.agree.price
  obtain ⟨target, info, r, remaining, pool, tick, u, h⟩ := swapIter_ok hi
  have hl : if a.xToY then a.limit ≤ st.pool.sqrtPrice else st.pool.sqrtPrice ≤ a.limit := by
    have := hsd.limit
    simp only [hx, if_true] at this ⊢
    omega
  have ht := iter_target hw hs hsd.agree hl h.limit
  have hn := iter_next (remaining := remaining) hp ht h.step h.rem
  have ep := iterOk_price h
  have hpl : pool.liquidity = st.pool.liquidity := by rw [(addFee_full h.fee).2]
  have hts := ht.side
  have hns := hn.side
  simp only [hx, if_true] at hts hns
  have hu0 : u.total = 0 := by
    cases h.upd with
    | dust _ _ _ _ _ hb' => rw [hb] at hb'; cases hb'
    | inside => rfl
    | cross => rfl
    | drop => rfl
    | done => rfl
    | uninit => rfl
  have ein : (st'.totalIn : ℚ) - st.totalIn = (r.amountIn : ℚ) + r.feeAmount := by
    rw [h.res, hu0]; push_cast; ring
  have eout : (st'.totalOut : ℚ) - st.totalOut = r.amountOut := by
    rw [h.res]; push_cast; ring
  rw [ein, eout, ep]
  refine ⟨hns, ?_⟩
  have hg := endGrain_nonneg st'
  by_cases hL : st.pool.liquidity = 0
  · have := h.step
    rw [hL, computeSwapStep_zero] at this
    cases this
    exact ⟨0, le_rfl, by simp, by simp; linarith⟩
  · have hst := h.step
    rw [hb] at hst
    obtain ⟨w, w0, w1, w2⟩ := step_take_x hp (by rw [← ep]; exact hp') hts.2 hL hf hns hst
    refine ⟨w, w0, w1, w2.trans ?_⟩
    have hre := h.rem
    simp only [hb, Bool.false_eq_true, if_false] at hre
    split
    · next e =>
      have hrz : remaining = 0 := by omega
      have hres := h.res
      have main : st'.remaining = 0 ∧ st'.pool.liquidity = st.pool.liquidity := by
        rw [hres]
        cases h.upd with
        | inside => exact ⟨hrz, hpl⟩
        | cross ht hp he hc =>
          rw [hb, hx, hrz] at he
          have : _ = true := hc.resolve_left (by simp [hx])
          rw [this] at he
          exact absurd he (enough_zero (by dsimp only; rw [hpl]; exact hL))
        | dust _ _ _ _ _ hb' => rw [hb] at hb'; cases hb'
        | drop _ _ _ _ hr => exact absurd hrz hr
        | done => exact ⟨rfl, hpl⟩
        | uninit => exact ⟨hrz, hpl⟩
      unfold endGrain
      rw [if_pos main.1, main.2]
    · linarith

variable {key : PoolKey} {now amount limit : Nat} {r : CalculateSwapResult} {pool : Pool}

/-- from X for an output of Y -/
theorem swap_avg_out (hw : StoreWF s) (hs : Spacing key.feeTier.tickSpacing) (hf : key.feeTier.fee ≤ 10 ^ 12)
    (h : calculateSwap s now key true amount false limit = .ok r) (hp : s.pools.get key = some pool)
    (hsd : SwapSide ⟨key, true, false, limit, now⟩ pool.sqrtPrice
      { pool := pool, ticks := [], remaining := amount, totalIn := 0, totalOut := 0, fee := 0 }) :
    ∃ n : Nat, n ≤ r.ticks.length + 2 +
        (r.pool.currentTickIndex - pool.currentTickIndex).natAbs / (256 * key.feeTier.tickSpacing) ∧
      price r.pool.sqrtPrice ^ 2 * ((1 - pct key.feeTier.fee) * r.amountIn) ≤
        (1 + relX) * (r.amountOut + n + grain r.pool.liquidity) + price r.pool.sqrtPrice ^ 2 * (2 * n) := by
  obtain ⟨st, ⟨hsd', n, W, hn, w0, w1, w2⟩, h0, _, e⟩ := calculateSwap_ind
    (P := fun st => SwapSide ⟨key, true, false, limit, now⟩ pool.sqrtPrice st ∧ ∃ (n : Nat) (W : ℚ),
      RoundsOk ⟨key, true, false, limit, now⟩ pool.currentTickIndex n st ∧ 0 ≤ W ∧
      (1 - pct key.feeTier.fee) * (st.totalIn : ℚ) ≤ (1 + relX) * W + 2 * n ∧
      price st.pool.sqrtPrice ^ 2 * W ≤ (st.totalOut : ℚ) + n + endGrain st) h hp
    (by
      refine ⟨hsd, 0, 0, ?_, le_rfl, by simp, ?_⟩
      · unfold RoundsOk walk
        simp only [if_true]
        split <;> simp <;> positivity
      · have := endGrain_nonneg
          { pool := pool, ticks := [], remaining := amount, totalIn := 0, totalOut := 0, fee := 0 }
        simpa using this)
    (by
      rintro st st' ⟨hsd, n, W, hn, w0, w1, w2⟩ h0 hi
      obtain ⟨hle, w, v0, v1, v2⟩ := iter_take_x hw hs hf hsd h0 rfl rfl hi
      refine ⟨iter_side hw hs hsd h0 hi, n + 1, W + w, rounds_step hw hs hsd h0 hi (.inr rfl) hn, by positivity,
        ?_, ?_⟩
      · dsimp only at v1
        push_cast
        linarith
      · have : endGrain st = 0 := by unfold endGrain; rw [if_neg h0]
        rw [this] at w2
        have h3 := mul_le_mul_of_nonneg_right (sq_price_le hle) w0
        push_cast
        linarith)
  subst e
  refine ⟨n, rounds_le (a := ⟨key, true, false, limit, now⟩) hs.1 h0 hn, ?_⟩
  dsimp only
  have hg : endGrain st = grain st.pool.liquidity := by unfold endGrain; rw [if_pos h0]
  rw [hg] at w2
  have h4 := mul_le_mul_of_nonneg_left w1 (sq_nonneg (price st.pool.sqrtPrice))
  have h5 := mul_le_mul_of_nonneg_left w2 (show (0 : ℚ) ≤ 1 + relX by linarith [relX_pos])
  rw [mul_add] at h4
  linarith

end Verif
