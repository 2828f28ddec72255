import Verif.Proofs.Rounds
import Verif.Proofs.AvgPrice

/-! # The average price of a whole swap -/

namespace Verif
open Service Spec

variable {s : Inv} {key : PoolKey} {now amount limit : Nat} {r : CalculateSwapResult} {pool : Pool}

theorem sq_price_le {a b : Nat} (h : a ≤ b) : price a ^ 2 ≤ price b ^ 2 := by
  have h1 := price_le h
  have h2 : 0 ≤ price a := by unfold price; positivity
  nlinarith

/-- from X to Y -/
theorem swap_avg_x (hw : StoreWF s) (hs : Spacing key.feeTier.tickSpacing) (hf : key.feeTier.fee ≤ 10 ^ 12)
    (h : calculateSwap s now key true amount true limit = .ok r) (hp : s.pools.get key = some pool)
    (hsd : SwapSide ⟨key, true, true, limit, now⟩ pool.sqrtPrice
      { pool := pool, ticks := [], remaining := amount, totalIn := 0, totalOut := 0, fee := 0 }) :
    ∃ n : Nat, n ≤ r.ticks.length + 2 +
        (r.pool.currentTickIndex - pool.currentTickIndex).natAbs / (256 * key.feeTier.tickSpacing) ∧
      price r.pool.sqrtPrice ^ 2 * ((1 - pct key.feeTier.fee) * r.amountIn) ≤
        (1 + relX) * (r.amountOut + n) + price r.pool.sqrtPrice ^ 2 * (3 * n) + grain r.pool.liquidity := by
  obtain ⟨st, ⟨hsd', n, W, hn, w0, w1, w2⟩, h0, _, e⟩ := calculateSwap_ind
    (P := fun st => SwapSide ⟨key, true, true, limit, now⟩ pool.sqrtPrice st ∧ ∃ (n : Nat) (W : ℚ),
      RoundsOk ⟨key, true, true, limit, now⟩ pool.currentTickIndex n st ∧ 0 ≤ W ∧
      (1 - pct key.feeTier.fee) * (st.totalIn : ℚ) ≤ (1 + relX) * W + 3 * n + lastGrain true st ∧
      price st.pool.sqrtPrice ^ 2 * W ≤ (st.totalOut : ℚ) + n) h hp
    (by
      refine ⟨hsd, 0, 0, ?_, le_rfl, ?_, by simp⟩
      · unfold RoundsOk walk
        simp only [if_true]
        split <;> simp <;> positivity
      · have := lastGrain_nonneg true
          { pool := pool, ticks := [], remaining := amount, totalIn := 0, totalOut := 0, fee := 0 }
        simpa using this)
    (by
      rintro st st' ⟨hsd, n, W, hn, w0, w1, w2⟩ h0 hi
      obtain ⟨hle, w, v0, v1, v2⟩ := iter_give_x hw hs hf hsd h0 rfl rfl hi
      refine ⟨iter_side hw hs hsd h0 hi, n + 1, W + w, rounds_step hw hs hsd h0 hi (.inl rfl) hn, by positivity, ?_, ?_⟩
      · have : lastGrain true st = 0 := by unfold lastGrain; rw [if_neg h0]
        rw [this] at w1
        dsimp only at v1
        push_cast
        linarith
      · have h3 := mul_le_mul_of_nonneg_right (sq_price_le hle) w0
        push_cast
        linarith)
  subst e
  refine ⟨n, rounds_le (a := ⟨key, true, true, limit, now⟩) hs.1 h0 hn, ?_⟩
  dsimp only
  have hg : price st.pool.sqrtPrice ^ 2 * lastGrain true st = grain st.pool.liquidity := by
    unfold lastGrain
    rw [if_pos h0, if_pos rfl]
    have : price st.pool.sqrtPrice ≠ 0 :=
      (price_pos (lt_of_lt_of_le (by norm_num [MIN_SQRT_PRICE]) hsd'.agree.price.1)).ne'
    field_simp
  have h4 := mul_le_mul_of_nonneg_left w1 (sq_nonneg (price st.pool.sqrtPrice))
  have h5 := mul_le_mul_of_nonneg_left w2 (show (0 : ℚ) ≤ 1 + relX by linarith [relX_pos])
  rw [mul_add, mul_add, hg] at h4
  linarith

/-- from Y to X -/
theorem swap_avg_y (hw : StoreWF s) (hs : Spacing key.feeTier.tickSpacing) (hf : key.feeTier.fee ≤ 10 ^ 12)
    (h : calculateSwap s now key false amount true limit = .ok r) (hp : s.pools.get key = some pool)
    (hsd : SwapSide ⟨key, false, true, limit, now⟩ pool.sqrtPrice
      { pool := pool, ticks := [], remaining := amount, totalIn := 0, totalOut := 0, fee := 0 }) :
    ∃ n : Nat, n ≤ r.ticks.length + 2 +
        (r.pool.currentTickIndex - pool.currentTickIndex).natAbs / (256 * key.feeTier.tickSpacing) ∧
      (1 - pct key.feeTier.fee) * r.amountIn ≤
        price r.pool.sqrtPrice ^ 2 * ((1 + relX) * (r.amountOut + n)) + 3 * n + grain r.pool.liquidity := by
  obtain ⟨st, ⟨hsd', n, W, hn, w1, w2⟩, h0, _, e⟩ := calculateSwap_ind
    (P := fun st => SwapSide ⟨key, false, true, limit, now⟩ pool.sqrtPrice st ∧ ∃ (n : Nat) (W : ℚ),
      RoundsOk ⟨key, false, true, limit, now⟩ pool.currentTickIndex n st ∧
      (1 - pct key.feeTier.fee) * (st.totalIn : ℚ) ≤ W + 3 * n + lastGrain false st ∧
      W ≤ price st.pool.sqrtPrice ^ 2 * ((1 + relX) * ((st.totalOut : ℚ) + n))) h hp
    (by
      refine ⟨hsd, 0, 0, ?_, ?_, by simp⟩
      · unfold RoundsOk walk
        simp only [Bool.false_eq_true, if_false]
        split <;> simp <;> positivity
      · have := lastGrain_nonneg false
          { pool := pool, ticks := [], remaining := amount, totalIn := 0, totalOut := 0, fee := 0 }
        simpa using this)
    (by
      rintro st st' ⟨hsd, n, W, hn, w1, w2⟩ h0 hi
      obtain ⟨hle, w, v1, v2⟩ := iter_give_y hw hs hf hsd h0 rfl rfl hi
      refine ⟨iter_side hw hs hsd h0 hi, n + 1, W + w, rounds_step hw hs hsd h0 hi (.inl rfl) hn, ?_, ?_⟩
      · have : lastGrain false st = 0 := by unfold lastGrain; rw [if_neg h0]
        rw [this] at w1
        dsimp only at v1
        push_cast
        linarith
      · have o : (0 : ℚ) ≤ (1 + relX) * ((st.totalOut : ℚ) + n) := by
          have := relX_pos
          positivity
        have h3 := mul_le_mul_of_nonneg_right (sq_price_le hle) o
        push_cast
        linarith)
  subst e
  refine ⟨n, rounds_le (a := ⟨key, false, true, limit, now⟩) hs.1 h0 hn, ?_⟩
  dsimp only
  have hg : lastGrain false st = grain st.pool.liquidity := by
    unfold lastGrain
    rw [if_pos h0, if_neg (by decide)]
  rw [hg] at w1
  linarith

end Verif
