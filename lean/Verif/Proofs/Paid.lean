import Verif.Spec.Held
import Verif.Proofs.StepPays
import Verif.Proofs.Trades

/-! # What a swap pays on top of the curve -/

namespace Verif
open Service Spec

variable {s s' : Inv} {key : PoolKey}

theorem curveHeld_eq (hr : Reach32 s) (tok : Bool) (key : PoolKey) (P : Nat) :
    curveHeld tok s key P = curveAt s.positions key tok P := by
  have hw := reach_wf s (reach32_reach s hr).1
  unfold curveHeld curveAt posSum
  refine Map.sum_congr fun k q hq => ?_
  dsimp only
  by_cases hk : q.poolKey = key
  · rw [if_pos hk, if_pos hk]
    have hp := (hw.pos _ _ hq).1
    have hlu := (priceOf_lt hp.lower.min hp.upper.max hp.lt).le
    have h0 : 0 < priceOf q.lowerTickIndex :=
      lt_of_lt_of_le (by norm_num [MIN_SQRT_PRICE]) (priceOf_ge_min hp.lower.min hp.lower.max)
    unfold curveHeldBy
    rw [calculateSqrtPrice_eq hp.lower.min hp.lower.max, calculateSqrtPrice_eq hp.upper.min hp.upper.max]
    dsimp only
    have c1 : clampTo q P ≤ priceOf q.upperTickIndex := by unfold clampTo; omega
    have c2 : priceOf q.lowerTickIndex ≤ clampTo q P := by unfold clampTo; omega
    cases tok
    · rw [if_neg (by decide)]
      exact (coord_diff_Y c2).symm
    · rw [if_pos rfl, amountX_comm]
      exact (coord_diff_X (lt_of_lt_of_le h0 c2) c1).symm
  · rw [if_neg hk, if_neg hk]

variable {a : SwapArgs} {st st' : SwapState} {target dust : Nat} {r : SwapResult} {p1 p2 : Pool}

/-- one round -/
theorem iter_paid (hps : ∀ k q, s.positions.map.get k = some q → q.poolKey = a.key → PosIn s a.key q)
    (hw : StoreWF s) {start : Nat} (hs : Spacing a.key.feeTier.tickSpacing) (hf : a.key.feeTier.fee ≤ 10 ^ 12)
    (hsd : SwapSide a start st) (h0 : st.remaining ≠ 0) (hi : swapIter s a st = .ok st')
    (hL : st.pool.liquidity = activeLiq s a.key st.pool.currentTickIndex)
    (h : IterMove s a st st' target r dust p1 p2) :
    (1 + pct a.key.feeTier.fee) * curveSum s.positions a.key a.xToY (vworld s a st') +
        2 * slackX * roundsLeft a st' + st.totalIn ≤
      (1 + pct a.key.feeTier.fee) * curveSum s.positions a.key a.xToY (vworld s a st) +
        2 * slackX * roundsLeft a st + st'.totalIn := by
  have hp := hsd.agree.price
  have hp' := (iter_side hw hs hsd h0 hi).agree.price
  have c1 := iter_pays hp hp' hf h
  rw [iter_curveSum hps h, ← hL, mul_add]
  have hr : (roundsLeft a st' : ℚ) + (if a.xToY then 1 else 0) ≤ roundsLeft a st := by
    unfold roundsLeft
    cases hx : a.xToY
    · simp
    · simp only [if_true]
      rw [if_neg h0]
      by_cases h1 : st'.remaining = 0
      · rw [if_pos h1]; push_cast; linarith [Nat.cast_nonneg (α := ℚ) (itersLeft a st)]
      · rw [if_neg h1]
        have := iter_left hw hs hsd h0 hi h1
        exact_mod_cast Nat.succ_le_succ this
  have hsl : 2 * slackX * roundsLeft a st' + (if a.xToY then 2 * slackX else 0) ≤
      2 * slackX * roundsLeft a st := by
    have := mul_le_mul_of_nonneg_left hr (mul_nonneg (by norm_num) slackX_pos.le : 0 ≤ 2 * slackX)
    refine le_trans (le_of_eq ?_) this
    cases a.xToY <;> simp <;> ring
  have d0 : (0 : ℚ) ≤ dust := Nat.cast_nonneg _
  rw [h.totalIn]
  push_cast
  linarith

/-- a whole swap -/
theorem swap_paid (hw : StoreWF s) (hl : LedgerInv s)
    (hps : ∀ k q, s.positions.map.get k = some q → q.poolKey = key → PosIn s key q)
    {now : Nat} {xToY byIn : Bool} {amount limit : Nat}
    {r : CalculateSwapResult} {pool : Pool} (hs : Spacing key.feeTier.tickSpacing)
    (hf : key.feeTier.fee ≤ 10 ^ 12)
    (h : calculateSwap s now key xToY amount byIn limit = .ok r) (hp : s.pools.get key = some pool)
    (ha : TickAgree key.feeTier.tickSpacing pool) (hn : ¬ Near s key xToY byIn limit r.targetSqrtPrice)
    (hL : pool.liquidity = activeLiq s key pool.currentTickIndex) (tk : Int → Option Tick) :
    (1 + pct key.feeTier.fee) * curveSum s.positions key xToY ⟨r.pool, tk⟩ ≤
      (1 + pct key.feeTier.fee) * curveSum s.positions key xToY (world s key pool) + r.amountIn +
        (if xToY then 2 * slackX * 443637 else 0) := by
  obtain ⟨st, ⟨_, b1⟩, _, hrem, e⟩ := swap_far_ind hw hs h hp ha hn
    (P := fun st =>
      (st.pool.liquidity = activeLiq s key st.pool.currentTickIndex ∨
        (st.remaining = 0 ∧ Near s key xToY byIn limit st.pool.sqrtPrice)) ∧
      (1 + pct key.feeTier.fee) * curveSum s.positions key xToY (vworld s ⟨key, xToY, byIn, limit, now⟩ st) +
          2 * slackX * roundsLeft ⟨key, xToY, byIn, limit, now⟩ st ≤
        (1 + pct key.feeTier.fee) * curveSum s.positions key xToY (world s key pool) +
          2 * slackX * (if xToY then 443637 else 0) + st.totalIn)
    (by
      refine ⟨.inl hL, ?_⟩
      have : (roundsLeft ⟨key, xToY, byIn, limit, now⟩
          { pool := pool, ticks := [], remaining := amount, totalIn := 0, totalOut := 0, fee := 0 } : ℚ) ≤
          if xToY then 443637 else 0 := by
        unfold roundsLeft itersLeft
        have g1 := ha.grid.min
        have g2 := ha.grid.max
        simp only [MIN_TICK, MAX_TICK] at g1 g2 ⊢
        cases xToY
        · simp
        · simp only [if_true]
          split
          · simp
          · exact_mod_cast (by omega : (pool.currentTickIndex - -221818).toNat + 1 ≤ 443637)
      have := mul_le_mul_of_nonneg_left this (mul_nonneg (by norm_num) slackX_pos.le : 0 ≤ 2 * slackX)
      simp only [Nat.cast_zero, add_zero]
      exact add_le_add_right this _)
    (by
      rintro st st' target sr dust p1 p2 ⟨i2, i3⟩ hsd hb h0 hi hm
      have hL : st.pool.liquidity = activeLiq s key st.pool.currentTickIndex := by
        rcases i2 with h | h
        · exact h
        · exact absurd h.1 h0
      have j1 := iter_paid hps hw hs hf hsd h0 hi hL hm
      refine ⟨?_, ?_⟩
      · exact (iter_active hw hl hs ⟨hsd, .inl hL⟩ h0 hi).liq
      · dsimp only at j1; linarith)
  have er : roundsLeft ⟨key, xToY, byIn, limit, now⟩ st = 0 := by
    unfold roundsLeft
    rw [if_pos hrem]; simp
  rw [er] at b1
  rw [e]
  dsimp only
  refine le_trans ?_ (le_trans b1 (le_of_eq ?_))
  · simp only [Nat.cast_zero, mul_zero, add_zero]; exact le_rfl
  · cases xToY <;> simp <;> ring

end Verif
