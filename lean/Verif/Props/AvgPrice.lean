import Verif.Spec.Rounds
import Verif.Proofs.AvgSwap
import Verif.Props.Trades

/-!
# Property C80: the average price of an exact-input swap is no worse than the price it ends at

No condition on how earlier swaps ended: what the trader gets is compared with the price the swap moves to,
not with the positions. `rounds` bounds the number of rounds of the loop: one for each tick crossed, one for
each 256 grid ticks walked, and two more.
-/

namespace Verif
open Service Spec

variable {s : Inv} {key : PoolKey} {env : Env} {amount limit : Nat} {r : Inv × CalculateSwapResult} {pool : Pool}

theorem swap_side0 {xToY byIn : Bool} {now : Nat} {r : CalculateSwapResult} (hr : Reach s)
    (h : calculateSwap s now key xToY amount byIn limit = .ok r) (hp : s.pools.get key = some pool) :
    SwapSide ⟨key, xToY, byIn, limit, now⟩ pool.sqrtPrice
      { pool := pool, ticks := [], remaining := amount, totalIn := 0, totalOut := 0, fee := 0 } := by
  obtain ⟨p, st, h1, _, h3, h4, _⟩ := calculateSwap_ok h
  rw [hp] at h1
  cases h1
  refine ⟨reach_agree _ hr _ _ hp, ?_, ?_⟩
  · dsimp only; split <;> exact le_rfl
  · dsimp only
    cases xToY
    · simpa using (h4 rfl).1.le
    · simp only [if_true]; left; exact (h3 rfl).1.le

/-- C80, X for Y: the input without the fee of the tier, at the price the swap ends at, is at most the output,
up to three units of X and one unit of Y for each round, 5·10^-15 of the output, and what moves the price by
two of its smallest steps. -/
theorem C80_sell (hr : Reach s) (h : Service.swap env s key true amount true limit = .ok r)
    (hp : s.pools.get key = some pool) :
    price r.2.targetSqrtPrice ^ 2 * ((1 - pct key.feeTier.fee) * r.2.amountIn) ≤
      (1 + 1 / (2 * 10 ^ 14)) * (r.2.amountOut + rounds pool r.2 key.feeTier.tickSpacing) +
      price r.2.targetSqrtPrice ^ 2 * (3 * rounds pool r.2 key.feeTier.tickSpacing) +
      2 * (liq r.2.pool.liquidity + 1) / 10 ^ 24 := by
  obtain ⟨ticks, b1, b2, h1, _⟩ := swap_ok h
  obtain ⟨⟨hs1, hs2, hs3⟩, _⟩ := (reach_tiers hr).pools key (by rw [hp]; rfl)
  obtain ⟨n, hn, hm⟩ := swap_avg_x (reach_wf _ hr) ⟨hs1, hs2⟩ hs3.le h1 hp (swap_side0 hr h1 hp)
  have et := (calculateSwap_side (reach_wf _ hr) ⟨hs1, hs2⟩ h1 hp (reach_agree _ hr _ _ hp)).2.2.1
  rw [et]
  have hn' : (n : ℚ) ≤ rounds pool r.2 key.feeTier.tickSpacing := by exact_mod_cast hn
  have e1 : price r.2.pool.sqrtPrice ^ 2 * (3 * n) ≤
      price r.2.pool.sqrtPrice ^ 2 * (3 * rounds pool r.2 key.feeTier.tickSpacing) :=
    mul_le_mul_of_nonneg_left (by linarith) (sq_nonneg _)
  unfold relX grain at hm
  linarith

/-- C80, Y for X: the input without the fee of the tier is at most the output at the price the swap ends at, up
to three units of Y and one unit of X for each round, 5·10^-15 of the output, and what moves the price by two of
its smallest steps. -/
theorem C80_buy (hr : Reach s) (h : Service.swap env s key false amount true limit = .ok r)
    (hp : s.pools.get key = some pool) :
    (1 - pct key.feeTier.fee) * r.2.amountIn ≤
      price r.2.targetSqrtPrice ^ 2 *
        ((1 + 1 / (2 * 10 ^ 14)) * (r.2.amountOut + rounds pool r.2 key.feeTier.tickSpacing)) +
      3 * rounds pool r.2 key.feeTier.tickSpacing + 2 * (liq r.2.pool.liquidity + 1) / 10 ^ 24 := by
  obtain ⟨ticks, b1, b2, h1, _⟩ := swap_ok h
  obtain ⟨⟨hs1, hs2, hs3⟩, _⟩ := (reach_tiers hr).pools key (by rw [hp]; rfl)
  obtain ⟨n, hn, hm⟩ := swap_avg_y (reach_wf _ hr) ⟨hs1, hs2⟩ hs3.le h1 hp (swap_side0 hr h1 hp)
  have et := (calculateSwap_side (reach_wf _ hr) ⟨hs1, hs2⟩ h1 hp (reach_agree _ hr _ _ hp)).2.2.1
  rw [et]
  have hn' : (n : ℚ) ≤ rounds pool r.2 key.feeTier.tickSpacing := by exact_mod_cast hn
  have e1 : price r.2.pool.sqrtPrice ^ 2 * ((1 + 1 / (2 * 10 ^ 14)) * (r.2.amountOut + n)) ≤
      price r.2.pool.sqrtPrice ^ 2 *
        ((1 + 1 / (2 * 10 ^ 14)) * (r.2.amountOut + rounds pool r.2 key.feeTier.tickSpacing)) :=
    mul_le_mul_of_nonneg_left (by nlinarith) (sq_nonneg _)
  unfold relX grain at hm
  linarith

theorem price_nonneg (p : Nat) : 0 ≤ price p := by unfold price; positivity

/-- C80, X for Y against the limit the trader gave (65536 price units less, by which a swap can overshoot a limit
below 1) -/
theorem C80_sell_limit (hr : Reach s) (h : Service.swap env s key true amount true limit = .ok r)
    (hp : s.pools.get key = some pool) :
    price (limit - 65536) ^ 2 *
        ((1 - pct key.feeTier.fee) * r.2.amountIn - 3 * rounds pool r.2 key.feeTier.tickSpacing) ≤
      (1 + 1 / (2 * 10 ^ 14)) * (r.2.amountOut + rounds pool r.2 key.feeTier.tickSpacing) +
      2 * (liq r.2.pool.liquidity + 1) / 10 ^ 24 := by
  have m := C80_sell hr h hp
  obtain ⟨ticks, b1, b2, h1, _⟩ := swap_ok h
  obtain ⟨⟨hs1, hs2, hs3⟩, _⟩ := (reach_tiers hr).pools key (by rw [hp]; rfl)
  obtain ⟨_, _, et, hl⟩ := calculateSwap_side (reach_wf _ hr) ⟨hs1, hs2⟩ h1 hp (reach_agree _ hr _ _ hp)
  rw [if_pos rfl] at hl
  have hle : limit - 65536 ≤ r.2.targetSqrtPrice := by
    rw [et]
    rcases hl.2 with h2 | ⟨_, h2, _⟩ <;> omega
  generalize limit - 65536 = q at hle ⊢
  have h2 := price_le hle
  have h3 := price_nonneg q
  have h4 : price q ^ 2 ≤ price r.2.targetSqrtPrice ^ 2 := by nlinarith
  rcases le_total 0 ((1 - pct key.feeTier.fee) * r.2.amountIn - 3 * (rounds pool r.2 key.feeTier.tickSpacing : ℚ))
    with hz | hz
  · have := mul_le_mul_of_nonneg_right h4 hz
    linarith
  · refine le_trans (mul_nonpos_of_nonneg_of_nonpos (sq_nonneg _) hz) ?_
    have : 0 ≤ liq r.2.pool.liquidity := by unfold liq; positivity
    positivity

/-- C80, Y for X against the limit the trader gave -/
theorem C80_buy_limit (hr : Reach s) (h : Service.swap env s key false amount true limit = .ok r)
    (hp : s.pools.get key = some pool) :
    (1 - pct key.feeTier.fee) * r.2.amountIn ≤
      price limit ^ 2 *
        ((1 + 1 / (2 * 10 ^ 14)) * (r.2.amountOut + rounds pool r.2 key.feeTier.tickSpacing)) +
      3 * rounds pool r.2 key.feeTier.tickSpacing + 2 * (liq r.2.pool.liquidity + 1) / 10 ^ 24 := by
  have m := C80_buy hr h hp
  obtain ⟨ticks, b1, b2, h1, _⟩ := swap_ok h
  obtain ⟨⟨hs1, hs2, hs3⟩, _⟩ := (reach_tiers hr).pools key (by rw [hp]; rfl)
  obtain ⟨_, _, et, hl⟩ := calculateSwap_side (reach_wf _ hr) ⟨hs1, hs2⟩ h1 hp (reach_agree _ hr _ _ hp)
  rw [if_neg (by decide)] at hl
  have h2 := price_le (show r.2.targetSqrtPrice ≤ limit by rw [et]; exact hl.2)
  have h3 := price_nonneg r.2.targetSqrtPrice
  have h4 : price r.2.targetSqrtPrice ^ 2 ≤ price limit ^ 2 := by nlinarith
  have := mul_le_mul_of_nonneg_right h4 (show (0 : ℚ) ≤ (1 + 1 / (2 * 10 ^ 14)) *
    (r.2.amountOut + rounds pool r.2 key.feeTier.tickSpacing) by positivity)
  linarith

/-- in the demo account 2 sells 22·10^6 of X for 21965657 of Y; at the price the swap ends at, after the fee of
0.1%, they are worth 21947372.6 of Y. One tick is crossed, and three rounds are allowed for. -/
example : Reach Demo.start ∧
    (Demo.start.pools.get Demo.key).map (fun pool =>
      (Service.swap (Demo.by_ 2) Demo.start Demo.key true (22 * 10 ^ 6) true MIN_SQRT_PRICE).toOption.map
      (fun r => (r.2.amountIn, r.2.amountOut, r.2.targetSqrtPrice, rounds pool r.2 Demo.key.feeTier.tickSpacing))) =
      some (some (22000000, 21965657, 999302984359663232683739, 3)) ∧
    21947372 < price 999302984359663232683739 ^ 2 * ((1 - pct Demo.key.feeTier.fee) * 22000000) ∧
    price 999302984359663232683739 ^ 2 * ((1 - pct Demo.key.feeTier.fee) * 22000000) < 21947373 := by
  refine ⟨?_, by decide +kernel, by decide +kernel, by decide +kernel⟩
  obtain ⟨n, _, h⟩ := demo_start_books
  exact (reach32_reach _ (clear_reach32 _ (clearBooks_clear h))).1

/-- and sells 22·10^6 of Y for 21965657 of X, which are worth 21996309.8 of Y at the price the swap ends at -/
example : (Demo.start.pools.get Demo.key).map (fun pool =>
      (Service.swap (Demo.by_ 2) Demo.start Demo.key false (22 * 10 ^ 6) true MAX_SQRT_PRICE).toOption.map
      (fun r => (r.2.amountIn, r.2.amountOut, r.2.targetSqrtPrice, rounds pool r.2 Demo.key.feeTier.tickSpacing))) =
      some (some (22000000, 21965657, 1000697501810000000000000, 3)) ∧
    (1 - pct Demo.key.feeTier.fee) * 22000000 = 21978000 ∧
    21996309 < price 1000697501810000000000000 ^ 2 * 21965657 ∧
    price 1000697501810000000000000 ^ 2 * 21965657 < 21996310 := by
  refine ⟨by decide +kernel, by decide +kernel, by decide +kernel, by decide +kernel⟩

end Verif
