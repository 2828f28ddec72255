import Verif.Proofs.AvgOut
import Verif.Proofs.AvgTake
import Verif.Props.AvgPrice
import Verif.Props.SdkPrices
import Verif.Props.PriceTick
import Verif.Props.Provider

/-!
# Property C104: a swap sent with a tolerance is never worse than the tolerance says

A user of the SDK sends a swap with `swapWithSlippage`: an estimated root price and a tolerance. Whatever others do
before the swap is handled, if it succeeds its average price, without the fee of the tier, is no worse than the
estimated price less (or plus) the tolerance, up to roundings.
-/

namespace Verif
open Service Spec Sdk

section
variable {s : Inv} {key : PoolKey} {env : Env} {amount limit : Nat} {r : Inv × CalculateSwapResult} {pool : Pool}

/-- C104, exact output of Y, against the price the swap ends at -/
theorem C104_end (hr : Reach s) (h : Service.swap env s key true amount false limit = .ok r)
    (hp : s.pools.get key = some pool) :
    price r.2.targetSqrtPrice ^ 2 *
        ((1 - pct key.feeTier.fee) * r.2.amountIn - 2 * rounds pool r.2 key.feeTier.tickSpacing) ≤
      (1 + 1 / (2 * 10 ^ 14)) * (r.2.amountOut + rounds pool r.2 key.feeTier.tickSpacing +
        2 * (liq r.2.pool.liquidity + 1) / 10 ^ 24) := by
  obtain ⟨ticks, b1, b2, h1, _⟩ := swap_ok h
  obtain ⟨⟨hs1, hs2, hs3⟩, _⟩ := (reach_tiers hr).pools key (by rw [hp]; rfl)
  obtain ⟨n, hn, hm⟩ := swap_avg_out (reach_wf _ hr) ⟨hs1, hs2⟩ hs3.le h1 hp (swap_side0 hr h1 hp)
  have et := (calculateSwap_side (reach_wf _ hr) ⟨hs1, hs2⟩ h1 hp (reach_agree _ hr _ _ hp)).2.2.1
  rw [et]
  have hn' : (n : ℚ) ≤ rounds pool r.2 key.feeTier.tickSpacing := by exact_mod_cast hn
  have e1 : price r.2.pool.sqrtPrice ^ 2 * (2 * n) ≤
      price r.2.pool.sqrtPrice ^ 2 * (2 * rounds pool r.2 key.feeTier.tickSpacing) :=
    mul_le_mul_of_nonneg_left (by linarith) (sq_nonneg _)
  unfold relX grain at hm
  rw [mul_sub]
  linarith

/-- the limit of a sale is not below the estimate less the tolerance, by more than a trifle -/
theorem sell_limit {q slippage l : Nat} (hq : q < 2 ^ 128) (hs : slippage ≤ 10 ^ 12)
    (h : swapLimit q slippage true = .ok l) :
    price q ^ 2 * (1 - pct slippage) ≤ price (l - 65536) ^ 2 + (1 + price q) / (5 * 10 ^ 18) := by
  obtain ⟨lo, e1, b1, b2⟩ := C60_bound (up := false) hq (by omega : slippage < 2 ^ 128) (fun _ => hs)
  unfold swapLimit at h
  simp only [Bool.not_true, e1, ok_bind, if_true, pure_ok_iff] at h
  have hl : lo = l + 1 := by omega
  have hf : (factor slippage false : ℚ) = 10 ^ 12 - slippage := by
    unfold factor; simp only [Bool.false_eq_true, if_false]; rw [Nat.cast_sub hs]; norm_num
  have b2' : (q : ℚ) * q * (10 ^ 12 - slippage) < (lo + 1) * (lo + 1) * 10 ^ 12 + 10 ^ 24 * (10 ^ 12 - slippage) := by
    rw [← hf]; exact_mod_cast b2
  have hloq : lo ≤ q := by
    have hf : factor slippage false ≤ 10 ^ 12 := by
      unfold factor; simp only [Bool.false_eq_true, if_false]; omega
    have : lo * lo * 10 ^ 12 ≤ q * q * 10 ^ 12 := le_trans b1 (Nat.mul_le_mul_left _ hf)
    exact Nat.mul_self_le_mul_self_iff.1 (Nat.le_of_mul_le_mul_right this (by positivity))
  obtain ⟨y, hy⟩ : ∃ y, y = l - 65536 := ⟨_, rfl⟩
  rw [← hy]
  have k1 : (lo : ℚ) + 1 ≤ y + 65538 := by
    have : lo + 1 ≤ y + 65538 := by omega
    exact_mod_cast this
  have k2 : (y : ℚ) ≤ q := by
    have : y ≤ q := by omega
    exact_mod_cast this
  have y0 : (0 : ℚ) ≤ y := Nat.cast_nonneg _
  have s0 : (0 : ℚ) ≤ slippage := Nat.cast_nonneg _
  have lo0 : (0 : ℚ) ≤ lo := Nat.cast_nonneg _
  have k3 : ((lo : ℚ) + 1) * (lo + 1) ≤ (y + 65538) * (y + 65538) := mul_le_mul k1 k1 (by linarith) (by linarith)
  have k4 : ((y : ℚ) + 65538) * (y + 65538) ≤ y * y + 131076 * q + 65538 * 65538 := by
    have : ((y : ℚ) + 65538) * (y + 65538) = y * y + 131076 * y + 65538 * 65538 := by ring
    linarith
  unfold price pct
  have e2 : ((q : ℚ) / 10 ^ 24) ^ 2 * (1 - slippage / 10 ^ 12) = q * q * (10 ^ 12 - slippage) / 10 ^ 60 := by
    field_simp
  have e3 : ((y : ℚ) / 10 ^ 24) ^ 2 + (1 + q / 10 ^ 24) / (5 * 10 ^ 18) =
      (y * y * 10 ^ 12 + 2 * 10 ^ 41 + 2 * 10 ^ 17 * q) / 10 ^ 60 := by
    field_simp
    ring
  rw [e2, e3]
  apply div_le_div_of_nonneg_right _ (by positivity)
  linarith

/-- the limit of a purchase is not above the estimate plus the tolerance, by more than a trifle -/
theorem buy_limit {q slippage l : Nat} (hq : q < 2 ^ 128) (hs : slippage ≤ 10 ^ 12)
    (h : swapLimit q slippage false = .ok l) :
    price l ^ 2 ≤ price q ^ 2 * (1 + pct slippage) + (1 + price q) / 10 ^ 23 := by
  obtain ⟨hi, e1, b1, -⟩ := C60_bound (up := true) hq (by omega : slippage < 2 ^ 128) (fun h => by cases h)
  unfold swapLimit at h
  simp only [Bool.not_false, e1, ok_bind, Bool.false_eq_true, if_false, pure_ok_iff] at h
  have hl : l = hi + 1 := by omega
  subst hl
  have hf : (factor slippage true : ℚ) = 10 ^ 12 + slippage := by
    unfold factor; simp only [if_true]; push_cast; ring
  have b1' : (hi : ℚ) * hi * 10 ^ 12 ≤ q * q * (10 ^ 12 + slippage) := by
    rw [← hf]; exact_mod_cast b1
  have hhi : hi ≤ 2 * q := by
    have hf : factor slippage true ≤ 4 * 10 ^ 12 := by
      unfold factor; simp only [if_true]; omega
    have : hi * hi * 10 ^ 12 ≤ (2 * q) * (2 * q) * 10 ^ 12 := by
      calc hi * hi * 10 ^ 12 ≤ q * q * (4 * 10 ^ 12) := le_trans b1 (Nat.mul_le_mul_left _ hf)
        _ = _ := by ring
    exact Nat.mul_self_le_mul_self_iff.1 (Nat.le_of_mul_le_mul_right this (by positivity))
  have hhi' : (hi : ℚ) ≤ 2 * q := by exact_mod_cast hhi
  unfold price pct
  have e2 : ((q : ℚ) / 10 ^ 24) ^ 2 * (1 + slippage / 10 ^ 12) + (1 + q / 10 ^ 24) / 10 ^ 23 =
      (q * q * (10 ^ 12 + slippage) + 10 ^ 37 + 10 ^ 13 * q) / 10 ^ 60 := by
    field_simp
    ring
  have e3 : (((hi + 1 : Nat) : ℚ) / 10 ^ 24) ^ 2 = ((hi * hi + 2 * hi + 1) * 10 ^ 12) / 10 ^ 60 := by
    push_cast
    field_simp
    ring
  rw [e2, e3]
  apply div_le_div_of_nonneg_right _ (by positivity)
  have q0 : (0 : ℚ) ≤ q := Nat.cast_nonneg _
  nlinarith

variable {q slippage l : Nat}

/-- C104, exact input of X: the input without the fee, at the estimated price less the tolerance, is at most the
output, up to roundings. -/
theorem C104_sell (hr : Reach s) (hq : q < 2 ^ 128) (hs : slippage ≤ 10 ^ 12)
    (hl : swapLimit q slippage true = .ok l) (h : Service.swap env s key true amount true l = .ok r)
    (hp : s.pools.get key = some pool) :
    price q ^ 2 * (1 - pct slippage) *
        ((1 - pct key.feeTier.fee) * r.2.amountIn - 3 * rounds pool r.2 key.feeTier.tickSpacing) ≤
      (1 + 1 / (2 * 10 ^ 14)) * (r.2.amountOut + rounds pool r.2 key.feeTier.tickSpacing) +
      2 * (liq r.2.pool.liquidity + 1) / 10 ^ 24 + (1 + price q) / (5 * 10 ^ 18) * r.2.amountIn := by
  have m := C80_sell_limit hr h hp
  have k := sell_limit hq hs hl
  obtain ⟨⟨_, _, hs3⟩, _⟩ := (reach_tiers hr).pools key (by rw [hp]; rfl)
  have f0 := pct_nonneg key.feeTier.fee
  have pq := price_nonneg q
  have i0 : (0 : ℚ) ≤ r.2.amountIn := Nat.cast_nonneg _
  have n0 : (0 : ℚ) ≤ rounds pool r.2 key.feeTier.tickSpacing := Nat.cast_nonneg _
  have sl : 0 ≤ (1 + price q) / (5 * 10 ^ 18) := by positivity
  have hz : (1 - pct key.feeTier.fee) * r.2.amountIn - 3 * (rounds pool r.2 key.feeTier.tickSpacing : ℚ) ≤
      r.2.amountIn := by nlinarith
  have s1 : 0 ≤ 1 - pct slippage := by have := pct_le_one hs; linarith
  generalize (1 - pct key.feeTier.fee) * r.2.amountIn - 3 * (rounds pool r.2 key.feeTier.tickSpacing : ℚ) = Z at *
  have li : 0 ≤ liq r.2.pool.liquidity := by unfold liq; positivity
  rcases le_total 0 Z with z0 | z0
  · have h1 := mul_le_mul_of_nonneg_right k z0
    have h2 := mul_le_mul_of_nonneg_left hz sl
    linarith
  · have h1 : price q ^ 2 * (1 - pct slippage) * Z ≤ 0 :=
      mul_nonpos_of_nonneg_of_nonpos (mul_nonneg (sq_nonneg _) s1) z0
    refine h1.trans ?_
    positivity

/-- C104, exact input of Y: the input without the fee is at most the output at the estimated price plus the tolerance,
up to roundings. -/
theorem C104_buy (hr : Reach s) (hq : q < 2 ^ 128) (hs : slippage ≤ 10 ^ 12)
    (hl : swapLimit q slippage false = .ok l) (h : Service.swap env s key false amount true l = .ok r)
    (hp : s.pools.get key = some pool) :
    (1 - pct key.feeTier.fee) * r.2.amountIn ≤
      (price q ^ 2 * (1 + pct slippage) + (1 + price q) / 10 ^ 23) *
        ((1 + 1 / (2 * 10 ^ 14)) * (r.2.amountOut + rounds pool r.2 key.feeTier.tickSpacing)) +
      3 * rounds pool r.2 key.feeTier.tickSpacing + 2 * (liq r.2.pool.liquidity + 1) / 10 ^ 24 := by
  have m := C80_buy_limit hr h hp
  have k := buy_limit hq hs hl
  have := mul_le_mul_of_nonneg_right k (show (0 : ℚ) ≤ (1 + 1 / (2 * 10 ^ 14)) *
    (r.2.amountOut + rounds pool r.2 key.feeTier.tickSpacing) by positivity)
  linarith

/-- C104, exact output of Y: the input without the fee, at the estimated price less the tolerance, is at most the
output, up to roundings. -/
theorem C104_out (hr : Reach s) (hq : q < 2 ^ 128) (hs : slippage ≤ 10 ^ 12)
    (hl : swapLimit q slippage true = .ok l) (h : Service.swap env s key true amount false l = .ok r)
    (hp : s.pools.get key = some pool) :
    price q ^ 2 * (1 - pct slippage) *
        ((1 - pct key.feeTier.fee) * r.2.amountIn - 2 * rounds pool r.2 key.feeTier.tickSpacing) ≤
      (1 + 1 / (2 * 10 ^ 14)) * (r.2.amountOut + rounds pool r.2 key.feeTier.tickSpacing +
        2 * (liq r.2.pool.liquidity + 1) / 10 ^ 24) + (1 + price q) / (5 * 10 ^ 18) * r.2.amountIn := by
  have m := C104_end hr h hp
  have k := sell_limit hq hs hl
  have hlim : l ≤ r.2.targetSqrtPrice := (C28_limit_partial (s' := r.1) (r := r.2) hr h).2.1 rfl rfl
  have k2 : price (l - 65536) ^ 2 ≤ price r.2.targetSqrtPrice ^ 2 := sq_price_le (by omega)
  obtain ⟨⟨_, _, hs3⟩, _⟩ := (reach_tiers hr).pools key (by rw [hp]; rfl)
  have f0 := pct_nonneg key.feeTier.fee
  have pq := price_nonneg q
  have i0 : (0 : ℚ) ≤ r.2.amountIn := Nat.cast_nonneg _
  have n0 : (0 : ℚ) ≤ rounds pool r.2 key.feeTier.tickSpacing := Nat.cast_nonneg _
  have sl : 0 ≤ (1 + price q) / (5 * 10 ^ 18) := by positivity
  have hz : (1 - pct key.feeTier.fee) * r.2.amountIn - 2 * (rounds pool r.2 key.feeTier.tickSpacing : ℚ) ≤
      r.2.amountIn := by nlinarith
  have s1 : 0 ≤ 1 - pct slippage := by have := pct_le_one hs; linarith
  generalize (1 - pct key.feeTier.fee) * r.2.amountIn - 2 * (rounds pool r.2 key.feeTier.tickSpacing : ℚ) = Z at *
  have li : 0 ≤ liq r.2.pool.liquidity := by unfold liq; positivity
  rcases le_total 0 Z with z0 | z0
  · have h1 := mul_le_mul_of_nonneg_right (k.trans (add_le_add_left k2 _)) z0
    have h2 := mul_le_mul_of_nonneg_left hz sl
    linarith
  · have h1 : price q ^ 2 * (1 - pct slippage) * Z ≤ 0 :=
      mul_nonpos_of_nonneg_of_nonpos (mul_nonneg (sq_nonneg _) s1) z0
    refine h1.trans ?_
    positivity

/-- C104, exact output of X: the input without the fee is at most the output at the estimated price plus the tolerance,
up to roundings for every round the swap took. (The number of rounds is not bounded by the ticks passed: a round may
fall short of the remaining output without reaching a tick.) -/
theorem C104_take (hr : Reach s) (hq : q < 2 ^ 128) (hs : slippage ≤ 10 ^ 12)
    (hl : swapLimit q slippage false = .ok l) (h : Service.swap env s key false amount false l = .ok r)
    (hp : s.pools.get key = some pool) :
    ∃ n, TookRounds s ⟨key, false, false, l, env.now⟩ pool amount r.2 n ∧
      (1 - pct key.feeTier.fee) * r.2.amountIn ≤
        (price q ^ 2 * (1 + pct slippage) + (1 + price q) / 10 ^ 23) *
          ((1 + 1 / (2 * 10 ^ 14)) * (r.2.amountOut + n)) + 2 * n + 2 * (liq (endLiq r.2) + 1) / 10 ^ 24 := by
  have hlim : r.2.targetSqrtPrice ≤ l := (C28_limit_partial (s' := r.1) (r := r.2) hr h).1 rfl
  have k := buy_limit hq hs hl
  obtain ⟨ticks, b1, b2, h1, _⟩ := swap_ok h
  obtain ⟨⟨hs1, hs2, hs3⟩, _⟩ := (reach_tiers hr).pools key (by rw [hp]; rfl)
  obtain ⟨n, hn, hm⟩ := swap_avg_take (reach_wf _ hr) ⟨hs1, hs2⟩ hs3.le h1 hp (swap_side0 hr h1 hp)
  have et := (calculateSwap_side (reach_wf _ hr) ⟨hs1, hs2⟩ h1 hp (reach_agree _ hr _ _ hp)).2.2.1
  rw [et] at hlim
  refine ⟨n, hn, ?_⟩
  have k2 := (sq_price_le hlim).trans k
  have := mul_le_mul_of_nonneg_right k2 (show (0 : ℚ) ≤ (1 + 1 / (2 * 10 ^ 14)) * (r.2.amountOut + n) by positivity)
  unfold relX grain at hm
  linarith

end

namespace SlipDemo

/-- account 3 sells (or buys) just before account 2 -/
def front (xToY : Bool) : Inv := runAll Demo.start
  [(Demo.by_ 3, .swap Demo.key xToY (10 ^ 6) true (if xToY then MIN_SQRT_PRICE else MAX_SQRT_PRICE))]

theorem front_reach (xToY : Bool) : Reach (front xToY) := by
  refine ProviderDemo.reach_all _ _ ?_
  obtain ⟨n, _, h⟩ := demo_start_books
  exact (reach32_reach _ (clear_reach32 _ (clearBooks_clear h))).1

/-- what account 2 pays and gets, and the price and the rounds -/
def trade (xToY byIn : Bool) (amount limit : Nat) : Option (Nat × Nat × Nat × Nat) :=
  ((front xToY).pools.get Demo.key).bind fun pool =>
    (Service.swap (Demo.by_ 2) (front xToY) Demo.key xToY amount byIn limit).toOption.map fun r =>
      (r.2.amountIn, r.2.amountOut, r.2.targetSqrtPrice, rounds pool r.2 Demo.key.feeTier.tickSpacing)

end SlipDemo

open SlipDemo

/-- the quote of a sale of 22·10^6 ended at the root price 0.999302984359663232683739. With a
tolerance of 1%, after the sale of another account, it brings 21964189; the input without the fee at the lowest price
accepted is worth 21727898. -/
example : swapLimit 999302984359663232683739 (10 ^ 10) true = .ok 994293915301018045029584 ∧
    trade true true (22 * 10 ^ 6) 994293915301018045029584 =
      some (22000000, 21964189, 999203233632856131236999, 3) ∧
    21727898 < price 999302984359663232683739 ^ 2 * (1 - pct (10 ^ 10)) * ((1 - pct Demo.key.feeTier.fee) * 22000000) ∧
    price 999302984359663232683739 ^ 2 * (1 - pct (10 ^ 10)) * ((1 - pct Demo.key.feeTier.fee) * 22000000) < 21727899 := by
  refine ⟨by decide +kernel, by decide +kernel, by decide +kernel, by decide +kernel⟩

/-- an exact output of 21·10^6 with the same limit, and a purchase with the limit for its estimate -/
example : trade true false (21 * 10 ^ 6) 994293915301018045029584 =
      some (21033398, 21000000, 999299652565000000000000, 3) ∧
    swapLimit 1000697501810000000000000 (10 ^ 10) false = .ok 1005688542755689696541156 ∧
    trade false true (22 * 10 ^ 6) 1005688542755689696541156 =
      some (22000000, 21964189, 1000797401710000000000000, 3) := by
  refine ⟨by decide +kernel, by decide +kernel, by decide +kernel⟩

/-- with a tolerance of 0.2% and a larger sale before it the sale is refused -/
example : swapLimit 999302984359663232683739 (2 * 10 ^ 9) true = .ok 998303181223534457370620 ∧
    (Service.swap (Demo.by_ 2)
      (runAll Demo.start [(Demo.by_ 3, .swap Demo.key true (5 * 10 ^ 6) true MIN_SQRT_PRICE)]) Demo.key true
      (22 * 10 ^ 6) true 998303181223534457370620).toOption.map (fun r => r.2.amountOut) = none := by
  refine ⟨by decide +kernel, by decide +kernel⟩

/-- the state after `n` rounds of an exact output of 21·10^6 of X with the limit for the purchase -/
def SlipDemo.after (n : Nat) : Option SwapState :=
  ((front false).pools.get Demo.key).bind fun pool =>
    n.rec (some ⟨pool, [], 21 * 10 ^ 6, 0, 0, 0⟩) fun _ st => st.bind fun st =>
      if st.remaining = 0 then none else
        (swapIter (front false) ⟨Demo.key, false, false, 1005688542755689696541156, (Demo.by_ 2).now⟩ st).toOption

/-- it costs 21033398 and takes two rounds: one to the tick where the first position ends, and one in the second
position. At the highest price accepted, 1.0114 for one, it would cost 21.24·10^6 and the fee. -/
example : trade false false (21 * 10 ^ 6) 1005688542755689696541156 =
      some (21033398, 21000000, 1000700838265273930941572, 3) ∧
    [0, 1, 2, 3].map (fun n => (SlipDemo.after n).map fun st =>
      (st.remaining, st.totalIn, st.totalOut, st.pool.liquidity, st.ticks.map (·.liquidityChange))) =
      [some (21000000, 0, 0, 4 * 10 ^ 15, []), some (2004974, 19024007, 18995026, 10 ^ 15, [3 * 10 ^ 15]),
        some (0, 21033398, 21000000, 10 ^ 15, [3 * 10 ^ 15]), none] := by
  refine ⟨by decide +kernel, by decide +kernel⟩

end Verif
