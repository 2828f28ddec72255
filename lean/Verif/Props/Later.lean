import Verif.Proofs.StartPrice
import Verif.Props.AvgPrice
import Verif.Props.Nearer

/-!
# Property C106: no swap gets a better price than the one it starts at, and a later swap none better than an earlier one

The average price of a swap is no better than the price at which the pool stands when it begins, with the fee of the
tier on top. Since an exact-input swap is served no worse than at the price it ends at (C80), of two swaps in the same
direction the later one is served no better than the earlier, unless the price moved back in between. The fee makes a
difference: it is a part of the input in the last round of a swap, but a rate on top of the input in the others, and so
the claim holds up to the square of the fee only (`C106_negation`).
-/

namespace Verif
open Service Spec

section
variable {env env' : Env} {s s' : Inv} {key : PoolKey} {amount limit amount' limit' : Nat} {byIn : Bool}
  {r r' : Inv × CalculateSwapResult} {pool pool' : Pool}

/-- C106, X for Y: with the fee on top the output is worth at most the input at the price before the swap (up to
10^-14 of a unit of X for each round) -/
theorem C106_sell (hr : Reach s) (h : Service.swap env s key true amount byIn limit = .ok r)
    (hp : s.pools.get key = some pool) :
    (1 + pct key.feeTier.fee) * r.2.amountOut ≤
      price pool.sqrtPrice ^ 2 * (r.2.amountIn + rounds pool r.2 key.feeTier.tickSpacing / 10 ^ 14) := by
  obtain ⟨ticks, b1, b2, h1, _⟩ := swap_ok h
  obtain ⟨⟨hs1, hs2, hs3⟩, _⟩ := (reach_tiers hr).pools key (by rw [hp]; rfl)
  obtain ⟨n, hn, hm⟩ := swap_start_x (reach_wf _ hr) ⟨hs1, hs2⟩ hs3.le h1 hp (swap_side0 hr h1 hp)
  have hn' : (n : ℚ) ≤ rounds pool r.2 key.feeTier.tickSpacing := by exact_mod_cast hn
  refine hm.trans (mul_le_mul_of_nonneg_left ?_ (sq_nonneg _))
  unfold slackX
  have : (n : ℚ) * (2 * (1 / (23 * 10 ^ 13))) ≤ rounds pool r.2 key.feeTier.tickSpacing / 10 ^ 14 := by
    have e : (n : ℚ) * (2 * (1 / (23 * 10 ^ 13))) ≤ n / 10 ^ 14 := by
      rw [div_eq_mul_inv (n : ℚ)]
      exact mul_le_mul_of_nonneg_left (by norm_num) (Nat.cast_nonneg _)
    exact e.trans (by gcongr)
  linarith

/-- C106, Y for X -/
theorem C106_buy (hr : Reach s) (h : Service.swap env s key false amount byIn limit = .ok r)
    (hp : s.pools.get key = some pool) :
    (1 + pct key.feeTier.fee) * (price pool.sqrtPrice ^ 2 * r.2.amountOut) ≤ r.2.amountIn := by
  obtain ⟨ticks, b1, b2, h1, _⟩ := swap_ok h
  obtain ⟨⟨hs1, hs2, hs3⟩, _⟩ := (reach_tiers hr).pools key (by rw [hp]; rfl)
  exact swap_start_y (reach_wf _ hr) ⟨hs1, hs2⟩ hs3.le h1 hp (swap_side0 hr h1 hp)

theorem later_sell {Q Q' A n B C D : ℚ} (hC : 0 ≤ C) (hD : 0 ≤ D) (hB : 0 ≤ B) (m : Q * (A - n) ≤ B)
    (m' : C ≤ Q' * D) (k : Q' ≤ Q) : C * (A - n) ≤ D * B := by
  have h1 : C ≤ Q * D := m'.trans (mul_le_mul_of_nonneg_right k hD)
  rcases le_total 0 (A - n) with h0 | h0
  · have h2 := mul_le_mul_of_nonneg_right h1 h0
    have h3 := mul_le_mul_of_nonneg_left m hD
    linarith
  · exact (mul_nonpos_of_nonneg_of_nonpos hC h0).trans (mul_nonneg hD hB)

theorem later_buy {Q Q' A E c I : ℚ} (hc : 0 ≤ c) (hE : 0 ≤ E) (m : A ≤ Q * E) (m' : c * Q' ≤ I) (k : Q ≤ Q') :
    c * A ≤ I * E := by
  have h1 := mul_le_mul_of_nonneg_left m hc
  have h2 := mul_le_mul_of_nonneg_left k hc
  have h3 := mul_le_mul_of_nonneg_right (h2.trans m') hE
  linarith

/-- C106, two sales of X, up to the square of the fee (full statement: without the factors of the fee; refuted by
`C106_negation`). The second is made in any reachable state in which the price is no higher than the first left it. -/
theorem C106_later_sell_partial (hr : Reach s) (hr' : Reach s')
    (h : Service.swap env s key true amount true limit = .ok r)
    (h' : Service.swap env' s' key true amount' byIn limit' = .ok r')
    (hp : s.pools.get key = some pool) (hp' : s'.pools.get key = some pool')
    (hle : pool'.sqrtPrice ≤ r.2.targetSqrtPrice) :
    (1 + pct key.feeTier.fee) * r'.2.amountOut *
        ((1 - pct key.feeTier.fee) * r.2.amountIn - 3 * rounds pool r.2 key.feeTier.tickSpacing) ≤
      (r'.2.amountIn + rounds pool' r'.2 key.feeTier.tickSpacing / 10 ^ 14) *
        ((1 + 1 / (2 * 10 ^ 14)) * (r.2.amountOut + rounds pool r.2 key.feeTier.tickSpacing) +
          2 * (liq r.2.pool.liquidity + 1) / 10 ^ 24) := by
  have m := C80_sell hr h hp
  have m' := C106_sell hr' h' hp'
  have k := sq_price_le hle
  have l0 : 0 ≤ liq r.2.pool.liquidity := by unfold liq; positivity
  exact later_sell (by have := pct_nonneg key.feeTier.fee; positivity) (by positivity) (by positivity) (by linarith) m' k

/-- C106, two purchases of X -/
theorem C106_later_buy_partial (hr : Reach s) (hr' : Reach s')
    (h : Service.swap env s key false amount true limit = .ok r)
    (h' : Service.swap env' s' key false amount' byIn limit' = .ok r')
    (hp : s.pools.get key = some pool) (hp' : s'.pools.get key = some pool')
    (hle : r.2.targetSqrtPrice ≤ pool'.sqrtPrice) :
    (1 + pct key.feeTier.fee) * r'.2.amountOut *
        ((1 - pct key.feeTier.fee) * r.2.amountIn - 3 * rounds pool r.2 key.feeTier.tickSpacing -
          2 * (liq r.2.pool.liquidity + 1) / 10 ^ 24) ≤
      r'.2.amountIn * ((1 + 1 / (2 * 10 ^ 14)) * (r.2.amountOut + rounds pool r.2 key.feeTier.tickSpacing)) := by
  have m := C80_buy hr h hp
  have m' := C106_buy hr' h' hp'
  exact later_buy (by have := pct_nonneg key.feeTier.fee; positivity) (by positivity) (by linarith)
    (by linarith) (sq_price_le hle)
end

namespace LaterDemo

/-- a fee of 50% -/
def tier : FeeTier := ⟨5 * 10 ^ 11, 10⟩
def key : PoolKey := ⟨5, 7, tier⟩

/-- a pool with two positions -/
def s0 : Inv := runAll MoreDemo.rich
  [(Demo.by_ 1, .addFeeTier tier), (Demo.by_ 2, .createPool 5 7 tier (10 ^ 24) 0),
   (Demo.by_ 3, .createPosition key (-10) 10 (2 * 10 ^ 13) 0 (10 ^ 30)),
   (Demo.by_ 3, .createPosition key (-1000) 1000 (2 * 10 ^ 13) 0 (10 ^ 30))]

theorem s0_reach : Reach s0 := ProviderDemo.reach_all _ _ MoreDemo.rich_reach

/-- a sale of 10000 units of X -/
def first : M (Inv × CalculateSwapResult) := swap (Demo.by_ 2) s0 key true 10000 true MIN_SQRT_PRICE

/-- and one of 400000 after it -/
def second : M (Inv × CalculateSwapResult) := do
  swap (Demo.by_ 3) (← first).1 key true 400000 true MIN_SQRT_PRICE

theorem firstRes : first.toOption.map (fun x => (x.2.amountIn, x.2.amountOut)) = some (10000, 4999) := by
  decide +kernel

theorem secondRes : second.toOption.map (fun x => (x.2.amountIn, x.2.amountOut, x.2.ticks.length)) =
    some (400000, 248590, 1) := by
  decide +kernel

end LaterDemo

open LaterDemo

/-- in the demo pool with a fee of 0.1% two equal sales and two equal purchases: the second brings less -/
example :
    let sold := runAll Demo.start [(Demo.by_ 3, .swap Demo.key true (10 ^ 7) true MIN_SQRT_PRICE)]
    let bought := runAll Demo.start [(Demo.by_ 3, .swap Demo.key false (10 ^ 7) true MAX_SQRT_PRICE)]
    (swap (Demo.by_ 3) Demo.start Demo.key true (10 ^ 7) true MIN_SQRT_PRICE).toOption.map (·.2.amountOut) = some 9987505 ∧
    (swap (Demo.by_ 2) sold Demo.key true (10 ^ 7) true MIN_SQRT_PRICE).toOption.map (·.2.amountOut) = some 9982519 ∧
    (swap (Demo.by_ 3) Demo.start Demo.key false (10 ^ 7) true MAX_SQRT_PRICE).toOption.map (·.2.amountOut) = some 9987505 ∧
    (swap (Demo.by_ 2) bought Demo.key false (10 ^ 7) true MAX_SQRT_PRICE).toOption.map (·.2.amountOut) = some 9982519 := by
  decide +kernel

/-- C106 is false without the factors of the fee: of two sales, the first within the range of a position and the
second across its end, the second gets 0.62 of Y for a unit of X and the first 0.50. -/
theorem C106_negation : ¬ ∀ (env env' : Env) (s : Inv) (key : PoolKey) (amount amount' limit limit' : Nat)
    (r r' : Inv × CalculateSwapResult), Reach s → swap env s key true amount true limit = .ok r →
    swap env' r.1 key true amount' true limit' = .ok r' →
    r'.2.amountOut * r.2.amountIn ≤ (r.2.amountOut + 1000) * r'.2.amountIn := by
  intro h
  have e1 := firstRes
  have e2 := secondRes
  unfold second at e2
  cases h1 : first with
  | error e => rw [h1] at e1; cases e1
  | ok r =>
    rw [h1] at e1 e2
    simp only [ok_bind] at e2
    cases h2 : swap (Demo.by_ 3) r.1 LaterDemo.key true 400000 true MIN_SQRT_PRICE with
    | error e => rw [h2] at e2; cases e2
    | ok r' =>
      rw [h2] at e2
      simp only [Except.toOption, Option.map_some, Option.some.injEq, Prod.mk.injEq] at e1 e2
      have := h _ _ _ _ _ _ _ _ r r' s0_reach h1 h2
      rw [e1.1, e1.2, e2.1, e2.2.1] at this
      omega

end Verif
