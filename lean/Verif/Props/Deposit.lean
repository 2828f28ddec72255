import Verif.Proofs.Deposit

/-!
# C05: deposits and withdrawals at an unchanged price

`calculateAmountDelta t p L sign u l` is the model of `calculate_amount_delta`: the token amounts for
liquidity `L` on the range `[l, u]` at current tick `t` and price `p`; `sign = true` for a deposit.
-/

set_option exponentiation.threshold 1000

namespace Verif

/-- C05, one piece: a withdrawal returns at most what the deposit of the same liquidity cost, in each
token, for every tick, price, range and liquidity. -/
theorem C05_no_profit {t l u : Int} {p L : Nat} {d w : Nat × Nat × Bool}
    (hd : calculateAmountDelta t p L true u l = .ok d)
    (hw : calculateAmountDelta t p L false u l = .ok w) :
    w.1 ≤ d.1 ∧ w.2.1 ≤ d.2.1 := by
  obtain ⟨x, y, i⟩ := d
  obtain ⟨x', y', i'⟩ := w
  obtain ⟨pl, pu, hpl, hpu, -, hx, hy, -, -, -, hD⟩ := calculateAmountDelta_ok hd
  obtain ⟨pl', pu', hpl', hpu', -, hx', hy', -⟩ := calculateAmountDelta_ok hw
  rw [hpl] at hpl'; rw [hpu] at hpu'
  cases hpl'; cases hpu'
  subst hx; subst hy; subst hx'; subst hy'
  rw [dxR_true, dxR_false, dyR_true, dyR_false]
  exact ⟨dxDown_le_dxUp L (hD rfl), dyDown_le_dyUp _ _ L⟩

/-- C05, withdrawing in pieces never returns more than withdrawing at once. -/
theorem C05_withdraw_pieces {t l u : Int} {p : Nat} {Ls : List Nat}
    {rs : List (Nat × Nat × Bool)} {r : Nat × Nat × Bool}
    (hs : Pieces t p false u l Ls rs)
    (h : calculateAmountDelta t p Ls.sum false u l = .ok r) :
    sumX rs ≤ r.1 ∧ sumY rs ≤ r.2.1 := by
  obtain ⟨x, y, i⟩ := r
  obtain ⟨pl, pu, hpl, hpu, -, hx, hy, -⟩ := calculateAmountDelta_ok h
  obtain ⟨h1, h2⟩ := pieces_closed hpl hpu hs
  rw [h1, h2, hx, hy]
  constructor
  · rw [dxR_false]
    have : dxR false (clampPrice t l u p pl pu) pu = dxDown (clampPrice t l u p pl pu) pu := by
      funext L; exact dxR_false _ _ _
    rw [this]
    exact sum_dxDown_le _ _ _
  · rw [dyR_false]
    have : dyR false pl (clampPrice t l u p pl pu) = dyDown pl (clampPrice t l u p pl pu) := by
      funext L; exact dyR_false _ _ _
    rw [this]
    exact sum_dyDown_le _ _ _

/-- C05, depositing in pieces never costs less than depositing at once: exactly so for token Y; for
token X up to one unit in total (the rounding defect of C04). -/
theorem C05_deposit_pieces_partial {t l u : Int} {p : Nat} {Ls : List Nat}
    {rs : List (Nat × Nat × Bool)} {r : Nat × Nat × Bool} (hp : MIN_SQRT_PRICE ≤ p)
    (hn : Ls.length ≤ 2 * 10 ^ 14) (hs : Pieces t p true u l Ls rs)
    (h : calculateAmountDelta t p Ls.sum true u l = .ok r) :
    r.1 ≤ sumX rs + 1 ∧ r.2.1 ≤ sumY rs := by
  obtain ⟨x, y, i⟩ := r
  obtain ⟨pl, pu, hpl, hpu, -, hx, hy, -⟩ := calculateAmountDelta_ok h
  obtain ⟨h1, h2⟩ := pieces_closed hpl hpu hs
  have hD := prod_pos_of_min (clampPrice_ge (t := t) (l := l) (u := u) hp hpl hpu)
    (calculateSqrtPrice_ge_min hpu)
  rw [h1, h2, hx, hy]
  constructor
  · rw [dxR_true]
    have : dxR true (clampPrice t l u p pl pu) pu = dxUp (clampPrice t l u p pl pu) pu := by
      funext L; exact dxR_true _ _ _
    rw [this]
    exact dxUp_sum_le (by omega) _ (by omega)
  · rw [dyR_true]
    have : dyR true pl (clampPrice t l u p pl pu) = dyUp pl (clampPrice t l u p pl pu) := by
      funext L; exact dyR_true _ _ _
    rw [this]
    exact dyUp_sum_le _ _ _

/-- The one unit is real: depositing this liquidity twice costs 89447711888534920065 token X each
time, depositing the double amount at once costs one unit more than the sum, so C05 without the
allowance is false. -/
theorem C05_negation :
    ¬ ∀ (t l u : Int) (p L M : Nat) (r r₁ r₂ : Nat × Nat × Bool),
      MIN_SQRT_PRICE ≤ p → p ≤ MAX_SQRT_PRICE →
      calculateAmountDelta t p L true u l = .ok r₁ → calculateAmountDelta t p M true u l = .ok r₂ →
      calculateAmountDelta t p (L + M) true u l = .ok r → r.1 ≤ r₁.1 + r₂.1 := by
  intro h
  have h1 : calculateAmountDelta 0 (10 ^ 24 + 1) 17894909598211136507993449999 true 10 0
      = .ok (89447711888534920065, 1, true) := by decide +kernel
  have h2 : calculateAmountDelta 0 (10 ^ 24 + 1)
      (17894909598211136507993449999 + 17894909598211136507993449999) true 10 0
      = .ok (178895423777069840131, 1, true) := by decide +kernel
  have := h _ _ _ _ _ _ _ _ _ (by norm_num [MIN_SQRT_PRICE]) (by norm_num [MAX_SQRT_PRICE]) h1 h1 h2
  norm_num at this

/-- C05, no round trip pays: liquidity deposited in any number (up to 2·10^14) of pieces and then
withdrawn, in one piece or again in any pieces, returns at most what was paid, in each token. -/
theorem C05_round_trip {t l u : Int} {p : Nat} {Ls : List Nat}
    {rs : List (Nat × Nat × Bool)} {w : Nat × Nat × Bool} (hp : MIN_SQRT_PRICE ≤ p)
    (hn : Ls.length ≤ 2 * 10 ^ 14) (hs : Pieces t p true u l Ls rs)
    (h : calculateAmountDelta t p Ls.sum false u l = .ok w) :
    w.1 ≤ sumX rs ∧ w.2.1 ≤ sumY rs := by
  obtain ⟨x, y, i⟩ := w
  obtain ⟨pl, pu, hpl, hpu, -, hx, hy, -⟩ := calculateAmountDelta_ok h
  obtain ⟨h1, h2⟩ := pieces_closed hpl hpu hs
  have hD := prod_pos_of_min (clampPrice_ge (t := t) (l := l) (u := u) hp hpl hpu)
    (calculateSqrtPrice_ge_min hpu)
  rw [h1, h2, hx, hy]
  constructor
  · rw [dxR_false]
    have : dxR true (clampPrice t l u p pl pu) pu = dxUp (clampPrice t l u p pl pu) pu := by
      funext L; exact dxR_true _ _ _
    rw [this]
    exact dxDown_sum_le_dxUp (by omega) _ (by omega)
  · rw [dyR_false]
    have : dyR true pl (clampPrice t l u p pl pu) = dyUp pl (clampPrice t l u p pl pu) := by
      funext L; exact dyR_true _ _ _
    rw [this]
    exact le_trans (dyDown_le_dyUp _ _ _) (dyUp_sum_le _ _ _)

/-- a range around the price; deposit rounds up, withdrawal down, in both tokens -/
example : calculateAmountDelta 0 (10 ^ 24) (10 ^ 9) true 10 (-10) = .ok (5, 5, true) ∧
    calculateAmountDelta 0 (10 ^ 24) (10 ^ 9) false 10 (-10) = .ok (4, 4, true) ∧
    calculateAmountDelta 0 (10 ^ 24) (2 * 10 ^ 9) true 10 (-10) = .ok (10, 10, true) ∧
    Pieces 0 (10 ^ 24) true 10 (-10) [10 ^ 9, 10 ^ 9] [(5, 5, true), (5, 5, true)] := by
  refine ⟨by decide +kernel, by decide +kernel, by decide +kernel, ?_⟩
  exact .cons (by decide +kernel) (.cons (by decide +kernel) .nil)

end Verif
