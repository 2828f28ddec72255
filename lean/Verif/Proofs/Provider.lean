import Verif.Proofs.AvgStep
import Verif.Proofs.Solvent

/-! # What a provider gets back, compared with what they put in -/

namespace Verif
open Service Spec

/-- the price cut to the range is the price, or the end of the range it is beyond -/
theorem cut_cases {sp : Nat} {pool : Pool} {q : Position} (ha : TickAgree sp pool)
    (hl : Grid sp q.lowerTickIndex) (hu : Grid sp q.upperTickIndex) :
    cutOf pool q = pool.sqrtPrice ∨
    (pool.sqrtPrice ≤ cutOf pool q ∧ cutOf pool q = priceOf q.lowerTickIndex) ∨
    (cutOf pool q ≤ pool.sqrtPrice ∧ cutOf pool q = priceOf q.upperTickIndex) := by
  unfold cutOf cutPrice
  split
  · next h =>
    refine .inr (.inl ⟨?_, rfl⟩)
    have h4 := grid_next ha.grid.1 hl.1 h
    exact le_trans (ha.high (le_trans h4 hl.max))
      (priceOf_le (by have := ha.grid.min; omega) hl.max h4)
  · split
    · exact .inl rfl
    · next h1 h2 =>
      exact .inr (.inr ⟨le_trans (priceOf_le hu.min ha.grid.max (not_lt.1 h2)) ha.low, rfl⟩)

theorem hold_line {P c0 c1 l u L : ℚ} (hL : 0 ≤ L) (hP : 0 < P) (h0 : 0 < c0) (h1 : 0 < c1)
    (hl1 : l ≤ c1) (hu1 : c1 ≤ u)
    (h : c0 = P ∨ (P ≤ c0 ∧ c0 = l) ∨ (c0 ≤ P ∧ c0 = u)) :
    P ^ 2 * (L * (1 / c0 - 1 / u)) + L * (c0 - l) ≤ P ^ 2 * (L * (1 / c1 - 1 / u)) + L * (c1 - l) := by
  have key : 0 ≤ (c1 - c0) * (c0 * c1 - P ^ 2) := by
    rcases h with h | ⟨h, e⟩ | ⟨h, e⟩
    · subst h
      have : (c1 - c0) * (c0 * c1 - c0 ^ 2) = c0 * (c1 - c0) ^ 2 := by ring
      rw [this]; positivity
    · have h2 : c0 ≤ c1 := e ▸ hl1
      refine mul_nonneg (by linarith) ?_
      nlinarith
    · have h2 : c1 ≤ c0 := e ▸ hu1
      refine mul_nonneg_of_nonpos_of_nonpos (by linarith) ?_
      nlinarith
  have e : P ^ 2 * (L * (1 / c1 - 1 / u)) + L * (c1 - l) - (P ^ 2 * (L * (1 / c0 - 1 / u)) + L * (c0 - l)) =
      L * ((c1 - c0) * (c0 * c1 - P ^ 2) / (c0 * c1)) := by
    field_simp
    ring
  have : 0 ≤ L * ((c1 - c0) * (c0 * c1 - P ^ 2) / (c0 * c1)) := by positivity
  linarith

theorem hold_curve {p c0 c1 l u L : Nat} (hp : 0 < p) (h0 : 0 < c0) (hl : 0 < l) (hl0 : l ≤ c0) (hu0 : c0 ≤ u)
    (hl1 : l ≤ c1) (hu1 : c1 ≤ u) (h : c0 = p ∨ (p ≤ c0 ∧ c0 = l) ∨ (c0 ≤ p ∧ c0 = u)) :
    price p ^ 2 * amountX c0 u L + amountY l c0 L ≤ price p ^ 2 * amountX c1 u L + amountY l c1 L := by
  have mono : ∀ {a b : Nat}, a ≤ b → price a ≤ price b := by
    intro a b hab
    unfold price
    have : (a : ℚ) ≤ b := by exact_mod_cast hab
    gcongr
  have pos : ∀ {a : Nat}, 0 < a → 0 < price a := by
    intro a ha
    unfold price
    have : (0 : ℚ) < a := by exact_mod_cast ha
    positivity
  have eX : ∀ {c : Nat}, 0 < c → c ≤ u → amountX c u L = liq L * (1 / price c - 1 / price u) := by
    intro c hc hcu
    unfold amountX
    rw [abs_of_nonneg]
    rw [sub_nonneg]
    exact one_div_le_one_div_of_le (pos hc) (mono hcu)
  have eY : ∀ {c : Nat}, l ≤ c → amountY l c L = liq L * (price c - price l) := by
    intro c hc
    unfold amountY
    rw [abs_of_nonpos (by have := mono hc; linarith)]
    ring
  rw [eX h0 hu0, eX (by omega) hu1, eY hl0, eY hl1]
  refine hold_line (by unfold liq; positivity) (pos hp) (pos h0) (pos (by omega)) (mono hl1) (mono hu1) ?_
  rcases h with rfl | ⟨h, rfl⟩ | ⟨h, rfl⟩
  · exact .inl rfl
  · exact .inr (.inl ⟨mono h, rfl⟩)
  · exact .inr (.inr ⟨mono h, rfl⟩)

/-- the amounts put in, from above -/
theorem put_le {sp : Nat} {pool : Pool} {q : Position} {L x y : Nat} {i : Bool} (ha : TickAgree sp pool)
    (hlt : q.lowerTickIndex < q.upperTickIndex) (hl : Grid sp q.lowerTickIndex)
    (hu : Grid sp q.upperTickIndex)
    (h : calculateAmountDelta pool.currentTickIndex pool.sqrtPrice L true q.upperTickIndex
      q.lowerTickIndex = .ok (x, y, i)) :
    x = dxUp (cutOf pool q) (priceOf q.upperTickIndex) L ∧ y = dyUp (priceOf q.lowerTickIndex) (cutOf pool q) L ∧
    (x : ℚ) ≤ (1 + relX) * amountX (cutOf pool q) (priceOf q.upperTickIndex) L + 1 ∧
    (y : ℚ) ≤ amountY (priceOf q.lowerTickIndex) (cutOf pool q) L + 1 := by
  obtain ⟨pl, pu, e1, e2, _, hx, hy, _⟩ := calculateAmountDelta_ok h
  have e1 := calc_grid hl e1
  have e2 := calc_grid hu e2
  obtain ⟨_, _, c⟩ := cut_bounds ha hlt hl hu
  have ec : clampPrice pool.currentTickIndex q.lowerTickIndex q.upperTickIndex pool.sqrtPrice pl pu =
      cutOf pool q := by rw [e1, e2]; rfl
  rw [ec] at hx hy
  rw [dxR_true, e2] at hx
  rw [dyR_true, e1] at hy
  refine ⟨hx, hy, ?_, ?_⟩
  · rw [hx]
    exact dxUp_le (le_trans (by norm_num [MIN_SQRT_PRICE]) (Nat.mul_le_mul c (priceOf_ge_min hu.min hu.max)))
  · rw [hy, dyUp_eq_ceil]
    exact (Nat.ceil_lt_add_one (by unfold amountY liq; positivity)).le

/-- the amounts taken out, from below -/
theorem le_got {sp : Nat} {pool : Pool} {q : Position} {L x y : Nat} {i : Bool} (ha : TickAgree sp pool)
    (hlt : q.lowerTickIndex < q.upperTickIndex) (hl : Grid sp q.lowerTickIndex)
    (hu : Grid sp q.upperTickIndex)
    (h : calculateAmountDelta pool.currentTickIndex pool.sqrtPrice L false q.upperTickIndex
      q.lowerTickIndex = .ok (x, y, i)) :
    x = dxDown (cutOf pool q) (priceOf q.upperTickIndex) L ∧ y = dyDown (priceOf q.lowerTickIndex) (cutOf pool q) L ∧
    amountX (cutOf pool q) (priceOf q.upperTickIndex) L ≤ (1 + relX) * (x + 1) ∧
    amountY (priceOf q.lowerTickIndex) (cutOf pool q) L ≤ y + 1 := by
  obtain ⟨pl, pu, e1, e2, _, hx, hy, _⟩ := calculateAmountDelta_ok h
  have e1 := calc_grid hl e1
  have e2 := calc_grid hu e2
  obtain ⟨_, _, c⟩ := cut_bounds ha hlt hl hu
  have ec : clampPrice pool.currentTickIndex q.lowerTickIndex q.upperTickIndex pool.sqrtPrice pl pu =
      cutOf pool q := by rw [e1, e2]; rfl
  rw [ec] at hx hy
  rw [dxR_false, e2] at hx
  rw [dyR_false, e1] at hy
  refine ⟨hx, hy, ?_, ?_⟩
  · rw [hx]
    exact le_dxDown (le_trans (by norm_num [MIN_SQRT_PRICE]) (Nat.mul_le_mul c (priceOf_ge_min hu.min hu.max)))
  · rw [hy, dyDown_eq_floor]
    exact (Nat.lt_floor_add_one _).le

theorem hold_sum {P x y x1 y1 X0 Y0 X1 Y1 : ℚ} (hP : 0 ≤ P) (hx1 : 0 ≤ x1) (hy1 : 0 ≤ y1) (hY : 0 ≤ Y0)
    (c1 : x ≤ (1 + relX) * X0 + 1) (c2 : y ≤ Y0 + 1) (d1 : X1 ≤ (1 + relX) * (x1 + 1)) (d2 : Y1 ≤ y1 + 1)
    (h : P * X0 + Y0 ≤ P * X1 + Y1) :
    P * x + y ≤ (1 + 2 / 10 ^ 14) * (P * (x1 + 2) + (y1 + 2)) := by
  have r := relX_pos
  have e1 : P * x ≤ P * ((1 + relX) * X0 + 1) := mul_le_mul_of_nonneg_left c1 hP
  have e2 : P * X1 ≤ P * ((1 + relX) * (x1 + 1)) := mul_le_mul_of_nonneg_left d1 hP
  have e3 : (1 + relX) * (P * X0 + Y0) ≤ (1 + relX) * (P * ((1 + relX) * (x1 + 1)) + (y1 + 1)) :=
    mul_le_mul_of_nonneg_left (h.trans (by linarith)) (by linarith)
  have e4 : 0 ≤ relX * Y0 := by positivity
  have e5 : 0 ≤ P * x1 := by positivity
  unfold relX at *
  linarith

end Verif
