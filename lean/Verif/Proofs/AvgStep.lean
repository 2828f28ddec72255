import Verif.Proofs.StepPays

/-! # What a step of an exact-input swap gives the trader -/

namespace Verif
open Service Spec

/-- the relative error of a rounded product of two prices -/
def relX : ℚ := 1 / (2 * 10 ^ 14)

theorem relX_pos : 0 < relX := by norm_num [relX]

/-- what is charged in X does not exceed the curve by more than the roundings -/
theorem dxUp_le {a b L : Nat} (h : 23 * 10 ^ 37 ≤ a * b) :
    (dxUp a b L : ℚ) ≤ (1 + relX) * amountX a b L + 1 := by
  have hab : 0 < a * b := by omega
  have ha : 0 < a := Nat.pos_of_mul_pos_right hab
  have hb : 0 < b := Nat.pos_of_mul_pos_left hab
  rw [amountX_eq ha hb, dxUp_def]
  have hD : 0 < a * b / 10 ^ 24 := Nat.div_pos (le_trans (by norm_num) h) (by positivity)
  have h1 := cdiv_mul_lt (dxNum a b L) hD
  have h2 := lt_div_add_one_mul (a * b) (d := 10 ^ 24) (by positivity)
  have h3 : dxNum a b L * 10 ^ 5 ≤ absDiff a b * L := by rw [dxNum_def]; exact Nat.div_mul_le_self _ _
  have h4 : 23 * 10 ^ 13 ≤ a * b / 10 ^ 24 := by
    rw [Nat.le_div_iff_mul_le (by positivity)]; exact le_trans (by norm_num) h
  generalize a * b = ab at *
  generalize ab / 10 ^ 24 = D at *
  generalize dxNum a b L = N at *
  generalize absDiff a b * L = M at *
  generalize cdiv N D = c at *
  have q1 : (c : ℚ) * D < N + D := by exact_mod_cast h1
  have q2 : (ab : ℚ) < (D + 1) * 10 ^ 24 := by exact_mod_cast h2
  have q3 : (N : ℚ) * 10 ^ 5 ≤ M := by exact_mod_cast h3
  have q4 : (23 * 10 ^ 13 : ℚ) ≤ D := by exact_mod_cast h4
  have q0 : (0 : ℚ) < ab := by exact_mod_cast hab
  have hDq : (0 : ℚ) < D := by linarith
  have ec : ((M * 10 ^ 19 : Nat) : ℚ) = M * 10 ^ 19 := by push_cast; ring
  rw [ec, ← sub_le_iff_le_add]
  have e : (1 + relX) * ((M : ℚ) * 10 ^ 19 / ab) = (1 + relX) * (M * 10 ^ 19) / ab := by ring
  rw [e, le_div_iff₀ q0]
  have n0 : (0 : ℚ) ≤ N := Nat.cast_nonneg _
  have q5 : ((c : ℚ) - 1) * D ≤ N := by linarith
  -- (c - 1) ab ≤ (c-1)(D+1) 10^24 ≤ N (1 + 1/D) 10^24
  rcases le_or_gt (c : ℚ) 1 with hc | hc
  · have : ((c : ℚ) - 1) * ab ≤ 0 := mul_nonpos_of_nonpos_of_nonneg (by linarith) q0.le
    have : (0 : ℚ) ≤ (1 + relX) * (M * 10 ^ 19) := by have := relX_pos; positivity
    linarith
  · have q6 : ((c : ℚ) - 1) * ab ≤ ((c : ℚ) - 1) * ((D + 1) * 10 ^ 24) :=
      mul_le_mul_of_nonneg_left q2.le (by linarith)
    have q7 : ((c : ℚ) - 1) * (23 * 10 ^ 13) ≤ N :=
      (mul_le_mul_of_nonneg_left q4 (by linarith)).trans q5
    have q8 : ((c : ℚ) - 1) * (D + 1) ≤ (1 + relX) * N := by
      unfold relX
      linarith
    have q9 : (1 + relX) * ((N : ℚ) * 10 ^ 24) ≤ (1 + relX) * (M * 10 ^ 19) := by
      apply mul_le_mul_of_nonneg_left _ (by linarith [relX_pos])
      linarith
    linarith

/-- what is paid in X does not fall short of the curve by more than the roundings -/
theorem le_dxDown {a b L : Nat} (h : 23 * 10 ^ 37 ≤ a * b) :
    amountX a b L ≤ (1 + relX) * (dxDown a b L + 1) := by
  have hab : 0 < a * b := by omega
  have ha : 0 < a := Nat.pos_of_mul_pos_right hab
  have hb : 0 < b := Nat.pos_of_mul_pos_left hab
  rw [amountX_eq ha hb, dxDown_def, div_le_iff₀ (by exact_mod_cast hab)]
  have hD : 0 < cdiv (a * b) (10 ^ 24) := cdiv_pos hab (by positivity)
  have h1 := lt_div_add_one_mul (dxNum a b L) hD
  have h2 := cdiv_mul_lt (a * b) (d := 10 ^ 24) (by positivity)
  have h3 : absDiff a b * L < (dxNum a b L + 1) * 10 ^ 5 := by
    rw [dxNum_def]; exact lt_div_add_one_mul _ (by positivity)
  generalize a * b = ab at *
  generalize cdiv ab (10 ^ 24) = D at *
  generalize dxNum a b L = N at *
  generalize absDiff a b * L = M at *
  generalize N / D = c at *
  have h4 : M < (c + 1) * D * 10 ^ 5 := by
    have : N + 1 ≤ (c + 1) * D := h1
    exact lt_of_lt_of_le h3 (Nat.mul_le_mul_right _ this)
  have q4 : (M : ℚ) < (c + 1) * D * 10 ^ 5 := by exact_mod_cast h4
  have q2 : (D : ℚ) * 10 ^ 24 < ab + 10 ^ 24 := by exact_mod_cast h2
  have q0 : (23 * 10 ^ 37 : ℚ) ≤ ab := by exact_mod_cast h
  have c0 : (0 : ℚ) ≤ c := Nat.cast_nonneg _
  push_cast
  have q5 : (ab : ℚ) + 10 ^ 24 ≤ (1 + relX) * ab := by unfold relX; linarith
  calc (M : ℚ) * 10 ^ 19 ≤ (c + 1) * (D * 10 ^ 24) := by linarith
    _ ≤ (c + 1) * ((1 + relX) * ab) := mul_le_mul_of_nonneg_left (by linarith) (by linarith)
    _ = _ := by ring

theorem dyUp_le (a b L : Nat) : (dyUp a b L : ℚ) ≤ amountY a b L + 1 := by
  rw [dyUp_eq_ceil]
  exact (Nat.ceil_lt_add_one (amountY_nonneg _ _ _)).le

theorem le_dyDown (a b L : Nat) : amountY a b L ≤ dyDown a b L + 1 := by
  rw [dyDown_eq_floor]
  exact (Nat.lt_floor_add_one _).le

/-- the amount that the granularity of the prices may swallow, in token Y -/
def grain (L : Nat) : ℚ := 2 * (liq L + 1) / 10 ^ 24

theorem grain_pos (L : Nat) : 0 < grain L := by
  unfold grain liq
  positivity

theorem near_mul {m L k x c : ℚ} (h1 : m * (L * 10 ^ 19 + (m + 1 + k) * x) < c * 10 ^ 24)
    (h2 : c * 10 ^ 5 < (m + 1 + k) * L + 10 ^ 5) :
    m * (m + 1 + k) * x < (k + 1) * L * 10 ^ 19 + 10 ^ 24 := by
  nlinarith

theorem sq_le_twice {m k : ℚ} (h : 3 ≤ m) (hk : 0 ≤ k) : (m + 1) ^ 2 ≤ 2 * (m * (m + 1 + k)) := by
  nlinarith [mul_nonneg (by linarith : 0 ≤ m) hk]

/-- an input of X moves the price as far as it should, up to the granularity -/
theorem le_nextX {p L x n : Nat} (hn : 10 ^ 19 ≤ n) (hp : n ≤ p) (e : n = nextX true p L x) :
    (x : ℚ) ≤ (1 + relX) * amountX p n L + grain L / price n ^ 2 := by
  have hn0 : 0 < n := by omega
  have hp0 : 0 < p := by omega
  have g0 : 0 ≤ grain L / price n ^ 2 := div_nonneg (grain_pos L).le (sq_nonneg _)
  rw [amountX_eq hp0 hn0, absDiff_of_ge hp]
  by_cases hx : x = 0
  · rw [hx]
    have := relX_pos
    push_cast
    positivity
  · have h1 : n - 1 < cdiv (cdiv (p * L) (10 ^ 5) * 10 ^ 24) (L * 10 ^ 19 + p * x) := by
      have : n = cdiv (cdiv (p * L) (10 ^ 5) * 10 ^ 24) (L * 10 ^ 19 + p * x) := by
        rw [e]; unfold nextX; rw [if_neg hx]; simp only [if_true]
      omega
    have hpx : 0 < p * x := Nat.mul_pos hp0 (Nat.pos_of_ne_zero hx)
    rw [lt_cdiv_iff (by omega)] at h1
    have h2 := cdiv_mul_lt (p * L) (d := 10 ^ 5) (by positivity)
    clear e
    generalize cdiv (p * L) (10 ^ 5) = c at *
    obtain ⟨m, rfl⟩ : ∃ m, n = m + 1 := ⟨n - 1, by omega⟩
    obtain ⟨k, rfl⟩ := Nat.exists_eq_add_of_le hp
    rw [Nat.add_sub_cancel_left]
    rw [Nat.add_sub_cancel] at h1
    have q1 : (m : ℚ) * (L * 10 ^ 19 + (m + 1 + k) * x) < c * 10 ^ 24 := by exact_mod_cast h1
    have q2 : (c : ℚ) * 10 ^ 5 < (m + 1 + k) * L + 10 ^ 5 := by exact_mod_cast h2
    have q3 : (10 ^ 19 : ℚ) ≤ m + 1 := by exact_mod_cast hn
    have k0 : (0 : ℚ) ≤ k := Nat.cast_nonneg _
    have L0 : (0 : ℚ) ≤ L := Nat.cast_nonneg _
    have x0 : (0 : ℚ) ≤ x := Nat.cast_nonneg _
    have m0 : (0 : ℚ) < m := by linarith
    have q4 : (m : ℚ) * (m + 1 + k) * x < (k + 1) * L * 10 ^ 19 + 10 ^ 24 := near_mul q1 q2
    have hP : (0 : ℚ) < m * (m + 1 + k) := by positivity
    have q5 : (x : ℚ) ≤ ((k + 1) * L * 10 ^ 19 + 10 ^ 24) / (m * (m + 1 + k)) := by
      rw [le_div_iff₀ hP]; linarith
    refine q5.trans ?_
    have e2 : ((k + 1) * L * 10 ^ 19 + 10 ^ 24 : ℚ) / (m * (m + 1 + k)) =
        k * L * 10 ^ 19 / (m * (m + 1 + k)) + (L * 10 ^ 19 + 10 ^ 24) / (m * (m + 1 + k)) := by
      rw [← add_div]; ring
    rw [e2]
    refine add_le_add ?_ ?_
    · have ec : ((k * L * 10 ^ 19 : Nat) : ℚ) = k * L * 10 ^ 19 := by push_cast; ring
      have ed : (((m + 1 + k) * (m + 1) : Nat) : ℚ) = (m + 1 + k) * (m + 1) := by push_cast; ring
      rw [ec, ed]
      have e3 : (1 + relX) * ((k : ℚ) * L * 10 ^ 19 / ((m + 1 + k) * (m + 1))) =
          (1 + relX) * (k * L * 10 ^ 19) / ((m + 1 + k) * (m + 1)) := by ring
      rw [e3, div_le_div_iff₀ hP (by positivity)]
      have q6 : (m : ℚ) + 1 ≤ (1 + relX) * m := by unfold relX; linarith
      calc (k : ℚ) * L * 10 ^ 19 * ((m + 1 + k) * (m + 1))
          = k * L * 10 ^ 19 * (m + 1 + k) * (m + 1) := by ring
        _ ≤ k * L * 10 ^ 19 * (m + 1 + k) * ((1 + relX) * m) :=
            mul_le_mul_of_nonneg_left q6 (by positivity)
        _ = _ := by ring
    · unfold grain price liq
      push_cast
      have e4 : 2 * ((L : ℚ) / 10 ^ 5 + 1) / 10 ^ 24 / ((m + 1) / 10 ^ 24) ^ 2 =
          2 * (L * 10 ^ 19 + 10 ^ 24) / (m + 1) ^ 2 := by field_simp
      rw [e4, div_le_div_iff₀ hP (by positivity)]
      have q7 : ((m : ℚ) + 1) ^ 2 ≤ 2 * (m * (m + 1 + k)) := sq_le_twice (by linarith) k0
      calc ((L : ℚ) * 10 ^ 19 + 10 ^ 24) * (m + 1) ^ 2
          ≤ (L * 10 ^ 19 + 10 ^ 24) * (2 * (m * (m + 1 + k))) :=
            mul_le_mul_of_nonneg_left q7 (by positivity)
        _ = _ := by ring

/-- an input of Y moves the price as far as it should, up to the granularity -/
theorem le_nextY {p L y : Nat} (hL : 0 < L) :
    (y : ℚ) ≤ amountY p (p + y * 10 ^ 29 / L) L + grain L := by
  rw [amountY_eq, absDiff_of_le (Nat.le_add_right _ _), Nat.add_sub_cancel_left]
  have h := lt_div_add_one_mul (y * 10 ^ 29) (d := L) hL
  generalize y * 10 ^ 29 / L = k at *
  have q : (y : ℚ) * 10 ^ 29 < (k + 1) * L := by exact_mod_cast h
  unfold grain liq
  have L0 : (0 : ℚ) < L := by exact_mod_cast hL
  push_cast
  rw [div_add_div _ _ (by positivity) (by positivity), le_div_iff₀ (by positivity)]
  nlinarith

end Verif
