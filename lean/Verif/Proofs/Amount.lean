import Verif.Proofs.Curve
import Verif.Proofs.Price

/-! # `calculate_amount_delta` in closed form -/

set_option exponentiation.threshold 1000

namespace Verif

theorem calculateSqrtPrice_ge_min {t : Int} {p : Nat} (h : calculateSqrtPrice t = .ok p) :
    MIN_SQRT_PRICE ≤ p := by
  by_cases ht : t = -2147483648
  · have : calculateSqrtPrice (-2147483648) = .ok (10 ^ 24) := by decide +kernel
    rw [ht, this] at h
    cases h
    norm_num [MIN_SQRT_PRICE]
  · obtain ⟨h1, h2, rfl⟩ := calculateSqrtPrice_ok h ht
    exact priceOf_ge_min h1 h2

theorem calculateSqrtPrice_le_max {t : Int} {p : Nat} (h : calculateSqrtPrice t = .ok p) :
    p ≤ MAX_SQRT_PRICE := by
  by_cases ht : t = -2147483648
  · have : calculateSqrtPrice (-2147483648) = .ok (10 ^ 24) := by decide +kernel
    rw [ht, this] at h
    cases h
    norm_num [MAX_SQRT_PRICE]
  · obtain ⟨h1, h2, rfl⟩ := calculateSqrtPrice_ok h ht
    exact priceOf_le_max h1 h2

/-- token X amount in closed form for a rounding direction -/
def dxR (up : Bool) (a b L : Nat) : Nat := if up then dxUp a b L else dxDown a b L
/-- token Y amount in closed form for a rounding direction -/
def dyR (up : Bool) (a b L : Nat) : Nat := if up then dyUp a b L else dyDown a b L

theorem dxR_true (a b L : Nat) : dxR true a b L = dxUp a b L := if_pos rfl
theorem dxR_false (a b L : Nat) : dxR false a b L = dxDown a b L := if_neg (by decide)
theorem dyR_true (a b L : Nat) : dyR true a b L = dyUp a b L := if_pos rfl
theorem dyR_false (a b L : Nat) : dyR false a b L = dyDown a b L := if_neg (by decide)

theorem dxNum_self (a L : Nat) : dxNum a a L = 0 := by simp [dxNum, absDiff_self]

theorem dxR_self (up : Bool) (a L : Nat) : dxR up a a L = 0 := by
  cases up
  · simp [dxR, dxDown, dxNum_self]
  · simp [dxR, dxUp, dxNum_self, cdiv_zero]

theorem dyR_self (up : Bool) (a L : Nat) : dyR up a a L = 0 := by
  cases up
  · simp [dyR, dyDown, absDiff_self]
  · simp [dyR, dyUp, absDiff_self, cdiv_zero]

theorem getDeltaX_ok {a b L x : Nat} {up : Bool} (h : getDeltaX a b L up = .ok x) :
    x = dxR up a b L ∧ x < 2 ^ 256 ∧ (up = true → 0 < a * b / 10 ^ 24) := by
  cases up
  · rw [dxR_false]
    exact ⟨(getDeltaX_down_ok h).1, (getDeltaX_down_ok h).2.1, by simp⟩
  · rw [dxR_true]
    exact ⟨(getDeltaX_up_ok h).1, (getDeltaX_up_ok h).2.1, fun _ => (getDeltaX_up_ok h).2.2⟩

theorem getDeltaY_ok {a b L y : Nat} {up : Bool} (h : getDeltaY a b L up = .ok y) :
    y = dyR up a b L ∧ y < 2 ^ 256 := by
  cases up
  · rw [dyR_false]; exact getDeltaY_down_ok h
  · rw [dyR_true]; exact getDeltaY_up_ok h

/-- the price of the pool clamped to the range of a position -/
def clampPrice (t l u : Int) (p pl pu : Nat) : Nat := if t < l then pl else if t < u then p else pu

theorem prod_pos_of_min {a b : Nat} (ha : MIN_SQRT_PRICE ≤ a) (hb : MIN_SQRT_PRICE ≤ b) :
    23 * 10 ^ 13 ≤ a * b / 10 ^ 24 := by
  rw [Nat.le_div_iff_mul_le (by positivity)]
  exact le_trans (by norm_num [MIN_SQRT_PRICE]) (Nat.mul_le_mul ha hb)

theorem calculateAmountDelta_ok {t l u : Int} {p L x y : Nat} {sign i : Bool}
    (h : calculateAmountDelta t p L sign u l = .ok (x, y, i)) :
    ∃ pl pu, calculateSqrtPrice l = .ok pl ∧ calculateSqrtPrice u = .ok pu ∧ l ≤ u ∧
      x = dxR sign (clampPrice t l u p pl pu) pu L ∧
      y = dyR sign pl (clampPrice t l u p pl pu) L ∧ (i = true ↔ l ≤ t ∧ t < u) ∧
      x < 2 ^ 256 ∧ y < 2 ^ 256 ∧
      (sign = true → 0 < clampPrice t l u p pl pu * pu / 10 ^ 24) := by
  unfold calculateAmountDelta at h
  by_cases hul : u < l
  · rw [failIf_pos hul] at h; simp at h
  rw [failIf_neg hul, ok_bind] at h
  replace h : (if t < l then do
    let pl ← calculateSqrtPrice l
    let pu ← calculateSqrtPrice u
    let x ← getDeltaX pl pu L sign
    pure (x, 0, false)
  else if t < u then do
    let pu ← calculateSqrtPrice u
    let x ← getDeltaX p pu L sign
    let pl ← calculateSqrtPrice l
    let y ← getDeltaY pl p L sign
    pure (x, y, true)
  else do
    let pl ← calculateSqrtPrice l
    let pu ← calculateSqrtPrice u
    let y ← getDeltaY pl pu L sign
    pure (0, y, false) : M (Nat × Nat × Bool)) = .ok (x, y, i) := h
  by_cases h1 : t < l
  · rw [if_pos h1] at h
    simp only [bind_ok_iff, pure_ok_iff, Prod.mk.injEq] at h
    obtain ⟨pl, hpl, pu, hpu, x', hx, rfl, rfl, rfl⟩ := h
    obtain ⟨hx1, hx2, hx3⟩ := getDeltaX_ok hx
    refine ⟨pl, pu, hpl, hpu, not_lt.1 hul, ?_⟩
    simp only [clampPrice, if_pos h1]
    exact ⟨hx1, (dyR_self _ _ _).symm, by simp; omega, hx2, by norm_num, hx3⟩
  · rw [if_neg h1] at h
    by_cases h2 : t < u
    · rw [if_pos h2] at h
      simp only [bind_ok_iff, pure_ok_iff, Prod.mk.injEq] at h
      obtain ⟨pu, hpu, x', hx, pl, hpl, y', hy, rfl, rfl, rfl⟩ := h
      obtain ⟨hx1, hx2, hx3⟩ := getDeltaX_ok hx
      obtain ⟨hy1, hy2⟩ := getDeltaY_ok hy
      refine ⟨pl, pu, hpl, hpu, not_lt.1 hul, ?_⟩
      simp only [clampPrice, if_neg h1, if_pos h2]
      exact ⟨hx1, hy1, by simp; omega, hx2, hy2, hx3⟩
    · rw [if_neg h2] at h
      simp only [bind_ok_iff, pure_ok_iff, Prod.mk.injEq] at h
      obtain ⟨pl, hpl, pu, hpu, y', hy, rfl, rfl, rfl⟩ := h
      obtain ⟨hy1, hy2⟩ := getDeltaY_ok hy
      refine ⟨pl, pu, hpl, hpu, not_lt.1 hul, ?_⟩
      simp only [clampPrice, if_neg h1, if_neg h2]
      refine ⟨(dxR_self _ _ _).symm, hy1, by simp; omega, by norm_num, hy2, fun _ => ?_⟩
      have := prod_pos_of_min (calculateSqrtPrice_ge_min hpu) (calculateSqrtPrice_ge_min hpu)
      omega

theorem calculateSqrtPrice_lt {t : Int} {p : Nat} (h : calculateSqrtPrice t = .ok p) :
    p < 2 ^ 128 := lt_of_le_of_lt (calculateSqrtPrice_le_max h) (by norm_num [MAX_SQRT_PRICE])

/-! ## Pieces -/

theorem dxNum_add_le (a b L M : Nat) : dxNum a b L + dxNum a b M ≤ dxNum a b (L + M) := by
  unfold dxNum
  rw [Nat.mul_add]
  exact div_add_div_le _ _ _

theorem dxNum_le_add (a b L M : Nat) : dxNum a b (L + M) ≤ dxNum a b L + dxNum a b M + 1 := by
  unfold dxNum
  rw [Nat.mul_add, ← Nat.lt_add_one_iff, Nat.div_lt_iff_lt_mul (by positivity)]
  have h1 := lt_div_add_one_mul (absDiff a b * L) (d := 10 ^ 5) (by positivity)
  have h2 := lt_div_add_one_mul (absDiff a b * M) (d := 10 ^ 5) (by positivity)
  generalize absDiff a b * L / 10 ^ 5 = x at *
  generalize absDiff a b * M / 10 ^ 5 = y at *
  nlinarith

theorem dyDown_add_le (a b L M : Nat) : dyDown a b L + dyDown a b M ≤ dyDown a b (L + M) := by
  unfold dyDown
  rw [Nat.mul_add]
  exact div_add_div_le _ _ _

theorem dyUp_add_le (a b L M : Nat) : dyUp a b (L + M) ≤ dyUp a b L + dyUp a b M := by
  unfold dyUp
  rw [Nat.mul_add]
  exact cdiv_add_le _ _ (by positivity)

theorem dxDown_add_le (a b L M : Nat) : dxDown a b L + dxDown a b M ≤ dxDown a b (L + M) := by
  unfold dxDown
  exact le_trans (div_add_div_le _ _ _) (Nat.div_le_div_right (dxNum_add_le a b L M))

theorem sum_dyDown_le (a b : Nat) (Ls : List Nat) :
    (Ls.map (dyDown a b)).sum ≤ dyDown a b Ls.sum := by
  induction Ls with
  | nil => simp
  | cons L Ls ih =>
    simp only [List.map_cons, List.sum_cons]
    exact le_trans (Nat.add_le_add_left ih _) (dyDown_add_le _ _ _ _)

theorem sum_dxDown_le (a b : Nat) (Ls : List Nat) :
    (Ls.map (dxDown a b)).sum ≤ dxDown a b Ls.sum := by
  induction Ls with
  | nil => simp
  | cons L Ls ih =>
    simp only [List.map_cons, List.sum_cons]
    exact le_trans (Nat.add_le_add_left ih _) (dxDown_add_le _ _ _ _)

theorem dyUp_zero (a b : Nat) : dyUp a b 0 = 0 := by simp [dyUp, cdiv_zero]

theorem dyUp_sum_le (a b : Nat) (Ls : List Nat) :
    dyUp a b Ls.sum ≤ (Ls.map (dyUp a b)).sum := by
  induction Ls with
  | nil => simp [dyUp_zero]
  | cons L Ls ih =>
    simp only [List.map_cons, List.sum_cons]
    exact le_trans (dyUp_add_le _ _ _ _) (Nat.add_le_add_left ih _)

theorem dxNum_sum_le (a b : Nat) (Ls : List Nat) :
    dxNum a b Ls.sum ≤ (Ls.map (dxNum a b)).sum + (Ls.length - 1) := by
  cases Ls with
  | nil => simp [dxNum]
  | cons L Ls =>
    induction Ls generalizing L with
    | nil => simp
    | cons K Ks ih =>
      have h1 := dxNum_le_add a b L (K :: Ks).sum
      have h2 := ih K
      simp only [List.map_cons, List.sum_cons, List.length_cons] at *
      omega

theorem sum_dxNum_le_dxUp {a b : Nat} (hD : 0 < a * b / 10 ^ 24) (Ls : List Nat) :
    (Ls.map (dxNum a b)).sum ≤ (Ls.map (dxUp a b)).sum * (a * b / 10 ^ 24) := by
  induction Ls with
  | nil => simp
  | cons L Ls ih =>
    simp only [List.map_cons, List.sum_cons, Nat.add_mul]
    rw [dxUp_def]
    exact Nat.add_le_add (le_cdiv_mul _ hD) ih

/-- at most one unit is saved by splitting a deposit -/
theorem dxUp_sum_le {a b : Nat} (hD : 0 < a * b / 10 ^ 24) (Ls : List Nat)
    (hn : Ls.length ≤ a * b / 10 ^ 24) :
    dxUp a b Ls.sum ≤ (Ls.map (dxUp a b)).sum + 1 := by
  unfold dxUp
  rw [cdiv_le_iff hD, Nat.add_mul]
  have h1 := dxNum_sum_le a b Ls
  have h2 := sum_dxNum_le_dxUp hD Ls
  unfold dxUp at h2
  omega

/-- splitting a deposit never pays at withdrawal -/
theorem dxDown_sum_le_dxUp {a b : Nat} (hD : 0 < a * b / 10 ^ 24) (Ls : List Nat)
    (hn : Ls.length ≤ a * b / 10 ^ 24) :
    dxDown a b Ls.sum ≤ (Ls.map (dxUp a b)).sum := by
  have h1 := dxNum_sum_le a b Ls
  have h2 := sum_dxNum_le_dxUp hD Ls
  have h3 : dxDown a b Ls.sum ≤ dxNum a b Ls.sum / (a * b / 10 ^ 24) := by
    rw [dxDown_def]; exact Nat.div_le_div_left (div_le_cdiv _ _) hD
  refine le_trans h3 ?_
  rw [← Nat.lt_add_one_iff, Nat.div_lt_iff_lt_mul hD, Nat.add_mul, Nat.one_mul]
  omega

end Verif
