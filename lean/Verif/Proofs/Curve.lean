import Verif.Spec.Curve
import Verif.Proofs.Delta
import Mathlib.Algebra.Order.Floor.Semifield
import Mathlib.Tactic.FieldSimp
import Mathlib.Tactic.Positivity

/-! # The closed forms of the delta functions against the rational curve -/

set_option exponentiation.threshold 1000

namespace Verif
open Spec

theorem cast_absDiff (a b : Nat) : ((absDiff a b : Nat) : ℚ) = |(a : ℚ) - b| := by
  rcases le_total a b with h | h
  · rw [absDiff_of_le h, Nat.cast_sub h, abs_of_nonpos]
    · ring
    · have : (a : ℚ) ≤ b := by exact_mod_cast h
      linarith
  · rw [absDiff_of_ge h, Nat.cast_sub h, abs_of_nonneg]
    have : (b : ℚ) ≤ a := by exact_mod_cast h
    linarith

theorem amountY_eq (a b L : Nat) : amountY a b L = ((absDiff a b * L : Nat) : ℚ) / (10 ^ 29 : Nat) := by
  unfold amountY liq price
  rw [← sub_div, abs_div, Nat.cast_mul, cast_absDiff, abs_of_pos (by positivity : (0 : ℚ) < 10 ^ 24)]
  push_cast
  ring

theorem amountX_eq {a b : Nat} (ha : 0 < a) (hb : 0 < b) (L : Nat) :
    amountX a b L = ((absDiff a b * L * 10 ^ 19 : Nat) : ℚ) / ((a * b : Nat) : ℚ) := by
  have ha' : (0 : ℚ) < a := by exact_mod_cast ha
  have hb' : (0 : ℚ) < b := by exact_mod_cast hb
  unfold amountX liq price
  have h : 1 / ((a : ℚ) / 10 ^ 24) - 1 / ((b : ℚ) / 10 ^ 24) = (b - a) * (10 ^ 24 / (a * b)) := by
    field_simp
  rw [h, abs_mul, abs_of_pos (by positivity : (0 : ℚ) < 10 ^ 24 / (a * b)), abs_sub_comm,
    Nat.cast_mul, Nat.cast_mul, cast_absDiff]
  push_cast
  field_simp
  ring

theorem cdiv_eq_ceil (n : Nat) {d : Nat} (hd : 0 < d) : cdiv n d = ⌈(n : ℚ) / d⌉₊ := by
  have hd' : (0 : ℚ) < d := by exact_mod_cast hd
  apply le_antisymm
  · rw [cdiv_le_iff hd]
    have h := Nat.le_ceil ((n : ℚ) / d)
    rw [div_le_iff₀ hd'] at h
    exact_mod_cast h
  · rw [Nat.ceil_le, div_le_iff₀ hd']
    exact_mod_cast le_cdiv_mul n hd

theorem div_eq_floor (n d : Nat) : n / d = ⌊(n : ℚ) / d⌋₊ := (Nat.floor_div_eq_div (K := ℚ) n d).symm

theorem dyUp_eq_ceil (a b L : Nat) : dyUp a b L = ⌈amountY a b L⌉₊ := by
  rw [amountY_eq, ← cdiv_eq_ceil _ (by positivity), dyUp_def]

theorem dyDown_eq_floor (a b L : Nat) : dyDown a b L = ⌊amountY a b L⌋₊ := by
  rw [amountY_eq, ← div_eq_floor, dyDown_def]

/-! ## Inversion: a successful call returns the closed form -/

theorem bigMulToValue_ok {big one a b r : Nat} (h : bigMulToValue big one a b = .ok r) :
    r = a * b / one := by
  simp only [bigMulToValue, bind_ok_iff, mulC_ok_iff, pure_ok_iff] at h
  obtain ⟨_, ⟨_, rfl⟩, rfl⟩ := h
  rfl

theorem bigMulToValueUp_ok {big one a b r : Nat} (h : bigMulToValueUp big one a b = .ok r) :
    r = cdiv (a * b) one := by
  simp only [bigMulToValueUp, bind_ok_iff, mulC_ok_iff, addC_ok_iff, pure_ok_iff] at h
  obtain ⟨_, ⟨_, rfl⟩, _, ⟨_, rfl⟩, rfl⟩ := h
  rw [cdiv_def]

theorem liqOne_pos : 0 < liqOne := by norm_num [liqOne]
theorem spOne_pos : 0 < spOne := by norm_num [spOne]
theorem liqOne_eq : liqOne = 10 ^ 5 := by norm_num [liqOne]
theorem spOne_eq : spOne = 10 ^ 24 := by norm_num [spOne]
theorem pctOne_pos : 0 < pctOne := by norm_num [pctOne]
theorem pctOne_eq : pctOne = 10 ^ 12 := by norm_num [pctOne]
theorem fgOne_eq : fgOne = 10 ^ 28 := by norm_num [fgOne]

theorem getDeltaY_up_ok {a b L y : Nat} (h : getDeltaY a b L true = .ok y) :
    y = dyUp a b L ∧ y < 2 ^ 256 := by
  unfold getDeltaY at h
  rw [if_pos rfl] at h
  simp only [bind_ok_iff, addC_ok_iff, fit_ok_iff] at h
  obtain ⟨v, hv, _, ⟨_, rfl⟩, hlt, rfl⟩ := h
  have hv := bigMulToValueUp_ok hv
  subst hv
  refine ⟨?_, hlt⟩
  rw [← cdiv_def, cdiv_cdiv _ liqOne_pos spOne_pos, liqOne_mul_spOne, dyUp_def]

theorem getDeltaY_down_ok {a b L y : Nat} (h : getDeltaY a b L false = .ok y) :
    y = dyDown a b L ∧ y < 2 ^ 256 := by
  unfold getDeltaY at h
  rw [if_neg (by decide)] at h
  simp only [bind_ok_iff, fit_ok_iff] at h
  obtain ⟨v, hv, hlt, rfl⟩ := h
  have hv := bigMulToValue_ok hv
  subst hv
  refine ⟨?_, hlt⟩
  rw [Nat.div_div_eq_div_mul, liqOne_mul_spOne, dyDown_def]

theorem getDeltaX_up_ok {a b L x : Nat} (h : getDeltaX a b L true = .ok x) :
    x = dxUp a b L ∧ x < 2 ^ 256 ∧ 0 < a * b / 10 ^ 24 := by
  unfold getDeltaX bigDivValuesToTokenUp at h
  simp only [if_true, bind_ok_iff, addC_ok_iff, fit_ok_iff, subC_ok_iff, mulC_ok_iff, divC_ok_iff] at h
  obtain ⟨N, hN, D, hD, _, ⟨_, rfl⟩, _, ⟨h1, rfl⟩, _, ⟨_, rfl⟩, _, ⟨_, rfl⟩, _, ⟨_, rfl⟩, _,
    ⟨_, rfl⟩, hlt, rfl⟩ := h
  have hN := bigMulToValue_ok hN
  have hD := bigMulToValue_ok hD
  rw [spOne_eq] at hD
  have hDp : 0 < D := h1
  refine ⟨?_, hlt, by rw [← hD]; exact hDp⟩
  rw [← cdiv_def, ← cdiv_def, cdiv_cdiv _ hDp spOne_pos, cdiv_mul_right _ spOne_pos hDp, hN, hD,
    liqOne_eq, dxUp_def, dxNum_def]

theorem getDeltaX_down_ok {a b L x : Nat} (h : getDeltaX a b L false = .ok x) :
    x = dxDown a b L ∧ x < 2 ^ 256 ∧ 0 < a * b := by
  unfold getDeltaX bigDivValuesToToken at h
  simp only [Bool.false_eq_true, if_false, bind_ok_iff, fit_ok_iff, mulC_ok_iff, divC_ok_iff] at h
  obtain ⟨N, hN, D, hD, _, ⟨_, rfl⟩, _, ⟨h1, rfl⟩, _, ⟨_, rfl⟩, hlt, rfl⟩ := h
  have hN := bigMulToValue_ok hN
  have hD := bigMulToValueUp_ok hD
  rw [spOne_eq] at hD
  have hab : 0 < a * b := by
    rcases Nat.eq_zero_or_pos (a * b) with h0 | h0
    · rw [h0, cdiv_zero] at hD; exact absurd hD h1
    · exact h0
  refine ⟨?_, hlt, hab⟩
  rw [Nat.div_div_eq_div_mul, Nat.mul_div_mul_right _ _ spOne_pos, hN, hD, liqOne_eq, dxDown_def, dxNum_def]

theorem dyDown_le_dyUp (a b L : Nat) : dyDown a b L ≤ dyUp a b L := by
  rw [dyDown_def, dyUp_def]; exact div_le_cdiv _ _

theorem dxDown_le_dxUp {a b : Nat} (L : Nat) (h : 0 < a * b / 10 ^ 24) :
    dxDown a b L ≤ dxUp a b L := by
  unfold dxDown dxUp
  calc dxNum a b L / cdiv (a * b) (10 ^ 24) ≤ dxNum a b L / (a * b / 10 ^ 24) :=
        Nat.div_le_div_left (div_le_cdiv _ _) h
    _ ≤ _ := div_le_cdiv _ _

/-- the token X amount is returned if the exact amount is below `2^255` -/
theorem getDeltaX_total {a b L : Nat} (ha : a < 2 ^ 128) (hb : b < 2 ^ 128) (hL : L < 2 ^ 256)
    (hab : 2 * 10 ^ 24 ≤ a * b) (h : absDiff a b * L * 10 ^ 19 < 2 ^ 255 * (a * b)) (up : Bool) :
    ∃ x, getDeltaX a b L up = .ok x := by
  have hD : 2 ≤ a * b / 10 ^ 24 := by rw [Nat.le_div_iff_mul_le (by positivity)]; exact hab
  have h2 : a * b < (a * b / 10 ^ 24 + 1) * 10 ^ 24 := lt_div_add_one_mul _ (by positivity)
  have h3 : dxNum a b L * 10 ^ 5 ≤ absDiff a b * L := by rw [dxNum_def]; exact Nat.div_mul_le_self _ _
  have h4 : dxNum a b L ≤ (2 ^ 256 - 1) * (a * b / 10 ^ 24) := by
    have h5 : dxNum a b L * 10 ^ 24 < 2 ^ 255 * (a * b / 10 ^ 24 + 1) * 10 ^ 24 := by
      calc dxNum a b L * 10 ^ 24 = dxNum a b L * 10 ^ 5 * 10 ^ 19 := by ring
        _ ≤ absDiff a b * L * 10 ^ 19 := Nat.mul_le_mul_right _ h3
        _ < 2 ^ 255 * (a * b) := h
        _ ≤ 2 ^ 255 * ((a * b / 10 ^ 24 + 1) * 10 ^ 24) := Nat.mul_le_mul_left _ h2.le
        _ = _ := by ring
    have h6 := Nat.lt_of_mul_lt_mul_right h5
    generalize a * b / 10 ^ 24 = D at *
    generalize dxNum a b L = N at *
    norm_num at h6 ⊢
    omega
  have hDpos : 0 < a * b / 10 ^ 24 := by omega
  have h7 : dxNum a b L * spOne ≤ (2 ^ 256 - 1) * spOne * (a * b / 10 ^ 24) := by
    calc _ ≤ (2 ^ 256 - 1) * (a * b / 10 ^ 24) * spOne := Nat.mul_le_mul_right _ h4
      _ = _ := by ring
  cases up
  · rw [getDeltaX_down ha hb hL (by omega)]
    have h8 : dxDown a b L < 2 ^ 256 := by
      refine lt_of_le_of_lt (dxDown_le_dxUp L hDpos) ?_
      rw [dxUp_def]; exact lt_of_le_of_lt ((cdiv_le_iff hDpos).2 h4) (by norm_num)
    have h9 : dxNum a b L * spOne / cdiv (a * b) (10 ^ 24) < 2 ^ 384 := by
      refine lt_of_le_of_lt (Nat.div_le_div_left (div_le_cdiv _ _) hDpos) ?_
      refine lt_of_le_of_lt (Nat.div_le_of_le_mul (n := (2 ^ 256 - 1) * spOne) ?_) ?_
      · rw [Nat.mul_comm (a * b / 10 ^ 24)]; exact h7
      · norm_num [spOne]
    rw [if_pos h9, fit_eq h8]
    exact ⟨_, rfl⟩
  · rw [getDeltaX_up ha hb hL (by omega)]
    have h8 : dxUp a b L < 2 ^ 256 := by
      rw [dxUp_def]; exact lt_of_le_of_lt ((cdiv_le_iff hDpos).2 h4) (by norm_num)
    have h9 : cdiv (dxNum a b L * spOne) (a * b / 10 ^ 24) + (spOne - 1) < 2 ^ 384 := by
      have : cdiv (dxNum a b L * spOne) (a * b / 10 ^ 24) ≤ (2 ^ 256 - 1) * spOne :=
        (cdiv_le_iff hDpos).2 h7
      refine lt_of_le_of_lt (Nat.add_le_add_right this _) (by norm_num [spOne])
    rw [if_pos h9, fit_eq h8]
    exact ⟨_, rfl⟩

/-! ## Inequalities between the roundings -/

/-- rounding down never exceeds the curve -/
theorem dxDown_le_amountX {a b : Nat} (ha : 0 < a) (hb : 0 < b) (L : Nat) :
    (dxDown a b L : ℚ) ≤ amountX a b L := by
  have hab : 0 < a * b := Nat.mul_pos ha hb
  rw [amountX_eq ha hb, le_div_iff₀ (by exact_mod_cast hab)]
  have h1 : dxDown a b L * cdiv (a * b) (10 ^ 24) ≤ dxNum a b L := by rw [dxDown_def]; exact Nat.div_mul_le_self _ _
  have h2 : a * b ≤ cdiv (a * b) (10 ^ 24) * 10 ^ 24 := le_cdiv_mul _ (by positivity)
  have h3 : dxNum a b L * 10 ^ 5 ≤ absDiff a b * L := by rw [dxNum_def]; exact Nat.div_mul_le_self _ _
  have : dxDown a b L * (a * b) ≤ absDiff a b * L * 10 ^ 19 := by
    calc dxDown a b L * (a * b) ≤ dxDown a b L * (cdiv (a * b) (10 ^ 24) * 10 ^ 24) :=
          Nat.mul_le_mul_left _ h2
      _ = dxDown a b L * cdiv (a * b) (10 ^ 24) * 10 ^ 24 := by ring
      _ ≤ dxNum a b L * 10 ^ 24 := Nat.mul_le_mul_right _ h1
      _ = dxNum a b L * 10 ^ 5 * 10 ^ 19 := by ring
      _ ≤ _ := Nat.mul_le_mul_right _ h3
  exact_mod_cast this

/-- rounding up is below the curve by less than `10^24 / (a b)` -/
theorem amountX_lt_dxUp {a b : Nat} (ha : 0 < a) (hb : 0 < b) (L : Nat)
    (h : 0 < a * b / 10 ^ 24) :
    amountX a b L < (dxUp a b L : ℚ) + 10 ^ 24 / ((a * b : Nat) : ℚ) := by
  have hab : 0 < a * b := Nat.mul_pos ha hb
  have hab' : (0 : ℚ) < ((a * b : Nat) : ℚ) := by exact_mod_cast hab
  rw [amountX_eq ha hb, div_lt_iff₀ hab', add_mul, div_mul_cancel₀ _ hab'.ne']
  have h1 : dxNum a b L ≤ dxUp a b L * (a * b / 10 ^ 24) := by rw [dxUp_def]; exact le_cdiv_mul _ h
  have h2 : a * b / 10 ^ 24 * 10 ^ 24 ≤ a * b := Nat.div_mul_le_self _ _
  have h3 : absDiff a b * L < (dxNum a b L + 1) * 10 ^ 5 := by rw [dxNum_def]; exact lt_div_add_one_mul _ (by positivity)
  have : absDiff a b * L * 10 ^ 19 < dxUp a b L * (a * b) + 10 ^ 24 := by
    calc absDiff a b * L * 10 ^ 19 < (dxNum a b L + 1) * 10 ^ 5 * 10 ^ 19 :=
          Nat.mul_lt_mul_of_pos_right h3 (by positivity)
      _ = dxNum a b L * 10 ^ 24 + 10 ^ 24 := by ring
      _ ≤ dxUp a b L * (a * b / 10 ^ 24) * 10 ^ 24 + 10 ^ 24 := by
          exact Nat.add_le_add_right (Nat.mul_le_mul_right _ h1) _
      _ = dxUp a b L * (a * b / 10 ^ 24 * 10 ^ 24) + 10 ^ 24 := by ring
      _ ≤ _ := Nat.add_le_add_right (Nat.mul_le_mul_left _ h2) _
  exact_mod_cast this

end Verif
