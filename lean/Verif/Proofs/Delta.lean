import Verif.Model.Math
import Verif.Proofs.Arith

/-! # Closed forms of the token delta functions -/

set_option exponentiation.threshold 1000

namespace Verif

theorem bind_fit {w : Nat} {e : Err} {n : Nat} {β : Type} (h : n < 2 ^ w) (f : Nat → M β) :
    (fit w e n >>= f) = f n := by simp [fit, h]

theorem mulC_eq {w : Nat} {e : Err} {a b : Nat} (h : a * b < 2 ^ w) : mulC w e a b = .ok (a * b) := by
  simp [mulC, fit, h]

theorem addC_eq {w : Nat} {e : Err} {a b : Nat} (h : a + b < 2 ^ w) : addC w e a b = .ok (a + b) := by
  simp [addC, fit, h]

theorem subC_eq {e : Err} {a b : Nat} (h : b ≤ a) : subC e a b = .ok (a - b) := by
  simp [subC, h]

theorem divC_eq {e : Err} {a b : Nat} (h : 0 < b) : divC e a b = .ok (a / b) := by
  simp [divC, Nat.pos_iff_ne_zero.mp h]

theorem fit_eq {w : Nat} {e : Err} {n : Nat} (h : n < 2 ^ w) : fit w e n = .ok n := by
  simp [fit, h]

theorem absDiff_comm (a b : Nat) : absDiff a b = absDiff b a := by
  unfold absDiff; split <;> split <;> omega

theorem absDiff_lt {a b w : Nat} (ha : a < w) (hb : b < w) : absDiff a b < w := by
  unfold absDiff; split <;> omega

theorem absDiff_of_le {a b : Nat} (h : a ≤ b) : absDiff a b = b - a := by
  unfold absDiff; split <;> omega

theorem absDiff_of_ge {a b : Nat} (h : b ≤ a) : absDiff a b = a - b := by
  unfold absDiff; split <;> omega

theorem absDiff_self (a : Nat) : absDiff a a = 0 := by simp [absDiff]

theorem mul_lt_384 {a b : Nat} (ha : a < 2 ^ 128) (hb : b < 2 ^ 256) :
    a * b + 2 ^ 255 < 2 ^ 384 := by
  have h1 : a ≤ 2 ^ 128 - 1 := by omega
  have h2 : b ≤ 2 ^ 256 - 1 := by omega
  have := Nat.mul_le_mul h1 h2
  norm_num at this ⊢
  omega

/-- exact token Y amount, both roundings -/
@[irreducible] def dyUp (a b L : Nat) : Nat := cdiv (absDiff a b * L) (10 ^ 29)
@[irreducible] def dyDown (a b L : Nat) : Nat := (absDiff a b * L) / 10 ^ 29

/-- numerator and denominators used for token X -/
@[irreducible] def dxNum (a b L : Nat) : Nat := absDiff a b * L / 10 ^ 5
@[irreducible] def dxUp (a b L : Nat) : Nat := cdiv (dxNum a b L) (a * b / 10 ^ 24)
@[irreducible] def dxDown (a b L : Nat) : Nat := dxNum a b L / cdiv (a * b) (10 ^ 24)

theorem cdiv_def (n d : Nat) : cdiv n d = (n + (d - 1)) / d := by unfold cdiv; rfl

theorem dyUp_def (a b L : Nat) : dyUp a b L = cdiv (absDiff a b * L) (10 ^ 29) := by unfold dyUp; rfl
theorem dyDown_def (a b L : Nat) : dyDown a b L = absDiff a b * L / 10 ^ 29 := by unfold dyDown; rfl
theorem dxNum_def (a b L : Nat) : dxNum a b L = absDiff a b * L / 10 ^ 5 := by unfold dxNum; rfl
theorem dxUp_def (a b L : Nat) : dxUp a b L = cdiv (dxNum a b L) (a * b / 10 ^ 24) := by
  unfold dxUp; rfl
theorem dxDown_def (a b L : Nat) : dxDown a b L = dxNum a b L / cdiv (a * b) (10 ^ 24) := by
  unfold dxDown; rfl


theorem bigMulToValue_eq {big one a b : Nat} (h : a * b < 2 ^ big) :
    bigMulToValue big one a b = .ok (a * b / one) := by
  unfold bigMulToValue
  rw [mulC_eq h, ok_bind]; rfl

theorem bigMulToValueUp_eq {big one a b : Nat} (h : a * b + (one - 1) < 2 ^ big) :
    bigMulToValueUp big one a b = .ok (cdiv (a * b) one) := by
  unfold bigMulToValueUp
  rw [mulC_eq (by omega), ok_bind, addC_eq h, ok_bind, cdiv_def]; rfl

theorem liqOne_mul_spOne : liqOne * spOne = 10 ^ 29 := by norm_num [liqOne, spOne]

theorem getDeltaY_up {a b L : Nat} (ha : a < 2 ^ 128) (hb : b < 2 ^ 128) (hL : L < 2 ^ 256) :
    getDeltaY a b L true = fit 256 .track (dyUp a b L) := by
  have h := mul_lt_384 (absDiff_lt ha hb) hL
  have h2 : absDiff a b * L + (liqOne - 1) < 2 ^ 384 := by
    have : liqOne - 1 < 2 ^ 255 := by norm_num [liqOne]
    omega
  have h3 : cdiv (absDiff a b * L) liqOne + (spOne - 1) < 2 ^ 384 := by
    have h4 : cdiv (absDiff a b * L) liqOne < 2 ^ 383 := by
      unfold cdiv
      rw [Nat.div_lt_iff_lt_mul (by norm_num [liqOne])]
      have : 2 ^ 384 ≤ 2 ^ 383 * liqOne := by norm_num [liqOne]
      omega
    have : spOne - 1 < 2 ^ 383 := by norm_num [spOne]
    have : 2 ^ 383 + 2 ^ 383 = 2 ^ 384 := by norm_num
    omega
  unfold getDeltaY
  rw [if_pos rfl, bigMulToValueUp_eq h2, ok_bind, addC_eq h3, ok_bind]
  rw [dyUp_def, ← liqOne_mul_spOne, ← cdiv_cdiv _ (by norm_num [liqOne]) (by norm_num [spOne]),
    cdiv_def _ spOne]

theorem getDeltaY_down {a b L : Nat} (ha : a < 2 ^ 128) (hb : b < 2 ^ 128) (hL : L < 2 ^ 256) :
    getDeltaY a b L false = fit 256 .track (dyDown a b L) := by
  have h := mul_lt_384 (absDiff_lt ha hb) hL
  have h1 : absDiff a b * L < 2 ^ 384 := by omega
  unfold getDeltaY
  rw [if_neg (by decide), bigMulToValue_eq h1, ok_bind, Nat.div_div_eq_div_mul, liqOne_mul_spOne,
    dyDown_def]

theorem dxNum_mul_lt {a b L : Nat} (ha : a < 2 ^ 128) (hb : b < 2 ^ 128) (hL : L < 2 ^ 256) :
    dxNum a b L * spOne < 2 ^ 447 + 2 ^ 446 := by
  have h := mul_lt_384 (absDiff_lt ha hb) hL
  unfold dxNum
  have h1 : absDiff a b * L / 10 ^ 5 ≤ 2 ^ 384 / 10 ^ 5 := Nat.div_le_div_right (by omega)
  have h2 := Nat.mul_le_mul_right spOne h1
  refine lt_of_le_of_lt h2 ?_
  norm_num [spOne]

theorem getDeltaX_up {a b L : Nat} (ha : a < 2 ^ 128) (hb : b < 2 ^ 128) (hL : L < 2 ^ 256)
    (hab : 10 ^ 24 ≤ a * b) :
    getDeltaX a b L true =
      if cdiv (dxNum a b L * spOne) (a * b / 10 ^ 24) + (spOne - 1) < 2 ^ 384 then
        fit 256 .track (dxUp a b L) else .error .track := by
  have h := mul_lt_384 (absDiff_lt ha hb) hL
  have h1 : absDiff a b * L < 2 ^ 384 := by omega
  have hab2 : a * b < 2 ^ 256 := by
    have : a * b < 2 ^ 128 * 2 ^ 128 := Nat.mul_lt_mul'' ha hb
    calc a * b < 2 ^ 128 * 2 ^ 128 := this
      _ = 2 ^ 256 := by norm_num
  have hab3 : a * b < 2 ^ 384 := lt_trans hab2 (by norm_num)
  have hN := dxNum_mul_lt ha hb hL
  have hsp : spOne = 10 ^ 24 := by norm_num [spOne]
  have hlq : liqOne = 10 ^ 5 := by norm_num [liqOne]
  have hD : 0 < a * b / 10 ^ 24 := Nat.div_pos hab (by norm_num)
  have hD2 : a * b / 10 ^ 24 < 2 ^ 256 := lt_of_le_of_lt (Nat.div_le_self _ _) hab2
  unfold getDeltaX
  rw [bigMulToValue_eq h1, ok_bind, if_pos rfl, bigMulToValue_eq hab3, ok_bind]
  rw [hlq, ← dxNum_def]
  generalize hNN : dxNum a b L = N at *
  unfold bigDivValuesToTokenUp
  have h448 : N * spOne < 2 ^ 448 := lt_trans hN (by norm_num)
  rw [mulC_eq h448, ok_bind, hsp, subC_eq hD, ok_bind]
  have hs : N * 10 ^ 24 + (a * b / 10 ^ 24 - 1) < 2 ^ 448 := by
    rw [hsp] at hN
    exact lt_trans (Nat.add_lt_add hN (lt_of_le_of_lt (Nat.sub_le _ _) hD2)) (by norm_num)
  rw [addC_eq hs, ok_bind, divC_eq hD, ok_bind]
  rw [← cdiv_def]
  have hres : cdiv (cdiv (N * 10 ^ 24) (a * b / 10 ^ 24)) (10 ^ 24) = dxUp a b L := by
    rw [cdiv_cdiv _ hD (by norm_num), cdiv_mul_right _ (by norm_num) hD]
    unfold dxUp; rw [hNN]
  split
  · rename_i hc
    rw [fit_eq (by omega), ok_bind, addC_eq hc, ok_bind]
    rw [← cdiv_def, hres]
  · rename_i hc
    unfold fit
    split
    · rw [ok_bind]
      unfold addC fit
      rw [if_neg hc]; rfl
    · rfl

theorem getDeltaX_down {a b L : Nat} (ha : a < 2 ^ 128) (hb : b < 2 ^ 128) (hL : L < 2 ^ 256)
    (hab : 0 < a * b) :
    getDeltaX a b L false =
      if dxNum a b L * spOne / cdiv (a * b) (10 ^ 24) < 2 ^ 384 then
        fit 256 .track (dxDown a b L) else .error .track := by
  have h := mul_lt_384 (absDiff_lt ha hb) hL
  have h1 : absDiff a b * L < 2 ^ 384 := by omega
  have hab2 : a * b < 2 ^ 256 := by
    have : a * b < 2 ^ 128 * 2 ^ 128 := Nat.mul_lt_mul'' ha hb
    calc a * b < 2 ^ 128 * 2 ^ 128 := this
      _ = 2 ^ 256 := by norm_num
  have hab3 : a * b + (spOne - 1) < 2 ^ 384 := by
    have : spOne + 2 ^ 256 < 2 ^ 384 := by norm_num [spOne]
    omega
  have hN := dxNum_mul_lt ha hb hL
  have hsp : spOne = 10 ^ 24 := by norm_num [spOne]
  have hlq : liqOne = 10 ^ 5 := by norm_num [liqOne]
  have hD : 0 < cdiv (a * b) (10 ^ 24) := cdiv_pos hab (by norm_num)
  unfold getDeltaX
  rw [bigMulToValue_eq h1, ok_bind, if_neg (by decide), bigMulToValueUp_eq hab3, ok_bind]
  rw [hlq, ← dxNum_def]
  generalize hNN : dxNum a b L = N at *
  unfold bigDivValuesToToken
  have h448 : N * spOne < 2 ^ 448 := lt_trans hN (by norm_num)
  rw [mulC_eq h448, ok_bind, hsp, divC_eq hD, ok_bind]
  have hres : N * 10 ^ 24 / cdiv (a * b) (10 ^ 24) / 10 ^ 24 = dxDown a b L := by
    rw [Nat.div_div_eq_div_mul, Nat.mul_div_mul_right _ _ (by norm_num)]
    unfold dxDown; rw [hNN]
  split
  · rename_i hc
    rw [fit_eq hc, ok_bind, hres]
  · rename_i hc
    unfold fit
    rw [if_neg hc]; rfl

end Verif
