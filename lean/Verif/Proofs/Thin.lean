import Verif.Proofs.Step
import Verif.Proofs.Delta
import Verif.Proofs.PriceRange

/-! # When the price after a swap step can be computed at all -/

set_option exponentiation.threshold 1000

namespace Verif

private theorem lt96 {p : Nat} (h : PriceOK p) : p < 2 ^ 96 :=
  lt_of_le_of_lt h.2 (by norm_num [MAX_SQRT_PRICE])

theorem tokMulPct_eq {a k : Nat} (ha : a < 2 ^ 256) (hk : k ≤ 10 ^ 12) :
    tokMulPct a k = .ok (a * k / 10 ^ 12) := by
  unfold tokMulPct bigMul
  simp only [bind_ok_iff, mulC_ok_iff, fit_ok_iff]
  have h1 : a * k ≤ a * 10 ^ 12 := Nat.mul_le_mul_left _ hk
  have h2 : a * 10 ^ 12 < 2 ^ 256 * 10 ^ 12 := Nat.mul_lt_mul_of_pos_right ha (by positivity)
  have h3 : (2 : Nat) ^ 256 * 10 ^ 12 < 2 ^ 512 := by norm_num
  refine ⟨_, ⟨by omega, rfl⟩, ?_, ?_⟩
  · rw [pctOne_eq, Nat.div_lt_iff_lt_mul (by positivity)]
    omega
  · rw [pctOne_eq]

/-- products that appear in the next price fit -/
private theorem pL_lt {p L : Nat} (hp : PriceOK p) (hL : L < 2 ^ 256) : p * L < 2 ^ 352 := by
  calc p * L < 2 ^ 96 * 2 ^ 256 := Nat.mul_lt_mul'' (lt96 hp) hL
    _ = 2 ^ 352 := by norm_num

private theorem L19_lt {L : Nat} (hL : L < 2 ^ 256) : L * 10 ^ 19 < 2 ^ 352 := by
  calc L * 10 ^ 19 < 2 ^ 256 * 10 ^ 19 := Nat.mul_lt_mul_of_pos_right hL (by positivity)
    _ < 2 ^ 352 := by norm_num

private theorem num_lt {p L : Nat} (hp : PriceOK p) (hL : L < 2 ^ 256) :
    cdiv (p * L) (10 ^ 5) * 10 ^ 24 < 2 ^ 440 := by
  have h := cdiv_le_div_add_one (p * L) (d := 10 ^ 5) (by positivity)
  have h1 : p * L / 10 ^ 5 ≤ p * L := Nat.div_le_self _ _
  have h2 := pL_lt hp hL
  have h3 : cdiv (p * L) (10 ^ 5) ≤ 2 ^ 352 := by omega
  calc cdiv (p * L) (10 ^ 5) * 10 ^ 24 ≤ 2 ^ 352 * 10 ^ 24 := Nat.mul_le_mul_right _ h3
    _ < 2 ^ 440 := by norm_num

/-- dividing in the next price -/
private theorem divUp_eq {num den : Nat} (hn : num * 10 ^ 24 < 2 ^ 440) (hd : den < 2 ^ 384) (h0 : 0 < den)
    (hq : cdiv (num * 10 ^ 24) den < 2 ^ 128) :
    checkedBigDivValuesUp num den = .ok (cdiv (num * 10 ^ 24) den) := by
  unfold checkedBigDivValuesUp
  simp only [bind_ok_iff, mulC_ok_iff, subC_ok_iff, addC_ok_iff, divC_ok_iff, fit_ok_iff]
  rw [spOne_eq]
  generalize num * 10 ^ 24 = n at *
  have h1 : (2 : Nat) ^ 440 + 2 ^ 384 < 2 ^ 448 := by norm_num
  refine ⟨_, ⟨by omega, rfl⟩, _, ⟨h0, rfl⟩, _, ⟨by omega, rfl⟩, _, ⟨by omega, rfl⟩, ?_, ?_⟩
  · rw [← cdiv_def]; exact hq
  · rw [← cdiv_def]

/-- adding token X: the next price always exists -/
theorem nextXUp_add_eq {p L x : Nat} (hp : PriceOK p) (hL : L < 2 ^ 256) (hx : x < 2 ^ 256) :
    getNextSqrtPriceXUp p L x true = .ok (nextX true p L x) := by
  have hp12 : 10 ^ 12 ≤ p := le_trans (by norm_num [MIN_SQRT_PRICE]) hp.1
  have hle := nextX_add_le (L := L) (x := x) hp12
  unfold getNextSqrtPriceXUp
  unfold nextX at hle ⊢
  by_cases h0 : x = 0
  · rw [if_pos h0, if_pos h0]
  rw [if_neg h0] at hle
  rw [if_neg h0, if_neg h0]
  simp only [if_true] at hle ⊢
  have h1 := pL_lt hp hL
  have h2 : p * x < 2 ^ 352 := pL_lt hp hx
  have h3 := L19_lt hL
  have h4 := lt96 hp
  have e1 : liqToPriceValue L = .ok (L * 10 ^ 19) := by
    unfold liqToPriceValue
    rw [tenTo19, mulC_ok_iff]
    exact ⟨by have : (2:Nat)^352 < 2^384 := by norm_num
              omega, rfl⟩
  have e2 : bigMulToValue 384 1 p x = .ok (p * x) := by
    rw [bigMulToValue_eq (by have : (2:Nat)^352 < 2^384 := by norm_num
                             omega), Nat.div_one]
  have e3 : bigMulToValueUp 384 liqOne p L = .ok (cdiv (p * L) (10 ^ 5)) := by
    rw [bigMulToValueUp_eq, liqOne_eq]
    rw [liqOne_eq]
    have : (2:Nat)^352 + 10 ^ 5 < 2^384 := by norm_num
    omega
  have hpx : 0 < p * x := Nat.mul_pos (by omega) (Nat.pos_of_ne_zero h0)
  have e4 : addC 384 .track (L * 10 ^ 19) (p * x) = .ok (L * 10 ^ 19 + p * x) := by
    rw [addC_ok_iff]
    have : (2:Nat)^352 + 2 ^ 352 < 2^384 := by norm_num
    exact ⟨lt_trans (Nat.add_lt_add h3 h2) this, rfl⟩
  rw [e1, ok_bind, e2, ok_bind, e4, ok_bind, e3, ok_bind]
  refine divUp_eq (num_lt hp hL) ?_ (Nat.add_pos_right _ hpx) ?_
  · exact lt_trans (Nat.add_lt_add h3 h2) (by norm_num)
  · exact lt_of_le_of_lt hle (lt_trans h4 (by norm_num))

/-- taking token X: exactly when the liquidity could pay it -/
theorem nextXUp_sub_iff {p L x : Nat} (hp : PriceOK p) (hL : L < 2 ^ 256) (hx : x < 2 ^ 256) :
    (∃ n, getNextSqrtPriceXUp p L x false = .ok n) ↔
      x = 0 ∨ (p * x < L * 10 ^ 19 ∧ nextX false p L x < 2 ^ 128) := by
  constructor
  · rintro ⟨n, h⟩
    obtain ⟨rfl, h1, h2⟩ := getNextSqrtPriceXUp_sub_ok h
    by_cases h0 : x = 0
    · exact Or.inl h0
    · exact Or.inr ⟨h2.resolve_left h0, h1.resolve_left h0⟩
  · intro h
    by_cases h0 : x = 0
    · exact ⟨p, by unfold getNextSqrtPriceXUp; rw [if_pos h0]⟩
    obtain ⟨k1, k2⟩ := h.resolve_left h0
    refine ⟨nextX false p L x, ?_⟩
    unfold getNextSqrtPriceXUp
    unfold nextX at k2 ⊢
    rw [if_neg h0] at k2
    rw [if_neg h0, if_neg h0]
    simp only [Bool.false_eq_true, if_false] at k2 ⊢
    have h1 := pL_lt hp hL
    have h2 : p * x < 2 ^ 352 := pL_lt hp hx
    have h3 := L19_lt hL
    have e1 : liqToPriceValue L = .ok (L * 10 ^ 19) := by
      unfold liqToPriceValue
      rw [tenTo19, mulC_ok_iff]
      exact ⟨by have : (2:Nat)^352 < 2^384 := by norm_num
                omega, rfl⟩
    have e2 : bigMulToValue 384 1 p x = .ok (p * x) := by
      rw [bigMulToValue_eq (by have : (2:Nat)^352 < 2^384 := by norm_num
                               omega), Nat.div_one]
    have e3 : bigMulToValueUp 384 liqOne p L = .ok (cdiv (p * L) (10 ^ 5)) := by
      rw [bigMulToValueUp_eq, liqOne_eq]
      rw [liqOne_eq]
      have : (2:Nat)^352 + 10 ^ 5 < 2^384 := by norm_num
      omega
    have e4 : subC .track (L * 10 ^ 19) (p * x) = .ok (L * 10 ^ 19 - p * x) := by
      rw [subC_ok_iff]
      exact ⟨by omega, rfl⟩
    rw [e1, ok_bind, e2, ok_bind, e4, ok_bind, e3, ok_bind]
    refine divUp_eq (num_lt hp hL) ?_ (by omega) k2
    have : (2:Nat)^352 < 2^384 := by norm_num
    omega

private theorem y48_lt {y : Nat} (hy : y < 2 ^ 256) : y * 10 ^ 24 < 2 ^ 340 ∧ y * 10 ^ 24 * 10 ^ 24 < 2 ^ 440 := by
  have h1 : y * 10 ^ 24 < 2 ^ 256 * 10 ^ 24 := Nat.mul_lt_mul_of_pos_right hy (by positivity)
  have h2 : (2 : Nat) ^ 256 * 10 ^ 24 < 2 ^ 340 := by norm_num
  have h3 : y * 10 ^ 24 * 10 ^ 24 < 2 ^ 340 * 10 ^ 24 :=
    Nat.mul_lt_mul_of_pos_right (lt_trans h1 h2) (by positivity)
  have h4 : (2 : Nat) ^ 340 * 10 ^ 24 < 2 ^ 440 := by norm_num
  exact ⟨lt_trans h1 h2, lt_trans h3 h4⟩

/-- adding token Y: exactly when the quotient fits in a price -/
theorem nextYDown_add_iff {p L y : Nat} (hp : PriceOK p) (hL : L < 2 ^ 256) (hy : y < 2 ^ 256) :
    (∃ n, getNextSqrtPriceYDown p L y true = .ok n) ↔ 0 < L ∧ p + y * 10 ^ 29 / L < 2 ^ 128 := by
  constructor
  · rintro ⟨n, h⟩
    obtain ⟨rfl, h1, h2⟩ := getNextSqrtPriceYDown_add_ok h
    exact ⟨h2, h1⟩
  · rintro ⟨h0, h1⟩
    refine ⟨p + y * 10 ^ 29 / L, ?_⟩
    obtain ⟨k1, k2⟩ := y48_lt hy
    have k3 := L19_lt hL
    have b1 : (2:Nat)^352 < 2^384 := by norm_num
    have b2 : (2:Nat)^340 < 2^352 := by norm_num
    have b3 : (2:Nat)^440 < 2^448 := by norm_num
    have eq : y * 10 ^ 24 * 10 ^ 24 / (L * 10 ^ 19) = y * 10 ^ 29 / L := by
      rw [mul_24_24, Nat.mul_div_mul_right _ _ (by positivity)]
    unfold getNextSqrtPriceYDown tokToPriceValue liqToPriceValue checkedBigDivValues
    simp only [if_true, bind_ok_iff, mulC_ok_iff, addC_ok_iff, divC_ok_iff, fit_ok_iff]
    rw [tenTo24, tenTo19, spOne_eq]
    refine ⟨_, ⟨lt_trans k1 (lt_trans b2 b1), rfl⟩, _, ⟨lt_trans k3 b1, rfl⟩, _,
      ⟨_, ⟨lt_trans k2 b3, rfl⟩, _, ⟨?_, rfl⟩, ?_, rfl⟩, ?_, ?_⟩
    · positivity
    · rw [eq]; omega
    · rw [eq]; exact h1
    · rw [eq]

/-- taking token Y: exactly when the liquidity could pay it -/
theorem nextYDown_sub_iff {p L y : Nat} (hp : PriceOK p) (hL : L < 2 ^ 256) (hy : y < 2 ^ 256) :
    (∃ n, getNextSqrtPriceYDown p L y false = .ok n) ↔ 0 < L ∧ cdiv (y * 10 ^ 29) L ≤ p := by
  constructor
  · rintro ⟨n, h⟩
    obtain ⟨h1, _, h2⟩ := getNextSqrtPriceYDown_sub_ok h
    exact ⟨h2, h1⟩
  · rintro ⟨h0, h1⟩
    refine ⟨p - cdiv (y * 10 ^ 29) L, ?_⟩
    obtain ⟨k1, k2⟩ := y48_lt hy
    have k3 := L19_lt hL
    have k4 := lt96 hp
    have b1 : (2:Nat)^352 < 2^384 := by norm_num
    have b2 : (2:Nat)^340 < 2^352 := by norm_num
    have b4 : (2:Nat)^96 < 2^128 := by norm_num
    have hd : 0 < L * 10 ^ 19 := by positivity
    have eq : cdiv (y * 10 ^ 24 * 10 ^ 24) (L * 10 ^ 19) = cdiv (y * 10 ^ 29) L := by
      rw [mul_24_24, cdiv_mul_right _ (by positivity) h0]
    have e1 := divUp_eq (num := y * 10 ^ 24) (den := L * 10 ^ 19) k2 (lt_trans k3 b1) hd
      (by rw [eq]; exact lt_of_le_of_lt h1 (lt_trans k4 b4))
    have e2 : tokToPriceValue y = .ok (y * 10 ^ 24) := by
      unfold tokToPriceValue
      rw [tenTo24, mulC_ok_iff]
      exact ⟨lt_trans k1 (lt_trans b2 b1), rfl⟩
    have e3 : liqToPriceValue L = .ok (L * 10 ^ 19) := by
      unfold liqToPriceValue
      rw [tenTo19, mulC_ok_iff]
      exact ⟨lt_trans k3 b1, rfl⟩
    unfold getNextSqrtPriceYDown
    rw [e2, ok_bind, e3, ok_bind]
    simp only [Bool.false_eq_true, if_false]
    rw [e1, ok_bind, eq, subC_ok_iff]
    exact ⟨h1, rfl⟩

end Verif
