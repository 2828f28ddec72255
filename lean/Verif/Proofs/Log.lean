import Verif.Proofs.Arith
import Verif.Model.Math
import Mathlib.Analysis.SpecialFunctions.Log.Basic

/-!
# The binary logarithm of `log.rs`

`log2X32 x` for `x ≥ 2^32` is a multiple of `2^17` below `2^32 · log₂ (x / 2^32)` and by at most `2^17`
(plus a few units from the truncations) below it.
-/

namespace Verif
open Real

/-- the logarithm of one unit of the result -/
noncomputable def unit : ℝ := Real.log 2 / 2 ^ 32

/-- bound on the relative loss of one truncation -/
noncomputable def eta : ℝ := 1 / 2 ^ 31

theorem unit_pos : 0 < unit := div_pos (Real.log_pos (by norm_num)) (by positivity)

theorem eta_pos : 0 < eta := by unfold eta; positivity

/-- truncating a number of at least `2^32` loses little of its logarithm -/
theorem log_trunc {n : Nat} {z : ℝ} (hz : 2 ^ 32 ≤ z) (h1 : (n : ℝ) ≤ z) (h2 : z < n + 1) :
    Real.log n ≤ Real.log z ∧ Real.log z ≤ Real.log n + eta := by
  have hn : (2 ^ 32 - 1 : ℝ) < n := by linarith
  have hn0 : (0 : ℝ) < n := by linarith [show (0 : ℝ) < 2 ^ 32 - 1 by norm_num]
  refine ⟨Real.log_le_log hn0 h1, ?_⟩
  have hz0 : 0 < z := by linarith
  have : Real.log z - Real.log n ≤ eta := by
    rw [← Real.log_div hz0.ne' hn0.ne']
    refine le_trans (Real.log_le_sub_one_of_pos (by positivity)) ?_
    have : z / n ≤ 1 + 1 / n := by
      rw [div_le_iff₀ hn0]
      have : (1 + 1 / (n : ℝ)) * n = n + 1 := by field_simp
      linarith
    have h3 : 1 / (n : ℝ) ≤ eta := by
      unfold eta
      apply one_div_le_one_div_of_le (by positivity)
      linarith [show (2 ^ 31 : ℝ) ≤ 2 ^ 32 - 1 by norm_num]
    linarith
  linarith

theorem or_delta (a d : Nat) : (2 ^ (d + 1) * a) ||| 2 ^ d = 2 ^ (d + 1) * a + 2 ^ d := by
  rw [Nat.two_pow_add_eq_or_of_lt (Nat.pow_lt_pow_right (by norm_num) (by omega))]

/-- the loop: the value of the result plus the weighted logarithm of the remaining fraction -/
theorem logLoop_bounds : ∀ (j n y q : Nat), j ≤ n → 2 ^ 32 ≤ y → y < 2 ^ 33 →
    ∃ R : Nat, logLoop n (2 ^ (16 + j)) y (2 ^ (17 + j) * q) = R ∧
      R * unit ≤ (2 ^ (17 + j) * q : Nat) * unit +
        2 ^ (17 + j) / 2 ^ 32 * (Real.log y - Real.log (2 ^ 32)) ∧
      (2 ^ (17 + j) * q : Nat) * unit + 2 ^ (17 + j) / 2 ^ 32 * (Real.log y - Real.log (2 ^ 32)) ≤
        (R + 2 ^ 17) * unit + 2 ^ (17 + j) / 2 ^ 32 * eta := by
  intro j
  induction j with
  | zero =>
    intro n y q _ h1 h2
    refine ⟨2 ^ 17 * q, ?_, ?_, ?_⟩
    · cases n with
      | zero => rfl
      | succ n => unfold logLoop; rw [if_neg (by norm_num)]
    · have hl : Real.log (2 ^ 32) ≤ Real.log y := Real.log_le_log (by positivity) (by exact_mod_cast h1)
      have : 0 ≤ (2 ^ (17 + 0) / 2 ^ 32 : ℝ) * (Real.log y - Real.log (2 ^ 32)) :=
        mul_nonneg (by positivity) (by linarith)
      simpa using this
    · have hy : (0 : ℝ) < y := by
        have : (0 : Nat) < y := by omega
        exact_mod_cast this
      have hl : Real.log y ≤ Real.log (2 ^ 33) := Real.log_le_log hy (by exact_mod_cast h2.le)
      have h3 : Real.log (2 ^ 33) - Real.log (2 ^ 32) = Real.log 2 := by
        rw [Real.log_pow, Real.log_pow]; push_cast; ring
      have h4 : (2 ^ (17 + 0) / 2 ^ 32 : ℝ) * (Real.log y - Real.log (2 ^ 32)) ≤
          2 ^ (17 + 0) / 2 ^ 32 * Real.log 2 := by gcongr; linarith
      have h5 : (2 ^ (17 + 0) / 2 ^ 32 : ℝ) * Real.log 2 = 2 ^ 17 * unit := by unfold unit; ring
      have h6 : 0 ≤ (2 ^ (17 + 0) / 2 ^ 32 : ℝ) * eta := mul_nonneg (by positivity) eta_pos.le
      simp only [Nat.add_zero, Nat.cast_mul, Nat.cast_pow] at *
      push_cast
      linarith
  | succ j ih =>
    intro n y q hn h1 h2
    obtain ⟨n, rfl⟩ : ∃ m, n = m + 1 := ⟨n - 1, by omega⟩
    unfold logLoop
    have hd : 2 ^ (16 + (j + 1)) > 65536 := by
      calc 2 ^ (16 + (j + 1)) = 65536 * 2 ^ (j + 1) := by rw [pow_add]; norm_num
        _ > 65536 * 1 := by
          apply Nat.mul_lt_mul_of_pos_left _ (by norm_num)
          exact Nat.one_lt_two_pow (by omega)
        _ = 65536 := by norm_num
    rw [if_pos hd]
    have hsh : 2 ^ (16 + (j + 1)) >>> 1 = 2 ^ (16 + j) := by
      rw [Nat.shiftRight_eq_div_pow, pow_one, show 16 + (j + 1) = 16 + j + 1 from rfl, pow_succ]
      simp
    rw [hsh]
    have hyr : (2 ^ 32 : ℝ) ≤ y := by exact_mod_cast h1
    have hy0 : (0 : ℝ) < y := by linarith [show (0 : ℝ) < 2 ^ 32 by positivity]
    have hz : (2 ^ 32 : ℝ) ≤ (y : ℝ) * y / 2 ^ 32 := by
      rw [le_div_iff₀ (by positivity)]; nlinarith
    have hlz : Real.log ((y : ℝ) * y / 2 ^ 32) = 2 * Real.log y - Real.log (2 ^ 32) := by
      rw [Real.log_div (by positivity) (by positivity), Real.log_mul hy0.ne' hy0.ne']; ring
    have hw : (2 ^ (17 + (j + 1)) / 2 ^ 32 : ℝ) = 2 * (2 ^ (17 + j) / 2 ^ 32) := by
      rw [show 17 + (j + 1) = 17 + j + 1 from rfl, pow_succ]; ring
    have hwp : (0 : ℝ) ≤ 2 ^ (17 + j) / 2 ^ 32 := by positivity
    have hq : 2 ^ (17 + (j + 1)) * q = 2 ^ (17 + j) * (2 * q) := by
      rw [show 17 + (j + 1) = 17 + j + 1 from rfl, pow_succ]; ring
    dsimp only
    by_cases hge : y * y / 4294967296 ≥ 8589934592
    · rw [if_pos hge]
      have hfl : (y * y / 4294967296) >>> 1 = y * y / 8589934592 := by
        rw [Nat.shiftRight_eq_div_pow, pow_one, Nat.div_div_eq_div_mul]
      rw [hfl]
      have hor : 2 ^ (17 + (j + 1)) * q ||| 2 ^ (16 + (j + 1)) = 2 ^ (17 + j) * (2 * q + 1) := by
        have := or_delta q (16 + (j + 1))
        rw [show 17 + (j + 1) = 16 + (j + 1) + 1 by omega, this,
          show 16 + (j + 1) + 1 = 17 + j + 1 by omega, show 16 + (j + 1) = 17 + j by omega, pow_succ]
        ring
      rw [hor]
      have hz2 : (2 ^ 32 : ℝ) ≤ (y : ℝ) * y / 2 ^ 33 := by
        have : 8589934592 * 4294967296 ≤ y * y := by
          have := Nat.mul_le_of_le_div _ _ _ hge
          exact this
        have : (8589934592 * 4294967296 : ℝ) ≤ y * y := by exact_mod_cast this
        rw [le_div_iff₀ (by positivity)]; linarith
      set y1 := y * y / 8589934592 with hy1
      have ht1 : (y1 : ℝ) ≤ (y : ℝ) * y / 2 ^ 33 := by
        rw [le_div_iff₀ (by positivity)]
        have : y1 * 8589934592 ≤ y * y := Nat.div_mul_le_self _ _
        have : (y1 : ℝ) * 8589934592 ≤ y * y := by exact_mod_cast this
        linarith
      have ht2 : (y : ℝ) * y / 2 ^ 33 < y1 + 1 := by
        rw [div_lt_iff₀ (by positivity)]
        have : y * y < (y1 + 1) * 8589934592 := lt_div_add_one_mul _ (by positivity)
        have : (y : ℝ) * y < (y1 + 1) * 8589934592 := by exact_mod_cast this
        linarith
      obtain ⟨l1, l2⟩ := log_trunc hz2 ht1 ht2
      have hly : Real.log ((y : ℝ) * y / 2 ^ 33) = 2 * Real.log y - Real.log (2 ^ 32) - Real.log 2 := by
        rw [show (y : ℝ) * y / 2 ^ 33 = (y : ℝ) * y / 2 ^ 32 / 2 by ring,
          Real.log_div (by positivity) (by norm_num), hlz]
      have hb1 : 2 ^ 32 ≤ y1 := by
        rw [hy1, Nat.le_div_iff_mul_le (by norm_num)]
        have := Nat.mul_le_of_le_div _ _ _ hge
        omega
      have hb2 : y1 < 2 ^ 33 := by
        rw [hy1, Nat.div_lt_iff_lt_mul (by norm_num)]
        have : y * y < 2 ^ 33 * 2 ^ 33 := Nat.mul_lt_mul'' h2 h2
        omega
      obtain ⟨R, e, r1, r2⟩ := ih n y1 (2 * q + 1) (by omega) hb1 hb2
      refine ⟨R, e, ?_, ?_⟩
      · rw [hw, hq]
        rw [hly] at l1 l2
        have hu : (2 ^ (17 + j) : ℝ) * unit = 2 ^ (17 + j) / 2 ^ 32 * Real.log 2 := by unfold unit; ring
        have m1 := mul_le_mul_of_nonneg_left l1 hwp
        have m2 := mul_le_mul_of_nonneg_left l2 hwp
        push_cast at r1 ⊢
        clear_value y1
        generalize (2 ^ (17 + j) / 2 ^ 32 : ℝ) = w at *
        generalize (2 ^ (17 + j) : ℝ) = P at *
        generalize Real.log (2 ^ 32) = K at *
        linarith
      · rw [hw, hq]
        rw [hly] at l1 l2
        have hu : (2 ^ (17 + j) : ℝ) * unit = 2 ^ (17 + j) / 2 ^ 32 * Real.log 2 := by unfold unit; ring
        have m1 := mul_le_mul_of_nonneg_left l1 hwp
        have m2 := mul_le_mul_of_nonneg_left l2 hwp
        push_cast at r2 ⊢
        clear_value y1
        generalize (2 ^ (17 + j) / 2 ^ 32 : ℝ) = w at *
        generalize (2 ^ (17 + j) : ℝ) = P at *
        generalize Real.log (2 ^ 32) = K at *
        linarith
    · rw [if_neg hge]
      set y1 := y * y / 4294967296 with hy1
      have ht1 : (y1 : ℝ) ≤ (y : ℝ) * y / 2 ^ 32 := by
        rw [le_div_iff₀ (by positivity)]
        have : y1 * 4294967296 ≤ y * y := Nat.div_mul_le_self _ _
        have : (y1 : ℝ) * 4294967296 ≤ y * y := by exact_mod_cast this
        linarith
      have ht2 : (y : ℝ) * y / 2 ^ 32 < y1 + 1 := by
        rw [div_lt_iff₀ (by positivity)]
        have : y * y < (y1 + 1) * 4294967296 := lt_div_add_one_mul _ (by positivity)
        have : (y : ℝ) * y < (y1 + 1) * 4294967296 := by exact_mod_cast this
        linarith
      obtain ⟨l1, l2⟩ := log_trunc hz ht1 ht2
      have hb1 : 2 ^ 32 ≤ y1 := by
        rw [hy1, Nat.le_div_iff_mul_le (by norm_num)]
        exact Nat.mul_le_mul h1 h1
      obtain ⟨R, e, r1, r2⟩ := ih n y1 (2 * q) (by omega) hb1 (by omega)
      rw [← hq] at e r1 r2
      refine ⟨R, e, ?_, ?_⟩
      · rw [hw]
        rw [hlz] at l1 l2
        have m1 := mul_le_mul_of_nonneg_left l1 hwp
        have m2 := mul_le_mul_of_nonneg_left l2 hwp
        clear_value y1
        generalize (2 ^ (17 + j) / 2 ^ 32 : ℝ) = w at *
        generalize Real.log (2 ^ 32) = K at *
        linarith
      · rw [hw]
        rw [hlz] at l1 l2
        have m1 := mul_le_mul_of_nonneg_left l1 hwp
        have m2 := mul_le_mul_of_nonneg_left l2 hwp
        clear_value y1
        generalize (2 ^ (17 + j) / 2 ^ 32 : ℝ) = w at *
        generalize Real.log (2 ^ 32) = K at *
        linarith

theorem log2Floor_spec {x : Nat} (h0 : 0 < x) (h : x < 2 ^ 32) :
    2 ^ log2FloorX32 x ≤ x ∧ x < 2 ^ (log2FloorX32 x + 1) := by
  unfold log2FloorX32
  rw [if_neg (by omega)]
  simp only [Nat.shiftRight_eq_div_pow]
  have e1 : (0 ||| 16 : Nat) = 16 := by decide
  split_ifs <;> simp only [Nat.reduceOr] at * <;> norm_num at * <;> omega

/-- the logarithm of a number of at least `2^32` -/
theorem log2X32_bounds {x : Nat} (h1 : 2 ^ 32 ≤ x) (h2 : x < 2 ^ 64) :
    ∃ R : Nat, log2X32 x = (true, R) ∧ R * unit ≤ Real.log x - Real.log (2 ^ 32) ∧
      Real.log x - Real.log (2 ^ 32) ≤ (R + 2 ^ 17) * unit + 2 * eta := by
  unfold log2X32
  have hn : ¬ x < 4294967296 := by omega
  simp only [hn, decide_false, Bool.not_false, if_false]
  have hs : x >>> 32 = x / 2 ^ 32 := Nat.shiftRight_eq_div_pow _ _
  rw [hs]
  obtain ⟨f1, f2⟩ := log2Floor_spec (x := x / 2 ^ 32) (by omega) (by omega)
  generalize log2FloorX32 (x / 2 ^ 32) = k at *
  rw [Nat.shiftRight_eq_div_pow, Nat.shiftLeft_eq]
  have hk0 : 0 < 2 ^ k := by positivity
  have g1 : 2 ^ k * 2 ^ 32 ≤ x := (Nat.le_div_iff_mul_le (by positivity)).1 f1
  have g2 : x < 2 ^ (k + 1) * 2 ^ 32 := (Nat.div_lt_iff_lt_mul (by positivity)).1 f2
  set y := x / 2 ^ k with hy
  have hb1 : 2 ^ 32 ≤ y := by rw [hy, Nat.le_div_iff_mul_le hk0]; linarith
  have hb2 : y < 2 ^ 33 := by
    rw [hy, Nat.div_lt_iff_lt_mul hk0]
    calc x < _ := g2
      _ = _ := by rw [pow_succ]; ring
  have hxr : (2 ^ k * 2 ^ 32 : ℝ) ≤ x := by exact_mod_cast g1
  have hx0 : (0 : ℝ) < x := lt_of_lt_of_le (by positivity) hxr
  have t1 : (y : ℝ) ≤ (x : ℝ) / 2 ^ k := by
    rw [le_div_iff₀ (by positivity)]
    have : y * 2 ^ k ≤ x := Nat.div_mul_le_self _ _
    exact_mod_cast this
  have t2 : (x : ℝ) / 2 ^ k < y + 1 := by
    rw [div_lt_iff₀ (by positivity)]
    have : x < (y + 1) * 2 ^ k := lt_div_add_one_mul _ hk0
    exact_mod_cast this
  obtain ⟨l1, l2⟩ := log_trunc (by rw [le_div_iff₀ (by positivity)]; linarith) t1 t2
  have hl : Real.log ((x : ℝ) / 2 ^ k) = Real.log x - k * Real.log 2 := by
    rw [Real.log_div hx0.ne' (by positivity), Real.log_pow]
  rw [hl] at l1 l2
  have hu : ((k * 2 ^ 32 : Nat) : ℝ) * unit = k * Real.log 2 := by
    unfold unit; push_cast; field_simp; norm_num
  have hup := unit_pos
  have hep := eta_pos
  by_cases hy1 : y = 4294967296
  · rw [if_pos hy1]
    refine ⟨_, rfl, ?_, ?_⟩
    · rw [hu]
      have : Real.log y = Real.log (2 ^ 32) := by rw [hy1]; norm_num
      linarith
    · rw [add_mul, hu]
      have : Real.log y = Real.log (2 ^ 32) := by rw [hy1]; norm_num
      nlinarith
  · rw [if_neg hy1]
    obtain ⟨R, e, r1, r2⟩ := logLoop_bounds 15 32 y k (by norm_num) hb1 hb2
    have hc : k * 2 ^ 32 = 2 ^ (17 + 15) * k := by rw [Nat.mul_comm]
    refine ⟨R, by rw [hc]; exact congrArg _ e, ?_, ?_⟩
    · rw [← hc, hu] at r1
      norm_num at r1 ⊢
      linarith
    · rw [← hc, hu] at r2
      norm_num at r2 ⊢
      linarith

end Verif
