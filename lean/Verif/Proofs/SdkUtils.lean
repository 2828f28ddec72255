import Verif.Model.SdkUtils
import Mathlib.Tactic.Linarith
import Mathlib.Tactic.Ring
import Mathlib.Data.Nat.Sqrt

/-! # Lemmas about the helpers of the SDK -/

set_option exponentiation.threshold 1000

namespace Verif.Sdk

/-! ### Newton's method -/

theorem newton_at {n r k : Nat} (h1 : r * r ≤ n) (h2 : n < (r + 1) * (r + 1)) (hr : 0 < r) :
    newtonIteration (k + 1) n r = some r := by
  unfold newtonIteration
  have a : r ≤ n / r := (Nat.le_div_iff_mul_le hr).2 h1
  have b : n / r < r + 3 := by
    rw [Nat.div_lt_iff_lt_mul hr]
    nlinarith
  have : r = (n / r + r) / 2 ∨ r + 1 = (n / r + r) / 2 := by omega
  simp only [if_pos this]

theorem newton_above {n r : Nat} (h1 : r * r ≤ n) (h2 : n < (r + 1) * (r + 1)) (hr : 0 < r) :
    ∀ k x, r ≤ x → x - r < 2 ^ k → newtonIteration (k + 1) n x = some r := by
  intro k
  induction k with
  | zero =>
    intro x hx hd
    obtain rfl : x = r := by omega
    exact newton_at h1 h2 hr
  | succ k ih =>
    intro x hx hd
    rcases Nat.eq_or_lt_of_le hx with rfl | hlt
    · exact newton_at h1 h2 hr
    have hx0 : 0 < x := by omega
    have a : n / x ≤ r := by
      rw [Nat.div_le_iff_le_mul_add_pred hx0]
      have : (r + 1) * (r + 1) ≤ x * r + x := by nlinarith
      omega
    have b : 2 * r ≤ n / x + x := by
      by_contra hc
      have hq0 := Nat.zero_le (n / x)
      have hq : n / x + 1 ≤ 2 * r - x := by omega
      have hn : n < (n / x + 1) * x := by
        rw [Nat.add_mul, Nat.one_mul, Nat.mul_comm]
        exact Nat.lt_mul_div_succ n hx0 |>.trans_eq (by ring)
      have h3 : (n / x + 1) * x ≤ (2 * r - x) * x := Nat.mul_le_mul_right _ hq
      have hle : x ≤ 2 * r := by omega
      obtain ⟨d, rfl⟩ : ∃ d, x = r + d := ⟨x - r, by omega⟩
      have h4 : (2 * r - (r + d)) * (r + d) ≤ r * r := by
        have : 2 * r - (r + d) = r - d := by omega
        rw [this]
        have hd' : d ≤ r := by omega
        obtain ⟨e, rfl⟩ := Nat.exists_eq_add_of_le hd'
        rw [Nat.add_sub_cancel_left]
        nlinarith
      omega
    unfold newtonIteration
    have hne : ¬ (x = (n / x + x) / 2 ∨ x + 1 = (n / x + x) / 2) := by omega
    simp only [if_neg hne]
    refine ih _ (by omega) ?_
    have : 2 ^ (k + 1) = 2 * 2 ^ k := by ring
    omega

/-- what `newtonIteration(n, 1)` returns -/
theorem newton_start {n k : Nat} (hn : 2 ≤ n) (h4 : n ≠ 4) (hk : n < 2 ^ k) :
    newtonIteration (k + 2) n 1 = some (Nat.sqrt n) := by
  have h1 := Nat.sqrt_le n
  have h2 := Nat.lt_succ_sqrt n
  have hr : 0 < Nat.sqrt n := Nat.sqrt_pos.2 (by omega)
  simp only [Nat.succ_eq_add_one] at h2
  generalize Nat.sqrt n = r at *
  by_cases h5 : n < 4
  · obtain rfl : r = 1 := by
      have : ¬ 2 ≤ r := by
        intro h
        have := Nat.mul_le_mul h h
        omega
      omega
    exact newton_at h1 h2 hr
  · have h6 : 5 ≤ n := by omega
    unfold newtonIteration
    rw [Nat.div_one]
    have hne : ¬ (1 = (n + 1) / 2 ∨ 1 + 1 = (n + 1) / 2) := by omega
    simp only [if_neg hne]
    apply newton_above h1 h2 hr
    · have : 2 * r ≤ r * r + 1 := by
        obtain ⟨e, rfl⟩ := Nat.exists_eq_add_of_le (show 1 ≤ r by omega)
        nlinarith
      omega
    · omega

theorem sqrt_ok {d v k : Nat} (h4 : v ≠ 4) (hk : v < 2 ^ k) (hd : k + 2 ≤ d) :
    sqrt d v = .ok (Nat.sqrt v) := by
  unfold sqrt
  rw [if_neg (by omega)]
  by_cases h : v < 2
  · rw [if_pos (by omega)]
    have : v = 0 ∨ v = 1 := by omega
    rcases this with rfl | rfl <;> simp
  · rw [if_neg (by omega), Int.toNat_natCast]
    obtain ⟨e, rfl⟩ := Nat.exists_eq_add_of_le hd
    have hk' : v < 2 ^ (k + e) := lt_of_lt_of_le hk (Nat.pow_le_pow_right (by norm_num) (by omega))
    rw [show k + 2 + e = (k + e) + 2 by ring, newton_start (by omega) h4 hk']

end Verif.Sdk
