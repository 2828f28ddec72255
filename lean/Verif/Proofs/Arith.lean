import Mathlib.Tactic.Linarith
import Mathlib.Tactic.Ring
import Mathlib.Tactic.Positivity
import Mathlib.Tactic.NormNum

/-! # Division lemmas on `Nat` -/

namespace Verif

/-- ceiling division -/
@[irreducible] def cdiv (n d : Nat) : Nat := (n + (d - 1)) / d

theorem cdiv_le_iff {n d k : Nat} (hd : 0 < d) : cdiv n d ≤ k ↔ n ≤ k * d := by
  unfold cdiv
  rw [← Nat.lt_succ_iff, Nat.div_lt_iff_lt_mul hd, Nat.succ_mul]
  omega

theorem lt_cdiv_iff {n d k : Nat} (hd : 0 < d) : k < cdiv n d ↔ k * d < n := by
  rw [← not_le, cdiv_le_iff hd, not_le]

theorem le_cdiv_mul (n : Nat) {d : Nat} (hd : 0 < d) : n ≤ cdiv n d * d :=
  (cdiv_le_iff hd).1 le_rfl

theorem cdiv_mul_lt (n : Nat) {d : Nat} (hd : 0 < d) : cdiv n d * d < n + d := by
  have := Nat.div_mul_le_self (n + (d - 1)) d
  unfold cdiv
  omega

theorem cdiv_mono {n m d : Nat} (h : n ≤ m) : cdiv n d ≤ cdiv m d := by
  unfold cdiv; exact Nat.div_le_div_right (by omega)

theorem cdiv_cdiv (n : Nat) {a b : Nat} (ha : 0 < a) (hb : 0 < b) :
    cdiv (cdiv n a) b = cdiv n (a * b) := by
  have key : ∀ k, cdiv (cdiv n a) b ≤ k ↔ cdiv n (a * b) ≤ k := by
    intro k
    rw [cdiv_le_iff hb, cdiv_le_iff ha, cdiv_le_iff (Nat.mul_pos ha hb)]
    constructor <;> intro h <;> nlinarith
  exact le_antisymm ((key _).2 le_rfl) ((key _).1 le_rfl)

theorem cdiv_mul_right (n : Nat) {a b : Nat} (ha : 0 < a) (hb : 0 < b) :
    cdiv (n * a) (b * a) = cdiv n b := by
  have key : ∀ k, cdiv (n * a) (b * a) ≤ k ↔ cdiv n b ≤ k := by
    intro k
    rw [cdiv_le_iff hb, cdiv_le_iff (Nat.mul_pos hb ha)]
    constructor
    · intro h
      have : n * a ≤ (k * b) * a := by nlinarith
      exact Nat.le_of_mul_le_mul_right this ha
    · intro h
      have := Nat.mul_le_mul_right a h
      nlinarith
  exact le_antisymm ((key _).2 le_rfl) ((key _).1 le_rfl)

theorem div_le_cdiv (n d : Nat) : n / d ≤ cdiv n d := by
  unfold cdiv; exact Nat.div_le_div_right (by omega)

theorem cdiv_le_div_add_one (n : Nat) {d : Nat} (hd : 0 < d) : cdiv n d ≤ n / d + 1 := by
  rw [cdiv_le_iff hd]
  have := Nat.lt_div_mul_add hd (a := n)
  nlinarith

theorem cdiv_add_le (n m : Nat) {d : Nat} (hd : 0 < d) :
    cdiv (n + m) d ≤ cdiv n d + cdiv m d := by
  rw [cdiv_le_iff hd, Nat.add_mul]
  exact Nat.add_le_add (le_cdiv_mul n hd) (le_cdiv_mul m hd)

theorem cdiv_zero (d : Nat) : cdiv 0 d = 0 := by
  unfold cdiv
  rcases Nat.eq_zero_or_pos d with h | h
  · simp [h]
  · apply Nat.div_eq_of_lt; omega

theorem cdiv_pos {n d : Nat} (hn : 0 < n) (hd : 0 < d) : 0 < cdiv n d := by
  rw [lt_cdiv_iff hd]; omega

theorem cdiv_eq_zero_iff {n d : Nat} (hd : 0 < d) : cdiv n d = 0 ↔ n = 0 := by
  constructor
  · intro h
    have := (cdiv_le_iff (n := n) (k := 0) hd).1 (by omega)
    omega
  · rintro rfl; exact cdiv_zero d

theorem cdiv_one (n : Nat) : cdiv n 1 = n := by simp [cdiv]

theorem le_div_iff' {n d k : Nat} (hd : 0 < d) : k ≤ n / d ↔ k * d ≤ n := Nat.le_div_iff_mul_le hd

theorem lt_div_add_one_mul (n : Nat) {d : Nat} (hd : 0 < d) : n < (n / d + 1) * d := by
  have := Nat.lt_div_mul_add hd (a := n)
  nlinarith

theorem div_add_div_le (a b d : Nat) : a / d + b / d ≤ (a + b) / d := by
  rcases Nat.eq_zero_or_pos d with h | h
  · simp [h]
  · rw [Nat.le_div_iff_mul_le h, Nat.add_mul]
    exact Nat.add_le_add (Nat.div_mul_le_self _ _) (Nat.div_mul_le_self _ _)

end Verif
