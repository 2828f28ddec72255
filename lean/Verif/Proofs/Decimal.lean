import Verif.Spec.Decimal
import Verif.Model.Math
import Mathlib.Tactic.FieldSimp
import Mathlib.Tactic.Positivity

/-!
# Lemmas about the generated decimal operations
-/

namespace Verif.Decimal

variable {S T : DecType} {a b n r : Nat}

theorem one_ok : one T = .ok r ↔ 10 ^ T.scale < 2 ^ T.width ∧ r = 10 ^ T.scale := by
  simp [one, checkedOne]

theorem almostOne_ok :
    almostOne T = .ok r ↔ 10 ^ T.scale < 2 ^ T.width ∧ r = 10 ^ T.scale - 1 := by
  have : 1 ≤ 10 ^ T.scale := Nat.one_le_pow _ _ (by norm_num)
  simp only [almostOne, checkedAlmostOne, checkedOne, unwrap_ok_iff, bind_ok_iff, fit_ok_iff,
    subC_ok_iff]
  constructor
  · rintro ⟨_, ⟨h, rfl⟩, _, rfl⟩; exact ⟨h, rfl⟩
  · rintro ⟨h, rfl⟩; exact ⟨_, ⟨h, rfl⟩, this, rfl⟩

theorem one_eq (h : Sane T) : one T = .ok (10 ^ T.scale) := one_ok.2 ⟨h.1, rfl⟩
theorem almostOne_eq (h : Sane T) : almostOne T = .ok (10 ^ T.scale - 1) :=
  almostOne_ok.2 ⟨h.1, rfl⟩

theorem value_pos_step : (0 : ℚ) < 10 ^ S.scale := by positivity

theorem roundsDown_iff {x : ℚ} :
    RoundsDown S r x ↔ (r : ℚ) ≤ x * 10 ^ S.scale ∧ x * 10 ^ S.scale < (r : ℚ) + 1 := by
  unfold RoundsDown value
  rw [div_le_iff₀ value_pos_step, lt_div_iff₀ value_pos_step]
  push_cast
  exact Iff.rfl

/-- rounding a quotient of integers down -/
theorem roundsDown_div {x : ℚ} {m d : Nat} (hd : 0 < d)
    (hx : x * 10 ^ S.scale = (m : ℚ) / d) : RoundsDown S r x ↔ r = m / d := by
  have hd' : (0 : ℚ) < d := by exact_mod_cast hd
  rw [roundsDown_iff, hx, le_div_iff₀ hd', div_lt_iff₀ hd']
  constructor
  · rintro ⟨h1, h2⟩
    have h1' : r * d ≤ m := by exact_mod_cast h1
    have h2' : m < (r + 1) * d := by exact_mod_cast h2
    exact (Nat.div_eq_of_lt_le h1' h2').symm
  · rintro rfl
    constructor
    · exact_mod_cast Nat.div_mul_le_self m d
    · have := Nat.lt_div_mul_add hd (a := m)
      have h : m < (m / d + 1) * d := by rw [Nat.add_mul, one_mul]; exact this
      exact_mod_cast h

/-- rounding a quotient of integers up -/
theorem roundsUp_div {x : ℚ} {m d : Nat} (hd : 0 < d)
    (hx : x * 10 ^ S.scale = (m : ℚ) / d) : RoundsUp S r x ↔ r = (m + (d - 1)) / d := by
  have hd' : (0 : ℚ) < d := by exact_mod_cast hd
  have key : ∀ q : Nat, x ≤ value S q ↔ m ≤ q * d := by
    intro q
    unfold value
    rw [le_div_iff₀ value_pos_step, hx, div_le_iff₀ hd']
    exact_mod_cast Iff.rfl
  have h0 : m ≤ (m + (d - 1)) / d * d := by
    have := Nat.lt_div_mul_add hd (a := m + (d - 1))
    omega
  have h1 : ∀ q, m ≤ q * d → (m + (d - 1)) / d ≤ q := by
    intro q hq
    apply Nat.le_of_lt_succ
    rw [Nat.div_lt_iff_lt_mul hd, Nat.succ_mul]
    omega
  unfold RoundsUp
  simp only [key]
  constructor
  · rintro ⟨h2, h3⟩
    exact le_antisymm (h3 _ h0) (h1 _ h2)
  · rintro rfl
    exact ⟨h0, h1⟩

theorem pow10_pos (k : Nat) : 0 < 10 ^ k := Nat.pow_pos (by norm_num)

theorem value_mul_scaled :
    value S a * value T b * 10 ^ S.scale = ((a * b : Nat) : ℚ) / ((10 ^ T.scale : Nat) : ℚ) := by
  unfold value
  push_cast
  field_simp

theorem value_div_scaled (_hb : b ≠ 0) :
    value S a / value T b * 10 ^ S.scale = ((a * 10 ^ T.scale : Nat) : ℚ) / (b : ℚ) := by
  unfold value
  push_cast
  field_simp

theorem mul_ok : mul S T a b = .ok r ↔
    (b < 2 ^ S.width ∧ 10 ^ T.scale < 2 ^ T.width ∧ 10 ^ T.scale < 2 ^ S.width ∧
      a * b < 2 ^ S.width) ∧ RoundsDown S r (value S a * value T b) := by
  rw [roundsDown_div (pow10_pos _) value_mul_scaled]
  simp only [mul, bind_ok_iff, fit_ok_iff, one_ok, mulC_ok_iff, divC_ok_iff]
  constructor
  · rintro ⟨_, ⟨h1, rfl⟩, _, ⟨h2, rfl⟩, _, ⟨h3, rfl⟩, _, ⟨h4, rfl⟩, _, rfl⟩
    exact ⟨⟨h1, h2, h3, h4⟩, rfl⟩
  · rintro ⟨⟨h1, h2, h3, h4⟩, rfl⟩
    exact ⟨_, ⟨h1, rfl⟩, _, ⟨h2, rfl⟩, _, ⟨h3, rfl⟩, _, ⟨h4, rfl⟩, (pow10_pos _).ne', rfl⟩

theorem mulUp_ok : mulUp S T a b = .ok r ↔
    (b < 2 ^ S.width ∧ 10 ^ T.scale < 2 ^ T.width ∧ 10 ^ T.scale < 2 ^ S.width ∧
      a * b + (10 ^ T.scale - 1) < 2 ^ S.width) ∧ RoundsUp S r (value S a * value T b) := by
  rw [roundsUp_div (pow10_pos _) value_mul_scaled]
  simp only [mulUp, bind_ok_iff, fit_ok_iff, one_ok, almostOne_ok, mulC_ok_iff, addC_ok_iff,
    divC_ok_iff]
  constructor
  · rintro ⟨_, ⟨h1, rfl⟩, _, ⟨h2, rfl⟩, _, ⟨h3, rfl⟩, _, ⟨h5, rfl⟩, _, ⟨h6, rfl⟩, _, ⟨h4, rfl⟩, _,
      ⟨h7, rfl⟩, _, rfl⟩
    exact ⟨⟨h1, h2, h3, h7⟩, rfl⟩
  · rintro ⟨⟨h1, h2, h3, h4⟩, rfl⟩
    exact ⟨_, ⟨h1, rfl⟩, _, ⟨h2, rfl⟩, _, ⟨h3, rfl⟩, _, ⟨h2, rfl⟩, _, ⟨by omega, rfl⟩, _,
      ⟨by omega, rfl⟩, _, ⟨h4, rfl⟩, (pow10_pos _).ne', rfl⟩

theorem div_ok : div S T a b = .ok r ↔
    (b ≠ 0 ∧ b < 2 ^ S.width ∧ 10 ^ T.scale < 2 ^ T.width ∧ 10 ^ T.scale < 2 ^ S.width ∧
      a * 10 ^ T.scale < 2 ^ S.width) ∧ RoundsDown S r (value S a / value T b) := by
  by_cases hb : b = 0
  · subst hb
    simp [div, divC]
  rw [roundsDown_div (Nat.pos_of_ne_zero hb) (value_div_scaled hb)]
  simp only [div, bind_ok_iff, fit_ok_iff, one_ok, mulC_ok_iff, divC_ok_iff]
  constructor
  · rintro ⟨_, ⟨h1, rfl⟩, _, ⟨h2, rfl⟩, _, ⟨h3, rfl⟩, _, ⟨h4, rfl⟩, _, rfl⟩
    exact ⟨⟨hb, h1, h2, h3, h4⟩, rfl⟩
  · rintro ⟨⟨_, h1, h2, h3, h4⟩, rfl⟩
    exact ⟨_, ⟨h1, rfl⟩, _, ⟨h2, rfl⟩, _, ⟨h3, rfl⟩, _, ⟨h4, rfl⟩, hb, rfl⟩

theorem divUp_ok : divUp S T a b = .ok r ↔
    (b ≠ 0 ∧ b < 2 ^ S.width ∧ 10 ^ T.scale < 2 ^ T.width ∧ 10 ^ T.scale < 2 ^ S.width ∧
      a * 10 ^ T.scale + (b - 1) < 2 ^ S.width) ∧ RoundsUp S r (value S a / value T b) := by
  by_cases hb : b = 0
  · subst hb
    simp [divUp, divC]
  rw [roundsUp_div (Nat.pos_of_ne_zero hb) (value_div_scaled hb)]
  simp only [divUp, bind_ok_iff, fit_ok_iff, one_ok, almostOne_ok, mulC_ok_iff, addC_ok_iff,
    subC_ok_iff, divC_ok_iff]
  constructor
  · rintro ⟨_, ⟨h1, rfl⟩, _, ⟨h2, rfl⟩, _, ⟨h3, rfl⟩, _, _, _, _, _, ⟨h4, rfl⟩, _, ⟨h5, rfl⟩, _,
      ⟨h6, rfl⟩, _, rfl⟩
    exact ⟨⟨hb, h1, h2, h3, h6⟩, rfl⟩
  · rintro ⟨⟨_, h1, h2, h3, h4⟩, rfl⟩
    exact ⟨_, ⟨h1, rfl⟩, _, ⟨h2, rfl⟩, _, ⟨h3, rfl⟩, _, ⟨h2, rfl⟩, _, ⟨by omega, rfl⟩, _,
      ⟨by omega, rfl⟩, _, ⟨by omega, rfl⟩, _, ⟨h4, rfl⟩, hb, rfl⟩

/-! ## Operations through the big type -/

theorem bigMul_ok : bigMul S T a b = .ok r ↔
    (a < 2 ^ S.big ∧ b < 2 ^ S.big ∧ 10 ^ T.scale < 2 ^ T.width ∧ 10 ^ T.scale < 2 ^ S.big ∧
      a * b < 2 ^ S.big ∧ r < 2 ^ S.width) ∧ RoundsDown S r (value S a * value T b) := by
  rw [roundsDown_div (pow10_pos _) value_mul_scaled]
  simp only [bigMul, bind_ok_iff, fit_ok_iff, one_ok, mulC_ok_iff, divC_ok_iff]
  constructor
  · rintro ⟨_, ⟨h0, rfl⟩, _, ⟨h1, rfl⟩, _, ⟨h2, rfl⟩, _, ⟨h3, rfl⟩, _, ⟨h4, rfl⟩, _, ⟨_, rfl⟩, h5,
      rfl⟩
    exact ⟨⟨h0, h1, h2, h3, h4, h5⟩, rfl⟩
  · rintro ⟨⟨h0, h1, h2, h3, h4, h5⟩, rfl⟩
    exact ⟨_, ⟨h0, rfl⟩, _, ⟨h1, rfl⟩, _, ⟨h2, rfl⟩, _, ⟨h3, rfl⟩, _, ⟨h4, rfl⟩, _,
      ⟨(pow10_pos _).ne', rfl⟩, h5, rfl⟩

theorem bigMulUp_ok : bigMulUp S T a b = .ok r ↔
    (a < 2 ^ S.big ∧ b < 2 ^ S.big ∧ 10 ^ T.scale < 2 ^ T.width ∧ 10 ^ T.scale < 2 ^ S.big ∧
      a * b + (10 ^ T.scale - 1) < 2 ^ S.big ∧ r < 2 ^ S.width) ∧
    RoundsUp S r (value S a * value T b) := by
  rw [roundsUp_div (pow10_pos _) value_mul_scaled]
  simp only [bigMulUp, bind_ok_iff, fit_ok_iff, one_ok, almostOne_ok, mulC_ok_iff, addC_ok_iff,
    divC_ok_iff]
  constructor
  · rintro ⟨_, ⟨h0, rfl⟩, _, ⟨h1, rfl⟩, _, ⟨h2, rfl⟩, _, ⟨h3, rfl⟩, _, ⟨_, rfl⟩, _, ⟨_, rfl⟩, _,
      ⟨_, rfl⟩, _, ⟨h4, rfl⟩, _, ⟨_, rfl⟩, h5, rfl⟩
    exact ⟨⟨h0, h1, h2, h3, h4, h5⟩, rfl⟩
  · rintro ⟨⟨h0, h1, h2, h3, h4, h5⟩, rfl⟩
    exact ⟨_, ⟨h0, rfl⟩, _, ⟨h1, rfl⟩, _, ⟨h2, rfl⟩, _, ⟨h3, rfl⟩, _, ⟨h2, rfl⟩, _,
      ⟨by omega, rfl⟩, _, ⟨by omega, rfl⟩, _, ⟨h4, rfl⟩, _, ⟨(pow10_pos _).ne', rfl⟩, h5, rfl⟩

theorem bigDiv_ok : bigDiv S T a b = .ok r ↔
    (b ≠ 0 ∧ a < 2 ^ S.big ∧ b < 2 ^ S.big ∧ 10 ^ T.scale < 2 ^ T.width ∧
      10 ^ T.scale < 2 ^ S.big ∧ a * 10 ^ T.scale < 2 ^ S.big ∧ r < 2 ^ S.width) ∧
    RoundsDown S r (value S a / value T b) := by
  by_cases hb : b = 0
  · subst hb
    simp [bigDiv, divC]
  rw [roundsDown_div (Nat.pos_of_ne_zero hb) (value_div_scaled hb)]
  simp only [bigDiv, bind_ok_iff, fit_ok_iff, one_ok, mulC_ok_iff, divC_ok_iff]
  constructor
  · rintro ⟨_, ⟨h0, rfl⟩, _, ⟨h1, rfl⟩, _, ⟨h2, rfl⟩, _, ⟨h3, rfl⟩, _, ⟨h4, rfl⟩, _, ⟨_, rfl⟩, h5,
      rfl⟩
    exact ⟨⟨hb, h0, h1, h2, h3, h4, h5⟩, rfl⟩
  · rintro ⟨⟨_, h0, h1, h2, h3, h4, h5⟩, rfl⟩
    exact ⟨_, ⟨h0, rfl⟩, _, ⟨h1, rfl⟩, _, ⟨h2, rfl⟩, _, ⟨h3, rfl⟩, _, ⟨h4, rfl⟩, _,
      ⟨hb, rfl⟩, h5, rfl⟩

theorem checkedBigDiv_ok : checkedBigDiv S T a b = .ok r ↔ bigDiv S T a b = .ok r := by
  simp only [checkedBigDiv, bigDiv, bind_ok_iff, fit_ok_iff, one_ok, mulC_ok_iff, divC_ok_iff]

theorem bigDivUp_ok : bigDivUp S T a b = .ok r ↔
    (b ≠ 0 ∧ a < 2 ^ S.big ∧ b < 2 ^ S.big ∧ 10 ^ T.scale < 2 ^ T.width ∧
      10 ^ T.scale < 2 ^ S.big ∧ a * 10 ^ T.scale + b < 2 ^ S.big ∧ r < 2 ^ S.width) ∧
    RoundsUp S r (value S a / value T b) := by
  by_cases hb : b = 0
  · subst hb
    simp [bigDivUp, divC]
  rw [roundsUp_div (Nat.pos_of_ne_zero hb) (value_div_scaled hb)]
  have hb' : a * 10 ^ T.scale + b - 1 = a * 10 ^ T.scale + (b - 1) := by omega
  simp only [bigDivUp, bind_ok_iff, fit_ok_iff, one_ok, mulC_ok_iff, addC_ok_iff, subC_ok_iff,
    divC_ok_iff]
  constructor
  · rintro ⟨_, ⟨h0, rfl⟩, _, ⟨h1, rfl⟩, _, ⟨h2, rfl⟩, _, ⟨h3, rfl⟩, _, ⟨_, rfl⟩, _, ⟨h4, rfl⟩, _,
      ⟨_, rfl⟩, _, ⟨_, rfl⟩, h5, rfl⟩
    rw [hb'] at h5 ⊢
    exact ⟨⟨hb, h0, h1, h2, h3, h4, h5⟩, rfl⟩
  · rintro ⟨⟨_, h0, h1, h2, h3, h4, h5⟩, rfl⟩
    exact ⟨_, ⟨h0, rfl⟩, _, ⟨h1, rfl⟩, _, ⟨h2, rfl⟩, _, ⟨h3, rfl⟩, _, ⟨by omega, rfl⟩, _,
      ⟨h4, rfl⟩, _, ⟨by omega, rfl⟩, _, ⟨hb, rfl⟩, by rw [hb']; exact h5, by rw [hb']⟩

/-! ## With room in the big type only the result matters -/

theorem room_mul (hr : Room S T) (h : a * b / 10 ^ T.scale < 2 ^ S.width) :
    a * b < 2 ^ S.big := by
  rw [Nat.div_lt_iff_lt_mul (pow10_pos _)] at h
  have := hr.2
  rw [Nat.mul_comm] at h
  have h2 : 2 ^ S.width * 10 ^ T.scale = 10 ^ T.scale * 2 ^ S.width := Nat.mul_comm _ _
  have : 0 < 2 ^ T.width := Nat.pow_pos (by norm_num)
  rw [Nat.mul_comm b a] at h
  omega

theorem room_mulUp (hr : Room S T)
    (h : (a * b + (10 ^ T.scale - 1)) / 10 ^ T.scale < 2 ^ S.width) :
    a * b + (10 ^ T.scale - 1) < 2 ^ S.big := by
  rw [Nat.div_lt_iff_lt_mul (pow10_pos _)] at h
  have := hr.2
  have h2 : 2 ^ S.width * 10 ^ T.scale = 10 ^ T.scale * 2 ^ S.width := Nat.mul_comm _ _
  have : 0 < 2 ^ T.width := Nat.pow_pos (by norm_num)
  omega

theorem room_div (hr : Room S T) (ha : a < 2 ^ S.width) :
    a * 10 ^ T.scale < 2 ^ S.big := by
  have := hr.2
  have h2 : 10 ^ T.scale * 2 ^ S.width = 2 ^ S.width * 10 ^ T.scale := Nat.mul_comm _ _
  have h3 := (Nat.mul_lt_mul_right (pow10_pos T.scale)).2 ha
  omega

theorem room_divUp (hr : RoomUp S T) (ha : a < 2 ^ S.width) (hb : b < 2 ^ T.width) :
    a * 10 ^ T.scale + b < 2 ^ S.big := by
  have := hr.2
  have h2 : 10 ^ T.scale * 2 ^ S.width = 2 ^ S.width * 10 ^ T.scale := Nat.mul_comm _ _
  have h3 : a * 10 ^ T.scale ≤ 2 ^ S.width * 10 ^ T.scale := Nat.mul_le_mul_right _ ha.le
  omega

theorem lt_pow_le {x k l : Nat} (h : x < 2 ^ k) (hkl : k ≤ l) : x < 2 ^ l :=
  h.trans_le (Nat.pow_le_pow_right (by norm_num) hkl)

/-! ## Division by a number, products as values -/

theorem byNumber_scaled (_hn : n ≠ 0) :
    value S a / value S n * 10 ^ S.scale = ((a * 10 ^ S.scale : Nat) : ℚ) / (n : ℚ) :=
  value_div_scaled _hn

theorem bigDivByNumber_ok : bigDivByNumber S a n = .ok r ↔
    (n ≠ 0 ∧ a < 2 ^ S.big ∧ 10 ^ S.scale < 2 ^ S.width ∧ 10 ^ S.scale < 2 ^ S.big ∧
      a * 10 ^ S.scale < 2 ^ S.big ∧ r < 2 ^ S.width) ∧
    RoundsDown S r (value S a / value S n) := by
  by_cases hb : n = 0
  · subst hb
    simp [bigDivByNumber, divC]
  rw [roundsDown_div (Nat.pos_of_ne_zero hb) (value_div_scaled hb)]
  simp only [bigDivByNumber, bind_ok_iff, fit_ok_iff, one_ok, mulC_ok_iff, divC_ok_iff]
  constructor
  · rintro ⟨_, ⟨h0, rfl⟩, _, ⟨h2, rfl⟩, _, ⟨h3, rfl⟩, _, ⟨h4, rfl⟩, _, ⟨_, rfl⟩, h5, rfl⟩
    exact ⟨⟨hb, h0, h2, h3, h4, h5⟩, rfl⟩
  · rintro ⟨⟨_, h0, h2, h3, h4, h5⟩, rfl⟩
    exact ⟨_, ⟨h0, rfl⟩, _, ⟨h2, rfl⟩, _, ⟨h3, rfl⟩, _, ⟨h4, rfl⟩, _, ⟨hb, rfl⟩, h5, rfl⟩

theorem checkedBigDivByNumber_ok :
    checkedBigDivByNumber S a n = .ok r ↔ bigDivByNumber S a n = .ok r := by
  simp only [checkedBigDivByNumber, bigDivByNumber, bind_ok_iff, fit_ok_iff, one_ok, mulC_ok_iff,
    divC_ok_iff]

theorem bigDivByNumberUp_ok : bigDivByNumberUp S a n = .ok r ↔
    (n ≠ 0 ∧ a < 2 ^ S.big ∧ 10 ^ S.scale < 2 ^ S.width ∧ 10 ^ S.scale < 2 ^ S.big ∧
      a * 10 ^ S.scale + (n - 1) < 2 ^ S.big ∧ r < 2 ^ S.width) ∧
    RoundsUp S r (value S a / value S n) := by
  by_cases hb : n = 0
  · subst hb
    simp [bigDivByNumberUp, divC]
  rw [roundsUp_div (Nat.pos_of_ne_zero hb) (value_div_scaled hb)]
  simp only [bigDivByNumberUp, bind_ok_iff, fit_ok_iff, one_ok, mulC_ok_iff, addC_ok_iff,
    subC_ok_iff, divC_ok_iff]
  constructor
  · rintro ⟨_, ⟨h0, rfl⟩, _, ⟨h2, rfl⟩, _, ⟨h3, rfl⟩, _, ⟨_, rfl⟩, _, ⟨_, rfl⟩, _, ⟨h4, rfl⟩, _,
      ⟨_, rfl⟩, h5, rfl⟩
    exact ⟨⟨hb, h0, h2, h3, h4, h5⟩, rfl⟩
  · rintro ⟨⟨_, h0, h2, h3, h4, h5⟩, rfl⟩
    exact ⟨_, ⟨h0, rfl⟩, _, ⟨h2, rfl⟩, _, ⟨h3, rfl⟩, _, ⟨by omega, rfl⟩, _, ⟨by omega, rfl⟩, _,
      ⟨h4, rfl⟩, _, ⟨hb, rfl⟩, h5, rfl⟩

theorem checkedBigDivByNumberUp_ok :
    checkedBigDivByNumberUp S a n = .ok r ↔ bigDivByNumberUp S a n = .ok r := by
  simp only [checkedBigDivByNumberUp, bigDivByNumberUp, bind_ok_iff, fit_ok_iff, one_ok,
    mulC_ok_iff, addC_ok_iff, subC_ok_iff, divC_ok_iff]

theorem bigMulToValue_ok : bigMulToValue S T a b = .ok r ↔
    (a < 2 ^ S.big ∧ b < 2 ^ S.big ∧ 10 ^ T.scale < 2 ^ T.width ∧ 10 ^ T.scale < 2 ^ S.big ∧
      a * b < 2 ^ S.big) ∧ RoundsDown S r (value S a * value T b) := by
  rw [roundsDown_div (pow10_pos _) value_mul_scaled]
  simp only [bigMulToValue, bind_ok_iff, fit_ok_iff, one_ok, mulC_ok_iff, divC_ok_iff]
  constructor
  · rintro ⟨_, ⟨h0, rfl⟩, _, ⟨h1, rfl⟩, _, ⟨h2, rfl⟩, _, ⟨h3, rfl⟩, _, ⟨h4, rfl⟩, _, rfl⟩
    exact ⟨⟨h0, h1, h2, h3, h4⟩, rfl⟩
  · rintro ⟨⟨h0, h1, h2, h3, h4⟩, rfl⟩
    exact ⟨_, ⟨h0, rfl⟩, _, ⟨h1, rfl⟩, _, ⟨h2, rfl⟩, _, ⟨h3, rfl⟩, _, ⟨h4, rfl⟩,
      (pow10_pos _).ne', rfl⟩

theorem bigMulToValueUp_ok : bigMulToValueUp S T a b = .ok r ↔
    (a < 2 ^ S.big ∧ b < 2 ^ S.big ∧ 10 ^ T.scale < 2 ^ T.width ∧ 10 ^ T.scale < 2 ^ S.big ∧
      a * b + (10 ^ T.scale - 1) < 2 ^ S.big) ∧ RoundsUp S r (value S a * value T b) := by
  rw [roundsUp_div (pow10_pos _) value_mul_scaled]
  simp only [bigMulToValueUp, bind_ok_iff, fit_ok_iff, one_ok, almostOne_ok, mulC_ok_iff,
    addC_ok_iff, divC_ok_iff]
  constructor
  · rintro ⟨_, ⟨h0, rfl⟩, _, ⟨h1, rfl⟩, _, ⟨h2, rfl⟩, _, ⟨h3, rfl⟩, _, ⟨_, rfl⟩, _, ⟨_, rfl⟩, _,
      ⟨_, rfl⟩, _, ⟨h4, rfl⟩, _, rfl⟩
    exact ⟨⟨h0, h1, h2, h3, h4⟩, rfl⟩
  · rintro ⟨⟨h0, h1, h2, h3, h4⟩, rfl⟩
    exact ⟨_, ⟨h0, rfl⟩, _, ⟨h1, rfl⟩, _, ⟨h2, rfl⟩, _, ⟨h3, rfl⟩, _, ⟨h2, rfl⟩, _,
      ⟨by omega, rfl⟩, _, ⟨by omega, rfl⟩, _, ⟨h4, rfl⟩, (pow10_pos _).ne', rfl⟩

theorem checkedDiv_ok : checkedDiv S a b = .ok r ↔
    (b ≠ 0 ∧ 10 ^ S.scale < 2 ^ S.width ∧ a * 10 ^ S.scale < 2 ^ S.width) ∧
    RoundsDown S r (value S a / value S b) := by
  by_cases hb : b = 0
  · subst hb
    simp [checkedDiv, divC]
  rw [roundsDown_div (Nat.pos_of_ne_zero hb) (value_div_scaled hb)]
  simp only [checkedDiv, bind_ok_iff, one_ok, mulC_ok_iff, divC_ok_iff]
  constructor
  · rintro ⟨_, ⟨h2, rfl⟩, _, ⟨h4, rfl⟩, _, rfl⟩
    exact ⟨⟨hb, h2, h4⟩, rfl⟩
  · rintro ⟨⟨_, h2, h4⟩, rfl⟩
    exact ⟨_, ⟨h2, rfl⟩, _, ⟨h4, rfl⟩, hb, rfl⟩

/-! ## Conversions -/

/-- the number that a raw integer of scale `k` stands for -/
theorem value_scaled_up (k : Nat) (hk : k ≤ S.scale) :
    (n : ℚ) / 10 ^ k * 10 ^ S.scale = ((n * 10 ^ (S.scale - k) : Nat) : ℚ) / ((1 : Nat) : ℚ) := by
  obtain ⟨d, hd⟩ := Nat.exists_eq_add_of_le hk
  rw [hd, Nat.add_sub_cancel_left]
  push_cast
  rw [pow_add]
  field_simp

theorem value_scaled_down (k : Nat) (hk : S.scale ≤ k) :
    (n : ℚ) / 10 ^ k * 10 ^ S.scale = ((n : Nat) : ℚ) / ((10 ^ (k - S.scale) : Nat) : ℚ) := by
  obtain ⟨d, hd⟩ := Nat.exists_eq_add_of_le hk
  rw [hd, Nat.add_sub_cancel_left]
  push_cast
  rw [pow_add]
  field_simp

theorem fromScale_ok {k : Nat} : fromScale S n k = .ok r ↔
    (n < 2 ^ S.width ∧ r < 2 ^ S.width ∧ 10 ^ (S.scale - k) < 2 ^ S.width ∧
      10 ^ (k - S.scale) < 2 ^ S.width) ∧ RoundsDown S r ((n : ℚ) / 10 ^ k) := by
  unfold fromScale
  by_cases h : S.scale > k
  · rw [roundsDown_div (by norm_num) (value_scaled_up k h.le), Nat.div_one]
    have hz : k - S.scale = 0 := by omega
    simp only [if_pos h, bind_ok_iff, fit_ok_iff, mulC_ok_iff, hz]
    have h10 := Nat.one_le_pow (S.scale - k) 10 (by norm_num)
    constructor
    · rintro ⟨_, ⟨h0, rfl⟩, _, ⟨h1, rfl⟩, h2, rfl⟩
      exact ⟨⟨h0, h2, h1, by rw [pow_zero]; omega⟩, rfl⟩
    · rintro ⟨⟨h0, h1, h2, h3⟩, rfl⟩
      exact ⟨_, ⟨h0, rfl⟩, _, ⟨h2, rfl⟩, h1, rfl⟩
  · have h' : S.scale ≤ k := by omega
    rw [roundsDown_div (pow10_pos _) (value_scaled_down k h')]
    have hz : S.scale - k = 0 := by omega
    simp only [if_neg h, bind_ok_iff, fit_ok_iff, divC_ok_iff, hz]
    have h10 := Nat.one_le_pow (k - S.scale) 10 (by norm_num)
    constructor
    · rintro ⟨_, ⟨h0, rfl⟩, _, ⟨h1, rfl⟩, _, rfl⟩
      exact ⟨⟨h0, (Nat.div_le_self _ _).trans_lt h0, by rw [pow_zero]; omega, h1⟩, rfl⟩
    · rintro ⟨⟨h0, h1, h2, h3⟩, rfl⟩
      exact ⟨_, ⟨h0, rfl⟩, _, ⟨h3, rfl⟩, (pow10_pos _).ne', rfl⟩

theorem checkedFromScale_ok {k : Nat} :
    checkedFromScale S n k = .ok r ↔ fromScale S n k = .ok r := by
  unfold checkedFromScale fromScale
  split <;> simp only [bind_ok_iff, fit_ok_iff, mulC_ok_iff, divC_ok_iff]

theorem fromScaleUp_ok {k : Nat} : fromScaleUp S n k = .ok r ↔
    (n + (10 ^ (k - S.scale) - 1) < 2 ^ S.width ∧ r < 2 ^ S.width ∧
      10 ^ (S.scale - k) < 2 ^ S.width ∧
      10 ^ (k - S.scale) < 2 ^ S.width) ∧ RoundsUp S r ((n : ℚ) / 10 ^ k) := by
  unfold fromScaleUp
  by_cases h : S.scale > k
  · rw [roundsUp_div (by norm_num) (value_scaled_up k h.le), Nat.div_one]
    have hz : k - S.scale = 0 := by omega
    simp only [if_pos h, bind_ok_iff, fit_ok_iff, mulC_ok_iff, hz]
    have h10 := Nat.one_le_pow (S.scale - k) 10 (by norm_num)
    constructor
    · rintro ⟨_, ⟨h0, rfl⟩, _, ⟨h1, rfl⟩, h2, rfl⟩
      exact ⟨⟨by simpa using h0, h2, h1, by rw [pow_zero]; omega⟩, rfl⟩
    · rintro ⟨⟨h0, h1, h2, h3⟩, rfl⟩
      exact ⟨_, ⟨by simpa using h0, rfl⟩, _, ⟨h2, rfl⟩, h1, rfl⟩
  · have h' : S.scale ≤ k := by omega
    rw [roundsUp_div (pow10_pos _) (value_scaled_down k h')]
    have hz : S.scale - k = 0 := by omega
    simp only [if_neg h, bind_ok_iff, fit_ok_iff, addC_ok_iff, subC_ok_iff, divC_ok_iff, hz]
    have h10 := Nat.one_le_pow (k - S.scale) 10 (by norm_num)
    constructor
    · rintro ⟨_, ⟨h0, rfl⟩, _, ⟨h1, rfl⟩, _, ⟨_, rfl⟩, _, ⟨h2, rfl⟩, _, rfl⟩
      exact ⟨⟨h2, (Nat.div_le_self _ _).trans_lt h2, by rw [pow_zero]; omega, h1⟩, rfl⟩
    · rintro ⟨⟨h0, h1, h2, h3⟩, rfl⟩
      exact ⟨_, ⟨by omega, rfl⟩, _, ⟨h3, rfl⟩, _, ⟨h10, rfl⟩, _, ⟨h0, rfl⟩, (pow10_pos _).ne',
        rfl⟩

theorem toValue_ok {k : Nat} : checkedFromScaleToValue S n k = .ok r ↔
    (n < 2 ^ S.big ∧ r < 2 ^ S.big ∧ 10 ^ (S.scale - k) < 2 ^ 128 ∧
      10 ^ (k - S.scale) < 2 ^ 128) ∧ RoundsDown S r ((n : ℚ) / 10 ^ k) := by
  unfold checkedFromScaleToValue
  by_cases h : S.scale > k
  · rw [roundsDown_div (by norm_num) (value_scaled_up k h.le), Nat.div_one]
    have hz : k - S.scale = 0 := by omega
    simp only [if_pos h, bind_ok_iff, fit_ok_iff, mulC_ok_iff, hz]
    constructor
    · rintro ⟨_, ⟨h0, rfl⟩, _, ⟨h1, rfl⟩, h2, rfl⟩
      exact ⟨⟨h0, h2, h1, by norm_num⟩, rfl⟩
    · rintro ⟨⟨h0, h1, h2, h3⟩, rfl⟩
      exact ⟨_, ⟨h0, rfl⟩, _, ⟨h2, rfl⟩, h1, rfl⟩
  · have h' : S.scale ≤ k := by omega
    rw [roundsDown_div (pow10_pos _) (value_scaled_down k h')]
    have hz : S.scale - k = 0 := by omega
    simp only [if_neg h, bind_ok_iff, fit_ok_iff, divC_ok_iff, hz]
    constructor
    · rintro ⟨_, ⟨h0, rfl⟩, _, ⟨h1, rfl⟩, _, rfl⟩
      exact ⟨⟨h0, (Nat.div_le_self _ _).trans_lt h0, by norm_num, h1⟩, rfl⟩
    · rintro ⟨⟨h0, h1, h2, h3⟩, rfl⟩
      exact ⟨_, ⟨h0, rfl⟩, _, ⟨h3, rfl⟩, (pow10_pos _).ne', rfl⟩

theorem fromInteger_ok : fromInteger S n = .ok r ↔
    r < 2 ^ S.width ∧ 10 ^ S.scale < 2 ^ S.width ∧ value S r = n := by
  have h10 := pow10_pos S.scale
  have hv : value S r = n ↔ r = n * 10 ^ S.scale := by
    unfold value
    rw [div_eq_iff (by positivity)]
    exact_mod_cast Iff.rfl
  rw [hv]
  simp only [fromInteger, bind_ok_iff, fit_ok_iff, one_ok, mulC_ok_iff]
  constructor
  · rintro ⟨_, ⟨h0, rfl⟩, _, ⟨h1, rfl⟩, h2, rfl⟩
    exact ⟨h2, h1, rfl⟩
  · rintro ⟨h0, h1, rfl⟩
    exact ⟨_, ⟨(Nat.le_mul_of_pos_right _ h10).trans_lt h0, rfl⟩, _, ⟨h1, rfl⟩, h0, rfl⟩

end Verif.Decimal
