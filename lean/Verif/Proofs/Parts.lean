import Verif.Proofs.Amount
import Verif.Proofs.Accept

/-!
# Amounts of a deposit and of its parts
-/

set_option exponentiation.threshold 1000

namespace Verif

theorem floor_parts (u v k : Nat) : u / k + v / k ≤ (u + v) / k ∧ (u + v) / k ≤ u / k + v / k + 1 := by
  rcases Nat.eq_zero_or_pos k with rfl | hk
  · simp
  · refine ⟨Nat.add_div_le_add_div _ _ _, ?_⟩
    rw [← Nat.lt_succ_iff, Nat.div_lt_iff_lt_mul hk]
    have h1 := Nat.lt_div_mul_add hk (a := u)
    have h2 := Nat.lt_div_mul_add hk (a := v)
    have : (u / k + v / k + 1).succ * k = (u / k * k + k) + (v / k * k + k) := by
      simp only [Nat.succ_eq_add_one, Nat.add_mul]; omega
    rw [this]
    omega

theorem floor_parts_one (u v k : Nat) (hk : 0 < k) : (u + v + 1) / k ≤ u / k + v / k + 1 := by
  rw [← Nat.lt_succ_iff, Nat.div_lt_iff_lt_mul hk]
  have h1 := Nat.lt_div_mul_add hk (a := u)
  have h2 := Nat.lt_div_mul_add hk (a := v)
  have : (u / k + v / k + 1).succ * k = (u / k * k + k) + (v / k * k + k) := by
    simp only [Nat.succ_eq_add_one, Nat.add_mul]; omega
  rw [this]
  omega

theorem cdiv_parts (u v k : Nat) : cdiv (u + v) k ≤ cdiv u k + cdiv v k ∧ cdiv u k + cdiv v k ≤ cdiv (u + v) k + 1 := by
  rcases Nat.eq_zero_or_pos k with rfl | hk
  · simp [cdiv_def]
  · have e : ∀ n, n ≤ cdiv n k * k ∧ cdiv n k * k < n + k := by
      intro n
      rw [cdiv_def]
      have h1 := Nat.lt_div_mul_add hk (a := n + (k - 1))
      have h2 := Nat.div_mul_le_self (n + (k - 1)) k
      omega
    obtain ⟨a1, a2⟩ := e u
    obtain ⟨b1, b2⟩ := e v
    obtain ⟨c1, c2⟩ := e (u + v)
    constructor
    · by_contra hc
      have h1 : (cdiv u k + cdiv v k + 1) * k ≤ cdiv (u + v) k * k := Nat.mul_le_mul_right k (by omega)
      rw [Nat.add_mul, Nat.add_mul] at h1
      omega
    · by_contra hc
      have h1 : (cdiv (u + v) k + 2) * k ≤ (cdiv u k + cdiv v k) * k := Nat.mul_le_mul_right k (by omega)
      rw [Nat.add_mul, Nat.add_mul] at h1
      omega

theorem cdiv_one_le (k : Nat) : cdiv 1 k ≤ 1 := by
  rw [cdiv_def]
  rcases Nat.eq_zero_or_pos k with rfl | hk
  · simp
  · have : 1 + (k - 1) = k := by omega
    rw [this, Nat.div_self hk]

theorem dxNum_parts (a b L M : Nat) : dxNum a b L + dxNum a b M ≤ dxNum a b (L + M) ∧
    dxNum a b (L + M) ≤ dxNum a b L + dxNum a b M + 1 := by
  simp only [dxNum_def, Nat.mul_add]
  exact floor_parts _ _ _

/-- X of two deposits and of one -/
theorem dxUp_parts (a b L M : Nat) : dxUp a b (L + M) ≤ dxUp a b L + dxUp a b M + 1 ∧
    dxUp a b L + dxUp a b M ≤ dxUp a b (L + M) + 1 := by
  obtain ⟨h1, h2⟩ := dxNum_parts a b L M
  simp only [dxUp_def]
  obtain ⟨c1, c2⟩ := cdiv_parts (dxNum a b L) (dxNum a b M) (a * b / 10 ^ 24)
  have c3 := (cdiv_parts (dxNum a b L + dxNum a b M) 1 (a * b / 10 ^ 24)).1
  have c4 := cdiv_one_le (a * b / 10 ^ 24)
  have c5 := cdiv_mono (d := a * b / 10 ^ 24) h1
  have c6 := cdiv_mono (d := a * b / 10 ^ 24) h2
  omega

/-- Y of two deposits and of one -/
theorem dyUp_parts (a b L M : Nat) : dyUp a b (L + M) ≤ dyUp a b L + dyUp a b M ∧
    dyUp a b L + dyUp a b M ≤ dyUp a b (L + M) + 1 := by
  simp only [dyUp_def, Nat.mul_add]
  exact cdiv_parts _ _ _

/-- X of two withdrawals and of one -/
theorem dxDown_parts (a b L M : Nat) : dxDown a b L + dxDown a b M ≤ dxDown a b (L + M) ∧
    dxDown a b (L + M) ≤ dxDown a b L + dxDown a b M + 1 := by
  obtain ⟨h1, h2⟩ := dxNum_parts a b L M
  simp only [dxDown_def]
  rcases Nat.eq_zero_or_pos (cdiv (a * b) (10 ^ 24)) with h0 | h0
  · rw [h0]; simp
  · refine ⟨le_trans (floor_parts _ _ _).1 (Nat.div_le_div_right h1), ?_⟩
    exact le_trans (Nat.div_le_div_right h2) (floor_parts_one _ _ _ h0)

/-- Y of two withdrawals and of one -/
theorem dyDown_parts (a b L M : Nat) : dyDown a b L + dyDown a b M ≤ dyDown a b (L + M) ∧
    dyDown a b (L + M) ≤ dyDown a b L + dyDown a b M + 1 := by
  simp only [dyDown_def, Nat.mul_add]
  exact floor_parts _ _ _

/-- the amounts of a deposit exist as soon as they fit -/
theorem deposit_fits {t l u : Int} {p L pl pu : Nat} (hlu : l ≤ u) (hp : PriceOK p)
    (hl : calculateSqrtPrice l = .ok pl) (hu : calculateSqrtPrice u = .ok pu) (hL : L < 2 ^ 256)
    (hx : dxUp (clampPrice t l u p pl pu) pu L < 2 ^ 256) (hy : dyUp pl (clampPrice t l u p pl pu) L < 2 ^ 256) :
    ∃ r, calculateAmountDelta t p L true u l = .ok r := by
  have P1 := calculateSqrtPrice_ge_min hl
  have P2 := calculateSqrtPrice_le_max hl
  have P3 := calculateSqrtPrice_ge_min hu
  have P4 := calculateSqrtPrice_le_max hu
  have small : ∀ {q}, q ≤ MAX_SQRT_PRICE → q < 2 ^ 128 := fun h =>
    lt_of_le_of_lt h (by norm_num [MAX_SQRT_PRICE])
  have dy : ∀ {a b}, a ≤ MAX_SQRT_PRICE → b ≤ MAX_SQRT_PRICE → dyUp a b L < 2 ^ 256 →
      ∃ y, getDeltaY a b L true = .ok y := by
    intro a b ha hb h
    rw [getDeltaY_up (small ha) (small hb) hL, fit_eq h]
    exact ⟨_, rfl⟩
  have dx : ∀ {a b}, MIN_SQRT_PRICE ≤ a → MIN_SQRT_PRICE ≤ b → a ≤ MAX_SQRT_PRICE → b ≤ MAX_SQRT_PRICE →
      dxUp a b L < 2 ^ 256 → ∃ x, getDeltaX a b L true = .ok x := by
    intro a b ha' hb' ha hb h
    have hD := prod_pos_of_min ha' hb'
    have hab : 10 ^ 24 ≤ a * b :=
      le_trans (by norm_num [MIN_SQRT_PRICE]) (Nat.mul_le_mul ha' hb')
    have hc : cdiv (dxNum a b L * spOne) (a * b / 10 ^ 24) + (spOne - 1) < 2 ^ 384 := by
      have hD0 : 0 < a * b / 10 ^ 24 := lt_of_lt_of_le (by norm_num) hD
      have h1 : dxNum a b L ≤ dxUp a b L * (a * b / 10 ^ 24) := by
        rw [dxUp_def, cdiv_def]
        have h1 := Nat.lt_div_mul_add hD0 (a := dxNum a b L + (a * b / 10 ^ 24 - 1))
        omega
      have h2 : cdiv (dxNum a b L * spOne) (a * b / 10 ^ 24) ≤ dxUp a b L * spOne := by
        rw [cdiv_def, ← Nat.lt_succ_iff, Nat.div_lt_iff_lt_mul hD0]
        have h3 := Nat.mul_le_mul_right spOne h1
        have h4 : (dxUp a b L * spOne).succ * (a * b / 10 ^ 24) =
            dxUp a b L * (a * b / 10 ^ 24) * spOne + a * b / 10 ^ 24 := by
          rw [Nat.succ_mul]; ring
        rw [h4]
        omega
      have h3 : dxUp a b L * spOne ≤ 2 ^ 256 * spOne := Nat.mul_le_mul_right _ h.le
      have h4 : 2 ^ 256 * spOne + (spOne - 1) < 2 ^ 384 := by norm_num [spOne]
      omega
    rw [getDeltaX_up (small ha) (small hb) hL hab, if_pos hc, fit_eq h]
    exact ⟨_, rfl⟩
  unfold calculateAmountDelta
  rw [failIf_neg (by omega), ok_bind]
  unfold clampPrice at hx hy
  by_cases h1 : t < l
  · rw [if_pos h1]
    rw [if_pos h1] at hx
    obtain ⟨x, hx⟩ := dx P1 P3 P2 P4 hx
    exact ⟨_, bind_ok_iff.2 ⟨_, hl, bind_ok_iff.2 ⟨_, hu, bind_ok_iff.2 ⟨_, hx, rfl⟩⟩⟩⟩
  · rw [if_neg h1]
    rw [if_neg h1] at hx hy
    by_cases h2 : t < u
    · rw [if_pos h2]
      rw [if_pos h2] at hx hy
      obtain ⟨x, hx⟩ := dx hp.1 P3 hp.2 P4 hx
      obtain ⟨y, hy⟩ := dy P2 hp.2 hy
      exact ⟨_, bind_ok_iff.2 ⟨_, hu, bind_ok_iff.2 ⟨_, hx, bind_ok_iff.2 ⟨_, hl, bind_ok_iff.2 ⟨_, hy, rfl⟩⟩⟩⟩⟩
    · rw [if_neg h2]
      rw [if_neg h2] at hy
      obtain ⟨y, hy⟩ := dy P2 P4 hy
      exact ⟨_, bind_ok_iff.2 ⟨_, hl, bind_ok_iff.2 ⟨_, hu, bind_ok_iff.2 ⟨_, hy, rfl⟩⟩⟩⟩

end Verif
