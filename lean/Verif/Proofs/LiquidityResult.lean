import Verif.Model.LiquidityResult
import Verif.Proofs.Deposit

/-! # The liquidity helpers in closed form -/

set_option exponentiation.threshold 1000

namespace Verif
open LiquidityResult

theorem priceProduct_ok {a b n : Nat} (h : priceProduct a b = .ok n) : n = a * b / 10 ^ 24 := by
  unfold priceProduct bigMul bigDiv at h
  simp only [bind_ok_iff, mulC_ok_iff, divC_ok_iff, fit_ok_iff] at h
  obtain ⟨_, ⟨_, ⟨_, rfl⟩, _, rfl⟩, _, ⟨_, rfl⟩, _, ⟨h0, rfl⟩, _, rfl⟩ := h
  rw [Nat.mul_div_cancel _ (Nat.pos_of_ne_zero h0), spOne_eq]

theorem liquidityOfX_ok {x n d l : Nat} (h : liquidityOfX x n d = .ok l) :
    0 < d ∧ l = x * n * 10 ^ 5 / d ∧ l < 2 ^ 256 := by
  unfold liquidityOfX at h
  simp only [bind_ok_iff, mulC_ok_iff, divC_ok_iff, fit_ok_iff] at h
  obtain ⟨_, ⟨_, rfl⟩, _, ⟨_, rfl⟩, _, ⟨h0, rfl⟩, h1, rfl⟩ := h
  exact ⟨Nat.pos_of_ne_zero h0, by rw [liqOne_eq], h1⟩

theorem liquidityOfY_ok {y d l : Nat} (h : liquidityOfY y d = .ok l) :
    0 < d ∧ l = y * 10 ^ 29 / d ∧ l < 2 ^ 256 := by
  unfold liquidityOfY at h
  simp only [bind_ok_iff, mulC_ok_iff, divC_ok_iff, fit_ok_iff] at h
  obtain ⟨_, ⟨_, rfl⟩, _, ⟨_, rfl⟩, _, ⟨h0, rfl⟩, h1, rfl⟩ := h
  refine ⟨Nat.pos_of_ne_zero h0, ?_, h1⟩
  rw [Nat.mul_assoc, liqOne_eq, spOne_eq, ← pow_add]

/-- charging for the liquidity bought with `x` never exceeds `x` -/
theorem dxUp_liquidityOfX {a b x l : Nat} (hab : a ≤ b) (hn : 0 < a * b / 10 ^ 24)
    (h : liquidityOfX x (a * b / 10 ^ 24) (b - a) = .ok l) : dxUp a b l ≤ x := by
  obtain ⟨hd, rfl, _⟩ := liquidityOfX_ok h
  rw [dxUp_def, cdiv_le_iff hn, dxNum_def]
  have e : absDiff a b = b - a := by unfold absDiff; split <;> omega
  rw [e]
  apply Nat.div_le_of_le_mul
  calc (b - a) * (x * (a * b / 10 ^ 24) * 10 ^ 5 / (b - a))
      ≤ x * (a * b / 10 ^ 24) * 10 ^ 5 := Nat.mul_div_le _ _
    _ = 10 ^ 5 * (x * (a * b / 10 ^ 24)) := by ring

/-- charging for the liquidity bought with `y` never exceeds `y` -/
theorem dyUp_liquidityOfY {a b y l : Nat} (hab : a ≤ b)
    (h : liquidityOfY y (b - a) = .ok l) : dyUp a b l ≤ y := by
  obtain ⟨hd, rfl, _⟩ := liquidityOfY_ok h
  have e : absDiff a b = b - a := by unfold absDiff; split <;> omega
  rw [dyUp_def, cdiv_le_iff (by positivity), e]
  exact Nat.mul_div_le _ _

theorem byX_ok {x pl pu c : Nat} {up : Bool} {r : Single}
    (h : getLiquidityByXSqrtPrice x pl pu c up = .ok r) :
    c ≤ pu ∧ pl ≤ pu ∧ liquidityOfX x ((max c pl) * pu / 10 ^ 24) (pu - max c pl) = .ok r.l ∧
      (c < pl → r.amount = 0) ∧ (pl ≤ c → calculateY (c - pl) r.l up = .ok r.amount) := by
  unfold getLiquidityByXSqrtPrice at h
  by_cases h0 : pu < c
  · rw [failIf_pos h0] at h; simp at h
  rw [failIf_neg h0, ok_bind] at h
  by_cases h1 : c < pl
  · rw [if_pos h1] at h
    simp only [bind_ok_iff, subC_ok_iff] at h
    obtain ⟨n, hn, _, ⟨h2, rfl⟩, l, hl, e⟩ := h
    cases e
    rw [priceProduct_ok hn] at hl
    rw [max_eq_right h1.le]
    exact ⟨by omega, h2, hl, fun _ => rfl, fun hh => by omega⟩
  · rw [if_neg h1] at h
    simp only [bind_ok_iff, subC_ok_iff] at h
    obtain ⟨n, hn, _, ⟨h2, rfl⟩, l, hl, _, ⟨h3, rfl⟩, y, hy, e⟩ := h
    cases e
    rw [priceProduct_ok hn] at hl
    rw [max_eq_left (by omega)]
    exact ⟨by omega, by omega, hl, fun hh => by omega, fun _ => hy⟩

theorem byY_ok {y pl pu c : Nat} {up : Bool} {r : Single}
    (h : getLiquidityByYSqrtPrice y pl pu c up = .ok r) :
    pl ≤ c ∧ pl ≤ pu ∧ liquidityOfY y (min c pu - pl) = .ok r.l ∧
      (pu ≤ c → r.amount = 0) ∧
      (c < pu → calculateX (pu - c) (c * pu / 10 ^ 24) r.l up = .ok r.amount) := by
  unfold getLiquidityByYSqrtPrice at h
  by_cases h0 : c < pl
  · rw [failIf_pos h0] at h; simp at h
  rw [failIf_neg h0, ok_bind] at h
  by_cases h1 : pu ≤ c
  · rw [if_pos h1] at h
    simp only [bind_ok_iff, subC_ok_iff] at h
    obtain ⟨_, ⟨h2, rfl⟩, l, hl, e⟩ := h
    cases e
    rw [min_eq_right h1]
    exact ⟨by omega, h2, hl, fun _ => rfl, fun hh => by omega⟩
  · rw [if_neg h1] at h
    simp only [bind_ok_iff, subC_ok_iff] at h
    obtain ⟨_, ⟨h2, rfl⟩, l, hl, n, hn, _, ⟨h3, rfl⟩, x, hx, e⟩ := h
    cases e
    rw [priceProduct_ok hn] at hx
    rw [min_eq_left (by omega)]
    exact ⟨by omega, by omega, hl, fun hh => by omega, fun _ => hx⟩

theorem getLiquidityByX_ok {x c : Nat} {l u : Int} {up : Bool} {r : Single}
    (h : getLiquidityByX x l u c up = .ok r) :
    ∃ pl pu, calculateSqrtPrice l = .ok pl ∧ calculateSqrtPrice u = .ok pu ∧
      getLiquidityByXSqrtPrice x pl pu c up = .ok r := by
  unfold getLiquidityByX at h
  simp only [bind_ok_iff] at h
  obtain ⟨_, _, pl, hpl, pu, hpu, h⟩ := h
  exact ⟨pl, pu, hpl, hpu, h⟩

theorem getLiquidityByY_ok {x c : Nat} {l u : Int} {up : Bool} {r : Single}
    (h : getLiquidityByY x l u c up = .ok r) :
    ∃ pl pu, calculateSqrtPrice l = .ok pl ∧ calculateSqrtPrice u = .ok pu ∧
      getLiquidityByYSqrtPrice x pl pu c up = .ok r := by
  unfold getLiquidityByY at h
  simp only [bind_ok_iff] at h
  obtain ⟨_, _, pl, hpl, pu, hpu, h⟩ := h
  exact ⟨pl, pu, hpl, hpu, h⟩

/-- the liquidity of `get_liquidity` is affordable with each token that matters -/
theorem getLiquidity_ok {x y c : Nat} {l u : Int} {up : Bool} {r : Both}
    (h : getLiquidity x y l u c up = .ok r) :
    ∃ pl pu, calculateSqrtPrice l = .ok pl ∧ calculateSqrtPrice u = .ok pu ∧
      ((pu < c ∧ ∃ q, getLiquidityByYSqrtPrice y pl pu c up = .ok q ∧ r = ⟨q.amount, y, q.l⟩) ∨
       (c < pl ∧ ∃ q, getLiquidityByXSqrtPrice x pl pu c up = .ok q ∧ r = ⟨x, q.amount, q.l⟩) ∨
       (pl ≤ c ∧ c ≤ pu ∧ ∃ qx qy, getLiquidityByYSqrtPrice y pl pu c up = .ok qy ∧
          getLiquidityByXSqrtPrice x pl pu c up = .ok qx ∧
          r = ⟨qy.amount, qx.amount, min qx.l qy.l⟩)) := by
  unfold getLiquidity at h
  rw [bind_ok_iff] at h
  obtain ⟨_, _, h⟩ := h
  rw [bind_ok_iff] at h
  obtain ⟨pl, hpl, h⟩ := h
  rw [bind_ok_iff] at h
  obtain ⟨pu, hpu, h⟩ := h
  refine ⟨pl, pu, hpl, hpu, ?_⟩
  by_cases h1 : pu < c
  · rw [if_pos h1, bind_ok_iff] at h
    obtain ⟨q, hq, e⟩ := h
    cases e
    exact Or.inl ⟨h1, q, hq, rfl⟩
  rw [if_neg h1] at h
  by_cases h2 : c < pl
  · rw [if_pos h2, bind_ok_iff] at h
    obtain ⟨q, hq, e⟩ := h
    cases e
    exact Or.inr (Or.inl ⟨h2, q, hq, rfl⟩)
  rw [if_neg h2, bind_ok_iff] at h
  obtain ⟨qy, hqy, h⟩ := h
  rw [bind_ok_iff] at h
  obtain ⟨qx, hqx, h⟩ := h
  refine Or.inr (Or.inr ⟨by omega, by omega, qx, qy, hqy, hqx, ?_⟩)
  by_cases h3 : qy.l < qx.l
  · rw [if_pos h3] at h
    cases h
    rw [min_eq_right h3.le]
  · rw [if_neg h3] at h
    cases h
    rw [min_eq_left (by omega)]

theorem dyUp_mono {a b L L' : Nat} (h : L ≤ L') : dyUp a b L ≤ dyUp a b L' := by
  rw [dyUp_def, dyUp_def]
  exact cdiv_mono (Nat.mul_le_mul_left _ h)

theorem dxUp_mono {a b L L' : Nat} (h : L ≤ L') : dxUp a b L ≤ dxUp a b L' := by
  rw [dxUp_def, dxUp_def, dxNum_def, dxNum_def]
  exact cdiv_mono (Nat.div_le_div_right (Nat.mul_le_mul_left _ h))

/-- `calculate_y` in closed form -/
theorem calculateY_ok {d L y : Nat} {up : Bool} (h : calculateY d L up = .ok y) :
    y = if up then cdiv (d * (L / 10 ^ 5)) (10 ^ 24) else d * (L / 10 ^ 5) / 10 ^ 24 := by
  unfold calculateY at h
  cases up
  · simp only [bind_ok_iff, mulC_ok_iff, Bool.false_eq_true, if_false] at h
    obtain ⟨_, ⟨_, rfl⟩, e⟩ := h
    cases e
    rw [if_neg (by decide), liqOne_eq, spOne_eq]
  · simp only [bind_ok_iff, mulC_ok_iff, addC_ok_iff, subC_ok_iff, if_true] at h
    obtain ⟨_, ⟨_, rfl⟩, _, ⟨_, rfl⟩, _, ⟨_, rfl⟩, e⟩ := h
    cases e
    rw [if_pos rfl, cdiv_def, liqOne_eq, spOne_eq, Nat.add_sub_assoc (Nat.one_le_pow _ _ (by norm_num))]

/-- `calculate_x` in closed form -/
theorem calculateX_ok {n d L x : Nat} {up : Bool} (h : calculateX n d L up = .ok x) :
    0 < d ∧ x = if up then cdiv (L * n / 10 ^ 24 * 10 ^ 24 / d) (10 ^ 5)
      else L * n / 10 ^ 24 * 10 ^ 24 / d / 10 ^ 5 := by
  unfold calculateX bigMul bigDiv at h
  cases up
  · simp only [bind_ok_iff, mulC_ok_iff, divC_ok_iff, fit_ok_iff, Bool.false_eq_true, if_false] at h
    obtain ⟨_, ⟨_, ⟨_, rfl⟩, _, rfl⟩, _, ⟨_, ⟨_, rfl⟩, _, ⟨h0, rfl⟩, _, rfl⟩, e⟩ := h
    cases e
    exact ⟨Nat.pos_of_ne_zero h0, by rw [if_neg (by decide), liqOne_eq, spOne_eq]⟩
  · simp only [bind_ok_iff, mulC_ok_iff, divC_ok_iff, fit_ok_iff, addC_ok_iff, subC_ok_iff, if_true] at h
    obtain ⟨_, ⟨_, ⟨_, rfl⟩, _, rfl⟩, _, ⟨_, ⟨_, rfl⟩, _, ⟨h0, rfl⟩, _, rfl⟩, _, ⟨_, rfl⟩, _,
      ⟨_, rfl⟩, e⟩ := h
    cases e
    refine ⟨Nat.pos_of_ne_zero h0, ?_⟩
    rw [if_pos rfl, cdiv_def, liqOne_eq, spOne_eq, Nat.add_sub_assoc (Nat.one_le_pow _ _ (by norm_num))]

/-- what `calculate_y` rounded up misses -/
theorem dyUp_calculateY {a b L y : Nat} (hab : a ≤ b) (h : calculateY (b - a) L true = .ok y) :
    y ≤ dyUp a b L ∧ dyUp a b L ≤ y + cdiv (b - a) (10 ^ 24) ∧
      (10 ^ 5 ∣ L → dyUp a b L = y) := by
  have hy := calculateY_ok h
  rw [if_pos rfl] at hy
  have e : absDiff a b = b - a := by unfold absDiff; split <;> omega
  subst hy
  rw [dyUp_def, e]
  generalize b - a = d
  have hs : (10 : Nat) ^ 29 = 10 ^ 5 * 10 ^ 24 := by norm_num
  have h1 : d * (L / 10 ^ 5) * 10 ^ 5 ≤ d * L := by
    rw [Nat.mul_assoc]; exact Nat.mul_le_mul_left _ (Nat.div_mul_le_self _ _)
  have k : ∀ n, cdiv (n * 10 ^ 5) (10 ^ 29) = cdiv n (10 ^ 24) := by
    intro n
    rw [hs, Nat.mul_comm (10 ^ 5)]
    exact cdiv_mul_right n (by positivity) (by positivity)
  refine ⟨?_, ?_, ?_⟩
  · rw [← k]; exact cdiv_mono h1
  · rw [← k, ← k (n := d)]
    refine le_trans (cdiv_mono ?_) (cdiv_add_le _ _ (by positivity))
    rw [Nat.mul_assoc, ← Nat.mul_add]
    apply Nat.mul_le_mul_left
    have := Nat.lt_div_mul_add (a := L) (b := 10 ^ 5) (by positivity)
    omega
  · rintro ⟨q, rfl⟩
    rw [Nat.mul_div_cancel_left _ (by positivity), ← k]
    congr 1
    ring

/-- what `calculate_x` rounded up misses -/
theorem dxUp_calculateX {a b L x : Nat} (hab : a ≤ b)
    (h : calculateX (b - a) (a * b / 10 ^ 24) L true = .ok x) :
    dxUp a b L ≤ x + ((10 ^ 24 + a * b / 10 ^ 24) / (10 ^ 5 * (a * b / 10 ^ 24)) + 1) := by
  obtain ⟨hn, hx⟩ := calculateX_ok h
  rw [if_pos rfl] at hx
  have e : absDiff a b = b - a := by unfold absDiff; split <;> omega
  rw [dxUp_def, dxNum_def, e, cdiv_le_iff hn]
  generalize a * b / 10 ^ 24 = n at *
  have hcomm : (b - a) * L = L * (b - a) := Nat.mul_comm _ _
  rw [hcomm]
  generalize L * (b - a) = D at *
  have hA := Nat.lt_div_mul_add (a := D) (b := 10 ^ 24) (by positivity)
  generalize D / 10 ^ 24 = A at *
  have hB := Nat.lt_div_mul_add (a := A * 10 ^ 24) (b := n) hn
  generalize A * 10 ^ 24 / n = B at *
  have hr : B ≤ x * 10 ^ 5 := by
    rw [hx]; exact (cdiv_le_iff (by positivity)).1 (le_refl _)
  have hq := Nat.lt_div_mul_add (a := 10 ^ 24 + n) (b := 10 ^ 5 * n) (by positivity)
  generalize (10 ^ 24 + n) / (10 ^ 5 * n) = q at *
  have hBn : B * n ≤ x * 10 ^ 5 * n := Nat.mul_le_mul_right _ hr
  have : D < (x + (q + 1)) * n * 10 ^ 5 := by
    have e2 : (x + (q + 1)) * n * 10 ^ 5 = x * 10 ^ 5 * n + (q * (10 ^ 5 * n) + 10 ^ 5 * n) := by ring
    rw [e2]
    linarith
  exact (Nat.div_lt_of_lt_mul (by rw [Nat.mul_comm]; exact this)).le

end Verif
