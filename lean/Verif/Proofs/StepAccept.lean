import Verif.Proofs.Thin
import Verif.Props.Amounts
import Verif.Spec.Tie

/-! # An exact-input step of a swap succeeds -/

set_option exponentiation.threshold 1000

namespace Verif
open Service Spec

theorem PriceOK.pos {p : Nat} (h : PriceOK p) : 0 < p :=
  lt_of_lt_of_le (by norm_num [MIN_SQRT_PRICE]) h.1

theorem PriceOK.lt128 {p : Nat} (h : PriceOK p) : p < 2 ^ 128 :=
  lt_of_le_of_lt h.2 (by norm_num [MAX_SQRT_PRICE])

private theorem priceOK_mul {a b : Nat} (ha : PriceOK a) (hb : PriceOK b) : 23 * 10 ^ 37 ≤ a * b :=
  le_trans (by norm_num [MIN_SQRT_PRICE]) (Nat.mul_le_mul ha.1 hb.1)

private theorem absDiff_mul_le {a b : Nat} (ha : PriceOK a) (hb : PriceOK b) :
    absDiff a b * (15 * 10 ^ 18) ≤ a * b := by
  have h1 : (15 * 10 ^ 18 : Nat) ≤ a := le_trans (by norm_num [MIN_SQRT_PRICE]) ha.1
  have h2 : (15 * 10 ^ 18 : Nat) ≤ b := le_trans (by norm_num [MIN_SQRT_PRICE]) hb.1
  rcases le_total a b with h | h
  · rw [absDiff_of_le h, Nat.mul_comm a b]
    exact Nat.mul_le_mul (Nat.sub_le _ _) h1
  · rw [absDiff_of_ge h]
    exact Nat.mul_le_mul (Nat.sub_le _ _) h2

/-- the amount of token X between two prices is at most the liquidity (in raw units) -/
theorem amountX_le_liq {a b : Nat} (ha : PriceOK a) (hb : PriceOK b) (L : Nat) : amountX a b L ≤ L := by
  have hab : 0 < a * b := Nat.mul_pos ha.pos hb.pos
  rw [amountX_eq ha.pos hb.pos, div_le_iff₀ (by exact_mod_cast hab)]
  have h := absDiff_mul_le ha hb
  have : absDiff a b * L * 10 ^ 19 ≤ L * (a * b) := by
    calc absDiff a b * L * 10 ^ 19 ≤ absDiff a b * L * (15 * 10 ^ 18) :=
          Nat.mul_le_mul_left _ (by norm_num)
      _ = L * (absDiff a b * (15 * 10 ^ 18)) := by ring
      _ ≤ _ := Nat.mul_le_mul_left _ h
  exact_mod_cast this

theorem absDiff_le_max {a b : Nat} (ha : PriceOK a) (hb : PriceOK b) : absDiff a b ≤ 10 ^ 29 := by
  have h1 : a ≤ 10 ^ 29 := le_trans ha.2 (by norm_num [MAX_SQRT_PRICE])
  have h2 : b ≤ 10 ^ 29 := le_trans hb.2 (by norm_num [MAX_SQRT_PRICE])
  rcases le_total a b with h | h
  · rw [absDiff_of_le h]; omega
  · rw [absDiff_of_ge h]; omega

/-- the amount of token Y between two prices is at most the liquidity (in raw units) -/
theorem amountY_le_liq {a b : Nat} (ha : PriceOK a) (hb : PriceOK b) (L : Nat) : amountY a b L ≤ L := by
  rw [amountY_eq, div_le_iff₀ (by positivity)]
  have := Nat.mul_le_mul_right L (absDiff_le_max ha hb)
  rw [Nat.mul_comm (10 ^ 29)] at this
  exact_mod_cast this

theorem inAmt_true (a b L : Nat) : inAmt true a b L = dxUp a b L := if_pos rfl
theorem inAmt_false (a b L : Nat) : inAmt false a b L = dyUp a b L := if_neg (by decide)

private theorem three_arith {N Z : Nat} (h : N * 10 ^ 5 * (15 * 10 ^ 18) ≤ Z * (2 * 10 ^ 24)) : N ≤ 3 * Z := by
  omega

/-- the input of a whole step is at most three times the liquidity -/
theorem inAmt_le {a b L : Nat} (ha : PriceOK a) (hb : PriceOK b) (d : Bool) :
    inAmt d a b L ≤ 3 * L := by
  cases d
  · rw [inAmt_false, dyUp_def, cdiv_le_iff (by positivity)]
    have := Nat.mul_le_mul_right L (absDiff_le_max ha hb)
    omega
  · rw [inAmt_true]
    have hab := priceOK_mul ha hb
    have hD : 0 < a * b / 10 ^ 24 := Nat.div_pos (by omega) (by positivity)
    have h1 := absDiff_mul_le ha hb
    have h2 : a * b ≤ 2 * (a * b / 10 ^ 24 * 10 ^ 24) := by
      have := Nat.div_add_mod (a * b) (10 ^ 24)
      have := Nat.mod_lt (a * b) (show 0 < 10 ^ 24 by positivity)
      omega
    unfold dxUp
    rw [cdiv_le_iff hD]
    have h3 : dxNum a b L * 10 ^ 5 ≤ absDiff a b * L := by rw [dxNum_def]; exact Nat.div_mul_le_self _ _
    generalize a * b / 10 ^ 24 = D at *
    generalize dxNum a b L = N at *
    have h4 : N * 10 ^ 5 * (15 * 10 ^ 18) ≤ 2 * (D * 10 ^ 24) * L := by
      calc N * 10 ^ 5 * (15 * 10 ^ 18) ≤ absDiff a b * L * (15 * 10 ^ 18) := Nat.mul_le_mul_right _ h3
        _ = absDiff a b * (15 * 10 ^ 18) * L := by ring
        _ ≤ a * b * L := Nat.mul_le_mul_right _ h1
        _ ≤ _ := Nat.mul_le_mul_right _ h2
    have h5 : 2 * (D * 10 ^ 24) * L = L * D * (2 * 10 ^ 24) := by ring
    have h6 : 3 * L * D = 3 * (L * D) := by ring
    rw [h5] at h4
    rw [h6]
    exact three_arith h4

theorem getIn_succeeds {a b L : Nat} (ha : PriceOK a) (hb : PriceOK b) (hL : L < 2 ^ 255) (d : Bool) :
    (if d = true then getDeltaX b a L true else getDeltaY a b L true) = .ok (inAmt d a b L) := by
  have hL' : (L : ℚ) < 2 ^ 255 := by exact_mod_cast hL
  have key : ∃ x, (if d = true then getDeltaX b a L true else getDeltaY a b L true) = .ok x := by
    cases d
    · simp only [Bool.false_eq_true, if_false]
      rw [(C03_amount_y ha.lt128 hb.lt128 (lt_trans hL (by norm_num))).1, if_pos]
      · exact ⟨_, rfl⟩
      · refine lt_of_le_of_lt (Nat.ceil_le.2 (amountY_le_liq ha hb L)) (lt_trans hL (by norm_num))
    · simp only [if_true]
      exact C04_succeeds hb.1 hb.2 ha.1 ha.2 (lt_trans hL (by norm_num))
        (lt_of_le_of_lt (amountX_le_liq hb ha L) hL') true
  obtain ⟨x, hx⟩ := key
  rw [hx, (getIn_ok hx).1]

theorem getOut_succeeds {a b L : Nat} (ha : PriceOK a) (hb : PriceOK b) (hL : L < 2 ^ 255) (d : Bool) :
    (if d = true then getDeltaY b a L false else getDeltaX a b L false) = .ok (outAmt d a b L) := by
  have hL' : (L : ℚ) < 2 ^ 255 := by exact_mod_cast hL
  have key : ∃ x, (if d = true then getDeltaY b a L false else getDeltaX a b L false) = .ok x := by
    cases d
    · simp only [Bool.false_eq_true, if_false]
      exact C04_succeeds ha.1 ha.2 hb.1 hb.2 (lt_trans hL (by norm_num))
        (lt_of_le_of_lt (amountX_le_liq ha hb L) hL') false
    · simp only [if_true]
      rw [(C03_amount_y hb.lt128 ha.lt128 (lt_trans hL (by norm_num))).2, if_pos]
      · exact ⟨_, rfl⟩
      · have h1 : ⌊amountY b a L⌋₊ ≤ L := by
          have := Nat.floor_le (amountY_nonneg b a L)
          exact_mod_cast le_trans this (amountY_le_liq hb ha L)
        exact lt_of_le_of_lt h1 (lt_trans hL (by norm_num))
  obtain ⟨x, hx⟩ := key
  rw [hx, (getOut_ok hx).1]

private theorem fee_room {D : Nat} (h : 10 ^ 12 ≤ D) : (D + 1) * (10 ^ 12 - 1) ≤ D * 10 ^ 12 := by
  omega

/-- selling token X: the input charged for the move does not exceed the offer, because the fee leaves room -/
theorem x_input_le {p L amount fee : Nat} (hp : PriceOK p) (hn : PriceOK (nextX true p L (amount * (10 ^ 12 - fee) / 10 ^ 12)))
    (hf : 0 < fee) (hf2 : fee ≤ 10 ^ 12) :
    dxUp p (nextX true p L (amount * (10 ^ 12 - fee) / 10 ^ 12)) L ≤ amount := by
  have hx : amount * (10 ^ 12 - fee) / 10 ^ 12 * 10 ^ 12 ≤ amount * (10 ^ 12 - 1) :=
    le_trans (Nat.div_mul_le_self _ _) (Nat.mul_le_mul_left _ (by omega))
  generalize amount * (10 ^ 12 - fee) / 10 ^ 12 = x at *
  have hp12 : 10 ^ 12 ≤ p := le_trans (by norm_num [MIN_SQRT_PRICE]) hp.1
  have hle := nextX_add_le (L := L) (x := x) hp12
  have hpn := priceOK_mul hp hn
  have hmain : absDiff p (nextX true p L x) * L * 10 ^ 19 ≤ p * nextX true p L x * x := by
    rw [absDiff_of_ge hle]
    by_cases h0 : x = 0
    · subst h0
      unfold nextX
      simp
    · have hd : 0 < L * 10 ^ 19 + p * x := by
        have := Nat.mul_pos hp.pos (Nat.pos_of_ne_zero h0)
        omega
      have h1 : cdiv (p * L) (10 ^ 5) * 10 ^ 24 ≤ nextX true p L x * (L * 10 ^ 19 + p * x) := by
        unfold nextX
        rw [if_neg h0]
        simp only [if_true]
        exact le_cdiv_mul _ hd
      have h2 : p * L ≤ cdiv (p * L) (10 ^ 5) * 10 ^ 5 := le_cdiv_mul _ (by positivity)
      generalize nextX true p L x = n at *
      obtain ⟨k, rfl⟩ := Nat.exists_eq_add_of_le hle
      have e : n + k - n = k := by omega
      rw [e]
      have h3 : (n + k) * L * 10 ^ 19 ≤ n * (L * 10 ^ 19 + (n + k) * x) := by
        calc (n + k) * L * 10 ^ 19 ≤ cdiv ((n + k) * L) (10 ^ 5) * 10 ^ 5 * 10 ^ 19 := Nat.mul_le_mul_right _ h2
          _ = cdiv ((n + k) * L) (10 ^ 5) * 10 ^ 24 := by ring
          _ ≤ _ := h1
      have h4 : (n + k) * L * 10 ^ 19 = n * (L * 10 ^ 19) + k * L * 10 ^ 19 := by ring
      have h5 : n * (L * 10 ^ 19 + (n + k) * x) = n * (L * 10 ^ 19) + (n + k) * n * x := by ring
      rw [h4, h5] at h3
      exact Nat.le_of_add_le_add_left h3
  generalize nextX true p L x = n at *
  have hD : 10 ^ 12 ≤ p * n / 10 ^ 24 := by
    rw [Nat.le_div_iff_mul_le (by positivity)]
    exact le_trans (by norm_num) hpn
  have hD2 : p * n < (p * n / 10 ^ 24 + 1) * 10 ^ 24 := by
    have := Nat.div_add_mod (p * n) (10 ^ 24)
    have := Nat.mod_lt (p * n) (show 0 < 10 ^ 24 by positivity)
    omega
  unfold dxUp
  rw [cdiv_le_iff (by omega)]
  have h3 : dxNum p n L * 10 ^ 5 ≤ absDiff p n * L := by rw [dxNum_def]; exact Nat.div_mul_le_self _ _
  generalize dxNum p n L = N at *
  generalize p * n / 10 ^ 24 = D at *
  have h4 : N * 10 ^ 24 ≤ (D + 1) * x * 10 ^ 24 := by
    calc N * 10 ^ 24 = N * 10 ^ 5 * 10 ^ 19 := by ring
      _ ≤ absDiff p n * L * 10 ^ 19 := Nat.mul_le_mul_right _ h3
      _ ≤ p * n * x := hmain
      _ ≤ (D + 1) * 10 ^ 24 * x := Nat.mul_le_mul_right _ hD2.le
      _ = _ := by ring
  have h5 : N ≤ (D + 1) * x := Nat.le_of_mul_le_mul_right h4 (by positivity)
  have h6 : (D + 1) * x * 10 ^ 12 ≤ amount * D * 10 ^ 12 := by
    calc (D + 1) * x * 10 ^ 12 = (D + 1) * (x * 10 ^ 12) := by ring
      _ ≤ (D + 1) * (amount * (10 ^ 12 - 1)) := Nat.mul_le_mul_left _ hx
      _ = amount * ((D + 1) * (10 ^ 12 - 1)) := by ring
      _ ≤ amount * (D * 10 ^ 12) := Nat.mul_le_mul_left _ (fee_room hD)
      _ = _ := by ring
  exact le_trans h5 (Nat.le_of_mul_le_mul_right h6 (by positivity))

/-- selling token Y: the input charged for the move does not exceed the offer -/
theorem y_input_le {p L y : Nat} : dyUp p (p + y * 10 ^ 29 / L) L ≤ y := by
  rw [dyUp_def, cdiv_le_iff (by positivity), absDiff_of_le (Nat.le_add_right _ _), Nat.add_sub_cancel_left]
  exact Nat.div_mul_le_self _ _

private theorem lt_cancel {a b c d : Nat} (h : a + b < a + c + d) : b < c + d := by omega

theorem tie_of_next {p L x : Nat} (hp : PriceOK p) (ht : PriceOK (nextX true p L x))
    (h0 : x ≠ 0) : Tie p (nextX true p L x) L x := by
  have hp12 : 10 ^ 12 ≤ p := le_trans (by norm_num [MIN_SQRT_PRICE]) hp.1
  have hle := nextX_add_le (L := L) (x := x) hp12
  have hd : 0 < L * 10 ^ 19 + p * x := by
    have := Nat.mul_pos hp.pos (Nat.pos_of_ne_zero h0)
    omega
  have h1 : cdiv (p * L) (10 ^ 5) * 10 ^ 24 ≤ nextX true p L x * (L * 10 ^ 19 + p * x) := by
    unfold nextX
    rw [if_neg h0]
    simp only [if_true]
    exact le_cdiv_mul _ hd
  have h3 : nextX true p L x * (L * 10 ^ 19 + p * x) <
      cdiv (p * L) (10 ^ 5) * 10 ^ 24 + (L * 10 ^ 19 + p * x) := by
    unfold nextX
    rw [if_neg h0]
    simp only [if_true]
    exact cdiv_mul_lt _ hd
  have h2 : p * L ≤ cdiv (p * L) (10 ^ 5) * 10 ^ 5 := le_cdiv_mul _ (by positivity)
  have h4 : cdiv (p * L) (10 ^ 5) * 10 ^ 5 < p * L + 10 ^ 5 := cdiv_mul_lt _ (by positivity)
  generalize nextX true p L x = n at *
  generalize cdiv (p * L) (10 ^ 5) = c at *
  have n2 : 10 ^ 19 ≤ n := le_trans (by norm_num [MIN_SQRT_PRICE]) ht.1
  have p2 : 10 ^ 19 ≤ p := le_trans (by norm_num [MIN_SQRT_PRICE]) hp.1
  have hp0 := hp.pos
  have hn0 := ht.pos
  have e1 : c * 10 ^ 5 * 10 ^ 19 = c * 10 ^ 24 := by ring
  obtain ⟨m, rfl⟩ : ∃ m, n = m + 1 := ⟨n - 1, by omega⟩
  have hm0 : 0 < m := by omega
  constructor
  · rw [amountX_eq hp0 hn0, div_le_iff₀ (by exact_mod_cast Nat.mul_pos hp0 hn0), absDiff_of_ge hle]
    obtain ⟨k, rfl⟩ := Nat.exists_eq_add_of_le hle
    have e : m + 1 + k - (m + 1) = k := by omega
    rw [e]
    have h5 := Nat.mul_le_mul_right (10 ^ 19) h2
    have h6 : (m + 1 + k) * L * 10 ^ 19 ≤ (m + 1) * (L * 10 ^ 19 + (m + 1 + k) * x) :=
      le_trans h5 (by rw [e1]; exact h1)
    have h7 : (m + 1 + k) * L * 10 ^ 19 = (m + 1) * (L * 10 ^ 19) + k * L * 10 ^ 19 := by ring
    have h8 : (m + 1) * (L * 10 ^ 19 + (m + 1 + k) * x) =
      (m + 1) * (L * 10 ^ 19) + x * ((m + 1 + k) * (m + 1)) := by ring
    rw [h7, h8] at h6
    exact_mod_cast Nat.le_of_add_le_add_left h6
  · have e2 : m + 1 - 1 = m := by omega
    rw [e2, amountX_eq hp0 hm0, ← sub_lt_iff_lt_add,
      lt_div_iff₀ (by exact_mod_cast Nat.mul_pos hp0 hm0), absDiff_of_ge (by omega)]
    obtain ⟨k, rfl⟩ := Nat.exists_eq_add_of_le hle
    have e : m + 1 + k - m = k + 1 := by omega
    rw [e]
    have h5 : c * 10 ^ 24 < (m + 1 + k) * L * 10 ^ 19 + 10 ^ 24 := by
      have := Nat.mul_lt_mul_of_pos_right h4 (show 0 < 10 ^ 19 by positivity)
      rw [e1] at this
      calc c * 10 ^ 24 < ((m + 1 + k) * L + 10 ^ 5) * 10 ^ 19 := this
        _ = _ := by ring
    have h6 : m * (L * 10 ^ 19 + (m + 1 + k) * x) < (m + 1 + k) * L * 10 ^ 19 + 10 ^ 24 := by
      have : (m + 1) * (L * 10 ^ 19 + (m + 1 + k) * x) =
        m * (L * 10 ^ 19 + (m + 1 + k) * x) + (L * 10 ^ 19 + (m + 1 + k) * x) := by ring
      rw [this] at h3
      exact lt_trans (Nat.lt_of_add_lt_add_right h3) h5
    have h7 : (10 : Nat) ^ 24 ≤ (m + 1 + k) * m := by
      have : 10 ^ 12 * 10 ^ 12 ≤ (m + 1 + k) * m := Nat.mul_le_mul hp12 (by omega)
      exact le_trans (by norm_num) this
    have h8 : m * (L * 10 ^ 19 + (m + 1 + k) * x) = m * (L * 10 ^ 19) + x * ((m + 1 + k) * m) := by ring
    have h9 : (m + 1 + k) * L * 10 ^ 19 = m * (L * 10 ^ 19) + (k + 1) * L * 10 ^ 19 := by ring
    rw [h8, h9] at h6
    have h10 : x * ((m + 1 + k) * m) < (k + 1) * L * 10 ^ 19 + (m + 1 + k) * m :=
      lt_of_lt_of_le (lt_cancel h6) (Nat.add_le_add_left h7 _)
    rw [sub_mul, one_mul, sub_lt_iff_lt_add]
    exact_mod_cast h10

theorem stepByIn_max {cur target L amount fee : Nat} {d : Bool} (hc : PriceOK cur) (ht : PriceOK target)
    (hL : L < 2 ^ 255) (ha : amount < 2 ^ 256) (hf : fee ≤ 10 ^ 12)
    (h : inAmt d cur target L ≤ amount * (10 ^ 12 - fee) / 10 ^ 12) :
    stepByIn cur target L amount fee d = .ok (target, inAmt d cur target L) := by
  unfold stepByIn
  rw [pctOne_eq, subC_eq hf, ok_bind, tokMulPct_eq ha (Nat.sub_le _ _), ok_bind, getIn_succeeds hc ht hL d,
    ok_bind, if_pos h]
  rfl

theorem stepByIn_part {cur target L amount fee n : Nat} {d : Bool} (hc : PriceOK cur) (ht : PriceOK target)
    (hL : L < 2 ^ 255) (ha : amount < 2 ^ 256) (hf : fee ≤ 10 ^ 12)
    (h : amount * (10 ^ 12 - fee) / 10 ^ 12 < inAmt d cur target L)
    (hn : getNextSqrtPriceFromInput cur L (amount * (10 ^ 12 - fee) / 10 ^ 12) d = .ok n) :
    stepByIn cur target L amount fee d = .ok (n, inAmt d cur target L) := by
  unfold stepByIn
  rw [pctOne_eq, subC_eq hf, ok_bind, tokMulPct_eq ha (Nat.sub_le _ _), ok_bind, getIn_succeeds hc ht hL d,
    ok_bind, if_neg (by omega), hn]
  rfl

/-- a step that ends on its target -/
theorem step_on_target {cur target L amount fee : Nat} (hc : PriceOK cur) (ht : PriceOK target) (hL0 : L ≠ 0)
    (hL : L < 2 ^ 255) (hf : fee ≤ 10 ^ 12)
    (h : stepByIn cur target L amount fee (decide (cur ≥ target)) =
      .ok (target, inAmt (decide (cur ≥ target)) cur target L)) :
    computeSwapStep cur target L amount true fee = .ok ⟨target, inAmt (decide (cur ≥ target)) cur target L,
      outAmt (decide (cur ≥ target)) cur target L,
      cdiv (inAmt (decide (cur ≥ target)) cur target L * fee) (10 ^ 12)⟩ := by
  have hi := (getIn_ok (getIn_succeeds hc ht hL (decide (cur ≥ target)))).2.1
  have ho := getOut_succeeds hc ht hL (decide (cur ≥ target))
  unfold computeSwapStep
  rw [if_neg hL0]
  generalize inAmt (decide (cur ≥ target)) cur target L = i at *
  generalize outAmt (decide (cur ≥ target)) cur target L = o at *
  have hfee := tokMulPctUp_eq hi hf
  generalize cdiv (i * fee) (10 ^ 12) = f at *
  simp only [if_true, bind_ok_iff, pure_ok_iff]
  refine ⟨(target, i, 0), ⟨(target, i), h, rfl⟩, i, ?_, o, ?_, f, ?_, ?_⟩
  · rw [if_neg (by simp)]; rfl
  · rw [if_pos (by simp)]; exact ho
  · rw [if_neg (by simp)]; exact hfee
  · rw [if_neg (by simp)]

/-- a step that ends before its target -/
theorem step_part {cur target L amount fee n i0 : Nat} (hc : PriceOK cur) (hn : PriceOK n) (hL0 : L ≠ 0)
    (hL : L < 2 ^ 255) (hne : n ≠ target)
    (h : stepByIn cur target L amount fee (decide (cur ≥ target)) = .ok (n, i0))
    (hle : inAmt (decide (cur ≥ target)) cur n L ≤ amount) :
    computeSwapStep cur target L amount true fee = .ok ⟨n, inAmt (decide (cur ≥ target)) cur n L,
      outAmt (decide (cur ≥ target)) cur n L, amount - inAmt (decide (cur ≥ target)) cur n L⟩ := by
  have hi := getIn_succeeds hc hn hL (decide (cur ≥ target))
  have ho := getOut_succeeds hc hn hL (decide (cur ≥ target))
  unfold computeSwapStep
  rw [if_neg hL0]
  generalize inAmt (decide (cur ≥ target)) cur n L = i at *
  generalize outAmt (decide (cur ≥ target)) cur n L = o at *
  simp only [if_true, bind_ok_iff, pure_ok_iff]
  refine ⟨(n, i0, 0), ⟨(n, i0), h, rfl⟩, i, ?_, o, ?_, amount - i, ?_, ?_⟩
  · rw [if_pos (by simp [hne.symm])]; exact hi
  · rw [if_pos (by simp)]; exact ho
  · rw [if_pos (by simp [hne])]; exact subC_eq hle
  · rw [if_neg (by simp)]

theorem fee_fit_max {i L fee : Nat} (hf : fee ≤ 10 ^ 12) (hL : 0 < L) (hi : i ≤ 3 * L) :
    cdiv (i * fee) (10 ^ 12) * 10 ^ 33 < 2 ^ 128 * L := by
  have h1 : cdiv (i * fee) (10 ^ 12) ≤ i := by
    rw [cdiv_le_iff (by positivity)]
    exact Nat.mul_le_mul_left _ hf
  have h2 : cdiv (i * fee) (10 ^ 12) * 10 ^ 33 ≤ 3 * L * 10 ^ 33 :=
    Nat.mul_le_mul_right _ (le_trans h1 hi)
  refine lt_of_le_of_lt h2 ?_
  have : 3 * L * 10 ^ 33 = 3 * 10 ^ 33 * L := by ring
  rw [this]
  exact Nat.mul_lt_mul_of_pos_right (by norm_num) hL

/-- an amount whose part after fees is small compared with the liquidity is itself small, as the fee is not
close to 100% -/
theorem fee_fit_part {amount L fee : Nat} (hf : fee ≤ 10 ^ 12 - 10 ^ 7)
    (h : amount * (10 ^ 12 - fee) / 10 ^ 12 < 3 * L) : amount * 10 ^ 33 < 2 ^ 128 * L := by
  have h1 : amount * (10 ^ 12 - fee) < 3 * L * 10 ^ 12 := (Nat.div_lt_iff_lt_mul (by positivity)).1 h
  have h2 : amount * 10 ^ 7 ≤ amount * (10 ^ 12 - fee) := Nat.mul_le_mul_left _ (by omega)
  have h3 : amount * 10 ^ 7 * 10 ^ 26 < 3 * L * 10 ^ 12 * 10 ^ 26 :=
    Nat.mul_lt_mul_of_pos_right (lt_of_le_of_lt h2 h1) (by positivity)
  calc amount * 10 ^ 33 = amount * 10 ^ 7 * 10 ^ 26 := by ring
    _ < 3 * L * 10 ^ 12 * 10 ^ 26 := h3
    _ = 3 * 10 ^ 38 * L := by ring
    _ ≤ 2 ^ 128 * L := Nat.mul_le_mul_right _ (by norm_num)

private theorem le_of_slack {a b c e : Nat} (h1 : a + e ≤ b) (h2 : b ≤ c + e) : a ≤ c := by omega

/-- what is known of a step with an exact input -/
structure StepIn (cur target L amount fee : Nat) (r : SwapResult) : Prop where
  price : PriceOK r.nextSqrtPrice
  feeFits : r.feeAmount * 10 ^ 33 < 2 ^ 128 * L
  out : r.amountOut = outAmt (decide (cur ≥ target)) cur r.nextSqrtPrice L
  sum : r.amountIn + r.feeAmount ≤ amount ∨
    (target < cur ∧ Tie cur target L (amount * (10 ^ 12 - fee) / 10 ^ 12))

theorem step_in_succeeds {cur target L amount fee : Nat} (hc : PriceOK cur) (ht : PriceOK target)
    (hsl : target < cur → MIN_SQRT_PRICE + 65536 ≤ target) (hL0 : L ≠ 0) (hL : L < 2 ^ 255)
    (ha : amount < 2 ^ 256) (hf : target < cur → 0 < fee) (hf2 : fee ≤ 10 ^ 12 - 10 ^ 7) :
    ∃ r, computeSwapStep cur target L amount true fee = .ok r ∧ StepIn cur target L amount fee r := by
  have hLp : 0 < L := Nat.pos_of_ne_zero hL0
  have hf1 : fee ≤ 10 ^ 12 := le_trans hf2 (Nat.sub_le _ _)
  have hL6 : L < 2 ^ 256 := lt_trans hL (by norm_num)
  rcases Nat.lt_or_ge (amount * (10 ^ 12 - fee) / 10 ^ 12) (inAmt (decide (cur ≥ target)) cur target L) with h | h
  swap
  · exact ⟨_, step_on_target hc ht hL0 hL hf1 (stepByIn_max hc ht hL ha hf1 h), ht,
      fee_fit_max hf1 hLp (inAmt_le hc ht _), rfl, .inl (in_add_fee_le hf1 h)⟩
  have hx6 : amount * (10 ^ 12 - fee) / 10 ^ 12 < 2 ^ 256 :=
    lt_of_le_of_lt (Nat.div_le_of_le_mul (by
      rw [Nat.mul_comm (10 ^ 12)]; exact Nat.mul_le_mul_left _ (Nat.sub_le _ _))) ha
  have hsmall := fee_fit_part hf2 (lt_of_lt_of_le h (inAmt_le hc ht _))
  rcases Nat.lt_or_ge cur target with hct | hct
  · have hd : decide (cur ≥ target) = false := by simpa using hct
    rw [hd, inAmt_false] at h
    have hlt := nextY_add_lt hct.le hLp h
    obtain ⟨n, hn⟩ := (nextYDown_add_iff hc hL6 hx6).2 ⟨hLp, lt_trans hlt ht.lt128⟩
    obtain ⟨e, -, -⟩ := getNextSqrtPriceYDown_add_ok hn
    have hnOK : PriceOK n := by
      subst e
      exact ⟨le_trans hc.1 (Nat.le_add_right _ _), le_trans hlt.le ht.2⟩
    have hle : inAmt (decide (cur ≥ target)) cur n L ≤ amount := by
      rw [hd, inAmt_false, e]
      refine le_trans y_input_le (Nat.div_le_of_le_mul ?_)
      rw [Nat.mul_comm (10 ^ 12)]
      exact Nat.mul_le_mul_left _ (Nat.sub_le _ _)
    have hne : n ≠ target := by rw [e]; omega
    refine ⟨_, step_part hc hnOK hL0 hL hne (stepByIn_part hc ht hL ha hf1 (by rw [hd, inAmt_false]; exact h) (n := n) ?_) hle,
      hnOK, ?_, rfl, .inl ?_⟩
    · rw [hd]
      unfold getNextSqrtPriceFromInput
      rw [if_neg (by decide)]
      exact hn
    · exact lt_of_le_of_lt (Nat.mul_le_mul_right _ (Nat.sub_le _ _)) hsmall
    · exact le_of_eq (Nat.add_sub_cancel' hle)
  · have hd : decide (cur ≥ target) = true := by simpa using hct
    have h' := h
    rw [hd, inAmt_true] at h'
    have hlt : target < cur := by
      rcases Nat.lt_or_ge target cur with h1 | h1
      · exact h1
      · have e : target = cur := le_antisymm hct h1
        subst e
        have : dxUp target target L = 0 := by
          unfold dxUp
          have : dxNum target target L = 0 := by rw [dxNum_def, absDiff_of_ge le_rfl]; simp
          rw [this, cdiv_def, Nat.zero_add]
          have hpos : 0 < target * target / 10 ^ 24 :=
            Nat.div_pos (le_trans (by norm_num) (priceOK_mul ht ht)) (by positivity)
          exact Nat.div_eq_of_lt (Nat.sub_lt hpos Nat.one_pos)
        omega
    have hslack := hsl hlt
    have hn := nextXUp_add_eq (p := cur) (L := L) hc hL6 hx6
    have hpos : 0 < cur * target / 10 ^ 24 :=
      Nat.div_pos (le_trans (by norm_num) (priceOK_mul hc ht)) (by positivity)
    have hge := le_nextX_add_slack (e := 65536) hlt.le hLp
      (le_trans (by norm_num [MIN_SQRT_PRICE]) (Nat.mul_le_mul_left 65536 hc.1)) hpos h'
    have hle := nextX_add_le (L := L) (x := amount * (10 ^ 12 - fee) / 10 ^ 12)
      (le_trans (by norm_num [MIN_SQRT_PRICE]) hc.1 : 10 ^ 12 ≤ cur)
    have hnOK : PriceOK (nextX true cur L (amount * (10 ^ 12 - fee) / 10 ^ 12)) :=
      ⟨le_of_slack hslack hge, le_trans hle hc.2⟩
    have hin := x_input_le hc hnOK (hf hlt) hf1
    have hsn : stepByIn cur target L amount fee (decide (cur ≥ target)) =
        .ok (nextX true cur L (amount * (10 ^ 12 - fee) / 10 ^ 12), inAmt (decide (cur ≥ target)) cur target L) := by
      refine stepByIn_part hc ht hL ha hf1 h ?_
      rw [hd]
      unfold getNextSqrtPriceFromInput
      rw [if_pos rfl]
      exact hn
    by_cases hne : nextX true cur L (amount * (10 ^ 12 - fee) / 10 ^ 12) = target
    · rw [hne] at hsn
      refine ⟨_, step_on_target hc ht hL0 hL hf1 hsn, ht, fee_fit_max hf1 hLp (inAmt_le hc ht _), rfl,
        .inr ⟨hlt, ?_⟩⟩
      have h0 : amount * (10 ^ 12 - fee) / 10 ^ 12 ≠ 0 := by
        intro h0
        rw [h0] at hne
        unfold nextX at hne
        rw [if_pos rfl] at hne
        omega
      have := tie_of_next hc hnOK h0
      rwa [hne] at this
    · have hle' : inAmt (decide (cur ≥ target)) cur
          (nextX true cur L (amount * (10 ^ 12 - fee) / 10 ^ 12)) L ≤ amount := by
        rw [hd, inAmt_true]; exact hin
      refine ⟨_, step_part hc hnOK hL0 hL hne hsn hle', hnOK, ?_, rfl, .inl ?_⟩
      · exact lt_of_le_of_lt (Nat.mul_le_mul_right _ (Nat.sub_le _ _)) hsmall
      · exact le_of_eq (Nat.add_sub_cancel' hle')

end Verif
