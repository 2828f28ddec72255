import Verif.Model.Concentration
import Verif.Spec.Concentration
import Mathlib.Tactic.Linarith
import Mathlib.Tactic.FieldSimp
import Mathlib.Tactic.Positivity
import Mathlib.Tactic.Ring

/-!
# Property C113: concentrations and widths of ranges

About the helpers with which a user interface offers ranges, in the real numbers (the floating-point roundings are not
in the model).
-/

set_option exponentiation.threshold 300000

namespace Verif
open Sdk Spec

variable {ts mr n m c : ℝ}

private theorem factor_pos : (0 : ℝ) < CONCENTRATION_FACTOR := by norm_num [CONCENTRATION_FACTOR]

private theorem pow_lt_one (h : 0 < ts * (mr + 2 * n)) : (1.0001 : ℝ) ^ (-ts * (mr + 2 * n) / 4) < 1 :=
  Real.rpow_lt_one_of_one_lt_of_neg (by norm_num) (by nlinarith)

private theorem pow_pos' (y : ℝ) : (0 : ℝ) < (1.0001 : ℝ) ^ y := Real.rpow_pos_of_pos (by norm_num) _

/-- C113, what the number means: the tokens behind a range of `ts·(mr+2n)/2` ticks to both sides are worth as many times
less than those behind the same liquidity at all prices as `calculateConcentration` says, up to the constant factor. -/
theorem C113_meaning (h : 0 < ts * (mr + 2 * n)) {L s : ℝ} (hs : 0 < s) :
    rangeValue L s (ticksAway s (-(ts * (mr + 2 * n) / 2))) (ticksAway s (ts * (mr + 2 * n) / 2)) *
      (calculateConcentration ts mr n * CONCENTRATION_FACTOR) = wholeValue L s := by
  have e1 : -(ts * (mr + 2 * n) / 2) / 2 = -ts * (mr + 2 * n) / 4 := by ring
  have e2 : ts * (mr + 2 * n) / 2 / 2 = -(-ts * (mr + 2 * n) / 4) := by ring
  unfold rangeValue wholeValue ticksAway calculateConcentration
  rw [e1, e2, Real.rpow_neg (by norm_num)]
  have h1 := pow_lt_one h
  have h2 := pow_pos' (-ts * (mr + 2 * n) / 4)
  generalize (1.0001 : ℝ) ^ (-ts * (mr + 2 * n) / 4) = q at *
  have h3 : 1 - q ≠ 0 := by linarith
  have h4 := factor_pos.ne'
  field_simp

/-- C113, the constant: the range of all ticks counts as 1 up to 2·10^-9. -/
theorem C113_factor : |1 / (1 - (1.0001 : ℝ) ^ (-(221818 : ℝ) / 2)) / CONCENTRATION_FACTOR - 1| < 2 / 10 ^ 9 := by
  have e : (1.0001 : ℝ) ^ (-(221818 : ℝ) / 2) = ((10000 : ℝ) / 10001) ^ (110909 : ℕ) := by
    rw [show (-(221818 : ℝ) / 2) = -((110909 : ℕ) : ℝ) by norm_num, Real.rpow_neg (by norm_num), Real.rpow_natCast,
      ← inv_pow]
    congr 1
    norm_num
  have n1 : 10000 ^ 110909 * 10 ^ 13 < 152589325 * 10001 ^ 110909 := by decide +kernel
  have n2 : 152589320 * 10001 ^ 110909 < 10000 ^ 110909 * 10 ^ 13 := by decide +kernel
  have r1 : ((10000 : ℝ) / 10001) ^ (110909 : ℕ) < 152589325 / 10 ^ 13 := by
    rw [div_pow, div_lt_div_iff₀ (by positivity) (by positivity)]
    exact_mod_cast n1
  have r2 : 152589320 / 10 ^ 13 < ((10000 : ℝ) / 10001) ^ (110909 : ℕ) := by
    rw [div_pow, div_lt_div_iff₀ (by positivity) (by positivity)]
    exact_mod_cast n2
  rw [e]
  clear e n1 n2
  generalize ((10000 : ℝ) / 10001) ^ (110909 : ℕ) = q at *
  have h1 : 0 < 1 - q := by linarith [show (152589325 : ℝ) / 10 ^ 13 < 1 by norm_num]
  unfold CONCENTRATION_FACTOR
  rw [div_div, abs_lt]
  constructor
  · rw [lt_sub_iff_add_lt, lt_div_iff₀ (by positivity)]
    norm_num at *
    linarith
  · rw [sub_lt_iff_lt_add, div_lt_iff₀ (by positivity)]
    norm_num at *
    linarith

/-- C113: the wider the range, the smaller the concentration. -/
theorem C113_decreasing (ht : 0 < ts) (hn : 0 < mr + 2 * n) (hlt : n < m) :
    calculateConcentration ts mr m < calculateConcentration ts mr n ∧ 0 < calculateConcentration ts mr m := by
  have h1 := pow_lt_one (mul_pos ht hn)
  have h2 := pow_lt_one (mul_pos ht (show 0 < mr + 2 * m by linarith))
  have h3 : (1.0001 : ℝ) ^ (-ts * (mr + 2 * m) / 4) < (1.0001 : ℝ) ^ (-ts * (mr + 2 * n) / 4) :=
    Real.rpow_lt_rpow_of_exponent_lt (by norm_num) (by nlinarith)
  unfold calculateConcentration
  refine ⟨div_lt_div_of_pos_right ?_ factor_pos, div_pos (one_div_pos.2 (by linarith)) factor_pos⟩
  exact one_div_lt_one_div_of_lt (by linarith) (by linarith)

/-- C113: `calculateTickDelta` gives the narrowest range whose concentration is no more than the one asked for. -/
theorem C113_least (ht : 0 < ts) (hc : 1 < c * CONCENTRATION_FACTOR) {k : ℤ} (hk : 0 < mr + 2 * (k : ℝ)) :
    calculateTickDelta ts mr c ≤ k ↔ calculateConcentration ts mr k ≤ c := by
  have hg : (0 : ℝ) < Real.log 1.0001 := Real.log_pos (by norm_num)
  have hcf : 0 < c * CONCENTRATION_FACTOR := by linarith
  have hu : 0 < 1 - 1 / (c * CONCENTRATION_FACTOR) := by
    have : 1 / (c * CONCENTRATION_FACTOR) < 1 := by rw [div_lt_one hcf]; exact hc
    linarith
  have hq := pow_lt_one (mul_pos ht hk)
  have hq0 := pow_pos' (-ts * (mr + 2 * (k : ℝ)) / 4)
  have L : calculateConcentration ts mr k ≤ c ↔
      (1.0001 : ℝ) ^ (-ts * (mr + 2 * (k : ℝ)) / 4) ≤ 1 - 1 / (c * CONCENTRATION_FACTOR) := by
    unfold calculateConcentration
    rw [div_le_iff₀ factor_pos, div_le_iff₀ (by linarith)]
    constructor
    · intro h
      have : 1 / (c * CONCENTRATION_FACTOR) ≤ 1 - (1.0001 : ℝ) ^ (-ts * (mr + 2 * (k : ℝ)) / 4) := by
        rw [div_le_iff₀ hcf]; linarith
      linarith
    · intro h
      have h' : 1 / (c * CONCENTRATION_FACTOR) ≤ 1 - (1.0001 : ℝ) ^ (-ts * (mr + 2 * (k : ℝ)) / 4) := by linarith
      rw [div_le_iff₀ hcf] at h'
      linarith
  rw [L, ← Real.log_le_log_iff hq0 hu, Real.log_rpow (by norm_num)]
  unfold calculateTickDelta
  simp only
  rw [Int.ceil_le, Real.log_div hu.ne' (pow_pos' _).ne', Real.log_rpow (by norm_num), Real.log_rpow (by norm_num)]
  generalize Real.log (1 - 1 / (c * CONCENTRATION_FACTOR)) = u
  generalize Real.log (1.0001 : ℝ) = g at *
  have e : (u - -ts * mr / 4 * g) / (-(ts / 4) * g) / 2 = -(4 * u + ts * mr * g) / (2 * (ts * g)) := by
    field_simp
    ring
  rw [e, div_le_iff₀ (by positivity)]
  constructor <;> intro h <;> nlinarith

/-- C113: the two helpers are inverse to each other. -/
theorem C113_inverse (ht : 0 < ts) {k : ℤ} (hk : 0 < mr + 2 * (k : ℝ)) :
    calculateTickDelta ts mr (calculateConcentration ts mr k) = k := by
  have hg : (0 : ℝ) < Real.log 1.0001 := Real.log_pos (by norm_num)
  have hq := pow_lt_one (mul_pos ht hk)
  have e : 1 - 1 / (calculateConcentration ts mr k * CONCENTRATION_FACTOR) =
      (1.0001 : ℝ) ^ (-ts * (mr + 2 * (k : ℝ)) / 4) := by
    unfold calculateConcentration
    rw [div_mul_cancel₀ _ factor_pos.ne', one_div_one_div]
    ring
  unfold calculateTickDelta
  simp only
  rw [e, Real.log_div (pow_pos' _).ne' (pow_pos' _).ne', Real.log_rpow (by norm_num), Real.log_rpow (by norm_num),
    Real.log_rpow (by norm_num)]
  generalize Real.log (1.0001 : ℝ) = g at *
  have e : (-ts * (mr + 2 * (k : ℝ)) / 4 * g - -ts * mr / 4 * g) / (-(ts / 4) * g) / 2 = k := by
    field_simp
    ring
  rw [e, Int.ceil_intCast]

/-- a concentration of at most that of the minimal range does not make the range narrower -/
private theorem delta_nonneg (ht : 0 < ts) (hm : 0 < mr) (hc : 1 < c * CONCENTRATION_FACTOR)
    (hle : c ≤ calculateConcentration ts mr 0) : 0 ≤ calculateTickDelta ts mr c := by
  have hg : (0 : ℝ) < Real.log 1.0001 := Real.log_pos (by norm_num)
  have hcf : 0 < c * CONCENTRATION_FACTOR := by linarith
  have hu : 0 < 1 - 1 / (c * CONCENTRATION_FACTOR) := by
    have : 1 / (c * CONCENTRATION_FACTOR) < 1 := by rw [div_lt_one hcf]; exact hc
    linarith
  have h0 : 0 < mr + 2 * (0 : ℝ) := by linarith
  have hq := pow_lt_one (mul_pos ht h0)
  unfold calculateConcentration at hle
  rw [le_div_iff₀ factor_pos, le_div_iff₀ (by linarith)] at hle
  have h1 : 1 - 1 / (c * CONCENTRATION_FACTOR) ≤ (1.0001 : ℝ) ^ (-ts * (mr + 2 * (0 : ℝ)) / 4) := by
    have : 1 - (1.0001 : ℝ) ^ (-ts * (mr + 2 * (0 : ℝ)) / 4) ≤ 1 / (c * CONCENTRATION_FACTOR) := by
      rw [le_div_iff₀ hcf]; linarith
    linarith
  have h2 := Real.log_le_log hu h1
  rw [Real.log_rpow (by norm_num)] at h2
  unfold calculateTickDelta
  simp only
  refine Int.ceil_nonneg ?_
  rw [Real.log_div hu.ne' (pow_pos' _).ne', Real.log_rpow (by norm_num), Real.log_rpow (by norm_num)]
  generalize Real.log (1 - 1 / (c * CONCENTRATION_FACTOR)) = u at *
  generalize Real.log (1.0001 : ℝ) = g at *
  refine div_nonneg (div_nonneg_of_nonpos ?_ ?_) (by norm_num)
  · nlinarith
  · nlinarith [mul_pos ht hg]

/-! ### the array -/

/-- what the first loop compares with -/
private noncomputable def before (ts mr last : ℝ) (k i : Nat) : ℝ :=
  if i = 0 then last else calculateConcentration ts mr ((k + i - 1 : ℕ) : ℝ)

private theorem collect_spec (hpos : ∀ i : ℕ, 0 < calculateConcentration ts mr i) : ∀ (fuel k : Nat) (last : ℝ),
    last < fuel → ∃ j, collect ts mr fuel k last =
      some ((List.range' k (j + 1)).map fun i : ℕ => calculateConcentration ts mr i) ∧
      (∀ i < j, 1 ≤ before ts mr last k i - calculateConcentration ts mr ((k + i : ℕ) : ℝ)) ∧
      before ts mr last k j - calculateConcentration ts mr ((k + j : ℕ) : ℝ) < 1 ∨ last < 0 := by
  intro fuel
  induction fuel with
  | zero =>
    intro k last h
    exact ⟨0, .inr (by simpa using h)⟩
  | succ fuel ih =>
    intro k last h
    by_cases hc : last - calculateConcentration ts mr (k : ℝ) ≥ 1
    · have hlt : calculateConcentration ts mr (k : ℝ) < fuel := by
        push_cast at h
        linarith
      obtain ⟨j, ⟨h1, h2, h3⟩ | h1⟩ := ih (k + 1) _ hlt
      · refine ⟨j + 1, .inl ⟨?_, fun i hi => ?_, ?_⟩⟩
        · simp only [collect]
          rw [if_pos hc, h1, List.range'_succ]
          rfl
        · cases i with
          | zero => simpa [before] using hc
          | succ i =>
            have := h2 i (by omega)
            have e : before ts mr last k (i + 1) = before ts mr (calculateConcentration ts mr k) (k + 1) i := by
              unfold before
              rw [if_neg (by omega)]
              cases i with
              | zero => simp
              | succ i => rw [if_neg (by omega)]; congr 2; omega
            rw [e, show k + (i + 1) = k + 1 + i by omega]
            exact this
        · have e : before ts mr last k (j + 1) = before ts mr (calculateConcentration ts mr k) (k + 1) j := by
            unfold before
            rw [if_neg (by omega)]
            cases j with
            | zero => simp
            | succ i => rw [if_neg (by omega)]; congr 2; omega
          rw [e, show k + (j + 1) = k + 1 + j by omega]
          exact h3
      · exact absurd (hpos k) (by linarith)
    · refine ⟨0, .inl ⟨?_, fun i hi => absurd hi (by omega), ?_⟩⟩
      · simp only [collect]
        rw [if_neg hc]
        rfl
      · simp only [before, if_true, Nat.add_zero]
        linarith

private theorem countDown_mem : ∀ {n : Nat} {x : ℝ}, x ∈ countDown n ↔ ∃ k : ℕ, 2 ≤ k ∧ k ≤ n ∧ x = k
  | 0, x => by
    simp only [countDown, List.not_mem_nil, false_iff]
    rintro ⟨k, h1, h2, -⟩
    omega
  | 1, x => by
    simp only [countDown, List.not_mem_nil, false_iff]
    rintro ⟨k, h1, h2, -⟩
    omega
  | n + 2, x => by
    rw [countDown, List.mem_cons, countDown_mem]
    constructor
    · rintro (rfl | ⟨k, h1, h2, rfl⟩)
      · exact ⟨n + 2, by omega, by omega, by push_cast; ring⟩
      · exact ⟨k, h1, by omega, rfl⟩
    · rintro ⟨k, h1, h2, rfl⟩
      rcases Nat.lt_or_ge k (n + 2) with h | h
      · exact .inr ⟨k, h1, by omega, rfl⟩
      · have : k = n + 2 := by omega
        subst this
        exact .inl (by push_cast; ring)

private theorem conc_pos (ht : 0 < ts) (hm : 0 < mr) (i : ℕ) :
    0 < calculateConcentration ts mr i ∧ 1 < calculateConcentration ts mr i * CONCENTRATION_FACTOR := by
  have hi : 0 < mr + 2 * (i : ℝ) := by positivity
  have h1 := pow_lt_one (mul_pos ht hi)
  have h2 := pow_pos' (-ts * (mr + 2 * (i : ℝ)) / 4)
  unfold calculateConcentration
  refine ⟨div_pos (one_div_pos.2 (by linarith)) factor_pos, ?_⟩
  rw [div_mul_cancel₀ _ factor_pos.ne', lt_div_iff₀ (by linarith)]
  linarith

/-- C113, the array of offers: the loop ends. It collects the concentrations of the minimal range and of the ranges wider
by 1, 2, … up to the first that differs from the previous one by less than 1, and adds the integers from there down
to 2. All this is cut to what fits between the current tick and the last. -/
theorem C113_array {spacing range : Nat} (hs : 0 < spacing) (hr : 0 < range) {cur : Int} {fuel : Nat}
    (hf : calculateConcentration spacing range 0 + 1 < fuel) :
    ∃ K : ℕ, 1 ≤ K ∧
      (∀ i : ℕ, 1 ≤ i → i < K →
        1 ≤ calculateConcentration spacing range ((i - 1 : ℕ) : ℝ) - calculateConcentration spacing range (i : ℝ)) ∧
      calculateConcentration spacing range ((K - 1 : ℕ) : ℝ) - calculateConcentration spacing range (K : ℝ) < 1 ∧
      getConcentrationArray fuel spacing range cur = some
        (if (range : ℝ) / 2 * spacing > (alignTick 221818 spacing : ℤ) - |(cur : ℝ)| then
          .error (.inv .TickLimitReached)
        else .ok ((((List.range (K + 1)).map fun i : ℕ => calculateConcentration spacing range i) ++
            countDown ⌈calculateConcentration spacing range (K : ℝ)⌉₊).take
          ⌊((alignTick 221818 spacing : ℤ) - |(cur : ℝ)| - (range : ℝ) / 2 * spacing) / spacing⌋₊)) := by
  have ht : (0 : ℝ) < spacing := by exact_mod_cast hs
  have hm : (0 : ℝ) < range := by exact_mod_cast hr
  obtain ⟨j, ⟨h1, h2, h3⟩ | h1⟩ := collect_spec (fun i => (conc_pos ht hm i).1) fuel 0 _ hf
  · have hj : j ≠ 0 := by
      rintro rfl
      simp [before] at h3
    refine ⟨j, by omega, fun i hi hij => ?_, ?_, ?_⟩
    · have := h2 i hij
      simp only [before, if_neg (show i ≠ 0 by omega), Nat.zero_add] at this
      exact this
    · simp only [before, if_neg hj, Nat.zero_add] at h3
      exact h3
    · unfold getConcentrationArray
      have e : getMaxTick 1 = 221818 := by decide
      have el : ((List.range' 0 (j + 1)).map fun i : ℕ => calculateConcentration spacing range (i : ℝ)).getLastD 0 =
          calculateConcentration spacing range (j : ℝ) := by
        rw [← List.range_eq_range', List.range_succ, List.map_append]
        simp
      rw [h1, Option.map_some]
      simp only [el, e]
      rw [List.range_eq_range']
  · have := (conc_pos ht hm 0).1
    simp only [Nat.cast_zero] at this
    linarith

/-- C113 for the offers, when the minimal range and the next differ by at least 1 (full statement: for all minimal
ranges; refuted by `C113_negation`): every offer belongs to a range that is no narrower than the minimal one. -/
theorem C113_offers_partial {spacing range : Nat} (hs : 0 < spacing) (hr : 0 < range) {cur : Int} {fuel : Nat}
    (hf : calculateConcentration spacing range 0 + 1 < fuel)
    (hd : 1 ≤ calculateConcentration spacing range 0 - calculateConcentration spacing range 1)
    {l : List ℝ} (hl : getConcentrationArray fuel spacing range cur = some (.ok l)) {c : ℝ} (hc : c ∈ l) :
    1 < c * CONCENTRATION_FACTOR ∧ c ≤ calculateConcentration spacing range 0 ∧
      0 ≤ calculateTickDelta spacing range c := by
  have ht : (0 : ℝ) < spacing := by exact_mod_cast hs
  have hm : (0 : ℝ) < range := by exact_mod_cast hr
  obtain ⟨K, h1, -, h3, h4⟩ := C113_array hs hr (cur := cur) hf
  rw [h4] at hl
  have hK : 1 < K := by
    by_contra hK
    have : K = 1 := by omega
    subst this
    simp only [Nat.sub_self, Nat.cast_zero, Nat.cast_one] at h3
    linarith
  have mono : ∀ i j : ℕ, i < j → calculateConcentration spacing range (j : ℝ) < calculateConcentration spacing range i :=
    fun i j hij => (C113_decreasing ht (by positivity) (by exact_mod_cast hij)).1
  have hmem : c ∈ ((List.range (K + 1)).map fun i : ℕ => calculateConcentration spacing range (i : ℝ)) ++
      countDown ⌈calculateConcentration spacing range (K : ℝ)⌉₊ := by
    split at hl
    · simp at hl
    · simp only [Option.some.injEq, Except.ok.injEq] at hl
      rw [← hl] at hc
      exact List.mem_of_mem_take hc
  have key : 1 < c * CONCENTRATION_FACTOR ∧ c ≤ calculateConcentration spacing range 0 := by
    rw [List.mem_append] at hmem
    rcases hmem with hmem | hmem
    · obtain ⟨i, -, rfl⟩ := List.mem_map.1 hmem
      refine ⟨(conc_pos ht hm i).2, ?_⟩
      rcases Nat.eq_zero_or_pos i with rfl | hi
      · simp
      · have := mono 0 i hi
        simp only [Nat.cast_zero] at this
        exact this.le
    · obtain ⟨k, k1, k2, rfl⟩ := countDown_mem.1 hmem
      constructor
      · have : (2 : ℝ) ≤ k := by exact_mod_cast k1
        unfold CONCENTRATION_FACTOR
        linarith
      · have a1 : (k : ℝ) ≤ ⌈calculateConcentration spacing range (K : ℝ)⌉₊ := by exact_mod_cast k2
        have a2 := Nat.ceil_lt_add_one (conc_pos ht hm K).1.le
        have a3 := mono 1 K hK
        simp only [Nat.cast_one] at a3
        linarith
  exact ⟨key.1, key.2, delta_nonneg ht hm key.1 key.2⟩

/-- The range of spacing 4 with 10 more steps than the minimum of 2: there and back. -/
example : calculateTickDelta 4 2 (calculateConcentration 4 2 10) = 10 := by
  have h := C113_inverse (ts := 4) (mr := 2) (k := 10) (by norm_num) (by norm_num)
  exact_mod_cast h

/-- C113: the condition of `C113_offers_partial` holds for the arrays the SDK computes itself (`CONCENTRATION_ARRAY`),
with a minimal range of 2 steps and spacings of at most 100. -/
theorem C113_own {spacing : Nat} (hs : 0 < spacing) (hs' : spacing ≤ 100) :
    1 ≤ calculateConcentration spacing (2 : ℕ) 0 - calculateConcentration spacing (2 : ℕ) 1 := by
  have ht : (0 : ℝ) < spacing := by exact_mod_cast hs
  have ht' : (spacing : ℝ) ≤ 100 := by exact_mod_cast hs'
  have h1 : (1.0001 : ℝ) ^ (-(spacing : ℝ) / 2) < 1 := Real.rpow_lt_one_of_one_lt_of_neg (by norm_num) (by linarith)
  have h2 : (0.99 : ℝ) < (1.0001 : ℝ) ^ (-(spacing : ℝ) / 2) := by
    refine lt_of_lt_of_le ?_ (Real.rpow_le_rpow_of_exponent_le (by norm_num)
      (show -((50 : ℕ) : ℝ) ≤ -(spacing : ℝ) / 2 by push_cast; linarith))
    rw [Real.rpow_neg (by norm_num), Real.rpow_natCast]
    norm_num
  have e0 : -(spacing : ℝ) * ((2 : ℕ) + 2 * 0) / 4 = -(spacing : ℝ) / 2 := by push_cast; ring
  have e1 : -(spacing : ℝ) * ((2 : ℕ) + 2 * 1) / 4 = -(spacing : ℝ) / 2 + -(spacing : ℝ) / 2 := by push_cast; ring
  unfold calculateConcentration
  rw [e0, e1, Real.rpow_add (by norm_num)]
  generalize (1.0001 : ℝ) ^ (-(spacing : ℝ) / 2) = q at *
  have h3 : 0 < 1 - q := by linarith
  have h4 : 0 < 1 - q * q := by nlinarith
  have e : 1 / (1 - q) - 1 / (1 - q * q) = q / (1 - q * q) := by
    rw [div_sub_div _ _ h3.ne' h4.ne', div_eq_div_iff (mul_pos h3 h4).ne' h4.ne']
    ring
  rw [← sub_div, e, le_div_iff₀ factor_pos, le_div_iff₀ h4]
  unfold CONCENTRATION_FACTOR
  nlinarith

/-- Spacing 100, the widest of `FEE_TIERS`. -/
example : 1 ≤ calculateConcentration (100 : ℕ) (2 : ℕ) 0 - calculateConcentration (100 : ℕ) (2 : ℕ) 1 :=
  C113_own (by norm_num) (by norm_num)

/-- C113 is false of the code for the offers: with spacing 4 and a minimal range of 10000 steps, whose concentration is
less than 1.6, a concentration of 2 is offered, and the range for it is narrower than the minimal one. -/
theorem C113_negation : ∀ fuel : ℕ, 3 < fuel → ∃ l : List ℝ,
    getConcentrationArray fuel 4 10000 0 = some (.ok l) ∧ (2 : ℝ) ∈ l ∧
    calculateConcentration 4 10000 0 < 1.6 ∧ calculateTickDelta 4 10000 2 < 0 := by
  have e : ∀ k : ℕ, (1.0001 : ℝ) ^ (-4 * (k : ℝ) / 4) = ((10000 : ℝ) / 10001) ^ k := by
    intro k
    rw [show (-4 * (k : ℝ) / 4) = -(k : ℝ) by ring, Real.rpow_neg (by norm_num), Real.rpow_natCast, ← inv_pow]
    congr 1
    norm_num
  have n1 : 10000 ^ 9998 * 1000 < 369 * 10001 ^ 9998 := by decide +kernel
  have n2 : 367 * 10001 ^ 10002 < 10000 ^ 10002 * 1000 := by decide +kernel
  have r1 : ((10000 : ℝ) / 10001) ^ 9998 < 369 / 1000 := by
    rw [div_pow, div_lt_div_iff₀ (by positivity) (by positivity)]
    exact_mod_cast n1
  have r2 : 367 / 1000 < ((10000 : ℝ) / 10001) ^ 10002 := by
    rw [div_pow, div_lt_div_iff₀ (by positivity) (by positivity)]
    exact_mod_cast n2
  have b : ∀ k : ℕ, 9998 ≤ k → k ≤ 10002 → 367 / 1000 < ((10000 : ℝ) / 10001) ^ k ∧
      ((10000 : ℝ) / 10001) ^ k < 369 / 1000 := fun k h1 h2 =>
    ⟨lt_of_lt_of_le r2 (pow_le_pow_of_le_one (by norm_num) (by norm_num) h2),
      lt_of_le_of_lt (pow_le_pow_of_le_one (by norm_num) (by norm_num) h1) r1⟩
  clear n1 n2 r1 r2
  have conc : ∀ (k : ℕ) (n : ℝ), 9998 ≤ k → k ≤ 10002 → (10000 : ℝ) + 2 * n = k →
      1.57 < calculateConcentration 4 10000 n ∧ calculateConcentration 4 10000 n < 1.59 := by
    intro k n h1 h2 h3
    obtain ⟨b1, b2⟩ := b k h1 h2
    unfold calculateConcentration CONCENTRATION_FACTOR
    rw [h3, e k]
    generalize ((10000 : ℝ) / 10001) ^ k = q at *
    have : 0 < 1 - q := by linarith
    rw [div_div, lt_div_iff₀ (by positivity), div_lt_iff₀ (by positivity)]
    constructor <;> norm_num <;> linarith
  have c0 := conc 10000 0 (by norm_num) (by norm_num) (by norm_num)
  have c1 := conc 10002 1 (by norm_num) (by norm_num) (by norm_num)
  have cm := conc 9998 (-1) (by norm_num) (by norm_num) (by norm_num)
  intro fuel hf
  have hf' : (4 : ℝ) ≤ fuel := by exact_mod_cast hf
  obtain ⟨K, h1, h2, h3, h4⟩ := C113_array (spacing := 4) (range := 10000) (by norm_num) (by norm_num) (cur := 0)
    (fuel := fuel) (by push_cast; linarith)
  push_cast at h1 h2 h3 h4
  have hK : K = 1 := by
    by_contra hK
    have := h2 1 le_rfl (by omega)
    simp only [Nat.sub_self, Nat.cast_zero, Nat.cast_one] at this
    linarith
  subst hK
  have a : alignTick 221818 4 = 221816 := by decide
  have hceil : ⌈calculateConcentration 4 10000 (1 : ℝ)⌉₊ = 2 := by
    rw [Nat.ceil_eq_iff (by norm_num)]
    constructor <;> norm_num <;> linarith
  rw [if_neg (by rw [a]; norm_num)] at h4
  refine ⟨_, h4, ?_, by linarith, ?_⟩
  · rw [a, Nat.cast_one, hceil]
    have hfl : ⌊(((221816 : ℤ) : ℝ) - |(0 : ℝ)| - 10000 / 2 * 4) / 4⌋₊ = 50454 := by
      norm_num
    rw [hfl]
    simp [countDown, List.range_succ]
  · have := (C113_least (ts := 4) (mr := 10000) (c := 2) (k := -1) (by norm_num)
      (by norm_num [CONCENTRATION_FACTOR]) (by norm_num)).2 (by push_cast; linarith)
    omega

end Verif
