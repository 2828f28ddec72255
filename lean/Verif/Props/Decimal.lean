import Verif.Proofs.DecimalText
import Verif.Proofs.DecimalInst

/-!
# Decimal arithmetic

C66: each decimal operation returns the exact result rounded in its direction or fails, and fails
only when the rounded result cannot be held. C67: the text of a decimal denotes its value.
-/

namespace Verif.Decimal

variable {S T : DecType} {a b n k r : Nat}

/-! ## C66 -/

/-- C66, both directions, for the products and quotients through the big type. When the big type
has room, `big_mul`, `big_mul_up`, `big_div` and `checked_big_div` return `r` exactly when `r` can
be held and is the exact result rounded in the direction of the name. -/
theorem C66_big (hT : Sane T) (hS : S.width ≤ S.big) (hR : Room S T) (ha : a < 2 ^ S.width)
    (hb : b < 2 ^ T.width) :
    (bigMul S T a b = .ok r ↔ r < 2 ^ S.width ∧ RoundsDown S r (value S a * value T b)) ∧
    (bigMulUp S T a b = .ok r ↔ r < 2 ^ S.width ∧ RoundsUp S r (value S a * value T b)) ∧
    (b ≠ 0 →
      (bigDiv S T a b = .ok r ↔ r < 2 ^ S.width ∧ RoundsDown S r (value S a / value T b)) ∧
      (checkedBigDiv S T a b = .ok r ↔
        r < 2 ^ S.width ∧ RoundsDown S r (value S a / value T b))) := by
  have ha' := lt_pow_le ha hS
  have hb' := lt_pow_le hb hR.1
  have ho := lt_pow_le hT.1 hR.1
  refine ⟨⟨fun h => ?_, fun ⟨h1, h2⟩ => ?_⟩, ⟨fun h => ?_, fun ⟨h1, h2⟩ => ?_⟩, fun h0 => ?_⟩
  · have := bigMul_ok.1 h
    exact ⟨this.1.2.2.2.2.2, this.2⟩
  · have h3 := (roundsDown_div (pow10_pos _) value_mul_scaled).1 h2
    exact bigMul_ok.2 ⟨⟨ha', hb', hT.1, ho, room_mul hR (h3 ▸ h1), h1⟩, h2⟩
  · have := bigMulUp_ok.1 h
    exact ⟨this.1.2.2.2.2.2, this.2⟩
  · have h3 := (roundsUp_div (pow10_pos _) value_mul_scaled).1 h2
    exact bigMulUp_ok.2 ⟨⟨ha', hb', hT.1, ho, room_mulUp hR (h3 ▸ h1), h1⟩, h2⟩
  · rw [checkedBigDiv_ok, and_self_iff]
    refine ⟨fun h => ?_, fun ⟨h1, h2⟩ => ?_⟩
    · have := bigDiv_ok.1 h
      exact ⟨this.1.2.2.2.2.2.2, this.2⟩
    · exact bigDiv_ok.2 ⟨⟨h0, ha', hb', hT.1, ho, room_div hR ha, h1⟩, h2⟩

/-- a price of 2 times a liquidity of 3.00001, and a third of a liquidity unit -/
example : bigMul sqrtPriceT liquidityT 2000000000000000000000000 300001 =
      .ok 6000020000000000000000000 ∧
    bigDiv liquidityT liquidityT 100000 300000 = .ok 33333 ∧
    Sane liquidityT ∧ Room sqrtPriceT liquidityT ∧ Room liquidityT liquidityT := by
  decide +kernel

/-- C66 for `big_div_up`, which needs room for one more addition. -/
theorem C66_big_div_up (hT : Sane T) (hS : S.width ≤ S.big) (hR : RoomUp S T)
    (ha : a < 2 ^ S.width) (hb : b < 2 ^ T.width) (h0 : b ≠ 0) :
    bigDivUp S T a b = .ok r ↔ r < 2 ^ S.width ∧ RoundsUp S r (value S a / value T b) := by
  refine ⟨fun h => ?_, fun ⟨h1, h2⟩ => ?_⟩
  · have := bigDivUp_ok.1 h
    exact ⟨this.1.2.2.2.2.2.2, this.2⟩
  · exact bigDivUp_ok.2 ⟨⟨h0, lt_pow_le ha hS, lt_pow_le hb hR.1, hT.1, lt_pow_le hT.1 hR.1,
      room_divUp hR ha hb, h1⟩, h2⟩

example : bigDivUp liquidityT liquidityT 100000 300000 = .ok 33334 ∧
    RoomUp liquidityT liquidityT := by
  decide +kernel

/-- C66: which pairs of the seven types of the code have room. All of them do, except that
`FixedPoint`, with a big type of 192 bits, has room only for right operands with twelve places; and
the types with a big type of 256 bits have no room to round a quotient by a 256-bit type up. -/
theorem C66_room : (∀ S ∈ types, Sane S) ∧
    (∀ S ∈ types, ∀ T ∈ types, Room S T ↔ (S = fixedPointT → T.scale = 12)) ∧
    (∀ S ∈ types, ∀ T ∈ types, RoomUp S T ↔
      (S = fixedPointT → T.scale = 12) ∧ (S.big = 256 → T.width = 128)) := by
  decide +kernel

/-- C66 for the products that stay in the big type (`big_mul_to_value`, `big_mul_to_value_up`): of
two operands whose widths together fit the big type they never fail and are the product rounded. -/
theorem C66_to_value (hT : Sane T) (hW : S.width + T.width ≤ S.big) (ha : a < 2 ^ S.width)
    (hb : b < 2 ^ T.width) :
    (bigMulToValue S T a b = .ok r ↔ RoundsDown S r (value S a * value T b)) ∧
    (bigMulToValueUp S T a b = .ok r ↔ RoundsUp S r (value S a * value T b)) := by
  have ha' : a < 2 ^ S.big := lt_pow_le ha (by omega)
  have hb' : b < 2 ^ S.big := lt_pow_le hb (by omega)
  have ho : 10 ^ T.scale < 2 ^ S.big := lt_pow_le hT.1 (by omega)
  have h1 : a * b + (10 ^ T.scale - 1) < 2 ^ S.big := by
    have e : 2 ^ S.width * 2 ^ T.width ≤ 2 ^ S.big := by
      rw [← pow_add]; exact Nat.pow_le_pow_right (by norm_num) hW
    have e1 : a * b ≤ a * 2 ^ T.width := Nat.mul_le_mul_left _ hb.le
    have e2 : (a + 1) * 2 ^ T.width ≤ 2 ^ S.width * 2 ^ T.width := Nat.mul_le_mul_right _ ha
    rw [Nat.add_mul, one_mul] at e2
    have := hT.1
    have := pow10_pos T.scale
    omega
  have h2 : a * b < 2 ^ S.big := by omega
  exact ⟨⟨fun h => (bigMulToValue_ok.1 h).2,
      fun h => bigMulToValue_ok.2 ⟨⟨ha', hb', hT.1, ho, h2⟩, h⟩⟩,
    ⟨fun h => (bigMulToValueUp_ok.1 h).2,
      fun h => bigMulToValueUp_ok.2 ⟨⟨ha', hb', hT.1, ho, h1⟩, h⟩⟩⟩

/-- the widest price times the widest liquidity fits 384 bits, in both directions -/
example : sqrtPriceT.width + liquidityT.width ≤ sqrtPriceT.big ∧
    (bigMulToValueUp sqrtPriceT liquidityT (2 ^ 128 - 1) (2 ^ 256 - 1)).toOption.isSome := by
  decide +kernel

/-- C66, one direction, for the operations inside the type: whatever `*`, `mul_up`, `/`, `div_up`
and `checked_div` return is the exact result rounded in the direction of the name. The other
direction is false, see `C66_negation`; what is missing is that the intermediate product fits the
type. -/
theorem C66_small_partial (hT : Sane T) (hTS : T.width ≤ S.width) (hb : b < 2 ^ T.width) :
    (mul S T a b = .ok r ↔ a * b < 2 ^ S.width ∧ RoundsDown S r (value S a * value T b)) ∧
    (mulUp S T a b = .ok r ↔ a * b + (10 ^ T.scale - 1) < 2 ^ S.width ∧
      RoundsUp S r (value S a * value T b)) ∧
    (b ≠ 0 →
      (div S T a b = .ok r ↔ a * 10 ^ T.scale < 2 ^ S.width ∧
        RoundsDown S r (value S a / value T b)) ∧
      (divUp S T a b = .ok r ↔ a * 10 ^ T.scale + (b - 1) < 2 ^ S.width ∧
        RoundsUp S r (value S a / value T b))) := by
  have hb' := lt_pow_le hb hTS
  have ho := lt_pow_le hT.1 hTS
  refine ⟨⟨fun h => ?_, fun h => ?_⟩, ⟨fun h => ?_, fun h => ?_⟩, fun h0 =>
    ⟨⟨fun h => ?_, fun h => ?_⟩, ⟨fun h => ?_, fun h => ?_⟩⟩⟩
  · exact ⟨(mul_ok.1 h).1.2.2.2, (mul_ok.1 h).2⟩
  · exact mul_ok.2 ⟨⟨hb', hT.1, ho, h.1⟩, h.2⟩
  · exact ⟨(mulUp_ok.1 h).1.2.2.2, (mulUp_ok.1 h).2⟩
  · exact mulUp_ok.2 ⟨⟨hb', hT.1, ho, h.1⟩, h.2⟩
  · exact ⟨(div_ok.1 h).1.2.2.2.2, (div_ok.1 h).2⟩
  · exact div_ok.2 ⟨⟨h0, hb', hT.1, ho, h.1⟩, h.2⟩
  · exact ⟨(divUp_ok.1 h).1.2.2.2.2, (divUp_ok.1 h).2⟩
  · exact divUp_ok.2 ⟨⟨h0, hb', hT.1, ho, h.1⟩, h.2⟩

example : mul fixedPointT fixedPointT 1500000000000 1500000000001 = .ok 2250000000001 ∧
    mulUp fixedPointT fixedPointT 1500000000000 1500000000001 = .ok 2250000000002 := by
  decide +kernel

/-- C66: addition and subtraction are exact, and fail exactly when the result cannot be held. -/
theorem C66_add_sub :
    (add S a b = .ok r ↔ r < 2 ^ S.width ∧ value S r = value S a + value S b) ∧
    (checkedAdd S a b = .ok r ↔ r < 2 ^ S.width ∧ value S r = value S a + value S b) ∧
    (sub a b = .ok r ↔ value S r = value S a - value S b) ∧
    (checkedSub a b = .ok r ↔ value S r = value S a - value S b) ∧
    (∃ d, subAbs a b = .ok d ∧ value S d = |value S a - value S b|) := by
  have h10 : (10 : ℚ) ^ S.scale ≠ 0 := by positivity
  have hadd : value S r = value S a + value S b ↔ r = a + b := by
    unfold value
    rw [← add_div, div_left_inj' h10]
    exact_mod_cast Iff.rfl
  have hsub : ∀ x y z : Nat, value S z = value S x - value S y ↔ y ≤ x ∧ z = x - y := by
    intro x y z
    unfold value
    rw [← sub_div, div_left_inj' h10, eq_sub_iff_add_eq]
    norm_cast
    omega
  refine ⟨?_, ?_, ?_, ?_, ?_⟩
  · rw [hadd, add, addC_ok_iff]
    constructor
    · rintro ⟨h, rfl⟩; exact ⟨h, rfl⟩
    · rintro ⟨h, rfl⟩; exact ⟨h, rfl⟩
  · rw [hadd, checkedAdd, addC_ok_iff]
    constructor
    · rintro ⟨h, rfl⟩; exact ⟨h, rfl⟩
    · rintro ⟨h, rfl⟩; exact ⟨h, rfl⟩
  · rw [hsub, sub, subC_ok_iff]
  · rw [hsub, checkedSub, subC_ok_iff]
  · have hle : ∀ x y : Nat, y ≤ x → value S y ≤ value S x := by
      intro x y h
      unfold value
      exact div_le_div_of_nonneg_right (by exact_mod_cast h) (by positivity)
    unfold subAbs
    by_cases h : a > b
    · refine ⟨a - b, by rw [if_pos h, sub, subC_ok_iff]; exact ⟨h.le, rfl⟩, ?_⟩
      rw [abs_of_nonneg (sub_nonneg.2 (hle _ _ h.le)), hsub]
      exact ⟨h.le, rfl⟩
    · have h' : a ≤ b := by omega
      refine ⟨b - a, by rw [if_neg h, sub, subC_ok_iff]; exact ⟨h', rfl⟩, ?_⟩
      rw [abs_sub_comm, abs_of_nonneg (sub_nonneg.2 (hle _ _ h')), hsub]
      exact ⟨h', rfl⟩

example : add percentageT 1 2 = .ok 3 ∧ add percentageT (2 ^ 128 - 1) 1 = .error .panic ∧
    checkedAdd percentageT (2 ^ 128 - 1) 1 = .error .track ∧ subAbs 3 10 = .ok 7 := by
  decide +kernel

/-- C66: conversions. `from_decimal` and `checked_from_decimal` to a type that is at least as wide
or has more places return the same number rounded down, and fail exactly when it cannot be held;
`from_integer` is exact; `checked_from_decimal_to_value` fails exactly when the big type is too
narrow for the result. -/
theorem C66_convert (hS : Sane S) (hT : Sane T) (hb : b < 2 ^ T.width)
    (hw : T.width ≤ S.width ∨ T.scale < S.scale) :
    (fromDecimal S T b = .ok r ↔ r < 2 ^ S.width ∧ RoundsDown S r (value T b)) ∧
    (checkedFromDecimal S T b = .ok r ↔ r < 2 ^ S.width ∧ RoundsDown S r (value T b)) ∧
    (fromInteger S n = .ok r ↔ r < 2 ^ S.width ∧ value S r = n) ∧
    (S.scale ≤ 38 → T.scale ≤ 38 → T.width ≤ S.big →
      (checkedFromDecimalToValue S T b = .ok r ↔ r < 2 ^ S.big ∧ RoundsDown S r (value T b))) := by
  have e : fromDecimal S T b = .ok r ↔ r < 2 ^ S.width ∧ RoundsDown S r (value T b) := by
    unfold fromDecimal
    rw [fromScale_ok]
    refine ⟨fun h => ⟨h.1.2.1, h.2⟩, fun ⟨h1, h2⟩ => ⟨?_, h2⟩⟩
    have m1 : 10 ^ (S.scale - T.scale) ≤ 10 ^ S.scale :=
      Nat.pow_le_pow_right (by norm_num) (Nat.sub_le _ _)
    have m2 : 10 ^ (T.scale - S.scale) ≤ 10 ^ T.scale :=
      Nat.pow_le_pow_right (by norm_num) (Nat.sub_le _ _)
    have m3 := pow10_pos S.scale
    rcases hw with hw | hw
    · exact ⟨lt_pow_le hb hw, h1, m1.trans_lt hS.1, m2.trans_lt (lt_pow_le hT.1 hw)⟩
    · have h3 : r = b * 10 ^ (S.scale - T.scale) := by
        have := (roundsDown_div (by norm_num) (value_scaled_up T.scale hw.le)).1 h2
        rwa [Nat.div_one] at this
      have h4 : b ≤ r := by
        rw [h3]; exact Nat.le_mul_of_pos_right _ (pow10_pos _)
      refine ⟨by omega, h1, m1.trans_lt hS.1, ?_⟩
      have : T.scale - S.scale = 0 := by omega
      rw [this, pow_zero]
      have := hS.1
      omega
  refine ⟨e, ?_, ?_, ?_⟩
  · rw [checkedFromDecimal, checkedFromScale_ok]; exact e
  · rw [fromInteger_ok]
    exact ⟨fun h => ⟨h.1, h.2.2⟩, fun h => ⟨h.1, hS.1, h.2⟩⟩
  · intro h1 h2 h3
    have k1 : 10 ^ (S.scale - T.scale) < 2 ^ 128 :=
      (Nat.pow_le_pow_right (by norm_num) (by omega : S.scale - T.scale ≤ 38)).trans_lt (by norm_num)
    have k2 : 10 ^ (T.scale - S.scale) < 2 ^ 128 :=
      (Nat.pow_le_pow_right (by norm_num) (by omega : T.scale - S.scale ≤ 38)).trans_lt (by norm_num)
    unfold checkedFromDecimalToValue
    rw [toValue_ok]
    exact ⟨fun h => ⟨h.1.2.1, h.2⟩, fun h => ⟨⟨lt_pow_le hb h3, h.1, k1, k2⟩, h.2⟩⟩

example : fromDecimal sqrtPriceT fixedPointT 1000000000001 = .ok 1000000000001000000000000 ∧
    fromDecimal percentageT sqrtPriceT 1999999999999999999999999 = .ok 1999999999999 ∧
    fromInteger liquidityT 7 = .ok 700000 ∧
    checkedFromDecimalToValue sqrtPriceT liquidityT 5 = .ok 50000000000000000000 := by
  decide +kernel

/-- C66: a conversion to more places and back is the identity. -/
theorem C66_round_trip (hS : Sane S) (hT : Sane T) (hb : b < 2 ^ T.width)
    (hsc : T.scale < S.scale) (hw : S.width ≤ T.width)
    (h : fromDecimal S T b = .ok r) : fromDecimal T S r = .ok b := by
  have h1 := (C66_convert (r := r) (n := 0) hS hT hb (Or.inr hsc)).1.1 h
  have h3 : r = b * 10 ^ (S.scale - T.scale) := by
    have := (roundsDown_div (by norm_num) (value_scaled_up T.scale hsc.le)).1 h1.2
    rwa [Nat.div_one] at this
  refine (C66_convert (r := b) (n := 0) hT hS h1.1 (Or.inl hw)).1.2 ⟨hb, ?_⟩
  unfold value
  rw [roundsDown_div (pow10_pos _) (value_scaled_down S.scale hsc.le), h3,
    Nat.mul_div_cancel _ (pow10_pos (S.scale - T.scale))]

example : fromDecimal sqrtPriceT percentageT 123 = .ok 123000000000000 ∧
    fromDecimal percentageT sqrtPriceT 123000000000000 = .ok 123 := by
  decide +kernel

/-- C66, one direction, for `from_decimal_up` and for the division by a number, in which the number
is read as a decimal of the same type: what is returned is the exact result rounded. -/
theorem C66_more_partial :
    (fromDecimalUp S T b = .ok r → r < 2 ^ S.width ∧ RoundsUp S r (value T b)) ∧
    (bigDivByNumber S a n = .ok r → r < 2 ^ S.width ∧ RoundsDown S r (value S a / value S n)) ∧
    (checkedBigDivByNumber S a n = .ok r →
      r < 2 ^ S.width ∧ RoundsDown S r (value S a / value S n)) ∧
    (bigDivByNumberUp S a n = .ok r → r < 2 ^ S.width ∧ RoundsUp S r (value S a / value S n)) ∧
    (checkedBigDivByNumberUp S a n = .ok r →
      r < 2 ^ S.width ∧ RoundsUp S r (value S a / value S n)) ∧
    (checkedDiv S a b = .ok r → RoundsDown S r (value S a / value S b)) := by
  rw [checkedBigDivByNumber_ok, checkedBigDivByNumberUp_ok]
  refine ⟨fun h => ?_, fun h => ?_, fun h => ?_, fun h => ?_, fun h => ?_, fun h => ?_⟩
  · exact ⟨(fromScaleUp_ok.1 h).1.2.1, (fromScaleUp_ok.1 h).2⟩
  · exact ⟨(bigDivByNumber_ok.1 h).1.2.2.2.2.2, (bigDivByNumber_ok.1 h).2⟩
  · exact ⟨(bigDivByNumber_ok.1 h).1.2.2.2.2.2, (bigDivByNumber_ok.1 h).2⟩
  · exact ⟨(bigDivByNumberUp_ok.1 h).1.2.2.2.2.2, (bigDivByNumberUp_ok.1 h).2⟩
  · exact ⟨(bigDivByNumberUp_ok.1 h).1.2.2.2.2.2, (bigDivByNumberUp_ok.1 h).2⟩
  · exact (checkedDiv_ok.1 h).2

example : fromDecimalUp percentageT sqrtPriceT 1999999999999999999999999 = .ok 2000000000000 ∧
    bigDivByNumberUp feeGrowthT (10 ^ 28) (3 * 10 ^ 28) = .ok 3333333333333333333333333334 := by
  decide +kernel

/-- C66 is false of the operations inside the type and of some roundings: each of these fails
although the exact result rounded is a small number that the type holds. The product of the price
one with itself panics; so does the fee growth one times one; `FixedPoint` through its big type of
192 bits times the price one; rounding the largest price up to a percentage; rounding the quotient
by the largest liquidity up. -/
theorem C66_negation :
    (mul sqrtPriceT sqrtPriceT (10 ^ 24) (10 ^ 24) = .error .panic ∧
      RoundsDown sqrtPriceT (10 ^ 24) (value sqrtPriceT (10 ^ 24) * value sqrtPriceT (10 ^ 24))) ∧
    (mul feeGrowthT feeGrowthT (10 ^ 28) (10 ^ 28) = .error .panic ∧
      RoundsDown feeGrowthT (10 ^ 28) (value feeGrowthT (10 ^ 28) * value feeGrowthT (10 ^ 28))) ∧
    (bigMul fixedPointT sqrtPriceT (2 ^ 127) (10 ^ 24) = .error .panic ∧
      RoundsDown fixedPointT (2 ^ 127) (value fixedPointT (2 ^ 127) * value sqrtPriceT (10 ^ 24))) ∧
    (fromDecimalUp percentageT sqrtPriceT (2 ^ 128 - 1) = .error .panic ∧
      RoundsUp percentageT 340282366920938463463374608 (value sqrtPriceT (2 ^ 128 - 1)) ∧
      fromDecimal percentageT sqrtPriceT (2 ^ 128 - 1) = .ok 340282366920938463463374607) ∧
    (bigDivUp percentageT liquidityT 1 (2 ^ 256 - 1) = .error .panic ∧
      RoundsUp percentageT 1 (value percentageT 1 / value liquidityT (2 ^ 256 - 1))) := by
  refine ⟨⟨by decide +kernel, ?_⟩, ⟨by decide +kernel, ?_⟩, ⟨by decide +kernel, ?_⟩,
    ⟨by decide +kernel, ?_, by decide +kernel⟩, ⟨by decide +kernel, ?_⟩⟩
  · rw [roundsDown_div (pow10_pos _) value_mul_scaled]; decide +kernel
  · rw [roundsDown_div (pow10_pos _) value_mul_scaled]; decide +kernel
  · rw [roundsDown_div (pow10_pos _) value_mul_scaled]; decide +kernel
  · unfold value
    rw [roundsUp_div (pow10_pos _) (value_scaled_down sqrtPriceT.scale (by decide))]
    decide +kernel
  · rw [roundsUp_div (by decide +kernel) (value_div_scaled (by decide +kernel))]; decide +kernel

/-- C66: the functions named `checked_` that never panic, for operands of their types: they return
the result or an error. -/
theorem C66_checked (hS : Sane S) (hT : Sane T) (hTS : T.width ≤ S.big) (ha : a < 2 ^ S.width)
    (hb : b < 2 ^ T.width) :
    checkedOne S ≠ .error .panic ∧ checkedAlmostOne S ≠ .error .panic ∧
    checkedAdd S a n ≠ .error .panic ∧ checkedSub a n ≠ .error .panic ∧
    checkedDiv S a n ≠ .error .panic ∧ checkedBigDiv S T a b ≠ .error .panic ∧
    checkedBigDivByNumber S a n ≠ .error .panic ∧
    (n ≠ 0 → checkedBigDivByNumberUp S a n ≠ .error .panic) ∧
    (T.width ≤ S.width → checkedFromDecimal S T b ≠ .error .panic) := by
  have hfit : ∀ w x, fit w .track x ≠ (.error .panic : M Nat) := by
    intro w x; unfold fit; split <;> simp
  have hsub : ∀ x y, subC .track x y ≠ (.error .panic : M Nat) := by
    intro x y; unfold subC; split <;> simp
  have hdiv : ∀ x y, divC .track x y ≠ (.error .panic : M Nat) := by
    intro x y; unfold divC; split <;> simp
  have hbind : ∀ (x : M Nat) (f : Nat → M Nat), x ≠ .error .panic →
      (∀ v, f v ≠ .error .panic) → (x >>= f) ≠ .error .panic := by
    intro x f h1 h2
    cases x with
    | error e => simpa using h1
    | ok v => simpa using h2 v
  have hfo : ∀ {w x : Nat}, x < 2 ^ w → fit w .panic x = .ok x := by
    intro w x h; unfold fit; rw [if_pos h]
  have ea := hfo (lt_pow_le ha hS.2)
  have eb := hfo (lt_pow_le hb hTS)
  have eo := hfo (lt_pow_le hT.1 hTS)
  have es := hfo (lt_pow_le hS.1 hS.2)
  refine ⟨hfit _ _, hbind _ _ (hfit _ _) (fun _ => hsub _ _), hfit _ _, hsub _ _, ?_, ?_, ?_, ?_, ?_⟩
  · unfold checkedDiv
    rw [one_eq hS, ok_bind]
    exact hbind _ _ (hfit _ _) (fun _ => hdiv _ _)
  · unfold checkedBigDiv
    rw [ea, ok_bind, eb, ok_bind, one_eq hT, ok_bind, eo, ok_bind]
    exact hbind _ _ (hfit _ _) (fun _ => hbind _ _ (hdiv _ _) (fun _ => hfit _ _))
  · unfold checkedBigDivByNumber
    rw [ea, ok_bind, one_eq hS, ok_bind, es, ok_bind]
    exact hbind _ _ (hfit _ _) (fun _ => hbind _ _ (hdiv _ _) (fun _ => hfit _ _))
  · intro hn
    have e1 : subC .panic n 1 = .ok (n - 1) := by unfold subC; rw [if_pos (by omega)]
    unfold checkedBigDivByNumberUp
    rw [ea, ok_bind, one_eq hS, ok_bind, es, ok_bind]
    refine hbind _ _ (hfit _ _) (fun _ => ?_)
    rw [e1, ok_bind]
    exact hbind _ _ (hfit _ _) (fun _ => hbind _ _ (hdiv _ _) (fun _ => hfit _ _))
  · intro hw
    unfold checkedFromDecimal checkedFromScale
    rw [hfo (lt_pow_le hb hw), ok_bind]
    split
    · exact hbind _ _ (hfit _ _) (fun _ => hfit _ _)
    · exact hbind _ _ (hfit _ _) (fun _ => hdiv _ _)

example : checkedDiv percentageT 5 0 = .error .track ∧
    checkedFromDecimal sqrtPriceT percentageT (2 ^ 128 - 1) = .error .track := by
  decide +kernel

/-- C66: functions named `checked_` do panic: rounding up a division by the number zero, and
converting or scaling a token amount that is too large. -/
theorem C66_checked_negation :
    checkedBigDivByNumberUp percentageT 5 0 = .error .panic ∧
    checkedFromDecimal sqrtPriceT tokenAmountT (2 ^ 128) = .error .panic ∧
    checkedFromDecimalToValue sqrtPriceT tokenAmountT (2 ^ 320) = .error .panic ∧
    checkedFromDecimalToValue percentageT tokenAmountT (2 ^ 255) = .error .panic := by
  decide +kernel

/-- C66: the decimal operations written out in the model of the price math and the swap step are
those of the library, for operands of their types. -/
theorem C66_instances (ha : a < 2 ^ 256) (hb : b < 2 ^ 128) (hn : n < 2 ^ 128) :
    tokMulPct a b = bigMul tokenAmountT percentageT a b ∧
    tokMulPctUp a b = bigMulUp tokenAmountT percentageT a b ∧
    Verif.bigMulToValue 384 liqOne b a = bigMulToValue sqrtPriceT liquidityT b a ∧
    Verif.bigMulToValueUp 384 liqOne b a = bigMulToValueUp sqrtPriceT liquidityT b a ∧
    Verif.bigMulToValue 384 1 b a = bigMulToValue sqrtPriceT tokenAmountT b a ∧
    Verif.bigMulToValue 384 spOne b n = bigMulToValue sqrtPriceT sqrtPriceT b n ∧
    Verif.bigMulToValueUp 384 spOne b n = bigMulToValueUp sqrtPriceT sqrtPriceT b n ∧
    fpMul b n = mul fixedPointT fixedPointT b n ∧
    liqToPriceValue a = checkedFromDecimalToValue sqrtPriceT liquidityT a ∧
    tokToPriceValue a = checkedFromDecimalToValue sqrtPriceT tokenAmountT a ∧
    mulC 128 .track b 1000000000000 = checkedFromDecimal sqrtPriceT fixedPointT b ∧
    Verif.bigMul 512 256 spOne a b = bigMul liquidityT sqrtPriceT a b ∧
    LiquidityResult.bigDiv 512 256 spOne a b = bigDiv liquidityT sqrtPriceT a b ∧
    Verif.bigMul 384 128 spOne b n = bigMul sqrtPriceT sqrtPriceT b n ∧
    LiquidityResult.bigDiv 384 128 spOne b n = bigDiv sqrtPriceT sqrtPriceT b n := by
  have a512 : a < 2 ^ tokenAmountT.big := lt_pow_le ha (by decide)
  have a384 : a < 2 ^ sqrtPriceT.big := lt_pow_le ha (by decide)
  have b512 : b < 2 ^ tokenAmountT.big := lt_pow_le hb (by decide)
  have b384 : b < 2 ^ sqrtPriceT.big := lt_pow_le hb (by decide)
  have n384 : n < 2 ^ sqrtPriceT.big := lt_pow_le hn (by decide)
  have s1 : Sane percentageT := by decide +kernel
  have s2 : Sane liquidityT := by decide +kernel
  have s3 : Sane tokenAmountT := by decide +kernel
  have s4 : Sane sqrtPriceT := by decide +kernel
  have s5 : Sane fixedPointT := by decide +kernel
  have o1 : pctOne = 10 ^ percentageT.scale := by decide +kernel
  have o2 : liqOne = 10 ^ liquidityT.scale := by decide +kernel
  have o3 : 1 = 10 ^ tokenAmountT.scale := by decide +kernel
  have o4 : spOne = 10 ^ sqrtPriceT.scale := by decide +kernel
  have o5 : fpOne = 10 ^ fixedPointT.scale := by decide +kernel
  exact ⟨inst_bigMul rfl rfl o1 s1 (by decide) a512 b512,
    inst_bigMulUp rfl rfl o1 s1 (by decide) a512 b512,
    inst_toValue rfl o2 s2 (by decide) b384 a384,
    inst_toValueUp rfl o2 s2 (by decide) b384 a384,
    inst_toValue rfl o3 s3 (by decide) b384 a384,
    inst_toValue rfl o4 s4 (by decide) b384 n384,
    inst_toValueUp rfl o4 s4 (by decide) b384 n384,
    inst_mul s5 hn rfl o5,
    inst_convertValue rfl (by decide) (by decide) (by decide +kernel) a384,
    inst_convertValue rfl (by decide) (by decide) (by decide +kernel) a384,
    inst_convert rfl (by decide) s4 (by decide +kernel) hb,
    inst_bigMul rfl rfl o4 s4 (by decide) a512 b512,
    inst_bigDiv rfl rfl o4 s4 (by decide) a512 b512,
    inst_bigMul rfl rfl o4 s4 (by decide) b384 n384,
    inst_bigDiv rfl rfl o4 s4 (by decide) b384 n384⟩

example : tokMulPct 1000 6000000000 = .ok 6 ∧
    bigMul tokenAmountT percentageT 1000 6000000000 = .ok 6 := by
  decide +kernel

/-! ## C67 -/

/-- C67: the text of a decimal denotes its value, for every type with at most 255 places; the text
before the point is the whole part, and two different decimals of a type have different texts. -/
theorem C67_text (hS : Sane S) (hsc : S.scale < 256) :
    ∃ t, display S a = .ok t ∧ readText t = value S a ∧
      readNat (wholePart t) = a / 10 ^ S.scale ∧
      ∀ a' t', display S a' = .ok t' → t' = t → a' = a := by
  have key : ∀ x, ∃ t, display S x = .ok t ∧ readText t = value S x ∧
      readNat (wholePart t) = x / 10 ^ S.scale := by
    intro x
    rcases Nat.eq_zero_or_pos S.scale with h0 | h0
    · refine ⟨digits x, ?_, ?_, ?_⟩
      · unfold display; rw [if_neg (by omega)]; rfl
      · unfold readText value
        rw [(text_whole x).1, (text_whole x).2, readNat_digits, h0]
        simp [readNat]
      · rw [(text_whole x).1, readNat_digits, h0, pow_zero, Nat.div_one]
    · refine ⟨_, display_eq hS h0 hsc x, ?_, ?_⟩
      · unfold readText value
        rw [(text_parts _ _).1, (text_parts _ _).2, readNat_digits, readNat_zeros]
        have hlen : ((x % 10 ^ S.scale : Nat) : ℚ) / 10 ^ (List.replicate
            (S.scale - tailLen (x % 10 ^ S.scale)) '0' ++ digits (x % 10 ^ S.scale)).length =
            ((x % 10 ^ S.scale : Nat) : ℚ) / 10 ^ S.scale := by
          rcases Nat.eq_zero_or_pos (x % 10 ^ S.scale) with hz | hz
          · rw [hz]; simp
          · have hl := tailLen_le (Nat.mod_lt x (pow10_pos S.scale))
            have : (List.replicate (S.scale - tailLen (x % 10 ^ S.scale)) '0' ++
                digits (x % 10 ^ S.scale)).length = S.scale := by
              rw [List.length_append, List.length_replicate, ← tailLen_digits hz]
              omega
            rw [this]
        rw [hlen]
        have hx := Nat.div_add_mod x (10 ^ S.scale)
        have hq : (x : ℚ) = 10 ^ S.scale * ((x / 10 ^ S.scale : Nat) : ℚ) +
            ((x % 10 ^ S.scale : Nat) : ℚ) := by exact_mod_cast hx.symm
        rw [eq_div_iff (by positivity), add_mul, div_mul_cancel₀ _ (by positivity)]
        linarith
      · rw [(text_parts _ _).1, readNat_digits]
  obtain ⟨t, h1, h2, h3⟩ := key a
  refine ⟨t, h1, h2, h3, ?_⟩
  intro a' t' h' ht
  obtain ⟨t2, k1, k2, _⟩ := key a'
  have : t2 = t' := by rw [h'] at k1; exact (Except.ok.inj k1).symm
  have hv : value S a' = value S a := by rw [← k2, ← h2, this, ht]
  unfold value at hv
  rw [div_left_inj' (by positivity)] at hv
  exact_mod_cast hv

example : display liquidityT 1005000 = .ok ['1', '0', '.', '0', '5', '0', '0', '0'] ∧
    display tokenAmountT 42 = .ok ['4', '2'] := by
  decide +kernel

/-- C67, in part: a decimal that is not a whole number is printed with exactly the places of its
type. A whole number is printed with one zero more than the type has places, see
`C67_negation`. -/
theorem C67_places_partial {t : List Char} (hS : Sane S) (h0 : 0 < S.scale) (hsc : S.scale < 256)
    (h : display S a = .ok t) :
    (places t).length = if a % 10 ^ S.scale = 0 then S.scale + 1 else S.scale := by
  rw [display_eq hS h0 hsc] at h
  rw [← Except.ok.inj h, (text_parts _ _).2]
  rcases Nat.eq_zero_or_pos (a % 10 ^ S.scale) with hz | hz
  · rw [if_pos hz, hz, tailLen_zero, List.length_append, List.length_replicate]
    simp [digits]
  · have hl := tailLen_le (Nat.mod_lt a (pow10_pos S.scale))
    rw [if_neg (by omega), List.length_append, List.length_replicate, ← tailLen_digits hz]
    omega

/-- C67: "exactly the places of the type" is false: a liquidity of one, five places, is printed as
`1.000000`. -/
theorem C67_negation : ∃ t, display liquidityT 100000 = .ok t ∧ t = ['1', '.', '0', '0', '0', '0', '0', '0'] ∧
    (places t).length = 6 ∧ liquidityT.scale = 5 := by
  refine ⟨_, display_eq (by decide +kernel) (by decide) (by decide) _, ?_⟩
  decide +kernel

end Verif.Decimal
