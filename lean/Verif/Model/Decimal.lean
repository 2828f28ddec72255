import Verif.Base

/-!
# Model of the code generated by `#[decimal(scale, big)]`, `calc/decimal/decimal_core/src`

The macro writes the same functions for every decimal type; here they are functions of the type's
scale, the width of its field and the width of its big type. A decimal value is its raw integer.
`Err.panic` is a panic, `Err.track` a returned `Err(String)`; the texts are not modelled.
The casts between integer types (`uint_cast`, `try_into`) are modelled on the value: `Model/Casts`
has them word by word and `Props/Casts` shows that they keep the value or fail.
-/

namespace Verif

/-- the parameters of `#[decimal(scale, big)]`, `decimal_core/src/structs.rs` 4-11 -/
structure DecType where
  scale : Nat
  width : Nat
  big : Nat
  deriving DecidableEq, Repr

/-- `calc/math/types/liquidity.rs` 4 -/
def liquidityT : DecType := ⟨5, 256, 512⟩
/-- `calc/math/types/token_amount.rs` 4 -/
def tokenAmountT : DecType := ⟨0, 256, 512⟩
/-- `calc/math/types/percentage.rs` 3 -/
def percentageT : DecType := ⟨12, 128, 256⟩
/-- `calc/math/types/fixed_point.rs` 4 -/
def fixedPointT : DecType := ⟨12, 128, 192⟩
/-- `calc/math/types/sqrt_price.rs` 7 -/
def sqrtPriceT : DecType := ⟨24, 128, 384⟩
/-- `calc/math/types/fee_growth.rs` 6 -/
def feeGrowthT : DecType := ⟨28, 128, 256⟩
/-- `calc/math/types/seconds_per_liquidity.rs` 6 -/
def secondsPerLiquidityT : DecType := ⟨25, 128, 256⟩

namespace Decimal

variable (S T : DecType)

/-- `base.rs` 53-60 `checked_one` -/
def checkedOne : M Nat := fit S.width .track (10 ^ S.scale)
/-- `base.rs` 62-64 `one` -/
def one : M Nat := unwrap (checkedOne S)
/-- `base.rs` 66-73 `checked_almost_one` -/
def checkedAlmostOne : M Nat := do
  let o ← checkedOne S
  subC .track o 1
/-- `base.rs` 75-77 `almost_one` -/
def almostOne : M Nat := unwrap (checkedAlmostOne S)

/-! ## `ops.rs` -/

/-- `ops.rs` 20-29 `Add::add` -/
def add (a b : Nat) : M Nat := addC S.width .panic a b
/-- `ops.rs` 31-40 `Sub::sub` -/
def sub (a b : Nat) : M Nat := subC .panic a b

/-- `ops.rs` 42-62 `Mul::mul` -/
def mul (a b : Nat) : M Nat := do
  let rhs ← fit S.width .panic b
  let oT ← one T
  let o ← fit S.width .panic oT
  let p ← mulC S.width .panic a rhs
  divC .panic p o

/-- `ops.rs` 64-85 `Div::div` -/
def div (a b : Nat) : M Nat := do
  let rhs ← fit S.width .panic b
  let oT ← one T
  let o ← fit S.width .panic oT
  let p ← mulC S.width .panic a o
  divC .panic p rhs

/-! ## `others.rs` -/

/-- `others.rs` 24-42 `mul_up` -/
def mulUp (a b : Nat) : M Nat := do
  let rhs ← fit S.width .panic b
  let oT ← one T
  let o ← fit S.width .panic oT
  let aT ← almostOne T
  let almost ← fit S.width .panic aT
  let p ← mulC S.width .panic a rhs
  let q ← addC S.width .panic p almost
  divC .panic q o

/-- `others.rs` 44-62 `div_up` -/
def divUp (a b : Nat) : M Nat := do
  let rhs ← fit S.width .panic b
  let oT ← one T
  let o ← fit S.width .panic oT
  let aT ← almostOne T
  let _ ← fit S.width .panic aT
  let p ← mulC S.width .panic a o
  let r1 ← subC .panic rhs 1
  let q ← addC S.width .panic p r1
  divC .panic q rhs

/-- `others.rs` 66-72 `sub_abs` -/
def subAbs (a b : Nat) : M Nat := if a > b then sub a b else sub b a

/-! ## `big_ops.rs` -/

/-- `big_ops.rs` 24-35 `big_mul` -/
def bigMul (a b : Nat) : M Nat := do
  let x ← fit S.big .panic a
  let y ← fit S.big .panic b
  let oT ← one T
  let o ← fit S.big .panic oT
  let p ← mulC S.big .panic x y
  let q ← divC .panic p o
  fit S.width .panic q

/-- `big_ops.rs` 37-51 `big_mul_up` -/
def bigMulUp (a b : Nat) : M Nat := do
  let x ← fit S.big .panic a
  let y ← fit S.big .panic b
  let oT ← one T
  let o ← fit S.big .panic oT
  let aT ← almostOne T
  let almost ← fit S.big .panic aT
  let p ← mulC S.big .panic x y
  let s ← addC S.big .panic p almost
  let q ← divC .panic s o
  fit S.width .panic q

/-- `big_ops.rs` 53-64 `big_div` -/
def bigDiv (a b : Nat) : M Nat := do
  let x ← fit S.big .panic a
  let y ← fit S.big .panic b
  let oT ← one T
  let o ← fit S.big .panic oT
  let p ← mulC S.big .panic x o
  let q ← divC .panic p y
  fit S.width .panic q

/-- `big_ops.rs` 66-79 `checked_big_div` (the casts of the operands are the panicking ones) -/
def checkedBigDiv (a b : Nat) : M Nat := do
  let x ← fit S.big .panic a
  let y ← fit S.big .panic b
  let oT ← one T
  let o ← fit S.big .panic oT
  let p ← mulC S.big .track x o
  let q ← divC .track p y
  fit S.width .track q

/-- `big_ops.rs` 81-96 `big_div_up` -/
def bigDivUp (a b : Nat) : M Nat := do
  let x ← fit S.big .panic a
  let y ← fit S.big .panic b
  let oT ← one T
  let o ← fit S.big .panic oT
  let p ← mulC S.big .panic x o
  let s ← addC S.big .panic p y
  let d ← subC .panic s 1
  let q ← divC .panic d y
  fit S.width .panic q

/-! ## `by_number.rs` -/

/-- `by_number.rs` 22-33 `big_div_by_number`; the divisor is a value of the big type -/
def bigDivByNumber (a n : Nat) : M Nat := do
  let x ← fit S.big .panic a
  let o ← one S
  let o ← fit S.big .panic o
  let p ← mulC S.big .panic x o
  let q ← divC .panic p n
  fit S.width .panic q

/-- `by_number.rs` 35-46 `checked_big_div_by_number` -/
def checkedBigDivByNumber (a n : Nat) : M Nat := do
  let x ← fit S.big .panic a
  let o ← one S
  let o ← fit S.big .panic o
  let p ← mulC S.big .track x o
  let q ← divC .track p n
  fit S.width .track q

/-- `by_number.rs` 48-60 `big_div_by_number_up` -/
def bigDivByNumberUp (a n : Nat) : M Nat := do
  let x ← fit S.big .panic a
  let o ← one S
  let o ← fit S.big .panic o
  let p ← mulC S.big .panic x o
  let n1 ← subC .panic n 1
  let s ← addC S.big .panic p n1
  let q ← divC .panic s n
  fit S.width .panic q

/-- `by_number.rs` 62-74 `checked_big_div_by_number_up`: `rhs.checked_sub(1).unwrap()` -/
def checkedBigDivByNumberUp (a n : Nat) : M Nat := do
  let x ← fit S.big .panic a
  let o ← one S
  let o ← fit S.big .panic o
  let p ← mulC S.big .track x o
  let n1 ← subC .panic n 1
  let s ← addC S.big .track p n1
  let q ← divC .track s n
  fit S.width .track q

/-- `by_number.rs` 82-92 `big_mul_to_value` -/
def bigMulToValue (a b : Nat) : M Nat := do
  let x ← fit S.big .panic a
  let y ← fit S.big .panic b
  let oT ← one T
  let o ← fit S.big .panic oT
  let p ← mulC S.big .panic x y
  divC .panic p o

/-- `by_number.rs` 94-108 `big_mul_to_value_up` -/
def bigMulToValueUp (a b : Nat) : M Nat := do
  let x ← fit S.big .panic a
  let y ← fit S.big .panic b
  let oT ← one T
  let o ← fit S.big .panic oT
  let aT ← almostOne T
  let almost ← fit S.big .panic aT
  let p ← mulC S.big .panic x y
  let s ← addC S.big .panic p almost
  divC .panic s o

/-! ## `factories.rs` -/

/-- `factories.rs` 32-34 and 53-59 `from_integer` -/
def fromInteger (n : Nat) : M Nat := do
  let i ← fit S.width .panic n
  let o ← one S
  mulC S.width .panic i o

/-- `factories.rs` 36-38 and 61-73 `from_scale`, the scale being a `u8` -/
def fromScale (n scale : Nat) : M Nat := do
  let i ← fit S.width .panic n
  if S.scale > scale then do
    let m ← fit S.width .panic (10 ^ (S.scale - scale))
    mulC S.width .panic i m
  else do
    let d ← fit S.width .panic (10 ^ (scale - S.scale))
    divC .panic i d

/-- `factories.rs` 40-42 and 75-87 `checked_from_scale`: the cast of the argument panics -/
def checkedFromScale (n scale : Nat) : M Nat := do
  let i ← fit S.width .panic n
  if S.scale > scale then do
    let m ← fit S.width .track (10 ^ (S.scale - scale))
    mulC S.width .track i m
  else do
    let d ← fit S.width .track (10 ^ (scale - S.scale))
    divC .track i d

/-- `factories.rs` 44-46 and 89-101 `from_scale_up` -/
def fromScaleUp (n scale : Nat) : M Nat := do
  let i ← fit S.width .panic n
  if S.scale > scale then do
    let m ← fit S.width .panic (10 ^ (S.scale - scale))
    mulC S.width .panic i m
  else do
    let d ← fit S.width .panic (10 ^ (scale - S.scale))
    let d1 ← subC .panic d 1
    let s ← addC S.width .panic i d1
    divC .panic s d

/-- `factories.rs` 110-112 `from_decimal` -/
def fromDecimal (b : Nat) : M Nat := fromScale S b T.scale
/-- `factories.rs` 114-116 `checked_from_decimal` -/
def checkedFromDecimal (b : Nat) : M Nat := checkedFromScale S b T.scale
/-- `factories.rs` 118-120 `from_decimal_up` -/
def fromDecimalUp (b : Nat) : M Nat := fromScaleUp S b T.scale

/-- `factories.rs` 127-137 `checked_from_scale_to_value` -/
def checkedFromScaleToValue (n scale : Nat) : M Nat := do
  let base ← fit S.big .panic n
  if S.scale > scale then do
    let m ← fit 128 .track (10 ^ (S.scale - scale))
    mulC S.big .panic base m
  else do
    let d ← fit 128 .track (10 ^ (scale - S.scale))
    divC .panic base d

/-- `factories.rs` 144-146 `checked_from_decimal_to_value` -/
def checkedFromDecimalToValue (b : Nat) : M Nat := checkedFromScaleToValue S b T.scale

/-! ## `checked_ops.rs` -/

/-- `checked_ops.rs` 19-24 `checked_add` -/
def checkedAdd (a b : Nat) : M Nat := addC S.width .track a b
/-- `checked_ops.rs` 26-31 `checked_sub` -/
def checkedSub (a b : Nat) : M Nat := subC .track a b
/-- `checked_ops.rs` 33-42 `checked_div` -/
def checkedDiv (a b : Nat) : M Nat := do
  let o ← one S
  let p ← mulC S.width .track a o
  divC .track p b

/-! ## `Display`, `others.rs` 76-98 -/

/-- the digits of a number, as printed by `{}` -/
def digits (n : Nat) : List Char := Nat.toDigits 10 n

/-- `others.rs` 82-85: the `while` loop counting the digits of the decimal places; the first
argument bounds the number of rounds -/
def tailLoop : Nat → Nat → Nat
  | 0, _ => 0
  | k + 1, n => if n > 0 then 1 + tailLoop k (n / 10) else 0

/-- the result of the loop; a number has at most as many digits as its value -/
def tailLen (n : Nat) : Nat := tailLoop n n

/-- `others.rs` 76-98 `fmt`; `Self::scale() - non_zero_tail` is a subtraction of `u8`, which wraps
in the release build -/
def display (a : Nat) : M (List Char) := do
  if S.scale > 0 then
    let o ← one S
    let places := a % o
    let zeros := (S.scale + 256 - tailLen places) % 256
    pure (digits (a / o) ++ '.' :: (List.replicate zeros '0' ++ digits (a % o)))
  else pure (digits a)

end Decimal

end Verif
