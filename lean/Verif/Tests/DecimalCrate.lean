import Verif.Model.Decimal
import Verif.Model.Casts

/-!
# The repository's own tests of the decimal crate (`calc/decimal/src/{lib,uint}.rs`), on the model

`R`, `Q`, `N`, `M` are the types of those tests: scales 3, 1, 0, 1 over 128 bits. The numbers are those of the source.
-/

namespace Verif.Tests.DecimalCrate
open Verif Verif.Decimal

def R : DecType := ⟨3, 128, 256⟩
def Q : DecType := ⟨1, 128, 256⟩
def N : DecType := ⟨0, 128, 256⟩
def max128 : Nat := 2 ^ 128 - 1

-- test_cast: the largest value of `R` and `Q` (`U128`, two words) and of `M` (`u128`) in 256 and 192 bits
example : ∀ n ∈ [4, 3], (castUp n (List.replicate 2 (2 ^ 64 - 1))).map wordsVal = .ok max128 ∧
    wordsVal (castPrim n max128) = max128 ∧ (castPrim n max128).length = n := by decide +kernel

-- test_factories
example : fromInteger R 0 = .ok 0 ∧ fromInteger Q 0 = .ok 0 ∧ fromInteger N 0 = .ok 0 := by decide +kernel

-- test_from_decimal; `M` of the source is `Q` here
example : fromDecimal R R 42 = .ok 42 ∧ fromDecimal R Q 144 = .ok 14400 ∧ fromDecimal R N 3 = .ok 3000 ∧
    fromDecimal R Q 200000 = .ok 20000000 ∧ fromDecimal Q R 42 = .ok 0 ∧ fromDecimal Q Q 144 = .ok 144 ∧
    fromDecimal Q N 3 = .ok 30 ∧ fromDecimal Q Q 200000 = .ok 200000 ∧ fromDecimal N R 42 = .ok 0 ∧
    fromDecimal N Q 144 = .ok 14 ∧ fromDecimal N N 3 = .ok 3 ∧ fromDecimal N Q 200000 = .ok 20000 := by decide +kernel

-- test_from_decimal_up
example : fromDecimalUp R R 42 = .ok 42 ∧ fromDecimalUp R Q 144 = .ok 14400 ∧ fromDecimalUp R N 3 = .ok 3000 ∧
    fromDecimalUp R Q 200000 = .ok 20000000 ∧ fromDecimalUp Q R 42 = .ok 1 ∧ fromDecimalUp Q Q 144 = .ok 144 ∧
    fromDecimalUp Q N 3 = .ok 30 ∧ fromDecimalUp N R 42 = .ok 1 ∧ fromDecimalUp N N 3 = .ok 3 ∧
    fromDecimalUp N Q 144 = .ok 15 ∧ fromDecimalUp N Q 200000 = .ok 20000 := by decide +kernel

-- test_ops
example : add N 0 0 = .ok 0 ∧ add N 1 2 = .ok 3 ∧ add R 0 0 = .ok 0 ∧ add R 1 2 = .ok 3 ∧
    sub 0 0 = .ok 0 ∧ sub 2 1 = .ok 1 := by decide +kernel
example : mul N N 0 0 = .ok 0 ∧ (fromInteger N 1 >>= mul N N 2) = .ok 2 ∧ mul R Q 0 0 = .ok 0 ∧
    (fromInteger Q 1 >>= mul R Q 2) = .ok 2 := by decide +kernel
example : div N N 0 1 = .ok 0 ∧ (fromInteger N 2 >>= div N N 4) = .ok 2 ∧ div R Q 0 1 = .ok 0 ∧
    (fromInteger Q 2 >>= div R Q 4) = .ok 2 := by decide +kernel

-- test_big_mul
example : bigMul Q R 10 1000 = .ok 10 ∧ bigMulUp Q R 10 1000 = .ok 10 ∧ bigMul Q R 20 3000 = .ok 60 ∧
    bigMulUp Q R 20 3000 = .ok 60 ∧ bigMul Q N (2 ^ 127) 1 = .ok (2 ^ 127) ∧ bigMulUp Q N (2 ^ 127) 1 = .ok (2 ^ 127) ∧
    bigMul R Q 879132 9383 = .ok 824889555 ∧ bigMulUp R Q 879132 9383 = .ok 824889556 := by decide +kernel

-- test_big_div
example : bigDiv Q R 10 1000 = .ok 10 ∧ bigDivUp Q R 10 1000 = .ok 10 ∧ bigDiv Q Q 10 10 = .ok 10 ∧
    bigDivUp Q Q 10 10 = .ok 10 ∧ bigDiv Q R 60 3000 = .ok 20 ∧ bigDivUp Q R 60 3000 = .ok 20 ∧
    bigDiv Q Q 60 30 = .ok 20 ∧ bigDivUp Q Q 60 30 = .ok 20 := by decide +kernel
example : bigDiv Q R (2 ^ 127) 1000 = .ok (2 ^ 127) ∧ bigDivUp Q R (2 ^ 127) 1000 = .ok (2 ^ 127) ∧
    bigDiv Q Q (2 ^ 127) 10 = .ok (2 ^ 127) ∧ bigDivUp Q Q (2 ^ 127) 10 = .ok (2 ^ 127) ∧
    bigDiv R Q 824889555 9383 = .ok 879131 ∧ bigDivUp R Q 824889555 9383 = .ok 879132 := by decide +kernel

-- tests_mul_to_number
example : bigMulToValue Q Q 10 20 = .ok 20 ∧ bigMulToValueUp Q Q 10 20 = .ok 20 ∧
    bigMulToValue Q Q max128 max128 =
      .ok 11579208923731619542357098500868790785258941993179868711253083479304959321702 ∧
    bigMulToValueUp Q Q max128 max128 =
      .ok 11579208923731619542357098500868790785258941993179868711253083479304959321703 := by decide +kernel

-- test_big_div_by_number
example : bigDivByNumber Q 40 20 = .ok 20 ∧ bigDivByNumberUp Q 40 20 = .ok 20 ∧
    bigDivByNumber Q max128 (max128 * 10 + 1) = .ok 0 ∧ bigDivByNumberUp Q max128 (max128 * 10 + 1) = .ok 1 ∧
    bigDivByNumber Q 63424 157209 = .ok 4 ∧ bigDivByNumberUp Q 63424 157209 = .ok 5 := by decide +kernel

-- test_mul_up
example : mulUp Q Q 1 1 = .ok 1 ∧ (div Q Q 30 10 >>= mulUp Q Q 10) = div Q Q 30 10 ∧ mulUp N Q 1 10 = .ok 1 ∧
    mulUp Q Q 1 10 = .ok 1 ∧ (div Q Q 30 100 >>= mulUp N Q 3) = .ok 1 ∧ (div Q Q 30 100 >>= mulUp Q Q 3) = .ok 1 := by
  decide +kernel

-- test_div_up
example : divUp Q Q 0 1 = .ok 0 ∧ divUp Q Q 1 20 = .ok 1 ∧ divUp R R 201 2000 = .ok 101 ∧ divUp Q Q 201 20 = .ok 101 ∧
    divUp Q R 42 10000 = .ok 5 := by decide +kernel

/-! ## `uint.rs` -/

def ones (n : Nat) : Words := List.replicate n (2 ^ 64 - 1)

-- test_upcast: 128 bits into 256 and 512, 256 into 512; the checked cast up is the same function of the model
example : castUp 4 [1, 0] = .ok [1, 0, 0, 0] ∧ (castUp 4 (ones 2)).map wordsVal = .ok (2 ^ 128 - 1) ∧
    (castUp 8 [1, 0]).map wordsVal = .ok 1 ∧ (castUp 8 (ones 2)).map wordsVal = .ok (2 ^ 128 - 1) ∧
    (castUp 8 [1, 0, 0, 0]).map wordsVal = .ok 1 ∧ (castUp 8 (ones 4)).map wordsVal = .ok (2 ^ 256 - 1) := by
  decide +kernel

-- test_downcast
example : castDown 2 (ones 2 ++ [0, 0]) = .ok (ones 2) ∧ (castDown 2 [0, 0, 1, 0]).toBool = false ∧
    castDown 4 (ones 4 ++ [0, 0, 0, 0]) = .ok (ones 4) ∧ (castDown 4 [0, 0, 0, 0, 1, 0, 0, 0]).toBool = false := by
  decide +kernel

-- test_to_u256
example : ∀ n ∈ [0, 1, 1324342342433342342, 2 ^ 64 - 1, 2 ^ 64, 2 ^ 64 + 1, 2 ^ 128 - 1],
    wordsVal (toU256 n) = n ∧ lowU128 (toU256 n) = n := by decide +kernel

-- test_to_u320: `to_u320` is `u256_to_u320` after `to_u256`
example : ∀ n ∈ [0, 1, 1324342342433342342, 2 ^ 64 - 1, 2 ^ 64, 2 ^ 64 + 1, 2 ^ 128 - 1],
    wordsVal (u256ToU320 (toU256 n)) = n ∧ lowU128 (u256ToU320 (toU256 n)) = n := by decide +kernel

-- test_u320_to_u256
example : (checkedU320ToU256 [456974, 0, 0, 0, 0]).map wordsVal = some 456974 ∧
    (checkedU320ToU256 (ones 4 ++ [0])).map wordsVal =
      some 115792089237316195423570985008687907853269984665640564039457584007913129639935 ∧
    checkedU320ToU256 [0, 0, 0, 0, 1] = none ∧ checkedU320ToU256 (ones 5) = none ∧
    wordsVal (ones 5) =
      2135987035920910082395021706169552114602704522356652769947041607822219725780640550022962086936575 := by
  decide +kernel

end Verif.Tests.DecimalCrate
