import Verif.Proofs.Decimal
import Verif.Model.LiquidityResult

/-!
# The decimal operations of the other model files are instances of the library's
-/

namespace Verif.Decimal

variable {S T : DecType} {a b n big w o : Nat}

theorem fit_of_lt {e : Err} {x : Nat} (h : x < 2 ^ w) : fit w e x = .ok x := by
  unfold fit; rw [if_pos h]

theorem divC_of_ne {e : Err} {p d : Nat} (h : d ≠ 0) : divC e p d = .ok (p / d) := by
  unfold divC; rw [if_neg h]

theorem inst_bigMul (h1 : big = S.big) (h2 : w = S.width) (ho : o = 10 ^ T.scale) (hT : Sane T)
    (hTS : T.width ≤ S.big) (ha : a < 2 ^ S.big) (hb : b < 2 ^ S.big) :
    Verif.bigMul big w o a b = bigMul S T a b := by
  subst h1 h2 ho
  unfold Verif.bigMul bigMul
  rw [fit_of_lt ha, ok_bind, fit_of_lt hb, ok_bind, one_eq hT, ok_bind,
    fit_of_lt (lt_pow_le hT.1 hTS), ok_bind]
  congr 1
  funext p
  rw [divC_of_ne (pow10_pos _).ne', ok_bind]

theorem inst_bigMulUp (h1 : big = S.big) (h2 : w = S.width) (ho : o = 10 ^ T.scale) (hT : Sane T)
    (hTS : T.width ≤ S.big) (ha : a < 2 ^ S.big) (hb : b < 2 ^ S.big) :
    Verif.bigMulUp big w o a b = bigMulUp S T a b := by
  subst h1 h2 ho
  have hal := lt_pow_le hT.1 hTS
  unfold Verif.bigMulUp bigMulUp
  rw [fit_of_lt ha, ok_bind, fit_of_lt hb, ok_bind, one_eq hT, ok_bind,
    fit_of_lt hal, ok_bind, almostOne_eq hT, ok_bind, fit_of_lt (by omega), ok_bind]
  congr 1
  funext p
  congr 1
  funext q
  rw [divC_of_ne (pow10_pos _).ne', ok_bind]

theorem inst_bigDiv (h1 : big = S.big) (h2 : w = S.width) (ho : o = 10 ^ T.scale) (hT : Sane T)
    (hTS : T.width ≤ S.big) (ha : a < 2 ^ S.big) (hb : b < 2 ^ S.big) :
    LiquidityResult.bigDiv big w o a b = bigDiv S T a b := by
  subst h1 h2 ho
  unfold LiquidityResult.bigDiv bigDiv
  rw [fit_of_lt ha, ok_bind, fit_of_lt hb, ok_bind, one_eq hT, ok_bind,
    fit_of_lt (lt_pow_le hT.1 hTS), ok_bind]

theorem inst_toValue (h1 : big = S.big) (ho : o = 10 ^ T.scale) (hT : Sane T)
    (hTS : T.width ≤ S.big) (ha : a < 2 ^ S.big) (hb : b < 2 ^ S.big) :
    Verif.bigMulToValue big o a b = bigMulToValue S T a b := by
  subst h1 ho
  unfold Verif.bigMulToValue bigMulToValue
  rw [fit_of_lt ha, ok_bind, fit_of_lt hb, ok_bind, one_eq hT, ok_bind,
    fit_of_lt (lt_pow_le hT.1 hTS), ok_bind]
  congr 1
  funext p
  rw [divC_of_ne (pow10_pos _).ne']
  rfl

theorem inst_toValueUp (h1 : big = S.big) (ho : o = 10 ^ T.scale) (hT : Sane T)
    (hTS : T.width ≤ S.big) (ha : a < 2 ^ S.big) (hb : b < 2 ^ S.big) :
    Verif.bigMulToValueUp big o a b = bigMulToValueUp S T a b := by
  subst h1 ho
  have hal := lt_pow_le hT.1 hTS
  unfold Verif.bigMulToValueUp bigMulToValueUp
  rw [fit_of_lt ha, ok_bind, fit_of_lt hb, ok_bind, one_eq hT, ok_bind,
    fit_of_lt hal, ok_bind, almostOne_eq hT, ok_bind, fit_of_lt (by omega), ok_bind]
  congr 1
  funext p
  congr 1
  funext q
  rw [divC_of_ne (pow10_pos _).ne']
  rfl

theorem inst_mul (hS : Sane S) (hb : b < 2 ^ S.width) (h1 : w = S.width) (ho : o = 10 ^ S.scale) :
    (mulC w .panic a b >>= fun p => (pure (p / o) : M Nat)) = mul S S a b := by
  subst h1 ho
  unfold mul
  rw [fit_of_lt hb, ok_bind, one_eq hS, ok_bind, fit_of_lt hS.1, ok_bind]
  congr 1
  funext p
  rw [divC_of_ne (pow10_pos _).ne']
  rfl

theorem inst_convert (h1 : w = S.width) (hsc : T.scale < S.scale) (hS : Sane S)
    (ho : o = 10 ^ (S.scale - T.scale)) (hb : b < 2 ^ S.width) :
    mulC w .track b o = checkedFromDecimal S T b := by
  subst h1 ho
  unfold checkedFromDecimal checkedFromScale
  have : 10 ^ (S.scale - T.scale) ≤ 10 ^ S.scale :=
    Nat.pow_le_pow_right (by norm_num) (Nat.sub_le _ _)
  rw [fit_of_lt hb, ok_bind, if_pos hsc, fit_of_lt (this.trans_lt hS.1), ok_bind]

theorem inst_convertValue (h1 : big = S.big) (hsc : T.scale < S.scale) (h38 : S.scale ≤ 38)
    (ho : o = 10 ^ (S.scale - T.scale)) (hb : b < 2 ^ S.big) :
    mulC big .panic b o = checkedFromDecimalToValue S T b := by
  subst h1 ho
  unfold checkedFromDecimalToValue checkedFromScaleToValue
  have : 10 ^ (S.scale - T.scale) < 2 ^ 128 :=
    (Nat.pow_le_pow_right (by norm_num) (by omega : S.scale - T.scale ≤ 38)).trans_lt (by norm_num)
  rw [fit_of_lt hb, ok_bind, if_pos hsc, fit_of_lt this, ok_bind]

end Verif.Decimal
