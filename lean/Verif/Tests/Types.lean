import Verif.Tests.Clamm
import Verif.Model.SecondsPerLiquidity
import Verif.Model.LiquidityResult

/-!
# The repository's own tests of `calc/math/log.rs`, `calc/math/types/*.rs` and `logic/liquidity_result.rs`, on the model

Same convention as `Verif.Tests.Clamm`. The four tests of `log.rs` that run over every tick are theorems here
(`Verif.Props.Lookup`), so only the ones with chosen inputs are repeated.
-/

namespace Verif.Tests.Types
open Verif.Tests.Clamm Verif.LiquidityResult

/-- `FeeGrowth::from_integer` and `from_scale` -/
def fg (n : Nat) (scale : Nat := 0) : Nat := n * 10 ^ (28 - scale)

/-- the tick found at the price of tick `t`, moved by `d` -/
def tickAt (t : Int) (d : Int) (spacing : Nat := 1) : M Int := do
  let p ← calculateSqrtPrice t
  getTickAtSqrtPrice ((p : Int) + d).toNat spacing

/-! ## `calc/math/log.rs` -/

-- test_sqrt_price_to_u64
example : sqrtPriceToX32 MIN_SQRT_PRICE = 65536 ∧ sqrtPriceToX32 MAX_SQRT_PRICE = 281472330729535 := by decide +kernel

-- test_log2_x32
example : log2X32 (sqrtPriceToX32 (sp 1)) = (true, 0) ∧ log2X32 (sqrtPriceToX32 (sp 879)) = (true, 42003464192) ∧
    log2X32 (sqrtPriceToX32 (sp 59 4)) = (false, 31804489728) ∧
    log2X32 (sqrtPriceToX32 MAX_SQRT_PRICE) = (true, 68719345664) ∧
    log2X32 (sqrtPriceToX32 MIN_SQRT_PRICE) = (false, 68719345664) ∧
    (calculateSqrtPrice (-19999) >>= fun p => pure (log2X32 (sqrtPriceToX32 (p - 1)))) = .ok (false, 6195642368) ∧
    (calculateSqrtPrice 19999 >>= fun p => pure (log2X32 (sqrtPriceToX32 (p - 1)))) = .ok (true, 6195642368) := by
  decide +kernel

-- test_get_tick_at_sqrt_price_x32
example : tickAt 0 0 = .ok 0 ∧ tickAt 0 (-1) = .ok (-1) ∧ tickAt 0 1 = .ok 0 ∧
    tickAt 1 0 = .ok 1 ∧ tickAt 1 (-1) = .ok 0 ∧ tickAt 1 1 = .ok 1 ∧
    tickAt (-1) 0 = .ok (-1) ∧ tickAt (-1) (-1) = .ok (-2) ∧ tickAt (-1) 1 = .ok (-1) ∧
    tickAt (MAX_TICK - 1) 0 = .ok (MAX_TICK - 1) ∧ tickAt (MAX_TICK - 1) (-1) = .ok (MAX_TICK - 2) ∧
    tickAt (MAX_TICK - 1) 1 = .ok (MAX_TICK - 1) ∧
    tickAt (-(MAX_TICK - 1)) 0 = .ok (-(MAX_TICK - 1)) ∧ tickAt (-(MAX_TICK - 1)) (-1) = .ok (-MAX_TICK) ∧
    tickAt (-(MAX_TICK - 1)) 1 = .ok (-(MAX_TICK - 1)) ∧
    getTickAtSqrtPrice (MAX_SQRT_PRICE - 1) 1 = .ok (MAX_TICK - 1) ∧
    tickAt 19999 0 = .ok 19999 ∧ tickAt 19999 (-1) = .ok 19998 ∧ tickAt 19999 1 = .ok 19999 ∧
    tickAt (-19999) 0 = .ok (-19999) ∧ tickAt (-19999) (-1) = .ok (-20000) ∧ tickAt (-19999) 1 = .ok (-19999) ∧
    tickAt (-MAX_TICK) 1 = .ok (-MAX_TICK) := by decide +kernel

-- test_domain_calculate_sqrt_price
example : calculateSqrtPrice (MAX_TICK + 1) = .error .track ∧ calculateSqrtPrice (-MAX_TICK - 1) = .error .track := by
  decide +kernel

-- test_align_tick_with_spacing
example : alignTick 0 3 = 0 ∧ alignTick 14 10 = 10 ∧ alignTick 20 10 = 20 ∧ alignTick (-14) 10 = -20 ∧
    alignTick (-120) 3 = -120 := by decide +kernel

/-! ## `calc/math/types/sqrt_price.rs` -/

-- test_calculate_sqrt_price
example : calculateSqrtPrice 20000 = .ok (sp 2718145925979 12) ∧ calculateSqrtPrice 200000 = .ok (sp 22015455979766288 12) ∧
    calculateSqrtPrice (-20000) = .ok (sp 367897834491 12) ∧ calculateSqrtPrice (-200000) = .ok (sp 45422634 12) ∧
    calculateSqrtPrice 0 = .ok (sp 1) ∧ calculateSqrtPrice MAX_TICK = .ok (sp 65535383934512647 12) ∧
    calculateSqrtPrice MAX_TICK = .ok MAX_SQRT_PRICE ∧ calculateSqrtPrice MIN_TICK = .ok (sp 15258932 12) ∧
    calculateSqrtPrice MIN_TICK = .ok MIN_SQRT_PRICE := by decide +kernel

-- test_sqrt_price_limitation
example : getMaxSqrtPrice 1 = .ok MAX_SQRT_PRICE ∧ getMaxSqrtPrice 2 = .ok MAX_SQRT_PRICE ∧
    getMaxSqrtPrice 5 = .ok 65525554855399275000000000000 ∧ getMaxTick 10 = 221810 ∧
    getMaxSqrtPrice 10 = .ok 65509176333123237000000000000 ∧ getMaxTick 100 = 221800 ∧
    getMaxSqrtPrice 100 = .ok 65476431569071896000000000000 ∧
    calculateSqrtPrice (getMaxTick 1) = .ok MAX_SQRT_PRICE ∧ calculateSqrtPrice (getMaxTick 2) = .ok MAX_SQRT_PRICE ∧
    calculateSqrtPrice (getMaxTick 5) = .ok 65525554855399275000000000000 ∧
    calculateSqrtPrice (getMaxTick 10) = .ok 65509176333123237000000000000 ∧
    calculateSqrtPrice (getMaxTick 100) = .ok 65476431569071896000000000000 ∧
    getMinSqrtPrice 1 = .ok MIN_SQRT_PRICE ∧ getMinSqrtPrice 2 = .ok MIN_SQRT_PRICE ∧
    getMinSqrtPrice 5 = .ok 15261221000000000000 ∧ getMinTick 10 = -221810 ∧
    getMinSqrtPrice 10 = .ok 15265036000000000000 ∧ getMinTick 100 = -221800 ∧
    getMinSqrtPrice 100 = .ok 15272671000000000000 ∧
    calculateSqrtPrice (getMinTick 1) = .ok MIN_SQRT_PRICE ∧ calculateSqrtPrice (getMinTick 2) = .ok MIN_SQRT_PRICE ∧
    calculateSqrtPrice (getMinTick 5) = .ok 15261221000000000000 ∧
    calculateSqrtPrice (getMinTick 10) = .ok 15265036000000000000 ∧
    calculateSqrtPrice (getMinTick 100) = .ok 15272671000000000000 := by decide +kernel

/-! ## `calc/math/types/fee_growth.rs` -/

-- test_unchecked_add, test_unchecked_sub
example : fgAdd maxU128 (maxU128 - 1) = 340282366920938463463374607431768211453 ∧
    fgAdd maxU128 (maxU128 - 6) = 340282366920938463463374607431768211448 ∧
    fgAdd maxU128 (maxU128 - 20) = 340282366920938463463374607431768211434 ∧
    fgAdd maxU128 (maxU128 - 50) = 340282366920938463463374607431768211404 ∧ fgAdd 11 1100 = 1111 ∧
    fgSub (maxU128 - 1) maxU128 = 340282366920938463463374607431768211455 ∧ fgSub 1 1 = 0 ∧
    fgSub 10 20 = 340282366920938463463374607431768211446 ∧ fgSub 10 5 = 5 := by decide +kernel

-- test_from_fee
example : fgFromFee (lq 1) 1 = .ok (fg 1) ∧ fgFromFee (lq 2) 1 = .ok (fg 5 1) ∧
    fgFromFee (lq (2 ^ 64 - 1)) 1 = .ok 542101086 ∧ fgFromFee (lq 100) 1000000 = .ok (fg 10000) := by decide +kernel

-- test_domain_from_fee
example : (calculateSqrtPrice (MAX_TICK - 100 * 256) >>= fun p =>
      fgFromFee maxU256 (maxU256 * (MAX_SQRT_PRICE - p) / lq 1 / sp 1)) = .ok 473129365723326089999999999999999 ∧
    fgFromFee (fg 1 * lq 1 * 10000) 10000 = .ok 1 ∧ fgFromFee 1 maxU256 = .error .track ∧
    fgFromFee (lq 1000) 0 = .ok 0 ∧ fgFromFee 0 1000 = .error .track := by decide +kernel

-- test_to_fee
example : (fgFromFee (lq 1000000) 100 >>= fun g => fgToFee g (lq 1000000)) = .ok 100 ∧
    (fgFromFee (lq 1000000) 100 >>= fun g => fgToFee g (lq 10000000)) = .ok 1000 ∧
    fgFromFee (lq (2 ^ 77)) 100000000000000 = .ok 6617444900424221398 ∧
    fgToFee 6617444900424221398 (lq (2 ^ 77)) = .ok 99999999999999 := by decide +kernel

-- test_domain_to_fee
example : fgFromFee (lq 10000000000000000000) 600000000000000000 = .ok 600000000000000000000000000 ∧
    fgToFee 600000000000000000000000000 (lq 10000000000000000000) = .ok 600000000000000000 ∧
    fgToFee (fg 100000) maxU256 = .ok maxU256 ∧ fgToFee maxU128 maxU256 = .error .track ∧ fgToFee 0 (lq 1000) = .ok 0 ∧
    fgToFee (fg 1000) 0 = .ok 0 := by decide +kernel

-- test_calculate_fee_growth_inside, token by token
example : feeGrowthInside1 (-2) 0 2 0 0 (fg 15) = fg 15 ∧ feeGrowthInside1 (-2) 0 2 0 (-4) (fg 15) = 0 ∧
    feeGrowthInside1 (-2) 0 2 0 4 (fg 15) = 0 ∧ feeGrowthInside1 (-2) 0 2 1 3 (fg 5) = 1 ∧
    feeGrowthInside1 (-2) 0 2 2 3 (fg 5) = 2 ∧ feeGrowthInside1 (-2) 0 2 (fg 2) 0 (fg 15) = fg 13 ∧
    feeGrowthInside1 (-2) 0 2 (fg 3) 0 (fg 15) = fg 12 ∧ feeGrowthInside1 (-2) (fg 2) 2 0 0 (fg 15) = fg 13 ∧
    feeGrowthInside1 (-2) (fg 3) 2 0 0 (fg 15) = fg 12 := by decide +kernel

-- test_domain_calculate_fee_growth_inside
example : feeGrowthInside1 (-20) (fg 20) (-10) (fg 15) 0 (fg 20) = maxU128 - fg 5 + 1 := by decide +kernel

/-! ## `calc/math/types/seconds_per_liquidity.rs` -/

-- test_unchecked_add, test_unchecked_sub
example : splAdd maxU128 1 = 0 ∧ splAdd maxU128 1000000 = 999999 ∧ splAdd 1000000 maxU128 = 999999 ∧
    splSub 1 2 = maxU128 ∧ splSub maxU128 1000000 = 340282366920938463463374607431767211455 ∧
    splSub 1000000 maxU128 = 1000001 := by decide +kernel

-- test_domain_calculate_seconds_per_liquidity_global
example : splGlobal 1 0 100 = .error .track ∧ splGlobal 0 1 0 = .error .track ∧ splGlobal maxU256 1 0 = .ok 0 ∧
    splGlobal 1 315360000 0 = .ok 315360000000000000000000000000000000000 ∧ splGlobal 1 (2 ^ 64 - 1) 0 = .error .track ∧
    splGlobal maxU256 315360000 0 = .ok 0 ∧ splGlobal maxU256 315360000 (315360000 - 1) = .ok 0 ∧
    splGlobal 1 315360000 (315360000 - 1) = .ok 1000000000000000000000000000000 := by decide +kernel

-- test_calculate_seconds_per_liquidity_inside
example : splInside 0 10 (-10) 3012300000 2030400000 0 = 981900000 ∧
    splInside 0 10 0 3012300000 2030400000 0 = 340282366920938463463374607426725511456 ∧
    splInside 0 10 20 2012333200 3012333310 0 = 1000000110 ∧
    splInside 0 10 20 201233320000 301233331000 0 = 100000011000 ∧
    splInside 0 10 (-20) 201233320000 301233331000 0 = 340282366920938463463374607331768200456 := by decide +kernel

/-! ## `src/contracts/logic/liquidity_result.rs` -/

/-- the price of a tick, for the arguments of these tests -/
def at' {α : Type} (t : Int) (f : Nat → M α) : M α := calculateSqrtPrice t >>= f

-- get_liquidity_by_x_test
example : at' 100 (getLiquidityByX 430000 (-50) 10 · true) = .error .track ∧
    at' 100 (getLiquidityByX 430000 80 120 · true) = .ok ⟨43239299731929, 434322⟩ ∧
    at' 100 (getLiquidityByX 430000 80 120 · false) = .ok ⟨43239299731929, 434321⟩ ∧
    at' 100 (getLiquidityByX 430000 150 800 · true) = .ok ⟨1354882631162, 0⟩ ∧
    at' 100 (getLiquidityByX 430000 150 800 · false) = .ok ⟨1354882631162, 0⟩ := by decide +kernel

-- get_liquidity_by_y_test
example : at' (-20000) (getLiquidityByY 47600000000 (-22000) (-21000) · true) = .ok ⟨278905227910392327, 0⟩ ∧
    at' (-20000) (getLiquidityByY 47600000000 (-22000) (-21000) · false) = .ok ⟨278905227910392327, 0⟩ ∧
    at' (-20000) (getLiquidityByY 47600000000 (-25000) (-19000) · true) = .ok ⟨58494529055434693, 77539808126⟩ ∧
    at' (-20000) (getLiquidityByY 47600000000 (-25000) (-19000) · false) = .ok ⟨58494529055434693, 77539808125⟩ ∧
    at' (-20000) (getLiquidityByY 47600000000 (-10000) 0 · true) = .error .track ∧
    at' (-20000) (getLiquidityByY 47600000000 (-10000) 0 · false) = .error .track := by decide +kernel

-- get_liquidity_test (the source checks the liquidity and the one amount it gave)
example : (at' (-20000) (getLiquidity 0 47600000000 (-22000) (-21000) · true)).toOption.map (fun r => (r.l, r.x)) =
      some (278905227910392327, 0) ∧
    (at' (-20000) (getLiquidity 77539808126 47600000000 (-25000) (-19000) · true)).toOption.map (fun r => (r.l, r.x)) =
      some (58494529055434693, 77539808126) ∧
    (at' (-20000) (getLiquidity 77539808125 47600000000 (-25000) (-19000) · false)).toOption.map (fun r => (r.l, r.x)) =
      some (58494529055291192, 77539808125) ∧
    (at' (-20000) (getLiquidity 430000000 0 150 800 · true)).toOption.map (fun r => (r.l, r.y)) =
      some (1354882631162385, 0) := by decide +kernel

end Verif.Tests.Types
