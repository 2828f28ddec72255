import Verif.Model.Math

/-!
# The repository's own tests of `calc/math/clamm.rs` (lines 379-2603), on the model

Each example is a `#[test]` of the source with the numbers of the source. These are tests of the model, not proofs of
properties; where the source expects an error (`unwrap_err`) the example says which kind of failure the model has.
-/

namespace Verif.Tests.Clamm

/-- `SwapResult` in the order of the source -/
def sr (next i o fee : Nat) : M SwapResult := .ok ⟨next, i, o, fee⟩
/-- `from_integer` and `from_scale` of the price, the liquidity and the percentage -/
def sp (n : Nat) (scale : Nat := 0) : Nat := n * 10 ^ (24 - scale)
def lq (n : Nat) : Nat := n * 10 ^ 5
def pc (n : Nat) (scale : Nat := 0) : Nat := n * 10 ^ (12 - scale)
def maxU256 : Nat := 2 ^ 256 - 1
def maxU128 : Nat := 2 ^ 128 - 1

-- test_calculate_min_amount_out
example : calculateMinAmountOut 100 0 = .ok 100 ∧ calculateMinAmountOut 100 (pc 1 3) = .ok 100 ∧
    calculateMinAmountOut 123 (pc 9 3) = .ok 122 ∧ calculateMinAmountOut 100 (pc 1 2) = .ok 99 ∧
    calculateMinAmountOut 100 (pc 3 2) = .ok 97 ∧ calculateMinAmountOut 100 (pc 5 2) = .ok 95 ∧
    calculateMinAmountOut 100 (pc 1 1) = .ok 90 ∧ calculateMinAmountOut 100 (pc 2 1) = .ok 80 ∧
    calculateMinAmountOut 100 (pc 5 1) = .ok 50 ∧ calculateMinAmountOut 100 (pc 1) = .ok 0 := by decide +kernel

-- test_domain_calculate_min_amount_out
example : calculateMinAmountOut 0 0 = .ok 0 ∧ calculateMinAmountOut 0 (pc 1) = .ok 0 ∧
    calculateMinAmountOut maxU256 (pc 1) = .ok 0 ∧ calculateMinAmountOut maxU256 0 = .ok maxU256 := by decide +kernel

-- test_domain_get_next_sqrt_price_from_input
example : calculateSqrtPrice MAX_TICK = .ok MAX_SQRT_PRICE ∧ calculateSqrtPrice (-MAX_TICK) = .ok MIN_SQRT_PRICE ∧
    getNextSqrtPriceFromInput (MAX_SQRT_PRICE - 1) maxU256 (maxU128 * 10 ^ 10) false = .ok 65535383934512647000000000001 ∧
    getNextSqrtPriceFromInput (MIN_SQRT_PRICE + 1) maxU256 (maxU128 * 10 ^ 20) true = .ok 15258931999999999995 ∧
    getNextSqrtPriceFromInput MIN_SQRT_PRICE maxU256 0 true = .ok MIN_SQRT_PRICE ∧
    getNextSqrtPriceFromInput MIN_SQRT_PRICE 0 20 true = .ok 0 ∧
    getNextSqrtPriceFromInput MAX_SQRT_PRICE 1 maxU256 false = .error .track := by decide +kernel

-- test_domain_get_next_sqrt_price_from_output
example : getNextSqrtPriceFromOutput (MAX_SQRT_PRICE - 1) maxU256 1 false = .ok 65535383934512647000000000000 ∧
    getNextSqrtPriceFromOutput (MIN_SQRT_PRICE + 1) maxU256 1 true = .ok 15258932000000000000 ∧
    getNextSqrtPriceFromOutput MIN_SQRT_PRICE maxU256 0 true = .ok MIN_SQRT_PRICE ∧
    getNextSqrtPriceFromOutput MIN_SQRT_PRICE 0 20 true = .error .track ∧
    getNextSqrtPriceFromOutput MAX_SQRT_PRICE 1 maxU256 false = .error .track := by decide +kernel

-- test_compute_swap_step
example : computeSwapStep (sp 1) 1004987562112089027021926 (lq 2000) 1 true (pc 6 4) = sr (sp 1) 0 0 1 ∧
    computeSwapStep (sp 1) 1004987562112089027021926 (lq 2000) 20 true (pc 6 4) = sr 1004987562112089027021926 10 9 1 ∧
    computeSwapStep (sp 1) 1004987562112089027021926 (lq 2000) 20 false (pc 6 4) = sr 1004987562112089027021926 10 9 1 ∧
    computeSwapStep (sp 101 2) (sp 10) (lq 300000000) 1000000 true (pc 6 4) =
      sr 1013331333333333333333333 999400 976487 600 ∧
    computeSwapStep (sp 101) (sp 100) (lq 5000000000000) 2000000 false (pc 6 4) =
      sr 100999999600000000000000000 197 2000000 1 ∧
    computeSwapStep 999500149965000000000000 999500149965000000000000 20006000000000 1000000 true (pc 6 4) =
      sr 999500149965000000000000 0 0 0 ∧
    computeSwapStep (sp 999500149965 12) (sp 1999500149965 12) (lq 100000000000000000000000000) 10 true (pc 6 4) =
      sr (sp 999500149965 12) 0 0 10 ∧
    computeSwapStep (sp 1) (sp 100005 5) (lq 368944000000000000000000) 1 true (pc 6 4) = sr (sp 1) 0 0 1 ∧
    computeSwapStep (sp 1) (sp 100005 5) (lq 368944000000000000000000) 1 false (pc 6 4) =
      sr 1000000000000000000000003 2 1 1 ∧
    computeSwapStep (sp 1) (sp 100005 5) 0 100000 true (pc 6 4) = sr (sp 100005 5) 0 0 0 ∧
    computeSwapStep (sp 1) (sp 100005 5) 0 100000 false (pc 6 4) = sr (sp 100005 5) 0 0 0 ∧
    computeSwapStep (sp 99995 5) (sp 1) (lq 50000000) 1000 true 0 = sr (sp 99997 5) 1000 1000 0 := by decide +kernel

-- test_compute_swap_step: by_amount_out and x_to_y edge cases
example : ∀ t, calculateSqrtPrice (-10) = .ok t →
    computeSwapStep (t + sp 1) t (lq 340282366920938463463374607) 1 false (pc 9 1) = sr (t + sp 1 - 1) 86 1 78 ∧
    computeSwapStep (t + sp 1) t (lq 340282366920938463463374607) 85 false (pc 9 1) = sr (t + sp 1 - 1) 86 85 78 ∧
    computeSwapStep (t + sp 1) t (lq 340282366920938463463374607) 0 false 0 = sr (t + sp 1) 0 0 0 := by
  intro t h
  have : t = 999500149965000000000000 := by
    have e : calculateSqrtPrice (-10) = .ok 999500149965000000000000 := by decide +kernel
    rw [e] at h; injection h with h; exact h.symm
  subst this
  decide +kernel

-- test_domain_compute_swap_step
example : computeSwapStep (sp 1) (sp 2) (lq 1) maxU256 true (pc 1) = sr (sp 1) 0 0 maxU256 ∧
    computeSwapStep (sp 1) (sp 2) maxU256 maxU256 true 0 = sr 2000000000000000000000000
      1157920892373161954235709850086879078532699846656405640394575840079131297
      578960446186580977117854925043439539266349923328202820197287920039565648 0 ∧
    computeSwapStep (sp 1) (sp 2) (lq 100000000000000) (100000000000000 - 1) true 0 =
      sr 1999999999999990000000000 99999999999999 49999999999999 0 ∧
    computeSwapStep (sp 1) (sp 2) maxU256 maxU256 true (pc 1 - 19) = sr 1000001899999999999999999
      2200049695509007711889927822791908294976419858560291638216994249494
      2200045515422528409085952759527180615861658807361317178894970210709
      115792089235116145728061977296797980030478076370664144180897292369696135390441 ∧
    computeSwapStep MAX_SQRT_PRICE MIN_SQRT_PRICE maxU256 (maxU256 - 1) true 0 = sr 15258932000000000000
      75884792730156830614567103553061795263351065677581979504561495713443442818879
      75884790229800029582010010030152469040784228171629896065450012281800526658805 0 ∧
    computeSwapStep MIN_SQRT_PRICE MAX_SQRT_PRICE maxU256 (maxU256 - 1) true 0 = sr 65535383934512647000000000000
      75884790229800029582010010030152469040784228171629896065450012281800526658806
      75884792730156830614567103553061795263351065677581979504561495713443442818878 0 ∧
    computeSwapStep MIN_SQRT_PRICE MAX_SQRT_PRICE (lq 1 - 1) (340282366920939 - 1) true 0 =
      sr MAX_SQRT_PRICE 65535 65534 0 ∧
    computeSwapStep (MAX_SQRT_PRICE - 232826265438719159684) MAX_SQRT_PRICE maxU256 (maxU256 - 1) false 0 =
      sr 65535383934512647000000000000 269594397044712364927302271135767871256767389391069984018896158734608
        62771017353866807635074993554120737773068233085134433767742 0 ∧
    computeSwapStep MIN_SQRT_PRICE MAX_SQRT_PRICE (lq 281477613507675) (maxU256 - 1) false 0 =
      sr 65535383934512647000000000000 18446743465900796471 18446744073709559494 0 ∧
    computeSwapStep (MAX_SQRT_PRICE - sp 1) MAX_SQRT_PRICE (lq 10000000000) 1 false 0 =
      sr 65534813412874974599766965330 4294783624 1 0 ∧
    computeSwapStep MAX_SQRT_PRICE MIN_SQRT_PRICE maxU256 maxU256 false 0 = sr 15258932000000000000
      75884792730156830614567103553061795263351065677581979504561495713443442818879
      75884790229800029582010010030152469040784228171629896065450012281800526658805 0 := by decide +kernel

-- test_get_next_sqrt_price_y_down
example : getNextSqrtPriceYDown (sp 1) (lq 1) 1 true = .ok (sp 2) ∧
    getNextSqrtPriceYDown (sp 1) (lq 2) 3 true = .ok (sp 25 1) ∧
    getNextSqrtPriceYDown (sp 2) (lq 3) 5 true = .ok (sp 11 / 3) ∧
    getNextSqrtPriceYDown (sp 24234) (lq 3000) 5000 true = .ok (sp 72707 / 3) ∧
    getNextSqrtPriceYDown (sp 1) (lq 2) 1 false = .ok (sp 5 1) ∧
    getNextSqrtPriceYDown (sp 100000) (lq 500000000) 4000 false = .ok 99999999992000000000000000000 ∧
    getNextSqrtPriceYDown (sp 3) (lq 222) 37 false = .ok 2833333333333333333333333 := by decide +kernel

-- test_domain_get_next_sqrt_price_y_down
example : getNextSqrtPriceYDown MIN_SQRT_PRICE maxU256 (1 + maxU128 * 2 ^ 32) true = .ok 15258932000000000001 ∧
    getNextSqrtPriceYDown (MIN_SQRT_PRICE + 1) maxU256 1 false = .ok 15258932000000000000 ∧
    getNextSqrtPriceYDown MAX_SQRT_PRICE maxU256 (1 + maxU128 * 2 ^ 32) false = .ok 65535383934512646999999999998 ∧
    getNextSqrtPriceYDown (MAX_SQRT_PRICE - 1) maxU256 (1 + 600000000) true = .ok 65535383934512646999999999999 ∧
    getNextSqrtPriceYDown MAX_SQRT_PRICE 1 maxU256 true = .error .track ∧
    getNextSqrtPriceYDown 1 1 maxU256 false = .error .track ∧
    getNextSqrtPriceYDown MAX_SQRT_PRICE (lq 1) (340282366920940 - 2) true = .error .track ∧
    getNextSqrtPriceYDown 1 (lq 1) (340282366920940 - 2) false = .error .track ∧
    getNextSqrtPriceYDown 1 (lq 1) (2 ^ 225) true = .error .track ∧
    getNextSqrtPriceYDown 1 (lq 1) (2 ^ 225) false = .error .track ∧
    getNextSqrtPriceYDown MIN_SQRT_PRICE maxU256 maxU256 true = .ok 100000000015258932000000000000 ∧
    getNextSqrtPriceYDown MIN_SQRT_PRICE 0 1 true = .error .track ∧
    getNextSqrtPriceYDown MIN_SQRT_PRICE maxU256 0 true = .ok MIN_SQRT_PRICE := by decide +kernel

-- test_get_delta_x
example : getDeltaX (sp 1) (sp 1) 0 false = .ok 0 ∧ getDeltaX (sp 1) (sp 2) (lq 2) false = .ok 1 ∧
    getDeltaX 234878324943782000000000000 87854456421658000000000000 983983249092 false = .ok 70108 ∧
    getDeltaX 234878324943782000000000000 87854456421658000000000000 983983249092 true = .ok 70109 ∧
    getDeltaX (sp 1) (sp 5 1) (lq (2 ^ 64 - 1)) false = .ok (2 ^ 64 - 1) ∧
    getDeltaX (sp 1) (sp 5 1) (lq (2 ^ 64 - 1)) true = .ok (2 ^ 64 - 1) ∧
    (getDeltaX (sp 1) (sp 5 1) maxU256 false).toBool = true ∧ (getDeltaX (sp 1) (sp 5 1) maxU256 true).toBool = true ∧
    (getDeltaX (sp 1) (sp 1 + 1000000) (lq (2 ^ 80)) false).toBool = true ∧
    (getDeltaX (sp 1) (sp 1 + 1000000) (lq (2 ^ 80)) true).toBool = true := by decide +kernel

-- test_domain_get_delta_x
example : getDeltaX MAX_SQRT_PRICE MIN_SQRT_PRICE maxU256 true =
      .ok 75884792730156830614567103553061795263351065677581979504561495713443442818879 ∧
    getDeltaX MAX_SQRT_PRICE MIN_SQRT_PRICE maxU256 false =
      .ok 75884792730156830614567103553061795263351065677581979504561495713443442818878 ∧
    getDeltaX MAX_SQRT_PRICE MIN_SQRT_PRICE 1 true = .ok 1 ∧ getDeltaX MAX_SQRT_PRICE MIN_SQRT_PRICE 1 false = .ok 0 ∧
    (calculateSqrtPrice (-MAX_TICK + 1) >>= fun p => getDeltaX MIN_SQRT_PRICE p maxU256 true) =
      .ok 3794315473971847510172532341754979462199874072217062973965311338137066234 ∧
    (calculateSqrtPrice (-MAX_TICK + 1) >>= fun p => getDeltaX MIN_SQRT_PRICE p maxU256 false) =
      .ok 3794315473971847510172532341754979462199874072217062973965311338137066233 ∧
    (calculateSqrtPrice (-MAX_TICK + 1) >>= fun p => getDeltaX MIN_SQRT_PRICE p 1 true) = .ok 1 ∧
    (calculateSqrtPrice (-MAX_TICK + 1) >>= fun p => getDeltaX MIN_SQRT_PRICE p 1 false) = .ok 0 ∧
    (calculateSqrtPrice (MAX_TICK - 256 * 100) >>= fun p => getDeltaX MAX_SQRT_PRICE p maxU256 true) =
      .ok 45875017378130362421757891862614875858481775310156442203847653871247 ∧
    getDeltaX MAX_SQRT_PRICE (MAX_SQRT_PRICE - sp 1) maxU256 true =
      .ok 269608649375997235557394191156352599353486422139915865816324471 ∧
    getDeltaX MIN_SQRT_PRICE (MIN_SQRT_PRICE + sp 1) maxU256 true =
      .ok 75883634844601460750582416171430603974060896681619645705711819135499453546638 ∧
    getDeltaX MAX_SQRT_PRICE MIN_SQRT_PRICE 0 true = .ok 0 ∧
    getDeltaX MAX_SQRT_PRICE MIN_SQRT_PRICE 0 false = .ok 0 := by decide +kernel

-- test_get_delta_y
example : getDeltaY (sp 1) (sp 1) 0 false = .ok 0 ∧ getDeltaY (sp 1) (sp 2) (lq 2) false = .ok 2 ∧
    getDeltaY 234878324943782000000000000 87854456421658000000000000 983983249092 false = .ok 1446690238 ∧
    getDeltaY 234878324943782000000000000 87854456421658000000000000 983983249092 true = .ok 1446690239 ∧
    getDeltaY (sp 1) (sp 2) (lq (2 ^ 64 - 1)) false = .ok (2 ^ 64 - 1) ∧
    getDeltaY (sp 1) (sp 2) (lq (2 ^ 64 - 1)) true = .ok (2 ^ 64 - 1) ∧
    getDeltaY (sp 1) maxU128 maxU256 false = .error .track ∧ getDeltaY (sp 1) maxU128 maxU256 true = .error .track ∧
    (getDeltaY (sp 1) (sp 1 + 1000000) maxU256 false).toBool = true ∧
    (getDeltaY (sp 1) (sp 1 + 1000000) maxU256 true).toBool = true := by decide +kernel

-- test_domain_get_delta_y
example : getDeltaY MAX_SQRT_PRICE MIN_SQRT_PRICE maxU256 true =
      .ok 75884790229800029582010010030152469040784228171629896065450012281800526658806 ∧
    getDeltaY MAX_SQRT_PRICE MIN_SQRT_PRICE maxU256 false =
      .ok 75884790229800029582010010030152469040784228171629896065450012281800526658805 ∧
    getDeltaY MAX_SQRT_PRICE (MAX_SQRT_PRICE - 1) 1 false = .ok 0 ∧
    getDeltaY MAX_SQRT_PRICE MIN_SQRT_PRICE 0 true = .ok 0 ∧
    getDeltaY MAX_SQRT_PRICE MAX_SQRT_PRICE maxU256 true = .ok 0 := by decide +kernel

-- test_get_next_sqrt_price_x_up
example : getNextSqrtPriceXUp (sp 1) (lq 1) 1 true = .ok (sp 5 1) ∧
    getNextSqrtPriceXUp (sp 1) (lq 2) 3 true = .ok (sp 4 1) ∧
    getNextSqrtPriceXUp (sp 2) (lq 3) 5 true = .ok 461538461538461538461539 ∧
    getNextSqrtPriceXUp (sp 24234) (lq 3000) 5000 true = .ok 599985145205615112277488 ∧
    getNextSqrtPriceXUp (sp 1) (lq 2) 1 false = .ok (sp 2) ∧
    getNextSqrtPriceXUp (sp 100000) (lq 500000000) 4000 false = .ok (sp 500000) ∧
    getNextSqrtPriceXUp 3333333333333333333333333 22222222 37 false = .ok 7490636797542399944773031 := by decide +kernel

-- test_domain_get_next_sqrt_price_x_up
example : getNextSqrtPriceXUp MIN_SQRT_PRICE maxU256 600000000 false = .ok 15258932000000000001 ∧
    getNextSqrtPriceXUp (MIN_SQRT_PRICE + 1) maxU256 (maxU128 * 2 ^ 64) true = .ok 15258932000000000000 ∧
    getNextSqrtPriceXUp MAX_SQRT_PRICE maxU256 maxU128 true = .ok 65535383934512646999999999999 ∧
    getNextSqrtPriceXUp (MAX_SQRT_PRICE - 1) maxU256 maxU128 false = .ok 65535383934512647000000000001 ∧
    getNextSqrtPriceXUp MAX_SQRT_PRICE maxU256 maxU256 true = .ok 9999999998474106750 ∧
    getNextSqrtPriceXUp MAX_SQRT_PRICE 1 maxU256 false = .error .track ∧
    getNextSqrtPriceXUp MAX_SQRT_PRICE maxU256 1 true = .ok 65535383934512647000000000000 ∧
    getNextSqrtPriceXUp MAX_SQRT_PRICE 0 1 true = .ok 0 ∧
    getNextSqrtPriceXUp MAX_SQRT_PRICE maxU256 0 true = .ok 65535383934512647000000000000 := by decide +kernel

-- test_domain_is_enough_amount_to_push_price
example : isEnoughAmountToChangePrice maxU256 MAX_SQRT_PRICE 1 0 false false = .error .track ∧
    isEnoughAmountToChangePrice 1 MAX_SQRT_PRICE 1 (pc 1) false false = .error .track ∧
    isEnoughAmountToChangePrice maxU256 MAX_SQRT_PRICE 0 (pc 1) false false = .ok true ∧
    isEnoughAmountToChangePrice 1 MAX_SQRT_PRICE 1 0 false false = .error .track := by decide +kernel

-- test_calculate_amount_delta
example : calculateAmountDelta 2 1000140000000000000000000 (lq 5000000) true 3 0 = .ok (51, 700, true) ∧
    calculateAmountDelta 2 1000140000000000000000000 (lq 5000000) true 4 0 = .ok (300, 700, true) ∧
    calculateAmountDelta 0 0 (lq 10) true 4 2 = .ok (1, 0, false) ∧
    calculateAmountDelta 6 0 (lq 10) true 4 2 = .ok (0, 1, false) := by decide +kernel

-- test_domain_calculate_amount_delta
example : calculateAmountDelta (-MAX_TICK) 0 maxU256 true MAX_TICK (-MAX_TICK + 1) =
      .ok (75880998414682858767056931020720040283888865803509762441587530402105305752645, 0, false) ∧
    calculateAmountDelta MAX_TICK 0 maxU256 true (MAX_TICK - 1) (-MAX_TICK) =
      .ok (0, 75880996274614937472454279923345931777432945506580976077368827511053494714377, false) ∧
    calculateAmountDelta 2 1000140000000000000000000 0 true 4 0 = .ok (0, 0, true) ∧
    calculateAmountDelta 0 1000140000000000000000000 0 true 4 10 = .error .track ∧
    calculateAmountDelta 0 maxU128 maxU256 true MAX_TICK (-MAX_TICK) = .error .track := by decide +kernel

-- test_check_ticks
example : checkTicks (-10) 10 1 = .ok () ∧ checkTicks (-12) 12 4 = .ok () ∧ checkTicks 2000 5000 100 = .ok () ∧
    (checkTicks (-2) 2 4).toBool = false ∧ (checkTicks 0 (MAX_TICK + 1) 1).toBool = false ∧
    (checkTicks 20 0 5).toBool = false := by decide +kernel

-- test_calculate_max_liquidity_per_tick
example : calculateMaxLiquidityPerTick 1 = 261006384132333857238172165551313140818439365214444611336425014162283870 ∧
    calculateMaxLiquidityPerTick 2 = 522013944933757384087725004321957225532959384115087883036803072825077900 ∧
    calculateMaxLiquidityPerTick 5 = 1305037804020379314341417888677492847197245310510223089245185614389229091 ∧
    calculateMaxLiquidityPerTick 100 = 26102815427708790672581376241814226296949951457538449963809193870133708214 := by
  decide +kernel

end Verif.Tests.Clamm
