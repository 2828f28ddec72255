import Verif.Proofs.Step

/-!
# C06, C07, C08: one swap step; C09: minimum output

`computeSwapStep cur target L amount byIn fee` is the model of `compute_swap_step`. The curve amounts
`Spec.amountX`, `Spec.amountY` are the exact rational ones.
-/

set_option exponentiation.threshold 1000

namespace Verif
open Spec

/-- C06 is false: an exact-input step from X to Y can pass its target. Here the target is the price
of tick -200000 and the step ends 84 units below it. -/
theorem C06_negation :
    ¬ ∀ (cur target L amount fee : Nat) (byIn : Bool) (r : SwapResult),
      MIN_SQRT_PRICE ≤ cur → cur ≤ MAX_SQRT_PRICE → MIN_SQRT_PRICE ≤ target →
      target ≤ MAX_SQRT_PRICE → computeSwapStep cur target L amount byIn fee = .ok r →
      min cur target ≤ r.nextSqrtPrice ∧ r.nextSqrtPrice ≤ max cur target := by
  intro h
  have h1 : computeSwapStep 45650304000012345678 45422634000000000000 (10 ^ 25)
      11090589328984133779649 true (10 ^ 10) =
      .ok ⟨45422633999999999916, 10979683435694296492863, 22767000001234, 110905893289837286786⟩ := by decide +kernel
  have := h _ _ _ _ _ _ _ (by norm_num [MIN_SQRT_PRICE]) (by norm_num [MAX_SQRT_PRICE])
    (by norm_num [MIN_SQRT_PRICE]) (by norm_num [MAX_SQRT_PRICE]) h1
  norm_num at this

/-- C06, what holds for all legal prices, all amounts, liquidities and fees: the price never moves
against the direction of the step; it never passes the target in the three modes Y→X exact input,
Y→X exact output and X→Y exact output; and it does not pass the target in the remaining mode (X→Y
exact input) if the distance to the target, measured in price units, is below the square of the
price (which is always so at prices of at least 1).
(Full statement: `min cur target ≤ next ≤ max cur target` in all modes; refuted above.) -/
theorem C06_partial {cur target L amount fee : Nat} {byIn : Bool} {r : SwapResult}
    (hc : MIN_SQRT_PRICE ≤ cur) (ht : MIN_SQRT_PRICE ≤ target)
    (h : computeSwapStep cur target L amount byIn fee = .ok r) :
    (cur ≤ target → cur ≤ r.nextSqrtPrice ∧ r.nextSqrtPrice ≤ target) ∧
    (target ≤ cur → r.nextSqrtPrice ≤ cur) ∧
    (target ≤ cur → byIn = false → target ≤ r.nextSqrtPrice) ∧
    (target ≤ cur → byIn = true → (cur - target + 1) * 10 ^ 24 ≤ cur * cur →
      target ≤ r.nextSqrtPrice) := by
  have hc12 : 10 ^ 12 ≤ cur := le_trans (by norm_num [MIN_SQRT_PRICE]) hc
  have hD : 10 ^ 24 ≤ cur * target :=
    le_trans (by norm_num [MIN_SQRT_PRICE]) (Nat.mul_le_mul hc ht)
  by_cases hL : L = 0
  · rw [hL, computeSwapStep_zero] at h
    cases h
    exact ⟨fun h => ⟨h, le_refl _⟩, fun h => h, fun _ _ => le_refl _, fun _ _ _ => le_refl _⟩
  · refine ⟨?_, ?_, ?_, ?_⟩
    · intro hle
      rcases Nat.lt_or_ge cur target with hlt | hge
      · exact ⟨step_cur_le_next hL hlt h, step_next_le_target hL hlt hD h⟩
      · have e : cur = target := le_antisymm hle hge
        subst e
        have hw : (cur - cur + 1) * 10 ^ 24 ≤ cur * cur := by
          rw [Nat.sub_self, Nat.zero_add, Nat.one_mul]; exact hD
        exact ⟨step_target_le_next hL (le_refl _) (fun _ => hw) h,
          step_next_le_cur hL hc12 (le_refl _) h⟩
    · intro hle; exact step_next_le_cur hL hc12 hle h
    · intro hle hb; exact step_target_le_next hL hle (by simp [hb]) h
    · intro hle hb hw; exact step_target_le_next hL hle (fun _ => hw) h

/-- steps that stop short of their target in all four modes -/
example :
    computeSwapStep (10 ^ 24) (9 * 10 ^ 23) (10 ^ 11) 1000 true (10 ^ 9) =
      .ok ⟨999001997004992012979034, 999, 998, 1⟩ ∧
    computeSwapStep (10 ^ 24) (11 * 10 ^ 23) (10 ^ 11) 1000 true (10 ^ 9) =
      .ok ⟨1000999000000000000000000, 999, 998, 1⟩ ∧
    computeSwapStep (10 ^ 24) (9 * 10 ^ 23) (10 ^ 11) 1000 false (10 ^ 9) =
      .ok ⟨999000000000000000000000, 1002, 1000, 2⟩ ∧
    computeSwapStep (10 ^ 24) (11 * 10 ^ 23) (10 ^ 11) 1000 false (10 ^ 9) =
      .ok ⟨1001001001001001001001002, 1002, 1000, 2⟩ := by decide +kernel

/-- C06, how far a step can pass its target: by at most 65536 of the 10^24 units of the price. -/
theorem C06_overshoot_bound_partial {cur target L amount fee : Nat} {byIn : Bool} {r : SwapResult}
    (hc : MIN_SQRT_PRICE ≤ cur) (hle : target ≤ cur)
    (h : computeSwapStep cur target L amount byIn fee = .ok r) :
    target ≤ r.nextSqrtPrice + 65536 := by
  by_cases hL : L = 0
  · rw [hL, computeSwapStep_zero] at h
    cases h
    exact Nat.le_add_right _ _
  · exact step_target_le_next_slack hL hle hc h

/-- C07 is false: an exact-input step from X to Y can report an input above the amount offered, when
the offered amount moves the price exactly onto the target although it is less than the input computed
for the target. -/
theorem C07_negation :
    ¬ ∀ (cur target L amount fee : Nat) (byIn : Bool) (r : SwapResult),
      MIN_SQRT_PRICE ≤ cur → cur ≤ MAX_SQRT_PRICE → MIN_SQRT_PRICE ≤ target →
      target ≤ MAX_SQRT_PRICE → fee < 10 ^ 12 →
      computeSwapStep cur target L amount byIn fee = .ok r →
      (byIn = true → r.amountIn + r.feeAmount ≤ amount) := by
  intro h
  have h1 : computeSwapStep 21569970758066979096 21569877000000000000 (10 ^ 24)
      2015168750775600192 true 0 =
      .ok ⟨21569877000000000000, 2015168750775600193, 937580669, 0⟩ := by decide +kernel
  have := h _ _ _ _ _ _ _ (by norm_num [MIN_SQRT_PRICE]) (by norm_num [MAX_SQRT_PRICE])
    (by norm_num [MIN_SQRT_PRICE]) (by norm_num [MAX_SQRT_PRICE]) (by norm_num) h1 rfl
  norm_num at this

/-- C07, what holds for every step: in exact-input mode the input plus the fee equals the amount
offered if the target is not reached; it never exceeds the amount in the direction Y→X, and in the
direction X→Y it does not if the target is not reached or the amount less the fee covers the input
priced for the target. In exact-output mode the output never exceeds the amount requested. A step
without liquidity moves to the target at no charge.
(Full statement: the second part without the last condition; refuted above.) -/
theorem C07_partial {cur target L amount fee : Nat} {byIn : Bool} {r : SwapResult}
    (h : computeSwapStep cur target L amount byIn fee = .ok r) :
    (byIn = true → L ≠ 0 → r.nextSqrtPrice ≠ target → r.amountIn + r.feeAmount = amount) ∧
    (byIn = true → cur < target → r.amountIn + r.feeAmount ≤ amount) ∧
    (byIn = true → (∃ x, getDeltaX target cur L true = .ok x ∧
        x ≤ amount * (10 ^ 12 - fee) / 10 ^ 12) → r.amountIn + r.feeAmount ≤ amount) ∧
    (byIn = false → r.amountOut ≤ amount) ∧
    (L = 0 → r = ⟨target, 0, 0, 0⟩) := by
  by_cases hL : L = 0
  · rw [hL, computeSwapStep_zero] at h
    cases h
    simp [hL]
  · have F := computeSwapStep_ok hL h
    have heq : byIn = true → r.nextSqrtPrice ≠ target → r.amountIn + r.feeAmount = amount := by
      intro hb hn
      have := F.feeEq
      rw [if_pos ⟨hb, hn⟩] at this
      omega
    have key : byIn = true → inAmt (decide (cur ≥ target)) cur target L ≤
        amount * (10 ^ 12 - fee) / 10 ^ 12 → r.nextSqrtPrice = target →
        r.amountIn + r.feeAmount ≤ amount := by
      intro hb hi hn
      have hf := F.feeEq
      rw [if_neg (by simp [hn])] at hf
      have hin := F.inEq
      rw [hn] at hin
      rw [hf]
      exact in_add_fee_le (F.nextIn hb).1 (by rw [hin]; exact hi)
    refine ⟨fun hb _ hn => heq hb hn, ?_, ?_, ?_, fun h0 => absurd h0 hL⟩
    · intro hb hlt
      by_cases hn : r.nextSqrtPrice = target
      · subst hb
        exact key rfl (step_not_reached_y hL hlt h hn) hn
      · exact (heq hb hn).le
    · rintro hb ⟨x, hx, hle⟩
      by_cases hn : r.nextSqrtPrice = target
      · rcases Nat.lt_or_ge cur target with hlt | hge
        · subst hb
          exact key rfl (step_not_reached_y hL hlt h hn) hn
        · apply key hb _ hn
          obtain ⟨h1, -⟩ := getDeltaX_up_ok hx
          have hd : decide (cur ≥ target) = true := by simpa using hge
          rw [hd]
          unfold inAmt
          rw [if_pos rfl, absDiff_swap_dx, ← h1]
          exact hle
      · exact (heq hb hn).le
    · intro hb
      rw [F.outEq, if_neg (by simp [hb])]
      exact min_le_right _ _

/-- a step that reaches its target and one that does not -/
example :
    computeSwapStep (10 ^ 24) (9 * 10 ^ 23) (10 ^ 11) 1000000 true (10 ^ 9) =
      .ok ⟨9 * 10 ^ 23, 111112, 100000, 112⟩ ∧
    (∃ x, getDeltaX (9 * 10 ^ 23) (10 ^ 24) (10 ^ 11) true = .ok x ∧
      x ≤ 1000000 * (10 ^ 12 - 10 ^ 9) / 10 ^ 12) ∧
    computeSwapStep (10 ^ 24) (9 * 10 ^ 23) (10 ^ 11) 1000 true (10 ^ 9) =
      .ok ⟨999001997004992012979034, 999, 998, 1⟩ := by
  refine ⟨by decide +kernel, ⟨111112, by decide +kernel, by norm_num⟩, by decide +kernel⟩

/-- C08: each step takes at least, and pays at most, what the exact curve prescribes between the old
and the new price. Exactly so for token Y in and out and token X out; for token X in up to one part
in 2.3·10^14 of a unit. -/
theorem C08_step_curve {cur target L amount fee : Nat} {byIn : Bool} {r : SwapResult}
    (hc : MIN_SQRT_PRICE ≤ cur) (ht : MIN_SQRT_PRICE ≤ target)
    (hL : L ≠ 0) (h : computeSwapStep cur target L amount byIn fee = .ok r) :
    (target ≤ cur → amountX cur r.nextSqrtPrice L < r.amountIn + 1 / (23 * 10 ^ 13) ∧
      (r.amountOut : ℚ) ≤ amountY cur r.nextSqrtPrice L) ∧
    (cur < target → amountY cur r.nextSqrtPrice L ≤ r.amountIn ∧
      (r.amountOut : ℚ) ≤ amountX cur r.nextSqrtPrice L) := by
  have F := computeSwapStep_ok hL h
  have hout : r.amountOut ≤ outAmt (decide (cur ≥ target)) cur r.nextSqrtPrice L := by
    rw [F.outEq]
    split
    · exact le_refl _
    · exact min_le_left _ _
  have hc0 : 0 < cur := lt_of_lt_of_le (by norm_num [MIN_SQRT_PRICE]) hc
  constructor
  · intro hle
    have hd : decide (cur ≥ target) = true := by simpa using hle
    rw [hd] at hout
    have hin := F.inEq
    rw [hd] at hin
    unfold outAmt at hout
    unfold inAmt at hin
    rw [if_pos rfl] at hin hout
    have hn : 15258931999999934464 ≤ r.nextSqrtPrice := by
      have := step_target_le_next_slack hL hle hc h
      simp only [MIN_SQRT_PRICE] at ht
      omega
    have hn0 : 0 < r.nextSqrtPrice := by omega
    constructor
    · rw [hin]
      refine lt_of_lt_of_le (amountX_lt_dxUp hc0 hn0 L (F.dPos hle)) ?_
      have hab : 23 * 10 ^ 37 ≤ cur * r.nextSqrtPrice :=
        le_trans (by norm_num [MIN_SQRT_PRICE]) (Nat.mul_le_mul hc hn)
      have hab' : (23 * 10 ^ 37 : ℚ) ≤ ((cur * r.nextSqrtPrice : Nat) : ℚ) := by exact_mod_cast hab
      have : (10 : ℚ) ^ 24 / ((cur * r.nextSqrtPrice : Nat) : ℚ) ≤ 1 / (23 * 10 ^ 13) := by
        rw [div_le_div_iff₀ (by linarith) (by norm_num)]
        linarith
      linarith
    · rw [dyDown_eq_floor] at hout
      exact le_trans (by exact_mod_cast hout) (Nat.floor_le (amountY_nonneg _ _ _))
  · intro hlt
    have hd : decide (cur ≥ target) = false := by simpa using hlt
    rw [hd] at hout
    have hin := F.inEq
    rw [hd] at hin
    unfold outAmt at hout
    unfold inAmt at hin
    rw [if_neg (by decide)] at hin hout
    have hn := step_cur_le_next hL hlt h
    constructor
    · rw [hin, dyUp_eq_ceil]
      exact Nat.le_ceil _
    · exact le_trans (by exact_mod_cast hout) (dxDown_le_amountX hc0 (by omega) L)

/-- a step in each direction; see also the examples above -/
example : computeSwapStep (10 ^ 24) (9 * 10 ^ 23) (10 ^ 11) 1000000 false (10 ^ 9) =
      .ok ⟨9 * 10 ^ 23, 111112, 100000, 112⟩ ∧ MIN_SQRT_PRICE ≤ 9 * 10 ^ 23 := by
  refine ⟨by decide +kernel, by norm_num [MIN_SQRT_PRICE]⟩

/-- C09: for a slippage of at most 100% the minimum output is the exact ceiling of
`expected · (1 - slippage)`, a larger slippage is rejected. -/
theorem C09_min_amount_out {e s : Nat} (he : e < 2 ^ 256) :
    (s ≤ 10 ^ 12 → calculateMinAmountOut e s = .ok ⌈(e : ℚ) * (1 - pct s)⌉₊) ∧
    (10 ^ 12 < s → ∃ err, calculateMinAmountOut e s = .error err) := by
  constructor
  · intro hs
    rw [calculateMinAmountOut_eq he hs, cdiv_eq_ceil _ (by positivity)]
    congr 2
    unfold pct
    rw [Nat.cast_mul, Nat.cast_sub hs]
    push_cast
    field_simp
    norm_num
    ring
  · intro hs
    refine ⟨.panic, ?_⟩
    unfold calculateMinAmountOut subC
    rw [pctOne_eq, if_neg (by omega)]
    rfl

/-- C09, consequences: never above the expected amount, equal to it at no slippage, zero at 100%. -/
theorem C09_bounds {e s m : Nat} (he : e < 2 ^ 256) (h : calculateMinAmountOut e s = .ok m) :
    m ≤ e ∧ (s = 0 → m = e) ∧ (s = 10 ^ 12 → m = 0) := by
  have hs : s ≤ 10 ^ 12 := by
    by_contra hc
    obtain ⟨err, h2⟩ := (C09_min_amount_out he).2 (not_le.1 hc)
    rw [h2] at h; cases h
  rw [calculateMinAmountOut_eq he hs] at h
  cases h
  refine ⟨?_, ?_, ?_⟩
  · rw [cdiv_le_iff (by positivity)]
    exact Nat.mul_le_mul_left _ (Nat.sub_le _ _)
  · rintro rfl
    rw [Nat.sub_zero, cdiv_mul_self _ (by positivity)]
  · rintro rfl
    rw [Nat.sub_self, Nat.mul_zero, cdiv_zero]

example : calculateMinAmountOut 1001 (10 ^ 10) = .ok 991 ∧
    calculateMinAmountOut (2 ^ 256 - 1) 0 = .ok (2 ^ 256 - 1) ∧
    calculateMinAmountOut 5 (10 ^ 12 + 1) = .error .panic := by decide +kernel

end Verif
