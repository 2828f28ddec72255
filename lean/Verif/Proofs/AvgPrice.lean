import Verif.Proofs.AvgStep
import Verif.Proofs.Trades

/-! # The average price of an exact-input swap -/

namespace Verif
open Service Spec

theorem rate_of_in {i f fee : Nat} (hf : fee ≤ 10 ^ 12) (h : f = cdiv (i * fee) (10 ^ 12)) :
    (1 - pct fee) * ((i : ℚ) + f) ≤ i + 1 := by
  have h1 := cdiv_mul_lt (i * fee) (d := 10 ^ 12) (by positivity)
  rw [← h] at h1
  have q1 : (f : ℚ) * 10 ^ 12 < i * fee + 10 ^ 12 := by exact_mod_cast h1
  have q2 : (f : ℚ) ≤ i * pct fee + 1 := by
    unfold pct
    have e : (i : ℚ) * (fee / 10 ^ 12) + 1 = (i * fee + 10 ^ 12) / 10 ^ 12 := by
      rw [add_div, mul_div_assoc, div_self (by norm_num)]
    rw [e, le_div_iff₀ (by positivity)]
    exact q1.le
  have p0 := pct_nonneg fee
  have p1 := pct_le_one hf
  have i0 : (0 : ℚ) ≤ i := Nat.cast_nonneg _
  have := mul_le_mul_of_nonneg_left q2 (by linarith : 0 ≤ 1 - pct fee)
  have h2 : 0 ≤ (i : ℚ) * (pct fee * pct fee) := by positivity
  nlinarith

theorem rate_of_amount {amount fee : Nat} (hf : fee ≤ 10 ^ 12) :
    (1 - pct fee) * (amount : ℚ) ≤ ((amount * (10 ^ 12 - fee) / 10 ^ 12 : Nat) : ℚ) + 1 := by
  have h2 := lt_div_add_one_mul (amount * (10 ^ 12 - fee)) (d := 10 ^ 12) (by positivity)
  generalize amount * (10 ^ 12 - fee) / 10 ^ 12 = x at *
  have h4 : ((amount * (10 ^ 12 - fee) : Nat) : ℚ) < (((x + 1) * 10 ^ 12 : Nat) : ℚ) := by exact_mod_cast h2
  rw [Nat.cast_mul, Nat.cast_sub hf] at h4
  push_cast at h4
  unfold pct
  have e : (1 - (fee : ℚ) / 10 ^ 12) * amount = amount * (10 ^ 12 - fee) / 10 ^ 12 := by ring
  rw [e, div_le_iff₀ (by positivity)]
  exact h4.le

theorem amountX_nonneg (a b L : Nat) : 0 ≤ amountX a b L := by unfold amountX liq; positivity

/-- the two amounts of a step are in the proportion of a price within it -/
theorem amounts_prop {a b L : Nat} (ha : 0 < a) (hb : 0 < b) :
    amountY a b L = price a * price b * amountX a b L := by
  rw [amountX_eq ha hb, amountY_eq]
  unfold price
  have h1 : (a : ℚ) ≠ 0 := by positivity
  have h2 : (b : ℚ) ≠ 0 := by positivity
  push_cast
  field_simp
  ring

theorem prod_ge {a b : Nat} (ha : PriceOK a) (hb : PriceOK b) : 23 * 10 ^ 37 ≤ a * b :=
  le_trans (by norm_num [MIN_SQRT_PRICE]) (Nat.mul_le_mul ha.1 hb.1)

/-- a step from X to Y -/
theorem step_give_x {cur target L amount fee : Nat} {r : SwapResult} (hc : PriceOK cur)
    (hn : PriceOK r.nextSqrtPrice) (hle : target ≤ cur) (hL : L ≠ 0) (hf : fee ≤ 10 ^ 12)
    (hnc : r.nextSqrtPrice ≤ cur) (h : computeSwapStep cur target L amount true fee = .ok r) :
    ∃ w : ℚ, 0 ≤ w ∧
      (1 - pct fee) * ((r.amountIn : ℚ) + r.feeAmount) ≤ (1 + relX) * w + 2 +
        (if r.nextSqrtPrice = target then 0 else grain L / price r.nextSqrtPrice ^ 2) ∧
      price r.nextSqrtPrice ^ 2 * w ≤ r.amountOut + 1 := by
  have F := computeSwapStep_ok hL h
  have hd : decide (cur ≥ target) = true := by simpa using hle
  have pos : ∀ {q}, PriceOK q → 0 < q := fun h => lt_of_lt_of_le (by norm_num [MIN_SQRT_PRICE]) h.1
  refine ⟨amountX cur r.nextSqrtPrice L, amountX_nonneg _ _ _, ?_, ?_⟩
  · have hfe := F.feeEq
    split
    · next e =>
      rw [if_neg (by simp [e])] at hfe
      have hin := F.inEq
      rw [hd] at hin
      unfold inAmt at hin
      rw [if_pos rfl] at hin
      have h1 := dxUp_le (L := L) (prod_ge hc hn)
      rw [← hin] at h1
      have := rate_of_in hf hfe
      linarith
    · next e =>
      rw [if_pos ⟨rfl, e⟩] at hfe
      obtain ⟨_, hnx⟩ := F.nextIn rfl
      have hnx := (hnx.resolve_left (fun h => e h.2)).2
      unfold getNextSqrtPriceFromInput at hnx
      rw [hd, if_pos rfl] at hnx
      have hnx := (getNextSqrtPriceXUp_add_ok hnx).1
      have e2 : (r.amountIn : ℚ) + r.feeAmount = amount := by
        have : r.amountIn + r.feeAmount = amount := by omega
        exact_mod_cast this
      have h1 := le_nextX (le_trans (by norm_num [MIN_SQRT_PRICE]) hn.1) hnc hnx
      have h2 := rate_of_amount (amount := amount) hf
      rw [e2]
      linarith
  · have ho := F.outEq
    rw [if_pos rfl, hd] at ho
    unfold outAmt at ho
    rw [if_pos rfl] at ho
    have h1 := le_dyDown cur r.nextSqrtPrice L
    rw [← ho, amounts_prop (pos hc) (pos hn)] at h1
    refine le_trans ?_ h1
    apply mul_le_mul_of_nonneg_right _ (amountX_nonneg _ _ _)
    have := price_le hnc
    have := price_pos (pos hn)
    nlinarith

/-- a step from Y to X -/
theorem step_give_y {cur target L amount fee : Nat} {r : SwapResult} (hc : PriceOK cur)
    (hn : PriceOK r.nextSqrtPrice) (hlt : cur < target) (hL : L ≠ 0) (hf : fee ≤ 10 ^ 12)
    (hnc : cur ≤ r.nextSqrtPrice) (h : computeSwapStep cur target L amount true fee = .ok r) :
    ∃ w : ℚ, (1 - pct fee) * ((r.amountIn : ℚ) + r.feeAmount) ≤ w + 2 +
        (if r.nextSqrtPrice = target then 0 else grain L) ∧
      w ≤ price r.nextSqrtPrice ^ 2 * ((1 + relX) * (r.amountOut + 1)) := by
  have F := computeSwapStep_ok hL h
  have hd : decide (cur ≥ target) = false := by simpa using hlt
  have pos : ∀ {q}, PriceOK q → 0 < q := fun h => lt_of_lt_of_le (by norm_num [MIN_SQRT_PRICE]) h.1
  refine ⟨amountY cur r.nextSqrtPrice L, ?_, ?_⟩
  · have hfe := F.feeEq
    split
    · next e =>
      rw [if_neg (by simp [e])] at hfe
      have hin := F.inEq
      rw [hd] at hin
      unfold inAmt at hin
      rw [if_neg (by decide)] at hin
      have h1 := dyUp_le cur r.nextSqrtPrice L
      rw [← hin] at h1
      have := rate_of_in hf hfe
      linarith
    · next e =>
      rw [if_pos ⟨rfl, e⟩] at hfe
      obtain ⟨_, hnx⟩ := F.nextIn rfl
      have hnx := (hnx.resolve_left (fun h => e h.2)).2
      unfold getNextSqrtPriceFromInput at hnx
      rw [hd, if_neg (by decide)] at hnx
      have hnx := (getNextSqrtPriceYDown_add_ok hnx).1
      have e2 : (r.amountIn : ℚ) + r.feeAmount = amount := by
        have : r.amountIn + r.feeAmount = amount := by omega
        exact_mod_cast this
      have h1 := le_nextY (p := cur) (y := amount * (10 ^ 12 - fee) / 10 ^ 12) (Nat.pos_of_ne_zero hL)
      rw [← hnx] at h1
      have h2 := rate_of_amount (amount := amount) hf
      rw [e2]
      linarith
  · have ho := F.outEq
    rw [if_pos rfl, hd] at ho
    unfold outAmt at ho
    rw [if_neg (by decide)] at ho
    have h1 := le_dxDown (L := L) (prod_ge hc hn)
    rw [← ho] at h1
    rw [amounts_prop (pos hc) (pos hn)]
    have h2 := price_le hnc
    have h3 := price_pos (pos hc)
    have h4 := price_pos (pos hn)
    calc price cur * price r.nextSqrtPrice * amountX cur r.nextSqrtPrice L
        ≤ price r.nextSqrtPrice ^ 2 * amountX cur r.nextSqrtPrice L :=
          mul_le_mul_of_nonneg_right (by nlinarith) (amountX_nonneg _ _ _)
      _ ≤ _ := mul_le_mul_of_nonneg_left h1 (sq_nonneg _)

theorem step_same {cur L amount fee : Nat} {byIn : Bool} {r : SwapResult} (hL : L ≠ 0)
    (h : computeSwapStep cur cur L amount byIn fee = .ok r) (hn : r.nextSqrtPrice = cur) :
    r.amountIn = 0 ∧ r.feeAmount = 0 := by
  have F := computeSwapStep_ok hL h
  have h1 := F.inEq
  have hd : decide (cur ≥ cur) = true := by simp
  rw [hd, hn] at h1
  unfold inAmt at h1
  rw [if_pos rfl, dxUp_def, dxNum_def, absDiff_self] at h1
  simp only [Nat.zero_mul, Nat.zero_div, cdiv_zero] at h1
  have h2 := F.feeEq
  rw [if_neg (by simp [hn]), h1, Nat.zero_mul, cdiv_zero] at h2
  exact ⟨h1, h2⟩

/-- what cannot move the price is worth no more than the granularity -/
theorem not_enough_x {amount p L fee : Nat} (hp : PriceOK p) (hf : fee ≤ 10 ^ 12)
    (h : isEnoughAmountToChangePrice amount p L fee true true = .ok false) :
    (1 - pct fee) * (amount : ℚ) ≤ 1 + grain L / price p ^ 2 := by
  unfold isEnoughAmountToChangePrice at h
  split at h
  · cases h
  · simp only [if_true, bind_ok_iff, subC_ok_iff, pure_ok_iff] at h
    obtain ⟨n, ⟨k, ⟨_, rfl⟩, x, hx, hn⟩, e⟩ := h
    have e : p = n := by simpa using e
    subst e
    have hx := tokMulPct_ok hx
    rw [pctOne_eq] at hx
    unfold getNextSqrtPriceFromInput at hn
    rw [if_pos rfl] at hn
    have hn := (getNextSqrtPriceXUp_add_ok hn).1
    have h1 := le_nextX (le_trans (by norm_num [MIN_SQRT_PRICE]) hp.1) le_rfl hn
    rw [amountX_self, hx] at h1
    have h2 := rate_of_amount (amount := amount) hf
    linarith

variable {s : Inv} {a : SwapArgs} {st st' : SwapState} {start : Nat}

/-- price of an iteration's result -/
theorem iterOk_price {target remaining : Nat} {info : Option (Int × Bool)} {r : SwapResult} {pool : Pool}
    {tick : UpdatePoolTick} {u : UpdateTickResult}
    (h : SwapIterOk s a st st' target info r remaining pool tick u) : st'.pool.sqrtPrice = r.nextSqrtPrice := by
  rw [h.res]
  cases h.upd with
  | inside => rfl
  | cross ht hp _ _ hx => have e := (cross_full hx).2.1; dsimp only; rw [e]
  | dust ht hp _ _ _ _ hf => have e := (addFee_full hf).2; dsimp only; rw [e]
  | drop => rfl
  | done => rfl
  | uninit => rfl

/-- the granularity counts in the last round only -/
def lastGrain (x : Bool) (st : SwapState) : ℚ :=
  if st.remaining = 0 then (if x then grain st.pool.liquidity / price st.pool.sqrtPrice ^ 2 else grain st.pool.liquidity)
  else 0

theorem lastGrain_nonneg (x : Bool) (st : SwapState) : 0 ≤ lastGrain x st := by
  unfold lastGrain
  have := (grain_pos st.pool.liquidity).le
  split
  · split
    · exact div_nonneg this (sq_nonneg _)
    · exact this
  · exact le_rfl

/-- one round from X to Y -/
theorem iter_give_x (hw : StoreWF s) (hs : Spacing a.key.feeTier.tickSpacing) (hf : a.key.feeTier.fee ≤ 10 ^ 12)
    (hsd : SwapSide a start st) (h0 : st.remaining ≠ 0) (hb : a.byIn = true) (hx : a.xToY = true)
    (hi : swapIter s a st = .ok st') :
    st'.pool.sqrtPrice ≤ st.pool.sqrtPrice ∧ ∃ w : ℚ, 0 ≤ w ∧
      (1 - pct a.key.feeTier.fee) * ((st'.totalIn : ℚ) - st.totalIn) ≤ (1 + relX) * w + 3 + lastGrain true st' ∧
      price st'.pool.sqrtPrice ^ 2 * w ≤ (st'.totalOut : ℚ) - st.totalOut + 1 := by
  have hsd' := iter_side hw hs hsd h0 hi
  have hp := hsd.agree.price
  have hp' := hsd'.agree.price
  obtain ⟨target, info, r, remaining, pool, tick, u, h⟩ := swapIter_ok hi
  have hl : if a.xToY then a.limit ≤ st.pool.sqrtPrice else st.pool.sqrtPrice ≤ a.limit := by
    have := hsd.limit
    simp only [hx, if_true] at this ⊢
    omega
  have ht := iter_target hw hs hsd.agree hl h.limit
  have hn := iter_next (remaining := remaining) hp ht h.step h.rem
  have ep := iterOk_price h
  have hpl : pool.liquidity = st.pool.liquidity := by rw [(addFee_full h.fee).2]
  have hts := ht.side
  have hns := hn.side
  simp only [hx, if_true] at hts hns
  have ein : (st'.totalIn : ℚ) - st.totalIn = ((r.amountIn : ℚ) + r.feeAmount) + u.total := by
    rw [h.res]; push_cast; ring
  have eout : (st'.totalOut : ℚ) - st.totalOut = r.amountOut := by
    rw [h.res]; push_cast; ring
  rw [ein, eout, ep]
  refine ⟨hns, ?_⟩
  -- the step
  have hstep : ∃ w : ℚ, 0 ≤ w ∧
      (1 - pct a.key.feeTier.fee) * ((r.amountIn : ℚ) + r.feeAmount) ≤ (1 + relX) * w + 2 +
        (if r.nextSqrtPrice = target then 0 else grain st.pool.liquidity / price r.nextSqrtPrice ^ 2) ∧
      price r.nextSqrtPrice ^ 2 * w ≤ r.amountOut + 1 := by
    by_cases hL : st.pool.liquidity = 0
    · have := h.step
      rw [hL, computeSwapStep_zero] at this
      cases this
      exact ⟨0, le_rfl, by simp, by simp⟩
    · have hst := h.step
      rw [hb] at hst
      exact step_give_x hp (by rw [← ep]; exact hp') hts.2 hL hf hns hst
  obtain ⟨w, w0, w1, w2⟩ := hstep
  refine ⟨w, w0, ?_, w2⟩
  have hre := h.rem
  simp only [hb, if_true] at hre
  have hg := lastGrain_nonneg true st'
  rw [mul_add]
  have reached : r.nextSqrtPrice = target → u.total = 0 →
      (1 - pct a.key.feeTier.fee) * ((r.amountIn : ℚ) + r.feeAmount) +
        (1 - pct a.key.feeTier.fee) * (u.total : ℚ) ≤ (1 + relX) * w + 3 + lastGrain true st' := by
    intro e1 e2
    rw [if_pos e1] at w1
    rw [e2, Nat.cast_zero, mul_zero]
    linarith
  have hu := h.upd
  have hres := h.res
  cases hu with
  | @inside i hc hti =>
    by_cases e : r.nextSqrtPrice = target
    · exact reached e rfl
    · have hpos : 0 < st.pool.sqrtPrice := lt_of_lt_of_le (by norm_num [MIN_SQRT_PRICE]) hp.1
      have := (step_short hpos h0 h.step e).1 hb
      have hrz : st'.remaining = 0 := by rw [hres]; dsimp only; omega
      rw [if_neg e] at w1
      have el : lastGrain true st' = grain st.pool.liquidity / price r.nextSqrtPrice ^ 2 := by
        unfold lastGrain
        rw [if_pos hrz, if_pos rfl, ep]
        have : st'.pool.liquidity = st.pool.liquidity := by rw [hres]; exact hpl
        rw [this]
      rw [el, Nat.cast_zero, mul_zero]
      linarith
  | @cross t t' pool' enough hti hpr => exact reached hpr.symm rfl
  | @dust t pool' hti hpr he _ hr _ hff =>
    rw [if_pos hpr.symm] at w1
    have hrz : st'.remaining = 0 := by rw [hres]
    have el : lastGrain true st' = grain st.pool.liquidity / price r.nextSqrtPrice ^ 2 := by
      unfold lastGrain
      rw [if_pos hrz, if_pos rfl, ep]
      have : st'.pool.liquidity = st.pool.liquidity := by
        rw [hres]; dsimp only; rw [(addFee_full hff).2]; exact hpl
      rw [this]
    rw [hb, hx] at he
    have := not_enough_x (by rw [← ep]; exact hp') hf he
    dsimp only at this
    rw [hpl] at this
    rw [el]
    linarith
  | @drop t hti hpr he hd hr hb' => rw [hb] at hb'; cases hb'
  | @done t hti hpr => exact reached hpr.symm rfl
  | @uninit i enough hti hpr => exact reached hpr.symm rfl

/-- one round from Y to X -/
theorem iter_give_y (hw : StoreWF s) (hs : Spacing a.key.feeTier.tickSpacing) (hf : a.key.feeTier.fee ≤ 10 ^ 12)
    (hsd : SwapSide a start st) (h0 : st.remaining ≠ 0) (hb : a.byIn = true) (hx : a.xToY = false)
    (hi : swapIter s a st = .ok st') :
    st.pool.sqrtPrice ≤ st'.pool.sqrtPrice ∧ ∃ w : ℚ,
      (1 - pct a.key.feeTier.fee) * ((st'.totalIn : ℚ) - st.totalIn) ≤ w + 3 + lastGrain false st' ∧
      w ≤ price st'.pool.sqrtPrice ^ 2 * ((1 + relX) * ((st'.totalOut : ℚ) - st.totalOut + 1)) := by
  have hsd' := iter_side hw hs hsd h0 hi
  have hp := hsd.agree.price
  have hp' := hsd'.agree.price
  obtain ⟨target, info, r, remaining, pool, tick, u, h⟩ := swapIter_ok hi
  have hl : if a.xToY then a.limit ≤ st.pool.sqrtPrice else st.pool.sqrtPrice ≤ a.limit := by
    have := hsd.limit
    simp only [hx, Bool.false_eq_true, if_false] at this ⊢
    exact this
  have ht := iter_target hw hs hsd.agree hl h.limit
  have hn := iter_next (remaining := remaining) hp ht h.step h.rem
  have ep := iterOk_price h
  have hpl : pool.liquidity = st.pool.liquidity := by rw [(addFee_full h.fee).2]
  have hts := ht.side
  have hns := hn.side
  simp only [hx, Bool.false_eq_true, if_false] at hts hns
  have ein : (st'.totalIn : ℚ) - st.totalIn = ((r.amountIn : ℚ) + r.feeAmount) + u.total := by
    rw [h.res]; push_cast; ring
  have eout : (st'.totalOut : ℚ) - st.totalOut = r.amountOut := by
    rw [h.res]; push_cast; ring
  rw [ein, eout, ep]
  refine ⟨hns.1, ?_⟩
  have sq0 : 0 ≤ price r.nextSqrtPrice ^ 2 := sq_nonneg _
  have rx := relX_pos
  have o0 : (0 : ℚ) ≤ r.amountOut := Nat.cast_nonneg _
  have hstep : ∃ w : ℚ,
      (1 - pct a.key.feeTier.fee) * ((r.amountIn : ℚ) + r.feeAmount) ≤ w + 2 +
        (if r.nextSqrtPrice = target then 0 else grain st.pool.liquidity) ∧
      w ≤ price r.nextSqrtPrice ^ 2 * ((1 + relX) * (r.amountOut + 1)) := by
    by_cases hL : st.pool.liquidity = 0
    · have := h.step
      rw [hL, computeSwapStep_zero] at this
      cases this
      refine ⟨0, by simp, ?_⟩
      positivity
    · have hst := h.step
      rw [hb] at hst
      rcases Nat.lt_or_ge st.pool.sqrtPrice target with hlt | hge
      · exact step_give_y hp (by rw [← ep]; exact hp') hlt hL hf hns.1 hst
      · have e1 : target = st.pool.sqrtPrice := le_antisymm hge hts.1
        have e2 : r.nextSqrtPrice = st.pool.sqrtPrice := by omega
        rw [e1] at hst
        obtain ⟨z1, z2⟩ := step_same hL hst e2
        refine ⟨0, ?_, by positivity⟩
        rw [z1, z2, if_pos (by omega)]
        simp
  obtain ⟨w, w1, w2⟩ := hstep
  refine ⟨w, ?_, w2⟩
  have hg := lastGrain_nonneg false st'
  rw [mul_add]
  have reached : r.nextSqrtPrice = target → u.total = 0 →
      (1 - pct a.key.feeTier.fee) * ((r.amountIn : ℚ) + r.feeAmount) +
        (1 - pct a.key.feeTier.fee) * (u.total : ℚ) ≤ w + 3 + lastGrain false st' := by
    intro e1 e2
    rw [if_pos e1] at w1
    rw [e2, Nat.cast_zero, mul_zero]
    linarith
  have hre := h.rem
  simp only [hb, if_true] at hre
  have hu := h.upd
  have hres := h.res
  cases hu with
  | @inside i hc hti =>
    by_cases e : r.nextSqrtPrice = target
    · exact reached e rfl
    · have hpos : 0 < st.pool.sqrtPrice := lt_of_lt_of_le (by norm_num [MIN_SQRT_PRICE]) hp.1
      have := (step_short hpos h0 h.step e).1 hb
      have hrz : st'.remaining = 0 := by rw [hres]; dsimp only; omega
      rw [if_neg e] at w1
      have el : lastGrain false st' = grain st.pool.liquidity := by
        unfold lastGrain
        rw [if_pos hrz, if_neg (by decide)]
        have : st'.pool.liquidity = st.pool.liquidity := by rw [hres]; exact hpl
        rw [this]
      rw [el, Nat.cast_zero, mul_zero]
      linarith
  | @cross t t' pool' enough hti hpr => exact reached hpr.symm rfl
  | @dust t pool' hti hpr he hd => rw [hx] at hd; cases hd
  | @drop t hti hpr he hd hr hb' => rw [hb] at hb'; cases hb'
  | @done t hti hpr => exact reached hpr.symm rfl
  | @uninit i enough hti hpr => exact reached hpr.symm rfl

end Verif
