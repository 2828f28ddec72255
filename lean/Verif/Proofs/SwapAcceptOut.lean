import Verif.Proofs.StepAcceptOut
import Verif.Proofs.SwapAccept

/-! # An exact-output swap is not aborted -/

set_option exponentiation.threshold 1000

namespace Verif
open Service Spec

variable {s : Inv} {a : SwapArgs} {st st' : SwapState} {start amount B P k : Nat}

/-- rounds that a swap can take (C38) -/
def roundsMax (xToY : Bool) : Nat := 443640 + if xToY then 0 else 65535383934512647000000000000

/-- most that can be paid, fees included, in `k` rounds -/
def inCap (xToY : Bool) (start p B k : Nat) : ℚ := if xToY then 6 * B * k else 2 * (amountY start p B + k)

theorem inCap_lt {x : Bool} {p : Nat} (hs : PriceOK start) (hp : PriceOK p) (hB : B < 2 ^ 230)
    (hk : k ≤ roundsMax x) : inCap x start p B k < ((2 ^ 255 : Nat) : ℚ) := by
  unfold roundsMax at hk
  unfold inCap
  cases x
  · simp only [Bool.false_eq_true, if_false] at hk ⊢
    have h1 := amountY_le_liq hs hp B
    have h2 : (B : ℚ) < ((2 ^ 230 : Nat) : ℚ) := by exact_mod_cast hB
    have h3 : (k : ℚ) ≤ ((443640 + 65535383934512647000000000000 : Nat) : ℚ) := by exact_mod_cast hk
    push_cast at h2 h3 ⊢
    linarith
  · simp only [if_true] at hk ⊢
    have h : 6 * B * k < 2 ^ 255 := by
      calc 6 * B * k ≤ 6 * B * 443640 := Nat.mul_le_mul_left _ hk
        _ = B * 2661840 := by ring
        _ < 2 ^ 230 * 2661840 := Nat.mul_lt_mul_of_pos_right hB (by norm_num)
        _ < 2 ^ 255 := by norm_num
    exact_mod_cast h

theorem dyUp_le_amountY (p n L : Nat) : (dyUp p n L : ℚ) ≤ amountY p n L + 1 := by
  rw [dyUp_eq_ceil]
  exact (Nat.ceil_lt_add_one (amountY_nonneg p n L)).le

theorem amountY_add {start p n : Nat} (h1 : start ≤ p) (h2 : p ≤ n) (B : Nat) :
    amountY start p B + amountY p n B = amountY start n B := by
  have mono : ∀ {a b : Nat}, a ≤ b → price a ≤ price b := by
    intro a b hab
    unfold price
    exact div_le_div_of_nonneg_right (by exact_mod_cast hab) (by positivity)
  unfold amountY
  have h3 := mono h1
  have h4 := mono h2
  rw [abs_sub_comm, abs_sub_comm (price p) (price n), abs_sub_comm (price start) (price n),
    abs_of_nonneg (sub_nonneg.2 h3), abs_of_nonneg (sub_nonneg.2 h4), abs_of_nonneg (sub_nonneg.2 (h3.trans h4))]
  ring

/-- the input of one more round -/
theorem inCap_step {x : Bool} {p n L : Nat} (hp : PriceOK p) (hn : PriceOK n) (hLB : L ≤ B)
    (h : x = false → start ≤ p ∧ p ≤ n) {t i f : Nat} (ht : (t : ℚ) ≤ inCap x start p B k)
    (hi : i ≤ inAmt x p n L) (hf : f ≤ i) : ((t + (i + f) : Nat) : ℚ) ≤ inCap x start n B (k + 1) := by
  unfold inCap at ht ⊢
  have hf' : (f : ℚ) ≤ i := by exact_mod_cast hf
  cases x
  · simp only [Bool.false_eq_true, if_false] at ht ⊢
    obtain ⟨h1, h2⟩ := h rfl
    have h3 : (i : ℚ) ≤ amountY p n L + 1 := by
      rw [inAmt_false] at hi
      exact le_trans (by exact_mod_cast hi) (dyUp_le_amountY p n L)
    have h4 : amountY p n L ≤ amountY p n B := by
      have := outQ_mono (x := true) (p := p) (n := n) hLB
      simpa [outQ] using this
    have h5 := amountY_add h1 h2 B
    push_cast
    linarith
  · simp only [if_true] at ht ⊢
    have h3 : i ≤ 3 * B := le_trans hi (le_trans (inAmt_le hp hn true) (Nat.mul_le_mul_left _ hLB))
    have h4 : (i : ℚ) ≤ 3 * B := by exact_mod_cast h3
    push_cast
    linarith

/-! ### a round -/

/-- the conditions of the swap -/
structure HealthyOut (s : Inv) (a : SwapArgs) (start amount B P : Nat) : Prop where
  wf : StoreWF s
  ledger : LedgerInv s
  spacing : Spacing a.key.feeTier.tickSpacing
  byOut : a.byIn = false
  proto : s.protocolFee ≤ 10 ^ 12
  fee : a.key.feeTier.fee ≤ 10 ^ 12
  startOK : PriceOK start
  amt : amount < 2 ^ 256
  act : ∀ t, activeLiq s a.key t ≤ B
  bound : B < 2 ^ 230
  room : P < 2 ^ 255
  pos : amount ≠ 0
  low : a.xToY = true → ∀ i, Grid a.key.feeTier.tickSpacing i → a.limit ≤ priceOf i → priceOf i ≤ start →
    activeLiq s a.key i = 0 ∨ amount * 10 ^ 29 ≤ priceOf i * activeLiq s a.key i
  high : a.xToY = false → ∀ i, Grid a.key.feeTier.tickSpacing i → start ≤ priceOf i → priceOf i ≤ a.limit →
    activeLiq s a.key (i - 1) = 0 ∨ 2 * (priceOf i * amount) ≤ activeLiq s a.key (i - 1) * 10 ^ 19

/-- what holds after `k` rounds -/
structure LiveOut (s : Inv) (a : SwapArgs) (start amount B P k : Nat) (st : SwapState) : Prop where
  liq : LiqInv s a start st
  sum : st.totalOut + st.remaining = amount
  fee : st.fee ≤ st.totalIn
  cap : (st.totalIn : ℚ) ≤ inCap a.xToY start st.pool.sqrtPrice B k
  proto : (if a.xToY then st.pool.feeProtocolTokenX else st.pool.feeProtocolTokenY) ≤ P + st.totalIn
  now : st.pool.startTimestamp ≤ a.now

/-- a round keeps the conditions -/
theorem live_iter_out (hh : HealthyOut s a start amount B P) (hv : LiveOut s a start amount B P k st)
    (h0 : st.remaining ≠ 0) (h : swapIter s a st = .ok st')
    (hcap : (st'.totalIn : ℚ) ≤ inCap a.xToY start st'.pool.sqrtPrice B (k + 1)) :
    LiveOut s a start amount B P (k + 1) st' := by
  refine ⟨iter_active hh.wf hh.ledger hh.spacing hv.liq h0 h, ?_, (iter_fee_le h hv.fee).1, hcap, ?_, ?_⟩
  · rw [iter_exactOut h hh.byOut, hv.sum]
  · have hp := hv.proto
    obtain ⟨target, info, r, remaining, pool, tick, u, h⟩ := swapIter_ok h
    have h1 := addFee_proto h.fee
    rw [h.res]
    dsimp only
    have key : (if a.xToY then pool.feeProtocolTokenX else pool.feeProtocolTokenY) ≤
        P + (st.totalIn + (r.amountIn + r.feeAmount) + u.total) := by
      omega
    cases h.upd with
    | inside => exact key
    | cross _ _ _ _ hx =>
      dsimp only
      rw [(cross_full hx).2.1]
      exact key
    | dust _ _ _ _ _ hb _ => rw [hh.byOut] at hb; cases hb
    | drop => exact key
    | done => exact key
    | uninit => exact key
  · rw [(poolGrows_iter h).start]
    exact hv.now

private theorem high_ok {p amount L rem : Nat} (hp : PriceOK p) (hr : rem ≤ amount)
    (h0 : 0 < L) (h : 2 * (p * amount) ≤ L * 10 ^ 19) :
    p * rem < L * 10 ^ 19 ∧ cdiv (cdiv (p * L) (10 ^ 5) * 10 ^ 24) (L * 10 ^ 19 - p * rem) < 2 ^ 128 := by
  have h1 : p * rem ≤ p * amount := Nat.mul_le_mul_left _ hr
  have hpos : 0 < L * 10 ^ 19 := Nat.mul_pos h0 (by positivity)
  have h2 : L * 10 ^ 19 ≤ 2 * (L * 10 ^ 19 - p * rem) := by omega
  have hd : 0 < L * 10 ^ 19 - p * rem := by omega
  refine ⟨by omega, ?_⟩
  generalize L * 10 ^ 19 - p * rem = d at *
  have h3 : cdiv (p * L) (10 ^ 5) * 10 ^ 5 < p * L + 10 ^ 5 := cdiv_mul_lt _ (by positivity)
  have h4 : p * L + 10 ^ 5 ≤ (p + 10 ^ 5) * L := by
    have : 10 ^ 5 ≤ 10 ^ 5 * L := Nat.le_mul_of_pos_right _ h0
    calc p * L + 10 ^ 5 ≤ p * L + 10 ^ 5 * L := Nat.add_le_add_left this _
      _ = _ := by ring
  have h5 : cdiv (p * L) (10 ^ 5) * 10 ^ 24 ≤ (2 * (p + 10 ^ 5)) * d := by
    calc cdiv (p * L) (10 ^ 5) * 10 ^ 24 = cdiv (p * L) (10 ^ 5) * 10 ^ 5 * 10 ^ 19 := by ring
      _ ≤ (p + 10 ^ 5) * L * 10 ^ 19 := Nat.mul_le_mul_right _ (le_trans h3.le h4)
      _ = (p + 10 ^ 5) * (L * 10 ^ 19) := by ring
      _ ≤ (p + 10 ^ 5) * (2 * d) := Nat.mul_le_mul_left _ h2
      _ = _ := by ring
  have h6 : 2 * (p + 10 ^ 5) < 2 ^ 128 := by
    have : p ≤ 10 ^ 29 := le_trans hp.2 (by norm_num [MAX_SQRT_PRICE])
    calc 2 * (p + 10 ^ 5) ≤ 2 * (10 ^ 29 + 10 ^ 5) := Nat.mul_le_mul_left _ (Nat.add_le_add_right this _)
      _ < 2 ^ 128 := by norm_num
  exact lt_of_le_of_lt ((cdiv_le_iff hd).2 h5) h6

/-- the check at the end of a round that reached a tick succeeds -/
theorem enough_total (hh : HealthyOut s a start amount B P) (hv : LiveOut s a start amount B P k st)
    {target rem fee : Nat} {info : Option (Int × Bool)} (ht : IterTarget s a st.pool target info)
    (hi : info ≠ none) (hr : rem ≤ amount) :
    ∃ b, isEnoughAmountToChangePrice rem target (activeLiq s a.key st.pool.currentTickIndex) fee false a.xToY =
      .ok b := by
  obtain ⟨⟨i, b⟩, rfl⟩ := Option.ne_none_iff_exists'.1 hi
  obtain ⟨e, hg, _, hdir⟩ := ht.tick i b rfl
  have hp := ht.price
  have hts := ht.side
  have hss := hv.liq.side.side
  have ha : rem < 2 ^ 256 := lt_of_le_of_lt hr hh.amt
  have hL : ∀ t, activeLiq s a.key t < 2 ^ 256 := fun t =>
    lt_of_le_of_lt (hh.act t) (lt_trans hh.bound (by norm_num))
  cases hx : a.xToY
  · simp only [hx, Bool.false_eq_true, if_false] at hts hss hdir
    have hsame := active_same (key := a.key) hh.wf hh.ledger (c := st.pool.currentTickIndex) (u := i - 1)
      (by omega) (by
        intro j h1 h2 hj
        have hgj := tick_grid hh.wf hj
        have := ht.gap j hgj hj
        simp only [hx, Bool.false_eq_true, if_false] at this
        have h3 := this h1
        have h4 := priceOf_lt hgj.min hg.max (by omega : j < i)
        omega)
    rw [← hsame, C42_out_x_partial hp (hL _) ha]
    rcases hh.high hx i hg (by omega) (by omega) with h | h
    · exact .inl h
    · by_cases h0 : activeLiq s a.key (i - 1) = 0
      · exact .inl h0
      · rw [← e] at h
        exact .inr (.inr (high_ok hp hr (Nat.pos_of_ne_zero h0) h))
  · simp only [hx, if_true] at hts hss hdir
    have hsame := active_same (key := a.key) hh.wf hh.ledger hdir (by
        intro j h1 h2 hj
        have hgj := tick_grid hh.wf hj
        have := ht.gap j hgj hj
        simp only [hx, if_true] at this
        have h3 := this h2
        have h4 := priceOf_lt hg.min hgj.max h1
        omega)
    rw [hsame, C42_out_y_partial hp (hL _) ha]
    rcases hh.low hx i hg (by omega) (by omega) with h | h
    · exact .inl h
    · rw [← e] at h
      exact .inr (le_trans (Nat.mul_le_mul_right _ hr) h)

/-- the step of a round -/
theorem round_step_out (hh : HealthyOut s a start amount B P) (hv : LiveOut s a start amount B P k st)
    (h0 : st.remaining ≠ 0) {target : Nat} {info : Option (Int × Bool)}
    (ht : IterTarget s a st.pool target info) :
    ∃ r, computeSwapStep st.pool.sqrtPrice target st.pool.liquidity st.remaining a.byIn a.key.feeTier.fee = .ok r ∧
      PriceOK r.nextSqrtPrice ∧
      (st.pool.liquidity = 0 ∨ r.feeAmount * 10 ^ 33 < 2 ^ 128 * st.pool.liquidity) ∧
      r.amountIn ≤ inAmt (decide (st.pool.sqrtPrice ≥ target)) st.pool.sqrtPrice r.nextSqrtPrice st.pool.liquidity ∧
      r.feeAmount ≤ r.amountIn ∧ r.amountOut ≤ st.remaining := by
  have hL : st.pool.liquidity = activeLiq s a.key st.pool.currentTickIndex := by
    rcases hv.liq.liq with h | h
    · exact h
    · exact absurd h.1 h0
  have hagree := hv.liq.side.agree
  have hLB : st.pool.liquidity ≤ B := by rw [hL]; exact hh.act _
  rw [hh.byOut]
  by_cases hz : st.pool.liquidity = 0
  · rw [hz]
    exact ⟨_, computeSwapStep_zero, ht.price, .inl rfl, Nat.zero_le _, le_rfl, Nat.zero_le _⟩
  · obtain ⟨r, h1, h2⟩ := step_out_succeeds (amount := st.remaining) hagree.price ht.price hz
      (lt_of_le_of_lt hLB (lt_trans hh.bound (by norm_num))) hh.fee
    exact ⟨r, h1, h2.price, .inr h2.feeFits, h2.ain.le, h2.feeLe, h2.out⟩

/-- a round succeeds or reaches a limit -/
theorem round_total_out (hh : HealthyOut s a start amount B P) (hv : LiveOut s a start amount B P k st)
    (h0 : st.remaining ≠ 0) (hk : k < roundsMax a.xToY) :
    (∃ st', swapIter s a st = .ok st' ∧ LiveOut s a start amount B P (k + 1) st') ∨
    swapIter s a st = .error (.inv .PriceLimitReached) ∨
    swapIter s a st = .error (.inv .TickLimitReached) := by
  have hL : st.pool.liquidity = activeLiq s a.key st.pool.currentTickIndex := by
    rcases hv.liq.liq with h | h
    · exact h
    · exact absurd h.1 h0
  have hagree := hv.liq.side.agree
  have hlim : if a.xToY then a.limit ≤ st.pool.sqrtPrice else st.pool.sqrtPrice ≤ a.limit := by
    have := hv.liq.side.limit
    cases hx : a.xToY
    · simpa [hx] using this
    · simp only [hx, if_true] at this ⊢
      omega
  have hrem : st.remaining ≤ amount := by have := hv.sum; omega
  have hLB : st.pool.liquidity ≤ B := by rw [hL]; exact hh.act _
  have hact : ∀ t, activeLiq s a.key t < 2 ^ 256 := fun t =>
    lt_of_le_of_lt (hh.act t) (lt_trans hh.bound (by norm_num))
  rcases closer_total hh.wf.wf hh.spacing hagree.grid a.key a.limit a.xToY with ⟨⟨target, info⟩, hc⟩ | hc
  swap
  · refine .inr (.inr ?_)
    unfold swapIter
    dsimp only
    rw [hc]
    rfl
  have ht := iter_target hh.wf hh.spacing hagree hlim hc
  obtain ⟨r, hstep, hnOK, hfit, hin, hfle, hs⟩ := round_step_out hh hv h0 ht
  have hrm : st.remaining - r.amountOut ≤ st.remaining := Nat.sub_le _ _
  have hremOk : if a.byIn then r.amountIn + r.feeAmount ≤ st.remaining ∧
      st.remaining - r.amountOut = st.remaining - (r.amountIn + r.feeAmount)
      else r.amountOut ≤ st.remaining ∧ st.remaining - r.amountOut = st.remaining - r.amountOut := by
    rw [if_neg (by rw [hh.byOut]; decide)]; exact ⟨hs, rfl⟩
  have hn := iter_next (remaining := st.remaining - r.amountOut) hagree.price ht hstep hremOk
  -- the input
  have hside := hv.liq.side.side
  have hcap : ((st.totalIn + (r.amountIn + r.feeAmount) : Nat) : ℚ) ≤
      inCap a.xToY start r.nextSqrtPrice B (k + 1) := by
    refine inCap_step hagree.price hnOK hLB ?_ hv.cap ?_ hfle
    · intro hx
      have hns := hn.side
      simp only [hx, Bool.false_eq_true, if_false] at hns hside
      exact ⟨hside, hns.1⟩
    · have hns := hn.side
      have hts := ht.side
      cases hx : a.xToY
      · simp only [hx, Bool.false_eq_true, if_false] at hns hts
        rcases Nat.lt_or_ge st.pool.sqrtPrice target with h1 | h1
        · rw [decide_eq_false (by omega : ¬ st.pool.sqrtPrice ≥ target)] at hin
          exact hin
        · have e : r.nextSqrtPrice = st.pool.sqrtPrice := by omega
          rw [decide_eq_true h1, e] at hin
          refine le_trans hin ?_
          have h3 : inAmt true st.pool.sqrtPrice st.pool.sqrtPrice st.pool.liquidity = 0 := by
            unfold inAmt dxUp dxNum absDiff
            simp [cdiv_zero]
          rw [h3]
          exact Nat.zero_le _
      · simp only [hx, if_true] at hts
        rw [decide_eq_true hts.2] at hin
        exact hin
  have hin255 : st.totalIn + (r.amountIn + r.feeAmount) < 2 ^ 255 := by
    have := lt_of_le_of_lt hcap (inCap_lt hh.startOK hnOK hh.bound (by omega))
    exact_mod_cast this
  have hfee256 : r.feeAmount < 2 ^ 256 := by omega
  obtain ⟨pool, hfee⟩ := addFee_succeeds (p := st.pool) (amount := r.feeAmount) (inX := a.xToY) hh.proto
    hfee256 hfit (by have := hv.proto; have := hh.room; omega)
  have hpl : pool.liquidity = st.pool.liquidity := by rw [(addFee_full hfee).2]
  have hpc : pool.currentTickIndex = st.pool.currentTickIndex := by rw [(addFee_full hfee).2]
  have hnow : pool.startTimestamp ≤ a.now := by rw [(addFee_full hfee).2]; exact hv.now
  obtain ⟨tick, htick⟩ := limiting_total ht
  have htot256 : st.totalOut + r.amountOut < 2 ^ 256 := by
    have := hv.sum
    have := hh.amt
    omega
  -- the end of the round
  have hen : target = r.nextSqrtPrice → info ≠ none → ∃ b, isEnoughAmountToChangePrice
      (st.remaining - r.amountOut) r.nextSqrtPrice pool.liquidity a.key.feeTier.fee a.byIn a.xToY = .ok b := by
    intro h1 h2
    rw [hpl, hL, hh.byOut, ← h1]
    exact enough_total hh hv ht h2 (le_trans hrm hrem)
  obtain ⟨u, hu⟩ := update_total hh.wf hh.ledger hh.spacing hh.proto (fun h => by rw [hh.byOut] at h; cases h)
    (r := r) (remaining := st.remaining - r.amountOut) ht htick hL hact hpl hpc hnow hnOK
    (by have := hh.amt; omega) hen (fun h => by rw [hh.byOut] at h; cases h)
  have hut : u.total = 0 := by
    cases hu with
    | dust _ _ _ _ _ hb _ => rw [hh.byOut] at hb; cases hb
    | _ => rfl
  have hup : u.pool.sqrtPrice = r.nextSqrtPrice := by
    cases hu with
    | inside => rfl
    | cross _ _ _ _ hx => dsimp only; rw [(cross_full hx).2.1]
    | dust _ _ _ _ _ _ hf => dsimp only; rw [(addFee_full hf).2]
    | drop => rfl
    | done => rfl
    | uninit => rfl
  have htin : st.totalIn + (r.amountIn + r.feeAmount) + u.total < 2 ^ 256 := by omega
  have hfe : st.fee + r.feeAmount < 2 ^ 256 := by
    have := hv.fee
    omega
  have hnb : ¬ a.byIn = true := by rw [hh.byOut]; decide
  by_cases hpl' : r.nextSqrtPrice = a.limit ∧ st.remaining - r.amountOut ≠ 0
  · refine .inr (.inl ?_)
    unfold swapIter
    dsimp only
    rw [hc, ok_bind]
    dsimp only
    rw [unwrap_eq hstep, ok_bind, addC_eq (by omega), ok_bind, if_neg hnb,
      subC_eq hs, ok_bind, unwrap_eq hfee, ok_bind, addC_eq hfe, ok_bind, addC_eq (by omega), ok_bind,
      addC_eq htot256, ok_bind, failIf_pos hpl']
    rfl
  by_cases htl : (a.xToY = true ∧ u.pool.currentTickIndex ≤ getMinTick a.key.feeTier.tickSpacing) ∨
     (a.xToY = false ∧ u.pool.currentTickIndex ≥ getMaxTick a.key.feeTier.tickSpacing)
  · refine .inr (.inr ?_)
    have htl' : (a.xToY = true ∧ u.pool.currentTickIndex ≤
        (if a.xToY then getMinTick a.key.feeTier.tickSpacing else getMaxTick a.key.feeTier.tickSpacing)) ∨
        (a.xToY = false ∧ u.pool.currentTickIndex ≥
        (if a.xToY then getMinTick a.key.feeTier.tickSpacing else getMaxTick a.key.feeTier.tickSpacing)) := by
      rcases htl with ⟨h1, h2⟩ | ⟨h1, h2⟩
      · exact .inl ⟨h1, by rw [if_pos h1]; exact h2⟩
      · exact .inr ⟨h1, by rw [if_neg (by rw [h1]; decide)]; exact h2⟩
    unfold swapIter
    dsimp only
    rw [hc, ok_bind]
    dsimp only
    rw [unwrap_eq hstep, ok_bind, addC_eq (by omega), ok_bind, if_neg hnb,
      subC_eq hs, ok_bind, unwrap_eq hfee, ok_bind, addC_eq hfe, ok_bind, addC_eq (by omega), ok_bind,
      addC_eq htot256, ok_bind, failIf_neg hpl', ok_bind, htick, ok_bind, updateTick_intro hu, ok_bind,
      addC_eq htin, ok_bind]
    rw [failIf_pos htl']
    rfl
  left
  have hit := swapIter_intro (st := st) ⟨hc, hstep, hremOk, hfee, hpl', htick, hu, htl, htin, htot256, rfl⟩ hfe
  refine ⟨_, hit, live_iter_out hh hv h0 hit ?_⟩
  dsimp only
  rw [hup, hut, Nat.add_zero]
  exact hcap

/-! ### the whole swap -/

/-- the loop succeeds or reaches a limit -/
theorem loop_total_out (hh : HealthyOut s a start amount B P) : ∀ n k st r, LiveOut s a start amount B P k st →
    k + n ≤ roundsMax a.xToY → swapLoop s a n st = some r →
    (∃ st' k', r = .ok st' ∧ LiveOut s a start amount B P k' st' ∧ k' ≤ roundsMax a.xToY ∧ st'.remaining = 0) ∨
    r = .error (.inv .PriceLimitReached) ∨ r = .error (.inv .TickLimitReached) := by
  intro n
  induction n with
  | zero => intro k st r _ _ h; simp [swapLoop] at h
  | succ n ih =>
    intro k st r hv hk h
    unfold swapLoop at h
    by_cases h0 : st.remaining = 0
    · rw [if_pos h0] at h
      cases h
      exact .inl ⟨st, k, rfl, hv, by omega, h0⟩
    · rw [if_neg h0] at h
      rcases round_total_out hh hv h0 (by omega) with ⟨st1, h1, hv1⟩ | h1 | h1
      · rw [h1] at h
        exact ih (k + 1) st1 r hv1 (by omega) h
      · rw [h1] at h
        cases h
        exact .inr (.inl rfl)
      · rw [h1] at h
        cases h
        exact .inr (.inr rfl)

/-- the calculation of a swap succeeds or is refused -/
theorem calc_total_out {key : PoolKey} {xToY : Bool} {limit now : Nat} {pool : Pool} (hr : Reach s)
    (hh : HealthyOut s ⟨key, xToY, false, limit, now⟩ pool.sqrtPrice amount B P)
    (hs : swapStart s key xToY amount limit = .ok pool)
    (hv : LiveOut s ⟨key, xToY, false, limit, now⟩ pool.sqrtPrice amount B P 0 ⟨pool, [], amount, 0, 0, 0⟩) :
    (∃ c, calculateSwap s now key xToY amount false limit = .ok c ∧ c.amountOut = amount ∧ c.amountIn < 2 ^ 255) ∨
    (∃ e, (e = .PriceLimitReached ∨ e = .TickLimitReached) ∧
      calculateSwap s now key xToY amount false limit = .error (.inv e)) := by
  obtain ⟨r, hl⟩ := C38_rounds (byIn := false) (now := now) hr hs
  have hN : 443640 + (if xToY = false ∧ false = false then 65535383934512647000000000000 else 0) = roundsMax xToY := by
    unfold roundsMax
    cases xToY <;> rfl
  rw [hN] at hl
  have hl1 := hl _ le_rfl
  have hl2 := hl swapFuel (by
    unfold roundsMax swapFuel
    split <;> norm_num)
  rcases loop_total_out hh _ _ _ _ hv (by rw [Nat.zero_add]) hl1 with ⟨st, k, h1, h2, hk, h3⟩ | h1 | h1
  · subst h1
    have h4 : st.totalOut ≠ 0 := by
      have := h2.sum
      have := hh.pos
      omega
    · left
      refine ⟨{ amountIn := st.totalIn, amountOut := st.totalOut, startSqrtPrice := pool.sqrtPrice,
                targetSqrtPrice := st.pool.sqrtPrice, fee := st.fee, pool := st.pool, ticks := st.ticks },
        ?_, ?_, ?_⟩
      · unfold calculateSwap
        rw [hs, ok_bind, hl2, Option.getD_some, ok_bind, failIf_neg h4]
        rfl
      · have := h2.sum
        dsimp only
        omega
      · have := lt_of_le_of_lt h2.cap (inCap_lt hh.startOK h2.liq.side.agree.price hh.bound hk)
        exact_mod_cast this
  · subst h1
    refine .inr ⟨.PriceLimitReached, .inl rfl, ?_⟩
    unfold calculateSwap
    rw [hs, ok_bind, hl2]
    rfl
  · subst h1
    refine .inr ⟨.TickLimitReached, .inr rfl, ?_⟩
    unfold calculateSwap
    rw [hs, ok_bind, hl2]
    rfl

end Verif
