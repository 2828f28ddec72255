import Verif.Proofs.PriceLimit

/-! # An exact input that does not come to a nearer price limit, with that limit -/

set_option exponentiation.threshold 1000

namespace Verif
open Service Spec

variable {s : Inv} {a : SwapArgs} {start : Nat}

/-- what an input must leave between the price it comes to and a limit so that the limit is not in its way -/
def room (xToY : Bool) : Nat := if xToY then 200001 else 1

theorem nextY_short {p L y n t : Nat} (h : getNextSqrtPriceYDown p L y true = .ok n) (ht : n + 1 ≤ t) :
    y < dyUp p t L := by
  obtain ⟨rfl, _, hL⟩ := getNextSqrtPriceYDown_add_ok h
  have h1 := lt_div_add_one_mul (y * 10 ^ 29) hL
  clear h
  generalize y * 10 ^ 29 / L = q at *
  rw [dyUp_def, lt_cdiv_iff (by positivity), absDiff_of_le (by omega)]
  exact lt_of_lt_of_le h1 (Nat.mul_le_mul_right _ (by omega))

theorem nextX_short {p L x n t : Nat} (hL : 0 < L) (hp : PriceOK p) (hto : PriceOK t)
    (h : getNextSqrtPriceXUp p L x true = .ok n) (hn : n ≤ p) (ht : t + 200001 ≤ n) :
    x < dxUp p t L := by
  obtain ⟨e, _, _⟩ := getNextSqrtPriceXUp_add_ok h
  have hp0 : 0 < p := lt_of_lt_of_le (by norm_num [MIN_SQRT_PRICE]) hp.1
  have hD : 0 < p * t / 10 ^ 24 :=
    Nat.div_pos (le_trans (by norm_num [MIN_SQRT_PRICE]) (Nat.mul_le_mul hp.1 hto.1)) (by positivity)
  rw [dxUp_def, lt_cdiv_iff hD, dxNum_def, absDiff_of_ge (by omega)]
  have h1 : p * t / 10 ^ 24 * 10 ^ 24 ≤ p * t := Nat.div_mul_le_self _ _
  have h2 := lt_div_add_one_mul ((p - t) * L) (d := 10 ^ 5) (by positivity)
  generalize (p - t) * L / 10 ^ 5 = N at *
  generalize p * t / 10 ^ 24 = D at *
  by_cases hx : x = 0
  · subst hx
    have : 200001 * 1 ≤ (p - t) * L := Nat.mul_le_mul (by omega) hL
    omega
  · have h3 : n - 1 < cdiv (cdiv (p * L) (10 ^ 5) * 10 ^ 24) (L * 10 ^ 19 + p * x) := by
      have : n = cdiv (cdiv (p * L) (10 ^ 5) * 10 ^ 24) (L * 10 ^ 19 + p * x) := by
        rw [e]; unfold nextX; rw [if_neg hx]; simp only [if_true]
      omega
    have hpx : 0 < p * x := Nat.mul_pos hp0 (Nat.pos_of_ne_zero hx)
    rw [lt_cdiv_iff (by omega)] at h3
    have h4 := cdiv_mul_lt (p * L) (d := 10 ^ 5) (by positivity)
    clear e h
    generalize cdiv (p * L) (10 ^ 5) = c at *
    obtain ⟨j, rfl⟩ : ∃ j, n = t + 200001 + j := ⟨n - (t + 200001), by omega⟩
    obtain ⟨k, rfl⟩ := Nat.exists_eq_add_of_le hn
    have e1 : t + 200001 + j - 1 = t + 200000 + j := by omega
    have e2 : t + 200001 + j + k - t = 200001 + j + k := by omega
    rw [e1] at h3
    rw [e2] at h2
    zify at h1 h2 h3 h4 hL ⊢
    have x1 : (1 : ℤ) ≤ x := by exact_mod_cast Nat.pos_of_ne_zero hx
    have j0 : (0 : ℤ) ≤ j := Int.natCast_nonneg _
    have k0 : (0 : ℤ) ≤ k := Int.natCast_nonneg _
    have t0 : (0 : ℤ) ≤ t := Int.natCast_nonneg _
    -- the product form of the step
    have h5 : ((t : ℤ) + 200000 + j) * (t + 200001 + j + k) * x < (k + 1) * L * 10 ^ 19 + 10 ^ 24 := by nlinarith
    have h6 : (t : ℤ) * (t + 200001 + j + k) * x ≤ ((t : ℤ) + 200000 + j) * (t + 200001 + j + k) * x := by
      apply mul_le_mul_of_nonneg_right _ (by linarith)
      exact mul_le_mul_of_nonneg_right (by linarith) (by linarith)
    have h7 : (x : ℤ) * D * 10 ^ 24 ≤ (t : ℤ) * (t + 200001 + j + k) * x := by nlinarith
    have h8 : (200000 : ℤ) * L * 10 ^ 19 ≥ 2 * 10 ^ 24 := by nlinarith
    have h9 : (0 : ℤ) ≤ j * L := by positivity
    have h10 : (x : ℤ) * D * 10 ^ 24 < N * 10 ^ 24 := by nlinarith
    exact lt_of_mul_lt_mul_right h10 (by norm_num)

/-- a step that stops before its target, with a nearer target -/
theorem step_nearer {cur ta tb L x fee : Nat} {r : SwapResult} (hL0 : L ≠ 0) (hL : L < 2 ^ 256)
    (hc : PriceOK cur) (ht : PriceOK ta) (h : computeSwapStep cur tb L x true fee = .ok r)
    (ha : r.nextSqrtPrice ≠ ta) (hb : r.nextSqrtPrice ≠ tb) (hd : decide (cur ≥ ta) = decide (cur ≥ tb))
    (hin : ∀ y, getNextSqrtPriceFromInput cur L y (decide (cur ≥ tb)) = .ok r.nextSqrtPrice →
      y < inAmt (decide (cur ≥ tb)) cur ta L) :
    computeSwapStep cur ta L x true fee = .ok r := by
  unfold computeSwapStep at h ⊢
  rw [if_neg hL0] at h ⊢
  rw [hd]
  have gi := getIn_full hc ht hL (decide (cur ≥ tb))
  generalize decide (cur ≥ tb) = d at *
  simp only [bind_ok_iff, pure_ok_iff] at h ⊢
  obtain ⟨⟨n, i, o⟩, h1, ain, h2, aout, h3, f, h4, h5⟩ := h
  subst h5
  dsimp only at ha hb h2 h3 h4 hin
  simp only [if_true, bind_ok_iff, pure_ok_iff, Prod.mk.injEq] at h1
  obtain ⟨⟨n', i'⟩, h1, rfl, rfl, rfl⟩ := h1
  have g : stepByIn cur ta L x fee d = .ok (n', inAmt d cur ta L) := by
    unfold stepByIn at h1 ⊢
    simp only [bind_ok_iff, pure_ok_iff, Prod.mk.injEq] at h1
    obtain ⟨k, h5, y, h6, i1, h7, n1, h8, rfl, rfl⟩ := h1
    split at h8
    · cases h8; exact absurd rfl hb
    · rw [h5, ok_bind, h6, ok_bind, gi, ok_bind, if_neg (by have := hin y h8; omega), h8]
      rfl
  refine ⟨(n', inAmt d cur ta L, 0), ?_, ain, ?_, aout, ?_, f, ?_, rfl⟩
  · simp only [if_true, bind_ok_iff, pure_ok_iff]
    exact ⟨_, g, rfl⟩
  · rw [if_pos (by simp [Ne.symm hb])] at h2
    rw [if_pos (by simp [Ne.symm ha])]
    exact h2
  · simpa using h3
  · rw [if_pos (by simp [hb])] at h4
    rw [if_pos (by simp [ha])]
    exact h4

/-- the search succeeds whatever the limit -/
theorem closer_any {tm : Tickmap} {lb : Nat} {xToY : Bool} {cur : Int} {sp : Nat} {key : PoolKey}
    {z : Nat × Option (Int × Bool)} (la : Nat) (h : getCloserLimit tm lb xToY cur sp key = .ok z) :
    ∃ ta info, getCloserLimit tm la xToY cur sp key = .ok (ta, info) := by
  unfold getCloserLimit at h ⊢
  simp only [bind_ok_iff] at h ⊢
  obtain ⟨c, h1, h2⟩ := h
  have main : ∀ (q : Nat) (v : Int × Bool), ∃ ta info, (if xToY = true ∧ q > la ∨ xToY = false ∧ q < la then
        (pure (q, some v) : M (Nat × Option (Int × Bool))) else pure (la, none)) = .ok (ta, info) := by
    intro q v
    split <;> exact ⟨_, _, rfl⟩
  cases c with
  | some i =>
    simp only [bind_ok_iff] at h2
    obtain ⟨q, h3, h4⟩ := h2
    obtain ⟨ta, info, h5⟩ := main q (i, true)
    refine ⟨ta, info, _, h1, ?_⟩
    simp only [bind_ok_iff]
    exact ⟨q, h3, h5⟩
  | none =>
    simp only [bind_ok_iff] at h2
    obtain ⟨q, h3, u, h7, h4⟩ := h2
    obtain ⟨ta, info, h5⟩ := main q _
    refine ⟨ta, info, _, h1, ?_⟩
    simp only [bind_ok_iff]
    exact ⟨q, h3, u, h7, h5⟩

/-- the price leaves the room to the limit -/
def Leaves (xToY : Bool) (p l : Nat) : Prop := if xToY then l + room true ≤ p else p + room false ≤ l

theorem leaves_before {xToY : Bool} {p l : Nat} (h : Leaves xToY p l) : Before xToY p l := by
  unfold Leaves room at h
  unfold Before
  cases xToY <;> simp at h ⊢ <;> omega

theorem iter_nearer {la : Nat} {A A' : SwapState} (hw : StoreWF s) (hs : Spacing a.key.feeTier.tickSpacing)
    (hm : a.byIn = true) (hi : SwapSide a start A) (h0 : A.remaining ≠ 0)
    (hL : A.pool.liquidity < 2 ^ 256) (hfee : A.fee ≤ A.totalIn) (hf : Further a.xToY la a.limit)
    (hb : Leaves a.xToY A'.pool.sqrtPrice la) (h : swapIter s a A = .ok A') :
    swapIter s { a with limit := la } A = .ok A' := by
  obtain ⟨tb, info', r, rem, pool, tick', u, h⟩ := swapIter_ok h
  have hside := side_limit hi h0
  have htb := iter_target hw hs hi.agree hside h.limit
  have hfit : A.fee + r.feeAmount < 2 ^ 256 := by have := h.inFits; omega
  rw [iterOk_price h] at hb
  have hbf := leaves_before hb
  have hnla : r.nextSqrtPrice ≠ la := by
    rintro rfl
    unfold Before at hbf
    split at hbf <;> omega
  have hn := (iter_next (remaining := rem) hi.agree.price htb h.step h.rem).side
  obtain ⟨ta, info, hc⟩ := closer_any la h.limit
  obtain ⟨tb', info'', hc', hcase⟩ := closer_further hf hc
  rw [h.limit] at hc'
  cases hc'
  rcases hcase with ⟨rfl, rfl⟩ | ⟨rfl, e, hfar⟩
  · exact swapIter_intro (a := { a with limit := la })
      { limit := hc, step := h.step, rem := h.rem, fee := h.fee, notLimit := fun e => hnla e.1, htick := h.htick,
        upd := h.upd, notTickLimit := h.notTickLimit, inFits := h.inFits, outFits := h.outFits, res := h.res } hfit
  have hnb : r.nextSqrtPrice ≠ tb := by
    unfold Further at hfar
    unfold Before at hbf
    split at hfar <;> simp_all <;> omega
  have hL0 : A.pool.liquidity ≠ 0 := by
    intro hz
    have := h.step
    rw [hz, computeSwapStep_zero] at this
    cases this
    exact hnb rfl
  have hsidea : if a.xToY then la ≤ A.pool.sqrtPrice else A.pool.sqrtPrice ≤ la := by
    unfold Before at hbf
    split at hbf <;> simp_all <;> omega
  have hta := iter_target (a := { a with limit := la }) hw hs hi.agree hsidea hc
  subst e
  have hstep : computeSwapStep A.pool.sqrtPrice ta A.pool.liquidity A.remaining a.byIn a.key.feeTier.fee = .ok r := by
    have hp := hi.agree.price
    have hst := h.step
    rw [hm] at hst ⊢
    unfold Further at hfar
    unfold Before at hbf
    unfold Leaves room at hb
    cases hx : a.xToY
    · simp only [hx, Bool.false_eq_true, if_false] at hfar hbf hn hb
      have d1 : decide (A.pool.sqrtPrice ≥ ta) = false := by
        simp only [ge_iff_le, decide_eq_false_iff_not]; omega
      have d2 : decide (A.pool.sqrtPrice ≥ tb) = false := by
        simp only [ge_iff_le, decide_eq_false_iff_not]; omega
      refine step_nearer hL0 hL hp hta.price hst hnla hnb (by rw [d1, d2]) ?_
      intro y hy
      rw [d2] at hy ⊢
      rw [inAmt_false]
      unfold getNextSqrtPriceFromInput at hy
      rw [if_neg (by decide)] at hy
      exact nextY_short hy hb
    · simp only [hx, if_true] at hfar hbf hn hb
      have d1 : decide (A.pool.sqrtPrice ≥ ta) = true := by
        simp only [ge_iff_le, decide_eq_true_eq]; omega
      have d2 : decide (A.pool.sqrtPrice ≥ tb) = true := by
        simp only [ge_iff_le, decide_eq_true_eq]; omega
      refine step_nearer hL0 hL hp hta.price hst hnla hnb (by rw [d1, d2]) ?_
      intro y hy
      rw [d2] at hy ⊢
      rw [inAmt_true]
      unfold getNextSqrtPriceFromInput at hy
      rw [if_pos rfl] at hy
      exact nextX_short (Nat.pos_of_ne_zero hL0) hp hta.price hy (by omega) hb
  have hres := h.res
  cases h.upd with
  | inside _ hidx =>
    refine swapIter_intro (a := { a with limit := ta })
      { limit := hc, step := hstep, rem := h.rem, fee := h.fee, notLimit := fun e => hnla e.1, htick := rfl,
        upd := .inside (.inr (Ne.symm hnla)) hidx, notTickLimit := h.notTickLimit, inFits := h.inFits,
        outFits := h.outFits, res := ?_ } hfit
    rw [hres]
    dsimp only
    cases tick' <;> simp
  | cross _ hpr => exact absurd hpr.symm hnb
  | dust _ hpr => exact absurd hpr.symm hnb
  | drop _ hpr => exact absurd hpr.symm hnb
  | done _ hpr => exact absurd hpr.symm hnb
  | uninit _ hpr => exact absurd hpr.symm hnb

theorem loop_nearer {la : Nat} (hw : StoreWF s) (hs : Spacing a.key.feeTier.tickSpacing)
    (hm : a.byIn = true) (hf : Further a.xToY la a.limit) :
    ∀ n A A', SwapSide a start A → A.pool.liquidity < 2 ^ 256 → A.fee ≤ A.totalIn →
      Leaves a.xToY A'.pool.sqrtPrice la → swapLoop s a n A = some (.ok A') →
      swapLoop s { a with limit := la } n A = some (.ok A') := by
  intro n
  induction n with
  | zero => intro A A' _ _ _ _ h; simp [swapLoop] at h
  | succ n ih =>
    intro A A' hi hL hfee hb h
    by_cases h0 : A.remaining = 0
    · rw [swapLoop, if_pos h0] at h ⊢
      exact h
    · rw [swapLoop, if_neg h0] at h ⊢
      cases h1 : swapIter s a A with
      | error e => rw [h1] at h; simp at h
      | ok A1 =>
        rw [h1] at h
        dsimp only at h
        have hi1 := iter_side hw hs hi h0 h1
        have hon := (loop_onward hw hs hi1 h).price
        have hb1 : Leaves a.xToY A1.pool.sqrtPrice la := by
          unfold Leaves at hb ⊢
          split at hb <;> simp_all <;> omega
        rw [iter_nearer hw hs hm hi h0 hL hfee hf hb1 h1]
        exact ih _ _ hi1 (iter_liqLt h1 hL) (iter_fee_le h1 hfee).1 hb h

end Verif
