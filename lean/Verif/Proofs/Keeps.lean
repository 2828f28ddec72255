import Verif.Proofs.SwapWorth
import Verif.Proofs.AvgStep
import Verif.Proofs.Rounds
import Verif.Proofs.AvgTake
import Verif.Spec.Credited

/-! # The worth of all positions over a swap, from below -/

namespace Verif
open Service Spec

variable {s : Inv} {key : PoolKey}
variable {a : SwapArgs} {st st' : SwapState} {target dust : Nat} {r : SwapResult} {p1 p2 : Pool}

/-- the relative error of the roundings in a token -/
def relOf (tok : Bool) : ℚ := if tok then relX else 0

theorem relOf_nonneg (tok : Bool) : 0 ≤ relOf tok := by
  unfold relOf; split
  · exact relX_pos.le
  · exact le_rfl

theorem relOf_le (tok : Bool) : relOf tok ≤ 1 := by
  unfold relOf; split <;> norm_num [relX]

theorem fgSub_mod_eq {i g q : Nat} (hi : i < 2 ^ 128) (hq : q < 2 ^ 128) (h : fgSub i q + g < 2 ^ 128) :
    fgSub ((i + g) % 2 ^ 128) q = fgSub i q + g := by
  rw [fgSub_eq hi hq] at h ⊢
  rw [fgSub_eq (Nat.mod_lt _ (by positivity)) hq]
  omega

theorem iter_grown_eq {q : Position} (hq : PosIn s a.key q) (hb : Behind s a st) (hw : (vworld s a st).WF)
    (h : IterMove s a st st' target r dust p1 p2) (tok : Bool)
    (hlt : grown tok (vworld s a st) q +
      (if InPos st.pool q ∧ a.xToY = tok then iterGrowth s st r dust else 0) < 2 ^ 128) :
    grown tok (vworld s a st') q = grown tok (vworld s a st) q +
      if InPos st.pool q ∧ a.xToY = tok then iterGrowth s st r dust else 0 := by
  have H := iter_hist hb h q.lowerTickIndex q.upperTickIndex
  obtain ⟨⟨ix, hx⟩, iy, hy⟩ := inside_isSome (w := vworld s a st) (q := q)
    ((vworld_isSome hb _).2 hq.lo) ((vworld_isSome hb _).2 hq.hi)
  obtain ⟨hx', hy'⟩ := C10_history H hw hq.lt hx hy
  unfold grown at hlt ⊢
  cases tok
  · have e : insideOf false (vworld s a st) q = some iy := hy
    have lt := inside_lt hw e
    have e' : insideOf false (vworld s a st') q = _ := hy'
    rw [e] at hlt
    rw [e, e']
    dsimp only at hlt ⊢
    have ec : (if a.xToY = false ∧ (vworld s a st).inRange q.lowerTickIndex q.upperTickIndex then
        iterGrowth s st r dust else 0) =
        if InPos st.pool q ∧ a.xToY = false then iterGrowth s st r dust else 0 := if_congr and_comm rfl rfl
    rw [ec]
    exact fgSub_mod_eq lt hq.accY hlt
  · have e : insideOf true (vworld s a st) q = some ix := hx
    have lt := inside_lt hw e
    have e' : insideOf true (vworld s a st') q = _ := hx'
    rw [e] at hlt
    rw [e, e']
    dsimp only at hlt ⊢
    have ec : (if a.xToY = true ∧ (vworld s a st).inRange q.lowerTickIndex q.upperTickIndex then
        iterGrowth s st r dust else 0) =
        if InPos st.pool q ∧ a.xToY = true then iterGrowth s st r dust else 0 := if_congr and_comm rfl rfl
    rw [ec]
    exact fgSub_mod_eq lt hq.accX hlt

/-- the worth of one position over one iteration -/
theorem iter_worth_eq {q : Position} (hq : PosIn s a.key q) (hb : Behind s a st) (hw : (vworld s a st).WF)
    (h : IterMove s a st st' target r dust p1 p2) (tok : Bool)
    (hlt : grown tok (vworld s a st) q +
      (if InPos st.pool q ∧ a.xToY = tok then iterGrowth s st r dust else 0) < 2 ^ 128) :
    worth tok (vworld s a st') q = worth tok (vworld s a st) q +
      ((if InPos st.pool q then q.liquidity else 0 : Nat) : ℚ) *
        ((coord tok st'.pool.sqrtPrice - coord tok st.pool.sqrtPrice) / 10 ^ 5 +
          (if a.xToY = tok then (iterGrowth s st r dust : ℚ) else 0) / 10 ^ 33) := by
  have h1 := iter_onCurve hq h tok
  have h2 := iter_grown_eq hq hb hw h tok hlt
  unfold worth
  rw [h1, h2]
  unfold liq
  push_cast
  generalize (grown tok (vworld s a st) q : ℚ) = G
  generalize (onCurve tok (vworld s a st) q) = V
  generalize coord tok st'.pool.sqrtPrice - coord tok st.pool.sqrtPrice = D
  by_cases hc : InPos st.pool q
  · by_cases ht : a.xToY = tok
    · simp only [hc, ht, and_self, if_true]
      ring
    · simp only [hc, ht, and_false, if_true, if_false]
      ring
  · simp only [hc, false_and, if_false]
    ring

theorem iter_poolWorth_eq (hps : ∀ k q, s.positions.map.get k = some q → q.poolKey = a.key → PosIn s a.key q)
    (hb : Behind s a st) (hw : (vworld s a st).WF) (h : IterMove s a st st' target r dust p1 p2) (tok : Bool)
    (hlt : ∀ k q, s.positions.map.get k = some q → q.poolKey = a.key → grown tok (vworld s a st) q +
      (if InPos st.pool q ∧ a.xToY = tok then iterGrowth s st r dust else 0) < 2 ^ 128) :
    poolWorth s.positions a.key tok (vworld s a st') = poolWorth s.positions a.key tok (vworld s a st) +
      activeLiq s a.key st.pool.currentTickIndex *
        ((coord tok st'.pool.sqrtPrice - coord tok st.pool.sqrtPrice) / 10 ^ 5 +
          (if a.xToY = tok then (iterGrowth s st r dust : ℚ) else 0) / 10 ^ 33) := by
  rw [activeLiq_eq, posSum_cast, ← posSum_mul]
  unfold poolWorth posSum
  rw [← Map.sum_add]
  refine Map.sum_congr fun k q hq => ?_
  dsimp only
  unfold aC
  by_cases hk : q.poolKey = a.key
  · have h1 := iter_worth_eq (hps k q hq hk) hb hw h tok (hlt k q hq hk)
    unfold InPos at h1
    simp only [hk, if_true, true_and]
    exact h1
  · simp [hk]

theorem grown_lt {w : FeeWorld} (hw : w.WF) {q : Position} (hx : q.feeGrowthInsideX < 2 ^ 128)
    (hy : q.feeGrowthInsideY < 2 ^ 128) (tok : Bool) : grown tok w q < 2 ^ 128 := by
  unfold grown
  cases e : insideOf tok w q with
  | none => positivity
  | some i =>
    dsimp only
    have hs : snapOf tok q < 2 ^ 128 := by unfold snapOf; split <;> assumption
    rw [fgSub_eq (inside_lt hw e) hs]
    exact Nat.mod_lt _ (by positivity)

/-- without liquidity nothing is taken -/
theorem iter_empty (hi : swapIter s a st = .ok st') (h : IterMove s a st st' target r dust p1 p2)
    (hL : st.pool.liquidity = 0) : r.amountIn = 0 ∧ r.feeAmount = 0 ∧ r.amountOut = 0 ∧ dust = 0 := by
  have hst := h.step
  rw [hL, computeSwapStep_zero] at hst
  cases hst
  refine ⟨rfl, rfl, rfl, ?_⟩
  have ht := h.totalIn
  obtain ⟨target', info, r', remaining, pool, tick, u, h'⟩ := swapIter_ok hi
  have hst := h'.step
  rw [hL, computeSwapStep_zero] at hst
  cases hst
  have e : u.total = 0 := by
    have lp : pool.liquidity = 0 := by rw [(addFee_full h'.fee).2]; exact hL
    have hu := h'.upd
    cases hu with
    | inside => rfl
    | cross => rfl
    | dust ht hp he =>
      dsimp only at he
      rw [lp] at he
      unfold isEnoughAmountToChangePrice at he
      rw [if_pos rfl] at he
      cases he
    | drop => rfl
    | done => rfl
    | uninit => rfl
  rw [h'.res] at ht
  dsimp only at ht
  rw [e] at ht
  omega

theorem le_growth_mul (fee pf L : Nat) (hL : L ≠ 0) :
    (fee - protoPart fee pf L) * 10 ^ 33 ≤ growth fee pf L * L + L := by
  unfold growth protoPart
  rw [if_neg hL]
  have := Nat.div_add_mod ((fee - (fee * pf + (10 ^ 12 - 1)) / 10 ^ 12) * 10 ^ 33) L
  have h2 := Nat.mod_lt ((fee - (fee * pf + (10 ^ 12 - 1)) / 10 ^ 12) * 10 ^ 33) (Nat.pos_of_ne_zero hL)
  rw [Nat.mul_comm L] at this
  omega

/-- the fees taken are covered by the fee growth of an iteration, up to the roundings -/
theorem iter_fee_cover' (h : IterMove s a st st' target r dust p1 p2) (hL : st.pool.liquidity ≠ 0) :
    ((r.feeAmount - protoPart r.feeAmount s.protocolFee st.pool.liquidity : Nat) : ℚ) +
      (dust - protoPart dust s.protocolFee st.pool.liquidity : Nat) ≤
    (iterGrowth s st r dust : ℚ) * st.pool.liquidity / 10 ^ 33 + 2 * st.pool.liquidity / 10 ^ 33 := by
  have h1 := le_growth_mul r.feeAmount s.protocolFee _ hL
  have h2 := le_growth_mul dust s.protocolFee _ hL
  rw [← add_div, le_div_iff₀ (by positivity)]
  unfold iterGrowth
  have h3 := Nat.add_le_add h1 h2
  rw [← Nat.add_mul] at h3
  have h4 : (growth r.feeAmount s.protocolFee st.pool.liquidity * st.pool.liquidity + st.pool.liquidity +
      (growth dust s.protocolFee st.pool.liquidity * st.pool.liquidity + st.pool.liquidity)) =
      (growth r.feeAmount s.protocolFee st.pool.liquidity + growth dust s.protocolFee st.pool.liquidity) *
        st.pool.liquidity + 2 * st.pool.liquidity := by ring
  rw [h4] at h3
  exact_mod_cast h3

/-- an exact output is complete once a round has given all that remained -/
theorem iter_out_done (hi : swapIter s a st = .ok st') (h : IterMove s a st st' target r dust p1 p2)
    (hb : a.byIn = false) (ho : r.amountOut = st.remaining) : st'.remaining = 0 := by
  obtain ⟨target', info, r', remaining, pool, tick, u, h'⟩ := swapIter_ok hi
  have e : r'.amountOut = r.amountOut := by
    have := h.totalOut
    rw [h'.res] at this
    dsimp only at this
    omega
  have hre := h'.rem
  simp only [hb, Bool.false_eq_true, if_false] at hre
  have hz : remaining = 0 := by omega
  have hu := h'.upd
  rw [h'.res]
  dsimp only
  cases hu <;> first | rfl | exact hz

theorem lastUnit_nonneg (xToY : Bool) (start L : Nat) : 0 ≤ lastUnit xToY start L := by
  unfold lastUnit liq; split <;> positivity

theorem lastUnit_mono (xToY : Bool) (start : Nat) {L L' : Nat} (h : L ≤ L') :
    lastUnit xToY start L ≤ lastUnit xToY start L' := by
  have h' : (L : ℚ) ≤ L' := by exact_mod_cast h
  unfold lastUnit liq
  split
  · exact div_le_div_of_nonneg_right h' (by positivity)
  · refine div_le_div_of_nonneg_right ?_ (by positivity)
    have := div_le_div_of_nonneg_right h' (show (0 : ℚ) ≤ 10 ^ 5 by positivity)
    linarith

/-- the step of the price an exact output may go too far with its last round -/
def outGrain (xToY byIn : Bool) (start L : Nat) (st : SwapState) : ℚ :=
  if byIn = false ∧ st.remaining = 0 then lastUnit xToY start L else 0

theorem outGrain_nonneg (xToY byIn : Bool) (start L : Nat) (st : SwapState) : 0 ≤ outGrain xToY byIn start L st := by
  unfold outGrain
  split
  · exact lastUnit_nonneg _ _ _
  · exact le_rfl

/-- an output of X takes no more from the curve than it should, up to one unit of the price and of the product -/
theorem nextX_out_le' {p L x n start : Nat} (hp : 0 < p) (hs0 : 0 < start) (hs : start ≤ p)
    (h : getNextSqrtPriceXUp p L x false = .ok n) : amountX p n L ≤ x + lastUnit false start L := by
  obtain ⟨e, -, hx⟩ := getNextSqrtPriceXUp_sub_ok h
  have hpn : p ≤ n := by rw [e]; exact le_nextX_sub hx
  have g0 := lastUnit_nonneg false start L
  by_cases h0 : x = 0
  · have : n = p := by rw [e, nextX, if_pos h0]
    rw [this, amountX_self, h0]
    simpa using g0
  have hd := hx.resolve_left h0
  rw [nextX, if_neg h0] at e
  simp only [Bool.false_eq_true, if_false] at e
  have h1 : n - 1 < cdiv (cdiv (p * L) (10 ^ 5) * 10 ^ 24) (L * 10 ^ 19 - p * x) := by omega
  rw [lt_cdiv_iff (by omega)] at h1
  have h2 := cdiv_mul_lt (p * L) (d := 10 ^ 5) (by positivity)
  clear e
  generalize cdiv (p * L) (10 ^ 5) = c at *
  obtain ⟨m, rfl⟩ : ∃ m, n = m + 1 := ⟨n - 1, by omega⟩
  obtain ⟨D, hD⟩ : ∃ D, L * 10 ^ 19 = p * x + D := ⟨L * 10 ^ 19 - p * x, by omega⟩
  rw [hD, Nat.add_sub_cancel_left, Nat.add_sub_cancel] at h1
  have q1 : (m : ℚ) * D < c * 10 ^ 24 := by exact_mod_cast h1
  have q2 : (c : ℚ) * 10 ^ 5 < p * L + 10 ^ 5 := by exact_mod_cast h2
  have q3 : (L : ℚ) * 10 ^ 19 = p * x + D := by exact_mod_cast hD
  have q4 : (p : ℚ) ≤ m + 1 := by exact_mod_cast hpn
  have p0 : (0 : ℚ) < p := by exact_mod_cast hp
  have s0 : (0 : ℚ) < start := by exact_mod_cast hs0
  have s1 : (start : ℚ) ≤ p := by exact_mod_cast hs
  have x0 : (0 : ℚ) ≤ x := Nat.cast_nonneg _
  have L0 : (0 : ℚ) ≤ L := Nat.cast_nonneg _
  have q5 : (m : ℚ) * (L * 10 ^ 19) < m * (p * x) + p * L * 10 ^ 19 + 10 ^ 24 := by
    have : (c : ℚ) * 10 ^ 24 < p * L * 10 ^ 19 + 10 ^ 24 := by linarith
    rw [q3] at *
    nlinarith
  have hb : ((m + 1 : Nat) : ℚ) = (m : ℚ) + 1 := by push_cast; rfl
  have hm0 : (0 : ℚ) < (m : ℚ) + 1 := by positivity
  have e1 : amountX p (m + 1) L = L * 10 ^ 19 * ((m : ℚ) + 1 - p) / (p * (m + 1)) := by
    have hle : 1 / price (m + 1) ≤ 1 / price p :=
      one_div_le_one_div_of_le (price_pos hp) (price_le hpn)
    unfold amountX
    rw [abs_of_nonneg (by linarith)]
    unfold price liq
    rw [hb]
    field_simp
  have e2 : (x : ℚ) + (L * 10 ^ 19 + 10 ^ 24) / (p * (m + 1)) =
      (x * (p * (m + 1)) + (L * 10 ^ 19 + 10 ^ 24)) / (p * (m + 1)) := by field_simp
  have h3 : amountX p (m + 1) L ≤ x + (L * 10 ^ 19 + 10 ^ 24) / (p * (m + 1)) := by
    rw [e1, e2]
    refine div_le_div_of_nonneg_right ?_ (by positivity)
    have : (0 : ℚ) ≤ p * x := by positivity
    linarith
  refine h3.trans (add_le_add_right ?_ _)
  unfold lastUnit
  rw [if_neg (by decide)]
  have e3 : (liq L + 1) / (10 ^ 24 * price start ^ 2) = (L * 10 ^ 19 + 10 ^ 24) / ((start : ℚ) * start) := by
    unfold liq price
    field_simp
  rw [e3]
  refine div_le_div_of_nonneg_left (by positivity) (by positivity) ?_
  exact mul_le_mul s1 (s1.trans q4) s0.le p0.le

/-- an output of Y takes no more from the curve than it should, up to one unit of the price -/
theorem nextY_out_le' {p L y n : Nat} (h : getNextSqrtPriceYDown p L y false = .ok n) :
    amountY p n L ≤ y + (L : ℚ) / 10 ^ 29 ∧ y ≤ dyDown p n L := by
  obtain ⟨h1, h2, hL⟩ := getNextSqrtPriceYDown_sub_ok h
  have h3 := cdiv_mul_lt (y * 10 ^ 29) hL
  have h5 := le_cdiv_mul (y * 10 ^ 29) hL
  have hd : absDiff p n = cdiv (y * 10 ^ 29) L := by rw [absDiff_of_ge (by omega)]; omega
  rw [amountY_eq, dyDown_def, hd, Nat.le_div_iff_mul_le (by norm_num)]
  refine ⟨?_, h5⟩
  generalize cdiv (y * 10 ^ 29) L = c at *
  have h4 : (c : ℚ) * L < y * 10 ^ 29 + L := by exact_mod_cast h3
  rw [div_le_iff₀ (by positivity)]
  push_cast
  have e : ((y : ℚ) + L / 10 ^ 29) * 10 ^ 29 = y * 10 ^ 29 + L := by
    rw [add_mul, div_mul_cancel₀ _ (by positivity)]
  norm_num at e h4 ⊢
  linarith

/-- the curve of an iteration: what comes in exceeds it by the roundings only, and what goes out falls short of it by
the roundings only -/
theorem iter_curve_ge {start : Nat} (hs0 : 0 < start) (hst : a.xToY = false → start ≤ st.pool.sqrtPrice)
    (hi : swapIter s a st = .ok st') (hp : PriceOK st.pool.sqrtPrice) (hp' : PriceOK st'.pool.sqrtPrice)
    (h : IterMove s a st st' target r dust p1 p2) :
    (1 - relOf a.xToY) * r.amountIn - 1 ≤
      liq st.pool.liquidity * (coord a.xToY st'.pool.sqrtPrice - coord a.xToY st.pool.sqrtPrice) ∧
    -(liq st.pool.liquidity * (coord (!a.xToY) st'.pool.sqrtPrice - coord (!a.xToY) st.pool.sqrtPrice)) ≤
      (1 + relOf (!a.xToY)) * (r.amountOut + 1) + outGrain a.xToY a.byIn start st.pool.liquidity st' := by
  have hg0 := outGrain_nonneg a.xToY a.byIn start st.pool.liquidity st'
  have hn := h.next
  have htg := h.tgt
  rw [h.price] at hp' ⊢
  have pos : ∀ {q}, PriceOK q → 0 < q := fun h => lt_of_lt_of_le (by norm_num [MIN_SQRT_PRICE]) h.1
  have r0 := relX_pos
  have r1 : relX ≤ 1 := by norm_num [relX]
  by_cases hL : st.pool.liquidity = 0
  · have hst := h.step
    rw [hL, computeSwapStep_zero] at hst
    cases hst
    rw [hL]
    rw [hL] at hg0
    unfold liq
    have := relOf_nonneg (!a.xToY)
    simp
    linarith
  · have F := computeSwapStep_ok hL h.step
    have hab : 23 * 10 ^ 37 ≤ st.pool.sqrtPrice * r.nextSqrtPrice :=
      le_trans (by norm_num [MIN_SQRT_PRICE]) (Nat.mul_le_mul hp.1 hp'.1)
    have down : target = st.pool.sqrtPrice → a.xToY = false → r.nextSqrtPrice = st.pool.sqrtPrice := by
      intro e hx
      simp only [hx, Bool.false_eq_true, if_false] at hn
      omega
    have self : r.nextSqrtPrice = st.pool.sqrtPrice → r.amountIn = 0 := by
      intro e
      rw [F.inEq, e]
      unfold inAmt dxUp dyUp dxNum absDiff cdiv
      split <;> simp
      exact Nat.lt_or_ge _ _
    cases hx : a.xToY
    · simp only [hx, Bool.false_eq_true, if_false, Bool.not_false] at hn htg ⊢
      rw [coord_diff_Y hn.1]
      have e : -(liq st.pool.liquidity * (coord true r.nextSqrtPrice - coord true st.pool.sqrtPrice)) =
          amountX st.pool.sqrtPrice r.nextSqrtPrice st.pool.liquidity := by
        rw [amountX_comm, ← coord_diff_X (pos hp) hn.1]; ring
      rw [e]
      unfold relOf
      simp only [Bool.false_eq_true, if_false, if_true, sub_zero, one_mul]
      rcases Nat.lt_or_ge st.pool.sqrtPrice target with hlt | hge
      · have hd : decide (st.pool.sqrtPrice ≥ target) = false := by simpa using hlt
        constructor
        · have := F.inEq
          rw [hd] at this
          rw [this]
          unfold inAmt
          rw [if_neg (by decide)]
          linarith [dyUp_le st.pool.sqrtPrice r.nextSqrtPrice st.pool.liquidity]
        · have hdx := le_dxDown (L := st.pool.liquidity) hab
          have ho := F.outEq
          rw [hd] at ho
          unfold outAmt at ho
          simp only [Bool.false_eq_true, if_false] at ho
          rw [hx] at hg0
          cases hb : a.byIn
          · rw [hb] at ho hg0
            simp only [Bool.false_eq_true, if_false] at ho
            have hno := F.nextOut hb
            rw [hd] at hno
            unfold outAmt at hno
            simp only [Bool.false_eq_true, if_false] at hno
            rcases hno with ⟨h1, h2⟩ | ⟨h1, h2⟩
            · rw [h2] at ho hdx ⊢
              rw [min_eq_left h1] at ho
              rw [← ho] at hdx
              linarith
            · rcases Nat.le_total (dxDown st.pool.sqrtPrice r.nextSqrtPrice st.pool.liquidity) st.remaining with h6 | h6
              · rw [min_eq_left h6] at ho
                rw [← ho] at hdx
                linarith
              · unfold getNextSqrtPriceFromOutput at h2
                rw [if_neg (by decide)] at h2
                have h3 := nextX_out_le' (pos hp) hs0 (hst hx) h2
                rw [min_eq_right h6] at ho
                have hz : st'.remaining = 0 := iter_out_done hi h hb ho
                unfold outGrain
                rw [if_pos ⟨rfl, hz⟩, ho]
                have : (0 : ℚ) ≤ relX * (st.remaining + 1) := by positivity
                linarith
          · rw [hb] at ho hg0
            simp only [if_true] at ho
            rw [← ho] at hdx
            linarith
      · have e2 := down (by omega) hx
        rw [self e2, e2, amountY_self, amountX_self]
        refine ⟨by norm_num, ?_⟩
        rw [hx] at hg0
        have : (0 : ℚ) ≤ (1 + relX) * (r.amountOut + 1) := by positivity
        linarith
    · simp only [hx, if_true, Bool.not_true] at hn htg ⊢
      rw [coord_diff_X (pos hp') hn]
      have e : -(liq st.pool.liquidity * (coord false r.nextSqrtPrice - coord false st.pool.sqrtPrice)) =
          amountY st.pool.sqrtPrice r.nextSqrtPrice st.pool.liquidity := by
        rw [amountY_comm, ← coord_diff_Y hn]; ring
      rw [e]
      unfold relOf
      simp only [Bool.false_eq_true, if_false, if_true, add_zero, one_mul]
      have hd : decide (st.pool.sqrtPrice ≥ target) = true := by simpa using htg
      constructor
      · have hin := F.inEq
        rw [hd] at hin
        unfold inAmt at hin
        rw [if_pos rfl] at hin
        have h1 := dxUp_le (L := st.pool.liquidity) hab
        rw [← hin] at h1
        have h2 : 0 ≤ amountX st.pool.sqrtPrice r.nextSqrtPrice st.pool.liquidity := by
          unfold amountX liq; positivity
        nlinarith [mul_nonneg r0.le h2, mul_nonneg (mul_nonneg r0.le r0.le) h2]
      · rw [hx] at hg0
        have hd4 := le_dyDown st.pool.sqrtPrice r.nextSqrtPrice st.pool.liquidity
        have ho := F.outEq
        rw [hd] at ho
        unfold outAmt at ho
        simp only [if_true] at ho
        cases hb : a.byIn
        · rw [hb] at ho hg0
          simp only [Bool.false_eq_true, if_false] at ho
          have hno := F.nextOut hb
          rw [hd] at hno
          unfold outAmt at hno
          simp only [if_true] at hno
          rcases hno with ⟨h1, h2⟩ | ⟨h1, h2⟩
          · rw [h2] at ho hd4 ⊢
            rw [min_eq_left h1] at ho
            rw [← ho] at hd4
            linarith
          · unfold getNextSqrtPriceFromOutput at h2
            rw [if_pos rfl] at h2
            obtain ⟨h3, h4⟩ := nextY_out_le' h2
            rw [min_eq_right h4] at ho
            have hz : st'.remaining = 0 := iter_out_done hi h hb ho
            unfold outGrain lastUnit
            rw [if_pos ⟨rfl, hz⟩, if_pos rfl, ho]
            linarith
        · rw [hb] at ho hg0
          simp only [if_true] at ho
          rw [← ho] at hd4
          linarith

/-- the liquidity of all positions of a pool -/
def allLiq (s : Inv) (key : PoolKey) : Nat :=
  s.positions.map.sum fun _ q => if q.poolKey = key then q.liquidity else 0

theorem activeLiq_le_all (s : Inv) (key : PoolKey) (t : Int) : activeLiq s key t ≤ allLiq s key := by
  unfold activeLiq allLiq
  refine Map.sum_le_sum fun k q _ => ?_
  split
  · next h => rw [if_pos h.1]
  · exact Nat.zero_le _

/-- the growth of a position's fees stays below the fees taken per unit of the least liquidity `M` -/
def GrownBy (s : Inv) (a : SwapArgs) (w : FeeWorld) (M : Nat) (st : SwapState) : Prop :=
  ∀ k q, s.positions.map.get k = some q → q.poolKey = a.key →
    grown a.xToY (vworld s a st) q * M ≤ grown a.xToY w q * M + st.totalIn * 10 ^ 33

theorem iter_growth_le (hi : swapIter s a st = .ok st') (h : IterMove s a st st' target r dust p1 p2) {M : Nat}
    (hM : st.pool.liquidity ≠ 0 → M ≤ st.pool.liquidity) :
    iterGrowth s st r dust * M + st.totalIn * 10 ^ 33 ≤ st'.totalIn * 10 ^ 33 := by
  rw [h.totalIn]
  by_cases hL : st.pool.liquidity = 0
  · obtain ⟨_, e2, _, e4⟩ := iter_empty hi h hL
    unfold iterGrowth growth
    rw [e2, e4, hL]
    simp only [Nat.div_zero, Nat.add_zero, Nat.zero_mul, Nat.zero_add]
    exact Nat.mul_le_mul_right _ (by omega)
  · have l1 : p1.liquidity = st.pool.liquidity := by rw [(addFee_full h.fee).2]
    have h1 := growth_mul_le _ _ _ (addFee_full h.fee).1
    have h2' := (addFee_full h.rest).1
    dsimp only at h2'
    rw [l1] at h2'
    have h2 := growth_mul_le _ _ _ h2'
    have h3 : iterGrowth s st r dust * M ≤ iterGrowth s st r dust * st.pool.liquidity :=
      Nat.mul_le_mul_left _ (hM hL)
    have h4 : iterGrowth s st r dust * st.pool.liquidity =
        growth r.feeAmount s.protocolFee st.pool.liquidity * st.pool.liquidity +
        growth dust s.protocolFee st.pool.liquidity * st.pool.liquidity := by
      unfold iterGrowth; ring
    omega

theorem iter_grownBy (hps : ∀ k q, s.positions.map.get k = some q → q.poolKey = a.key → PosIn s a.key q)
    (hb : Behind s a st) (hw : (vworld s a st).WF) (hi : swapIter s a st = .ok st')
    (h : IterMove s a st st' target r dust p1 p2) {w : FeeWorld} {M : Nat}
    (hM : st.pool.liquidity ≠ 0 → M ≤ st.pool.liquidity) (hg : GrownBy s a w M st) : GrownBy s a w M st' := by
  intro k q hq hk
  have h1 := iter_grown (hps k q hq hk) hb hw h a.xToY
  have h2 := iter_growth_le hi h hM
  have h3 := hg k q hq hk
  have h4 : (if InPos st.pool q ∧ a.xToY = a.xToY then iterGrowth s st r dust else 0) ≤ iterGrowth s st r dust := by
    split <;> simp
  have h5 := Nat.mul_le_mul_right M (le_trans h1 (Nat.add_le_add_left h4 _))
  rw [Nat.add_mul] at h5
  omega

/-- one iteration, from below -/
theorem iter_keeps (hps : ∀ k q, s.positions.map.get k = some q → q.poolKey = a.key → PosIn s a.key q)
    (hw : StoreWF s) {start : Nat} (hs0 : 0 < start) (hs : Spacing a.key.feeTier.tickSpacing)
    (hsd : SwapSide a start st) (h0 : st.remaining ≠ 0) (hi : swapIter s a st = .ok st')
    (hb : Behind s a st) (hwf : (vworld s a st).WF)
    (hL : st.pool.liquidity = activeLiq s a.key st.pool.currentTickIndex)
    (h : IterMove s a st st' target r dust p1 p2) {w : FeeWorld} {M : Nat}
    (hM : st.pool.liquidity ≠ 0 → M ≤ st.pool.liquidity) (hg : GrownBy s a w M st)
    (hlt : ∀ k q, s.positions.map.get k = some q → q.poolKey = a.key →
      grown a.xToY w q * M + st'.totalIn * 10 ^ 33 < 2 ^ 128 * M) :
    poolWorth s.positions a.key a.xToY (vworld s a st) + protoOf a.xToY st.pool +
        ((1 - relOf a.xToY) * st'.totalIn - (1 - relOf a.xToY) * st.totalIn) ≤
      poolWorth s.positions a.key a.xToY (vworld s a st') + protoOf a.xToY st'.pool +
        (1 + 2 * (allLiq s a.key : ℚ) / 10 ^ 33) ∧
    poolWorth s.positions a.key (!a.xToY) (vworld s a st) + protoOf (!a.xToY) st.pool ≤
      poolWorth s.positions a.key (!a.xToY) (vworld s a st') + protoOf (!a.xToY) st'.pool +
        (1 + relOf (!a.xToY)) * (st'.totalOut - st.totalOut + 1) +
        outGrain a.xToY a.byIn start (allLiq s a.key) st' := by
  have hp := hsd.agree.price
  have hsle : a.xToY = false → start ≤ st.pool.sqrtPrice := by
    intro hx
    have := hsd.side
    rwa [if_neg (by rw [hx]; decide)] at this
  have hp' := (iter_side hw hs hsd h0 hi).agree.price
  obtain ⟨c1, c2⟩ := iter_curve_ge hs0 hsle hi hp hp' h
  obtain ⟨q1, q2⟩ := iter_proto h
  have M0 : ∀ k q, s.positions.map.get k = some q → q.poolKey = a.key → 0 < M := by
    intro k q hq hk
    have := hlt k q hq hk
    by_contra hc
    have : M = 0 := by omega
    subst this
    omega
  have l1 : ∀ k q, s.positions.map.get k = some q → q.poolKey = a.key → grown a.xToY (vworld s a st) q +
      (if InPos st.pool q ∧ a.xToY = a.xToY then iterGrowth s st r dust else 0) < 2 ^ 128 := by
    intro k q hq hk
    have h2 := iter_growth_le hi h hM
    have h3 := hg k q hq hk
    have h4 : (if InPos st.pool q ∧ a.xToY = a.xToY then iterGrowth s st r dust else 0) ≤
        iterGrowth s st r dust := by split <;> simp
    have h5 := hlt k q hq hk
    have h6 : (grown a.xToY (vworld s a st) q + iterGrowth s st r dust) * M < 2 ^ 128 * M := by
      rw [Nat.add_mul]; omega
    have := Nat.lt_of_mul_lt_mul_right h6
    omega
  have l2 : ∀ k q, s.positions.map.get k = some q → q.poolKey = a.key → grown (!a.xToY) (vworld s a st) q +
      (if InPos st.pool q ∧ a.xToY = (!a.xToY) then iterGrowth s st r dust else 0) < 2 ^ 128 := by
    intro k q hq hk
    rw [if_neg (by cases a.xToY <;> simp), Nat.add_zero]
    exact grown_lt hwf (hps k q hq hk).accX (hps k q hq hk).accY _
  have w1 := iter_poolWorth_eq hps hb hwf h a.xToY l1
  have w2 := iter_poolWorth_eq hps hb hwf h (!a.xToY) l2
  have hT := activeLiq_le_all s a.key st.pool.currentTickIndex
  rw [← hL] at w1 w2 hT
  have hT' : (st.pool.liquidity : ℚ) ≤ allLiq s a.key := by exact_mod_cast hT
  constructor
  · rw [if_pos rfl] at w1
    have pf1 := (addFee_full h.fee).1
    have pf2 := (addFee_full h.rest).1
    dsimp only at pf2
    rw [show p1.liquidity = st.pool.liquidity by rw [(addFee_full h.fee).2]] at pf2
    have e : (st.pool.liquidity : ℚ) * ((coord a.xToY st'.pool.sqrtPrice - coord a.xToY st.pool.sqrtPrice) / 10 ^ 5 +
        (iterGrowth s st r dust : ℚ) / 10 ^ 33) =
        (st.pool.liquidity : ℚ) / 10 ^ 5 * (coord a.xToY st'.pool.sqrtPrice - coord a.xToY st.pool.sqrtPrice) +
        (iterGrowth s st r dust : ℚ) * st.pool.liquidity / 10 ^ 33 := by ring
    rw [e] at w1
    unfold liq at c1
    have cov : ((r.feeAmount : ℚ) - protoPart r.feeAmount s.protocolFee st.pool.liquidity) +
        (dust - protoPart dust s.protocolFee st.pool.liquidity) ≤
        (iterGrowth s st r dust : ℚ) * st.pool.liquidity / 10 ^ 33 + 2 * (allLiq s a.key : ℚ) / 10 ^ 33 := by
      by_cases hz : st.pool.liquidity = 0
      · obtain ⟨_, e2, _, e4⟩ := iter_empty hi h hz
        rw [e2, e4, hz]
        unfold protoPart
        simp only [if_true, Nat.cast_zero, mul_zero, zero_div, sub_zero, zero_add]
        positivity
      · have c := iter_fee_cover' h hz
        rw [Nat.cast_sub pf1, Nat.cast_sub pf2] at c
        refine le_trans c (add_le_add_right ?_ _)
        exact div_le_div_of_nonneg_right (by linarith) (by positivity)
    rw [w1, q1, h.totalIn]
    have hr := relOf_nonneg a.xToY
    have f0 : 0 ≤ relOf a.xToY * ((r.feeAmount : ℚ) + dust) := by positivity
    push_cast
    linarith
  · have hgr : outGrain a.xToY a.byIn start st.pool.liquidity st' ≤
        outGrain a.xToY a.byIn start (allLiq s a.key) st' := by
      unfold outGrain
      split
      · exact lastUnit_mono _ _ hT
      · exact le_rfl
    rw [if_neg (by cases a.xToY <;> simp), zero_div, add_zero] at w2
    rw [w2, q2, h.totalOut]
    push_cast
    unfold liq at c2
    have e : (st.pool.liquidity : ℚ) * ((coord (!a.xToY) st'.pool.sqrtPrice - coord (!a.xToY) st.pool.sqrtPrice) / 10 ^ 5) =
        (st.pool.liquidity : ℚ) / 10 ^ 5 * (coord (!a.xToY) st'.pool.sqrtPrice - coord (!a.xToY) st.pool.sqrtPrice) := by ring
    rw [e]
    have e2 : (1 + relOf (!a.xToY)) * ((st.totalOut : ℚ) + r.amountOut - st.totalOut + 1) =
      (1 + relOf (!a.xToY)) * (r.amountOut + 1) := by ring
    rw [e2]
    linarith

/-- a whole swap, from below -/
theorem swap_keeps (hw : StoreWF s) (hl : LedgerInv s)
    (hps : ∀ k q, s.positions.map.get k = some q → q.poolKey = key → PosIn s key q)
    {now : Nat} {xToY byIn : Bool} {amount limit : Nat}
    {r : CalculateSwapResult} {pool : Pool} (hs : Spacing key.feeTier.tickSpacing)
    (h : calculateSwap s now key xToY amount byIn limit = .ok r) (hp : s.pools.get key = some pool)
    (ha : TickAgree key.feeTier.tickSpacing pool) (hn : ¬ Near s key xToY byIn limit r.targetSqrtPrice)
    (hwf : (world s key pool).WF) (hL : pool.liquidity = activeLiq s key pool.currentTickIndex)
    {M : Nat} (hM : ∀ t, activeLiq s key t ≠ 0 → M ≤ activeLiq s key t)
    (hlt : ∀ k q, s.positions.map.get k = some q → q.poolKey = key →
      grown xToY (world s key pool) q * M + r.amountIn * 10 ^ 33 < 2 ^ 128 * M)
    {ticks : Map (PoolKey × Int) Tick} (ht : updateTicks key r.ticks s.ticks = .ok ticks) :
    ∃ n, TookRounds s ⟨key, xToY, byIn, limit, now⟩ pool amount r n ∧
    (byIn = true ∨ xToY = true → n ≤ rounds pool r key.feeTier.tickSpacing) ∧
    poolWorth s.positions key xToY (world s key pool) + protoOf xToY pool + (1 - relOf xToY) * r.amountIn ≤
      poolWorth s.positions key xToY ⟨r.pool, fun i => ticks.get (key, i)⟩ + protoOf xToY r.pool +
        n * (1 + 2 * (allLiq s key : ℚ) / 10 ^ 33) ∧
    (poolWorth s.positions key (!xToY) (world s key pool) + protoOf (!xToY) pool ≤
      poolWorth s.positions key (!xToY) ⟨r.pool, fun i => ticks.get (key, i)⟩ + protoOf (!xToY) r.pool +
        (1 + relOf (!xToY)) * (r.amountOut + n) + if byIn then 0 else lastUnit xToY pool.sqrtPrice (allLiq s key)) := by
  have hs0 : 0 < pool.sqrtPrice := lt_of_lt_of_le (by norm_num [MIN_SQRT_PRICE]) ha.price.1
  obtain ⟨st, ⟨_, _, _, n, hmade, hn1, b1, b2⟩, _, hrem, e⟩ := swap_far_ind hw hs h hp ha hn
    (P := fun st => (vworld s ⟨key, xToY, byIn, limit, now⟩ st).WF ∧
      (st.pool.liquidity = activeLiq s key st.pool.currentTickIndex ∨
        (st.remaining = 0 ∧ Near s key xToY byIn limit st.pool.sqrtPrice)) ∧
      GrownBy s ⟨key, xToY, byIn, limit, now⟩ (world s key pool) M st ∧
      ∃ n, Made s ⟨key, xToY, byIn, limit, now⟩ n ⟨pool, [], amount, 0, 0, 0⟩ st ∧
      (byIn = true ∨ xToY = true → RoundsOk ⟨key, xToY, byIn, limit, now⟩ pool.currentTickIndex n st) ∧
      ((∀ k q, s.positions.map.get k = some q → q.poolKey = key →
          grown xToY (world s key pool) q * M + st.totalIn * 10 ^ 33 < 2 ^ 128 * M) →
        poolWorth s.positions key xToY (world s key pool) + protoOf xToY pool + (1 - relOf xToY) * st.totalIn ≤
          poolWorth s.positions key xToY (vworld s ⟨key, xToY, byIn, limit, now⟩ st) + protoOf xToY st.pool +
            n * (1 + 2 * (allLiq s key : ℚ) / 10 ^ 33)) ∧
      ((∀ k q, s.positions.map.get k = some q → q.poolKey = key →
          grown xToY (world s key pool) q * M + st.totalIn * 10 ^ 33 < 2 ^ 128 * M) →
        poolWorth s.positions key (!xToY) (world s key pool) + protoOf (!xToY) pool ≤
          poolWorth s.positions key (!xToY) (vworld s ⟨key, xToY, byIn, limit, now⟩ st) + protoOf (!xToY) st.pool +
            (1 + relOf (!xToY)) * (st.totalOut + n) + outGrain xToY byIn pool.sqrtPrice (allLiq s key) st))
    (by
      refine ⟨hwf, .inl hL, ?_, 0, .none _, ?_, ?_, ?_⟩
      · intro k q _ _
        simp only [Nat.zero_mul, Nat.add_zero]
        exact le_rfl
      · intro _
        unfold RoundsOk walk
        simp only [sub_self, ite_self]
        split <;> simp <;> positivity
      · intro _
        simp only [Nat.cast_zero, mul_zero, zero_mul, add_zero]
        exact le_rfl
      · intro _
        simp only [Nat.cast_zero, mul_zero, add_zero]
        exact le_add_of_nonneg_right (outGrain_nonneg _ _ _ _ _))
    (by
      rintro st st' target sr dust p1 p2 ⟨i1, i2, i3, n, i0, i4, i5, i6⟩ hsd hb h0 hi hm
      have hL : st.pool.liquidity = activeLiq s key st.pool.currentTickIndex := by
        rcases i2 with h | h
        · exact h
        · exact absurd h.1 h0
      have hM' : st.pool.liquidity ≠ 0 → M ≤ st.pool.liquidity := by rw [hL]; exact hM _
      have hin : st.totalIn ≤ st'.totalIn := by rw [hm.totalIn]; omega
      refine ⟨hist_wf (iter_hist hb hm 0 1) i1, ?_, iter_grownBy hps hb i1 hi hm hM' i3, n + 1, .round i0 h0 hi,
        fun hby => rounds_step hw hs hsd h0 hi hby (i4 hby), ?_, ?_⟩
      · exact (iter_active hw hl hs ⟨hsd, .inl hL⟩ h0 hi).liq
      · intro hlt
        have hlt' : ∀ k q, s.positions.map.get k = some q → q.poolKey = key →
          grown xToY (world s key pool) q * M + st.totalIn * 10 ^ 33 < 2 ^ 128 * M := by
          intro k q hq hk
          exact lt_of_le_of_lt (Nat.add_le_add_left (Nat.mul_le_mul_right _ hin) _) (hlt k q hq hk)
        have j1 := (iter_keeps hps hw hs0 hs hsd h0 hi hb i1 hL hm hM' i3 hlt).1
        have j2 := i5 hlt'
        dsimp only at j1
        push_cast
        linarith
      · intro hlt
        have hlt' : ∀ k q, s.positions.map.get k = some q → q.poolKey = key →
          grown xToY (world s key pool) q * M + st.totalIn * 10 ^ 33 < 2 ^ 128 * M := by
          intro k q hq hk
          exact lt_of_le_of_lt (Nat.add_le_add_left (Nat.mul_le_mul_right _ hin) _) (hlt k q hq hk)
        have j1 := (iter_keeps hps hw hs0 hs hsd h0 hi hb i1 hL hm hM' i3 hlt).2
        have j2 := i6 hlt'
        have j3 : outGrain xToY byIn pool.sqrtPrice (allLiq s key) st = 0 := by
          unfold outGrain
          rw [if_neg (fun hc => h0 hc.2)]
        dsimp only at j1
        push_cast
        linarith)
  have hm := updateTicks_eq _ _ _ ht
  have ev : vworld s ⟨key, xToY, byIn, limit, now⟩ st = ⟨r.pool, fun i => ticks.get (key, i)⟩ := by
    rw [hm, e]
    rfl
  have hr := fun hby => rounds_le hs.1 hrem (hn1 hby)
  have hlt2 : ∀ k q, s.positions.map.get k = some q → q.poolKey = key →
      grown xToY (world s key pool) q * M + st.totalIn * 10 ^ 33 < 2 ^ 128 * M := by
    intro k q hq hk
    have := hlt k q hq hk
    rw [e] at this
    exact this
  have c1 := b1 hlt2
  have c2 := b2 hlt2
  rw [ev] at c1 c2
  have c3 : outGrain xToY byIn pool.sqrtPrice (allLiq s key) st ≤
      if byIn then 0 else lastUnit xToY pool.sqrtPrice (allLiq s key) := by
    unfold outGrain
    cases byIn
    · simp only [true_and, Bool.false_eq_true, if_false]
      have h0 := lastUnit_nonneg xToY pool.sqrtPrice (allLiq s key)
      split <;> first | exact le_rfl | exact h0
    · simp
  rw [e] at c1 c2 ⊢
  exact ⟨n, ⟨st, hmade, hrem, rfl⟩, hr, c1, le_trans c2 (add_le_add_right c3 _)⟩

end Verif
