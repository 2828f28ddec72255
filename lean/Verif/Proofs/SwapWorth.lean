import Verif.Proofs.Worth
import Verif.Proofs.Terminate
import Verif.Proofs.AccInv

/-! # The worth of all positions over a swap -/

namespace Verif
open Service Spec

variable {s : Inv} {key : PoolKey}

/-- the error of one rounding in token X -/
def slackX : ℚ := 1 / (23 * 10 ^ 13)

theorem slackX_pos : 0 < slackX := by norm_num [slackX]

theorem growth_mul_le (fee pf L : Nat) (h : protoPart fee pf L ≤ fee) :
    growth fee pf L * L ≤ (fee - protoPart fee pf L) * 10 ^ 33 := by
  unfold growth protoPart at *
  by_cases hL : L = 0
  · rw [hL]; simp
  · rw [if_neg hL] at *
    exact Nat.div_mul_le_self _ _

theorem coord_diff_X {p p' L : Nat} (h0 : 0 < p') (h : p' ≤ p) :
    liq L * (coord true p' - coord true p) = amountX p p' L := by
  unfold coord amountX
  simp only [if_true]
  have h1 : 0 < price p' := by unfold price; positivity
  have h2 : price p' ≤ price p := by
    unfold price
    exact div_le_div_of_nonneg_right (by exact_mod_cast h) (by positivity)
  have := one_div_le_one_div_of_le h1 h2
  rw [abs_of_nonpos (by linarith)]
  ring

theorem coord_diff_Y {p p' L : Nat} (h : p ≤ p') :
    liq L * (coord false p' - coord false p) = amountY p p' L := by
  unfold coord amountY
  simp only [Bool.false_eq_true, if_false]
  have h2 : price p ≤ price p' := by
    unfold price
    exact div_le_div_of_nonneg_right (by exact_mod_cast h) (by positivity)
  rw [abs_of_nonpos (by linarith)]
  ring

theorem amountX_comm (a b L : Nat) : amountX a b L = amountX b a L := by
  unfold amountX; rw [abs_sub_comm]

theorem amountY_comm (a b L : Nat) : amountY a b L = amountY b a L := by
  unfold amountY; rw [abs_sub_comm]

theorem amountX_self (a L : Nat) : amountX a a L = 0 := by unfold amountX; simp
theorem amountY_self (a L : Nat) : amountY a a L = 0 := by unfold amountY; simp

variable {a : SwapArgs} {st st' : SwapState} {target dust : Nat} {r : SwapResult} {p1 p2 : Pool}

/-- the curve of an iteration: what comes in covers it up to the slack, what goes out does not exceed it -/
theorem iter_curve (hp : PriceOK st.pool.sqrtPrice) (hp' : PriceOK st'.pool.sqrtPrice)
    (h : IterMove s a st st' target r dust p1 p2) :
    liq st.pool.liquidity * (coord a.xToY st'.pool.sqrtPrice - coord a.xToY st.pool.sqrtPrice) ≤
      r.amountIn + (if a.xToY then slackX else 0) ∧
    (r.amountOut : ℚ) ≤
      -(liq st.pool.liquidity * (coord (!a.xToY) st'.pool.sqrtPrice - coord (!a.xToY) st.pool.sqrtPrice)) := by
  have hn := h.next
  have htg := h.tgt
  rw [h.price] at hp' ⊢
  have pos : ∀ {q}, PriceOK q → 0 < q := fun h => lt_of_lt_of_le (by norm_num [MIN_SQRT_PRICE]) h.1
  by_cases hL : st.pool.liquidity = 0
  · have hst := h.step
    rw [hL, computeSwapStep_zero] at hst
    cases hst
    rw [hL]
    unfold liq
    have := slackX_pos
    cases a.xToY <;> simp [this.le]
  · have hC := C08_step_curve hp.1 h.priceOK.1 hL h.step
    cases hx : a.xToY
    · simp only [hx, Bool.false_eq_true, if_false, Bool.not_false, add_zero] at hn htg ⊢
      rw [coord_diff_Y hn.1]
      have e : -(liq st.pool.liquidity * (coord true r.nextSqrtPrice - coord true st.pool.sqrtPrice)) =
          amountX st.pool.sqrtPrice r.nextSqrtPrice st.pool.liquidity := by
        rw [amountX_comm, ← coord_diff_X (pos hp) hn.1]; ring
      rw [e]
      rcases Nat.lt_or_ge st.pool.sqrtPrice target with hlt | hge
      · exact hC.2 hlt
      · have e2 : r.nextSqrtPrice = st.pool.sqrtPrice := by omega
        have := (hC.1 hge).2
        rw [e2, amountY_self] at this
        rw [e2, amountY_self, amountX_self]
        exact ⟨by positivity, this⟩
    · simp only [hx, if_true, Bool.not_true] at hn htg ⊢
      rw [coord_diff_X (pos hp') hn]
      have e : -(liq st.pool.liquidity * (coord false r.nextSqrtPrice - coord false st.pool.sqrtPrice)) =
          amountY st.pool.sqrtPrice r.nextSqrtPrice st.pool.liquidity := by
        rw [amountY_comm, ← coord_diff_Y hn]; ring
      rw [e]
      obtain ⟨h1, h2⟩ := hC.1 htg
      exact ⟨h1.le, h2⟩

/-- uncollected protocol fees of a pool -/
def protoOf (tok : Bool) (p : Pool) : Nat := if tok then p.feeProtocolTokenX else p.feeProtocolTokenY

theorem iter_proto (h : IterMove s a st st' target r dust p1 p2) :
    protoOf a.xToY st'.pool = protoOf a.xToY st.pool + protoPart r.feeAmount s.protocolFee st.pool.liquidity +
      protoPart dust s.protocolFee st.pool.liquidity ∧
    protoOf (!a.xToY) st'.pool = protoOf (!a.xToY) st.pool := by
  have f1 := (addFee_full h.fee).2
  have f2 := (addFee_full h.rest).2
  have hq : st'.pool.feeProtocolTokenX = p2.feeProtocolTokenX ∧
      st'.pool.feeProtocolTokenY = p2.feeProtocolTokenY := by
    cases h.kind with
    | stay ticks pool side => rw [pool]; exact ⟨rfl, rfl⟩
    | cross t t' q' stored hx ticks pool =>
      rw [pool]
      dsimp only
      rw [(cross_full hx).2.1]
      exact ⟨rfl, rfl⟩
  have l1 : p1.liquidity = st.pool.liquidity := by rw [f1]
  unfold protoOf
  rw [hq.1, hq.2, f2]
  dsimp only
  rw [l1]
  rw [f1]
  dsimp only
  cases a.xToY <;> simp [Nat.add_assoc]

/-- the fee growth of an iteration is covered by the fees taken -/
theorem iter_fee_cover (h : IterMove s a st st' target r dust p1 p2) :
    (iterGrowth s st r dust : ℚ) * st.pool.liquidity / 10 ^ 33 ≤
      (r.feeAmount - protoPart r.feeAmount s.protocolFee st.pool.liquidity : Nat) +
      (dust - protoPart dust s.protocolFee st.pool.liquidity : Nat) := by
  have l1 : p1.liquidity = st.pool.liquidity := by rw [(addFee_full h.fee).2]
  have h1 := growth_mul_le _ _ _ (addFee_full h.fee).1
  have h2' := (addFee_full h.rest).1
  dsimp only at h2'
  rw [l1] at h2'
  have h2 := growth_mul_le _ _ _ h2'
  rw [div_le_iff₀ (by positivity)]
  unfold iterGrowth
  have h3 := Nat.add_le_add h1 h2
  rw [← Nat.add_mul, ← Nat.add_mul] at h3
  exact_mod_cast h3

/-- iterations that may still round in token X -/
def roundsLeft (a : SwapArgs) (st : SwapState) : Nat :=
  if a.xToY then (if st.remaining = 0 then 0 else itersLeft a st + 1) else 0

/-- one iteration -/
theorem iter_balance (hps : ∀ k q, s.positions.map.get k = some q → q.poolKey = a.key → PosIn s a.key q)
    (hw : StoreWF s) {start : Nat} (hs : Spacing a.key.feeTier.tickSpacing)
    (hsd : SwapSide a start st) (h0 : st.remaining ≠ 0) (hi : swapIter s a st = .ok st')
    (hb : Behind s a st) (hwf : (vworld s a st).WF)
    (hL : st.pool.liquidity = activeLiq s a.key st.pool.currentTickIndex)
    (h : IterMove s a st st' target r dust p1 p2) :
    poolWorth s.positions a.key a.xToY (vworld s a st') + protoOf a.xToY st'.pool +
        slackX * roundsLeft a st' + st.totalIn ≤
      poolWorth s.positions a.key a.xToY (vworld s a st) + protoOf a.xToY st.pool +
        slackX * roundsLeft a st + st'.totalIn ∧
    poolWorth s.positions a.key (!a.xToY) (vworld s a st') + protoOf (!a.xToY) st'.pool + st'.totalOut ≤
      poolWorth s.positions a.key (!a.xToY) (vworld s a st) + protoOf (!a.xToY) st.pool + st.totalOut := by
  have hp := hsd.agree.price
  have hp' := (iter_side hw hs hsd h0 hi).agree.price
  obtain ⟨c1, c2⟩ := iter_curve hp hp' h
  obtain ⟨q1, q2⟩ := iter_proto h
  have cov := iter_fee_cover h
  have w1 := iter_poolWorth hps hb hwf h a.xToY
  have w2 := iter_poolWorth hps hb hwf h (!a.xToY)
  rw [← hL] at w1 w2
  have pf1 := (addFee_full h.fee).1
  have pf2 := (addFee_full h.rest).1
  dsimp only at pf2
  rw [show p1.liquidity = st.pool.liquidity by rw [(addFee_full h.fee).2]] at pf2
  constructor
  · rw [if_pos rfl] at w1
    have hr : (roundsLeft a st' : ℚ) + (if a.xToY then 1 else 0) ≤ roundsLeft a st := by
      unfold roundsLeft
      cases hx : a.xToY
      · simp
      · simp only [if_true]
        rw [if_neg h0]
        by_cases h1 : st'.remaining = 0
        · rw [if_pos h1]; push_cast; linarith [Nat.cast_nonneg (α := ℚ) (itersLeft a st)]
        · rw [if_neg h1]
          have := iter_left hw hs hsd h0 hi h1
          exact_mod_cast Nat.succ_le_succ this
    have hsl : slackX * roundsLeft a st' + (if a.xToY then slackX else 0) ≤ slackX * roundsLeft a st := by
      have := mul_le_mul_of_nonneg_left hr slackX_pos.le
      refine le_trans (le_of_eq ?_) this
      cases a.xToY <;> simp <;> ring
    rw [q1, h.totalIn]
    rw [Nat.cast_sub pf1, Nat.cast_sub pf2] at cov
    push_cast
    unfold liq at c1
    have e : (st.pool.liquidity : ℚ) * ((coord a.xToY st'.pool.sqrtPrice - coord a.xToY st.pool.sqrtPrice) / 10 ^ 5 +
        (iterGrowth s st r dust : ℚ) / 10 ^ 33) =
        (st.pool.liquidity : ℚ) / 10 ^ 5 * (coord a.xToY st'.pool.sqrtPrice - coord a.xToY st.pool.sqrtPrice) +
        (iterGrowth s st r dust : ℚ) * st.pool.liquidity / 10 ^ 33 := by ring
    rw [e] at w1
    linarith
  · rw [if_neg (by cases a.xToY <;> simp), zero_div, add_zero] at w2
    rw [q2, h.totalOut]
    push_cast
    unfold liq at c2
    have e : (st.pool.liquidity : ℚ) * ((coord (!a.xToY) st'.pool.sqrtPrice - coord (!a.xToY) st.pool.sqrtPrice) / 10 ^ 5) =
        (st.pool.liquidity : ℚ) / 10 ^ 5 * (coord (!a.xToY) st'.pool.sqrtPrice - coord (!a.xToY) st.pool.sqrtPrice) := by ring
    rw [e] at w2
    linarith

/-- a whole swap -/
theorem swap_balance (hw : StoreWF s) (hl : LedgerInv s)
    (hps : ∀ k q, s.positions.map.get k = some q → q.poolKey = key → PosIn s key q)
    {now : Nat} {xToY byIn : Bool} {amount limit : Nat}
    {r : CalculateSwapResult} {pool : Pool} (hs : Spacing key.feeTier.tickSpacing)
    (h : calculateSwap s now key xToY amount byIn limit = .ok r) (hp : s.pools.get key = some pool)
    (ha : TickAgree key.feeTier.tickSpacing pool) (hn : ¬ Near s key xToY byIn limit r.targetSqrtPrice)
    (hwf : (world s key pool).WF) (hL : pool.liquidity = activeLiq s key pool.currentTickIndex)
    {ticks : Map (PoolKey × Int) Tick} (ht : updateTicks key r.ticks s.ticks = .ok ticks) :
    poolWorth s.positions key xToY ⟨r.pool, fun i => ticks.get (key, i)⟩ + protoOf xToY r.pool ≤
      poolWorth s.positions key xToY (world s key pool) + protoOf xToY pool + r.amountIn +
        (if xToY then slackX * 443637 else 0) ∧
    poolWorth s.positions key (!xToY) ⟨r.pool, fun i => ticks.get (key, i)⟩ + protoOf (!xToY) r.pool +
        r.amountOut ≤
      poolWorth s.positions key (!xToY) (world s key pool) + protoOf (!xToY) pool := by
  obtain ⟨st, ⟨_, _, b1, b2⟩, _, hrem, e⟩ := swap_far_ind hw hs h hp ha hn
    (P := fun st => (vworld s ⟨key, xToY, byIn, limit, now⟩ st).WF ∧
      (st.pool.liquidity = activeLiq s key st.pool.currentTickIndex ∨
        (st.remaining = 0 ∧ Near s key xToY byIn limit st.pool.sqrtPrice)) ∧
      poolWorth s.positions key xToY (vworld s ⟨key, xToY, byIn, limit, now⟩ st) + protoOf xToY st.pool +
          slackX * roundsLeft ⟨key, xToY, byIn, limit, now⟩ st ≤
        poolWorth s.positions key xToY (world s key pool) + protoOf xToY pool +
          slackX * (if xToY then 443637 else 0) + st.totalIn ∧
      poolWorth s.positions key (!xToY) (vworld s ⟨key, xToY, byIn, limit, now⟩ st) + protoOf (!xToY) st.pool +
          st.totalOut ≤
        poolWorth s.positions key (!xToY) (world s key pool) + protoOf (!xToY) pool)
    (by
      refine ⟨hwf, .inl hL, ?_, ?_⟩
      · have : (roundsLeft ⟨key, xToY, byIn, limit, now⟩
            { pool := pool, ticks := [], remaining := amount, totalIn := 0, totalOut := 0, fee := 0 } : ℚ) ≤
            if xToY then 443637 else 0 := by
          unfold roundsLeft itersLeft
          have g1 := ha.grid.min
          have g2 := ha.grid.max
          simp only [MIN_TICK, MAX_TICK] at g1 g2 ⊢
          cases xToY
          · simp
          · simp only [if_true]
            split
            · simp
            · exact_mod_cast (by omega : (pool.currentTickIndex - -221818).toNat + 1 ≤ 443637)
        have := mul_le_mul_of_nonneg_left this slackX_pos.le
        simp only [Nat.cast_zero, add_zero]
        exact add_le_add_right this _
      · simp only [Nat.cast_zero, add_zero]
        exact le_rfl)
    (by
      rintro st st' target sr dust p1 p2 ⟨i1, i2, i3, i4⟩ hsd hb h0 hi hm
      have hL : st.pool.liquidity = activeLiq s key st.pool.currentTickIndex := by
        rcases i2 with h | h
        · exact h
        · exact absurd h.1 h0
      obtain ⟨j1, j2⟩ := iter_balance hps hw hs hsd h0 hi hb i1 hL hm
      refine ⟨hist_wf (iter_hist hb hm 0 1) i1, ?_, ?_, ?_⟩
      · exact (iter_active hw hl hs ⟨hsd, .inl hL⟩ h0 hi).liq
      · dsimp only at j1; linarith
      · dsimp only at j2; linarith)
  have hm := updateTicks_eq _ _ _ ht
  have ev : vworld s ⟨key, xToY, byIn, limit, now⟩ st = ⟨r.pool, fun i => ticks.get (key, i)⟩ := by
    rw [hm, e]
    rfl
  rw [ev] at b1 b2
  have er : roundsLeft ⟨key, xToY, byIn, limit, now⟩ st = 0 := by
    unfold roundsLeft
    rw [if_pos hrem]; simp
  rw [er] at b1
  rw [e] at b1 b2 ⊢
  dsimp only at b1 b2 ⊢
  constructor
  · refine le_trans ?_ (le_trans b1 (le_of_eq ?_))
    · simp
    · cases xToY <;> simp <;> ring
  · exact b2

end Verif
