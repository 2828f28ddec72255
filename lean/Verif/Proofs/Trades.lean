import Verif.Spec.Trades
import Verif.Proofs.Solvent

/-! # What a series of swaps moves along the curve -/

namespace Verif
open Service Spec

variable {s s' : Inv} {key : PoolKey}

/-- the amount of a token on the curve of all positions of a pool -/
def curveSum (ps : Positions) (key : PoolKey) (tok : Bool) (w : FeeWorld) : ℚ :=
  posSum ps fun q => if q.poolKey = key then onCurve tok w q else 0

variable {a : SwapArgs} {st st' : SwapState} {target dust : Nat} {r : SwapResult} {p1 p2 : Pool}

theorem iter_curveSum (hps : ∀ k q, s.positions.map.get k = some q → q.poolKey = a.key → PosIn s a.key q)
    (h : IterMove s a st st' target r dust p1 p2) (tok : Bool) :
    curveSum s.positions a.key tok (vworld s a st') = curveSum s.positions a.key tok (vworld s a st) +
      liq (activeLiq s a.key st.pool.currentTickIndex) *
        (coord tok st'.pool.sqrtPrice - coord tok st.pool.sqrtPrice) := by
  have e : liq (activeLiq s a.key st.pool.currentTickIndex) *
        (coord tok st'.pool.sqrtPrice - coord tok st.pool.sqrtPrice) =
      (activeLiq s a.key st.pool.currentTickIndex : ℚ) *
        ((coord tok st'.pool.sqrtPrice - coord tok st.pool.sqrtPrice) / 10 ^ 5) := by
    unfold liq; ring
  rw [e, activeLiq_eq, posSum_cast, ← posSum_mul]
  unfold curveSum posSum
  rw [← Map.sum_add]
  refine Map.sum_congr fun k q hq => ?_
  dsimp only
  unfold aC
  by_cases hk : q.poolKey = a.key
  · have h1 := iter_onCurve (hps k q hq hk) h tok
    unfold InPos at h1
    simp only [hk, if_true, true_and]
    rw [h1]
    by_cases hc : q.lowerTickIndex ≤ st.pool.currentTickIndex ∧ st.pool.currentTickIndex < q.upperTickIndex
    · simp only [hc.1, hc.2, and_self, if_true]
      unfold liq; ring
    · simp only [hc, if_false, Nat.cast_zero, zero_mul]
  · simp [hk]

/-- one iteration -/
theorem iter_moved (hps : ∀ k q, s.positions.map.get k = some q → q.poolKey = a.key → PosIn s a.key q)
    (hw : StoreWF s) {start : Nat} (hs : Spacing a.key.feeTier.tickSpacing)
    (hsd : SwapSide a start st) (h0 : st.remaining ≠ 0) (hi : swapIter s a st = .ok st')
    (hL : st.pool.liquidity = activeLiq s a.key st.pool.currentTickIndex)
    (h : IterMove s a st st' target r dust p1 p2) :
    curveSum s.positions a.key a.xToY (vworld s a st') + slackX * roundsLeft a st' + st.totalIn ≤
      curveSum s.positions a.key a.xToY (vworld s a st) + slackX * roundsLeft a st + st'.totalIn ∧
    curveSum s.positions a.key (!a.xToY) (vworld s a st') + st'.totalOut ≤
      curveSum s.positions a.key (!a.xToY) (vworld s a st) + st.totalOut := by
  have hp := hsd.agree.price
  have hp' := (iter_side hw hs hsd h0 hi).agree.price
  obtain ⟨c1, c2⟩ := iter_curve hp hp' h
  rw [iter_curveSum hps h, iter_curveSum hps h, ← hL]
  constructor
  · have hr : (roundsLeft a st' : ℚ) + (if a.xToY then 1 else 0) ≤ roundsLeft a st := by
      unfold roundsLeft
      cases hx : a.xToY
      · simp
      · simp only [if_true]
        rw [if_neg h0]
        by_cases h1 : st'.remaining = 0
        · rw [if_pos h1]; push_cast; linarith [Nat.cast_nonneg (α := ℚ) (itersLeft a st)]
        · rw [if_neg h1]
          have := iter_left hw hs hsd h0 hi h1
          exact_mod_cast Nat.succ_le_succ this
    have hsl : slackX * roundsLeft a st' + (if a.xToY then slackX else 0) ≤ slackX * roundsLeft a st := by
      have := mul_le_mul_of_nonneg_left hr slackX_pos.le
      refine le_trans (le_of_eq ?_) this
      cases a.xToY <;> simp <;> ring
    have f0 : (0 : ℚ) ≤ r.feeAmount := Nat.cast_nonneg _
    have d0 : (0 : ℚ) ≤ dust := Nat.cast_nonneg _
    rw [h.totalIn]
    push_cast
    linarith
  · rw [h.totalOut]
    push_cast
    linarith

/-- a whole swap -/
theorem swap_moved (hw : StoreWF s) (hl : LedgerInv s)
    (hps : ∀ k q, s.positions.map.get k = some q → q.poolKey = key → PosIn s key q)
    {now : Nat} {xToY byIn : Bool} {amount limit : Nat}
    {r : CalculateSwapResult} {pool : Pool} (hs : Spacing key.feeTier.tickSpacing)
    (h : calculateSwap s now key xToY amount byIn limit = .ok r) (hp : s.pools.get key = some pool)
    (ha : TickAgree key.feeTier.tickSpacing pool) (hn : ¬ Near s key xToY byIn limit r.targetSqrtPrice)
    (hL : pool.liquidity = activeLiq s key pool.currentTickIndex) (tk : Int → Option Tick) :
    curveSum s.positions key xToY ⟨r.pool, tk⟩ ≤
      curveSum s.positions key xToY (world s key pool) + r.amountIn + (if xToY then slackX * 443637 else 0) ∧
    curveSum s.positions key (!xToY) ⟨r.pool, tk⟩ + r.amountOut ≤
      curveSum s.positions key (!xToY) (world s key pool) := by
  obtain ⟨st, ⟨_, b1, b2⟩, _, hrem, e⟩ := swap_far_ind hw hs h hp ha hn
    (P := fun st =>
      (st.pool.liquidity = activeLiq s key st.pool.currentTickIndex ∨
        (st.remaining = 0 ∧ Near s key xToY byIn limit st.pool.sqrtPrice)) ∧
      curveSum s.positions key xToY (vworld s ⟨key, xToY, byIn, limit, now⟩ st) +
          slackX * roundsLeft ⟨key, xToY, byIn, limit, now⟩ st ≤
        curveSum s.positions key xToY (world s key pool) +
          slackX * (if xToY then 443637 else 0) + st.totalIn ∧
      curveSum s.positions key (!xToY) (vworld s ⟨key, xToY, byIn, limit, now⟩ st) + st.totalOut ≤
        curveSum s.positions key (!xToY) (world s key pool))
    (by
      refine ⟨.inl hL, ?_, ?_⟩
      · have : (roundsLeft ⟨key, xToY, byIn, limit, now⟩
            { pool := pool, ticks := [], remaining := amount, totalIn := 0, totalOut := 0, fee := 0 } : ℚ) ≤
            if xToY then 443637 else 0 := by
          unfold roundsLeft itersLeft
          have g1 := ha.grid.min
          have g2 := ha.grid.max
          simp only [MIN_TICK, MAX_TICK] at g1 g2 ⊢
          cases xToY
          · simp
          · simp only [if_true]
            split
            · simp
            · exact_mod_cast (by omega : (pool.currentTickIndex - -221818).toNat + 1 ≤ 443637)
        have := mul_le_mul_of_nonneg_left this slackX_pos.le
        simp only [Nat.cast_zero, add_zero]
        exact add_le_add_right this _
      · simp only [Nat.cast_zero, add_zero]
        exact le_rfl)
    (by
      rintro st st' target sr dust p1 p2 ⟨i2, i3, i4⟩ hsd hb h0 hi hm
      have hL : st.pool.liquidity = activeLiq s key st.pool.currentTickIndex := by
        rcases i2 with h | h
        · exact h
        · exact absurd h.1 h0
      obtain ⟨j1, j2⟩ := iter_moved hps hw hs hsd h0 hi hL hm
      refine ⟨?_, ?_, ?_⟩
      · exact (iter_active hw hl hs ⟨hsd, .inl hL⟩ h0 hi).liq
      · dsimp only at j1; linarith
      · dsimp only at j2; linarith)
  have er : roundsLeft ⟨key, xToY, byIn, limit, now⟩ st = 0 := by
    unfold roundsLeft
    rw [if_pos hrem]; simp
  rw [er] at b1
  rw [e]
  dsimp only
  constructor
  · refine le_trans ?_ (le_trans b1 (le_of_eq ?_))
    · simp only [Nat.cast_zero, mul_zero, add_zero]; exact le_rfl
    · cases xToY <;> simp <;> ring
  · exact b2

/-! ### the amounts depend on the price only -/

/-- the price, cut off at the ends of the range -/
def clampTo (q : Position) (P : Nat) : Nat :=
  max (priceOf q.lowerTickIndex) (min P (priceOf q.upperTickIndex))

theorem cutOf_eq {sp : Nat} {pool : Pool} {q : Position} (ha : TickAgree sp pool)
    (hl : Grid sp q.lowerTickIndex) (hu : Grid sp q.upperTickIndex) (hlt : q.lowerTickIndex < q.upperTickIndex) :
    cutOf pool q = clampTo q pool.sqrtPrice := by
  unfold cutOf cutPrice clampTo
  have hlu := (priceOf_lt hl.min hu.max hlt).le
  split
  · next h =>
    have h1 := grid_next ha.grid.1 hl.1 h
    have h2 := ha.high (le_trans h1 hl.max)
    have h3 := priceOf_le (le_trans ha.grid.min (by omega)) hl.max h1
    rw [max_eq_left]
    exact le_trans (min_le_left _ _) (h2.trans h3)
  · next h =>
    have h0 := priceOf_le hl.min ha.grid.max (not_lt.1 h)
    split
    · next h' =>
      have h1 := grid_next ha.grid.1 hu.1 h'
      have h2 := ha.high (le_trans h1 hu.max)
      have h3 := priceOf_le (le_trans ha.grid.min (by omega)) hu.max h1
      rw [min_eq_left (h2.trans h3), max_eq_right (h0.trans ha.low)]
    · next h' =>
      have h1 := priceOf_le hu.min ha.grid.max (not_lt.1 h')
      rw [min_eq_right (h1.trans ha.low), max_eq_right hlu]

/-- amount of a token on the curve of all positions of a pool at a price -/
def curveAt (ps : Positions) (key : PoolKey) (tok : Bool) (P : Nat) : ℚ :=
  posSum ps fun q => if q.poolKey = key then
    liq q.liquidity * (coord tok (clampTo q P) - coord tok (basePrice tok q)) else 0

theorem price_le {a b : Nat} (h : a ≤ b) : price a ≤ price b := by
  unfold price
  exact div_le_div_of_nonneg_right (by exact_mod_cast h) (by positivity)

theorem price_pos {a : Nat} (h : 0 < a) : 0 < price a := by
  unfold price
  exact div_pos (by exact_mod_cast h) (by positivity)

theorem clampTo_mono (q : Position) {P P' : Nat} (h : P' ≤ P) : clampTo q P' ≤ clampTo q P := by
  unfold clampTo
  exact max_le_max le_rfl (min_le_min h le_rfl)

theorem liq_nonneg (L : Nat) : 0 ≤ liq L := by unfold liq; positivity

/-- the amounts at two prices of a position whose range has positive prices -/
theorem clamp_terms (q : Position) {P P' : Nat} (h0 : 0 < priceOf q.lowerTickIndex) (hP : 0 < P')
    (hlu : priceOf q.lowerTickIndex ≤ priceOf q.upperTickIndex) (h : P' ≤ P) :
    coord true (clampTo q P) ≤ coord true (clampTo q P') ∧
    coord false (clampTo q P') ≤ coord false (clampTo q P) ∧
    coord false (clampTo q P) - coord false (clampTo q P') ≤
      price P ^ 2 * (coord true (clampTo q P') - coord true (clampTo q P)) ∧
    price P' ^ 2 * (coord true (clampTo q P') - coord true (clampTo q P)) ≤
      coord false (clampTo q P) - coord false (clampTo q P') := by
  have hc : clampTo q P' ≤ clampTo q P := clampTo_mono q h
  have hp : 0 < clampTo q P' := lt_of_lt_of_le h0 (le_max_left _ _)
  have e : clampTo q P' = clampTo q P ∨ (clampTo q P ≤ P ∧ P' ≤ clampTo q P') := by
    unfold clampTo
    omega
  have c1 := price_le hc
  have c0 := price_pos hp
  have c0' := lt_of_lt_of_le c0 c1
  unfold coord
  simp only [if_true, Bool.false_eq_true, if_false]
  refine ⟨one_div_le_one_div_of_le c0 c1, c1, ?_⟩
  rcases e with e | ⟨e1, e2⟩
  · rw [e]; simp
  · have k1 := price_le e1
    have k2 := price_le e2
    have k0 := price_pos hP
    generalize price (clampTo q P) = c at *
    generalize price (clampTo q P') = c' at *
    generalize price P = u at *
    generalize price P' = v at *
    have e3 : 1 / c' - 1 / c = (c - c') / (c' * c) := by
      field_simp
    have hcc : 0 < c' * c := mul_pos c0 c0'
    have hd : 0 ≤ c - c' := by linarith
    rw [e3, ← mul_div_assoc, ← mul_div_assoc, le_div_iff₀ hcc, div_le_iff₀ hcc]
    constructor
    · have : c' * c ≤ u ^ 2 := by nlinarith
      nlinarith
    · have : v ^ 2 ≤ c' * c := by nlinarith
      nlinarith

/-- the positions of a pool are well formed -/
def RangesOK (ps : Positions) (key : PoolKey) : Prop := ∀ k q, ps.map.get k = some q → q.poolKey = key →
  0 < priceOf q.lowerTickIndex ∧ priceOf q.lowerTickIndex ≤ priceOf q.upperTickIndex

theorem curveAt_sub (ps : Positions) (key : PoolKey) (tok : Bool) (P P' : Nat) :
    curveAt ps key tok P - curveAt ps key tok P' = posSum ps fun q => if q.poolKey = key then
      liq q.liquidity * (coord tok (clampTo q P) - coord tok (clampTo q P')) else 0 := by
  rw [sub_eq_iff_eq_add]
  unfold curveAt posSum
  rw [← Map.sum_add]
  refine Map.sum_congr fun k q _ => ?_
  dsimp only
  split
  · ring
  · simp

theorem curveAt_terms {ps : Positions} {key : PoolKey} (hok : RangesOK ps key) {P P' : Nat} (hP : 0 < P')
    (h : P' ≤ P) :
    curveAt ps key true P ≤ curveAt ps key true P' ∧ curveAt ps key false P' ≤ curveAt ps key false P ∧
    curveAt ps key false P - curveAt ps key false P' ≤
      price P ^ 2 * (curveAt ps key true P' - curveAt ps key true P) ∧
    price P' ^ 2 * (curveAt ps key true P' - curveAt ps key true P) ≤
      curveAt ps key false P - curveAt ps key false P' := by
  have hterm := fun k q hq hk => clamp_terms q (hok k q hq hk).1 hP (hok k q hq hk).2 h
  have n1 : 0 ≤ curveAt ps key true P' - curveAt ps key true P := by
    rw [curveAt_sub]
    refine Map.sum_nonneg fun k q hq => ?_
    dsimp only
    split
    · next hk => exact mul_nonneg (liq_nonneg _) (by linarith [(hterm k q hq hk).1])
    · exact le_rfl
  have n2 : 0 ≤ curveAt ps key false P - curveAt ps key false P' := by
    rw [curveAt_sub]
    refine Map.sum_nonneg fun k q hq => ?_
    dsimp only
    split
    · next hk => exact mul_nonneg (liq_nonneg _) (by linarith [(hterm k q hq hk).2.1])
    · exact le_rfl
  refine ⟨by linarith, by linarith, ?_, ?_⟩
  · rw [curveAt_sub, curveAt_sub, mul_comm, ← posSum_mul]
    refine Map.sum_le_sum fun k q hq => ?_
    dsimp only
    split
    · next hk =>
      have := mul_le_mul_of_nonneg_left (hterm k q hq hk).2.2.1 (liq_nonneg q.liquidity)
      refine this.trans (le_of_eq ?_)
      ring
    · simp
  · rw [curveAt_sub, curveAt_sub, mul_comm, ← posSum_mul]
    refine Map.sum_le_sum fun k q hq => ?_
    dsimp only
    split
    · next hk =>
      have := mul_le_mul_of_nonneg_left (hterm k q hq hk).2.2.2 (liq_nonneg q.liquidity)
      refine (le_of_eq ?_).trans this
      ring
    · simp

/-! ### series of swaps -/

theorem clear_ranges (hr : Reach32 s) (key : PoolKey) : RangesOK s.positions key := by
  intro k q hq _
  have hw := (reach_wf s (reach32_reach s hr).1).pos _ _ hq
  have h1 := priceOf_ge_min hw.1.lower.min hw.1.lower.max
  exact ⟨lt_of_lt_of_le (by norm_num [MIN_SQRT_PRICE]) h1, (priceOf_lt hw.1.lower.min hw.1.upper.max hw.1.lt).le⟩

theorem curveSum_eq (hr : Reach32 s) {pool : Pool} (ha : TickAgree key.feeTier.tickSpacing pool) (tok : Bool)
    (tk : Int → Option Tick) :
    curveSum s.positions key tok ⟨pool, tk⟩ = curveAt s.positions key tok pool.sqrtPrice := by
  have hw := reach_wf s (reach32_reach s hr).1
  unfold curveSum curveAt posSum
  refine Map.sum_congr fun k q hq => ?_
  dsimp only
  by_cases hk : q.poolKey = key
  · rw [if_pos hk, if_pos hk]
    have hp := (hw.pos _ _ hq).1
    have h1 := hp.lower
    have h2 := hp.upper
    rw [hk] at h1 h2
    unfold onCurve
    dsimp only
    rw [cutOf_eq ha h1 h2 hp.lt]
  · rw [if_neg hk, if_neg hk]

theorem trades_clear (hc : Clear s) {x y : ℤ} {n : Nat} (h : Trades true key s s' x y n) : Clear s' := by
  induction h with
  | none => exact hc
  | swap _ hs hn ih => exact .swap ih hs (hn rfl)
  | other _ _ hs hn ih => exact .swap ih hs (hn rfl)
  | transfers _ hb ih => exact .transfers ih hb

theorem trades_missing (hp : s.pools.get key = none) {c : Bool} {x y : ℤ} {n : Nat}
    (h : Trades c key s s' x y n) : s'.pools.get key = none ∧ x = 0 ∧ y = 0 := by
  induction h with
  | none => exact ⟨hp, rfl, rfl⟩
  | swap _ hs _ ih =>
    obtain ⟨_, _, _, h1, _⟩ := swap_ok hs
    obtain ⟨p, hp', _⟩ := calculateSwap_pool h1
    rw [ih.1] at hp'
    cases hp'
  | other _ hk hs _ ih =>
    obtain ⟨_, _, _, _, _, _, _, e⟩ := swap_ok hs
    refine ⟨?_, ih.2⟩
    rw [e]
    dsimp only
    rw [Map.get_insert_ne _ _ (Ne.symm hk)]
    exact ih.1
  | transfers _ _ ih => exact ih

theorem trades_moved (hc : Clear s) {pool : Pool} (hp : s.pools.get key = some pool) {x y : ℤ} {n : Nat}
    (h : Trades true key s s' x y n) : s'.positions = s.positions ∧
    ∃ pool', s'.pools.get key = some pool' ∧
      curveAt s.positions key true pool'.sqrtPrice ≤ curveAt s.positions key true pool.sqrtPrice + x +
        n * (slackX * 443637) ∧
      curveAt s.positions key false pool'.sqrtPrice ≤ curveAt s.positions key false pool.sqrtPrice + y := by
  induction h with
  | none => exact ⟨rfl, pool, hp, by simp, by simp⟩
  | @swap s1 x y n env xToY byIn amount limit r ht hs hn ih =>
    obtain ⟨ihp, p1, hp1, ih1, ih2⟩ := ih
    have hcl := trades_clear hc ht
    have hr := clear_reach32 _ hcl
    have hre := (reach32_reach _ hr).1
    obtain ⟨ticks, b1, b2, h1, _, _, _, e⟩ := swap_ok hs
    obtain ⟨⟨hs1, hs2, _⟩, _⟩ := (reach_tiers hre).pools key (by rw [hp1]; rfl)
    have hr' := clear_reach32 _ (Clear.swap hcl hs (hn rfl))
    have hp' : r.1.pools.get key = some r.2.pool := by rw [e]; exact Map.get_insert_self _ _ _
    have hpos : r.1.positions = s1.positions := by rw [e]
    have ha1 := reach_agree _ hre _ _ hp1
    have ha2 := reach_agree _ (reach32_reach _ hr').1 _ _ hp'
    obtain ⟨m1, m2⟩ := swap_moved (reach_wf _ hre) (reach32_ledger _ hr)
      (fun j q hq hk => by have := stored_posIn hr hq; rwa [hk] at this) ⟨hs1, hs2⟩ h1 hp1 ha1 (hn rfl)
      (clear_liqOK _ hcl _ _ hp1) (fun _ => none)
    refine ⟨hpos.trans ihp, r.2.pool, hp', ?_⟩
    unfold world at m1 m2
    rw [curveSum_eq hr ha1, curveSum_eq hr ha2, ihp] at m1 m2
    have sl := slackX_pos
    cases xToY
    · simp only [Bool.false_eq_true, if_false, Bool.not_false] at m1 m2 ⊢
      push_cast
      constructor <;> linarith
    · simp only [if_true, Bool.not_true] at m1 m2 ⊢
      push_cast
      constructor <;> linarith
  | @other s1 x y n env k xToY byIn amount limit r ht hk hs hn ih =>
    obtain ⟨ihp, p1, hp1, ih1⟩ := ih
    obtain ⟨ticks, b1, b2, h1, _, _, _, e⟩ := swap_ok hs
    refine ⟨by rw [e]; exact ihp, p1, ?_, ih1⟩
    rw [e]
    dsimp only
    rw [Map.get_insert_ne _ _ (Ne.symm hk)]
    exact hp1
  | transfers _ _ ih => exact ih

end Verif
