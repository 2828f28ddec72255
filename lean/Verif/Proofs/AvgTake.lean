import Verif.Proofs.AvgOut
import Verif.Spec.Rounds

/-! # The average price of an exact output of X -/

namespace Verif
open Service Spec

/-- an output of X moves the price as far as it should, up to the granularity -/
theorem nextX_out_le {p L x n : Nat} (h : getNextSqrtPriceXUp p L x false = .ok n) :
    p ≤ n ∧ amountY p n L ≤ price n ^ 2 * x + grain L := by
  obtain ⟨e, -, hx⟩ := getNextSqrtPriceXUp_sub_ok h
  have hpn : p ≤ n := by rw [e]; exact le_nextX_sub hx
  refine ⟨hpn, ?_⟩
  by_cases h0 : x = 0
  · have : n = p := by rw [e, nextX, if_pos h0]
    rw [this, amountY_eq, absDiff_of_ge le_rfl, h0]
    have := (grain_pos L).le
    simp
    exact this
  have hd := hx.resolve_left h0
  rw [nextX, if_neg h0] at e
  simp only [Bool.false_eq_true, if_false] at e
  rcases Nat.eq_zero_or_pos n with hn0 | hn0
  · have : p = 0 := by omega
    rw [hn0, this, amountY_eq, absDiff_of_ge le_rfl]
    have := (grain_pos L).le
    unfold price
    simp
    exact this
  have h1 : n - 1 < cdiv (cdiv (p * L) (10 ^ 5) * 10 ^ 24) (L * 10 ^ 19 - p * x) := by omega
  rw [lt_cdiv_iff (by omega)] at h1
  have h2 := cdiv_mul_lt (p * L) (d := 10 ^ 5) (by positivity)
  clear e
  generalize cdiv (p * L) (10 ^ 5) = c at *
  obtain ⟨m, rfl⟩ : ∃ m, n = m + 1 := ⟨n - 1, by omega⟩
  obtain ⟨D, hD⟩ : ∃ D, L * 10 ^ 19 = p * x + D := ⟨L * 10 ^ 19 - p * x, by omega⟩
  rw [hD, Nat.add_sub_cancel_left, Nat.add_sub_cancel] at h1
  rw [amountY_eq, absDiff_of_le hpn]
  have q1 : (m : ℚ) * D < c * 10 ^ 24 := by exact_mod_cast h1
  have q2 : (c : ℚ) * 10 ^ 5 < p * L + 10 ^ 5 := by exact_mod_cast h2
  have q3 : (L : ℚ) * 10 ^ 19 = p * x + D := by exact_mod_cast hD
  have q4 : (p : ℚ) ≤ m + 1 := by exact_mod_cast hpn
  have p0 : (0 : ℚ) ≤ p := Nat.cast_nonneg _
  have x0 : (0 : ℚ) ≤ x := Nat.cast_nonneg _
  have L0 : (0 : ℚ) ≤ L := Nat.cast_nonneg _
  have m0 : (0 : ℚ) ≤ m := Nat.cast_nonneg _
  have q5 : (m : ℚ) * (L * 10 ^ 19) < m * (p * x) + p * L * 10 ^ 19 + 10 ^ 24 := by
    rw [q3]
    have : (c : ℚ) * 10 ^ 24 < p * L * 10 ^ 19 + 10 ^ 24 := by linarith
    rw [q3] at *
    nlinarith
  have q6 : (m : ℚ) * (p * x) ≤ (m + 1) * ((m + 1) * x) :=
    mul_le_mul (by linarith) (mul_le_mul_of_nonneg_right q4 x0) (by positivity) (by positivity)
  rw [Nat.cast_mul, Nat.cast_sub hpn]
  unfold grain liq price
  push_cast
  rw [div_le_iff₀ (by positivity)]
  have e1 : (((m : ℚ) + 1) / 10 ^ 24) ^ 2 * x = (m + 1) * ((m + 1) * x) / 10 ^ 48 := by ring
  rw [e1]
  generalize ((m : ℚ) + 1) * ((m + 1) * x) = Q at *
  nlinarith

/-- a step from Y for a given output of X -/
theorem step_take_y {cur target L amount fee : Nat} {r : SwapResult} (hc : PriceOK cur)
    (hn : PriceOK r.nextSqrtPrice) (hlt : cur < target) (hL : L ≠ 0) (hf : fee ≤ 10 ^ 12)
    (hnc : cur ≤ r.nextSqrtPrice) (h : computeSwapStep cur target L amount false fee = .ok r) :
    (1 - pct fee) * ((r.amountIn : ℚ) + r.feeAmount) ≤
      price r.nextSqrtPrice ^ 2 * ((1 + relX) * (r.amountOut + 1)) + 2 +
        (if r.amountOut = amount then grain L else 0) := by
  have F := computeSwapStep_ok hL h
  have hd : decide (cur ≥ target) = false := decide_eq_false (by omega)
  have pos : ∀ {q}, PriceOK q → 0 < q := fun h => lt_of_lt_of_le (by norm_num [MIN_SQRT_PRICE]) h.1
  have hfe := F.feeEq
  rw [if_neg (by simp)] at hfe
  have hin := F.inEq
  rw [hd] at hin
  unfold inAmt at hin
  rw [if_neg (by decide)] at hin
  have h1 := dyUp_le cur r.nextSqrtPrice L
  rw [← hin] at h1
  have h2 := rate_of_in hf hfe
  have ho := F.outEq
  rw [if_neg (by decide), hd] at ho
  have hno := F.nextOut rfl
  rw [hd] at hno
  unfold outAmt at ho hno
  simp only [Bool.false_eq_true, if_false] at ho hno
  have g0 := (grain_pos L).le
  have rx := relX_pos
  have sq : 0 ≤ price r.nextSqrtPrice ^ 2 := sq_nonneg _
  have full : r.amountOut = dxDown cur r.nextSqrtPrice L → amountY cur r.nextSqrtPrice L ≤
      price r.nextSqrtPrice ^ 2 * ((1 + relX) * (r.amountOut + 1)) := by
    intro e
    rw [amounts_prop (pos hc) (pos hn), e]
    have h3 := le_dxDown (L := L) (prod_ge hc hn)
    have h4 := price_le hnc
    have h5 := price_pos (pos hc)
    refine mul_le_mul ?_ h3 (amountX_nonneg _ _ _) sq
    nlinarith
  have hY : amountY cur r.nextSqrtPrice L ≤ price r.nextSqrtPrice ^ 2 * ((1 + relX) * (r.amountOut + 1)) +
      (if r.amountOut = amount then grain L else 0) := by
    have gi : 0 ≤ (if r.amountOut = amount then grain L else 0) := by split <;> linarith
    rcases hno with ⟨h3, h4⟩ | ⟨h3, h4⟩
    · rw [h4, min_eq_left h3] at ho
      have := full (by rw [h4]; exact ho)
      linarith
    · unfold getNextSqrtPriceFromOutput at h4
      rw [if_neg (by decide)] at h4
      have h5 := (nextX_out_le h4).2
      rcases Nat.le_total (dxDown cur r.nextSqrtPrice L) amount with h6 | h6
      · rw [min_eq_left h6] at ho
        have := full ho
        linarith
      · rw [min_eq_right h6] at ho
        rw [if_pos ho]
        rw [← ho] at h5
        have h7 : (r.amountOut : ℚ) ≤ (1 + relX) * (r.amountOut + 1) := by
          have : (0 : ℚ) ≤ r.amountOut := Nat.cast_nonneg _
          nlinarith
        have := mul_le_mul_of_nonneg_left h7 sq
        linarith
  linarith

variable {s : Inv} {a : SwapArgs} {st st' : SwapState} {start : Nat}

/-- the granularity counts in the last round only -/
def takeGrain (st : SwapState) : ℚ :=
  if st.remaining = 0 then grain (st.pool.liquidity + (st.ticks.getLast?.map (·.liquidityChange)).getD 0) else 0

theorem grain_mono {L M : Nat} (h : L ≤ M) : grain L ≤ grain M := by
  unfold grain liq
  have : (L : ℚ) ≤ M := by exact_mod_cast h
  linarith

theorem takeGrain_nonneg (st : SwapState) : 0 ≤ takeGrain st := by
  unfold takeGrain
  split
  · exact (grain_pos _).le
  · exact le_rfl

/-- one round from Y for an output of X -/
theorem iter_take_y (hw : StoreWF s) (hs : Spacing a.key.feeTier.tickSpacing) (hf : a.key.feeTier.fee ≤ 10 ^ 12)
    (hsd : SwapSide a start st) (h0 : st.remaining ≠ 0) (hb : a.byIn = false) (hx : a.xToY = false)
    (hi : swapIter s a st = .ok st') :
    st.pool.sqrtPrice ≤ st'.pool.sqrtPrice ∧
      (1 - pct a.key.feeTier.fee) * ((st'.totalIn : ℚ) - st.totalIn) ≤
        price st'.pool.sqrtPrice ^ 2 * ((1 + relX) * ((st'.totalOut : ℚ) - st.totalOut + 1)) + 2 + takeGrain st' := by
  have hsd' := iter_side hw hs hsd h0 hi
  have hp := hsd.agree.price
  have hp' := hsd'.agree.price
  obtain ⟨target, info, r, remaining, pool, tick, u, h⟩ := swapIter_ok hi
  have hl : if a.xToY then a.limit ≤ st.pool.sqrtPrice else st.pool.sqrtPrice ≤ a.limit := by
    have := hsd.limit
    simp only [hx, Bool.false_eq_true, if_false] at this ⊢
    exact this
  have ht := iter_target hw hs hsd.agree hl h.limit
  have hn := iter_next (remaining := remaining) hp ht h.step h.rem
  have ep := iterOk_price h
  have hpl : pool.liquidity = st.pool.liquidity := by rw [(addFee_full h.fee).2]
  have hts := ht.side
  have hns := hn.side
  simp only [hx, Bool.false_eq_true, if_false] at hts hns
  have hu0 : u.total = 0 := by
    cases h.upd with
    | dust _ _ _ _ _ hb' => rw [hb] at hb'; cases hb'
    | inside => rfl
    | cross => rfl
    | drop => rfl
    | done => rfl
    | uninit => rfl
  have ein : (st'.totalIn : ℚ) - st.totalIn = (r.amountIn : ℚ) + r.feeAmount := by
    rw [h.res, hu0]; push_cast; ring
  have eout : (st'.totalOut : ℚ) - st.totalOut = r.amountOut := by
    rw [h.res]; push_cast; ring
  rw [ein, eout, ep]
  refine ⟨hns.1, ?_⟩
  have hg := takeGrain_nonneg st'
  have rx := relX_pos
  by_cases hL : st.pool.liquidity = 0
  · have := h.step
    rw [hL, computeSwapStep_zero] at this
    cases this
    have : 0 ≤ price target ^ 2 * ((1 + relX) * 1) := by positivity
    simp at this ⊢
    linarith
  · have hst := h.step
    rw [hb] at hst
    have o0 : (0 : ℚ) ≤ r.amountOut := Nat.cast_nonneg _
    rcases Nat.lt_or_ge st.pool.sqrtPrice target with hlt | hge
    · refine (step_take_y hp (by rw [← ep]; exact hp') hlt hL hf hns.1 hst).trans (add_le_add le_rfl ?_)
      have hre := h.rem
      simp only [hb, Bool.false_eq_true, if_false] at hre
      split
      · next e =>
        have hrz : remaining = 0 := by omega
        have hres := h.res
        have main : st'.remaining = 0 ∧
            st.pool.liquidity ≤ st'.pool.liquidity + (st'.ticks.getLast?.map (·.liquidityChange)).getD 0 := by
          rw [hres]
          cases h.upd with
          | inside => exact ⟨hrz, by dsimp only; omega⟩
          | @cross t t' pool' enough ht hp he hc hcr =>
            refine ⟨hrz, ?_⟩
            obtain ⟨c1, -, c3⟩ := cross_full hcr
            dsimp only at c3 ⊢
            rw [if_pos rfl]
            simp only [List.getLast?_append, List.getLast?_singleton, Option.some_or, Option.map_some, Option.getD_some]
            rw [c1]
            dsimp only
            split at c3 <;> omega
          | dust _ _ _ _ _ hb' => rw [hb] at hb'; cases hb'
          | drop _ _ _ _ hr => exact absurd hrz hr
          | done => exact ⟨rfl, by dsimp only; omega⟩
          | uninit => exact ⟨hrz, by dsimp only; omega⟩
        unfold takeGrain
        rw [if_pos main.1]
        exact grain_mono main.2
      · exact hg
    · have e1 : target = st.pool.sqrtPrice := le_antisymm hge hts.1
      have e2 : r.nextSqrtPrice = st.pool.sqrtPrice := by omega
      rw [e1] at hst
      obtain ⟨z1, z2⟩ := step_same hL hst e2
      rw [z1, z2]
      have : 0 ≤ price r.nextSqrtPrice ^ 2 * ((1 + relX) * (r.amountOut + 1)) := by positivity
      simp at this ⊢
      linarith

theorem made_prefix {st0 st1 st2 : SwapState} {n m : Nat} (h1 : Made s a n st0 st1) (h2 : Made s a m st0 st2)
    (hle : n ≤ m) : (n = m ∧ st1 = st2) ∨ (n < m ∧ st1.remaining ≠ 0) := by
  induction h2 generalizing n st1 with
  | none st =>
    have : n = 0 := by omega
    subst this
    cases h1
    exact .inl ⟨rfl, rfl⟩
  | @round m st st' st'' h2 hne hi ih =>
    rcases Nat.lt_or_ge m n with hlt | hge
    · have : n = m + 1 := by omega
      subst this
      cases h1 with
      | round h1 hne' hi' =>
        rcases ih h1 (le_refl _) with ⟨_, rfl⟩ | ⟨hc, _⟩
        · rw [hi] at hi'
          cases hi'
          exact .inl ⟨rfl, rfl⟩
        · omega
    · rcases ih h1 hge with ⟨rfl, rfl⟩ | ⟨hc, h⟩
      · exact .inr ⟨by omega, hne⟩
      · exact .inr ⟨by omega, h⟩

/-- the loop is deterministic -/
theorem made_unique {st0 st1 st2 : SwapState} {n m : Nat} (h1 : Made s a n st0 st1) (h2 : Made s a m st0 st2)
    (e1 : st1.remaining = 0) (e2 : st2.remaining = 0) : n = m ∧ st1 = st2 := by
  rcases Nat.le_total n m with h | h
  · rcases made_prefix h1 h2 h with h | ⟨_, h⟩
    · exact h
    · exact absurd e1 h
  · rcases made_prefix h2 h1 h with ⟨rfl, rfl⟩ | ⟨_, h⟩
    · exact ⟨rfl, rfl⟩
    · exact absurd e2 h

variable {key : PoolKey} {now amount limit : Nat} {r : CalculateSwapResult} {pool : Pool}

theorem took_unique {n m : Nat} (h1 : TookRounds s a pool amount r n) (h2 : TookRounds s a pool amount r m) : n = m := by
  obtain ⟨_, h1, e1, _⟩ := h1
  obtain ⟨_, h2, e2, _⟩ := h2
  exact (made_unique h1 h2 e1 e2).1

/-- every swap takes some number of rounds, bounded by the ticks passed but for exact outputs of X -/
theorem swap_took (hw : StoreWF s) (hs : Spacing key.feeTier.tickSpacing) {xToY byIn : Bool}
    (h : calculateSwap s now key xToY amount byIn limit = .ok r) (hp : s.pools.get key = some pool)
    (hsd : SwapSide ⟨key, xToY, byIn, limit, now⟩ pool.sqrtPrice
      { pool := pool, ticks := [], remaining := amount, totalIn := 0, totalOut := 0, fee := 0 }) :
    ∃ n, TookRounds s ⟨key, xToY, byIn, limit, now⟩ pool amount r n ∧
      (byIn = true ∨ xToY = true → n ≤ rounds pool r key.feeTier.tickSpacing) := by
  obtain ⟨st, ⟨_, n, hm, hn⟩, h0, _, e⟩ := calculateSwap_ind
    (P := fun st => SwapSide ⟨key, xToY, byIn, limit, now⟩ pool.sqrtPrice st ∧ ∃ n,
      Made s ⟨key, xToY, byIn, limit, now⟩ n ⟨pool, [], amount, 0, 0, 0⟩ st ∧
      (byIn = true ∨ xToY = true → RoundsOk ⟨key, xToY, byIn, limit, now⟩ pool.currentTickIndex n st)) h hp
    (by
      refine ⟨hsd, 0, .none _, fun _ => ?_⟩
      unfold RoundsOk walk
      simp only [sub_self, ite_self]
      split <;> simp <;> positivity)
    (by
      rintro st st' ⟨hsd, n, hm, hn⟩ h0 hi
      exact ⟨iter_side hw hs hsd h0 hi, n + 1, .round hm h0 hi, fun hb => rounds_step hw hs hsd h0 hi hb (hn hb)⟩)
  subst e
  exact ⟨n, ⟨st, hm, h0, rfl⟩, fun hb => rounds_le hs.1 h0 (hn hb)⟩

/-- from Y for an output of X -/
theorem swap_avg_take (hw : StoreWF s) (hs : Spacing key.feeTier.tickSpacing) (hf : key.feeTier.fee ≤ 10 ^ 12)
    (h : calculateSwap s now key false amount false limit = .ok r) (hp : s.pools.get key = some pool)
    (hsd : SwapSide ⟨key, false, false, limit, now⟩ pool.sqrtPrice
      { pool := pool, ticks := [], remaining := amount, totalIn := 0, totalOut := 0, fee := 0 }) :
    ∃ n : Nat, TookRounds s ⟨key, false, false, limit, now⟩ pool amount r n ∧
      (1 - pct key.feeTier.fee) * r.amountIn ≤
        price r.pool.sqrtPrice ^ 2 * ((1 + relX) * (r.amountOut + n)) + 2 * n + grain (endLiq r) := by
  obtain ⟨st, ⟨hsd', n, hn, w1⟩, h0, _, e⟩ := calculateSwap_ind
    (P := fun st => SwapSide ⟨key, false, false, limit, now⟩ pool.sqrtPrice st ∧ ∃ (n : Nat),
      Made s ⟨key, false, false, limit, now⟩ n ⟨pool, [], amount, 0, 0, 0⟩ st ∧
      (1 - pct key.feeTier.fee) * (st.totalIn : ℚ) ≤
        price st.pool.sqrtPrice ^ 2 * ((1 + relX) * ((st.totalOut : ℚ) + n)) + 2 * n + takeGrain st) h hp
    (by
      refine ⟨hsd, 0, .none _, ?_⟩
      have := takeGrain_nonneg
        { pool := pool, ticks := [], remaining := amount, totalIn := 0, totalOut := 0, fee := 0 }
      simpa using this)
    (by
      rintro st st' ⟨hsd, n, hn, w1⟩ h0 hi
      obtain ⟨hle, v1⟩ := iter_take_y hw hs hf hsd h0 rfl rfl hi
      refine ⟨iter_side hw hs hsd h0 hi, n + 1, .round hn h0 hi, ?_⟩
      have : takeGrain st = 0 := by unfold takeGrain; rw [if_neg h0]
      rw [this] at w1
      have o : (0 : ℚ) ≤ (1 + relX) * ((st.totalOut : ℚ) + n) := by
        have := relX_pos
        positivity
      have h3 := mul_le_mul_of_nonneg_right (sq_price_le hle) o
      dsimp only at v1
      push_cast
      linarith)
  subst e
  refine ⟨n, ⟨st, hn, h0, rfl⟩, ?_⟩
  unfold takeGrain at w1
  rw [if_pos h0] at w1
  exact w1

end Verif
