import Verif.Spec.Split
import Verif.Proofs.MoreSwap
import Verif.Proofs.Rounds

/-! # Swaps that end before the next tick, and several of them in a row -/

set_option exponentiation.threshold 1000

namespace Verif
open Service Spec

namespace Split

variable {s s₁ s₂ : Inv} {env : Env} {key : PoolKey} {limit amount b : Nat} {r : CalculateSwapResult} {pool : Pool}

/-! ### the arithmetic -/

/-- where a chain of prices lies above the curve -/
theorem curve_trans {p p1 q K x y : Nat} (hK : 0 < K) (h1 : p * K ≤ p1 * (K + p * x)) (h2 : p1 * K ≤ q * (K + p1 * y)) :
    p * K ≤ q * (K + p * (x + y)) := by
  by_cases h : K ≤ q * y
  · calc p * K ≤ p * (q * y) := Nat.mul_le_mul_left _ h
      _ ≤ _ := by nlinarith [Nat.zero_le (q * K), Nat.zero_le (q * p * x)]
  · push Not at h
    have h3 : p1 * (K - q * y) ≤ q * K := by
      rw [Nat.mul_sub]
      have e : p1 * (q * y) = q * (p1 * y) := by ring
      have e2 : q * (K + p1 * y) = q * K + q * (p1 * y) := by ring
      omega
    have h4 : p * K * (K - q * y) ≤ q * K * (K + p * x) :=
      calc p * K * (K - q * y) ≤ p1 * (K + p * x) * (K - q * y) := Nat.mul_le_mul_right _ h1
        _ = p1 * (K - q * y) * (K + p * x) := by ring
        _ ≤ _ := Nat.mul_le_mul_right _ h3
    have h5 : p * (K - q * y) ≤ q * (K + p * x) := by
      refine Nat.le_of_mul_le_mul_left (?_ : K * _ ≤ K * _) hK
      calc K * (p * (K - q * y)) = p * K * (K - q * y) := by ring
        _ ≤ _ := h4
        _ = _ := by ring
    rw [Nat.mul_sub] at h5
    have e : p * (q * y) = q * (p * y) := by ring
    have e2 : q * (K + p * (x + y)) = q * (K + p * x) + q * (p * y) := by ring
    omega

/-- what is paid in X along a chain of prices -/
theorem pay_trans {p p1 q K o o' : Nat} (h0 : 0 < p1) (hp : p ≤ p1) (hq : p1 ≤ q) (h1 : o * (p * p1) ≤ (p1 - p) * K)
    (h2 : o' * (p1 * q) ≤ (q - p1) * K) : (o + o') * (p * q) ≤ (q - p) * K := by
  refine Nat.le_of_mul_le_mul_left (?_ : p1 * _ ≤ p1 * _) h0
  obtain ⟨u, rfl⟩ := Nat.exists_eq_add_of_le hp
  obtain ⟨v, rfl⟩ := Nat.exists_eq_add_of_le hq
  have e1 : p + u - p = u := by omega
  have e2 : p + u + v - (p + u) = v := by omega
  have e3 : p + u + v - p = u + v := by omega
  rw [e1] at h1
  rw [e2] at h2
  rw [e3]
  calc (p + u) * ((o + o') * (p * (p + u + v))) = o * (p * (p + u)) * (p + u + v) + o' * ((p + u) * (p + u + v)) * p := by ring
    _ ≤ u * K * (p + u + v) + v * K * p := Nat.add_le_add (Nat.mul_le_mul_right _ h1) (Nat.mul_le_mul_right _ h2)
    _ = (p + u) * ((u + v) * K) := by ring

theorem nextX_curve {p L x : Nat} (hL : 0 < L) : p * (L * 10 ^ 19) ≤ nextX true p L x * (L * 10 ^ 19 + p * x) := by
  unfold nextX
  split
  · next h => subst h; simp
  · rw [if_pos rfl]
    have h1 := le_cdiv_mul (p * L) (d := 10 ^ 5) (by norm_num)
    have h2 := le_cdiv_mul (cdiv (p * L) (10 ^ 5) * 10 ^ 24) (d := L * 10 ^ 19 + p * x) (by positivity)
    calc p * (L * 10 ^ 19) = p * L * 10 ^ 19 := by ring
      _ ≤ cdiv (p * L) (10 ^ 5) * 10 ^ 5 * 10 ^ 19 := Nat.mul_le_mul_right _ h1
      _ = cdiv (p * L) (10 ^ 5) * 10 ^ 24 := by ring
      _ ≤ _ := h2

/-- the price of the whole swap is the lowest on the curve -/
theorem nextX_least {p q L x : Nat} (hL : 0 < L) (hd : 10 ^ 5 ∣ p * L) (h : p * (L * 10 ^ 19) ≤ q * (L * 10 ^ 19 + p * x)) :
    nextX true p L x ≤ q := by
  unfold nextX
  split
  · next h0 =>
    subst h0
    rw [Nat.mul_zero, Nat.add_zero] at h
    exact Nat.le_of_mul_le_mul_right h (by positivity)
  · rw [if_pos rfl, cdiv_le_iff (by positivity)]
    obtain ⟨m, hm⟩ := hd
    have e : cdiv (p * L) (10 ^ 5) = m := by
      rw [hm, Nat.mul_comm, cdiv_def]
      omega
    rw [e]
    calc m * 10 ^ 24 = p * L * 10 ^ 19 := by rw [hm]; ring
      _ = p * (L * 10 ^ 19) := by ring
      _ ≤ _ := h

/-- without the condition on the start: by less than one unit and 10^5/L -/
theorem nextX_near {p q L x : Nat} (hL : 0 < L) (h : p * (L * 10 ^ 19) ≤ q * (L * 10 ^ 19 + p * x)) :
    nextX true p L x * L < q * L + L + 10 ^ 5 := by
  unfold nextX
  split
  · next h0 =>
    subst h0
    rw [Nat.mul_zero, Nat.add_zero] at h
    have := Nat.le_of_mul_le_mul_right h (by positivity)
    have := Nat.mul_le_mul_right L this
    omega
  · rw [if_pos rfl]
    have h1 := cdiv_mul_lt (p * L) (d := 10 ^ 5) (by norm_num)
    have h2 := cdiv_mul_lt (cdiv (p * L) (10 ^ 5) * 10 ^ 24) (d := L * 10 ^ 19 + p * x) (by positivity)
    generalize cdiv (cdiv (p * L) (10 ^ 5) * 10 ^ 24) (L * 10 ^ 19 + p * x) = n at h2 ⊢
    generalize cdiv (p * L) (10 ^ 5) = m at h1 h2
    have hK : 0 < L * 10 ^ 19 + p * x := by positivity
    have h3 : n * (L * 10 ^ 19 + p * x) < (q + 1) * (L * 10 ^ 19 + p * x) + 10 ^ 24 :=
      calc n * (L * 10 ^ 19 + p * x) < m * 10 ^ 24 + (L * 10 ^ 19 + p * x) := h2
        _ ≤ (p * L + 10 ^ 5) * 10 ^ 19 + (L * 10 ^ 19 + p * x) := by
            refine Nat.add_le_add_right ?_ _
            calc m * 10 ^ 24 = m * 10 ^ 5 * 10 ^ 19 := by ring
              _ ≤ _ := Nat.mul_le_mul_right _ h1.le
        _ = p * (L * 10 ^ 19) + (L * 10 ^ 19 + p * x) + 10 ^ 24 := by ring
        _ ≤ q * (L * 10 ^ 19 + p * x) + (L * 10 ^ 19 + p * x) + 10 ^ 24 := by omega
        _ = _ := by ring
    by_cases hn : n ≤ q + 1
    · have := Nat.mul_le_mul_right L hn
      have e : (q + 1) * L = q * L + L := by ring
      omega
    · obtain ⟨d, rfl⟩ := Nat.exists_eq_add_of_lt (not_le.1 hn)
      have h4 : (d + 1) * (L * 10 ^ 19) < 10 ^ 24 := by
        have e : (q + 1 + d + 1) * (L * 10 ^ 19 + p * x) =
            (q + 1) * (L * 10 ^ 19 + p * x) + (d + 1) * (L * 10 ^ 19) + (d + 1) * (p * x) := by ring
        omega
      have h5 : (d + 1) * L < 10 ^ 5 := by
        refine Nat.lt_of_mul_lt_mul_right (a := 10 ^ 19) ?_
        calc (d + 1) * L * 10 ^ 19 = (d + 1) * (L * 10 ^ 19) := by ring
          _ < 10 ^ 5 * 10 ^ 19 := by omega
      have e : (q + 1 + d + 1) * L = q * L + L + (d + 1) * L := by ring
      omega

/-! ### one swap that ends before the border -/

/-- what such a swap does -/
structure Short (xToY : Bool) (fee : Nat) (pool : Pool) (amount : Nat) (r : CalculateSwapResult) : Prop where
  liq : 0 < pool.liquidity
  same : r.pool.liquidity = pool.liquidity
  price : r.pool.sqrtPrice = r.targetSqrtPrice
  ticks : r.ticks = []
  amountIn : r.amountIn = amount
  gain : r.amountOut ≠ 0
  next : if xToY then r.targetSqrtPrice = nextX true pool.sqrtPrice pool.liquidity (amount * (10 ^ 12 - fee) / 10 ^ 12)
    else r.targetSqrtPrice = pool.sqrtPrice + amount * (10 ^ 12 - fee) / 10 ^ 12 * 10 ^ 29 / pool.liquidity
  out : r.amountOut = outAmt xToY pool.sqrtPrice r.targetSqrtPrice pool.liquidity

theorem target_border {a : SwapArgs} {target : Nat} {info : Option (Int × Bool)} (hs : Spacing a.key.feeTier.tickSpacing)
    (ha : TickAgree a.key.feeTier.tickSpacing pool) (hb : Border s a.key a.xToY pool.currentTickIndex b)
    (hl : if a.xToY then a.limit ≤ b else b ≤ a.limit) (ht : IterTarget s a pool target info)
    (h : getCloserLimit s.tickmap a.limit a.xToY pool.currentTickIndex a.key.feeTier.tickSpacing a.key = .ok (target, info)) :
    if a.xToY then target ≤ b else b ≤ target := by
  match info, ht, h with
  | none, ht, _ => rw [ht.none rfl]; exact hl
  | some (i, true), ht, _ =>
    obtain ⟨e, hg, hi, hside⟩ := ht.tick i true rfl
    have := hb.ticks i target hi (by rw [e]; exact calculateSqrtPrice_eq hg.2.1 hg.2.2)
    cases hx : a.xToY
    · simp only [hx, Bool.false_eq_true, if_false] at this hside ⊢
      exact this hside
    · simp only [hx, if_true] at this hside ⊢
      exact this hside
  | some (i, false), ht, h =>
    obtain ⟨e, hg, -, -⟩ := ht.tick i false rfl
    have ei := closer_uninit_eq h
    obtain ⟨j, w, hj, hw, hn⟩ := hb.near
    rw [calculateSqrtPrice_eq hj.2.1 hj.2.2] at hw
    cases hw
    obtain ⟨k, hk, hk1, hk2⟩ := grid_coord hs.1 ha.grid
    obtain ⟨m, rfl, hm1, hm2⟩ := grid_coord hs.1 hj
    cases hx : a.xToY
    · simp only [hx, Bool.false_eq_true, if_false] at hn ⊢
      rw [hx, show (!false) = true from rfl, hk, getSearchLimit_up hs.1] at ei
      rw [e]
      refine hn.2.trans (priceOf_le hj.2.1 hg.2.2 ?_)
      have h1 := hn.1
      rw [hk, ← Int.add_mul, mul_le_iff hs.1] at h1
      rw [ei, mul_le_iff hs.1]
      omega
    · simp only [hx, if_true] at hn ⊢
      rw [hx, show (!true) = false from rfl, hk, getSearchLimit_down hs.1] at ei
      rw [e]
      refine le_trans (priceOf_le hg.2.1 hj.2.2 ?_) hn.2
      have h1 := hn.1
      rw [hk, ← Int.sub_mul, mul_le_iff hs.1] at h1
      rw [ei, mul_le_iff hs.1]
      omega

theorem loop_zero {a : SwapArgs} {n : Nat} {st st' : SwapState} (h0 : st.remaining = 0)
    (h : swapLoop s a n st = some (.ok st')) : st' = st := by
  cases n with
  | zero => simp [swapLoop] at h
  | succ n =>
    unfold swapLoop at h
    rw [if_pos h0] at h
    cases h
    rfl

theorem loop_first {a : SwapArgs} {n : Nat} {st st' : SwapState} (h0 : st.remaining ≠ 0)
    (h : swapLoop s a n st = some (.ok st')) : ∃ m st1, swapIter s a st = .ok st1 ∧ swapLoop s a m st1 = some (.ok st') := by
  cases n with
  | zero => simp [swapLoop] at h
  | succ n =>
    unfold swapLoop at h
    rw [if_neg h0] at h
    cases hi : swapIter s a st with
    | error e => rw [hi] at h; cases h
    | ok st1 =>
      rw [hi] at h
      exact ⟨n, st1, rfl, h⟩

theorem short_of {xToY : Bool} {now : Nat} (hr : Reach s) (hp : s.pools.get key = some pool)
    (hb : Border s key xToY pool.currentTickIndex b) (hl : if xToY then limit ≤ b else b ≤ limit)
    (h : calculateSwap s now key xToY amount true limit = .ok r) (he : Before xToY b r.targetSqrtPrice) :
    Short xToY key.feeTier.fee pool amount r := by
  have hw := reach_wf s hr
  have ha := reach_agree s hr _ _ hp
  have hs : Spacing key.feeTier.tickSpacing := by
    have := ((reach_tiers hr).pools key (by rw [hp]; rfl)).1
    exact ⟨this.1, this.2.1⟩
  obtain ⟨p, st, h1, h2, h3, h4, h5, h6, e⟩ := calculateSwap_ok h
  rw [hp] at h1
  cases h1
  set a : SwapArgs := ⟨key, xToY, true, limit, now⟩ with hadef
  have hside : SwapSide a pool.sqrtPrice
      { pool := pool, ticks := [], remaining := amount, totalIn := 0, totalOut := 0, fee := 0 } := by
    refine ⟨ha, ?_, ?_⟩
    · dsimp only; split <;> exact le_rfl
    · show if xToY = true then _ else _
      cases xToY
      · simpa using (h4 rfl).1.le
      · simp only [if_true]; left; exact (h3 rfl).1.le
  obtain ⟨m, st1, hi, hrest⟩ := loop_first (by exact h2) h5
  have hside1 := iter_side hw hs hside h2 hi
  have hon := (loop_onward hw hs hside1 hrest).price
  obtain ⟨target, info, sr, remaining, q, tick, u, hit⟩ := swapIter_ok hi
  have ht := iter_target hw hs ha (side_limit hside h2) hit.limit
  have htb := target_border (a := a) hs ha hb hl ht hit.limit
  have hpr := iterOk_price hit
  have hstep := hit.step
  have hrem := hit.rem
  have hts := ht.side
  have hnt : sr.nextSqrtPrice ≠ target := by
    intro hc
    rw [hpr, hc] at hon
    rw [e] at he
    unfold Before at he
    dsimp only at he
    change if xToY = true then _ else _ at htb
    change if xToY = true then _ else _ at hon
    cases xToY
    · simp only [Bool.false_eq_true, if_false] at he htb hon
      omega
    · simp only [if_true] at he htb hon
      omega
  change computeSwapStep pool.sqrtPrice target pool.liquidity amount true key.feeTier.fee = .ok sr at hstep
  have hL : pool.liquidity ≠ 0 := by
    intro h0
    rw [h0, computeSwapStep_zero] at hstep
    cases hstep
    exact hnt rfl
  have hdone := step_done_in hL hstep hnt
  change if true = true then _ else _ at hrem
  rw [if_pos rfl] at hrem
  dsimp only at hrem
  have hr0 : remaining = 0 := by omega
  have hu := hit.upd
  have hu' : ∃ i, u = ⟨{ { q with sqrtPrice := sr.nextSqrtPrice } with currentTickIndex := i }, tick, 0, remaining, false⟩ := by
    cases hu with
    | inside _ _ => exact ⟨_, rfl⟩
    | cross _ hp => exact absurd hp.symm hnt
    | dust _ hp => exact absurd hp.symm hnt
    | drop _ hp => exact absurd hp.symm hnt
    | done _ hp => exact absurd hp.symm hnt
    | uninit _ hp => exact absurd hp.symm hnt
  obtain ⟨i, rfl⟩ := hu'
  have hres := hit.res
  have est : st = st1 := loop_zero (by rw [hres]; exact hr0) hrest
  have F := computeSwapStep_ok hL hstep
  have hq := (addFee_full hit.fee).2
  have hlq : q.liquidity = pool.liquidity := by rw [hq]
  have hx : decide (pool.sqrtPrice ≥ target) = xToY := by
    rw [e, est] at he
    unfold Before at he
    dsimp only at he
    have hon1 := (iter_onward hw hs hside h2 hi).price
    change if xToY = true then _ else _ at hts
    change if xToY = true then _ else _ at htb
    change if xToY = true then _ else _ at hon1
    dsimp only at hon1
    cases xToY
    · simp only [Bool.false_eq_true, if_false] at he htb hts hon1
      simp only [decide_eq_false_iff_not]
      omega
    · simp only [if_true] at hts
      simpa using hts.2
  have etarget : r.targetSqrtPrice = sr.nextSqrtPrice := by rw [e, est]; exact hpr
  have eout : r.amountOut = sr.amountOut := by
    rw [e, est, hres]
    exact Nat.zero_add _
  refine ⟨Nat.pos_of_ne_zero hL, ?_, by rw [e], ?_, ?_, ?_, ?_, ?_⟩
  · rw [e, est, hres]; exact hlq
  · rw [e, est, hres]
    dsimp only
    cases tick <;> simp
  · rw [e, est, hres]
    show 0 + (sr.amountIn + sr.feeAmount) + 0 = amount
    omega
  · rw [e]; exact h6
  · rw [etarget]
    obtain ⟨_, h7⟩ := F.nextIn rfl
    rcases h7 with ⟨_, h7⟩ | ⟨_, h7⟩
    · exact absurd h7 hnt
    · rw [hx] at h7
      unfold getNextSqrtPriceFromInput at h7
      cases xToY
      · rw [if_neg (by decide)] at h7 ⊢
        exact (getNextSqrtPriceYDown_add_ok h7).1
      · rw [if_pos rfl] at h7 ⊢
        exact (getNextSqrtPriceXUp_add_ok h7).1
  · have := F.outEq
    rw [if_pos rfl, hx] at this
    rw [eout, etarget, this]

/-! ### several swaps -/

theorem short_moves {xToY : Bool} {fee : Nat} (hp : PriceOK pool.sqrtPrice) (h : Short xToY fee pool amount r) :
    if xToY then r.targetSqrtPrice < pool.sqrtPrice else pool.sqrtPrice < r.targetSqrtPrice := by
  have h1 := h.next
  have h2 := h.gain
  rw [h.out] at h2
  have hne : r.targetSqrtPrice ≠ pool.sqrtPrice := by
    intro e
    rw [e] at h2
    unfold outAmt at h2
    rw [dyDown_def, dxDown_def, dxNum_def] at h2
    simp [absDiff] at h2
  cases xToY
  · simp only [Bool.false_eq_true, if_false] at h1 ⊢
    have := Nat.le_add_right pool.sqrtPrice (amount * (10 ^ 12 - fee) / 10 ^ 12 * 10 ^ 29 / pool.liquidity)
    rw [← h1] at this
    omega
  · simp only [if_true] at h1 ⊢
    have := nextX_add_le (L := pool.liquidity) (x := amount * (10 ^ 12 - fee) / 10 ^ 12)
      (le_trans (by norm_num [MIN_SQRT_PRICE]) hp.1 : 10 ^ 12 ≤ pool.sqrtPrice)
    omega

theorem swap_reach {xToY byIn : Bool} (hr : Reach s) {x : Inv × CalculateSwapResult}
    (h : swap env s key xToY amount byIn limit = .ok x) : Reach x.1 := by
  refine Reach.call (env := env) (c := .swap key xToY amount byIn limit) hr ?_
  show (do return (← swap env s key xToY amount byIn limit).1) = _
  rw [h]
  rfl

theorem swap_pool {xToY byIn : Bool} {x : Inv × CalculateSwapResult}
    (h : swap env s key xToY amount byIn limit = .ok x) : x.1.pools.get key = some x.2.pool := by
  obtain ⟨_, _, _, _, _, _, _, e⟩ := swap_ok h
  rw [e]
  dsimp only
  rw [Map.get_insert]
  simp

theorem border_stays {xToY byIn : Bool} {x : Inv × CalculateSwapResult} (hr : Reach s) (hp : s.pools.get key = some pool)
    (hb : Border s key xToY pool.currentTickIndex b) (h : swap env s key xToY amount byIn limit = .ok x)
    (ht : x.2.ticks = [])
    (hm : if xToY then x.2.pool.sqrtPrice < pool.sqrtPrice else pool.sqrtPrice < x.2.pool.sqrtPrice) :
    Border x.1 key xToY x.2.pool.currentTickIndex b := by
  have ha := reach_agree s hr _ _ hp
  have ha1 := reach_agree x.1 (swap_reach hr h) _ _ (swap_pool h)
  have hticks : x.1.ticks = s.ticks := by
    obtain ⟨ticks, _, _, _, h2, _, _, e⟩ := swap_ok h
    rw [ht] at h2
    cases h2
    rw [e]
  have hcur : if xToY then x.2.pool.currentTickIndex ≤ pool.currentTickIndex
      else pool.currentTickIndex ≤ x.2.pool.currentTickIndex := by
    cases xToY
    · simp only [Bool.false_eq_true, if_false] at hm ⊢
      by_contra hc
      push Not at hc
      have h1 := grid_next ha1.grid.1 ha.grid.1 hc
      have h2 := ha1.high (h1.trans ha.grid.2.2)
      have h3 := priceOf_le (by have := ha1.grid.min; omega) ha.grid.2.2 h1
      have h4 := ha.low
      omega
    · simp only [if_true] at hm ⊢
      by_contra hc
      push Not at hc
      have h1 := grid_next ha.grid.1 ha1.grid.1 hc
      have h2 := ha.high (h1.trans ha1.grid.2.2)
      have h3 := priceOf_le (by have := ha.grid.min; omega) ha1.grid.2.2 h1
      have h4 := ha1.low
      omega
  obtain ⟨j, w, hj, hw, hn⟩ := hb.near
  refine ⟨fun i w hi hw => ?_, j, w, hj, hw, ?_⟩
  · rw [hticks] at hi
    have := hb.ticks i w hi hw
    cases xToY
    · simp only [Bool.false_eq_true, if_false] at this hcur ⊢
      intro hc; exact this (by omega)
    · simp only [if_true] at this hcur ⊢
      intro hc; exact this (by omega)
  · cases xToY
    · simp only [Bool.false_eq_true, if_false] at hn hcur ⊢
      exact ⟨by omega, hn.2⟩
    · simp only [if_true] at hn hcur ⊢
      exact ⟨by omega, hn.2⟩

theorem border_carries {xToY : Bool} {x : Inv × CalculateSwapResult} (hr : Reach s) (hp : s.pools.get key = some pool)
    (hb : Border s key xToY pool.currentTickIndex b) (h : swap env s key xToY amount true limit = .ok x)
    (hs : Short xToY key.feeTier.fee pool amount x.2) : Border x.1 key xToY x.2.pool.currentTickIndex b := by
  have hm := short_moves (reach_agree s hr _ _ hp).price hs
  rw [← hs.price] at hm
  exact border_stays hr hp hb h hs.ticks hm

theorem priceNow_eq (hp : s.pools.get key = some pool) : priceNow s key = pool.sqrtPrice := by
  unfold priceNow
  rw [hp]
  rfl

/-- a swap moves the price in its direction -/
theorem swap_onward {xToY byIn : Bool} {x : Inv × CalculateSwapResult} (hr : Reach s)
    (h : swap env s key xToY amount byIn limit = .ok x) :
    if xToY then priceNow x.1 key ≤ priceNow s key else priceNow s key ≤ priceNow x.1 key := by
  have hpool := swap_pool h
  obtain ⟨_, _, _, h, _⟩ := swap_ok h
  obtain ⟨p, st, h1, h2, h3, h4, h5, h6, e⟩ := calculateSwap_ok h
  rw [priceNow_eq hpool, priceNow_eq h1, e]
  have ha := reach_agree s hr _ _ h1
  have hs : Spacing key.feeTier.tickSpacing := by
    have := ((reach_tiers hr).pools key (by rw [h1]; rfl)).1
    exact ⟨this.1, this.2.1⟩
  refine (loop_onward (start := p.sqrtPrice) (reach_wf s hr) hs ⟨ha, ?_, ?_⟩ h5).price
  · dsimp only; split <;> exact le_rfl
  · dsimp only
    cases xToY
    · simpa using (h4 rfl).1.le
    · simp only [if_true]; left; exact (h3 rfl).1.le

theorem inParts_cons {xToY : Bool} {a : Nat} {l : List Nat} {y : Inv × Nat}
    (h : inParts env key xToY limit (a :: l) s = .ok y) :
    ∃ x t, swap env s key xToY a true limit = .ok x ∧ inParts env key xToY limit l x.1 = .ok t ∧
      y = (t.1, x.2.amountOut + t.2) := by
  simp only [inParts, bind_ok_iff, pure_ok_iff] at h
  obtain ⟨x, h1, t, h2, rfl⟩ := h
  exact ⟨x, t, h1, h2, rfl⟩

theorem inParts_onward {xToY : Bool} {l : List Nat} {y : Inv × Nat} (hr : Reach s)
    (h : inParts env key xToY limit l s = .ok y) :
    if xToY then priceNow y.1 key ≤ priceNow s key else priceNow s key ≤ priceNow y.1 key := by
  induction l generalizing s y with
  | nil =>
    simp only [inParts] at h
    cases h
    split <;> exact le_rfl
  | cons a l ih =>
    obtain ⟨x, t, h1, h2, rfl⟩ := inParts_cons h
    have g1 := swap_onward hr h1
    have g2 := ih (swap_reach hr h1) h2
    cases xToY
    · simp only [Bool.false_eq_true, if_false] at g1 g2 ⊢
      exact g1.trans g2
    · simp only [if_true] at g1 g2 ⊢
      exact g2.trans g1

/-- what is left of the parts after the fees -/
def afterFees (fee : Nat) (l : List Nat) : Nat := (l.map (fun a => a * (10 ^ 12 - fee) / 10 ^ 12)).sum

theorem afterFees_le (fee : Nat) (l : List Nat) : afterFees fee l ≤ l.sum * (10 ^ 12 - fee) / 10 ^ 12 := by
  induction l with
  | nil => simp [afterFees]
  | cons a l ih =>
    have e : afterFees fee (a :: l) = a * (10 ^ 12 - fee) / 10 ^ 12 + afterFees fee l := by simp [afterFees]
    rw [e, List.sum_cons, Nat.add_mul]
    exact (Nat.add_le_add_left ih _).trans (Nat.add_div_le_add_div _ _ _)

/-- one part, for the induction -/
theorem part_short {xToY : Bool} {a : Nat} {l : List Nat} {x : Inv × CalculateSwapResult} {t : Inv × Nat} (hr : Reach s)
    (hp : s.pools.get key = some pool) (hb : Border s key xToY pool.currentTickIndex b)
    (hl : if xToY then limit ≤ b else b ≤ limit) (h1 : swap env s key xToY a true limit = .ok x)
    (h2 : inParts env key xToY limit l x.1 = .ok t) (he : Before xToY b (priceNow t.1 key)) :
    Short xToY key.feeTier.fee pool a x.2 := by
  have h3 := h1
  obtain ⟨_, _, _, h, _⟩ := swap_ok h1
  refine short_of hr hp hb hl h ?_
  have g := inParts_onward (swap_reach hr h1) h2
  have e : x.2.targetSqrtPrice = x.2.pool.sqrtPrice := by
    obtain ⟨p, st, _, _, _, _, _, _, e⟩ := calculateSwap_ok h
    rw [e]
  rw [priceNow_eq (swap_pool h1), ← e] at g
  unfold Before at he ⊢
  cases xToY
  · simp only [Bool.false_eq_true, if_false] at g he ⊢
    omega
  · simp only [if_true] at g he ⊢
    omega

theorem parts_down {l : List Nat} {y : Inv × Nat} (hr : Reach s) (hp : s.pools.get key = some pool)
    (hb : Border s key true pool.currentTickIndex b) (hl : limit ≤ b) (h : inParts env key true limit l s = .ok y)
    (he : b < priceNow y.1 key) (hL : 0 < pool.liquidity) :
    priceNow y.1 key ≤ pool.sqrtPrice ∧ y.2 * 10 ^ 29 ≤ (pool.sqrtPrice - priceNow y.1 key) * pool.liquidity ∧
    pool.sqrtPrice * (pool.liquidity * 10 ^ 19) ≤
      priceNow y.1 key * (pool.liquidity * 10 ^ 19 + pool.sqrtPrice * afterFees key.feeTier.fee l) := by
  induction l generalizing s y pool with
  | nil =>
    simp only [inParts] at h
    cases h
    dsimp only
    rw [priceNow_eq hp]
    simp [afterFees]
  | cons a l ih =>
    obtain ⟨x, t, h1, h2, rfl⟩ := inParts_cons h
    have hs := part_short (xToY := true) hr hp hb hl h1 h2 he
    have hlq := hs.same
    have ha := reach_agree s hr _ _ hp
    have hm := short_moves ha.price hs
    obtain ⟨i1, i2, i3⟩ := ih (swap_reach hr h1) (swap_pool h1) (border_carries hr hp hb h1 hs) h2 he (by rw [hlq]; exact hL)
    rw [hlq, hs.price] at i2 i3
    rw [hs.price] at i1
    simp only [if_true] at hm
    dsimp only
    refine ⟨by omega, ?_, ?_⟩
    · have e := hs.out
      rw [outAmt, if_pos rfl, dyDown_def, absDiff_of_ge (by omega)] at e
      have h3 : x.2.amountOut * 10 ^ 29 ≤ (pool.sqrtPrice - x.2.targetSqrtPrice) * pool.liquidity := by
        rw [e]
        exact Nat.div_mul_le_self _ _
      have e2 : pool.sqrtPrice - priceNow t.1 key =
          (pool.sqrtPrice - x.2.targetSqrtPrice) + (x.2.targetSqrtPrice - priceNow t.1 key) := by omega
      rw [e2, Nat.add_mul, Nat.add_mul]
      exact Nat.add_le_add h3 i2
    · have e := hs.next
      rw [if_pos rfl] at e
      have h3 := nextX_curve (p := pool.sqrtPrice) (x := a * (10 ^ 12 - key.feeTier.fee) / 10 ^ 12) hL
      rw [← e] at h3
      have e2 : afterFees key.feeTier.fee (a :: l) = a * (10 ^ 12 - key.feeTier.fee) / 10 ^ 12 + afterFees key.feeTier.fee l := by
        simp [afterFees]
      rw [e2]
      exact curve_trans (by positivity) h3 i3

theorem parts_up {l : List Nat} {y : Inv × Nat} (hr : Reach s) (hp : s.pools.get key = some pool)
    (hb : Border s key false pool.currentTickIndex b) (hl : b ≤ limit) (h : inParts env key false limit l s = .ok y)
    (he : priceNow y.1 key < b) (hL : 0 < pool.liquidity) :
    pool.sqrtPrice ≤ priceNow y.1 key ∧
    (priceNow y.1 key - pool.sqrtPrice) * pool.liquidity ≤ afterFees key.feeTier.fee l * 10 ^ 29 ∧
    y.2 * (pool.sqrtPrice * priceNow y.1 key) ≤ (priceNow y.1 key - pool.sqrtPrice) * (pool.liquidity * 10 ^ 19) := by
  induction l generalizing s y pool with
  | nil =>
    simp only [inParts] at h
    cases h
    dsimp only
    rw [priceNow_eq hp]
    simp [afterFees]
  | cons a l ih =>
    obtain ⟨x, t, h1, h2, rfl⟩ := inParts_cons h
    have hs := part_short (xToY := false) hr hp hb hl h1 h2 he
    have hlq := hs.same
    have ha := reach_agree s hr _ _ hp
    have hm := short_moves ha.price hs
    obtain ⟨i1, i2, i3⟩ := ih (swap_reach hr h1) (swap_pool h1) (border_carries hr hp hb h1 hs) h2 he (by rw [hlq]; exact hL)
    rw [hlq, hs.price] at i2 i3
    rw [hs.price] at i1
    simp only [Bool.false_eq_true, if_false] at hm
    dsimp only
    refine ⟨by omega, ?_, ?_⟩
    · have e := hs.next
      rw [if_neg (by decide)] at e
      have h3 : (x.2.targetSqrtPrice - pool.sqrtPrice) * pool.liquidity ≤ a * (10 ^ 12 - key.feeTier.fee) / 10 ^ 12 * 10 ^ 29 := by
        rw [e, Nat.add_sub_cancel_left]
        exact Nat.div_mul_le_self _ _
      have e2 : afterFees key.feeTier.fee (a :: l) = a * (10 ^ 12 - key.feeTier.fee) / 10 ^ 12 + afterFees key.feeTier.fee l := by
        simp [afterFees]
      have e3 : priceNow t.1 key - pool.sqrtPrice =
          (x.2.targetSqrtPrice - pool.sqrtPrice) + (priceNow t.1 key - x.2.targetSqrtPrice) := by omega
      rw [e2, e3, Nat.add_mul, Nat.add_mul]
      exact Nat.add_le_add h3 i2
    · have e := hs.out
      rw [outAmt, if_neg (by decide), dxDown_def, dxNum_def, absDiff_of_le (by omega)] at e
      refine pay_trans (by have := ha.price.1; unfold MIN_SQRT_PRICE at this; omega) hm.le i1 ?_ i3
      have hc := le_cdiv_mul (pool.sqrtPrice * x.2.targetSqrtPrice) (d := 10 ^ 24) (by norm_num)
      generalize cdiv (pool.sqrtPrice * x.2.targetSqrtPrice) (10 ^ 24) = c at e hc
      have h4 : x.2.amountOut * c ≤ (x.2.targetSqrtPrice - pool.sqrtPrice) * pool.liquidity / 10 ^ 5 := by
        rw [e]; exact Nat.div_mul_le_self _ _
      have h5 := Nat.div_mul_le_self ((x.2.targetSqrtPrice - pool.sqrtPrice) * pool.liquidity) (10 ^ 5)
      calc x.2.amountOut * (pool.sqrtPrice * x.2.targetSqrtPrice) ≤ x.2.amountOut * (c * 10 ^ 24) := Nat.mul_le_mul_left _ hc
        _ = x.2.amountOut * c * 10 ^ 5 * 10 ^ 19 := by ring
        _ ≤ (x.2.targetSqrtPrice - pool.sqrtPrice) * pool.liquidity / 10 ^ 5 * 10 ^ 5 * 10 ^ 19 :=
            Nat.mul_le_mul_right _ (Nat.mul_le_mul_right _ h4)
        _ ≤ (x.2.targetSqrtPrice - pool.sqrtPrice) * pool.liquidity * 10 ^ 19 := Nat.mul_le_mul_right _ h5
        _ = _ := by ring

end Split
end Verif
