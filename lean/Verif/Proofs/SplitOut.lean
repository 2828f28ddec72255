import Verif.Proofs.Split

/-! # Requests for Y that end before the next tick, and several of them in a row -/

set_option exponentiation.threshold 1000

namespace Verif
open Service Spec

namespace Split

variable {s s₁ s₂ : Inv} {env : Env} {key : PoolKey} {limit amount b : Nat} {r : CalculateSwapResult} {pool : Pool}

/-! ### the arithmetic -/

/-- what is charged in X along a falling chain of prices -/
theorem charge_trans {p p1 q K o o' : Nat} (h0 : 0 < p1) (hp : p1 ≤ p) (hq : q ≤ p1) (h1 : (p - p1) * K ≤ o * (p * p1))
    (h2 : (p1 - q) * K ≤ o' * (p1 * q)) : (p - q) * K ≤ (o + o') * (p * q) := by
  refine Nat.le_of_mul_le_mul_left (?_ : p1 * _ ≤ p1 * _) h0
  obtain ⟨u, rfl⟩ := Nat.exists_eq_add_of_le hq
  obtain ⟨v, rfl⟩ := Nat.exists_eq_add_of_le hp
  have e1 : q + u + v - (q + u) = v := by omega
  have e2 : q + u - q = u := by omega
  have e3 : q + u + v - q = u + v := by omega
  rw [e1] at h1
  rw [e2] at h2
  rw [e3]
  calc (q + u) * ((u + v) * K) = v * K * q + u * K * (q + u + v) := by ring
    _ ≤ o * ((q + u + v) * (q + u)) * q + o' * ((q + u) * q) * (q + u + v) :=
        Nat.add_le_add (Nat.mul_le_mul_right _ h1) (Nat.mul_le_mul_right _ h2)
    _ = _ := by ring

/-- a shorter way is charged less -/
theorem charge_less {p q q' K o : Nat} (h0 : 0 < q') (hq : q' ≤ q) (h : (p - q') * K ≤ o * (p * q')) :
    (p - q) * K ≤ o * (p * q) := by
  refine Nat.le_of_mul_le_mul_left (?_ : q' * _ ≤ q' * _) h0
  have h1 : q' * (p - q) ≤ q * (p - q') := by
    rw [Nat.mul_sub, Nat.mul_sub, Nat.mul_comm q q']
    exact Nat.sub_le_sub_right (Nat.mul_le_mul_right _ hq) _
  calc q' * ((p - q) * K) = q' * (p - q) * K := by ring
    _ ≤ q * (p - q') * K := Nat.mul_le_mul_right _ h1
    _ = q * ((p - q') * K) := by ring
    _ ≤ q * (o * (p * q')) := Nat.mul_le_mul_left _ h
    _ = _ := by ring

/-- one charge covers the way but for a hundred-trillionth of a unit -/
theorem charge_one {p q L : Nat} (hq : MIN_SQRT_PRICE ≤ q) (hp : MIN_SQRT_PRICE ≤ p) (hle : q ≤ p) :
    (p - q) * (L * 10 ^ 19 * 10 ^ 14) ≤ (dxUp p q L * 10 ^ 14 + 1) * (p * q) := by
  have hpq : 10 ^ 14 * 10 ^ 24 ≤ p * q :=
    calc 10 ^ 14 * 10 ^ 24 ≤ MIN_SQRT_PRICE * MIN_SQRT_PRICE := by norm_num [MIN_SQRT_PRICE]
      _ ≤ _ := Nat.mul_le_mul hp hq
  have hD : 0 < p * q / 10 ^ 24 := Nat.div_pos (le_trans (by norm_num) hpq) (by norm_num)
  rw [dxUp_def, dxNum_def, absDiff_of_ge hle]
  have h1 := le_cdiv_mul ((p - q) * L / 10 ^ 5) hD
  have h2 := Nat.div_mul_le_self (p * q) (10 ^ 24)
  have h3 : (p - q) * L ≤ (p - q) * L / 10 ^ 5 * 10 ^ 5 + 10 ^ 5 := by omega
  generalize cdiv ((p - q) * L / 10 ^ 5) (p * q / 10 ^ 24) = c at h1 ⊢
  generalize (p - q) * L / 10 ^ 5 = N at h1 h3
  generalize p * q / 10 ^ 24 = D at h1 h2
  calc (p - q) * (L * 10 ^ 19 * 10 ^ 14) = (p - q) * L * (10 ^ 19 * 10 ^ 14) := by ring
    _ ≤ (N * 10 ^ 5 + 10 ^ 5) * (10 ^ 19 * 10 ^ 14) := Nat.mul_le_mul_right _ h3
    _ = N * (10 ^ 24 * 10 ^ 14) + 10 ^ 14 * 10 ^ 24 := by ring
    _ ≤ c * D * (10 ^ 24 * 10 ^ 14) + p * q := Nat.add_le_add (Nat.mul_le_mul_right _ h1) hpq
    _ = c * 10 ^ 14 * (D * 10 ^ 24) + p * q := by ring
    _ ≤ c * 10 ^ 14 * (p * q) + p * q := Nat.add_le_add_right (Nat.mul_le_mul_left _ h2) _
    _ = _ := by ring

/-- and exceeds it by less than a unit and a relative error -/
theorem charge_upper {p q L c : Nat} (hD : 0 < p * q / 10 ^ 24) (hle : q ≤ p) (hc : dxUp p q L = c + 1) :
    c * (p * q) < (p - q) * (L * 10 ^ 19) + (c + 1) * 10 ^ 24 := by
  rw [dxUp_def, dxNum_def, absDiff_of_ge hle] at hc
  have h1 := cdiv_mul_lt ((p - q) * L / 10 ^ 5) hD
  rw [hc] at h1
  have h2 : p * q < (p * q / 10 ^ 24 + 1) * 10 ^ 24 := Nat.lt_mul_of_div_lt (Nat.lt_succ_self _) (by norm_num)
  have h3 := Nat.div_mul_le_self ((p - q) * L) (10 ^ 5)
  generalize (p - q) * L / 10 ^ 5 = N at h1 h3
  generalize p * q / 10 ^ 24 = D at h1 h2
  have h4 : c * D + 1 ≤ N := by
    have e : (c + 1) * D = c * D + D := by ring
    omega
  calc c * (p * q) ≤ c * ((D + 1) * 10 ^ 24) := Nat.mul_le_mul_left _ h2.le
    _ = (c * D) * 10 ^ 24 + c * 10 ^ 24 := by ring
    _ < (c * D + 1) * 10 ^ 24 + (c + 1) * 10 ^ 24 := by
        exact Nat.add_lt_add (Nat.mul_lt_mul_of_pos_right (Nat.lt_succ_self _) (by norm_num))
          (Nat.mul_lt_mul_of_pos_right (Nat.lt_succ_self _) (by norm_num))
    _ ≤ N * 10 ^ 24 + (c + 1) * 10 ^ 24 := Nat.add_le_add_right (Nat.mul_le_mul_right _ h4) _
    _ = N * 10 ^ 5 * 10 ^ 19 + (c + 1) * 10 ^ 24 := by ring
    _ ≤ (p - q) * L * 10 ^ 19 + (c + 1) * 10 ^ 24 := Nat.add_le_add_right (Nat.mul_le_mul_right _ h3) _
    _ = _ := by ring

/-! ### one request that ends before the border -/

/-- what such a request does -/
structure ShortOut (fee : Nat) (pool : Pool) (amount : Nat) (r : CalculateSwapResult) : Prop where
  liq : 0 < pool.liquidity
  same : r.pool.liquidity = pool.liquidity
  price : r.pool.sqrtPrice = r.targetSqrtPrice
  ticks : r.ticks = []
  next : cdiv (amount * 10 ^ 29) pool.liquidity ≤ pool.sqrtPrice ∧
    r.targetSqrtPrice = pool.sqrtPrice - cdiv (amount * 10 ^ 29) pool.liquidity
  moves : r.targetSqrtPrice < pool.sqrtPrice
  den : 0 < pool.sqrtPrice * r.targetSqrtPrice / 10 ^ 24
  cost : r.amountIn = dxUp pool.sqrtPrice r.targetSqrtPrice pool.liquidity +
    cdiv (dxUp pool.sqrtPrice r.targetSqrtPrice pool.liquidity * fee) (10 ^ 12)

theorem shortOut_of {now : Nat} (hr : Reach s) (hp : s.pools.get key = some pool)
    (hb : Border s key true pool.currentTickIndex b) (hl : limit ≤ b)
    (h : calculateSwap s now key true amount false limit = .ok r) (he : b < r.targetSqrtPrice) :
    ShortOut key.feeTier.fee pool amount r := by
  have hw := reach_wf s hr
  have ha := reach_agree s hr _ _ hp
  have hs : Spacing key.feeTier.tickSpacing := by
    have := ((reach_tiers hr).pools key (by rw [hp]; rfl)).1
    exact ⟨this.1, this.2.1⟩
  obtain ⟨p, st, h1, h2, h3, h4, h5, h6, e⟩ := calculateSwap_ok h
  rw [hp] at h1
  cases h1
  set a : SwapArgs := ⟨key, true, false, limit, now⟩ with hadef
  have hside : SwapSide a pool.sqrtPrice
      { pool := pool, ticks := [], remaining := amount, totalIn := 0, totalOut := 0, fee := 0 } := by
    refine ⟨ha, ?_, ?_⟩
    · dsimp only; split <;> exact le_rfl
    · simp only [hadef, if_true]; left; exact (h3 rfl).1.le
  obtain ⟨m, st1, hi, hrest⟩ := loop_first (by exact h2) h5
  have hside1 := iter_side hw hs hside h2 hi
  have hon := (loop_onward hw hs hside1 hrest).price
  obtain ⟨target, info, sr, remaining, q, tick, u, hit⟩ := swapIter_ok hi
  have ht := iter_target hw hs ha (side_limit hside h2) hit.limit
  have htb := target_border (a := a) hs ha hb hl ht hit.limit
  have hpr := iterOk_price hit
  have hstep := hit.step
  have hrem := hit.rem
  have hts := ht.side
  have hnt : sr.nextSqrtPrice ≠ target := by
    intro hc
    rw [hpr, hc] at hon
    rw [e] at he
    dsimp only at he
    simp only [hadef, if_true] at htb hon
    omega
  change computeSwapStep pool.sqrtPrice target pool.liquidity amount false key.feeTier.fee = .ok sr at hstep
  have hL : pool.liquidity ≠ 0 := by
    intro h0
    rw [h0, computeSwapStep_zero] at hstep
    cases hstep
    exact hnt rfl
  simp only [hadef, if_true] at hts
  have hle : target ≤ pool.sqrtPrice := hts.2
  have hx : decide (pool.sqrtPrice ≥ target) = true := by simpa using hle
  have F := computeSwapStep_ok hL hstep
  obtain ⟨n1, n2, -⟩ : cdiv (amount * 10 ^ 29) pool.liquidity ≤ pool.sqrtPrice ∧
      sr.nextSqrtPrice = pool.sqrtPrice - cdiv (amount * 10 ^ 29) pool.liquidity ∧ 0 < pool.liquidity := by
    rcases F.nextOut rfl with ⟨_, h7⟩ | ⟨_, h7⟩
    · exact absurd h7 hnt
    · rw [hx] at h7
      exact getNextSqrtPriceYDown_sub_ok h7
  have hcpos : 0 < cdiv (amount * 10 ^ 29) pool.liquidity := by
    have := le_cdiv_mul (amount * 10 ^ 29) (Nat.pos_of_ne_zero hL)
    rcases Nat.eq_zero_or_pos (cdiv (amount * 10 ^ 29) pool.liquidity) with hz | hz
    · rw [hz, Nat.zero_mul] at this
      have h0 : amount ≠ 0 := h2
      have : 0 < amount * 10 ^ 29 := by positivity
      omega
    · exact hz
  have hout : sr.amountOut = amount := by
    have := F.outEq
    rw [if_neg (by decide), hx, outAmt, if_pos rfl, dyDown_def, absDiff_of_ge (by omega)] at this
    rw [this, min_eq_right]
    rw [Nat.le_div_iff_mul_le (by norm_num)]
    have e2 : pool.sqrtPrice - sr.nextSqrtPrice = cdiv (amount * 10 ^ 29) pool.liquidity := by omega
    rw [e2]
    exact le_cdiv_mul _ (Nat.pos_of_ne_zero hL)
  change if false = true then _ else _ at hrem
  rw [if_neg (by decide)] at hrem
  dsimp only at hrem
  have hr0 : remaining = 0 := by omega
  have hu := hit.upd
  have hu' : ∃ i, u = ⟨{ { q with sqrtPrice := sr.nextSqrtPrice } with currentTickIndex := i }, tick, 0, remaining, false⟩ := by
    cases hu with
    | inside _ _ => exact ⟨_, rfl⟩
    | cross _ hp => exact absurd hp.symm hnt
    | dust _ hp => exact absurd hp.symm hnt
    | drop _ hp => exact absurd hp.symm hnt
    | done _ hp => exact absurd hp.symm hnt
    | uninit _ hp => exact absurd hp.symm hnt
  obtain ⟨i, rfl⟩ := hu'
  have hres := hit.res
  have est : st = st1 := loop_zero (by rw [hres]; exact hr0) hrest
  have hq := (addFee_full hit.fee).2
  have hlq : q.liquidity = pool.liquidity := by rw [hq]
  have etarget : r.targetSqrtPrice = sr.nextSqrtPrice := by rw [e, est]; exact hpr
  refine ⟨Nat.pos_of_ne_zero hL, ?_, by rw [e], ?_, ?_, ?_, ?_, ?_⟩
  · rw [e, est, hres]; exact hlq
  · rw [e, est, hres]
    dsimp only
    cases tick <;> simp
  · rw [etarget]; exact ⟨n1, n2⟩
  · rw [etarget]; omega
  · rw [etarget]; exact F.dPos hle
  · have ef := F.feeEq
    rw [if_neg (by simp)] at ef
    have ei := F.inEq
    rw [hx, inAmt, if_pos rfl] at ei
    rw [etarget, ← ei, ← ef, e, est, hres]
    show 0 + (sr.amountIn + sr.feeAmount) + 0 = _
    omega

/-! ### several requests -/

theorem asked_cons {a : Nat} {l : List Nat} {y : Inv × Nat} (h : askedInParts env key limit (a :: l) s = .ok y) :
    ∃ x t, swap env s key true a false limit = .ok x ∧ askedInParts env key limit l x.1 = .ok t ∧
      y = (t.1, x.2.amountIn + t.2) := by
  simp only [askedInParts, bind_ok_iff, pure_ok_iff] at h
  obtain ⟨x, h1, t, h2, rfl⟩ := h
  exact ⟨x, t, h1, h2, rfl⟩

theorem asked_onward {l : List Nat} {y : Inv × Nat} (hr : Reach s) (h : askedInParts env key limit l s = .ok y) :
    priceNow y.1 key ≤ priceNow s key := by
  induction l generalizing s y with
  | nil =>
    simp only [askedInParts] at h
    cases h
    exact le_rfl
  | cons a l ih =>
    obtain ⟨x, t, h1, h2, rfl⟩ := asked_cons h
    have g1 := swap_onward hr h1
    simp only [if_true] at g1
    exact (ih (swap_reach hr h1) h2).trans g1

/-- one request, for the induction -/
theorem asked_short {a : Nat} {l : List Nat} {x : Inv × CalculateSwapResult} {t : Inv × Nat} (hr : Reach s)
    (hp : s.pools.get key = some pool) (hb : Border s key true pool.currentTickIndex b) (hl : limit ≤ b)
    (h1 : swap env s key true a false limit = .ok x) (h2 : askedInParts env key limit l x.1 = .ok t)
    (he : b < priceNow t.1 key) : ShortOut key.feeTier.fee pool a x.2 := by
  have h3 := h1
  obtain ⟨_, _, _, h, _⟩ := swap_ok h1
  refine shortOut_of hr hp hb hl h ?_
  have g := asked_onward (swap_reach hr h1) h2
  have e : x.2.targetSqrtPrice = x.2.pool.sqrtPrice := by
    obtain ⟨p, st, _, _, _, _, _, _, e⟩ := calculateSwap_ok h
    rw [e]
  rw [priceNow_eq (swap_pool h1), ← e] at g
  omega

theorem fee_sum {c d c' fee : Nat} (h : c' + cdiv (c' * fee) (10 ^ 12) ≤ d) :
    c + c' + cdiv ((c + c') * fee) (10 ^ 12) ≤ c + cdiv (c * fee) (10 ^ 12) + d := by
  have := cdiv_add_le (c * fee) (c' * fee) (d := 10 ^ 12) (by norm_num)
  rw [Nat.add_mul]
  omega

theorem asked_down {l : List Nat} {y : Inv × Nat} (hr : Reach s) (hp : s.pools.get key = some pool)
    (hb : Border s key true pool.currentTickIndex b) (hl : limit ≤ b) (h : askedInParts env key limit l s = .ok y)
    (he : b < priceNow y.1 key) (hL : 0 < pool.liquidity) :
    MIN_SQRT_PRICE ≤ priceNow y.1 key ∧ priceNow y.1 key ≤ pool.sqrtPrice ∧
    l.sum * 10 ^ 29 ≤ (pool.sqrtPrice - priceNow y.1 key) * pool.liquidity ∧
    ∃ c, c + cdiv (c * key.feeTier.fee) (10 ^ 12) ≤ y.2 ∧
      (pool.sqrtPrice - priceNow y.1 key) * (pool.liquidity * 10 ^ 19 * 10 ^ 14) ≤
        (c * 10 ^ 14 + l.length) * (pool.sqrtPrice * priceNow y.1 key) := by
  have ha := reach_agree s hr _ _ hp
  induction l generalizing s y pool with
  | nil =>
    simp only [askedInParts] at h
    cases h
    dsimp only
    rw [priceNow_eq hp]
    refine ⟨ha.price.1, le_rfl, by simp, 0, ?_, by simp⟩
    rw [cdiv_def]
    simp
  | cons a l ih =>
    obtain ⟨x, t, h1, h2, rfl⟩ := asked_cons h
    have hs := asked_short hr hp hb hl h1 h2 he
    have hlq := hs.same
    have hm := hs.moves
    have hr1 := swap_reach hr h1
    have ha1 := reach_agree x.1 hr1 _ _ (swap_pool h1)
    have hb1 := border_stays (xToY := true) hr hp hb h1 hs.ticks (by rw [if_pos rfl, hs.price]; exact hm)
    obtain ⟨i0, i1, i2, c, i3, i4⟩ := ih hr1 (swap_pool h1) hb1 h2 he (by rw [hlq]; exact hL) ha1
    rw [hlq, hs.price] at i2 i4
    rw [hs.price] at i1
    have hx := ha1.price.1
    rw [hs.price] at hx
    dsimp only
    refine ⟨i0, by omega, ?_, dxUp pool.sqrtPrice x.2.targetSqrtPrice pool.liquidity + c, ?_, ?_⟩
    · have e := hs.next
      have h3 := le_cdiv_mul (a * 10 ^ 29) hL
      have e2 : pool.sqrtPrice - priceNow t.1 key =
          cdiv (a * 10 ^ 29) pool.liquidity + (x.2.targetSqrtPrice - priceNow t.1 key) := by omega
      rw [e2, List.sum_cons, Nat.add_mul, Nat.add_mul]
      exact Nat.add_le_add h3 i2
    · rw [hs.cost]
      exact fee_sum i3
    · have h3 := charge_one (L := pool.liquidity) hx ha.price.1 hm.le
      have := charge_trans (by unfold MIN_SQRT_PRICE at hx; omega) hm.le i1 h3 i4
      refine this.trans (le_of_eq ?_)
      rw [List.length_cons]
      ring

end Split
end Verif
