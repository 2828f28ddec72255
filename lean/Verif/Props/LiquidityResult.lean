import Verif.Proofs.LiquidityResult
import Verif.Props.PriceTick
import Verif.Props.PositionCalls

/-!
# C52: liquidity affordable with a token amount; C53: the reported counterpart amounts
-/

set_option exponentiation.threshold 1000

namespace Verif
open Service Spec LiquidityResult

/-- the tick `t` of a pool and its price `p` are on the same side of both ends of the range, where a
price equal to an end may go with a tick on either side of it (C35 gives this for every pool) -/
def Spec.SameSide (t : Int) (p : Nat) (l u : Int) : Prop :=
  (∀ q, calculateSqrtPrice l = .ok q → (t < l → p ≤ q) ∧ (l ≤ t → q ≤ p)) ∧
  (∀ q, calculateSqrtPrice u = .ok q → (t < u → p ≤ q) ∧ (u ≤ t → q ≤ p))

variable {env : Env} {s s' : Inv} {key : PoolKey}

/-- every pool of every history and every range of its grid -/
theorem sameSide_of_reach (hr : Reach s) {p : Pool} (hp : s.pools.get key = some p) {l u : Int}
    (hl : Grid key.feeTier.tickSpacing l) (hu : Grid key.feeTier.tickSpacing u) :
    SameSide p.currentTickIndex p.sqrtPrice l u := by
  have h := reach_agree s hr key p hp
  have side : ∀ {i : Int}, Grid key.feeTier.tickSpacing i → ∀ q, calculateSqrtPrice i = .ok q →
      (p.currentTickIndex < i → p.sqrtPrice ≤ q) ∧ (i ≤ p.currentTickIndex → q ≤ p.sqrtPrice) := by
    intro i hi q hq
    rw [calc_grid hi hq]
    constructor
    · intro hlt
      have h1 := grid_next h.grid.1 hi.1 hlt
      refine le_trans (h.high (le_trans h1 hi.max)) (priceOf_le ?_ hi.max h1)
      have := h.grid.min
      omega
    · intro hle
      exact le_trans (priceOf_le hi.min h.grid.max hle) h.low
  exact ⟨side hl, side hu⟩

private theorem bal_eq (b : Balances) (w t : ActorId) : Spec.bal b w t = balOf b w t := by
  unfold Spec.bal balOf
  cases b.get (w, t) <;> rfl

/-- C52, token X: depositing the liquidity computed from `x` costs at most `x` of token X, whatever the
range, the price and the rounding flag. -/
theorem C52_by_x {x p : Nat} {l u t : Int} {up : Bool} {r : Single} {d : Nat × Nat × Bool}
    (hs : SameSide t p l u) (h : getLiquidityByX x l u p up = .ok r)
    (hd : calculateAmountDelta t p r.l true u l = .ok d) : d.1 ≤ x := by
  obtain ⟨pl, pu, hpl, hpu, h⟩ := getLiquidityByX_ok h
  obtain ⟨h1, h2, h3, -, -⟩ := byX_ok h
  obtain ⟨a, b, i⟩ := d
  obtain ⟨pl', pu', hpl', hpu', -, hx, -, -, -, -, hD⟩ := calculateAmountDelta_ok hd
  rw [hpl] at hpl'; rw [hpu] at hpu'
  cases hpl'; cases hpu'
  have hl := hs.1 pl hpl
  have hu := hs.2 pu hpu
  have hn := hD rfl
  subst hx
  show dxR true _ _ _ ≤ x
  rw [dxR_true]
  unfold clampPrice at hn ⊢
  by_cases c1 : t < l
  · rw [if_pos c1] at hn ⊢
    rw [max_eq_right (hl.1 c1)] at h3
    exact dxUp_liquidityOfX h2 hn h3
  rw [if_neg c1] at hn ⊢
  by_cases c2 : t < u
  · rw [if_pos c2] at hn ⊢
    rw [max_eq_left (hl.2 (by omega))] at h3
    exact dxUp_liquidityOfX h1 hn h3
  · rw [if_neg c2, ← dxR_true, dxR_self]
    exact Nat.zero_le _

/-- C52, token Y. -/
theorem C52_by_y {y p : Nat} {l u t : Int} {up : Bool} {r : Single} {d : Nat × Nat × Bool}
    (hs : SameSide t p l u) (h : getLiquidityByY y l u p up = .ok r)
    (hd : calculateAmountDelta t p r.l true u l = .ok d) : d.2.1 ≤ y := by
  obtain ⟨pl, pu, hpl, hpu, h⟩ := getLiquidityByY_ok h
  obtain ⟨h1, h2, h3, -, -⟩ := byY_ok h
  obtain ⟨a, b, i⟩ := d
  obtain ⟨pl', pu', hpl', hpu', -, -, hy, -⟩ := calculateAmountDelta_ok hd
  rw [hpl] at hpl'; rw [hpu] at hpu'
  cases hpl'; cases hpu'
  have hu := hs.2 pu hpu
  subst hy
  show dyR true _ _ _ ≤ y
  rw [dyR_true]
  unfold clampPrice
  by_cases c1 : t < l
  · rw [if_pos c1, ← dyR_true, dyR_self]
    exact Nat.zero_le _
  rw [if_neg c1]
  by_cases c2 : t < u
  · rw [if_pos c2]
    rw [min_eq_left (hu.1 c2)] at h3
    exact dyUp_liquidityOfY h1 h3
  · rw [if_neg c2]
    rw [min_eq_right (hu.2 (by omega))] at h3
    exact dyUp_liquidityOfY h2 h3

/-- C52, both tokens: depositing the liquidity computed from `x` and `y` costs at most `x` of token X
and at most `y` of token Y. -/
theorem C52_both {x y p : Nat} {l u t : Int} {up : Bool} {r : Both} {d : Nat × Nat × Bool}
    (hs : SameSide t p l u) (h : getLiquidity x y l u p up = .ok r)
    (hd : calculateAmountDelta t p r.l true u l = .ok d) : d.1 ≤ x ∧ d.2.1 ≤ y := by
  obtain ⟨pl, pu, hpl, hpu, h⟩ := getLiquidity_ok h
  obtain ⟨a, b, i⟩ := d
  obtain ⟨pl', pu', hpl', hpu', -, hx, hy, -, -, -, hD⟩ := calculateAmountDelta_ok hd
  rw [hpl] at hpl'; rw [hpu] at hpu'
  cases hpl'; cases hpu'
  have hl := hs.1 pl hpl
  have hu := hs.2 pu hpu
  have hn := hD rfl
  subst hx; subst hy
  show dxR true _ _ _ ≤ x ∧ dyR true _ _ _ ≤ y
  rw [dxR_true, dyR_true]
  rcases h with ⟨hc, q, hq, rfl⟩ | ⟨hc, q, hq, rfl⟩ | ⟨hc1, hc2, qx, qy, hqy, hqx, rfl⟩
  · obtain ⟨h1, h2, h3, -, -⟩ := byY_ok hq
    have c2 : ¬ t < u := fun h => by have := hu.1 h; omega
    have c1 : ¬ t < l := by
      intro h
      have := hl.1 h
      omega
    have ec : clampPrice t l u p pl pu = pu := by unfold clampPrice; rw [if_neg c1, if_neg c2]
    rw [ec]
    rw [min_eq_right hc.le] at h3
    refine ⟨?_, dyUp_liquidityOfY h2 h3⟩
    rw [← dxR_true, dxR_self]
    exact Nat.zero_le _
  · obtain ⟨h1, h2, h3, -, -⟩ := byX_ok hq
    have c1 : t < l := by
      by_contra h
      have := hl.2 (by omega)
      omega
    have ec : clampPrice t l u p pl pu = pl := by unfold clampPrice; rw [if_pos c1]
    rw [ec] at hn ⊢
    rw [max_eq_right hc.le] at h3
    refine ⟨dxUp_liquidityOfX h2 hn h3, ?_⟩
    rw [← dyR_true, dyR_self]
    exact Nat.zero_le _
  · obtain ⟨-, hle, h3, -, -⟩ := byX_ok hqx
    obtain ⟨-, -, h4, -, -⟩ := byY_ok hqy
    rw [max_eq_left hc1] at h3
    rw [min_eq_left hc2] at h4
    have ec : clampPrice t l u p pl pu = p := by
      unfold clampPrice
      by_cases c1 : t < l
      · rw [if_pos c1]; exact le_antisymm hc1 (hl.1 c1)
      rw [if_neg c1]
      by_cases c2 : t < u
      · rw [if_pos c2]
      · rw [if_neg c2]; exact le_antisymm (hu.2 (by omega)) hc2
    rw [ec] at hn ⊢
    exact ⟨le_trans (dxUp_mono (min_le_left _ _)) (dxUp_liquidityOfX hc2 hn h3),
      le_trans (dyUp_mono (min_le_right _ _)) (dyUp_liquidityOfY hc1 h4)⟩

/-- C52 for the pool itself: in every history, creating a position with the liquidity computed from `x`
and `y` at the price of the pool takes at most `x` and `y` from the caller. -/
theorem C52_create {x y : Nat} {l u : Int} {up : Bool} {r : Both} {pool : Pool} {ll lu : Nat}
    {pos : Position} (hr : Reach s) (hp : s.pools.get key = some pool)
    (h : getLiquidity x y l u pool.sqrtPrice up = .ok r)
    (hc : createPosition env s key l u r.l ll lu = .ok (s', pos)) :
    bal s.balances env.caller key.tokenX ≤ bal s'.balances env.caller key.tokenX + x ∧
    bal s.balances env.caller key.tokenY ≤ bal s'.balances env.caller key.tokenY + y := by
  obtain ⟨pool', pl, pu, c, x', y', hp', h1, h2, h3, h4, h5, h6, -⟩ := C39_create hr hc
  have hw := reach_wf s hr
  obtain ⟨pool2, lt, ut, m, b, tm1, tm2, he, e, c1, c2, bx, by_, d1, d2, e2⟩ :=
    createPosition_full hw.indexed hc
  dsimp only at he e
  have hk : 1 ≤ key.feeTier.tickSpacing := ((reach_tiers hr).pools key (by rw [he.hpool]; rfl)).1.1
  obtain ⟨l1, l2, l3, _⟩ := getOrCreate_grid hw hk he.hlt
  obtain ⟨u1, u2, u3, _⟩ := getOrCreate_grid hw hk he.hut
  have hm := he.mod
  obtain ⟨i, hi⟩ := hm.pool.amounts
  rw [u1, l1] at hi
  have hpe : pool2 = pool := by
    have h := he.hpool
    rw [hp] at h
    exact (Option.some.inj h).symm
  subst hpe
  obtain ⟨k1, k2⟩ := C52_both (sameSide_of_reach hr hp h5 h6) h hi
  dsimp only at k1 k2
  have hne := poolKey_ne hr he.hpool
  have hb : s'.balances = by_.1 := by rw [he.res, e2]
  have ex1 := (decrease_bal d1 env.caller key.tokenX).1
  have ex2 := (decrease_bal d2 env.caller key.tokenX).1
  rw [if_pos ⟨rfl, rfl⟩] at ex1
  rw [if_neg (fun e => hne e.2)] at ex2
  have ey1 := (decrease_bal d1 env.caller key.tokenY).1
  have ey2 := (decrease_bal d2 env.caller key.tokenY).1
  rw [if_neg (fun e => hne e.2.symm)] at ey1
  rw [if_pos ⟨rfl, rfl⟩] at ey2
  rw [hb, bal_eq, bal_eq, bal_eq, bal_eq]
  omega

/-- the pool of the demonstration history: 430000 of each token buy this liquidity, of which token X is
the limiting one: it costs 430000 of token X and 286739 of token Y -/
example : (∃ p ∈ Demo.start.pools.get Demo.key, p.sqrtPrice = 10 ^ 24) ∧
    getLiquidity 430000 430000 (-20) 30 (10 ^ 24) true = .ok ⟨644839, 286739, 28689605353448⟩ ∧
    ((createPosition (Demo.by_ 2) Demo.start Demo.key (-20) 30 28689605353448 0 (10 ^ 25)).toOption.map
      (fun r => (bal Demo.start.balances 2 5 - bal r.1.balances 2 5,
        bal Demo.start.balances 2 7 - bal r.1.balances 2 7))) = some (430000, 286739) := by
  decide +kernel

/-- C53, amount of token Y reported by the token X helper when rounding up, for a price inside the
range: at most what the deposit costs, and short of it by at most the width of the range below the
price, in whole units; exact if the liquidity is whole.
(Full statement: never short; refuted by `C53_negation_short`.) -/
theorem C53_reported_y_partial {x p : Nat} {l u t : Int} {r : Single} {d : Nat × Nat × Bool}
    {pl : Nat} (hpl : calculateSqrtPrice l = .ok pl) (hlt : l ≤ t) (htu : t < u)
    (hs : SameSide t p l u) (h : getLiquidityByX x l u p true = .ok r)
    (hd : calculateAmountDelta t p r.l true u l = .ok d) :
    r.amount ≤ d.2.1 ∧ d.2.1 ≤ r.amount + ⌈((p - pl : Nat) : ℚ) / ((10 ^ 24 : Nat) : ℚ)⌉₊ ∧
      (10 ^ 5 ∣ r.l → d.2.1 = r.amount) := by
  obtain ⟨pl', pu, hpl', hpu, h⟩ := getLiquidityByX_ok h
  obtain ⟨h1, h2, h3, -, h4⟩ := byX_ok h
  obtain ⟨a, b, i⟩ := d
  obtain ⟨pl'', pu', hpl'', hpu', -, -, hy, -⟩ := calculateAmountDelta_ok hd
  rw [hpl] at hpl' hpl''; rw [hpu] at hpu'
  cases hpl'; cases hpl''; cases hpu'
  have hp := (hs.1 pl hpl).2 hlt
  have ec : clampPrice t l u p pl pu = p := by
    unfold clampPrice; rw [if_neg (by omega), if_pos htu]
  rw [ec, dyR_true] at hy
  obtain ⟨k1, k2, k3⟩ := dyUp_calculateY hp (h4 hp)
  subst hy
  refine ⟨k1, ?_, k3⟩
  have e := cdiv_eq_ceil (p - pl) (d := 10 ^ 24) (by positivity)
  rw [← e]
  exact k2

/-- C53, amount of token X reported by the token Y helper when rounding up, for a price inside the
range: short of the cost of the deposit by at most `⌊(10^24 + n) / (10^5 n)⌋ + 1` where `n` is the
product of the price and the upper price in units of `10^-24`.
(Full statement: never short; refuted by `C53_negation_short`.) -/
theorem C53_reported_x_partial {y p : Nat} {l u t : Int} {r : Single} {d : Nat × Nat × Bool}
    {pu : Nat} (hpu : calculateSqrtPrice u = .ok pu) (hlt : l ≤ t) (htu : t < u)
    (hs : SameSide t p l u) (hne : p ≠ pu) (h : getLiquidityByY y l u p true = .ok r)
    (hd : calculateAmountDelta t p r.l true u l = .ok d) :
    d.1 ≤ r.amount + ((10 ^ 24 + p * pu / 10 ^ 24) / (10 ^ 5 * (p * pu / 10 ^ 24)) + 1) := by
  obtain ⟨pl, pu', hpl, hpu', h⟩ := getLiquidityByY_ok h
  obtain ⟨h1, h2, h3, -, h4⟩ := byY_ok h
  obtain ⟨a, b, i⟩ := d
  obtain ⟨pl'', pu'', hpl'', hpu'', -, hx, -⟩ := calculateAmountDelta_ok hd
  rw [hpu] at hpu' hpu''; rw [hpl] at hpl''
  cases hpu'; cases hpu''; cases hpl''
  have hp := (hs.2 pu hpu).1 htu
  have ec : clampPrice t l u p pl pu = p := by
    unfold clampPrice; rw [if_neg (by omega), if_pos htu]
  rw [ec, dxR_true] at hx
  subst hx
  exact dxUp_calculateX hp (h4 (by omega))

/-- Both helpers report too little although asked to round up: with a price at tick 200010, 3 units of
token X on the range from -200000 to 220000 buy liquidity that costs 2303297555 of token Y, the helper
reports 2303285509; with a price at tick -219990, 30 units of token Y on the range from -220000 to
-219980 buy liquidity that costs 107332325075 of token X, the helper reports 107332292806. -/
theorem C53_negation_short :
    (∃ p L, calculateSqrtPrice 200010 = .ok p ∧
      getLiquidityByX 3 (-200000) 220000 p true = .ok ⟨L, 2303285509⟩ ∧
      calculateAmountDelta 200010 p L true 220000 (-200000) = .ok (3, 2303297555, true)) ∧
    (∃ p L, calculateSqrtPrice (-219990) = .ok p ∧
      getLiquidityByY 30 (-220000) (-219980) p true = .ok ⟨L, 107332292806⟩ ∧
      calculateAmountDelta (-219990) p L true (-219980) (-220000) = .ok (107332325075, 30, true)) :=
  ⟨⟨22026465909490858000000000000, 10456954688, by decide +kernel⟩,
    ⟨16719245000000000000, 358980495393083, by decide +kernel⟩⟩

/-- The combined helper reports, for the token that is not the limiting one, what the whole offer of
the other token would need, not what the returned liquidity needs: offered 430000 of token X and 4 of
token Y it reports 434322 of token Y, while the returned liquidity costs 4 of each. -/
theorem C53_negation_offered :
    ∃ p, calculateSqrtPrice 100 = .ok p ∧
      getLiquidity 430000 4 80 120 p true = .ok ⟨4, 434322, 398224026⟩ ∧
      calculateAmountDelta 100 p 398224026 true 120 80 = .ok (4, 4, true) :=
  ⟨1005012269622000000000000, by decide +kernel⟩

/-- A price exactly at the lower end of the range makes the combined helper fail (division by zero)
instead of answering with token X alone; at the upper end it fails too. -/
theorem C53_negation_ends :
    ∃ p q, calculateSqrtPrice 80 = .ok p ∧ calculateSqrtPrice 120 = .ok q ∧
      getLiquidity 430000 430000 80 120 p true = .error .panic ∧
      getLiquidity 430000 430000 80 120 q true = .error .panic ∧
      (getLiquidityByX 430000 80 120 p true).toOption.isSome ∧
      (getLiquidityByY 430000 80 120 q true).toOption.isSome :=
  ⟨1004007809888000000000000, 1006017734267000000000000, by decide +kernel⟩

end Verif
