import Verif.Proofs.Split
import Verif.Props.More

/-!
# Property C93: a swap in several parts gains nothing

The same input of a token, once in one swap and once in any number of swaps one after the other. As long as no
initialised tick is reached, the parts do not take the price further than the whole and together pay no more of Y
than the whole when 10^5 divides the product of price and liquidity at the start (as it does at the price of every
tick, `C93_start`). Otherwise they pay more by at most one unit as long as the liquidity is below 10^24. For X the bound
has a relative error, and parts can indeed pay more (`C93_negation`).
-/

set_option exponentiation.threshold 1000

namespace Verif
open Service Spec Split

variable {env : Env} {s s₁ s₂ : Inv} {key : PoolKey} {limit b o : Nat} {r : CalculateSwapResult} {pool : Pool} {l : List Nat}

/-- C93 for X against Y (full statement: without the condition on the start and without the border). -/
theorem C93_sell_x_partial (hr : Reach s) (hp : s.pools.get key = some pool)
    (hb : Border s key true pool.currentTickIndex b) (hl : limit ≤ b)
    (h : swap env s key true l.sum true limit = .ok (s₁, r)) (hend : b < priceNow s₁ key)
    (h' : inParts env key true limit l s = .ok (s₂, o)) (hend' : b < priceNow s₂ key)
    (hstart : 10 ^ 5 ∣ pool.sqrtPrice * pool.liquidity) :
    priceNow s₁ key ≤ priceNow s₂ key ∧ o ≤ r.amountOut := by
  have hs : Short true key.feeTier.fee pool l.sum r := part_short (xToY := true) (l := []) (t := (s₁, 0)) hr hp hb hl h rfl hend
  obtain ⟨g1, g2, g3⟩ := parts_down hr hp hb hl h' hend' hs.liq
  dsimp only at g1 g2 g3
  have e : priceNow s₁ key = r.targetSqrtPrice := by rw [priceNow_eq (swap_pool h)]; exact hs.price
  have hm := short_moves (reach_agree s hr _ _ hp).price hs
  simp only [if_true] at hm
  have hle : priceNow s₁ key ≤ priceNow s₂ key := by
    have en := hs.next
    rw [if_pos rfl] at en
    rw [e, en]
    refine nextX_least hs.liq hstart (g3.trans ?_)
    exact Nat.mul_le_mul_left _ (Nat.add_le_add_left (Nat.mul_le_mul_left _ (afterFees_le _ _)) _)
  refine ⟨hle, ?_⟩
  have eo := hs.out
  rw [outAmt, if_pos rfl, dyDown_def, absDiff_of_ge (by omega)] at eo
  rw [eo, Nat.le_div_iff_mul_le (by norm_num), ← e]
  exact g2.trans (Nat.mul_le_mul_right _ (by omega))

theorem near_sum {u v w w' w'' L : Nat} (g2 : v ≤ w'' - w') (h3 : w'' - w < u) (hn : w < w' + L + 10 ^ 5) (h4 : w' ≤ w'')
    (hL : L + 10 ^ 5 ≤ 10 ^ 29) (h5 : w ≤ w'') : v < u + 10 ^ 29 := by
  omega

/-- C93 for X against Y from any price: the parts pay at most one unit more. -/
theorem C93_sell_x_unit_partial (hr : Reach s) (hp : s.pools.get key = some pool)
    (hb : Border s key true pool.currentTickIndex b) (hl : limit ≤ b)
    (h : swap env s key true l.sum true limit = .ok (s₁, r)) (hend : b < priceNow s₁ key)
    (h' : inParts env key true limit l s = .ok (s₂, o)) (hend' : b < priceNow s₂ key)
    (hL : pool.liquidity + 10 ^ 5 ≤ 10 ^ 29) : o ≤ r.amountOut + 1 := by
  have hs : Short true key.feeTier.fee pool l.sum r := part_short (xToY := true) (l := []) (t := (s₁, 0)) hr hp hb hl h rfl hend
  obtain ⟨g1, g2, g3⟩ := parts_down hr hp hb hl h' hend' hs.liq
  dsimp only at g1 g2 g3
  have e : priceNow s₁ key = r.targetSqrtPrice := by rw [priceNow_eq (swap_pool h)]; exact hs.price
  have hm := short_moves (reach_agree s hr _ _ hp).price hs
  simp only [if_true] at hm
  have hn : r.targetSqrtPrice * pool.liquidity < priceNow s₂ key * pool.liquidity + pool.liquidity + 10 ^ 5 := by
    have en := hs.next
    rw [if_pos rfl] at en
    rw [en]
    refine nextX_near hs.liq (g3.trans ?_)
    exact Nat.mul_le_mul_left _ (Nat.add_le_add_left (Nat.mul_le_mul_left _ (afterFees_le _ _)) _)
  have eo := hs.out
  rw [outAmt, if_pos rfl, dyDown_def, absDiff_of_ge (by omega)] at eo
  have h3 : (pool.sqrtPrice - r.targetSqrtPrice) * pool.liquidity < (r.amountOut + 1) * 10 ^ 29 := by
    rw [eo]
    exact Nat.lt_mul_of_div_lt (Nat.lt_succ_self _) (by norm_num)
  rw [Nat.sub_mul] at g2 h3
  have h4 : priceNow s₂ key * pool.liquidity ≤ pool.sqrtPrice * pool.liquidity := Nat.mul_le_mul_right _ g1
  have h5 : o * 10 ^ 29 < (r.amountOut + 2) * 10 ^ 29 := by
    have e2 : (r.amountOut + 2) * 10 ^ 29 = (r.amountOut + 1) * 10 ^ 29 + 10 ^ 29 := by ring
    rw [e2]
    exact near_sum g2 h3 hn h4 hL (Nat.mul_le_mul_right _ hm.le)
  have := Nat.lt_of_mul_lt_mul_right h5
  omega

/-- C93 for Y against X, up to one unit and a relative error of 10^24 / (p·q), p and q the prices before and after
(full statement: without them; refuted by `C93_negation`). The parts do not take the price further in any case. -/
theorem C93_sell_y_partial (hr : Reach s) (hp : s.pools.get key = some pool)
    (hb : Border s key false pool.currentTickIndex b) (hl : b ≤ limit)
    (h : swap env s key false l.sum true limit = .ok (s₁, r)) (hend : priceNow s₁ key < b)
    (h' : inParts env key false limit l s = .ok (s₂, o)) (hend' : priceNow s₂ key < b) :
    priceNow s₂ key ≤ priceNow s₁ key ∧
    o * (priceNow s key * priceNow s₁ key) < (r.amountOut + 1) * (priceNow s key * priceNow s₁ key + 10 ^ 24) := by
  have hs : Short false key.feeTier.fee pool l.sum r := part_short (xToY := false) (l := []) (t := (s₁, 0)) hr hp hb hl h rfl hend
  obtain ⟨g1, g2, g3⟩ := parts_up hr hp hb hl h' hend' hs.liq
  dsimp only at g1 g2 g3
  have e : priceNow s₁ key = r.targetSqrtPrice := by rw [priceNow_eq (swap_pool h)]; exact hs.price
  have ha := reach_agree s hr _ _ hp
  have hm := short_moves ha.price hs
  simp only [Bool.false_eq_true, if_false] at hm
  have hle : priceNow s₂ key ≤ priceNow s₁ key := by
    have en := hs.next
    rw [if_neg (by decide)] at en
    rw [e, en, ← Nat.sub_le_iff_le_add', Nat.le_div_iff_mul_le hs.liq]
    exact g2.trans (Nat.mul_le_mul_right _ (afterFees_le _ _))
  refine ⟨hle, ?_⟩
  rw [e] at hle
  rw [priceNow_eq hp, e]
  have hp0 : 0 < pool.sqrtPrice := by have := ha.price.1; unfold MIN_SQRT_PRICE at this; omega
  have h3 : o * (pool.sqrtPrice * r.targetSqrtPrice) ≤ (r.targetSqrtPrice - pool.sqrtPrice) * (pool.liquidity * 10 ^ 19) := by
    have := pay_trans (o' := 0) (q := r.targetSqrtPrice) (by omega) g1 hle g3 (by simp)
    simpa using this
  refine lt_of_le_of_lt h3 ?_
  have eo := hs.out
  rw [outAmt, if_neg (by decide), dxDown_def, dxNum_def, absDiff_of_le (by omega)] at eo
  have hc := cdiv_mul_lt (pool.sqrtPrice * r.targetSqrtPrice) (d := 10 ^ 24) (by norm_num)
  have hc0 : 0 < cdiv (pool.sqrtPrice * r.targetSqrtPrice) (10 ^ 24) := by
    have := le_cdiv_mul (pool.sqrtPrice * r.targetSqrtPrice) (d := 10 ^ 24) (by norm_num)
    have h0 : 0 < pool.sqrtPrice * r.targetSqrtPrice := Nat.mul_pos hp0 (by omega)
    rcases Nat.eq_zero_or_pos (cdiv (pool.sqrtPrice * r.targetSqrtPrice) (10 ^ 24)) with hz | hz
    · rw [hz, Nat.zero_mul] at this; omega
    · exact hz
  generalize cdiv (pool.sqrtPrice * r.targetSqrtPrice) (10 ^ 24) = c at eo hc hc0
  generalize (r.targetSqrtPrice - pool.sqrtPrice) = d at eo ⊢
  have h4 : d * pool.liquidity / 10 ^ 5 + 1 ≤ (r.amountOut + 1) * c := by
    rw [eo]
    exact Nat.lt_mul_of_div_lt (Nat.lt_succ_self _) hc0
  have h5 : d * pool.liquidity < (d * pool.liquidity / 10 ^ 5 + 1) * 10 ^ 5 :=
    Nat.lt_mul_of_div_lt (Nat.lt_succ_self _) (by norm_num)
  calc d * (pool.liquidity * 10 ^ 19) = d * pool.liquidity * 10 ^ 19 := by ring
    _ < (d * pool.liquidity / 10 ^ 5 + 1) * 10 ^ 5 * 10 ^ 19 := Nat.mul_lt_mul_of_pos_right h5 (by norm_num)
    _ ≤ (r.amountOut + 1) * c * 10 ^ 5 * 10 ^ 19 := Nat.mul_le_mul_right _ (Nat.mul_le_mul_right _ h4)
    _ = (r.amountOut + 1) * (c * 10 ^ 24) := by ring
    _ ≤ _ := Nat.mul_le_mul_left _ hc.le

/-- C93 for Y against X in units: with a payment that is small against the product of the prices, one unit. -/
theorem C93_sell_y_unit_partial (hr : Reach s) (hp : s.pools.get key = some pool)
    (hb : Border s key false pool.currentTickIndex b) (hl : b ≤ limit)
    (h : swap env s key false l.sum true limit = .ok (s₁, r)) (hend : priceNow s₁ key < b)
    (h' : inParts env key false limit l s = .ok (s₂, o)) (hend' : priceNow s₂ key < b)
    (hsmall : (r.amountOut + 1) * 10 ^ 24 ≤ priceNow s key * priceNow s₁ key) : o ≤ r.amountOut + 1 := by
  have h1 := (C93_sell_y_partial hr hp hb hl h hend h' hend').2
  generalize priceNow s key * priceNow s₁ key = m at h1 hsmall
  have h2 : o * m < (r.amountOut + 2) * m := by
    calc o * m < (r.amountOut + 1) * (m + 10 ^ 24) := h1
      _ = (r.amountOut + 1) * m + (r.amountOut + 1) * 10 ^ 24 := by ring
      _ ≤ (r.amountOut + 1) * m + m := Nat.add_le_add_left hsmall _
      _ = _ := by ring
  have := Nat.lt_of_mul_lt_mul_right h2
  omega

/-- The condition on the start holds at the price of every tick. -/
theorem C93_start {i : Int} {w L : Nat} (h1 : MIN_TICK ≤ i) (h2 : i ≤ MAX_TICK) (h : calculateSqrtPrice i = .ok w) :
    10 ^ 5 ∣ w * L := by
  rw [calculateSqrtPrice_eq h1 h2] at h
  cases h
  refine Dvd.dvd.mul_right ?_ _
  have : (10 ^ 12 : Nat) ∣ priceOf i := by
    unfold priceOf
    split <;> exact Dvd.intro_left _ rfl
  exact dvd_trans (by norm_num) this

namespace SplitDemo

/-- what account 2 gets for several swaps, and the price after them -/
def pays (s : Inv) (key : PoolKey) (xToY : Bool) (l : List Nat) : Option (Nat × Nat) :=
  (inParts (Demo.by_ 2) key xToY (if xToY then MIN_SQRT_PRICE else MAX_SQRT_PRICE) l s).toOption.map
    (fun x => (x.2, priceNow x.1 key))

end SplitDemo

open SplitDemo MoreDemo

/-- C93 is false for Y against X: half and half pay 14085446738 units of X more than the whole. -/
theorem C93_negation : Reach (low (10 ^ 28)) ∧
    pays (low (10 ^ 28)) Demo.key false [500000000000001 + 500000000000001] =
      some (4284357447705707313264118 - 14085446738, 15275026000000000010) ∧
    pays (low (10 ^ 28)) Demo.key false [500000000000001, 500000000000001] =
      some (4284357447705707313264118, 15275026000000000000) :=
  ⟨low_reach _, by decide +kernel⟩

/-- the ticks of the demo -/
theorem demo_ticks {i : Int} (h : (Demo.start.ticks.get (Demo.key, i)).isSome) : i = 10 ∨ i = -10 ∨ i = 20 ∨ i = -20 := by
  obtain ⟨t, ht⟩ := Option.isSome_iff_exists.1 h
  have hm := List.mem_map_of_mem (f := fun e : (PoolKey × Int) × Tick => (e.1.1.feeTier.fee, e.1.2))
    ((Map.get_mem _ _ _).1 ht)
  have hk : Demo.start.ticks.entries.map (fun e : (PoolKey × Int) × Tick => (e.1.1.feeTier.fee, e.1.2)) =
      [(6 * 10 ^ 9, 100), (6 * 10 ^ 9, -100), (10 ^ 9, 10), (10 ^ 9, -10), (10 ^ 9, 20), (10 ^ 9, -20)] := by
    decide +kernel
  rw [hk] at hm
  have : Demo.key.feeTier.fee = 10 ^ 9 := rfl
  simp [this] at hm
  omega

theorem demo_prices : calculateSqrtPrice (-20) = .ok 999000549780000000000000 ∧
    calculateSqrtPrice (-10) = .ok 999500149965000000000000 ∧ calculateSqrtPrice 10 = .ok 1000500100010000000000000 ∧
    calculateSqrtPrice 20 = .ok 1001000450120000000000000 := by
  decide +kernel

/-- the borders of the demo are the ticks -10 and 10 -/
theorem demo_border (xToY : Bool) : Border Demo.start Demo.key xToY 0
    (if xToY then 999500149965000000000000 else 1000500100010000000000000) := by
  obtain ⟨p1, p2, p3, p4⟩ := demo_prices
  refine ⟨fun i w hi hw => ?_, if xToY then -10 else 10,
    if xToY then 999500149965000000000000 else 1000500100010000000000000, ?_, ?_, ?_⟩
  · rcases demo_ticks hi with rfl | rfl | rfl | rfl
    · rw [p3] at hw; cases hw; cases xToY <;> simp
    · rw [p2] at hw; cases hw; cases xToY <;> simp
    · rw [p4] at hw; cases hw; cases xToY <;> simp
    · rw [p1] at hw; cases hw; cases xToY <;> simp
  · have : Demo.key.feeTier.tickSpacing = 10 := rfl
    rw [this]
    cases xToY <;> exact ⟨by decide, by decide, by decide⟩
  · cases xToY
    · exact p3
    · exact p2
  · have : Demo.key.feeTier.tickSpacing = 10 := rfl
    rw [this]
    cases xToY <;> simp

/-- a swap and the same in three parts, in both directions: all end before the borders -/
example :
    ((Demo.start.pools.get Demo.key).map (fun p => (p.sqrtPrice, p.currentTickIndex))) = some (10 ^ 24, 0) ∧
    pays Demo.start Demo.key true [3 * 10 ^ 5] = some (299697, 999992507556137135642512) ∧
    pays Demo.start Demo.key true [10 ^ 5, 10 ^ 5, 10 ^ 5] = some (299696, 999992507556137135642513) ∧
    pays Demo.start Demo.key false [3 * 10 ^ 5] = some (299697, 1000007492500000000000000) ∧
    pays Demo.start Demo.key false [10 ^ 5, 10 ^ 5, 10 ^ 5] = some (299696, 1000007492500000000000000) := by
  decide +kernel

end Verif
