import Verif.Props.Provider
import Verif.Props.Exit
import Verif.Proofs.MoreStep

/-!
# Property C105: a position gains on keeping its tokens only by its fees

Somebody who keeps two tokens and somebody who puts them into a position are compared at the moment the position is
closed, at the price of that moment. But for the fees the provider is never ahead, whatever happened in between. The
other half of C84, where both are counted at the price of the deposit.
-/

namespace Verif
open Service Spec

section
variable {env env' env'' : Env} {s s' s'' : Inv}

/-- the amounts put in, from below -/
theorem le_put {sp : Nat} {pool : Pool} {q : Position} {L x y : Nat} {i : Bool} (ha : TickAgree sp pool)
    (hlt : q.lowerTickIndex < q.upperTickIndex) (hl : Grid sp q.lowerTickIndex)
    (hu : Grid sp q.upperTickIndex)
    (h : calculateAmountDelta pool.currentTickIndex pool.sqrtPrice L true q.upperTickIndex
      q.lowerTickIndex = .ok (x, y, i)) :
    amountX (cutOf pool q) (priceOf q.upperTickIndex) L ≤ x + 435 / 10 ^ 17 ∧
    amountY (priceOf q.lowerTickIndex) (cutOf pool q) L ≤ y := by
  obtain ⟨hx, hy, -, -⟩ := put_le ha hlt hl hu h
  obtain ⟨_, _, c⟩ := cut_bounds ha hlt hl hu
  have hm : 23 * 10 ^ 37 ≤ cutOf pool q * priceOf q.upperTickIndex :=
    le_trans (by norm_num [MIN_SQRT_PRICE]) (Nat.mul_le_mul c (priceOf_ge_min hu.min hu.max))
  have m0 : 0 < MIN_SQRT_PRICE := by norm_num [MIN_SQRT_PRICE]
  constructor
  · have k := (amountX_lt_dxUp (lt_of_lt_of_le m0 c) (lt_of_lt_of_le m0 (priceOf_ge_min hu.min hu.max)) L
      (Nat.div_pos (le_trans (by norm_num) hm) (by positivity))).le
    rw [← hx] at k
    refine k.trans (add_le_add_right ?_ _)
    have hm' : (23 * 10 ^ 37 : ℚ) ≤ ((cutOf pool q * priceOf q.upperTickIndex : Nat) : ℚ) := by exact_mod_cast hm
    rw [div_le_iff₀ (lt_of_lt_of_le (by norm_num) hm')]
    exact le_trans (by norm_num) (mul_le_mul_of_nonneg_left hm' (by norm_num))
  · rw [hy, dyUp_eq_ceil]
    exact Nat.le_ceil _

/-- the amounts taken out, from above -/
theorem got_le {sp : Nat} {pool : Pool} {q : Position} {L x y : Nat} {i : Bool} (ha : TickAgree sp pool)
    (hlt : q.lowerTickIndex < q.upperTickIndex) (hl : Grid sp q.lowerTickIndex)
    (hu : Grid sp q.upperTickIndex)
    (h : calculateAmountDelta pool.currentTickIndex pool.sqrtPrice L false q.upperTickIndex
      q.lowerTickIndex = .ok (x, y, i)) :
    (x : ℚ) ≤ amountX (cutOf pool q) (priceOf q.upperTickIndex) L ∧
    (y : ℚ) ≤ amountY (priceOf q.lowerTickIndex) (cutOf pool q) L := by
  obtain ⟨hx, hy, -, -⟩ := le_got ha hlt hl hu h
  obtain ⟨_, _, c⟩ := cut_bounds ha hlt hl hu
  have m0 : 0 < MIN_SQRT_PRICE := by norm_num [MIN_SQRT_PRICE]
  constructor
  · rw [hx]
    exact dxDown_le_amountX (lt_of_lt_of_le m0 c) (lt_of_lt_of_le m0 (priceOf_ge_min hu.min hu.max)) L
  · rw [hy, dyDown_eq_floor]
    exact Nat.floor_le (by unfold amountY liq; positivity)

/-- a removal pays the tokens of the position and the fees that a claim would have paid -/
theorem remove_claim {i : Nat} {r c : Inv × Nat × Nat} {q : Position} {pool : Pool} (hr : Reach s)
    (hq : s.positions.map.get (env.caller, i) = some q) (hp : s.pools.get q.poolKey = some pool)
    (h : removePosition env s i = .ok r) (hc : claimFee env s i = .ok c) :
    ∃ x y j, calculateAmountDelta pool.currentTickIndex pool.sqrtPrice q.liquidity false q.upperTickIndex
      q.lowerTickIndex = .ok (x, y, j) ∧ r.2.1 = x + c.2.1 ∧ r.2.2 = y + c.2.2 := by
  have hw := reach_wf s hr
  obtain ⟨p, lower, upper, pool', m, ps, b, tm1, tm2, he, hamt, -⟩ := removePosition_full hw.indexed h
  obtain ⟨p', lower', upper', pool'', m', ps', b', he', hamt', -⟩ := claimFee_full hw.indexed hc
  have hg := posGet_ok.1 he.get
  rw [hq] at hg
  cases hg
  have hg := posGet_ok.1 he'.get
  rw [hq] at hg
  cases hg
  have e := he.hpool
  rw [hp] at e
  cases e
  have e := he'.hpool
  rw [hp] at e
  cases e
  have e := he.hlt
  rw [he'.hlt] at e
  cases e
  have e := he.hut
  rw [he'.hut] at e
  cases e
  obtain ⟨j, ha⟩ := he.mod.pool.amounts
  rw [hw.indexed _ _ _ he.hlt, hw.indexed _ _ _ he.hut] at ha
  have hac := (reach_acc s hr).pos _ _ hq
  refine ⟨_, _, j, ha, ?_, ?_⟩
  · rw [hamt, hamt', he.mod.pos.owedX, he'.mod.pos.owedX]
  · rw [hamt, hamt', he.mod.pos.owedY, he'.mod.pos.owedY]

/-- C105. A position made in the state `s` and a position of the same pool, range and liquidity removed in any other
reachable state `s'`: at the price of the pool in `s'`, what the removal pays is worth no more than what was put in
and the fees that a claim would have paid. The error is less than one fifty-thousandth of a unit of Y. -/
theorem C105_hold {key : PoolKey} {lower upper : Int} {L ll lu x y i : Nat} {r : Inv × Position}
    {r' c : Inv × Nat × Nat} {pool' : Pool} {q : Position} (hr : Reach s) (hr' : Reach s')
    (h : createPosition env s key lower upper L ll lu = .ok r)
    (hcost : Cost s r.1 env.caller key x y) (hq : s'.positions.map.get (env'.caller, i) = some q)
    (hk : q.poolKey = key) (hl : q.lowerTickIndex = lower) (hu : q.upperTickIndex = upper) (hL : q.liquidity = L)
    (hp' : s'.pools.get key = some pool') (hc : claimFee env' s' i = .ok c)
    (h' : removePosition env' s' i = .ok r') :
    price pool'.sqrtPrice ^ 2 * r'.2.1 + r'.2.2 ≤
      price pool'.sqrtPrice ^ 2 * (x + c.2.1) + (y + c.2.2) + 1 / 50000 := by
  obtain ⟨pool, hp⟩ : ∃ pool, s.pools.get key = some pool := by
    obtain ⟨pool, _, _, _, _, _, _, he, -⟩ := createPosition_full (reach_wf s hr).indexed h
    exact ⟨_, he.hpool⟩
  obtain ⟨_, h1⟩ := create_amounts hr hp h hcost hl hu
  have hw' := reach_wf s' hr'
  obtain ⟨hok, -⟩ := hw'.pos _ _ hq
  obtain ⟨x', y', _, h2, gx, gy⟩ := remove_claim hr' hq (by rw [hk]; exact hp') h' hc
  have a1 := reach_agree s hr _ _ hp
  have a2 := reach_agree s' hr' _ _ hp'
  have hlt := hok.lt
  have gl := hok.lower
  have gu := hok.upper
  rw [hk] at gl gu
  rw [hL] at h2
  obtain ⟨c1, c2⟩ := le_put a1 hlt gl gu h1
  obtain ⟨d1, d2⟩ := got_le a2 hlt gl gu h2
  obtain ⟨b1, b2, b3⟩ := cut_bounds a2 hlt gl gu
  obtain ⟨b4, b5, -⟩ := cut_bounds a1 hlt gl gu
  have m0 : 0 < MIN_SQRT_PRICE := by norm_num [MIN_SQRT_PRICE]
  have key := hold_curve (L := L) (lt_of_lt_of_le m0 a2.price.1) (lt_of_lt_of_le m0 b3)
    (lt_of_lt_of_le m0 (priceOf_ge_min gl.min gl.max)) b1 b2 b4 b5 (cut_cases a2 gl gu)
  have hP : 0 ≤ price pool'.sqrtPrice ^ 2 := by positivity
  have hP2 : price pool'.sqrtPrice ^ 2 ≤ 43 * 10 ^ 8 := by
    have : price pool'.sqrtPrice ≤ 65536 := by
      unfold price
      rw [div_le_iff₀ (by positivity)]
      have : pool'.sqrtPrice ≤ 65536 * 10 ^ 24 := a2.price.2.trans (by norm_num [MAX_SQRT_PRICE])
      exact_mod_cast this
    have h0 : 0 ≤ price pool'.sqrtPrice := by unfold price; positivity
    nlinarith
  rw [gx, gy]
  push_cast
  have e1 := mul_le_mul_of_nonneg_left d1 hP
  have e2 := mul_le_mul_of_nonneg_left c1 hP
  have e3 : price pool'.sqrtPrice ^ 2 * (435 / 10 ^ 17) ≤ 1 / 50000 :=
    (mul_le_mul_of_nonneg_right hP2 (by norm_num)).trans (by norm_num)
  nlinarith

/-- the price cut to a range grows with the price -/
theorem cut_mono {sp : Nat} {p p' : Pool} {q : Position} (a : TickAgree sp p) (a' : TickAgree sp p')
    (hlt : q.lowerTickIndex < q.upperTickIndex) (hl : Grid sp q.lowerTickIndex) (hu : Grid sp q.upperTickIndex)
    (h : p.sqrtPrice ≤ p'.sqrtPrice) : cutOf p q ≤ cutOf p' q := by
  obtain ⟨b1, b2, -⟩ := cut_bounds a hlt hl hu
  obtain ⟨b4, b5, -⟩ := cut_bounds a' hlt hl hu
  have k1 := cut_cases a hl hu
  have k2 := cut_cases a' hl hu
  omega

theorem dyDown_wider {l c c' : Nat} (L : Nat) (h1 : l ≤ c) (h2 : c ≤ c') : dyDown l c L ≤ dyDown l c' L := by
  rw [dyDown_eq_floor, dyDown_eq_floor]
  refine Nat.floor_le_floor ?_
  unfold amountY price liq
  have e1 : (l : ℚ) ≤ c := by exact_mod_cast h1
  have e2 : (c : ℚ) ≤ c' := by exact_mod_cast h2
  rw [abs_of_nonpos (by rw [← sub_div]; exact div_nonpos_of_nonpos_of_nonneg (by linarith) (by positivity)),
    abs_of_nonpos (by rw [← sub_div]; exact div_nonpos_of_nonpos_of_nonneg (by linarith) (by positivity))]
  gcongr

theorem dxDown_wider {c c' u L : Nat} (h1 : c ≤ c') (h2 : c' ≤ u) (hc : MIN_SQRT_PRICE ≤ c) :
    dxDown c' u L ≤ dxDown c u L := by
  have m0 : 0 < MIN_SQRT_PRICE := by norm_num [MIN_SQRT_PRICE]
  rw [dxDown_def, dxDown_def]
  refine le_trans (Nat.div_le_div_right ?_) (div_anti (cdiv_pos (Nat.mul_pos (lt_of_lt_of_le m0 hc)
    (lt_of_lt_of_le m0 (hc.trans (h1.trans h2)))) (by positivity)) (cdiv_mono (Nat.mul_le_mul_right _ h1)))
  rw [dxNum_def, dxNum_def, absDiff_of_le h2, absDiff_of_le (h1.trans h2)]
  exact Nat.div_le_div_right (Nat.mul_le_mul_right _ (by omega))

/-- C105, what a position is made of: the higher the price, the less X and the more Y a removal pays besides the
fees. -/
theorem C105_mix {i j : Nat} {r c r' c' : Inv × Nat × Nat} {pool pool' : Pool} {q q' : Position} (hr : Reach s)
    (hr' : Reach s') (hq : s.positions.map.get (env.caller, i) = some q)
    (hq' : s'.positions.map.get (env'.caller, j) = some q') (hk : q'.poolKey = q.poolKey)
    (hl : q'.lowerTickIndex = q.lowerTickIndex) (hu : q'.upperTickIndex = q.upperTickIndex)
    (hL : q'.liquidity = q.liquidity) (hp : s.pools.get q.poolKey = some pool)
    (hp' : s'.pools.get q.poolKey = some pool') (hle : pool.sqrtPrice ≤ pool'.sqrtPrice)
    (h : removePosition env s i = .ok r) (hc : claimFee env s i = .ok c)
    (h' : removePosition env' s' j = .ok r') (hc' : claimFee env' s' j = .ok c') :
    r'.2.1 + c.2.1 ≤ r.2.1 + c'.2.1 ∧ r.2.2 + c'.2.2 ≤ r'.2.2 + c.2.2 := by
  obtain ⟨hok, -⟩ := (reach_wf s hr).pos _ _ hq
  obtain ⟨x, y, _, h1, e1, e2⟩ := remove_claim hr hq hp h hc
  obtain ⟨x', y', _, h2, e3, e4⟩ := remove_claim hr' hq' (by rw [hk]; exact hp') h' hc'
  have a1 := reach_agree s hr _ _ hp
  have a2 := reach_agree s' hr' _ _ hp'
  rw [hL, hl, hu] at h2
  obtain ⟨f1, f2, -, -⟩ := le_got a1 hok.lt hok.lower hok.upper h1
  obtain ⟨f3, f4, -, -⟩ := le_got a2 hok.lt hok.lower hok.upper h2
  obtain ⟨b1, b2, b3⟩ := cut_bounds a1 hok.lt hok.lower hok.upper
  obtain ⟨b4, b5, -⟩ := cut_bounds a2 hok.lt hok.lower hok.upper
  have m := cut_mono a1 a2 hok.lt hok.lower hok.upper hle
  have gx := dxDown_wider (L := q.liquidity) m b5 b3
  have gy := dyDown_wider q.liquidity b1 m
  omega
end

/-- the position of the demo of C84: put in at the price 1 for 14988007 of each token, taken out at the price 0.99912,
with the fees of 3960 X: at that price 2024 units more than the tokens alone are worth, but 1932 units less than the
tokens and the fees -/
example :
    let made := runAll Demo.start [(Demo.by_ 3, .createPosition Demo.key (-30) 30 (10 ^ 15) 0 (10 ^ 25))]
    let moved := runAll made [(Demo.by_ 2, .swap Demo.key true (22 * 10 ^ 6) true MIN_SQRT_PRICE)]
    (moved.pools.get Demo.key).map (·.sqrtPrice) = some 999560633128102211391961 ∧
      (removePosition (Demo.by_ 3) made 2).toOption.map (·.2) = some (14988006, 14988006) ∧
      (removePosition (Demo.by_ 3) moved 2).toOption.map (·.2) = some (19387566, 10594338) ∧
      (claimFee (Demo.by_ 3) moved 2).toOption.map (·.2) = some (3960, 0) := by
  decide +kernel

end Verif
