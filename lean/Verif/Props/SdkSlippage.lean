import Verif.Model.SdkUtils
import Verif.Props.PositionCalls
import Verif.Proofs.TickAgree
import Verif.Spec.Demo

/-!
# Property C62: the amounts announced with slippage suffice

The SDK announces amounts for a new position (`calculateTokenAmountsWithSlippage`) and sends the request with the
price limits that belong to the same price and tolerance.
-/

set_option exponentiation.threshold 1000

namespace Verif
open Service Spec

variable {env : Env} {s s' : Inv}

private theorem absDiff_le {a b : Nat} (h : a ≤ b) : absDiff a b = b - a := by
  unfold absDiff; split <;> omega

/-- moving the lower price down needs at least as much of token X -/
private theorem dxUp_anti {a c b L : Nat} (h1 : a ≤ c) (h2 : c ≤ b) (hD : 0 < a * b / 10 ^ 24) :
    dxUp c b L ≤ dxUp a b L := by
  have hN : dxNum c b L ≤ dxNum a b L := by
    rw [dxNum_def, dxNum_def, absDiff_le h2, absDiff_le (le_trans h1 h2)]
    exact Nat.div_le_div_right (Nat.mul_le_mul_right _ (by omega))
  have hd : a * b / 10 ^ 24 ≤ c * b / 10 ^ 24 := Nat.div_le_div_right (Nat.mul_le_mul_right _ h1)
  rw [dxUp_def, dxUp_def, cdiv_le_iff (by omega)]
  calc dxNum c b L ≤ dxNum a b L := hN
    _ ≤ cdiv (dxNum a b L) (a * b / 10 ^ 24) * (a * b / 10 ^ 24) := le_cdiv_mul _ hD
    _ ≤ _ := Nat.mul_le_mul_left _ hd

/-- moving the upper price up needs at least as much of token Y -/
private theorem dyUp_mono {a c b L : Nat} (h1 : a ≤ c) (h2 : c ≤ b) : dyUp a c L ≤ dyUp a b L := by
  rw [dyUp_def, dyUp_def, absDiff_le h1, absDiff_le (le_trans h1 h2)]
  exact cdiv_mono (Nat.mul_le_mul_right _ (by omega))

/-- C62 where it is true: if the tick of the price is in the range, or the tolerance does not lead into the range,
then a position created with the limits of the SDK, at whatever price the pool has by then, takes at most the
announced amounts. The full claim has no condition on the tick; see `C62_negation`. -/
theorem C62_suffices_partial (hr : Reach s) {key : PoolKey} {lower upper t : Int} {delta p slippage lo hi X Y : Nat}
    {pos : Position}
    (hX : Sdk.calculateTokenAmountsWithSlippage key.feeTier.tickSpacing p delta lower upper slippage true =
      .ok (X, Y))
    (hl : Sdk.createPositionLimits p slippage = .ok (lo, hi))
    (ht : getTickAtSqrtPrice p key.feeTier.tickSpacing = .ok t)
    (hcase : (lower ≤ t ∧ t < upper) ∨ (t < lower ∧ ∀ pl, calculateSqrtPrice lower = .ok pl → hi ≤ pl) ∨
      (upper ≤ t ∧ ∀ pu, calculateSqrtPrice upper = .ok pu → pu ≤ lo))
    (h : createPosition env s key lower upper delta lo hi = .ok (s', pos)) :
    bal s.balances env.caller key.tokenX ≤ bal s'.balances env.caller key.tokenX + X ∧
    bal s.balances env.caller key.tokenY ≤ bal s'.balances env.caller key.tokenY + Y := by
  have hw := reach_wf s hr
  obtain ⟨pool, lt, ut, m, b, tm1, tm2, he, e, c1, c2, bx, by_, d1, d2, e2⟩ :=
    createPosition_full hw.indexed h
  dsimp only at he e
  have hk : 1 ≤ key.feeTier.tickSpacing := ((reach_tiers hr).pools key (by rw [he.hpool]; rfl)).1.1
  obtain ⟨l1, l2, l3, _⟩ := getOrCreate_grid hw hk he.hlt
  obtain ⟨u1, u2, u3, _⟩ := getOrCreate_grid hw hk he.hut
  have ha := reach_agree s hr _ _ he.hpool
  obtain ⟨i, hi'⟩ := he.mod.pool.amounts
  obtain ⟨pl, pu, hpl, hpu, hle, hx, hy, _, _, _, hpos⟩ := calculateAmountDelta_ok hi'
  rw [u1] at hpu hle hx hy
  rw [l1] at hpl hle hx hy
  dsimp only at hx hy
  rw [dxR_true] at hx
  rw [dyR_true] at hy
  have hne := poolKey_ne hr he.hpool
  have hb : s'.balances = by_.1 := by rw [he.res, e2]
  have hbal : bal s.balances env.caller key.tokenX = bal s'.balances env.caller key.tokenX + m.amountX ∧
      bal s.balances env.caller key.tokenY = bal s'.balances env.caller key.tokenY + m.amountY := by
    have bal_eq : ∀ (b : Balances) (w t : ActorId), bal b w t = balOf b w t := by
      intro b w t
      unfold bal balOf
      cases b.get (w, t) <;> rfl
    simp only [bal_eq, hb]
    have f1 := (decrease_bal d1 env.caller key.tokenX).1
    have f2 := (decrease_bal d2 env.caller key.tokenX).1
    have f3 := (decrease_bal d1 env.caller key.tokenY).1
    have f4 := (decrease_bal d2 env.caller key.tokenY).1
    rw [if_pos ⟨rfl, rfl⟩] at f1 f4
    rw [if_neg (fun e => hne e.2)] at f2
    rw [if_neg (fun e => hne e.2.symm)] at f3
    omega
  -- the announced amounts
  unfold Sdk.createPositionLimits at hl
  simp only [bind_ok_iff, pure_ok_iff, Prod.mk.injEq] at hl
  obtain ⟨_, g1, _, g2, rfl, rfl⟩ := hl
  unfold Sdk.calculateTokenAmountsWithSlippage at hX
  simp only [bind_ok_iff, pure_ok_iff, Prod.mk.injEq] at hX
  obtain ⟨_, g1', _, g2', _, ht', ⟨ax, ay, ai⟩, A, ⟨bx', by', bi⟩, B, hX, hY⟩ := hX
  rw [g1] at g1'
  rw [g2] at g2'
  rw [ht] at ht'
  cases g1'
  cases g2'
  cases ht'
  obtain ⟨pl2, pu2, e1, e3, _, a1, a2, _, _, _, a3⟩ := calculateAmountDelta_ok A
  obtain ⟨pl3, pu3, e4, e5, _, b1, b2, _, _, _, b3⟩ := calculateAmountDelta_ok B
  rw [hpl] at e1 e4
  rw [hpu] at e3 e5
  cases e1
  cases e3
  cases e4
  cases e5
  rw [dxR_true] at a1 b1
  rw [dyR_true] at a2 b2
  have a3 := a3 rfl
  have b3 := b3 rfl
  have hple : pl ≤ pu := by
    rw [calc_grid l2 hpl, calc_grid u2 hpu]
    exact priceOf_le l2.min u2.max hle
  -- where the pool's price is
  have hin : pool.currentTickIndex < upper → pool.sqrtPrice ≤ pu := by
    intro hlt
    have h1 := grid_next ha.grid.1 u2.1 hlt
    have h2 := ha.high (le_trans h1 u2.max)
    have h3 := priceOf_le (by have := ha.grid.min; omega) u2.max h1
    rw [calc_grid u2 hpu]
    omega
  have hbelow : pool.currentTickIndex < lower → pool.sqrtPrice ≤ pl := by
    intro hlt
    have h1 := grid_next ha.grid.1 l2.1 hlt
    have h2 := ha.high (le_trans h1 l2.max)
    have h3 := priceOf_le (by have := ha.grid.min; omega) l2.max h1
    rw [calc_grid l2 hpl]
    omega
  have hge : ∀ j q, Grid key.feeTier.tickSpacing j → calculateSqrtPrice j = .ok q → j ≤ pool.currentTickIndex →
      q ≤ pool.sqrtPrice := by
    intro j q hg hq hj
    rw [calc_grid hg hq]
    exact le_trans (priceOf_le hg.min ha.grid.max hj) ha.low
  -- the valuation price lies in the range and, inside the range, within the limits
  have hc : pl ≤ clampPrice pool.currentTickIndex lower upper pool.sqrtPrice pl pu ∧
      clampPrice pool.currentTickIndex lower upper pool.sqrtPrice pl pu ≤ pu := by
    unfold clampPrice
    split
    · omega
    · next h1 =>
      split
      · next h2 => exact ⟨hge _ _ l2 hpl (by omega), hin h2⟩
      · omega
  rw [hbal.1, hbal.2]
  suffices m.amountX ≤ X ∧ m.amountY ≤ Y by omega
  dsimp only at hX hY
  have hXa : ax ≤ X := by rw [← hX]; split <;> omega
  have hYb : by' ≤ Y := by rw [← hY]; split <;> omega
  rcases hcase with ⟨t1, t2⟩ | ⟨t1, t2⟩ | ⟨t1, t2⟩
  · have ca : ∀ q, clampPrice t lower upper q pl pu = q := by
      intro q
      unfold clampPrice
      rw [if_neg (by omega), if_pos t2]
    rw [ca] at a1 a2 a3 b1 b2 b3
    constructor
    · refine le_trans ?_ hXa
      rw [a1, hx]
      by_cases hz : clampPrice pool.currentTickIndex lower upper pool.sqrtPrice pl pu = pu
      · rw [hz, ← dxR_true, dxR_self]
        exact Nat.zero_le _
      refine dxUp_anti ?_ hc.2 a3
      unfold clampPrice at hz ⊢
      split
      · next h1 => exact le_trans c1 (hbelow h1)
      · next h1 =>
        rw [if_neg h1] at hz
        split
        · exact c1
        · next h2 => exact absurd (if_neg h2) hz
    · refine le_trans ?_ hYb
      rw [b2, hy]
      by_cases hz : clampPrice pool.currentTickIndex lower upper pool.sqrtPrice pl pu = pl
      · rw [hz, ← dyR_true, dyR_self]
        exact Nat.zero_le _
      refine dyUp_mono hc.1 ?_
      unfold clampPrice at hz ⊢
      split
      · next h1 => exact absurd (if_pos h1) hz
      · split
        · exact c2
        · next h1 h2 => exact le_trans (hge _ _ u2 hpu (by omega)) c2
  · have ca : ∀ q, clampPrice t lower upper q pl pu = pl := by
      intro q
      unfold clampPrice
      rw [if_pos t1]
    rw [ca] at a1 a2 a3 b1 b2 b3
    refine ⟨le_trans ?_ hXa, ?_⟩
    · rw [a1, hx]
      exact dxUp_anti hc.1 hc.2 a3
    · have hz : clampPrice pool.currentTickIndex lower upper pool.sqrtPrice pl pu = pl := by
        have h2 := t2 _ hpl
        refine le_antisymm ?_ hc.1
        unfold clampPrice
        split
        · exact le_rfl
        · split
          · omega
          · next h3 => exact le_trans (hge _ _ u2 hpu (by omega)) (le_trans c2 h2)
      rw [hy, hz, ← dyR_true, dyR_self]
      exact Nat.zero_le _
  · have ca : ∀ q, clampPrice t lower upper q pl pu = pu := by
      intro q
      unfold clampPrice
      rw [if_neg (by omega), if_neg (by omega)]
    rw [ca] at a1 a2 a3 b1 b2 b3
    refine ⟨?_, le_trans ?_ hYb⟩
    · have hz : clampPrice pool.currentTickIndex lower upper pool.sqrtPrice pl pu = pu := by
        have h2 := t2 _ hpu
        refine le_antisymm hc.2 ?_
        unfold clampPrice
        split
        · next h3 => exact le_trans h2 (le_trans c1 (hbelow h3))
        · split
          · omega
          · exact le_rfl
      rw [hx, hz, ← dxR_true, dxR_self]
      exact Nat.zero_le _
    · rw [b2, hy]
      exact dyUp_mono hc.1 hc.2

/-- someone else's swap between preview and request -/
private def movedBack : Inv := run (Demo.by_ 3) Demo.traded (.swap Demo.key false (22 * 10 ^ 6) true MAX_SQRT_PRICE)

/-- C62 is false: the tick is the one of the current price also for the valuation at the two bounds. With the price
just below the range nothing of token Y is announced; a swap of someone else moves the price into the range, within
the tolerance, and the same request takes token Y. -/
theorem C62_negation : ¬ ∀ (s0 s s' : Inv) (env0 env : Env) (c : Call) (key : PoolKey) (pool : Pool)
      (lower upper : Int) (delta slippage lo hi X Y : Nat) (pos : Position),
    Reach s0 → s0.pools.get key = some pool →
    Sdk.calculateTokenAmountsWithSlippage key.feeTier.tickSpacing pool.sqrtPrice delta lower upper slippage true =
      .ok (X, Y) →
    Sdk.createPositionLimits pool.sqrtPrice slippage = .ok (lo, hi) →
    step env0 s0 c = .ok s →
    createPosition env s key lower upper delta lo hi = .ok (s', pos) →
    bal s.balances env.caller key.tokenX ≤ bal s'.balances env.caller key.tokenX + X ∧
    bal s.balances env.caller key.tokenY ≤ bal s'.balances env.caller key.tokenY + Y := by
  intro h
  have hr : Reach Demo.traded := by
    have h0 : ∀ (l : List (Env × Call)) (s : Inv), Reach s → Reach (runAll s l) := by
      intro l
      induction l with
      | nil => exact fun s h => h
      | cons x l ih =>
        intro s h
        refine ih _ ?_
        unfold run
        split
        · next hs => exact .call h hs
        · exact h
    refine h0 _ _ (h0 _ _ ?_)
    refine .transfers (.init 1 (10 ^ 11)) ?_
    intro k v hk
    simp only [Map.get_insert] at hk
    split_ifs at hk <;> first | (cases hk; norm_num) | simp at hk
  have hp : (Demo.traded.pools.get Demo.key).map (·.sqrtPrice) = some 999302984359663232683739 := by decide +kernel
  obtain ⟨pool, hpool, hq⟩ := Option.map_eq_some_iff.1 hp
  have hs : (step (Demo.by_ 3) Demo.traded (.swap Demo.key false (22 * 10 ^ 6) true MAX_SQRT_PRICE)).isOk = true := by
    decide +kernel
  have h1 : Sdk.calculateTokenAmountsWithSlippage 10 999302984359663232683739 (10 ^ 15) (-10) 10 (10 ^ 10) true =
      .ok (9999501, 0) := by decide +kernel
  have h2 : Sdk.createPositionLimits 999302984359663232683739 (10 ^ 10) =
      .ok (994293915301018045029585, 1004287070062952982572851) := by decide +kernel
  have h3 : (createPosition (Demo.by_ 2) movedBack Demo.key (-10) 10 (10 ^ 15) 994293915301018045029585
      1004287070062952982572851).toOption.map (fun r => bal movedBack.balances 2 7 - bal r.1.balances 2 7) =
      some 5001586 := by decide +kernel
  obtain ⟨⟨s', pos⟩, hc, hd⟩ := Option.map_eq_some_iff.1 h3
  have hc' := (show ∀ {α} {x : M α} {a : α}, x.toOption = some a → x = .ok a from by
    intro α x a e
    cases x with
    | ok b => simp [Except.toOption] at e; rw [e]
    | error b => simp [Except.toOption] at e) hc
  have hs' : step (Demo.by_ 3) Demo.traded (.swap Demo.key false (22 * 10 ^ 6) true MAX_SQRT_PRICE) =
      .ok movedBack := by
    unfold movedBack run
    cases e : step (Demo.by_ 3) Demo.traded (.swap Demo.key false (22 * 10 ^ 6) true MAX_SQRT_PRICE) with
    | ok r => rfl
    | error r => rw [e] at hs; simp [Except.isOk, Except.toBool] at hs
  have hq' : pool.sqrtPrice = 999302984359663232683739 := hq
  have := (h Demo.traded movedBack s' (Demo.by_ 3) (Demo.by_ 2) _ Demo.key pool (-10) 10 (10 ^ 15) (10 ^ 10)
    994293915301018045029585 1004287070062952982572851 9999501 0 pos hr hpool (by rw [hq']; exact h1)
    (by rw [hq']; exact h2) hs' hc').2
  change bal movedBack.balances 2 7 ≤ bal s'.balances 2 7 + 0 at this
  dsimp only at hd
  omega

/-- the same with the tick in the range: announced, and taken after the swap -/
example : Sdk.calculateTokenAmountsWithSlippage 10 999302984359663232683739 (10 ^ 15) (-20) 10 (10 ^ 10) true =
      .ok (62386810, 52865203) ∧
    (createPosition (Demo.by_ 2) movedBack Demo.key (-20) 10 (10 ^ 15) 994293915301018045029585
      1004287070062952982572851).toOption.map (fun r => (bal movedBack.balances 2 5 - bal r.1.balances 2 5,
        bal movedBack.balances 2 7 - bal r.1.balances 2 7)) = some (4995415, 9997588) := by
  decide +kernel

end Verif
