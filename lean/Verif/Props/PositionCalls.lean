import Verif.Proofs.AccInv
import Verif.Proofs.PriceRange
import Verif.Proofs.SwapAmounts
import Verif.Spec.Book
import Verif.Props.Authority
import Verif.Props.Fees

/-!
# C32, C39, C40: claiming fees, creating positions, protocol fees
-/

set_option exponentiation.threshold 1000

namespace Verif
open Service Spec

variable {env : Env} {s s' : Inv}

private theorem bal_eq (b : Balances) (w t : ActorId) : Spec.bal b w t = balOf b w t := by
  unfold Spec.bal balOf
  cases b.get (w, t) <;> rfl

private theorem net_eq (t : Tick) : netLiq t = t.net := rfl

theorem poolKey_ne (hr : Reach s) {key : PoolKey} {pool : Pool}
    (h : s.pools.get key = some pool) : key.tokenX ≠ key.tokenY :=
  Nat.ne_of_lt ((reach_tiers hr).pools key (by rw [h]; rfl)).2

/-- two credits to one account -/
theorem credit_two {b b1 b2 : Balances} {tx ty who : ActorId} {x y : Nat} (hne : tx ≠ ty)
    (h1 : increaseTokenBalance b tx who x = .ok b1) (h2 : increaseTokenBalance b1 ty who y = .ok b2) :
    bal b2 who tx = bal b who tx + x ∧ bal b2 who ty = bal b who ty + y ∧
    ∀ a t, (a ≠ who ∨ (t ≠ tx ∧ t ≠ ty)) → bal b2 a t = bal b a t := by
  simp only [bal_eq]
  refine ⟨?_, ?_, ?_⟩
  · have e1 := increase_bal h1 who tx
    have e2 := increase_bal h2 who tx
    rw [if_pos ⟨rfl, rfl⟩] at e1
    rw [if_neg (fun e => hne e.2)] at e2
    omega
  · have e1 := increase_bal h1 who ty
    have e2 := increase_bal h2 who ty
    rw [if_neg (fun e => hne e.2.symm)] at e1
    rw [if_pos ⟨rfl, rfl⟩] at e2
    omega
  · intro a t h
    have e1 := increase_bal h1 a t
    have e2 := increase_bal h2 a t
    rw [if_neg (by rintro ⟨rfl, rfl⟩; rcases h with h | h; exacts [h rfl, h.1 rfl])] at e1
    rw [if_neg (by rintro ⟨rfl, rfl⟩; rcases h with h | h; exacts [h rfl, h.2 rfl])] at e2
    omega

/-! ### C32 -/

/-- C32: a claim pays, for each token, the growth of the accumulator inside the range since the stored
value (modulo 2^128) times the liquidity, rounded down; it credits exactly that to the caller, changes
no other balance, and stores the present values of the accumulators. With `C10_history` the
difference is the growth collected while the position was in range. -/
theorem C32_amount {index x y : Nat} (hr : Reach s)
    (h : claimFee env s index = .ok (s', x, y)) :
    ∃ p q pool ix iy, s.positions.get env.caller index = .ok p ∧
      s.pools.get p.poolKey = some pool ∧
      (world s p.poolKey pool).insideX p.lowerTickIndex p.upperTickIndex = some ix ∧
      (world s p.poolKey pool).insideY p.lowerTickIndex p.upperTickIndex = some iy ∧
      x = (ix + (2 ^ 128 - p.feeGrowthInsideX)) % 2 ^ 128 * p.liquidity / 10 ^ 33 ∧
      y = (iy + (2 ^ 128 - p.feeGrowthInsideY)) % 2 ^ 128 * p.liquidity / 10 ^ 33 ∧
      s'.positions.get env.caller index = .ok q ∧ q.feeGrowthInsideX = ix ∧ q.feeGrowthInsideY = iy ∧
      bal s'.balances env.caller p.poolKey.tokenX = bal s.balances env.caller p.poolKey.tokenX + x ∧
      bal s'.balances env.caller p.poolKey.tokenY = bal s.balances env.caller p.poolKey.tokenY + y ∧
      ∀ a t, (a ≠ env.caller ∨ (t ≠ p.poolKey.tokenX ∧ t ≠ p.poolKey.tokenY)) →
        bal s'.balances a t = bal s.balances a t := by
  have hw := reach_wf s hr
  have ha := reach_acc s hr
  obtain ⟨p, lower, upper, pool, m, ps, b, he, e, b1, hb1, hb2⟩ := claimFee_full hw.indexed h
  dsimp only at he e hb1 hb2
  obtain ⟨rfl, rfl⟩ := Prod.mk.inj e
  have hP := ha.pos _ _ (posGet_ok.1 he.get)
  have hpl := ha.pool _ _ he.hpool
  have hlo := ha.tick _ _ he.hlt
  have hup := ha.tick _ _ he.hut
  have hne := poolKey_ne hr he.hpool
  obtain ⟨c1, c2, c3⟩ := credit_two hne hb1 hb2
  have hq : s'.positions.get env.caller index =
      .ok { m.position with tokensOwedX := 0, tokensOwedY := 0 } := by
    have hu := he.upd
    have : s'.positions = ps := by rw [he.res]
    rw [this, posGet_ok]
    unfold Positions.update at hu
    split at hu
    · cases hu
    · cases hu
      simp only [Map.get_insert, if_true]
  have hbal : s'.balances = b := by rw [he.res]
  rw [hbal]
  refine ⟨p, _, pool,
    feeGrowthInside1 lower.index lower.feeGrowthOutsideX upper.index upper.feeGrowthOutsideX
      pool.currentTickIndex pool.feeGrowthGlobalX,
    feeGrowthInside1 lower.index lower.feeGrowthOutsideY upper.index upper.feeGrowthOutsideY
      pool.currentTickIndex pool.feeGrowthGlobalY, he.get, he.hpool, ?_, ?_, ?_, ?_, hq, ?_, ?_, c1, c2, c3⟩
  · simp only [FeeWorld.insideX, world, he.hlt, he.hut, Option.pure_def, Option.bind_eq_bind,
      Option.bind_some]
  · simp only [FeeWorld.insideY, world, he.hlt, he.hut, Option.pure_def, Option.bind_eq_bind,
      Option.bind_some]
  · rw [he.mod.pos.owedX, hP.2.2.1, Nat.zero_add,
      fgSub_eq (feeGrowthInside1_lt hlo.1 hup.1 hpl.1) hP.1]
  · rw [he.mod.pos.owedY, hP.2.2.2, Nat.zero_add,
      fgSub_eq (feeGrowthInside1_lt hlo.2 hup.2 hpl.2) hP.2.1]
  · dsimp only; rw [he.mod.pos.eq]
  · dsimp only; rw [he.mod.pos.eq]

/-- C32: a claim leaves liquidity, range and pool of the position as they are, every other position,
price, tick index, liquidity, growth and protocol fees of every pool, and the gross and net liquidity
of every tick. -/
theorem C32_frame {index x y : Nat} (hr : Reach s) (h : claimFee env s index = .ok (s', x, y)) :
    (∀ a i, (a, i) ≠ (env.caller, index) → s'.positions.get a i = s.positions.get a i) ∧
    (∃ p q, s.positions.get env.caller index = .ok p ∧ s'.positions.get env.caller index = .ok q ∧
      q.poolKey = p.poolKey ∧ q.liquidity = p.liquidity ∧ q.lowerTickIndex = p.lowerTickIndex ∧
      q.upperTickIndex = p.upperTickIndex) ∧
    (∀ k, (s'.pools.get k).map (fun p => { p with lastTimestamp := 0 }) =
      (s.pools.get k).map (fun p => { p with lastTimestamp := 0 })) ∧
    (∀ k, (s'.ticks.get k).map (fun t => (t.liquidityGross, netLiq t, t.sqrtPrice,
        t.feeGrowthOutsideX, t.feeGrowthOutsideY)) =
      (s.ticks.get k).map (fun t => (t.liquidityGross, netLiq t, t.sqrtPrice,
        t.feeGrowthOutsideX, t.feeGrowthOutsideY))) := by
  have hw := reach_wf s hr
  obtain ⟨p, lower, upper, pool, m, ps, b, he, -⟩ := claimFee_full hw.indexed h
  dsimp only at he
  have hu := he.upd
  have hps : s'.positions = ps := by rw [he.res]
  have hupd : ∀ k, ps.map.get k = if k = (env.caller, index) then
      some { m.position with tokensOwedX := 0, tokensOwedY := 0 } else s.positions.map.get k := by
    intro k
    unfold Positions.update at hu
    split at hu
    · cases hu
    · cases hu
      simp only [Map.get_insert]
  refine ⟨?_, ⟨p, { m.position with tokensOwedX := 0, tokensOwedY := 0 }, he.get, ?_, ?_, ?_, ?_, ?_⟩,
    ?_, ?_⟩
  · intro a i hne
    unfold Positions.get
    rw [hps, hupd, if_neg hne]
  · rw [hps, posGet_ok, hupd, if_pos rfl]
  · dsimp only; rw [he.mod.pos.eq]
  · have := (he.mod.pos.add rfl).1
    dsimp only; omega
  · dsimp only; rw [he.mod.pos.eq]
  · dsimp only; rw [he.mod.pos.eq]
  · intro k
    rw [he.res]
    dsimp only
    rw [Map.get_insert]
    split
    · next e =>
      subst e
      rw [he.hpool]
      simp only [Option.map_some, Option.some.injEq]
      have e1 := he.mod.pool.eq
      have e2 : m.pool.liquidity = pool.liquidity := by
        by_cases hc : lower.index ≤ pool.currentTickIndex ∧ pool.currentTickIndex < upper.index
        · exact (he.mod.pool.add rfl hc.1 hc.2).1
        · exact he.mod.pool.out hc
      rw [e1, e2]
    · rfl
  · have tk : ∀ (t t' : Tick) (up : Bool) (mx : Nat), TickUpd t t' 0 mx up true →
        (t'.liquidityGross, netLiq t', t'.sqrtPrice, t'.feeGrowthOutsideX, t'.feeGrowthOutsideY) =
        (t.liquidityGross, netLiq t, t.sqrtPrice, t.feeGrowthOutsideX, t.feeGrowthOutsideY) := by
      intro t t' up mx ht
      have h1 := (ht.dep rfl).1
      have h2 := ht.net
      rw [net_eq, net_eq, h1, h2]
      have h3 : t'.sqrtPrice = t.sqrtPrice := by rw [ht.eq]
      have h4 : t'.feeGrowthOutsideX = t.feeGrowthOutsideX := by rw [ht.eq]
      have h5 : t'.feeGrowthOutsideY = t.feeGrowthOutsideY := by rw [ht.eq]
      rw [h3, h4, h5]
      split <;> simp
    intro k
    rw [he.res]
    dsimp only
    rw [Map.get_insert, Map.get_insert]
    split
    · next e =>
      subst e
      rw [he.hlt]
      simp only [Option.map_some, Option.some.injEq]
      exact tk _ _ _ _ he.mod.lower
    · split
      · next e =>
        subst e
        rw [he.hut]
        simp only [Option.map_some, Option.some.injEq]
        exact tk _ _ _ _ he.mod.upper
      · rfl

private theorem tickUpdate_again {t t' : Tick} {m : Nat} {u : Bool} (h : t.update 0 m u true = .ok t') :
    ∃ t'', t'.update 0 m u true = .ok t'' := by
  unfold Tick.update at h ⊢
  rw [bind_ok_iff] at h
  obtain ⟨g, hg, h⟩ := h
  have hg1 := (gross_ok hg).1 rfl
  obtain ⟨h1, h2⟩ := change_ok h
  have e : t'.liquidityGross = g := by rw [h1]
  have hg' : t'.calculateNewLiquidityGross true 0 m = .ok g := by
    simp only [Tick.calculateNewLiquidityGross, bind_ok_iff, failIf_ok_iff, pure_ok_iff, if_true,
      addC_ok_iff]
    exact ⟨(), by simp, g, ⟨by omega, by omega⟩, (), by simp; omega, rfl⟩
  rw [hg', ok_bind]
  unfold Tick.updateLiquidityChange at h ⊢
  dsimp only at h ⊢
  by_cases hx : (xor t.sign (xor true u)) = true
  · rw [if_pos hx] at h
    split at h
    · next hc =>
      cases h
      dsimp only
      rw [if_pos hx, if_pos (by omega)]
      exact ⟨_, rfl⟩
    · next hc =>
      cases h
      dsimp only
      have : t.liquidityChange = 0 := by omega
      rw [if_neg (by revert hx; cases t.sign <;> cases u <;> simp), this]
      exact ⟨_, rfl⟩
  · rw [if_neg hx] at h
    simp only [bind_ok_iff, addC_ok_iff, pure_ok_iff] at h
    obtain ⟨c, ⟨hc, rfl⟩, rfl⟩ := h
    dsimp only
    rw [if_neg hx]
    rw [Nat.add_zero] at hc ⊢
    have ha : addC 256 Err.panic t.liquidityChange 0 = .ok t.liquidityChange :=
      addC_ok_iff.2 ⟨hc, rfl⟩
    rw [ha, ok_bind]
    exact ⟨_, rfl⟩

private theorem posUpd_insideX {p p' : Position} {sign : Bool} {delta gx gy : Nat}
    (h : PosUpd p p' sign delta gx gy) : p'.feeGrowthInsideX = gx := by rw [h.eq]

private theorem posUpd_insideY {p p' : Position} {sign : Bool} {delta gx gy : Nat}
    (h : PosUpd p p' sign delta gx gy) : p'.feeGrowthInsideY = gy := by rw [h.eq]

private theorem claim_again {p : Position} {pool : Pool} {u l : Tick} {now now' : Nat} {r : ModifyResult}
    (hx : feeGrowthInside1 l.index l.feeGrowthOutsideX u.index u.feeGrowthOutsideX
      pool.currentTickIndex pool.feeGrowthGlobalX < 2 ^ 128)
    (hy : feeGrowthInside1 l.index l.feeGrowthOutsideY u.index u.feeGrowthOutsideY
      pool.currentTickIndex pool.feeGrowthGlobalY < 2 ^ 128)
    (h : p.claimFee pool u l now = .ok r) :
    ∃ r', r.position.claimFee r.pool r.upper r.lower now' = .ok r' ∧ r'.amountX = 0 ∧ r'.amountY = 0 ∧
      r'.upper.index = r.upper.index ∧ r'.lower.index = r.lower.index := by
  unfold Position.claimFee at h
  simp only [bind_ok_iff, unwrap_ok_iff, pure_ok_iff] at h
  obtain ⟨m, hm, rfl⟩ := h
  have hM := modify_full hm
  unfold Position.modify at hm
  simp only [bind_ok_iff, pure_ok_iff] at hm
  obtain ⟨l', hl, u', hu, p', hp, q, hq, rfl⟩ := hm
  obtain ⟨l2, hl2⟩ := tickUpdate_again hl
  obtain ⟨u2, hu2⟩ := tickUpdate_again hu
  have L1 := tickUpdate_full hl
  have U1 := tickUpdate_full hu
  have L2 := tickUpdate_full hl2
  have U2 := tickUpdate_full hu2
  have P1 := hM.pos
  dsimp only at hM P1 ⊢
  have epk : p'.poolKey = p.poolKey := by rw [P1.eq]
  have hpool := hM.pool
  dsimp only at hpool
  have eliq : q.1.liquidity = pool.liquidity := by
    by_cases hc : l.index ≤ pool.currentTickIndex ∧ pool.currentTickIndex < u.index
    · exact (hpool.add rfl hc.1 hc.2).1
    · exact hpool.out hc
  have ecur : q.1.currentTickIndex = pool.currentTickIndex := by rw [hpool.eq]
  have egx : q.1.feeGrowthGlobalX = pool.feeGrowthGlobalX := by rw [hpool.eq]
  have egy : q.1.feeGrowthGlobalY = pool.feeGrowthGlobalY := by rw [hpool.eq]
  have esp : q.1.sqrtPrice = pool.sqrtPrice := by rw [hpool.eq]
  have hself : ∀ a : Nat, a < 2 ^ 128 → fgSub a a = 0 := by
    intro a ha
    rw [fgSub_eq ha ha]
    have : a + (2 ^ 128 - a) = 2 ^ 128 := by omega
    rw [this, Nat.mod_self]
  -- the position update
  have hp2 : ∃ p2, ({ p' with tokensOwedX := 0, tokensOwedY := 0 } : Position).update true 0
      (feeGrowthInside1 l2.index l2.feeGrowthOutsideX u2.index u2.feeGrowthOutsideX
        q.1.currentTickIndex q.1.feeGrowthGlobalX)
      (feeGrowthInside1 l2.index l2.feeGrowthOutsideY u2.index u2.feeGrowthOutsideY
        q.1.currentTickIndex q.1.feeGrowthGlobalY) = .ok p2 := by
    rw [L2.index, L1.index, U2.index, U1.index, L2.outX, L1.outX, U2.outX, U1.outX, L2.outY, L1.outY,
      U2.outY, U1.outY, ecur, egx, egy]
    unfold Position.update
    dsimp only
    have ex := posUpd_insideX P1
    have ey := posUpd_insideY P1
    have hadd := P1.add rfl
    have hne := P1.ne
    rw [ex, ey]
    rw [hself _ hx, hself _ hy]
    have a1 : fgToFee 0 p'.liquidity = .ok 0 := by
      simp [fgToFee, mulC, bind, Except.bind, fit, divC]
    have a2 : addC 256 Err.panic 0 0 = .ok 0 := addC_ok_iff.2 ⟨by norm_num, rfl⟩
    have a3 : ({ p' with tokensOwedX := 0, tokensOwedY := 0 } : Position).calculateNewLiquidity true 0
        = .ok p'.liquidity := by
      simp only [Position.calculateNewLiquidity, bind_ok_iff, failIf_ok_iff, if_true]
      exact ⟨(), by simp, addC_ok_iff.2 ⟨by omega, rfl⟩⟩
    rw [ex, ey] at a3
    rw [failIf_neg (by omega), ok_bind, a1, ok_bind, ok_bind, a3, ok_bind, a2, ok_bind, ok_bind]
    exact ⟨_, rfl⟩
  obtain ⟨p2, hp2⟩ := hp2
  have P2 := posUpdate_full hp2
  -- the pool update
  have hq2 : ∃ q2, ({ q.1 with lastTimestamp := now' } : Pool).updateLiquidity 0 true u2.index l2.index
      = .ok q2 := by
    obtain ⟨i, hi⟩ := hpool.amounts
    dsimp only at hi
    unfold Pool.updateLiquidity
    dsimp only
    rw [L2.index, L1.index, U2.index, U1.index, ecur, esp, hi, ok_bind]
    dsimp only
    split
    · exact ⟨_, rfl⟩
    · rw [if_pos rfl]
      rename_i hii
      have hadd : addC 256 .track q.1.liquidity 0 = .ok q.1.liquidity := by
        refine addC_ok_iff.2 ⟨?_, by omega⟩
        unfold Pool.updateLiquidity at hq
        dsimp only at hq
        rw [L1.index, U1.index, hi, ok_bind] at hq
        dsimp only at hq
        rw [if_neg hii, if_pos rfl] at hq
        simp only [bind_ok_iff, pure_ok_iff, addC_ok_iff] at hq
        obtain ⟨_, ⟨h1, rfl⟩, e⟩ := hq
        have e1 := congrArg (fun z => z.1.liquidity) e
        dsimp only at e1
        rw [← e1]
        simpa using h1
      rw [hadd, ok_bind]
      exact ⟨_, rfl⟩
  obtain ⟨q2, hq2⟩ := hq2
  refine ⟨{ position := { p2 with tokensOwedX := 0, tokensOwedY := 0 }, pool := q2.1, upper := u2
            lower := l2, amountX := p2.tokensOwedX, amountY := p2.tokensOwedY }, ?_, ?_, ?_, U2.index,
    L2.index⟩
  · unfold Position.claimFee
    simp only [bind_ok_iff, unwrap_ok_iff, pure_ok_iff]
    refine ⟨⟨p2, q2.1, u2, l2, q2.2.1, q2.2.2⟩, ?_, rfl⟩
    unfold Position.modify
    dsimp only
    rw [← epk] at hl2 hu2
    rw [hl2, ok_bind, hu2, ok_bind, hp2, ok_bind, hq2, ok_bind]
    rfl
  · dsimp only
    rw [P2.owedX, L2.index, L1.index, U2.index, U1.index, L2.outX, L1.outX, U2.outX, U1.outX, ecur, egx]
    have ex := posUpd_insideX P1
    dsimp only
    rw [ex]
    rw [hself _ hx]
    simp
  · dsimp only
    rw [P2.owedY, L2.index, L1.index, U2.index, U1.index, L2.outY, L1.outY, U2.outY, U1.outY, ecur, egy]
    have ey := posUpd_insideY P1
    dsimp only
    rw [ey]
    rw [hself _ hy]
    simp

/-- C32: a claim can be repeated at once, and then pays nothing. -/
theorem C32_twice {index x y : Nat} {env' : Env} (hr : Reach s)
    (h : claimFee env s index = .ok (s', x, y)) (hc : env'.caller = env.caller) :
    ∃ s'', claimFee env' s' index = .ok (s'', 0, 0) := by
  have hw := reach_wf s hr
  have ha := reach_acc s hr
  obtain ⟨p, lower, upper, pool, m, ps, b1, b2, hp, hl, hu, hpl, hm, hps, hb1, hb2, e⟩ := claimFee_ok h
  have A := ha.pool _ _ hpl
  have B := ha.tick _ _ hl
  have C := ha.tick _ _ hu
  obtain ⟨r', hr', e1, e2, e3, e4⟩ := claim_again (now' := env'.now)
    (feeGrowthInside1_lt B.1 C.1 A.1) (feeGrowthInside1_lt B.2 C.2 A.2) hm
  obtain ⟨m', hm', rfl⟩ := claim_full hm
  have i1 : m'.lower.index = p.lowerTickIndex := hm'.lower.index.trans (hw.indexed _ _ _ hl)
  have i2 : m'.upper.index = p.upperTickIndex := hm'.upper.index.trans (hw.indexed _ _ _ hu)
  have j1 : m'.position.lowerTickIndex = p.lowerTickIndex := by rw [hm'.pos.eq]
  have j2 : m'.position.upperTickIndex = p.upperTickIndex := by rw [hm'.pos.eq]
  have j3 : m'.position.poolKey = p.poolKey := by rw [hm'.pos.eq]
  have hne : p.lowerTickIndex ≠ p.upperTickIndex := ne_of_lt (hw.pos _ _ (posGet_ok.1 hp)).1.lt
  have es : s' = _ := congrArg Prod.fst e
  dsimp only at es e3 e4 hr'
  rw [i1, i2] at es
  rw [i1] at e4
  rw [i2] at e3
  have hget : ps.get env.caller index = .ok { m'.position with tokensOwedX := 0, tokensOwedY := 0 } := by
    rw [posGet_ok]
    unfold Positions.update at hps
    split at hps
    · cases hps
    · cases hps
      simp only [Map.get_insert, if_true]
  have hupd : ∃ ps2, ps.update env.caller index r'.position = .ok ps2 := by
    unfold Positions.update
    rw [posGet_ok] at hget
    unfold Positions.update at hps
    split at hps
    · cases hps
    · next hh =>
      cases hps
      exact ⟨_, if_neg hh⟩
  obtain ⟨ps2, hps2⟩ := hupd
  refine ⟨{ s' with positions := ps2, pools := s'.pools.insert p.poolKey r'.pool
                    ticks := (s'.ticks.insert (p.poolKey, p.upperTickIndex) r'.upper).insert
                      (p.poolKey, p.lowerTickIndex) r'.lower }, ?_⟩
  unfold claimFee
  simp only [bind_ok_iff, pure_ok_iff, ticksGet_ok, poolsGet_ok, poolsUpdate_ok, ticksUpdate_ok, hc]
  have hti : ∀ i, s'.ticks.get (p.poolKey, i) = if i = p.lowerTickIndex then some m'.lower else
      if i = p.upperTickIndex then some m'.upper else s.ticks.get (p.poolKey, i) := by
    intro i
    rw [es]
    dsimp only
    rw [Map.get_insert, Map.get_insert]
    simp only [Prod.mk.injEq, true_and]
  have hpo : s'.pools.get p.poolKey = some m'.pool := by
    rw [es]; dsimp only; rw [Map.get_insert, if_pos rfl]
  refine ⟨{ m'.position with tokensOwedX := 0, tokensOwedY := 0 }, by rw [es]; exact hget,
    m'.lower, ?_, m'.upper, ?_, m'.pool, ?_, r', hr', ps2, by rw [es]; exact hps2, _, ⟨?_, rfl⟩, _,
    ⟨?_, rfl⟩, _, ⟨?_, rfl⟩, s'.balances, ?_, s'.balances, ?_, ?_⟩
  · dsimp only; rw [j3, j1, hti, if_pos rfl]
  · dsimp only; rw [j3, j2, hti, if_neg hne.symm, if_pos rfl]
  · dsimp only; rw [j3]; exact hpo
  · dsimp only; rw [j3]; exact ⟨_, hpo⟩
  · dsimp only; rw [j3, e3, hti, if_neg hne.symm, if_pos rfl]; exact ⟨_, rfl⟩
  · dsimp only
    rw [j3, e3, e4, Map.get_insert, if_neg (by simp [hne]), hti, if_pos rfl]; exact ⟨_, rfl⟩
  · rw [e1]; exact increase_ok.2 (.inl ⟨rfl, rfl⟩)
  · rw [e2]; exact increase_ok.2 (.inl ⟨rfl, rfl⟩)
  · dsimp only
    rw [j3, e1, e2, e3, e4]

/-- user 3 earns 13503 of token 5 by the swap; the second claim pays nothing -/
example : (claimFee (Demo.by_ 3) Demo.traded 0).toOption.map (·.2) = some (13503, 0) ∧
    ((claimFee (Demo.by_ 3) Demo.traded 0).toOption.bind
      (fun r => (claimFee (Demo.by_ 3) r.1 0).toOption)).map (·.2) = some (0, 0) := by decide +kernel

/-! ### C39 -/

/-- rounding up the amount of token X exceeds the exact amount by less than one unit and a relative
error of 10^-14 -/
theorem dxUp_lt {a b : Nat} (ha : 0 < a) (hb : 0 < b) (L : Nat) (h : 23 * 10 ^ 13 ≤ a * b / 10 ^ 24) :
    (dxUp a b L : ℚ) < amountX a b L * (1 + 1 / (23 * 10 ^ 13)) + 1 := by
  have hab : 0 < a * b := Nat.mul_pos ha hb
  set D := a * b / 10 ^ 24 with hD
  have hDpos : 0 < D := by omega
  set N := dxNum a b L with hN
  have h1 : dxUp a b L * D < N + D := by
    rw [dxUp_def, ← hN, ← hD]
    have : cdiv N D * D ≤ N + (D - 1) := by rw [cdiv_def]; exact Nat.div_mul_le_self _ _
    omega
  have h2 : N * 10 ^ 5 ≤ absDiff a b * L := by rw [hN, dxNum_def]; exact Nat.div_mul_le_self _ _
  have h3 : a * b < (D + 1) * 10 ^ 24 := lt_div_add_one_mul _ (by positivity)
  rw [amountX_eq ha hb]
  have h1q : (dxUp a b L : ℚ) * D < N + D := by exact_mod_cast h1
  have h2q : (N : ℚ) * 10 ^ 5 ≤ (absDiff a b * L : Nat) := by exact_mod_cast h2
  have h3q : ((a * b : Nat) : ℚ) < (D + 1) * 10 ^ 24 := by exact_mod_cast h3
  have hDq : (0 : ℚ) < D := by exact_mod_cast hDpos
  have habq : (0 : ℚ) < (a * b : Nat) := by exact_mod_cast hab
  have hD2 : (23 * 10 ^ 13 : ℚ) ≤ D := by exact_mod_cast h
  have e : ((absDiff a b * L * 10 ^ 19 : Nat) : ℚ) = (absDiff a b * L : Nat) * 10 ^ 19 := by push_cast; ring
  rw [e]
  generalize ((absDiff a b * L : Nat) : ℚ) = W at *
  generalize ((a * b : Nat) : ℚ) = Q at *
  have h4 : (dxUp a b L : ℚ) < N / D + 1 := by
    rw [div_add_one hDq.ne', lt_div_iff₀ hDq]; exact h1q
  have hNq : (0 : ℚ) ≤ N := Nat.cast_nonneg _
  have hW : 0 ≤ W := le_trans (by positivity) h2q
  have h5 : (N : ℚ) / D ≤ W * 10 ^ 19 / Q * (1 + 1 / (23 * 10 ^ 13)) := by
    rw [div_mul_eq_mul_div, div_le_div_iff₀ hDq habq]
    have h6 : Q ≤ D * (1 + 1 / (23 * 10 ^ 13)) * 10 ^ 24 := by
      have : (1 : ℚ) ≤ D * (1 / (23 * 10 ^ 13)) := by
        rw [mul_one_div, le_div_iff₀ (by positivity)]; linarith
      nlinarith
    calc (N : ℚ) * Q ≤ N * (D * (1 + 1 / (23 * 10 ^ 13)) * 10 ^ 24) := by gcongr
      _ = (N * 10 ^ 5) * (10 ^ 19 * (1 + 1 / (23 * 10 ^ 13)) * D) := by ring
      _ ≤ W * (10 ^ 19 * (1 + 1 / (23 * 10 ^ 13)) * D) := by gcongr
      _ = _ := by ring
  linarith

/-- the price at which the range is valued: the current price, or the nearer end of the range if the
current tick is outside -/
def Spec.valuePrice (pool : Pool) (lower upper : Int) (pl pu : Nat) : Nat :=
  if pool.currentTickIndex < lower then pl
  else if pool.currentTickIndex < upper then pool.sqrtPrice else pu

/-- C39: what a successful `create_position` has checked, what it charges and what it stores. `c` is
the price at which the range is valued, `x` and `y` are the charges: `y` is the exact amount rounded
up, `x` is the amount rounded up as described by C04. Nobody else's balance and no balance in another
token changes; the new position is appended to the caller's positions. -/
theorem C39_create {key : PoolKey} {lower upper : Int} {delta ll lu : Nat} {p : Position} (hr : Reach s)
    (h : createPosition env s key lower upper delta ll lu = .ok (s', p)) :
    ∃ pool pl pu c, ∃ x y : Nat, s.pools.get key = some pool ∧ ll ≤ pool.sqrtPrice ∧ pool.sqrtPrice ≤ lu ∧
      delta ≠ 0 ∧ lower < upper ∧ Grid key.feeTier.tickSpacing lower ∧
      Grid key.feeTier.tickSpacing upper ∧
      calculateSqrtPrice lower = .ok pl ∧ calculateSqrtPrice upper = .ok pu ∧
      c = valuePrice pool lower upper pl pu ∧
      y = ⌈amountY pl c delta⌉₊ ∧
      amountX c pu delta < x + 1 / (23 * 10 ^ 13) ∧
      x < amountX c pu delta * (1 + 1 / (23 * 10 ^ 13)) + 1 ∧ (upper ≤ pool.currentTickIndex → x = 0) ∧
      bal s.balances env.caller key.tokenX = bal s'.balances env.caller key.tokenX + x ∧
      bal s.balances env.caller key.tokenY = bal s'.balances env.caller key.tokenY + y ∧
      (∀ a t, (a ≠ env.caller ∨ (t ≠ key.tokenX ∧ t ≠ key.tokenY)) →
        bal s'.balances a t = bal s.balances a t) ∧
      p.poolKey = key ∧ p.liquidity = delta ∧ p.lowerTickIndex = lower ∧ p.upperTickIndex = upper ∧
      p.tokensOwedX = 0 ∧ p.tokensOwedY = 0 ∧
      s'.positions = s.positions.add env.caller p := by
  have hw := reach_wf s hr
  obtain ⟨pool, lt, ut, m, b, tm1, tm2, he, e, c1, c2, bx, by_, d1, d2, e2⟩ :=
    createPosition_full hw.indexed h
  dsimp only at he e
  have hk : 1 ≤ key.feeTier.tickSpacing := ((reach_tiers hr).pools key (by rw [he.hpool]; rfl)).1.1
  obtain ⟨l1, l2, l3, _⟩ := getOrCreate_grid hw hk he.hlt
  obtain ⟨u1, u2, u3, _⟩ := getOrCreate_grid hw hk he.hut
  have hm := he.mod
  obtain ⟨i, hi⟩ := hm.pool.amounts
  obtain ⟨pl, pu, hpl, hpu, hle, hx, hy, _⟩ := calculateAmountDelta_ok hi
  rw [u1] at hpu hle hx hy
  rw [l1] at hpl hle hx hy
  dsimp only at hx hy
  rw [dxR_true] at hx
  rw [dyR_true] at hy
  have hpp := reach_price s hr _ _ he.hpool
  have hcge : MIN_SQRT_PRICE ≤ clampPrice pool.currentTickIndex lower upper pool.sqrtPrice pl pu :=
by
    unfold clampPrice
    split
    · exact calculateSqrtPrice_ge_min hpl
    · split
      · exact hpp.1
      · exact calculateSqrtPrice_ge_min hpu
  have hpuge := calculateSqrtPrice_ge_min hpu
  have hmin : 0 < MIN_SQRT_PRICE := by norm_num [MIN_SQRT_PRICE]
  have hc0 := lt_of_lt_of_le hmin hcge
  have hpu0 := lt_of_lt_of_le hmin hpuge
  have hD := prod_pos_of_min hcge hpuge
  have hne := poolKey_ne hr he.hpool
  have hb : s'.balances = by_.1 := by rw [he.res, e2]
  have hpos := hm.pos
  refine ⟨pool, pl, pu, clampPrice pool.currentTickIndex lower upper pool.sqrtPrice pl pu, m.amountX,
    m.amountY, he.hpool, c1, c2, he.hdelta, lt_of_le_of_ne hle he.ne, l2, u2, hpl, hpu, rfl, ?_, ?_,
    ?_, ?_, ?_, ?_, ?_, ?_, ?_, ?_, ?_, ?_, ?_, ?_⟩
  · rw [hy, dyUp_eq_ceil]
  · have h1 := amountX_lt_dxUp hc0 hpu0 delta (by omega)
    have hab : (23 * 10 ^ 13 : ℚ) * 10 ^ 24 ≤ ((clampPrice pool.currentTickIndex lower upper
        pool.sqrtPrice pl pu * pu : Nat) : ℚ) := by
      have := (Nat.le_div_iff_mul_le (by positivity)).1 hD
      exact_mod_cast this
    rw [hx]
    refine lt_of_lt_of_le h1 ?_
    have : (10 ^ 24 : ℚ) / ((clampPrice pool.currentTickIndex lower upper
        pool.sqrtPrice pl pu * pu : Nat) : ℚ) ≤ 1 / (23 * 10 ^ 13) := by
      rw [div_le_div_iff₀ (by linarith [show (0 : ℚ) < 23 * 10 ^ 13 * 10 ^ 24 by positivity])
        (by positivity)]
      linarith
    linarith
  · rw [hx]; exact dxUp_lt hc0 hpu0 delta hD
  · intro hcu
    rw [hx]
    have : clampPrice pool.currentTickIndex lower upper pool.sqrtPrice pl pu = pu := by
      unfold clampPrice
      rw [if_neg (by omega), if_neg (by omega)]
    rw [this, ← dxR_true, dxR_self]
  · rw [hb, bal_eq, bal_eq]
    have e1 := (decrease_bal d1 env.caller key.tokenX).1
    have e2 := (decrease_bal d2 env.caller key.tokenX).1
    rw [if_pos ⟨rfl, rfl⟩] at e1
    rw [if_neg (fun e => hne e.2)] at e2
    omega
  · rw [hb, bal_eq, bal_eq]
    have e1 := (decrease_bal d1 env.caller key.tokenY).1
    have e2 := (decrease_bal d2 env.caller key.tokenY).1
    rw [if_neg (fun e => hne e.2.symm)] at e1
    rw [if_pos ⟨rfl, rfl⟩] at e2
    omega
  · intro a t hat
    rw [hb, bal_eq, bal_eq]
    have e1 := (decrease_bal d1 a t).1
    have e2 := (decrease_bal d2 a t).1
    rw [if_neg (by rintro ⟨rfl, rfl⟩; rcases hat with h | h; exacts [h rfl, h.1 rfl])] at e1
    rw [if_neg (by rintro ⟨rfl, rfl⟩; rcases hat with h | h; exacts [h rfl, h.2 rfl])] at e2
    omega
  · rw [e, hpos.eq]
  · have := (hpos.add rfl).1
    rw [e, this]; simp
  · rw [e, hpos.eq]
  · rw [e, hpos.eq]
  · rw [e, hpos.owedX]; simp
  · rw [e, hpos.owedY]; simp
  · rw [he.res, e]

/-- C39, the refusals: a price outside the caller's bounds, no liquidity, equal, swapped or illegal
ticks. -/
theorem C39_refused {key : PoolKey} {lower upper : Int} {delta ll lu : Nat} {pool : Pool} (hr : Reach s)
    (hp : s.pools.get key = some pool)
    (hbad : pool.sqrtPrice < ll ∨ lu < pool.sqrtPrice ∨ delta = 0 ∨ upper ≤ lower ∨
      ¬ Grid key.feeTier.tickSpacing lower ∨ ¬ Grid key.feeTier.tickSpacing upper) :
    run env s (.createPosition key lower upper delta ll lu) = s := by
  have hn : ∀ r, createPosition env s key lower upper delta ll lu ≠ .ok r := by
    rintro ⟨s', p⟩ h
    obtain ⟨pool', pl, pu, c, x, y, h1, h2, h3, h4, h5, h6, h7, _⟩ := C39_create hr h
    rw [hp] at h1
    cases h1
    rcases hbad with h | h | h | h | h | h
    · omega
    · omega
    · exact h4 h
    · omega
    · exact h h6
    · exact h h7
  cases hc : createPosition env s key lower upper delta ll lu with
  | ok r => exact absurd hc (hn r)
  | error e =>
    unfold run step
    dsimp only
    rw [hc]
    rfl

/-- a range above the current tick costs token 5 only; a limit below the price refuses -/
example : ((createPosition (Demo.by_ 2) Demo.start Demo.key 10 30 (10 ^ 15) 0 (10 ^ 25)).toOption.map
      (fun r => (bal Demo.start.balances 2 5 - bal r.1.balances 2 5,
        bal Demo.start.balances 2 7 - bal r.1.balances 2 7))) = some (9989507, 0) ∧
    (createPosition (Demo.by_ 2) Demo.start Demo.key 10 30 (10 ^ 15) 0 (10 ^ 23)).toOption = none := by
  decide +kernel

/-! ### C40 -/

/-- C40: of a fee `amount` collected while there is liquidity, the protocol's account of the fee token
receives exactly `⌈amount · rate⌉`, never more than the fee, and the other account nothing. -/
theorem C40_share {pool p : Pool} {amount rate : Nat} {inX : Bool} (hL : pool.liquidity ≠ 0)
    (h : pool.addFee amount inX rate = .ok p) :
    p.feeProtocolTokenX = pool.feeProtocolTokenX + (if inX then ⌈(amount : ℚ) * pct rate⌉₊ else 0) ∧
    p.feeProtocolTokenY = pool.feeProtocolTokenY + (if inX then 0 else ⌈(amount : ℚ) * pct rate⌉₊) ∧
    ⌈(amount : ℚ) * pct rate⌉₊ ≤ amount := by
  obtain ⟨h1, h2⟩ := addFee_full h
  have e : protoPart amount rate pool.liquidity = ⌈(amount : ℚ) * pct rate⌉₊ := by
    unfold protoPart pct
    rw [if_neg hL, mul_div_assoc']
    have := cdiv_eq_ceil (amount * rate) (d := 10 ^ 12) (by positivity)
    rw [cdiv_def] at this
    rw [this]
    push_cast
    rfl
  rw [e] at h1 h2
  refine ⟨?_, ?_, h1⟩ <;> rw [h2]

/-- C40: without liquidity the protocol receives nothing. -/
theorem C40_no_liquidity {pool p : Pool} {amount rate : Nat} {inX : Bool} (hL : pool.liquidity = 0)
    (h : pool.addFee amount inX rate = .ok p) : p = pool := by
  unfold Pool.addFee at h
  simp only [bind_ok_iff, subC_ok_iff] at h
  obtain ⟨_, _, _, _, h⟩ := h
  rw [if_pos (Or.inr hL)] at h
  cases h
  rfl

/-- C40: a rate of at most 100% never takes more than the fee. -/
theorem C40_bounded {amount rate : Nat} (h : rate ≤ 10 ^ 12) : ⌈(amount : ℚ) * pct rate⌉₊ ≤ amount := by
  rw [Nat.ceil_le]
  have : pct rate ≤ 1 := by
    unfold pct
    rw [div_le_one (by positivity)]
    exact_mod_cast h
  have ha : (0 : ℚ) ≤ amount := Nat.cast_nonneg _
  nlinarith

/-- C40: over a whole swap the protocol takes at most what the caller paid, in the input token only. -/
theorem C40_swap {key : PoolKey} {xToY byIn : Bool} {amount limit : Nat} {r : CalculateSwapResult}
    {pool : Pool} (hp : s.pools.get key = some pool)
    (h : swap env s key xToY amount byIn limit = .ok (s', r)) :
    pool.feeProtocolTokenX ≤ r.pool.feeProtocolTokenX ∧ pool.feeProtocolTokenY ≤ r.pool.feeProtocolTokenY ∧
    r.pool.feeProtocolTokenX ≤ pool.feeProtocolTokenX + (if xToY then r.amountIn else 0) ∧
    r.pool.feeProtocolTokenY ≤ pool.feeProtocolTokenY + (if xToY then 0 else r.amountIn) := by
  obtain ⟨_, _, _, h1, _⟩ := swap_ok h
  dsimp only at h1
  have hg := poolGrows_swap h1 hp
  obtain ⟨st, h2, _, _, e⟩ := calculateSwap_ind
    (P := fun st =>
      st.pool.feeProtocolTokenX ≤ pool.feeProtocolTokenX + (if xToY then st.totalIn else 0) ∧
      st.pool.feeProtocolTokenY ≤ pool.feeProtocolTokenY + (if xToY then 0 else st.totalIn)) h1 hp
    ⟨by simp, by simp⟩ (by
      intro st st' hP _ hi
      obtain ⟨target, info, rr, remaining, pl, tick, u, hi⟩ := swapIter_ok hi
      obtain ⟨f1, f2⟩ := addFee_full hi.fee
      dsimp only at f1 f2
      have fx : pl.feeProtocolTokenX = _ := congrArg Pool.feeProtocolTokenX f2
      have fy : pl.feeProtocolTokenY = _ := congrArg Pool.feeProtocolTokenY f2
      dsimp only at fx fy
      rw [hi.res]
      dsimp only
      have other : u.pool.feeProtocolTokenX ≤ pl.feeProtocolTokenX + (if xToY then u.total else 0) ∧
          u.pool.feeProtocolTokenY ≤ pl.feeProtocolTokenY + (if xToY then 0 else u.total) := by
        cases hi.upd with
        | cross ht hp _ _ hx =>
          have e := (cross_full hx).2.1
          dsimp only
          rw [e]
          simp
        | dust ht hp _ _ _ _ hf =>
          obtain ⟨g1, g2⟩ := addFee_full hf
          have gx : _ = _ := congrArg Pool.feeProtocolTokenX g2
          have gy : _ = _ := congrArg Pool.feeProtocolTokenY g2
          dsimp only at gx gy g1
          dsimp only
          rw [gx, gy]
          constructor <;> split_ifs <;> omega
        | _ => simp
      cases xToY
      · simp only [Bool.false_eq_true, if_false] at *
        omega
      · simp only [if_true] at *
        omega)
  rw [e] at hg ⊢
  exact ⟨hg.protoX, hg.protoY, h2.1, h2.2⟩

/-- C40: withdrawing pays exactly the accumulated amounts to the caller (who is the receiver), changes
no other balance and resets them. -/
theorem C40_withdraw {key : PoolKey} {x y : Nat} (hr : Reach s)
    (h : withdrawProtocolFee env s key = .ok (s', x, y)) :
    ∃ pool, s.pools.get key = some pool ∧ pool.feeReceiver = env.caller ∧
      x = pool.feeProtocolTokenX ∧ y = pool.feeProtocolTokenY ∧
      s'.pools.get key = some { pool with feeProtocolTokenX := 0, feeProtocolTokenY := 0 } ∧
      bal s'.balances env.caller key.tokenX = bal s.balances env.caller key.tokenX + x ∧
      bal s'.balances env.caller key.tokenY = bal s.balances env.caller key.tokenY + y ∧
      ∀ a t, (a ≠ env.caller ∨ (t ≠ key.tokenX ∧ t ≠ key.tokenY)) →
        bal s'.balances a t = bal s.balances a t := by
  obtain ⟨pool, b1, b2, h1, h2, h3, h4, e⟩ := withdrawProtocolFee_ok h
  simp only [Prod.mk.injEq] at e
  obtain ⟨rfl, rfl, rfl⟩ := e
  obtain ⟨c1, c2, c3⟩ := credit_two (poolKey_ne hr h1) h3 h4
  exact ⟨pool, h1, h2, rfl, rfl, by dsimp only; rw [Map.get_insert, if_pos rfl], c1, c2, c3⟩

/-- C40: a second withdrawal succeeds and pays nothing. -/
theorem C40_twice {key : PoolKey} {x y : Nat} {env' : Env}
    (h : withdrawProtocolFee env s key = .ok (s', x, y)) (hc : env'.caller = env.caller) :
    ∃ s'', withdrawProtocolFee env' s' key = .ok (s'', 0, 0) ∧ s''.balances = s'.balances := by
  obtain ⟨pool, b1, b2, h1, h2, h3, h4, e⟩ := withdrawProtocolFee_ok h
  simp only [Prod.mk.injEq] at e
  obtain ⟨rfl, rfl, rfl⟩ := e
  have hz : ∀ t, increaseTokenBalance b2 t env.caller 0 = .ok b2 := fun t => increase_ok.2 (.inl ⟨rfl, rfl⟩)
  have hg : (s.pools.insert key { pool with feeProtocolTokenX := 0, feeProtocolTokenY := 0 }).get key
      = some { pool with feeProtocolTokenX := 0, feeProtocolTokenY := 0 } := by
    rw [Map.get_insert, if_pos rfl]
  unfold withdrawProtocolFee
  rw [poolsGet_ok.2 hg, ok_bind, hc, failIf_neg (by simpa using h2), ok_bind]
  unfold Pool.withdrawProtocolFee
  dsimp only
  rw [poolsUpdate_ok.2 ⟨⟨_, hg⟩, rfl⟩, ok_bind, hz, ok_bind, hz, ok_bind]
  exact ⟨_, rfl, rfl⟩

/-- after the swap the admin collects 10% of the fees (rounded up per step), then nothing -/
example : (withdrawProtocolFee (Demo.by_ 1) Demo.traded Demo.key).toOption.map (·.2) = some (2199, 0) ∧
    ((withdrawProtocolFee (Demo.by_ 1) Demo.traded Demo.key).toOption.bind
      (fun r => (withdrawProtocolFee (Demo.by_ 1) r.1 Demo.key).toOption)).map (·.2) = some (0, 0) := by
  decide +kernel

end Verif
