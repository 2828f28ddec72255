import Verif.Proofs.Exit

/-! # When creating a position succeeds -/

set_option exponentiation.threshold 1000

namespace Verif
open Service Spec

variable {env : Env} {s s' : Inv}

theorem tickUpdate_dep {t : Tick} {delta m : Nat} {u : Bool} (hm : m ≤ 2 ^ 256)
    (hg : t.liquidityGross + delta < m) (hn : t.net.natAbs + delta < 2 ^ 256) :
    ∃ t', t.update delta m u true = .ok t' := by
  unfold Tick.update Tick.calculateNewLiquidityGross
  rw [failIf_neg (by simp), ok_bind, if_pos rfl]
  have h1 : addC 256 .track t.liquidityGross delta = .ok (t.liquidityGross + delta) :=
    addC_ok_iff.2 ⟨by omega, rfl⟩
  rw [h1, ok_bind, failIf_neg (by omega), ok_bind]
  change ∃ t', Tick.updateLiquidityChange _ delta (xor true u) = .ok t'
  unfold Tick.updateLiquidityChange
  have hc : t.net.natAbs = t.liquidityChange := by
    unfold Tick.net; cases t.sign <;> simp
  by_cases hx : (xor t.sign (xor true u)) = true
  · rw [if_pos hx]
    split <;> exact ⟨_, rfl⟩
  · rw [if_neg hx]
    exact ⟨_, bind_ok_iff.2 ⟨_, addC_ok_iff.2 ⟨by rw [hc] at hn; exact hn, rfl⟩, rfl⟩⟩

theorem posUpdate_new {p : Position} {delta gx gy : Nat} (h0 : p.liquidity = 0) (hx : p.tokensOwedX = 0)
    (hy : p.tokensOwedY = 0) (hd : delta ≠ 0) (hlt : delta < 2 ^ 256) :
    ∃ p', p.update true delta gx gy = .ok p' := by
  have fee : ∀ g, fgToFee g 0 = .ok 0 := by
    intro g
    unfold fgToFee
    refine bind_ok_iff.2 ⟨0, mulC_ok_iff.2 ⟨by simp, by simp⟩, ?_⟩
    exact fit_ok_iff.2 ⟨by simp, by simp⟩
  unfold Position.update
  rw [failIf_neg (by omega), ok_bind, h0, fee, ok_bind, fee, ok_bind]
  unfold Position.calculateNewLiquidity
  rw [failIf_neg (by simp), ok_bind, if_pos rfl, h0, hx, hy]
  refine ⟨_, bind_ok_iff.2 ⟨_, addC_ok_iff.2 ⟨by omega, rfl⟩, bind_ok_iff.2 ⟨_, addC_ok_iff.2 ⟨by norm_num, rfl⟩,
    bind_ok_iff.2 ⟨_, addC_ok_iff.2 ⟨by norm_num, rfl⟩, rfl⟩⟩⟩⟩

theorem updateLiquidity_dep {pool : Pool} {L : Nat} {u l : Int} {r : Nat × Nat × Bool}
    (h : calculateAmountDelta pool.currentTickIndex pool.sqrtPrice L true u l = .ok r)
    (hL : l ≤ pool.currentTickIndex → pool.currentTickIndex < u → pool.liquidity + L < 2 ^ 256) :
    ∃ q, pool.updateLiquidity L true u l = .ok q := by
  obtain ⟨x, y, i⟩ := r
  obtain ⟨_, _, _, _, _, _, _, hi, _⟩ := calculateAmountDelta_ok h
  unfold Pool.updateLiquidity
  rw [h, ok_bind]
  dsimp only
  by_cases hc : i = false
  · rw [if_pos hc]; exact ⟨_, rfl⟩
  · rw [if_neg hc, if_pos rfl]
    have hin := hi.1 (by simpa using hc)
    exact ⟨_, bind_ok_iff.2 ⟨_, addC_ok_iff.2 ⟨hL hin.1 hin.2, rfl⟩, rfl⟩⟩

theorem decrease_succeeds {b : Balances} {t who : ActorId} {n : Nat} (h : n ≤ balOf b who t) :
    ∃ r, decreaseTokenBalance b t who (some n) = .ok r := by
  by_cases h0 : n = 0
  · exact ⟨_, decrease_some_ok.2 (.inl ⟨h0, rfl⟩)⟩
  · cases hb : b.get (who, t) with
    | none => unfold balOf at h; rw [hb] at h; simp at h; exact absurd h h0
    | some v =>
      unfold balOf at h; rw [hb] at h
      exact ⟨_, decrease_some_ok.2 (.inr ⟨h0, v, hb, h, rfl⟩)⟩

theorem getOrCreate_succeeds {now : Nat} {key : PoolKey} {i : Int} {pool : Pool}
    (hk : 1 ≤ key.feeTier.tickSpacing) (hp : s.pools.get key = some pool)
    (hg : Grid key.feeTier.tickSpacing i) : ∃ r, getOrCreateTick s now key i = .ok r := by
  unfold getOrCreateTick
  cases ht : s.ticks.get (key, i) with
  | some t => exact ⟨_, rfl⟩
  | none =>
    have h1 := (checkTick_grid hk).2 hg
    have h2 := poolsGet_ok.2 hp
    have h3 := calculateSqrtPrice_eq hg.2.1 hg.2.2
    have h4 : ∃ t, createTick s now key i = .ok t := by
      unfold createTick
      rw [h1, h2]
      simp only [mapErr, ok_bind]
      unfold Tick.create
      rw [h3]
      exact ⟨_, rfl⟩
    obtain ⟨t, h4⟩ := h4
    exact ⟨_, bind_ok_iff.2 ⟨_, unwrap_ok_iff.2 h4, rfl⟩⟩

theorem putTick_succeeds {key : PoolKey} {t : Tick} {b : Bool}
    (h1 : b = true → s.ticks.get (key, t.index) = none ∧ Grid key.feeTier.tickSpacing t.index ∧
      tmBit s.tickmap key (bitmapIndex t.index key.feeTier.tickSpacing) = false)
    (h2 : b = false → ∃ q, s.ticks.get (key, t.index) = some q) :
    ∃ s', putTick s key t b = .ok s' := by
  unfold putTick
  cases b with
  | true =>
    obtain ⟨a1, a2, a3⟩ := h1 rfl
    exact ⟨_, addTick_ok.2 ⟨a1, _, tickmapFlip_ok_iff.2 ⟨a2, a3, rfl⟩, rfl⟩⟩
  | false =>
    exact ⟨_, bind_ok_iff.2 ⟨_, ticksUpdate_ok.2 ⟨h2 rfl, rfl⟩, rfl⟩⟩

/-- a position can be created if its token amounts can be computed and paid, both ticks have room, and the
pool's counter has room when it is in range -/
theorem create_succeeds (hr : Reach s) {key : PoolKey} {lower upper : Int} {delta ll lu : Nat} {pool : Pool}
    (hp : s.pools.get key = some pool) (hd : delta ≠ 0) (hlt : lower < upper)
    (hgl : Grid key.feeTier.tickSpacing lower) (hgu : Grid key.feeTier.tickSpacing upper)
    (hll : ll ≤ pool.sqrtPrice) (hlu : pool.sqrtPrice ≤ lu)
    (g1 : tG s.ticks key lower + delta < calculateMaxLiquidityPerTick key.feeTier.tickSpacing)
    (g2 : tG s.ticks key upper + delta < calculateMaxLiquidityPerTick key.feeTier.tickSpacing)
    (n1 : (tN s.ticks key lower).natAbs + delta < 2 ^ 256)
    (n2 : (tN s.ticks key upper).natAbs + delta < 2 ^ 256)
    {x y : Nat} {i : Bool}
    (ha : calculateAmountDelta pool.currentTickIndex pool.sqrtPrice delta true upper lower = .ok (x, y, i))
    (hL : lower ≤ pool.currentTickIndex → pool.currentTickIndex < upper →
      pool.liquidity + delta < 2 ^ 256)
    (hx : x ≤ balOf s.balances env.caller key.tokenX) (hy : y ≤ balOf s.balances env.caller key.tokenY) :
    ∃ r, createPosition env s key lower upper delta ll lu = .ok r := by
  have hw := reach_wf s hr
  obtain ⟨hT, hne⟩ := (reach_tiers hr).pools _ (by rw [hp]; rfl)
  obtain ⟨lt, hlo⟩ := getOrCreate_succeeds (now := env.now) hT.1 hp hgl
  obtain ⟨ut, hup⟩ := getOrCreate_succeeds (now := env.now) hT.1 hp hgu
  obtain ⟨i1, -, -, c1, d1⟩ := getOrCreate_grid hw hT.1 hlo
  obtain ⟨i2, -, -, c2, d2⟩ := getOrCreate_grid hw hT.1 hup
  have hcap : calculateMaxLiquidityPerTick key.feeTier.tickSpacing ≤ 2 ^ 256 := by
    unfold calculateMaxLiquidityPerTick
    exact le_trans (Nat.div_le_self _ _) (Nat.sub_le _ _)
  rw [(getOrCreate_tG hlo).1] at g1
  rw [(getOrCreate_tG hup).1] at g2
  rw [(getOrCreate_tG hlo).2] at n1
  rw [(getOrCreate_tG hup).2] at n2
  obtain ⟨l', hl'⟩ := tickUpdate_dep (u := false) hcap g1 n1
  obtain ⟨u', hu'⟩ := tickUpdate_dep (u := true) hcap g2 n2
  have U1 := tickUpdate_full hl'
  have U2 := tickUpdate_full hu'
  obtain ⟨q, hq⟩ := updateLiquidity_dep (pool := { pool with lastTimestamp := env.now }) ha hL
  let p0 : Position :=
    { poolKey := key, liquidity := 0, lowerTickIndex := lt.1.index, upperTickIndex := ut.1.index,
      feeGrowthInsideX := 0, feeGrowthInsideY := 0, lastBlockNumber := env.block, tokensOwedX := 0,
      tokensOwedY := 0 }
  obtain ⟨p', hp'⟩ := posUpdate_new (p := p0)
    (gx := feeGrowthInside1 lt.1.index lt.1.feeGrowthOutsideX ut.1.index ut.1.feeGrowthOutsideX
      pool.currentTickIndex pool.feeGrowthGlobalX)
    (gy := feeGrowthInside1 lt.1.index lt.1.feeGrowthOutsideY ut.1.index ut.1.feeGrowthOutsideY
      pool.currentTickIndex pool.feeGrowthGlobalY) rfl rfl rfl hd (by omega)
  have hmod : p0.modify pool ut.1 lt.1 delta true env.now
      key.feeTier.tickSpacing = .ok ⟨p', q.1, u', l', q.2.1, q.2.2⟩ := by
    unfold Position.modify
    refine bind_ok_iff.2 ⟨_, hl', bind_ok_iff.2 ⟨_, hu', ?_⟩⟩
    dsimp only
    rw [U1.index, U2.index, U1.outX, U1.outY, U2.outX, U2.outY]
    refine bind_ok_iff.2 ⟨_, hp', ?_⟩
    rw [i1, i2]
    exact bind_ok_iff.2 ⟨_, hq, rfl⟩
  have hM := modify_full hmod
  have ex : q.2.1 = x ∧ q.2.2 = y := by
    obtain ⟨j, hj⟩ := hM.pool.amounts
    rw [i1, i2] at hj
    dsimp only at hj
    rw [ha] at hj
    cases hj
    exact ⟨rfl, rfl⟩
  obtain ⟨b1, hb1⟩ := decrease_succeeds (b := s.balances) (t := key.tokenX) (who := env.caller) (n := x) hx
  obtain ⟨b2, hb2⟩ := decrease_succeeds (b := b1.1) (t := key.tokenY) (who := env.caller) (n := y) (by
    have h1 := (decrease_bal hb1 env.caller key.tokenY).1
    rw [if_neg] at h1
    · rw [← Nat.add_zero (balOf b1.1 _ _), ← h1]; exact hy
    · rintro ⟨_, e⟩; rw [e] at hne; exact lt_irrefl _ hne)
  have j1 : l'.index = lower := U1.index.trans i1
  have j2 : u'.index = upper := U2.index.trans i2
  obtain ⟨s1, hs1⟩ := putTick_succeeds (s := { s with balances := b2.1, pools := s.pools.insert key q.1, positions := s.positions.add env.caller p' }) (key := key) (t := l') (b := lt.2)
    (fun hb => ⟨by rw [j1]; exact (c1 hb).1, by rw [j1]; exact hgl, by
      have := hw.bit key lower hT.1 hgl
      rw [(c1 hb).1] at this
      rw [j1]; exact this⟩)
    (fun hb => ⟨_, by rw [j1]; exact d1 hb⟩)
  obtain ⟨e1, e2, e3, -⟩ := putTick_ok hs1
  have hk : (key, upper) ≠ (key, lower) := by
    intro e; have := (Prod.mk.inj e).2; omega
  have eT : s1.ticks.get (key, upper) = s.ticks.get (key, upper) := by
    rw [e1, j1, Map.get_insert, if_neg hk]
  have eB : tmBit s1.tickmap key (bitmapIndex upper key.feeTier.tickSpacing) =
      tmBit s.tickmap key (bitmapIndex upper key.feeTier.tickSpacing) := by
    cases hb : lt.2 with
    | true =>
      rw [tmBit_flip (e2 hb).2, if_neg]
      rintro ⟨_, e⟩
      rw [j1] at e
      have := bitmapIndex_inj hT.1 hgu hgl e
      omega
    | false => rw [(e3 hb).2]
  obtain ⟨s2, hs2⟩ := putTick_succeeds (s := s1) (key := key) (t := u') (b := ut.2)
    (fun hb => ⟨by rw [j2, eT]; exact (c2 hb).1, by rw [j2]; exact hgu, by
      have := hw.bit key upper hT.1 hgu
      rw [(c2 hb).1] at this
      rw [j2, eB]; exact this⟩)
    (fun hb => ⟨_, by rw [j2, eT]; exact d2 hb⟩)
  refine ⟨(s2, p'), ?_⟩
  unfold createPosition
  rw [failIf_neg hd, ok_bind, failIf_neg (by omega), ok_bind]
  refine bind_ok_iff.2 ⟨pool, poolsGet_ok.2 hp, bind_ok_iff.2 ⟨lt, hlo, bind_ok_iff.2 ⟨ut, hup,
    bind_ok_iff.2 ⟨⟨p', q.1, u', l', x, y⟩, ?_, bind_ok_iff.2 ⟨b1, hb1, bind_ok_iff.2 ⟨b2, hb2,
    bind_ok_iff.2 ⟨_, poolsUpdate_ok.2 ⟨⟨pool, hp⟩, rfl⟩, bind_ok_iff.2 ⟨s1, hs1, bind_ok_iff.2 ⟨s2, hs2,
    rfl⟩⟩⟩⟩⟩⟩⟩⟩⟩
  unfold Position.create
  rw [failIf_neg (by omega), ok_bind]
  rw [← ex.1, ← ex.2]
  exact unwrap_ok_iff.2 hmod

end Verif
