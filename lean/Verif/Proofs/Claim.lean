import Verif.Proofs.Accept

/-! # When claiming the fees of a position succeeds -/

set_option exponentiation.threshold 1000

namespace Verif
open Service Spec

variable {env : Env} {s s' : Inv}

/-! ### the liquidity counter of a pool is a 256-bit number -/

theorem iter_liqLt {a : SwapArgs} {st st' : SwapState} (h : swapIter s a st = .ok st')
    (hP : st.pool.liquidity < 2 ^ 256) : st'.pool.liquidity < 2 ^ 256 := by
  obtain ⟨target, info, r, remaining, pool, tick, u, h⟩ := swapIter_ok h
  have hpl : pool.liquidity = st.pool.liquidity := by rw [(addFee_full h.fee).2]
  rw [h.res]
  cases h.upd with
  | cross ht hp _ _ hx =>
    have e := (cross_full hx).2.2
    dsimp only at e ⊢
    split at e <;> omega
  | dust ht hp _ _ _ _ hf =>
    have e := (addFee_full hf).2
    dsimp only
    rw [e]
    dsimp only
    omega
  | _ => dsimp only; omega

theorem modify_liqLt {p : Position} {pool : Pool} {u l : Tick} {delta now sp : Nat} {add : Bool}
    {m : ModifyResult} (h : ModifyOk p pool u l delta add now sp m) (hp : pool.liquidity < 2 ^ 256) :
    m.pool.liquidity < 2 ^ 256 := by
  by_cases hc : l.index ≤ pool.currentTickIndex ∧ pool.currentTickIndex < u.index
  · cases add with
    | true => exact (h.pool.add rfl hc.1 hc.2).2
    | false => have := h.pool.sub rfl hc.1 hc.2; dsimp only at this; omega
  · have := h.pool.out hc; dsimp only at this; omega

theorem reach_liqLt : ∀ s, Reach s → ∀ k p, s.pools.get k = some p → p.liquidity < 2 ^ 256 := by
  refine reach_ind ?_ ?_ ?_
  · intro a f k p h; simp [Inv.init] at h
  · intro s b aw h; exact h
  · intro env s s' hr hw he
    have ins : ∀ (k : PoolKey) (q : Pool), q.liquidity < 2 ^ 256 →
        ∀ k' p, (s.pools.insert k q).get k' = some p → p.liquidity < 2 ^ 256 := by
      intro k q hq k' p hp
      rw [Map.get_insert] at hp
      split at hp
      · cases hp; exact hq
      · exact hw k' p hp
    cases he with
    | other => exact hw
    | newPool _ _ _ hp =>
      refine ins _ _ ?_
      simp only [Pool.create, bind_ok_iff, unwrap_ok_iff, pure_ok_iff] at hp
      obtain ⟨_, _, _, _, _, h, rfl⟩ := hp
      dsimp only
      norm_num
    | poolField hp hq =>
      refine ins _ _ ?_
      have := hw _ _ hp
      rw [hq]; exact this
    | create h =>
      obtain ⟨pool, lt, ut, m, b, tm1, tm2, h, _⟩ := createPosition_full (reach_wf s hr).indexed h
      rw [h.res]
      exact ins _ _ (modify_liqLt h.mod (hw _ _ h.hpool))
    | remove h =>
      obtain ⟨p, lower, upper, pool, m, ps, b, tm1, tm2, h, _⟩ :=
        removePosition_full (reach_wf s hr).indexed h
      rw [h.res]
      exact ins _ _ (modify_liqLt h.mod (hw _ _ h.hpool))
    | claim h =>
      obtain ⟨p, lower, upper, pool, m, ps, b, h, _⟩ := claimFee_full (reach_wf s hr).indexed h
      rw [h.res]
      exact ins _ _ (modify_liqLt h.mod (hw _ _ h.hpool))
    | transfer h => exact hw
    | @swap key xToY byIn amount limit r h =>
      obtain ⟨ticks, b1, b2, h1, h2, h3, h4, e⟩ := swap_ok h
      obtain ⟨p, hp, _⟩ := calculateSwap_pool h1
      obtain ⟨st, hst, _, _, er⟩ := calculateSwap_ind (P := fun st => st.pool.liquidity < 2 ^ 256) h1 hp
        (hw _ _ hp) (fun st st' hP _ hi => iter_liqLt hi hP)
      rw [e]
      refine ins _ _ ?_
      rw [er]; exact hst

/-! ### the parts of the call -/

theorem posUpdate_same {p : Position} {gx gy : Nat} (hl : p.liquidity ≠ 0) (hl2 : p.liquidity < 2 ^ 256)
    (hgx : fgSub gx p.feeGrowthInsideX < 2 ^ 128) (hgy : fgSub gy p.feeGrowthInsideY < 2 ^ 128)
    (hx : p.tokensOwedX + fgSub gx p.feeGrowthInsideX * p.liquidity / 10 ^ 33 < 2 ^ 256)
    (hy : p.tokensOwedY + fgSub gy p.feeGrowthInsideY * p.liquidity / 10 ^ 33 < 2 ^ 256) :
    ∃ p', p.update true 0 gx gy = .ok p' := by
  have fee : ∀ g, g < 2 ^ 128 → g * p.liquidity / 10 ^ 33 < 2 ^ 256 →
      fgToFee g p.liquidity = .ok (g * p.liquidity / 10 ^ 33) := by
    intro g hg hf
    unfold fgToFee
    have h1 : g * p.liquidity < 2 ^ 384 := by
      calc g * p.liquidity < 2 ^ 128 * 2 ^ 256 := Nat.mul_lt_mul'' hg hl2
        _ = 2 ^ 384 := by norm_num
    refine bind_ok_iff.2 ⟨_, mulC_ok_iff.2 ⟨h1, rfl⟩, ?_⟩
    have e : g * p.liquidity / liqOne / fgOne = g * p.liquidity / 10 ^ 33 := by
      rw [Nat.div_div_eq_div_mul]
      unfold liqOne fgOne
      norm_num
    rw [e]
    exact fit_ok_iff.2 ⟨hf, rfl⟩
  unfold Position.update
  rw [failIf_neg (by omega), ok_bind, fee _ hgx (by omega), ok_bind, fee _ hgy (by omega), ok_bind]
  unfold Position.calculateNewLiquidity
  rw [failIf_neg (by simp), ok_bind, if_pos rfl]
  refine ⟨_, bind_ok_iff.2 ⟨_, addC_ok_iff.2 ⟨by omega, rfl⟩, bind_ok_iff.2 ⟨_, addC_ok_iff.2 ⟨hx, rfl⟩,
    bind_ok_iff.2 ⟨_, addC_ok_iff.2 ⟨hy, rfl⟩, rfl⟩⟩⟩⟩

/-! ### the call -/

/-- the fees of a position can be claimed if they fit -/
theorem claim_succeeds (h : Reach32 s) {index : Nat} {p : Position} {pool : Pool} {lower upper : Tick}
    (hp : s.positions.get env.caller index = .ok p) (hpl : s.pools.get p.poolKey = some pool)
    (hlo : s.ticks.get (p.poolKey, p.lowerTickIndex) = some lower)
    (hup : s.ticks.get (p.poolKey, p.upperTickIndex) = some upper)
    (n1 : lower.liquidityChange ≤ lower.liquidityGross) (n2 : upper.liquidityChange ≤ upper.liquidityGross)
    {fx fy : Nat} {r : Nat × Nat × Bool}
    (hfx : fx = fgSub (feeGrowthInside1 lower.index lower.feeGrowthOutsideX upper.index
      upper.feeGrowthOutsideX pool.currentTickIndex pool.feeGrowthGlobalX) p.feeGrowthInsideX *
        p.liquidity / 10 ^ 33)
    (hfy : fy = fgSub (feeGrowthInside1 lower.index lower.feeGrowthOutsideY upper.index
      upper.feeGrowthOutsideY pool.currentTickIndex pool.feeGrowthGlobalY) p.feeGrowthInsideY *
        p.liquidity / 10 ^ 33)
    (ha : calculateAmountDelta pool.currentTickIndex pool.sqrtPrice 0 true p.upperTickIndex
      p.lowerTickIndex = .ok r)
    (hx : balOf s.balances env.caller p.poolKey.tokenX + fx < 2 ^ 256)
    (hy : balOf s.balances env.caller p.poolKey.tokenY + fy < 2 ^ 256) :
    ∃ s', claimFee env s index = .ok (s', fx, fy) := by
  have hr := (reach32_reach s h).1
  have hw := reach_wf s hr
  have hac := reach_acc s hr
  have hpm := posGet_ok.1 hp
  have hP := (hw.pos _ _ hpm).1
  obtain ⟨hT, hne⟩ := (reach_tiers hr).pools _ (by rw [hpl]; rfl)
  have i1 : lower.index = p.lowerTickIndex := hw.indexed _ _ _ hlo
  have i2 : upper.index = p.upperTickIndex := hw.indexed _ _ _ hup
  have hcap : calculateMaxLiquidityPerTick p.poolKey.feeTier.tickSpacing ≤ 2 ^ 256 := by
    unfold calculateMaxLiquidityPerTick
    exact le_trans (Nat.div_le_self _ _) (Nat.sub_le _ _)
  have c1 := (hw.tick _ _ _ hlo).1.cap
  have c2 := (hw.tick _ _ _ hup).1.cap
  have hn : ∀ t : Tick, t.net.natAbs = t.liquidityChange := by
    intro t; unfold Tick.net; cases t.sign <;> simp
  obtain ⟨l', hl'⟩ := tickUpdate_dep (t := lower) (delta := 0) (u := false) hcap c1
    (by rw [hn]; omega)
  obtain ⟨u', hu'⟩ := tickUpdate_dep (t := upper) (delta := 0) (u := true) hcap c2
    (by rw [hn]; omega)
  have U1 := tickUpdate_full hl'
  have U2 := tickUpdate_full hu'
  have A := hac.pool _ _ hpl
  have B := hac.tick _ _ hlo
  have C := hac.tick _ _ hup
  have D := hac.pos _ _ hpm
  have bx := feeGrowthInside1_lt (lo := lower.index) (hi := upper.index)
    (cur := pool.currentTickIndex) B.1 C.1 A.1
  have by_ := feeGrowthInside1_lt (lo := lower.index) (hi := upper.index)
    (cur := pool.currentTickIndex) B.2 C.2 A.2
  obtain ⟨p', hp'⟩ := posUpdate_same (p := p) hP.liq hP.liqLt (fgSub_lt bx D.1) (fgSub_lt by_ D.2.1)
    (by rw [← hfx, D.2.2.1]; omega) (by rw [← hfy, D.2.2.2]; omega)
  obtain ⟨q, hq⟩ := updateLiquidity_dep (pool := { pool with lastTimestamp := env.now }) ha
    (fun _ _ => reach_liqLt s hr _ _ hpl)
  have hmod : p.modify pool upper lower 0 true env.now p.poolKey.feeTier.tickSpacing =
      .ok ⟨p', q.1, u', l', q.2.1, q.2.2⟩ := by
    unfold Position.modify
    refine bind_ok_iff.2 ⟨_, hl', bind_ok_iff.2 ⟨_, hu', ?_⟩⟩
    dsimp only
    rw [U1.index, U2.index, U1.outX, U1.outY, U2.outX, U2.outY]
    refine bind_ok_iff.2 ⟨_, hp', ?_⟩
    rw [i1, i2]
    exact bind_ok_iff.2 ⟨_, hq, rfl⟩
  have hM := modify_full hmod
  have ox : p'.tokensOwedX = fx := by
    have := hM.pos.owedX
    dsimp only at this
    rw [this, D.2.2.1, Nat.zero_add, ← hfx]
  have oy : p'.tokensOwedY = fy := by
    have := hM.pos.owedY
    dsimp only at this
    rw [this, D.2.2.2, Nat.zero_add, ← hfy]
  have hcl : p.claimFee pool upper lower env.now =
      .ok ⟨{ p' with tokensOwedX := 0, tokensOwedY := 0 }, q.1, u', l', fx, fy⟩ := by
    unfold Position.claimFee
    refine bind_ok_iff.2 ⟨_, unwrap_ok_iff.2 hmod, ?_⟩
    rw [← ox, ← oy]
    rfl
  have j1 : l'.index = p.lowerTickIndex := U1.index.trans i1
  have j2 : u'.index = p.upperTickIndex := U2.index.trans i2
  obtain ⟨Ls, hLs⟩ := reach32_listed s h
  have hidx : index < (Ls env.caller).length := by
    have := posRepr_get hLs env.caller index
    rw [hp] at this
    cases hc : (Ls env.caller)[index]? with
    | none => rw [hc] at this; cases this
    | some v => exact (List.getElem?_eq_some_iff.1 hc).1
  obtain ⟨ps, hps, -⟩ := (posRepr_update hLs env.caller index
    { p' with tokensOwedX := 0, tokensOwedY := 0 }).1 hidx
  obtain ⟨b1, hb1⟩ := increase_succeeds (b := s.balances) (t := p.poolKey.tokenX) (who := env.caller)
    (n := fx) hx
  obtain ⟨b2, hb2⟩ := increase_succeeds (b := b1) (t := p.poolKey.tokenY) (who := env.caller)
    (n := fy) (by
      rw [increase_bal hb1, if_neg]
      · exact hy
      · rintro ⟨_, e⟩; rw [e] at hne; exact lt_irrefl _ hne)
  refine ⟨{ s with positions := ps
                   pools := s.pools.insert p.poolKey q.1
                   ticks := (s.ticks.insert (p.poolKey, u'.index) u').insert (p.poolKey, l'.index) l'
                   balances := b2 }, ?_⟩
  unfold claimFee
  refine bind_ok_iff.2 ⟨p, hp, bind_ok_iff.2 ⟨lower, ticksGet_ok.2 hlo, bind_ok_iff.2 ⟨upper,
    ticksGet_ok.2 hup, bind_ok_iff.2 ⟨pool, poolsGet_ok.2 hpl, bind_ok_iff.2 ⟨_, hcl,
    bind_ok_iff.2 ⟨ps, hps, bind_ok_iff.2 ⟨_, poolsUpdate_ok.2 ⟨⟨pool, hpl⟩, rfl⟩,
    bind_ok_iff.2 ⟨_, ticksUpdate_ok.2 ⟨⟨upper, by rw [j2]; exact hup⟩, rfl⟩,
    bind_ok_iff.2 ⟨_, ticksUpdate_ok.2 ⟨⟨lower, ?_⟩, rfl⟩, bind_ok_iff.2 ⟨b1, hb1,
    bind_ok_iff.2 ⟨b2, hb2, rfl⟩⟩⟩⟩⟩⟩⟩⟩⟩⟩⟩
  rw [j1, j2, Map.get_insert, if_neg]
  · exact hlo
  · intro e; have := (Prod.mk.inj e).2; have := hP.lt; omega

end Verif
