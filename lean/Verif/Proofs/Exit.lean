import Verif.Proofs.Ledger
import Verif.Proofs.PriceRange
import Verif.Proofs.PoolKeys
import Verif.Proofs.AccInv

/-! # When removing a position succeeds -/

set_option exponentiation.threshold 1000

namespace Verif
open Service Spec

variable {env : Env} {s s' : Inv}

theorem Map.sum_natCast {K V : Type} [DecidableEq K] (m : Map K V) (f : K → V → Nat) :
    ((m.sum f : Nat) : Int) = m.sum fun k v => (f k v : Int) := by
  unfold Map.sum
  induction m.entries with
  | nil => rfl
  | cons e l ih => simp only [List.map_cons, List.sum_cons, Nat.cast_add, ih]

theorem Map.sum_neg {K V : Type} [DecidableEq K] (m : Map K V) (f : K → V → Int) :
    -(m.sum f) = m.sum fun k v => -f k v := by
  unfold Map.sum
  induction m.entries with
  | nil => rfl
  | cons e l ih => simp only [List.map_cons, List.sum_cons, neg_add, ih]

/-! ### the ticks of a stored position -/

/-- twice a position's liquidity is at most gross plus net at its lower tick, and gross minus net at
its upper tick -/
theorem pos_in_ledger (hw : StoreWF s) {k : ActorId × Nat} {p : Position}
    (hp : s.positions.map.get k = some p) :
    2 * (p.liquidity : Int) ≤ grossLiq s p.poolKey p.lowerTickIndex +
      netOfPositions s p.poolKey p.lowerTickIndex ∧
    2 * (p.liquidity : Int) ≤ grossLiq s p.poolKey p.upperTickIndex -
      netOfPositions s p.poolKey p.upperTickIndex := by
  have hne := ne_of_lt (hw.pos k p hp).1.lt
  have hsum : ∀ i, (grossLiq s p.poolKey i : Int) =
      s.positions.map.sum (fun _ q => (gC p.poolKey i q : Int)) := by
    intro i
    rw [grossLiq_eq]
    unfold posSum
    rw [Map.sum_natCast]
  have habs : ∀ i k q, s.positions.map.get k = some q →
      (nC p.poolKey i q).natAbs = gC p.poolKey i q := fun i k q hq =>
    nC_abs _ _ _ (ne_of_lt (hw.pos k q hq).1.lt)
  constructor
  · rw [hsum, netOf_eq]
    unfold posSum
    rw [← Map.sum_add]
    refine le_trans ?_ (Map.le_sum (f := fun _ q => (gC p.poolKey p.lowerTickIndex q : Int) +
      nC p.poolKey p.lowerTickIndex q) (fun k q hq => ?_) hp)
    · have h1 : gC p.poolKey p.lowerTickIndex p = p.liquidity := by simp [gC]
      have h2 : nC p.poolKey p.lowerTickIndex p = p.liquidity := by
        simp [nC, hne.symm]
      rw [h1, h2]; omega
    · have := habs p.lowerTickIndex k q hq
      omega
  · rw [hsum, netOf_eq]
    unfold posSum
    rw [sub_eq_add_neg, Map.sum_neg, ← Map.sum_add]
    refine le_trans ?_ (Map.le_sum (f := fun _ q => (gC p.poolKey p.upperTickIndex q : Int) +
      -nC p.poolKey p.upperTickIndex q) (fun k q hq => ?_) hp)
    · have h1 : gC p.poolKey p.upperTickIndex p = p.liquidity := by simp [gC]
      have h2 : nC p.poolKey p.upperTickIndex p = -p.liquidity := by
        simp [nC, hne]
      rw [h1, h2]; omega
    · have := habs p.upperTickIndex k q hq
      omega

theorem tickUpdate_wdr {t : Tick} {delta m : Nat} {u : Bool} (hg : delta ≤ t.liquidityGross)
    (hlt : t.liquidityGross < 2 ^ 256)
    (hn : 2 * (delta : Int) ≤ t.liquidityGross + if u then -t.net else t.net) :
    ∃ t', t.update delta m u false = .ok t' := by
  unfold Tick.update Tick.calculateNewLiquidityGross
  rw [failIf_neg (by omega), ok_bind]
  simp only [Bool.false_eq_true, if_false, false_and]
  have h1 : subC .track t.liquidityGross delta = .ok (t.liquidityGross - delta) :=
    subC_ok_iff.2 ⟨hg, rfl⟩
  rw [h1, ok_bind, failIf_neg (by simp), ok_bind]
  change ∃ t', Tick.updateLiquidityChange _ delta (xor false u) = .ok t'
  rw [Bool.false_xor]
  unfold Tick.updateLiquidityChange
  by_cases hx : (xor t.sign u) = true
  · rw [if_pos hx]
    split <;> exact ⟨_, rfl⟩
  · rw [if_neg hx]
    have h2 : t.liquidityChange + delta < 2 ^ 256 := by
      unfold Tick.net at hn
      cases hs : t.sign <;> cases u <;> simp [hs] at hx hn <;> omega
    refine ⟨_, bind_ok_iff.2 ⟨_, addC_ok_iff.2 ⟨h2, rfl⟩, rfl⟩⟩

/-- what the positions say about a stored tick of a stored position -/
theorem pos_stored_ticks (h : Reach32 s) {k : ActorId × Nat} {p : Position}
    (hp : s.positions.map.get k = some p) :
    ∃ lower upper, s.ticks.get (p.poolKey, p.lowerTickIndex) = some lower ∧
      s.ticks.get (p.poolKey, p.upperTickIndex) = some upper ∧
      p.liquidity ≤ lower.liquidityGross ∧ p.liquidity ≤ upper.liquidityGross ∧
      2 * (p.liquidity : Int) ≤ lower.liquidityGross + lower.net ∧
      2 * (p.liquidity : Int) ≤ upper.liquidityGross - upper.net := by
  have hr := (reach32_reach s h).1
  have hw := reach_wf s hr
  have hl := reach32_ledger s h
  obtain ⟨h1, h2⟩ := pos_in_ledger hw hp
  have hpos : ∀ i, (p.lowerTickIndex = i ∨ p.upperTickIndex = i) → p.liquidity ≤ grossLiq s p.poolKey i := by
    intro i hi
    have h1 : gC p.poolKey i p ≤ posSum s.positions (gC p.poolKey i) :=
      Map.le_sum (f := fun _ p' => gC p.poolKey i p') (fun _ _ _ => Nat.zero_le _) hp
    have h2 : gC p.poolKey i p = p.liquidity := by
      unfold gC; rw [if_pos ⟨rfl, hi⟩]
    rw [grossLiq_eq]; omega
  have hliq := (hw.pos k p hp).1.liq
  have get : ∀ i, (p.lowerTickIndex = i ∨ p.upperTickIndex = i) → ∃ t, s.ticks.get (p.poolKey, i) = some t := by
    intro i hi
    cases ht : s.ticks.get (p.poolKey, i) with
    | some t => exact ⟨t, rfl⟩
    | none =>
      have h3 := hl.gross p.poolKey i
      rw [tG_none ht] at h3
      have := hpos i hi
      omega
  obtain ⟨lo, hlo⟩ := get _ (.inl rfl)
  obtain ⟨up, hup⟩ := get _ (.inr rfl)
  have a1 := hl.gross p.poolKey p.lowerTickIndex
  have a2 := hl.gross p.poolKey p.upperTickIndex
  have a3 := hl.net p.poolKey p.lowerTickIndex
  have a4 := hl.net p.poolKey p.upperTickIndex
  rw [tG_some hlo] at a1
  rw [tG_some hup] at a2
  rw [tN_some hlo] at a3
  rw [tN_some hup] at a4
  rw [← a1, ← a3] at h1
  rw [← a2, ← a4] at h2
  exact ⟨lo, up, hlo, hup, by rw [a1]; exact hpos _ (.inl rfl), by rw [a2]; exact hpos _ (.inr rfl), h1, h2⟩

/-! ### the parts of the call -/

theorem posUpdate_wdr {p : Position} {gx gy : Nat} (hl : p.liquidity ≠ 0) (hl2 : p.liquidity < 2 ^ 256)
    (hgx : fgSub gx p.feeGrowthInsideX < 2 ^ 128) (hgy : fgSub gy p.feeGrowthInsideY < 2 ^ 128)
    (hx : p.tokensOwedX + fgSub gx p.feeGrowthInsideX * p.liquidity / 10 ^ 33 < 2 ^ 256)
    (hy : p.tokensOwedY + fgSub gy p.feeGrowthInsideY * p.liquidity / 10 ^ 33 < 2 ^ 256) :
    ∃ p', p.update false p.liquidity gx gy = .ok p' := by
  have fee : ∀ g, g < 2 ^ 128 → g * p.liquidity / 10 ^ 33 < 2 ^ 256 →
      fgToFee g p.liquidity = .ok (g * p.liquidity / 10 ^ 33) := by
    intro g hg hf
    unfold fgToFee
    have h1 : g * p.liquidity < 2 ^ 384 := by
      calc g * p.liquidity < 2 ^ 128 * 2 ^ 256 := Nat.mul_lt_mul'' hg hl2
        _ = 2 ^ 384 := by norm_num
    refine bind_ok_iff.2 ⟨_, mulC_ok_iff.2 ⟨h1, rfl⟩, ?_⟩
    have e : g * p.liquidity / liqOne / fgOne = g * p.liquidity / 10 ^ 33 := by
      rw [Nat.div_div_eq_div_mul]
      unfold liqOne fgOne
      norm_num
    rw [e]
    exact fit_ok_iff.2 ⟨hf, rfl⟩
  unfold Position.update
  rw [failIf_neg (by omega), ok_bind, fee _ hgx (by omega), ok_bind, fee _ hgy (by omega), ok_bind]
  unfold Position.calculateNewLiquidity
  rw [failIf_neg (by omega), ok_bind, if_neg (by simp)]
  refine ⟨_, bind_ok_iff.2 ⟨_, subC_ok_iff.2 ⟨le_refl _, rfl⟩, bind_ok_iff.2 ⟨_, addC_ok_iff.2 ⟨hx, rfl⟩,
    bind_ok_iff.2 ⟨_, addC_ok_iff.2 ⟨hy, rfl⟩, rfl⟩⟩⟩⟩

theorem updateLiquidity_wdr {pool : Pool} {L : Nat} {u l : Int} {r : Nat × Nat × Bool}
    (h : calculateAmountDelta pool.currentTickIndex pool.sqrtPrice L false u l = .ok r)
    (hL : l ≤ pool.currentTickIndex → pool.currentTickIndex < u → L ≤ pool.liquidity) :
    ∃ q, pool.updateLiquidity L false u l = .ok q := by
  obtain ⟨x, y, i⟩ := r
  obtain ⟨_, _, _, _, _, _, _, hi, _⟩ := calculateAmountDelta_ok h
  unfold Pool.updateLiquidity
  rw [h, ok_bind]
  dsimp only
  by_cases hc : i = false
  · rw [if_pos hc]; exact ⟨_, rfl⟩
  · rw [if_neg hc, if_neg (by simp)]
    have hin := hi.1 (by simpa using hc)
    exact ⟨_, bind_ok_iff.2 ⟨_, subC_ok_iff.2 ⟨hL hin.1 hin.2, rfl⟩, rfl⟩⟩

theorem dropTick_succeeds {key : PoolKey} {i : Int} {t q : Tick} (hi : t.index = i)
    (hq : s.ticks.get (key, i) = some q) (hg : Grid key.feeTier.tickSpacing i)
    (hb : tmBit s.tickmap key (bitmapIndex i key.feeTier.tickSpacing) = true) :
    ∃ s', dropTick s key i t = .ok s' := by
  unfold dropTick
  by_cases h0 : t.liquidityGross = 0
  · rw [if_pos h0]
    exact ⟨_, removeTick_ok.2 ⟨h0, ⟨q, by rw [hi]; exact hq⟩, _,
      tickmapFlip_ok_iff.2 ⟨by rw [hi]; exact hg, by rw [hi, hb]; rfl, rfl⟩, rfl⟩⟩
  · rw [if_neg h0]
    exact ⟨_, bind_ok_iff.2 ⟨_, ticksUpdate_ok.2 ⟨⟨q, hq⟩, rfl⟩, rfl⟩⟩

theorem increase_succeeds {b : Balances} {t who : ActorId} {n : Nat} (h : balOf b who t + n < 2 ^ 256) :
    ∃ b', increaseTokenBalance b t who n = .ok b' := by
  by_cases h0 : n = 0
  · exact ⟨b, increase_ok.2 (.inl ⟨h0, rfl⟩)⟩
  · exact ⟨_, increase_ok.2 (.inr ⟨h0, h, rfl⟩)⟩

/-! ### the call -/

/-- a position can be removed if its token amounts can be computed and fit, and the pool's counter
covers its liquidity when it is in range -/
theorem remove_succeeds (h : Reach32 s) {index : Nat} {p : Position} {pool : Pool} {lower upper : Tick}
    (hp : s.positions.get env.caller index = .ok p) (hpl : s.pools.get p.poolKey = some pool)
    (hlo : s.ticks.get (p.poolKey, p.lowerTickIndex) = some lower)
    (hup : s.ticks.get (p.poolKey, p.upperTickIndex) = some upper)
    {x y fx fy : Nat} {i : Bool}
    (hfx : fx = fgSub (feeGrowthInside1 lower.index lower.feeGrowthOutsideX upper.index
      upper.feeGrowthOutsideX pool.currentTickIndex pool.feeGrowthGlobalX) p.feeGrowthInsideX *
        p.liquidity / 10 ^ 33)
    (hfy : fy = fgSub (feeGrowthInside1 lower.index lower.feeGrowthOutsideY upper.index
      upper.feeGrowthOutsideY pool.currentTickIndex pool.feeGrowthGlobalY) p.feeGrowthInsideY *
        p.liquidity / 10 ^ 33)
    (ha : calculateAmountDelta pool.currentTickIndex pool.sqrtPrice p.liquidity false p.upperTickIndex
      p.lowerTickIndex = .ok (x, y, i))
    (hx : balOf s.balances env.caller p.poolKey.tokenX + (x + fx) < 2 ^ 256)
    (hy : balOf s.balances env.caller p.poolKey.tokenY + (y + fy) < 2 ^ 256)
    (hL : p.lowerTickIndex ≤ pool.currentTickIndex → pool.currentTickIndex < p.upperTickIndex →
      p.liquidity ≤ pool.liquidity) :
    ∃ r, removePosition env s index = .ok r := by
  have hr := (reach32_reach s h).1
  have hf := (reach32_reach s h).2
  have hw := reach_wf s hr
  have hac := reach_acc s hr
  have hpm := posGet_ok.1 hp
  have hP := (hw.pos _ _ hpm).1
  obtain ⟨lo, up, h1, h2, g1, g2, n1, n2⟩ := pos_stored_ticks h hpm
  rw [hlo] at h1; cases h1
  rw [hup] at h2; cases h2
  obtain ⟨hT, hne⟩ := (reach_tiers hr).pools _ (by rw [hpl]; rfl)
  have i1 : lower.index = p.lowerTickIndex := hw.indexed _ _ _ hlo
  have i2 : upper.index = p.upperTickIndex := hw.indexed _ _ _ hup
  have cap : ∀ {k j t}, s.ticks.get (k, j) = some t → t.liquidityGross < 2 ^ 256 := by
    intro k j t ht
    refine lt_of_lt_of_le (hw.tick _ _ _ ht).1.cap ?_
    unfold calculateMaxLiquidityPerTick
    exact le_trans (Nat.div_le_self _ _) (Nat.sub_le _ _)
  obtain ⟨l', hl'⟩ := tickUpdate_wdr (u := false) (m := calculateMaxLiquidityPerTick
    p.poolKey.feeTier.tickSpacing) g1 (cap hlo) (by simpa using n1)
  obtain ⟨u', hu'⟩ := tickUpdate_wdr (u := true) (m := calculateMaxLiquidityPerTick
    p.poolKey.feeTier.tickSpacing) g2 (cap hup) (by simpa [sub_eq_add_neg] using n2)
  have U1 := tickUpdate_full hl'
  have U2 := tickUpdate_full hu'
  have A := hac.pool _ _ hpl
  have B := hac.tick _ _ hlo
  have C := hac.tick _ _ hup
  have D := hac.pos _ _ hpm
  have bx := feeGrowthInside1_lt (lo := lower.index) (hi := upper.index)
    (cur := pool.currentTickIndex) B.1 C.1 A.1
  have by_ := feeGrowthInside1_lt (lo := lower.index) (hi := upper.index)
    (cur := pool.currentTickIndex) B.2 C.2 A.2
  obtain ⟨p', hp'⟩ := posUpdate_wdr (p := p) hP.liq hP.liqLt (fgSub_lt bx D.1) (fgSub_lt by_ D.2.1)
    (by rw [← hfx, D.2.2.1]; omega) (by rw [← hfy, D.2.2.2]; omega)
  obtain ⟨q, hq⟩ := updateLiquidity_wdr (pool := { pool with lastTimestamp := env.now }) ha hL
  have hmod : p.modify pool upper lower p.liquidity false env.now p.poolKey.feeTier.tickSpacing =
      .ok ⟨p', q.1, u', l', q.2.1, q.2.2⟩ := by
    unfold Position.modify
    refine bind_ok_iff.2 ⟨_, hl', bind_ok_iff.2 ⟨_, hu', ?_⟩⟩
    dsimp only
    rw [U1.index, U2.index, U1.outX, U1.outY, U2.outX, U2.outY]
    refine bind_ok_iff.2 ⟨_, hp', ?_⟩
    rw [i1, i2]
    exact bind_ok_iff.2 ⟨_, hq, rfl⟩
  have hM := modify_full hmod
  have ex : q.2.1 = x ∧ q.2.2 = y := by
    obtain ⟨j, hj⟩ := hM.pool.amounts
    rw [i1, i2] at hj
    dsimp only at hj
    rw [ha] at hj
    cases hj
    exact ⟨rfl, rfl⟩
  have ox : p'.tokensOwedX = fx := by
    have := hM.pos.owedX
    dsimp only at this
    rw [this, D.2.2.1, Nat.zero_add, ← hfx]
  have oy : p'.tokensOwedY = fy := by
    have := hM.pos.owedY
    dsimp only at this
    rw [this, D.2.2.2, Nat.zero_add, ← hfy]
  have hrem : p.remove pool env.now lower upper p.poolKey.feeTier.tickSpacing =
      .ok ⟨p', q.1, u', l', x + fx, y + fy⟩ := by
    unfold Position.remove
    refine bind_ok_iff.2 ⟨_, unwrap_ok_iff.2 hmod, bind_ok_iff.2 ⟨x + fx, addC_ok_iff.2 ?_,
      bind_ok_iff.2 ⟨y + fy, addC_ok_iff.2 ?_, rfl⟩⟩⟩
    · dsimp only; rw [ex.1, ox]; exact ⟨by omega, rfl⟩
    · dsimp only; rw [ex.2, oy]; exact ⟨by omega, rfl⟩
  have j1 : l'.index = p.lowerTickIndex := U1.index.trans i1
  have j2 : u'.index = p.upperTickIndex := U2.index.trans i2
  obtain ⟨s1, hs1⟩ := dropTick_succeeds (s := { s with pools := s.pools.insert p.poolKey q.1 })
    (key := p.poolKey) j1 hlo hP.lower (by
      have := hw.bit p.poolKey p.lowerTickIndex hT.1 hP.lower
      rw [hlo] at this; exact this)
  obtain ⟨d1, d2, d3⟩ := dropTick_ok hs1
  have hup1 : s1.ticks.get (p.poolKey, p.upperTickIndex) = some upper := by
    have hk : (p.poolKey, p.upperTickIndex) ≠ (p.poolKey, p.lowerTickIndex) := by
      intro e; have := (Prod.mk.inj e).2; have := hP.lt; omega
    by_cases h0 : l'.liquidityGross = 0
    · rw [(d1 h0).2.1, j1, Map.get_erase, if_neg hk]; exact hup
    · rw [(d2 h0).2.1, Map.get_insert, if_neg hk]; exact hup
  have hbit1 : tmBit s1.tickmap p.poolKey (bitmapIndex p.upperTickIndex p.poolKey.feeTier.tickSpacing)
      = true := by
    have hb := hw.bit p.poolKey p.upperTickIndex hT.1 hP.upper
    rw [hup] at hb
    by_cases h0 : l'.liquidityGross = 0
    · rw [tmBit_flip (d1 h0).2.2, if_neg]
      · exact hb
      · rintro ⟨_, e⟩
        rw [j1] at e
        have := bitmapIndex_inj hT.1 hP.upper hP.lower e
        have := hP.lt
        omega
    · rw [(d2 h0).2.2]; exact hb
  obtain ⟨s2, hs2⟩ := dropTick_succeeds (key := p.poolKey) j2 hup1 hP.upper hbit1
  obtain ⟨-, -, d6⟩ := dropTick_ok hs2
  have ep : s2.positions = s.positions := by rw [d6, d3]
  have eb : s2.balances = s.balances := by rw [d6, d3]
  obtain ⟨Ls, hLs⟩ := reach32_listed s h
  have hlen := listed_len hLs env.caller
  have hfw := hf env.caller
  have hidx : (Ls env.caller)[index]? = some p := by
    have := posRepr_get hLs env.caller index
    rw [hp] at this
    cases hc : (Ls env.caller)[index]? with
    | none => rw [hc] at this; cases this
    | some v => rw [hc] at this; cases this; rfl
  obtain ⟨ps, hps, -⟩ := (posRepr_remove hLs (a := env.caller) (by omega) index).1 p hidx
  obtain ⟨b1, hb1⟩ := increase_succeeds (b := s.balances) (t := p.poolKey.tokenX) (who := env.caller)
    (n := x + fx) hx
  obtain ⟨b2, hb2⟩ := increase_succeeds (b := b1) (t := p.poolKey.tokenY) (who := env.caller)
    (n := y + fy) (by
      rw [increase_bal hb1, if_neg]
      · exact hy
      · rintro ⟨_, e⟩; rw [e] at hne; exact lt_irrefl _ hne)
  refine ⟨({ s2 with positions := ps, balances := b2 }, x + fx, y + fy), ?_⟩
  unfold removePosition
  refine bind_ok_iff.2 ⟨p, hp, bind_ok_iff.2 ⟨lower, ticksGet_ok.2 hlo, bind_ok_iff.2 ⟨upper,
    ticksGet_ok.2 hup, bind_ok_iff.2 ⟨pool, poolsGet_ok.2 hpl, bind_ok_iff.2 ⟨_, hrem,
    bind_ok_iff.2 ⟨_, poolsUpdate_ok.2 ⟨⟨pool, hpl⟩, rfl⟩, bind_ok_iff.2 ⟨s1, hs1, bind_ok_iff.2 ⟨s2, hs2,
    bind_ok_iff.2 ⟨(ps, p), ?_, bind_ok_iff.2 ⟨b1, ?_, bind_ok_iff.2 ⟨b2, hb2, rfl⟩⟩⟩⟩⟩⟩⟩⟩⟩⟩⟩
  · rw [ep]; exact hps
  · rw [eb]; exact hb1

/-- a removal in range needs a counter that covers the liquidity -/
theorem remove_needs (hr : Reach s) {index : Nat} {p : Position} {pool : Pool} {r : Inv × Nat × Nat}
    (h : removePosition env s index = .ok r)
    (hp : s.positions.get env.caller index = .ok p) (hpl : s.pools.get p.poolKey = some pool)
    (h1 : p.lowerTickIndex ≤ pool.currentTickIndex) (h2 : pool.currentTickIndex < p.upperTickIndex) :
    p.liquidity ≤ pool.liquidity := by
  have hw := reach_wf s hr
  obtain ⟨p', lower, upper, pool', m, ps, b, tm1, tm2, he, -⟩ := removePosition_full hw.indexed h
  have e1 := he.get
  rw [hp] at e1; cases e1
  have e2 := he.hpool
  rw [hpl] at e2; cases e2
  have := he.mod.pool.sub rfl (by rw [hw.indexed _ _ _ he.hlt]; exact h1)
    (by rw [hw.indexed _ _ _ he.hut]; exact h2)
  dsimp only at this
  omega

end Verif
