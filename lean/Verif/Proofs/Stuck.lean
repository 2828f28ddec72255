import Verif.Proofs.Keeps
import Verif.Proofs.Solvent

/-! # What is owed, from below -/

namespace Verif
open Service Spec

variable {env : Env} {s s' : Inv}

/-- putting liquidity in costs no more than the worth, up to the roundings -/
theorem in_le {sp : Nat} {w : FeeWorld} {q : Position} {x y : Nat} {i : Bool} (ha : TickAgree sp w.pool)
    (hlt : q.lowerTickIndex < q.upperTickIndex) (hl : Grid sp q.lowerTickIndex)
    (hu : Grid sp q.upperTickIndex)
    (h : calculateAmountDelta w.pool.currentTickIndex w.pool.sqrtPrice q.liquidity true q.upperTickIndex
      q.lowerTickIndex = .ok (x, y, i)) :
    (1 - relX) * x - 1 ≤ onCurve true w q ∧ (y : ℚ) - 1 ≤ onCurve false w q := by
  obtain ⟨pl, pu, e1, e2, _, hx, hy, _⟩ := calculateAmountDelta_ok h
  have e1 := calc_grid hl e1
  have e2 := calc_grid hu e2
  obtain ⟨_, _, c⟩ := cut_bounds ha hlt hl hu
  have c2 := priceOf_ge_min hu.min hu.max
  have ec : clampPrice w.pool.currentTickIndex q.lowerTickIndex q.upperTickIndex w.pool.sqrtPrice pl pu =
      cutOf w.pool q := by rw [e1, e2]; rfl
  rw [onCurve_X ha hlt hl hu, onCurve_Y ha hlt hl hu]
  rw [ec] at hx hy
  rw [dxR_true, e2] at hx
  rw [dyR_true, e1] at hy
  constructor
  · have h1 := dxUp_le (L := q.liquidity) (le_trans (by norm_num [MIN_SQRT_PRICE]) (Nat.mul_le_mul c c2) :
      23 * 10 ^ 37 ≤ cutOf w.pool q * priceOf q.upperTickIndex)
    rw [← hx] at h1
    have h2 : 0 ≤ amountX (cutOf w.pool q) (priceOf q.upperTickIndex) q.liquidity := by
      unfold amountX liq; positivity
    have r0 := relX_pos
    have r1 : relX ≤ 1 := by norm_num [relX]
    nlinarith [mul_nonneg r0.le h2, mul_nonneg (mul_nonneg r0.le r0.le) h2]
  · rw [hy]
    linarith [dyUp_le (priceOf q.lowerTickIndex) (cutOf w.pool q) q.liquidity]

/-- taking liquidity out pays the worth, up to the roundings -/
theorem out_ge {sp : Nat} {w : FeeWorld} {q : Position} {x y : Nat} {i : Bool} (ha : TickAgree sp w.pool)
    (hlt : q.lowerTickIndex < q.upperTickIndex) (hl : Grid sp q.lowerTickIndex)
    (hu : Grid sp q.upperTickIndex)
    (h : calculateAmountDelta w.pool.currentTickIndex w.pool.sqrtPrice q.liquidity false q.upperTickIndex
      q.lowerTickIndex = .ok (x, y, i)) :
    onCurve true w q ≤ (1 + relX) * (x + 1) ∧ onCurve false w q ≤ y + 1 := by
  obtain ⟨pl, pu, e1, e2, _, hx, hy, _⟩ := calculateAmountDelta_ok h
  have e1 := calc_grid hl e1
  have e2 := calc_grid hu e2
  obtain ⟨_, _, c⟩ := cut_bounds ha hlt hl hu
  have c2 := priceOf_ge_min hu.min hu.max
  have ec : clampPrice w.pool.currentTickIndex q.lowerTickIndex q.upperTickIndex w.pool.sqrtPrice pl pu =
      cutOf w.pool q := by rw [e1, e2]; rfl
  rw [onCurve_X ha hlt hl hu, onCurve_Y ha hlt hl hu]
  rw [ec] at hx hy
  rw [dxR_false, e2] at hx
  rw [dyR_false, e1] at hy
  constructor
  · rw [hx]
    exact le_dxDown (le_trans (by norm_num [MIN_SQRT_PRICE]) (Nat.mul_le_mul c c2))
  · rw [hy]
    exact le_dyDown _ _ _

theorem owed_create_ge {key : PoolKey} {lower upper : Int} {delta ll lu : Nat} {r : Inv × Position}
    (hr : Reach32 s) (hr' : Reach32 r.1)
    (h : createPosition env s key lower upper delta ll lu = .ok r) (t : ActorId) :
    owed s t ≤ owed r.1 t + 1 + relX * |(totalBal r.1 t : ℚ) - totalBal s t| := by
  obtain ⟨L, hL⟩ := reach32_listed s hr
  obtain ⟨hre, hf⟩ := reach32_reach s hr
  have hw := reach_wf s hre
  have hw' := reach_wf _ (reach32_reach _ hr').1
  have ha' := reach_agree _ (reach32_reach _ hr').1
  obtain ⟨pool, lt, ut, m, b, tm1, tm2, he, _, _, _, bx, by_, hbx, hby, rfl⟩ := createPosition_full hw.indexed h
  have het := he.res
  -- the stored ticks
  have hlo : r.1.ticks.get (key, lower) = some m.lower := by
    rw [het]
    dsimp only
    rw [Map.get_insert_ne _ _ (by simpa using he.ne), Map.get_insert_self]
  have hup : r.1.ticks.get (key, upper) = some m.upper := by
    rw [het]; exact Map.get_insert_self _ _ _
  have hoth : ∀ k, k ≠ (key, lower) → k ≠ (key, upper) → r.1.ticks.get k = s.ticks.get k := by
    intro k h1 h2
    rw [het]
    dsimp only
    rw [Map.get_insert_ne _ _ h2, Map.get_insert_ne _ _ h1]
  have hsoft : SoftChange s r.1 key pool m.pool := by
    refine ⟨he.hpool, by rw [het], he.mod.pool.same, he.mod.pool.proto key, ?_⟩
    intro k t t' h1 h2
    by_cases e1 : k = (key, lower)
    · subst e1
      rw [hlo] at h2; cases h2
      rcases getOrCreateTick_ok.1 he.hlt with ⟨t1, h3, e⟩ | ⟨h3, _⟩
      · rw [h1] at h3; cases h3
        have := he.mod.lower.same
        rw [e] at this; exact this
      · rw [h1] at h3; cases h3
    · by_cases e2 : k = (key, upper)
      · subst e2
        rw [hup] at h2; cases h2
        rcases getOrCreateTick_ok.1 he.hut with ⟨t1, h3, e⟩ | ⟨h3, _⟩
        · rw [h1] at h3; cases h3
          have := he.mod.upper.same
          rw [e] at this; exact this
        · rw [h1] at h3; cases h3
      · rw [hoth k e1 e2, h1] at h2
        cases h2; exact .refl _
  have hkeep : ∀ k, (s.ticks.get k).isSome → ∃ t', r.1.ticks.get k = some t' := by
    intro k hk
    by_cases e1 : k = (key, lower)
    · exact ⟨_, e1 ▸ hlo⟩
    · by_cases e2 : k = (key, upper)
      · exact ⟨_, e2 ▸ hup⟩
      · rw [hoth k e1 e2]; exact Option.isSome_iff_exists.1 hk
  -- old positions
  have hold : posSum s.positions (worthIn r.1 t) = allWorth s t := by
    unfold allWorth posSum
    refine Map.sum_congr fun k q hq => ?_
    obtain ⟨p, l, u, hp, hl, hu⟩ := stored_has hr hq
    obtain ⟨l', hl'⟩ := hkeep _ (by rw [hl]; rfl)
    obtain ⟨u', hu'⟩ := hkeep _ (by rw [hu]; rfl)
    exact (hsoft.keeps hp hl hl' hu hu').eq t
  have hall : allWorth r.1 t = worthIn r.1 t m.position + allWorth s t := by
    rw [← hold, ← posSum_add hL env.caller m.position (worthIn r.1 t)]
    unfold allWorth
    congr 1
    rw [het]
  -- the new position
  have hq := he.mod.pos.eq
  have hliq : m.position.liquidity = delta := by
    have := (he.mod.pos.add rfl).1
    simpa using this
  have ek : m.position.poolKey = key := by rw [hq]
  have el : m.position.lowerTickIndex = lower := by rw [hq]
  have eu : m.position.upperTickIndex = upper := by rw [hq]
  have hok : PosOK m.position := by
    refine (hw'.pos (env.caller, s.positions.getLength env.caller) _ ?_).1
    rw [het]
    exact Map.get_insert_self _ _ _
  have hpool' : r.1.pools.get key = some m.pool := by rw [hsoft.pools, Map.get_insert_self]
  obtain ⟨i, hamt⟩ := he.mod.pool.amounts
  have hag := ha' key m.pool hpool'
  have hgr : ∀ tok, grown tok (world r.1 key m.pool) m.position = 0 := by
    intro tok
    unfold grown
    rw [inside_after (s' := r.1) (key := key) he.mod (by rw [el]; exact hlo) (by rw [eu]; exact hup)]
    exact fgSub_self _
  have hamt' : calculateAmountDelta (world r.1 key m.pool).pool.currentTickIndex
      (world r.1 key m.pool).pool.sqrtPrice m.position.liquidity true m.position.upperTickIndex
      m.position.lowerTickIndex = .ok (m.amountX, m.amountY, i) := by
    rw [hliq, el, eu, ← hamt]
    have hs := he.mod.pool.same
    show calculateAmountDelta m.pool.currentTickIndex m.pool.sqrtPrice _ _ _ _ = _
    rw [hs.1, hs.2.1, he.lidx, he.uidx]
  have hge := in_le (w := world r.1 key m.pool) (q := m.position) (sp := key.feeTier.tickSpacing) hag
    hok.lt (by have := hok.lower; rwa [ek] at this) (by have := hok.upper; rwa [ek] at this) hamt'
  have hnew : (1 - relX) * ((if key.tokenX = t then (m.amountX : ℚ) else 0) +
      (if key.tokenY = t then (m.amountY : ℚ) else 0)) - 1 ≤ worthIn r.1 t m.position := by
    have hne := ((reach_tiers hre).pools key (by rw [he.hpool]; rfl)).2.ne
    rw [worthIn_some (pool := m.pool) (by rw [ek]; exact hpool'), ek]
    unfold worth
    rw [hgr, hgr]
    have h0 := relX_pos
    have h1 : 0 ≤ relX * (m.amountY : ℚ) := by positivity
    have h2 := hge.1
    split <;> split <;> first | (exact absurd (Eq.trans ‹key.tokenX = t› (Eq.symm ‹key.tokenY = t›)) hne) | (simp <;> linarith [hge.1, hge.2])
  -- the debits
  have ht1 := (dec_took hbx).tot t
  have ht2 := (dec_took hby).tot t
  rw [(decrease_bal hbx 0 0).2] at ht1
  rw [(decrease_bal hby 0 0).2] at ht2
  have hbal : (totalBal r.1 t : ℚ) + ((if key.tokenX = t then (m.amountX : ℚ) else 0) +
      (if key.tokenY = t then (m.amountY : ℚ) else 0)) = totalBal s t := by
    have e : totalBal r.1 t = total by_.1 t := by rw [totalBal_eq, het]
    rw [e, totalBal_eq, ht1, ht2]
    push_cast
    simp only [eq_comm (a := t)]
    ring
  have habs : (if key.tokenX = t then (m.amountX : ℚ) else 0) + (if key.tokenY = t then (m.amountY : ℚ) else 0) ≤
      |(totalBal r.1 t : ℚ) - totalBal s t| := by
    rw [abs_sub_comm]
    exact le_trans (by linarith) (le_abs_self _)
  have habs2 := mul_le_mul_of_nonneg_left habs relX_pos.le
  unfold owed
  rw [hall, hsoft.protos t]
  linarith

/-- what removing a position pays -/
theorem remove_paid_ge {i : Nat} {r : Inv × Nat × Nat} (hr : Reach32 s)
    (h : removePosition env s i = .ok r) :
    ∃ p pool lower upper m ps b tm1 tm2, RemoveEff env s i p lower upper pool m ps b tm1 tm2 r.1 ∧
      worth true (world s p.poolKey pool) p ≤ (1 + relX) * r.2.1 + 3 ∧
      worth false (world s p.poolKey pool) p ≤ r.2.2 + 3 ∧
      (∀ t, total b t = total s.balances t + (if p.poolKey.tokenX = t then r.2.1 else 0) +
        if p.poolKey.tokenY = t then r.2.2 else 0) ∧
      (∀ t, balOf b env.caller t = balOf s.balances env.caller t +
        (if p.poolKey.tokenX = t then r.2.1 else 0) + if p.poolKey.tokenY = t then r.2.2 else 0) := by
  have hre := (reach32_reach s hr).1
  have hw := reach_wf s hre
  obtain ⟨p, lower, upper, pool, m, ps, b, tm1, tm2, he, hamt, b1, hb1, hb2⟩ :=
    removePosition_full hw.indexed h
  have hg := posGet_ok.1 he.get
  obtain ⟨hok, _⟩ := hw.pos _ _ hg
  have hacc := (reach_acc s hre).pos _ _ hg
  obtain ⟨j, ha⟩ := he.mod.pool.amounts
  rw [hw.indexed _ _ _ he.hlt, hw.indexed _ _ _ he.hut] at ha
  have hout := out_ge (w := world s p.poolKey pool) (q := p) (reach_agree s hre _ _ he.hpool) hok.lt
    hok.lower hok.upper ha
  have hin := insideOf_eq (w := world s p.poolKey pool) (q := p) he.hlt he.hut
  have ho : ∀ g : Nat, (g : ℚ) * p.liquidity / 10 ^ 33 ≤ ((g * p.liquidity / 10 ^ 33 : Nat) : ℚ) + 1 := by
    intro g
    rw [div_le_iff₀ (by positivity)]
    have := Nat.div_add_mod (g * p.liquidity) (10 ^ 33)
    have h2 := Nat.mod_lt (g * p.liquidity) (by positivity : 0 < 10 ^ 33)
    have : g * p.liquidity ≤ (g * p.liquidity / 10 ^ 33 + 1) * 10 ^ 33 := by
      rw [Nat.add_mul, Nat.mul_comm _ (10 ^ 33)]
      omega
    exact_mod_cast this
  have r0 := relX_pos
  have r1 : relX ≤ 1 := by norm_num [relX]
  refine ⟨p, pool, lower, upper, m, ps, b, tm1, tm2, he, ?_, ?_, ?_, ?_⟩
  · rw [hamt, he.mod.pos.owedX, hacc.2.2.1]
    unfold worth grown
    rw [hin true]
    simp only [if_true, zero_add, Nat.cast_add]
    have h1 := ho (fgSub (feeGrowthInside1 lower.index lower.feeGrowthOutsideX upper.index upper.feeGrowthOutsideX
      pool.currentTickIndex pool.feeGrowthGlobalX) p.feeGrowthInsideX)
    refine le_trans (add_le_add hout.1 h1) ?_
    have h2 : (0 : ℚ) ≤ relX * ((fgSub (feeGrowthInside1 lower.index lower.feeGrowthOutsideX upper.index
      upper.feeGrowthOutsideX pool.currentTickIndex pool.feeGrowthGlobalX) p.feeGrowthInsideX * p.liquidity /
      10 ^ 33 : Nat) : ℚ) := mul_nonneg r0.le (Nat.cast_nonneg _)
    linarith
  · rw [hamt, he.mod.pos.owedY, hacc.2.2.2]
    unfold worth grown
    rw [hin false]
    simp only [Bool.false_eq_true, if_false, zero_add, Nat.cast_add]
    have h1 := ho (fgSub (feeGrowthInside1 lower.index lower.feeGrowthOutsideY upper.index upper.feeGrowthOutsideY
      pool.currentTickIndex pool.feeGrowthGlobalY) p.feeGrowthInsideY)
    refine le_trans (add_le_add hout.2 h1) ?_
    linarith
  · intro t
    rw [total_inc hb2, total_inc hb1]
    simp only [eq_comm (a := t)]
  · intro t
    rw [increase_bal hb2, increase_bal hb1]
    simp only [eq_comm (a := t), true_and]

theorem owed_remove_ge {i : Nat} {r : Inv × Nat × Nat} (hr : Reach32 s) (hr' : Reach32 r.1)
    (h : removePosition env s i = .ok r) (t : ActorId) : 
    owed s t ≤ owed r.1 t + 3 + relX * |(totalBal r.1 t : ℚ) - totalBal s t| := by
  obtain ⟨L, hL⟩ := reach32_listed s hr
  obtain ⟨hre, hf⟩ := reach32_reach s hr
  have len : ∀ a, (L a).length < 2 ^ 32 := fun a => by
    rw [listed_len hL]; exact Nat.lt_of_succ_lt (hf a)
  have hw := reach_wf s hre
  obtain ⟨p, pool, lower, upper, m, ps, b, tm1, tm2, he, px, py, ht, _⟩ := remove_paid_ge hr h
  have het := he.res
  have hlt := (hw.pos _ _ (posGet_ok.1 he.get)).1.lt
  have hsoft : SoftChange s r.1 p.poolKey pool m.pool := by
    refine ⟨he.hpool, by rw [het], he.mod.pool.same, he.mod.pool.proto _, ?_⟩
    intro k t t' h1 h2
    rw [het] at h2
    dsimp only at h2
    by_cases e2 : k = (p.poolKey, p.upperTickIndex)
    · subst e2
      rw [he.hut] at h1; cases h1
      split at h2
      · rw [Map.get_erase_self] at h2; cases h2
      · rw [Map.get_insert_self] at h2; cases h2
        exact he.mod.upper.same
    · have h3 : (if m.lower.liquidityGross = 0 then s.ticks.erase (p.poolKey, p.lowerTickIndex)
          else s.ticks.insert (p.poolKey, p.lowerTickIndex) m.lower).get k = some t' := by
        split at h2
        · rwa [Map.get_erase, if_neg e2] at h2
        · rwa [Map.get_insert_ne _ _ e2] at h2
      by_cases e1 : k = (p.poolKey, p.lowerTickIndex)
      · subst e1
        rw [he.hlt] at h1; cases h1
        split at h3
        · rw [Map.get_erase_self] at h3; cases h3
        · rw [Map.get_insert_self] at h3; cases h3
          exact he.mod.lower.same
      · split at h3
        · rw [Map.get_erase, if_neg e1, h1] at h3; cases h3; exact .refl _
        · rw [Map.get_insert_ne _ _ e1, h1] at h3; cases h3; exact .refl _
  have hrest : posSum ps (worthIn r.1 t) = posSum ps (worthIn s t) := by
    unfold posSum
    refine Map.sum_congr fun k q hq => ?_
    have hq' : r.1.positions.map.get k = some q := by rw [het]; exact hq
    obtain ⟨_, l', u', _, hl', hu'⟩ := stored_has hr' hq'
    obtain ⟨k', hk'⟩ := posRemove_mem he.rem hq
    obtain ⟨pl, l, u, hp, hl, hu⟩ := stored_has hr hk'
    exact (hsoft.keeps hp hl hl' hu hu').eq t
  have hall : allWorth s t = worthIn s t p + allWorth r.1 t := by
    have e : allWorth r.1 t = posSum ps (worthIn r.1 t) := by
      unfold allWorth; rw [show r.1.positions = ps by rw [het]]
    rw [e, hrest]
    exact posSum_remove hL (len _) he.rem _
  have hw1 : worthIn s t p ≤ (1 + relX) * (((if p.poolKey.tokenX = t then r.2.1 else 0 : Nat) : ℚ) +
      ((if p.poolKey.tokenY = t then r.2.2 else 0 : Nat) : ℚ)) + 3 := by
    have hne := ((reach_tiers hre).pools p.poolKey (by rw [he.hpool]; rfl)).2.ne
    rw [worthIn_some he.hpool]
    have r0 := relX_pos
    have h1 : 0 ≤ relX * (r.2.2 : ℚ) := by positivity
    split <;> split <;> first | (exact absurd (Eq.trans ‹p.poolKey.tokenX = t› (Eq.symm ‹p.poolKey.tokenY = t›)) hne) | (simp <;> linarith)
  have hb : (totalBal r.1 t : ℚ) = totalBal s t + ((if p.poolKey.tokenX = t then r.2.1 else 0 : Nat) : ℚ) +
      ((if p.poolKey.tokenY = t then r.2.2 else 0 : Nat) : ℚ) := by
    have e : totalBal r.1 t = total b t := by rw [totalBal_eq, het]
    rw [e, ht t, totalBal_eq]
    push_cast
    rfl
  have habs : ((if p.poolKey.tokenX = t then r.2.1 else 0 : Nat) : ℚ) +
      ((if p.poolKey.tokenY = t then r.2.2 else 0 : Nat) : ℚ) ≤ |(totalBal r.1 t : ℚ) - totalBal s t| :=
    le_trans (by linarith) (le_abs_self _)
  have habs2 := mul_le_mul_of_nonneg_left habs relX_pos.le
  unfold owed
  rw [hsoft.protos t, hall]
  linarith

theorem owed_claim_ge {i : Nat} {r : Inv × Nat × Nat} (hr : Reach32 s)
    (h : claimFee env s i = .ok r) (t : ActorId) : owed s t ≤ owed r.1 t + 1 := by
  have hre := (reach32_reach s hr).1
  have hw := reach_wf s hre
  obtain ⟨p, lower, upper, pool, m, ps, b, he, hamt, b1, hb1, hb2⟩ := claimFee_full hw.indexed h
  have het := he.res
  have hg := posGet_ok.1 he.get
  have hlt := (hw.pos _ _ hg).1.lt
  have hacc := (reach_acc s hre).pos _ _ hg
  have hlo : r.1.ticks.get (p.poolKey, p.lowerTickIndex) = some m.lower := by
    rw [het]; exact Map.get_insert_self _ _ _
  have hup : r.1.ticks.get (p.poolKey, p.upperTickIndex) = some m.upper := by
    rw [het]
    dsimp only
    rw [Map.get_insert_ne _ _ (by simp; omega), Map.get_insert_self]
  have hoth : ∀ k, k ≠ (p.poolKey, p.lowerTickIndex) → k ≠ (p.poolKey, p.upperTickIndex) →
      r.1.ticks.get k = s.ticks.get k := by
    intro k h1 h2
    rw [het]
    dsimp only
    rw [Map.get_insert_ne _ _ h1, Map.get_insert_ne _ _ h2]
  have hsoft : SoftChange s r.1 p.poolKey pool m.pool := by
    refine ⟨he.hpool, by rw [het], he.mod.pool.same, he.mod.pool.proto _, ?_⟩
    intro k t t' h1 h2
    by_cases e1 : k = (p.poolKey, p.lowerTickIndex)
    · subst e1
      rw [he.hlt] at h1; cases h1
      rw [hlo] at h2; cases h2
      exact he.mod.lower.same
    · by_cases e2 : k = (p.poolKey, p.upperTickIndex)
      · subst e2
        rw [he.hut] at h1; cases h1
        rw [hup] at h2; cases h2
        exact he.mod.upper.same
      · rw [hoth k e1 e2, h1] at h2
        cases h2; exact .refl _
  have hkeep : ∀ k, (s.ticks.get k).isSome → ∃ t', r.1.ticks.get k = some t' := by
    intro k hk
    by_cases e1 : k = (p.poolKey, p.lowerTickIndex)
    · exact ⟨_, e1 ▸ hlo⟩
    · by_cases e2 : k = (p.poolKey, p.upperTickIndex)
      · exact ⟨_, e2 ▸ hup⟩
      · rw [hoth k e1 e2]; exact Option.isSome_iff_exists.1 hk
  have hold : posSum s.positions (worthIn r.1 t) = allWorth s t := by
    unfold allWorth posSum
    refine Map.sum_congr fun k q hq => ?_
    obtain ⟨p, l, u, hp, hl, hu⟩ := stored_has hr hq
    obtain ⟨l', hl'⟩ := hkeep _ (by rw [hl]; rfl)
    obtain ⟨u', hu'⟩ := hkeep _ (by rw [hu]; rfl)
    exact (hsoft.keeps hp hl hl' hu hu').eq t
  have hpool' : r.1.pools.get p.poolKey = some m.pool := by rw [hsoft.pools, Map.get_insert_self]
  have hq := he.mod.pos.eq
  have hliq : m.position.liquidity = p.liquidity := (he.mod.pos.add rfl).1
  -- the position before and after, both in the new state
  have hdiff : ∀ tok, worth tok (world r.1 p.poolKey m.pool) p ≤ worth tok (world r.1 p.poolKey m.pool)
        { m.position with tokensOwedX := 0, tokensOwedY := 0 } +
      (if tok then m.position.tokensOwedX else m.position.tokensOwedY : Nat) + 1 := by
    intro tok
    have i1 := inside_after (s' := r.1) (key := p.poolKey) (q := p) he.mod hlo hup tok
    have i2 := inside_after (s' := r.1) (key := p.poolKey)
      (q := { m.position with tokensOwedX := 0, tokensOwedY := 0 }) he.mod
      (by rw [hq]; exact hlo) (by rw [hq]; exact hup) tok
    have c1 : onCurve tok (world r.1 p.poolKey m.pool)
        { m.position with tokensOwedX := 0, tokensOwedY := 0 } =
        onCurve tok (world r.1 p.poolKey m.pool) p := by
      unfold onCurve cutOf basePrice
      dsimp only
      rw [hliq, hq]
    have g2 : grown tok (world r.1 p.poolKey m.pool)
        { m.position with tokensOwedX := 0, tokensOwedY := 0 } = 0 := by
      unfold grown
      rw [i2]
      exact fgSub_self _
    unfold worth
    rw [c1, g2]
    have g1 : grown tok (world r.1 p.poolKey m.pool) p = fgSub (snapOf tok m.position) (snapOf tok p) := by
      unfold grown
      rw [i1]
    rw [g1]
    have ho : (if tok then m.position.tokensOwedX else m.position.tokensOwedY : Nat) =
        fgSub (snapOf tok m.position) (snapOf tok p) * p.liquidity / 10 ^ 33 := by
      rw [he.mod.pos.owedX, he.mod.pos.owedY, hacc.2.2.1, hacc.2.2.2, hq]
      unfold snapOf
      cases tok <;> simp
    rw [ho]
    have h3 : (fgSub (snapOf tok m.position) (snapOf tok p) : ℚ) * p.liquidity / 10 ^ 33 ≤
        ((fgSub (snapOf tok m.position) (snapOf tok p) * p.liquidity / 10 ^ 33 : Nat) : ℚ) + 1 := by
      generalize fgSub (snapOf tok m.position) (snapOf tok p) = g
      rw [div_le_iff₀ (by positivity)]
      have := Nat.div_add_mod (g * p.liquidity) (10 ^ 33)
      have h2 := Nat.mod_lt (g * p.liquidity) (by positivity : 0 < 10 ^ 33)
      have : g * p.liquidity ≤ (g * p.liquidity / 10 ^ 33 + 1) * 10 ^ 33 := by
        rw [Nat.add_mul, Nat.mul_comm _ (10 ^ 33)]
        omega
      exact_mod_cast this
    simp only [Nat.cast_zero, zero_mul, zero_div, add_zero]
    linarith
  have hw1 : worthIn r.1 t p ≤ worthIn r.1 t { m.position with tokensOwedX := 0, tokensOwedY := 0 } +
      (((if p.poolKey.tokenX = t then r.2.1 else 0 : Nat) : ℚ) +
      ((if p.poolKey.tokenY = t then r.2.2 else 0 : Nat) : ℚ)) + 1 := by
    have ek : ({ m.position with tokensOwedX := 0, tokensOwedY := 0 } : Position).poolKey = p.poolKey := by
      rw [hq]
    have d1 := hdiff true
    have d2 := hdiff false
    generalize ({ m.position with tokensOwedX := 0, tokensOwedY := 0 } : Position) = q' at ek d1 d2 ⊢
    rw [worthIn_some hpool', worthIn_some (pool := m.pool) (by rw [ek]; exact hpool'), ek, hamt]
    simp only [if_true, Bool.false_eq_true, if_false] at d1 d2
    have hne := ((reach_tiers (reach32_reach s hr).1).pools p.poolKey (by rw [he.hpool]; rfl)).2.ne
    split <;> split <;> first | (exact absurd (Eq.trans ‹p.poolKey.tokenX = t› (Eq.symm ‹p.poolKey.tokenY = t›)) hne) | (simp <;> linarith)
  have hupd := posSum_update he.get he.upd (worthIn r.1 t)
  have hall : allWorth r.1 t + worthIn r.1 t p = allWorth s t +
      worthIn r.1 t { m.position with tokensOwedX := 0, tokensOwedY := 0 } := by
    rw [← hold, ← hupd]
    unfold allWorth
    rw [show r.1.positions = ps by rw [het]]
  have hb : (totalBal r.1 t : ℚ) = totalBal s t + ((if p.poolKey.tokenX = t then r.2.1 else 0 : Nat) : ℚ) +
      ((if p.poolKey.tokenY = t then r.2.2 else 0 : Nat) : ℚ) := by
    have e : totalBal r.1 t = total b t := by rw [totalBal_eq, het]
    rw [e, total_inc hb2, total_inc hb1, totalBal_eq]
    push_cast
    simp only [eq_comm (a := t)]
  unfold owed
  rw [hsoft.protos t, hb]
  linarith

end Verif
