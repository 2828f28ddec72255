import Verif.Proofs.Refusals
import Verif.Spec.Refusals
import Verif.Props.Exit
import Verif.Props.Accept
import Verif.Props.SwapAccept

/-!
# Property C110: a refused call about a position names its reason

A deposit that is refused says why, and what it says is true: no liquidity, two equal ticks, no such pool, the price out
of the caller's bounds, or too small a balance. The same for removing, claiming and transferring: there is no such
position, or the balance would not fit. No other reason is ever given.
-/

set_option exponentiation.threshold 1000

namespace Verif
open Service Spec

variable {env : Env} {s : Inv} {key : PoolKey} {lower upper : Int} {delta ll lu index : Nat} {e : InvErr}

/-- C110, creating a position -/
theorem C110_create (hr : Reach s) (h : createPosition env s key lower upper delta ll lu = .error (.inv e)) :
    CreateReason s env.caller key lower upper delta ll lu e := by
  unfold createPosition at h
  simp only [bind_inv_iff, failIf_inv, failIf_ok_iff, pure_inv, and_false, exists_false, or_false] at h
  rcases h with ⟨h, he⟩ | ⟨_, h0, h⟩
  · cases he; exact h
  rcases h with ⟨h, he⟩ | ⟨_, h1, h⟩
  · cases he; exact ⟨h0, h⟩
  rcases h with h | ⟨pool, hp, h⟩
  · unfold poolsGet okOr at h
    split at h
    · cases h
    · next hn => cases h; exact ⟨h0, h1, hn⟩
  rw [poolsGet_ok] at hp
  have hw := reach_wf s hr
  obtain ⟨hT, hne⟩ := (reach_tiers hr).pools _ (by rw [hp]; rfl)
  have nt : ∀ {i}, getOrCreateTick s env.now key i ≠ .error (.inv e) := by
    intro i h
    unfold getOrCreateTick at h
    split at h
    · cases h
    · simp only [bind_inv_iff, unwrap_inv, pure_inv, false_or, and_false, exists_false] at h
  simp only [nt, false_or] at h
  obtain ⟨lt, hlo, ut, hup, h⟩ := h
  obtain ⟨i1, gl, q1, c1, d1⟩ := getOrCreate_grid hw hT.1 hlo
  obtain ⟨i2, gu, q2, c2, d2⟩ := getOrCreate_grid hw hT.1 hup
  rcases h with h | ⟨r, hc, h⟩
  · unfold Position.create at h
    simp only [bind_inv_iff, failIf_inv, unwrap_inv, and_false, exists_false, or_false] at h
    obtain ⟨h, he⟩ := h
    cases he
    exact ⟨pool, hp, h⟩
  obtain ⟨b1, b2, hm⟩ := create_full hc
  obtain ⟨j, ha⟩ := hm.pool.amounts
  rw [i1, i2] at ha
  obtain ⟨pl, pu, f1, f2, -, f3, f4, -⟩ := calculateAmountDelta_ok ha
  dsimp only at f3 f4
  have ec : clampPrice pool.currentTickIndex lower upper pool.sqrtPrice pl pu = cutPrice pool lower upper pl pu := rfl
  rw [ec, dxR_true] at f3
  rw [ec, dyR_true, dyUp_eq_ceil] at f4
  have hX : pool.currentTickIndex < upper ∨ r.amountX = 0 := by
    by_cases hcu : pool.currentTickIndex < upper
    · exact .inl hcu
    · right
      have hl : ¬ pool.currentTickIndex < lower := by
        have := calculateAmountDelta_ok ha
        unfold calculateAmountDelta at ha
        simp only [bind_ok_iff, failIf_ok_iff] at ha
        obtain ⟨_, h, _⟩ := ha
        omega
      have : cutPrice pool lower upper pl pu = pu := by
        unfold cutPrice; rw [if_neg hl, if_neg hcu]
      rw [f3, this, ← dxR_true, dxR_self]
  rcases h with h | ⟨bx, hbx, h⟩
  · rcases decrease_inv h with ⟨rfl, h3, h4⟩ | ⟨rfl, h3⟩
    · exact ⟨pool, pl, pu, hp, b1, b2, f1, f2, .inl ⟨h3, hX.resolve_right h4⟩⟩
    · have hcu := hX.resolve_right (by omega)
      refine ⟨pool, pl, pu, hp, b1, b2, f1, f2, .inl ⟨hcu, ?_⟩⟩
      have hcge : MIN_SQRT_PRICE ≤ cutPrice pool lower upper pl pu := by
        rw [← ec]; exact clampPrice_ge (reach_price s hr _ _ hp).1 f1 f2
      have hmin : 0 < MIN_SQRT_PRICE := by norm_num [MIN_SQRT_PRICE]
      have hpuge := calculateSqrtPrice_ge_min f2
      have h5 := dxUp_lt (lt_of_lt_of_le hmin hcge) (lt_of_lt_of_le hmin hpuge) delta (prod_pos_of_min hcge hpuge)
      rw [← f3] at h5
      exact lt_trans (by exact_mod_cast h3) h5
  rcases h with h | ⟨by_, hby, h⟩
  · rcases decrease_inv h with ⟨rfl, h3, h4⟩ | ⟨rfl, h3⟩
    · rw [decrease_get hbx hne.ne] at h3
      refine ⟨pool, pl, pu, hp, b1, b2, f1, f2, .inr ⟨h3, ?_⟩⟩
      rw [f4] at h4
      exact Nat.ceil_pos.1 (Nat.pos_of_ne_zero h4)
    · refine ⟨pool, pl, pu, hp, b1, b2, f1, f2, .inr ?_⟩
      unfold bal at h3 ⊢
      rw [decrease_get hbx hne.ne, f4] at h3
      exact Nat.lt_ceil.1 h3
  exfalso
  simp only [poolsUpdate, poolsGet, hp, okOr, bind_inv_iff, reduceCtorEq, pure_inv, and_false, exists_false,
    or_false, false_or] at h
  obtain ⟨_, _, h⟩ := h
  have j1 : r.lower.index = lower := hm.lower.index.trans i1
  have j2 : r.upper.index = upper := hm.upper.index.trans i2
  rcases h with h | ⟨s2, hs2, h⟩
  · exact putTick_inv (fun hb => by rw [j1]; exact (c1 hb).1) (fun hb => ⟨_, by rw [j1]; exact d1 hb⟩) h
  · obtain ⟨e1, -⟩ := putTick_ok hs2
    have hk : (key, upper) ≠ (key, lower) := by
      intro e; exact h1 (Prod.mk.inj e).2.symm
    have eT : s2.ticks.get (key, upper) = s.ticks.get (key, upper) := by
      rw [e1, j1, Map.get_insert, if_neg hk]
    exact putTick_inv (fun hb => by rw [j2, eT]; exact (c2 hb).1) (fun hb => ⟨_, by rw [j2, eT]; exact d2 hb⟩) h

/-- C110, the first three reasons for refusing a deposit are given exactly when they apply -/
theorem C110_create_iff (hr : Reach s) :
    (createPosition env s key lower upper delta ll lu = .error (.inv .ZeroLiquidity) ↔ delta = 0) ∧
    (createPosition env s key lower upper delta ll lu = .error (.inv .InvalidTickIndex) ↔ delta ≠ 0 ∧ lower = upper) ∧
    (createPosition env s key lower upper delta ll lu = .error (.inv .PoolNotFound) ↔
      delta ≠ 0 ∧ lower ≠ upper ∧ s.pools.get key = none) := by
  refine ⟨⟨fun h => C110_create hr h, fun h => ?_⟩, ⟨fun h => C110_create hr h, fun h => ?_⟩,
    ⟨fun h => C110_create hr h, fun h => ?_⟩⟩
  · unfold createPosition failIf
    rw [if_pos h]; rfl
  · unfold createPosition failIf
    rw [if_neg h.1, if_pos h.2]; rfl
  · unfold createPosition failIf poolsGet
    rw [if_neg h.1, if_neg h.2.1, h.2.2]; rfl

private theorem pay_worth (h : Reach32 s) {p : Position} {pool : Pool} {lo up : Tick}
    (hp : s.positions.map.get (env.caller, index) = some p) (hpl : s.pools.get p.poolKey = some pool)
    (hlo : s.ticks.get (p.poolKey, p.lowerTickIndex) = some lo)
    (hup : s.ticks.get (p.poolKey, p.upperTickIndex) = some up) {m : ModifyResult} {d n sp : Nat} {sg : Bool}
    (hm : ModifyOk p pool up lo d sg n sp m) :
    ∃ wx wy fx fy, Worth s p pool wx wy fx fy ∧ m.position.tokensOwedX = fx ∧ m.position.tokensOwedY = fy ∧
      (d = p.liquidity → sg = false → (m.amountX : ℚ) ≤ wx ∧ (m.amountY : ℚ) ≤ wy) := by
  have hr := (reach32_reach s h).1
  have hw := reach_wf s hr
  have hac := reach_acc s hr
  obtain ⟨wx, wy, fx, fy, hW⟩ := C36_worth (env := env) h (posGet_ok.2 hp) hpl
  refine ⟨wx, wy, fx, fy, hW, ?_⟩
  obtain ⟨pl, pu, ix, iy, e1, e2, e3, e4, e5, e6, e7, e8⟩ := hW
  simp only [FeeWorld.insideX, FeeWorld.insideY, world, hlo, hup, Option.pure_def, Option.bind_eq_bind,
    Option.bind_some, Option.some.injEq] at e3 e4
  have A := hac.pool _ _ hpl
  have B := hac.tick _ _ hlo
  have C := hac.tick _ _ hup
  have D := hac.pos _ _ hp
  have ox := hm.pos.owedX
  have oy := hm.pos.owedY
  rw [fgSub_eq (feeGrowthInside1_lt B.1 C.1 A.1) D.1, e3, D.2.2.1, Nat.zero_add, ← e7] at ox
  rw [fgSub_eq (feeGrowthInside1_lt B.2 C.2 A.2) D.2.1, e4, D.2.2.2, Nat.zero_add, ← e8] at oy
  refine ⟨ox, oy, ?_⟩
  rintro rfl rfl
  obtain ⟨j, ha⟩ := hm.pool.amounts
  rw [hw.indexed _ _ _ hlo, hw.indexed _ _ _ hup] at ha
  obtain ⟨pl', pu', f1, f2, -, f3, f4, -⟩ := calculateAmountDelta_ok ha
  rw [e1] at f1; cases f1
  rw [e2] at f2; cases f2
  have ec : clampPrice pool.currentTickIndex p.lowerTickIndex p.upperTickIndex pool.sqrtPrice pl pu =
      cutPrice pool p.lowerTickIndex p.upperTickIndex pl pu := rfl
  dsimp only at f3 f4
  rw [ec] at f3 f4
  have hpu0 : 0 < pu := lt_of_lt_of_le (by norm_num [MIN_SQRT_PRICE]) (calculateSqrtPrice_ge_min e2)
  have hc0 : 0 < cutPrice pool p.lowerTickIndex p.upperTickIndex pl pu := by
    rw [← ec]
    exact lt_of_lt_of_le (by norm_num [MIN_SQRT_PRICE]) (clampPrice_ge (reach_price s hr _ _ hpl).1 e1 e2)
  constructor
  · rw [e5, f3, dxR_false]; exact dxDown_le_amountX hc0 hpu0 _
  · rw [e6, f4, dyR_false, dyDown_eq_floor]
    exact Nat.floor_le (by unfold amountY liq; positivity)

private theorem found {q : Position} {i : Int} {t : Tick}
    (ht : s.ticks.get (q.poolKey, i) = some t) : ticksGet s.ticks q.poolKey i = .ok t := by
  unfold ticksGet; rw [ht]; rfl

/-- C110, removing a position -/
theorem C110_remove (h32 : Reach32 s) (h : removePosition env s index = .error (.inv e)) :
    PayReason s env.caller index true e := by
  have hr := (reach32_reach s h32).1
  have hw := reach_wf s hr
  unfold removePosition at h
  rw [bind_inv_iff] at h
  rcases h with h | ⟨p, hp, h⟩
  · unfold Positions.get okOr at h
    split at h
    · cases h
    · next hn => cases h; exact hn
  have hpm := posGet_ok.1 hp
  obtain ⟨lo, up, h1, h2, -⟩ := pos_stored_ticks h32 hpm
  obtain ⟨hP, hq⟩ := hw.pos _ _ hpm
  obtain ⟨pool, hpl⟩ := Option.isSome_iff_exists.1 hq
  have hne := ((reach_tiers hr).pools _ hq).2
  rw [found h1, found h2, poolsGet_ok.2 hpl] at h
  simp only [ok_bind] at h
  rw [bind_inv_iff] at h
  rcases h with h | ⟨r, hrm, h⟩
  · unfold Position.remove at h
    simp only [bind_inv_iff, unwrap_inv, addC_inv, pure_inv, false_or, and_false, exists_false] at h
  obtain ⟨m, hm, -, -, rfl⟩ := remove_full hrm
  have i1 : m.lower.index = p.lowerTickIndex := hm.lower.index.trans (hw.indexed _ _ _ h1)
  have i2 : m.upper.index = p.upperTickIndex := hm.upper.index.trans (hw.indexed _ _ _ h2)
  rw [poolsUpdate_ok.2 ⟨⟨pool, hpl⟩, rfl⟩, ok_bind, bind_inv_iff] at h
  rcases h with h | ⟨s1, hs1, h⟩
  · exact absurd h (dropTick_inv i1 h1)
  obtain ⟨d1, d2, d3⟩ := dropTick_ok hs1
  have hup1 : s1.ticks.get (p.poolKey, p.upperTickIndex) = some up := by
    have hk : (p.poolKey, p.upperTickIndex) ≠ (p.poolKey, p.lowerTickIndex) := by
      intro e; have := (Prod.mk.inj e).2; have := hP.lt; omega
    by_cases h0 : m.lower.liquidityGross = 0
    · rw [(d1 h0).2.1, i1, Map.get_erase, if_neg hk]; exact h2
    · rw [(d2 h0).2.1, Map.get_insert, if_neg hk]; exact h2
  rw [bind_inv_iff] at h
  rcases h with h | ⟨s2, hs2, h⟩
  · exact absurd h (dropTick_inv i2 hup1)
  obtain ⟨-, -, d6⟩ := dropTick_ok hs2
  have ep : s2.positions = s.positions := by rw [d6, d3]
  have eb : s2.balances = s.balances := by rw [d6, d3]
  rw [ep, eb, bind_inv_iff] at h
  rcases h with h | ⟨ps, hps, h⟩
  · exfalso
    have := (posRemove_inv h).2
    rw [hpm] at this
    cases this
  simp only [bind_inv_iff, pure_inv, and_false, exists_false, or_false] at h
  obtain ⟨wx, wy, fx, fy, hW, ox, oy, hxy⟩ := pay_worth (env := env) h32 hpm hpl h1 h2 hm
  obtain ⟨hx, hy⟩ := hxy rfl rfl
  rcases h with h | ⟨b, hb, h⟩
  · obtain ⟨rfl, h'⟩ := increase_inv h
    refine ⟨p, pool, wx, wy, fx, fy, hpm, hpl, hW, .inl ?_⟩
    rw [ox] at h'
    have : ((2 ^ 256 : Nat) : ℚ) ≤ ((bal s.balances env.caller p.poolKey.tokenX + (m.amountX + fx) : Nat) : ℚ) := by
      exact_mod_cast h'
    push_cast at this
    rw [if_pos rfl]
    linarith
  · obtain ⟨rfl, h'⟩ := increase_inv h
    refine ⟨p, pool, wx, wy, fx, fy, hpm, hpl, hW, .inr ?_⟩
    unfold bal at h' ⊢
    rw [increase_get hb hne.ne, oy] at h'
    have : ((2 ^ 256 : Nat) : ℚ) ≤ ((bal s.balances env.caller p.poolKey.tokenY + (m.amountY + fy) : Nat) : ℚ) := by
      unfold bal; exact_mod_cast h'
    unfold bal at this
    push_cast at this
    rw [if_pos rfl]
    linarith

/-- C110, claiming the fees of a position -/
theorem C110_claim (h32 : Reach32 s) (h : claimFee env s index = .error (.inv e)) :
    PayReason s env.caller index false e := by
  have hr := (reach32_reach s h32).1
  have hw := reach_wf s hr
  unfold claimFee at h
  rw [bind_inv_iff] at h
  rcases h with h | ⟨p, hp, h⟩
  · unfold Positions.get okOr at h
    split at h
    · cases h
    · next hn => cases h; exact hn
  have hpm := posGet_ok.1 hp
  obtain ⟨lo, up, h1, h2, -⟩ := pos_stored_ticks h32 hpm
  obtain ⟨hP, hq⟩ := hw.pos _ _ hpm
  obtain ⟨pool, hpl⟩ := Option.isSome_iff_exists.1 hq
  have hne := ((reach_tiers hr).pools _ hq).2
  rw [found h1, found h2, poolsGet_ok.2 hpl] at h
  simp only [ok_bind] at h
  rw [bind_inv_iff] at h
  rcases h with h | ⟨r, hrm, h⟩
  · unfold Position.claimFee at h
    simp only [bind_inv_iff, unwrap_inv, pure_inv, false_or, and_false, exists_false] at h
  obtain ⟨m, hm, rfl⟩ := claim_full hrm
  have i1 : m.lower.index = p.lowerTickIndex := hm.lower.index.trans (hw.indexed _ _ _ h1)
  have i2 : m.upper.index = p.upperTickIndex := hm.upper.index.trans (hw.indexed _ _ _ h2)
  obtain ⟨Ls, hLs⟩ := reach32_listed s h32
  have hidx : index < (Ls env.caller).length := by
    have := posRepr_get hLs env.caller index
    rw [hp] at this
    cases hc : (Ls env.caller)[index]? with
    | none => rw [hc] at this; cases this
    | some v => exact (List.getElem?_eq_some_iff.1 hc).1
  obtain ⟨ps, hps, -⟩ := (posRepr_update hLs env.caller index
    { m.position with tokensOwedX := 0, tokensOwedY := 0 }).1 hidx
  dsimp only at h
  rw [hps, ok_bind, poolsUpdate_ok.2 ⟨⟨pool, hpl⟩, rfl⟩, ok_bind, i1, i2,
    ticksUpdate_ok.2 ⟨⟨up, h2⟩, rfl⟩, ok_bind, ticksUpdate_ok.2 ⟨⟨lo, by
      have hk : (p.poolKey, p.lowerTickIndex) ≠ (p.poolKey, p.upperTickIndex) := by
        intro e; have := (Prod.mk.inj e).2; have := hP.lt; omega
      rw [Map.get_insert, if_neg hk]; exact h1⟩, rfl⟩, ok_bind] at h
  simp only [bind_inv_iff, pure_inv, and_false, exists_false, or_false] at h
  obtain ⟨wx, wy, fx, fy, hW, ox, oy, -⟩ := pay_worth (env := env) h32 hpm hpl h1 h2 hm
  rcases h with h | ⟨b, hb, h⟩
  · obtain ⟨rfl, h'⟩ := increase_inv h
    refine ⟨p, pool, wx, wy, fx, fy, hpm, hpl, hW, .inl ?_⟩
    rw [ox] at h'
    rw [if_neg (by decide), add_zero]
    exact_mod_cast h'
  · obtain ⟨rfl, h'⟩ := increase_inv h
    refine ⟨p, pool, wx, wy, fx, fy, hpm, hpl, hW, .inr ?_⟩
    unfold bal at h' ⊢
    rw [increase_get hb hne.ne, oy] at h'
    rw [if_neg (by decide), add_zero]
    exact_mod_cast h'

private theorem pay_missing {who : ActorId} {all : Bool} (h : PayReason s who index all .PositionNotFound) :
    s.positions.map.get (who, index) = none := by
  simpa only [PayReason] using h

/-- C110, transferring a position: the only reason, and exactly when it applies; so too when removing or claiming -/
theorem C110_missing {receiver : ActorId} (h32 : Reach32 s) :
    (transferPosition env s index receiver = .error (.inv e) ↔
      e = .PositionNotFound ∧ s.positions.map.get (env.caller, index) = none) ∧
    (removePosition env s index = .error (.inv .PositionNotFound) ↔ s.positions.map.get (env.caller, index) = none) ∧
    (claimFee env s index = .error (.inv .PositionNotFound) ↔ s.positions.map.get (env.caller, index) = none) := by
  refine ⟨⟨fun h => ?_, ?_⟩, ⟨fun h => pay_missing (C110_remove h32 h), fun hn => ?_⟩, ⟨fun h => pay_missing (C110_claim h32 h), fun hn => ?_⟩⟩
  · unfold transferPosition Positions.transfer at h
    simp only [bind_inv_iff, pure_inv, and_false, exists_false, or_false] at h
    exact posRemove_inv h
  · rintro ⟨rfl, hn⟩
    unfold transferPosition Positions.transfer Positions.remove Positions.get
    rw [hn]; simp only [okOr, error_bind]
  · unfold removePosition Positions.get
    rw [hn]; simp only [okOr, error_bind]
  · unfold claimFee Positions.get
    rw [hn]; simp only [okOr, error_bind]

/-- the reasons in the demo pool, one after another -/
example :
    failure (createPosition (Demo.by_ 2) Demo.start Demo.key (-20) 30 0 0 MAX_SQRT_PRICE) = some (.inv .ZeroLiquidity) ∧
    failure (createPosition (Demo.by_ 2) Demo.start Demo.key 30 30 5 0 MAX_SQRT_PRICE) = some (.inv .InvalidTickIndex) ∧
    failure (createPosition (Demo.by_ 2) Demo.start ⟨6, 7, Demo.tier⟩ (-20) 30 5 0 MAX_SQRT_PRICE) =
      some (.inv .PoolNotFound) ∧
    failure (createPosition (Demo.by_ 2) Demo.start Demo.key (-20) 30 5 0 15) = some (.inv .PriceLimitReached) ∧
    failure (createPosition (Demo.by_ 9) Demo.start Demo.key (-20) 30 (10 ^ 12) 0 MAX_SQRT_PRICE) =
      some (.inv .NoBalanceForTheToken) ∧
    failure (createPosition (Demo.by_ 2) Demo.start Demo.key (-20) 30 (10 ^ 30) 0 MAX_SQRT_PRICE) =
      some (.inv .FailedToChangeTokenBalance) ∧
    failure (removePosition (Demo.by_ 2) Demo.start 7) = some (.inv .PositionNotFound) ∧
    failure (claimFee (Demo.by_ 2) Demo.start 7) = some (.inv .PositionNotFound) ∧
    failure (transferPosition (Demo.by_ 2) Demo.start 7 3) = some (.inv .PositionNotFound) := by decide +kernel

end Verif
