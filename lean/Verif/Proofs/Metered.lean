import Verif.Spec.Stuck
import Verif.Proofs.Stuck
import Verif.Props.Credited

/-! # Histories with what the roundings may have taken -/

namespace Verif
open Service Spec

variable {env : Env} {s s' : Inv}

theorem accrued_eq (hr : Reach32 s) {k : ActorId × Nat} {q : Position} (hq : s.positions.map.get k = some q)
    {pool : Pool} (hp : s.pools.get q.poolKey = some pool) (tok : Bool) :
    accrued tok (world s q.poolKey pool) q = grown tok (world s q.poolKey pool) q * q.liquidity / 10 ^ 33 := by
  have hre := (reach32_reach _ hr).1
  have hwf : (world s q.poolKey pool).WF :=
    ⟨((reach_acc _ hre).pool _ _ hp).1, ((reach_acc _ hre).pool _ _ hp).2, fun i t ht =>
      ⟨(reach_wf _ hre).indexed _ _ _ ht, ((reach_acc _ hre).tick _ _ ht).1, ((reach_acc _ hre).tick _ _ ht).2⟩⟩
  have hin := stored_posIn hr hq
  unfold accrued grown insideOf
  have hs : snapOf tok q < 2 ^ 128 := by unfold snapOf; split; exacts [hin.accX, hin.accY]
  cases e : (if tok = true then (world s q.poolKey pool).insideX q.lowerTickIndex q.upperTickIndex
    else (world s q.poolKey pool).insideY q.lowerTickIndex q.upperTickIndex) with
  | none => simp
  | some i =>
    dsimp only
    have hi : i < 2 ^ 128 := inside_lt (tok := tok) hwf e
    rw [fgSub_eq hi hs, ← Nat.add_sub_assoc hs.le]
    rfl

theorem curveHeldBy_eq (hr : Reach32 s) {k : ActorId × Nat} {q : Position} (hq : s.positions.map.get k = some q)
    {pool : Pool} (hp : s.pools.get q.poolKey = some pool) (tok : Bool) :
    curveHeldBy tok pool.sqrtPrice q = onCurve tok (world s q.poolKey pool) q := by
  have hre := (reach32_reach _ hr).1
  have ha := reach_agree _ hre _ _ hp
  have hok := ((reach_wf s hre).pos _ _ hq).1
  have hc : cutOf (world s q.poolKey pool).pool q = max (priceOf q.lowerTickIndex) (min pool.sqrtPrice (priceOf q.upperTickIndex)) :=
    cutOf_eq ha hok.lower hok.upper hok.lt
  unfold curveHeldBy
  rw [calculateSqrtPrice_eq hok.lower.min hok.lower.max, calculateSqrtPrice_eq hok.upper.min hok.upper.max]
  dsimp only
  cases tok
  · rw [if_neg (by decide), onCurve_Y (w := world s q.poolKey pool) ha hok.lt hok.lower hok.upper, hc]
  · rw [if_pos rfl, onCurve_X (w := world s q.poolKey pool) ha hok.lt hok.lower hok.upper, hc]

theorem claims_eq (hr : Reach32 s) (t : ActorId) : claims s t = owed s t := by
  unfold claims owed allWorth posSum
  congr 1
  refine Map.sum_congr fun k q hq => ?_
  obtain ⟨pool, hp⟩ := Option.isSome_iff_exists.1 ((reach_wf s (reach32_reach s hr).1).pos _ _ hq).2
  rw [worthIn_some hp]
  unfold posHas worth
  rw [hp]
  dsimp only
  rw [accrued_eq hr hq hp, accrued_eq hr hq hp, curveHeldBy_eq hr hq hp, curveHeldBy_eq hr hq hp]

theorem moved_eq (s s' : Inv) (t : ActorId) : moved s s' t = relX * |(totalBal s' t : ℚ) - totalBal s t| := by
  unfold moved relX; ring

theorem moved_nonneg (s s' : Inv) (t : ActorId) : 0 ≤ moved s s' t := by
  unfold moved; positivity

theorem owed_swap_eq (hr : Reach32 s) (hr' : Reach32 s') {k : PoolKey} {xToY byIn : Bool} {amount limit : Nat}
    {r : Inv × CalculateSwapResult} (h : Service.swap env s k xToY amount byIn limit = .ok r) (e' : s' = r.1)
    (t : ActorId) :
    owed r.1 t - owed s t = (totalBal r.1 t - totalBal s t) +
      ((credited true r.1 k - credited true s k) * (if k.tokenX = t then 1 else 0) +
       (credited false r.1 k - credited false s k) * (if k.tokenY = t then 1 else 0)) ∧
    (totalBal r.1 t : ℚ) + ((if t = (if xToY = true then k.tokenX else k.tokenY) then r.2.amountIn else 0 : Nat) : ℚ) =
      totalBal s t + ((if t = (if xToY = true then k.tokenY else k.tokenX) then r.2.amountOut else 0 : Nat) : ℚ) := by
  subst e'
  obtain ⟨ticks, b1, b2, h1, h2, h3, h4, e⟩ := swap_ok h
  obtain ⟨p, hp, _⟩ := calculateSwap_pool h1
  have hp' : r.1.pools.get k = some r.2.pool := by rw [e]; exact Map.get_insert_self _ _ _
  have hpos : r.1.positions = s.positions := by rw [e]
  have hrest : posSum r.1.positions (fun q => if q.poolKey = k then 0 else worthIn r.1 t q) =
      posSum s.positions (fun q => if q.poolKey = k then 0 else worthIn s t q) := by
    rw [hpos]
    unfold posSum
    refine Map.sum_congr fun j q hq => ?_
    dsimp only
    by_cases ek : q.poolKey = k
    · rw [if_pos ek, if_pos ek]
    · rw [if_neg ek, if_neg ek]
      obtain ⟨pl, l, u, hpl, hl, hu⟩ := stored_has hr hq
      have hto : ∀ i, r.1.ticks.get (q.poolKey, i) = s.ticks.get (q.poolKey, i) := by
        intro i
        rw [e]
        exact updateTicks_other _ _ _ h2 _ ek
      refine KeepsWorth.eq ⟨⟨pl, pl, hpl, ?_, .refl _⟩, ⟨l, l, hl, by rw [hto]; exact hl, .refl _⟩,
        ⟨u, u, hu, by rw [hto]; exact hu, .refl _⟩⟩ t
      rw [e]
      dsimp only
      rw [Map.get_insert_ne _ _ ek]; exact hpl
  have hsplit := allWorth_split hp t
  have hsplit' := allWorth_split hp' t
  rw [hrest] at hsplit'
  have hpr := proto_insert (p' := r.2.pool) hp t
  have hpr' : (totalProto r.1 t : ℚ) + protoIn k p t = totalProto s t + protoIn k r.2.pool t := by
    have e1 : totalProto r.1 t = (s.pools.insert k r.2.pool).sum fun k p => protoIn k p t := by
      rw [e]; rfl
    have e2 : totalProto s t = s.pools.sum fun k p => protoIn k p t := rfl
    rw [e1, e2]
    exact_mod_cast hpr
  have ht1 := (dec_took h3).tot t
  rw [(decrease_bal h3 0 0).2] at ht1
  have ht2 := total_inc h4 t
  refine ⟨?_, ?_⟩
  · rw [credited_eq hr hp, credited_eq hr hp, credited_eq hr' hp', credited_eq hr' hp']
    unfold owed
    rw [hsplit, hsplit']
    unfold protoIn at hpr'
    unfold protoOf
    simp only [if_true, Bool.false_eq_true, if_false]
    by_cases e1 : k.tokenX = t <;> by_cases e2 : k.tokenY = t <;>
      simp only [e1, e2, if_true, if_false, mul_one, mul_zero, add_zero, zero_add] at hpr' ⊢ <;>
      push_cast at hpr' <;> linarith
  · have e1 : totalBal r.1 t = total b2 t := by rw [totalBal_eq, e]
    rw [e1, totalBal_eq]
    exact_mod_cast (by omega : total b2 t + _ = total s.balances t + _)

theorem owed_swap_ge (hc : Clear s) {k : PoolKey} {xToY byIn : Bool} {amount limit n : Nat}
    {r : Inv × CalculateSwapResult} (h : Service.swap env s k xToY amount byIn limit = .ok r)
    (hn : ¬ Near s k xToY byIn limit r.2.targetSqrtPrice) {pool : Pool} (hp : s.pools.get k = some pool)
    {M : Nat} (hM : Roomy xToY s k pool r.2.amountIn M)
    (ht : TookRounds s ⟨k, xToY, byIn, limit, env.now⟩ pool amount r.2 n) (t : ActorId) :
    owed s t ≤ owed r.1 t + moved s r.1 t + shaved s k pool xToY byIn n t := by
  unfold shaved
  have hr := clear_reach32 _ hc
  have hr' := clear_reach32 _ (Clear.swap hc h hn)
  have hne := ((reach_tiers (reach32_reach _ hr).1).pools k (by rw [hp]; rfl)).2.ne
  obtain ⟨a1, a2⟩ := owed_swap_eq hr hr' h rfl t
  obtain ⟨m, hm, -, ⟨c1, _⟩, _, c2⟩ := C107_credited_partial hc h hn hp hM
  cases took_unique hm ht
  rw [moved_eq]
  have hrel : relX = 1 / (2 * 10 ^ 14) := rfl
  rw [← hrel] at c1 c2
  have r0 := relX_pos
  have r1 : relX ≤ 1 := by norm_num [relX]
  have hn0 : (0 : ℚ) ≤ n := Nat.cast_nonneg _
  have hL0 : (0 : ℚ) ≤ n * (2 * (poolLiq s k / 10 ^ 33)) := by positivity
  clear hm ht
  generalize (n : ℚ) = n at *
  have i0 : (0 : ℚ) ≤ relX * r.2.amountIn := by positivity
  have o0 : (0 : ℚ) ≤ relX * r.2.amountOut := by positivity
  have rn : relX * n ≤ n := by nlinarith
  have hg0 : (0 : ℚ) ≤ if byIn = true then 0 else lastUnit xToY pool.sqrtPrice (poolLiq s k) := by
    split
    · exact le_rfl
    · exact lastUnit_nonneg _ _ _
  generalize (if byIn = true then 0 else lastUnit xToY pool.sqrtPrice (poolLiq s k)) = g at *
  -- in whichever token, what is lost is no more than the two terms
  have hin : ∀ tok, (tok = xToY → (credited tok s k - credited tok r.1 k) ≤ -r.2.amountIn + relX * r.2.amountIn +
      2 * n * (1 + poolLiq s k / 10 ^ 33) + g) ∧ (tok ≠ xToY → credited tok s k - credited tok r.1 k ≤
        r.2.amountOut + relX * r.2.amountOut + 2 * n * (1 + poolLiq s k / 10 ^ 33) + g) := by
    intro tok
    constructor
    · rintro rfl
      have : (if tok = true then relX else 0) * (r.2.amountIn : ℚ) ≤ relX * r.2.amountIn := by
        split
        · exact le_rfl
        · simpa using i0
      have e1 : n * (1 + 2 * (poolLiq s k : ℚ) / 10 ^ 33) = n + n * (2 * (poolLiq s k / 10 ^ 33)) := by ring
      have e2 : 2 * n * (1 + (poolLiq s k : ℚ) / 10 ^ 33) = 2 * n + n * (2 * (poolLiq s k / 10 ^ 33)) := by ring
      rw [e1] at c1
      rw [e2]
      linarith
    · intro hne
      have : tok = !xToY := by cases tok <;> cases xToY <;> simp at hne ⊢
      subst this
      have e2 : 2 * n * (1 + (poolLiq s k : ℚ) / 10 ^ 33) = 2 * n + n * (2 * (poolLiq s k / 10 ^ 33)) := by ring
      rw [e2]
      have : (1 + if xToY = true then 0 else relX) * ((r.2.amountOut : ℚ) + n) ≤ (1 + relX) * (r.2.amountOut + n) := by
        refine mul_le_mul_of_nonneg_right ?_ (by positivity)
        split <;> linarith
      linarith
  by_cases e1 : k.tokenX = t
  · have e2 : k.tokenY ≠ t := fun h => hne (e1.trans h.symm)
    have e3 : ¬ t = k.tokenY := fun h => e2 h.symm
    rw [if_pos (.inl e1.symm)]
    rw [if_pos e1, if_neg e2] at a1
    obtain ⟨g1, g2⟩ := hin true
    cases hx : xToY
    · rw [hx] at a2
      simp only [Bool.false_eq_true, if_false, if_pos e1.symm, if_neg e3, Nat.cast_zero, add_zero] at a2
      have := g2 (by rw [hx]; decide)
      have habs := le_abs_self ((totalBal r.1 t : ℚ) - totalBal s t)
      have : relX * (r.2.amountOut : ℚ) ≤ relX * |(totalBal r.1 t : ℚ) - totalBal s t| :=
        mul_le_mul_of_nonneg_left (by linarith) r0.le
      linarith
    · rw [hx] at a2
      simp only [if_true, if_pos e1.symm, if_neg e3, Nat.cast_zero, add_zero] at a2
      have := g1 hx.symm
      have habs := neg_abs_le ((totalBal r.1 t : ℚ) - totalBal s t)
      have : relX * (r.2.amountIn : ℚ) ≤ relX * |(totalBal r.1 t : ℚ) - totalBal s t| :=
        mul_le_mul_of_nonneg_left (by linarith) r0.le
      linarith
  · have e1' : ¬ t = k.tokenX := fun h => e1 h.symm
    by_cases e2 : k.tokenY = t
    · rw [if_pos (.inr e2.symm)]
      rw [if_neg e1, if_pos e2] at a1
      obtain ⟨g1, g2⟩ := hin false
      cases hx : xToY
      · rw [hx] at a2
        simp only [Bool.false_eq_true, if_false, if_pos e2.symm, if_neg e1', Nat.cast_zero, add_zero] at a2
        have := g1 hx.symm
        have habs := neg_abs_le ((totalBal r.1 t : ℚ) - totalBal s t)
        have : relX * (r.2.amountIn : ℚ) ≤ relX * |(totalBal r.1 t : ℚ) - totalBal s t| :=
          mul_le_mul_of_nonneg_left (by linarith) r0.le
        linarith
      · rw [hx] at a2
        simp only [if_true, if_pos e2.symm, if_neg e1', Nat.cast_zero, add_zero] at a2
        have := g2 (by rw [hx]; decide)
        have habs := le_abs_self ((totalBal r.1 t : ℚ) - totalBal s t)
        have : relX * (r.2.amountOut : ℚ) ≤ relX * |(totalBal r.1 t : ℚ) - totalBal s t| :=
          mul_le_mul_of_nonneg_left (by linarith) r0.le
        linarith
    · have e2' : ¬ t = k.tokenY := fun h => e2 h.symm
      rw [if_neg e1, if_neg e2] at a1
      rw [if_neg (by tauto)]
      have : (totalBal r.1 t : ℚ) = totalBal s t := by
        cases hx : xToY <;> rw [hx] at a2 <;>
          simpa only [Bool.false_eq_true, if_false, if_true, if_neg e1', if_neg e2', Nat.cast_zero, add_zero] using a2
      have : 0 ≤ relX * |(totalBal r.1 t : ℚ) - totalBal s t| := by positivity
      linarith

theorem owed_call_ge {c : Call} (hr : Reach32 s) (hr' : Reach32 s')
    (hc : (∀ k d a b l, c ≠ .swap k d a b l) ∧ (∀ a e sl h, c ≠ .swapRoute a e sl h) ∧ NoVara c)
    (h : step env s c = .ok s') (t : ActorId) : owed s t ≤ owed s' t + 3 + moved s s' t := by
  have h0 := moved_nonneg s s' t
  have same : owed s' t = owed s t → owed s t ≤ owed s' t + 3 + moved s s' t := fun e => by linarith
  cases c with
  | changeProtocolFee f =>
    simp only [step, changeProtocolFee, bind_ok_iff, failIf_ok_iff, pure_ok_iff] at h
    obtain ⟨_, ⟨_, ha, rfl⟩, rfl⟩ := h
    exact same rfl
  | addFeeTier f =>
    simp only [step, addFeeTier, bind_ok_iff, failIf_ok_iff, pure_ok_iff] at h
    obtain ⟨_, ⟨_, _, _, _, _, ha, l, _, rfl⟩, rfl⟩ := h
    exact same rfl
  | removeFeeTier f =>
    simp only [step, removeFeeTier, bind_ok_iff, failIf_ok_iff, pure_ok_iff] at h
    obtain ⟨_, ⟨_, ha, l, _, rfl⟩, rfl⟩ := h
    exact same rfl
  | createPool x y f p i =>
    obtain ⟨h1, h2, _, h3, _, pool, h4, rfl⟩ := createPool_ok h
    have e : pool.feeProtocolTokenX = 0 ∧ pool.feeProtocolTokenY = 0 := by
      simp only [Pool.create, bind_ok_iff, pure_ok_iff] at h4
      obtain ⟨_, _, _, _, _, _, rfl⟩ := h4
      exact ⟨rfl, rfl⟩
    exact same (owed_newPool hr h3 e.1 e.2 t)
  | changeFeeReceiver k r =>
    obtain ⟨_, pool, hp, rfl⟩ := changeFeeReceiver_ok h
    exact same (owed_poolField (b := s.balances) (q := { pool with feeReceiver := r }) hr hp ⟨rfl, rfl, rfl, rfl⟩ t rfl)
  | createPosition k l u d a b =>
    simp only [step, bind_ok_iff, pure_ok_iff] at h
    obtain ⟨r, h, rfl⟩ := h
    have := owed_create_ge hr hr' h t
    rw [moved_eq]
    linarith
  | removePosition i =>
    simp only [step, bind_ok_iff, pure_ok_iff] at h
    obtain ⟨r, h, rfl⟩ := h
    have := owed_remove_ge hr hr' h t
    rw [moved_eq]
    linarith
  | transferPosition i r =>
    obtain ⟨ps, p, h1, rfl⟩ := transferPosition_ok h
    exact same (owed_transfer hr h1 t)
  | swap k d a b l => exact absurd rfl (hc.1 k d a b l)
  | swapRoute a e sl hp => exact absurd rfl (hc.2.1 a e sl hp)
  | claimFee i =>
    simp only [step, bind_ok_iff, pure_ok_iff] at h
    obtain ⟨r, h, rfl⟩ := h
    have := owed_claim_ge hr h t
    linarith
  | withdrawProtocolFee k =>
    simp only [step, bind_ok_iff, pure_ok_iff] at h
    obtain ⟨r, h, rfl⟩ := h
    obtain ⟨pool, b1, b2, hp, _, hb1, hb2, rfl⟩ := withdrawProtocolFee_ok h
    exact same (owed_poolField (b := b2) (q := { pool with feeProtocolTokenX := 0, feeProtocolTokenY := 0 })
      hr hp ⟨rfl, rfl, rfl, rfl⟩ t (by
        rw [total_inc hb2, total_inc hb1]
        unfold protoIn
        simp only [eq_comm (a := t)]
        split <;> split <;> omega))
  | depositVara => exact absurd rfl hc.2.2.1
  | withdrawVara v => exact absurd rfl (hc.2.2.2 v)

theorem metered_clear {held : ActorId → Nat} {lost : ActorId → ℚ} (h : Metered Calm s held lost) : Clear s := by
  induction h with
  | init a f => exact .init a f
  | call _ hc h hf ih => exact .call ih ⟨hc.1, hc.2.1⟩ h hf
  | deposit _ h ih =>
    exact .transfers ih (balWF_inc (reach_balWF (reach32_reach _ (clear_reach32 _ ih)).1) h)
  | withdraw _ h ih =>
    exact .transfers ih (balWF_dec (reach_balWF (reach32_reach _ (clear_reach32 _ ih)).1) h)
  | swap _ _ h hn _ ih => exact .swap ih h hn.1

theorem metered_nonneg {ok : SwapRule} {held : ActorId → Nat} {lost : ActorId → ℚ} (h : Metered ok s held lost)
    (t : ActorId) : 0 ≤ lost t := by
  induction h with
  | init a f => exact le_rfl
  | @call s s' _ _ _ _ _ _ _ _ ih => have := moved_nonneg s s' t; dsimp only; linarith
  | deposit _ _ ih => exact ih
  | withdraw _ _ ih => exact ih
  | @swap s _ _ _ key xToY byIn _ _ n pool r _ _ _ _ _ ih =>
    have := moved_nonneg s r.1 t
    dsimp only
    have : 0 ≤ shaved s key pool xToY byIn n t := by
      unfold shaved
      split
      · refine add_nonneg (by positivity) ?_
        split
        · exact le_rfl
        · exact lastUnit_nonneg _ _ _
      · exact le_rfl
    linarith

theorem metered_owed {held : ActorId → Nat} {lost : ActorId → ℚ} (h : Metered Calm s held lost) (t : ActorId) :
    held t ≤ owed s t + lost t := by
  induction h with
  | init a f => simp [owed, totalBal, totalProto, allWorth, posSum, Inv.init]
  | @call s s' env c held lost hb hc h hf ih =>
    have hr := clear_reach32 _ (metered_clear hb)
    have hr' := clear_reach32 _ (metered_clear (.call hb hc h hf))
    have h1 := owed_call_ge hr hr' hc h t
    dsimp only
    linarith
  | @deposit s held lost t' a v b aw hb h ih =>
    have h1 : owed { s with balances := b, awaiting := aw } t = owed s t + (if t = t' then v else 0 : Nat) := by
      unfold owed
      have e : totalBal { s with balances := b, awaiting := aw } t = totalBal s t + if t = t' then v else 0 :=
        total_inc h t
      rw [e]
      push_cast
      have e2 : allWorth { s with balances := b, awaiting := aw } t = allWorth s t := rfl
      have e3 : totalProto { s with balances := b, awaiting := aw } t = totalProto s t := rfl
      rw [e2, e3]
      ring
    rw [h1]
    dsimp only
    split <;> push_cast <;> linarith
  | @withdraw s held lost t' a v r aw hb h ih =>
    have hr := clear_reach32 _ (metered_clear hb)
    have ht := (dec_took h).tot t
    rw [(decrease_bal h 0 0).2] at ht
    have e : totalBal s t = totalBal { s with balances := r.1, awaiting := aw } t + if t = t' then v else 0 := ht
    have e2 : allWorth { s with balances := r.1, awaiting := aw } t = allWorth s t := rfl
    have e3 : totalProto { s with balances := r.1, awaiting := aw } t = totalProto s t := rfl
    have h1 : owed { s with balances := r.1, awaiting := aw } t + (if t = t' then v else 0 : Nat) = owed s t := by
      unfold owed
      rw [e]
      push_cast
      rw [e2, e3]
      ring
    have h0 : 0 ≤ owed { s with balances := r.1, awaiting := aw } t := by
      unfold owed
      rw [e2]
      have := allWorth_nonneg hr t
      positivity
    have hl := metered_nonneg hb t
    dsimp only
    split
    · next e =>
      rw [if_pos e] at h1
      rcases Nat.le_total v (held t) with hv | hv
      · rw [Nat.cast_sub hv]
        linarith
      · rw [Nat.sub_eq_zero_of_le hv]
        push_cast
        linarith
    · next e =>
      rw [if_neg e] at h1
      push_cast at h1
      linarith
  | @swap s held lost env key xToY byIn amount limit n pool r hb hp h hok ht ih =>
    obtain ⟨hn, p, M, hp', hM⟩ := hok
    rw [hp] at hp'
    cases hp'
    have h1 := owed_swap_ge (metered_clear hb) h hn hp hM ht t
    dsimp only
    linarith

end Verif
