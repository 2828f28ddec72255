import Verif.Proofs.Modify
import Verif.Proofs.SwapFrame
import Verif.Proofs.PoolKeys

/-! # Effects of calls on pools, ticks, tick map and positions -/

namespace Verif
open Service Spec

variable {env : Env} {s s' : Inv}

/-- flip a bit if required -/
def flipIf (b : Bool) (tm : Tickmap) (v : Bool) (i : Int) (key : PoolKey) (tm' : Tickmap) : Prop :=
  (b = true → tickmapFlip tm v i key.feeTier.tickSpacing key = .ok tm') ∧ (b = false → tm' = tm)

/-- what creating a position does -/
structure CreateEff (env : Env) (s : Inv) (key : PoolKey) (lower upper : Int) (delta : Nat)
    (pool : Pool) (lt ut : Tick × Bool) (m : ModifyResult) (b : Balances) (tm1 tm2 : Tickmap)
    (s' : Inv) : Prop where
  hdelta : delta ≠ 0
  ne : lower ≠ upper
  hpool : s.pools.get key = some pool
  hlt : getOrCreateTick s env.now key lower = .ok lt
  hut : getOrCreateTick s env.now key upper = .ok ut
  lidx : lt.1.index = lower
  uidx : ut.1.index = upper
  mod : ModifyOk ⟨key, 0, lower, upper, 0, 0, env.block, 0, 0⟩ pool ut.1 lt.1 delta true env.now
    key.feeTier.tickSpacing m
  flip1 : flipIf lt.2 s.tickmap true lower key tm1
  flip2 : flipIf ut.2 tm1 true upper key tm2
  res : s' = { s with balances := b, pools := s.pools.insert key m.pool
                      positions := s.positions.add env.caller m.position
                      ticks := (s.ticks.insert (key, lower) m.lower).insert (key, upper) m.upper
                      tickmap := tm2 }

theorem createTick_ok {key : PoolKey} {i : Int} {now : Nat} {t : Tick}
    (h : createTick s now key i = .ok t) :
    checkTick i key.feeTier.tickSpacing = .ok () ∧ ∃ pool, s.pools.get key = some pool ∧
      Tick.create i pool now = .ok t ∧ t.index = i ∧ t.sign = true ∧ t.liquidityChange = 0 ∧
      t.liquidityGross = 0 ∧ calculateSqrtPrice i = .ok t.sqrtPrice := by
  simp only [createTick, bind_ok_iff, mapErr_ok_iff, poolsGet_ok] at h
  obtain ⟨_, h1, pool, h2, h3⟩ := h
  refine ⟨h1, pool, h2, h3, ?_⟩
  simp only [Tick.create, bind_ok_iff, unwrap_ok_iff, pure_ok_iff] at h3
  obtain ⟨sp, h4, rfl⟩ := h3
  exact ⟨rfl, rfl, rfl, rfl, h4⟩

theorem getOrCreate_index {key : PoolKey} {i : Int} {now : Nat} {r : Tick × Bool}
    (hi : TickIndexed s.ticks) (h : getOrCreateTick s now key i = .ok r) : r.1.index = i := by
  rcases getOrCreateTick_ok.1 h with ⟨t, ht, rfl⟩ | ⟨_, t, ht, rfl⟩
  · exact hi key i t ht
  · obtain ⟨_, _, _, _, h, _⟩ := createTick_ok ht
    exact h

theorem createPosition_full {key : PoolKey} {lower upper : Int} {delta ll lu : Nat}
    {r : Inv × Position} (hi : TickIndexed s.ticks)
    (h : createPosition env s key lower upper delta ll lu = .ok r) :
    ∃ pool lt ut m b tm1 tm2,
      CreateEff env s key lower upper delta pool lt ut m b tm1 tm2 r.1 ∧ r.2 = m.position ∧
      ll ≤ pool.sqrtPrice ∧ pool.sqrtPrice ≤ lu ∧
      ∃ bx by_, decreaseTokenBalance s.balances key.tokenX env.caller (some m.amountX) = .ok bx ∧
        decreaseTokenBalance bx.1 key.tokenY env.caller (some m.amountY) = .ok by_ ∧ b = by_.1 := by
  obtain ⟨h1, h2, pool, lt, ut, m, bx, by_, s2, hp, hl, hu, hm, hbx, hby, hp1, hp2, e⟩ :=
    createPosition_ok h
  have hli := getOrCreate_index hi hl
  have hui := getOrCreate_index hi hu
  obtain ⟨c1, c2, hm⟩ := create_full hm
  rw [hli, hui] at hm
  obtain ⟨a1, a2, a3, a4⟩ := putTick_ok hp1
  obtain ⟨b1, b2, b3, b4⟩ := putTick_ok hp2
  have i1 : m.lower.index = lower := hm.lower.index.trans hli
  have i2 : m.upper.index = upper := hm.upper.index.trans hui
  rw [i1] at a1 a2 a3
  rw [i2] at b1 b2 b3
  refine ⟨pool, lt, ut, m, by_.1, s2.tickmap, r.1.tickmap, ⟨h1, h2, hp, hl, hu, hli, hui, hm, ?_, ?_, ?_⟩,
    e, c1, c2, bx, by_, hbx, hby, rfl⟩
  · exact ⟨fun h => (a2 h).2, fun h => (a3 h).2⟩
  · exact ⟨fun h => (b2 h).2, fun h => (b3 h).2⟩
  · rw [b4, b1, a1, a4]

/-- what removing a position does -/
structure RemoveEff (env : Env) (s : Inv) (index : Nat) (p : Position) (lower upper : Tick)
    (pool : Pool) (m : ModifyResult) (ps : Positions) (b : Balances) (tm1 tm2 : Tickmap)
    (s' : Inv) : Prop where
  get : s.positions.get env.caller index = .ok p
  hlt : s.ticks.get (p.poolKey, p.lowerTickIndex) = some lower
  hut : s.ticks.get (p.poolKey, p.upperTickIndex) = some upper
  hpool : s.pools.get p.poolKey = some pool
  mod : ModifyOk p pool upper lower p.liquidity false env.now p.poolKey.feeTier.tickSpacing m
  flip1 : flipIf (decide (m.lower.liquidityGross = 0)) s.tickmap false p.lowerTickIndex p.poolKey tm1
  flip2 : flipIf (decide (m.upper.liquidityGross = 0)) tm1 false p.upperTickIndex p.poolKey tm2
  rem : s.positions.remove env.caller index = .ok (ps, p)
  res : s' = { s with balances := b, pools := s.pools.insert p.poolKey m.pool
                      positions := ps
                      ticks :=
                        let t1 := if m.lower.liquidityGross = 0
                          then s.ticks.erase (p.poolKey, p.lowerTickIndex)
                          else s.ticks.insert (p.poolKey, p.lowerTickIndex) m.lower
                        if m.upper.liquidityGross = 0 then t1.erase (p.poolKey, p.upperTickIndex)
                          else t1.insert (p.poolKey, p.upperTickIndex) m.upper
                      tickmap := tm2 }

theorem remove_get {ps ps' : Positions} {a : ActorId} {i : Nat} {p : Position}
    (h : ps.remove a i = .ok (ps', p)) : ps.get a i = .ok p := by
  simp only [Positions.remove, bind_ok_iff, pure_ok_iff] at h
  obtain ⟨q, h1, _, _, e⟩ := h
  cases e
  exact h1

theorem dropTick_full {key : PoolKey} {i : Int} {t : Tick} (ht : t.index = i)
    (h : dropTick s key i t = .ok s') :
    s' = { s with ticks := if t.liquidityGross = 0 then s.ticks.erase (key, i)
                             else s.ticks.insert (key, i) t
                  tickmap := s'.tickmap } ∧
    flipIf (decide (t.liquidityGross = 0)) s.tickmap false i key s'.tickmap := by
  obtain ⟨h1, h2, h3⟩ := dropTick_ok h
  rw [ht] at h1
  by_cases h0 : t.liquidityGross = 0
  · obtain ⟨_, b, c⟩ := h1 h0
    refine ⟨?_, fun _ => c, by simp [h0]⟩
    rw [if_pos h0, ← b]
    exact h3
  · obtain ⟨_, b, c⟩ := h2 h0
    refine ⟨?_, by simp [h0], fun _ => c⟩
    rw [if_neg h0, ← b]
    exact h3

theorem removePosition_full {index : Nat} {r : Inv × Nat × Nat} (hi : TickIndexed s.ticks)
    (h : removePosition env s index = .ok r) :
    ∃ p lower upper pool m ps b tm1 tm2,
      RemoveEff env s index p lower upper pool m ps b tm1 tm2 r.1 ∧
      r.2 = (m.amountX + m.position.tokensOwedX, m.amountY + m.position.tokensOwedY) ∧
      ∃ b1, increaseTokenBalance s.balances p.poolKey.tokenX env.caller r.2.1 = .ok b1 ∧
        increaseTokenBalance b1 p.poolKey.tokenY env.caller r.2.2 = .ok b := by
  obtain ⟨p, lower, upper, pool, m, s1, s2, ps, b1, b2, hp, hl, hu, hpl, hm, hd1, hd2, hr, hb1, hb2, rfl⟩ :=
    removePosition_ok h
  obtain ⟨m', hm', _, _, rfl⟩ := remove_full hm
  have i1 : m'.lower.index = p.lowerTickIndex := hm'.lower.index.trans (hi _ _ _ hl)
  have i2 : m'.upper.index = p.upperTickIndex := hm'.upper.index.trans (hi _ _ _ hu)
  obtain ⟨e1, f1⟩ := dropTick_full i1 hd1
  obtain ⟨e2, f2⟩ := dropTick_full i2 hd2
  have ep : s2.positions = s.positions := by rw [e2, e1]
  have eb : s2.balances = s.balances := by rw [e2, e1]
  rw [ep] at hr
  rw [eb] at hb1
  have hg : ps.2 = p := by
    have := remove_get (p := ps.2) hr
    rw [hp] at this
    cases this
    rfl
  refine ⟨p, lower, upper, pool, m', ps.1, b2, s1.tickmap, s2.tickmap,
    ⟨hp, hl, hu, hpl, hm', f1, f2, ?_, ?_⟩, rfl, b1, hb1, hb2⟩
  · rw [hr, ← hg]
  · dsimp only
    rw [e2, e1]

/-- what claiming fees does -/
structure ClaimEff (env : Env) (s : Inv) (index : Nat) (p : Position) (lower upper : Tick)
    (pool : Pool) (m : ModifyResult) (ps : Positions) (b : Balances) (s' : Inv) : Prop where
  get : s.positions.get env.caller index = .ok p
  hlt : s.ticks.get (p.poolKey, p.lowerTickIndex) = some lower
  hut : s.ticks.get (p.poolKey, p.upperTickIndex) = some upper
  hpool : s.pools.get p.poolKey = some pool
  mod : ModifyOk p pool upper lower 0 true env.now p.poolKey.feeTier.tickSpacing m
  upd : s.positions.update env.caller index
    { m.position with tokensOwedX := 0, tokensOwedY := 0 } = .ok ps
  res : s' = { s with balances := b, pools := s.pools.insert p.poolKey m.pool
                      positions := ps
                      ticks := (s.ticks.insert (p.poolKey, p.upperTickIndex) m.upper).insert
                        (p.poolKey, p.lowerTickIndex) m.lower }

theorem claimFee_full {index : Nat} {r : Inv × Nat × Nat} (hi : TickIndexed s.ticks)
    (h : claimFee env s index = .ok r) :
    ∃ p lower upper pool m ps b,
      ClaimEff env s index p lower upper pool m ps b r.1 ∧
      r.2 = (m.position.tokensOwedX, m.position.tokensOwedY) ∧
      ∃ b1, increaseTokenBalance s.balances p.poolKey.tokenX env.caller r.2.1 = .ok b1 ∧
        increaseTokenBalance b1 p.poolKey.tokenY env.caller r.2.2 = .ok b := by
  obtain ⟨p, lower, upper, pool, m, ps, b1, b2, hp, hl, hu, hpl, hm, hps, hb1, hb2, rfl⟩ := claimFee_ok h
  obtain ⟨m', hm', rfl⟩ := claim_full hm
  have i1 : m'.lower.index = p.lowerTickIndex := hm'.lower.index.trans (hi _ _ _ hl)
  have i2 : m'.upper.index = p.upperTickIndex := hm'.upper.index.trans (hi _ _ _ hu)
  refine ⟨p, lower, upper, pool, m', ps, b2, ⟨hp, hl, hu, hpl, hm', hps, ?_⟩, rfl, b1, hb1, hb2⟩
  dsimp only
  rw [i1, i2]

/-- the effect of one call other than a route; a swap only if `sw` -/
inductive EffectIf (sw : Prop) (env : Env) (s : Inv) : Inv → Prop
  /-- settings or balances -/
  | other (pf : Nat) (ft : List FeeTier) (b : Balances) :
      EffectIf sw env s { s with protocolFee := pf, feeTiers := ft, balances := b }
  /-- a new pool -/
  | newPool {k : PoolKey} {p : Pool} {keys : PoolKeys} {i : Int} {sp : Nat} (ht : k.feeTier ∈ s.feeTiers)
      (hc : checkTick i k.feeTier.tickSpacing = .ok ()) (hn : s.pools.get k = none)
      (hp : Pool.create sp i env.now k.feeTier.tickSpacing s.admin = .ok p) :
      EffectIf sw env s { s with pools := s.pools.insert k p, poolKeys := keys }
  /-- receiver changed or protocol fees paid out -/
  | poolField {k : PoolKey} {p q : Pool} {b : Balances} (hp : s.pools.get k = some p)
      (hq : q = { p with feeReceiver := q.feeReceiver, feeProtocolTokenX := q.feeProtocolTokenX
                         feeProtocolTokenY := q.feeProtocolTokenY }) :
      EffectIf sw env s { s with pools := s.pools.insert k q, balances := b }
  | create {key : PoolKey} {lower upper : Int} {delta ll lu : Nat} {r : Inv × Position}
      (h : createPosition env s key lower upper delta ll lu = .ok r) : EffectIf sw env s r.1
  | remove {i : Nat} {r : Inv × Nat × Nat} (h : removePosition env s i = .ok r) : EffectIf sw env s r.1
  | claim {i : Nat} {r : Inv × Nat × Nat} (h : claimFee env s i = .ok r) : EffectIf sw env s r.1
  | transfer {i : Nat} {dest : ActorId} {ps : Positions} {p : Position}
      (h : s.positions.remove env.caller i = .ok (ps, p)) :
      EffectIf sw env s { s with positions := ps.add dest p }
  | swap {key : PoolKey} {xToY byIn : Bool} {amount limit : Nat} {r : Inv × CalculateSwapResult}
      (h : Service.swap env s key xToY amount byIn limit = .ok r) (hsw : sw) : EffectIf sw env s r.1

/-- the effect of one call other than a route -/
abbrev Effect := EffectIf True

theorem EffectIf.any {sw : Prop} (h : EffectIf sw env s s') : Effect env s s' := by
  cases h with
  | other pf ft b => exact .other pf ft b
  | newPool ht hc hn hp => exact .newPool ht hc hn hp
  | poolField hp hq => exact .poolField hp hq
  | create h => exact .create h
  | remove h => exact .remove h
  | claim h => exact .claim h
  | transfer h => exact .transfer h
  | swap h => exact .swap h trivial

theorem step_effectIf {c : Call} (hc : ∀ a e sl h, c ≠ .swapRoute a e sl h)
    (h : step env s c = .ok s') : EffectIf (∃ k d a b l, c = .swap k d a b l) env s s' := by
  cases c with
  | changeProtocolFee f =>
    simp only [step, changeProtocolFee, bind_ok_iff, failIf_ok_iff, pure_ok_iff] at h
    obtain ⟨_, ⟨_, ha, rfl⟩, rfl⟩ := h
    exact .other f s.feeTiers s.balances
  | addFeeTier t =>
    simp only [step, addFeeTier, bind_ok_iff, failIf_ok_iff, pure_ok_iff] at h
    obtain ⟨_, ⟨_, _, _, _, _, ha, l, _, rfl⟩, rfl⟩ := h
    exact .other s.protocolFee l s.balances
  | removeFeeTier t =>
    simp only [step, removeFeeTier, bind_ok_iff, failIf_ok_iff, pure_ok_iff] at h
    obtain ⟨_, ⟨_, ha, l, _, rfl⟩, rfl⟩ := h
    exact .other s.protocolFee l s.balances
  | createPool x y t p i =>
    obtain ⟨h1, h2, _, h3, _, pool, h4, rfl⟩ := createPool_ok h
    exact .newPool (k := ⟨min x y, max x y, t⟩) h1 h2 h3 h4
  | changeFeeReceiver k r =>
    obtain ⟨_, pool, hp, rfl⟩ := changeFeeReceiver_ok h
    exact .poolField (b := s.balances) hp rfl
  | createPosition k l u d a b =>
    simp only [step, bind_ok_iff, pure_ok_iff] at h
    obtain ⟨r, h, rfl⟩ := h
    exact .create h
  | removePosition i =>
    simp only [step, bind_ok_iff, pure_ok_iff] at h
    obtain ⟨r, h, rfl⟩ := h
    exact .remove h
  | transferPosition i r =>
    obtain ⟨ps, p, h1, rfl⟩ := transferPosition_ok h
    exact .transfer h1
  | swap k d a b l =>
    simp only [step, bind_ok_iff, pure_ok_iff] at h
    obtain ⟨r, h, rfl⟩ := h
    exact .swap h ⟨k, d, a, b, l, rfl⟩
  | swapRoute a e sl hp => exact absurd rfl (hc a e sl hp)
  | claimFee i =>
    simp only [step, bind_ok_iff, pure_ok_iff] at h
    obtain ⟨r, h, rfl⟩ := h
    exact .claim h
  | withdrawProtocolFee k =>
    simp only [step, bind_ok_iff, pure_ok_iff] at h
    obtain ⟨r, h, rfl⟩ := h
    obtain ⟨pool, _, _, hp, _, _, _, rfl⟩ := withdrawProtocolFee_ok h
    exact .poolField hp rfl
  | depositVara =>
    simp only [step, bind_ok_iff, pure_ok_iff] at h
    obtain ⟨r, h, rfl⟩ := h
    obtain ⟨b, _, rfl⟩ := depositVara_ok h
    exact .other s.protocolFee s.feeTiers b
  | withdrawVara v =>
    simp only [step, bind_ok_iff, pure_ok_iff] at h
    obtain ⟨r, h, rfl⟩ := h
    obtain ⟨b, e, _⟩ := withdrawVara_ok h
    rw [e]
    exact .other s.protocolFee s.feeTiers b

theorem step_effect {c : Call} (hc : ∀ a e sl h, c ≠ .swapRoute a e sl h)
    (h : step env s c = .ok s') : Effect env s s' := (step_effectIf hc h).any

/-- an invariant of reachable states need only be proved for the effects; the intermediate states
of a route are reachable too -/
theorem reach_ind {I : Inv → Prop} (hinit : ∀ a f, I (Inv.init a f))
    (htr : ∀ s b aw, I s → I { s with balances := b, awaiting := aw })
    (heff : ∀ env s s', Reach s → I s → Effect env s s' → I s') : ∀ s, Reach s → I s := by
  intro s h
  induction h with
  | init a f => exact hinit a f
  | transfers _ _ ih => exact htr _ _ _ ih
  | @call s s' env c hr h ih =>
    refine (step_cases (env := env) (R := fun s s' => Reach s ∧ I s → Reach s' ∧ I s')
      (fun _ => id) (fun _ _ _ f g => g ∘ f) ?_ s s' c h ⟨hr, ih⟩).2
    intro s s' c hc h ⟨hr, hI⟩
    exact ⟨.call hr h, heff env s s' hr hI (step_effect hc h)⟩

end Verif
