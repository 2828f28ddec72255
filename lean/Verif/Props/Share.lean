import Verif.Proofs.Effect
import Verif.Proofs.TickInv
import Verif.Props.Authority
import Verif.Spec.Demo

/-!
# Property C87: providers of the same range share the fees in proportion to their liquidity

Two positions in the same range of a pool, opened one after the other or claimed one after the other: whatever is
traded, opened, removed or changed by anybody afterwards, as long as both are kept the fees that they can claim are
in the proportion of their liquidities, up to less than one unit each. This holds in all reachable states, also where
the pool computes with a wrong liquidity.
-/

namespace Verif
open Service Spec

variable {env env' : Env} {s s₁ s₂ s₃ s₄ s₅ : Inv} {p q : Position} {i j : Nat}

/-- the amounts `f` and `g` are in the proportion of `L` and `M`, up to less than one unit each -/
def Spec.InProportion (f g L M : Nat) : Prop := f * M < (g + 1) * L ∧ g * L < (f + 1) * M

private theorem share_div {g L M D : Nat} (hD : 0 < D) (hM : 0 < M) : g * L / D * M < (g * M / D + 1) * L ∨ L = 0 := by
  rcases Nat.eq_zero_or_pos L with h | hL
  · exact .inr h
  left
  have h1 : g * L / D * D ≤ g * L := Nat.div_mul_le_self _ _
  have h2 : g * M < (g * M / D + 1) * D := lt_div_add_one_mul _ hD
  have h3 : g * L / D * M * D < (g * M / D + 1) * L * D := by
    calc g * L / D * M * D = g * L / D * D * M := by ring
      _ ≤ g * L * M := Nat.mul_le_mul_right _ h1
      _ = g * M * L := by ring
      _ < (g * M / D + 1) * D * L := Nat.mul_lt_mul_of_pos_right h2 hL
      _ = _ := by ring
  exact Nat.lt_of_mul_lt_mul_right h3

/-- what a claim pays for a position without earlier fees -/
private theorem claim_paid (hr : Reach s) (hp : s.positions.get env.caller i = .ok p) (hx : p.tokensOwedX = 0)
    (hy : p.tokensOwedY = 0) {fx fy : Nat} (h : claimFee env s i = .ok (s₁, fx, fy)) :
    ∃ pool l u, s.pools.get p.poolKey = some pool ∧ s.ticks.get (p.poolKey, p.lowerTickIndex) = some l ∧
      s.ticks.get (p.poolKey, p.upperTickIndex) = some u ∧ p.liquidity ≠ 0 ∧
      fx = fgSub (feeGrowthInside1 l.index l.feeGrowthOutsideX u.index u.feeGrowthOutsideX pool.currentTickIndex
        pool.feeGrowthGlobalX) p.feeGrowthInsideX * p.liquidity / 10 ^ 33 ∧
      fy = fgSub (feeGrowthInside1 l.index l.feeGrowthOutsideY u.index u.feeGrowthOutsideY pool.currentTickIndex
        pool.feeGrowthGlobalY) p.feeGrowthInsideY * p.liquidity / 10 ^ 33 := by
  obtain ⟨p', l, u, pool, m, ps, b, he, h1, -⟩ := claimFee_full (reach_wf s hr).indexed h
  have e := he.get
  rw [hp] at e
  cases e
  cases h1
  refine ⟨pool, l, u, he.hpool, he.hlt, he.hut, fun h0 => he.mod.pos.ne ⟨rfl, h0⟩, ?_, ?_⟩
  · rw [he.mod.pos.owedX, hx, Nat.zero_add]
  · rw [he.mod.pos.owedY, hy, Nat.zero_add]

/-- C87, the claims: in every reachable state, two positions in the same range with the same stored growths and
nothing owed yield fees in the proportion of their liquidities, in both tokens. -/
theorem C87_claims (hr : Reach s) (hp : s.positions.get env.caller i = .ok p) (hq : s.positions.get env'.caller j = .ok q)
    (hk : q.poolKey = p.poolKey) (hl : q.lowerTickIndex = p.lowerTickIndex) (hu : q.upperTickIndex = p.upperTickIndex)
    (hgx : q.feeGrowthInsideX = p.feeGrowthInsideX) (hgy : q.feeGrowthInsideY = p.feeGrowthInsideY)
    (hpx : p.tokensOwedX = 0) (hpy : p.tokensOwedY = 0) (hqx : q.tokensOwedX = 0) (hqy : q.tokensOwedY = 0)
    {fx fy gx gy : Nat} (hc : claimFee env s i = .ok (s₁, fx, fy)) (hd : claimFee env' s j = .ok (s₂, gx, gy)) :
    InProportion fx gx p.liquidity q.liquidity ∧ InProportion fy gy p.liquidity q.liquidity := by
  obtain ⟨pool, l, u, a1, a2, a3, a0, a4, a5⟩ := claim_paid hr hp hpx hpy hc
  obtain ⟨pool', l', u', b1, b2, b3, b0, b4, b5⟩ := claim_paid hr hq hqx hqy hd
  rw [hk, a1] at b1
  rw [hk, hl, a2] at b2
  rw [hk, hu, a3] at b3
  cases b1; cases b2; cases b3
  rw [hgx] at b4
  rw [hgy] at b5
  have hD : 0 < 10 ^ 33 := by positivity
  rw [a4, a5, b4, b5]
  exact ⟨⟨(share_div hD (Nat.pos_of_ne_zero b0)).resolve_right a0,
    (share_div hD (Nat.pos_of_ne_zero a0)).resolve_right b0⟩,
    ⟨(share_div hD (Nat.pos_of_ne_zero b0)).resolve_right a0,
    (share_div hD (Nat.pos_of_ne_zero a0)).resolve_right b0⟩⟩

/-- the growth inside a range, from the stored accumulators -/
private def Inside (s : Inv) (key : PoolKey) (lo hi : Int) (gx gy : Nat) : Prop :=
  ∃ pool l u, s.pools.get key = some pool ∧ s.ticks.get (key, lo) = some l ∧ s.ticks.get (key, hi) = some u ∧
    gx = feeGrowthInside1 l.index l.feeGrowthOutsideX u.index u.feeGrowthOutsideX
      pool.currentTickIndex pool.feeGrowthGlobalX ∧
    gy = feeGrowthInside1 l.index l.feeGrowthOutsideY u.index u.feeGrowthOutsideY
      pool.currentTickIndex pool.feeGrowthGlobalY

private theorem Inside.eq {key : PoolKey} {lo hi : Int} {gx gy hx hy : Nat} (h : Inside s key lo hi gx gy)
    (g : Inside s key lo hi hx hy) : gx = hx ∧ gy = hy := by
  obtain ⟨pool, l, u, a1, a2, a3, rfl, rfl⟩ := h
  obtain ⟨pool', l', u', b1, b2, b3, rfl, rfl⟩ := g
  rw [a1] at b1
  rw [a2] at b2
  rw [a3] at b3
  cases b1; cases b2; cases b3
  exact ⟨rfl, rfl⟩

/-- a new position has nothing owed and stores the growth inside its range -/
private theorem created (hr : Reach s) {key : PoolKey} {lo hi : Int} {L ll lu : Nat}
    (h : createPosition env s key lo hi L ll lu = .ok (s₁, p)) :
    (p.poolKey = key ∧ p.lowerTickIndex = lo ∧ p.upperTickIndex = hi ∧ p.liquidity = L ∧
      p.tokensOwedX = 0 ∧ p.tokensOwedY = 0) ∧
    Inside s₁ key lo hi p.feeGrowthInsideX p.feeGrowthInsideY ∧
    ((s.ticks.get (key, lo)).isSome → (s.ticks.get (key, hi)).isSome →
      Inside s key lo hi p.feeGrowthInsideX p.feeGrowthInsideY) := by
  obtain ⟨pool, lt, ut, m, b, tm1, tm2, he, h1, -⟩ := createPosition_full (reach_wf s hr).indexed h
  dsimp only at he h1
  subst h1
  have hpos := he.mod.pos
  have e := hpos.eq
  have hne : ((key, lo) : PoolKey × Int) ≠ (key, hi) := by
    intro h; cases h; exact he.ne rfl
  refine ⟨⟨by rw [e], by rw [e], by rw [e], ?_, ?_, ?_⟩, ⟨m.pool, m.lower, m.upper, ?_, ?_, ?_, ?_, ?_⟩, ?_⟩
  · have := (hpos.add rfl).1
    simpa using this
  · have := hpos.owedX
    simpa using this
  · have := hpos.owedY
    simpa using this
  · rw [he.res]; exact Map.get_insert_self _ _ _
  · rw [he.res]
    dsimp only
    rw [Map.get_insert_ne _ _ hne, Map.get_insert_self]
  · rw [he.res]; exact Map.get_insert_self _ _ _
  · rw [he.mod.lower.index, he.mod.lower.outX, he.mod.upper.index, he.mod.upper.outX, he.mod.pool.eq, e]
  · rw [he.mod.lower.index, he.mod.lower.outY, he.mod.upper.index, he.mod.upper.outY, he.mod.pool.eq, e]
  · intro hl hu
    have old : ∀ {i : Int} {t : Tick × Bool}, (s.ticks.get (key, i)).isSome →
        getOrCreateTick s env.now key i = .ok t → s.ticks.get (key, i) = some t.1 := by
      intro i t h1 h2
      rcases getOrCreateTick_ok.1 h2 with ⟨t', ht, rfl⟩ | ⟨hn, -⟩
      · exact ht
      · rw [hn] at h1
        cases h1
    exact ⟨pool, lt.1, ut.1, he.hpool, old hl he.hlt, old hu he.hut, by rw [e], by rw [e]⟩

/-- a claim leaves nothing owed and stores the growth inside the range, which it does not change -/
private theorem claimed (hr : Reach s) (hp : s.positions.get env.caller i = .ok p) {f : Nat × Nat}
    (h : claimFee env s i = .ok (s₁, f)) :
    ∃ p', s₁.positions.get env.caller i = .ok p' ∧
      p'.poolKey = p.poolKey ∧ p'.lowerTickIndex = p.lowerTickIndex ∧ p'.upperTickIndex = p.upperTickIndex ∧
      p'.liquidity = p.liquidity ∧ p'.tokensOwedX = 0 ∧ p'.tokensOwedY = 0 ∧
      Inside s p.poolKey p.lowerTickIndex p.upperTickIndex p'.feeGrowthInsideX p'.feeGrowthInsideY ∧
      Inside s₁ p.poolKey p.lowerTickIndex p.upperTickIndex p'.feeGrowthInsideX p'.feeGrowthInsideY := by
  obtain ⟨p0, l, u, pool, m, ps, b, he, -⟩ := claimFee_full (reach_wf s hr).indexed h
  dsimp only at he
  have e0 := he.get
  rw [hp] at e0
  cases e0
  have hpos := he.mod.pos
  have e := hpos.eq
  have hL := (hpos.add rfl).1
  have hup := he.upd
  unfold Positions.update at hup
  split at hup
  · cases hup
  cases hup
  have hp' : p.lowerTickIndex ≠ p.upperTickIndex ∨ l = u := by
    by_cases h : p.lowerTickIndex = p.upperTickIndex
    · right
      have h1 := he.hlt
      rw [h, he.hut] at h1
      cases h1; rfl
    · exact .inl h
  refine ⟨{ m.position with tokensOwedX := 0, tokensOwedY := 0 }, ?_, by rw [e], by rw [e], by rw [e], by simpa using hL,
    rfl, rfl, ⟨pool, l, u, he.hpool, he.hlt, he.hut, by rw [e], by rw [e]⟩, ?_⟩
  · rw [he.res]
    unfold Positions.get
    dsimp only
    rw [Map.get_insert_self]
    rfl
  · rw [he.res]
    rcases hp' with hne | rfl
    · refine ⟨m.pool, m.lower, m.upper, Map.get_insert_self _ _ _, Map.get_insert_self _ _ _, ?_, ?_, ?_⟩
      · have : ((p.poolKey, p.upperTickIndex) : PoolKey × Int) ≠ (p.poolKey, p.lowerTickIndex) := by
          intro h; injection h with _ h; exact hne h.symm
        dsimp only
        rw [Map.get_insert_ne _ _ this, Map.get_insert_self]
      · rw [he.mod.lower.index, he.mod.lower.outX, he.mod.upper.index, he.mod.upper.outX, he.mod.pool.eq, e]
      · rw [he.mod.lower.index, he.mod.lower.outY, he.mod.upper.index, he.mod.upper.outY, he.mod.pool.eq, e]
    · refine ⟨m.pool, m.lower, if p.upperTickIndex = p.lowerTickIndex then m.lower else m.upper,
        Map.get_insert_self _ _ _, Map.get_insert_self _ _ _, ?_, ?_, ?_⟩
      · dsimp only
        split
        · next h => rw [h, Map.get_insert_self]
        · next h =>
          rw [Map.get_insert_ne _ _ (by intro hc; injection hc with _ hc; exact h hc), Map.get_insert_self]
      · split <;>
        simp only [he.mod.lower.index, he.mod.lower.outX, he.mod.upper.index, he.mod.upper.outX] <;>
          rw [he.mod.pool.eq, e]
      · split <;>
        simp only [he.mod.lower.index, he.mod.lower.outY, he.mod.upper.index, he.mod.upper.outY] <;>
          rw [he.mod.pool.eq, e]

/-- C87 for positions opened one after the other: whatever happened since (`t` is any later state in which both are
kept as they were), the fees that they can claim are in the proportion of their liquidities. -/
theorem C87_opened (hr : Reach s) {key : PoolKey} {lo hi : Int} {L M ll lu ll' lu' : Nat}
    (ha : createPosition env s key lo hi L ll lu = .ok (s₁, p))
    (hb : createPosition env' s₁ key lo hi M ll' lu' = .ok (s₂, q))
    {t t₁ t₂ : Inv} {c d : Env} (ht : Reach t) (hp : t.positions.get c.caller i = .ok p)
    (hq : t.positions.get d.caller j = .ok q) {fx fy gx gy : Nat} (hc : claimFee c t i = .ok (t₁, fx, fy))
    (hd : claimFee d t j = .ok (t₂, gx, gy)) : InProportion fx gx L M ∧ InProportion fy gy L M := by
  have hr1 : Reach s₁ := .call hr (c := .createPosition key lo hi L ll lu) (env := env) (by simp only [step, ha]; rfl)
  obtain ⟨⟨a1, a2, a3, a4, a5, a6⟩, a7, -⟩ := created hr ha
  obtain ⟨⟨b1, b2, b3, b4, b5, b6⟩, -, b7⟩ := created hr1 hb
  have b7 := b7 (by obtain ⟨_, l, _, _, h, -⟩ := a7; rw [h]; rfl) (by obtain ⟨_, _, u, _, _, h, -⟩ := a7; rw [h]; rfl)
  obtain ⟨e1, e2⟩ := b7.eq a7
  have := C87_claims ht hp hq (by rw [a1, b1]) (by rw [a2, b2]) (by rw [a3, b3]) e1 e2 a5 a6 b5 b6 hc hd
  rw [a4, b4] at this
  exact this

/-- C87 for positions claimed one after the other: what they can claim later is again in the proportion of their
liquidities, whenever they were opened. -/
theorem C87_claimed (hr : Reach s) (hp : s.positions.get env.caller i = .ok p)
    (hq : s.positions.get env'.caller j = .ok q) (hne : (env'.caller, j) ≠ (env.caller, i)) (hk : q.poolKey = p.poolKey)
    (hl : q.lowerTickIndex = p.lowerTickIndex) (hu : q.upperTickIndex = p.upperTickIndex) {f g : Nat × Nat}
    (ha : claimFee env s i = .ok (s₁, f)) (hb : claimFee env' s₁ j = .ok (s₂, g)) :
    ∃ p' q', s₂.positions.get env.caller i = .ok p' ∧ s₂.positions.get env'.caller j = .ok q' ∧
      ∀ {t t₁ t₂ : Inv} {c d : Env} {i' j' fx fy gx gy : Nat}, Reach t → t.positions.get c.caller i' = .ok p' →
        t.positions.get d.caller j' = .ok q' → claimFee c t i' = .ok (t₁, fx, fy) →
        claimFee d t j' = .ok (t₂, gx, gy) →
        InProportion fx gx p.liquidity q.liquidity ∧ InProportion fy gy p.liquidity q.liquidity := by
  have hr1 : Reach s₁ := .call hr (c := .claimFee i) (env := env) (by simp only [step, ha]; rfl)
  obtain ⟨p', a0, a1, a2, a3, a4, a5, a6, -, a7⟩ := claimed hr hp ha
  have keep : ∀ {e : Env} {x y : Inv} {k : Nat} {a : ActorId} {m : Nat} {v : Nat × Nat}, Reach x →
      claimFee e x k = .ok (y, v) → (a, m) ≠ (e.caller, k) → y.positions.get a m = x.positions.get a m := by
    intro e x y k a m v hx h hn
    obtain ⟨p0, l, u, pool, r, ps, b, he, -⟩ := claimFee_full (reach_wf x hx).indexed h
    have hup := he.upd
    unfold Positions.update at hup
    split at hup
    · cases hup
    cases hup
    have := he.res
    dsimp only at this
    rw [this]
    unfold Positions.get
    dsimp only
    rw [Map.get_insert_ne _ _ hn]
  obtain ⟨q', b0, b1, b2, b3, b4, b5, b6, b7, -⟩ := claimed hr1 ((keep hr ha hne).trans hq) hb
  refine ⟨p', q', (keep hr1 hb (Ne.symm hne)).trans a0, b0, ?_⟩
  intro t t₁ t₂ c d i' j' fx fy gx gy ht h1 h2 h3 h4
  rw [hk, hl, hu] at b7
  obtain ⟨e1, e2⟩ := b7.eq a7
  have := C87_claims ht h1 h2 (by rw [a1, b1, hk]) (by rw [a2, b2, hl]) (by rw [a3, b3, hu]) e1 e2 a5 a6 b5 b6 h3 h4
  rw [a4, b4] at this
  exact this

namespace ShareDemo

/-- accounts 2 and 3 open positions in the same range, with the liquidities 10^15 and 7·10^15 -/
def opened : Inv := runAll Demo.start
  [(Demo.by_ 2, .createPosition Demo.key (-30) 30 (10 ^ 15) 0 (10 ^ 25)),
   (Demo.by_ 3, .createPosition Demo.key (-30) 30 (7 * 10 ^ 15) 0 (10 ^ 25))]

/-- then there is trade in both directions, and a third position comes and goes -/
def later : Inv := runAll opened
  [(Demo.by_ 2, .swap Demo.key true (50 * 10 ^ 6) true MIN_SQRT_PRICE),
   (Demo.by_ 3, .createPosition Demo.key (-30) 30 (10 ^ 16) 0 (10 ^ 25)),
   (Demo.by_ 2, .swap Demo.key false (90 * 10 ^ 6) true MAX_SQRT_PRICE),
   (Demo.by_ 3, .removePosition 3)]

end ShareDemo

/-- In the demo the claims are 3750 and 26250 units of X, 3681 and 25772 of Y; seven times the first ones are 26250
and 25767. -/
example :
    ((claimFee (Demo.by_ 2) ShareDemo.later 1).toOption.map (·.2),
      (claimFee (Demo.by_ 3) ShareDemo.later 2).toOption.map (·.2)) = (some (3750, 3681), some (26250, 25772)) ∧
    ((ShareDemo.later.positions.get 2 1).toOption, (ShareDemo.later.positions.get 3 2).toOption) =
      ((ShareDemo.opened.positions.get 2 1).toOption, (ShareDemo.opened.positions.get 3 2).toOption) := by
  decide +kernel

end Verif
