import Verif.Model.Service

/-! # What a successful call did: inversion of every command -/

namespace Verif
open Service

section collections

theorem poolsGet_ok {m : Map PoolKey Pool} {k : PoolKey} {p : Pool} :
    poolsGet m k = .ok p ↔ m.get k = some p := by simp [poolsGet]

theorem poolsUpdate_ok {m m' : Map PoolKey Pool} {k : PoolKey} {p : Pool} :
    poolsUpdate m k p = .ok m' ↔ (∃ q, m.get k = some q) ∧ m' = m.insert k p := by
  simp only [poolsUpdate, bind_ok_iff, pure_ok_iff, poolsGet_ok]
  constructor
  · rintro ⟨q, h, rfl⟩; exact ⟨⟨q, h⟩, rfl⟩
  · rintro ⟨⟨q, h⟩, rfl⟩; exact ⟨q, h, rfl⟩

theorem poolsAdd_ok {m m' : Map PoolKey Pool} {k : PoolKey} {p : Pool} :
    poolsAdd m k p = .ok m' ↔ m.get k = none ∧ m' = m.insert k p := by
  unfold poolsAdd
  cases m.get k <;> simp [eq_comm]

theorem ticksGet_ok {m : Map (PoolKey × Int) Tick} {k : PoolKey} {i : Int} {t : Tick} :
    ticksGet m k i = .ok t ↔ m.get (k, i) = some t := by simp [ticksGet]

theorem ticksUpdate_ok {m m' : Map (PoolKey × Int) Tick} {k : PoolKey} {i : Int} {t : Tick} :
    ticksUpdate m k i t = .ok m' ↔ (∃ q, m.get (k, i) = some q) ∧ m' = m.insert (k, i) t := by
  simp only [ticksUpdate, bind_ok_iff, pure_ok_iff, ticksGet_ok]
  constructor
  · rintro ⟨q, h, rfl⟩; exact ⟨⟨q, h⟩, rfl⟩
  · rintro ⟨⟨q, h⟩, rfl⟩; exact ⟨q, h, rfl⟩

theorem ticksRemove_ok {m m' : Map (PoolKey × Int) Tick} {k : PoolKey} {i : Int} :
    ticksRemove m k i = .ok m' ↔ (∃ q, m.get (k, i) = some q) ∧ m' = m.erase (k, i) := by
  simp only [ticksRemove, bind_ok_iff, pure_ok_iff, ticksGet_ok]
  constructor
  · rintro ⟨q, h, rfl⟩; exact ⟨⟨q, h⟩, rfl⟩
  · rintro ⟨⟨q, h⟩, rfl⟩; exact ⟨q, h, rfl⟩

theorem ticksAdd_ok {m m' : Map (PoolKey × Int) Tick} {k : PoolKey} {i : Int} {t : Tick} :
    ticksAdd m k i t = .ok m' ↔ m.get (k, i) = none ∧ m' = m.insert (k, i) t := by
  unfold ticksAdd
  cases m.get (k, i) <;> simp [eq_comm]

theorem poolKeysAdd_ok {pk pk' : PoolKeys} {k : PoolKey} :
    pk.add k = .ok pk' ↔ pk.index.get k = none ∧
      pk' = { index := pk.index.insert k pk.length, byIndex := pk.byIndex.insert pk.length k,
              length := u16Succ pk.length } := by
  unfold PoolKeys.add
  cases pk.index.get k <;> simp [eq_comm]

theorem feeTiersAdd_ok {l l' : List FeeTier} {t : FeeTier} :
    feeTiersAdd l t = .ok l' ↔ t ∉ l ∧ l' = l ++ [t] := by
  unfold feeTiersAdd; split <;> simp_all [eq_comm]

theorem feeTiersRemove_ok {l l' : List FeeTier} {t : FeeTier} :
    feeTiersRemove l t = .ok l' ↔ t ∈ l ∧ l' = l.erase t := by
  unfold feeTiersRemove; split <;> simp_all [eq_comm]

theorem poolKeyNew_ok {a b : ActorId} {t : FeeTier} {k : PoolKey} :
    PoolKey.new a b t = .ok k ↔ a ≠ b ∧ k = ⟨min a b, max a b, t⟩ := by
  unfold PoolKey.new
  split
  · simp_all
  · split
    · next h1 h2 =>
      rw [min_eq_left (le_of_lt h2), max_eq_right (le_of_lt h2)]
      simp_all [eq_comm]
    · next h1 h2 =>
      have : b ≤ a := Nat.le_of_not_lt h2
      rw [min_eq_right this, max_eq_left this]
      simp_all [eq_comm]

end collections

section balances

/-- balance of an account, 0 if not stored -/
def balOf (b : Balances) (who token : ActorId) : Nat := (b.get (who, token)).getD 0

theorem increase_ok {b b' : Balances} {t who : ActorId} {n : Nat} :
    increaseTokenBalance b t who n = .ok b' ↔
      (n = 0 ∧ b' = b) ∨ (n ≠ 0 ∧ balOf b who t + n < 2 ^ 256 ∧
        b' = b.insert (who, t) (balOf b who t + n)) := by
  unfold increaseTokenBalance balOf
  split
  · next h => simp [h, eq_comm]
  · next h =>
    simp only [bind_ok_iff, addC_ok_iff, pure_ok_iff, h, false_and, false_or, not_false_iff, true_and,
      ne_eq]
    constructor
    · rintro ⟨v, ⟨h1, rfl⟩, rfl⟩; exact ⟨h1, rfl⟩
    · rintro ⟨h1, rfl⟩; exact ⟨_, ⟨h1, rfl⟩, rfl⟩

theorem decrease_some_ok {b : Balances} {t who : ActorId} {n : Nat} {r : Balances × Nat} :
    decreaseTokenBalance b t who (some n) = .ok r ↔
      (n = 0 ∧ r = (b, 0)) ∨ (n ≠ 0 ∧ ∃ v, b.get (who, t) = some v ∧ n ≤ v ∧
        r = (if n = v then b.erase (who, t) else b.insert (who, t) (v - n), n)) := by
  cases n with
  | zero => simp [decreaseTokenBalance, eq_comm]
  | succ n =>
    unfold decreaseTokenBalance
    simp only [bind_ok_iff, okOr_ok_iff, Nat.succ_ne_zero, false_and, false_or, ne_eq,
      not_false_iff, true_and]
    refine exists_congr fun v => and_congr_right fun hv => ?_
    by_cases h : n + 1 = v
    · subst h
      simp only [not_true_eq_false, if_false, pure_ok_iff, le_refl, true_and, if_true]
      exact eq_comm
    · simp only [h, not_false_iff, if_true, if_false, bind_ok_iff, subC_ok_iff, pure_ok_iff]
      constructor
      · rintro ⟨w, ⟨h1, rfl⟩, rfl⟩; exact ⟨h1, rfl⟩
      · rintro ⟨h1, rfl⟩; exact ⟨_, ⟨h1, rfl⟩, rfl⟩

theorem decrease_none_ok {b : Balances} {t who : ActorId} {r : Balances × Nat} :
    decreaseTokenBalance b t who none = .ok r ↔
      ∃ v, b.get (who, t) = some v ∧ r = (b.erase (who, t), v) := by
  unfold decreaseTokenBalance
  simp only [bind_ok_iff, okOr_ok_iff, pure_ok_iff]
  exact exists_congr fun v => and_congr_right fun _ => eq_comm

theorem increase_bal {b b' : Balances} {t who : ActorId} {n : Nat}
    (h : increaseTokenBalance b t who n = .ok b') (w u : ActorId) :
    balOf b' w u = balOf b w u + if w = who ∧ u = t then n else 0 := by
  rw [increase_ok] at h
  rcases h with ⟨rfl, rfl⟩ | ⟨_, _, rfl⟩
  · simp
  · unfold balOf
    rw [Map.get_insert]
    by_cases hc : w = who ∧ u = t
    · obtain ⟨rfl, rfl⟩ := hc; simp
    · rw [if_neg (by simpa using hc), if_neg hc]; rfl

theorem decrease_bal {b : Balances} {t who : ActorId} {n : Nat} {r : Balances × Nat}
    (h : decreaseTokenBalance b t who (some n) = .ok r) (w u : ActorId) :
    balOf b w u = balOf r.1 w u + (if w = who ∧ u = t then n else 0) ∧ r.2 = n := by
  rw [decrease_some_ok] at h
  rcases h with ⟨rfl, rfl⟩ | ⟨_, v, hv, hle, rfl⟩
  · simp
  · refine ⟨?_, rfl⟩
    unfold balOf
    by_cases hc : w = who ∧ u = t
    · obtain ⟨rfl, rfl⟩ := hc
      simp only [hv, and_self, if_true, Option.getD_some]
      split
      · next e => rw [Map.get_erase_self]; simp [e]
      · rw [Map.get_insert_self]; simp; omega
    · rw [if_neg hc]
      simp only
      split
      · rw [Map.get_erase, if_neg (by simpa using hc)]; rfl
      · rw [Map.get_insert, if_neg (by simpa using hc)]; rfl

end balances

section calls
variable {env : Env} {s s' : Inv}

theorem getOrCreateTick_ok {key : PoolKey} {i : Int} {now : Nat} {r : Tick × Bool} :
    getOrCreateTick s now key i = .ok r ↔
      (∃ t, s.ticks.get (key, i) = some t ∧ r = (t, false)) ∨
      (s.ticks.get (key, i) = none ∧ ∃ t, createTick s now key i = .ok t ∧ r = (t, true)) := by
  unfold getOrCreateTick
  cases h : s.ticks.get (key, i) with
  | none =>
    simp only [bind_ok_iff, unwrap_ok_iff, pure_ok_iff, reduceCtorEq, false_and, exists_false,
      true_and, false_or]
    exact exists_congr fun t => and_congr_right fun _ => eq_comm
  | some t => simp [eq_comm]

theorem addTick_ok {key : PoolKey} {t : Tick} :
    addTick s key t = .ok s' ↔ s.ticks.get (key, t.index) = none ∧
      ∃ tm, tickmapFlip s.tickmap true t.index key.feeTier.tickSpacing key = .ok tm ∧
        s' = { s with ticks := s.ticks.insert (key, t.index) t, tickmap := tm } := by
  simp only [addTick, bind_ok_iff, ticksAdd_ok, pure_ok_iff]
  constructor
  · rintro ⟨_, ⟨h1, rfl⟩, tm, h2, rfl⟩; exact ⟨h1, tm, h2, rfl⟩
  · rintro ⟨h1, tm, h2, rfl⟩; exact ⟨_, ⟨h1, rfl⟩, tm, h2, rfl⟩

theorem removeTick_ok {key : PoolKey} {t : Tick} :
    removeTick s key t = .ok s' ↔ t.liquidityGross = 0 ∧ (∃ q, s.ticks.get (key, t.index) = some q) ∧
      ∃ tm, tickmapFlip s.tickmap false t.index key.feeTier.tickSpacing key = .ok tm ∧
        s' = { s with ticks := s.ticks.erase (key, t.index), tickmap := tm } := by
  simp only [removeTick, bind_ok_iff, failIf_ok_iff, ticksRemove_ok, pure_ok_iff, not_not]
  constructor
  · rintro ⟨_, h0, tm, h2, _, ⟨h1, rfl⟩, rfl⟩; exact ⟨h0, h1, tm, h2, rfl⟩
  · rintro ⟨h0, h1, tm, h2, rfl⟩; exact ⟨(), h0, tm, h2, _, ⟨h1, rfl⟩, rfl⟩

theorem putTick_ok {key : PoolKey} {t : Tick} {b : Bool} (h : putTick s key t b = .ok s') :
    s'.ticks = s.ticks.insert (key, t.index) t ∧
    (b = true → s.ticks.get (key, t.index) = none ∧
      tickmapFlip s.tickmap true t.index key.feeTier.tickSpacing key = .ok s'.tickmap) ∧
    (b = false → (∃ q, s.ticks.get (key, t.index) = some q) ∧ s'.tickmap = s.tickmap) ∧
    s' = { s with ticks := s'.ticks, tickmap := s'.tickmap } := by
  unfold putTick at h
  cases b with
  | true =>
    simp only [if_true, addTick_ok] at h
    obtain ⟨h1, tm, h2, rfl⟩ := h
    exact ⟨rfl, fun _ => ⟨h1, h2⟩, by simp, rfl⟩
  | false =>
    simp only [Bool.false_eq_true, if_false, bind_ok_iff, ticksUpdate_ok, pure_ok_iff] at h
    obtain ⟨_, ⟨h1, rfl⟩, rfl⟩ := h
    exact ⟨rfl, by simp, fun _ => ⟨h1, rfl⟩, rfl⟩

theorem dropTick_ok {key : PoolKey} {i : Int} {t : Tick} (h : dropTick s key i t = .ok s') :
    (t.liquidityGross = 0 → (∃ q, s.ticks.get (key, t.index) = some q) ∧
      s'.ticks = s.ticks.erase (key, t.index) ∧
      tickmapFlip s.tickmap false t.index key.feeTier.tickSpacing key = .ok s'.tickmap) ∧
    (t.liquidityGross ≠ 0 → (∃ q, s.ticks.get (key, i) = some q) ∧
      s'.ticks = s.ticks.insert (key, i) t ∧ s'.tickmap = s.tickmap) ∧
    s' = { s with ticks := s'.ticks, tickmap := s'.tickmap } := by
  unfold dropTick at h
  split at h
  · next h0 =>
    rw [removeTick_ok] at h
    obtain ⟨_, h1, tm, h2, rfl⟩ := h
    exact ⟨fun _ => ⟨h1, rfl, h2⟩, fun hc => absurd h0 hc, rfl⟩
  · next h0 =>
    simp only [bind_ok_iff, ticksUpdate_ok, pure_ok_iff] at h
    obtain ⟨_, ⟨h1, rfl⟩, rfl⟩ := h
    exact ⟨fun hc => absurd hc h0, fun _ => ⟨h1, rfl, rfl⟩, rfl⟩

theorem createPool_ok {x y : ActorId} {t : FeeTier} {p : Nat} {i : Int}
    (h : createPool env s x y t p i = .ok s') :
    t ∈ s.feeTiers ∧ checkTick i t.tickSpacing = .ok () ∧ x ≠ y ∧
    s.pools.get ⟨min x y, max x y, t⟩ = none ∧
    s.poolKeys.index.get ⟨min x y, max x y, t⟩ = none ∧
    ∃ pool, Pool.create p i env.now t.tickSpacing s.admin = .ok pool ∧
      s' = { s with
        pools := s.pools.insert ⟨min x y, max x y, t⟩ pool
        poolKeys := { index := s.poolKeys.index.insert ⟨min x y, max x y, t⟩ s.poolKeys.length
                      byIndex := s.poolKeys.byIndex.insert s.poolKeys.length ⟨min x y, max x y, t⟩
                      length := u16Succ s.poolKeys.length } } := by
  simp only [createPool, bind_ok_iff, failIf_ok_iff, mapErr_ok_iff, poolKeyNew_ok, poolsAdd_ok,
    poolKeysAdd_ok, pure_ok_iff, not_not] at h
  obtain ⟨_, h1, _, h2, key, ⟨h3, rfl⟩, _, h4, pool, h5, _, ⟨h6, rfl⟩, _, ⟨h7, rfl⟩, rfl⟩ := h
  exact ⟨h1, h2, h3, h6, h7, pool, h5, rfl⟩

theorem createPosition_ok {key : PoolKey} {lower upper : Int} {delta ll lu : Nat}
    {r : Inv × Position} (h : createPosition env s key lower upper delta ll lu = .ok r) :
    delta ≠ 0 ∧ lower ≠ upper ∧ ∃ pool lt ut m bx by_ s2,
      s.pools.get key = some pool ∧ getOrCreateTick s env.now key lower = .ok lt ∧
      getOrCreateTick s env.now key upper = .ok ut ∧
      Position.create pool key lt.1 ut.1 env.now delta ll lu env.block key.feeTier.tickSpacing
        = .ok m ∧
      decreaseTokenBalance s.balances key.tokenX env.caller (some m.amountX) = .ok bx ∧
      decreaseTokenBalance bx.1 key.tokenY env.caller (some m.amountY) = .ok by_ ∧
      putTick { s with balances := by_.1, pools := s.pools.insert key m.pool,
                       positions := s.positions.add env.caller m.position } key m.lower lt.2
        = .ok s2 ∧
      putTick s2 key m.upper ut.2 = .ok r.1 ∧ r.2 = m.position := by
  simp only [createPosition, bind_ok_iff, failIf_ok_iff, poolsGet_ok, poolsUpdate_ok,
    pure_ok_iff] at h
  obtain ⟨_, h1, _, h2, pool, h3, lt, h4, ut, h5, m, h6, bx, h7, by_, h8, _, ⟨_, rfl⟩, s2, h9, s3, h10,
    rfl⟩ := h
  exact ⟨h1, h2, pool, lt, ut, m, bx, by_, s2, h3, h4, h5, h6, h7, h8, h9, h10, rfl⟩

theorem removePosition_ok {index : Nat} {r : Inv × Nat × Nat}
    (h : removePosition env s index = .ok r) :
    ∃ p lower upper pool m s1 s2 ps b1 b2,
      s.positions.get env.caller index = .ok p ∧
      s.ticks.get (p.poolKey, p.lowerTickIndex) = some lower ∧
      s.ticks.get (p.poolKey, p.upperTickIndex) = some upper ∧
      s.pools.get p.poolKey = some pool ∧
      p.remove pool env.now lower upper p.poolKey.feeTier.tickSpacing = .ok m ∧
      dropTick { s with pools := s.pools.insert p.poolKey m.pool } p.poolKey p.lowerTickIndex m.lower
        = .ok s1 ∧
      dropTick s1 p.poolKey p.upperTickIndex m.upper = .ok s2 ∧
      s2.positions.remove env.caller index = .ok ps ∧
      increaseTokenBalance s2.balances p.poolKey.tokenX env.caller m.amountX = .ok b1 ∧
      increaseTokenBalance b1 p.poolKey.tokenY env.caller m.amountY = .ok b2 ∧
      r = ({ s2 with positions := ps.1, balances := b2 }, m.amountX, m.amountY) := by
  simp only [removePosition, bind_ok_iff, poolsGet_ok, poolsUpdate_ok, ticksGet_ok,
    pure_ok_iff] at h
  obtain ⟨p, h1, lower, h2, upper, h3, pool, h4, m, h5, _, ⟨_, rfl⟩, s1, h6, s2, h7, ps, h8, b1, h9, b2,
    h10, rfl⟩ := h
  exact ⟨p, lower, upper, pool, m, s1, s2, ps, b1, b2, h1, h2, h3, h4, h5, h6, h7, h8, h9, h10, rfl⟩

theorem claimFee_ok {index : Nat} {r : Inv × Nat × Nat} (h : claimFee env s index = .ok r) :
    ∃ p lower upper pool m ps b1 b2,
      s.positions.get env.caller index = .ok p ∧
      s.ticks.get (p.poolKey, p.lowerTickIndex) = some lower ∧
      s.ticks.get (p.poolKey, p.upperTickIndex) = some upper ∧
      s.pools.get p.poolKey = some pool ∧
      p.claimFee pool upper lower env.now = .ok m ∧
      s.positions.update env.caller index m.position = .ok ps ∧
      increaseTokenBalance s.balances p.poolKey.tokenX env.caller m.amountX = .ok b1 ∧
      increaseTokenBalance b1 p.poolKey.tokenY env.caller m.amountY = .ok b2 ∧
      r = ({ s with positions := ps
                    pools := s.pools.insert p.poolKey m.pool
                    ticks := (s.ticks.insert (p.poolKey, m.upper.index) m.upper).insert
                      (p.poolKey, m.lower.index) m.lower
                    balances := b2 }, m.amountX, m.amountY) := by
  simp only [claimFee, bind_ok_iff, poolsGet_ok, poolsUpdate_ok, ticksGet_ok, ticksUpdate_ok,
    pure_ok_iff] at h
  obtain ⟨p, h1, lower, h2, upper, h3, pool, h4, m, h5, ps, h6, _, ⟨_, rfl⟩, _, ⟨_, rfl⟩, _, ⟨_, rfl⟩, b1,
    h7, b2, h8, rfl⟩ := h
  exact ⟨p, lower, upper, pool, m, ps, b1, b2, h1, h2, h3, h4, h5, h6, h7, h8, rfl⟩

theorem swap_ok {key : PoolKey} {xToY byIn : Bool} {amount limit : Nat}
    {r : Inv × CalculateSwapResult} (h : swap env s key xToY amount byIn limit = .ok r) :
    ∃ ticks b1 b2, calculateSwap s env.now key xToY amount byIn limit = .ok r.2 ∧
      updateTicks key r.2.ticks s.ticks = .ok ticks ∧
      decreaseTokenBalance s.balances (if xToY then key.tokenX else key.tokenY) env.caller
        (some r.2.amountIn) = .ok b1 ∧
      increaseTokenBalance b1.1 (if xToY then key.tokenY else key.tokenX) env.caller r.2.amountOut
        = .ok b2 ∧
      r.1 = { s with ticks := ticks, pools := s.pools.insert key r.2.pool, balances := b2 } := by
  simp only [swap, bind_ok_iff, poolsUpdate_ok, pure_ok_iff] at h
  obtain ⟨c, h1, ticks, h2, _, ⟨_, rfl⟩, b1, h3, b2, h4, rfl⟩ := h
  exact ⟨ticks, b1, b2, h1, h2, h3, h4, rfl⟩

theorem withdrawProtocolFee_ok {key : PoolKey} {r : Inv × Nat × Nat}
    (h : withdrawProtocolFee env s key = .ok r) :
    ∃ pool b1 b2, s.pools.get key = some pool ∧ pool.feeReceiver = env.caller ∧
      increaseTokenBalance s.balances key.tokenX env.caller pool.feeProtocolTokenX = .ok b1 ∧
      increaseTokenBalance b1 key.tokenY env.caller pool.feeProtocolTokenY = .ok b2 ∧
      r = ({ s with pools := s.pools.insert key
                      { pool with feeProtocolTokenX := 0, feeProtocolTokenY := 0 }
                    balances := b2 }, pool.feeProtocolTokenX, pool.feeProtocolTokenY) := by
  simp only [withdrawProtocolFee, bind_ok_iff, failIf_ok_iff, poolsGet_ok, poolsUpdate_ok,
    pure_ok_iff, Pool.withdrawProtocolFee, ne_eq, not_not] at h
  obtain ⟨pool, h1, _, h2, _, ⟨_, rfl⟩, b1, h3, b2, h4, rfl⟩ := h
  exact ⟨pool, b1, b2, h1, h2, h3, h4, rfl⟩

theorem changeFeeReceiver_ok {key : PoolKey} {a : ActorId}
    (h : changeFeeReceiver env s key a = .ok s') :
    s.admin = env.caller ∧ ∃ pool, s.pools.get key = some pool ∧
      s' = { s with pools := s.pools.insert key { pool with feeReceiver := a } } := by
  simp only [changeFeeReceiver, bind_ok_iff, failIf_ok_iff, poolsGet_ok, poolsUpdate_ok, pure_ok_iff,
    ne_eq, not_not] at h
  obtain ⟨_, h1, pool, h2, _, ⟨_, rfl⟩, rfl⟩ := h
  exact ⟨h1, pool, h2, rfl⟩

theorem depositVara_ok {r : Inv × Nat} (h : depositVara env s = .ok r) :
    ∃ b, increaseTokenBalance s.balances VARA env.caller env.value = .ok b ∧
      r = ({ s with balances := b }, env.value) := by
  simp only [depositVara, bind_ok_iff, pure_ok_iff] at h
  obtain ⟨b, h, rfl⟩ := h
  exact ⟨b, h, rfl⟩

theorem withdrawVara_ok {v : Option Nat} {r : Inv × Nat} (h : withdrawVara env s v = .ok r) :
    ∃ b, r = ({ s with balances := b }, r.2) ∧ r.2 < 2 ^ 128 ∧
      ((∃ n, v = some n ∧ n ≠ 0 ∧
          decreaseTokenBalance s.balances VARA env.caller (some n) = .ok (b, r.2)) ∨
       (v = none ∧ decreaseTokenBalance s.balances VARA env.caller none = .ok (b, r.2)) ∨
       (v = none ∧ s.balances.get (env.caller, VARA) = none ∧ b = s.balances ∧ r.2 = 0)) := by
  unfold withdrawVara at h
  simp only [bind_ok_iff, fit_ok_iff, pure_ok_iff] at h
  obtain ⟨q, h1, w, ⟨h2, rfl⟩, rfl⟩ := h
  refine ⟨q.1, rfl, h2, ?_⟩
  cases v with
  | some n =>
    simp only [bind_ok_iff, failIf_ok_iff] at h1
    obtain ⟨_, h3, h4⟩ := h1
    exact Or.inl ⟨n, rfl, h3, h4⟩
  | none =>
    right
    cases hd : decreaseTokenBalance s.balances VARA env.caller none with
    | ok r =>
      rw [hd] at h1
      cases h1
      exact Or.inl ⟨rfl, rfl⟩
    | error e =>
      rw [hd] at h1
      cases h1
      refine Or.inr ⟨rfl, ?_, rfl, rfl⟩
      cases hg : s.balances.get (env.caller, VARA) with
      | none => rfl
      | some v =>
        rw [decrease_none_ok.2 ⟨v, hg, rfl⟩] at hd
        cases hd

theorem transferPosition_ok {i : Nat} {b : ActorId} (h : transferPosition env s i b = .ok s') :
    ∃ ps p, s.positions.remove env.caller i = .ok (ps, p) ∧
      s' = { s with positions := ps.add b p } := by
  simp only [transferPosition, Positions.transfer, bind_ok_iff, pure_ok_iff] at h
  obtain ⟨_, ⟨⟨ps, p⟩, h1, rfl⟩, rfl⟩ := h
  exact ⟨ps, p, h1, rfl⟩

end calls

end Verif
