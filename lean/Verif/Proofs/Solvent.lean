import Verif.Spec.Solvent
import Verif.Proofs.SwapWorth
import Verif.Proofs.World
import Verif.Proofs.Deposit
import Verif.Proofs.PriceRange
import Verif.Proofs.PoolKeys

/-! # The books over calls -/

namespace Verif
open Service Spec

variable {env : Env} {s s' : Inv}

/-- the exact worth of a stored position in a token -/
def worthIn (s : Inv) (t : ActorId) (q : Position) : ℚ :=
  match s.pools.get q.poolKey with
  | none => 0
  | some pool => (if q.poolKey.tokenX = t then worth true (world s q.poolKey pool) q else 0) +
      (if q.poolKey.tokenY = t then worth false (world s q.poolKey pool) q else 0)

/-- of all of them -/
def allWorth (s : Inv) (t : ActorId) : ℚ := posSum s.positions (worthIn s t)

def protoIn (k : PoolKey) (p : Pool) (t : ActorId) : Nat :=
  (if k.tokenX = t then p.feeProtocolTokenX else 0) + (if k.tokenY = t then p.feeProtocolTokenY else 0)

/-- everything owed in a token -/
def owed (s : Inv) (t : ActorId) : ℚ := totalBal s t + totalProto s t + allWorth s t

theorem totalBal_eq (s : Inv) (t : ActorId) : totalBal s t = total s.balances t := rfl

theorem proto_insert {m : Map PoolKey Pool} {k : PoolKey} {p p' : Pool} (h : m.get k = some p) (t : ActorId) :
    ((m.insert k p').sum fun k p => protoIn k p t) + protoIn k p t =
      (m.sum fun k p => protoIn k p t) + protoIn k p' t := by
  rw [Map.sum_insert, Map.sum_erase_some h]
  omega

/-! ### what the worth depends on -/

def PoolSame (p p' : Pool) : Prop :=
  p'.currentTickIndex = p.currentTickIndex ∧ p'.sqrtPrice = p.sqrtPrice ∧
  p'.feeGrowthGlobalX = p.feeGrowthGlobalX ∧ p'.feeGrowthGlobalY = p.feeGrowthGlobalY

def TickSame (t t' : Tick) : Prop :=
  t'.index = t.index ∧ t'.feeGrowthOutsideX = t.feeGrowthOutsideX ∧
  t'.feeGrowthOutsideY = t.feeGrowthOutsideY

theorem PoolSame.refl (p : Pool) : PoolSame p p := ⟨rfl, rfl, rfl, rfl⟩
theorem TickSame.refl (t : Tick) : TickSame t t := ⟨rfl, rfl, rfl⟩

theorem TickUpd.same {t t' : Tick} {d m : Nat} {u b : Bool} (h : TickUpd t t' d m u b) : TickSame t t' :=
  ⟨h.index, h.outX, h.outY⟩

theorem PoolUpd.same {p p' : Pool} {now d x y : Nat} {b : Bool} {u l : Int}
    (h : PoolUpd { p with lastTimestamp := now } p' d b u l x y) : PoolSame p p' := by
  rw [h.eq]; exact ⟨rfl, rfl, rfl, rfl⟩

theorem PoolUpd.proto {p p' : Pool} {now d x y : Nat} {b : Bool} {u l : Int}
    (h : PoolUpd { p with lastTimestamp := now } p' d b u l x y) (k : PoolKey) (t : ActorId) :
    protoIn k p' t = protoIn k p t := by
  rw [h.eq]; rfl

theorem worth_same {w w' : FeeWorld} {q : Position} (hp : PoolSame w.pool w'.pool)
    {l l' u u' : Tick} (h1 : w.ticks q.lowerTickIndex = some l) (h1' : w'.ticks q.lowerTickIndex = some l')
    (h2 : w.ticks q.upperTickIndex = some u) (h2' : w'.ticks q.upperTickIndex = some u')
    (hl : TickSame l l') (hu : TickSame u u') (tok : Bool) : worth tok w' q = worth tok w q := by
  obtain ⟨a1, a2, a3, a4⟩ := hp
  obtain ⟨b1, b2, b3⟩ := hl
  obtain ⟨c1, c2, c3⟩ := hu
  have e1 : cutOf w'.pool q = cutOf w.pool q := by
    unfold cutOf cutPrice
    rw [a1, a2]
  have e2 : insideOf tok w' q = insideOf tok w q := by
    unfold insideOf FeeWorld.insideX FeeWorld.insideY
    rw [h1, h1', h2, h2']
    simp only [Option.pure_def, Option.bind_eq_bind, Option.bind_some]
    rw [a1, a3, a4, b1, b2, b3, c1, c2, c3]
  unfold worth onCurve grown
  rw [e1, e2]

/-- enough for a position to keep its worth -/
structure KeepsWorth (s s' : Inv) (q : Position) : Prop where
  pool : ∃ p p', s.pools.get q.poolKey = some p ∧ s'.pools.get q.poolKey = some p' ∧ PoolSame p p'
  lo : ∃ l l', s.ticks.get (q.poolKey, q.lowerTickIndex) = some l ∧
    s'.ticks.get (q.poolKey, q.lowerTickIndex) = some l' ∧ TickSame l l'
  hi : ∃ l l', s.ticks.get (q.poolKey, q.upperTickIndex) = some l ∧
    s'.ticks.get (q.poolKey, q.upperTickIndex) = some l' ∧ TickSame l l'

theorem KeepsWorth.eq {q : Position} (h : KeepsWorth s s' q) (t : ActorId) :
    worthIn s' t q = worthIn s t q := by
  obtain ⟨⟨p, p', hp, hp', h1⟩, ⟨l, l', hl, hl', h2⟩, ⟨u, u', hu, hu', h3⟩⟩ := h
  unfold worthIn
  rw [hp, hp']
  dsimp only
  rw [worth_same (w := world s q.poolKey p) (w' := world s' q.poolKey p') h1 hl hl' hu hu' h2 h3 true,
    worth_same (w := world s q.poolKey p) (w' := world s' q.poolKey p') h1 hl hl' hu hu' h2 h3 false]

theorem allWorth_congr (hp : s'.positions = s.positions)
    (h : ∀ k q, s.positions.map.get k = some q → KeepsWorth s s' q) (t : ActorId) :
    allWorth s' t = allWorth s t := by
  unfold allWorth posSum
  rw [hp]
  exact Map.sum_congr fun k q hq => (h k q hq).eq t

theorem stored_has (hr : Reach32 s) {k : ActorId × Nat} {q : Position} (hq : s.positions.map.get k = some q) :
    ∃ p l u, s.pools.get q.poolKey = some p ∧ s.ticks.get (q.poolKey, q.lowerTickIndex) = some l ∧
      s.ticks.get (q.poolKey, q.upperTickIndex) = some u := by
  have hw := reach_wf s (reach32_reach s hr).1
  obtain ⟨h1, h2⟩ := pos_ticks hw (reach32_ledger s hr) hq
  have h3 := (hw.pos _ _ hq).2
  obtain ⟨p, hp⟩ := Option.isSome_iff_exists.1 h3
  obtain ⟨l, hl⟩ := Option.isSome_iff_exists.1 h1
  obtain ⟨u, hu⟩ := Option.isSome_iff_exists.1 h2
  exact ⟨p, l, u, hp, hl, hu⟩

theorem stored_posIn (hr : Reach32 s) {k : ActorId × Nat} {q : Position}
    (hq : s.positions.map.get k = some q) : PosIn s q.poolKey q := by
  have hre := (reach32_reach s hr).1
  have hw := reach_wf s hre
  obtain ⟨h1, h2⟩ := pos_ticks hw (reach32_ledger s hr) hq
  have ha := (reach_acc s hre).pos _ _ hq
  exact ⟨rfl, (hw.pos _ _ hq).1.lt, h1, h2, ha.1, ha.2.1⟩

/-! ### the amounts of a position -/

theorem cut_bounds {sp : Nat} {pool : Pool} {q : Position} (ha : TickAgree sp pool)
    (hlt : q.lowerTickIndex < q.upperTickIndex) (hl : Grid sp q.lowerTickIndex)
    (hu : Grid sp q.upperTickIndex) :
    priceOf q.lowerTickIndex ≤ cutOf pool q ∧ cutOf pool q ≤ priceOf q.upperTickIndex ∧
    MIN_SQRT_PRICE ≤ cutOf pool q := by
  have h0 := priceOf_le hl.min hu.max hlt.le
  have hm := priceOf_ge_min hl.min hl.max
  have key : priceOf q.lowerTickIndex ≤ cutOf pool q ∧ cutOf pool q ≤ priceOf q.upperTickIndex := by
    unfold cutOf cutPrice
    split
    · exact ⟨le_rfl, h0⟩
    · split
      · next h1 h2 =>
        have h3 := priceOf_le hl.min ha.grid.max (not_lt.1 h1)
        have h4 := grid_next ha.grid.1 hu.1 h2
        have h5 := ha.high (le_trans h4 hu.max)
        have h6 := priceOf_le (t := pool.currentTickIndex + sp) (u := q.upperTickIndex)
          (by have := ha.grid.min; omega) hu.max h4
        exact ⟨le_trans h3 ha.low, le_trans h5 h6⟩
      · exact ⟨h0, le_rfl⟩
  exact ⟨key.1, key.2, le_trans hm key.1⟩

theorem onCurve_X {sp : Nat} {w : FeeWorld} {q : Position} (ha : TickAgree sp w.pool)
    (hlt : q.lowerTickIndex < q.upperTickIndex) (hl : Grid sp q.lowerTickIndex)
    (hu : Grid sp q.upperTickIndex) :
    onCurve true w q = amountX (cutOf w.pool q) (priceOf q.upperTickIndex) q.liquidity := by
  obtain ⟨h1, h2, h3⟩ := cut_bounds ha hlt hl hu
  have : 0 < cutOf w.pool q := lt_of_lt_of_le (by norm_num [MIN_SQRT_PRICE]) h3
  rw [amountX_comm]
  exact coord_diff_X this h2

theorem onCurve_Y {sp : Nat} {w : FeeWorld} {q : Position} (ha : TickAgree sp w.pool)
    (hlt : q.lowerTickIndex < q.upperTickIndex) (hl : Grid sp q.lowerTickIndex)
    (hu : Grid sp q.upperTickIndex) :
    onCurve false w q = amountY (priceOf q.lowerTickIndex) (cutOf w.pool q) q.liquidity :=
  coord_diff_Y (cut_bounds ha hlt hl hu).1

/-- taking liquidity out pays at most the worth -/
theorem out_le {sp : Nat} {w : FeeWorld} {q : Position} {x y : Nat} {i : Bool} (ha : TickAgree sp w.pool)
    (hlt : q.lowerTickIndex < q.upperTickIndex) (hl : Grid sp q.lowerTickIndex)
    (hu : Grid sp q.upperTickIndex)
    (h : calculateAmountDelta w.pool.currentTickIndex w.pool.sqrtPrice q.liquidity false q.upperTickIndex
      q.lowerTickIndex = .ok (x, y, i)) :
    (x : ℚ) ≤ onCurve true w q ∧ (y : ℚ) ≤ onCurve false w q := by
  obtain ⟨pl, pu, e1, e2, _, hx, hy, _⟩ := calculateAmountDelta_ok h
  have e1 := calc_grid hl e1
  have e2 := calc_grid hu e2
  obtain ⟨_, _, c⟩ := cut_bounds ha hlt hl hu
  have p1 : 0 < cutOf w.pool q := lt_of_lt_of_le (by norm_num [MIN_SQRT_PRICE]) c
  have p2 : 0 < priceOf q.upperTickIndex :=
    lt_of_lt_of_le (by norm_num [MIN_SQRT_PRICE]) (priceOf_ge_min hu.min hu.max)
  have ec : clampPrice w.pool.currentTickIndex q.lowerTickIndex q.upperTickIndex w.pool.sqrtPrice pl pu =
      cutOf w.pool q := by rw [e1, e2]; rfl
  rw [onCurve_X ha hlt hl hu, onCurve_Y ha hlt hl hu]
  rw [ec] at hx hy
  rw [dxR_false, e2] at hx
  rw [dyR_false, e1] at hy
  constructor
  · rw [hx]; exact dxDown_le_amountX p1 p2 _
  · rw [hy, dyDown_eq_floor]
    refine Nat.floor_le ?_
    unfold amountY liq
    positivity

/-- putting liquidity in costs at least the worth, up to the slack -/
theorem in_ge {sp : Nat} {w : FeeWorld} {q : Position} {x y : Nat} {i : Bool} (ha : TickAgree sp w.pool)
    (hlt : q.lowerTickIndex < q.upperTickIndex) (hl : Grid sp q.lowerTickIndex)
    (hu : Grid sp q.upperTickIndex)
    (h : calculateAmountDelta w.pool.currentTickIndex w.pool.sqrtPrice q.liquidity true q.upperTickIndex
      q.lowerTickIndex = .ok (x, y, i)) :
    onCurve true w q ≤ x + slackX ∧ onCurve false w q ≤ y := by
  obtain ⟨pl, pu, e1, e2, _, hx, hy, _, _, _, hpos⟩ := calculateAmountDelta_ok h
  have e1 := calc_grid hl e1
  have e2 := calc_grid hu e2
  obtain ⟨_, _, c⟩ := cut_bounds ha hlt hl hu
  have c2 := priceOf_ge_min hu.min hu.max
  have p1 : 0 < cutOf w.pool q := lt_of_lt_of_le (by norm_num [MIN_SQRT_PRICE]) c
  have p2 : 0 < priceOf q.upperTickIndex := lt_of_lt_of_le (by norm_num [MIN_SQRT_PRICE]) c2
  have ec : clampPrice w.pool.currentTickIndex q.lowerTickIndex q.upperTickIndex w.pool.sqrtPrice pl pu =
      cutOf w.pool q := by rw [e1, e2]; rfl
  rw [onCurve_X ha hlt hl hu, onCurve_Y ha hlt hl hu]
  rw [ec] at hx hy hpos
  rw [dxR_true, e2] at hx
  rw [dyR_true, e1] at hy
  rw [e2] at hpos
  constructor
  · have h1 := amountX_lt_dxUp p1 p2 q.liquidity (hpos rfl)
    have h2 : (10 ^ 24 : ℚ) / ((cutOf w.pool q * priceOf q.upperTickIndex : Nat) : ℚ) ≤ slackX := by
      have hab : 23 * 10 ^ 37 ≤ cutOf w.pool q * priceOf q.upperTickIndex :=
        le_trans (by norm_num [MIN_SQRT_PRICE]) (Nat.mul_le_mul c c2)
      generalize cutOf w.pool q * priceOf q.upperTickIndex = z at *
      have hz : (23 * 10 ^ 37 : ℚ) ≤ z := by exact_mod_cast hab
      have hz0 : (0 : ℚ) < z := lt_of_lt_of_le (by norm_num) hz
      unfold slackX
      rw [div_le_div_iff₀ hz0 (by norm_num)]
      linarith
    rw [hx]
    linarith
  · rw [hy, dyUp_eq_ceil]
    exact Nat.le_ceil _

/-! ### the calls -/

theorem owed_transfer {ps : Positions} {p : Position} {i : Nat} {dest : ActorId} (hr : Reach32 s)
    (h : s.positions.remove env.caller i = .ok (ps, p)) (t : ActorId) :
    owed { s with positions := ps.add dest p } t = owed s t := by
  obtain ⟨L, hL⟩ := reach32_listed s hr
  obtain ⟨hre, hf⟩ := reach32_reach s hr
  have len : ∀ a, (L a).length < 2 ^ 32 := fun a => by
    rw [listed_len hL]; exact Nat.lt_of_succ_lt (hf a)
  have hg := posGet_ok.1 (remove_get h)
  rw [(hL _).2] at hg
  obtain ⟨ps', e, hps⟩ := (posRepr_remove hL (len env.caller) _).1 _ hg
  rw [h] at e
  cases e
  have : allWorth { s with positions := ps.add dest p } t = allWorth s t := by
    unfold allWorth
    dsimp only
    rw [posSum_add hps, posSum_remove hL (len _) h]
    rfl
  unfold owed
  rw [this]
  rfl

theorem owed_newPool {k : PoolKey} {p : Pool} {keys : PoolKeys} (hr : Reach32 s)
    (hn : s.pools.get k = none) (h1 : p.feeProtocolTokenX = 0) (h2 : p.feeProtocolTokenY = 0) (t : ActorId) :
    owed { s with pools := s.pools.insert k p, poolKeys := keys } t = owed s t := by
  have e1 : allWorth { s with pools := s.pools.insert k p, poolKeys := keys } t = allWorth s t := by
    refine allWorth_congr (s := s) (by rfl) (fun j q hq => ?_) t
    obtain ⟨pool, l, u, hp, hl, hu⟩ := stored_has hr hq
    refine ⟨⟨pool, pool, hp, ?_, .refl _⟩, ⟨l, l, hl, hl, .refl _⟩, ⟨u, u, hu, hu, .refl _⟩⟩
    dsimp only
    rw [Map.get_insert_ne _ _ (by rintro rfl; rw [hn] at hp; cases hp)]
    exact hp
  have e2 : totalProto { s with pools := s.pools.insert k p, poolKeys := keys } t = totalProto s t := by
    unfold totalProto
    dsimp only
    rw [Map.sum_insert_none _ hn, h1, h2]
    simp
  unfold owed
  rw [e1, e2]
  rfl

theorem owed_poolField {k : PoolKey} {p q : Pool} {b : Balances} (hr : Reach32 s)
    (hp : s.pools.get k = some p) (hq : PoolSame p q) (t : ActorId)
    (hb : total b t + protoIn k q t = total s.balances t + protoIn k p t) :
    owed { s with pools := s.pools.insert k q, balances := b } t = owed s t := by
  have e1 : allWorth { s with pools := s.pools.insert k q, balances := b } t = allWorth s t := by
    refine allWorth_congr (s := s) (by rfl) (fun j x hx => ?_) t
    obtain ⟨pool, l, u, hpx, hl, hu⟩ := stored_has hr hx
    by_cases e : x.poolKey = k
    · refine ⟨⟨p, q, by rw [e]; exact hp, by dsimp only; rw [e, Map.get_insert_self], hq⟩,
        ⟨l, l, hl, hl, .refl _⟩, ⟨u, u, hu, hu, .refl _⟩⟩
    · refine ⟨⟨pool, pool, hpx, ?_, .refl _⟩, ⟨l, l, hl, hl, .refl _⟩, ⟨u, u, hu, hu, .refl _⟩⟩
      dsimp only
      rw [Map.get_insert_ne _ _ e]
      exact hpx
  have e2 := proto_insert (p' := q) hp t
  unfold owed
  rw [e1]
  have e3 : (total b t : ℚ) + ((s.pools.insert k q).sum fun k p => protoIn k p t : Nat) =
      total s.balances t + (s.pools.sum fun k p => protoIn k p t : Nat) := by
    exact_mod_cast (by omega : total b t + (s.pools.insert k q).sum (fun k p => protoIn k p t) =
      total s.balances t + s.pools.sum fun k p => protoIn k p t)
  exact congrArg (· + allWorth s t) e3

/-- what changing a position leaves alone in its pool -/
structure SoftChange (s s' : Inv) (key : PoolKey) (p p' : Pool) : Prop where
  pool : s.pools.get key = some p
  pools : s'.pools = s.pools.insert key p'
  same : PoolSame p p'
  proto : ∀ t, protoIn key p' t = protoIn key p t
  tick : ∀ k t t', s.ticks.get k = some t → s'.ticks.get k = some t' → TickSame t t'

theorem SoftChange.keeps {key : PoolKey} {p p' : Pool} {q : Position} (h : SoftChange s s' key p p')
    {pool : Pool} {l l' u u' : Tick} (hp : s.pools.get q.poolKey = some pool)
    (hl : s.ticks.get (q.poolKey, q.lowerTickIndex) = some l)
    (hl' : s'.ticks.get (q.poolKey, q.lowerTickIndex) = some l')
    (hu : s.ticks.get (q.poolKey, q.upperTickIndex) = some u)
    (hu' : s'.ticks.get (q.poolKey, q.upperTickIndex) = some u') : KeepsWorth s s' q := by
  refine ⟨?_, ⟨l, l', hl, hl', h.tick _ _ _ hl hl'⟩, ⟨u, u', hu, hu', h.tick _ _ _ hu hu'⟩⟩
  rw [h.pools]
  by_cases e : q.poolKey = key
  · exact ⟨p, p', by rw [e]; exact h.pool, by rw [e, Map.get_insert_self], h.same⟩
  · exact ⟨pool, pool, hp, by rw [Map.get_insert_ne _ _ e]; exact hp, .refl _⟩

theorem SoftChange.protos {key : PoolKey} {p p' : Pool} (h : SoftChange s s' key p p') (t : ActorId) :
    totalProto s' t = totalProto s t := by
  have h1 := proto_insert (p' := p') h.pool t
  rw [h.proto t] at h1
  unfold totalProto
  rw [h.pools]
  exact Nat.add_right_cancel h1

theorem worthIn_some {t : ActorId} {q : Position} {pool : Pool} (h : s.pools.get q.poolKey = some pool) :
    worthIn s t q = (if q.poolKey.tokenX = t then worth true (world s q.poolKey pool) q else 0) +
      (if q.poolKey.tokenY = t then worth false (world s q.poolKey pool) q else 0) := by
  unfold worthIn
  rw [h]

theorem insideOf_eq {w : FeeWorld} {q : Position} {l u : Tick} (h1 : w.ticks q.lowerTickIndex = some l)
    (h2 : w.ticks q.upperTickIndex = some u) (tok : Bool) :
    insideOf tok w q = some (if tok then
      feeGrowthInside1 l.index l.feeGrowthOutsideX u.index u.feeGrowthOutsideX w.pool.currentTickIndex
        w.pool.feeGrowthGlobalX
    else feeGrowthInside1 l.index l.feeGrowthOutsideY u.index u.feeGrowthOutsideY w.pool.currentTickIndex
        w.pool.feeGrowthGlobalY) := by
  unfold insideOf FeeWorld.insideX FeeWorld.insideY
  rw [h1, h2]
  cases tok <;> rfl

theorem inside_after {p q : Position} {pool : Pool} {ut lt : Tick} {delta now sp : Nat} {add : Bool}
    {m : ModifyResult} {key : PoolKey} (hm : ModifyOk p pool ut lt delta add now sp m)
    (h1 : s'.ticks.get (key, q.lowerTickIndex) = some m.lower)
    (h2 : s'.ticks.get (key, q.upperTickIndex) = some m.upper) (tok : Bool) :
    insideOf tok (world s' key m.pool) q = some (snapOf tok m.position) := by
  rw [insideOf_eq (w := world s' key m.pool) h1 h2 tok]
  have hs := hm.pool.same
  unfold snapOf
  show some (if tok = true then feeGrowthInside1 m.lower.index m.lower.feeGrowthOutsideX m.upper.index
    m.upper.feeGrowthOutsideX m.pool.currentTickIndex m.pool.feeGrowthGlobalX else
    feeGrowthInside1 m.lower.index m.lower.feeGrowthOutsideY m.upper.index
    m.upper.feeGrowthOutsideY m.pool.currentTickIndex m.pool.feeGrowthGlobalY) = _
  rw [hm.pos.eq, hm.lower.index, hm.upper.index, hm.lower.outX, hm.lower.outY,
    hm.upper.outX, hm.upper.outY, hs.1, hs.2.2.1, hs.2.2.2]

theorem owed_create {key : PoolKey} {lower upper : Int} {delta ll lu : Nat} {r : Inv × Position}
    (hr : Reach32 s) (hr' : Reach32 r.1)
    (h : createPosition env s key lower upper delta ll lu = .ok r) (t : ActorId) :
    owed r.1 t ≤ owed s t + slackX := by
  obtain ⟨L, hL⟩ := reach32_listed s hr
  obtain ⟨hre, hf⟩ := reach32_reach s hr
  have hw := reach_wf s hre
  have hw' := reach_wf _ (reach32_reach _ hr').1
  have ha' := reach_agree _ (reach32_reach _ hr').1
  obtain ⟨pool, lt, ut, m, b, tm1, tm2, he, _, _, _, bx, by_, hbx, hby, rfl⟩ := createPosition_full hw.indexed h
  have het := he.res
  -- the stored ticks
  have hlo : r.1.ticks.get (key, lower) = some m.lower := by
    rw [het]
    dsimp only
    rw [Map.get_insert_ne _ _ (by simpa using he.ne), Map.get_insert_self]
  have hup : r.1.ticks.get (key, upper) = some m.upper := by
    rw [het]; exact Map.get_insert_self _ _ _
  have hoth : ∀ k, k ≠ (key, lower) → k ≠ (key, upper) → r.1.ticks.get k = s.ticks.get k := by
    intro k h1 h2
    rw [het]
    dsimp only
    rw [Map.get_insert_ne _ _ h2, Map.get_insert_ne _ _ h1]
  have hsoft : SoftChange s r.1 key pool m.pool := by
    refine ⟨he.hpool, by rw [het], he.mod.pool.same, he.mod.pool.proto key, ?_⟩
    intro k t t' h1 h2
    by_cases e1 : k = (key, lower)
    · subst e1
      rw [hlo] at h2; cases h2
      rcases getOrCreateTick_ok.1 he.hlt with ⟨t1, h3, e⟩ | ⟨h3, _⟩
      · rw [h1] at h3; cases h3
        have := he.mod.lower.same
        rw [e] at this; exact this
      · rw [h1] at h3; cases h3
    · by_cases e2 : k = (key, upper)
      · subst e2
        rw [hup] at h2; cases h2
        rcases getOrCreateTick_ok.1 he.hut with ⟨t1, h3, e⟩ | ⟨h3, _⟩
        · rw [h1] at h3; cases h3
          have := he.mod.upper.same
          rw [e] at this; exact this
        · rw [h1] at h3; cases h3
      · rw [hoth k e1 e2, h1] at h2
        cases h2; exact .refl _
  have hkeep : ∀ k, (s.ticks.get k).isSome → ∃ t', r.1.ticks.get k = some t' := by
    intro k hk
    by_cases e1 : k = (key, lower)
    · exact ⟨_, e1 ▸ hlo⟩
    · by_cases e2 : k = (key, upper)
      · exact ⟨_, e2 ▸ hup⟩
      · rw [hoth k e1 e2]; exact Option.isSome_iff_exists.1 hk
  -- old positions
  have hold : posSum s.positions (worthIn r.1 t) = allWorth s t := by
    unfold allWorth posSum
    refine Map.sum_congr fun k q hq => ?_
    obtain ⟨p, l, u, hp, hl, hu⟩ := stored_has hr hq
    obtain ⟨l', hl'⟩ := hkeep _ (by rw [hl]; rfl)
    obtain ⟨u', hu'⟩ := hkeep _ (by rw [hu]; rfl)
    exact (hsoft.keeps hp hl hl' hu hu').eq t
  have hall : allWorth r.1 t = worthIn r.1 t m.position + allWorth s t := by
    rw [← hold, ← posSum_add hL env.caller m.position (worthIn r.1 t)]
    unfold allWorth
    congr 1
    rw [het]
  -- the new position
  have hq := he.mod.pos.eq
  have hliq : m.position.liquidity = delta := by
    have := (he.mod.pos.add rfl).1
    simpa using this
  have ek : m.position.poolKey = key := by rw [hq]
  have el : m.position.lowerTickIndex = lower := by rw [hq]
  have eu : m.position.upperTickIndex = upper := by rw [hq]
  have hok : PosOK m.position := by
    refine (hw'.pos (env.caller, s.positions.getLength env.caller) _ ?_).1
    rw [het]
    exact Map.get_insert_self _ _ _
  have hpool' : r.1.pools.get key = some m.pool := by rw [hsoft.pools, Map.get_insert_self]
  obtain ⟨i, hamt⟩ := he.mod.pool.amounts
  have hag := ha' key m.pool hpool'
  have hgr : ∀ tok, grown tok (world r.1 key m.pool) m.position = 0 := by
    intro tok
    unfold grown
    rw [inside_after (s' := r.1) (key := key) he.mod (by rw [el]; exact hlo) (by rw [eu]; exact hup)]
    exact fgSub_self _
  have hamt' : calculateAmountDelta (world r.1 key m.pool).pool.currentTickIndex
      (world r.1 key m.pool).pool.sqrtPrice m.position.liquidity true m.position.upperTickIndex
      m.position.lowerTickIndex = .ok (m.amountX, m.amountY, i) := by
    rw [hliq, el, eu, ← hamt]
    have hs := he.mod.pool.same
    show calculateAmountDelta m.pool.currentTickIndex m.pool.sqrtPrice _ _ _ _ = _
    rw [hs.1, hs.2.1, he.lidx, he.uidx]
  have hge := in_ge (w := world r.1 key m.pool) (q := m.position) (sp := key.feeTier.tickSpacing) hag
    hok.lt (by have := hok.lower; rwa [ek] at this) (by have := hok.upper; rwa [ek] at this) hamt'
  have hnew : worthIn r.1 t m.position ≤ (if key.tokenX = t then (m.amountX : ℚ) else 0) +
      (if key.tokenY = t then (m.amountY : ℚ) else 0) + slackX := by
    rw [worthIn_some (pool := m.pool) (by rw [ek]; exact hpool'), ek]
    unfold worth
    rw [hgr, hgr]
    have h0 := slackX_pos
    split <;> split <;> simp <;> linarith [hge.1, hge.2]
  -- the debits
  have ht1 := (dec_took hbx).tot t
  have ht2 := (dec_took hby).tot t
  rw [(decrease_bal hbx 0 0).2] at ht1
  rw [(decrease_bal hby 0 0).2] at ht2
  have hbal : (totalBal r.1 t : ℚ) + ((if key.tokenX = t then (m.amountX : ℚ) else 0) +
      (if key.tokenY = t then (m.amountY : ℚ) else 0)) = totalBal s t := by
    have e : totalBal r.1 t = total by_.1 t := by rw [totalBal_eq, het]
    rw [e, totalBal_eq, ht1, ht2]
    push_cast
    simp only [eq_comm (a := t)]
    ring
  unfold owed
  rw [hall, hsoft.protos t]
  linarith

/-- what removing a position pays -/
theorem remove_paid {i : Nat} {r : Inv × Nat × Nat} (hr : Reach32 s)
    (h : removePosition env s i = .ok r) :
    ∃ p pool lower upper m ps b tm1 tm2, RemoveEff env s i p lower upper pool m ps b tm1 tm2 r.1 ∧
      (r.2.1 : ℚ) ≤ worth true (world s p.poolKey pool) p ∧
      (r.2.2 : ℚ) ≤ worth false (world s p.poolKey pool) p ∧
      (∀ t, total b t = total s.balances t + (if p.poolKey.tokenX = t then r.2.1 else 0) +
        if p.poolKey.tokenY = t then r.2.2 else 0) ∧
      (∀ t, balOf b env.caller t = balOf s.balances env.caller t +
        (if p.poolKey.tokenX = t then r.2.1 else 0) + if p.poolKey.tokenY = t then r.2.2 else 0) := by
  have hre := (reach32_reach s hr).1
  have hw := reach_wf s hre
  obtain ⟨p, lower, upper, pool, m, ps, b, tm1, tm2, he, hamt, b1, hb1, hb2⟩ :=
    removePosition_full hw.indexed h
  have hg := posGet_ok.1 he.get
  obtain ⟨hok, _⟩ := hw.pos _ _ hg
  have hacc := (reach_acc s hre).pos _ _ hg
  obtain ⟨j, ha⟩ := he.mod.pool.amounts
  rw [hw.indexed _ _ _ he.hlt, hw.indexed _ _ _ he.hut] at ha
  have hout := out_le (w := world s p.poolKey pool) (q := p) (reach_agree s hre _ _ he.hpool) hok.lt
    hok.lower hok.upper ha
  have hin := insideOf_eq (w := world s p.poolKey pool) (q := p) he.hlt he.hut
  have ho : ∀ g : Nat, ((g * p.liquidity / 10 ^ 33 : Nat) : ℚ) ≤ (g : ℚ) * p.liquidity / 10 ^ 33 := by
    intro g
    have : ((g * p.liquidity / 10 ^ 33 : Nat) : ℚ) ≤ ((g * p.liquidity : Nat) : ℚ) / ((10 ^ 33 : Nat) : ℚ) :=
      Nat.cast_div_le
    push_cast at this
    exact this
  refine ⟨p, pool, lower, upper, m, ps, b, tm1, tm2, he, ?_, ?_, ?_, ?_⟩
  · rw [hamt, he.mod.pos.owedX, hacc.2.2.1]
    unfold worth grown
    rw [hin true]
    simp only [if_true, zero_add, Nat.cast_add]
    exact add_le_add hout.1 (ho _)
  · rw [hamt, he.mod.pos.owedY, hacc.2.2.2]
    unfold worth grown
    rw [hin false]
    simp only [Bool.false_eq_true, if_false, zero_add, Nat.cast_add]
    exact add_le_add hout.2 (ho _)
  · intro t
    rw [total_inc hb2, total_inc hb1]
    simp only [eq_comm (a := t)]
  · intro t
    rw [increase_bal hb2, increase_bal hb1]
    simp only [eq_comm (a := t), true_and]

theorem owed_remove {i : Nat} {r : Inv × Nat × Nat} (hr : Reach32 s) (hr' : Reach32 r.1)
    (h : removePosition env s i = .ok r) (t : ActorId) : owed r.1 t ≤ owed s t := by
  obtain ⟨L, hL⟩ := reach32_listed s hr
  obtain ⟨hre, hf⟩ := reach32_reach s hr
  have len : ∀ a, (L a).length < 2 ^ 32 := fun a => by
    rw [listed_len hL]; exact Nat.lt_of_succ_lt (hf a)
  have hw := reach_wf s hre
  obtain ⟨p, pool, lower, upper, m, ps, b, tm1, tm2, he, px, py, ht, _⟩ := remove_paid hr h
  have het := he.res
  have hlt := (hw.pos _ _ (posGet_ok.1 he.get)).1.lt
  have hsoft : SoftChange s r.1 p.poolKey pool m.pool := by
    refine ⟨he.hpool, by rw [het], he.mod.pool.same, he.mod.pool.proto _, ?_⟩
    intro k t t' h1 h2
    rw [het] at h2
    dsimp only at h2
    by_cases e2 : k = (p.poolKey, p.upperTickIndex)
    · subst e2
      rw [he.hut] at h1; cases h1
      split at h2
      · rw [Map.get_erase_self] at h2; cases h2
      · rw [Map.get_insert_self] at h2; cases h2
        exact he.mod.upper.same
    · have h3 : (if m.lower.liquidityGross = 0 then s.ticks.erase (p.poolKey, p.lowerTickIndex)
          else s.ticks.insert (p.poolKey, p.lowerTickIndex) m.lower).get k = some t' := by
        split at h2
        · rwa [Map.get_erase, if_neg e2] at h2
        · rwa [Map.get_insert_ne _ _ e2] at h2
      by_cases e1 : k = (p.poolKey, p.lowerTickIndex)
      · subst e1
        rw [he.hlt] at h1; cases h1
        split at h3
        · rw [Map.get_erase_self] at h3; cases h3
        · rw [Map.get_insert_self] at h3; cases h3
          exact he.mod.lower.same
      · split at h3
        · rw [Map.get_erase, if_neg e1, h1] at h3; cases h3; exact .refl _
        · rw [Map.get_insert_ne _ _ e1, h1] at h3; cases h3; exact .refl _
  have hrest : posSum ps (worthIn r.1 t) = posSum ps (worthIn s t) := by
    unfold posSum
    refine Map.sum_congr fun k q hq => ?_
    have hq' : r.1.positions.map.get k = some q := by rw [het]; exact hq
    obtain ⟨_, l', u', _, hl', hu'⟩ := stored_has hr' hq'
    obtain ⟨k', hk'⟩ := posRemove_mem he.rem hq
    obtain ⟨pl, l, u, hp, hl, hu⟩ := stored_has hr hk'
    exact (hsoft.keeps hp hl hl' hu hu').eq t
  have hall : allWorth s t = worthIn s t p + allWorth r.1 t := by
    have e : allWorth r.1 t = posSum ps (worthIn r.1 t) := by
      unfold allWorth; rw [show r.1.positions = ps by rw [het]]
    rw [e, hrest]
    exact posSum_remove hL (len _) he.rem _
  have hw1 : ((if p.poolKey.tokenX = t then r.2.1 else 0 : Nat) : ℚ) +
      ((if p.poolKey.tokenY = t then r.2.2 else 0 : Nat) : ℚ) ≤ worthIn s t p := by
    rw [worthIn_some he.hpool]
    refine add_le_add ?_ ?_
    · split
      · exact px
      · simp
    · split
      · exact py
      · simp
  have hb : (totalBal r.1 t : ℚ) = totalBal s t + ((if p.poolKey.tokenX = t then r.2.1 else 0 : Nat) : ℚ) +
      ((if p.poolKey.tokenY = t then r.2.2 else 0 : Nat) : ℚ) := by
    have e : totalBal r.1 t = total b t := by rw [totalBal_eq, het]
    rw [e, ht t, totalBal_eq]
    push_cast
    rfl
  unfold owed
  rw [hsoft.protos t, hb, hall]
  linarith

theorem owed_claim {i : Nat} {r : Inv × Nat × Nat} (hr : Reach32 s)
    (h : claimFee env s i = .ok r) (t : ActorId) : owed r.1 t ≤ owed s t := by
  have hre := (reach32_reach s hr).1
  have hw := reach_wf s hre
  obtain ⟨p, lower, upper, pool, m, ps, b, he, hamt, b1, hb1, hb2⟩ := claimFee_full hw.indexed h
  have het := he.res
  have hg := posGet_ok.1 he.get
  have hlt := (hw.pos _ _ hg).1.lt
  have hacc := (reach_acc s hre).pos _ _ hg
  have hlo : r.1.ticks.get (p.poolKey, p.lowerTickIndex) = some m.lower := by
    rw [het]; exact Map.get_insert_self _ _ _
  have hup : r.1.ticks.get (p.poolKey, p.upperTickIndex) = some m.upper := by
    rw [het]
    dsimp only
    rw [Map.get_insert_ne _ _ (by simp; omega), Map.get_insert_self]
  have hoth : ∀ k, k ≠ (p.poolKey, p.lowerTickIndex) → k ≠ (p.poolKey, p.upperTickIndex) →
      r.1.ticks.get k = s.ticks.get k := by
    intro k h1 h2
    rw [het]
    dsimp only
    rw [Map.get_insert_ne _ _ h1, Map.get_insert_ne _ _ h2]
  have hsoft : SoftChange s r.1 p.poolKey pool m.pool := by
    refine ⟨he.hpool, by rw [het], he.mod.pool.same, he.mod.pool.proto _, ?_⟩
    intro k t t' h1 h2
    by_cases e1 : k = (p.poolKey, p.lowerTickIndex)
    · subst e1
      rw [he.hlt] at h1; cases h1
      rw [hlo] at h2; cases h2
      exact he.mod.lower.same
    · by_cases e2 : k = (p.poolKey, p.upperTickIndex)
      · subst e2
        rw [he.hut] at h1; cases h1
        rw [hup] at h2; cases h2
        exact he.mod.upper.same
      · rw [hoth k e1 e2, h1] at h2
        cases h2; exact .refl _
  have hkeep : ∀ k, (s.ticks.get k).isSome → ∃ t', r.1.ticks.get k = some t' := by
    intro k hk
    by_cases e1 : k = (p.poolKey, p.lowerTickIndex)
    · exact ⟨_, e1 ▸ hlo⟩
    · by_cases e2 : k = (p.poolKey, p.upperTickIndex)
      · exact ⟨_, e2 ▸ hup⟩
      · rw [hoth k e1 e2]; exact Option.isSome_iff_exists.1 hk
  have hold : posSum s.positions (worthIn r.1 t) = allWorth s t := by
    unfold allWorth posSum
    refine Map.sum_congr fun k q hq => ?_
    obtain ⟨p, l, u, hp, hl, hu⟩ := stored_has hr hq
    obtain ⟨l', hl'⟩ := hkeep _ (by rw [hl]; rfl)
    obtain ⟨u', hu'⟩ := hkeep _ (by rw [hu]; rfl)
    exact (hsoft.keeps hp hl hl' hu hu').eq t
  have hpool' : r.1.pools.get p.poolKey = some m.pool := by rw [hsoft.pools, Map.get_insert_self]
  have hq := he.mod.pos.eq
  have hliq : m.position.liquidity = p.liquidity := (he.mod.pos.add rfl).1
  -- the position before and after, both in the new state
  have hdiff : ∀ tok, worth tok (world r.1 p.poolKey m.pool)
        { m.position with tokensOwedX := 0, tokensOwedY := 0 } +
      (if tok then m.position.tokensOwedX else m.position.tokensOwedY : Nat) ≤
      worth tok (world r.1 p.poolKey m.pool) p := by
    intro tok
    have i1 := inside_after (s' := r.1) (key := p.poolKey) (q := p) he.mod hlo hup tok
    have i2 := inside_after (s' := r.1) (key := p.poolKey)
      (q := { m.position with tokensOwedX := 0, tokensOwedY := 0 }) he.mod
      (by rw [hq]; exact hlo) (by rw [hq]; exact hup) tok
    have c1 : onCurve tok (world r.1 p.poolKey m.pool)
        { m.position with tokensOwedX := 0, tokensOwedY := 0 } =
        onCurve tok (world r.1 p.poolKey m.pool) p := by
      unfold onCurve cutOf basePrice
      dsimp only
      rw [hliq, hq]
    have g2 : grown tok (world r.1 p.poolKey m.pool)
        { m.position with tokensOwedX := 0, tokensOwedY := 0 } = 0 := by
      unfold grown
      rw [i2]
      exact fgSub_self _
    unfold worth
    rw [c1, g2]
    have g1 : grown tok (world r.1 p.poolKey m.pool) p = fgSub (snapOf tok m.position) (snapOf tok p) := by
      unfold grown
      rw [i1]
    rw [g1]
    have ho : (if tok then m.position.tokensOwedX else m.position.tokensOwedY : Nat) =
        fgSub (snapOf tok m.position) (snapOf tok p) * p.liquidity / 10 ^ 33 := by
      rw [he.mod.pos.owedX, he.mod.pos.owedY, hacc.2.2.1, hacc.2.2.2, hq]
      unfold snapOf
      cases tok <;> simp
    rw [ho]
    have h3 : ((fgSub (snapOf tok m.position) (snapOf tok p) * p.liquidity / 10 ^ 33 : Nat) : ℚ) ≤
        ((fgSub (snapOf tok m.position) (snapOf tok p) * p.liquidity : Nat) : ℚ) / ((10 ^ 33 : Nat) : ℚ) :=
      Nat.cast_div_le
    push_cast at h3
    simp only [Nat.cast_zero, zero_mul, zero_div, add_zero]
    linarith
  have hw1 : worthIn r.1 t { m.position with tokensOwedX := 0, tokensOwedY := 0 } +
      (((if p.poolKey.tokenX = t then r.2.1 else 0 : Nat) : ℚ) +
      ((if p.poolKey.tokenY = t then r.2.2 else 0 : Nat) : ℚ)) ≤ worthIn r.1 t p := by
    have ek : ({ m.position with tokensOwedX := 0, tokensOwedY := 0 } : Position).poolKey = p.poolKey := by
      rw [hq]
    have d1 := hdiff true
    have d2 := hdiff false
    generalize ({ m.position with tokensOwedX := 0, tokensOwedY := 0 } : Position) = q' at ek d1 d2 ⊢
    rw [worthIn_some hpool', worthIn_some (pool := m.pool) (by rw [ek]; exact hpool'), ek, hamt]
    simp only [if_true, Bool.false_eq_true, if_false] at d1 d2
    split <;> split <;> simp <;> linarith
  have hupd := posSum_update he.get he.upd (worthIn r.1 t)
  have hall : allWorth r.1 t + worthIn r.1 t p = allWorth s t +
      worthIn r.1 t { m.position with tokensOwedX := 0, tokensOwedY := 0 } := by
    rw [← hold, ← hupd]
    unfold allWorth
    rw [show r.1.positions = ps by rw [het]]
  have hb : (totalBal r.1 t : ℚ) = totalBal s t + ((if p.poolKey.tokenX = t then r.2.1 else 0 : Nat) : ℚ) +
      ((if p.poolKey.tokenY = t then r.2.2 else 0 : Nat) : ℚ) := by
    have e : totalBal r.1 t = total b t := by rw [totalBal_eq, het]
    rw [e, total_inc hb2, total_inc hb1, totalBal_eq]
    push_cast
    simp only [eq_comm (a := t)]
  unfold owed
  rw [hsoft.protos t, hb]
  linarith

/-! ### swaps -/

theorem allWorth_split {key : PoolKey} {pool : Pool} (hp : s.pools.get key = some pool) (t : ActorId) :
    allWorth s t = posSum s.positions (fun q => if q.poolKey = key then 0 else worthIn s t q) +
      (poolWorth s.positions key true (world s key pool) * (if key.tokenX = t then 1 else 0) +
       poolWorth s.positions key false (world s key pool) * (if key.tokenY = t then 1 else 0)) := by
  unfold poolWorth
  rw [← posSum_mul, ← posSum_mul]
  unfold allWorth posSum
  rw [← Map.sum_add, ← Map.sum_add]
  refine Map.sum_congr fun k q _ => ?_
  dsimp only
  by_cases e : q.poolKey = key
  · rw [if_pos e, if_pos e, if_pos e, worthIn_some (pool := pool) (by rw [e]; exact hp), e]
    simp only [mul_ite, mul_one, mul_zero, zero_add]
  · rw [if_neg e, if_neg e, if_neg e]
    simp

theorem owed_swap (hr : Reach32 s) (hI : LiqOK s) {k : PoolKey} {xToY byIn : Bool} {amount limit : Nat}
    {r : Inv × CalculateSwapResult} (h : Service.swap env s k xToY amount byIn limit = .ok r)
    (hn : ¬ Near s k xToY byIn limit r.2.targetSqrtPrice) (t : ActorId) :
    owed r.1 t ≤ owed s t + slackX * 443637 := by
  have hre := (reach32_reach s hr).1
  have hw := reach_wf s hre
  have hacc := reach_acc s hre
  obtain ⟨ticks, b1, b2, h1, h2, h3, h4, e⟩ := swap_ok h
  obtain ⟨p, hp, _⟩ := calculateSwap_pool h1
  obtain ⟨⟨hs1, hs2, _⟩, hne⟩ := (reach_tiers hre).pools k (by rw [hp]; rfl)
  have hsp : Spacing k.feeTier.tickSpacing := ⟨hs1, hs2⟩
  have hwf : (world s k p).WF :=
    ⟨(hacc.pool _ _ hp).1, (hacc.pool _ _ hp).2, fun i t ht =>
      ⟨hw.indexed _ _ _ ht, (hacc.tick _ _ ht).1, (hacc.tick _ _ ht).2⟩⟩
  obtain ⟨bin, bout⟩ := swap_balance hw (reach32_ledger s hr)
    (fun j q hq hk => by have := stored_posIn hr hq; rwa [hk] at this) hsp h1 hp
    (reach_agree s hre _ _ hp) hn hwf (hI _ _ hp) h2
  have hp' : r.1.pools.get k = some r.2.pool := by rw [e]; exact Map.get_insert_self _ _ _
  have hworld : world r.1 k r.2.pool = ⟨r.2.pool, fun i => ticks.get (k, i)⟩ := by
    unfold world; rw [e]
  have hpos : r.1.positions = s.positions := by rw [e]
  -- positions of other pools
  have hrest : posSum r.1.positions (fun q => if q.poolKey = k then 0 else worthIn r.1 t q) =
      posSum s.positions (fun q => if q.poolKey = k then 0 else worthIn s t q) := by
    rw [hpos]
    unfold posSum
    refine Map.sum_congr fun j q hq => ?_
    dsimp only
    by_cases ek : q.poolKey = k
    · rw [if_pos ek, if_pos ek]
    · rw [if_neg ek, if_neg ek]
      obtain ⟨pl, l, u, hpl, hl, hu⟩ := stored_has hr hq
      have hto : ∀ i, r.1.ticks.get (q.poolKey, i) = s.ticks.get (q.poolKey, i) := by
        intro i
        rw [e]
        exact updateTicks_other _ _ _ h2 _ ek
      refine KeepsWorth.eq ⟨⟨pl, pl, hpl, ?_, .refl _⟩, ⟨l, l, hl, by rw [hto]; exact hl, .refl _⟩,
        ⟨u, u, hu, by rw [hto]; exact hu, .refl _⟩⟩ t
      rw [e]
      dsimp only
      rw [Map.get_insert_ne _ _ ek]; exact hpl
  have hsplit := allWorth_split hp t
  have hsplit' := allWorth_split hp' t
  rw [hrest, hworld, hpos] at hsplit'
  -- protocol fees
  have hpr := proto_insert (p' := r.2.pool) hp t
  have hpr' : (totalProto r.1 t : ℚ) + protoIn k p t = totalProto s t + protoIn k r.2.pool t := by
    have e1 : totalProto r.1 t = (s.pools.insert k r.2.pool).sum fun k p => protoIn k p t := by
      rw [e]; rfl
    have e2 : totalProto s t = s.pools.sum fun k p => protoIn k p t := rfl
    rw [e1, e2]
    exact_mod_cast hpr
  -- balances
  have ht1 := (dec_took h3).tot t
  rw [(decrease_bal h3 0 0).2] at ht1
  have ht2 := total_inc h4 t
  have hb : (totalBal r.1 t : ℚ) + ((if t = (if xToY = true then k.tokenX else k.tokenY) then r.2.amountIn else 0 : Nat) : ℚ) =
      totalBal s t + ((if t = (if xToY = true then k.tokenY else k.tokenX) then r.2.amountOut else 0 : Nat) : ℚ) := by
    have e1 : totalBal r.1 t = total b2 t := by rw [totalBal_eq, e]
    rw [e1, totalBal_eq]
    exact_mod_cast (by omega : total b2 t + _ = total s.balances t + _)
  have h0 := slackX_pos
  have hne' := hne.ne
  unfold owed
  rw [hsplit, hsplit']
  unfold protoIn at hpr'
  by_cases e1 : k.tokenX = t
  · have e2 : k.tokenY ≠ t := fun h => hne' (e1.trans h.symm)
    have e3 : ¬ t = k.tokenY := fun h => e2 h.symm
    rw [if_pos e1, if_neg e2, if_pos e1, if_neg e2] at hpr'
    rw [if_pos e1, if_neg e2]
    cases hx : xToY
    · rw [hx] at hb bin bout
      simp only [Bool.false_eq_true, if_false, if_pos e1.symm, if_neg e3, Bool.not_false, protoOf, if_true] at hb bin bout
      push_cast at hb hpr' bin bout ⊢
      linarith
    · rw [hx] at hb bin bout
      simp only [if_true, if_pos e1.symm, if_neg e3, protoOf] at hb bin bout
      push_cast at hb hpr' bin bout ⊢
      linarith
  · by_cases e2 : k.tokenY = t
    · have e3 : ¬ t = k.tokenX := fun h => e1 h.symm
      rw [if_neg e1, if_pos e2, if_neg e1, if_pos e2] at hpr'
      rw [if_neg e1, if_pos e2]
      cases hx : xToY
      · rw [hx] at hb bin bout
        simp only [Bool.false_eq_true, if_false, if_pos e2.symm, if_neg e3, Bool.not_false, protoOf, if_true] at hb bin bout
        push_cast at hb hpr' bin bout ⊢
        linarith
      · rw [hx] at hb bin bout
        simp only [if_true, if_pos e2.symm, if_neg e3, protoOf, Bool.not_true, Bool.false_eq_true, if_false] at hb bin bout
        push_cast at hb hpr' bin bout ⊢
        linarith
    · have e3 : ¬ t = k.tokenX := fun h => e1 h.symm
      have e4 : ¬ t = k.tokenY := fun h => e2 h.symm
      rw [if_neg e1, if_neg e2, if_neg e1, if_neg e2] at hpr'
      rw [if_neg e1, if_neg e2]
      have : (totalBal r.1 t : ℚ) = totalBal s t := by
        cases hx : xToY <;> rw [hx] at hb <;>
          simpa only [Bool.false_eq_true, if_false, if_true, if_neg e3, if_neg e4, Nat.cast_zero, add_zero] using hb
      push_cast at hpr' ⊢
      linarith

/-! ### the whole history -/

theorem clearBooks_clear {held : ActorId → Nat} {n : Nat} (h : ClearBooks s held n) : Clear s := by
  induction h with
  | init a f => exact .init a f
  | call _ hc h hf ih => exact .call ih ⟨hc.1, hc.2.1⟩ h hf
  | deposit _ h ih =>
    exact .transfers ih (balWF_inc (reach_balWF (reach32_reach _ (clear_reach32 _ ih)).1) h)
  | withdraw _ h ih =>
    exact .transfers ih (balWF_dec (reach_balWF (reach32_reach _ (clear_reach32 _ ih)).1) h)
  | swap _ h hn ih => exact .swap ih h hn

theorem worthIn_nonneg (hr : Reach32 s) {k : ActorId × Nat} {q : Position}
    (hq : s.positions.map.get k = some q) (t : ActorId) : 0 ≤ worthIn s t q := by
  obtain ⟨hre, _⟩ := reach32_reach s hr
  have hw := reach_wf s hre
  obtain ⟨hok, hpl⟩ := hw.pos _ _ hq
  obtain ⟨pool, hp⟩ := Option.isSome_iff_exists.1 hpl
  have ha := reach_agree s hre _ _ hp
  have h1 : ∀ tok, 0 ≤ worth tok (world s q.poolKey pool) q := by
    intro tok
    have h2 : 0 ≤ onCurve tok (world s q.poolKey pool) q := by
      cases tok
      · rw [onCurve_Y (w := world s q.poolKey pool) ha hok.lt hok.lower hok.upper]
        unfold amountY liq
        positivity
      · rw [onCurve_X (w := world s q.poolKey pool) ha hok.lt hok.lower hok.upper]
        unfold amountX liq
        positivity
    unfold worth
    positivity
  rw [worthIn_some hp]
  have h2 := h1 true
  have h3 := h1 false
  split <;> split <;> linarith

theorem allWorth_nonneg (hr : Reach32 s) (t : ActorId) : 0 ≤ allWorth s t :=
  Map.sum_nonneg fun _ _ hq => worthIn_nonneg hr hq t

theorem owed_call {c : Call} (hr : Reach32 s) (hr' : Reach32 s')
    (hc : (∀ k d a b l, c ≠ .swap k d a b l) ∧ (∀ a e sl h, c ≠ .swapRoute a e sl h) ∧ NoVara c)
    (h : step env s c = .ok s') (t : ActorId) : owed s' t ≤ owed s t + slackX := by
  have h0 := slackX_pos
  cases c with
  | changeProtocolFee f =>
    simp only [step, changeProtocolFee, bind_ok_iff, failIf_ok_iff, pure_ok_iff] at h
    obtain ⟨_, ⟨_, ha, rfl⟩, rfl⟩ := h
    exact le_add_of_nonneg_right h0.le
  | addFeeTier f =>
    simp only [step, addFeeTier, bind_ok_iff, failIf_ok_iff, pure_ok_iff] at h
    obtain ⟨_, ⟨_, _, _, _, _, ha, l, _, rfl⟩, rfl⟩ := h
    exact le_add_of_nonneg_right h0.le
  | removeFeeTier f =>
    simp only [step, removeFeeTier, bind_ok_iff, failIf_ok_iff, pure_ok_iff] at h
    obtain ⟨_, ⟨_, ha, l, _, rfl⟩, rfl⟩ := h
    exact le_add_of_nonneg_right h0.le
  | createPool x y f p i =>
    obtain ⟨h1, h2, _, h3, _, pool, h4, rfl⟩ := createPool_ok h
    have e : pool.feeProtocolTokenX = 0 ∧ pool.feeProtocolTokenY = 0 := by
      simp only [Pool.create, bind_ok_iff, pure_ok_iff] at h4
      obtain ⟨_, _, _, _, _, _, rfl⟩ := h4
      exact ⟨rfl, rfl⟩
    rw [owed_newPool hr h3 e.1 e.2]
    exact le_add_of_nonneg_right h0.le
  | changeFeeReceiver k r =>
    obtain ⟨_, pool, hp, rfl⟩ := changeFeeReceiver_ok h
    have := owed_poolField (b := s.balances) (q := { pool with feeReceiver := r }) hr hp ⟨rfl, rfl, rfl, rfl⟩ t rfl
    exact this.le.trans (le_add_of_nonneg_right h0.le)
  | createPosition k l u d a b =>
    simp only [step, bind_ok_iff, pure_ok_iff] at h
    obtain ⟨r, h, rfl⟩ := h
    exact owed_create hr hr' h t
  | removePosition i =>
    simp only [step, bind_ok_iff, pure_ok_iff] at h
    obtain ⟨r, h, rfl⟩ := h
    exact (owed_remove hr hr' h t).trans (le_add_of_nonneg_right h0.le)
  | transferPosition i r =>
    obtain ⟨ps, p, h1, rfl⟩ := transferPosition_ok h
    exact (owed_transfer hr h1 t).le.trans (le_add_of_nonneg_right h0.le)
  | swap k d a b l => exact absurd rfl (hc.1 k d a b l)
  | swapRoute a e sl hp => exact absurd rfl (hc.2.1 a e sl hp)
  | claimFee i =>
    simp only [step, bind_ok_iff, pure_ok_iff] at h
    obtain ⟨r, h, rfl⟩ := h
    exact (owed_claim hr h t).trans (le_add_of_nonneg_right h0.le)
  | withdrawProtocolFee k =>
    simp only [step, bind_ok_iff, pure_ok_iff] at h
    obtain ⟨r, h, rfl⟩ := h
    obtain ⟨pool, b1, b2, hp, _, hb1, hb2, rfl⟩ := withdrawProtocolFee_ok h
    have := owed_poolField (b := b2) (q := { pool with feeProtocolTokenX := 0, feeProtocolTokenY := 0 })
      hr hp ⟨rfl, rfl, rfl, rfl⟩ t (by
        rw [total_inc hb2, total_inc hb1]
        unfold protoIn
        simp only [eq_comm (a := t)]
        split <;> split <;> omega)
    exact this.le.trans (le_add_of_nonneg_right h0.le)
  | depositVara => exact absurd rfl hc.2.2.1
  | withdrawVara v => exact absurd rfl (hc.2.2.2 v)

/-- the rounding of 5·10^8 calls stays below one unit -/
theorem slack_small {n : Nat} (hn : n ≤ 5 * 10 ^ 8) : (n : ℚ) * (slackX * 443637) < 1 := by
  have : (n : ℚ) ≤ 5 * 10 ^ 8 := by exact_mod_cast hn
  unfold slackX
  rw [show (n : ℚ) * (1 / (23 * 10 ^ 13) * 443637) = n * 443637 / (23 * 10 ^ 13) by ring,
    div_lt_one (by norm_num)]
  linarith

theorem clearBooks_owed {held : ActorId → Nat} {n : Nat} (h : ClearBooks s held n) (hn : n ≤ 5 * 10 ^ 8)
    (t : ActorId) : owed s t ≤ held t + n * (slackX * 443637) := by
  have h0 := slackX_pos
  induction h with
  | init a f => simp [owed, totalBal, totalProto, allWorth, posSum, Inv.init]
  | @call s s' env c held n hb hc h hf ih =>
    have hr := clear_reach32 _ (clearBooks_clear hb)
    have hr' := clear_reach32 _ (clearBooks_clear (.call hb hc h hf))
    have h1 := owed_call hr hr' hc h t
    have h2 := ih (by omega)
    push_cast
    linarith
  | @deposit s held n t' a v b aw hb h ih =>
    have h2 := ih hn
    have h1 : owed { s with balances := b, awaiting := aw } t = owed s t + (if t = t' then v else 0 : Nat) := by
      unfold owed
      have e : totalBal { s with balances := b, awaiting := aw } t = totalBal s t + if t = t' then v else 0 :=
        total_inc h t
      rw [e]
      push_cast
      have e2 : allWorth { s with balances := b, awaiting := aw } t = allWorth s t := rfl
      have e3 : totalProto { s with balances := b, awaiting := aw } t = totalProto s t := rfl
      rw [e2, e3]
      ring
    rw [h1]
    dsimp only
    split <;> push_cast <;> linarith
  | @withdraw s held n t' a v r aw hb h ih =>
    have h2 := ih hn
    have hr := clear_reach32 _ (clearBooks_clear hb)
    have ht := (dec_took h).tot t
    rw [(decrease_bal h 0 0).2] at ht
    have h1 : owed { s with balances := r.1, awaiting := aw } t + (if t = t' then v else 0 : Nat) = owed s t := by
      unfold owed
      have e : totalBal s t = totalBal { s with balances := r.1, awaiting := aw } t + if t = t' then v else 0 := ht
      rw [e]
      push_cast
      have e2 : allWorth { s with balances := r.1, awaiting := aw } t = allWorth s t := rfl
      have e3 : totalProto { s with balances := r.1, awaiting := aw } t = totalProto s t := rfl
      rw [e2, e3]
      ring
    have hv : (if t = t' then v else 0) ≤ held t := by
      have h3 : ((if t = t' then v else 0 : Nat) : ℚ) ≤ owed s t := by
        have h4 := allWorth_nonneg hr t
        have h5 : ((if t = t' then v else 0 : Nat) : ℚ) ≤ totalBal s t := by
          have : (if t = t' then v else 0) ≤ total s.balances t := by rw [ht]; exact Nat.le_add_left _ _
          rw [totalBal_eq]
          exact_mod_cast this
        unfold owed
        have h6 : (0 : ℚ) ≤ totalProto s t := Nat.cast_nonneg _
        linarith
      have h4 := slack_small hn
      have h5 : ((if t = t' then v else 0 : Nat) : ℚ) < ((held t + 1 : Nat) : ℚ) := by push_cast at h3 ⊢; linarith
      exact Nat.lt_succ_iff.1 (by exact_mod_cast h5)
    dsimp only
    split
    · next e =>
      rw [if_pos e] at h1 hv
      rw [Nat.cast_sub hv]
      linarith
    · next e =>
      rw [if_neg e] at h1
      push_cast at h1
      linarith
  | @swap s held n env key xToY byIn amount limit r hb h hnear ih =>
    have hcl := clearBooks_clear hb
    have h1 := owed_swap (clear_reach32 _ hcl) (clear_liqOK _ hcl) h hnear t
    have h2 := ih (by omega)
    push_cast
    linarith

theorem payout_le (hr : Reach32 s) {k : ActorId × Nat} {q : Position}
    (hq : s.positions.map.get k = some q) (t : ActorId) : (payout env s k.1 k.2 t : ℚ) ≤ worthIn s t q := by
  unfold payout
  split
  · next r h =>
    obtain ⟨p, pool, lower, upper, m, ps, b, tm1, tm2, he, px, py, _, hb⟩ := remove_paid hr h
    have hp : p = q := by
      have := posGet_ok.1 he.get
      rw [show (({ env with caller := k.1 } : Env).caller, k.2) = k from rfl, hq] at this
      cases this; rfl
    subst hp
    have hbal : ∀ b : Balances, bal b k.1 t = balOf b k.1 t := by
      intro b
      unfold bal balOf
      cases b.get (k.1, t) <;> rfl
    have e : r.1.balances = b := by rw [he.res]
    rw [hbal, hbal, e, hb t, worthIn_some he.hpool]
    have e2 : ∀ x y z : Nat, x + y + z - x = y + z := by intros; omega
    rw [e2]
    push_cast
    refine add_le_add ?_ ?_
    · split
      · exact px
      · exact le_rfl
    · split
      · exact py
      · exact le_rfl
  · exact_mod_cast worthIn_nonneg hr hq t

theorem totalDue_le (hr : Reach32 s) (t : ActorId) : (totalDue env s t : ℚ) ≤ allWorth s t := by
  unfold totalDue allWorth posSum
  rw [show ((s.positions.map.sum fun k _ => payout env s k.1 k.2 t : Nat) : ℚ) =
    s.positions.map.sum fun k _ => (payout env s k.1 k.2 t : ℚ) from
      Map.map_sum_hom (Nat.castAddMonoidHom ℚ) _ _]
  exact Map.sum_le_sum fun k q hq => payout_le hr hq t

end Verif
