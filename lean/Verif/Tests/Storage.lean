import Verif.Tests.Types
import Verif.Model.Removal

/-!
# The repository's own tests of `src/contracts/storage/*.rs` and `src/contracts/collections/*.rs`, on the model

Same convention as `Verif.Tests.Clamm`. `..Default::default()` of the source is `{ pool0 with .. }`.
-/

namespace Verif.Tests.Storage
open Verif.Tests.Clamm Verif.Tests.Types

/-- the `Default` values of the source -/
def pool0 : Pool := ⟨0, 0, 0, 0, 0, 0, 0, 0, 0, 0⟩
def tick0 : Tick := ⟨0, false, 0, 0, 0, 0, 0, 0⟩
def key0 : PoolKey := ⟨0, 0, ⟨0, 1⟩⟩
def pos0 : Position := ⟨key0, 0, 0, 0, 0, 0, 0, 0, 0⟩

/-! ## `src/contracts/storage/pool.rs` -/

-- create
example : (calculateSqrtPrice 100 >>= fun p => Pool.create p 100 100 1 1) =
      (calculateSqrtPrice 100 >>= fun p => .ok { pool0 with
        sqrtPrice := p, currentTickIndex := 100, startTimestamp := 100, lastTimestamp := 100, feeReceiver := 1 }) ∧
    (Pool.create (sp 1 + 1) 0 100 3 1).toOption.map (·.currentTickIndex) = some 0 ∧
    Pool.create 1000175003749000000000000 2 100 1 1 = .error (.inv .InvalidInitSqrtPrice) ∧
    (Pool.create 1000175003749000000000000 3 100 1 1).toOption.map (·.currentTickIndex) = some 3 ∧
    Pool.create 1000225003749000000000000 0 100 3 1 = .error (.inv .InvalidInitSqrtPrice) ∧
    (Pool.create 1000225003749000000000000 3 100 3 1).toOption.map (·.currentTickIndex) = some 3 ∧
    (Pool.create MAX_SQRT_PRICE MAX_TICK 100 1 1).toBool = true ∧
    (Pool.create (MAX_SQRT_PRICE - 1) MAX_TICK 100 1 1).toBool = false ∧
    (Pool.create (sp 1) MAX_TICK 100 1 1).toBool = false ∧
    (calculateSqrtPrice (MAX_TICK - 1) >>= fun p => Pool.create p (MAX_TICK - 1) 100 1 1).toOption.map
      (·.currentTickIndex) = some (MAX_TICK - 1) := by decide +kernel

-- test_add_fee
example : Pool.addFee { pool0 with liquidity := lq 10 } 6 true (pc 2 1) =
      .ok { pool0 with liquidity := lq 10, feeGrowthGlobalX := fg 4 1, feeProtocolTokenX := 2 } ∧
    Pool.addFee { pool0 with liquidity := lq 10 } 200 false (pc 2 1) =
      .ok { pool0 with liquidity := lq 10, feeGrowthGlobalY := fg 160 1, feeProtocolTokenY := 40 } ∧
    Pool.addFee { pool0 with liquidity := lq 10 } 1 true (pc 2 1) =
      .ok { pool0 with liquidity := lq 10, feeProtocolTokenX := 1 } ∧
    Pool.addFee { pool0 with liquidity := maxU256 } maxU256 true (pc 1) =
      .ok { pool0 with liquidity := maxU256, feeProtocolTokenX := maxU256 } ∧
    Pool.addFee { pool0 with liquidity := maxU256 } maxU256 false (pc 1) =
      .ok { pool0 with liquidity := maxU256, feeProtocolTokenY := maxU256 } ∧
    Pool.addFee { pool0 with liquidity := maxU256 } maxU256 true 0 =
      .ok { pool0 with liquidity := maxU256, feeGrowthGlobalX := 1000000000000000000000000000000000 } := by
  decide +kernel

/-- `liquidity`, `x` and `y` after `update_liquidity` of a pool with this liquidity, price and current tick -/
def liq (l p : Nat) (t : Int) (delta : Nat) (sign : Bool) (upper lower : Int) : Option (Nat × Nat × Nat) :=
  (Pool.updateLiquidity { pool0 with liquidity := l, sqrtPrice := p, currentTickIndex := t }
    delta sign upper lower).toOption.map (fun r => (r.1.liquidity, r.2))

-- test_update_liquidity
example : liq 0 1000140000000000000000000 2 (lq 5000000) true 3 0 = some (lq 5000000, 51, 700) ∧
    liq 0 1000140000000000000000000 2 (lq 5000000) true 4 0 = some (lq 5000000, 300, 700) ∧
    liq (lq 1) 1000140000000000000000000 6 (lq 12) true 4 0 = some (lq 1, 0, 1) ∧
    liq (lq 1) 1000140000000000000000000 (-2) (lq 12) true 4 0 = some (lq 1, 1, 0) ∧
    liq (lq 10) 1 2 (lq 5) false 3 1 = some (lq 5, 2500375009372499999999997, 5) := by decide +kernel

/-! ## `src/contracts/storage/position.rs` -/

-- test_calculate_new_liquidity
example : (Position.calculateNewLiquidity { pos0 with liquidity := lq 1 } false (lq 2)).toBool = false ∧
    Position.calculateNewLiquidity { pos0 with liquidity := lq 2 } true (lq 2) = .ok (lq 4) ∧
    Position.calculateNewLiquidity { pos0 with liquidity := lq 2 } false (lq 2) = .ok 0 := by decide +kernel

-- test_update
example : (Position.update pos0 true 0 (fg 1) (fg 1)).toBool = false ∧
    Position.update { pos0 with
        feeGrowthInsideX := fg 4, feeGrowthInsideY := fg 4, tokensOwedX := 100, tokensOwedY := 100 }
      true (lq 1) (fg 5) (fg 5) =
      .ok { pos0 with liquidity := lq 1, feeGrowthInsideX := fg 5, feeGrowthInsideY := fg 5,
                      tokensOwedX := 100, tokensOwedY := 100 } ∧
    Position.update { pos0 with
        liquidity := lq 1, feeGrowthInsideX := fg 4, feeGrowthInsideY := fg 4, tokensOwedX := 100, tokensOwedY := 100 }
      true (lq 1) (fg 5) (fg 5) =
      .ok { pos0 with liquidity := lq 2, feeGrowthInsideX := fg 5, feeGrowthInsideY := fg 5,
                      tokensOwedX := 101, tokensOwedY := 101 } ∧
    Position.update { pos0 with
        liquidity := lq 1, feeGrowthInsideX := maxU128 - fg 10, feeGrowthInsideY := maxU128 - fg 10,
        tokensOwedX := 100, tokensOwedY := 100 }
      true (lq 1) (fg 10) (fg 10) =
      .ok { pos0 with liquidity := lq 2, feeGrowthInsideX := fg 10, feeGrowthInsideY := fg 10,
                      tokensOwedX := 120, tokensOwedY := 120 } := by decide +kernel

-- test_modify
example : (Position.modify { pos0 with
        liquidity := lq 123, feeGrowthInsideX := maxU128 - fg 1234, feeGrowthInsideY := maxU128 - fg 1234 }
      { pool0 with feeGrowthGlobalX := fg 20, feeGrowthGlobalY := fg 20 }
      { tick0 with index := -10, feeGrowthOutsideX := fg 15, feeGrowthOutsideY := fg 15, liquidityGross := lq 123 }
      { tick0 with index := -20, feeGrowthOutsideX := fg 20, feeGrowthOutsideY := fg 20, liquidityGross := lq 123 }
      0 true 1234567890 1).toOption.map (·.position.tokensOwedX) = some 151167 := by decide +kernel

/-! ## `src/contracts/storage/tick.rs` -/

-- test_cross
example : Tick.cross { tick0 with feeGrowthOutsideX := 30, feeGrowthOutsideY := 25, index := 3, secondsOutside := 5,
                                  liquidityChange := lq 1 }
      { pool0 with feeGrowthGlobalX := 45, feeGrowthGlobalY := 35, liquidity := lq 4, lastTimestamp := 15,
                   startTimestamp := 4, currentTickIndex := 7 } 315360015 =
      .ok ({ tick0 with feeGrowthOutsideX := 15, feeGrowthOutsideY := 10, index := 3, secondsOutside := 315360006,
                        liquidityChange := lq 1 },
        { pool0 with feeGrowthGlobalX := 45, feeGrowthGlobalY := 35, liquidity := lq 5, lastTimestamp := 315360015,
                     startTimestamp := 4, currentTickIndex := 7 }) ∧
    Tick.cross { tick0 with feeGrowthOutsideX := 42, feeGrowthOutsideY := 14, index := 9, secondsOutside := 41 }
      { pool0 with feeGrowthGlobalX := 68, feeGrowthGlobalY := 59, lastTimestamp := 9, startTimestamp := 34,
                   currentTickIndex := 4 } 315360000 =
      .ok ({ tick0 with feeGrowthOutsideX := 26, feeGrowthOutsideY := 45, index := 9, secondsOutside := 315359925 },
        { pool0 with feeGrowthGlobalX := 68, feeGrowthGlobalY := 59, lastTimestamp := 315360000, startTimestamp := 34,
                     currentTickIndex := 4 }) ∧
    Tick.cross { tick0 with feeGrowthOutsideX := 26584, feeGrowthOutsideY := 1256588, index := 45,
                            secondsOutside := 74, liquidityChange := 10 }
      { pool0 with feeGrowthGlobalX := 3402, feeGrowthGlobalY := 3401, liquidity := lq 14, lastTimestamp := 9,
                   startTimestamp := 15, currentTickIndex := 9 } 31536000 =
      .ok ({ tick0 with feeGrowthOutsideX := 340282366920938463463374607431768188274,
                        feeGrowthOutsideY := 340282366920938463463374607431766958269, index := 45,
                        secondsOutside := 31535911, liquidityChange := 10 },
        { pool0 with feeGrowthGlobalX := 3402, feeGrowthGlobalY := 3401, liquidity := 1399990,
                     lastTimestamp := 31536000, startTimestamp := 15, currentTickIndex := 9 }) ∧
    Tick.cross { tick0 with feeGrowthOutsideX := 99, feeGrowthOutsideY := 256, index := 45,
                            secondsOutside := 74, liquidityChange := 10 }
      { pool0 with feeGrowthGlobalX := 145, feeGrowthGlobalY := 364, liquidity := 14, lastTimestamp := 16,
                   startTimestamp := 15, currentTickIndex := 9 } 315360000 =
      .ok ({ tick0 with feeGrowthOutsideX := 46, feeGrowthOutsideY := 108, index := 45,
                        secondsOutside := 315359911, liquidityChange := 10 },
        { pool0 with feeGrowthGlobalX := 145, feeGrowthGlobalY := 364, liquidity := 4, lastTimestamp := 315360000,
                     startTimestamp := 15, currentTickIndex := 9 }) := by decide +kernel

-- test_update_liquidity_change
example : Tick.updateLiquidityChange { tick0 with sign := true, liquidityChange := lq 2 } (lq 3) true =
      .ok { tick0 with sign := true, liquidityChange := lq 5 } ∧
    Tick.updateLiquidityChange { tick0 with sign := false, liquidityChange := lq 2 } (lq 3) false =
      .ok { tick0 with sign := false, liquidityChange := lq 5 } ∧
    Tick.updateLiquidityChange { tick0 with sign := true, liquidityChange := lq 2 } (lq 3) false =
      .ok { tick0 with sign := false, liquidityChange := lq 1 } ∧
    Tick.updateLiquidityChange { tick0 with sign := false, liquidityChange := lq 2 } (lq 3) true =
      .ok { tick0 with sign := true, liquidityChange := lq 1 } := by decide +kernel

-- test_update
example : Tick.update { tick0 with sign := true, liquidityChange := lq 2, liquidityGross := lq 2,
                                   feeGrowthOutsideX := fg 2, feeGrowthOutsideY := fg 2 } (lq 1) maxU256 false true =
      .ok { tick0 with sign := true, liquidityChange := lq 3, liquidityGross := lq 3, feeGrowthOutsideX := fg 2,
                       feeGrowthOutsideY := fg 2 } ∧
    Tick.update { tick0 with index := 5, sign := true, liquidityChange := lq 3, liquidityGross := lq 7,
                             feeGrowthOutsideX := fg 13, feeGrowthOutsideY := fg 11 } (lq 1) maxU256 true true =
      .ok { tick0 with index := 5, sign := true, liquidityChange := lq 2, liquidityGross := lq 8,
                       feeGrowthOutsideX := fg 13, feeGrowthOutsideY := fg 11 } ∧
    (Tick.update { tick0 with sign := true, liquidityChange := lq 100000, liquidityGross := lq 100000,
                              feeGrowthOutsideX := fg 1000, feeGrowthOutsideY := fg 1000 }
      (calculateMaxLiquidityPerTick 1 + 1) (calculateMaxLiquidityPerTick 1) false true).toBool = false := by
  decide +kernel

/-! ## `src/contracts/collections/tickmap.rs` -/

def key : PoolKey := ⟨1, 2, ⟨1, 1⟩⟩

/-- the empty tickmap with these ticks flipped on -/
def withTicks (spacing : Nat) (ts : List Int) : M Tickmap :=
  ts.foldlM (fun tm t => tickmapFlip tm true t spacing key) ∅
def next (spacing : Nat) (ts : List Int) (t : Int) : M (Option Int) :=
  withTicks spacing ts >>= fun tm => nextInitialized tm t spacing key
def prev (spacing : Nat) (ts : List Int) (t : Int) : M (Option Int) :=
  withTicks spacing ts >>= fun tm => prevInitialized tm t spacing key
def closer (limit : Nat) (xToY : Bool) (t : Int) (spacing : Nat) : M (Nat × Option (Int × Bool)) :=
  withTicks 1 [0] >>= fun tm => getCloserLimit tm limit xToY t spacing key
/-- unset, flipped on, set, flipped off, unset again; with the tickmap afterwards -/
def flips (tm : Tickmap) (t : Int) (spacing : Nat) : M (Tickmap × Bool) := do
  let a ← tickmapGet tm t spacing key
  let tm ← tickmapFlip tm true t spacing key
  let b ← tickmapGet tm t spacing key
  let tm ← tickmapFlip tm false t spacing key
  let c ← tickmapGet tm t spacing key
  pure (tm, !a && b && !c)

-- test_get_closer_limit
example : closer (sp 5) true 100 1 = .ok (sp 5, none) ∧ closer (sp 1 1) true 100 1 = .ok (sp 1, some (0, true)) ∧
    closer (sp 2) false (-5) 1 = .ok (sp 1, some (0, true)) ∧ closer (sp 1 1) false (-100) 10 = .ok (sp 1 1, none) := by
  decide +kernel

-- test_flip
example : (do
    let r ← flips ∅ 0 1
    let q ← flips r.1 7 1
    let p ← flips q.1 (MAX_TICK - 1) 1
    let o ← flips p.1 (MAX_TICK - 40) 1
    let n ← flips o.1 20000 1000
    pure (r.2 && q.2 && p.2 && o.2 && n.2) : M Bool) = .ok true := by decide +kernel

-- test_next_initialized_*
example : next 1 [5] 0 = .ok (some 5) ∧ next 10 [50, 100] 0 = .ok (some 50) ∧ next 10 [50, 100] 50 = .ok (some 100) ∧
    next 10 [0] 0 = .ok none ∧ next 1 [0] (-TICK_SEARCH_RANGE) = .ok (some 0) ∧
    next 1 [0] (-TICK_SEARCH_RANGE - 1) = .ok none ∧ next 1 [MAX_TICK - 10] (-MAX_TICK + 1) = .ok none ∧
    next 4 [] (MAX_TICK - 22) = .ok none ∧ next 4 [] (MAX_TICK - 2) = .ok none ∧
    next 1 [MAX_TICK - 63] (MAX_TICK - 128) = .ok (some (MAX_TICK - 63)) := by decide +kernel

-- test_prev_initialized_*
example : prev 1 [-5] 0 = .ok (some (-5)) ∧ prev 10 [-50, -100] 0 = .ok (some (-50)) ∧
    prev 10 [-50, -100] (-50) = .ok (some (-50)) ∧ prev 10 [0] 0 = .ok (some 0) ∧ prev 10 [10] 0 = .ok none ∧
    prev 1 [0] TICK_SEARCH_RANGE = .ok (some 0) ∧ prev 1 [0] (TICK_SEARCH_RANGE + 1) = .ok none ∧
    prev 1 [-MAX_TICK + 1] (MAX_TICK - 1) = .ok none ∧
    prev 1 [-MAX_TICK + 63] (-MAX_TICK + 128) = .ok (some (-MAX_TICK + 63)) := by decide +kernel

-- test_get_search_limit
example : getSearchLimit 0 1 true = TICK_SEARCH_RANGE ∧ getSearchLimit 0 1 false = -TICK_SEARCH_RANGE ∧
    getSearchLimit 60 12 true = 60 + TICK_SEARCH_RANGE * 12 ∧ getSearchLimit 60 12 false = 60 - TICK_SEARCH_RANGE * 12 ∧
    getSearchLimit (MAX_TICK - 22) 5 true = MAX_TICK - 3 ∧ getSearchLimit (MAX_TICK - 3) 5 true = MAX_TICK - 3 := by
  decide +kernel

-- test_next_and_prev_initialized, first part
example : ∀ s ∈ [1, 2, 3, 4, 5, 6, 7, 8, 9, 10],
    (prev s [getMaxTick s, getMinTick s] (getMinTick s + TICK_SEARCH_RANGE.tdiv s * s)).toOption.join.isSome = true ∧
    (next s [getMaxTick s, getMinTick s] (getMaxTick s - TICK_SEARCH_RANGE.tdiv s * s)).toOption.join.isSome = true := by
  decide +kernel

-- test_next_and_prev_initialized, second part
#guard (List.range 1000).all fun n =>
  let s := n + 1
  (prev s [] (getMinTick s + TICK_SEARCH_RANGE.tdiv s * s) == .ok none) &&
  (next s [] (getMaxTick s - TICK_SEARCH_RANGE.tdiv s * s) == .ok none)

/-! ## The other collections -/

-- fee_tiers.rs: test_add, test_remove, test_get_all
example : feeTiersAdd [] ⟨0, 1⟩ = .ok [⟨0, 1⟩] ∧ feeTiersAdd [⟨0, 1⟩] ⟨0, 1⟩ = .error (.inv .FeeTierAlreadyExist) ∧
    feeTiersRemove [⟨0, 1⟩] ⟨0, 1⟩ = .ok [] ∧ feeTiersRemove [] ⟨0, 1⟩ = .error (.inv .FeeTierNotFound) ∧
    feeTiersAdd [⟨0, 1⟩] ⟨0, 2⟩ = .ok [⟨0, 1⟩, ⟨0, 2⟩] := by decide +kernel

/-- `pool_key` and `new_pool_key` of the source -/
def key1 : PoolKey := ⟨1, 2, ⟨0, 1⟩⟩
def key2 : PoolKey := ⟨1, 2, ⟨0, 2⟩⟩

-- pool_keys.rs: test_add, test_remove, test_get_all
example : (PoolKeys.add ⟨∅, ∅, 0⟩ key0 >>= fun k => pure (k.contains key0, k.contains key1)) = .ok (true, false) ∧
    (PoolKeys.add ⟨∅, ∅, 0⟩ key0 >>= fun k => PoolKeys.add k key0 >>= fun _ => pure ()) =
      .error (.inv .PoolKeyAlreadyExist) ∧
    (PoolKeys.add ⟨∅, ∅, 0⟩ key0 >>= fun k => k.remove key0 >>= fun k => pure (k.contains key0)) = .ok false ∧
    (PoolKeys.add ⟨∅, ∅, 0⟩ key0 >>= fun k => k.remove key0 >>= fun k => k.remove key0 >>= fun _ => pure ()) =
      .error (.inv .PoolKeyNotFound) ∧
    PoolKeys.getAll ⟨∅, ∅, 0⟩ 3 0 = .ok [] ∧
    (PoolKeys.add ⟨∅, ∅, 0⟩ key0 >>= fun k => PoolKeys.add k key1 >>= fun k => PoolKeys.getAll k 3 0) =
      .ok [key0, key1] := by decide +kernel

-- pools.rs: test_add, test_update, test_remove
example : (poolsAdd ∅ key1 pool0 >>= fun m => poolsGet m key1) = .ok pool0 ∧
    (poolsAdd ∅ key1 pool0 >>= fun m => poolsGet m key2) = .error (.inv .PoolNotFound) ∧
    (poolsAdd ∅ key1 pool0 >>= fun m => poolsAdd m key1 pool0 >>= fun m => poolsGet m key1) =
      .error (.inv .PoolAlreadyExist) ∧
    (poolsAdd ∅ key1 pool0 >>= fun m => poolsUpdate m key1 { pool0 with currentTickIndex := 1 } >>= fun m =>
      poolsGet m key1) = .ok { pool0 with currentTickIndex := 1 } ∧
    (poolsAdd ∅ key1 pool0 >>= fun m => poolsUpdate m key1 { pool0 with currentTickIndex := 1 } >>= fun m =>
      poolsUpdate m key2 { pool0 with currentTickIndex := 1 } >>= fun m => poolsGet m key1) =
      .error (.inv .PoolNotFound) ∧
    (poolsAdd ∅ key1 pool0 >>= fun m => poolsRemove m key1 >>= fun m => poolsGet m key1) =
      .error (.inv .PoolNotFound) ∧
    (poolsAdd ∅ key1 pool0 >>= fun m => poolsRemove m key1 >>= fun m => poolsRemove m key1 >>= fun _ => pure ()) =
      .error (.inv .PoolNotFound) := by decide +kernel

-- ticks.rs: test_add, test_update, test_remove
example : (ticksAdd ∅ key1 0 tick0 >>= fun m => ticksGet m key1 0) = .ok tick0 ∧
    (ticksAdd ∅ key1 0 tick0 >>= fun m => ticksGet m key1 1) = .error (.inv .TickNotFound) ∧
    (ticksAdd ∅ key1 0 tick0 >>= fun m => ticksAdd m key1 0 tick0 >>= fun m => ticksGet m key1 0) =
      .error (.inv .TickAlreadyExist) ∧
    (ticksAdd ∅ key1 0 tick0 >>= fun m => ticksUpdate m key1 0 { tick0 with secondsOutside := 1 } >>= fun m =>
      ticksGet m key1 0) = .ok { tick0 with secondsOutside := 1 } ∧
    (ticksAdd ∅ key1 0 tick0 >>= fun m => ticksUpdate m key1 0 { tick0 with secondsOutside := 1 } >>= fun m =>
      ticksUpdate m key1 1 { tick0 with secondsOutside := 1 } >>= fun m => ticksGet m key1 0) =
      .error (.inv .TickNotFound) ∧
    (ticksAdd ∅ key1 0 tick0 >>= fun m => ticksRemove m key1 0 >>= fun m => ticksGet m key1 0) =
      .error (.inv .TickNotFound) ∧
    (ticksAdd ∅ key1 0 tick0 >>= fun m => ticksRemove m key1 0 >>= fun m => ticksRemove m key1 0 >>= fun _ => pure ()) =
      .error (.inv .TickNotFound) := by decide +kernel

def pos1 : Position := { pos0 with lowerTickIndex := -1, upperTickIndex := 1 }
def none0 : Positions := ⟨∅, ∅⟩
def two : Positions := (none0.add 1 pos0).add 1 pos1

-- positions.rs: test_add, test_update, test_get_all, test_get_length
example : two.get 1 0 = .ok pos0 ∧ two.get 1 1 = .ok pos1 ∧ two.get 1 2 = .error (.inv .PositionNotFound) ∧
    two.getLength 1 = 2 ∧ none0.getLength 1 = 0 ∧ none0.getAll 1 = .ok [] ∧ two.getAll 1 = .ok [pos0, pos1] ∧
    ((none0.add 1 pos0).update 1 0 pos1 >>= fun m => m.get 1 0) = .ok pos1 ∧
    ((none0.add 1 pos0).update 1 0 pos1 >>= fun m => pure (m.getLength 1)) = .ok 1 ∧
    ((none0.add 1 pos0).update 1 0 pos1 >>= fun m => m.update 1 1 pos1 >>= fun m => m.get 1 0) =
      .error (.inv .PositionNotFound) := by decide +kernel

-- positions.rs: test_remove
example : (two.remove 1 0).toOption.map (fun r => (r.2, r.1.get 1 0, r.1.getLength 1)) = some (pos0, .ok pos1, 1) ∧
    (two.remove 1 0 >>= fun r => r.1.remove 1 0).toOption.map (fun r => (r.2, r.1.get 1 0, r.1.getLength 1)) =
      some (pos1, .error (.inv .PositionNotFound), 0) ∧
    (two.remove 1 0 >>= fun r => r.1.remove 1 0 >>= fun r => r.1.remove 1 0 >>= fun r => pure r.2) =
      .error (.inv .PositionNotFound) := by decide +kernel

-- positions.rs: test_transfer
example : ((none0.add 1 pos0).transfer 1 0 2).toOption.map
      (fun m => (m.get 1 0, m.getLength 1, m.get 2 0, m.getLength 2)) =
      some (.error (.inv .PositionNotFound), 0, .ok pos0, 1) ∧
    ((none0.add 1 pos0).transfer 1 0 2 >>= fun m => m.transfer 1 0 2 >>= fun _ => pure ()) =
      .error (.inv .PositionNotFound) := by decide +kernel

end Verif.Tests.Storage
