import Verif.Model.Math

/-!
# Model of `src/contracts/storage`: fee tiers, pool keys, pools, ticks, positions

`ActorId` is modelled by `Nat` (32 bytes compared big-endian, i.e. numerically).
-/

namespace Verif

abbrev ActorId := Nat

/-- `src/contracts/storage/fee_tier.rs` 6-10 -/
structure FeeTier where
  fee : Nat
  tickSpacing : Nat
  deriving DecidableEq, Repr

/-- `src/contracts/storage/fee_tier.rs` 21-33 `FeeTier::new` -/
def FeeTier.new (fee tickSpacing : Nat) : M FeeTier := do
  failIf (tickSpacing = 0 ∨ tickSpacing > 100) (.inv .InvalidTickSpacing)
  failIf (fee > pctOne) (.inv .InvalidFee)
  pure ⟨fee, tickSpacing⟩

/-- `src/contracts/storage/pool_key.rs` 6-11 -/
structure PoolKey where
  tokenX : ActorId
  tokenY : ActorId
  feeTier : FeeTier
  deriving DecidableEq, Repr

/-- `src/contracts/storage/pool_key.rs` 27-51 `PoolKey::new` -/
def PoolKey.new (token0 token1 : ActorId) (feeTier : FeeTier) : M PoolKey :=
  if token0 = token1 then .error (.inv .TokensAreSame)
  else if token0 < token1 then .ok ⟨token0, token1, feeTier⟩
  else .ok ⟨token1, token0, feeTier⟩

/-- `src/contracts/storage/pool.rs` 18-30 -/
structure Pool where
  liquidity : Nat
  sqrtPrice : Nat
  currentTickIndex : Int
  feeGrowthGlobalX : Nat
  feeGrowthGlobalY : Nat
  feeProtocolTokenX : Nat
  feeProtocolTokenY : Nat
  startTimestamp : Nat
  lastTimestamp : Nat
  feeReceiver : ActorId
  deriving DecidableEq, Repr

/-- `src/contracts/storage/tick.rs` 15-25 -/
structure Tick where
  index : Int
  sign : Bool
  liquidityChange : Nat
  liquidityGross : Nat
  sqrtPrice : Nat
  feeGrowthOutsideX : Nat
  feeGrowthOutsideY : Nat
  secondsOutside : Nat
  deriving DecidableEq, Repr

/-- `src/contracts/storage/position.rs` 17-28 -/
structure Position where
  poolKey : PoolKey
  liquidity : Nat
  lowerTickIndex : Int
  upperTickIndex : Int
  feeGrowthInsideX : Nat
  feeGrowthInsideY : Nat
  lastBlockNumber : Nat
  tokensOwedX : Nat
  tokensOwedY : Nat
  deriving DecidableEq, Repr

/-! ## Pool -/

/-- `src/contracts/storage/pool.rs` 57-80 `Pool::create` -/
def Pool.create (initSqrtPrice : Nat) (initTick : Int) (now : Nat) (spacing : Nat)
    (feeReceiver : ActorId) : M Pool := do
  let ok ← mapErr (.inv .InvalidInitTick)
    (checkTickToSqrtPriceRelationship initTick spacing initSqrtPrice)
  failIf (ok = false) (.inv .InvalidInitSqrtPrice)
  let sp ← unwrap (calculateSqrtPrice initTick)
  pure { liquidity := 0, sqrtPrice := sp, currentTickIndex := initTick,
         feeGrowthGlobalX := 0, feeGrowthGlobalY := 0, feeProtocolTokenX := 0,
         feeProtocolTokenY := 0, startTimestamp := now, lastTimestamp := now,
         feeReceiver := feeReceiver }

/-- `src/contracts/storage/pool.rs` 82-106 `Pool::add_fee` -/
def Pool.addFee (pool : Pool) (amount : Nat) (inX : Bool) (protocolFee : Nat) : M Pool := do
  let pf ← tokMulPctUp amount protocolFee
  let poolFee ← subC .panic amount pf
  if (poolFee = 0 ∧ pf = 0) ∨ pool.liquidity = 0 then
    pure pool
  else do
    let g ← fgFromFee pool.liquidity poolFee
    if inX then do
      let t ← addC 256 .panic pool.feeProtocolTokenX pf
      pure { pool with feeGrowthGlobalX := fgAdd pool.feeGrowthGlobalX g, feeProtocolTokenX := t }
    else do
      let t ← addC 256 .panic pool.feeProtocolTokenY pf
      pure { pool with feeGrowthGlobalY := fgAdd pool.feeGrowthGlobalY g, feeProtocolTokenY := t }

/-- `src/contracts/storage/pool.rs` 108-142 `Pool::update_liquidity` -/
def Pool.updateLiquidity (pool : Pool) (delta : Nat) (sign : Bool) (upper lower : Int) :
    M (Pool × Nat × Nat) := do
  let r ← calculateAmountDelta pool.currentTickIndex pool.sqrtPrice delta sign upper lower
  if r.2.2 = false then
    pure (pool, r.1, r.2.1)
  else if sign then do
    let l ← addC 256 .track pool.liquidity delta
    pure ({ pool with liquidity := l }, r.1, r.2.1)
  else do
    let l ← subC .track pool.liquidity delta
    pure ({ pool with liquidity := l }, r.1, r.2.1)

/-- `src/contracts/storage/pool.rs` 204-212 `Pool::withdraw_protocol_fee` -/
def Pool.withdrawProtocolFee (pool : Pool) : Pool × Nat × Nat :=
  ({ pool with feeProtocolTokenX := 0, feeProtocolTokenY := 0 },
    pool.feeProtocolTokenX, pool.feeProtocolTokenY)

/-! ## Tick -/

/-- `src/contracts/storage/tick.rs` 80-101 `Tick::create`; the timestamp subtraction is a plain
`u64` subtraction (wrapping in release builds). -/
def Tick.create (index : Int) (pool : Pool) (now : Nat) : M Tick := do
  let below := decide (index ≤ pool.currentTickIndex)
  let sp ← unwrap (calculateSqrtPrice index)
  pure { index := index, sign := true, liquidityChange := 0, liquidityGross := 0, sqrtPrice := sp,
         feeGrowthOutsideX := if below then pool.feeGrowthGlobalX else 0,
         feeGrowthOutsideY := if below then pool.feeGrowthGlobalY else 0,
         secondsOutside :=
           if below then (now + 2 ^ 64 - pool.startTimestamp) % 2 ^ 64 else 0 }

/-- `src/contracts/storage/tick.rs` 103-131 `Tick::cross`; returns the tick and the pool -/
def Tick.cross (tick : Tick) (pool : Pool) (now : Nat) : M (Tick × Pool) := do
  let passed ← subC .track now pool.startTimestamp
  let tick' := { tick with
    feeGrowthOutsideX := fgSub pool.feeGrowthGlobalX tick.feeGrowthOutsideX
    feeGrowthOutsideY := fgSub pool.feeGrowthGlobalY tick.feeGrowthOutsideY
    secondsOutside := (passed + 2 ^ 64 - tick.secondsOutside) % 2 ^ 64 }
  let l ←
    (if xor (decide (pool.currentTickIndex ≥ tick.index)) tick.sign then
      addC 256 .track pool.liquidity tick.liquidityChange
    else subC .track pool.liquidity tick.liquidityChange)
  pure (tick', { pool with liquidity := l, lastTimestamp := now })

/-- `src/contracts/storage/tick.rs` 150-161 `update_liquidity_change` -/
def Tick.updateLiquidityChange (tick : Tick) (delta : Nat) (add : Bool) : M Tick :=
  if xor tick.sign add then
    if tick.liquidityChange > delta then
      .ok { tick with liquidityChange := tick.liquidityChange - delta }
    else
      .ok { tick with liquidityChange := delta - tick.liquidityChange, sign := !tick.sign }
  else do
    let c ← addC 256 .panic tick.liquidityChange delta
    pure { tick with liquidityChange := c }

/-- `src/contracts/storage/tick.rs` 163-189 `calculate_new_liquidity_gross` -/
def Tick.calculateNewLiquidityGross (tick : Tick) (sign : Bool) (delta maxPerTick : Nat) :
    M Nat := do
  failIf (sign = false ∧ tick.liquidityGross < delta) .track
  let new ← (if sign then addC 256 .track tick.liquidityGross delta
             else subC .track tick.liquidityGross delta)
  failIf (sign = true ∧ new ≥ maxPerTick) .track
  pure new

/-- `src/contracts/storage/tick.rs` 133-148 `Tick::update` -/
def Tick.update (tick : Tick) (delta maxPerTick : Nat) (isUpper isDeposit : Bool) : M Tick := do
  let g ← tick.calculateNewLiquidityGross isDeposit delta maxPerTick
  Tick.updateLiquidityChange { tick with liquidityGross := g } delta (xor isDeposit isUpper)

/-! ## Position -/

/-- `src/contracts/storage/position.rs` 109-129 `calculate_new_liquidity` -/
def Position.calculateNewLiquidity (p : Position) (sign : Bool) (delta : Nat) : M Nat := do
  failIf (sign = false ∧ p.liquidity < delta) .track
  if sign then addC 256 .track p.liquidity delta else subC .track p.liquidity delta

/-- `src/contracts/storage/position.rs` 80-107 `Position::update` -/
def Position.update (p : Position) (sign : Bool) (delta insideX insideY : Nat) : M Position := do
  failIf (delta = 0 ∧ p.liquidity = 0) .track
  let owedX ← fgToFee (fgSub insideX p.feeGrowthInsideX) p.liquidity
  let owedY ← fgToFee (fgSub insideY p.feeGrowthInsideY) p.liquidity
  let l ← p.calculateNewLiquidity sign delta
  let tx ← addC 256 .panic p.tokensOwedX owedX
  let ty ← addC 256 .panic p.tokensOwedY owedY
  pure { p with liquidity := l, feeGrowthInsideX := insideX, feeGrowthInsideY := insideY,
                tokensOwedX := tx, tokensOwedY := ty }

/-- result of `Position::modify`: the mutated arguments and the two token amounts -/
structure ModifyResult where
  position : Position
  pool : Pool
  upper : Tick
  lower : Tick
  amountX : Nat
  amountY : Nat
  deriving DecidableEq, Repr

/-- `src/contracts/storage/position.rs` 32-78 `Position::modify` -/
def Position.modify (p : Position) (pool : Pool) (upper lower : Tick) (delta : Nat) (add : Bool)
    (now : Nat) (spacing : Nat) : M ModifyResult := do
  let pool := { pool with lastTimestamp := now }
  let maxPerTick := calculateMaxLiquidityPerTick spacing
  let lower ← lower.update delta maxPerTick false add
  let upper ← upper.update delta maxPerTick true add
  let insideX := feeGrowthInside1 lower.index lower.feeGrowthOutsideX upper.index
    upper.feeGrowthOutsideX pool.currentTickIndex pool.feeGrowthGlobalX
  let insideY := feeGrowthInside1 lower.index lower.feeGrowthOutsideY upper.index
    upper.feeGrowthOutsideY pool.currentTickIndex pool.feeGrowthGlobalY
  let p ← p.update add delta insideX insideY
  let r ← pool.updateLiquidity delta add upper.index lower.index
  pure ⟨p, r.1, upper, lower, r.2.1, r.2.2⟩

/-- `src/contracts/storage/position.rs` 131-155 `Position::claim_fee`; the amounts in the result
are the claimed fees -/
def Position.claimFee (p : Position) (pool : Pool) (upper lower : Tick) (now : Nat) :
    M ModifyResult := do
  let r ← unwrap (p.modify pool upper lower 0 true now p.poolKey.feeTier.tickSpacing)
  pure { r with
    position := { r.position with tokensOwedX := 0, tokensOwedY := 0 }
    amountX := r.position.tokensOwedX
    amountY := r.position.tokensOwedY }

/-- `src/contracts/storage/position.rs` 158-198 `Position::create` -/
def Position.create (pool : Pool) (key : PoolKey) (lower upper : Tick) (now delta : Nat)
    (limitLower limitUpper : Nat) (blockNumber spacing : Nat) : M ModifyResult := do
  failIf (pool.sqrtPrice < limitLower ∨ pool.sqrtPrice > limitUpper) (.inv .PriceLimitReached)
  let p : Position :=
    { poolKey := key, liquidity := 0, lowerTickIndex := lower.index, upperTickIndex := upper.index,
      feeGrowthInsideX := 0, feeGrowthInsideY := 0, lastBlockNumber := blockNumber,
      tokensOwedX := 0, tokensOwedY := 0 }
  unwrap (p.modify pool upper lower delta true now spacing)

/-- `src/contracts/storage/position.rs` 200-231 `Position::remove`; the amounts in the result
include the owed fees. The two "deinitialize" flags of the code are `liquidityGross = 0` of the
returned ticks. -/
def Position.remove (p : Position) (pool : Pool) (now : Nat) (lower upper : Tick)
    (spacing : Nat) : M ModifyResult := do
  let r ← unwrap (p.modify pool upper lower p.liquidity false now spacing)
  let x ← addC 256 .panic r.amountX r.position.tokensOwedX
  let y ← addC 256 .panic r.amountY r.position.tokensOwedY
  pure { r with amountX := x, amountY := y }

end Verif
