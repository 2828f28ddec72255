import Verif.Model.State

/-!
# Model of the synchronous part of `src/invariant_service.rs`

Each command returns the new state and its reply. Events (`notify_on`) are in `Model/Events`. A command
that returns an error corresponds to a panic of the program, after which the runtime restores the
state before the message (see `run`).
-/

namespace Verif

/-- What the runtime provides to a message: sender, block timestamp and height, attached value. -/
structure Env where
  caller : ActorId
  now : Nat
  block : Nat
  value : Nat
  deriving DecidableEq, Repr

/-- `VARA_ADDRESS`, `src/invariant_service.rs` 57 -/
def VARA : ActorId := 0

namespace Service

/-- `src/invariant_service.rs` 86-98 `change_protocol_fee` -/
def changeProtocolFee (env : Env) (s : Inv) (fee : Nat) : M (Inv × Nat) := do
  failIf (s.admin ≠ env.caller) (.inv .NotAdmin)
  pure ({ s with protocolFee := fee }, fee)

/-- `src/invariant_service.rs` 104-123 `add_fee_tier` -/
def addFeeTier (env : Env) (s : Inv) (t : FeeTier) : M (Inv × FeeTier) := do
  failIf (t.tickSpacing = 0 ∨ t.tickSpacing > 100) (.inv .InvalidTickSpacing)
  failIf (t.fee ≥ pctOne) (.inv .InvalidFee)
  failIf (s.admin ≠ env.caller) (.inv .NotAdmin)
  let l ← feeTiersAdd s.feeTiers t
  pure ({ s with feeTiers := l }, t)

/-- `src/invariant_service.rs` 129-140 `remove_fee_tier` -/
def removeFeeTier (env : Env) (s : Inv) (t : FeeTier) : M (Inv × FeeTier) := do
  failIf (s.admin ≠ env.caller) (.inv .NotAdmin)
  let l ← feeTiersRemove s.feeTiers t
  pure ({ s with feeTiers := l }, t)

/-- `src/invariant_service.rs` 146-183 `create_pool` -/
def createPool (env : Env) (s : Inv) (tokenX tokenY : ActorId) (tier : FeeTier)
    (initSqrtPrice : Nat) (initTick : Int) : M Inv := do
  failIf (tier ∉ s.feeTiers) (.inv .FeeTierNotFound)
  mapErr (.inv .InvalidInitTick) (checkTick initTick tier.tickSpacing)
  let key ← PoolKey.new tokenX tokenY tier
  failIf ((s.pools.get key).isSome) (.inv .PoolAlreadyExist)
  let pool ← Pool.create initSqrtPrice initTick env.now tier.tickSpacing s.admin
  let pools ← poolsAdd s.pools key pool
  let pk ← s.poolKeys.add key
  pure { s with pools := pools, poolKeys := pk }

/-- `src/invariant_service.rs` 185-195 `get_pool` -/
def getPool (s : Inv) (tokenX tokenY : ActorId) (tier : FeeTier) : M Pool := do
  let key ← PoolKey.new tokenX tokenY tier
  poolsGet s.pools key

/-- `src/invariant_service.rs` 197-202 `get_pool_keys` -/
def getPoolKeys (s : Inv) (size offset : Nat) : M (List PoolKey × Nat) := do
  let l ← s.poolKeys.getAll size offset
  pure (l, s.poolKeys.length)

/-- `src/invariant_service.rs` 204-218 `change_fee_receiver` -/
def changeFeeReceiver (env : Env) (s : Inv) (key : PoolKey) (r : ActorId) : M Inv := do
  failIf (s.admin ≠ env.caller) (.inv .NotAdmin)
  let pool ← poolsGet s.pools key
  let pools ← poolsUpdate s.pools key { pool with feeReceiver := r }
  pure { s with pools := pools }

/-- `src/invariant_service.rs` 269-285: add or update one tick after creating a position -/
def putTick (s : Inv) (key : PoolKey) (t : Tick) (isNew : Bool) : M Inv :=
  if isNew then addTick s key t
  else do
    let ticks ← ticksUpdate s.ticks key t.index t
    pure { s with ticks := ticks }

/-- `src/invariant_service.rs` 220-301 `create_position` -/
def createPosition (env : Env) (s : Inv) (key : PoolKey) (lower upper : Int) (delta : Nat)
    (limitLower limitUpper : Nat) : M (Inv × Position) := do
  failIf (delta = 0) (.inv .ZeroLiquidity)
  failIf (lower = upper) (.inv .InvalidTickIndex)
  let pool ← poolsGet s.pools key
  let lt ← getOrCreateTick s env.now key lower
  let ut ← getOrCreateTick s env.now key upper
  let r ← Position.create pool key lt.1 ut.1 env.now delta limitLower limitUpper env.block
    key.feeTier.tickSpacing
  let bx ← decreaseTokenBalance s.balances key.tokenX env.caller (some r.amountX)
  let by_ ← decreaseTokenBalance bx.1 key.tokenY env.caller (some r.amountY)
  let pools ← poolsUpdate s.pools key r.pool
  let s1 : Inv := { s with balances := by_.1, pools := pools,
                           positions := s.positions.add env.caller r.position }
  let s2 ← putTick s1 key r.lower lt.2
  let s3 ← putTick s2 key r.upper ut.2
  pure (s3, r.position)

/-- `src/invariant_service.rs` 346-361: remove or update one tick after removing a position -/
def dropTick (s : Inv) (key : PoolKey) (i : Int) (t : Tick) : M Inv :=
  if t.liquidityGross = 0 then removeTick s key t
  else do
    let ticks ← ticksUpdate s.ticks key i t
    pure { s with ticks := ticks }

/-- `src/invariant_service.rs` 319-388 `remove_position` -/
def removePosition (env : Env) (s : Inv) (index : Nat) : M (Inv × Nat × Nat) := do
  let p ← s.positions.get env.caller index
  let lower ← ticksGet s.ticks p.poolKey p.lowerTickIndex
  let upper ← ticksGet s.ticks p.poolKey p.upperTickIndex
  let pool ← poolsGet s.pools p.poolKey
  let r ← p.remove pool env.now lower upper p.poolKey.feeTier.tickSpacing
  let pools ← poolsUpdate s.pools p.poolKey r.pool
  let s1 ← dropTick { s with pools := pools } p.poolKey p.lowerTickIndex r.lower
  let s2 ← dropTick s1 p.poolKey p.upperTickIndex r.upper
  let ps ← s2.positions.remove env.caller index
  let b1 ← increaseTokenBalance s2.balances p.poolKey.tokenX env.caller r.amountX
  let b2 ← increaseTokenBalance b1 p.poolKey.tokenY env.caller r.amountY
  pure ({ s2 with positions := ps.1, balances := b2 }, r.amountX, r.amountY)

/-- `src/invariant_service.rs` 390-398 `transfer_position` -/
def transferPosition (env : Env) (s : Inv) (index : Nat) (receiver : ActorId) : M Inv := do
  let ps ← s.positions.transfer env.caller index receiver
  pure { s with positions := ps }

/-- writing back the crossed ticks, `src/invariant_service.rs` 503-506 -/
def updateTicks (key : PoolKey) :
    List Tick → Map (PoolKey × Int) Tick → M (Map (PoolKey × Int) Tick)
  | [], m => .ok m
  | t :: l, m => do
    let m ← ticksUpdate m key t.index t
    updateTicks key l m

/-- `src/invariant_service.rs` 479-554 `swap` -/
def swap (env : Env) (s : Inv) (key : PoolKey) (xToY : Bool) (amount : Nat) (byIn : Bool)
    (limit : Nat) : M (Inv × CalculateSwapResult) := do
  let r ← calculateSwap s env.now key xToY amount byIn limit
  let ticks ← updateTicks key r.ticks s.ticks
  let pools ← poolsUpdate s.pools key r.pool
  let tin := if xToY then key.tokenX else key.tokenY
  let tout := if xToY then key.tokenY else key.tokenX
  let b1 ← decreaseTokenBalance s.balances tin env.caller (some r.amountIn)
  let b2 ← increaseTokenBalance b1.1 tout env.caller r.amountOut
  pure ({ s with ticks := ticks, pools := pools, balances := b2 }, r)

/-- `io` crate `SwapHop` -/
structure SwapHop where
  key : PoolKey
  xToY : Bool
  deriving DecidableEq, Repr

/-- price limit used in `route`, `src/invariant_service.rs` 616-620 -/
def hopLimit (xToY : Bool) : Nat := if xToY then MIN_SQRT_PRICE else MAX_SQRT_PRICE

/-- `src/invariant_service.rs` 605-638 `route` with `RouteType::Swap` -/
def routeSwap (env : Env) : List SwapHop → Inv → Nat → M (Inv × Nat)
  | [], s, amount => .ok (s, amount)
  | h :: t, s, amount => do
    let r ← swap env s h.key h.xToY amount true (hopLimit h.xToY)
    routeSwap env t r.1 r.2.amountOut

/-- `src/invariant_service.rs` 605-638 `route` with `RouteType::Quote` -/
def routeQuote (s : Inv) (now : Nat) : List SwapHop → Nat → M Nat
  | [], amount => .ok amount
  | h :: t, amount => do
    let r ← calculateSwap s now h.key h.xToY amount true (hopLimit h.xToY)
    routeQuote s now t r.amountOut

/-- `src/invariant_service.rs` 556-574 `swap_route` -/
def swapRoute (env : Env) (s : Inv) (amountIn expected slippage : Nat) (hops : List SwapHop) :
    M (Inv × Nat) := do
  let r ← routeSwap env hops s amountIn
  let minOut ← calculateMinAmountOut expected slippage
  failIf (r.2 < minOut) (.inv .AmountUnderMinimumAmountOut)
  pure r

/-- `io` crate `QuoteResult` -/
structure QuoteResult where
  amountIn : Nat
  amountOut : Nat
  targetSqrtPrice : Nat
  ticks : List Tick
  deriving DecidableEq, Repr

/-- `src/invariant_service.rs` 576-595 `quote` -/
def quote (s : Inv) (now : Nat) (key : PoolKey) (xToY : Bool) (amount : Nat) (byIn : Bool)
    (limit : Nat) : M QuoteResult := do
  let r ← calculateSwap s now key xToY amount byIn limit
  pure ⟨r.amountIn, r.amountOut, r.pool.sqrtPrice, r.ticks⟩

/-- `src/invariant_service.rs` 597-603 `quote_route` -/
def quoteRoute (s : Inv) (now : Nat) (amountIn : Nat) (hops : List SwapHop) : M Nat :=
  routeQuote s now hops amountIn

/-- `src/invariant_service.rs` 640-682 `claim_fee` -/
def claimFee (env : Env) (s : Inv) (index : Nat) : M (Inv × Nat × Nat) := do
  let p ← s.positions.get env.caller index
  let lower ← ticksGet s.ticks p.poolKey p.lowerTickIndex
  let upper ← ticksGet s.ticks p.poolKey p.upperTickIndex
  let pool ← poolsGet s.pools p.poolKey
  let r ← p.claimFee pool upper lower env.now
  let ps ← s.positions.update env.caller index r.position
  let pools ← poolsUpdate s.pools p.poolKey r.pool
  let t1 ← ticksUpdate s.ticks p.poolKey r.upper.index r.upper
  let t2 ← ticksUpdate t1 p.poolKey r.lower.index r.lower
  let b1 ← increaseTokenBalance s.balances p.poolKey.tokenX env.caller r.amountX
  let b2 ← increaseTokenBalance b1 p.poolKey.tokenY env.caller r.amountY
  pure ({ s with positions := ps, pools := pools, ticks := t2, balances := b2 },
    r.amountX, r.amountY)

/-- `src/invariant_service.rs` 684-704 `withdraw_protocol_fee` (the code replies `()`; the two
amounts are returned here for use in specifications) -/
def withdrawProtocolFee (env : Env) (s : Inv) (key : PoolKey) : M (Inv × Nat × Nat) := do
  let pool ← poolsGet s.pools key
  failIf (pool.feeReceiver ≠ env.caller) (.inv .NotFeeReceiver)
  let w := pool.withdrawProtocolFee
  let pools ← poolsUpdate s.pools key w.1
  let b1 ← increaseTokenBalance s.balances key.tokenX env.caller w.2.1
  let b2 ← increaseTokenBalance b1 key.tokenY env.caller w.2.2
  pure ({ s with pools := pools, balances := b2 }, w.2.1, w.2.2)

/-- `src/invariant_service.rs` 706-715 `get_user_balances` -/
def getUserBalances (s : Inv) (user : ActorId) : List (ActorId × Nat) :=
  s.balances.entries.filterMap (fun e => if e.1.1 = user then some (e.1.2, e.2) else none)

/-- `src/invariant_service.rs` 717-726 `deposit_vara` -/
def depositVara (env : Env) (s : Inv) : M (Inv × Nat) := do
  let b ← increaseTokenBalance s.balances VARA env.caller env.value
  pure ({ s with balances := b }, env.value)

/-- `src/invariant_service.rs` 728-767 `withdraw_vara`; the reply carries the returned number as
value (`as_u128` panics if it does not fit) -/
def withdrawVara (env : Env) (s : Inv) (value : Option Nat) : M (Inv × Nat) := do
  let r ← (match value with
    | some v => do
      failIf (v = 0) (.inv .AmountIsZero)
      decreaseTokenBalance s.balances VARA env.caller (some v)
    | none =>
      match decreaseTokenBalance s.balances VARA env.caller none with
      | .ok r => .ok r
      | .error _ => .ok (s.balances, 0))
  let v ← fit 128 .panic r.2
  pure ({ s with balances := r.1 }, v)

/-! ### Read-only queries -/

/-- `src/invariant_service.rs` 314-318 `is_tick_initialized` -/
def isTickInitialized (s : Inv) (key : PoolKey) (i : Int) : M Bool :=
  tickmapGet s.tickmap i key.feeTier.tickSpacing key

/-- `src/invariant_service.rs` 1062-1069 `get_tickmap` -/
def getTickmap (s : Inv) (key : PoolKey) : List (Nat × Nat) :=
  tickmapSlice s.tickmap (List.range (getMaxChunk key.feeTier.tickSpacing + 1)) key

/-- `src/invariant_service.rs` 458-460 `get_liquidity_ticks_amount` -/
def getLiquidityTicksAmount (s : Inv) (key : PoolKey) : Nat := liquidityTicksCount s.tickmap key

/-- `src/invariant_service.rs` 462-477 `get_all_pools_for_pair` -/
def getAllPoolsForPair (s : Inv) (token0 token1 : ActorId) : List FeeTier → M (List (FeeTier × Pool))
  | [] => .ok []
  | t :: l => do
    let key ← PoolKey.new token0 token1 t
    let rest ← getAllPoolsForPair s token0 token1 l
    pure (match s.pools.get key with
      | some p => (t, p) :: rest
      | none => rest)

end Service

/-- The synchronous commands of the service. -/
inductive Call
  | changeProtocolFee (fee : Nat)
  | addFeeTier (t : FeeTier)
  | removeFeeTier (t : FeeTier)
  | createPool (tokenX tokenY : ActorId) (tier : FeeTier) (initSqrtPrice : Nat) (initTick : Int)
  | changeFeeReceiver (key : PoolKey) (r : ActorId)
  | createPosition (key : PoolKey) (lower upper : Int) (delta limitLower limitUpper : Nat)
  | removePosition (index : Nat)
  | transferPosition (index : Nat) (receiver : ActorId)
  | swap (key : PoolKey) (xToY : Bool) (amount : Nat) (byIn : Bool) (limit : Nat)
  | swapRoute (amountIn expected slippage : Nat) (hops : List Service.SwapHop)
  | claimFee (index : Nat)
  | withdrawProtocolFee (key : PoolKey)
  | depositVara
  | withdrawVara (value : Option Nat)
  deriving Repr

open Service in
/-- handling of one message by the program, without the runtime's roll-back -/
def step (env : Env) (s : Inv) : Call → M Inv
  | .changeProtocolFee f => return (← changeProtocolFee env s f).1
  | .addFeeTier t => return (← addFeeTier env s t).1
  | .removeFeeTier t => return (← removeFeeTier env s t).1
  | .createPool x y t p i => createPool env s x y t p i
  | .changeFeeReceiver k r => changeFeeReceiver env s k r
  | .createPosition k l u d a b => return (← createPosition env s k l u d a b).1
  | .removePosition i => return (← removePosition env s i).1
  | .transferPosition i r => transferPosition env s i r
  | .swap k d a b l => return (← swap env s k d a b l).1
  | .swapRoute a e sl h => return (← swapRoute env s a e sl h).1
  | .claimFee i => return (← claimFee env s i).1
  | .withdrawProtocolFee k => return (← withdrawProtocolFee env s k).1
  | .depositVara => return (← depositVara env s).1
  | .withdrawVara v => return (← withdrawVara env s v).1

/-- the runtime: a failed message leaves the state unchanged -/
def run (env : Env) (s : Inv) (c : Call) : Inv :=
  match step env s c with
  | .ok s' => s'
  | .error _ => s

end Verif
