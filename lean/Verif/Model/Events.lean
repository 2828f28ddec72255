import Verif.Model.Service

/-!
# Model of the events, `io/src/lib.rs` 25-60 and the `notify_on` calls of `src/invariant_service.rs`

An event is a message to the outside that the runtime sends when the handling of a message succeeds. The
`expect` on the result of `notify_on` is taken to succeed.
-/

namespace Verif

/-- `io/src/lib.rs` 25-60 `InvariantEvent` -/
inductive Event
  | positionCreated (timestamp : Nat) (address : ActorId) (poolKey : PoolKey) (liquidityDelta : Nat)
      (lowerTick upperTick : Int) (currentSqrtPrice : Nat)
  | positionRemoved (timestamp : Nat) (address : ActorId) (poolKey : PoolKey) (liquidity : Nat)
      (lowerTickIndex upperTickIndex : Int) (sqrtPrice : Nat)
  | crossTick (timestamp : Nat) (address : ActorId) (poolKey : PoolKey) (indexes : List Int)
  | swap (timestamp : Nat) (address : ActorId) (poolKey : PoolKey) (amountIn amountOut fee : Nat)
      (startSqrtPrice targetSqrtPrice : Nat) (xToY : Bool)
  deriving DecidableEq, Repr

namespace Service

/-- `src/invariant_service.rs` 288-297: the event of `create_position`, from the local variables `lower_tick`,
`upper_tick` and `pool` after `Position::create` (243-264) -/
def createPositionEvent (env : Env) (s : Inv) (key : PoolKey) (lower upper : Int) (delta : Nat)
    (limitLower limitUpper : Nat) : M Event := do
  let pool ← poolsGet s.pools key
  let lt ← getOrCreateTick s env.now key lower
  let ut ← getOrCreateTick s env.now key upper
  let r ← Position.create pool key lt.1 ut.1 env.now delta limitLower limitUpper env.block
    key.feeTier.tickSpacing
  pure (.positionCreated env.now env.caller key delta r.lower.index r.upper.index r.pool.sqrtPrice)

/-- `src/invariant_service.rs` 375-384: the event of `remove_position`, from the local variables after
`position.remove` (326-349); the liquidity is the one before -/
def removePositionEvent (env : Env) (s : Inv) (index : Nat) : M Event := do
  let p ← s.positions.get env.caller index
  let lower ← ticksGet s.ticks p.poolKey p.lowerTickIndex
  let upper ← ticksGet s.ticks p.poolKey p.upperTickIndex
  let pool ← poolsGet s.pools p.poolKey
  let r ← p.remove pool env.now lower upper p.poolKey.feeTier.tickSpacing
  pure (.positionRemoved env.now env.caller p.poolKey p.liquidity r.lower.index r.upper.index r.pool.sqrtPrice)

/-- `src/invariant_service.rs` 501-506, 529-550: the events of `swap` -/
def swapEvents (env : Env) (key : PoolKey) (xToY : Bool) (r : CalculateSwapResult) : List Event :=
  let crossed := r.ticks.map (·.index)
  (if crossed.isEmpty then [] else [.crossTick env.now env.caller key crossed]) ++
    [.swap env.now env.caller key r.amountIn r.amountOut r.fee r.startSqrtPrice r.targetSqrtPrice xToY]

/-- `src/invariant_service.rs` 605-638 `route` with `RouteType::Swap`: the events of the hops in turn -/
def routeSwapLog (env : Env) : List SwapHop → Inv → Nat → M (Inv × Nat × List Event)
  | [], s, amount => .ok (s, amount, [])
  | h :: t, s, amount => do
    let r ← swap env s h.key h.xToY amount true (hopLimit h.xToY)
    let q ← routeSwapLog env t r.1 r.2.amountOut
    pure (q.1, q.2.1, swapEvents env h.key h.xToY r.2 ++ q.2.2)

/-- `src/invariant_service.rs` 556-574 `swap_route` with its events -/
def swapRouteLog (env : Env) (s : Inv) (amountIn expected slippage : Nat) (hops : List SwapHop) :
    M (Inv × List Event) := do
  let r ← routeSwapLog env hops s amountIn
  let minOut ← calculateMinAmountOut expected slippage
  failIf (r.2.1 < minOut) (.inv .AmountUnderMinimumAmountOut)
  pure (r.1, r.2.2)

end Service

open Service in
/-- handling of one message with the events it sends; the other commands send none -/
def stepLog (env : Env) (s : Inv) : Call → M (Inv × List Event)
  | .createPosition k l u d a b => do
    let r ← createPosition env s k l u d a b
    let e ← createPositionEvent env s k l u d a b
    pure (r.1, [e])
  | .removePosition i => do
    let r ← removePosition env s i
    let e ← removePositionEvent env s i
    pure (r.1, [e])
  | .swap k d a b l => do
    let r ← swap env s k d a b l
    pure (r.1, swapEvents env k d r.2)
  | .swapRoute a e sl h => swapRouteLog env s a e sl h
  | c => do
    let s' ← step env s c
    pure (s', [])

end Verif
