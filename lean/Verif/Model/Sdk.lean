import Verif.Model.Service

/-!
# Model of the SDK's swap simulation (`sdk/src/wasm`)

The SDK has its own copy of the swap loop, of the tick map search and of the step formulas. Where the
copy is the same text as the contract's (apart from wrappers for JavaScript) the model of the contract
is used: `get_delta_x`, `get_delta_y`, `calculate_sqrt_price`, `get_tick_at_sqrt_price`, `get_min_tick`,
`get_max_tick`, `tick_to_position`, `get_search_limit` and the decimal operations (the SDK depends on
the same `calc/decimal`). What differs is modelled here: next prices saturate instead of failing, the
loop has a step limit and reports flags instead of errors, and no fees are credited.

Simplifications: `i64`/`u64` copies of `i32`/`u16` values are exact; the JavaScript `Map` built from the
exported tick map is an association list (its keys are distinct); encoding between JavaScript and
WebAssembly is not modelled.
-/

namespace Verif

/-- `src/contracts/storage/tick.rs` 42-57 and `sdk/src/wasm/storage/tick.rs` 38-46 -/
structure LiquidityTick where
  index : Int
  liquidityChange : Nat
  sign : Bool
  deriving DecidableEq, Repr

/-- `src/contracts/storage/tick.rs` 49-57 `From<&Tick>` -/
def LiquidityTick.ofTick (t : Tick) : LiquidityTick := ⟨t.index, t.liquidityChange, t.sign⟩

/-- `src/contracts/storage/tick.rs` 12 -/
def LIQUIDITY_TICK_LIMIT : Nat := 21544

/-- `src/invariant_service.rs` 1080-1085: the iterator of `get_liquidity_ticks` -/
def Service.readTicks (s : Inv) (key : PoolKey) : List Int → M (List LiquidityTick)
  | [] => .ok []
  | i :: l => do
    let t ← unwrap (ticksGet s.ticks key i)
    let r ← Service.readTicks s key l
    pure (LiquidityTick.ofTick t :: r)

/-- `src/invariant_service.rs` 1071-1086 `get_liquidity_ticks` -/
def Service.getLiquidityTicks (s : Inv) (key : PoolKey) (idx : List Int) : M (List LiquidityTick) := do
  failIf (idx.length > LIQUIDITY_TICK_LIMIT) (.inv .TickLimitReached)
  Service.readTicks s key idx

namespace Sdk

/-- `unwrap_or(v)` on a result: an error is replaced, a panic is not -/
def unwrapOr (v : Nat) : M Nat → M Nat
  | .ok a => .ok a
  | .error .panic => .error .panic
  | .error _ => .ok v

/-! ### Fetching the state -/

/-- `sdk/src/wasm/collections/tickmap.rs` 14-19; `bitmap.get(&chunk).copied().unwrap_or(0)` -/
def word (bm : List (Nat × Nat)) (chunk : Nat) : Nat := (bm.lookup chunk).getD 0

/-- `sdk/src/invariant.ts` 350-358 with `sdk/src/wasm/collections/tickmap.rs` 77-98 `position_to_tick` -/
def tickIndexes (bm : List (Nat × Nat)) (spacing : Nat) : List Int :=
  bm.flatMap (fun cw => ((List.range 64).filter (fun b => cw.2 &&& (1 <<< b) ≠ 0)).map
    (fun b : Nat => (cw.1 : Int) * 64 * spacing + (b : Int) * spacing - (MAX_TICK - MAX_TICK.tmod spacing)))

/-- `sdk/src/invariant.ts` 359-363: requests of at most the limit each; the first argument bounds
their number (called with the number of ticks) -/
def fetch (s : Inv) (key : PoolKey) : Nat → List Int → M (List LiquidityTick)
  | 0, _ => .ok []
  | n + 1, l =>
    if l = [] then .ok []
    else do
      let a ← Service.getLiquidityTicks s key (l.take LIQUIDITY_TICK_LIMIT)
      let b ← fetch s key n (l.drop LIQUIDITY_TICK_LIMIT)
      pure (a ++ b)

/-- `sdk/src/invariant.ts` 348-366 `getAllLiquidityTicks` -/
def getAllLiquidityTicks (s : Inv) (key : PoolKey) (bm : List (Nat × Nat)) : M (List LiquidityTick) :=
  let l := tickIndexes bm key.feeTier.tickSpacing
  fetch s key l.length l

/-! ### Step formulas, `sdk/src/wasm/clamm.rs` -/

/-- `clamm.rs` 255-291 `get_next_sqrt_price_x_up` -/
def getNextSqrtPriceXUp (p L x : Nat) (addX : Bool) : M Nat :=
  if x = 0 then .ok p
  else do
    let priceDelta ← liqToPriceValue L
    let px ← bigMulToValue 384 1 p x
    let den ← (if addX then unwrapOr MAX_SQRT_PRICE (addC 384 .track priceDelta px)
               else unwrapOr MIN_SQRT_PRICE (subC .track priceDelta px))
    let num ← bigMulToValueUp 384 liqOne p L
    unwrapOr (if addX then MIN_SQRT_PRICE else MAX_SQRT_PRICE) (checkedBigDivValuesUp num den)

/-- `clamm.rs` 293-325 `get_next_sqrt_price_y_down` -/
def getNextSqrtPriceYDown (p L y : Nat) (addY : Bool) : M Nat := do
  let num ← tokToPriceValue y
  let den ← liqToPriceValue L
  if addY then do
    let q ← unwrapOr MAX_SQRT_PRICE (checkedBigDivValues num den)
    unwrapOr MAX_SQRT_PRICE (addC 128 .track p q)
  else do
    let q ← unwrapOr MAX_SQRT_PRICE (checkedBigDivValuesUp num den)
    unwrapOr MIN_SQRT_PRICE (subC .track p q)

/-- `clamm.rs` 221-236 `get_next_sqrt_price_from_input` -/
def getNextSqrtPriceFromInput (p L amount : Nat) (xToY : Bool) : M Nat :=
  if xToY then getNextSqrtPriceXUp p L amount true else getNextSqrtPriceYDown p L amount true

/-- `clamm.rs` 238-253 `get_next_sqrt_price_from_output` -/
def getNextSqrtPriceFromOutput (p L amount : Nat) (xToY : Bool) : M Nat :=
  if xToY then getNextSqrtPriceYDown p L amount false else getNextSqrtPriceXUp p L amount false

/-- `clamm.rs` 67-85 -/
def stepByIn (cur target L amount : Nat) (fee : Nat) (xToY : Bool) : M (Nat × Nat) := do
  let k ← subC .panic pctOne fee
  let after ← tokMulPct amount k
  let ain ← (if xToY then getDeltaX target cur L true else getDeltaY cur target L true)
  let next ← (if after ≥ ain then pure target else getNextSqrtPriceFromInput cur L after xToY)
  pure (next, ain)

/-- `clamm.rs` 86-103 -/
def stepByOut (cur target L amount : Nat) (xToY : Bool) : M (Nat × Nat) := do
  let aout ← (if xToY then getDeltaY target cur L false else getDeltaX cur target L false)
  let next ← (if amount ≥ aout then pure target else getNextSqrtPriceFromOutput cur L amount xToY)
  pure (next, aout)

/-- `clamm.rs` 43-161 `compute_swap_step` -/
def computeSwapStep (cur target L amount : Nat) (byIn : Bool) (fee : Nat) : M SwapResult :=
  if L = 0 then .ok ⟨target, 0, 0, 0⟩
  else do
    let xToY := decide (cur ≥ target)
    let r ← (if byIn then do
        let (n, i) ← stepByIn cur target L amount fee xToY
        pure (n, i, 0)
      else do
        let (n, o) ← stepByOut cur target L amount xToY
        pure (n, 0, o) : M (Nat × Nat × Nat))
    let next := r.1
    let notMax := decide (target ≠ next)
    let ain ←
      (if notMax || !byIn then
        (if xToY then getDeltaX next cur L true else getDeltaY cur next L true)
      else pure r.2.1)
    let aout ←
      (if notMax || byIn then
        (if xToY then getDeltaY next cur L false else getDeltaX cur next L false)
      else pure r.2.2)
    let aout := if !byIn && decide (aout > amount) then amount else aout
    let feeAmount ←
      (if byIn && decide (next ≠ target) then subC .panic amount ain
      else tokMulPctUp ain fee)
    pure ⟨next, ain, aout, feeAmount⟩

/-- `clamm.rs` 376-397 `is_enough_amount_to_change_price` -/
def isEnoughAmountToChangePrice (amount p L fee : Nat) (byIn xToY : Bool) : M Bool :=
  if L = 0 then .ok true
  else do
    let next ←
      (if byIn then do
        let k ← subC .panic pctOne fee
        let after ← tokMulPct amount k
        getNextSqrtPriceFromInput p L after xToY
      else getNextSqrtPriceFromOutput p L amount xToY)
    pure (decide (p ≠ next))

/-! ### Tick map search, `sdk/src/wasm/collections/tickmap.rs` -/

/-- `tickmap.rs` 148-185: the chunk loop of `next_initialized`; the first argument is the number of
chunks left up to the limiting chunk -/
def nextLoop (bm : List (Nat × Nat)) (spacing limChunk limBit : Nat) : Nat → Nat → Nat → Option Int
  | 0, _, _ => none
  | n + 1, chunk, bit =>
    if chunk < limChunk ∨ (chunk = limChunk ∧ bit ≤ limBit) then
      let shifted := word bm chunk >>> bit
      if shifted ≠ 0 then
        let bit := skipZerosUp 64 shifted bit
        if chunk < limChunk ∨ (chunk = limChunk ∧ bit ≤ limBit) then
          some (indexToTick chunk bit spacing)
        else none
      else nextLoop bm spacing limChunk limBit n (chunk + 1) 0
    else none

/-- `tickmap.rs` 136-188 `next_initialized` -/
def nextInitialized (bm : List (Nat × Nat)) (tick : Int) (spacing : Nat) : M (Option Int) := do
  let limit := getSearchLimit tick spacing true
  if tick + spacing > MAX_TICK then pure none
  else do
    let (chunk, bit) ← tickToPosition (tick + spacing) spacing
    let (limChunk, limBit) ← tickToPosition limit spacing
    pure (nextLoop bm spacing limChunk limBit (limChunk + 1 - chunk) chunk bit)

/-- `tickmap.rs` 196-237: the chunk loop of `prev_initialized` -/
def prevLoop (bm : List (Nat × Nat)) (spacing limChunk limBit : Nat) : Nat → Nat → Option Int
  | chunk, bit =>
    if chunk > limChunk ∨ (chunk = limChunk ∧ bit ≥ limBit) then
      let value := word bm chunk
      if value % (1 <<< (bit + 1)) > 0 then
        match skipZerosDown value bit with
        | none => none
        | some bit =>
          if chunk > limChunk ∨ (chunk = limChunk ∧ bit ≥ limBit) then
            some (indexToTick chunk bit spacing)
          else none
      else
        match chunk with
        | 0 => none
        | c + 1 => prevLoop bm spacing limChunk limBit c (CHUNK_SIZE - 1)
    else none

/-- `tickmap.rs` 190-240 `prev_initialized` -/
def prevInitialized (bm : List (Nat × Nat)) (tick : Int) (spacing : Nat) : M (Option Int) := do
  let limit := getSearchLimit tick spacing false
  let (chunk, bit) ← tickToPosition tick spacing
  let (limChunk, limBit) ← tickToPosition limit spacing
  pure (prevLoop bm spacing limChunk limBit chunk bit)

/-- `tickmap.rs` 244-284 `get_closer_limit` -/
def getCloserLimit (bm : List (Nat × Nat)) (limit : Nat) (xToY : Bool) (curTick : Int) (spacing : Nat) :
    M (Nat × Option (Int × Bool)) := do
  let closest ← (if xToY then prevInitialized bm curTick spacing else nextInitialized bm curTick spacing)
  match closest with
  | some index => do
    let sp ← unwrap (calculateSqrtPrice index)
    if (xToY = true ∧ sp > limit) ∨ (xToY = false ∧ sp < limit) then
      pure (sp, some (index, true))
    else pure (limit, none)
  | none => do
    let index := getSearchLimit curTick spacing (!xToY)
    let sp ← unwrap (calculateSqrtPrice index)
    failIf (curTick = index) (.inv .TickLimitReached)
    if (xToY = true ∧ sp > limit) ∨ (xToY = false ∧ sp < limit) then
      pure (sp, some (index, false))
    else pure (limit, none)

/-! ### The pool, `sdk/src/wasm/storage/pool.rs` and `tick.rs` -/

/-- the fields of the SDK's `Pool` that the simulation reads -/
structure Pool where
  liquidity : Nat
  sqrtPrice : Nat
  currentTickIndex : Int
  deriving DecidableEq, Repr

/-- the pool as fetched from the contract -/
def Pool.of (p : Verif.Pool) : Pool := ⟨p.liquidity, p.sqrtPrice, p.currentTickIndex⟩

/-- `storage/tick.rs` 63-79 `LiquidityTick::cross` -/
def cross (t : LiquidityTick) (p : Pool) : M Pool := do
  let l ← (if xor (decide (p.currentTickIndex ≥ t.index)) t.sign then
      addC 256 .track p.liquidity t.liquidityChange
    else subC .track p.liquidity t.liquidityChange)
  pure { p with liquidity := l }

/-- `storage/pool.rs` 32-37 -/
inductive UpdatePoolTick
  | noTick
  | initialized (t : LiquidityTick)
  | uninitialized (i : Int)
  deriving DecidableEq, Repr

/-- results of `update_tick` with the mutated pool -/
structure UpdateTickResult where
  pool : Pool
  total : Nat
  remaining : Nat
  crossed : Bool
  deriving DecidableEq, Repr

/-- `storage/pool.rs` 39-93 `update_tick` -/
def updateTick (p : Pool) (result : SwapResult) (swapLimit : Nat) (tick : UpdatePoolTick)
    (remaining : Nat) (byIn xToY : Bool) (tier : FeeTier) : M UpdateTickResult :=
  if tick = .noTick ∨ swapLimit ≠ result.nextSqrtPrice then do
    let i ← unwrap (getTickAtSqrtPrice result.nextSqrtPrice tier.tickSpacing)
    pure ⟨{ p with currentTickIndex := i }, 0, remaining, false⟩
  else do
    let enough ← unwrap (isEnoughAmountToChangePrice remaining result.nextSqrtPrice p.liquidity
      tier.fee byIn xToY)
    match tick with
    | .initialized t =>
      if xToY = false ∨ enough = true then do
        let p' ← cross t p
        let i := if xToY && enough then t.index - tier.tickSpacing else t.index
        pure ⟨{ p' with currentTickIndex := i }, 0, remaining, true⟩
      else if remaining ≠ 0 then
        pure ⟨{ p with currentTickIndex := t.index }, if byIn then remaining else 0, 0, false⟩
      else pure ⟨{ p with currentTickIndex := t.index }, 0, remaining, false⟩
    | .uninitialized i =>
      let i := if xToY && enough then i - tier.tickSpacing else i
      pure ⟨{ p with currentTickIndex := i }, 0, remaining, false⟩
    | .noTick => throw .panic

/-! ### The simulation, `sdk/src/wasm/swap.rs` -/

/-- `sdk/src/wasm/consts.rs` 24 -/
def MAX_SWAP_STEPS : Nat := 142

/-- local variables of the loop, `swap.rs` 51-62 -/
structure State where
  pool : Pool
  crossedTicks : List LiquidityTick
  remaining : Nat
  totalIn : Nat
  totalOut : Nat
  fee : Nat
  insufficient : Bool
  maxSteps : Bool
  outdated : Bool
  deriving DecidableEq, Repr

/-- arguments of the simulation that stay fixed -/
structure Args where
  tickmap : List (Nat × Nat)
  tier : FeeTier
  ticks : List LiquidityTick
  xToY : Bool
  byIn : Bool
  limit : Nat
  deriving DecidableEq, Repr

/-- an iteration goes on or breaks out of the loop -/
inductive Outcome
  | go (st : State)
  | stop (st : State)
  deriving DecidableEq, Repr

/-- `swap.rs` 108-128: the limiting tick; `none` if it is not in the list -/
def limitingTick (ticks : List LiquidityTick) : Option (Int × Bool) → Option UpdatePoolTick
  | some (i, true) => (ticks.find? (fun t => t.index = i)).map .initialized
  | some (i, false) => some (.uninitialized i)
  | none => some .noTick

/-- `swap.rs` 129-165: the part of an iteration after the limiting tick is known -/
def iterTick (a : Args) (st : State) (r : SwapResult) (swapLimit : Nat) (tick : UpdatePoolTick) :
    M Outcome :=
  match updateTick st.pool r swapLimit tick st.remaining a.byIn a.xToY a.tier with
  | .error .panic => .error .panic
  | .error _ => .ok (.stop { st with outdated := true })
  | .ok u => do
    let totalIn ← addC 256 .panic st.totalIn u.total
    let crossedTicks := match tick with
      | .initialized t => if u.crossed then st.crossedTicks ++ [t] else st.crossedTicks
      | _ => st.crossedTicks
    let st := { st with pool := u.pool, remaining := u.remaining, totalIn := totalIn,
                        crossedTicks := crossedTicks }
    let tickLimit := if a.xToY then getMinTick a.tier.tickSpacing else getMaxTick a.tier.tickSpacing
    if (a.xToY = true ∧ u.pool.currentTickIndex ≤ tickLimit) ∨
       (a.xToY = false ∧ u.pool.currentTickIndex ≥ tickLimit) then
      pure (.stop { st with insufficient := true })
    else pure (.go st)

/-- `swap.rs` 64-165: one iteration of the loop, up to the check of the step number -/
def iter (a : Args) (st : State) : M Outcome :=
  match getCloserLimit a.tickmap a.limit a.xToY st.pool.currentTickIndex a.tier.tickSpacing with
  | .error .panic => .error .panic
  | .error _ => .ok (.stop { st with insufficient := true })
  | .ok lim => do
    let r ← computeSwapStep st.pool.sqrtPrice lim.1 st.pool.liquidity st.remaining a.byIn a.tier.fee
    let inFee ← addC 256 .panic r.amountIn r.feeAmount
    let remaining ← (if a.byIn then subC .panic st.remaining inFee
                     else subC .panic st.remaining r.amountOut)
    let fee ← addC 256 .panic st.fee r.feeAmount
    let totalIn ← addC 256 .panic st.totalIn inFee
    let totalOut ← addC 256 .panic st.totalOut r.amountOut
    let st := { st with pool := { st.pool with sqrtPrice := r.nextSqrtPrice }, remaining := remaining,
                        fee := fee, totalIn := totalIn, totalOut := totalOut }
    if r.nextSqrtPrice = a.limit ∧ remaining ≠ 0 then pure (.stop { st with insufficient := true })
    else match limitingTick a.ticks lim.2 with
      | none => pure (.stop { st with outdated := true })
      | some tick => iterTick a st r lim.1 tick

/-- `swap.rs` 64-170: the loop; the first argument is the number of further iterations allowed after
this one (`swap_step_number > MAX_SWAP_STEPS` is checked at the end of an iteration) -/
def loop (a : Args) : Nat → State → M State
  | n, st =>
    if st.remaining = 0 then .ok st
    else do
      match ← iter a st with
      | .stop st' => pure st'
      | .go st' =>
        match n with
        | 0 => pure { st' with maxSteps := true }
        | n + 1 => loop a n st'

/-- `sdk/src/wasm/storage/swap_simulation.rs` 9-19 -/
structure SimulateSwapResult where
  amountIn : Nat
  amountOut : Nat
  startSqrtPrice : Nat
  targetSqrtPrice : Nat
  fee : Nat
  crossedTicks : List LiquidityTick
  globalInsufficientLiquidity : Bool
  maxSwapStepsReached : Bool
  stateOutdated : Bool
  deriving DecidableEq, Repr

/-- `swap.rs` 18-182 `simulate_invariant_swap` -/
def simulateInvariantSwap (tickmap : List (Nat × Nat)) (tier : FeeTier) (pool : Pool)
    (ticks : List LiquidityTick) (xToY : Bool) (amount : Nat) (byIn : Bool) (limit : Nat) :
    M SimulateSwapResult := do
  failIf (amount = 0) .track
  failIf (xToY = true ∧ (pool.sqrtPrice ≤ limit ∨ limit > MAX_SQRT_PRICE)) .track
  failIf (xToY = false ∧ (pool.sqrtPrice ≥ limit ∨ limit < MIN_SQRT_PRICE)) .track
  let st ← loop ⟨tickmap, tier, ticks, xToY, byIn, limit⟩ MAX_SWAP_STEPS
    { pool := pool, crossedTicks := [], remaining := amount, totalIn := 0, totalOut := 0, fee := 0,
      insufficient := false, maxSteps := false, outdated := false }
  pure { amountIn := st.totalIn, amountOut := st.totalOut, startSqrtPrice := pool.sqrtPrice,
         targetSqrtPrice := st.pool.sqrtPrice, fee := st.fee, crossedTicks := st.crossedTicks,
         globalInsufficientLiquidity := st.insufficient, maxSwapStepsReached := st.maxSteps,
         stateOutdated := st.outdated }

end Sdk
end Verif
