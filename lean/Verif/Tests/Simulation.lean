import Verif.Tests.Contract
import Verif.Model.SdkUtils

/-!
# The tests of the SDK's simulation (`sdk/tests/simulate-invariant-swap.test.ts`), on the model

Same convention as `Verif.Tests.Clamm`. The simulation gets the filtered tickmap and the filtered ticks, as in the source.
-/

namespace Verif.Tests.Simulation
open Verif.Tests.Clamm Verif.Tests.Contract

def t1 : FeeTier := ⟨pc 1 2, 1⟩
def P : PoolKey := ⟨X, Y, t1⟩

def start : M Inv :=
  withPool (pc 1 2) t1 0 >>= dep U1 X 10000000000000 >>= dep U1 Y 10000000000000 >>= pos U1 P (-10) 10 1000000000000

/-- what the SDK fetches -/
def mapOf (s : Inv) (xToY : Bool) : M (List (Nat × Nat)) :=
  Sdk.filterTickmap (Service.getTickmap s P) 1 (poolOf s P).currentTickIndex xToY
def ticksOf (s : Inv) (cur : Int) (tm : List (Nat × Nat)) (xToY : Bool) : M (List LiquidityTick) := do
  let l ← Sdk.getAllLiquidityTicks s P tm
  pure (Sdk.filterTicks l cur xToY)

def sim (s : Inv) (xToY : Bool) (n : Nat) (byIn : Bool) (limit : Nat) : M Sdk.SimulateSwapResult := do
  let tm ← mapOf s xToY
  let ts ← ticksOf s (poolOf s P).currentTickIndex tm xToY
  Sdk.simulateInvariantSwap tm t1 (.of (poolOf s P)) ts xToY n byIn limit

/-- state outdated, step limit reached, liquidity insufficient, number of ticks crossed -/
def flags (r : Sdk.SimulateSwapResult) : Bool × Bool × Bool × Nat :=
  (r.stateOutdated, r.maxSwapStepsReached, r.globalInsufficientLiquidity, r.crossedTicks.length)

/-- the limit of the first group of tests: as far as the steps of the simulation can reach -/
def far (xToY : Bool) : M Nat := calculateSqrtPrice (if xToY then -(256 * 142) else 256 * 142)
def run (xToY : Bool) (n : Nat) (byIn : Bool) : M (Bool × Bool × Bool × Nat) := do
  let s ← start
  let l ← far xToY
  (sim s xToY n byIn l).map flags
def runSwap (xToY : Bool) (n : Nat) (byIn : Bool) : Bool :=
  (do let s ← start
      let l ← far xToY
      Service.swap (env U1) s P xToY n byIn l).toBool

-- reaches price limit: X to Y by amount in, Y to X by amount in, Y to X, X to Y
example : run true 6000 true = .ok (false, false, true, 1) ∧ run false 6000 true = .ok (false, false, true, 1) ∧
    run false 5000 false = .ok (false, false, true, 1) ∧ run true 5000 false = .ok (false, false, true, 1) := by
  decide +kernel
example : runSwap true 6000 true = false ∧ runSwap false 6000 true = false ∧ runSwap false 5000 false = false ∧
    runSwap true 5000 false = false := by decide +kernel

/-- the simulation and the swap agree, and the simulation reports no problem -/
def agree (xToY : Bool) (n : Nat) (byIn : Bool) : M Bool := do
  let s ← start
  let l := if xToY then MIN_SQRT_PRICE else MAX_SQRT_PRICE
  let r ← sim s xToY n byIn l
  let (_, q) ← Service.swap (env U1) s P xToY n byIn l
  pure (!r.stateOutdated && !r.maxSwapStepsReached && !r.globalInsufficientLiquidity && q.amountIn == r.amountIn &&
    q.amountOut == r.amountOut && q.startSqrtPrice == r.startSqrtPrice && q.targetSqrtPrice == r.targetSqrtPrice &&
    q.fee == r.fee && r.crossedTicks.length == q.ticks.length)

-- matches the price: X to Y by amount in, Y to X by amount in, Y to X, X to Y
example : agree true 4999 true = .ok true ∧ agree false 4999 true = .ok true ∧ agree false 4888 false = .ok true ∧
    agree true 4888 false = .ok true := by decide +kernel

-- outdated data in pool
example : (do
    let s ← start
    let t ← pos U1 P (-10) 10 10000000000000 s
    let tm ← mapOf t false
    let ts ← ticksOf t 0 tm false
    (Sdk.simulateInvariantSwap tm t1 (.of (poolOf s P)) ts false 6000 true MAX_SQRT_PRICE).map flags) =
    (.ok (true, false, false, 0) : M _) := by decide +kernel

-- outdated data in tickmap
example : (do
    let s ← start
    let tm ← mapOf s false
    let t ← pos U1 P (-20) 10 10000000000000 s
    let ts ← ticksOf t 0 tm false
    (Sdk.simulateInvariantSwap tm t1 (.of (poolOf s P)) ts false 6000 true MAX_SQRT_PRICE).map flags) =
    (.ok (true, false, false, 0) : M _) := by decide +kernel

-- outdated data in ticks
example : (do
    let s ← start
    let tm ← mapOf s true
    let ts ← Sdk.getAllLiquidityTicks s P tm
    let t ← pos U1 P (-20) 10 1000000000000 s
    let tm ← mapOf t true
    (Sdk.simulateInvariantSwap tm t1 (.of (poolOf t P)) ts true 20000 true MIN_SQRT_PRICE).map flags) =
    (.ok (true, false, false, 1) : M _) := by decide +kernel

/-- one position per tick -/
def steps : Nat → Int → Inv → M Inv
  | 0, _, s => .ok s
  | n + 1, i, s => pos U1 P i (i + 1) (10000000 * 10 ^ 6) s >>= steps n (i + 1)

-- max swap steps reached
#guard (start >>= steps (142 + 5) (-142) >>= fun s =>
    (sim s true 1000000 true MIN_SQRT_PRICE).map flags) = .ok (false, true, false, 143)

-- max token amount: X to Y amount in and out, Y to X amount in and out
def maxAmount (xToY byIn : Bool) : M (Bool × Bool × Bool × Nat) := do
  let s ← start
  (sim s xToY maxU256 byIn (if xToY then MIN_SQRT_PRICE else MAX_SQRT_PRICE)).map flags
example : maxAmount true true = .ok (false, true, false, 1) ∧ maxAmount true false = .ok (false, true, false, 1) ∧
    maxAmount false true = .ok (false, true, false, 1) ∧ maxAmount false false = .ok (false, true, false, 1) := by
  decide +kernel
def maxSwap (xToY byIn : Bool) : Bool :=
  (start >>= fun s => Service.swap (env U1) s P xToY maxU256 byIn (if xToY then MIN_SQRT_PRICE else MAX_SQRT_PRICE)).toBool
example : start.toBool = true ∧ maxSwap true true = false ∧ maxSwap true false = false ∧ maxSwap false true = false ∧
    maxSwap false false = false := by decide +kernel

end Verif.Tests.Simulation
