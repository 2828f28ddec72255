import Verif.Tests.Reads
import Verif.Model.SdkUtils

/-!
# Tests of the SDK against a running program (`sdk/tests`), on the model

The files `position`, `protocol-fee`, `query-on-pair`, `get-positions`, `math` and `invariant` (`.test.ts`);
`simulate-invariant-swap.test.ts` is in `Verif.Tests.Simulation`. The other files of the directory exercise what is not
modelled (the events as they reach a listener, batches of extrinsics, the token contract of the SDK, sizes of answers) or
repeat tests of `src/e2e/gtest`.

Same convention as `Verif.Tests.Contract`. What the tests measure on the token contracts is measured on the balances in
the program. Where the administrator of a test also provides and trades, `U1` does so here. The tests of
`math.test.ts` are nested in another `it` and so never run in the repository.
-/

namespace Verif.Tests.Sdk
open Verif.Tests.Clamm Verif.Tests.Storage Verif.Tests.Contract Verif.Tests.Reads Verif.LiquidityResult

/-- `sdk/src/invariant.ts` 500-517: the SDK looks the tick up itself -/
def mkPool (k : PoolKey) (p : Nat) (s : Inv) : M Inv := do
  let i ← getTickAtSqrtPrice p k.feeTier.tickSpacing
  Service.createPool (env U1) s k.tokenX k.tokenY k.feeTier p i
/-- `sdk/src/invariant.ts` 529-547: with a tolerance around a price -/
def mkPos (u : ActorId) (k : PoolKey) (lo hi : Int) (l spot tol : Nat) (s : Inv) : M Inv := do
  let b ← Verif.Sdk.createPositionLimits spot tol
  (Service.createPosition (env u) s k lo hi l b.1 b.2).map (·.1)
def deployed (k : PoolKey) (p n : Nat) : M Inv :=
  addTier ADMIN k.feeTier (Inv.init ADMIN (pc 1 2)) >>= mkPool k p >>= dep U1 X n >>= dep U1 Y n

/-! ## `position.test.ts` -/

def user : M Inv := deployed K (sp 1) (10 ^ 10) >>= mkPos U1 K (-20) 10 100000000000 (sp 1) 0
def noTime (p : Position) : Position := { p with lastBlockNumber := 0 }
def fresh (l : Nat) (lo hi : Int) (k : PoolKey) : Position := { pos0 with poolKey := k, liquidity := l, lowerTickIndex := lo, upperTickIndex := hi }

-- create position
example : (user >>= fun s => s.positions.get U1 0).map noTime = .ok (fresh 100000000000 (-20) 10 K) := by decide +kernel

-- calculate token amounts from position liquidity
example : (user >>= fun s => s.positions.get U1 0 >>= fun p => Verif.Sdk.calculateTokenAmounts (poolOf s K) p false) =
    (getLiquidityByX 500 (-20) 10 (sp 1) false).map (fun r => (499, r.amount)) := by decide +kernel

-- remove position
example : ((user >>= rm U1 0) >>= fun s => s.positions.get U1 0) = .error (.inv .PositionNotFound) ∧
    ((user >>= rm U1 0) >>= fun s => Verif.Sdk.getAllPositions s ADMIN 10) = .ok [(0, [])] ∧
    ((user >>= rm U1 0) >>= fun s => ticksGet s.ticks K (-20)) = .error (.inv .TickNotFound) ∧
    ((user >>= rm U1 0) >>= fun s => ticksGet s.ticks K 10) = .error (.inv .TickNotFound) ∧
    ((user >>= rm U1 0) >>= fun s => Service.isTickInitialized s K (-20)) = .ok false ∧
    ((user >>= rm U1 0) >>= fun s => Service.isTickInitialized s K 10) = .ok false := by decide +kernel

-- transfer position
example : (user >>= fun s => Service.transferPosition (env U1) s 0 ADMIN >>= fun s => s.positions.get U1 0) =
      .error (.inv .PositionNotFound) ∧
    (user >>= fun s => Service.transferPosition (env U1) s 0 ADMIN >>= fun s => s.positions.get ADMIN 0).map noTime =
      .ok (fresh 100000000000 (-20) 10 K) := by decide +kernel

-- claim fee
def traded : M Inv := user >>= dep ADMIN X 1000 >>= sw ADMIN K true 1000 true
example : passes traded (fun s => bal s ADMIN X == 0 && bal s ADMIN Y == 993 && kept s X (10 ^ 10 + 1000) == 1500 &&
    kept s Y (10 ^ 10) == 7 && view s K == (-20, 100000000000, 50000000000000000000000, 0, 1, 0)) = true := by
  decide +kernel
example : (traded >>= fun s => Service.claimFee (env U1) s 0 >>= fun r => r.1.positions.get U1 0 >>= fun p =>
      pure (bal r.1 U1 X - bal s U1 X, bal r.1 U1 Y - bal s U1 Y,
        decide (p.feeGrowthInsideX = (poolOf r.1 K).feeGrowthGlobalX), p.tokensOwedX)) = .ok (5, 0, true, 0) := by
  decide +kernel

-- slippage tolerance works
example : passes (user >>= mkPos U1 K (-20) 10 10000000000000 (sp 1) 10000000000 >>=
      mkPos U1 K (-20) 10 10000000000000 953462589245592315446776 100000000000) (fun _ => true) = true ∧
    fails (user >>= mkPos U1 K (-20) 10 10000000000000 (sp 1) 10000000000 >>=
      mkPos U1 K (-20) 10 10000000000000 953462589245592315446776 100000000000 >>=
      mkPos U1 K (-20) 10 10000000000000 953462589245592315446775 100000000000)
      (.inv .PriceLimitReached) = true := by decide +kernel

/-! ## `protocol-fee.test.ts` -/

def Kf : PoolKey := ⟨X, Y, ⟨10000000000, 1⟩⟩
def feed : M Inv := deployed Kf (sp 1) (10 ^ 13) >>= mkPos U1 Kf (-10) 10 10000000000000 (sp 1) 10000000000 >>= fun s =>
  (Service.swap (env U1) s Kf true 4999 true 999505344804856076727628).map (·.1)

-- should withdraw protocol fee, should change fee receiver
example : feed.map (fun s => ((poolOf s Kf).feeProtocolTokenX, (poolOf s Kf).feeProtocolTokenY)) = .ok (1, 0) ∧
    (feed >>= fun s => Service.withdrawProtocolFee (env ADMIN) s Kf).map (fun r =>
      ((poolOf r.1 Kf).feeProtocolTokenX, (poolOf r.1 Kf).feeProtocolTokenY, bal r.1 ADMIN X, bal r.1 ADMIN Y)) =
      .ok (0, 0, 1, 0) := by decide +kernel
example : (feed >>= fun s => Service.changeFeeReceiver (env ADMIN) s Kf U2 >>= fun s =>
      Service.withdrawProtocolFee (env U2) s Kf).map (fun r =>
        ((poolOf r.1 Kf).feeProtocolTokenX, (poolOf r.1 Kf).feeProtocolTokenY, bal r.1 U2 X, bal r.1 U2 Y)) =
      .ok (0, 0, 1, 0) ∧
    fails (feed >>= fun s => Service.changeFeeReceiver (env ADMIN) s Kf U2 >>= fun s =>
      Service.withdrawProtocolFee (env U2) s Kf >>= fun r => Service.withdrawProtocolFee (env ADMIN) r.1 Kf)
      (.inv .NotFeeReceiver) = true := by decide +kernel

/-! ## `query-on-pair.test.ts`, `get-positions.test.ts` -/

def K20 : PoolKey := ⟨X, Y, ⟨pc 6 3, 20⟩⟩
def both : M Inv := deployed K (sp 1) 0 >>= addTier ADMIN K20.feeTier >>= mkPool K20 (sp 2)

-- query all pools for pair
example : (both >>= fun s => Service.getAllPoolsForPair s X Y s.feeTiers) =
    both.map (fun s => [(K.feeTier, poolOf s K), (K20.feeTier, poolOf s K20)]) := by decide +kernel

def K' : PoolKey := ⟨X, Y, ⟨pc 6 3 + 1, 10⟩⟩
def four' : M Inv := deployed K (sp 1) (10 ^ 10) >>= mkPos U1 K (-10) 10 1000000000000 (sp 1) 0 >>=
  mkPos U1 K (-20) 20 1000000000000 (sp 1) 0 >>= addTier ADMIN K'.feeTier >>= mkPool K' (sp 1) >>=
  mkPos U1 K' (-10) 10 10 (sp 1) 0 >>= mkPos U1 K (-10) 10 10 (sp 1) 0

-- get positions with 2 pools in the right order
example : (four' >>= fun s => Verif.Sdk.getPositions s U1 4 0).map (fun r => (r.1.map (·.1), r.2)) =
    (four' >>= fun s => s.positions.getAll U1).map (fun l => (l, 4)) ∧
    (four' >>= fun s => Verif.Sdk.getPositions s U1 4 0).map (·.1.length) = .ok 4 := by decide +kernel

/-! ## `math.test.ts`, `invariant.test.ts` -/

def Km : PoolKey := K
def byX (p : Nat) (lo hi : Int) (m : M Inv) : M Inv := do
  let r ← getLiquidityByX 430000 lo hi p true
  let s ← m
  let s ← dep U2 X 430000 s
  let s ← dep U2 Y r.amount s
  mkPos U2 Km lo hi r.l p 0 s

-- check get liquidity by x: in range and above
example : passes (byX 1005012269622000000000000 150 800 (byX 1005012269622000000000000 80 120
      (deployed Km 1005012269622000000000000 0))) (fun s => (poolOf s Km).currentTickIndex == 100) = true ∧
    (getLiquidityByX 430000 150 800 1005012269622000000000000 true).map (·.amount) = .ok 0 := by decide +kernel

-- check get liquidity by y: below, above
example : (getLiquidityByY 47600000000 (-22000) (-21000) 367897834491000000000000 true).map (·.amount) = .ok 0 ∧
    (getLiquidityByY 47600000000 (-10000) 0 367897834491000000000000 true).toBool = false ∧
    (getLiquidityByY 47600000000 (-25000) (-19000) 367897834491000000000000 true).toBool = true := by decide +kernel

-- ... below: the position is created
example : ((getLiquidityByY 47600000000 (-22000) (-21000) 367897834491000000000000 true) >>= fun r =>
      deployed Km 367897834491000000000000 0 >>= dep U2 Y 47600000000 >>=
      mkPos U2 Km (-22000) (-21000) r.l 367897834491000000000000 0 >>= fun s => s.positions.get U2 0 >>= fun p =>
      pure (decide (noTime p = fresh r.l (-22000) (-21000) Km))) = .ok true := by decide +kernel

-- should set and change protocol fee
example : (Service.changeProtocolFee (env ADMIN) (Inv.init ADMIN 10000000000) 1 >>= fun a =>
      Service.changeProtocolFee (env ADMIN) a.1 (2 ^ 64 - 1) >>= fun b =>
      pure (a.2, a.1.protocolFee, b.2, b.1.protocolFee)) = .ok (1, 1, 2 ^ 64 - 1, 2 ^ 64 - 1) ∧
    (Inv.init ADMIN 10000000000).protocolFee = 10000000000 ∧ (Inv.init ADMIN (2 ^ 64 - 1)).protocolFee = 2 ^ 64 - 1 := by
  decide +kernel

-- should add fee tier, should remove fee tier
def T5 : FeeTier := ⟨10000000000, 5⟩
def T10 : FeeTier := ⟨20000000000, 10⟩
def tiers (m : M Inv) : M (Bool × Bool × Nat) :=
  m.map (fun s => (decide (T5 ∈ s.feeTiers), decide (T10 ∈ s.feeTiers), s.feeTiers.length))
example : tiers (addTier ADMIN T5 (Inv.init ADMIN (pc 1 2))) = .ok (true, false, 1) ∧
    tiers (addTier ADMIN T5 (Inv.init ADMIN (pc 1 2)) >>= addTier ADMIN T10) = .ok (true, true, 2) ∧
    tiers (addTier ADMIN T5 (Inv.init ADMIN (pc 1 2)) >>= addTier ADMIN T10 >>= rmTier ADMIN T10) = .ok (true, false, 1) ∧
    tiers (addTier ADMIN T5 (Inv.init ADMIN (pc 1 2)) >>= addTier ADMIN T10 >>= rmTier ADMIN T10 >>= rmTier ADMIN T5) =
      .ok (false, false, 0) := by decide +kernel

-- should get tick and check if it is initialized
def K1' : PoolKey := ⟨X, Y, ⟨10000000000, 1⟩⟩
def ten : M Inv := deployed K1' (sp 1) 1000000 >>= mkPos U1 K1' (-10) 10 1000000 (sp 1) 0
example : ten.map (fun s => { tickOf s K1' (-10) with secondsOutside := 0 }) = .ok { tick0 with
      index := -10, sign := true, liquidityChange := 1000000, liquidityGross := 1000000,
      sqrtPrice := 999500149965000000000000 } ∧
    ten.map (fun s => { tickOf s K1' 10 with secondsOutside := 0 }) = .ok { tick0 with
      index := 10, sign := false, liquidityChange := 1000000, liquidityGross := 1000000,
      sqrtPrice := 1000500100010000000000000 } ∧
    (ten >>= fun s => ticksGet s.ticks K1' 0) = .error (.inv .TickNotFound) ∧
    (ten >>= fun s => Service.isTickInitialized s K1' (-10)) = .ok true ∧
    (ten >>= fun s => Service.isTickInitialized s K1' 0) = .ok false ∧
    (ten >>= fun s => Service.isTickInitialized s K1' 10) = .ok true := by decide +kernel

-- create pool, create pool x/y and y/x
example : (deployed K1' (sp 1) 0).map (fun s => view s K1') = .ok (0, 0, 0, 0, 0, 0) ∧
    (deployed K1' (sp 1) 0).map (fun s => (poolOf s K1').sqrtPrice) = .ok (sp 1) ∧
    (deployed K1' (sp 1) 0 >>= fun s => Service.getPoolKeys s 1 0) = .ok ([K1'], 1) ∧
    fails (deployed K1' (sp 1) 0 >>= mkPool K1' (sp 1)) (.inv .PoolAlreadyExist) = true := by decide +kernel

-- attempt to try create pool with wrong tick sqrtPrice relationship: the test expects `InvalidInitTick` but does not
-- wait for the answer; the SDK looks the tick up itself, and the pool is created
example : (deployed K1' 1000175003749000000000000 0).map (fun s => (poolOf s K1').currentTickIndex) = .ok 3 := by
  decide +kernel

end Verif.Tests.Sdk
