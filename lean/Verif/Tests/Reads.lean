import Verif.Tests.Contract
import Verif.Model.Queries
import Verif.Model.Sdk

/-!
# The repository's tests of the administration and of the queries (`src/e2e/gtest/*.rs`), on the model

Same convention as `Verif.Tests.Contract`.
-/

namespace Verif.Tests.Reads
open Verif.Tests.Clamm Verif.Tests.Storage Verif.Tests.Contract

def s0 : Inv := Inv.init ADMIN 100
def addTier (u : ActorId) (t : FeeTier) (s : Inv) : M Inv := (Service.addFeeTier (env u) s t).map (·.1)
def rmTier (u : ActorId) (t : FeeTier) (s : Inv) : M Inv := (Service.removeFeeTier (env u) s t).map (·.1)

/-! ## `add_fee_tier.rs`, `remove_fee_tier.rs` -/

-- test_add_multiple_fee_tiers
example : (addTier ADMIN ⟨pc 2 4, 1⟩ s0 >>= addTier ADMIN ⟨pc 2 4, 2⟩ >>= addTier ADMIN ⟨pc 2 4, 4⟩).map (·.feeTiers)
    = .ok [⟨pc 2 4, 1⟩, ⟨pc 2 4, 2⟩, ⟨pc 2 4, 4⟩] := by decide +kernel

-- test_add_fee_tier_not_admin (in the source, too, the caller is the administrator)
example : (addTier ADMIN ⟨pc 2 4, 1⟩ s0).map (·.feeTiers) = .ok [⟨pc 2 4, 1⟩] := by decide +kernel

-- test_add_existing_fee_tier, test_add_fee_tier_zero_fee
example : fails (addTier ADMIN ⟨pc 2 4, 1⟩ s0 >>= addTier ADMIN ⟨pc 2 4, 1⟩) (.inv .FeeTierAlreadyExist) = true ∧
    (addTier ADMIN ⟨0, 1⟩ s0).map (·.feeTiers) = .ok [⟨0, 1⟩] := by decide +kernel

-- test_add_fee_tier_tick_spacing_zero, test_add_fee_tier_over_upper_bound_tick_spacing, test_add_fee_tier_fee_above_limit
example : fails (addTier U1 ⟨pc 2 4, 0⟩ s0) (.inv .InvalidTickSpacing) = true ∧
    fails (addTier U1 ⟨pc 2 4, 101⟩ s0) (.inv .InvalidTickSpacing) = true ∧
    fails (addTier U1 ⟨pc 1, 10⟩ s0) (.inv .InvalidFee) = true := by decide +kernel

-- test_remove_fee_tier, remove_not_existing_fee_tier, test_remove_fee_tier_not_admin
example : (addTier ADMIN ⟨pc 2 4, 1⟩ s0 >>= rmTier ADMIN ⟨pc 2 4, 1⟩).map (·.feeTiers) = .ok [] ∧
    fails (rmTier ADMIN ⟨pc 2 4, 1⟩ s0) (.inv .FeeTierNotFound) = true ∧
    fails (addTier ADMIN ⟨pc 2 4, 1⟩ s0 >>= rmTier U1 ⟨pc 2 4, 1⟩) (.inv .NotAdmin) = true := by decide +kernel

/-! ## `change_protocol_fee.rs`, `change_fee_receiver.rs`, `get_pool.rs`, `get_pool_keys.rs` -/

example : (Service.changeProtocolFee (env ADMIN) (Inv.init ADMIN 0) 1).map (·.1.protocolFee) = .ok 1 ∧
    fails (Service.changeProtocolFee (env U1) (Inv.init ADMIN 0) 1) (.inv .NotAdmin) = true := by decide +kernel

def K1 : PoolKey := ⟨X, Y, ⟨1, 1⟩⟩

example : (withPool 0 ⟨1, 1⟩ 0).map (fun s => (poolOf s K1).feeReceiver) = .ok ADMIN ∧
    (withPool 0 ⟨1, 1⟩ 0 >>= fun s => Service.changeFeeReceiver (env ADMIN) s K1 U1).map
      (fun s => (poolOf s K1).feeReceiver) = .ok U1 ∧
    fails (withPool 0 ⟨1, 1⟩ 0 >>= fun s => Service.changeFeeReceiver (env U1) s K1 U1) (.inv .NotAdmin) = true := by
  decide +kernel

example : (withPool 100 ⟨1, 1⟩ 0 >>= fun s => Service.getPool s X Y ⟨1, 1⟩) =
    .ok { pool0 with sqrtPrice := sp 1, feeReceiver := ADMIN, startTimestamp := 1000, lastTimestamp := 1000 } ∧
    (withPool 100 ⟨1, 1⟩ 0 >>= fun s => Service.getPoolKeys s 65535 0) = .ok ([K1], 1) := by decide +kernel

/-! ## `interaction_with_pool_on_remove_fee_tier.rs` -/

def again (s : Inv) : M Inv := Service.createPool (env U1) s X Y tier (sp 1) 0
/-- the tier removed, then the position, the swap, the claim, the receiver, the protocol fee, the removal -/
def removed : M Inv := withPool (pc 1 2) tier 0 >>= rmTier ADMIN tier
def removedUse : M Inv :=
  removed >>= dep U1 X (10 ^ 10) >>= dep U1 Y (10 ^ 10) >>= pos U1 K (-20) 10 (lq 1000000) >>=
    dep U2 X 1000 >>= sw U2 K true 1000 true
def removedEnd : M Inv :=
  removedUse >>= fun s => (Service.claimFee (env U1) s 0).map (·.1) >>= fun s =>
    Service.changeFeeReceiver (env ADMIN) s K U1 >>= fun s =>
    (Service.withdrawProtocolFee (env U1) s K).map (·.1) >>= rm U1 0

example : removed.map (·.feeTiers) = .ok [] ∧ fails (removed >>= again) (.inv .FeeTierNotFound) = true ∧
    (removedUse >>= fun s => Service.claimFee (env U1) s 0).map (·.2) = .ok (5, 0) := by decide +kernel

example : (removedEnd >>= fun s => Service.getPool s X Y tier).toBool = true ∧
    (removedEnd >>= fun s => Service.getPoolKeys s 65535 0).map (·.1.length) = .ok 1 := by decide +kernel

def transferred : M Inv :=
  removedEnd >>= pos U1 K (-20) 10 (lq 1000000) >>= fun s => Service.transferPosition (env U1) s 0 U2

example : (removedEnd >>= pos U1 K (-20) 10 (lq 1000000) >>= (all · U1)).map (·.length) = .ok 1 ∧
    (transferred >>= (all · U1)) = .ok [] ∧
    (transferred >>= (all · U2)) = (removedEnd >>= pos U1 K (-20) 10 (lq 1000000) >>= (all · U1)) := by decide +kernel

example : fails (transferred >>= addTier ADMIN tier >>= again) (.inv .PoolAlreadyExist) = true := by decide +kernel

/-! ## `get_tickmap.rs` -/

def rich (t : FeeTier) (tick : Int) (n : Nat) (protocolFee : Nat := pc 1 2) : M Inv :=
  withPool protocolFee t tick >>= dep U1 X n >>= dep U1 Y n
def Kt (spacing : Nat) : PoolKey := ⟨X, Y, ⟨pc 5 1, spacing⟩⟩

-- test_get_tickmap
example : (rich ⟨pc 5 1, 1⟩ 0 500 100 >>= pos U1 (Kt 1) (-58) 5 10).map (fun s => Service.getTickmap s (Kt 1)) =
    .ok [(3465, 0b1000000000000000000000000000000000000000000000000000000000000001)] := by decide +kernel

-- test_get_tickmap_tick_spacing_over_one
example : (rich ⟨pc 5 1, 10⟩ 0 500 100 >>= pos U1 (Kt 10) 10 20 10 >>=
      pos U1 (Kt 10) (getMinTick 10) (getMaxTick 10) 10).map (fun s => Service.getTickmap s (Kt 10)) =
    .ok [(0, 0b1), (346, 0b1100000000000000000000000000000000000000), (getMaxChunk 10, 0b10000000000)] := by
  decide +kernel

-- test_get_tickmap_edge_ticks_intialized
example : (rich ⟨pc 5 1, 1⟩ 0 500 100 >>= pos U1 (Kt 1) (-221818) (-221817) 10 >>=
      pos U1 (Kt 1) 221817 221818 10).map (fun s => Service.getTickmap s (Kt 1)) =
    .ok [(0, 0b11), (getMaxChunk 1, 0b11000000000000000000000000000000000000000000000000000)] := by decide +kernel

/-- positions of one tick, a chunk apart -/
def ladder (from_ : Int) : Nat → M Inv → M Inv
  | 0, m => m
  | n + 1, m => ladder (from_ + 64) n (m >>= pos U1 (Kt 1) from_ (from_ + 1) 10)

-- test_get_tickmap_more_chunks_above (821 positions), test_get_tickmap_more_chunks_below (822 positions); interpreted
#guard (ladder 6 821 (rich ⟨pc 5 1, 1⟩ 0 (2 ^ 128 - 1) 100)).toOption.map (fun s => Service.getTickmap s (Kt 1)) ==
  some ((List.range 821).map (fun i => (3466 + i, 0b11)))
#guard (ladder (-52544) 822 (rich ⟨pc 5 1, 1⟩ 0 (2 ^ 128 - 1) 100)).toOption.map (fun s => Service.getTickmap s (Kt 1)) ==
  some ((List.range 822).map (fun i => (2644 + i, 0b110000000000000000000000000000000000000000000000000000000000)))

/-! ## `get_liquidity_ticks.rs`, `get_position_ticks.rs` -/

def Kl (spacing : Nat) : PoolKey := ⟨X, Y, ⟨pc 1 2, spacing⟩⟩
def one : M Inv := rich ⟨pc 1 2, 1⟩ 0 (10 ^ 10) >>= pos U1 (Kl 1) (-10) 10 10
def one' : M Inv := rich ⟨pc 1 2, 1⟩ 0 500 >>= pos U1 (Kl 1) (-10) 10 10
def secondPool (s : Inv) : M Inv := do
  let s ← addTier ADMIN ⟨pc 1 2, 10⟩ s
  Service.createPool (env U1) s X Y ⟨pc 1 2, 10⟩ (sp 1) 0
def two : M Inv :=
  rich ⟨pc 1 2, 2⟩ 0 (10 ^ 10) >>= secondPool >>= pos U1 (Kl 2) (-10) 30 10 >>= pos U1 (Kl 10) (-20) 40 10

-- test_get_liquidity_ticks, test_get_liquidity_ticks_partial_query
example : one.map (fun s => (Service.getTickmap s (Kl 1)).length) = .ok 2 ∧
    one.map (fun s => Sdk.tickIndexes (Service.getTickmap s (Kl 1)) 1) = .ok [-10, 10] ∧
    one.map (fun s => Service.getLiquidityTicksAmount s (Kl 1)) = .ok 2 ∧
    (one >>= fun s => Service.getLiquidityTicks s (Kl 1) [-10, 10]) =
      one.map (fun s => [LiquidityTick.ofTick (tickOf s (Kl 1) (-10)), LiquidityTick.ofTick (tickOf s (Kl 1) 10)]) ∧
    (one >>= fun s => Service.getLiquidityTicks s (Kl 1) [10]) =
      one.map (fun s => [LiquidityTick.ofTick (tickOf s (Kl 1) 10)]) := by decide +kernel

-- test_get_liquidity_ticks_different_tick_spacings
example : two.map (fun s => (Service.getLiquidityTicksAmount s (Kl 2), Service.getLiquidityTicksAmount s (Kl 10))) =
      .ok (2, 2) ∧
    (two >>= fun s => Service.getLiquidityTicks s (Kl 2) [-10, 30]).map (·.length) = .ok 2 ∧
    (two >>= fun s => Service.getLiquidityTicks s (Kl 10) [-20, 40]).map (·.length) = .ok 2 := by decide +kernel

-- test_get_position_ticks, test_get_position_ticks_with_offset
example : one'.toBool = true ∧ one'.map (fun s => Service.getPositionTicks s U1 0) =
      one'.map (fun s => [Service.PositionTick.ofTick (tickOf s (Kl 1) (-10)),
        Service.PositionTick.ofTick (tickOf s (Kl 1) 10)]) ∧
    two.map (fun s => (Service.getPositionTicks s U1 0).length) = .ok 4 ∧
    two.map (fun s => (Service.getPositionTicks s U1 1).length) = .ok 2 ∧
    two.map (fun s => (Service.getPositionTicks s U1 0).drop 2) = two.map (fun s => Service.getPositionTicks s U1 1) := by
  decide +kernel

/-! ## `get_position_with_associates.rs`, `get_positions.rs` -/

/-- `basic` without a protocol fee -/
def free : M Inv :=
  withPool 0 tier 0 >>= dep U1 X (10 ^ 10) >>= dep U1 Y (10 ^ 10) >>= pos U1 K (-20) 10 (lq 1000000)

example : free.toBool = true ∧ (free >>= fun s => Service.getPositionWithAssociates s U1 0) =
      (free >>= fun s => s.positions.get U1 0 >>= fun p => Service.getPool s Y X tier >>= fun q =>
        pure (p, q, tickOf s K (-20), tickOf s K 10)) ∧
    fails (withPool 0 tier 0 >>= fun s => Service.getPositionWithAssociates s U1 0) (.inv .PositionNotFound) = true := by
  decide +kernel

def Kp : PoolKey := ⟨X, Y, ⟨0, 1⟩⟩
def pair : M Inv := rich ⟨0, 1⟩ 10 500 0 >>= pos U1 Kp (-10) 10 10 >>= pos U1 Kp (-20) 20 10
def page (m : M Inv) (size offset : Nat) : M (List Nat × Nat) :=
  m >>= fun s => (Service.getPositions s U1 size offset).map (fun r => (r.1.map (·.2.length), r.2))

-- test_get_positions, _less_than_exist, _more_than_exist, _with_offset, _with_offset_less_than_exist, _with_offset_more_than_exist
example : page pair 2 0 = .ok ([2], 2) ∧ page pair 1 0 = .ok ([1], 2) ∧ page pair 3 0 = .ok ([2], 2) ∧
    page pair 1 1 = .ok ([1], 2) ∧ page (pair >>= pos U1 Kp (-30) 30 10) 1 1 = .ok ([1], 3) ∧
    page pair 2 1 = .ok ([1], 2) := by decide +kernel

end Verif.Tests.Reads
