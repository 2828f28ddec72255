import Verif.Model.Service

/-!
# The commands as the program executes them: writing in place

`Model/Service.lean` computes a new state and returns it only on success. The program instead writes
to its storage while it runs, and can fail after some of the writes. Here every command is written a
second time as a sequence of reads and writes of the storage, in the order of the code, where a
failure leaves the writes made so far (`W`). The runtime discards the memory of a message that ended
in a panic (`handle`). `Props/Rollback` relates the two versions.

All decisions and computations are shared with the first version; what differs is where results are
stored and what remains after a failure. `src/invariant_service.rs` `panicking!` turns every returned
error into a panic.
-/

namespace Verif

/-- a computation that reads and writes the storage; the storage is kept when it fails -/
def W (α : Type) := Inv → Except Err α × Inv

namespace W
variable {α β : Type}

protected def pure (a : α) : W α := fun s => (.ok a, s)

protected def bind (w : W α) (f : α → W β) : W β := fun s =>
  match w s with
  | (.ok a, s') => f a s'
  | (.error e, s') => (.error e, s')

instance : Monad W where
  pure := W.pure
  bind := W.bind

/-- a computation that does not touch the storage -/
def lift (m : M α) : W α := fun s => (m, s)

/-- reading the storage -/
def read : W Inv := fun s => (.ok s, s)

/-- one write -/
def write (f : Inv → Inv) : W Unit := fun s => (.ok (), f s)

end W

namespace Inplace
open W Service

/-- `src/invariant_storage.rs` 32-54; the missing entry is created before the addition is checked -/
def increase (token caller : ActorId) (amount : Nat) : W Unit :=
  if amount = 0 then pure ()
  else do
    let s ← read
    let old := (s.balances.get (caller, token)).getD 0
    write (fun s => { s with balances := s.balances.insert (caller, token) old })
    let v ← lift (addC 256 (.inv .FailedToChangeTokenBalance) old amount)
    write (fun s => { s with balances := s.balances.insert (caller, token) v })

/-- `src/invariant_storage.rs` 69-109 -/
def decrease (token caller : ActorId) (amount : Option Nat) : W Nat :=
  match amount with
  | some 0 => pure 0
  | some (n + 1) => do
    let s ← read
    let v ← lift (okOr (.inv .NoBalanceForTheToken) (s.balances.get (caller, token)))
    if n + 1 ≠ v then do
      let r ← lift (subC (.inv .FailedToChangeTokenBalance) v (n + 1))
      write (fun s => { s with balances := s.balances.insert (caller, token) r })
      pure (n + 1)
    else do
      write (fun s => { s with balances := s.balances.erase (caller, token) })
      pure v
  | none => do
    let s ← read
    let v ← lift (okOr (.inv .NoBalanceForTheToken) (s.balances.get (caller, token)))
    write (fun s => { s with balances := s.balances.erase (caller, token) })
    pure v

/-- `src/contracts/collections/pools.rs` 19-24 -/
def poolUpdate (key : PoolKey) (p : Pool) : W Unit := do
  let s ← read
  let _ ← lift (poolsGet s.pools key)
  write (fun s => { s with pools := s.pools.insert key p })

/-- `src/contracts/collections/ticks.rs` 19-29 -/
def tickUpdate (key : PoolKey) (i : Int) (t : Tick) : W Unit := do
  let s ← read
  let _ ← lift (ticksGet s.ticks key i)
  write (fun s => { s with ticks := s.ticks.insert (key, i) t })

/-- `src/contracts/collections/tickmap.rs` 231-243 -/
def flip (value : Bool) (i : Int) (key : PoolKey) : W Unit := do
  let s ← read
  let tm ← lift (tickmapFlip s.tickmap value i key.feeTier.tickSpacing key)
  write (fun s => { s with tickmap := tm })

/-- `src/invariant_storage.rs` 272-279 -/
def addTick (key : PoolKey) (t : Tick) : W Unit := do
  let s ← read
  let m ← lift (ticksAdd s.ticks key t.index t)
  write (fun s => { s with ticks := m })
  flip true t.index key

/-- `src/invariant_storage.rs` 281-290 -/
def removeTick (key : PoolKey) (t : Tick) : W Unit := do
  lift (failIf (t.liquidityGross ≠ 0) (.inv .NotEmptyTickDeinitialization))
  flip false t.index key
  let s ← read
  let m ← lift (ticksRemove s.ticks key t.index)
  write (fun s => { s with ticks := m })

/-- `src/contracts/collections/positions.rs` 11-19 -/
def posAdd (a : ActorId) (p : Position) : W Unit := do
  let s ← read
  let n := s.positions.getLength a
  write (fun s => { s with positions := { s.positions with map := s.positions.map.insert (a, n) p } })
  let n1 := u32Succ n
  write (fun s => { s with positions := { s.positions with length := s.positions.length.insert a n1 } })

/-- `src/contracts/collections/positions.rs` 21-37 -/
def posUpdate (a : ActorId) (i : Nat) (p : Position) : W Unit := do
  let s ← read
  lift (failIf (i ≥ s.positions.getLength a) (.inv .PositionNotFound))
  write (fun s => { s with positions := { s.positions with map := s.positions.map.insert (a, i) p } })

/-- `src/contracts/collections/positions.rs` 39-59, second part: `n1` is the index of the last
position -/
def posRemoveAt (a : ActorId) (i n1 : Nat) : W Unit := do
  let s ← read
  if i < n1 then do
    let last ← lift (okOr .panic (s.positions.map.get (a, n1)))
    write (fun s => { s with positions := { s.positions with map := s.positions.map.erase (a, n1) } })
    write (fun s => { s with positions := { s.positions with map := s.positions.map.insert (a, i) last } })
  else
    write (fun s => { s with positions := { s.positions with map := s.positions.map.erase (a, i) } })
  write (fun s => { s with positions := { s.positions with length := s.positions.length.insert a n1 } })

/-- `src/contracts/collections/positions.rs` 39-59 -/
def posRemove (a : ActorId) (i : Nat) : W Position := do
  let s ← read
  let p ← lift (s.positions.get a i)
  posRemoveAt a i (u32Pred (s.positions.getLength a))
  pure p

/-- `src/invariant_service.rs` 86-98 -/
def changeProtocolFee (env : Env) (fee : Nat) : W Unit := do
  let s ← read
  lift (failIf (s.admin ≠ env.caller) (.inv .NotAdmin))
  write (fun s => { s with protocolFee := fee })

/-- `src/invariant_service.rs` 104-123 -/
def addFeeTier (env : Env) (t : FeeTier) : W Unit := do
  lift (failIf (t.tickSpacing = 0 ∨ t.tickSpacing > 100) (.inv .InvalidTickSpacing))
  lift (failIf (t.fee ≥ pctOne) (.inv .InvalidFee))
  let s ← read
  lift (failIf (s.admin ≠ env.caller) (.inv .NotAdmin))
  let l ← lift (feeTiersAdd s.feeTiers t)
  write (fun s => { s with feeTiers := l })

/-- `src/invariant_service.rs` 129-140 -/
def removeFeeTier (env : Env) (t : FeeTier) : W Unit := do
  let s ← read
  lift (failIf (s.admin ≠ env.caller) (.inv .NotAdmin))
  let l ← lift (feeTiersRemove s.feeTiers t)
  write (fun s => { s with feeTiers := l })

/-- `src/invariant_service.rs` 146-183; `pool_keys.add` can still fail after the pool was stored -/
def createPool (env : Env) (tokenX tokenY : ActorId) (tier : FeeTier) (initSqrtPrice : Nat)
    (initTick : Int) : W Unit := do
  let s ← read
  lift (failIf (tier ∉ s.feeTiers) (.inv .FeeTierNotFound))
  lift (mapErr (.inv .InvalidInitTick) (checkTick initTick tier.tickSpacing))
  let key ← lift (PoolKey.new tokenX tokenY tier)
  lift (failIf ((s.pools.get key).isSome) (.inv .PoolAlreadyExist))
  let pool ← lift (Pool.create initSqrtPrice initTick env.now tier.tickSpacing s.admin)
  let pools ← lift (poolsAdd s.pools key pool)
  write (fun s => { s with pools := pools })
  let pk ← lift (s.poolKeys.add key)
  write (fun s => { s with poolKeys := pk })

/-- `src/invariant_service.rs` 204-218 -/
def changeFeeReceiver (env : Env) (key : PoolKey) (r : ActorId) : W Unit := do
  let s ← read
  lift (failIf (s.admin ≠ env.caller) (.inv .NotAdmin))
  let pool ← lift (poolsGet s.pools key)
  poolUpdate key { pool with feeReceiver := r }

/-- `src/invariant_service.rs` 269-285 -/
def putTick (key : PoolKey) (t : Tick) (isNew : Bool) : W Unit :=
  if isNew then addTick key t else tickUpdate key t.index t

/-- `src/invariant_service.rs` 220-301 -/
def createPosition (env : Env) (key : PoolKey) (lower upper : Int) (delta limitLower limitUpper : Nat) :
    W Unit := do
  let s ← read
  lift (failIf (delta = 0) (.inv .ZeroLiquidity))
  lift (failIf (lower = upper) (.inv .InvalidTickIndex))
  let pool ← lift (poolsGet s.pools key)
  let lt ← lift (getOrCreateTick s env.now key lower)
  let ut ← lift (getOrCreateTick s env.now key upper)
  let r ← lift (Position.create pool key lt.1 ut.1 env.now delta limitLower limitUpper env.block
    key.feeTier.tickSpacing)
  let _ ← decrease key.tokenX env.caller (some r.amountX)
  let _ ← decrease key.tokenY env.caller (some r.amountY)
  poolUpdate key r.pool
  posAdd env.caller r.position
  putTick key r.lower lt.2
  putTick key r.upper ut.2

/-- `src/invariant_service.rs` 346-361 -/
def dropTick (key : PoolKey) (i : Int) (t : Tick) : W Unit :=
  if t.liquidityGross = 0 then removeTick key t else tickUpdate key i t

/-- `src/invariant_service.rs` 319-388 -/
def removePosition (env : Env) (index : Nat) : W Unit := do
  let s ← read
  let p ← lift (s.positions.get env.caller index)
  let lower ← lift (ticksGet s.ticks p.poolKey p.lowerTickIndex)
  let upper ← lift (ticksGet s.ticks p.poolKey p.upperTickIndex)
  let pool ← lift (poolsGet s.pools p.poolKey)
  let r ← lift (p.remove pool env.now lower upper p.poolKey.feeTier.tickSpacing)
  poolUpdate p.poolKey r.pool
  dropTick p.poolKey p.lowerTickIndex r.lower
  dropTick p.poolKey p.upperTickIndex r.upper
  let _ ← posRemove env.caller index
  increase p.poolKey.tokenX env.caller r.amountX
  increase p.poolKey.tokenY env.caller r.amountY

/-- `src/invariant_service.rs` 390-398 -/
def transferPosition (env : Env) (index : Nat) (receiver : ActorId) : W Unit := do
  let p ← posRemove env.caller index
  posAdd receiver p

/-- `src/invariant_service.rs` 503-506 -/
def updateTicks (key : PoolKey) : List Tick → W Unit
  | [] => pure ()
  | t :: l => do
    tickUpdate key t.index t
    updateTicks key l

/-- `src/invariant_service.rs` 479-554 -/
def swap (env : Env) (key : PoolKey) (xToY : Bool) (amount : Nat) (byIn : Bool) (limit : Nat) :
    W CalculateSwapResult := do
  let s ← read
  let r ← lift (calculateSwap s env.now key xToY amount byIn limit)
  updateTicks key r.ticks
  poolUpdate key r.pool
  let _ ← decrease (if xToY then key.tokenX else key.tokenY) env.caller (some r.amountIn)
  increase (if xToY then key.tokenY else key.tokenX) env.caller r.amountOut
  pure r

/-- `src/invariant_service.rs` 605-638 -/
def routeSwap (env : Env) : List SwapHop → Nat → W Nat
  | [], amount => pure amount
  | h :: t, amount => do
    let r ← swap env h.key h.xToY amount true (hopLimit h.xToY)
    routeSwap env t r.amountOut

/-- `src/invariant_service.rs` 556-574 -/
def swapRoute (env : Env) (amountIn expected slippage : Nat) (hops : List SwapHop) : W Unit := do
  let out ← routeSwap env hops amountIn
  let minOut ← lift (calculateMinAmountOut expected slippage)
  lift (failIf (out < minOut) (.inv .AmountUnderMinimumAmountOut))

/-- `src/invariant_service.rs` 640-682 -/
def claimFee (env : Env) (index : Nat) : W Unit := do
  let s ← read
  let p ← lift (s.positions.get env.caller index)
  let lower ← lift (ticksGet s.ticks p.poolKey p.lowerTickIndex)
  let upper ← lift (ticksGet s.ticks p.poolKey p.upperTickIndex)
  let pool ← lift (poolsGet s.pools p.poolKey)
  let r ← lift (p.claimFee pool upper lower env.now)
  posUpdate env.caller index r.position
  poolUpdate p.poolKey r.pool
  tickUpdate p.poolKey r.upper.index r.upper
  tickUpdate p.poolKey r.lower.index r.lower
  increase p.poolKey.tokenX env.caller r.amountX
  increase p.poolKey.tokenY env.caller r.amountY

/-- `src/invariant_service.rs` 684-704 -/
def withdrawProtocolFee (env : Env) (key : PoolKey) : W Unit := do
  let s ← read
  let pool ← lift (poolsGet s.pools key)
  lift (failIf (pool.feeReceiver ≠ env.caller) (.inv .NotFeeReceiver))
  let w := pool.withdrawProtocolFee
  poolUpdate key w.1
  increase key.tokenX env.caller w.2.1
  increase key.tokenY env.caller w.2.2

/-- `src/invariant_service.rs` 717-726 -/
def depositVara (env : Env) : W Unit := increase VARA env.caller env.value

/-- `unwrap_or`: the error is dropped and the writes made so far stay -/
def orElse {α : Type} (w : W α) (a : α) : W α := fun s =>
  match w s with
  | (.ok b, s') => (.ok b, s')
  | (.error _, s') => (.ok a, s')

/-- `src/invariant_service.rs` 728-767 -/
def withdrawVara (env : Env) (value : Option Nat) : W Unit := do
  let v ← (match value with
    | some v => do
      lift (failIf (v = 0) (.inv .AmountIsZero))
      decrease VARA env.caller (some v)
    | none => orElse (decrease VARA env.caller none) 0)
  let _ ← lift (fit 128 .panic v)

/-- one command -/
def exec (env : Env) : Call → W Unit
  | .changeProtocolFee f => changeProtocolFee env f
  | .addFeeTier t => addFeeTier env t
  | .removeFeeTier t => removeFeeTier env t
  | .createPool x y t p i => createPool env x y t p i
  | .changeFeeReceiver k r => changeFeeReceiver env k r
  | .createPosition k l u d a b => createPosition env k l u d a b
  | .removePosition i => removePosition env i
  | .transferPosition i r => transferPosition env i r
  | .swap k d a b l => do let _ ← swap env k d a b l
  | .swapRoute a e sl h => swapRoute env a e sl h
  | .claimFee i => claimFee env i
  | .withdrawProtocolFee k => withdrawProtocolFee env k
  | .depositVara => depositVara env
  | .withdrawVara v => withdrawVara env v

/-- the runtime: the memory of a message that panicked is discarded -/
def handle (env : Env) (s : Inv) (c : Call) : Inv :=
  match exec env c s with
  | (.ok _, s') => s'
  | (.error _, _) => s

end Inplace
end Verif
