import Verif.Model.Tickmap

/-!
# Model of `src/contracts/collections/*` and `src/invariant_storage.rs`

The state `Inv` has one component per field of `Invariant` (`src/invariant_storage.rs` 18-29).

Simplification: `balances : HashMap<ActorId, HashMap<ActorId, TokenAmount>>` is flattened to a map
with key `(account, token)`. The code removes an inner map when it becomes empty, so the presence of
an empty inner map is not observable (`get_user_balances` treats it as no entry).
-/

namespace Verif

abbrev MessageId := Nat

/-- `src/contracts/storage/awaiting_transfers.rs` 12-16 -/
inductive TransferType
  | deposit | withdrawal
  deriving DecidableEq, Repr

/-- `src/contracts/storage/awaiting_transfers.rs` 4-9 -/
structure AwaitingTransfer where
  account : ActorId
  amount : Nat
  transferType : TransferType
  deriving DecidableEq, Repr

/-- `src/contracts/collections/pool_keys.rs` 4-9 -/
structure PoolKeys where
  index : Map PoolKey Nat
  byIndex : Map Nat PoolKey
  length : Nat

/-- `src/contracts/collections/positions.rs` 4-8 -/
structure Positions where
  length : Map ActorId Nat
  map : Map (ActorId × Nat) Position

/-- `src/invariant_storage.rs` 18-29 (with `InvariantConfig` from `io` flattened) -/
structure Inv where
  admin : ActorId
  protocolFee : Nat
  feeTiers : List FeeTier
  pools : Map PoolKey Pool
  poolKeys : PoolKeys
  positions : Positions
  ticks : Map (PoolKey × Int) Tick
  tickmap : Tickmap
  balances : Map (ActorId × ActorId) Nat
  awaiting : Map (MessageId × ActorId) AwaitingTransfer

/-- state after `seed`, `src/invariant_service.rs` 68-72, `src/invariant_storage.rs` 323-330 -/
def Inv.init (admin : ActorId) (protocolFee : Nat) : Inv :=
  { admin := admin, protocolFee := protocolFee, feeTiers := [], pools := ∅,
    poolKeys := ⟨∅, ∅, 0⟩, positions := ⟨∅, ∅⟩, ticks := ∅, tickmap := ∅, balances := ∅,
    awaiting := ∅ }

/-! ## Collections -/

/-- `n + 1` on `u16` in a build without overflow checks -/
def u16Succ (n : Nat) : Nat := (n + 1) % 2 ^ 16

/-- `n + 1` on `u32` in a build without overflow checks -/
def u32Succ (n : Nat) : Nat := (n + 1) % 2 ^ 32

/-- `n - 1` on `u32` in a build without overflow checks -/
def u32Pred (n : Nat) : Nat := (n + 2 ^ 32 - 1) % 2 ^ 32

/-- `src/contracts/collections/fee_tiers.rs` 11-18 `add` -/
def feeTiersAdd (l : List FeeTier) (t : FeeTier) : M (List FeeTier) :=
  if t ∈ l then .error (.inv .FeeTierAlreadyExist) else .ok (l ++ [t])

/-- `src/contracts/collections/fee_tiers.rs` 20-29 `remove` -/
def feeTiersRemove (l : List FeeTier) (t : FeeTier) : M (List FeeTier) :=
  if t ∈ l then .ok (l.erase t) else .error (.inv .FeeTierNotFound)

/-- `src/contracts/collections/pools.rs` 35-43 `get` -/
def poolsGet (m : Map PoolKey Pool) (k : PoolKey) : M Pool := okOr (.inv .PoolNotFound) (m.get k)

/-- `src/contracts/collections/pools.rs` 10-17 `add` -/
def poolsAdd (m : Map PoolKey Pool) (k : PoolKey) (p : Pool) : M (Map PoolKey Pool) :=
  match m.get k with
  | some _ => .error (.inv .PoolAlreadyExist)
  | none => .ok (m.insert k p)

/-- `src/contracts/collections/pools.rs` 19-24 `update` -/
def poolsUpdate (m : Map PoolKey Pool) (k : PoolKey) (p : Pool) : M (Map PoolKey Pool) := do
  let _ ← poolsGet m k
  pure (m.insert k p)

/-- `src/contracts/collections/pool_keys.rs` 16-27 `add`; the `u16` length wraps -/
def PoolKeys.add (pk : PoolKeys) (k : PoolKey) : M PoolKeys :=
  match pk.index.get k with
  | some _ => .error (.inv .PoolKeyAlreadyExist)
  | none => .ok { index := pk.index.insert k pk.length, byIndex := pk.byIndex.insert pk.length k,
                  length := u16Succ pk.length }

/-- reading a list of indices, every one must be present (`unwrap`) -/
def readAll {V : Type} (get : Nat → Option V) : List Nat → M (List V)
  | [] => .ok []
  | i :: t => do
    let v ← okOr .panic (get i)
    let r ← readAll get t
    pure (v :: r)

/-- the range `a..b` -/
def rangeFromTo (a b : Nat) : List Nat := List.range' a (b - a)

/-- `src/contracts/collections/pool_keys.rs` 45-57 `get_all` -/
def PoolKeys.getAll (pk : PoolKeys) (size offset : Nat) : M (List PoolKey) := do
  let e ← addC 16 .panic offset size
  let max := if e > pk.length then pk.length else e
  readAll pk.byIndex.get (rangeFromTo offset max)

/-- `src/contracts/collections/ticks.rs` 40-47 `get` -/
def ticksGet (m : Map (PoolKey × Int) Tick) (k : PoolKey) (i : Int) : M Tick :=
  okOr (.inv .TickNotFound) (m.get (k, i))

/-- `src/contracts/collections/ticks.rs` 10-17 `add` -/
def ticksAdd (m : Map (PoolKey × Int) Tick) (k : PoolKey) (i : Int) (t : Tick) :
    M (Map (PoolKey × Int) Tick) :=
  match m.get (k, i) with
  | some _ => .error (.inv .TickAlreadyExist)
  | none => .ok (m.insert (k, i) t)

/-- `src/contracts/collections/ticks.rs` 19-29 `update` -/
def ticksUpdate (m : Map (PoolKey × Int) Tick) (k : PoolKey) (i : Int) (t : Tick) :
    M (Map (PoolKey × Int) Tick) := do
  let _ ← ticksGet m k i
  pure (m.insert (k, i) t)

/-- `src/contracts/collections/ticks.rs` 31-36 `remove` -/
def ticksRemove (m : Map (PoolKey × Int) Tick) (k : PoolKey) (i : Int) :
    M (Map (PoolKey × Int) Tick) := do
  let _ ← ticksGet m k i
  pure (m.erase (k, i))

/-- `src/contracts/collections/positions.rs` 101-103 `get_length` -/
def Positions.getLength (ps : Positions) (a : ActorId) : Nat := (ps.length.get a).getD 0

/-- `src/contracts/collections/positions.rs` 11-19 `add`; the `u32` length wraps -/
def Positions.add (ps : Positions) (a : ActorId) (p : Position) : Positions :=
  let n := ps.getLength a
  { length := ps.length.insert a (u32Succ n), map := ps.map.insert (a, n) p }

/-- `src/contracts/collections/positions.rs` 21-37 `update` -/
def Positions.update (ps : Positions) (a : ActorId) (i : Nat) (p : Position) : M Positions :=
  if i ≥ ps.getLength a then .error (.inv .PositionNotFound)
  else .ok { ps with map := ps.map.insert (a, i) p }

/-- `src/contracts/collections/positions.rs` 73-80 `get` -/
def Positions.get (ps : Positions) (a : ActorId) (i : Nat) : M Position :=
  okOr (.inv .PositionNotFound) (ps.map.get (a, i))

/-- `src/contracts/collections/positions.rs` 39-59 `remove`, second part: `n1` is the index of the
last position -/
def Positions.removeAt (ps : Positions) (a : ActorId) (i n1 : Nat) : M Positions := do
  let m ←
    (if i < n1 then do
      let last ← okOr .panic (ps.map.get (a, n1))
      pure ((ps.map.erase (a, n1)).insert (a, i) last)
    else pure (ps.map.erase (a, i)))
  pure { length := ps.length.insert a n1, map := m }

/-- `src/contracts/collections/positions.rs` 39-59 `remove` (`positions_length - 1` is a wrapping
`u32` subtraction) -/
def Positions.remove (ps : Positions) (a : ActorId) (i : Nat) : M (Positions × Position) := do
  let p ← ps.get a i
  let ps' ← ps.removeAt a i (u32Pred (ps.getLength a))
  pure (ps', p)

/-- `src/contracts/collections/positions.rs` 61-71 `transfer` -/
def Positions.transfer (ps : Positions) (a : ActorId) (i : Nat) (b : ActorId) : M Positions := do
  let (ps, p) ← ps.remove a i
  pure (ps.add b p)

/-- `src/contracts/collections/positions.rs` 82-86 `get_all` -/
def Positions.getAll (ps : Positions) (a : ActorId) : M (List Position) :=
  readAll (fun i => ps.map.get (a, i)) (rangeFromTo 0 (ps.getLength a))

/-- `src/contracts/collections/positions.rs` 88-101 `get_slice` -/
def Positions.getSlice (ps : Positions) (a : ActorId) (offset size : Nat) : M (List Position) := do
  let len := ps.getLength a
  let e ← addC 32 .panic offset size
  let max := if e > len then len else e
  readAll (fun i => ps.map.get (a, i)) (rangeFromTo offset max)

/-! ## Balances -/

abbrev Balances := Map (ActorId × ActorId) Nat

/-- `src/invariant_storage.rs` 32-54 `increase_token_balance` -/
def increaseTokenBalance (b : Balances) (token caller : ActorId) (amount : Nat) : M Balances :=
  if amount = 0 then .ok b
  else do
    let v ← addC 256 (.inv .FailedToChangeTokenBalance) ((b.get (caller, token)).getD 0) amount
    pure (b.insert (caller, token) v)

/-- `src/invariant_storage.rs` 56-67 `can_increase_token_balance` -/
def canIncreaseTokenBalance (b : Balances) (token caller : ActorId) (amount : Nat) : Bool :=
  match b.get (caller, token) with
  | some v => decide (v + amount < 2 ^ 256)
  | none => true

/-- `src/invariant_storage.rs` 69-109 `decrease_token_balance` -/
def decreaseTokenBalance (b : Balances) (token caller : ActorId) (amount : Option Nat) :
    M (Balances × Nat) :=
  match amount with
  | some 0 => .ok (b, 0)
  | some (n + 1) => do
    let v ← okOr (.inv .NoBalanceForTheToken) (b.get (caller, token))
    if n + 1 ≠ v then do
      let r ← subC (.inv .FailedToChangeTokenBalance) v (n + 1)
      pure (b.insert (caller, token) r, n + 1)
    else pure (b.erase (caller, token), v)
  | none => do
    let v ← okOr (.inv .NoBalanceForTheToken) (b.get (caller, token))
    pure (b.erase (caller, token), v)

/-! ## Swap -/

/-- `src/contracts/storage/pool.rs` 32-37 -/
inductive UpdatePoolTick
  | noTick
  | initialized (t : Tick)
  | uninitialized (i : Int)
  deriving DecidableEq, Repr

/-- results of `Pool::update_tick` together with the mutated pool and tick -/
structure UpdateTickResult where
  pool : Pool
  tick : UpdatePoolTick
  total : Nat
  remaining : Nat
  crossed : Bool
  deriving DecidableEq, Repr

/-- `src/contracts/storage/pool.rs` 144-202 `Pool::update_tick` -/
def Pool.updateTick (pool : Pool) (result : SwapResult) (swapLimit : Nat) (tick : UpdatePoolTick)
    (remaining : Nat) (byIn xToY : Bool) (now protocolFee : Nat) (tier : FeeTier) :
    M UpdateTickResult :=
  if tick = .noTick ∨ swapLimit ≠ result.nextSqrtPrice then do
    let i ← unwrap (getTickAtSqrtPrice result.nextSqrtPrice tier.tickSpacing)
    pure ⟨{ pool with currentTickIndex := i }, tick, 0, remaining, false⟩
  else do
    let enough ← unwrap (isEnoughAmountToChangePrice remaining result.nextSqrtPrice pool.liquidity
      tier.fee byIn xToY)
    match tick with
    | .initialized t =>
      if xToY = false ∨ enough = true then do
        let (t', pool') ← unwrap (t.cross pool now)
        let i := if xToY && enough then t.index - tier.tickSpacing else t.index
        pure ⟨{ pool' with currentTickIndex := i }, .initialized t', 0, remaining, true⟩
      else if remaining ≠ 0 then
        if byIn then do
          let pool' ← unwrap (pool.addFee remaining xToY protocolFee)
          pure ⟨{ pool' with currentTickIndex := t.index }, tick, remaining, 0, false⟩
        else pure ⟨{ pool with currentTickIndex := t.index }, tick, 0, 0, false⟩
      else pure ⟨{ pool with currentTickIndex := t.index }, tick, 0, remaining, false⟩
    | .uninitialized i =>
      let i := if xToY && enough then i - tier.tickSpacing else i
      pure ⟨{ pool with currentTickIndex := i }, tick, 0, remaining, false⟩
    | .noTick => throw .panic

/-- local variables of the loop in `calculate_swap`, `src/invariant_storage.rs` 124-151 -/
structure SwapState where
  pool : Pool
  ticks : List Tick
  remaining : Nat
  totalIn : Nat
  totalOut : Nat
  fee : Nat
  deriving DecidableEq, Repr

/-- the arguments of `calculate_swap` that stay fixed in the loop, with the block timestamp -/
structure SwapArgs where
  key : PoolKey
  xToY : Bool
  byIn : Bool
  limit : Nat
  now : Nat
  deriving DecidableEq, Repr

/-- `src/invariant_storage.rs` 184-195: fetching the limiting tick -/
def limitingTick (s : Inv) (key : PoolKey) : Option (Int × Bool) → M UpdatePoolTick
  | some (i, true) => do
    let t ← ticksGet s.ticks key i
    pure (.initialized t)
  | some (i, false) => .ok (.uninitialized i)
  | none => .ok .noTick

/-- `src/invariant_storage.rs` 153-233: one iteration of the loop in `calculate_swap` -/
def swapIter (s : Inv) (a : SwapArgs) (st : SwapState) : M SwapState := do
  let spacing := a.key.feeTier.tickSpacing
  let lim ← getCloserLimit s.tickmap a.limit a.xToY st.pool.currentTickIndex spacing a.key
  let swapLimit := lim.1
  let r ← unwrap (computeSwapStep st.pool.sqrtPrice swapLimit st.pool.liquidity st.remaining a.byIn
    a.key.feeTier.fee)
  let inFee ← addC 256 .panic r.amountIn r.feeAmount
  let remaining ← (if a.byIn then subC .panic st.remaining inFee
                   else subC .panic st.remaining r.amountOut)
  let pool ← unwrap (st.pool.addFee r.feeAmount a.xToY s.protocolFee)
  let fee ← addC 256 .panic st.fee r.feeAmount
  let pool := { pool with sqrtPrice := r.nextSqrtPrice }
  let totalIn ← addC 256 .panic st.totalIn inFee
  let totalOut ← addC 256 .panic st.totalOut r.amountOut
  failIf (pool.sqrtPrice = a.limit ∧ remaining ≠ 0) (.inv .PriceLimitReached)
  let tickUpdate ← limitingTick s a.key lim.2
  let u ← pool.updateTick r swapLimit tickUpdate remaining a.byIn a.xToY a.now s.protocolFee
    a.key.feeTier
  let totalIn ← addC 256 .panic totalIn u.total
  let ticks := match u.tick with
    | .initialized t => if u.crossed then st.ticks ++ [t] else st.ticks
    | _ => st.ticks
  let tickLimit := if a.xToY then getMinTick spacing else getMaxTick spacing
  failIf ((a.xToY = true ∧ u.pool.currentTickIndex ≤ tickLimit) ∨
     (a.xToY = false ∧ u.pool.currentTickIndex ≥ tickLimit)) (.inv .TickLimitReached)
  pure { pool := u.pool, ticks := ticks, remaining := u.remaining, totalIn := totalIn,
         totalOut := totalOut, fee := fee }

/-- the loop `while !remaining_amount.is_zero()`, `src/invariant_storage.rs` 152-234. The first
argument bounds the number of iterations; running out of it is reported as `none`. -/
def swapLoop (s : Inv) (a : SwapArgs) : Nat → SwapState → Option (M SwapState)
  | 0, _ => none
  | n + 1, st =>
    if st.remaining = 0 then some (.ok st)
    else match swapIter s a st with
      | .error e => some (.error e)
      | .ok st' => swapLoop s a n st'

/-- bound on the number of loop iterations used in the model; `Props/Terminate` proves that it is never
exhausted on reachable states. -/
def swapFuel : Nat := 2 ^ 129

/-- `io` crate `CalculateSwapResult` -/
structure CalculateSwapResult where
  amountIn : Nat
  amountOut : Nat
  startSqrtPrice : Nat
  targetSqrtPrice : Nat
  fee : Nat
  pool : Pool
  ticks : List Tick
  deriving DecidableEq, Repr

/-- `src/invariant_storage.rs` 119-139: the checks before the loop, returning the pool -/
def swapStart (s : Inv) (key : PoolKey) (xToY : Bool) (amount : Nat) (limit : Nat) : M Pool := do
  failIf (amount = 0) (.inv .AmountIsZero)
  let pool ← poolsGet s.pools key
  failIf (xToY = true ∧ (pool.sqrtPrice ≤ limit ∨ limit > MAX_SQRT_PRICE)) (.inv .WrongLimit)
  failIf (xToY = false ∧ (pool.sqrtPrice ≥ limit ∨ limit < MIN_SQRT_PRICE)) (.inv .WrongLimit)
  pure pool

/-- `src/invariant_storage.rs` 111-249 `calculate_swap`. An exhausted step bound would be reported
as a panic; see `swapFuel`. -/
def calculateSwap (s : Inv) (now : Nat) (key : PoolKey) (xToY : Bool) (amount : Nat) (byIn : Bool)
    (limit : Nat) : M CalculateSwapResult := do
  let pool ← swapStart s key xToY amount limit
  let st ← (swapLoop s ⟨key, xToY, byIn, limit, now⟩ swapFuel
    { pool := pool, ticks := [], remaining := amount, totalIn := 0, totalOut := 0, fee := 0 }).getD
      (.error .panic)
  failIf (st.totalOut = 0) (.inv .NoGainSwap)
  pure { amountIn := st.totalIn, amountOut := st.totalOut, startSqrtPrice := pool.sqrtPrice,
         targetSqrtPrice := st.pool.sqrtPrice, fee := st.fee, pool := st.pool, ticks := st.ticks }

/-! ## Ticks -/

/-- `src/invariant_storage.rs` 251-262 `create_tick` -/
def createTick (s : Inv) (now : Nat) (key : PoolKey) (i : Int) : M Tick := do
  mapErr (.inv .InvalidTickIndexOrTickSpacing) (checkTick i key.feeTier.tickSpacing)
  let pool ← poolsGet s.pools key
  Tick.create i pool now

/-- `src/invariant_storage.rs` 264-270 `get_or_create_tick` -/
def getOrCreateTick (s : Inv) (now : Nat) (key : PoolKey) (i : Int) : M (Tick × Bool) :=
  match s.ticks.get (key, i) with
  | some t => .ok (t, false)
  | none => do
    let t ← unwrap (createTick s now key i)
    pure (t, true)

/-- `src/invariant_storage.rs` 272-279 `add_tick` -/
def addTick (s : Inv) (key : PoolKey) (t : Tick) : M Inv := do
  let ticks ← ticksAdd s.ticks key t.index t
  let tm ← tickmapFlip s.tickmap true t.index key.feeTier.tickSpacing key
  pure { s with ticks := ticks, tickmap := tm }

/-- `src/invariant_storage.rs` 281-290 `remove_tick` -/
def removeTick (s : Inv) (key : PoolKey) (t : Tick) : M Inv := do
  failIf (t.liquidityGross ≠ 0) (.inv .NotEmptyTickDeinitialization)
  let tm ← tickmapFlip s.tickmap false t.index key.feeTier.tickSpacing key
  let ticks ← ticksRemove s.ticks key t.index
  pure { s with ticks := ticks, tickmap := tm }

/-- `src/invariant_storage.rs` 292-306 `tickmap_slice` -/
def tickmapSlice (tm : Tickmap) (range : List Nat) (key : PoolKey) : List (Nat × Nat) :=
  range.filterMap (fun c => (tm.get (c, key)).map (fun w => (c, w)))

/-- `u64::count_ones` -/
def countOnes (w : Nat) : Nat := ((List.range 64).filter (fun i => w.testBit i)).length

/-- `src/invariant_storage.rs` 308-317 `liquidity_ticks_count` (range end exclusive; `u32` sum
cannot overflow) -/
def liquidityTicksCount (tm : Tickmap) (key : PoolKey) : Nat :=
  ((List.range (getMaxChunk key.feeTier.tickSpacing)).map
    (fun c => match tm.get (c, key) with | some w => countOnes w | none => 0)).sum

end Verif
