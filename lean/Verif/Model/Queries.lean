import Verif.Model.Service
import Verif.Model.Sdk

/-!
# The queries that combine several collections

`src/invariant_service.rs`: `get_positions`, `get_position_with_associates`, `get_position_ticks`, and the
paging of `sdk/src/invariant.ts`. Queries that read one entry of one collection are the functions of
`Model/State`; `get_all_pools_for_pair`, `get_tickmap` and `get_user_balances` are in `Model/Service`,
`get_liquidity_ticks` is in `Model/Sdk`.
-/

namespace Verif.Service

/-- a pool with positions in it and their indexes -/
abbrev Group := Pool × List (Position × Nat)

/-- `src/invariant_service.rs` 416-428: the body of the loop of `get_positions`. The search for the first
entry of the same pool and the insertion are one traversal here. -/
def groupInsert (pools : Map PoolKey Pool) (e : Position × Nat) : List Group → M (List Group)
  | [] => do
    let pool ← poolsGet pools e.1.poolKey
    pure [(pool, [e])]
  | g :: gs => do
    let first ← okOr .panic g.2.head?
    if first.1.poolKey = e.1.poolKey then pure ((g.1, g.2 ++ [e]) :: gs)
    else do
      let r ← groupInsert pools e gs
      pure (g :: r)

/-- `src/invariant_service.rs` 413-430: the loop of `get_positions` -/
def groupAll (pools : Map PoolKey Pool) : List (Position × Nat) → List Group → M (List Group)
  | [], acc => .ok acc
  | e :: l, acc => do
    let acc ← groupInsert pools e acc
    groupAll pools l acc

/-- `src/invariant_service.rs` 404-433 `get_positions`; `offset + index` is below the number of positions,
so it does not overflow -/
def getPositions (s : Inv) (owner : ActorId) (size offset : Nat) : M (List Group × Nat) := do
  let ps ← s.positions.getSlice owner offset size
  let g ← groupAll s.pools (ps.zip (List.range' offset ps.length)) []
  pure (g, s.positions.getLength owner)

/-- `src/invariant_service.rs` 435-451 `get_position_with_associates` -/
def getPositionWithAssociates (s : Inv) (owner : ActorId) (index : Nat) :
    M (Position × Pool × Tick × Tick) := do
  let p ← s.positions.get owner index
  let pool ← poolsGet s.pools p.poolKey
  let lower ← ticksGet s.ticks p.poolKey p.lowerTickIndex
  let upper ← ticksGet s.ticks p.poolKey p.upperTickIndex
  pure (p, pool, lower, upper)

/-- `src/contracts/storage/tick.rs` 60-65 -/
structure PositionTick where
  index : Int
  feeGrowthOutsideX : Nat
  feeGrowthOutsideY : Nat
  secondsOutside : Nat
  deriving DecidableEq, Repr

/-- `src/contracts/storage/tick.rs` 67-76 -/
def PositionTick.ofTick (t : Tick) : PositionTick :=
  ⟨t.index, t.feeGrowthOutsideX, t.feeGrowthOutsideY, t.secondsOutside⟩

/-- `src/contracts/storage/tick.rs` 13 -/
def POSITION_TICK_LIMIT : Nat := 17872

/-- `src/invariant_service.rs` 1098-1104 and 1106-1112: a tick that does not exist is skipped -/
def pushTick (s : Inv) (key : PoolKey) (i : Int) (acc : List PositionTick) : List PositionTick :=
  match ticksGet s.ticks key i with
  | .ok t => acc ++ [.ofTick t]
  | .error _ => acc

/-- `src/invariant_service.rs` 1093-1119: the loop of `get_position_ticks`; a position that does not exist is
skipped -/
def positionTicksLoop (s : Inv) (owner : ActorId) : List Nat → List PositionTick → List PositionTick
  | [], acc => acc
  | i :: l, acc =>
    let acc := (match s.positions.get owner i with
      | .ok p => pushTick s p.poolKey p.upperTickIndex (pushTick s p.poolKey p.lowerTickIndex acc)
      | .error _ => acc)
    if acc.length ≥ POSITION_TICK_LIMIT then acc else positionTicksLoop s owner l acc

/-- `src/invariant_service.rs` 1088-1122 `get_position_ticks` -/
def getPositionTicks (s : Inv) (owner : ActorId) (offset : Nat) : List PositionTick :=
  positionTicksLoop s owner (rangeFromTo offset (s.positions.getLength owner)) []

end Verif.Service

namespace Verif.Sdk
open Service

/-- insertion into a list sorted by index -/
def insertByIndex (e : (Position × Nat) × Verif.Pool) : List ((Position × Nat) × Verif.Pool) → List ((Position × Nat) × Verif.Pool)
  | [] => [e]
  | a :: l => if a.1.2 ≤ e.1.2 then a :: insertByIndex e l else e :: a :: l

/-- `Array.prototype.sort` with the difference of the indexes as comparison; the indexes are distinct, so every
sorting method gives the same list -/
def sortByIndex : List ((Position × Nat) × Verif.Pool) → List ((Position × Nat) × Verif.Pool)
  | [] => []
  | a :: l => insertByIndex a (sortByIndex l)

/-- `sdk/src/invariant.ts` 281-307 `getPositions` -/
def getPositions (s : Inv) (owner : ActorId) (size offset : Nat) : M (List (Position × Verif.Pool) × Nat) := do
  let r ← Service.getPositions s owner size offset
  let flat := r.1.flatMap (fun g => g.2.map (fun e => (e, g.1)))
  pure ((sortByIndex flat).map (fun v => (v.1.1, v.2)), r.2)

/-- `sdk/src/invariant.ts` 237-258: the pages after the first, from index `i` on, `n` of them -/
def laterPages (s : Inv) (owner : ActorId) (perPage : Nat) : Nat → Nat → M (List (Nat × List (Position × Verif.Pool)))
  | 0, _ => .ok []
  | n + 1, i => do
    let r ← getPositions s owner perPage (i * perPage)
    let rest ← laterPages s owner perPage n (i + 1)
    pure ((i, r.1) :: rest)

/-- `sdk/src/invariant.ts` 212-261 `getAllPositions` with only the owner and optionally the page size given;
all requests see the same state. The number of pages is the quotient rounded up (`Math.ceil`). -/
def getAllPositions (s : Inv) (owner : ActorId) (perPage : Nat) : M (List (Nat × List (Position × Verif.Pool))) := do
  let r ← getPositions s owner perPage 0
  let rest ← laterPages s owner perPage ((r.2 + perPage - 1) / perPage - 1) 1
  pure ((0, r.1) :: rest)

/-- the pages with the given indexes -/
def pagesAt (s : Inv) (owner : ActorId) (perPage : Nat) : List Nat → M (List (Nat × List (Position × Verif.Pool)))
  | [] => .ok []
  | i :: l => do
    let r ← getPositions s owner perPage (i * perPage)
    let rest ← pagesAt s owner perPage l
    pure ((i, r.1) :: rest)

/-- `sdk/src/invariant.ts` 212-261 `getAllPositions` with all its arguments; a count of 0 counts as absent -/
def getAllPositionsWith (s : Inv) (owner : ActorId) (count : Option Nat) (skip : List Nat) (perPage : Nat) :
    M (List (Nat × List (Position × Verif.Pool))) :=
  let first := (skip.find? (fun i => !skip.contains i)).getD 0
  let wanted (start n : Nat) :=
    (List.range' start ((n + perPage - 1) / perPage - start)).filter (fun i => !skip.contains i)
  match count.filter (· ≠ 0) with
  | some n => pagesAt s owner perPage (wanted first n)
  | none => do
    let r ← getPositions s owner perPage (first * perPage)
    let rest ← pagesAt s owner perPage (wanted (first + 1) r.2)
    pure ((0, r.1) :: rest)

/-- `sdk/src/wasm/consts.rs` 10 -/
def MAX_POOL_KEYS_RETURNED : Nat := 9590

/-- `sdk/src/invariant.ts` 187-192: `n` pages from page `i` on -/
def poolKeyPages (s : Inv) : Nat → Nat → M (List PoolKey)
  | 0, _ => .ok []
  | n + 1, i => do
    let r ← getPoolKeys s MAX_POOL_KEYS_RETURNED (i * MAX_POOL_KEYS_RETURNED)
    let rest ← poolKeyPages s n (i + 1)
    pure (r.1 ++ rest)

/-- `sdk/src/invariant.ts` 184-193 `getAllPoolKeys`; all requests see the same state -/
def getAllPoolKeys (s : Inv) : M (List PoolKey) := do
  let r ← getPoolKeys s MAX_POOL_KEYS_RETURNED 0
  let rest ← poolKeyPages s ((r.2 + MAX_POOL_KEYS_RETURNED - 1) / MAX_POOL_KEYS_RETURNED - 1) 1
  pure (r.1 ++ rest)

end Verif.Sdk
