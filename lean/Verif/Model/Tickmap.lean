import Verif.Model.Storage

/-!
# Model of `src/contracts/collections/tickmap.rs`

A chunk is a 64-bit word, modelled by a `Nat`.
-/

namespace Verif

/-- `src/contracts/collections/tickmap.rs` 11-14 -/
abbrev Tickmap := Map (Nat × PoolKey) Nat

/-- `CHUNK_SIZE`, `tickmap.rs` 9 -/
def CHUNK_SIZE : Nat := 64

/-- `tickmap.rs` 16-21 `get_max_chunk` -/
def getMaxChunk (spacing : Nat) : Nat :=
  ((getMaxTick spacing + MAX_TICK).tdiv spacing).toNat / CHUNK_SIZE

/-- the index of a tick in the bitmap, `tickmap.rs` 37 -/
def bitmapIndex (tick : Int) (spacing : Nat) : Nat := ((tick + MAX_TICK).tdiv spacing).toNat

/-- `tickmap.rs` 23-43 `tick_to_position` (the two `assert`s panic) -/
def tickToPosition (tick : Int) (spacing : Nat) : M (Nat × Nat) := do
  ensure (-MAX_TICK ≤ tick ∧ tick ≤ MAX_TICK) .panic
  ensure (tick.tmod spacing = 0) .panic
  let i := bitmapIndex tick spacing
  pure (i / CHUNK_SIZE, i % CHUNK_SIZE)

/-- `tickmap.rs` 45-49 `position_to_tick` -/
def positionToTick (chunk bit spacing : Nat) : Int :=
  ((chunk * CHUNK_SIZE * spacing + bit * spacing : Nat) : Int) - getMaxTick spacing

/-- `tickmap.rs` 51-53 `get_bit_at_position` -/
def getBitAtPosition (value position : Nat) : Nat := (value >>> position) &&& 1

/-- `tickmap.rs` 55-57 `flip_bit_at_position` -/
def flipBitAtPosition (value position : Nat) : Nat := value ^^^ (1 <<< position)

/-- `tickmap.rs` 59-79 `get_search_limit` -/
def getSearchLimit (tick : Int) (spacing : Nat) (up : Bool) : Int :=
  let index := tick.tdiv spacing
  let limit :=
    if up then min (index + TICK_SEARCH_RANGE) (MAX_TICK.tdiv spacing)
    else max (index - TICK_SEARCH_RANGE) ((-MAX_TICK).tdiv spacing)
  limit * spacing

/-- word of a chunk: `self.bitmap.get(&(chunk, pool_key)).copied().unwrap_or(0)` -/
def chunkWord (tm : Tickmap) (key : PoolKey) (chunk : Nat) : Nat := (tm.get (chunk, key)).getD 0

/-- `tickmap.rs` 100-103: the inner `while shifted % 2 == 0` loop, returns the bit.
`n` bounds the iterations (called with 64, enough for a non-zero 64-bit word). -/
def skipZerosUp : Nat → Nat → Nat → Nat
  | 0, _, bit => bit
  | n + 1, shifted, bit => if shifted % 2 = 0 then skipZerosUp n (shifted >>> 1) (bit + 1) else bit

/-- index to tick, `tickmap.rs` 108-115 and 154-161 -/
def indexToTick (chunk bit spacing : Nat) : Int :=
  ((((chunk * CHUNK_SIZE + bit : Nat) : Int) - MAX_TICK.tdiv spacing) * spacing)

/-- `tickmap.rs` 95-127: the chunk loop of `next_initialized`; the first argument is the number of
chunks left up to the limiting chunk. -/
def nextLoop (tm : Tickmap) (key : PoolKey) (spacing limChunk limBit : Nat) :
    Nat → Nat → Nat → Option Int
  | 0, _, _ => none
  | n + 1, chunk, bit =>
    if chunk < limChunk ∨ (chunk = limChunk ∧ bit ≤ limBit) then
      let shifted := chunkWord tm key chunk >>> bit
      if shifted ≠ 0 then
        let bit := skipZerosUp 64 shifted bit
        if chunk < limChunk ∨ (chunk = limChunk ∧ bit ≤ limBit) then
          some (indexToTick chunk bit spacing)
        else none
      else nextLoop tm key spacing limChunk limBit n (chunk + 1) 0
    else none

/-- `tickmap.rs` 82-128 `next_initialized` -/
def nextInitialized (tm : Tickmap) (tick : Int) (spacing : Nat) (key : PoolKey) :
    M (Option Int) := do
  let limit := getSearchLimit tick spacing true
  if tick + spacing > MAX_TICK then pure none
  else do
    let (chunk, bit) ← tickToPosition (tick + spacing) spacing
    let (limChunk, limBit) ← tickToPosition limit spacing
    pure (nextLoop tm key spacing limChunk limBit (limChunk + 1 - chunk) chunk bit)

/-- `tickmap.rs` 146-149: the inner `while value & mask == 0` loop, returns the bit; `none` when
`bit.checked_sub(1)?` fails. -/
def skipZerosDown : Nat → Nat → Option Nat
  | value, 0 => if value &&& (1 <<< 0) = 0 then none else some 0
  | value, bit + 1 =>
    if value &&& (1 <<< (bit + 1)) = 0 then skipZerosDown value bit else some (bit + 1)

/-- `tickmap.rs` 137-175: the chunk loop of `prev_initialized`; recursion on the chunk -/
def prevLoop (tm : Tickmap) (key : PoolKey) (spacing limChunk limBit : Nat) :
    Nat → Nat → Option Int
  | chunk, bit =>
    if chunk > limChunk ∨ (chunk = limChunk ∧ bit ≥ limBit) then
      let value := chunkWord tm key chunk
      if value % (1 <<< (bit + 1)) > 0 then
        match skipZerosDown value bit with
        | none => none
        | some bit =>
          if chunk > limChunk ∨ (chunk = limChunk ∧ bit ≥ limBit) then
            some (indexToTick chunk bit spacing)
          else none
      else
        match chunk with
        | 0 => none
        | c + 1 => prevLoop tm key spacing limChunk limBit c (CHUNK_SIZE - 1)
    else none

/-- `tickmap.rs` 131-176 `prev_initialized` -/
def prevInitialized (tm : Tickmap) (tick : Int) (spacing : Nat) (key : PoolKey) :
    M (Option Int) := do
  let limit := getSearchLimit tick spacing false
  let (chunk, bit) ← tickToPosition tick spacing
  let (limChunk, limBit) ← tickToPosition limit spacing
  pure (prevLoop tm key spacing limChunk limBit chunk bit)

/-- `tickmap.rs` 180-223 `get_closer_limit` -/
def getCloserLimit (tm : Tickmap) (limit : Nat) (xToY : Bool) (curTick : Int) (spacing : Nat)
    (key : PoolKey) : M (Nat × Option (Int × Bool)) := do
  let closest ← (if xToY then prevInitialized tm curTick spacing key
                 else nextInitialized tm curTick spacing key)
  match closest with
  | some index => do
    let sp ← unwrap (calculateSqrtPrice index)
    if (xToY = true ∧ sp > limit) ∨ (xToY = false ∧ sp < limit) then
      pure (sp, some (index, true))
    else pure (limit, none)
  | none => do
    let index := getSearchLimit curTick spacing (!xToY)
    let sp ← unwrap (calculateSqrtPrice index)
    failIf (curTick = index) (.inv .TickLimitReached)
    if (xToY = true ∧ sp > limit) ∨ (xToY = false ∧ sp < limit) then
      pure (sp, some (index, false))
    else pure (limit, none)

/-- `tickmap.rs` 225-229 `get` -/
def tickmapGet (tm : Tickmap) (tick : Int) (spacing : Nat) (key : PoolKey) : M Bool := do
  let (chunk, bit) ← tickToPosition tick spacing
  pure (decide (getBitAtPosition (chunkWord tm key chunk) bit = 1))

/-- `tickmap.rs` 231-243 `flip` -/
def tickmapFlip (tm : Tickmap) (value : Bool) (tick : Int) (spacing : Nat) (key : PoolKey) :
    M Tickmap := do
  let (chunk, bit) ← tickToPosition tick spacing
  let word := chunkWord tm key chunk
  ensure (decide (getBitAtPosition word bit = 0) = value) .panic
  pure (tm.insert (chunk, key) (flipBitAtPosition word bit))

end Verif
