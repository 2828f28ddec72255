import Verif.Model.Math
import Verif.Model.Tickmap
import Verif.Model.Decimal
import Mathlib.Data.Nat.Digits.Defs

/-!
# Model of the boundary between the SDK's TypeScript and its wasm functions

`sdk/src/wasm/wasm_wrapper` (the `#[wasm_wrapper]` macro), `sdk/src/wasm/helpers.rs`,
`sdk/src/wasm-serializer.ts` and the serialisation in `calc/decimal/src/uint.rs`. A JavaScript `bigint` is an
integer. `serde_wasm_bindgen` reads a 64-bit number from a `bigint` and refuses values outside the type.
Errors and panics both reach the caller as exceptions; `Err.panic` stands for either.
-/

namespace Verif.Wasm

/-! ## Arguments -/

/-- `serde_wasm_bindgen::from_value::<i64>` -/
def readI64 (v : Int) : M Int := if -2 ^ 63 ≤ v ∧ v < 2 ^ 63 then .ok v else .error .panic

/-- `serde_wasm_bindgen::from_value::<u64>` -/
def readU64 (v : Int) : M Nat := if 0 ≤ v ∧ v < 2 ^ 64 then .ok v.toNat else .error .panic

/-- `x as i32` -/
def cutI32 (v : Int) : Int := (v + 2 ^ 31) % 2 ^ 32 - 2 ^ 31

/-- `wasm_wrapper/src/conversion.rs` 7-68: an argument of type `i32` is read as `i64` and cut -/
def argI32 (v : Int) : M Int := do
  let x ← readI64 v
  pure (cutI32 x)

/-- `wasm_wrapper/src/conversion.rs` 7-68: an argument of type `u8`, `u16` or `u32` (`w` bits) is read as `u64`
and cut -/
def argU (w : Nat) (v : Int) : M Nat := do
  let x ← readU64 v
  pure (x % 2 ^ w)

/-! ## Numbers of 256 bits as text -/

/-- `BigInt.prototype.toString`, `wasm-serializer.ts` 43-49, and `to_string` of the `uint` crate, `uint.rs`
72-79 and 90-97; bytes -/
def text (v : Int) : List Nat :=
  let digits := if v = 0 then [0] else (Nat.digits 10 v.natAbs).reverse
  let body := digits.map (48 + ·)
  if v < 0 then 45 :: body else body

/-- one step of the loop of `from_dec_str` of the `uint` crate -/
def pushDigit (bits : Nat) (r b : Nat) : M Nat := do
  let t ← mulC bits .panic r 10
  addC bits .panic t (b - 48)

/-- `from_dec_str` of the `uint` crate with the `unwrap` of `uint.rs` 80-88 and 98-106 -/
def readText (bits : Nat) (l : List Nat) : M Nat :=
  if l.all (fun b => decide (48 ≤ b ∧ b ≤ 57)) then l.foldlM (pushDigit bits) 0 else .error .panic

/-- `BigInt(value)` of a text of digits, `wasm-serializer.ts` 35-41 -/
def bigInt (l : List Nat) : Nat := l.foldl (fun r b => r * 10 + (b - 48)) 0

/-! ## Results -/

/-- the words of a number of `n` words, lowest first (`result.get().as_ref()`, `.get().0`) -/
def words (n v : Nat) : List Nat := (List.range n).map (fun i => v / 2 ^ (64 * i) % 2 ^ 64)

/-- `wasm_wrapper/src/export.rs` 66-75: `v | word << (index * 64)` over all words -/
def orWords (l : List Nat) : Nat :=
  (l.zipIdx).foldl (fun v p => v ||| p.1 <<< (p.2 * 64)) 0

/-- `helpers.rs` 47-50: `acc << 64 | word` from the highest word -/
def foldWords (l : List Nat) : Nat := l.reverse.foldl (fun acc x => acc <<< 64 ||| x) 0

/-! ## Exported functions -/

/-- `sdk/src/utils.ts` 698-700, `sdk/src/wasm/types/sqrt_price.rs` 132-133 `calculateSqrtPrice` -/
def calculateSqrtPrice (tick : Int) : M Nat := do
  let t ← argI32 tick
  Verif.calculateSqrtPrice t

/-- `sdk/src/utils.ts` 143-148 `integerSafeCast` -/
def integerSafeCast (v : Int) : M Int :=
  if v > 2 ^ 53 - 1 ∨ v < -(2 ^ 53 - 1) then .error .panic else .ok v

/-- `helpers.rs` 39-51 and 72-81 `_toLiquidity`, `_toSqrtPrice` … with `sdk/src/utils.ts` 660-690 -/
def toDecimal (S : DecType) (val scale : Int) : M Nat := do
  let sc ← integerSafeCast scale
  let v ← readU64 val
  let k ← readU64 sc
  Decimal.fromScale S v (k % 2 ^ 8)

end Verif.Wasm
