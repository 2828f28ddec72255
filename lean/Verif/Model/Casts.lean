import Verif.Base

/-!
# Model of `calc/decimal/decimal_core/src/uint_casts.rs` and `calc/decimal/src/uint.rs`

A wide integer (`U128` … `U512`) is the list of its 64-bit words, lowest first. The generated
implementations are parametric in the numbers of words; here they are functions of those numbers.
-/

namespace Verif

/-- words of a wide integer, lowest first -/
abbrev Words := List Nat

/-- a well-formed wide integer of `n` words -/
def Words.WF (n : Nat) (l : Words) : Prop := l.length = n ∧ ∀ w ∈ l, w < 2 ^ 64

/-- `a | b | …`, `uint_casts.rs` 26-43 `overflow_chunks` -/
def orAll (l : Words) : Nat := l.foldr (· ||| ·) 0

/-- `uint_casts.rs` 121-133 `cast_up`: `UintCast`/`UintCheckedCast` to a type of `n` words -/
def castUp (n : Nat) (l : Words) : M Words := .ok (l ++ List.replicate (n - l.length) 0)

/-- `uint_casts.rs` 136-153 `cast_down`: `UintCheckedCast` to a type of `n` words -/
def castDown (n : Nat) (l : Words) : M Words :=
  if orAll (l.drop n) ≠ 0 then .error .track else .ok (l.take n)

/-- `low_u64` of the `uint` crate -/
def lowU64 (l : Words) : Nat := l.getD 0 0

/-- `low_u128` of the `uint` crate -/
def lowU128 (l : Words) : Nat := (l.getD 1 0) <<< 64 + l.getD 0 0

/-- `uint_casts.rs` 245-267: cast down to `u8`, `u16`, `u32` (`w` bits). Only word 0 is looked at. -/
def castNarrow (w : Nat) (l : Words) : M Nat :=
  if l.getD 0 0 > 2 ^ w - 1 then .error .track else .ok (l.getD 0 0 % 2 ^ w)

/-- `uint_casts.rs` 270-290: cast down to `u64` (types of at least 2 words) -/
def castU64 (l : Words) : M Nat :=
  if orAll (l.drop 1) ≠ 0 then .error .track else .ok (lowU64 l)

/-- `uint_casts.rs` 293-314 (types of at least 3 words) and 222-237 (`U128`, where the cast always
succeeds): cast down to `u128` -/
def castU128 (l : Words) : M Nat :=
  if l.length = 2 then .ok (lowU128 l)
  else if orAll (l.drop 2) ≠ 0 then .error .track else .ok (lowU128 l)

/-- `uint_casts.rs` 181-203 and 205-218: cast up of a primitive to a type of `n` words, by the
`From` implementations of the `uint` crate (low word, high word, zeros). -/
def castPrim (n v : Nat) : Words := [v % 2 ^ 64, v >>> 64] ++ List.replicate (n - 2) 0

/-- `calc/decimal/src/uint.rs` 52-59: cast of an `i32` to `u128` -/
def castI32 (v : Int) : M Nat := if v < 0 then .error .panic else .ok (v.toNat % 2 ^ 32)

/-- value of a word list (used by the shift operators of the `uint` crate) -/
def wordsVal : Words → Nat
  | [] => 0
  | w :: t => w + 2 ^ 64 * wordsVal t

/-- `calc/decimal/src/uint.rs` 113-125 `checked_u320_to_u256` (the shifts are those of the `uint`
crate, modelled on the value) -/
def checkedU320ToU256 (l : Words) : Option Words :=
  let n := wordsVal l
  if n >>> 256 ≠ 0 then none
  else some [n % 2 ^ 64, (n >>> 64) % 2 ^ 64, (n >>> 128) % 2 ^ 64, (n >>> 192) % 2 ^ 64]

/-- `calc/decimal/src/uint.rs` 132-135 `to_u256` -/
def toU256 (n : Nat) : Words := [n % 2 ^ 64, (n >>> 64) % 2 ^ 64, 0, 0]

/-- `calc/decimal/src/uint.rs` 137-146 `u256_to_u320` -/
def u256ToU320 (l : Words) : Words :=
  let n := wordsVal l
  [n % 2 ^ 64, (n >>> 64) % 2 ^ 64, (n >>> 128) % 2 ^ 64, (n >>> 192) % 2 ^ 64, 0]

end Verif
