import Verif.Model.Scale

/-!
# Reading the text of an address

`0x` and 64 hexadecimal digits, most significant first, in small or capital letters.
-/

namespace Verif.Spec

/-- the value of a hexadecimal digit -/
def hexDigit (b : Nat) : Option Nat :=
  if 48 ≤ b ∧ b ≤ 57 then some (b - 48)
  else if 97 ≤ b ∧ b ≤ 102 then some (b - 87)
  else if 65 ≤ b ∧ b ≤ 70 then some (b - 55)
  else none

/-- the number written by a list of hexadecimal digits, the first of them the most significant -/
def readHex : Bytes → Option Nat
  | [] => some 0
  | b :: l => do
    let d ← hexDigit b
    let n ← readHex l
    pure (d * 16 ^ l.length + n)

/-- the address a text stands for -/
def readAddress : Bytes → Option Nat
  | 48 :: 120 :: l => if l.length = 64 then readHex l else none
  | _ => none

/-- no capital letters -/
def Small (l : Bytes) : Prop := ∀ b ∈ l, ¬ (65 ≤ b ∧ b ≤ 90)

end Verif.Spec
