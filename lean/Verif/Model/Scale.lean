import Verif.Base

/-!
# How a reply of a token contract is read

`msg::load::<T>()` decodes the payload with the SCALE codec and ignores bytes that follow the value.
The codec itself is a dependency; the decoders below follow `parity-scale-codec`: a string is its
length as a compact integer followed by that many bytes, which have to be valid UTF-8.
Bytes are numbers below 256.
-/

namespace Verif

abbrev Bytes := List Nat

namespace Scale

/-- UTF-8 continuation byte -/
def cont (b : Nat) : Bool := decide (128 ≤ b ∧ b < 192)

/-- `core::str::from_utf8(..).is_ok()` -/
def utf8 : Bytes → Bool
  | [] => true
  | a :: l =>
    if a < 128 then utf8 l
    else match l with
      | [] => false
      | b :: l2 =>
        if 194 ≤ a ∧ a < 224 then cont b && utf8 l2
        else match l2 with
          | [] => false
          | c :: l3 =>
            if 224 ≤ a ∧ a < 240 then
              cont b && decide ((a = 224 → 160 ≤ b) ∧ (a = 237 → b < 160)) && cont c && utf8 l3
            else match l3 with
              | [] => false
              | d :: l4 =>
                if 240 ≤ a ∧ a < 245 then
                  cont b && decide ((a = 240 → 144 ≤ b) ∧ (a = 244 → b < 144)) && cont c && cont d &&
                    utf8 l4
                else false

/-- a compact `u32` and the remaining bytes; non-canonical forms are refused -/
def compact : Bytes → Option (Nat × Bytes)
  | [] => none
  | a :: l =>
    match a % 4 with
    | 0 => some (a / 4, l)
    | 1 => match l with
      | b :: l => let n := (a + 256 * b) / 4; if 64 ≤ n then some (n, l) else none
      | _ => none
    | 2 => match l with
      | b :: c :: d :: l =>
        let n := (a + 256 * b + 65536 * c + 16777216 * d) / 4
        if 16384 ≤ n then some (n, l) else none
      | _ => none
    | _ => match l with
      | b :: c :: d :: e :: l =>
        let n := b + 256 * c + 65536 * d + 16777216 * e
        if a = 3 ∧ 1073741824 ≤ n then some (n, l) else none
      | _ => none

/-- `String::decode` -/
def string (l : Bytes) : Option (Bytes × Bytes) :=
  match compact l with
  | none => none
  | some (n, l) =>
    if n ≤ l.length ∧ utf8 (l.take n) = true then some (l.take n, l.drop n) else none

/-- `bool::decode` -/
def bool : Bytes → Option (Bool × Bytes)
  | 0 :: l => some (false, l)
  | 1 :: l => some (true, l)
  | _ => none

/-- `<(String, String, bool)>::decode` -/
def response (l : Bytes) : Option (Bytes × Bytes × Bool) :=
  match string l with
  | none => none
  | some (a, l) =>
    match string l with
    | none => none
    | some (b, l) =>
      match bool l with
      | none => none
      | some (c, _) => some (a, b, c)

/-- the text "Vft" -/
def vft : Bytes := [86, 102, 116]

/-- the text "TransferFrom" -/
def transferFrom : Bytes := [84, 114, 97, 110, 115, 102, 101, 114, 70, 114, 111, 109]

end Scale
end Verif
