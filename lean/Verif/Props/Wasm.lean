import Verif.Proofs.Wasm
import Verif.Props.Decimal

/-!
# Property C81: numbers cross the boundary of the SDK unchanged or are refused

Numbers of 256 bits travel as text and come back as words; small integers are arguments of wrapped functions.
For small integers it is false (`C81_negation`): they are read as 64 bits and cut.
-/

namespace Verif
open Wasm Decimal

/-- C81: a number written for a 256-bit (or 128-bit) argument arrives unchanged if it fits and is refused
otherwise, negative numbers included; a number written by the wasm side reads back unchanged. -/
theorem C81_text (bits : Nat) (z : Int) (v n : Nat) :
    (readText bits (text z) = .ok v ↔ z = v ∧ z < 2 ^ bits) ∧ bigInt (text n) = n := by
  refine ⟨?_, value_text n⟩
  rcases lt_or_ge z 0 with hz | hz
  · rw [readText_neg hz]
    constructor
    · intro h; cases h
    · rintro ⟨h, _⟩; omega
  · obtain ⟨m, rfl⟩ := Int.eq_ofNat_of_zero_le hz
    rw [readText_nat]
    constructor
    · rintro ⟨h1, rfl⟩; exact ⟨rfl, by exact_mod_cast h1⟩
    · rintro ⟨h1, h2⟩; exact ⟨by exact_mod_cast h2, by exact_mod_cast h1.symm⟩

/-- 12345678901234567890123 (more than 64 bits) survives; 2^256 and -1 are refused -/
example : readText 256 (text 12345678901234567890123) = .ok 12345678901234567890123 ∧
    (∀ v, readText 256 (text (2 ^ 256)) ≠ .ok v) ∧ (∀ v, readText 256 (text (-1)) ≠ .ok v) ∧
    text 120 = [49, 50, 48] := by
  refine ⟨(C81_text _ _ _ 0).1.2 ⟨by norm_num, by norm_num⟩, fun v h => ?_, fun v h => ?_, by norm_num [text]⟩
  · exact absurd ((C81_text _ _ _ 0).1.1 h).2 (by norm_num)
  · have := ((C81_text _ _ _ 0).1.1 h).1; omega

/-- C81: a result put together from its 64-bit words is the number, in both ways the wrapper does it -/
theorem C81_words {n v : Nat} (h : v < 2 ^ (64 * n)) :
    orWords (words n v) = v ∧ foldWords (words n v) = v := by
  rw [orWords_words, foldWords_words, Nat.mod_eq_of_lt h]
  exact ⟨rfl, rfl⟩

example : words 4 (2 ^ 200 + 7) = [7, 0, 0, 256] ∧ orWords [7, 0, 0, 256] = 2 ^ 200 + 7 ∧
    foldWords [7, 0, 0, 256] = 2 ^ 200 + 7 := by decide +kernel

/-- C81 for arguments that fit their type (full statement: every argument arrives unchanged or is refused;
refuted by `C81_negation`), and refusal of those that do not fit 64 bits -/
theorem C81_args_partial {v : Int} {w : Nat} (hw : w ≤ 64) :
    (-2 ^ 31 ≤ v → v < 2 ^ 31 → argI32 v = .ok v) ∧
    (0 ≤ v → v < 2 ^ w → argU w v = .ok v.toNat) ∧
    ((v < -2 ^ 63 ∨ 2 ^ 63 ≤ v) → argI32 v = .error .panic) ∧
    ((v < 0 ∨ 2 ^ 64 ≤ v) → argU w v = .error .panic) := by
  refine ⟨fun h1 h2 => ?_, fun h1 h2 => ?_, fun h => ?_, fun h => ?_⟩
  · unfold argI32 readI64
    rw [if_pos (by omega)]
    change (.ok (cutI32 v) : M Int) = _
    unfold cutI32
    rw [Int.emod_eq_of_lt (by omega) (by omega), add_sub_cancel_right]
  · have h3 : (2 : Int) ^ w ≤ 2 ^ 64 := pow_le_pow_right₀ (by norm_num) hw
    unfold argU readU64
    rw [if_pos ⟨h1, lt_of_lt_of_le h2 h3⟩]
    change (.ok (v.toNat % 2 ^ w) : M Nat) = _
    obtain ⟨m, rfl⟩ := Int.eq_ofNat_of_zero_le h1
    rw [Int.toNat_natCast, Nat.mod_eq_of_lt (by exact_mod_cast h2)]
  · unfold argI32 readI64
    rw [if_neg (by omega)]
    rfl
  · unfold argU readU64
    rw [if_neg (by omega)]
    rfl

example : argI32 (-221818) = .ok (-221818) ∧ argU 16 100 = .ok 100 := by decide +kernel

/-- C81, the cast to a number: exactly the integers of which a 64-bit float holds all bits (53 of them) are cast, and they
keep their value. -/
theorem C81_safe {v w : Int} : integerSafeCast v = .ok w ↔ v.natAbs < 2 ^ 53 ∧ w = v := by
  unfold integerSafeCast
  split
  · simp only [reduceCtorEq, false_iff]
    omega
  · simp only [Except.ok.injEq]
    omega

example : integerSafeCast (2 ^ 53 - 1) = .ok (2 ^ 53 - 1) ∧ integerSafeCast (2 ^ 53) = .error .panic := by
  decide +kernel

/-- C81 for scales below 256 (full statement: for all scales; refuted by `C81_negation`): `toLiquidity`,
`toSqrtPrice` … give `val / 10^scale`, rounded down to the places of the type, or refuse; whatever the result
is, it is held by the type. -/
theorem C81_decimal_partial {S : DecType} {val scale : Int} {r : Nat} (hs : scale < 256)
    (h : toDecimal S val scale = .ok r) :
    0 ≤ val ∧ 0 ≤ scale ∧ r < 2 ^ S.width ∧ RoundsDown S r ((val : ℚ) / 10 ^ scale.toNat) := by
  unfold toDecimal integerSafeCast readU64 at h
  simp only [bind_ok_iff] at h
  obtain ⟨sc, h1, v, h2, k, h3, h4⟩ := h
  split at h1
  · cases h1
  cases h1
  split at h2
  swap; · cases h2
  next c2 =>
  cases h2
  split at h3
  swap; · cases h3
  next c3 =>
  cases h3
  obtain ⟨m, rfl⟩ := Int.eq_ofNat_of_zero_le c2.1
  obtain ⟨k, rfl⟩ := Int.eq_ofNat_of_zero_le c3.1
  simp only [Int.toNat_natCast] at h4 ⊢
  rw [Nat.mod_eq_of_lt (by omega)] at h4
  obtain ⟨⟨_, h5, _⟩, h6⟩ := Decimal.fromScale_ok.1 h4
  exact ⟨by omega, by omega, h5, by rw [Int.cast_natCast]; exact h6⟩

/-- 15 with scale 1 is a square root of price of 1.5 -/
example : toDecimal sqrtPriceT 15 1 = .ok (15 * 10 ^ 23) ∧ toDecimal liquidityT 123456789 7 = .ok 1234567 := by
  decide +kernel

/-- C81 is false: `calculateSqrtPrice(2^32)` answers with the price of tick 0, though the tick is out of range
and the contract's function refuses every such tick; `toSqrtPrice(1, 256)` is 1, not 10^-256. -/
theorem C81_negation :
    Wasm.calculateSqrtPrice (2 ^ 32) = .ok (10 ^ 24) ∧ (∀ v, Verif.calculateSqrtPrice (2 ^ 32) ≠ .ok v) ∧
    toDecimal sqrtPriceT 1 256 = .ok (10 ^ 24) ∧
    ¬ RoundsDown sqrtPriceT (10 ^ 24) ((1 : ℚ) / 10 ^ 256) := by
  refine ⟨by decide +kernel, fun v h => ?_, by decide +kernel, ?_⟩
  · have : (Verif.calculateSqrtPrice (2 ^ 32)).toOption = none := by decide +kernel
    rw [h] at this
    cases this
  · intro h
    have := h.1
    unfold Decimal.value at this
    rw [show sqrtPriceT.scale = 24 from rfl] at this
    norm_num at this

end Verif
