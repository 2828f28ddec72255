import Verif.Model.SecondsPerLiquidity
import Verif.Proofs.Arith
import Verif.Spec.Decimal
import Mathlib.Tactic.Ring
import Mathlib.Tactic.NormNum
import Mathlib.Tactic.FieldSimp
import Mathlib.Tactic.Positivity

/-!
# Property C74: seconds per liquidity

The functions are exact modulo 2^128, but a gap of more than 340282366 time units makes them fail. With
timestamps in milliseconds that is less than four days.
-/

namespace Verif

/-- C74, the two operations: sum and difference modulo 2^128. -/
theorem C74_mod {a b : Nat} (ha : a < 2 ^ 128) (hb : b < 2 ^ 128) :
    splAdd a b = (a + b) % 2 ^ 128 ∧ ((splSub a b : Nat) : Int) = ((a : Int) - b) % 2 ^ 128 := by
  unfold splAdd splSub
  constructor
  · split <;> omega
  · split <;> omega

/-- C74, the value: the quotient rounded down, for gaps of up to 340282366 (full statement: whenever the quotient
fits; see `C74_negation`). -/
theorem C74_value_partial {L now last : Nat} : (∃ v, splGlobal L now last = .ok v) ↔
    last < now ∧ now - last ≤ 340282366 ∧ L ≠ 0 := by
  unfold splGlobal
  simp only [bind_ok_iff, failIf_ok_iff, mulC_ok_iff, divC_ok_iff, fit_ok_iff]
  constructor
  · rintro ⟨v, _, h1, _, ⟨h2, rfl⟩, _, ⟨h3, rfl⟩, _, ⟨h4, rfl⟩, h5, rfl⟩
    refine ⟨by omega, ?_, h4⟩
    unfold splOne liqOne at h3
    omega
  · rintro ⟨h1, h2, h3⟩
    have k : (now - last) * splOne * liqOne < 2 ^ 128 := by unfold splOne liqOne; omega
    refine ⟨_, (), by omega, _, ⟨?_, rfl⟩, _, ⟨k, rfl⟩, _, ⟨h3, rfl⟩, ?_, rfl⟩
    · unfold splOne; omega
    · exact Nat.lt_of_le_of_lt (Nat.div_le_self _ _) k

/-- C74, the value when there is one -/
theorem C74_exact {L now last v : Nat} (h : splGlobal L now last = .ok v) :
    v * L ≤ (now - last) * 10 ^ 30 ∧ (now - last) * 10 ^ 30 < (v + 1) * L := by
  unfold splGlobal at h
  simp only [bind_ok_iff, failIf_ok_iff, mulC_ok_iff, divC_ok_iff, fit_ok_iff] at h
  obtain ⟨_, h1, _, ⟨h2, rfl⟩, _, ⟨h3, rfl⟩, _, ⟨h4, rfl⟩, h5, rfl⟩ := h
  have e : (now - last) * splOne * liqOne = (now - last) * 10 ^ 30 := by
    unfold splOne liqOne; rw [Nat.mul_assoc]; rfl
  rw [e]
  refine ⟨Nat.div_mul_le_self _ _, ?_⟩
  rw [Nat.mul_comm (_ + 1)]
  exact Nat.lt_mul_div_succ _ (Nat.pos_of_ne_zero h4)

/-- C74, the value as decimals of the declared types: the seconds divided by the liquidity, rounded down. -/
theorem C74_decimal {L now last v : Nat} (h : splGlobal L now last = .ok v) :
    Decimal.RoundsDown secondsPerLiquidityT v (((now - last : Nat) : ℚ) / Decimal.value liquidityT L) := by
  have hL : L ≠ 0 := (C74_value_partial.1 ⟨v, h⟩).2.2
  obtain ⟨h1, h2⟩ := C74_exact h
  have hL' : (0 : ℚ) < L := by exact_mod_cast Nat.pos_of_ne_zero hL
  have e : ((now - last : Nat) : ℚ) / Decimal.value liquidityT L = (((now - last) * 10 ^ 30 : Nat) : ℚ) / L / 10 ^ 25 := by
    unfold Decimal.value liquidityT
    push_cast
    field_simp
    norm_num
  rw [e]
  unfold Decimal.RoundsDown Decimal.value secondsPerLiquidityT
  constructor
  · refine div_le_div_of_nonneg_right ?_ (by positivity)
    rw [le_div_iff₀ hL']
    exact_mod_cast h1
  · refine div_lt_div_of_pos_right ?_ (by positivity)
    rw [div_lt_iff₀ hL']
    exact_mod_cast h2

/-- three seconds over a liquidity of seven -/
example : splGlobal 700000 1003 1000 = .ok 4285714285714285714285714 := by decide +kernel

/-- C74 as stated is false: with a liquidity of 10^25 units and a gap of 340282367 the value would be below 4·10^13,
but there is none. -/
theorem C74_negation : ¬ ∀ L now last : Nat, L ≠ 0 → last < now → (now - last) * 10 ^ 30 / L < 2 ^ 128 →
    splGlobal L now last = .ok ((now - last) * 10 ^ 30 / L) := by
  intro h
  have h1 := h (10 ^ 25) 340282367 0 (by decide) (by decide) (by decide)
  have h2 : (splGlobal (10 ^ 25) 340282367 0).toOption = none := by decide +kernel
  rw [h1] at h2
  cases h2

/-- C74, within a range: if the total is what was counted below, within and above the range, and each tick carries what
was counted on the side where the current tick is not, the function returns what was counted within, modulo 2^128. -/
theorem C74_inside {lower upper cur : Int} (hlt : lower < upper) {lo uo g : Nat} {below inside above : Nat}
    (hg : g = (below + inside + above) % 2 ^ 128)
    (hl : lo = (if lower ≤ cur then below else inside + above) % 2 ^ 128)
    (hu : uo = (if cur < upper then above else below + inside) % 2 ^ 128) :
    splInside lower upper cur lo uo g = inside % 2 ^ 128 := by
  have gl : g < 2 ^ 128 := by rw [hg]; exact Nat.mod_lt _ (by decide)
  have ll : lo < 2 ^ 128 := by rw [hl]; exact Nat.mod_lt _ (by decide)
  have ul : uo < 2 ^ 128 := by rw [hu]; exact Nat.mod_lt _ (by decide)
  have sub : ∀ {a b : Nat}, a < 2 ^ 128 → b < 2 ^ 128 → splSub a b < 2 ^ 128 ∧
      ((splSub a b : Nat) : Int) = ((a : Int) - b) % 2 ^ 128 := by
    intro a b ha hb
    have := (C74_mod ha hb).2
    exact ⟨by omega, this⟩
  obtain ⟨a1, a2⟩ := sub gl ll
  obtain ⟨b1, b2⟩ := sub gl ul
  unfold splInside
  dsimp only
  by_cases h1 : lower ≤ cur
  · by_cases h2 : cur < upper
    · rw [if_pos h1] at hl ⊢
      rw [if_pos h2] at hu ⊢
      have := (sub a1 ul).2
      omega
    · rw [if_pos h1] at hl ⊢
      rw [if_neg h2] at hu ⊢
      have := (sub a1 b1).2
      omega
  · have h2 : cur < upper := by omega
    rw [if_neg h1] at hl ⊢
    rw [if_pos h2] at hu ⊢
    obtain ⟨c1, c2⟩ := sub gl a1
    have := (sub c1 ul).2
    omega

/-- an hour at a liquidity of 12.5 units, and a range that was left upwards -/
example : splGlobal 1250000 7200000 3600000 = .ok 2880000000000000000000000000000 ∧
    splInside (-10) 10 15 (2 ^ 128 - 5) 2 40 = 7 := by decide +kernel

end Verif
