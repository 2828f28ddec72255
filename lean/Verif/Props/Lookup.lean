import Verif.Proofs.TickFloor

/-!
# C02: price to tick lookup

`getTickAtSqrtPrice` is the model of `get_tick_at_sqrt_price`; prices of ticks are those of
`calculateSqrtPrice` (see C01).
-/

namespace Verif

/-- C02: the tick returned is a multiple of the spacing, at most one spacing below the lowest tick,
its price is at or below the price looked up, and the price of the next tick of the grid is above it -/
theorem C02_floor (p s : Nat) (t : Int) (hs : 1 ≤ s) (h : getTickAtSqrtPrice p s = .ok t) :
    (s : Int) ∣ t ∧ -221818 - (s : Int) < t ∧ t ≤ 221818 ∧
    (∀ q, -221818 ≤ t → calculateSqrtPrice t = .ok q → q ≤ p) ∧
    (∀ q, t + s ≤ 221818 → calculateSqrtPrice (t + s) = .ok q → p < q) := by
  obtain ⟨-, -, hl⟩ := getTick_ok hs h
  refine ⟨hl.dvd, hl.above, hl.le, ?_, ?_⟩
  · intro q ht hq
    rw [calculateSqrtPrice_eq ht hl.le] at hq
    cases hq
    exact hl.low ht
  · intro q ht hq
    have := hl.above
    rw [calculateSqrtPrice_eq (by omega) ht] at hq
    cases hq
    exact hl.high ht

/-- C02: the lookup succeeds exactly on the prices of the range -/
theorem C02_total (p s : Nat) (hs : 1 ≤ s) :
    (∃ t, getTickAtSqrtPrice p s = .ok t) ↔
      15258932000000000000 ≤ p ∧ p ≤ 65535383934512647000000000000 := by
  constructor
  · rintro ⟨t, h⟩
    have := getTick_ok hs h
    exact ⟨this.1, this.2.1⟩
  · rintro ⟨h1, h2⟩
    exact getTick_total hs h1 h2

/-- C02: the price of a tick of the grid is looked up as that tick -/
theorem C02_inverse (t : Int) (s p : Nat) (hs : 1 ≤ s) (h1 : -221818 ≤ t) (h2 : t ≤ 221818)
    (hd : (s : Int) ∣ t) (hp : calculateSqrtPrice t = .ok p) : getTickAtSqrtPrice p s = .ok t := by
  rw [calculateSqrtPrice_eq h1 h2] at hp
  cases hp
  exact getTick_of_tick h1 h2 hs hd

/-- one unit below the price of tick 2 is tick 1; on a grid of 10 below zero the floor is -10, and the
lowest price is rounded below the tick range; the top price is found although its tick has no
successor -/
example : getTickAtSqrtPrice 1000100000000000000000000 1 = .ok 2 ∧
    getTickAtSqrtPrice 1000099999999999999999999 1 = .ok 1 ∧
    getTickAtSqrtPrice 999999999999999999999999 10 = .ok (-10) ∧
    getTickAtSqrtPrice 15258932000000000000 100 = .ok (-221900) ∧
    getTickAtSqrtPrice 65535383934512647000000000000 1 = .ok 221818 ∧
    getTickAtSqrtPrice 65535383934512647000000000001 1 = .error .track := by decide +kernel

end Verif
