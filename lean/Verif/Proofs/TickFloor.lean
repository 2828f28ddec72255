import Verif.Proofs.TickLookup

/-! # The lookup returns the floor tick -/

namespace Verif

theorem alignTick_eq {x s : Int} : alignTick x s = x / s * s := by
  have h := Int.emod_add_mul_ediv x s
  unfold alignTick
  split
  · rw [Int.tmod_eq_emod_of_nonneg (by omega), mul_comm (x / s)]; omega
  · rw [mul_comm (x / s)]
    have : x.emod s = x % s := rfl
    omega

theorem align_align {x s : Int} (h : 0 < s) : x / s * s / s * s = x / s * s := by
  rw [Int.mul_ediv_cancel _ h.ne']

theorem cand_max : tickCandidates MAX_SQRT_PRICE = (true, 221817, 221818) := by decide +kernel

/-- inside the price range the lookup always succeeds, with the floor tick rounded down to the
spacing -/
theorem getTick_floor {p s : Nat} {t : Int} (hf : FloorTick p t) (h1 : MIN_SQRT_PRICE ≤ p)
    (h2 : p ≤ MAX_SQRT_PRICE) (hs : 0 < s) :
    getTickAtSqrtPrice p s = .ok (t / s * s) := by
  have hs' : (0 : Int) < s := by exact_mod_cast hs
  have fin : ∀ x : Int, (if s > 1 then x / s * s / s * s else x / s * s) = x / s * s := by
    intro x
    split
    · rw [align_align hs']
    · rfl
  unfold getTickAtSqrtPrice
  rw [failIf_neg (by omega), ok_bind]
  rcases Nat.lt_or_ge p (10 ^ 24) with hp | hp
  · obtain ⟨a, e, a1, a2, a3⟩ := cand_neg hf hp h1
    simp only [e, alignTick_eq (s := (s : Int))]
    have ht : t = -(a : Int) ∨ t = -(a : Int) - 1 := by omega
    by_cases heq : (-(a : Int) - 1) / s * s = -(a : Int) / s * s
    · rw [if_pos heq]
      rcases ht with rfl | rfl
      · rfl
      · rw [heq]; rfl
    · rw [if_neg heq, if_neg (by simp),
        calculateSqrtPrice_eq (by simp only [MIN_TICK]; omega) (by simp only [MAX_TICK]; omega)]
      simp only [ok_bind, pure_bind]
      by_cases hq : priceOf (-(a : Int)) ≤ p
      · have := hf.le_of (by simp only [MIN_TICK]; omega) (by simp only [MAX_TICK]; omega) hq
        have e3 : t = -(a : Int) := by omega
        rw [if_pos hq, e3]
        exact congrArg Except.ok (fin _)
      · have := hf.lt_of (by simp only [MIN_TICK]; omega) (by simp only [MAX_TICK]; omega)
          (Nat.lt_of_not_le hq)
        have e3 : t = -(a : Int) - 1 := by omega
        rw [if_neg hq, e3]
        exact congrArg Except.ok (fin _)
  · obtain ⟨a, e, a1, a2⟩ := cand_pos hf hp h2
    have ha : (a : Int) + 1 ≤ MAX_TICK := by
      by_contra hc
      have := hf.le
      have e3 : t = MAX_TICK := by omega
      have hl := hf.low
      rw [e3, priceOf_max] at hl
      have e4 : p = MAX_SQRT_PRICE := by omega
      rw [e4, cand_max] at e
      simp only [Prod.mk.injEq] at e
      simp only [MAX_TICK] at hc
      omega
    simp only [e, alignTick_eq (s := (s : Int))]
    have ht : t = (a : Int) ∨ t = (a : Int) + 1 := by omega
    by_cases heq : ((a : Int) + 1) / s * s = (a : Int) / s * s
    · rw [if_pos heq]
      rcases ht with rfl | rfl
      · rfl
      · rw [heq]; rfl
    · rw [if_neg heq, if_pos trivial, calculateSqrtPrice_eq (by simp only [MIN_TICK]; omega) ha]
      simp only [ok_bind, pure_bind]
      by_cases hq : p ≥ priceOf ((a : Int) + 1)
      · have := hf.le_of (by simp only [MIN_TICK]; omega) ha hq
        have e3 : t = (a : Int) + 1 := by omega
        rw [if_pos hq, e3]
        exact congrArg Except.ok (fin _)
      · have := hf.lt_of (by simp only [MIN_TICK]; omega) ha (Nat.lt_of_not_le hq)
        have e3 : t = (a : Int) := by omega
        rw [if_neg hq, e3]
        exact congrArg Except.ok (fin _)

theorem floorTick_priceOf {t : Int} (h1 : MIN_TICK ≤ t) (h2 : t ≤ MAX_TICK) :
    FloorTick (priceOf t) t :=
  ⟨h1, h2, le_rfl, fun h => priceOf_lt h1 (by omega) (by omega)⟩

theorem getTick_of_tick {t : Int} {s : Nat} (h1 : MIN_TICK ≤ t) (h2 : t ≤ MAX_TICK) (hs : 0 < s)
    (hd : (s : Int) ∣ t) : getTickAtSqrtPrice (priceOf t) s = .ok t := by
  rw [getTick_floor (floorTick_priceOf h1 h2) (priceOf_ge_min h1 h2) (priceOf_le_max h1 h2) hs,
    Int.ediv_mul_cancel hd]

/-- what a successful lookup says -/
structure LookupOk (p s : Nat) (t : Int) : Prop where
  dvd : (s : Int) ∣ t
  above : MIN_TICK - s < t
  le : t ≤ MAX_TICK
  low : MIN_TICK ≤ t → priceOf t ≤ p
  high : t + s ≤ MAX_TICK → p < priceOf (t + s)

theorem lookupOk_floor {p s : Nat} {t : Int} (hf : FloorTick p t) (hs : 0 < s) :
    LookupOk p s (t / s * s) := by
  have hs' : (0 : Int) < s := by exact_mod_cast hs
  have e := Int.emod_add_mul_ediv t s
  have e2 := Int.emod_nonneg t hs'.ne'
  have e3 := Int.emod_lt_of_pos t hs'
  have hge := hf.ge
  have hle := hf.le
  rw [mul_comm (t / s)]
  refine ⟨Dvd.intro _ rfl, by omega, by omega, fun h => ?_, fun h => ?_⟩
  · exact le_trans (priceOf_le h hf.le (by omega)) hf.low
  · by_contra hc
    have := hf.le_of (by omega) h (by omega)
    omega

theorem getTick_ok {p s : Nat} {t : Int} (hs : 0 < s) (h : getTickAtSqrtPrice p s = .ok t) :
    MIN_SQRT_PRICE ≤ p ∧ p ≤ MAX_SQRT_PRICE ∧ LookupOk p s t := by
  have hr : ¬ (p > MAX_SQRT_PRICE ∨ p < MIN_SQRT_PRICE) := by
    intro hc
    unfold getTickAtSqrtPrice at h
    rw [failIf_pos hc] at h
    cases h
  obtain ⟨u, hu⟩ := floorTick_exists (p := p) (by omega)
  rw [getTick_floor hu (by omega) (by omega) hs] at h
  cases h
  exact ⟨by omega, by omega, lookupOk_floor hu hs⟩

theorem getTick_total {p s : Nat} (hs : 0 < s) (h1 : MIN_SQRT_PRICE ≤ p) (h2 : p ≤ MAX_SQRT_PRICE) :
    ∃ t, getTickAtSqrtPrice p s = .ok t := by
  obtain ⟨u, hu⟩ := floorTick_exists h1
  exact ⟨_, getTick_floor hu h1 h2 hs⟩

end Verif
